import Verif.Model.Main
import Verif.Model.Process
/-
The utility as a process: main.c with the library's components answered by the machine (Model/Process.lean) instead of given (`MainEnv.sys`).
-/
namespace Scrypt

/-- Is `t` the text of one of the messages?. [Device of the model: reads main.c:187-192 back] -/
def saysText (t : CStr) (msgs : List MMsg) : Bool :=
  msgs.any fun m =>
    match m with
    | .diag (.warnp s) => s = t
    | .diag (.warn0 s) => s = t
    | _ => false

/-- main.c:187-192 `scryptenc_print_error(rc, ...)`: the code the library operation returned, read off the message, as far as it tells which component
failed.  No other message of the utility has one of these texts (those with file names or arguments in them begin with other words). -/
def codeOf : Option MainOut → Code
  | none => .OK
  | some o =>
    if saysText "OpenSSL error".toList o.msgs then .EOPENSSL
    else if saysText "Error reading salt".toList o.msgs then .ESALT
    else if saysText "Error reading clocks".toList o.msgs then .ECLOCK
    else .OK

/-- main.c:220-400 `main`, in a process of its own: nothing selected, the generator not seeded.  `env.sys` is not looked at.
`none`: still running (waiting for input, for the clock to tick or for entropy). -/
def utility (m : Machine) (e : CallEnv) (seeds : List SeedEnv) (env : MainEnv) (argv : List CStr) : Res (Option MainOut) :=
  withAnswers m e (Statics.initial seeds) (fun sys => scryptMain { env with sys := sys } argv) codeOf (fun _ => none) >>= fun r => .ok (r.bind (·.1))

end Scrypt
