import Verif.Model.WarnState
/-
What a history of calls of the diagnostics module (warnp.h) determines: the latest program name, destination, priority and errno.
-/
namespace Scrypt.Spec

/-- The settings of the program name in a history. -/
def names (ops : List WarnOp) : List (Bool × CStr) := ops.filterMap fun o => match o with | .setprogname ok p => some (ok, p) | _ => none

/-- The destination: syslog if that was asked for last. -/
def toSyslog (ops : List WarnOp) : Bool := (ops.filterMap fun o => match o with | .syslog e => some e | _ => none).getLast?.getD false

/-- The priority set last, LOG_WARNING (4) if none was. -/
def prioritySet (ops : List WarnOp) : Int := (ops.filterMap fun o => match o with | .priority p => some p | _ => none).getLast?.getD 4

/-- errno as the program left it, except that `warnp` and `warn0` clear it. -/
def errnoNow (ops : List WarnOp) : Int :=
  (ops.filterMap fun o => match o with | .setErrno e => some e | .warnp _ _ => some 0 | .warn0 _ _ => some 0 | _ => none).getLast?.getD 0

/-- The message of a call, and whether the text of errno belongs to it. -/
def messageOf (errno : Int) : WarnOp → Option (Option CStr × Bool)
  | .warn m _ => some (m, true)
  | .warnx m _ => some (m, false)
  | .warnp m _ => some (m, decide (errno ≠ 0))
  | .warn0 m _ => some (m, false)
  | _ => none

/-- The line on stderr: `name: message: error text`, with the parts that there are. -/
def line (name : CStr) (msg err : Option CStr) : CStr :=
  name ++ (match msg with | some m => ": ".toList ++ m | none => []) ++ (match err with | some e => ": ".toList ++ e | none => []) ++ ['\n']

/-- The text for syslog: the message, cut off after 4095 characters, and the error text. -/
def entry (msg err : Option CStr) : CStr :=
  (match msg, err with
    | some m, some e => m.take 4095 ++ ": ".toList ++ e
    | some m, none => m.take 4095
    | none, some e => e
    | none, none => []) ++ ['\n']

end Scrypt.Spec
