import Verif.Model.Readpass
/-
What a user types, and what the passphrase is.
-/
namespace Scrypt.Spec

/-- `Reads f c f'`: the next line of the stream `f` is `c` (with its newline, but cut after 2047 bytes), leaving `f'`.
The last line of a file may lack the newline. -/
def Reads (f : Strm) (c : Bytes) (f' : Strm) : Prop :=
  f.data = c ++ f'.data ∧ f'.tail = f.tail ∧ 1 ≤ c.length ∧ c.length ≤ 2047 ∧ LF ∉ c.dropLast ∧
    (c.length = 2047 ∨ c.getLast? = some LF ∨ (f'.data = [] ∧ f.tail = .eof))

/-- The stream ends (end of file, or a read error) where a line is wanted. -/
def Ends (f : Strm) : Prop :=
  (f.data = [] ∧ f.tail = .eof) ∨ (LF ∉ f.data ∧ f.data.length < 2047 ∧ f.tail = .err)

/-- More input is needed to complete a line. -/
def Waits (f : Strm) : Prop := LF ∉ f.data ∧ f.data.length < 2047 ∧ f.tail = .wait

/-- The passphrase on a line: everything before the first CR, LF or NUL. -/
def passText (c : Bytes) : Bytes := c.takeWhile fun b => b ≠ 0 ∧ b ≠ CR ∧ b ≠ LF

/-- Two lines are the same C string (equal up to the first NUL, including the line terminator). -/
def SameLine (c c' : Bytes) : Prop := c.takeWhile (· ≠ 0) = c'.takeWhile (· ≠ 0)

/-- Passphrase and confirmation: pairs of lines are read until both lines of a pair are the same. -/
inductive Confirmed : Strm → Bytes → Strm → Prop
  | same {f c f1 c' f2} : Reads f c f1 → Reads f1 c' f2 → SameLine c c' → Confirmed f (passText c) f2
  | again {f c f1 c' f2 p f3} : Reads f c f1 → Reads f1 c' f2 → ¬ SameLine c c' → Confirmed f2 p f3 → Confirmed f p f3

/-- The input ends before a pair of equal lines. -/
inductive Unconfirmed : Strm → Prop
  | first {f} : Ends f → Unconfirmed f
  | second {f c f1} : Reads f c f1 → Ends f1 → Unconfirmed f
  | again {f c f1 c' f2} : Reads f c f1 → Reads f1 c' f2 → ¬ SameLine c c' → Unconfirmed f2 → Unconfirmed f

/-- The input has delivered only pairs of different lines so far and does not end. -/
inductive Awaiting : Strm → Prop
  | first {f} : Waits f → Awaiting f
  | second {f c f1} : Reads f c f1 → Waits f1 → Awaiting f
  | again {f c f1 c' f2} : Reads f c f1 → Reads f1 c' f2 → ¬ SameLine c c' → Awaiting f2 → Awaiting f

/-- Which stream `readpass` reads, by its `devtty` argument: 0 standard input; 1 the terminal if it can be opened, else standard
input; 2 the terminal only.  The Boolean: it is the terminal device (opened by us). -/
inductive Source (env : RpEnv) : Nat → Strm → Bool → Prop
  | stdin : Source env 0 env.stdin false
  | tty {f} : env.tty = some f → Source env 1 f true
  | noTty : env.tty = none → Source env 1 env.stdin false
  | ttyOnly {f} : env.tty = some f → Source env 2 f true

/-- If the stream is a terminal, its echo could be turned off. -/
def EchoOk (env : RpEnv) (opened : Bool) : Prop :=
  (if opened then env.isattyTty else env.isattyStdin) = true → env.tcgetOk = true ∧ env.tcsetOk = true

/-- The passphrase `p` is entered on the stream `f`, leaving `rest`. -/
def Entered (confirm : Bool) (f : Strm) (p : Bytes) (rest : Strm) : Prop :=
  if confirm then Confirmed f p rest else ∃ c, Reads f c rest ∧ p = passText c

/-- The stream ends before a passphrase is entered. -/
def NotEntered (confirm : Bool) (f : Strm) : Prop := if confirm then Unconfirmed f else Ends f

/-- The stream has not ended and no passphrase was entered yet. -/
def NotYet (confirm : Bool) (f : Strm) : Prop := if confirm then Awaiting f else Waits f

/-- The accepted forms of `--passphrase METHOD:ARG`. -/
inductive Method : CStr → PassEntry → CStr → Prop
  | ttyStdin : Method "dev:tty-stdin".toList .ttyStdin "tty-stdin".toList
  | stdinOnce : Method "dev:stdin-once".toList .stdinOnce "stdin-once".toList
  | ttyOnce : Method "dev:tty-once".toList .ttyOnce "tty-once".toList
  | env (name : CStr) : Method ("env:".toList ++ name) .env name
  | file (path : CStr) : Method ("file:".toList ++ path) .file path

/-- What a passphrase file may contain: the text `c`, no newline except possibly one at the end, at most 2047 bytes.  The stream
must then end; a read error instead of the end of file is noticed only if the line is incomplete. -/
def FileText (f : Strm) (c : Bytes) : Prop :=
  f.data = c ∧ LF ∉ c.dropLast ∧ c.length ≤ 2047 ∧
    (f.tail = .eof ∨ (f.tail = .err ∧ (c.length = 2047 ∨ c.getLast? = some LF)))

/-- The passphrase a method yields. -/
inductive Obtains (env : PeEnv) : PassEntry → CStr → Bool → Bytes → Prop
  | ttyStdin {arg once f op p rest} : Source env.rp 1 f op → EchoOk env.rp op → Entered (!once) f p rest → env.rp.strdupOk = true →
      Obtains env .ttyStdin arg once p
  | stdinOnce {arg once f op p rest} : Source env.rp 0 f op → EchoOk env.rp op → Entered false f p rest → env.rp.strdupOk = true →
      Obtains env .stdinOnce arg once p
  | ttyOnce {arg once f op p rest} : Source env.rp 2 f op → EchoOk env.rp op → Entered false f p rest → env.rp.strdupOk = true →
      Obtains env .ttyOnce arg once p
  | env {name once v} : env.getenv name = some v → env.strdupOk = true → Obtains env .env name once v
  | file {path once f c} : (env.rf path).file = some f → FileText f c → (env.rf path).fcloseOk = true → (env.rf path).strdupOk = true →
      Obtains env .file path once (passText c)

/-! ### The terminal and the signals, as recorded in a trace -/

/-- Is echo off after these events? -/
def echoIsOff (tr : List RpEv) : Bool :=
  tr.foldl (fun b e => match e with | .echoOff true => true | .echoOn _ => false | _ => b) false

/-- Is our handler for signal `g` in place after these events? -/
def handled (g : Sig) (tr : List RpEv) : Bool :=
  tr.foldl (fun b e => match e with
    | .install h => if h = g then true else b
    | .restore h => if h = g then false else b
    | _ => b) false

/-- At no moment can a signal strike with echo off: whenever echo is off, every one of the signals is caught. -/
def EchoGuarded (tr : List RpEv) : Prop := ∀ X, X <+: tr → echoIsOff X = true → ∀ g, handled g X = true

/-- A re-sent signal: it had arrived, was not re-sent before, and at that moment echo is on again and the original handlers are back. -/
def RaisesGood (tr : List RpEv) : Prop :=
  ∀ X g Y, tr = X ++ RpEv.raise g :: Y →
    RpEv.caught g ∈ X ∧ RpEv.raise g ∉ X ∧ echoIsOff X = false ∧ ∀ h, handled h X = false

end Scrypt.Spec
