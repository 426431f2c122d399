import Verif.Spec.Readpass
/-
What is said on stderr while a passphrase is obtained.
-/
namespace Scrypt.Spec

/-- The part of a trace that the user sees or answers: prompts, lines read, notices and complaints. -/
def talkOf (tr : List RpEv) : List RpEv :=
  tr.filter fun e => match e with | .prompt | .confirmPrompt | .read | .mismatch | .say _ => true | _ => false

/-- A line is asked for: with a prompt if it is read from a terminal. -/
def ask (terminal : Bool) (prompt : RpEv) : List RpEv := (if terminal then [prompt] else []) ++ [.read]

/-- Questions and answers: one line; or pairs of lines, a notice after each pair that differs, up to an equal pair or the end of the input. -/
inductive Dialogue (terminal : Bool) : Bool → Strm → List RpEv → Prop
  | once {f} : Dialogue terminal false f (ask terminal .prompt)
  | first {f} : Ends f ∨ Waits f → Dialogue terminal true f (ask terminal .prompt)
  | second {f c f1} : Reads f c f1 → Ends f1 ∨ Waits f1 → Dialogue terminal true f (ask terminal .prompt ++ ask terminal .confirmPrompt)
  | same {f c f1 c' f2} : Reads f c f1 → Reads f1 c' f2 → SameLine c c' → Dialogue terminal true f (ask terminal .prompt ++ ask terminal .confirmPrompt)
  | again {f c f1 c' f2 d} : Reads f c f1 → Reads f1 c' f2 → ¬ SameLine c c' → Dialogue terminal true f2 d →
      Dialogue terminal true f (ask terminal .prompt ++ ask terminal .confirmPrompt ++ [.mismatch] ++ d)

/-- Is the stream read from a terminal? -/
def isTerminal (env : RpEnv) (opened : Bool) : Bool := if opened then env.isattyTty else env.isattyStdin

/-- Why reading stopped. -/
def endMsg (f : Strm) : RpMsg := if f.tail = .eof then .warn0 "EOF reading password".toList else .warnp "Cannot read password".toList

/-- The complaint if the terminal device cannot be closed. -/
def closing (env : RpEnv) (opened : Bool) : List RpEv := if opened = true ∧ env.fcloseOk = false then [.say (.warnp "fclose".toList)] else []

/-- The passphrase (or none) that comes of asking the terminal or standard input, and all that is said about it. -/
inductive Talk (env : RpEnv) (confirm : Bool) (devtty : Nat) : Option Bytes → List RpEv → Prop
  | unsupported : 2 < devtty → Talk env confirm devtty none [.say (.warn0 ("readpass does not support devtty=".toList ++ (toString devtty).toList))]
  | noTty : devtty = 2 → env.tty = none → Talk env confirm devtty none [.say (.warnp "fopen(/dev/tty)".toList)]
  | settings {f op} : Source env devtty f op → isTerminal env op = true → env.tcgetOk = false →
      Talk env confirm devtty none ([.say (.warnp "Cannot read terminal settings".toList)] ++ closing env op)
  | setting {f op} : Source env devtty f op → isTerminal env op = true → env.tcgetOk = true → env.tcsetOk = false →
      Talk env confirm devtty none ([.say (.warnp "Cannot set terminal settings".toList)] ++ closing env op)
  | ended {f op d} : Source env devtty f op → EchoOk env op → NotEntered confirm f → Dialogue (isTerminal env op) confirm f d →
      Talk env confirm devtty none (d ++ [.say (endMsg f)] ++ closing env op)
  | ok {f op p rest d} : Source env devtty f op → EchoOk env op → Entered confirm f p rest → env.strdupOk = true →
      Dialogue (isTerminal env op) confirm f d → Talk env confirm devtty (some p) (d ++ closing env op)
  | memory {f op p rest d} : Source env devtty f op → EchoOk env op → Entered confirm f p rest → env.strdupOk = false →
      Dialogue (isTerminal env op) confirm f d →
      Talk env confirm devtty none (d ++ closing env op ++ [.say (.warnp "Cannot allocate memory".toList)])

/-- The passphrase (or none) that comes of a file, and the complaints. -/
inductive FileTalk (env : RfEnv) (name : CStr) : Option Bytes → List RpMsg → Prop
  | noFile : env.file = none → FileTalk env name none [.warnp ("fopen(".toList ++ name ++ ")".toList)]
  | unreadable {f} : env.file = some f → f.tail = .err → LF ∉ f.data → f.data.length < 2047 →
      FileTalk env name none (.warnp ("fread(".toList ++ name ++ ")".toList) :: if env.fcloseOk then [] else [.warnp "fclose".toList])
  | tooLong {f c rest} : env.file = some f → Reads f c rest → rest.data ≠ [] →
      FileTalk env name none (.warn0 ("line too long, or more than 1 line in ".toList ++ name) :: if env.fcloseOk then [] else [.warnp "fclose".toList])
  | close {f c} : env.file = some f → FileText f c → env.fcloseOk = false → FileTalk env name none [.warnp ("fclose(".toList ++ name ++ ")".toList)]
  | memory {f c} : env.file = some f → FileText f c → env.fcloseOk = true → env.strdupOk = false →
      FileTalk env name none [.warnp "Cannot allocate memory".toList]
  | ok {f c} : env.file = some f → FileText f c → env.fcloseOk = true → env.strdupOk = true → FileTalk env name (some (passText c)) []

/-- The passphrase (or none) that comes of a method, and the complaints (prompts and notices left out). -/
inductive MethodTalk (env : PeEnv) : PassEntry → CStr → Bool → Option Bytes → List RpMsg → Prop
  | ttyStdin {arg once pw t} : Talk env.rp (!once) 1 pw t → MethodTalk env .ttyStdin arg once pw (saysOf t)
  | stdinOnce {arg once pw t} : Talk env.rp false 0 pw t → MethodTalk env .stdinOnce arg once pw (saysOf t)
  | ttyOnce {arg once pw t} : Talk env.rp false 2 pw t → MethodTalk env .ttyOnce arg once pw (saysOf t)
  | noVariable {name once} : env.getenv name = none → MethodTalk env .env name once none [.warn0 ("Failed to read from ${".toList ++ name ++ "}".toList)]
  | noMemory {name once v} : env.getenv name = some v → env.strdupOk = false → MethodTalk env .env name once none [.warnp "Out of memory".toList]
  | fromVariable {name once v} : env.getenv name = some v → env.strdupOk = true → MethodTalk env .env name once (some v) []
  | file {path once pw t} : FileTalk (env.rf path) path pw t → MethodTalk env .file path once pw t
  | unset {arg once} : MethodTalk env .unset arg once none [.warn0 "Programming error: passphrase_entry is not set".toList]

end Scrypt.Spec
