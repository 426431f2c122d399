import Verif.Model.Warnp
import Verif.Model.Threads
/-
libcperciva/util/warnp.c as a module with state: the program name, the destination of the messages, the exit handler, errno; and messages printed by several
threads at once.
-/
namespace Scrypt

/-- The static variables of warnp.c:10-13, and errno. -/
structure WarnSt where
  initialized : Bool
  name : Option CStr
  use_syslog : Bool
  syslog_priority : Int
  errno : Int

/-- LOG_WARNING of <syslog.h>. [warnp.c:13] -/
def LOG_WARNING : Int := 4

/-- WARNP_SYSLOG_MAX_LINE. [warnp.h:15] -/
def WARNP_SYSLOG_MAX_LINE : Nat := 4095

/-- The program's start. [warnp.c:10-13] -/
def WarnSt.initial : WarnSt := ⟨false, none, false, LOG_WARNING, 0⟩

/-- What the module does to the rest of the world. [The calls of fprintf, syslog, strdup, free, atexit in warnp.c:15-164] -/
inductive WarnEv
  | flockfile | funlockfile
  /-- these characters are written to stderr -/
  | stderr (s : CStr)
  /-- syslog is called with this priority and this text -/
  | syslog (prio : Int) (s : CStr)
  | closelog
  /-- strdup has allocated a name -/
  | strdup
  /-- free of an allocated name (free(NULL) does nothing and is not recorded) -/
  | free
  /-- the exit handler is registered -/
  | atexit
  deriving DecidableEq, Repr

/-- The interface, with what the system does during the call: whether strdup succeeds, what stdio leaves in errno (`clob`).  A message is the text that the
format and its arguments give (`none`: a null format). `setErrno` is some other function of the program failing. [warnp.h:18-80] -/
inductive WarnOp
  | setprogname (strdupOk : Bool) (progname : CStr)
  | warn (msg : Option CStr) (clob : Int)
  | warnx (msg : Option CStr) (clob : Int)
  | warnp (msg : Option CStr) (clob : Int)
  | warn0 (msg : Option CStr) (clob : Int)
  | syslog (enable : Bool)
  | priority (prio : Int)
  | setErrno (e : Int)

/-- free(name), warnp.c:24, 38. -/
def freeName (s : WarnSt) : List WarnEv := if s.name.isSome then [.free] else []

/-- warnp.c:32-53 `warnp_setprogname` -/
def warnSetprogname (s : WarnSt) (strdupOk : Bool) (progname : CStr) : WarnSt × List WarnEv :=
  let ev := freeName s
  let s := { s with name := warnp_setprogname strdupOk progname }
  let ev := ev ++ if s.name.isSome then [.strdup] else []
  if s.initialized then (s, ev) else ({ s with initialized := true }, ev ++ [.atexit])

/-- warnp.c:74-77, 115-118: the message between the name and the end of the line. -/
def msgEv (msg : Option CStr) : List WarnEv :=
  match msg with
  | some m => [.stderr ": ".toList, .stderr m]
  | none => []

/-- warnp.c:56-95 `warn` -/
def warnWarn (strerror : Int → CStr) (s : WarnSt) (msg : Option CStr) (clob : Int) : WarnSt × List WarnEv :=
  let saved_errno := s.errno
  let ev := if !s.use_syslog then
      [.flockfile, .stderr (s.name.getD "(unknown)".toList)] ++ msgEv msg ++ [.stderr (": ".toList ++ strerror saved_errno ++ ['\n']), .funlockfile]
    else
      match msg with
      | some m => [.syslog s.syslog_priority (m.take WARNP_SYSLOG_MAX_LINE ++ ": ".toList ++ strerror saved_errno ++ ['\n'])]
      | none => [.syslog s.syslog_priority (strerror saved_errno ++ ['\n'])]
  let s := { s with errno := clob }
  ({ s with errno := saved_errno }, ev)

/-- warnp.c:98-136 `warnx` -/
def warnWarnx (s : WarnSt) (msg : Option CStr) (clob : Int) : WarnSt × List WarnEv :=
  let saved_errno := s.errno
  let ev := if !s.use_syslog then
      [.flockfile, .stderr (s.name.getD "(unknown)".toList)] ++ msgEv msg ++ [.stderr ['\n'], .funlockfile]
    else
      match msg with
      | some m => [.syslog s.syslog_priority (m.take WARNP_SYSLOG_MAX_LINE ++ ['\n'])]
      | none => [.syslog s.syslog_priority ['\n']]
  let s := { s with errno := clob }
  ({ s with errno := saved_errno }, ev)

/-- warnp.c:16-26 `warnp_atexit`, run when the program exits if it is registered. -/
def warnAtexit (s : WarnSt) : WarnSt × List WarnEv :=
  let ev := if s.use_syslog then [.closelog] else []
  ({ s with name := none }, ev ++ freeName s)

/-- One call.  warnp.c:32-164; warnp.h:60-67 `warnp`, warnp.h:74-78 `warn0`. -/
def warnStep (strerror : Int → CStr) (s : WarnSt) : WarnOp → WarnSt × List WarnEv
  | .setprogname ok p => warnSetprogname s ok p
  | .warn m c => warnWarn strerror s m c
  | .warnx m c => warnWarnx s m c
  | .warnp m c =>
    if s.errno ≠ 0 then
      let r := warnWarn strerror s m c
      ({ r.1 with errno := 0 }, r.2)
    else warnWarnx s m c
  | .warn0 m c =>
    let r := warnWarnx s m c
    ({ r.1 with errno := 0 }, r.2)
  | .syslog enable =>
    let ev := if s.use_syslog && !enable then [.closelog] else []
    ({ s with use_syslog := enable }, ev)
  | .priority p => ({ s with syslog_priority := p }, [])
  | .setErrno e => ({ s with errno := e }, [])

/-- A program's history of calls. [The callers; no code] -/
def warnRun (strerror : Int → CStr) : WarnSt → List WarnOp → WarnSt × List (List WarnEv)
  | s, [] => (s, [])
  | s, o :: os =>
    let r := warnStep strerror s o
    let t := warnRun strerror r.1 os
    (t.1, r.2 :: t.2)

/-- exit(): the handlers that are registered are run. [warnp.c:49-52] -/
def warnExit (s : WarnSt) : WarnSt × List WarnEv := if s.initialized then warnAtexit s else (s, [])

/-! ### Several threads -/

/-- stderr with its lock: who holds it, and what has been written. [warnp.c:68-80, 109-121] -/
structure ErrFile where
  owner : Option Nat
  written : CStr

/-- A thread printing one message: its number, whether it has the lock, and the pieces it still has to write. [warnp.c:66-80, 107-121] -/
inductive PrintPc
  /-- warnp.c:69, 110: flockfile -/
  | lock (pieces : List CStr)
  /-- warnp.c:72-77, 113-118 -/
  | print (pieces : List CStr)
  /-- warnp.c:80, 121: funlockfile has been called -/
  | done
  deriving DecidableEq, Repr

/-- One step of a printing thread: flockfile waits for the owner; each fprintf is one step. [warnp.c:66-80, 107-121] -/
def printStep (e : ErrFile) (t : Nat × PrintPc) : ErrFile × (Nat × PrintPc) :=
  match t.2 with
  | .lock ps => if e.owner.isNone then ({ e with owner := some t.1 }, (t.1, .print ps)) else (e, t)
  | .print (p :: ps) => ({ e with written := e.written ++ p }, (t.1, .print ps))
  | .print [] => ({ e with owner := none }, (t.1, .done))
  | .done => (e, t)

/-- What a list of effects writes to stderr, piece by piece. [Observation of warnp.c:72-77, 113-118] -/
def stderrPieces (ev : List WarnEv) : List CStr := ev.filterMap fun e => match e with | .stderr s => some s | _ => none

/-- One step of a thread that has these effects still to have: flockfile waits while the stream is locked, fprintf waits while another thread has the lock; the
other effects do not concern stderr. [warnp.c:66-80, 107-121 with flockfile(3)] -/
def evStep (e : ErrFile) (t : Nat × List WarnEv) : ErrFile × (Nat × List WarnEv) :=
  match t.2 with
  | [] => (e, t)
  | .flockfile :: r => if e.owner.isNone then ({ e with owner := some t.1 }, (t.1, r)) else (e, t)
  | .funlockfile :: r => ({ e with owner := none }, (t.1, r))
  | .stderr s :: r => if e.owner.isNone || e.owner == some t.1 then ({ e with written := e.written ++ s }, (t.1, r)) else (e, t)
  | _ :: r => (e, (t.1, r))

end Scrypt
