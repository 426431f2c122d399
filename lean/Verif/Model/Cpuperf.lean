import Verif.Spec.Float
import Verif.Model.Memlimit
/-
Model of libcperciva/util/monoclock.c and lib/scryptenc/scryptenc_cpuperf.c, and the SCRYPT_* return
codes of lib/scryptenc/scryptenc.h.
-/
namespace Scrypt

/-- scryptenc.h:78-93, the return codes. -/
inductive Code
  | OK | ELIMIT | ECLOCK | EKEY | ESALT | EOPENSSL | ENOMEM | EINVAL | EVERSION | ETOOBIG
  | ETOOSLOW | EPASS | EWRFILE | ERDFILE | EPARAM | EBIGSLOW
  deriving DecidableEq, Repr

/-- scryptenc.h:78-93, the numbers. -/
def Code.num : Code → Nat
  | .OK => 0 | .ELIMIT => 1 | .ECLOCK => 2 | .EKEY => 3 | .ESALT => 4 | .EOPENSSL => 5
  | .ENOMEM => 6 | .EINVAL => 7 | .EVERSION => 8 | .ETOOBIG => 9 | .ETOOSLOW => 10 | .EPASS => 11
  | .EWRFILE => 12 | .ERDFILE => 13 | .EPARAM => 14 | .EBIGSLOW => 15

/-- monoclock.c:10-19: which clocks are compiled in. -/
structure ClkCfg where
  useMonotonic : Bool
  useRealtime : Bool
  deriving DecidableEq, Repr

/-- Answer of one clock system call: seconds and nanoseconds, or an error that is ENOSYS/EINVAL
("not supported") or another one.  For gettimeofday the second number is microseconds. [The calls at monoclock.c:34, 43, 51, 114, 123] -/
inductive ClkAns
  | time (sec nsec : Int)
  | unsupported
  | fail
  deriving DecidableEq, Repr

/-- Answers for one monoclock_get (or monoclock_getres) call: the monotonic clock, then the fallback
(CLOCK_REALTIME, or gettimeofday when that is not compiled in). [The calls at monoclock.c:27-63 and 107-150] -/
structure ClkPair where
  mono : ClkAns
  fallback : ClkAns
  deriving DecidableEq, Repr

/-- `struct timeval` [The parameter of monoclock.c:27] -/
structure Timeval where
  sec : Int
  usec : Int
  deriving DecidableEq, Repr

/-- monoclock.c:44-57: the fallback branch of monoclock_get.  (gettimeofday delivers microseconds
itself; `tp.tv_nsec / 1000` truncates toward zero.) -/
def monoFallback (cfg : ClkCfg) : ClkAns → Option Timeval
  | .time s n => some ⟨s, if cfg.useRealtime then n.tdiv 1000 else n⟩
  | _ => none

/-- monoclock.c:26-63 `monoclock_get`; `none` is failure. -/
def monoclock_get (cfg : ClkCfg) (a : ClkPair) : Option Timeval :=
  if cfg.useMonotonic then
    match a.mono with
    | .time s n => some ⟨s, n.tdiv 1000⟩
    | .fail => none
    | .unsupported => monoFallback cfg a.fallback
  else monoFallback cfg a.fallback

/-- monoclock.c:114, 125: `(double)tv_sec + (double)tv_nsec * 0.000000001`. -/
def resDouble (s n : Int) : F64 :=
  F64.add (F64.ofInt s) (F64.mul (F64.ofInt n) (F64.round false (1 / 10 ^ 9)))

/-- monoclock.c:121-142: the fallback branch of monoclock_getres (`clocksPerSec` is
CLOCKS_PER_SEC). -/
def resFallback (cfg : ClkCfg) (clocksPerSec : Nat) : ClkAns → Option F64
  | .time s n => some (if cfg.useRealtime then resDouble s n
      else F64.div (F64.ofNat 1) (F64.ofNat clocksPerSec))
  | _ => if cfg.useRealtime then none else some (F64.div (F64.ofNat 1) (F64.ofNat clocksPerSec))

/-- monoclock.c:106-150 `monoclock_getres` -/
def monoclock_getres (cfg : ClkCfg) (clocksPerSec : Nat) (a : ClkPair) : Option F64 :=
  if cfg.useMonotonic then
    match a.mono with
    | .time s n => some (resDouble s n)
    | .fail => none
    | .unsupported => resFallback cfg clocksPerSec a.fallback
  else resFallback cfg clocksPerSec a.fallback

/-- monoclock.h:7-8 `timeval_diff`.  Simplification: the differences are taken in the integers
(`time_t` and `suseconds_t` are assumed not to overflow). -/
def timeval_diff (x y : Timeval) : F64 :=
  F64.add (F64.ofInt (y.sec - x.sec))
    (F64.mul (F64.ofInt (y.usec - x.usec)) (F64.round false (1 / 10 ^ 6)))

/-- scryptenc_cpuperf.c:40-51 `getclockdiff`; `none` is failure. -/
def getclockdiff (cfg : ClkCfg) (st : Timeval) (a : ClkPair) : Option F64 :=
  match monoclock_get cfg a with
  | none => none
  | some en => some (timeval_diff st en)

/-- What happens in one iteration of a measuring loop: whether crypto_scrypt returned 0, and the
clock's answers afterwards.  (crypto_scrypt with these constants fails only when memory cannot be
allocated: C23.) [scryptenc_cpuperf.c:74-86, 91-105] -/
structure PerfStep where
  scryptOk : Bool
  clk : ClkPair

/-- Outcome of a loop over the steps observed so far. [The ways out of scryptenc_cpuperf.c:74-86, 91-105] -/
inductive LoopOut
  /-- returned this error code -/
  | err (c : Code)
  /-- left the loop with this `diffd`, after so many iterations, with the remaining steps -/
  | done (diffd : F64) (iters : Nat) (rest : List PerfStep)
  /-- still looping when the observed steps ran out -/
  | running

/-- scryptenc_cpuperf.c:74-86 and 91-105: `do { crypto_scrypt; getclockdiff; if (diffd > bound) break; }
while (1)`. -/
def perfLoop (cfg : ClkCfg) (st : Timeval) (bound : F64) : Nat → List PerfStep → LoopOut
  | _, [] => .running
  | i, s :: rest =>
    if s.scryptOk then
      match getclockdiff cfg st s.clk with
      | none => .err .ECLOCK
      | some d => if F64.lt bound d then .done d (i + 1) rest else perfLoop cfg st bound (i + 1) rest
    else .err .EKEY

/-- scryptenc_cpuperf.c:88-113, the second phase: the count `i` is a `uint64_t` increased by 512 per
iteration. -/
def perfPhase2 (cfg : ClkCfg) (resd : F64) (start : ClkPair) (steps : List PerfStep) :
    Option (Code × F64) :=
  match monoclock_get cfg start with
  | none => some (.ECLOCK, .nan)
  | some st =>
    match perfLoop cfg st resd 0 steps with
    | .err c => some (c, .nan)
    | .running => none
    | .done d n _ => some (.OK, F64.div (F64.ofNat (512 * n % 2 ^ 64)) d)

/-- scryptenc_cpuperf.c:58-116 `scryptenc_cpuperf`.  The arguments are the answers to
monoclock_getres, the first monoclock_get, the steps of the first loop, the second monoclock_get and
the steps of the second loop.  `none`: still running when the observed steps ran out; otherwise the
return code and, for OK, the value of `*opps`. -/
def scryptenc_cpuperf (cfg : ClkCfg) (clocksPerSec : Nat) (res start1 : ClkPair)
    (steps1 : List PerfStep) (start2 : ClkPair) (steps2 : List PerfStep) : Option (Code × F64) :=
  match monoclock_getres cfg clocksPerSec res with
  | none => some (.ECLOCK, .nan)
  | some resd =>
    match monoclock_get cfg start1 with
    | none => some (.ECLOCK, .nan)
    | some st =>
      match perfLoop cfg st (F64.ofNat 0) 0 steps1 with
      | .err c => some (c, .nan)
      | .running => none
      | .done _ _ _ => perfPhase2 cfg resd start2 steps2

end Scrypt
