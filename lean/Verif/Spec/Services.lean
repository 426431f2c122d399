import Verif.Spec.Entropy
import Verif.Model.Cpuperf
import Verif.Model.CryptoScrypt
import Verif.Model.Warnp
/-
What there is to say when a service of the system fails: which call failed.
-/
namespace Scrypt.Spec

/-- Reading `n` bytes is cut short: after non-empty chunks of fewer than `n` bytes altogether, read(2) fails, or reports the end of the file. -/
inductive ReadFault (reads : List (Option Bytes)) (n : Nat) : Diag → Prop
  | error (pre : List Bytes) (post : List (Option Bytes)) : reads = pre.map some ++ none :: post → (∀ d ∈ pre, d ≠ []) → pre.flatten.length < n →
      ReadFault reads n (.warnp "read(/dev/urandom)".toList)
  | eof (pre : List Bytes) (post : List (Option Bytes)) : reads = pre.map some ++ some [] :: post → (∀ d ∈ pre, d ≠ []) → pre.flatten.length < n →
      ReadFault reads n (.warn0 "EOF on /dev/urandom?".toList)

/-- close(2), repeated while it is interrupted, in the end answers `a`. -/
def ClosedWith (closes : List CloseAns) (a : CloseAns) : Prop := a ≠ .eintr ∧ ∃ k rest, closes = List.replicate k .eintr ++ a :: rest

/-- The lines about a failed attempt to obtain `n` bytes of entropy: the system call that failed, with the system's reason, and the stage. -/
inductive EntropyLines (os : EntropyOs) (n : Nat) : List Diag → Prop
  | memory : os.mallocOk = false → EntropyLines os n [.warnp "malloc".toList, .warn0 "entropy_read_init".toList]
  | noDevice : os.mallocOk = true → os.openOk = false → EntropyLines os n [.warnp "open(/dev/urandom)".toList, .warn0 "entropy_read_init".toList]
  | read {d : Diag} : os.mallocOk = true → os.openOk = true → ReadFault os.reads n d → ClosedWith os.closes .ok →
      EntropyLines os n [d, .warn0 "entropy_read_fill".toList]
  | readClose {d : Diag} : os.mallocOk = true → os.openOk = true → ReadFault os.reads n d → ClosedWith os.closes .err →
      EntropyLines os n [d, .warn0 "entropy_read_fill".toList, .warnp "close(/dev/urandom)".toList]
  | close {x : Bytes} : os.mallocOk = true → os.openOk = true → Delivered os.reads n x → ClosedWith os.closes .err →
      EntropyLines os n [.warnp "close(/dev/urandom)".toList, .warn0 "entropy_read_done".toList]

/-- The clock tried first is not there: not compiled in, or the system does not support it. -/
def NoMonotonic (cfg : ClkCfg) (a : ClkPair) : Prop := cfg.useMonotonic = false ∨ a.mono = .unsupported

/-- The clock tried second did not answer. -/
def NoFallback (a : ClkPair) : Prop := ∀ s n, a.fallback ≠ .time s n

/-- `call(clock)` failed, where `call` is clock_gettime or clock_getres; gettimeofday has no resolution to ask for. -/
inductive ClockFault (cfg : ClkCfg) (a : ClkPair) (call : List Char) : List Char → Prop
  | monotonic : cfg.useMonotonic = true → a.mono = .fail → ClockFault cfg a call (call ++ "(CLOCK_MONOTONIC)".toList)
  | realtime : NoMonotonic cfg a → cfg.useRealtime = true → NoFallback a → ClockFault cfg a call (call ++ "(CLOCK_REALTIME)".toList)
  | timeOfDay : NoMonotonic cfg a → cfg.useRealtime = false → NoFallback a → call = "clock_gettime".toList → ClockFault cfg a call "gettimeofday".toList

/-- The memory the self-test of scrypt (N = 16, r = 8, p = 1) needs is granted, and can be released. -/
def SelfTestMemory (e : ScEnv) : Prop := e.allocB 1024 ≠ none ∧ e.allocXY 2112 ≠ none ∧ e.allocV 16384 ≠ none ∧ e.munmapOk = true

end Scrypt.Spec
