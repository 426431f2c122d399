import Verif.Spec.Float
/-
Resource limits as a user states them: the memory and the number of salsa20/8 cores scrypt needs for
given parameters, compared exactly with a limit.
-/
namespace Scrypt.Spec

/-- `q <= x` for an exact rational `q` and a double `x` (false for NaN). -/
def LeExact (q : ℚ) : F64 → Prop
  | .nan => False
  | .inf neg => neg = false
  | .fin neg m => q ≤ F64.val neg m

/-- Bytes of memory scrypt needs. -/
def memNeed (N r : Nat) : Nat := 128 * N * r

/-- Salsa20/8 cores scrypt computes. -/
def cpuNeed (N r p : Nat) : Nat := 4 * N * r * p

/-- The CPU budget when choosing parameters: `max(opps * maxtime, 32768)` operations. -/
def WithinBudget (opps maxtime : F64) (n : Nat) : Prop :=
  LeExact n (F64.mul opps maxtime) ∨ n ≤ 32768

/-- The `(logN, r, p)` scrypt itself accepts as header parameters. -/
def GoodParams (logN : Int) (r p : Nat) : Prop :=
  1 ≤ logN ∧ logN ≤ 63 ∧ 1 ≤ r ∧ 1 ≤ p ∧ r * p < 2 ^ 30

end Scrypt.Spec
