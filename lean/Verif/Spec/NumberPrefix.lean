import Verif.Spec.Number
/-
The number at the start of a text.
-/
namespace Scrypt.Spec
open Scrypt

/-- The first `n` characters of `s` are a number, and no longer initial part of `s` is one. -/
def LongestNumeral (base : Nat) (s : CStr) (neg : Bool) (mag n : Nat) : Prop :=
  n ≤ s.length ∧ Numeral base (s.take n) neg mag ∧ ∀ k neg' mag', n < k → k ≤ s.length → ¬ Numeral base (s.take k) neg' mag'

/-- The number a text gives: with characters allowed after it, its longest initial part that is a number; otherwise the whole text. -/
def Gives (base : Nat) (trailing : Bool) (s : CStr) (neg : Bool) (mag : Nat) : Prop :=
  if trailing then ∃ n, LongestNumeral base s neg mag n else Numeral base s neg mag

/-- A base the C library knows: 0 (as in C source text), or 2 to 36. -/
def GoodBase (base : Nat) : Prop := base = 0 ∨ (2 ≤ base ∧ base ≤ 36)

/-- The first `n` characters of `s` denote `v` as a floating-point number, and no longer initial part denotes any. -/
def LongestFloat (s : CStr) (v : FloatVal) (n : Nat) : Prop :=
  n ≤ s.length ∧ FloatDenotes (s.take n) v ∧ ∀ k v', n < k → k ≤ s.length → ¬ FloatDenotes (s.take k) v'

/-- What strtod may return for a denoted value, and whether it reports a range error: overflow must be, underflow may be. -/
def FloatAnswer (v : FloatVal) (x : F64) (range : Bool) : Prop :=
  match v with
  | .num neg q => x = F64.round neg q ∧ ((2 : ℚ) ^ (1024 : ℕ) ≤ F64.roundMag q → range = true) ∧
      (q = 0 ∨ ((2 : ℚ) ^ (-1022 : ℤ) ≤ q ∧ F64.roundMag q < (2 : ℚ) ^ (1024 : ℕ)) → range = false)
  | .inf neg => x = .inf neg ∧ range = false
  | .nan => x = .nan ∧ range = false

/-- ISO C 7.22.1.3: strtod converts the longest initial part of the expected form; if there is none, nothing. -/
structure GoodPrefixStrtod (sd : Strtod) : Prop where
  conv : ∀ s v n, LongestFloat s v n → ∃ x e, sd s = (x, n, e) ∧ FloatAnswer v x e
  none : ∀ s, (∀ n v, n ≤ s.length → ¬ FloatDenotes (s.take n) v) → (sd s).2.1 = 0

end Scrypt.Spec
