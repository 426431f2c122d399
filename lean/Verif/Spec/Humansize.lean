import Verif.Basic
/-
Human-readable sizes: what can be displayed, and the grammar that is accepted.
-/
namespace Scrypt.Spec

/-- The SI prefix letters; `k = 1` is "k", ..., `k = 6` is "E". -/
def siPrefix : Nat → Char
  | 1 => 'k' | 2 => 'M' | 3 => 'G' | 4 => 'T' | 5 => 'P' | 6 => 'E' | _ => ' '

/-- Decimal numeral. -/
def dec (n : Nat) : List Char := (toString n).toList

/-- A displayable size: `n B`, `x <prefix>B`, or `y/10 <prefix>B` with one decimal. -/
inductive Shown
  | plain (n : Nat)
  | whole (x k : Nat)
  | tenths (y k : Nat)

/-- `0 <= n <= 999`; `10 <= x <= 999`; `1.0 <= y/10 <= 9.9`. -/
def Shown.Valid : Shown → Prop
  | plain n => n ≤ 999
  | whole x k => 10 ≤ x ∧ x ≤ 999 ∧ 1 ≤ k ∧ k ≤ 6
  | tenths y k => 10 ≤ y ∧ y ≤ 99 ∧ 1 ≤ k ∧ k ≤ 6

/-- The number of bytes displayed. -/
def Shown.value : Shown → Nat
  | plain n => n
  | whole x k => x * 1000 ^ k
  | tenths y k => y * 1000 ^ k / 10

/-- The text displayed. -/
def Shown.text : Shown → List Char
  | plain n => dec n ++ [' ', 'B']
  | whole x k => dec x ++ [' ', siPrefix k, 'B']
  | tenths y k => dec (y / 10) ++ ['.'] ++ dec (y % 10) ++ [' ', siPrefix k, 'B']

/-- Value of a string of decimal digits. -/
def decVal (s : List Char) : Nat := s.foldl (fun a c => 10 * a + (c.toNat - '0'.toNat)) 0

/-- `s` matches `[0-9]+ ?[kMGTPE]?B?` with number `n` and prefix number `k` (0 if none). -/
def SizeText (s : List Char) (n k : Nat) : Prop :=
  ∃ ds sp pf b : List Char, s = ds ++ sp ++ pf ++ b ∧
    ds ≠ [] ∧ (∀ c ∈ ds, '0' ≤ c ∧ c ≤ '9') ∧ n = decVal ds ∧
    (sp = [] ∨ sp = [' ']) ∧
    ((pf = [] ∧ k = 0) ∨ (1 ≤ k ∧ k ≤ 6 ∧ pf = [siPrefix k])) ∧
    (b = [] ∨ b = ['B'])

end Scrypt.Spec
