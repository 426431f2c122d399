import Verif.Basic
import Mathlib.Data.Rat.Floor
import Mathlib.Data.Int.Log
/-
IEEE 754 binary64 ("double"), round-to-nearest-even, as exact rational arithmetic followed by one
rounding.  This is the specification of the C arithmetic used by the parameter selection and limit
code (assuming FLT_EVAL_METHOD == 0 and the default rounding mode).
-/
namespace Scrypt

/-- A binary64 datum: not-a-number, an infinity, or `(-1)^neg * mag` (signed zeros are distinct). -/
inductive F64
  | nan
  | inf (neg : Bool)
  | fin (neg : Bool) (mag : ℚ)
  deriving DecidableEq

namespace F64

/-- Nearest integer, ties to even. -/
def roundEven (q : ℚ) : ℤ :=
  if q - ⌊q⌋ < 1 / 2 then ⌊q⌋
  else if 1 / 2 < q - ⌊q⌋ then ⌊q⌋ + 1
  else if ⌊q⌋ % 2 = 0 then ⌊q⌋ else ⌊q⌋ + 1

/-- Exponent of the unit in the last place for a positive magnitude: 53 significant bits, but never
below 2^-1074 (subnormals). -/
def ulpExp (q : ℚ) : ℤ := max (Int.log 2 q - 52) (-1074)

/-- The nearest magnitude with 53 significant bits (exponent unbounded above). -/
def roundMag (q : ℚ) : ℚ :=
  if q ≤ 0 then 0 else (roundEven (q / (2 : ℚ) ^ ulpExp q) : ℚ) * (2 : ℚ) ^ ulpExp q

/-- Round an exact magnitude to binary64; overflow gives an infinity. -/
def round (neg : Bool) (q : ℚ) : F64 :=
  if (2 : ℚ) ^ (1024 : ℕ) ≤ roundMag q then inf neg else fin neg (roundMag q)

/-- A magnitude binary64 can hold exactly (disregarding overflow). -/
def Rep (q : ℚ) : Prop := ∃ (n : ℕ) (k : ℤ), n < 2 ^ 53 ∧ -1074 ≤ k ∧ q = (n : ℚ) * (2 : ℚ) ^ k

/-- `x` is a genuine binary64 datum. -/
def Valid : F64 → Prop
  | nan => True
  | inf _ => True
  | fin _ m => Rep m ∧ m < (2 : ℚ) ^ (1024 : ℕ)

/-- Conversion from an unsigned integer type. -/
def ofNat (n : ℕ) : F64 := round false n

/-- Conversion from a signed integer type. -/
def ofInt (n : ℤ) : F64 := round (n < 0) n.natAbs

/-- `x * y` -/
def mul : F64 → F64 → F64
  | nan, _ => nan
  | _, nan => nan
  | inf a, inf b => inf (a != b)
  | inf a, fin b y => if y = 0 then nan else inf (a != b)
  | fin a x, inf b => if x = 0 then nan else inf (a != b)
  | fin a x, fin b y => round (a != b) (x * y)

/-- `x / y` -/
def div : F64 → F64 → F64
  | nan, _ => nan
  | _, nan => nan
  | inf _, inf _ => nan
  | inf a, fin b _ => inf (a != b)
  | fin a _, inf b => fin (a != b) 0
  | fin a x, fin b y =>
    if y = 0 then (if x = 0 then nan else inf (a != b)) else round (a != b) (x / y)

/-- The rational value of a finite datum. -/
def val (neg : Bool) (m : ℚ) : ℚ := if neg then -m else m

/-- `x + y` -/
def add : F64 → F64 → F64
  | nan, _ => nan
  | _, nan => nan
  | inf a, inf b => if a = b then inf a else nan
  | inf a, fin _ _ => inf a
  | fin _ _, inf b => inf b
  | fin a x, fin b y =>
    if val a x + val b y = 0 then fin (a && b) 0
    else round (val a x + val b y < 0) |val a x + val b y|

/-- `x < y` (false on NaN; zeros compare equal). -/
def lt : F64 → F64 → Bool
  | nan, _ => false
  | _, nan => false
  | inf a, inf b => a && !b
  | inf a, fin _ _ => a
  | fin _ _, inf b => !b
  | fin a x, fin b y => val a x < val b y

/-- `x <= y` (false on NaN). -/
def le : F64 → F64 → Bool
  | nan, _ => false
  | _, nan => false
  | inf a, inf b => a || !b
  | inf a, fin _ _ => a
  | fin _ _, inf b => !b
  | fin a x, fin b y => val a x ≤ val b y

/-- Conversion to an unsigned integer type with maximum `max`: truncation toward zero, undefined
behaviour for NaN, infinities and values whose truncation is out of range (C11 6.3.1.4p1). -/
def toUnsigned (max : ℕ) : F64 → Res ℕ
  | nan => .ub
  | inf _ => .ub
  | fin neg m =>
    if neg = true ∧ 1 ≤ m then .ub
    else if (max : ℤ) < ⌊m⌋ then .ub
    else .ok (if neg then 0 else ⌊m⌋.toNat)

end F64
end Scrypt
