import Verif.Spec.Float
import Verif.Model.Humansize
/-
Numerals accepted by the C library functions strtoimax, strtoumax and strtod (ISO C 7.22.1.3, 7.22.1.4), "C" locale.
-/
namespace Scrypt.Spec
open Scrypt

/-- isspace -/
def isSpace (c : Char) : Bool := c ∈ [' ', '\t', '\n', '\x0b', '\x0c', '\r']

/-- The value of a digit or letter. -/
def digitVal (c : Char) : Option Nat :=
  if '0' ≤ c ∧ c ≤ '9' then some (c.toNat - '0'.toNat)
  else if 'a' ≤ c ∧ c ≤ 'z' then some (c.toNat - 'a'.toNat + 10)
  else if 'A' ≤ c ∧ c ≤ 'Z' then some (c.toNat - 'A'.toNat + 10)
  else none

/-- A digit in the given radix. -/
def isDigitIn (radix : Nat) (c : Char) : Bool :=
  match digitVal c with
  | some d => d < radix
  | none => false

/-- The number written by a digit string. -/
def numVal (radix : Nat) (ds : CStr) : Nat := ds.foldl (fun n c => n * radix + (digitVal c).getD 0) 0

/-- What may follow the sign, its radix and its digits.  `base` 0: as in C source text. -/
inductive Body (base : Nat) : CStr → Nat → CStr → Prop
  | hex {x ds} : (base = 0 ∨ base = 16) → x = 'x' ∨ x = 'X' → ds ≠ [] → (∀ c ∈ ds, isDigitIn 16 c) → Body base ('0' :: x :: ds) 16 ds
  | oct {ds} : base = 0 → (∀ c ∈ ds, isDigitIn 8 c) → Body base ('0' :: ds) 8 ('0' :: ds)
  | dec {d ds} : base = 0 → d ≠ '0' → (∀ c ∈ d :: ds, isDigitIn 10 c) → Body base (d :: ds) 10 (d :: ds)
  | fixed {ds} : base ≠ 0 → ds ≠ [] → (∀ c ∈ ds, isDigitIn base c) → Body base ds base ds

/-- The string is optional white space, an optional sign and a number: `neg` tells whether there is a minus sign. -/
def Numeral (base : Nat) (s : CStr) (neg : Bool) (mag : Nat) : Prop :=
  ∃ ws sign body radix ds, s = ws ++ sign ++ body ∧ (∀ c ∈ ws, isSpace c) ∧
    ((sign = [] ∧ neg = false) ∨ (sign = ['+'] ∧ neg = false) ∨ (sign = ['-'] ∧ neg = true)) ∧
    Body base body radix ds ∧ mag = numVal radix ds

/-- The text after white space and sign. -/
def afterSign (s : CStr) : CStr :=
  match s.dropWhile isSpace with
  | [] => []
  | c :: t => if c = '-' ∨ c = '+' then t else c :: t

/-- Is there a minus sign? -/
def minusSign (s : CStr) : Bool := (s.dropWhile isSpace).head? == some '-'


/-! ### Floating-point numbers -/

/-- strtod: value, end of the converted part, whether errno was set to ERANGE. -/
abbrev Strtod := CStr → F64 × Nat × Bool

/-- The exponent part of a decimal floating constant (the empty text: exponent 0). -/
def expPart : CStr → Option Int
  | [] => some 0
  | e :: u =>
    if e = 'e' ∨ e = 'E' then
      match u with
      | [] => none
      | c :: w =>
        if c = '-' then (if w ≠ [] ∧ w.all (isDigitIn 10) then some (-(numVal 10 w : Int)) else none)
        else if c = '+' then (if w ≠ [] ∧ w.all (isDigitIn 10) then some (numVal 10 w : Int) else none)
        else if (c :: w).all (isDigitIn 10) then some (numVal 10 (c :: w) : Int) else none
    else none

/-- The fractional digits and what follows. -/
def fracPart : CStr → CStr × CStr
  | [] => ([], [])
  | c :: u => if c = '.' then (u.takeWhile (isDigitIn 10), u.dropWhile (isDigitIn 10)) else ([], c :: u)

/-- The sign and value of a string that is white space, a sign and a decimal floating constant. -/
def decFloat (s : CStr) : Option (Bool × ℚ) :=
  let t := afterSign s
  let ip := t.takeWhile (isDigitIn 10)
  let fp := (fracPart (t.dropWhile (isDigitIn 10))).1
  if ip = [] ∧ fp = [] then none
  else (expPart (fracPart (t.dropWhile (isDigitIn 10))).2).map fun e =>
    (minusSign s, (numVal 10 (ip ++ fp) : ℚ) / 10 ^ fp.length * (10 : ℚ) ^ e)

/-- Equality up to letter case; `w` in lower case. -/
def Caseless (t w : CStr) : Prop := List.Forall₂ (fun c d => c = d ∨ c = d.toUpper) t w

/-- The exponent part of a hexadecimal floating constant (the empty text: exponent 0); the exponent is in decimal. -/
def binExpPart : CStr → Option Int
  | [] => some 0
  | e :: u => if e = 'p' ∨ e = 'P' then expPart ('e' :: u) else none

/-- The value of a hexadecimal floating constant, without the prefix 0x. -/
def hexConst (t : CStr) : Option ℚ :=
  let ip := t.takeWhile (isDigitIn 16)
  let rest := t.dropWhile (isDigitIn 16)
  let point := rest.head? == some '.'
  let fp := if point then (rest.drop 1).takeWhile (isDigitIn 16) else []
  let tail := if point then (rest.drop 1).dropWhile (isDigitIn 16) else rest
  if ip = [] ∧ fp = [] then none
  else (binExpPart tail).map fun e => (numVal 16 (ip ++ fp) : ℚ) / 16 ^ fp.length * (2 : ℚ) ^ e

/-- What a text for strtod can denote. -/
inductive FloatVal
  | num (neg : Bool) (q : ℚ)
  | inf (neg : Bool)
  | nan

/-- ISO C 7.22.1.3: the whole string is white space, a sign and a decimal or hexadecimal floating constant, "inf", "infinity", "nan" or "nan(...)". -/
inductive FloatDenotes (s : CStr) : FloatVal → Prop
  | dec {neg : Bool} {q : ℚ} : decFloat s = some (neg, q) → FloatDenotes s (.num neg q)
  | hex {x : Char} {r : CStr} {q : ℚ} : afterSign s = '0' :: x :: r → x = 'x' ∨ x = 'X' → hexConst r = some q → FloatDenotes s (.num (minusSign s) q)
  | inf : Caseless (afterSign s) "inf".toList ∨ Caseless (afterSign s) "infinity".toList → FloatDenotes s (.inf (minusSign s))
  | nan : Caseless (afterSign s) "nan".toList → FloatDenotes s .nan
  | payload {a r : CStr} : afterSign s = a ++ '(' :: r ++ [')'] → Caseless a "nan".toList → (∀ c ∈ r, c.isAlphanum ∨ c = '_') → FloatDenotes s .nan

/-- What ISO C says about strtod (in the "C" locale, the only one the program uses).  Underflow may or may not be reported. -/
structure GoodStrtod (sd : Strtod) : Prop where
  num : ∀ s neg q, FloatDenotes s (.num neg q) → ∃ e, sd s = (F64.round neg q, s.length, e) ∧
    ((2 : ℚ) ^ (1024 : ℕ) ≤ F64.roundMag q → e = true) ∧
    (q = 0 ∨ ((2 : ℚ) ^ (-1022 : ℤ) ≤ q ∧ F64.roundMag q < (2 : ℚ) ^ (1024 : ℕ)) → e = false)
  nan : ∀ s, FloatDenotes s .nan → sd s = (.nan, s.length, false)
  inf : ∀ s neg, FloatDenotes s (.inf neg) → sd s = (.inf neg, s.length, false)
  other : ∀ s, (∀ v, ¬ FloatDenotes s v) → (sd s).2.1 = 0 ∨ (sd s).2.1 ≠ s.length

end Scrypt.Spec
