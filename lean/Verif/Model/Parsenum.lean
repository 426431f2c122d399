import Verif.Spec.Number
/-
Model of libcperciva/util/parsenum.h.  The C library's strtoimax and strtoumax are given by their ISO C definition
(7.8.2.3, 7.22.1.4) with 64-bit intmax_t; strtod is a parameter.  Text encoding: "C" locale.
-/
namespace Scrypt
open Spec

/-- errno. [parsenum.h:153-155, 171-173, 191-193] -/
inductive PnErrno
  | EINVAL | ERANGE
  deriving DecidableEq, Repr

/-- Does a prefix 0x or 0X with a digit after it start here?. [C library (strtoumax), called at parsenum.h:169, 189] -/
def hexPrefix (base : Nat) : CStr → Bool
  | z :: x :: d :: _ => (base == 0 || base == 16) && z == '0' && (x == 'x' || x == 'X') && isDigitIn 16 d
  | _ => false

/-- The radix of the digits that follow. [C library (strtoumax), called at parsenum.h:169, 189] -/
def radixOf (base : Nat) (s : CStr) : Nat :=
  if base = 0 then (if s.head? = some '0' then 8 else 10) else base

/-- The digits at the start: their value and the number of characters left; `none` if there is no digit. [C library (strtoumax), called at parsenum.h:169, 189] -/
def digitScan (radix : Nat) (s : CStr) : Option (Nat × Nat) :=
  if s.takeWhile (isDigitIn radix) = [] then none
  else some (numVal radix (s.takeWhile (isDigitIn radix)), (s.dropWhile (isDigitIn radix)).length)

/-- Prefix and digits. [C library (strtoumax), called at parsenum.h:169, 189] -/
def bodyScan (base : Nat) (s : CStr) : Option (Nat × Nat) :=
  if hexPrefix base s then digitScan 16 (s.drop 2) else digitScan (radixOf base s) s

/-- The common part of strtoimax and strtoumax: sign, magnitude and number of characters used; `none`: no conversion. [C library, called at parsenum.h:169, 189] -/
def strtoScan (base : Nat) (s : CStr) : Option (Bool × Nat × Nat) :=
  (bodyScan base (afterSign s)).map fun v => (minusSign s, v.1, s.length - v.2)

/-- strtoumax: value, end of the converted part, errno. [C library, called at parsenum.h:189] -/
def strtoumax (s : CStr) (base : Nat) : Nat × Nat × Option PnErrno :=
  match strtoScan base s with
  | none => (0, 0, none)
  | some (neg, m, n) =>
    if m > 2 ^ 64 - 1 then (2 ^ 64 - 1, n, some .ERANGE)
    else (if neg then (2 ^ 64 - m) % 2 ^ 64 else m, n, none)

/-- strtoimax: value, end of the converted part, errno. [C library, called at parsenum.h:169] -/
def strtoimax (s : CStr) (base : Nat) : Int × Nat × Option PnErrno :=
  match strtoScan base s with
  | none => (0, 0, none)
  | some (neg, m, n) =>
    if neg then (if m > 2 ^ 63 then (-2 ^ 63, n, some .ERANGE) else (-(m : Int), n, none))
    else (if m > 2 ^ 63 - 1 then (2 ^ 63 - 1, n, some .ERANGE) else ((m : Int), n, none))

/-- parsenum.h:159-177 `parsenum_signed`: the value and errno afterwards. -/
def parsenum_signed (s : CStr) (min max : Int) (base : Nat) (trailing : Bool) : Int × Option PnErrno :=
  let (val, eptr, errno) := strtoimax s base
  if eptr = 0 ∨ (trailing = false ∧ eptr ≠ s.length) then (val, some .EINVAL)
  else if val < min ∨ val > max then (0, some .ERANGE)
  else (val, errno)

/-- parsenum.h:179-195 `parsenum_unsigned` -/
def parsenum_unsigned (s : CStr) (min max typemax : Nat) (base : Nat) (trailing : Bool) : Nat × Option PnErrno :=
  let (val, eptr, errno) := strtoumax s base
  if eptr = 0 ∨ (trailing = false ∧ eptr ≠ s.length) then (val, some .EINVAL)
  else if val < min ∨ val > max ∨ val > typemax then (val, some .ERANGE)
  else (val, errno)

/-- The type of an integer variable. [The type of `*(x)`, parsenum.h:86-128] -/
structure IntTy where
  signed : Bool
  bits : Nat
  deriving DecidableEq

/-- Conversion to an integer type (two's complement). [The assignments to `*(x)`, parsenum.h:86-128] -/
def IntTy.conv (t : IntTy) (v : Int) : Int :=
  let u := v % (2 ^ t.bits : Int)
  if t.signed ∧ u ≥ (2 ^ (t.bits - 1) : Int) then u - (2 ^ t.bits : Int) else u

/-- parsenum.h:104-130 `PARSENUM_EX6` on an integer variable of type `t`: the value stored and errno.  The first test
((x = 1, x /= 2) > 0, "is it a floating-point variable?") is false for every integer type.  `min` and `max` are the values
of the macro arguments. -/
def PARSENUM_EX6_int (t : IntTy) (s : CStr) (min max : Int) (base : Nat) (trailing : Bool) : Int × Option PnErrno :=
  let x := t.conv (-1)
  if x ≤ 0 then
    let (v, errno) := parsenum_signed s (if x ≤ 0 then min else 0) (if x ≤ 0 then max else 0) base trailing
    (t.conv v, errno)
  else
    let (v, errno) := parsenum_unsigned s (if min ≤ 0 then 0 else min.toNat) (max % 2 ^ 64).toNat x.toNat base trailing
    let errno := if max ≤ 2 ^ 63 - 1 then (if max < 0 ∧ errno = none then some .ERANGE else errno) else errno
    (t.conv v, errno)

/-- parsenum.h:56-59, PARSENUM(x, s, min, max): the value, or errno. -/
def PARSENUM_int (t : IntTy) (s : CStr) (min max : Int) : Except PnErrno Int :=
  match PARSENUM_EX6_int t s min max 0 false with
  | (v, none) => .ok v
  | (_, some e) => .error e

/-- parsenum.h:142-157 `parsenum_float` -/
def parsenum_float (sd : Strtod) (s : CStr) (min max : F64) (trailing : Bool) : F64 × Option PnErrno :=
  let (val, eptr, erange) := sd s
  if eptr = 0 ∨ (trailing = false ∧ eptr ≠ s.length) then (val, some .EINVAL)
  else if F64.lt val min ∨ F64.lt max val then (val, some .ERANGE)
  else (val, if erange then some .ERANGE else none)

/-- parsenum.h:113-138 on a double variable: PARSENUM(x, s, min, max). -/
def PARSENUM_flt (sd : Strtod) (s : CStr) (min max : F64) : Except PnErrno F64 :=
  match parsenum_float sd s min max false with
  | (v, none) => .ok v
  | (_, some e) => .error e

/-- The types int (logN) and uint32_t (r, p). [scryptenc.h:70: `int logN`] -/
def tyInt : IntTy := ⟨true, 32⟩
/-- scryptenc.h:71-72: `uint32_t r, p`. -/
def tyU32 : IntTy := ⟨false, 32⟩

end Scrypt
