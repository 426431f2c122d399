import Verif.Basic
import Verif.Model.Parsenum
/-
Model of the general forms of libcperciva/util/parsenum.h: PARSENUM_EX, and PARSENUM without bounds.
-/
namespace Scrypt
open Spec

/-- The type of a variable given to the macros. [`*(x)`, parsenum.h:85-130] -/
inductive NumTy
  | int (t : IntTy)
  | dbl

/-- What is stored, and errno. [parsenum.h:85-130] -/
inductive NumOut
  | int (v : Int) (errno : Option PnErrno)
  | dbl (v : F64) (errno : Option PnErrno)

/-- parsenum.h:85-103 `PARSENUM_EX4`: no bounds.  The first test, (x = 1, x /= 2) > 0, holds for floating-point variables
only; the second, (x = -1) > 0, for unsigned ones only, and leaves the largest value of the type in x.  `abort`: ASSERT_FAIL
(parsenum.h:34-40). -/
def PARSENUM_EX4 (sd : Strtod) (ty : NumTy) (s : CStr) (base : Nat) (trailing : Bool) : Res NumOut :=
  match ty with
  | .dbl =>
    if base = 0 then
      let (v, errno) := parsenum_float sd s (.inf true) (.inf false) trailing
      .ok (.dbl v errno)
    else .abort
  | .int t =>
    let x := t.conv (-1)
    if x > 0 then
      let (v, errno) := parsenum_unsigned s 0 x.toNat x.toNat base trailing
      .ok (.int (t.conv v) errno)
    else .abort

/-- A bound given to the macro: an integer or a floating-point expression. [parsenum.h:104-128] -/
inductive NumArg
  | int (v : Int)
  | dbl (v : F64)

/-- `(double)(min)`, `(double)(max)`. [parsenum.h:110-111] -/
def NumArg.toF64 : NumArg → F64
  | .int v => F64.ofInt v
  | .dbl v => v

/-- parsenum.h:104-130 `PARSENUM_EX6` on an integer or double variable.  Simplified: a floating-point bound for an integer
variable is `ub` here (C would convert it, which is undefined if it does not fit); nothing in the code does that. -/
def PARSENUM_EX6 (sd : Strtod) (ty : NumTy) (s : CStr) (min max : NumArg) (base : Nat) (trailing : Bool) : Res NumOut :=
  match ty with
  | .dbl =>
    if base = 0 then
      let (v, errno) := parsenum_float sd s min.toF64 max.toF64 trailing
      .ok (.dbl v errno)
    else .abort
  | .int t =>
    match min, max with
    | .int min, .int max =>
      let (v, errno) := PARSENUM_EX6_int t s min max base trailing
      .ok (.int v errno)
    | _, _ => .ub

/-- parsenum.h:56-57 `PARSENUM2`: PARSENUM(x, s). -/
def PARSENUM2 (sd : Strtod) (ty : NumTy) (s : CStr) : Res NumOut := PARSENUM_EX4 sd ty s 0 false

/-- parsenum.h:58-59 `PARSENUM4`: PARSENUM(x, s, min, max). -/
def PARSENUM4 (sd : Strtod) (ty : NumTy) (s : CStr) (min max : NumArg) : Res NumOut := PARSENUM_EX6 sd ty s min max 0 false

end Scrypt
