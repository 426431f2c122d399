import Verif.Basic
/-
Model of libcperciva/util/humansize.c.

A C string is the list of its characters before the terminating NUL; characters outside ASCII never
match any case of the code, so `Char` may be read as the byte with that code.
-/
namespace Scrypt

/-- Contents of a C string (without the terminator). [`char *`, humansize.c:16, 65] -/
abbrev CStr := List Char

/-- `%d` applied to a non-negative int. [C library; used at humansize.c:25-52] -/
def fmtD (n : Nat) : CStr := (toString n).toList

/-- humansize.c:28-29, the loop `for (size /= 100, shiftcnt = 1; size >= 10000; shiftcnt++)
size /= 1000`. -/
def humansizeLoop (size shiftcnt : Nat) : Nat × Nat :=
  if size < 10000 then (size, shiftcnt) else humansizeLoop (size / 1000) (shiftcnt + 1)
termination_by size
decreasing_by exact Nat.div_lt_self (by omega) (by omega)

/-- humansize.c:15-58 `humansize`.  `asprintfOk` is whether asprintf could allocate; on failure the
result is NULL.  The index into `" kMGTPE"` is bounds-checked (index 7 would be the terminating NUL,
still inside the array). -/
def humansize (asprintfOk : Bool) (size : W64) : Res (Option CStr) :=
  if size.toNat < 1000 then
    .ok (if asprintfOk then some (fmtD size.toNat ++ " B".toList) else none)
  else do
    let r := humansizeLoop (size.toNat / 100) 1
    let prefix_ ← rd (" kMGTPE".toList ++ ['\x00']) r.2
    let s :=
      if r.1 < 100 then fmtD (r.1 / 10) ++ ['.'] ++ fmtD (r.1 % 10) ++ [' ', prefix_, 'B']
      else fmtD (r.1 / 10) ++ [' ', prefix_, 'B']
    .ok (if asprintfOk then some s else none)

/-- State of `humansize_parse`: `state` (-1 is the error state), `*size`, `multiplier`. [The local variables of humansize.c:65-165] -/
structure HpState where
  state : Int
  size : Nat
  mult : Nat
  deriving DecidableEq, Repr

/-- UINT64_MAX. [humansize.c:92, 96, 158] -/
def u64Max : Nat := 2 ^ 64 - 1

/-- humansize.c:140-150, `case 4` and its fall-through into `case 5`. -/
def hpCase4 (st : HpState) (c : Char) : HpState :=
  if c = 'B' then { st with state := 5 } else { st with state := -1 }

/-- humansize.c:113-132: the multiplier selected by the SI prefix (1 if none). -/
def siMult (c : Char) : Nat :=
  if c = 'E' then 1000 * 1000 * 1000 * 1000 * 1000 * 1000
  else if c = 'P' then 1000 * 1000 * 1000 * 1000 * 1000
  else if c = 'T' then 1000 * 1000 * 1000 * 1000
  else if c = 'G' then 1000 * 1000 * 1000
  else if c = 'M' then 1000 * 1000
  else if c = 'k' then 1000
  else 1

/-- humansize.c:111-138, `case 3` (one SI prefix) and its fall-through. -/
def hpCase3 (st : HpState) (c : Char) : HpState :=
  let mult := (st.mult * siMult c) % 2 ^ 64
  if mult ≠ 1 then { st with mult := mult, state := 4 }
  else hpCase4 { st with mult := mult, state := 4 } c

/-- humansize.c:104-109, `case 2` (optional space) and its fall-through. -/
def hpCase2 (st : HpState) (c : Char) : HpState :=
  if c = ' ' then { st with state := 3 } else hpCase3 { st with state := 3 } c

/-- humansize.c:86-102, `case 1` (digits) and its fall-through. -/
def hpCase1 (st : HpState) (c : Char) : HpState :=
  if '0' ≤ c ∧ c ≤ '9' then
    let d := c.toNat - '0'.toNat
    let st1 : HpState :=
      if st.size > u64Max / 10 then { st with state := -1 }
      else { st with state := 1, size := st.size * 10 }
    if st1.size > u64Max - d then { st1 with state := -1 }
    else { st1 with size := st1.size + d }
  else hpCase2 { st with state := 1 } c

/-- humansize.c:75-84, `case 0` and its fall-through. -/
def hpCase0 (st : HpState) (c : Char) : HpState :=
  if c < '0' ∨ '9' < c then { st with size := 0, state := -1 }
  else hpCase1 { st with size := 0 } c

/-- humansize.c:71-151, the `switch`. -/
def hpStep (st : HpState) (c : Char) : HpState :=
  if st.state = -1 then st
  else if st.state = 0 then hpCase0 st c
  else if st.state = 1 then hpCase1 st c
  else if st.state = 2 then hpCase2 st c
  else if st.state = 3 then hpCase3 st c
  else if st.state = 4 then hpCase4 st c
  else { st with state := -1 }

/-- humansize.c:70-155, the `do … while ((state != -1) && (*s != '\0'))` loop.  The argument is the
string including its terminator; reading past it is undefined. -/
def hpLoop (st : HpState) : CStr → Res HpState
  | [] => .ub
  | c :: rest =>
    let st' := hpStep st c
    if st'.state = -1 then .ok st'
    else match rest with
      | [] => .ub
      | c' :: _ => if c' = '\x00' then .ok st' else hpLoop st' rest

/-- humansize.c:64-165 `humansize_parse`: `none` is a return value of -1, `some n` is 0 with
`*size = n`. -/
def humansize_parse (s : CStr) : Res (Option Nat) := do
  let st ← hpLoop { state := 0, size := 0, mult := 1 } (s ++ ['\x00'])
  if st.size > u64Max / st.mult then .ok none
  else if st.state = -1 then .ok none
  else .ok (some (st.size * st.mult))

end Scrypt
