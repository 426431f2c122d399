import Verif.Model.Humansize
/-
libcperciva/util/asprintf.c, and humansize with the memory it returns.
-/
namespace Scrypt

/-- `INT_MAX` [The type of `len`, asprintf.c:15] -/
def INT_MAX : Nat := 2 ^ 31 - 1

/-- vsnprintf's return value, given what the format and the arguments produce (`none`: an encoding error): the length of the whole text, or a
negative number (C11 7.21.6.12; POSIX: EOVERFLOW if it does not fit an int). [C library; called at asprintf.c:20, 34] -/
def vsnLen : Option CStr → Int
  | none => -1
  | some s => if s.length ≤ INT_MAX then s.length else -1

/-- vsnprintf(buf, size, …): the text cut to `size - 1` characters and a NUL.  `size = 0`: nothing is written.  After a failure the contents are
unspecified (`buf` is kept: the caller does not look at it). [C library; called at asprintf.c:20, 34] -/
def vsnprintf (buf : CStr) (size : Nat) (a : Option CStr) : Res (CStr × Int) :=
  match a with
  | none => .ok (buf, -1)
  | some s =>
    if size = 0 then .ok (buf, vsnLen a)
    else wrSlice buf 0 (s.take (size - 1) ++ ['\x00']) >>= fun buf => .ok (buf, vsnLen a)

/-- What one call meets: what the two formatting passes produce, and malloc's answer for a size (`some`: the block's initial contents). [The calls at asprintf.c:20, 29, 34] -/
structure AspEnv where
  first : Option CStr
  second : Option CStr
  malloc : Nat → Option CStr

/-- Allocation events. [Observation of the calls at asprintf.c:29, 45] -/
inductive AspEv
  | malloc (size : Nat) (ok : Bool)
  | free
  deriving DecidableEq, Repr

/-- Outcome: the return value, the block `*ret` points to (`none`: NULL, not set, or freed), the allocation events. [The results of asprintf.c:12-49] -/
structure AspOut where
  rc : Int
  block : Option CStr
  ev : List AspEv

/-- asprintf.c:11-49 `asprintf` -/
def asprintf (e : AspEnv) : Res AspOut :=
  if vsnLen e.first < 0 then .ok ⟨-1, none, []⟩
  else
    let buflen := (vsnLen e.first).toNat + 1
    match e.malloc buflen with
    | none => .ok ⟨-1, none, [.malloc buflen false]⟩
    | some buf =>
      vsnprintf buf buflen e.second >>= fun r =>
        if r.2 < 0 then .ok ⟨-1, none, [.malloc buflen true, .free]⟩
        else .ok ⟨r.2, some r.1, [.malloc buflen true]⟩

/-- humansize.c:15-58 `humansize` with asprintf's memory: the text is formatted twice (`enc1`, `enc2`: whether vsnprintf succeeds), the block returned
(NULL: `none`), the events. -/
def humansizeMem (enc1 enc2 : Bool) (malloc : Nat → Option CStr) (size : W64) : Res (Option CStr × List AspEv) :=
  humansize true size >>= fun t =>
    asprintf ⟨if enc1 then t else none, if enc2 then t else none, malloc⟩ >>= fun o =>
      .ok (if o.rc = -1 then none else o.block, o.ev)

end Scrypt
