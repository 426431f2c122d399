import Verif.Spec.Float
/-
Model of lib-platform/util/memlimit.c.  `szMax` is SIZE_MAX.  The preprocessor configuration is
the structure `MemCfg`; what the system calls return is the structure `MemSys`.
-/
namespace Scrypt

/-- memlimit.c:59-66, 68, 113-122, 164-188, 204-209, 274-299 preprocessor configuration: which queries are compiled in. -/
structure MemCfg where
  /-- `HW_USERMEM` (and `CTL_HW`) defined -/
  hwUsermem : Bool
  /-- `HW_MEMSIZE` defined -/
  hwMemsize : Bool
  /-- `HAVE_SYSINFO` with its structure fields -/
  sysinfo : Bool
  /-- `HAVE_STRUCT_SYSINFO_MEM_UNIT` -/
  memUnit : Bool
  /-- `RLIMIT_AS` defined -/
  rlimitAs : Bool
  /-- `USE_RLIMIT_DATA` -/
  rlimitData : Bool
  /-- `RLIMIT_RSS` defined -/
  rlimitRss : Bool
  /-- `_SC_PHYS_PAGES` defined -/
  physPages : Bool
  deriving DecidableEq, Repr

/-- What one `getrlimit` call yields. [The calls at memlimit.c:165, 174, 183] -/
inductive Rlim
  | fail
  | infinity
  | cur (n : W64)
  deriving DecidableEq, Repr

/-- errno after a `sysconf` that returned -1. [The call at memlimit.c:222-223] -/
inductive ScErr
  | zero | einval | other
  deriving DecidableEq, Repr

/-- Answers of the operating system to the memory queries.  A `sysctl` answer is `none` (failure) or
the number of bytes delivered and the system-endian value of the first 8 bytes of the buffer. [The calls in memlimit.c:70-251] -/
structure MemSys where
  sysctlUsermem : Option (Nat × W64)
  sysctlMemsize : Option (Nat × W64)
  /-- `sysinfo`: `none` on failure, else `totalram` and `mem_unit` -/
  sysinfo : Option (W64 × W32)
  rlimAs : Rlim
  rlimData : Rlim
  rlimRss : Rlim
  /-- `sysconf(_SC_PAGE_SIZE)`, `sysconf(_SC_PHYS_PAGES)` (as `long`; -1 is special) and errno -/
  pageSize : BitVec 64
  physPages : BitVec 64
  scErr : ScErr
  deriving DecidableEq, Repr

/-- memlimit.c:95-104, 138-147, 190-198, 238-246: clamp a `uint64_t` to `size_t`. -/
def clampSize (szMax n : Nat) : Nat := if n > szMax then szMax else n

/-- memlimit.c:69-109 `memlimit_sysctl_hw`; `none` is failure. -/
def memlimit_sysctl_hw (szMax : Nat) (ans : Option (Nat × W64)) : Option Nat :=
  match ans with
  | none => none
  | some (len, v) =>
    if len = 8 then some (clampSize szMax v.toNat)
    else if len = 4 then some (clampSize szMax szMax)
    else none

/-- memlimit.c:123-151 `memlimit_sysinfo` -/
def memlimit_sysinfo (szMax : Nat) (memUnit : Bool) (ans : Option (W64 × W32)) : Option Nat :=
  match ans with
  | none => none
  | some (totalram, unit) =>
    some (clampSize szMax (if memUnit then totalram * unit.setWidth 64 else totalram).toNat)

/-- memlimit.c:163-188: one `getrlimit` block of memlimit_rlimit (absent if not compiled in). -/
def rlimStep (compiled : Bool) (r : Rlim) (m : Nat) : Option Nat :=
  if compiled then
    match r with
    | .fail => none
    | .infinity => some m
    | .cur n => some (if n.toNat < m then n.toNat else m)
  else some m

/-- memlimit.c:154-202 `memlimit_rlimit` -/
def memlimit_rlimit (szMax : Nat) (cfg : MemCfg) (sys : MemSys) : Option Nat := do
  let m0 := 2 ^ 64 - 1
  let m1 ← rlimStep cfg.rlimitAs sys.rlimAs m0
  let m2 ← rlimStep cfg.rlimitData sys.rlimData m1
  let m3 ← rlimStep cfg.rlimitRss sys.rlimRss m2
  pure (clampSize szMax m3)

/-- memlimit.c:211-250 `memlimit_sysconf` -/
def memlimit_sysconf (szMax : Nat) (sys : MemSys) : Option Nat :=
  if sys.pageSize = -1 ∨ sys.physPages = -1 then
    (if sys.scErr = .other then none else some (clampSize szMax (2 ^ 64 - 1)))
  else some (clampSize szMax (sys.pageSize * sys.physPages).toNat)

/-- memlimit.c:275-299: a query if it is compiled in, else `SIZE_MAX`. -/
def ifCompiled (szMax : Nat) (c : Bool) (x : Option Nat) : Option Nat := if c then x else some szMax

/-- memlimit.c:271-299: the five limits (`SIZE_MAX` for queries not compiled in), in order usermem,
memsize, sysinfo, rlimit, sysconf; `none` if a query failed. -/
def memQueries (szMax : Nat) (cfg : MemCfg) (sys : MemSys) : Option (Nat × Nat × Nat × Nat × Nat) := do
  let usermem ← ifCompiled szMax cfg.hwUsermem (memlimit_sysctl_hw szMax sys.sysctlUsermem)
  let memsize ← ifCompiled szMax cfg.hwMemsize (memlimit_sysctl_hw szMax sys.sysctlMemsize)
  let sysinfo ← ifCompiled szMax cfg.sysinfo (memlimit_sysinfo szMax cfg.memUnit sys.sysinfo)
  let rlimit ← memlimit_rlimit szMax cfg sys
  let sysconf ← ifCompiled szMax cfg.physPages (memlimit_sysconf szMax sys)
  pure (usermem, memsize, sysinfo, rlimit, sysconf)

/-- memlimit.c:309-332: the usermem correction and the smallest of the limits. -/
def memMin (szMax : Nat) (q : Nat × Nat × Nat × Nat × Nat) : Nat :=
  let (usermem, memsize, sysinfo, rlimit, sysconf) := q
  let usermem := if sysconf ≠ szMax then
      (if usermem < sysconf / 2 then sysconf / 2 else usermem) else usermem
  let m := szMax
  let m := if m > usermem then usermem else m
  let m := if m > memsize then memsize else m
  let m := if m > sysinfo then sysinfo else m
  let m := if m > rlimit then rlimit else m
  if m > sysconf then sysconf else m

/-- memlimit.c:346-352: apply the maximum and the 1 MiB floor. -/
def memClip (maxmem memavail : Nat) : Nat :=
  let m := if maxmem > 0 ∧ memavail > maxmem then maxmem else memavail
  if m < 1048576 then 1048576 else m

/-- memlimit.c:261-359 `memtouse`: `none` is a non-zero return, `some m` is 0 with
`*memlimit = m`. -/
def memtouse (szMax : Nat) (cfg : MemCfg) (sys : MemSys) (maxmem : Nat) (maxmemfrac : F64) :
    Res (Option Nat) := do
  cassert (F64.lt (F64.ofNat 0) maxmemfrac && F64.le maxmemfrac (F64.ofNat 1))
  match memQueries szMax cfg sys with
  | none => .ok none
  | some q => do
    let memavail ← F64.toUnsigned szMax (F64.mul maxmemfrac (F64.ofNat (memMin szMax q)))
    .ok (some (memClip maxmem memavail))

end Scrypt
