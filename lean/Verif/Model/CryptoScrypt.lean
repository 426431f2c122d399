import Verif.Model.Sha256Hw
import Verif.Model.Smix
/-
Model of lib-platform/crypto/crypto_scrypt.c (parameter checks, allocation, the computation, release,
self-test and selection), and of crypto_scrypt in lib/crypto/crypto_scrypt-ref.c.

`size_t` is a parameter: `szMax` is SIZE_MAX (2^32-1 or 2^64-1), and every size computation is
reduced modulo `szMax + 1`.
-/
namespace Scrypt

/-- errno values set by the modelled code. [crypto_scrypt.c:70-92] -/
inductive Errno
  | EINVAL | EFBIG | ENOMEM | ERANGE
  /-- whatever the failing system call left there -/
  | sys
  deriving DecidableEq, Repr

/-- The three allocations of crypto_scrypt. [crypto_scrypt.c:98-127] -/
inductive ScObj
  | B | XY | V
  deriving DecidableEq, Repr

/-- Outcome of a crypto_scrypt call: return value, errno, the output buffer and the allocations
that have not been released. [The results of crypto_scrypt.c:55-166] -/
structure ScOut where
  rc : Int
  errno : Option Errno
  buf : Bytes
  live : List ScObj
  deriving DecidableEq, Repr

/-- An smix routine: `(B block, r, N, V, XY)` to the new contents. [The function pointer of crypto_scrypt.c:48, 59] -/
abbrev SmixFn := Bytes → Nat → Nat → List W32 → List W32 → Res (Bytes × List W32 × List W32)

/-- What the system does during one call: each allocator maps the requested size in bytes to
`none` (failure) or to the initial contents of the block; `munmapOk` is whether releasing `V`
succeeds (always true when `V` came from the heap). [The calls at crypto_scrypt.c:98-127, 148] -/
structure ScEnv where
  allocB : Nat → Option Bytes
  allocXY : Nat → Option (List W32)
  allocV : Nat → Option (List W32)
  munmapOk : Bool

/-- A successful allocation has the requested size (`XY`, `V` in 32-bit words). [The sizes at crypto_scrypt.c:98-127] -/
structure ScEnv.Sized (e : ScEnv) : Prop where
  B : ∀ n m, e.allocB n = some m → m.length = n
  XY : ∀ n m, e.allocXY n = some m → m.length = n / 4
  V : ∀ n m, e.allocV n = some m → m.length = n / 4

/-- crypto_scrypt.c:69-94, the parameter checks; `none` means accepted. -/
def scryptCheck (szMax : Nat) (N : W64) (r p : W32) (buflen : Nat) : Option Errno :=
  let rs := r.toNat; let ps := p.toNat
  if rs = 0 ∨ ps = 0 then some .EINVAL
  else if szMax > 2 ^ 32 - 1 ∧ buflen > (2 ^ 32 - 1) * 32 then some .EFBIG
  else if (r.setWidth 64 * p.setWidth 64).toNat ≥ 2 ^ 30 then some .EFBIG
  else if (N &&& (N - 1)) ≠ 0 ∨ N.toNat < 2 then some .EINVAL
  else if rs > szMax / 128 / ps ∨ (szMax / 256 ≤ 2 ^ 32 - 1 ∧ rs > (szMax - 64) / 256) ∨
      N.toNat > szMax / 128 / rs then some .ENOMEM
  else none

/-- crypto_scrypt.c:140, `i * 128 * r` with `uint32_t i` and `size_t r`: the first product is
computed in 32 bits, the second in `size_t`. -/
def blockIndex (szMax : Nat) (i r : Nat) : Nat :=
  (BitVec.ofNat 32 i * 128#32).toNat * r % (szMax + 1)

/-- crypto_scrypt.c:137-141, the loop over the `p` blocks. The smix routine is given the
`128r` bytes at `&B[i * 128 * r]`. -/
def mixBlocks (szMax : Nat) (smix : SmixFn) (r p N : Nat) (B : Bytes) (V XY : List W32) :
    Res (Bytes × List W32 × List W32) :=
  forLoop p (fun (B, V, XY) i => do
    let off := blockIndex szMax i r
    let blk ← rdSlice B off (128 * r)
    let (blk, V, XY) ← smix blk r N V XY
    let B ← wrSlice B off blk
    return (B, V, XY)) (B, V, XY)

/-- crypto_scrypt.c:157-165, the labels `err2`, `err1`, `err0`: `live` is what is allocated when the
label is reached. -/
def scErr0 (e : Errno) (buf : Bytes) (live : List ScObj) : ScOut := ⟨-1, some e, buf, live⟩
/-- crypto_scrypt.c:161-165: `err1`. -/
def scErr1 (e : Errno) (buf : Bytes) (live : List ScObj) : ScOut := scErr0 e buf (live.erase .B)
/-- crypto_scrypt.c:159-165: `err2`. -/
def scErr2 (e : Errno) (buf : Bytes) (live : List ScObj) : ScOut := scErr1 e buf (live.erase .XY)

/-- crypto_scrypt.c:55-166 `crypto_scrypt_internal` (the malloc/posix_memalign/mmap variants differ
only in where failure can occur; `env` covers all of them). `junk` is the uninitialised HMAC context
inside PBKDF2_SHA256. -/
def crypto_scrypt_internal (szMax : Nat) (env : ScEnv) (tf : Transform) (junk : HMAC_SHA256_CTX)
    (passwd salt : Bytes) (N : W64) (r p : W32) (buf : Bytes) (buflen : Nat) (smix : SmixFn) :
    Res ScOut :=
  let rs := r.toNat; let ps := p.toNat; let M := szMax + 1
  match scryptCheck szMax N r p buflen with
  | some e => .ok (scErr0 e buf [])
  | none =>
  match env.allocB (128 * rs * ps % M) with
  | none => .ok (scErr0 .sys buf [])
  | some B =>
  match env.allocXY ((256 * rs + 64) % M) with
  | none => .ok (scErr1 .sys buf [.B])
  | some XY =>
  match env.allocV (128 * rs * N.toNat % M) with
  | none => .ok (scErr2 .sys buf [.B, .XY])
  | some V => do
    let B ← PBKDF2_SHA256 tf junk passwd salt 1 B (ps * 128 * rs % M)
    let (B, _, _) ← mixBlocks szMax smix rs ps N.toNat B V XY
    let Bs ← rdSlice B 0 (ps * 128 * rs % M)
    let buf ← PBKDF2_SHA256 tf junk passwd Bs 1 buf buflen
    let live := [ScObj.B, .XY, .V]
    if !env.munmapOk then
      return scErr2 .sys buf live                            -- goto err2
    let live := live.erase .V
    let live := live.erase .XY
    let live := live.erase .B
    return ⟨0, none, buf, live⟩

/-- crypto_scrypt.c:168-192, `testcase`. -/
def testPasswd : Bytes := [0x70, 0x6c, 0x65, 0x61, 0x73, 0x65, 0x6c, 0x65, 0x74, 0x6d, 0x65, 0x69, 0x6e]
/-- crypto_scrypt.c:178. -/
def testSalt : Bytes :=
  [0x53, 0x6f, 0x64, 0x69, 0x75, 0x6d, 0x43, 0x68, 0x6c, 0x6f, 0x72, 0x69, 0x64, 0x65]
/-- crypto_scrypt.c:182-191. -/
def testResult : Bytes := [
  0x25, 0xa9, 0xfa, 0x20, 0x7f, 0x87, 0xca, 0x09,
  0xa4, 0xef, 0x8b, 0x9f, 0x77, 0x7a, 0xca, 0x16,
  0xbe, 0xb7, 0x84, 0xae, 0x18, 0x30, 0xbf, 0xbf,
  0xd3, 0x83, 0x25, 0xaa, 0xbb, 0x93, 0x77, 0xdf,
  0x1b, 0xa7, 0x84, 0xd7, 0x46, 0xea, 0x27, 0x3b,
  0xf5, 0x16, 0xa4, 0x6f, 0xbf, 0xac, 0xf5, 0x11,
  0xc5, 0xbe, 0xba, 0x4c, 0x4a, 0xb3, 0xac, 0xc7,
  0xfa, 0x6f, 0x46, 0x0b, 0x6c, 0x0f, 0x47, 0x7b]

/-- crypto_scrypt.c:194-208 `testsmix`; `true` = the test passed. `hbuf` starts uninitialised
(its old contents are the argument). -/
def testsmix (szMax : Nat) (env : ScEnv) (tf : Transform) (junk : HMAC_SHA256_CTX) (hbuf : Bytes)
    (smix : SmixFn) : Res Bool := do
  let o ← crypto_scrypt_internal szMax env tf junk testPasswd testSalt 16 8 1 hbuf 64 smix
  return o.rc == 0 && o.buf == testResult

/-- The smix routines. [The values of `smix_func`, crypto_scrypt.c:48, 219, 228] -/
inductive SmixImpl
  | sse2 | generic
  deriving DecidableEq, Repr

/-- crypto_scrypt.c:210-235 `selectsmix`. `sse2Ok` is `cpusupport_x86_sse2()` (false when the
support is not compiled in); `impl` gives the code of the two routines; `e1`, `e2` are the system's
behaviour in the two self-tests. -/
def selectsmix (szMax : Nat) (sse2Ok : Bool) (e1 e2 : ScEnv) (tf : Transform) (junk : HMAC_SHA256_CTX)
    (hbuf : Bytes) (impl : SmixImpl → SmixFn) : Res SmixImpl := do
  let t1 ← if sse2Ok then testsmix szMax e1 tf junk hbuf (impl .sse2) else pure false
  if t1 then return .sse2
  let t2 ← testsmix szMax e2 tf junk hbuf (impl .generic)
  if t2 then return .generic
  .abort

/-- crypto_scrypt.c:246-257 `crypto_scrypt`; `st` is the static `smix_func`. -/
def crypto_scrypt (szMax : Nat) (sse2Ok : Bool) (e1 e2 env : ScEnv) (tf : Transform)
    (junk : HMAC_SHA256_CTX) (hbuf : Bytes) (impl : SmixImpl → SmixFn) (st : Option SmixImpl)
    (passwd salt : Bytes) (N : W64) (r p : W32) (buf : Bytes) (buflen : Nat) :
    Res (ScOut × Option SmixImpl) := do
  let f ← match st with
    | some f => pure f
    | none => selectsmix szMax sse2Ok e1 e2 tf junk hbuf impl
  let o ← crypto_scrypt_internal szMax env tf junk passwd salt N r p buf buflen (impl f)
  return (o, some f)

/-- The code that exists. [crypto_scrypt_smix.c:157-206, crypto_scrypt_smix_sse2.c:192-249] -/
def smixImpl : SmixImpl → SmixFn
  | .sse2 => crypto_scrypt_smix_sse2
  | .generic => crypto_scrypt_smix

/-! ### Reference implementation -/

/-- crypto_scrypt-ref.c:223-243, parameter checks (64-bit size_t). Division by zero is undefined. -/
def scryptCheckRef (szMax : Nat) (N : W64) (r p : W32) (buflen : Nat) : Res (Option Errno) :=
  let rs := r.toNat; let ps := p.toNat
  if szMax > 2 ^ 32 - 1 ∧ buflen > (2 ^ 32 - 1) * 32 then .ok (some .EFBIG)
  else if (r.setWidth 64 * p.setWidth 64).toNat ≥ 2 ^ 30 then .ok (some .EFBIG)
  else if (N &&& (N - 1)) ≠ 0 ∨ N = 0 then .ok (some .EINVAL)
  else if ps = 0 then .ub
  else if rs > szMax / 128 / ps ∨ (szMax / 256 ≤ 2 ^ 32 - 1 ∧ rs > szMax / 256) then .ok (some .ENOMEM)
  else if rs = 0 then .ub
  else if N.toNat > szMax / 128 / rs then .ok (some .ENOMEM)
  else .ok none

/-- The allocations of the reference implementation (all in bytes). [The calls in crypto_scrypt-ref.c:249-254] -/
structure RefEnv where
  allocB : Nat → Option Bytes
  allocXY : Nat → Option Bytes
  allocV : Nat → Option Bytes

/-- The sizes in crypto_scrypt-ref.c:249-254. -/
structure RefEnv.Sized (e : RefEnv) : Prop where
  B : ∀ n m, e.allocB n = some m → m.length = n
  XY : ∀ n m, e.allocXY n = some m → m.length = n
  V : ∀ n m, e.allocV n = some m → m.length = n

/-- crypto_scrypt-ref.c:213-283 `crypto_scrypt` -/
def crypto_scrypt_ref (szMax : Nat) (env : RefEnv) (tf : Transform) (junk : HMAC_SHA256_CTX)
    (passwd salt : Bytes) (N : W64) (r p : W32) (buf : Bytes) (buflen : Nat) : Res ScOut := do
  let rs := r.toNat; let ps := p.toNat; let M := szMax + 1
  match ← scryptCheckRef szMax N r p buflen with
  | some e => return ⟨-1, some e, buf, []⟩
  | none =>
  match env.allocB (128 * rs * ps % M) with
  | none => return ⟨-1, some .sys, buf, []⟩
  | some B =>
  match env.allocXY (256 * rs % M) with
  | none => return ⟨-1, some .sys, buf, []⟩
  | some XY =>
  match env.allocV (128 * rs * N.toNat % M) with
  | none => return ⟨-1, some .sys, buf, []⟩
  | some V =>
    let B ← PBKDF2_SHA256 tf junk passwd salt 1 B (ps * 128 * rs % M)
    let (B, _, _) ← forLoop ps (fun (B, V, XY) i => do
      let off := blockIndex szMax i rs
      let blk ← rdSlice B off (128 * rs)
      let (blk, V, XY) ← Ref.smix blk rs N.toNat V XY
      let B ← wrSlice B off blk
      return (B, V, XY)) (B, V, XY)
    let Bs ← rdSlice B 0 (ps * 128 * rs % M)
    let buf ← PBKDF2_SHA256 tf junk passwd Bs 1 buf buflen
    return ⟨0, none, buf, []⟩

end Scrypt
