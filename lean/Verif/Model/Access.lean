import Verif.Model.CryptoScrypt
/-
The mixing phase of the key derivation with the list of the memory accesses it makes: the same code as in Model/Smix.lean and Model/CryptoScrypt.lean, with a
ghost log of every element read or written (which array, which element, read or write).  `C78_erase` shows that forgetting the log gives the original.
-/
namespace Scrypt

/-- The contexts of PBKDF2_SHA256 (`mac`: that of the functions of scryptenc.c). [sha256.c:638, scryptenc.c:243, 363, 426, 496, 588, 800] -/
inductive HOwner
  | Phctx | PShctx | hctx | mac
  deriving DecidableEq, Repr

/-- The two halves of an HMAC context; `plain`: the context of the header's checksum. [sha256.h:55-58; scryptenc.c:241, 361] -/
inductive HCtx
  | inner (o : HOwner) | outer (o : HOwner) | plain
  deriving DecidableEq, Repr

/-- The arrays of the hashing: the arguments and local variables of PBKDF2_SHA256 and the constant tables.
[sha256.c:80-103, 323-328, 635-645; Krnd: also sha256_sse2.c:35-52, sha256_arm.c:18-35] -/
inductive HObj
  | passwd | salt | out | W | S | Krnd | PAD | initial_state | khash | pad | ihash | ivec | U | T
  | state (c : HCtx) | count (c : HCtx) | buf (c : HCtx)
  deriving DecidableEq, Repr

/-- The arrays of the encryption: the caller's memory, the derived key, the header (an automatic variable when encrypting), the expanded key, the fields of the
stream, the counter block of the accelerated loops, the digest, the buffer of the file functions, the salt.
[scryptenc.c:233-243, 415-427, 485-497, 576-590; crypto_aes_aesni.c:20-23; crypto_aesctr_shared.c:8-13; crypto_aesctr_aesni.c:64; crypto_aesctr_arm.c:45] -/
inductive CObj
  | mem | dk | header | rkeys | bytectr | kblk | pblk | cblk | hbuf | iobuf | salt
  deriving DecidableEq, Repr

/-- The arrays of the mixing phase: the block being mixed (bytes), the table V, the work area XY (32-bit words), and the local array x of salsa20_8; and those of the
hashing. [The arguments of crypto_scrypt_smix.c:157-158 and crypto_scrypt_smix_sse2.c:192-193; x: crypto_scrypt_smix.c:64] -/
inductive Arr
  | B | V | XY | x
  | h (o : HObj)
  | c (o : CObj)
  deriving DecidableEq, Repr

/-- An access to one element. [Ghost state: no code] -/
structure Acc where
  arr : Arr
  idx : Nat
  write : Bool
  deriving DecidableEq, Repr

/-- An access to the block at byte `off` of B is an access to B: the callee is given `&B[off]`. [crypto_scrypt.c:140] -/
def Acc.inBlock (off : Nat) (c : Acc) : Acc := if c.arr = .B then { c with idx := off + c.idx } else c

/-- A computation that logs its memory accesses. [Ghost state: no code] -/
def Logged (α : Type) : Type := Res (α × List Acc)

namespace Logged

/-- Ghost state: no code. -/
def bind {α β : Type} (x : Logged α) (f : α → Logged β) : Logged β :=
  Res.bind x fun a => Res.bind (f a.1) fun b => Res.ok (b.1, a.2 ++ b.2)

/-- Ghost state: no code. -/
instance : Monad Logged where
  pure a := Res.ok (a, [])
  bind := bind

/-- An operation and what it accesses. [Ghost state: no code] -/
def log {α : Type} (t : List Acc) (x : Res α) : Logged α := Res.bind x fun a => Res.ok (a, t)

/-- Forget the log. [Ghost state: no code] -/
def erase {α : Type} (x : Logged α) : Res α := Res.bind x fun a => Res.ok a.1

/-- A call that is given `&B[off]`. [crypto_scrypt.c:140] -/
def shift {α : Type} (off : Nat) (x : Logged α) : Logged α := Res.bind x fun a => Res.ok (a.1, a.2.map (Acc.inBlock off))

end Logged

/-- `n` consecutive elements from `off` on. [Ghost state: no code] -/
def accs (a : Arr) (w : Bool) (off n : Nat) : List Acc := (List.range n).map fun k => ⟨a, off + k, w⟩

/-- `forLoop`, logging. [The `for` statements of crypto_scrypt_smix.c:50-203, crypto_scrypt_smix_sse2.c:51-246] -/
def forLoopT {σ : Type} (n : Nat) (f : σ → Nat → Logged σ) (s : σ) : Logged σ :=
  match n with
  | 0 => pure s
  | n + 1 => forLoopT n f s >>= fun s' => f s' n

/-- Reading one element `m[i]`. [The array accesses of crypto_scrypt_smix.c:42-206] -/
def rdT {α : Type} (a : Arr) (m : List α) (i : Nat) : Logged α := Logged.log [⟨a, i, false⟩] (rd m i)

/-- Writing one element. [The array accesses of crypto_scrypt_smix.c:42-206] -/
def wrT {α : Type} (a : Arr) (m : List α) (i : Nat) (v : α) : Logged (List α) := Logged.log [⟨a, i, true⟩] (wr m i v)

/-- Reading and writing `n` elements with memcpy. [crypto_scrypt_smix.c:46] -/
def rdSliceT {α : Type} (a : Arr) (m : List α) (off n : Nat) : Logged (List α) := Logged.log (accs a false off n) (rdSlice m off n)

/-- crypto_scrypt_smix.c:46 -/
def wrSliceT {α : Type} (a : Arr) (m : List α) (off : Nat) (s : List α) : Logged (List α) := Logged.log (accs a true off s.length) (wrSlice m off s)

/-- le32dec(&B[off]): four bytes. [crypto_scrypt_smix.c:168, crypto_scrypt_smix_sse2.c:207] -/
def le32decT (B : Bytes) (off : Nat) : Logged W32 := Logged.log (accs .B false off 4) (le32dec (B.drop off))

/-- crypto_scrypt_smix.c:50-56 between arrays, logging. -/
def xorFromT (da sa : Arr) (dest : List W32) (doff : Nat) (src : List W32) (soff n : Nat) : Logged (List W32) :=
  forLoopT n (fun d i => do
    let x ← rdT da d (doff + i)
    let y ← rdT sa src (soff + i)
    wrT da d (doff + i) (x ^^^ y)) dest

/-- crypto_scrypt_smix.c:50-56 within XY, logging. -/
def xorWithinT (m : List W32) (doff soff n : Nat) : Logged (List W32) :=
  forLoopT n (fun m i => do
    let x ← rdT .XY m (doff + i)
    let y ← rdT .XY m (soff + i)
    wrT .XY m (doff + i) (x ^^^ y)) m

/-- crypto_scrypt_smix.c:43-47 between arrays, logging. -/
def cpyFromT (da sa : Arr) (dest : List W32) (doff : Nat) (src : List W32) (soff n : Nat) : Logged (List W32) := do
  let s ← rdSliceT sa src soff n
  wrSliceT da dest doff s

/-- crypto_scrypt_smix.c:43-47 within XY, logging. -/
def cpyWithinT (m : List W32) (doff soff n : Nat) : Logged (List W32) := do
  let s ← rdSliceT .XY m soff n
  wrSliceT .XY m doff s

namespace Smix

/-- `x[d] ^= R(x[a]+x[b], n)`, logging. [crypto_scrypt_smix.c:72-95] -/
def qstepT (x : List W32) (d a b n : Nat) : Logged (List W32) := do
  let xa ← rdT .x x a
  let xb ← rdT .x x b
  let xd ← rdT .x x d
  wrT .x x d (xd ^^^ R (xa + xb) n)

/-- crypto_scrypt_smix.c:71-82 (columns), logging. -/
def colStepT (x : List W32) : Logged (List W32) := do
  let x ← qstepT x 4 0 12 7;   let x ← qstepT x 8 4 0 9
  let x ← qstepT x 12 8 4 13;  let x ← qstepT x 0 12 8 18
  let x ← qstepT x 9 5 1 7;    let x ← qstepT x 13 9 5 9
  let x ← qstepT x 1 13 9 13;  let x ← qstepT x 5 1 13 18
  let x ← qstepT x 14 10 6 7;  let x ← qstepT x 2 14 10 9
  let x ← qstepT x 6 2 14 13;  let x ← qstepT x 10 6 2 18
  let x ← qstepT x 3 15 11 7;  let x ← qstepT x 7 3 15 9
  let x ← qstepT x 11 7 3 13;  qstepT x 15 11 7 18

/-- crypto_scrypt_smix.c:84-95 (rows), logging. -/
def rowStepT (x : List W32) : Logged (List W32) := do
  let x ← qstepT x 1 0 3 7;    let x ← qstepT x 2 1 0 9
  let x ← qstepT x 3 2 1 13;   let x ← qstepT x 0 3 2 18
  let x ← qstepT x 6 5 4 7;    let x ← qstepT x 7 6 5 9
  let x ← qstepT x 4 7 6 13;   let x ← qstepT x 5 4 7 18
  let x ← qstepT x 11 10 9 7;  let x ← qstepT x 8 11 10 9
  let x ← qstepT x 9 8 11 13;  let x ← qstepT x 10 9 8 18
  let x ← qstepT x 12 15 14 7; let x ← qstepT x 13 12 15 9
  let x ← qstepT x 14 13 12 13; qstepT x 15 14 13 18

/-- `for (i = 0; i < 8; i += 2) { columns; rows }`, logging. [crypto_scrypt_smix.c:69-97] -/
def rounds8T (x : List W32) : Logged (List W32) :=
  forLoopT 4 (fun x _ => do
    let x ← colStepT x
    rowStepT x) x

/-- `Ops`, logging. [As `Ops`: the helpers of crypto_scrypt_smix.c:42-146 and crypto_scrypt_smix_sse2.c:45-179] -/
structure OpsT where
  cpyToV : (V : List W32) → (voff : Nat) → (XY : List W32) → (xoff n : Nat) → Logged (List W32)
  xorV : (XY : List W32) → (xoff : Nat) → (V : List W32) → (voff n : Nat) → Logged (List W32)
  blockmix : (XY : List W32) → (bin bout z r : Nat) → Logged (List W32)
  integerify : (XY : List W32) → (off r : Nat) → Logged W64

/-- crypto_scrypt_smix.c:171-201 and crypto_scrypt_smix_sse2.c:209-240, `loops` logging. -/
def loopsT (ops : OpsT) (r N : Nat) (V XY : List W32) : Logged (List W32 × List W32) := do
  let X := 0; let Y := 32 * r; let Z := 64 * r
  let (V, XY) ← forLoopT ((N + 1) / 2) (fun (V, XY) q => do
    let i := 2 * q
    let V ← ops.cpyToV V (i * (32 * r)) XY X (32 * r)
    let XY ← ops.blockmix XY X Y Z r
    let V ← ops.cpyToV V ((i + 1) * (32 * r)) XY Y (32 * r)
    let XY ← ops.blockmix XY Y X Z r
    return (V, XY)) (V, XY)
  let XY ← forLoopT ((N + 1) / 2) (fun XY _ => do
    let t ← ops.integerify XY X r
    let j := (t &&& (BitVec.ofNat 64 N - 1)).toNat
    let XY ← ops.xorV XY X V (j * (32 * r)) (32 * r)
    let XY ← ops.blockmix XY X Y Z r
    let t ← ops.integerify XY Y r
    let j := (t &&& (BitVec.ofNat 64 N - 1)).toNat
    let XY ← ops.xorV XY Y V (j * (32 * r)) (32 * r)
    ops.blockmix XY Y X Z r) XY
  return (V, XY)

end Smix

namespace Gen
open Smix

/-- crypto_scrypt_smix.c:62-100 `salsa20_8`, logging. -/
def salsa20_8T (m : List W32) (off : Nat) : Logged (List W32) := do
  let x ← rdSliceT .XY m off 16
  let x ← wrSliceT .x x 0 x
  let x ← rounds8T x
  forLoopT 16 (fun m i => do
    let b ← rdT .XY m (off + i)
    let xi ← rdT .x x i
    wrT .XY m (off + i) (b + xi)) m

/-- crypto_scrypt_smix.c:108-134 `blockmix_salsa8`, logging. -/
def blockmixT (m : List W32) (bin bout z r : Nat) : Logged (List W32) := do
  let m ← cpyWithinT m z (bin + (2 * r - 1) * 16) 16
  forLoopT r (fun m k => do
    let i := 2 * k
    let m ← xorWithinT m z (bin + i * 16) 16
    let m ← salsa20_8T m z
    let m ← cpyWithinT m (bout + i * 8) z 16
    let m ← xorWithinT m z (bin + i * 16 + 16) 16
    let m ← salsa20_8T m z
    cpyWithinT m (bout + i * 8 + r * 16) z 16) m

/-- crypto_scrypt_smix.c:140-146 `integerify`, logging. -/
def integerifyT (m : List W32) (off r : Nat) : Logged W64 := do
  let x1 ← rdT .XY m (off + (2 * r - 1) * 16 + 1)
  let x0 ← rdT .XY m (off + (2 * r - 1) * 16 + 0)
  return (x1.setWidth 64 <<< 32) + x0.setWidth 64

/-- crypto_scrypt_smix.c:42-146, the helpers, logging. -/
def opsT : OpsT where
  cpyToV := cpyFromT .V .XY
  xorV := xorFromT .XY .V
  blockmix := blockmixT
  integerify := integerifyT

end Gen

/-- crypto_scrypt_smix.c:156-206 `crypto_scrypt_smix`, logging. -/
def crypto_scrypt_smixT (B : Bytes) (r N : Nat) (V XY : List W32) : Logged (Bytes × List W32 × List W32) := do
  let XY ← forLoopT (32 * r) (fun XY k => do
    let w ← le32decT B (4 * k)
    wrT .XY XY k w) XY
  let (V, XY) ← Smix.loopsT Gen.opsT r N V XY
  let B ← forLoopT (32 * r) (fun B k => do
    let w ← rdT .XY XY k
    wrSliceT .B B (4 * k) (le32enc w)) B
  return (B, V, XY)

namespace SseSmix
open Smix

/-- crypto_scrypt_smix_sse2.c:76-79, 52, 62, logging. -/
def ldT (a : Arr) (m : List W32) (off i : Nat) : Logged V4 := Logged.log (accs a false (off + 4 * i) 4) (ld m off i)

/-- crypto_scrypt_smix_sse2.c:121-124, 52, 62, logging. -/
def stT (a : Arr) (m : List W32) (off i : Nat) (v : V4) : Logged (List W32) := Logged.log (accs a true (off + 4 * i) 4) (st m off i v)

/-- crypto_scrypt_smix_sse2.c:45-53 `blkcpy` between arrays, logging. -/
def blkcpyFromT (da sa : Arr) (dest : List W32) (doff : Nat) (src : List W32) (soff n : Nat) : Logged (List W32) :=
  forLoopT (n / 4) (fun d i => do
    let v ← ldT sa src soff i
    stT da d doff i v) dest

/-- crypto_scrypt_smix_sse2.c:46-53 within XY, logging. -/
def blkcpyWithinT (m : List W32) (doff soff n : Nat) : Logged (List W32) :=
  forLoopT (n / 4) (fun m i => do
    let v ← ldT .XY m soff i
    stT .XY m doff i v) m

/-- crypto_scrypt_smix_sse2.c:55-63 `blkxor` between arrays, logging. -/
def blkxorFromT (da sa : Arr) (dest : List W32) (doff : Nat) (src : List W32) (soff n : Nat) : Logged (List W32) :=
  forLoopT (n / 4) (fun d i => do
    let x ← ldT da d doff i
    let y ← ldT sa src soff i
    stT da d doff i (mm_xor_si128 x y)) dest

/-- crypto_scrypt_smix_sse2.c:56-63 within XY, logging. -/
def blkxorWithinT (m : List W32) (doff soff n : Nat) : Logged (List W32) :=
  forLoopT (n / 4) (fun m i => do
    let x ← ldT .XY m doff i
    let y ← ldT .XY m soff i
    stT .XY m doff i (mm_xor_si128 x y)) m

/-- crypto_scrypt_smix_sse2.c:69-125 `salsa20_8`, logging (the rounds are on registers). -/
def salsa20_8T (m : List W32) (off : Nat) : Logged (List W32) := do
  let B0 ← ldT .XY m off 0
  let B1 ← ldT .XY m off 1
  let B2 ← ldT .XY m off 2
  let B3 ← ldT .XY m off 3
  let (X0, X1, X2, X3) := iter 4 (fun X _ => dround X) (B0, B1, B2, B3)
  let b ← ldT .XY m off 0
  let m ← stT .XY m off 0 (mm_add_epi32 b X0)
  let b ← ldT .XY m off 1
  let m ← stT .XY m off 1 (mm_add_epi32 b X1)
  let b ← ldT .XY m off 2
  let m ← stT .XY m off 2 (mm_add_epi32 b X2)
  let b ← ldT .XY m off 3
  stT .XY m off 3 (mm_add_epi32 b X3)

/-- crypto_scrypt_smix_sse2.c:133-159 `blockmix_salsa8`, logging. -/
def blockmixT (m : List W32) (bin bout z r : Nat) : Logged (List W32) := do
  let m ← blkcpyWithinT m z (bin + 4 * (8 * r - 4)) 16
  forLoopT r (fun m i => do
    let m ← blkxorWithinT m z (bin + 4 * (i * 8)) 16
    let m ← salsa20_8T m z
    let m ← blkcpyWithinT m (bout + 4 * (i * 4)) z 16
    let m ← blkxorWithinT m z (bin + 4 * (i * 8 + 4)) 16
    let m ← salsa20_8T m z
    blkcpyWithinT m (bout + 4 * ((r + i) * 4)) z 16) m

/-- crypto_scrypt_smix_sse2.c:166-179 `integerify`, logging. -/
def integerifyT (m : List W32) (off r : Nat) : Logged W64 := do
  let v0 ← ldT .XY m (off + 4 * ((2 * r - 1) * 4)) 0
  let X0 := v0.l0
  let v3 ← ldT .XY m (off + 4 * ((2 * r - 1) * 4)) 3
  let X13 := (mm_srli_si128 v3 4).l0
  return (X13.setWidth 64 <<< 32) + X0.setWidth 64

/-- crypto_scrypt_smix_sse2.c:45-179, the helpers, logging. -/
def opsT : OpsT where
  cpyToV := blkcpyFromT .V .XY
  xorV := blkxorFromT .XY .V
  blockmix := blockmixT
  integerify := integerifyT

end SseSmix

/-- crypto_scrypt_smix_sse2.c:191-249 `crypto_scrypt_smix_sse2`, logging. -/
def crypto_scrypt_smix_sse2T (B : Bytes) (r N : Nat) (V XY : List W32) : Logged (Bytes × List W32 × List W32) := do
  let XY ← forLoopT (2 * r) (fun XY k =>
    forLoopT 16 (fun XY i => do
      let w ← le32decT B ((k * 16 + i * 5 % 16) * 4)
      wrT .XY XY (k * 16 + i) w) XY) XY
  let (V, XY) ← Smix.loopsT SseSmix.opsT r N V XY
  let B ← forLoopT (2 * r) (fun B k =>
    forLoopT 16 (fun B i => do
      let w ← rdT .XY XY (k * 16 + i)
      wrSliceT .B B ((k * 16 + i * 5 % 16) * 4) (le32enc w)) B) B
  return (B, V, XY)

/-- The two routines, logging. [crypto_scrypt_smix.c:157, crypto_scrypt_smix_sse2.c:192] -/
def smixImplT : SmixImpl → Bytes → Nat → Nat → List W32 → List W32 → Logged (Bytes × List W32 × List W32)
  | .sse2 => crypto_scrypt_smix_sse2T
  | .generic => crypto_scrypt_smixT

/-- crypto_scrypt.c:137-141, the loop over the `p` blocks, logging. -/
def mixBlocksT (szMax : Nat) (f : SmixImpl) (r p N : Nat) (B : Bytes) (V XY : List W32) : Logged (Bytes × List W32 × List W32) :=
  forLoopT p (fun (B, V, XY) i => do
    let off := blockIndex szMax i r
    let blk ← Logged.log [] (rdSlice B off (128 * r))
    let (blk, V, XY) ← Logged.shift off (smixImplT f blk r N V XY)
    let B ← Logged.log [] (wrSlice B off blk)
    return (B, V, XY)) (B, V, XY)

/-- crypto_scrypt.c:57-166 `_crypto_scrypt`, with a log of the accesses of the mixing phase (lines 137-141); what PBKDF2 (lines 133-135 and 143-145) accesses is
not logged. -/
def crypto_scrypt_internalT (szMax : Nat) (env : ScEnv) (tf : Transform) (junk : HMAC_SHA256_CTX)
    (passwd salt : Bytes) (N : W64) (r p : W32) (buf : Bytes) (buflen : Nat) (f : SmixImpl) : Logged ScOut :=
  let rs := r.toNat; let ps := p.toNat; let M := szMax + 1
  match scryptCheck szMax N r p buflen with
  | some e => Logged.log [] (.ok (scErr0 e buf []))
  | none =>
  match env.allocB (128 * rs * ps % M) with
  | none => Logged.log [] (.ok (scErr0 .sys buf []))
  | some B =>
  match env.allocXY ((256 * rs + 64) % M) with
  | none => Logged.log [] (.ok (scErr1 .sys buf [.B]))
  | some XY =>
  match env.allocV (128 * rs * N.toNat % M) with
  | none => Logged.log [] (.ok (scErr2 .sys buf [.B, .XY]))
  | some V => do
    let B ← Logged.log [] (PBKDF2_SHA256 tf junk passwd salt 1 B (ps * 128 * rs % M))
    let (B, _, _) ← mixBlocksT szMax f rs ps N.toNat B V XY
    let Bs ← Logged.log [] (rdSlice B 0 (ps * 128 * rs % M))
    let buf ← Logged.log [] (PBKDF2_SHA256 tf junk passwd Bs 1 buf buflen)
    let live := [ScObj.B, .XY, .V]
    if !env.munmapOk then
      return scErr2 .sys buf live
    let live := live.erase .V
    let live := live.erase .XY
    let live := live.erase .B
    return ⟨0, none, buf, live⟩

end Scrypt
