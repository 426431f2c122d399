import Verif.Model.CryptoScrypt
/-
The key derivation with its cost: the same code as in Model/Smix.lean and Model/CryptoScrypt.lean, with a ghost counter that is incremented at every call of
`salsa20_8`, and with the list of the sizes asked from malloc/mmap.  `C55_erase_*` shows that forgetting the cost gives the original.
-/
namespace Scrypt

/-- A computation that counts Salsa20/8 cores. [Ghost state: no code] -/
def Cnt (α : Type) : Type := Res (α × Nat)

namespace Cnt

/-- Ghost state: no code. -/
def bind {α β : Type} (x : Cnt α) (f : α → Cnt β) : Cnt β :=
  Res.bind x fun a => Res.bind (f a.1) fun b => Res.ok (b.1, a.2 + b.2)

/-- Ghost state: no code. -/
instance : Monad Cnt where
  pure a := Res.ok (a, 0)
  bind := bind

/-- Code without calls of `salsa20_8`. [Ghost state: no code] -/
def free {α : Type} (x : Res α) : Cnt α := Res.bind x fun a => Res.ok (a, 0)

/-- A call of `salsa20_8`. [Ghost state: no code; marks the calls at crypto_scrypt_smix.c:120, 128 and crypto_scrypt_smix_sse2.c:145, 153] -/
def core {α : Type} (x : Res α) : Cnt α := Res.bind x fun a => Res.ok (a, 1)

/-- Forget the counter. [Ghost state: no code] -/
def erase {α : Type} (x : Cnt α) : Res α := Res.bind x fun a => Res.ok a.1

end Cnt

/-- `forLoop`, counting. [The `for` statements of crypto_scrypt_smix.c:169-203, crypto_scrypt_smix_sse2.c:205-246] -/
def forLoopC {σ : Type} (n : Nat) (f : σ → Nat → Cnt σ) (s : σ) : Cnt σ :=
  match n with
  | 0 => pure s
  | n + 1 => forLoopC n f s >>= fun s' => f s' n

namespace Smix

/-- `Ops`, counting. [As `Ops`: the helpers of crypto_scrypt_smix.c:42-146 and crypto_scrypt_smix_sse2.c:45-179] -/
structure OpsC where
  cpyToV : (V : List W32) → (voff : Nat) → (XY : List W32) → (xoff n : Nat) → Res (List W32)
  xorV : (XY : List W32) → (xoff : Nat) → (V : List W32) → (voff n : Nat) → Res (List W32)
  blockmix : (XY : List W32) → (bin bout z r : Nat) → Cnt (List W32)
  integerify : (XY : List W32) → (off r : Nat) → Res W64

/-- crypto_scrypt_smix.c:171-201 and crypto_scrypt_smix_sse2.c:209-240, `loops` counting. -/
def loopsC (ops : OpsC) (r N : Nat) (V XY : List W32) : Cnt (List W32 × List W32) := do
  let X := 0; let Y := 32 * r; let Z := 64 * r
  let (V, XY) ← forLoopC ((N + 1) / 2) (fun (V, XY) q => do
    let i := 2 * q
    let V ← Cnt.free (ops.cpyToV V (i * (32 * r)) XY X (32 * r))
    let XY ← ops.blockmix XY X Y Z r
    let V ← Cnt.free (ops.cpyToV V ((i + 1) * (32 * r)) XY Y (32 * r))
    let XY ← ops.blockmix XY Y X Z r
    return (V, XY)) (V, XY)
  let XY ← forLoopC ((N + 1) / 2) (fun XY _ => do
    let t ← Cnt.free (ops.integerify XY X r)
    let j := (t &&& (BitVec.ofNat 64 N - 1)).toNat
    let XY ← Cnt.free (ops.xorV XY X V (j * (32 * r)) (32 * r))
    let XY ← ops.blockmix XY X Y Z r
    let t ← Cnt.free (ops.integerify XY Y r)
    let j := (t &&& (BitVec.ofNat 64 N - 1)).toNat
    let XY ← Cnt.free (ops.xorV XY Y V (j * (32 * r)) (32 * r))
    ops.blockmix XY Y X Z r) XY
  return (V, XY)

end Smix

/-- crypto_scrypt_smix.c:108-134 `blockmix_salsa8`, counting. -/
def Gen.blockmixC (m : List W32) (bin bout z r : Nat) : Cnt (List W32) := do
  let m ← Cnt.free (cpyWithin m z (bin + (2 * r - 1) * 16) 16)
  forLoopC r (fun m k => do
    let i := 2 * k
    let m ← Cnt.free (xorWithin m z (bin + i * 16) 16)
    let m ← Cnt.core (Gen.salsa20_8 m z)
    let m ← Cnt.free (cpyWithin m (bout + i * 8) z 16)
    let m ← Cnt.free (xorWithin m z (bin + i * 16 + 16) 16)
    let m ← Cnt.core (Gen.salsa20_8 m z)
    Cnt.free (cpyWithin m (bout + i * 8 + r * 16) z 16)) m

/-- crypto_scrypt_smix_sse2.c:133-159 `blockmix_salsa8`, counting. -/
def SseSmix.blockmixC (m : List W32) (bin bout z r : Nat) : Cnt (List W32) := do
  let m ← Cnt.free (SseSmix.blkcpyWithin m z (bin + 4 * (8 * r - 4)) 16)
  forLoopC r (fun m i => do
    let m ← Cnt.free (SseSmix.blkxorWithin m z (bin + 4 * (i * 8)) 16)
    let m ← Cnt.core (SseSmix.salsa20_8 m z)
    let m ← Cnt.free (SseSmix.blkcpyWithin m (bout + 4 * (i * 4)) z 16)
    let m ← Cnt.free (SseSmix.blkxorWithin m z (bin + 4 * (i * 8 + 4)) 16)
    let m ← Cnt.core (SseSmix.salsa20_8 m z)
    Cnt.free (SseSmix.blkcpyWithin m (bout + 4 * ((r + i) * 4)) z 16)) m

/-- crypto_scrypt_smix.c:42-146, the helpers, counting. -/
def Gen.opsC : Smix.OpsC where
  cpyToV := cpyFrom
  xorV := xorFrom
  blockmix := Gen.blockmixC
  integerify := Gen.integerify

/-- crypto_scrypt_smix_sse2.c:45-179, the helpers, counting. -/
def SseSmix.opsC : Smix.OpsC where
  cpyToV := SseSmix.blkcpyFrom
  xorV := SseSmix.blkxorFrom
  blockmix := SseSmix.blockmixC
  integerify := SseSmix.integerify

/-- crypto_scrypt_smix.c:156-206 `crypto_scrypt_smix`, counting. -/
def crypto_scrypt_smixC (B : Bytes) (r N : Nat) (V XY : List W32) : Cnt (Bytes × List W32 × List W32) := do
  let XY ← Cnt.free (forLoop (32 * r) (fun XY k => do
    let w ← le32dec (B.drop (4 * k))
    wr XY k w) XY)
  let (V, XY) ← Smix.loopsC Gen.opsC r N V XY
  let B ← Cnt.free (forLoop (32 * r) (fun B k => do
    let w ← rd XY k
    wrSlice B (4 * k) (le32enc w)) B)
  return (B, V, XY)

/-- crypto_scrypt_smix_sse2.c:191-249 `crypto_scrypt_smix_sse2`, counting. -/
def crypto_scrypt_smix_sse2C (B : Bytes) (r N : Nat) (V XY : List W32) : Cnt (Bytes × List W32 × List W32) := do
  let XY ← Cnt.free (forLoop (2 * r) (fun XY k =>
    forLoop 16 (fun XY i => do
      let w ← le32dec (B.drop ((k * 16 + i * 5 % 16) * 4))
      wr XY (k * 16 + i) w) XY) XY)
  let (V, XY) ← Smix.loopsC SseSmix.opsC r N V XY
  let B ← Cnt.free (forLoop (2 * r) (fun B k =>
    forLoop 16 (fun B i => do
      let w ← rd XY (k * 16 + i)
      wrSlice B ((k * 16 + i * 5 % 16) * 4) (le32enc w)) B) B)
  return (B, V, XY)

/-- The two routines, counting. [crypto_scrypt_smix.c:157, crypto_scrypt_smix_sse2.c:192] -/
def smixImplC : SmixImpl → Bytes → Nat → Nat → List W32 → List W32 → Cnt (Bytes × List W32 × List W32)
  | .sse2 => crypto_scrypt_smix_sse2C
  | .generic => crypto_scrypt_smixC

/-- crypto_scrypt.c:137-141, `mixBlocks` counting. -/
def mixBlocksC (szMax : Nat) (f : SmixImpl) (r p N : Nat) (B : Bytes) (V XY : List W32) : Cnt (Bytes × List W32 × List W32) :=
  forLoopC p (fun (B, V, XY) i => do
    let off := blockIndex szMax i r
    let blk ← Cnt.free (rdSlice B off (128 * r))
    let (blk, V, XY) ← smixImplC f blk r N V XY
    let B ← Cnt.free (wrSlice B off blk)
    return (B, V, XY)) (B, V, XY)

/-- crypto_scrypt.c:55-166 `crypto_scrypt_internal`, counting; the second component is the list of the sizes asked from the allocator, in order. -/
def crypto_scrypt_internalC (szMax : Nat) (env : ScEnv) (tf : Transform) (junk : HMAC_SHA256_CTX) (passwd salt : Bytes) (N : W64) (r p : W32) (buf : Bytes)
    (buflen : Nat) (f : SmixImpl) : Cnt (ScOut × List Nat) :=
  let rs := r.toNat; let ps := p.toNat; let M := szMax + 1
  match scryptCheck szMax N r p buflen with
  | some e => pure (scErr0 e buf [], [])
  | none =>
  match env.allocB (128 * rs * ps % M) with
  | none => pure (scErr0 .sys buf [], [128 * rs * ps % M])
  | some B =>
  match env.allocXY ((256 * rs + 64) % M) with
  | none => pure (scErr1 .sys buf [.B], [128 * rs * ps % M, (256 * rs + 64) % M])
  | some XY =>
  match env.allocV (128 * rs * N.toNat % M) with
  | none => pure (scErr2 .sys buf [.B, .XY], [128 * rs * ps % M, (256 * rs + 64) % M, 128 * rs * N.toNat % M])
  | some V => do
    let asked := [128 * rs * ps % M, (256 * rs + 64) % M, 128 * rs * N.toNat % M]
    let B ← Cnt.free (PBKDF2_SHA256 tf junk passwd salt 1 B (ps * 128 * rs % M))
    let (B, _, _) ← mixBlocksC szMax f rs ps N.toNat B V XY
    let Bs ← Cnt.free (rdSlice B 0 (ps * 128 * rs % M))
    let buf ← Cnt.free (PBKDF2_SHA256 tf junk passwd Bs 1 buf buflen)
    let live := [ScObj.B, .XY, .V]
    if !env.munmapOk then
      return (scErr2 .sys buf live, asked)
    let live := live.erase .V
    let live := live.erase .XY
    let live := live.erase .B
    return (⟨0, none, buf, live⟩, asked)

end Scrypt
