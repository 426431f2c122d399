import Verif.Model.Sha256
import Verif.Model.CryptoScrypt
import Verif.Model.Entropy
/-
sha256.c, crypto_scrypt.c and the part of crypto_entropy.c that hashes, once more, with the buffers of the
caller as regions of one memory: every byte is read from that memory at the moment the C code reads it and
stored into it at the moment the C code stores it, so overlapping buffers behave as they do in C.

`Model/Sha256.lean`, `Model/CryptoScrypt.lean` and `Model/Entropy.lean` treat the inputs as values read
beforehand. Contexts and local arrays are separate objects, as in C.
-/
namespace Scrypt

/-- sha256.c:49-60 `be32enc_vect(dst, src, len)`, `dst` = `&mem[dp]`. -/
def be32enc_vectM (mem : Bytes) (dp : Nat) (src : List W32) (len : Nat) : Res Bytes := do
  cassert (len % 4 == 0)
  forLoop (len / 4) (fun m i => do
    let x ← rd src i
    wrSlice m (dp + 4 * i) (be32enc x)) mem

/-- sha256.c:411-416, `while (len >= 64)`; `src` = `&mem[p]`, `fuel` as in `updLoop`. -/
def updLoopM (tf : Transform) (mem : Bytes) : Nat → List W32 → Nat → Nat → Res (List W32 × Nat × Nat)
  | 0, state, p, len => .ok (state, p, len)
  | fuel + 1, state, p, len =>
    if len ≥ 64 then do
      let blk ← rdSlice mem p 64
      let state ← tf state blk
      updLoopM tf mem fuel state (p + 64) (len - 64)
    else .ok (state, p, len)

/-- sha256.c:382-421 `SHA256_Update_internal(ctx, &mem[p], len)` -/
def SHA256_UpdateM (tf : Transform) (ctx : SHA256_CTX) (mem : Bytes) (p len : Nat) : Res SHA256_CTX := do
  if len == 0 then return ctx
  let r := ctx.r
  let ctx := { ctx with count := ctx.count + (BitVec.ofNat 64 len <<< 3) }
  if len < 64 - r then do
    let src ← rdSlice mem p len
    let buf ← wrSlice ctx.buf r src
    return { ctx with buf := buf }
  else do
    let src ← rdSlice mem p (64 - r)
    let buf ← wrSlice ctx.buf r src
    let state ← tf ctx.state buf
    let (state, p, rest) ← updLoopM tf mem len state (p + (64 - r)) (len - (64 - r))
    let src ← rdSlice mem p rest
    let buf ← wrSlice buf 0 src
    return { ctx with state := state, buf := buf }

/-- sha256.c:441-451 `SHA256_Final_internal(&mem[dp], ctx)`: the memory after it. -/
def SHA256_Final_internalM (tf : Transform) (ctx : SHA256_CTX) (mem : Bytes) (dp : Nat) : Res (Bytes × SHA256_CTX) := do
  let ctx ← SHA256_Pad tf ctx
  let mem ← be32enc_vectM mem dp ctx.state 32
  return (mem, ctx)

/-- sha256.c:473-486 `SHA256_Buf(&mem[p], len, &mem[dp])` -/
def SHA256_BufM (tf : Transform) (ctx : SHA256_CTX) (mem : Bytes) (p len dp : Nat) : Res Bytes := do
  let ctx := SHA256_Init ctx
  let ctx ← SHA256_UpdateM tf ctx mem p len
  let (mem, _) ← SHA256_Final_internalM tf ctx mem dp
  return mem

/-- `memset(pad, v, 64); for (i = 0; i < Klen; i++) pad[i] ^= K[i];`, K = `&arr[kp]`
(sha256.c:513-515, 520-522). -/
def hmacPadM (v : Byte) (arr : Bytes) (kp klen : Nat) : Res Bytes :=
  forLoop klen (fun pad i => do
    let x ← rd pad i
    let k ← rd arr (kp + i)
    wr pad i (x ^^^ k)) (List.replicate 64 v)

/-- sha256.c:493-523 `HMAC_SHA256_Init_internal(ctx, &mem[kp], klen)`; a long key is replaced by the local
array `khash`. -/
def HMAC_SHA256_InitM (tf : Transform) (ctx : HMAC_SHA256_CTX) (mem : Bytes) (kp klen : Nat) :
    Res HMAC_SHA256_CTX := do
  let (ictx, arr, kp, klen) ← (if klen > 64 then do
      let ictx := SHA256_Init ctx.ictx
      let ictx ← SHA256_UpdateM tf ictx mem kp klen
      let (khash, ictx) ← SHA256_Final_internal tf ictx
      return (ictx, khash, 0, 32)
    else return (ctx.ictx, mem, kp, klen) : Res (SHA256_CTX × Bytes × Nat × Nat))
  let ictx := SHA256_Init ictx
  let pad ← hmacPadM 0x36 arr kp klen
  let ictx ← SHA256_Update tf ictx pad
  let octx := SHA256_Init ctx.octx
  let pad ← hmacPadM 0x5c arr kp klen
  let octx ← SHA256_Update tf octx pad
  return ⟨ictx, octx⟩

/-- sha256.c:546-553 `HMAC_SHA256_Update_internal(ctx, &mem[p], len)` -/
def HMAC_SHA256_UpdateM (tf : Transform) (ctx : HMAC_SHA256_CTX) (mem : Bytes) (p len : Nat) :
    Res HMAC_SHA256_CTX := do
  let ictx ← SHA256_UpdateM tf ctx.ictx mem p len
  return { ctx with ictx := ictx }

/-- sha256.c:573-586 `HMAC_SHA256_Final_internal(&mem[dp], ctx)`; `ihash` is a local array. -/
def HMAC_SHA256_Final_internalM (tf : Transform) (ctx : HMAC_SHA256_CTX) (mem : Bytes) (dp : Nat) :
    Res (Bytes × HMAC_SHA256_CTX) := do
  let (ihash, ictx) ← SHA256_Final_internal tf ctx.ictx
  let octx ← SHA256_Update tf ctx.octx ihash
  let (mem, octx) ← SHA256_Final_internalM tf octx mem dp
  return (mem, ⟨ictx, octx⟩)

/-- sha256.c:611-627 `HMAC_SHA256_Buf(&mem[kp], klen, &mem[p], len, &mem[dp])` -/
def HMAC_SHA256_BufM (tf : Transform) (ctx : HMAC_SHA256_CTX) (mem : Bytes) (kp klen p len dp : Nat) : Res Bytes := do
  let ctx ← HMAC_SHA256_InitM tf ctx mem kp klen
  let ctx ← HMAC_SHA256_UpdateM tf ctx mem p len
  let (mem, _) ← HMAC_SHA256_Final_internalM tf ctx mem dp
  return mem

/-- sha256.c:662-691, the loop over the blocks of output: `ivec`, `U` and `T` are local arrays, each block goes
to `&out[bp]` before the next one is begun. -/
def pbkdf2BlocksM (tf : Transform) (Phctx PShctx : HMAC_SHA256_CTX) (c dkLen : Nat) (out : Bytes) (bp : Nat) : Res Bytes :=
  -- for (i = 0; i * 32 < dkLen; i++)
  forLoop ((dkLen + 31) / 32) (fun m i => do
    let ivec := be32enc (BitVec.ofNat 32 (i + 1))
    let hctx ← HMAC_SHA256_Update tf PShctx ivec
    let (U, _) ← HMAC_SHA256_Final_internal tf hctx
    let T := U
    let (_, T) ← pbkdf2Inner tf Phctx (c - 1) U T
    let clen := dkLen - i * 32
    let clen := if clen > 32 then 32 else clen
    let src ← rdSlice T 0 clen
    wrSlice m (bp + i * 32) src) out

/-- sha256.c:634-701 `PBKDF2_SHA256(&mem[pp], plen, &mem[sp], slen, c, &mem[bp], dkLen)` -/
def PBKDF2_SHA256M (tf : Transform) (junk : HMAC_SHA256_CTX) (mem : Bytes) (pp plen sp slen : Nat) (c : Nat)
    (bp dkLen : Nat) : Res Bytes := do
  cassert (dkLen ≤ 32 * (2 ^ 32 - 1))
  let Phctx ← HMAC_SHA256_InitM tf junk mem pp plen
  let PShctx ← HMAC_SHA256_UpdateM tf Phctx mem sp slen
  pbkdf2BlocksM tf Phctx PShctx c dkLen mem bp

/-- sha256.c:634-701 `PBKDF2_SHA256` as called at crypto_scrypt.c:135: password and salt in the memory of the
caller, output the separate array `B`. -/
def PBKDF2_SHA256_to (tf : Transform) (junk : HMAC_SHA256_CTX) (mem : Bytes) (pp plen sp slen : Nat) (c : Nat)
    (B : Bytes) (dkLen : Nat) : Res Bytes := do
  cassert (dkLen ≤ 32 * (2 ^ 32 - 1))
  let Phctx ← HMAC_SHA256_InitM tf junk mem pp plen
  let PShctx ← HMAC_SHA256_UpdateM tf Phctx mem sp slen
  pbkdf2BlocksM tf Phctx PShctx c dkLen B 0

/-- sha256.c:634-701 `PBKDF2_SHA256` as called at crypto_scrypt.c:144: salt the separate array `B`, password and
output in the memory of the caller. -/
def PBKDF2_SHA256_from (tf : Transform) (junk : HMAC_SHA256_CTX) (mem : Bytes) (pp plen : Nat) (salt : Bytes) (c : Nat)
    (bp dkLen : Nat) : Res Bytes := do
  cassert (dkLen ≤ 32 * (2 ^ 32 - 1))
  let Phctx ← HMAC_SHA256_InitM tf junk mem pp plen
  let PShctx ← HMAC_SHA256_Update tf Phctx salt
  pbkdf2BlocksM tf Phctx PShctx c dkLen mem bp

/-- crypto_scrypt.c:55-166 `crypto_scrypt_internal(&mem[pp], plen, &mem[sp], slen, N, r, p, &mem[bp], buflen,
smix)`; the `buf` of the outcome is the memory. -/
def crypto_scrypt_internalM (szMax : Nat) (env : ScEnv) (tf : Transform) (junk : HMAC_SHA256_CTX)
    (mem : Bytes) (pp plen sp slen : Nat) (N : W64) (r p : W32) (bp buflen : Nat) (smix : SmixFn) :
    Res ScOut :=
  let rs := r.toNat; let ps := p.toNat; let M := szMax + 1
  match scryptCheck szMax N r p buflen with
  | some e => .ok (scErr0 e mem [])
  | none =>
  match env.allocB (128 * rs * ps % M) with
  | none => .ok (scErr0 .sys mem [])
  | some B =>
  match env.allocXY ((256 * rs + 64) % M) with
  | none => .ok (scErr1 .sys mem [.B])
  | some XY =>
  match env.allocV (128 * rs * N.toNat % M) with
  | none => .ok (scErr2 .sys mem [.B, .XY])
  | some V => do
    let B ← PBKDF2_SHA256_to tf junk mem pp plen sp slen 1 B (ps * 128 * rs % M)
    let (B, _, _) ← mixBlocks szMax smix rs ps N.toNat B V XY
    let Bs ← rdSlice B 0 (ps * 128 * rs % M)
    let mem ← PBKDF2_SHA256_from tf junk mem pp plen Bs 1 bp buflen
    let live := [ScObj.B, .XY, .V]
    if !env.munmapOk then
      return scErr2 .sys mem live                            -- goto err2
    let live := live.erase .V
    let live := live.erase .XY
    let live := live.erase .B
    return ⟨0, none, mem, live⟩

/-- crypto_scrypt.c:246-257 `crypto_scrypt(&mem[pp], plen, &mem[sp], slen, N, r, p, &mem[bp], buflen)` -/
def crypto_scryptM (szMax : Nat) (sse2Ok : Bool) (e1 e2 env : ScEnv) (tf : Transform)
    (junk : HMAC_SHA256_CTX) (hbuf : Bytes) (impl : SmixImpl → SmixFn) (st : Option SmixImpl)
    (mem : Bytes) (pp plen sp slen : Nat) (N : W64) (r p : W32) (bp buflen : Nat) :
    Res (ScOut × Option SmixImpl) := do
  let f ← match st with
    | some f => pure f
    | none => selectsmix szMax sse2Ok e1 e2 tf junk hbuf impl
  let o ← crypto_scrypt_internalM szMax env tf junk mem pp plen sp slen N r p bp buflen (impl f)
  return (o, some f)

/-- crypto_entropy.c:110-115, 121-127: one mixing stage on the stack frame `K[32]`, `Vx[33]` (`Vx` at offset 32,
`Vx[32]` at offset 64); `data` is an array of the caller. -/
def mixFrame (sys : DrbgSys) (ctx : HMAC_SHA256_CTX) (frame : Bytes) (tag : Byte) (data : Bytes) :
    Res (Bytes × HMAC_SHA256_CTX) := do
  let frame ← wr frame 64 tag
  let ctx ← HMAC_SHA256_InitM sys.tf ctx frame 0 32
  let ctx ← HMAC_SHA256_UpdateM sys.tf ctx frame 32 33
  let ctx ← HMAC_SHA256_Update sys.tf ctx data
  let (frame, ctx) ← HMAC_SHA256_Final_internalM sys.tf ctx frame 0
  let frame ← HMAC_SHA256_BufM sys.tf sys.junk frame 0 32 32 32 32
  return (frame, ctx)

/-- crypto_entropy.c:96-137 `update`, on the bytes of `drbg` (Key at offset 0, V at offset 32). The local
arrays are one frame of 65 bytes whose contents before the copies are `frame`. -/
def updateM (sys : DrbgSys) (frame : Bytes) (drbg : Bytes) (data : Bytes) : Res Bytes := do
  let k ← rdSlice drbg 0 32
  let frame ← wrSlice frame 0 k
  let v ← rdSlice drbg 32 32
  let frame ← wrSlice frame 32 v
  let (frame, ctx) ← mixFrame sys sys.junk frame 0x00 data
  let (frame, _) ← (if data.length ≠ 0 then mixFrame sys ctx frame 0x01 data else return (frame, ctx) :
    Res (Bytes × HMAC_SHA256_CTX))
  let k ← rdSlice frame 0 32
  let drbg ← wrSlice drbg 0 k
  let v ← rdSlice frame 32 32
  wrSlice drbg 32 v

/-- crypto_entropy.c:186-193, one iteration of the loop of `generate`, on (buffer, bytes of `drbg`). -/
def genStepM (sys : DrbgSys) (off buflen : Nat) (s : Bytes × Bytes) (i : Nat) : Res (Bytes × Bytes) := do
  let drbg ← HMAC_SHA256_BufM sys.tf sys.junk s.2 0 32 32 32 32
  let src ← rdSlice drbg 32 (if buflen - 32 * i ≥ 32 then 32 else buflen - 32 * i)
  let buf ← wrSlice s.1 (off + 32 * i) src
  return (buf, drbg)

/-- crypto_entropy.c:178-200 `generate`, on the bytes of `drbg` and its counter. -/
def generateM (sys : DrbgSys) (frame : Bytes) (drbg : Bytes) (reseed_counter : W32) (buf : Bytes) (off buflen : Nat) :
    Res (Bytes × Bytes × W32) := do
  cassert (buflen ≤ GENERATE_MAXLEN)
  cassert (reseed_counter.toNat ≤ RESEED_INTERVAL)
  let (buf, drbg) ← forLoop ((buflen + 31) / 32) (genStepM sys off buflen) (buf, drbg)
  let drbg ← updateM sys frame drbg []
  return (buf, drbg, reseed_counter + 1)

end Scrypt
