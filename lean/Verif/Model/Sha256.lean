import Verif.Model.Endian
/-
Model of libcperciva/alg/sha256.c (portable code; the accelerated transforms are in
Model/Sha256Sse2.lean, Model/Sha256Shani.lean, Model/Sha256Arm.lean).

Arrays are lists accessed with bounds checking (`rd`, `wr`, `rdSlice`, `wrSlice`): an access outside
the array is the outcome `ub`.
-/
namespace Scrypt

/-- sha256.c:49-60 `be32enc_vect(dst, src, len)`: returns the `len` bytes stored at `dst`. -/
def be32enc_vect (src : List W32) (len : Nat) : Res Bytes := do
  cassert (len % 4 == 0)
  forLoop (len / 4) (fun dst i => do
    let x ← rd src i
    return dst ++ be32enc x) []

/-- sha256.c:66-77 `be32dec_vect(dst, src, len)`. -/
def be32dec_vect (dst : List W32) (src : Bytes) (len : Nat) : Res (List W32) := do
  cassert (len % 4 == 0)
  forLoop (len / 4) (fun dst i => do
    let x ← be32dec (src.drop (i * 4))
    wr dst i x) dst

/-- sha256.c:80-97 `Krnd` -/
def Krnd : List W32 := [
  0x428a2f98, 0x71374491, 0xb5c0fbcf, 0xe9b5dba5,
  0x3956c25b, 0x59f111f1, 0x923f82a4, 0xab1c5ed5,
  0xd807aa98, 0x12835b01, 0x243185be, 0x550c7dc3,
  0x72be5d74, 0x80deb1fe, 0x9bdc06a7, 0xc19bf174,
  0xe49b69c1, 0xefbe4786, 0x0fc19dc6, 0x240ca1cc,
  0x2de92c6f, 0x4a7484aa, 0x5cb0a9dc, 0x76f988da,
  0x983e5152, 0xa831c66d, 0xb00327c8, 0xbf597fc7,
  0xc6e00bf3, 0xd5a79147, 0x06ca6351, 0x14292967,
  0x27b70a85, 0x2e1b2138, 0x4d2c6dfc, 0x53380d13,
  0x650a7354, 0x766a0abb, 0x81c2c92e, 0x92722c85,
  0xa2bfe8a1, 0xa81a664b, 0xc24b8b70, 0xc76c51a3,
  0xd192e819, 0xd6990624, 0xf40e3585, 0x106aa070,
  0x19a4c116, 0x1e376c08, 0x2748774c, 0x34b0bcb5,
  0x391c0cb3, 0x4ed8aa4a, 0x5b9cca4f, 0x682e6ff3,
  0x748f82ee, 0x78a5636f, 0x84c87814, 0x8cc70208,
  0x90befffa, 0xa4506ceb, 0xbef9a3f7, 0xc67178f2]

/-- sha256.c:100-103 `initial_state` -/
def initial_state : List W32 := [
  0x6A09E667, 0xBB67AE85, 0x3C6EF372, 0xA54FF53A,
  0x510E527F, 0x9B05688C, 0x1F83D9AB, 0x5BE0CD19]

namespace CSha

/-- sha256.c:202-209, the elementary-function macros. -/
def Ch (x y z : W32) : W32 := (x &&& (y ^^^ z)) ^^^ z
/-- sha256.c:201 -/
def Maj (x y z : W32) : W32 := (x &&& (y ||| z)) ||| (y &&& z)
/-- sha256.c:202 -/
def SHR (x : W32) (n : Nat) : W32 := x >>> n
/-- sha256.c:203 -/
def ROTR (x : W32) (n : Nat) : W32 := (x >>> n) ||| (x <<< (32 - n))
/-- sha256.c:204 -/
def S0 (x : W32) : W32 := ROTR x 2 ^^^ ROTR x 13 ^^^ ROTR x 22
/-- sha256.c:205 -/
def S1 (x : W32) : W32 := ROTR x 6 ^^^ ROTR x 11 ^^^ ROTR x 25
/-- sha256.c:206 -/
def s0 (x : W32) : W32 := ROTR x 7 ^^^ ROTR x 18 ^^^ SHR x 3
/-- sha256.c:207 -/
def s1 (x : W32) : W32 := ROTR x 17 ^^^ ROTR x 19 ^^^ SHR x 10

/-- sha256.c:210-222 (RND) instantiated by `RNDr(S, W, i, ii)`: the three assignments in order, on
the array elements. `Kt` is the file's own `Krnd` table (sha256_sse2.c:60-77 is the same text with
its own table). -/
def RNDr (Kt S W : List W32) (i ii : Nat) : Res (List W32) := do
  let a ← rd S ((64 - i) % 8); let b ← rd S ((65 - i) % 8)
  let c ← rd S ((66 - i) % 8); let d ← rd S ((67 - i) % 8)
  let e ← rd S ((68 - i) % 8); let f ← rd S ((69 - i) % 8)
  let g ← rd S ((70 - i) % 8); let h ← rd S ((71 - i) % 8)
  let w ← rd W (i + ii)
  let kr ← rd Kt (i + ii)
  let k := w + kr
  let h := h + (S1 e + Ch e f g + k)
  let S ← wr S ((71 - i) % 8) h
  let d := d + h
  let S ← wr S ((67 - i) % 8) d
  let h := h + (S0 a + Maj a b c)
  wr S ((71 - i) % 8) h

/-- sha256.c:226-227 `MSCH(W, ii, i)`. -/
def MSCH (W : List W32) (ii i : Nat) : Res (List W32) := do
  let w14 ← rd W (i + ii + 14); let w9 ← rd W (i + ii + 9)
  let w1 ← rd W (i + ii + 1); let w0 ← rd W (i + ii)
  wr W (i + ii + 16) (s1 w14 + w9 + s0 w1 + w0)

/-- sha256.c:276-316, the body of the mixing loop for `i = 16 * q`: sixteen `RNDr`, then, unless
`i == 48` (which leaves the loop), sixteen `MSCH`. -/
def mixStep (st : List W32 × List W32) (q : Nat) : Res (List W32 × List W32) := do
  let (W, S) := st
  let i := 16 * q
  let S ← forLoop 16 (fun S j => RNDr Krnd S W j i) S
  if i == 48 then return (W, S)
  let W ← forLoop 16 (fun W j => MSCH W j i) W
  return (W, S)

end CSha

/-- sha256.c:232-321 `SHA256_Transform` with `hwaccel == HW_SOFTWARE` (or no HWACCEL). Takes the
scratch arrays as the caller left them; returns the new state and the final scratch contents. -/
def SHA256_Transform_sw (state : List W32) (block : Bytes) (W S : List W32) :
    Res (List W32 × List W32 × List W32) := do
  -- 1. Prepare the first part of the message schedule W.
  let W ← be32dec_vect W block 64
  -- 2. Initialize working variables.  memcpy(S, state, 32)
  let st ← rdSlice state 0 8
  let S ← wrSlice S 0 st
  -- 3. Mix.
  let (W, S) ← forLoop 4 CSha.mixStep (W, S)
  -- 4. Mix local working variables into global state.
  let state ← forLoop 8 (fun state i => do
    let x ← rd state i
    let y ← rd S i
    wr state i (x + y)) state
  return (state, W, S)

/-- The block function selected by `hwaccel` (sha256.c:244-270), as seen by its callers: state and
block to state.  The callers' `tmp32` scratch is not threaded: every implementation is proved to
give a result that does not depend on the scratch contents (`C18_transform`, `C42_*`). -/
abbrev Transform := List W32 → Bytes → Res (List W32)

/-- The software block function with a fixed scratch content. [sha256.c:232-321] -/
def swTransform : Transform := fun state block => do
  let (state, _, _) ← SHA256_Transform_sw state block (List.replicate 64 0) (List.replicate 8 0)
  return state

/-- sha256.h:23-27, SHA256_CTX -/
structure SHA256_CTX where
  state : List W32
  count : W64
  buf : Bytes
  deriving DecidableEq, Repr

/-- The contents of an uninitialised context (an automatic variable): arbitrary, but its arrays have
their sizes. [sha256.h:23-27] -/
def SHA256_CTX.Sized (c : SHA256_CTX) : Prop := c.state.length = 8 ∧ c.buf.length = 64

/-- sha256.c:323-328 `PAD` -/
def PAD : Bytes := [
  0x80, 0, 0, 0, 0, 0, 0, 0, 0, 0, 0, 0, 0, 0, 0, 0,
  0, 0, 0, 0, 0, 0, 0, 0, 0, 0, 0, 0, 0, 0, 0, 0,
  0, 0, 0, 0, 0, 0, 0, 0, 0, 0, 0, 0, 0, 0, 0, 0,
  0, 0, 0, 0, 0, 0, 0, 0, 0, 0, 0, 0, 0, 0, 0, 0]

/-- `(ctx->count >> 3) & 0x3f` [sha256.c:337, 395] -/
def SHA256_CTX.r (c : SHA256_CTX) : Nat := ((c.count >>> 3) &&& 0x3f#64).toNat

/-- sha256.c:331-357 `SHA256_Pad` -/
def SHA256_Pad (tf : Transform) (ctx : SHA256_CTX) : Res SHA256_CTX := do
  let r := ctx.r
  let ctx ← (if r < 56 then do
      let src ← rdSlice PAD 0 (56 - r)
      let buf ← wrSlice ctx.buf r src
      return { ctx with buf := buf }
    else do
      let src ← rdSlice PAD 0 (64 - r)
      let buf ← wrSlice ctx.buf r src
      let state ← tf ctx.state buf
      let buf ← wrSlice buf 0 (List.replicate 56 0)
      return { ctx with state := state, buf := buf } : Res SHA256_CTX)
  let buf ← wrSlice ctx.buf 56 (be64enc ctx.count)
  let state ← tf ctx.state buf
  return { ctx with state := state, buf := buf }

/-- sha256.c:363-377 `SHA256_Init`: sets count and state; `buf` keeps whatever it contained.
(`hwaccel_init` is modelled in Model/HwSelect.lean.) -/
def SHA256_Init (ctx : SHA256_CTX) : SHA256_CTX := { ctx with count := 0, state := initial_state }

/-- sha256.c:411-416, `while (len >= 64)`. The first argument bounds the number of iterations; the
callers pass `len`, which is always enough (each iteration consumes 64 bytes). -/
def updLoop (tf : Transform) : Nat → List W32 → Bytes → Res (List W32 × Bytes)
  | 0, state, src => .ok (state, src)
  | fuel + 1, state, src =>
    if src.length ≥ 64 then do
      let state ← tf state (src.take 64)
      updLoop tf fuel state (src.drop 64)
    else .ok (state, src)

/-- sha256.c:382-421 `SHA256_Update_internal(ctx, in, len)`, `in` being the `len` bytes. -/
def SHA256_Update (tf : Transform) (ctx : SHA256_CTX) (src : Bytes) : Res SHA256_CTX := do
  let len := src.length
  if len == 0 then return ctx
  let r := ctx.r
  let ctx := { ctx with count := ctx.count + (BitVec.ofNat 64 len <<< 3) }
  if len < 64 - r then do
    let buf ← wrSlice ctx.buf r src
    return { ctx with buf := buf }
  else do
    let buf ← wrSlice ctx.buf r (src.take (64 - r))
    let state ← tf ctx.state buf
    let src := src.drop (64 - r)
    let (state, src) ← updLoop tf len state src
    let buf ← wrSlice buf 0 src
    return { ctx with state := state, buf := buf }

/-- sha256.c:441-451 `SHA256_Final_internal`: the digest and the finished context. -/
def SHA256_Final_internal (tf : Transform) (ctx : SHA256_CTX) : Res (Bytes × SHA256_CTX) := do
  let ctx ← SHA256_Pad tf ctx
  let digest ← be32enc_vect ctx.state 32
  return (digest, ctx)

/-- `insecure_memzero(ctx, sizeof(SHA256_CTX))` [sha256.c:463] -/
def SHA256_CTX.zero : SHA256_CTX := ⟨List.replicate 8 0, 0, List.replicate 64 0⟩

/-- sha256.c:454-467 `SHA256_Final`: digest, and the context cleared. -/
def SHA256_Final (tf : Transform) (ctx : SHA256_CTX) : Res (Bytes × SHA256_CTX) := do
  let (digest, _) ← SHA256_Final_internal tf ctx
  return (digest, SHA256_CTX.zero)

/-- sha256.c:473-486 `SHA256_Buf`; `ctx` is the uninitialised automatic variable. -/
def SHA256_Buf (tf : Transform) (ctx : SHA256_CTX) (src : Bytes) : Res Bytes := do
  let ctx := SHA256_Init ctx
  let ctx ← SHA256_Update tf ctx src
  let (digest, _) ← SHA256_Final_internal tf ctx
  return digest

/-- sha256.h:55-58, HMAC_SHA256_CTX -/
structure HMAC_SHA256_CTX where
  ictx : SHA256_CTX
  octx : SHA256_CTX
  deriving DecidableEq, Repr

/-- sha256.h:55-58. -/
def HMAC_SHA256_CTX.Sized (c : HMAC_SHA256_CTX) : Prop := c.ictx.Sized ∧ c.octx.Sized

/-- `memset(pad, v, 64); for (i = 0; i < Klen; i++) pad[i] ^= K[i];` (sha256.c:513-515, 520-522) -/
def hmacPad (v : Byte) (K : Bytes) : Res Bytes :=
  forLoop K.length (fun pad i => do
    let x ← rd pad i
    let k ← rd K i
    wr pad i (x ^^^ k)) (List.replicate 64 v)

/-- sha256.c:493-523 `HMAC_SHA256_Init_internal` -/
def HMAC_SHA256_Init (tf : Transform) (ctx : HMAC_SHA256_CTX) (K : Bytes) :
    Res HMAC_SHA256_CTX := do
  let (ictx, K) ← (if K.length > 64 then do
      let ictx := SHA256_Init ctx.ictx
      let ictx ← SHA256_Update tf ictx K
      let (khash, ictx) ← SHA256_Final_internal tf ictx
      return (ictx, khash)
    else return (ctx.ictx, K) : Res (SHA256_CTX × Bytes))
  let ictx := SHA256_Init ictx
  let pad ← hmacPad 0x36 K
  let ictx ← SHA256_Update tf ictx pad
  let octx := SHA256_Init ctx.octx
  let pad ← hmacPad 0x5c K
  let octx ← SHA256_Update tf octx pad
  return ⟨ictx, octx⟩

/-- sha256.c:546-553 `HMAC_SHA256_Update_internal` -/
def HMAC_SHA256_Update (tf : Transform) (ctx : HMAC_SHA256_CTX) (src : Bytes) :
    Res HMAC_SHA256_CTX := do
  let ictx ← SHA256_Update tf ctx.ictx src
  return { ctx with ictx := ictx }

/-- sha256.c:573-586 `HMAC_SHA256_Final_internal` (the contexts left behind are dead: the callers
zero them) -/
def HMAC_SHA256_Final_internal (tf : Transform) (ctx : HMAC_SHA256_CTX) :
    Res (Bytes × HMAC_SHA256_CTX) := do
  let (ihash, ictx) ← SHA256_Final_internal tf ctx.ictx
  let octx ← SHA256_Update tf ctx.octx ihash
  let (digest, octx) ← SHA256_Final_internal tf octx
  return (digest, ⟨ictx, octx⟩)

/-- sha256.c:589-604 `HMAC_SHA256_Final` -/
def HMAC_SHA256_Final (tf : Transform) (ctx : HMAC_SHA256_CTX) : Res (Bytes × HMAC_SHA256_CTX) := do
  let (digest, _) ← HMAC_SHA256_Final_internal tf ctx
  return (digest, ⟨SHA256_CTX.zero, SHA256_CTX.zero⟩)

/-- sha256.c:611-627 `HMAC_SHA256_Buf`; `ctx` is the uninitialised automatic variable. -/
def HMAC_SHA256_Buf (tf : Transform) (ctx : HMAC_SHA256_CTX) (K src : Bytes) : Res Bytes := do
  let ctx ← HMAC_SHA256_Init tf ctx K
  let ctx ← HMAC_SHA256_Update tf ctx src
  let (digest, _) ← HMAC_SHA256_Final_internal tf ctx
  return digest

/-- sha256.c:676-685, `for (j = 2; j <= c; j++)`: `n` iterations (the loop runs `c - 1` times; for
`c = 2^64 - 1` the `uint64_t` counter wraps and the C loop does not terminate, see
`PBKDF2_SHA256`). -/
def pbkdf2Inner (tf : Transform) (Phctx : HMAC_SHA256_CTX) (n : Nat) (U T : Bytes) :
    Res (Bytes × Bytes) :=
  forLoop n (fun (UT : Bytes × Bytes) _ => do
    let (U, T) := UT
    let hctx ← HMAC_SHA256_Update tf Phctx U
    let (U, _) ← HMAC_SHA256_Final_internal tf hctx
    let T ← forLoop 32 (fun T k => do
      let t ← rd T k
      let u ← rd U k
      wr T k (t ^^^ u)) T
    return (U, T)) (U, T)

/-- sha256.c:634-701 `PBKDF2_SHA256(passwd, salt, c, buf, dkLen)` (LP64: the assertion is compiled
in). `buf` is the destination array. `c = 2^64 - 1` is outside the model (the C code loops for
ever); theorems state `c < 2^64 - 1`. -/
def PBKDF2_SHA256 (tf : Transform) (junk : HMAC_SHA256_CTX) (passwd salt : Bytes) (c : Nat)
    (buf : Bytes) (dkLen : Nat) : Res Bytes := do
  cassert (dkLen ≤ 32 * (2 ^ 32 - 1))
  let Phctx ← HMAC_SHA256_Init tf junk passwd
  let PShctx ← HMAC_SHA256_Update tf Phctx salt
  -- for (i = 0; i * 32 < dkLen; i++)
  forLoop ((dkLen + 31) / 32) (fun buf i => do
    let ivec := be32enc (BitVec.ofNat 32 (i + 1))
    let hctx ← HMAC_SHA256_Update tf PShctx ivec
    let (U, _) ← HMAC_SHA256_Final_internal tf hctx
    let T := U
    let (_, T) ← pbkdf2Inner tf Phctx (c - 1) U T
    let clen := dkLen - i * 32
    let clen := if clen > 32 then 32 else clen
    let src ← rdSlice T 0 clen
    wrSlice buf (i * 32) src) buf

end Scrypt
