import Verif.Model.Access
import Verif.Model.Sha256Hw
/-
The hashing of a key derivation with the list of the memory accesses it makes: the same code as in Model/Sha256.lean and Model/Sha256Hw.lean, with a ghost log of
every element read or written.  `C79_erase` shows that forgetting the log gives the original.

Simplifications.  Parts of one C array that are used as separate arrays have separate names here: tmp32[0..63] is W, tmp32[64..71] is S; tmp8[0..63] is pad,
tmp8[64..95] is khash, tmp8[0..31] is ihash; the fields of a context are three arrays.  Scalar local variables are not logged (a compiler keeps them in registers or
at fixed places of the frame).
-/
namespace Scrypt

/-- A block function, logging: the names of the state and of the array the block is in, the position of the block there. [sha256.c:232-270] -/
abbrev TransformT := Arr → Arr → Nat → List W32 → Bytes → Logged (List W32)

/-- sha256.c:49-60 `be32enc_vect`, logging. -/
def be32enc_vectT (da sa : Arr) (src : List W32) (len : Nat) : Logged Bytes := do
  Logged.log [] (cassert (len % 4 == 0))
  forLoopT (len / 4) (fun dst i => do
    let x ← rdT sa src i
    Logged.log (accs da true (i * 4) 4) (.ok (dst ++ be32enc x))) []

/-- sha256.c:66-77 `be32dec_vect`, logging; the source is at `so` of its array. -/
def be32dec_vectT (da sa : Arr) (so : Nat) (dst : List W32) (src : Bytes) (len : Nat) : Logged (List W32) := do
  Logged.log [] (cassert (len % 4 == 0))
  forLoopT (len / 4) (fun dst i => do
    let x ← Logged.log (accs sa false (so + i * 4) 4) (be32dec (src.drop (i * 4)))
    wrT da dst i x) dst

namespace CSha

/-- sha256.c:216-221 `RNDr`, logging. -/
def RNDrT (Kt S W : List W32) (i ii : Nat) : Logged (List W32) := do
  let a ← rdT (.h .S) S ((64 - i) % 8); let b ← rdT (.h .S) S ((65 - i) % 8)
  let c ← rdT (.h .S) S ((66 - i) % 8); let d ← rdT (.h .S) S ((67 - i) % 8)
  let e ← rdT (.h .S) S ((68 - i) % 8); let f ← rdT (.h .S) S ((69 - i) % 8)
  let g ← rdT (.h .S) S ((70 - i) % 8); let h ← rdT (.h .S) S ((71 - i) % 8)
  let w ← rdT (.h .W) W (i + ii)
  let kr ← rdT (.h .Krnd) Kt (i + ii)
  let k := w + kr
  let h := h + (S1 e + Ch e f g + k)
  let S ← wrT (.h .S) S ((71 - i) % 8) h
  let d := d + h
  let S ← wrT (.h .S) S ((67 - i) % 8) d
  let h := h + (S0 a + Maj a b c)
  wrT (.h .S) S ((71 - i) % 8) h

/-- sha256.c:224-225 `MSCH`, logging. -/
def MSCHT (W : List W32) (ii i : Nat) : Logged (List W32) := do
  let w14 ← rdT (.h .W) W (i + ii + 14); let w9 ← rdT (.h .W) W (i + ii + 9)
  let w1 ← rdT (.h .W) W (i + ii + 1); let w0 ← rdT (.h .W) W (i + ii)
  wrT (.h .W) W (i + ii + 16) (s1 w14 + w9 + s0 w1 + w0)

/-- sha256.c:276-316, logging. -/
def mixStepT (st : List W32 × List W32) (q : Nat) : Logged (List W32 × List W32) := do
  let (W, S) := st
  let i := 16 * q
  let S ← forLoopT 16 (fun S j => RNDrT Krnd S W j i) S
  if i == 48 then return (W, S)
  let W ← forLoopT 16 (fun W j => MSCHT W j i) W
  return (W, S)

end CSha

/-- The last loop of the block functions: `state[i] += S[i]`, logging. [sha256.c:319-320, sha256_sse2.c:236-237] -/
def addStateT (sa : Arr) (S state : List W32) : Logged (List W32) :=
  forLoopT 8 (fun state i => do
    let x ← rdT sa state i
    let y ← rdT (.h .S) S i
    wrT sa state i (x + y)) state

/-- sha256.c:232-321 `SHA256_Transform` in software, logging. -/
def SHA256_Transform_swT (sa ba : Arr) (bo : Nat) (state : List W32) (block : Bytes) (W S : List W32) : Logged (List W32 × List W32 × List W32) := do
  let W ← be32dec_vectT (.h .W) ba bo W block 64
  let st ← rdSliceT sa state 0 8
  let S ← wrSliceT (.h .S) S 0 st
  let (W, S) ← forLoopT 4 CSha.mixStepT (W, S)
  let state ← addStateT sa S state
  return (state, W, S)

/-- `_mm_loadu_si128` and `vld1q_u8` of sixteen bytes of the block, logging. [sha256_sse2.c:193-203, sha256_shani.c:27, sha256_arm.c:70-77] -/
def ldBlockT (ba : Arr) (bo : Nat) (block : Bytes) (o : Nat) : Logged V4 := Logged.log (accs ba false (bo + o) 16) (mm_loadu_bytes (block.drop o))

/-- Loads of four words, logging. [sha256_shani.c:95-96, sha256_arm.c:42, 79-80] -/
def ldWordsT (a : Arr) (m : List W32) (o : Nat) : Logged V4 := Logged.log (accs a false o 4) (mm_loadu_words m o)

/-- Stores of four words, logging. [sha256_sse2.c:194-232, sha256_shani.c:140-141, sha256_arm.c:98-99] -/
def stWordsT (a : Arr) (m : List W32) (o : Nat) (v : V4) : Logged (List W32) := Logged.log (accs a true o 4) (mm_storeu_words m o v)

/-- sha256_sse2.c:206-233, logging. -/
def Sse2.mixStepT (st : List W32 × List W32 × Y4) (q : Nat) : Logged (List W32 × List W32 × Y4) := do
  let (W, S, Y) := st
  let i := 16 * q
  let S ← forLoopT 16 (fun S j => CSha.RNDrT Krnd S W j i) S
  if i == 48 then return (W, S, Y)
  let Y0 := MSG4 Y.y0 Y.y1 Y.y2 Y.y3
  let W ← stWordsT (.h .W) W (16 + i + 0) Y0
  let Y1 := MSG4 Y.y1 Y.y2 Y.y3 Y0
  let W ← stWordsT (.h .W) W (16 + i + 4) Y1
  let Y2 := MSG4 Y.y2 Y.y3 Y0 Y1
  let W ← stWordsT (.h .W) W (16 + i + 8) Y2
  let Y3 := MSG4 Y.y3 Y0 Y1 Y2
  let W ← stWordsT (.h .W) W (16 + i + 12) Y3
  return (W, S, ⟨Y0, Y1, Y2, Y3⟩)

/-- sha256_sse2.c:182-238 `SHA256_Transform_sse2`, logging. -/
def SHA256_Transform_sse2T (sa ba : Arr) (bo : Nat) (state : List W32) (block : Bytes) (W S : List W32) :
    Logged (List W32 × List W32 × List W32) := do
  let x ← ldBlockT ba bo block 0
  let Y0 := Sse2.mm_bswap_epi32 x
  let W ← stWordsT (.h .W) W 0 Y0
  let x ← ldBlockT ba bo block 16
  let Y1 := Sse2.mm_bswap_epi32 x
  let W ← stWordsT (.h .W) W 4 Y1
  let x ← ldBlockT ba bo block 32
  let Y2 := Sse2.mm_bswap_epi32 x
  let W ← stWordsT (.h .W) W 8 Y2
  let x ← ldBlockT ba bo block 48
  let Y3 := Sse2.mm_bswap_epi32 x
  let W ← stWordsT (.h .W) W 12 Y3
  let st ← rdSliceT sa state 0 8
  let S ← wrSliceT (.h .S) S 0 st
  let (W, S, _) ← forLoopT 4 Sse2.mixStepT (W, S, ⟨Y0, Y1, Y2, Y3⟩)
  let state ← addStateT sa S state
  return (state, W, S)

namespace Shani

/-- sha256_shani.c:25-37 `be32dec_128`, logging. -/
def be32dec_128T (ba : Arr) (bo : Nat) (block : Bytes) (o : Nat) : Logged V4 := do
  let x ← ldBlockT ba bo block o
  return mm_shuffle_epi8 x SHUF

/-- sha256_shani.c:62-67 `MSG4`, logging. -/
def MSG4T (W : List V4) (i : Nat) : Logged (List V4) := do
  let w0 ← rdT (.h .W) W ((i + 0) % 4)
  let w1 ← rdT (.h .W) W ((i + 1) % 4)
  let W ← wrT (.h .W) W ((i + 0) % 4) (mm_sha256msg1_epu32 w0 w1)
  let w0 ← rdT (.h .W) W ((i + 0) % 4)
  let w3 ← rdT (.h .W) W ((i + 3) % 4)
  let w2 ← rdT (.h .W) W ((i + 2) % 4)
  let W ← wrT (.h .W) W ((i + 0) % 4) (mm_add_epi32 w0 (mm_alignr_epi8 w3 w2 4))
  let w0 ← rdT (.h .W) W ((i + 0) % 4)
  let w3 ← rdT (.h .W) W ((i + 3) % 4)
  wrT (.h .W) W ((i + 0) % 4) (mm_sha256msg2_epu32 w0 w3)

/-- sha256_shani.c:70-74 `RNDMSG`, logging. -/
def RNDMSGT (st : (V4 × V4) × List V4) (i : Nat) (K0 K1 K2 K3 : W32) : Logged ((V4 × V4) × List V4) := do
  let (S, W) := st
  let w ← rdT (.h .W) W (i % 4)
  let S := RND4 S w K0 K1 K2 K3
  if i < 12 then do
    let W ← MSG4T W (i + 4)
    return (S, W)
  else return (S, W)

/-- sha256_shani.c:114-129, logging. -/
def rounds16T (st : (V4 × V4) × List V4) : Logged ((V4 × V4) × List V4) := do
  let st ← RNDMSGT st 0 0x428a2f98 0x71374491 0xb5c0fbcf 0xe9b5dba5
  let st ← RNDMSGT st 1 0x3956c25b 0x59f111f1 0x923f82a4 0xab1c5ed5
  let st ← RNDMSGT st 2 0xd807aa98 0x12835b01 0x243185be 0x550c7dc3
  let st ← RNDMSGT st 3 0x72be5d74 0x80deb1fe 0x9bdc06a7 0xc19bf174
  let st ← RNDMSGT st 4 0xe49b69c1 0xefbe4786 0x0fc19dc6 0x240ca1cc
  let st ← RNDMSGT st 5 0x2de92c6f 0x4a7484aa 0x5cb0a9dc 0x76f988da
  let st ← RNDMSGT st 6 0x983e5152 0xa831c66d 0xb00327c8 0xbf597fc7
  let st ← RNDMSGT st 7 0xc6e00bf3 0xd5a79147 0x06ca6351 0x14292967
  let st ← RNDMSGT st 8 0x27b70a85 0x2e1b2138 0x4d2c6dfc 0x53380d13
  let st ← RNDMSGT st 9 0x650a7354 0x766a0abb 0x81c2c92e 0x92722c85
  let st ← RNDMSGT st 10 0xa2bfe8a1 0xa81a664b 0xc24b8b70 0xc76c51a3
  let st ← RNDMSGT st 11 0xd192e819 0xd6990624 0xf40e3585 0x106aa070
  let st ← RNDMSGT st 12 0x19a4c116 0x1e376c08 0x2748774c 0x34b0bcb5
  let st ← RNDMSGT st 13 0x391c0cb3 0x4ed8aa4a 0x5b9cca4f 0x682e6ff3
  let st ← RNDMSGT st 14 0x748f82ee 0x78a5636f 0x84c87814 0x8cc70208
  RNDMSGT st 15 0x90befffa 0xa4506ceb 0xbef9a3f7 0xc67178f2

end Shani

open Shani in
/-- sha256_shani.c:83-142 `SHA256_Transform_shani`, logging. -/
def SHA256_Transform_shaniT (sa ba : Arr) (bo : Nat) (state : List W32) (block : Bytes) : Logged (List W32) := do
  let S3210 ← ldWordsT sa state 0
  let S7654 ← ldWordsT sa state 4
  let S0123 := mm_shuffle_epi32 S3210 0x1B
  let S4567 := mm_shuffle_epi32 S7654 0x1B
  let S0145 := mm_unpackhi_epi64 S4567 S0123
  let S2367 := mm_unpacklo_epi64 S4567 S0123
  let W0 ← be32dec_128T ba bo block 0
  let W1 ← be32dec_128T ba bo block 16
  let W2 ← be32dec_128T ba bo block 32
  let W3 ← be32dec_128T ba bo block 48
  let W ← Logged.log (accs (.h .W) true 0 4) (.ok [W0, W1, W2, W3])
  let st ← rounds16T ((S0145, S2367), W)
  let S := st.1
  let S0145 := mm_add_epi32 S0145 S.1
  let S2367 := mm_add_epi32 S2367 S.2
  let S0123 := mm_unpackhi_epi64 S2367 S0145
  let S4567 := mm_unpacklo_epi64 S2367 S0145
  let S3210 := mm_shuffle_epi32 S0123 0x1B
  let S7654 := mm_shuffle_epi32 S4567 0x1B
  let state ← stWordsT sa state 0 S3210
  stWordsT sa state 4 S7654

namespace Arm

/-- sha256_arm.c:38-45 `RND4`, logging. -/
def RND4T (S : V4 × V4) (M : V4) (koff : Nat) : Logged (V4 × V4) := do
  let S0_step := S.1
  let k ← ldWordsT (.h .Krnd) Krnd koff
  let Wk := vaddq_u32 M k
  let S0 := vsha256hq_u32 S.1 S.2 Wk
  let S1 := vsha256h2q_u32 S.2 S0_step Wk
  return (S0, S1)

/-- sha256_arm.c:82-94, logging. -/
def mixStepT (st : (V4 × V4) × Sse2.Y4) (q : Nat) : Logged ((V4 × V4) × Sse2.Y4) := do
  let (S, Y) := st
  let i := 16 * q
  let S ← RND4T S Y.y0 (i + 0)
  let S ← RND4T S Y.y1 (i + 4)
  let S ← RND4T S Y.y2 (i + 8)
  let S ← RND4T S Y.y3 (i + 12)
  if i == 48 then return (S, Y)
  let Y0 := MSG4 Y.y0 Y.y1 Y.y2 Y.y3
  let Y1 := MSG4 Y.y1 Y.y2 Y.y3 Y0
  let Y2 := MSG4 Y.y2 Y.y3 Y0 Y1
  let Y3 := MSG4 Y.y3 Y0 Y1 Y2
  return (S, ⟨Y0, Y1, Y2, Y3⟩)

end Arm

/-- sha256_arm.c:62-100 `SHA256_Transform_arm`, logging. -/
def SHA256_Transform_armT (sa ba : Arr) (bo : Nat) (state : List W32) (block : Bytes) : Logged (List W32) := do
  let x ← ldBlockT ba bo block 0
  let Y0 := vrev32q_u8 x
  let x ← ldBlockT ba bo block 16
  let Y1 := vrev32q_u8 x
  let x ← ldBlockT ba bo block 32
  let Y2 := vrev32q_u8 x
  let x ← ldBlockT ba bo block 48
  let Y3 := vrev32q_u8 x
  let s0 ← ldWordsT sa state 0
  let s1 ← ldWordsT sa state 4
  let (S, _) ← forLoopT 4 Arm.mixStepT ((s0, s1), ⟨Y0, Y1, Y2, Y3⟩)
  let state ← stWordsT sa state 0 (vaddq_u32 s0 S.1)
  stWordsT sa state 4 (vaddq_u32 s1 S.2)

/-- The `switch (hwaccel)` of sha256.c:253-269, logging. -/
def shaTransformT : ShaHw → TransformT
  | .software => fun sa ba bo state block => do
    let (state, _, _) ← SHA256_Transform_swT sa ba bo state block (List.replicate 64 0) (List.replicate 8 0)
    return state
  | .x86_shani => SHA256_Transform_shaniT
  | .x86_sse2 => fun sa ba bo state block => do
    let (state, _, _) ← SHA256_Transform_sse2T sa ba bo state block (List.replicate 64 0) (List.replicate 8 0)
    return state
  | .arm_sha256 => SHA256_Transform_armT

/-- Reading or writing `ctx->count`. [sha256.c:337, 353, 366, 395, 398] -/
def countT (cx : HCtx) (w : Bool) : Logged Unit := Logged.log [⟨.h (.count cx), 0, w⟩] (.ok ())

/-- sha256.c:331-357 `SHA256_Pad`, logging. -/
def SHA256_PadT (tf : TransformT) (cx : HCtx) (ctx : SHA256_CTX) : Logged SHA256_CTX := do
  countT cx false
  let r := ctx.r
  let ctx ← (if r < 56 then do
      let src ← rdSliceT (.h .PAD) PAD 0 (56 - r)
      let buf ← wrSliceT (.h (.buf cx)) ctx.buf r src
      return { ctx with buf := buf }
    else do
      let src ← rdSliceT (.h .PAD) PAD 0 (64 - r)
      let buf ← wrSliceT (.h (.buf cx)) ctx.buf r src
      let state ← tf (.h (.state cx)) (.h (.buf cx)) 0 ctx.state buf
      let buf ← wrSliceT (.h (.buf cx)) buf 0 (List.replicate 56 0)
      return { ctx with state := state, buf := buf } : Logged SHA256_CTX)
  countT cx false
  let buf ← wrSliceT (.h (.buf cx)) ctx.buf 56 (be64enc ctx.count)
  let state ← tf (.h (.state cx)) (.h (.buf cx)) 0 ctx.state buf
  return { ctx with state := state, buf := buf }

/-- sha256.c:363-377 `SHA256_Init`, logging. -/
def SHA256_InitT (cx : HCtx) (ctx : SHA256_CTX) : Logged SHA256_CTX := do
  countT cx true
  Logged.log (accs (.h .initial_state) false 0 8 ++ accs (.h (.state cx)) true 0 8) (.ok (SHA256_Init ctx))

/-- sha256.c:411-416, logging; the remaining input is at `off` of its array. -/
def updLoopT (tf : TransformT) (cx : HCtx) (ia : Arr) : Nat → Nat → List W32 → Bytes → Logged (List W32 × Bytes × Nat)
  | 0, off, state, src => pure (state, src, off)
  | fuel + 1, off, state, src =>
    if src.length ≥ 64 then do
      let state ← tf (.h (.state cx)) ia off state (src.take 64)
      updLoopT tf cx ia fuel (off + 64) state (src.drop 64)
    else pure (state, src, off)

/-- memcpy from a part of the input: reads it and writes it at `o` of `a`. [sha256.c:402, 407, 419] -/
def copyInT (ia : Arr) (off : Nat) (a : Arr) (m : Bytes) (o : Nat) (s : Bytes) : Logged Bytes :=
  Logged.log (accs ia false off s.length ++ accs a true o s.length) (wrSlice m o s)

/-- sha256.c:383-421 `SHA256_Update_internal`, logging; the input is the array `ia`. -/
def SHA256_UpdateT (tf : TransformT) (cx : HCtx) (ia : Arr) (ctx : SHA256_CTX) (src : Bytes) : Logged SHA256_CTX := do
  let len := src.length
  if len == 0 then return ctx
  countT cx false
  let r := ctx.r
  countT cx true
  let ctx := { ctx with count := ctx.count + (BitVec.ofNat 64 len <<< 3) }
  if len < 64 - r then do
    let buf ← copyInT ia 0 (.h (.buf cx)) ctx.buf r src
    return { ctx with buf := buf }
  else do
    let buf ← copyInT ia 0 (.h (.buf cx)) ctx.buf r (src.take (64 - r))
    let state ← tf (.h (.state cx)) (.h (.buf cx)) 0 ctx.state buf
    let src := src.drop (64 - r)
    let (state, src, off) ← updLoopT tf cx ia len (64 - r) state src
    let buf ← copyInT ia off (.h (.buf cx)) buf 0 src
    return { ctx with state := state, buf := buf }

/-- sha256.c:441-451 `SHA256_Final_internal`, logging; the digest goes to the array `da`. -/
def SHA256_Final_internalT (tf : TransformT) (cx : HCtx) (da : Arr) (ctx : SHA256_CTX) : Logged (Bytes × SHA256_CTX) := do
  let ctx ← SHA256_PadT tf cx ctx
  let digest ← be32enc_vectT da (.h (.state cx)) ctx.state 32
  return (digest, ctx)

/-- sha256.c:513-515, 520-522, logging; the key is in the array `ka`. -/
def hmacPadT (ka : Arr) (v : Byte) (K : Bytes) : Logged Bytes := do
  let pad ← wrSliceT (.h .pad) (List.replicate 64 v) 0 (List.replicate 64 v)
  forLoopT K.length (fun pad i => do
    let x ← rdT (.h .pad) pad i
    let k ← rdT ka K i
    wrT (.h .pad) pad i (x ^^^ k)) pad

/-- sha256.c:493-523 `HMAC_SHA256_Init_internal`, logging, for the context `o`; the key is in the array `ka`. -/
def HMAC_SHA256_InitT (tf : TransformT) (o : HOwner) (ka : Arr) (ctx : HMAC_SHA256_CTX) (K : Bytes) : Logged HMAC_SHA256_CTX := do
  let (ictx, K, ka) ← (if K.length > 64 then do
      let ictx ← SHA256_InitT (.inner o) ctx.ictx
      let ictx ← SHA256_UpdateT tf (.inner o) ka ictx K
      let (khash, ictx) ← SHA256_Final_internalT tf (.inner o) (.h .khash) ictx
      return (ictx, khash, Arr.h .khash)
    else return (ctx.ictx, K, ka) : Logged (SHA256_CTX × Bytes × Arr))
  let ictx ← SHA256_InitT (.inner o) ictx
  let pad ← hmacPadT ka 0x36 K
  let ictx ← SHA256_UpdateT tf (.inner o) (.h .pad) ictx pad
  let octx ← SHA256_InitT (.outer o) ctx.octx
  let pad ← hmacPadT ka 0x5c K
  let octx ← SHA256_UpdateT tf (.outer o) (.h .pad) octx pad
  return ⟨ictx, octx⟩

/-- sha256.c:546-553 `HMAC_SHA256_Update_internal`, logging. -/
def HMAC_SHA256_UpdateT (tf : TransformT) (o : HOwner) (ia : Arr) (ctx : HMAC_SHA256_CTX) (src : Bytes) : Logged HMAC_SHA256_CTX := do
  let ictx ← SHA256_UpdateT tf (.inner o) ia ctx.ictx src
  return { ctx with ictx := ictx }

/-- sha256.c:573-586 `HMAC_SHA256_Final_internal`, logging; the digest goes to the array `da`. -/
def HMAC_SHA256_Final_internalT (tf : TransformT) (o : HOwner) (da : Arr) (ctx : HMAC_SHA256_CTX) : Logged (Bytes × HMAC_SHA256_CTX) := do
  let (ihash, ictx) ← SHA256_Final_internalT tf (.inner o) (.h .ihash) ctx.ictx
  let octx ← SHA256_UpdateT tf (.outer o) (.h .ihash) ctx.octx ihash
  let (digest, octx) ← SHA256_Final_internalT tf (.outer o) da octx
  return (digest, ⟨ictx, octx⟩)

/-- All of one SHA-256 context. [sha256.h:23-27] -/
def wholeShaCtx (cx : HCtx) (w : Bool) : List Acc := accs (.h (.state cx)) w 0 8 ++ accs (.h (.count cx)) w 0 1 ++ accs (.h (.buf cx)) w 0 64

/-- All of one HMAC context. [sha256.h:55-58] -/
def wholeCtx (o : HOwner) (w : Bool) : List Acc := wholeShaCtx (.inner o) w ++ wholeShaCtx (.outer o) w

/-- `memcpy(&dst, &src, sizeof(HMAC_SHA256_CTX))`. [sha256.c:661, 670, 678] -/
def copyCtxT (dst src : HOwner) (ctx : HMAC_SHA256_CTX) : Logged HMAC_SHA256_CTX := Logged.log (wholeCtx src false ++ wholeCtx dst true) (.ok ctx)

/-- sha256.c:676-685, logging. -/
def pbkdf2InnerT (tf : TransformT) (Phctx : HMAC_SHA256_CTX) (n : Nat) (U T : Bytes) : Logged (Bytes × Bytes) :=
  forLoopT n (fun (UT : Bytes × Bytes) _ => do
    let (U, T) := UT
    let hctx ← copyCtxT .hctx .Phctx Phctx
    let hctx ← HMAC_SHA256_UpdateT tf .hctx (.h .U) hctx U
    let (U, _) ← HMAC_SHA256_Final_internalT tf .hctx (.h .U) hctx
    let T ← forLoopT 32 (fun T k => do
      let t ← rdT (.h .T) T k
      let u ← rdT (.h .U) U k
      wrT (.h .T) T k (t ^^^ u)) T
    return (U, T)) (U, T)

/-- The clearing of the local variables. [sha256.c:693-700] -/
def pbkdf2Clean : List Acc :=
  wholeCtx .Phctx true ++ wholeCtx .PShctx true ++ wholeCtx .hctx true ++ accs (.h .W) true 0 64 ++ accs (.h .S) true 0 8 ++ accs (.h .pad) true 0 64 ++
    accs (.h .khash) true 0 32 ++ accs (.h .U) true 0 32 ++ accs (.h .T) true 0 32

/-- sha256.c:634-701 `PBKDF2_SHA256`, logging; the password, the salt and the result are in the arrays `pa`, `sa`, `oa`. -/
def PBKDF2_SHA256T (tf : TransformT) (pa sa oa : Arr) (junk : HMAC_SHA256_CTX) (passwd salt : Bytes) (c : Nat) (buf : Bytes) (dkLen : Nat) : Logged Bytes := do
  Logged.log [] (cassert (dkLen ≤ 32 * (2 ^ 32 - 1)))
  let Phctx ← HMAC_SHA256_InitT tf .Phctx pa junk passwd
  let PShctx ← copyCtxT .PShctx .Phctx Phctx
  let PShctx ← HMAC_SHA256_UpdateT tf .PShctx sa PShctx salt
  let buf ← forLoopT ((dkLen + 31) / 32) (fun buf i => do
    let ivec ← wrSliceT (.h .ivec) (be32enc (BitVec.ofNat 32 (i + 1))) 0 (be32enc (BitVec.ofNat 32 (i + 1)))
    let hctx ← copyCtxT .hctx .PShctx PShctx
    let hctx ← HMAC_SHA256_UpdateT tf .hctx (.h .ivec) hctx ivec
    let (U, _) ← HMAC_SHA256_Final_internalT tf .hctx (.h .U) hctx
    let T ← Logged.log (accs (.h .U) false 0 32 ++ accs (.h .T) true 0 32) (.ok U)
    let (_, T) ← pbkdf2InnerT tf Phctx (c - 1) U T
    let clen := dkLen - i * 32
    let clen := if clen > 32 then 32 else clen
    let src ← rdSliceT (.h .T) T 0 clen
    wrSliceT oa buf (i * 32) src) buf
  Logged.log pbkdf2Clean (.ok buf)

/-- crypto_scrypt.c:57-166 `_crypto_scrypt`, logging everything: both PBKDF2 computations (lines 133-135 and 143-145) and the mixing (lines 137-141). -/
def crypto_scrypt_internalTT (szMax : Nat) (env : ScEnv) (hw : ShaHw) (junk : HMAC_SHA256_CTX)
    (passwd salt : Bytes) (N : W64) (r p : W32) (buf : Bytes) (buflen : Nat) (f : SmixImpl) : Logged ScOut :=
  let rs := r.toNat; let ps := p.toNat; let M := szMax + 1
  match scryptCheck szMax N r p buflen with
  | some e => Logged.log [] (.ok (scErr0 e buf []))
  | none =>
  match env.allocB (128 * rs * ps % M) with
  | none => Logged.log [] (.ok (scErr0 .sys buf []))
  | some B =>
  match env.allocXY ((256 * rs + 64) % M) with
  | none => Logged.log [] (.ok (scErr1 .sys buf [.B]))
  | some XY =>
  match env.allocV (128 * rs * N.toNat % M) with
  | none => Logged.log [] (.ok (scErr2 .sys buf [.B, .XY]))
  | some V => do
    let B ← PBKDF2_SHA256T (shaTransformT hw) (.h .passwd) (.h .salt) .B junk passwd salt 1 B (ps * 128 * rs % M)
    let (B, _, _) ← mixBlocksT szMax f rs ps N.toNat B V XY
    let Bs ← Logged.log [] (rdSlice B 0 (ps * 128 * rs % M))
    let buf ← PBKDF2_SHA256T (shaTransformT hw) (.h .passwd) .B (.h .out) junk passwd Bs 1 buf buflen
    let live := [ScObj.B, .XY, .V]
    if !env.munmapOk then
      return scErr2 .sys buf live
    let live := live.erase .V
    let live := live.erase .XY
    let live := live.erase .B
    return ⟨0, none, buf, live⟩

end Scrypt
