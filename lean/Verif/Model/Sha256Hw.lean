import Verif.Model.Sha256
import Verif.Spec.Intrinsics
/-
Models of the accelerated SHA-256 block functions: libcperciva/alg/sha256_sse2.c,
sha256_shani.c, sha256_arm.c, in terms of the instruction semantics of Spec/Intrinsics.lean.
-/
namespace Scrypt
namespace Sse2

/-- sha256_sse2.c:19-31 `mm_bswap_epi32` -/
def mm_bswap_epi32 (a : V4) : V4 :=
  let a := mm_or_si128 (mm_slli_epi16 a 8) (mm_srli_epi16 a 8)
  let a := mm_shufflelo_epi16 a (MM_SHUFFLE 2 3 0 1)
  mm_shufflehi_epi16 a (MM_SHUFFLE 2 3 0 1)

/-- sha256_sse2.c:35-52 `Krnd` -/
def Krnd : List W32 := [
  0x428a2f98, 0x71374491, 0xb5c0fbcf, 0xe9b5dba5,
  0x3956c25b, 0x59f111f1, 0x923f82a4, 0xab1c5ed5,
  0xd807aa98, 0x12835b01, 0x243185be, 0x550c7dc3,
  0x72be5d74, 0x80deb1fe, 0x9bdc06a7, 0xc19bf174,
  0xe49b69c1, 0xefbe4786, 0x0fc19dc6, 0x240ca1cc,
  0x2de92c6f, 0x4a7484aa, 0x5cb0a9dc, 0x76f988da,
  0x983e5152, 0xa831c66d, 0xb00327c8, 0xbf597fc7,
  0xc6e00bf3, 0xd5a79147, 0x06ca6351, 0x14292967,
  0x27b70a85, 0x2e1b2138, 0x4d2c6dfc, 0x53380d13,
  0x650a7354, 0x766a0abb, 0x81c2c92e, 0x92722c85,
  0xa2bfe8a1, 0xa81a664b, 0xc24b8b70, 0xc76c51a3,
  0xd192e819, 0xd6990624, 0xf40e3585, 0x106aa070,
  0x19a4c116, 0x1e376c08, 0x2748774c, 0x34b0bcb5,
  0x391c0cb3, 0x4ed8aa4a, 0x5b9cca4f, 0x682e6ff3,
  0x748f82ee, 0x78a5636f, 0x84c87814, 0x8cc70208,
  0x90befffa, 0xa4506ceb, 0xbef9a3f7, 0xc67178f2]

/-- sha256_sse2.c:76-79 -/
def SHR32 (x : V4) (n : Nat) : V4 := mm_srli_epi32 x n
/-- sha256_sse2.c:76 -/
def ROTR32 (x : V4) (n : Nat) : V4 := mm_or_si128 (SHR32 x n) (mm_slli_epi32 x (32 - n))
/-- sha256_sse2.c:77-79 -/
def s0_128 (x : V4) : V4 := mm_xor_si128 (mm_xor_si128 (ROTR32 x 7) (ROTR32 x 18)) (SHR32 x 3)

/-- sha256_sse2.c:80-98 `s1_128_high` -/
def s1_128_high (a : V4) : V4 :=
  let b := mm_shuffle_epi32 a (MM_SHUFFLE 1 1 0 0)
  let c := mm_xor_si128 (mm_srli_epi64 b 17) (mm_srli_epi64 b 19)
  let c := mm_xor_si128 c (mm_srli_epi32 b 10)
  let c := mm_shuffle_epi32 c (MM_SHUFFLE 2 0 2 0)
  mm_slli_si128 c 8

/-- sha256_sse2.c:100-118 `s1_128_low` -/
def s1_128_low (a : V4) : V4 :=
  let b := mm_shuffle_epi32 a (MM_SHUFFLE 3 3 2 2)
  let c := mm_xor_si128 (mm_srli_epi64 b 17) (mm_srli_epi64 b 19)
  let c := mm_xor_si128 c (mm_srli_epi32 b 10)
  let c := mm_shuffle_epi32 c (MM_SHUFFLE 2 0 2 0)
  mm_srli_si128 c 8

/-- sha256_sse2.c:130-132 `SPAN_ONE_THREE` -/
def SPAN_ONE_THREE (a b : V4) : V4 := mm_shuffle_epi32 (mm_move_ss a b) (MM_SHUFFLE 0 3 2 1)

/-- sha256_sse2.c:146-167 `MSG4` -/
def MSG4 (X0 X1 X2 X3 : V4) : V4 :=
  let Xj_minus_seven := SPAN_ONE_THREE X2 X3
  let Xj_minus_fifteen := SPAN_ONE_THREE X0 X1
  let X4 := mm_add_epi32 X0 Xj_minus_seven
  let X4 := mm_add_epi32 X4 (s0_128 Xj_minus_fifteen)
  let X4 := mm_add_epi32 X4 (s1_128_low X3)
  mm_add_epi32 X4 (s1_128_high X4)

/-- The local array `Y[4]` (constant indices). [sha256_sse2.c:188, sha256_shani.c:90, sha256_arm.c:67] -/
structure Y4 where
  (y0 y1 y2 y3 : V4)

/-- sha256_sse2.c:206-233, the loop body for `i = 16 * q`. -/
def mixStep (st : List W32 × List W32 × Y4) (q : Nat) : Res (List W32 × List W32 × Y4) := do
  let (W, S, Y) := st
  let i := 16 * q
  let S ← forLoop 16 (fun S j => CSha.RNDr Krnd S W j i) S
  if i == 48 then return (W, S, Y)
  let Y0 := MSG4 Y.y0 Y.y1 Y.y2 Y.y3
  let W ← mm_storeu_words W (16 + i + 0) Y0
  let Y1 := MSG4 Y.y1 Y.y2 Y.y3 Y0
  let W ← mm_storeu_words W (16 + i + 4) Y1
  let Y2 := MSG4 Y.y2 Y.y3 Y0 Y1
  let W ← mm_storeu_words W (16 + i + 8) Y2
  let Y3 := MSG4 Y.y3 Y0 Y1 Y2
  let W ← mm_storeu_words W (16 + i + 12) Y3
  return (W, S, ⟨Y0, Y1, Y2, Y3⟩)

end Sse2

/-- sha256_sse2.c:182-238 `SHA256_Transform_sse2` -/
def SHA256_Transform_sse2 (state : List W32) (block : Bytes) (W S : List W32) :
    Res (List W32 × List W32 × List W32) := do
  let x ← mm_loadu_bytes (block.drop 0)
  let Y0 := Sse2.mm_bswap_epi32 x
  let W ← mm_storeu_words W 0 Y0
  let x ← mm_loadu_bytes (block.drop 16)
  let Y1 := Sse2.mm_bswap_epi32 x
  let W ← mm_storeu_words W 4 Y1
  let x ← mm_loadu_bytes (block.drop 32)
  let Y2 := Sse2.mm_bswap_epi32 x
  let W ← mm_storeu_words W 8 Y2
  let x ← mm_loadu_bytes (block.drop 48)
  let Y3 := Sse2.mm_bswap_epi32 x
  let W ← mm_storeu_words W 12 Y3
  let st ← rdSlice state 0 8
  let S ← wrSlice S 0 st
  let (W, S, _) ← forLoop 4 Sse2.mixStep (W, S, ⟨Y0, Y1, Y2, Y3⟩)
  let state ← forLoop 8 (fun state i => do
    let x ← rd state i
    let y ← rd S i
    wr state i (x + y)) state
  return (state, W, S)

namespace Shani

/-- sha256_shani.c:25-37 `be32dec_128`; the `_mm_set_epi8` constant, byte 0 first. -/
def SHUF : V4 := V4.ofBytes fun i => ([3, 2, 1, 0, 7, 6, 5, 4, 11, 10, 9, 8, 15, 14, 13, 12] : Bytes).getD i 0
/-- sha256_shani.c:25-37 -/
def be32dec_128 (src : Bytes) : Res V4 := do
  let x ← mm_loadu_bytes src
  return mm_shuffle_epi8 x SHUF

/-- sha256_shani.c:47-59 `RND4`; the state is the pair `(S[0], S[1])`. (`I32` converts an unsigned
constant to the `int32_t` with the same bits.) -/
def RND4 (S : V4 × V4) (W : V4) (K0 K1 K2 K3 : W32) : V4 × V4 :=
  let M := mm_add_epi32 W (mm_set_epi32 K3 K2 K1 K0)
  let S1 := mm_sha256rnds2_epu32 S.2 S.1 M
  let M := mm_srli_si128 M 8
  let S0 := mm_sha256rnds2_epu32 S.1 S1 M
  (S0, S1)

/-- sha256_shani.c:63-68 `MSG4(W, i)` on the array `W[4]`. -/
def MSG4 (W : List V4) (i : Nat) : Res (List V4) := do
  let w0 ← rd W ((i + 0) % 4)
  let w1 ← rd W ((i + 1) % 4)
  let W ← wr W ((i + 0) % 4) (mm_sha256msg1_epu32 w0 w1)
  let w0 ← rd W ((i + 0) % 4)
  let w3 ← rd W ((i + 3) % 4)
  let w2 ← rd W ((i + 2) % 4)
  let W ← wr W ((i + 0) % 4) (mm_add_epi32 w0 (mm_alignr_epi8 w3 w2 4))
  let w0 ← rd W ((i + 0) % 4)
  let w3 ← rd W ((i + 3) % 4)
  wr W ((i + 0) % 4) (mm_sha256msg2_epu32 w0 w3)

/-- sha256_shani.c:70-74 `RNDMSG` -/
def RNDMSG (st : (V4 × V4) × List V4) (i : Nat) (K0 K1 K2 K3 : W32) : Res ((V4 × V4) × List V4) := do
  let (S, W) := st
  let w ← rd W (i % 4)
  let S := RND4 S w K0 K1 K2 K3
  if i < 12 then do
    let W ← MSG4 W (i + 4)
    return (S, W)
  else return (S, W)

/-- sha256_shani.c:114-129, the sixteen unrolled `RNDMSG` calls (K constants included). -/
def rounds16 (st : (V4 × V4) × List V4) : Res ((V4 × V4) × List V4) := do
  let st ← RNDMSG st 0 0x428a2f98 0x71374491 0xb5c0fbcf 0xe9b5dba5
  let st ← RNDMSG st 1 0x3956c25b 0x59f111f1 0x923f82a4 0xab1c5ed5
  let st ← RNDMSG st 2 0xd807aa98 0x12835b01 0x243185be 0x550c7dc3
  let st ← RNDMSG st 3 0x72be5d74 0x80deb1fe 0x9bdc06a7 0xc19bf174
  let st ← RNDMSG st 4 0xe49b69c1 0xefbe4786 0x0fc19dc6 0x240ca1cc
  let st ← RNDMSG st 5 0x2de92c6f 0x4a7484aa 0x5cb0a9dc 0x76f988da
  let st ← RNDMSG st 6 0x983e5152 0xa831c66d 0xb00327c8 0xbf597fc7
  let st ← RNDMSG st 7 0xc6e00bf3 0xd5a79147 0x06ca6351 0x14292967
  let st ← RNDMSG st 8 0x27b70a85 0x2e1b2138 0x4d2c6dfc 0x53380d13
  let st ← RNDMSG st 9 0x650a7354 0x766a0abb 0x81c2c92e 0x92722c85
  let st ← RNDMSG st 10 0xa2bfe8a1 0xa81a664b 0xc24b8b70 0xc76c51a3
  let st ← RNDMSG st 11 0xd192e819 0xd6990624 0xf40e3585 0x106aa070
  let st ← RNDMSG st 12 0x19a4c116 0x1e376c08 0x2748774c 0x34b0bcb5
  let st ← RNDMSG st 13 0x391c0cb3 0x4ed8aa4a 0x5b9cca4f 0x682e6ff3
  let st ← RNDMSG st 14 0x748f82ee 0x78a5636f 0x84c87814 0x8cc70208
  RNDMSG st 15 0x90befffa 0xa4506ceb 0xbef9a3f7 0xc67178f2

end Shani

open Shani in
/-- sha256_shani.c:83-142 `SHA256_Transform_shani` -/
def SHA256_Transform_shani (state : List W32) (block : Bytes) : Res (List W32) := do
  let S3210 ← mm_loadu_words state 0
  let S7654 ← mm_loadu_words state 4
  let S0123 := mm_shuffle_epi32 S3210 0x1B
  let S4567 := mm_shuffle_epi32 S7654 0x1B
  let S0145 := mm_unpackhi_epi64 S4567 S0123
  let S2367 := mm_unpacklo_epi64 S4567 S0123
  let W0 ← be32dec_128 (block.drop 0)
  let W1 ← be32dec_128 (block.drop 16)
  let W2 ← be32dec_128 (block.drop 32)
  let W3 ← be32dec_128 (block.drop 48)
  let st ← rounds16 ((S0145, S2367), [W0, W1, W2, W3])
  let S := st.1
  let S0145 := mm_add_epi32 S0145 S.1
  let S2367 := mm_add_epi32 S2367 S.2
  let S0123 := mm_unpackhi_epi64 S2367 S0145
  let S4567 := mm_unpacklo_epi64 S2367 S0145
  let S3210 := mm_shuffle_epi32 S0123 0x1B
  let S7654 := mm_shuffle_epi32 S4567 0x1B
  let state ← mm_storeu_words state 0 S3210
  mm_storeu_words state 4 S7654

namespace Arm

/-- sha256_arm.c:18-35 `Krnd` -/
def Krnd : List W32 := [
  0x428a2f98, 0x71374491, 0xb5c0fbcf, 0xe9b5dba5,
  0x3956c25b, 0x59f111f1, 0x923f82a4, 0xab1c5ed5,
  0xd807aa98, 0x12835b01, 0x243185be, 0x550c7dc3,
  0x72be5d74, 0x80deb1fe, 0x9bdc06a7, 0xc19bf174,
  0xe49b69c1, 0xefbe4786, 0x0fc19dc6, 0x240ca1cc,
  0x2de92c6f, 0x4a7484aa, 0x5cb0a9dc, 0x76f988da,
  0x983e5152, 0xa831c66d, 0xb00327c8, 0xbf597fc7,
  0xc6e00bf3, 0xd5a79147, 0x06ca6351, 0x14292967,
  0x27b70a85, 0x2e1b2138, 0x4d2c6dfc, 0x53380d13,
  0x650a7354, 0x766a0abb, 0x81c2c92e, 0x92722c85,
  0xa2bfe8a1, 0xa81a664b, 0xc24b8b70, 0xc76c51a3,
  0xd192e819, 0xd6990624, 0xf40e3585, 0x106aa070,
  0x19a4c116, 0x1e376c08, 0x2748774c, 0x34b0bcb5,
  0x391c0cb3, 0x4ed8aa4a, 0x5b9cca4f, 0x682e6ff3,
  0x748f82ee, 0x78a5636f, 0x84c87814, 0x8cc70208,
  0x90befffa, 0xa4506ceb, 0xbef9a3f7, 0xc67178f2]

/-- sha256_arm.c:38-45 `RND4(S, M, Kp)` with `Kp = &Krnd[koff]` -/
def RND4 (S : V4 × V4) (M : V4) (koff : Nat) : Res (V4 × V4) := do
  let S0_step := S.1
  let k ← mm_loadu_words Krnd koff
  let Wk := vaddq_u32 M k
  let S0 := vsha256hq_u32 S.1 S.2 Wk
  let S1 := vsha256h2q_u32 S.2 S0_step Wk
  return (S0, S1)

/-- sha256_arm.c:48-49 `MSG4` -/
def MSG4 (X0 X1 X2 X3 : V4) : V4 := vsha256su1q_u32 (vsha256su0q_u32 X0 X1) X2 X3

/-- sha256_arm.c:82-94, the loop body for `i = 16 * q`. -/
def mixStep (st : (V4 × V4) × Sse2.Y4) (q : Nat) : Res ((V4 × V4) × Sse2.Y4) := do
  let (S, Y) := st
  let i := 16 * q
  let S ← RND4 S Y.y0 (i + 0)
  let S ← RND4 S Y.y1 (i + 4)
  let S ← RND4 S Y.y2 (i + 8)
  let S ← RND4 S Y.y3 (i + 12)
  if i == 48 then return (S, Y)
  let Y0 := MSG4 Y.y0 Y.y1 Y.y2 Y.y3
  let Y1 := MSG4 Y.y1 Y.y2 Y.y3 Y0
  let Y2 := MSG4 Y.y2 Y.y3 Y0 Y1
  let Y3 := MSG4 Y.y3 Y0 Y1 Y2
  return (S, ⟨Y0, Y1, Y2, Y3⟩)

end Arm

/-- sha256_arm.c:62-100 `SHA256_Transform_arm` -/
def SHA256_Transform_arm (state : List W32) (block : Bytes) : Res (List W32) := do
  let x ← mm_loadu_bytes (block.drop 0)
  let Y0 := vrev32q_u8 x
  let x ← mm_loadu_bytes (block.drop 16)
  let Y1 := vrev32q_u8 x
  let x ← mm_loadu_bytes (block.drop 32)
  let Y2 := vrev32q_u8 x
  let x ← mm_loadu_bytes (block.drop 48)
  let Y3 := vrev32q_u8 x
  let s0 ← mm_loadu_words state 0
  let s1 ← mm_loadu_words state 4
  let (S, _) ← forLoop 4 Arm.mixStep ((s0, s1), ⟨Y0, Y1, Y2, Y3⟩)
  let state ← mm_storeu_words state 0 (vaddq_u32 s0 S.1)
  mm_storeu_words state 4 (vaddq_u32 s1 S.2)

/-- The implementations `hwaccel` can select (sha256.c:20-31). -/
inductive ShaHw
  | software | x86_shani | x86_sse2 | arm_sha256
  deriving DecidableEq, Repr

/-- The `switch (hwaccel)` of sha256.c:253-269. -/
def shaTransform : ShaHw → Transform
  | .software => swTransform
  | .x86_shani => SHA256_Transform_shani
  | .x86_sse2 => fun state block => do
    let (state, _, _) ← SHA256_Transform_sse2 state block (List.replicate 64 0) (List.replicate 8 0)
    return state
  | .arm_sha256 => SHA256_Transform_arm

end Scrypt
