import Verif.Spec.Sha256
/-
Documented semantics of the SIMD instructions used by the accelerated code (Intel SDM vol. 2, Arm
Architecture Reference Manual), restricted to those the code uses.  A 128-bit register is given by
its four 32-bit lanes, lane 0 = bits 31..0.  These definitions are part of the trusted base.
-/
namespace Scrypt

/-- A 128-bit vector register as four 32-bit lanes. -/
structure V4 where
  (l0 l1 l2 l3 : W32)
  deriving DecidableEq, Repr

namespace V4

/-- The register as a 128-bit number. -/
def toBV (v : V4) : BitVec 128 := v.l3 ++ v.l2 ++ v.l1 ++ v.l0
/-- The register holding a 128-bit number. -/
def ofBV (x : BitVec 128) : V4 :=
  ⟨x.extractLsb' 0 32, x.extractLsb' 32 32, x.extractLsb' 64 32, x.extractLsb' 96 32⟩

def map (f : W32 → W32) (a : V4) : V4 := ⟨f a.l0, f a.l1, f a.l2, f a.l3⟩
def zip (f : W32 → W32 → W32) (a b : V4) : V4 := ⟨f a.l0 b.l0, f a.l1 b.l1, f a.l2 b.l2, f a.l3 b.l3⟩

/-- Lane `i` (mod 4). -/
def lane (v : V4) (i : Nat) : W32 :=
  match i % 4 with
  | 0 => v.l0 | 1 => v.l1 | 2 => v.l2 | _ => v.l3

def toList (v : V4) : List W32 := [v.l0, v.l1, v.l2, v.l3]

/-- 16-bit lane `i` (mod 8), lane 0 = bits 15..0. -/
def word (v : V4) (i : Nat) : BitVec 16 := v.toBV.extractLsb' (16 * (i % 8)) 16
/-- Register from eight 16-bit lanes. -/
def ofWords (f : Nat → BitVec 16) : V4 := ⟨f 1 ++ f 0, f 3 ++ f 2, f 5 ++ f 4, f 7 ++ f 6⟩
/-- byte `i` (mod 16) -/
def byte (v : V4) (i : Nat) : Byte := v.toBV.extractLsb' (8 * (i % 16)) 8
/-- Register from sixteen bytes. -/
def ofBytes (f : Nat → Byte) : V4 :=
  ⟨f 3 ++ f 2 ++ f 1 ++ f 0, f 7 ++ f 6 ++ f 5 ++ f 4, f 11 ++ f 10 ++ f 9 ++ f 8,
   f 15 ++ f 14 ++ f 13 ++ f 12⟩

end V4

/-! ### SSE2 / SSSE3 -/

/-- `_mm_loadu_si128((const __m128i *)p)`, `vld1q_u8(p)`: sixteen bytes, little endian. -/
def mm_loadu_bytes (p : Bytes) : Res V4 := do
  let b ← rdSlice p 0 16
  return V4.ofBytes fun i => b.getD i 0

/-- `_mm_loadu_si128((const __m128i *)&w[off])`, `vld1q_u32(&w[off])` on an array of words. -/
def mm_loadu_words (w : List W32) (off : Nat) : Res V4 := do
  let a ← rd w off; let b ← rd w (off + 1); let c ← rd w (off + 2); let d ← rd w (off + 3)
  return ⟨a, b, c, d⟩

/-- `_mm_storeu_si128((__m128i *)&w[off], v)`, `vst1q_u32`. -/
def mm_storeu_words (w : List W32) (off : Nat) (v : V4) : Res (List W32) := do
  let w ← wr w off v.l0
  let w ← wr w (off + 1) v.l1
  let w ← wr w (off + 2) v.l2
  wr w (off + 3) v.l3

def mm_add_epi32 (a b : V4) : V4 := V4.zip (· + ·) a b
def mm_xor_si128 (a b : V4) : V4 := V4.zip (· ^^^ ·) a b
def mm_or_si128 (a b : V4) : V4 := V4.zip (· ||| ·) a b
def mm_and_si128 (a b : V4) : V4 := V4.zip (· &&& ·) a b
def mm_srli_epi32 (a : V4) (n : Nat) : V4 := V4.map (· >>> n) a
def mm_slli_epi32 (a : V4) (n : Nat) : V4 := V4.map (· <<< n) a

/-- Logical right shift of the two 64-bit lanes. -/
def mm_srli_epi64 (a : V4) (n : Nat) : V4 :=
  let lo : BitVec 64 := (a.l1 ++ a.l0 : BitVec 64) >>> n
  let hi : BitVec 64 := (a.l3 ++ a.l2 : BitVec 64) >>> n
  ⟨lo.extractLsb' 0 32, lo.extractLsb' 32 32, hi.extractLsb' 0 32, hi.extractLsb' 32 32⟩

def mm_slli_epi16 (a : V4) (n : Nat) : V4 := V4.ofWords fun i => a.word i <<< n
def mm_srli_epi16 (a : V4) (n : Nat) : V4 := V4.ofWords fun i => a.word i >>> n

/-- `_MM_SHUFFLE(z, y, x, w)` -/
def MM_SHUFFLE (z y x w : Nat) : Nat := z <<< 6 ||| y <<< 4 ||| x <<< 2 ||| w

/-- Select 32-bit lanes by an 8-bit immediate. -/
def mm_shuffle_epi32 (a : V4) (imm : Nat) : V4 :=
  ⟨a.lane (imm &&& 3), a.lane (imm >>> 2 &&& 3), a.lane (imm >>> 4 &&& 3), a.lane (imm >>> 6 &&& 3)⟩

/-- Shuffle the four low 16-bit lanes. -/
def mm_shufflelo_epi16 (a : V4) (imm : Nat) : V4 :=
  V4.ofWords fun i => if i < 4 then a.word (imm >>> (2 * i) &&& 3) else a.word i
/-- Shuffle the four high 16-bit lanes. -/
def mm_shufflehi_epi16 (a : V4) (imm : Nat) : V4 :=
  V4.ofWords fun i => if i < 4 then a.word i else a.word (4 + (imm >>> (2 * (i - 4)) &&& 3))

/-- Byte shifts of the whole register. -/
def mm_slli_si128 (a : V4) (n : Nat) : V4 := V4.ofBV (a.toBV <<< (8 * n))
def mm_srli_si128 (a : V4) (n : Nat) : V4 := V4.ofBV (a.toBV >>> (8 * n))

/-- Low lane from `b`, the rest from `a` (the casts to `__m128` are bit-preserving). -/
def mm_move_ss (a b : V4) : V4 := ⟨b.l0, a.l1, a.l2, a.l3⟩

def mm_unpackhi_epi64 (a b : V4) : V4 := ⟨a.l2, a.l3, b.l2, b.l3⟩
def mm_unpacklo_epi64 (a b : V4) : V4 := ⟨a.l0, a.l1, b.l0, b.l1⟩

/-- PSHUFB: byte `i` is zero if bit 7 of the selector is set, else byte `sel & 15`. -/
def mm_shuffle_epi8 (a sel : V4) : V4 :=
  V4.ofBytes fun i => if (sel.byte i).msb then 0 else a.byte ((sel.byte i).toNat % 16)

/-- PALIGNR: `(a:b) >> 8n`, low 128 bits. -/
def mm_alignr_epi8 (a b : V4) (n : Nat) : V4 :=
  V4.ofBV (((a.toBV ++ b.toBV : BitVec 256) >>> (8 * n)).extractLsb' 0 128)

/-- `_mm_set_epi32(e3, e2, e1, e0)` -/
def mm_set_epi32 (e3 e2 e1 e0 : W32) : V4 := ⟨e0, e1, e2, e3⟩

/-! ### SHA-NI -/
open Spec in
/-- SHA256RNDS2, Intel SDM. `src1` holds C,D,G,H; `src2` holds A,B,E,F (high to low). -/
def mm_sha256rnds2_epu32 (src1 src2 k : V4) : V4 :=
  let A0 := src2.l3; let B0 := src2.l2; let C0 := src1.l3; let D0 := src1.l2
  let E0 := src2.l1; let F0 := src2.l0; let G0 := src1.l1; let H0 := src1.l0
  let WK0 := k.l0; let WK1 := k.l1
  let A1 := Ch E0 F0 G0 + Sig1 E0 + WK0 + H0 + Maj A0 B0 C0 + Sig0 A0
  let B1 := A0; let C1 := B0; let D1 := C0
  let E1 := Ch E0 F0 G0 + Sig1 E0 + WK0 + H0 + D0
  let F1 := E0; let G1 := F0; let H1 := G0
  let A2 := Ch E1 F1 G1 + Sig1 E1 + WK1 + H1 + Maj A1 B1 C1 + Sig0 A1
  let E2 := Ch E1 F1 G1 + Sig1 E1 + WK1 + H1 + D1
  ⟨E1, E2, A1, A2⟩

open Spec in
/-- SHA256MSG1, Intel SDM. -/
def mm_sha256msg1_epu32 (a b : V4) : V4 :=
  ⟨a.l0 + sig0 a.l1, a.l1 + sig0 a.l2, a.l2 + sig0 a.l3, a.l3 + sig0 b.l0⟩

open Spec in
/-- SHA256MSG2, Intel SDM. -/
def mm_sha256msg2_epu32 (a b : V4) : V4 :=
  let W16 := a.l0 + sig1 b.l2
  let W17 := a.l1 + sig1 b.l3
  let W18 := a.l2 + sig1 W16
  let W19 := a.l3 + sig1 W17
  ⟨W16, W17, W18, W19⟩

/-! ### Arm NEON and SHA-256 extension -/

def vaddq_u32 (a b : V4) : V4 := V4.zip (· + ·) a b

/-- VREV32.8: reverse the bytes of each 32-bit lane. -/
def vrev32q_u8 (a : V4) : V4 := V4.ofBytes fun i => a.byte (4 * (i / 4) + (3 - i % 4))

open Spec in
/-- One iteration of the `SHA256hash` pseudo-code: `(X, Y)` with `X` = a..d, `Y` = e..h in lanes
0..3; the final step is the rotation of `Y:X` left by one lane. -/
def armHashStep (XY : V4 × V4) (w : W32) : V4 × V4 :=
  let X := XY.1; let Y := XY.2
  let chs := Ch Y.l0 Y.l1 Y.l2
  let maj := Maj X.l0 X.l1 X.l2
  let t := Y.l3 + Sig1 Y.l0 + chs + w
  let x3 := t + X.l3
  let y3 := t + Sig0 X.l0 + maj
  (⟨y3, X.l0, X.l1, X.l2⟩, ⟨x3, Y.l0, Y.l1, Y.l2⟩)

/-- `SHA256hash` pseudo-code (Arm ARM): four iterations. -/
def armHash (X Y W : V4) : V4 × V4 := [W.l0, W.l1, W.l2, W.l3].foldl armHashStep (X, Y)

/-- SHA256H -/
def vsha256hq_u32 (abcd efgh wk : V4) : V4 := (armHash abcd efgh wk).1
/-- SHA256H2 -/
def vsha256h2q_u32 (efgh abcd wk : V4) : V4 := (armHash abcd efgh wk).2

open Spec in
/-- SHA256SU0 -/
def vsha256su0q_u32 (a b : V4) : V4 :=
  ⟨sig0 a.l1 + a.l0, sig0 a.l2 + a.l1, sig0 a.l3 + a.l2, sig0 b.l0 + a.l3⟩

open Spec in
/-- SHA256SU1 -/
def vsha256su1q_u32 (a b c : V4) : V4 :=
  let r0 := sig1 c.l2 + (a.l0 + b.l1)
  let r1 := sig1 c.l3 + (a.l1 + b.l2)
  ⟨r0, r1, sig1 r0 + (a.l2 + b.l3), sig1 r1 + (a.l3 + c.l0)⟩

end Scrypt
