import Verif.Spec.Aes
/-
Documented semantics of the AES-related SIMD instructions used by crypto_aes_aesni.c, crypto_aes_arm.c,
crypto_aesctr_aesni.c and crypto_aesctr_arm.c (Intel SDM vol. 2; Arm ARM).  A 128-bit register is the
list of its 16 bytes, least significant (= lowest address in memory) first.  Part of the trusted base.
-/
namespace Scrypt
open Spec

/-- Byte `i` of a register. -/
def qb (v : Bytes) (i : Nat) : Byte := v.getD i 0
/-- 32-bit lane `i` of a register, as its four bytes. -/
def qlane (v : Bytes) (i : Nat) : Bytes := [qb v (4 * i), qb v (4 * i + 1), qb v (4 * i + 2), qb v (4 * i + 3)]

/-- `_mm_loadu_si128`, `vld1q_u8`: sixteen bytes at `&p[off]`. -/
def q_load (p : Bytes) (off : Nat) : Res Bytes := rdSlice p off 16
/-- `_mm_xor_si128`, `veorq_u8` -/
def q_xor (a b : Bytes) : Bytes := (List.range 16).map fun k => qb a k ^^^ qb b k
/-- `_mm_slli_si128_b(a, n)` (PSLLDQ): shift left by `n` bytes, zero fill. -/
def mm_slli_si128_b (a : Bytes) (n : Nat) : Bytes := (List.range 16).map fun k => if k < n then 0 else qb a (k - n)
/-- `_mm_shuffle_epi32(a, imm)` (PSHUFD): lane `i` of the result is lane `(imm >> 2i) & 3` of `a`. -/
def mm_shuffle_epi32_b (a : Bytes) (imm : Nat) : Bytes :=
  (List.range 16).map fun k => qb a (4 * (imm / 4 ^ (k / 4) % 4) + k % 4)
/-- `_mm_unpacklo_epi64(a, b)`: low halves of `a` then `b`. -/
def mm_unpacklo_epi64_b (a b : Bytes) : Bytes := (List.range 16).map fun k => if k < 8 then qb a k else qb b (k - 8)
/-- `_mm_loadu_si64(p)` / `_mm_load_sd`: eight bytes; the upper half is whatever `junk` says. -/
def mm_loadu_si64 (p : Bytes) (junk : Bytes) : Res Bytes := do
  let b ← rdSlice p 0 8
  return b ++ junk
/-- AESENC: ShiftRows, SubBytes, MixColumns, xor round key (SDM: "AESENC"). -/
def mm_aesenc (a k : Bytes) : Bytes := q_xor (mixColumns (subBytes sbox (shiftRows a))) k
/-- AESENCLAST: ShiftRows, SubBytes, xor round key. -/
def mm_aesenclast (a k : Bytes) : Bytes := q_xor (subBytes sbox (shiftRows a)) k
/-- AESKEYGENASSIST: lanes SubWord(X1), RotWord(SubWord(X1)) xor RCON, SubWord(X3),
RotWord(SubWord(X3)) xor RCON; RotWord rotates the dword right by 8 bits, i.e. moves byte 0 to byte 3;
RCON is the immediate in the low byte. -/
def mm_aeskeygenassist (a : Bytes) (imm : Byte) : Bytes :=
  let sw1 := subWord sbox (qlane a 1)
  let sw3 := subWord sbox (qlane a 3)
  sw1 ++ [qb sw1 1 ^^^ imm, qb sw1 2, qb sw1 3, qb sw1 0] ++ sw3 ++ [qb sw3 1 ^^^ imm, qb sw3 2, qb sw3 3, qb sw3 0]

/-- `vaeseq_u8(a, k)` (AESE): xor, ShiftRows, SubBytes. -/
def vaeseq_u8 (a k : Bytes) : Bytes := subBytes sbox (shiftRows (q_xor a k))
/-- `vaesmcq_u8(a)` (AESMC): MixColumns. -/
def vaesmcq_u8 (a : Bytes) : Bytes := mixColumns a
/-- `vdupq_n_u8(0)` -/
def vdupq_n_u8_zero : Bytes := List.replicate 16 0
/-- `vdupq_laneq_u32` on a byte register. -/
def vdupq_laneq_u32_b (a : Bytes) (lane : Nat) : Bytes := qlane a lane ++ qlane a lane ++ qlane a lane ++ qlane a lane
/-- `vextq_u8(a, b, n)`: sixteen bytes of `a ‖ b` from byte `n`. -/
def vextq_u8 (a b : Bytes) (n : Nat) : Bytes := (List.range 16).map fun k => if k + n < 16 then qb a (k + n) else qb b (k + n - 16)
/-- `vgetq_lane_u32(vreinterpretq_u32_u8(a), 0)`: lane 0, least significant byte first. -/
def vgetq_lane_u32_0 (a : Bytes) : W32 := BitVec.ofNat 32 (leVal (qlane a 0))
/-- `vreinterpretq_u8_u32(vdupq_n_u32(x))` -/
def vdupq_n_u32_b (x : W32) : Bytes :=
  leBytes 4 x.toNat ++ leBytes 4 x.toNat ++ leBytes 4 x.toNat ++ leBytes 4 x.toNat
/-- `vld1_u8(p)`: eight bytes. -/
def vld1_u8 (p : Bytes) : Res Bytes := rdSlice p 0 8
/-- `vcombine_u8(lo, hi)` -/
def vcombine_u8 (lo hi : Bytes) : Bytes := lo ++ hi

end Scrypt
