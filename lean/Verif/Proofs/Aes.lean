import Verif.Model.Aes
import Verif.Proofs.Endian
import Verif.Proofs.Intrin
import Mathlib.Tactic.Ring
/-
The AES-NI and ARM code computes FIPS 197 AES.
-/
namespace Scrypt
open Spec

theorem list16 {α : Type} (l : List α) (h : l.length = 16) : ∃ a0 a1 a2 a3 a4 a5 a6 a7 a8 a9 a10 a11 a12 a13 a14 a15,
    l = [a0, a1, a2, a3, a4, a5, a6, a7, a8, a9, a10, a11, a12, a13, a14, a15] := by
  match l, h with
  | [a0, a1, a2, a3, a4, a5, a6, a7, a8, a9, a10, a11, a12, a13, a14, a15], _ =>
    exact ⟨a0, a1, a2, a3, a4, a5, a6, a7, a8, a9, a10, a11, a12, a13, a14, a15, rfl⟩

theorem list4 {α : Type} (l : List α) (h : l.length = 4) : ∃ a0 a1 a2 a3, l = [a0, a1, a2, a3] := by
  match l, h with
  | [a0, a1, a2, a3], _ => exact ⟨a0, a1, a2, a3, rfl⟩

theorem getD_app_l {α : Type} (l l' : List α) (d : α) (n : Nat) (h : n < l.length) : (l ++ l').getD n d = l.getD n d := by
  rw [List.getD_eq_getElem?_getD, List.getElem?_append_left h, ← List.getD_eq_getElem?_getD]

theorem getD_app_r {α : Type} (l l' : List α) (d : α) (n : Nat) (h : l.length ≤ n) : (l ++ l').getD n d = l'.getD (n - l.length) d := by
  rw [List.getD_eq_getElem?_getD, List.getElem?_append_right h, ← List.getD_eq_getElem?_getD]

theorem q_xor_length (a b : Bytes) : (q_xor a b).length = 16 := by simp [q_xor]
theorem shiftRows_length (a : Bytes) : (shiftRows a).length = 16 := by simp [shiftRows]
theorem mixColumns_length (a : Bytes) : (mixColumns a).length = 16 := by simp [mixColumns]
theorem subBytes_length (S : Byte → Byte) (a : Bytes) : (subBytes S a).length = a.length := by simp [subBytes]

theorem q_xor_eq (a b : Bytes) (ha : a.length = 16) (hb : b.length = 16) : q_xor a b = xorBytes a b := by
  obtain ⟨a0, a1, a2, a3, a4, a5, a6, a7, a8, a9, a10, a11, a12, a13, a14, a15, rfl⟩ := list16 a ha
  obtain ⟨b0, b1, b2, b3, b4, b5, b6, b7, b8, b9, b10, b11, b12, b13, b14, b15, rfl⟩ := list16 b hb
  rfl

theorem shiftRows_subBytes (S : Byte → Byte) (a : Bytes) (ha : a.length = 16) : shiftRows (subBytes S a) = subBytes S (shiftRows a) := by
  obtain ⟨a0, a1, a2, a3, a4, a5, a6, a7, a8, a9, a10, a11, a12, a13, a14, a15, rfl⟩ := list16 a ha
  rfl

theorem xorBytes_length16 (a b : Bytes) (ha : a.length = 16) (hb : b.length = 16) : (xorBytes a b).length = 16 := by
  rw [← q_xor_eq a b ha hb, q_xor_length]

/-! ### Key schedule -/

section
variable (S : Byte → Byte) (Nk : Nat) (key : Bytes)

theorem keyExpansion_length (n : Nat) : (keyExpansion S Nk key n).length = Nk + n := by
  induction n with
  | zero => simp [keyExpansion]
  | succ n ih => simp only [keyExpansion, List.length_append, ih, List.length_singleton]; omega

theorem keyExpansion_prefix (n m i : Nat) (hi : i < Nk + n) :
    (keyExpansion S Nk key (n + m)).getD i [] = (keyExpansion S Nk key n).getD i [] := by
  induction m with
  | zero => rfl
  | succ m ih =>
    rw [← ih, ← Nat.add_assoc, keyExpansion]
    rw [getD_app_l _ _ _ _ (by rw [keyExpansion_length]; omega)]

theorem keyExpansion_getD (n i : Nat) (h1 : Nk ≤ i) (h2 : i < Nk + n) (h0 : 0 < Nk) :
    (keyExpansion S Nk key n).getD i [] = xorBytes ((keyExpansion S Nk key n).getD (i - Nk) [])
      (keyTemp S Nk i ((keyExpansion S Nk key n).getD (i - 1) [])) := by
  obtain ⟨k, rfl⟩ : ∃ k, i = Nk + k := ⟨i - Nk, by omega⟩
  obtain ⟨m, rfl⟩ : ∃ m, n = (k + 1) + m := ⟨n - (k + 1), by omega⟩
  have e0 := keyExpansion_prefix S Nk key (k + 1) m (Nk + k) (by omega)
  have e1 := keyExpansion_prefix S Nk key k (1 + m) (Nk + k - Nk) (by omega)
  have e2 := keyExpansion_prefix S Nk key k (1 + m) (Nk + k - 1) (by omega)
  rw [← Nat.add_assoc] at e1 e2
  rw [e0, e1, e2, keyExpansion]
  rw [getD_app_r _ _ _ _ (by rw [keyExpansion_length]), keyExpansion_length, Nat.sub_self]
  rfl

theorem keyExpansion_init (n i : Nat) (hi : i < Nk) : (keyExpansion S Nk key n).getD i [] = (key.drop (4 * i)).take 4 := by
  have := keyExpansion_prefix S Nk key 0 n i (by omega)
  rw [Nat.zero_add] at this
  rw [this, keyExpansion, List.getD_eq_getElem?_getD, List.getElem?_map, List.getElem?_range hi]
  rfl

theorem xorBytes_len (a b : Bytes) (n : Nat) (ha : a.length = n) (hb : b.length = n) : (xorBytes a b).length = n := by
  simp [xorBytes, ha, hb]

theorem keyTemp_length (i : Nat) (p : Bytes) (hp : p.length = 4) : (keyTemp S Nk i p).length = 4 := by
  obtain ⟨a, b, c, d, rfl⟩ := list4 p hp
  unfold keyTemp
  split
  · rfl
  · split <;> rfl

theorem keyExpansion_word_length (hk : key.length = 4 * Nk) (h0 : 0 < Nk) (n i : Nat) (hi : i < Nk + n) :
    ((keyExpansion S Nk key n).getD i []).length = 4 := by
  induction i using Nat.strongRecOn with
  | ind i ih =>
    by_cases h : i < Nk
    · rw [keyExpansion_init _ _ _ _ _ h, List.length_take, List.length_drop]; omega
    · rw [keyExpansion_getD _ _ _ _ _ (by omega) hi h0]
      exact xorBytes_len _ _ 4 (ih (i - Nk) (by omega) (by omega)) (keyTemp_length _ _ _ _ (ih (i - 1) (by omega) (by omega)))

end

/-- xor of four words with a cascade: what the slli/xor pairs followed by xor with `t` in every lane give. -/
def cascade (p0 p1 p2 p3 t : Bytes) : Bytes :=
  let n0 := xorBytes p0 t
  let n1 := xorBytes p1 n0
  let n2 := xorBytes p2 n1
  let n3 := xorBytes p3 n2
  n0 ++ n1 ++ n2 ++ n3

theorem xor_c2 (a b t : Byte) : b ^^^ a ^^^ t = b ^^^ (a ^^^ t) := BitVec.xor_assoc _ _ _

theorem cascade_sse (p0 p1 p2 p3 t : Bytes) (h0 : p0.length = 4) (h1 : p1.length = 4) (h2 : p2.length = 4) (h3 : p3.length = 4) (ht : t.length = 4) :
    q_xor (q_xor (q_xor (p0 ++ p1 ++ p2 ++ p3) (mm_slli_si128_b (p0 ++ p1 ++ p2 ++ p3) 4))
      (mm_slli_si128_b (q_xor (p0 ++ p1 ++ p2 ++ p3) (mm_slli_si128_b (p0 ++ p1 ++ p2 ++ p3) 4)) 8)) (t ++ t ++ t ++ t) = cascade p0 p1 p2 p3 t := by
  obtain ⟨a0, a1, a2, a3, rfl⟩ := list4 p0 h0
  obtain ⟨b0, b1, b2, b3, rfl⟩ := list4 p1 h1
  obtain ⟨c0, c1, c2, c3, rfl⟩ := list4 p2 h2
  obtain ⟨d0, d1, d2, d3, rfl⟩ := list4 p3 h3
  obtain ⟨t0, t1, t2, t3, rfl⟩ := list4 t ht
  show [a0 ^^^ 0 ^^^ 0 ^^^ t0, a1 ^^^ 0 ^^^ 0 ^^^ t1, a2 ^^^ 0 ^^^ 0 ^^^ t2, a3 ^^^ 0 ^^^ 0 ^^^ t3,
    b0 ^^^ a0 ^^^ 0 ^^^ t0, b1 ^^^ a1 ^^^ 0 ^^^ t1, b2 ^^^ a2 ^^^ 0 ^^^ t2, b3 ^^^ a3 ^^^ 0 ^^^ t3,
    c0 ^^^ b0 ^^^ (a0 ^^^ 0) ^^^ t0, c1 ^^^ b1 ^^^ (a1 ^^^ 0) ^^^ t1, c2 ^^^ b2 ^^^ (a2 ^^^ 0) ^^^ t2, c3 ^^^ b3 ^^^ (a3 ^^^ 0) ^^^ t3,
    d0 ^^^ c0 ^^^ (b0 ^^^ a0) ^^^ t0, d1 ^^^ c1 ^^^ (b1 ^^^ a1) ^^^ t1, d2 ^^^ c2 ^^^ (b2 ^^^ a2) ^^^ t2, d3 ^^^ c3 ^^^ (b3 ^^^ a3) ^^^ t3] =
   [a0 ^^^ t0, a1 ^^^ t1, a2 ^^^ t2, a3 ^^^ t3,
    b0 ^^^ (a0 ^^^ t0), b1 ^^^ (a1 ^^^ t1), b2 ^^^ (a2 ^^^ t2), b3 ^^^ (a3 ^^^ t3),
    c0 ^^^ (b0 ^^^ (a0 ^^^ t0)), c1 ^^^ (b1 ^^^ (a1 ^^^ t1)), c2 ^^^ (b2 ^^^ (a2 ^^^ t2)), c3 ^^^ (b3 ^^^ (a3 ^^^ t3)),
    d0 ^^^ (c0 ^^^ (b0 ^^^ (a0 ^^^ t0))), d1 ^^^ (c1 ^^^ (b1 ^^^ (a1 ^^^ t1))), d2 ^^^ (c2 ^^^ (b2 ^^^ (a2 ^^^ t2))), d3 ^^^ (c3 ^^^ (b3 ^^^ (a3 ^^^ t3)))]
  simp only [BitVec.ofNat_eq_ofNat, BitVec.xor_zero, BitVec.xor_assoc]

theorem vshl_eq (a : Bytes) (n : Nat) (h : n ≤ 16) (hn : 0 < n) : vshlq_n_u128 a n = mm_slli_si128_b a n := by
  unfold vshlq_n_u128 vextq_u8 mm_slli_si128_b
  apply List.map_congr_left
  intro k hk
  by_cases hc : k < n
  · rw [if_pos (by omega), if_pos hc]
    simp only [vdupq_n_u8_zero, qb]
    rw [List.getD_eq_getElem?_getD, List.getElem?_replicate]; split <;> rfl
  · rw [if_neg (by omega), if_neg hc]; congr 1; omega

/-- lane selection after the assist instruction -/
theorem assist_ff (p : Bytes) (q : Bytes) (hp : p.length = 12) (hq : q.length = 4) (imm : Byte) :
    mm_shuffle_epi32_b (mm_aeskeygenassist (p ++ q) imm) 0xff =
      (fun t => t ++ t ++ t ++ t) (xorBytes (subWord sbox (rotWord q)) [imm, 0, 0, 0]) := by
  obtain ⟨q0, q1, q2, q3, rfl⟩ := list4 q hq
  match p, hp with
  | [p0, p1, p2, p3, p4, p5, p6, p7, p8, p9, p10, p11], _ =>
    unfold mm_aeskeygenassist
    generalize sbox = S'
    show [S' q1 ^^^ imm, S' q2, S' q3, S' q0, S' q1 ^^^ imm, S' q2, S' q3, S' q0, S' q1 ^^^ imm, S' q2, S' q3, S' q0, S' q1 ^^^ imm, S' q2, S' q3, S' q0] =
      [S' q1 ^^^ imm, S' q2 ^^^ 0, S' q3 ^^^ 0, S' q0 ^^^ 0, S' q1 ^^^ imm, S' q2 ^^^ 0, S' q3 ^^^ 0, S' q0 ^^^ 0,
       S' q1 ^^^ imm, S' q2 ^^^ 0, S' q3 ^^^ 0, S' q0 ^^^ 0, S' q1 ^^^ imm, S' q2 ^^^ 0, S' q3 ^^^ 0, S' q0 ^^^ 0]
    simp only [BitVec.ofNat_eq_ofNat, BitVec.xor_zero]

theorem assist_aa (p : Bytes) (q : Bytes) (hp : p.length = 12) (hq : q.length = 4) (imm : Byte) :
    mm_shuffle_epi32_b (mm_aeskeygenassist (p ++ q) imm) 0xaa =
      (fun t => t ++ t ++ t ++ t) (subWord sbox q) := by
  obtain ⟨q0, q1, q2, q3, rfl⟩ := list4 q hq
  match p, hp with
  | [p0, p1, p2, p3, p4, p5, p6, p7, p8, p9, p10, p11], _ =>
    unfold mm_aeskeygenassist
    generalize sbox = S'
    rfl

theorem SubWord_duplicate_eq (p : Bytes) (q : Bytes) (hp : p.length = 12) (hq : q.length = 4) :
    SubWord_duplicate (p ++ q) = (fun t => t ++ t ++ t ++ t) (subWord sbox q) := by
  obtain ⟨q0, q1, q2, q3, rfl⟩ := list4 q hq
  match p, hp with
  | [p0, p1, p2, p3, p4, p5, p6, p7, p8, p9, p10, p11], _ =>
    unfold SubWord_duplicate vaeseq_u8
    generalize sbox = S'
    have e : shiftRows (q_xor (vdupq_laneq_u32_b ([p0, p1, p2, p3, p4, p5, p6, p7, p8, p9, p10, p11] ++ [q0, q1, q2, q3]) 3) vdupq_n_u8_zero) =
      [q0, q1, q2, q3, q0, q1, q2, q3, q0, q1, q2, q3, q0, q1, q2, q3] := by
      show [q0 ^^^ 0, q1 ^^^ 0, q2 ^^^ 0, q3 ^^^ 0, q0 ^^^ 0, q1 ^^^ 0, q2 ^^^ 0, q3 ^^^ 0, q0 ^^^ 0, q1 ^^^ 0, q2 ^^^ 0, q3 ^^^ 0, q0 ^^^ 0, q1 ^^^ 0, q2 ^^^ 0, q3 ^^^ 0] = _
      simp only [BitVec.ofNat_eq_ofNat, BitVec.xor_zero]
    simp only [e]
    rfl

theorem lowByte_eq' {n : Nat} (x : BitVec n) : lowByte x = x.setWidth 8 := by
  rw [lowByte_eq]; exact BitVec.eq_of_toNat_eq (by simp)

theorem rot_rcon (a b c d imm : Byte) :
    leBytes 4 ((BitVec.ofNat 32 (leVal [a, b, c, d]) >>> 8 ||| BitVec.ofNat 32 (leVal [a, b, c, d]) <<< (32 - 8)) ^^^ imm.setWidth 32).toNat =
      [b ^^^ imm, c, d, a] := by
  have hv : BitVec.ofNat 32 (leVal [a, b, c, d]) = d ++ c ++ b ++ a := by
    rw [← beVal_eq_leVal_reverse]; exact beVal4 d c b a
  have hx : ∀ j, (BitVec.ofNat 32 (leVal [a, b, c, d])).getLsbD j =
      if j < 8 then a.getLsbD j else if j - 8 < 8 then b.getLsbD (j - 8) else if j - 8 - 8 < 8 then c.getLsbD (j - 8 - 8) else d.getLsbD (j - 8 - 8 - 8) := by
    intro j
    rw [hv]
    show (d ++ c ++ b ++ a : BitVec (8 + 8 + 8 + 8)).getLsbD j = _
    simp only [BitVec.getLsbD_append]
  generalize BitVec.ofNat 32 (leVal [a, b, c, d]) = x at hx
  rw [← le32enc_eq]
  simp only [le32enc, lowByte_eq', List.cons.injEq, and_true]
  refine ⟨?_, ?_, ?_, ?_⟩
  all_goals
    apply BitVec.eq_of_getLsbD_eq
    intro i hi
    simp only [BitVec.getLsbD_setWidth, BitVec.getLsbD_ushiftRight, BitVec.getLsbD_xor, BitVec.getLsbD_or, BitVec.getLsbD_shiftLeft, hx]
    rcases (by omega : i = 0 ∨ i = 1 ∨ i = 2 ∨ i = 3 ∨ i = 4 ∨ i = 5 ∨ i = 6 ∨ i = 7) with h | h | h | h | h | h | h | h <;> subst h <;> simp

theorem SubWord_RotWord_eq (p : Bytes) (q : Bytes) (hp : p.length = 12) (hq : q.length = 4) (imm : Byte) :
    SubWord_RotWord_XOR_duplicate (p ++ q) (imm.setWidth 32) =
      (fun t => t ++ t ++ t ++ t) (xorBytes (subWord sbox (rotWord q)) [imm, 0, 0, 0]) := by
  unfold SubWord_RotWord_XOR_duplicate
  rw [SubWord_duplicate_eq p q hp hq]
  obtain ⟨q0, q1, q2, q3, rfl⟩ := list4 q hq
  generalize sbox = S'
  have e : leBytes 4 ((vgetq_lane_u32_0 ((fun t => t ++ t ++ t ++ t) (subWord S' [q0, q1, q2, q3])) >>> 8 |||
      vgetq_lane_u32_0 ((fun t => t ++ t ++ t ++ t) (subWord S' [q0, q1, q2, q3])) <<< (32 - 8)) ^^^ imm.setWidth 32).toNat =
      xorBytes (subWord S' (rotWord [q0, q1, q2, q3])) [imm, 0, 0, 0] := by
    show leBytes 4 ((BitVec.ofNat 32 (leVal [S' q0, S' q1, S' q2, S' q3]) >>> 8 ||| BitVec.ofNat 32 (leVal [S' q0, S' q1, S' q2, S' q3]) <<< (32 - 8)) ^^^ imm.setWidth 32).toNat =
      [S' q1 ^^^ imm, S' q2 ^^^ 0, S' q3 ^^^ 0, S' q0 ^^^ 0]
    generalize S' q0 = a
    generalize S' q1 = b
    generalize S' q2 = c
    generalize S' q3 = d
    simp only [BitVec.ofNat_eq_ofNat, BitVec.xor_zero]
    exact rot_rcon a b c d imm
  simp only [vdupq_n_u32_b, e]


/-! ### Round keys -/

theorem wordlen12 (a b c : Bytes) (ha : a.length = 4) (hb : b.length = 4) (hc : c.length = 4) : (a ++ b ++ c).length = 12 := by
  simp [ha, hb, hc]

section
variable (Nk : Nat) (key : Bytes) (n : Nat)

/-- one round key from the four words `Nk` before it and the word just before it -/
theorem roundKey_step (hN : Nk = 4 ∨ Nk = 8) (i : Nat) (hi : Nk ≤ 4 * i) (hn : 4 * i + 4 ≤ Nk + n) :
    roundKey (keyExpansion sbox Nk key n) i =
      cascade ((keyExpansion sbox Nk key n).getD (4 * i - Nk) []) ((keyExpansion sbox Nk key n).getD (4 * i - Nk + 1) [])
        ((keyExpansion sbox Nk key n).getD (4 * i - Nk + 2) []) ((keyExpansion sbox Nk key n).getD (4 * i - Nk + 3) [])
        (keyTemp sbox Nk (4 * i) ((keyExpansion sbox Nk key n).getD (4 * i - 1) [])) := by
  have h0 : 0 < Nk := by omega
  have kt : ∀ j, 1 ≤ j → j ≤ 3 → ∀ x, keyTemp sbox Nk (4 * i + j) x = x := by
    intro j h1 h2 x
    unfold keyTemp
    rcases hN with rfl | rfl
    · rw [if_neg (by omega), if_neg (by omega)]
    · rw [if_neg (by omega), if_neg (by omega)]
  have e0 := keyExpansion_getD sbox Nk key n (4 * i) hi (by omega) h0
  have e1 := keyExpansion_getD sbox Nk key n (4 * i + 1) (by omega) (by omega) h0
  have e2 := keyExpansion_getD sbox Nk key n (4 * i + 2) (by omega) (by omega) h0
  have e3 := keyExpansion_getD sbox Nk key n (4 * i + 3) (by omega) (by omega) h0
  rw [kt 1 (by omega) (by omega), show 4 * i + 1 - 1 = 4 * i by omega, show 4 * i + 1 - Nk = 4 * i - Nk + 1 by omega] at e1
  rw [kt 2 (by omega) (by omega), show 4 * i + 2 - 1 = 4 * i + 1 by omega, show 4 * i + 2 - Nk = 4 * i - Nk + 2 by omega] at e2
  rw [kt 3 (by omega) (by omega), show 4 * i + 3 - 1 = 4 * i + 2 by omega, show 4 * i + 3 - Nk = 4 * i - Nk + 3 by omega] at e3
  unfold roundKey cascade
  rw [e3, e2, e1, e0]

theorem roundKey_length (hN : Nk = 4 ∨ Nk = 8) (hk : key.length = 4 * Nk) (i : Nat) (hi : 4 * i + 4 ≤ Nk + n) :
    (roundKey (keyExpansion sbox Nk key n) i).length = 16 := by
  unfold roundKey
  simp only [List.length_append]
  rw [keyExpansion_word_length _ _ _ hk (by omega) _ _ (by omega), keyExpansion_word_length _ _ _ hk (by omega) _ _ (by omega),
    keyExpansion_word_length _ _ _ hk (by omega) _ _ (by omega), keyExpansion_word_length _ _ _ hk (by omega) _ _ (by omega)]

/-- What an expansion in progress guarantees: round keys `0 … i-1` are in place. -/
def RkInv (i : Nat) (rk : List Bytes) : Prop :=
  ∀ j, j < i → rk[j]? = some (roundKey (keyExpansion sbox Nk key n) j)

end

theorem RkInv.set {Nk : Nat} {key : Bytes} {n i : Nat} {rk : List Bytes} (h : RkInv Nk key n i rk) (hl : i < rk.length) (v : Bytes)
    (hv : v = roundKey (keyExpansion sbox Nk key n) i) : RkInv Nk key n (i + 1) (rk.set i v) := by
  intro j hj
  by_cases e : j = i
  · subst e; rw [List.getElem?_set_self hl, hv]
  · rw [List.getElem?_set_ne (by omega)]; exact h j (by omega)

theorem RkInv.rd {Nk : Nat} {key : Bytes} {n i : Nat} {rk : List Bytes} (h : RkInv Nk key n i rk) (j : Nat) (hj : j < i) :
    rd rk j = .ok (roundKey (keyExpansion sbox Nk key n) j) := rd_some (h j hj)

/-- The 128-bit step, for any assist function that yields the temporary word in every lane. -/
theorem mk128_step (key : Bytes) (n : Nat) (hk : key.length = 16) (i : Nat) (hi : 1 ≤ i) (hn : 4 * i + 4 ≤ 4 + n)
    (assist : Bytes → Bytes) (c : Byte) (hc : rcon i = c)
    (ha : ∀ p q : Bytes, p.length = 12 → q.length = 4 → assist (p ++ q) = (fun t => t ++ t ++ t ++ t) (xorBytes (subWord sbox (rotWord q)) [c, 0, 0, 0])) :
    (fun s => q_xor (q_xor (q_xor s (mm_slli_si128_b s 4)) (mm_slli_si128_b (q_xor s (mm_slli_si128_b s 4)) 8))
      (assist s)) (roundKey (keyExpansion sbox 4 key n) (i - 1)) = roundKey (keyExpansion sbox 4 key n) i := by
  have hw := fun j (hj : j < 4 + n) => keyExpansion_word_length sbox 4 key hk (by omega) n j hj
  rw [roundKey_step 4 key n (.inl rfl) i (by omega) hn]
  have et : keyTemp sbox 4 (4 * i) ((keyExpansion sbox 4 key n).getD (4 * i - 1) []) =
      xorBytes (subWord sbox (rotWord ((keyExpansion sbox 4 key n).getD (4 * i - 1) []))) [c, 0, 0, 0] := by
    unfold keyTemp
    rw [if_pos (by omega), show 4 * i / 4 = i by omega, hc]
  rw [et]
  have hr : roundKey (keyExpansion sbox 4 key n) (i - 1) = (keyExpansion sbox 4 key n).getD (4 * i - 4) [] ++ (keyExpansion sbox 4 key n).getD (4 * i - 4 + 1) []
     ++ (keyExpansion sbox 4 key n).getD (4 * i - 4 + 2) [] ++ (keyExpansion sbox 4 key n).getD (4 * i - 4 + 3) [] := by
    unfold roundKey
    rw [show 4 * (i - 1) = 4 * i - 4 by omega]
  rw [hr]
  simp only []
  rw [ha _ _ (wordlen12 _ _ _ (hw _ (by omega)) (hw _ (by omega)) (hw _ (by omega))) (hw _ (by omega)), show 4 * i - 4 + 3 = 4 * i - 1 by omega]
  refine cascade_sse _ _ _ _ _ (hw _ (by omega)) (hw _ (by omega)) (hw _ (by omega)) (hw _ (by omega)) ?_
  have := keyTemp_length sbox 4 (4 * i) ((keyExpansion sbox 4 key n).getD (4 * i - 1) []) (hw _ (by omega))
  rw [et] at this; exact this

/-- The 256-bit step. -/
theorem mk256_step (key : Bytes) (n : Nat) (hk : key.length = 32) (i : Nat) (hi : 2 ≤ i) (hn : 4 * i + 4 ≤ 8 + n)
    (assist : Bytes → Bytes)
    (ha : ∀ p q : Bytes, p.length = 12 → q.length = 4 → assist (p ++ q) = (fun t => t ++ t ++ t ++ t) (keyTemp sbox 8 (4 * i) q)) :
    (fun s u => q_xor (q_xor (q_xor s (mm_slli_si128_b s 4)) (mm_slli_si128_b (q_xor s (mm_slli_si128_b s 4)) 8))
      (assist u)) (roundKey (keyExpansion sbox 8 key n) (i - 2)) (roundKey (keyExpansion sbox 8 key n) (i - 1)) = roundKey (keyExpansion sbox 8 key n) i := by
  have hw := fun j (hj : j < 8 + n) => keyExpansion_word_length sbox 8 key hk (by omega) n j hj
  rw [roundKey_step 8 key n (.inr rfl) i (by omega) hn]
  have hr : roundKey (keyExpansion sbox 8 key n) (i - 2) = (keyExpansion sbox 8 key n).getD (4 * i - 8) [] ++ (keyExpansion sbox 8 key n).getD (4 * i - 8 + 1) []
     ++ (keyExpansion sbox 8 key n).getD (4 * i - 8 + 2) [] ++ (keyExpansion sbox 8 key n).getD (4 * i - 8 + 3) [] := by
    unfold roundKey
    rw [show 4 * (i - 2) = 4 * i - 8 by omega]
  have hr2 : roundKey (keyExpansion sbox 8 key n) (i - 1) = (keyExpansion sbox 8 key n).getD (4 * (i - 1)) [] ++ (keyExpansion sbox 8 key n).getD (4 * (i - 1) + 1) []
     ++ (keyExpansion sbox 8 key n).getD (4 * (i - 1) + 2) [] ++ (keyExpansion sbox 8 key n).getD (4 * (i - 1) + 3) [] := rfl
  rw [hr, hr2]
  simp only []
  rw [ha _ _ (wordlen12 _ _ _ (hw _ (by omega)) (hw _ (by omega)) (hw _ (by omega))) (hw _ (by omega)), show 4 * (i - 1) + 3 = 4 * i - 1 by omega]
  exact cascade_sse _ _ _ _ _ (hw _ (by omega)) (hw _ (by omega)) (hw _ (by omega)) (hw _ (by omega)) (keyTemp_length _ _ _ _ (hw _ (by omega)))

theorem MK128_aesni_ok (key : Bytes) (n : Nat) (hk : key.length = 16) (i : Nat) (hi : 1 ≤ i) (hn : 4 * i + 4 ≤ 4 + n) (c : Byte) (hc : rcon i = c)
    (rk : List Bytes) (hl : i < rk.length) (h : RkInv 4 key n i rk) :
    ∃ rk', MKRKEY128_aesni rk i c = .ok rk' ∧ rk'.length = rk.length ∧ RkInv 4 key n (i + 1) rk' := by
  unfold MKRKEY128_aesni
  rw [h.rd (i - 1) (by omega)]
  simp only [Res.bind_ok]
  rw [wr_ok _ hl]
  refine ⟨_, rfl, List.length_set, h.set hl _ ?_⟩
  exact mk128_step key n hk i hi hn (fun t => mm_shuffle_epi32_b (mm_aeskeygenassist t c) 0xff) c hc (fun p q hp hq => assist_ff p q hp hq c)

theorem MK128_arm_ok (key : Bytes) (n : Nat) (hk : key.length = 16) (i : Nat) (hi : 1 ≤ i) (hn : 4 * i + 4 ≤ 4 + n) (c : Byte) (hc : rcon i = c)
    (rk : List Bytes) (hl : i < rk.length) (h : RkInv 4 key n i rk) (c' : W32) (hc' : c' = c.setWidth 32) :
    ∃ rk', MKRKEY128_arm rk i c' = .ok rk' ∧ rk'.length = rk.length ∧ RkInv 4 key n (i + 1) rk' := by
  unfold MKRKEY128_arm
  rw [h.rd (i - 1) (by omega)]
  simp only [Res.bind_ok]
  rw [wr_ok _ hl]
  refine ⟨_, rfl, List.length_set, h.set hl _ ?_⟩
  rw [vshl_eq _ 4 (by omega) (by omega), vshl_eq _ 8 (by omega) (by omega), hc']
  exact mk128_step key n hk i hi hn (fun t => SubWord_RotWord_XOR_duplicate t (c.setWidth 32)) c hc (fun p q hp hq => SubWord_RotWord_eq p q hp hq c)

theorem MK256_aesni_ok (key : Bytes) (n : Nat) (hk : key.length = 32) (i : Nat) (hi : 2 ≤ i) (hn : 4 * i + 4 ≤ 8 + n) (sh : Nat) (c : Byte)
    (hc : i % 2 = 0 ∧ sh = 0xff ∧ rcon (i / 2) = c ∨ i % 2 = 1 ∧ sh = 0xaa)
    (rk : List Bytes) (hl : i < rk.length) (h : RkInv 8 key n i rk) :
    ∃ rk', MKRKEY256_aesni rk i sh c = .ok rk' ∧ rk'.length = rk.length ∧ RkInv 8 key n (i + 1) rk' := by
  unfold MKRKEY256_aesni
  rw [h.rd (i - 2) (by omega), h.rd (i - 1) (by omega)]
  simp only [Res.bind_ok]
  rw [wr_ok _ hl]
  refine ⟨_, rfl, List.length_set, h.set hl _ ?_⟩
  refine mk256_step key n hk i hi hn (fun t => mm_shuffle_epi32_b (mm_aeskeygenassist t c) sh) (fun p q hp hq => ?_)
  unfold keyTemp
  rcases hc with ⟨h1, rfl, h3⟩ | ⟨h1, rfl⟩
  · rw [if_pos (by omega), show 4 * i / 8 = i / 2 by omega, h3]; exact assist_ff p q hp hq c
  · rw [if_neg (by omega), if_pos (by omega)]; exact assist_aa p q hp hq c

theorem MK256_arm_ok (key : Bytes) (n : Nat) (hk : key.length = 32) (i : Nat) (hi : 2 ≤ i) (hn : 4 * i + 4 ≤ 8 + n) (c : Byte) (c' : W32)
    (hc : i % 2 = 0 ∧ rcon (i / 2) = c ∧ c' = c.setWidth 32 ∨ i % 2 = 1)
    (rk : List Bytes) (hl : i < rk.length) (h : RkInv 8 key n i rk) :
    ∃ rk', MKRKEY256_arm rk i c' = .ok rk' ∧ rk'.length = rk.length ∧ RkInv 8 key n (i + 1) rk' := by
  unfold MKRKEY256_arm
  rw [h.rd (i - 2) (by omega), h.rd (i - 1) (by omega)]
  simp only [Res.bind_ok]
  rw [wr_ok _ hl]
  refine ⟨_, rfl, List.length_set, h.set hl _ ?_⟩
  rw [vshl_eq _ 4 (by omega) (by omega), vshl_eq _ 8 (by omega) (by omega)]
  refine mk256_step key n hk i hi hn (fun t => if i % 2 = 1 then SubWord_duplicate t else SubWord_RotWord_XOR_duplicate t c') (fun p q hp hq => ?_)
  unfold keyTemp
  rcases hc with ⟨h1, h3, h4⟩ | h1
  · rw [if_neg (by omega), if_pos (by omega), show 4 * i / 8 = i / 2 by omega, h3, h4]; exact SubWord_RotWord_eq p q hp hq c
  · rw [if_pos h1, if_neg (by omega), if_pos (by omega)]; exact SubWord_duplicate_eq p q hp hq

theorem take4x4 (l : Bytes) (o : Nat) : (l.drop o).take 16 = (l.drop o).take 4 ++ (l.drop (o + 4)).take 4 ++ (l.drop (o + 8)).take 4 ++ (l.drop (o + 12)).take 4 := by
  have e : ∀ a b, a + b ≤ 16 → (l.drop o).take (a + b) = (l.drop o).take a ++ (l.drop (o + a)).take b := by
    intro a b _; rw [List.take_add, List.drop_drop]
  rw [e 12 4 (by omega), e 8 4 (by omega), e 4 4 (by omega)]

theorem roundKey_init (Nk : Nat) (key : Bytes) (n i : Nat) (hi : 4 * i + 4 ≤ Nk) :
    roundKey (keyExpansion sbox Nk key n) i = (key.drop (16 * i)).take 16 := by
  unfold roundKey
  rw [keyExpansion_init _ _ _ _ _ (by omega), keyExpansion_init _ _ _ _ _ (by omega), keyExpansion_init _ _ _ _ _ (by omega), keyExpansion_init _ _ _ _ _ (by omega),
    take4x4, show 4 * (4 * i) = 16 * i by omega, show 4 * (4 * i + 1) = 16 * i + 4 by omega, show 4 * (4 * i + 2) = 16 * i + 8 by omega,
    show 4 * (4 * i + 3) = 16 * i + 12 by omega]

/-- chaining helper -/
theorem rk_bind {P : List Bytes → Prop} {Q : List Bytes → Prop} {x : Res (List Bytes)} {f : List Bytes → Res (List Bytes)}
    (h : ∃ r, x = .ok r ∧ P r) (hf : ∀ r, P r → ∃ r', f r = .ok r' ∧ Q r') : ∃ r', (x >>= f) = .ok r' ∧ Q r' := by
  obtain ⟨r, rfl, hp⟩ := h
  exact hf r hp

theorem expand128 (key : Bytes) (k : Bytes) (hk : k.length = 16) (hkey : key.take 16 = k) (rk : List Bytes) (hl : 11 ≤ rk.length)
    (mk : List Bytes → Nat → Byte → Res (List Bytes))
    (hmk : ∀ (i : Nat) (_ : 1 ≤ i) (_ : 4 * i + 4 ≤ 4 + 40) (c : Byte) (_ : rcon i = c) (rk : List Bytes) (_ : i < rk.length) (_ : RkInv 4 k 40 i rk),
      ∃ rk', mk rk i c = .ok rk' ∧ rk'.length = rk.length ∧ RkInv 4 k 40 (i + 1) rk') :
    ∃ rk', (do
      let k ← q_load key 0
      let rkeys ← wr rk 0 k
      let rkeys ← mk rkeys 1 0x01
      let rkeys ← mk rkeys 2 0x02
      let rkeys ← mk rkeys 3 0x04
      let rkeys ← mk rkeys 4 0x08
      let rkeys ← mk rkeys 5 0x10
      let rkeys ← mk rkeys 6 0x20
      let rkeys ← mk rkeys 7 0x40
      let rkeys ← mk rkeys 8 0x80
      let rkeys ← mk rkeys 9 0x1b
      mk rkeys 10 0x36) = .ok rk' ∧ (rk'.length = rk.length ∧ RkInv 4 k 40 11 rk') := by
  have hle : 16 ≤ key.length := by rw [← hkey, List.length_take] at hk; omega
  have hld : q_load key 0 = .ok k := by unfold q_load; rw [rdSlice_ok (by omega), List.drop_zero, hkey]
  rw [hld]
  simp only [Res.bind_ok]
  rw [wr_ok _ (by omega)]
  simp only [Res.bind_ok]
  have e0 : RkInv 4 k 40 1 (rk.set 0 k) := by
    refine RkInv.set (i := 0) (fun j hj => absurd hj (by omega)) (by omega) _ ?_
    rw [roundKey_init 4 k 40 0 (by omega), Nat.mul_zero, List.drop_zero, List.take_of_length_le (by omega)]
  have step : ∀ (i : Nat) (c : Byte) (_ : 1 ≤ i) (_ : i ≤ 10) (_ : rcon i = c) (r : List Bytes), (r.length = rk.length ∧ RkInv 4 k 40 i r) →
      ∃ r', mk r i c = .ok r' ∧ (r'.length = rk.length ∧ RkInv 4 k 40 (i + 1) r') := by
    intro i c h1 h2 h3 r ⟨hr, hi⟩
    obtain ⟨r', a, b, d⟩ := hmk i h1 (by omega) c h3 r (by omega) hi
    exact ⟨r', a, by rw [b, hr], d⟩
  refine rk_bind (step 1 1 (by omega) (by omega) rfl _ ⟨List.length_set, e0⟩) fun r hr => ?_
  refine rk_bind (step 2 2 (by omega) (by omega) (by decide) _ hr) fun r hr => ?_
  refine rk_bind (step 3 4 (by omega) (by omega) (by decide) _ hr) fun r hr => ?_
  refine rk_bind (step 4 8 (by omega) (by omega) (by decide) _ hr) fun r hr => ?_
  refine rk_bind (step 5 0x10 (by omega) (by omega) (by decide) _ hr) fun r hr => ?_
  refine rk_bind (step 6 0x20 (by omega) (by omega) (by decide) _ hr) fun r hr => ?_
  refine rk_bind (step 7 0x40 (by omega) (by omega) (by decide) _ hr) fun r hr => ?_
  refine rk_bind (step 8 0x80 (by omega) (by omega) (by decide) _ hr) fun r hr => ?_
  refine rk_bind (step 9 0x1b (by omega) (by omega) (by decide) _ hr) fun r hr => ?_
  exact step 10 0x36 (by omega) (by omega) (by decide) _ hr

theorem expand256 (key : Bytes) (k : Bytes) (hk : k.length = 32) (hkey : key.take 32 = k) (rk : List Bytes) (hl : 15 ≤ rk.length)
    (mk : List Bytes → Nat → Nat → Byte → Res (List Bytes))
    (hmk : ∀ (i : Nat) (_ : 2 ≤ i) (_ : 4 * i + 4 ≤ 8 + 52) (sh : Nat) (c : Byte) (_ : i % 2 = 0 ∧ sh = 0xff ∧ rcon (i / 2) = c ∨ i % 2 = 1 ∧ sh = 0xaa)
      (rk : List Bytes) (_ : i < rk.length) (_ : RkInv 8 k 52 i rk),
      ∃ rk', mk rk i sh c = .ok rk' ∧ rk'.length = rk.length ∧ RkInv 8 k 52 (i + 1) rk') :
    ∃ rk', (do
      let k0 ← q_load key 0
      let rkeys ← wr rk 0 k0
      let k1 ← q_load key 16
      let rkeys ← wr rkeys 1 k1
      let rkeys ← mk rkeys 2 0xff 0x01
      let rkeys ← mk rkeys 3 0xaa 0x00
      let rkeys ← mk rkeys 4 0xff 0x02
      let rkeys ← mk rkeys 5 0xaa 0x00
      let rkeys ← mk rkeys 6 0xff 0x04
      let rkeys ← mk rkeys 7 0xaa 0x00
      let rkeys ← mk rkeys 8 0xff 0x08
      let rkeys ← mk rkeys 9 0xaa 0x00
      let rkeys ← mk rkeys 10 0xff 0x10
      let rkeys ← mk rkeys 11 0xaa 0x00
      let rkeys ← mk rkeys 12 0xff 0x20
      let rkeys ← mk rkeys 13 0xaa 0x00
      mk rkeys 14 0xff 0x40) = .ok rk' ∧ (rk'.length = rk.length ∧ RkInv 8 k 52 15 rk') := by
  have hle : 32 ≤ key.length := by rw [← hkey, List.length_take] at hk; omega
  have hld : q_load key 0 = .ok (k.take 16) := by
    unfold q_load; rw [rdSlice_ok (by omega), List.drop_zero, ← hkey, List.take_take]; rfl
  have hld1 : q_load key 16 = .ok ((k.drop 16).take 16) := by
    unfold q_load; rw [rdSlice_ok (by omega), ← hkey, List.drop_take, List.take_take]; rfl
  rw [hld, hld1]
  simp only [Res.bind_ok]
  rw [wr_ok _ (by omega)]
  simp only [Res.bind_ok]
  rw [wr_ok _ (by rw [List.length_set]; omega)]
  simp only [Res.bind_ok]
  have e0 : RkInv 8 k 52 1 (rk.set 0 (k.take 16)) := by
    refine RkInv.set (i := 0) (fun j hj => absurd hj (by omega)) (by omega) _ ?_
    rw [roundKey_init 8 k 52 0 (by omega), Nat.mul_zero, List.drop_zero]
  have e1 : RkInv 8 k 52 2 ((rk.set 0 (k.take 16)).set 1 ((k.drop 16).take 16)) := by
    refine RkInv.set (i := 1) e0 (by rw [List.length_set]; omega) _ ?_
    rw [roundKey_init 8 k 52 1 (by omega), Nat.mul_one]
  have step : ∀ (i sh : Nat) (c : Byte) (_ : 2 ≤ i) (_ : i ≤ 14) (_ : i % 2 = 0 ∧ sh = 0xff ∧ rcon (i / 2) = c ∨ i % 2 = 1 ∧ sh = 0xaa) (r : List Bytes), (r.length = rk.length ∧ RkInv 8 k 52 i r) →
      ∃ r', mk r i sh c = .ok r' ∧ (r'.length = rk.length ∧ RkInv 8 k 52 (i + 1) r') := by
    intro i sh c h1 h2 h3 r ⟨hr, hi⟩
    obtain ⟨r', a, b, d⟩ := hmk i h1 (by omega) sh c h3 r (by omega) hi
    exact ⟨r', a, by rw [b, hr], d⟩
  refine rk_bind (step 2 _ _ (by omega) (by omega) (by decide) _ ⟨by simp, e1⟩) fun r hr => ?_
  refine rk_bind (step 3 _ _ (by omega) (by omega) (by decide) _ hr) fun r hr => ?_
  refine rk_bind (step 4 _ _ (by omega) (by omega) (by decide) _ hr) fun r hr => ?_
  refine rk_bind (step 5 _ _ (by omega) (by omega) (by decide) _ hr) fun r hr => ?_
  refine rk_bind (step 6 _ _ (by omega) (by omega) (by decide) _ hr) fun r hr => ?_
  refine rk_bind (step 7 _ _ (by omega) (by omega) (by decide) _ hr) fun r hr => ?_
  refine rk_bind (step 8 _ _ (by omega) (by omega) (by decide) _ hr) fun r hr => ?_
  refine rk_bind (step 9 _ _ (by omega) (by omega) (by decide) _ hr) fun r hr => ?_
  refine rk_bind (step 10 _ _ (by omega) (by omega) (by decide) _ hr) fun r hr => ?_
  refine rk_bind (step 11 _ _ (by omega) (by omega) (by decide) _ hr) fun r hr => ?_
  refine rk_bind (step 12 _ _ (by omega) (by omega) (by decide) _ hr) fun r hr => ?_
  refine rk_bind (step 13 _ _ (by omega) (by omega) (by decide) _ hr) fun r hr => ?_
  exact step 14 _ _ (by omega) (by omega) (by decide) _ hr

/-- An expanded hardware key holds the FIPS 197 schedule of `k`. -/
def GoodHwKey (k : Bytes) (h : HwKey) : Prop :=
  (k.length = 16 ∧ h.nr = 10 ∧ RkInv 4 k 40 11 h.rkeys) ∨ (k.length = 32 ∧ h.nr = 14 ∧ RkInv 8 k 52 15 h.rkeys)

theorem expand_aesni_ok (key : Bytes) (len : Nat) (hlen : len = 16 ∨ len = 32) (hkey : len ≤ key.length) (rk : List Bytes) (hl : 15 ≤ rk.length) :
    ∃ h, crypto_aes_key_expand_aesni (some rk) key len = .ok (some h) ∧ GoodHwKey (key.take len) h := by
  unfold crypto_aes_key_expand_aesni
  rcases hlen with rfl | rfl
  · obtain ⟨r, e, _, h⟩ := expand128 key (key.take 16) (by rw [List.length_take]; omega) rfl rk (by omega) MKRKEY128_aesni
      (fun i h1 h2 c h3 rk h4 h5 => MK128_aesni_ok _ 40 (by rw [List.length_take]; omega) i h1 h2 c h3 rk h4 h5)
    simp only
    refine ⟨⟨r, 10⟩, ?_, .inl ⟨by rw [List.length_take]; omega, rfl, h⟩⟩
    unfold crypto_aes_key_expand_128_aesni
    rw [e]; rfl
  · obtain ⟨r, e, _, h⟩ := expand256 key (key.take 32) (by rw [List.length_take]; omega) rfl rk (by omega) MKRKEY256_aesni
      (fun i h1 h2 sh c h3 rk h4 h5 => MK256_aesni_ok _ 52 (by rw [List.length_take]; omega) i h1 h2 sh c h3 rk h4 h5)
    simp only [if_neg (show ¬ (32 = 16) by omega)]
    refine ⟨⟨r, 14⟩, ?_, .inr ⟨by rw [List.length_take]; omega, rfl, h⟩⟩
    unfold crypto_aes_key_expand_256_aesni
    rw [e]; rfl

theorem expand_arm_ok (key : Bytes) (len : Nat) (hlen : len = 16 ∨ len = 32) (hkey : len ≤ key.length) (rk : List Bytes) (hl : 15 ≤ rk.length) :
    ∃ h, crypto_aes_key_expand_arm (some rk) key len = .ok (some h) ∧ GoodHwKey (key.take len) h := by
  unfold crypto_aes_key_expand_arm
  rcases hlen with rfl | rfl
  · obtain ⟨r, e, _, h⟩ := expand128 key (key.take 16) (by rw [List.length_take]; omega) rfl rk (by omega) (fun r i c => MKRKEY128_arm r i (c.setWidth 32))
      (fun i h1 h2 c h3 rk h4 h5 => MK128_arm_ok _ 40 (by rw [List.length_take]; omega) i h1 h2 c h3 rk h4 h5 _ rfl)
    simp only
    refine ⟨⟨r, 10⟩, ?_, .inl ⟨by rw [List.length_take]; omega, rfl, h⟩⟩
    have e' : crypto_aes_key_expand_128_arm key rk = .ok r := e
    rw [e']; rfl
  · obtain ⟨r, e, _, h⟩ := expand256 key (key.take 32) (by rw [List.length_take]; omega) rfl rk (by omega) (fun r i _ c => MKRKEY256_arm r i (c.setWidth 32))
      (fun i h1 h2 sh c h3 rk h4 h5 => MK256_arm_ok _ 52 (by rw [List.length_take]; omega) i h1 h2 c _
        (h3.elim (fun h => .inl ⟨h.1, h.2.2, rfl⟩) (fun h => .inr h.1)) rk h4 h5)
    simp only [if_neg (show ¬ (32 = 16) by omega)]
    refine ⟨⟨r, 14⟩, ?_, .inr ⟨by rw [List.length_take]; omega, rfl, h⟩⟩
    have e' : crypto_aes_key_expand_256_arm key rk = .ok r := e
    rw [e']; rfl


/-! ### Encryption -/

/-- One inner round. -/
def aesRound (s k : Bytes) : Bytes := xorBytes (mixColumns (shiftRows (subBytes sbox s))) k

theorem aesRound_length (s k : Bytes) (hk : k.length = 16) : (aesRound s k).length = 16 :=
  xorBytes_length16 _ _ (mixColumns_length _) hk

theorem aesenc_eq (s k : Bytes) (hs : s.length = 16) (hk : k.length = 16) : mm_aesenc s k = aesRound s k := by
  unfold mm_aesenc aesRound
  rw [q_xor_eq _ _ (mixColumns_length _) hk, shiftRows_subBytes _ _ hs]

theorem aesenclast_eq (s k : Bytes) (hs : s.length = 16) (hk : k.length = 16) :
    mm_aesenclast s k = xorBytes (shiftRows (subBytes sbox s)) k := by
  unfold mm_aesenclast
  rw [q_xor_eq _ _ (by rw [subBytes_length, shiftRows_length]) hk, shiftRows_subBytes _ _ hs]

theorem foldl_round_length (ks : List Bytes) (s : Bytes) (hs : s.length = 16) (hk : ∀ k ∈ ks, k.length = 16) :
    (ks.foldl aesRound s).length = 16 := by
  induction ks generalizing s with
  | nil => exact hs
  | cons k ks ih =>
    rw [List.foldl_cons]
    exact ih _ (aesRound_length _ _ (hk k (by simp))) (fun x hx => hk x (by simp [hx]))

theorem foldl_aesenc (ks : List Bytes) (s : Bytes) (hs : s.length = 16) (hk : ∀ k ∈ ks, k.length = 16) :
    ks.foldl mm_aesenc s = ks.foldl aesRound s := by
  induction ks generalizing s with
  | nil => rfl
  | cons k ks ih =>
    have h := hk k (by simp)
    rw [List.foldl_cons, List.foldl_cons, aesenc_eq _ _ hs h]
    exact ih _ (aesRound_length _ _ h) (fun x hx => hk x (by simp [hx]))

theorem foldl_arm (ks : List Bytes) (s k0 kl : Bytes) (hs : s.length = 16) (h0 : k0.length = 16) (hl : kl.length = 16) (hk : ∀ k ∈ ks, k.length = 16) :
    q_xor ((k0 :: ks).foldl (fun s k => vaesmcq_u8 (vaeseq_u8 s k)) s) kl = (ks ++ [kl]).foldl aesRound (q_xor s k0) := by
  induction ks generalizing s k0 with
  | nil =>
    show q_xor (mixColumns (subBytes sbox (shiftRows (q_xor s k0)))) kl = aesRound (q_xor s k0) kl
    exact aesenc_eq _ _ (q_xor_length _ _) hl
  | cons k ks ih =>
    have h := hk k (by simp)
    rw [List.foldl_cons, ih (vaesmcq_u8 (vaeseq_u8 s k0)) k (mixColumns_length _) h (fun x hx => hk x (by simp [hx])), List.cons_append, List.foldl_cons]
    congr 1
    exact aesenc_eq _ _ (q_xor_length _ _) h

theorem cipher_eq (Nr : Nat) (w : List Bytes) (inp : Bytes) :
    cipher sbox Nr w inp = xorBytes (shiftRows (subBytes sbox (((List.range (Nr - 1)).map (fun i => roundKey w (i + 1))).foldl aesRound (xorBytes inp (roundKey w 0))))) (roundKey w Nr) := by
  unfold cipher
  rw [List.foldl_map]
  rfl

theorem aesni_cipher10 (w : List Bytes) (hw : ∀ i, i ≤ 10 → (roundKey w i).length = 16) (inp : Bytes) (hin : inp.length = 16) (rk : List Bytes)
    (h : ∀ j, j < 11 → rk[j]? = some (roundKey w j)) : crypto_aes_encrypt_block_aesni_m128i inp ⟨rk, 10⟩ = .ok (cipher sbox 10 w inp) := by
  unfold crypto_aes_encrypt_block_aesni_m128i
  simp only [rd_some (h 0 (by omega)), rd_some (h 1 (by omega)), rd_some (h 2 (by omega)), rd_some (h 3 (by omega)), rd_some (h 4 (by omega)), rd_some (h 5 (by omega)),
    rd_some (h 6 (by omega)), rd_some (h 7 (by omega)), rd_some (h 8 (by omega)), rd_some (h 9 (by omega)), rd_some (h 10 (by omega)), Res.bind_ok, Res.pure_eq,
    if_neg (show ¬ 10 > 10 by omega)]
  rw [cipher_eq]
  have hks : ∀ k ∈ (List.range 9).map (fun i => roundKey w (i + 1)), k.length = 16 := by
    intro k hk
    simp only [List.mem_map, List.mem_range] at hk
    obtain ⟨i, hi, rfl⟩ := hk
    exact hw _ (by omega)
  have h0 : (xorBytes inp (roundKey w 0)).length = 16 := xorBytes_length16 _ _ hin (hw 0 (by omega))
  rw [show 10 - 1 = 9 from rfl, ← aesenclast_eq _ _ (foldl_round_length _ _ h0 hks) (hw 10 (by omega)), ← foldl_aesenc _ _ h0 hks, ← q_xor_eq _ _ hin (hw 0 (by omega))]
  rfl

theorem aesni_cipher14 (w : List Bytes) (hw : ∀ i, i ≤ 14 → (roundKey w i).length = 16) (inp : Bytes) (hin : inp.length = 16) (rk : List Bytes)
    (h : ∀ j, j < 15 → rk[j]? = some (roundKey w j)) : crypto_aes_encrypt_block_aesni_m128i inp ⟨rk, 14⟩ = .ok (cipher sbox 14 w inp) := by
  unfold crypto_aes_encrypt_block_aesni_m128i
  simp only [rd_some (h 0 (by omega)), rd_some (h 1 (by omega)), rd_some (h 2 (by omega)), rd_some (h 3 (by omega)), rd_some (h 4 (by omega)), rd_some (h 5 (by omega)),
    rd_some (h 6 (by omega)), rd_some (h 7 (by omega)), rd_some (h 8 (by omega)), rd_some (h 9 (by omega)), rd_some (h 10 (by omega)), rd_some (h 11 (by omega)),
    rd_some (h 12 (by omega)), rd_some (h 13 (by omega)), rd_some (h 14 (by omega)), Res.bind_ok, Res.pure_eq, if_pos (show 14 > 10 by omega)]
  rw [cipher_eq]
  have hks : ∀ k ∈ (List.range 13).map (fun i => roundKey w (i + 1)), k.length = 16 := by
    intro k hk
    simp only [List.mem_map, List.mem_range] at hk
    obtain ⟨i, hi, rfl⟩ := hk
    exact hw _ (by omega)
  have h0 : (xorBytes inp (roundKey w 0)).length = 16 := xorBytes_length16 _ _ hin (hw 0 (by omega))
  rw [show 14 - 1 = 13 from rfl, ← aesenclast_eq _ _ (foldl_round_length _ _ h0 hks) (hw 14 (by omega)), ← foldl_aesenc _ _ h0 hks, ← q_xor_eq _ _ hin (hw 0 (by omega))]
  rfl

theorem arm_last (s k k' : Bytes) (hk' : k'.length = 16) :
    q_xor (vaeseq_u8 s k) k' = xorBytes (shiftRows (subBytes sbox (q_xor s k))) k' :=
  aesenclast_eq _ _ (q_xor_length _ _) hk'

theorem arm_cipher10 (w : List Bytes) (hw : ∀ i, i ≤ 10 → (roundKey w i).length = 16) (inp : Bytes) (hin : inp.length = 16) (rk : List Bytes)
    (h : ∀ j, j < 11 → rk[j]? = some (roundKey w j)) : crypto_aes_encrypt_block_arm_u8 inp ⟨rk, 10⟩ = .ok (cipher sbox 10 w inp) := by
  unfold crypto_aes_encrypt_block_arm_u8
  simp only [rd_some (h 0 (by omega)), rd_some (h 1 (by omega)), rd_some (h 2 (by omega)), rd_some (h 3 (by omega)), rd_some (h 4 (by omega)), rd_some (h 5 (by omega)),
    rd_some (h 6 (by omega)), rd_some (h 7 (by omega)), rd_some (h 8 (by omega)), rd_some (h 9 (by omega)), rd_some (h 10 (by omega)), Res.bind_ok, Res.pure_eq,
    if_neg (show ¬ 10 > 10 by omega), show 10 - 1 = 9 from rfl]
  rw [cipher_eq, arm_last _ _ _ (hw 10 (by omega)), ← q_xor_eq _ _ hin (hw 0 (by omega))]
  have hks : ∀ k ∈ (List.range 8).map (fun i => roundKey w (i + 1)), k.length = 16 := by
    intro k hk
    simp only [List.mem_map, List.mem_range] at hk
    obtain ⟨i, hi, rfl⟩ := hk
    exact hw _ (by omega)
  have := foldl_arm ((List.range 8).map (fun i => roundKey w (i + 1))) inp (roundKey w 0) (roundKey w 9) hin (hw 0 (by omega)) (hw 9 (by omega)) hks
  rw [show (List.range (10 - 1)).map (fun i => roundKey w (i + 1)) = (List.range 8).map (fun i => roundKey w (i + 1)) ++ [roundKey w 9] from rfl, ← this]
  rfl

theorem arm_cipher14 (w : List Bytes) (hw : ∀ i, i ≤ 14 → (roundKey w i).length = 16) (inp : Bytes) (hin : inp.length = 16) (rk : List Bytes)
    (h : ∀ j, j < 15 → rk[j]? = some (roundKey w j)) : crypto_aes_encrypt_block_arm_u8 inp ⟨rk, 14⟩ = .ok (cipher sbox 14 w inp) := by
  unfold crypto_aes_encrypt_block_arm_u8
  simp only [rd_some (h 0 (by omega)), rd_some (h 1 (by omega)), rd_some (h 2 (by omega)), rd_some (h 3 (by omega)), rd_some (h 4 (by omega)), rd_some (h 5 (by omega)),
    rd_some (h 6 (by omega)), rd_some (h 7 (by omega)), rd_some (h 8 (by omega)), rd_some (h 9 (by omega)), rd_some (h 10 (by omega)), rd_some (h 11 (by omega)),
    rd_some (h 12 (by omega)), rd_some (h 13 (by omega)), rd_some (h 14 (by omega)), Res.bind_ok, Res.pure_eq, if_pos (show 14 > 10 by omega), show 14 - 1 = 13 from rfl]
  rw [cipher_eq, arm_last _ _ _ (hw 14 (by omega)), ← q_xor_eq _ _ hin (hw 0 (by omega))]
  have hks : ∀ k ∈ (List.range 12).map (fun i => roundKey w (i + 1)), k.length = 16 := by
    intro k hk
    simp only [List.mem_map, List.mem_range] at hk
    obtain ⟨i, hi, rfl⟩ := hk
    exact hw _ (by omega)
  have := foldl_arm ((List.range 12).map (fun i => roundKey w (i + 1))) inp (roundKey w 0) (roundKey w 13) hin (hw 0 (by omega)) (hw 13 (by omega)) hks
  rw [show (List.range (14 - 1)).map (fun i => roundKey w (i + 1)) = (List.range 12).map (fun i => roundKey w (i + 1)) ++ [roundKey w 13] from rfl, ← this]
  rfl

theorem aes_16 (k inp : Bytes) (hk : k.length = 16) : Spec.aes k inp = cipher sbox 10 (keyExpansion sbox 4 k 40) inp := by
  unfold Spec.aes aesWith
  rw [hk]

theorem aes_32 (k inp : Bytes) (hk : k.length = 32) : Spec.aes k inp = cipher sbox 14 (keyExpansion sbox 8 k 52) inp := by
  unfold Spec.aes aesWith
  rw [hk]

theorem encrypt_aesni_m128i (k : Bytes) (h : HwKey) (hg : GoodHwKey k h) (inp : Bytes) (hin : inp.length = 16) :
    crypto_aes_encrypt_block_aesni_m128i inp h = .ok (Spec.aes k inp) := by
  obtain ⟨rk, nr⟩ := h
  rcases hg with ⟨hk, hn, hr⟩ | ⟨hk, hn, hr⟩
  · simp only at hn hr
    subst hn
    rw [aes_16 _ _ hk]
    exact aesni_cipher10 _ (fun i hi => roundKey_length 4 k 40 (.inl rfl) hk i (by omega)) _ hin rk hr
  · simp only at hn hr
    subst hn
    rw [aes_32 _ _ hk]
    exact aesni_cipher14 _ (fun i hi => roundKey_length 8 k 52 (.inr rfl) hk i (by omega)) _ hin rk hr

theorem encrypt_arm_u8 (k : Bytes) (h : HwKey) (hg : GoodHwKey k h) (inp : Bytes) (hin : inp.length = 16) :
    crypto_aes_encrypt_block_arm_u8 inp h = .ok (Spec.aes k inp) := by
  obtain ⟨rk, nr⟩ := h
  rcases hg with ⟨hk, hn, hr⟩ | ⟨hk, hn, hr⟩
  · simp only at hn hr
    subst hn
    rw [aes_16 _ _ hk]
    exact arm_cipher10 _ (fun i hi => roundKey_length 4 k 40 (.inl rfl) hk i (by omega)) _ hin rk hr
  · simp only at hn hr
    subst hn
    rw [aes_32 _ _ hk]
    exact arm_cipher14 _ (fun i hi => roundKey_length 8 k 52 (.inr rfl) hk i (by omega)) _ hin rk hr

theorem cipher_length (Nr : Nat) (w : List Bytes) (inp : Bytes) (h : (roundKey w Nr).length = 16) : (cipher sbox Nr w inp).length = 16 := by
  rw [cipher_eq]
  exact xorBytes_length16 _ _ (shiftRows_length _) h

theorem aes_length (k inp : Bytes) (hk : k.length = 16 ∨ k.length = 32) : (Spec.aes k inp).length = 16 := by
  rcases hk with hk | hk
  · rw [aes_16 _ _ hk]; exact cipher_length _ _ _ (roundKey_length 4 k 40 (.inl rfl) hk 10 (by omega))
  · rw [aes_32 _ _ hk]; exact cipher_length _ _ _ (roundKey_length 8 k 52 (.inr rfl) hk 14 (by omega))

/-! ### Dispatch -/

/-- An expanded key of any kind, for the implementation in use, made from `k`. -/
def GoodKey (hw : AesHw) (k : Bytes) : AesKey → Prop
  | .ossl b => hw = .software ∧ b = k
  | .aesni h => hw = .x86_aesni ∧ GoodHwKey k h
  | .arm h => hw = .arm_aes ∧ GoodHwKey k h

/-- OpenSSL computes AES: the assumption about the external library. -/
def GoodOssl (ossl : Ossl) : Prop := ∀ k b, (k.length = 16 ∨ k.length = 32) → b.length = 16 → ossl k b = Spec.aes k b

theorem q_load_16 (b : Bytes) (h : b.length = 16) : q_load b 0 = .ok b := by
  unfold q_load; rw [rdSlice_ok (by omega), List.drop_zero, List.take_of_length_le (by omega)]

theorem encrypt_block_ok (hw : AesHw) (ossl : Ossl) (ho : hw = .software → GoodOssl ossl) (k : Bytes) (hk : k.length = 16 ∨ k.length = 32)
    (key : AesKey) (hkey : GoodKey hw k key) (b : Bytes) (hb : b.length = 16) :
    crypto_aes_encrypt_block hw ossl b key = .ok (Spec.aes k b) := by
  cases key with
  | ossl b' =>
    obtain ⟨rfl, rfl⟩ := hkey
    show Res.ok _ = _
    rw [ho rfl _ _ hk hb]
  | aesni h =>
    obtain ⟨rfl, hg⟩ := hkey
    show (q_load b 0 >>= fun s => crypto_aes_encrypt_block_aesni_m128i s h) = _
    rw [q_load_16 b hb, Res.bind_ok]
    exact encrypt_aesni_m128i k h hg b hb
  | arm h =>
    obtain ⟨rfl, hg⟩ := hkey
    show (q_load b 0 >>= fun s => crypto_aes_encrypt_block_arm_u8 s h) = _
    rw [q_load_16 b hb, Res.bind_ok]
    exact encrypt_arm_u8 k h hg b hb

/-- The system gave what the expansion needs: malloc succeeded (15 round keys), OpenSSL accepted. -/
def AesEnv.Ok (e : AesEnv) : Prop := (∃ rk, e.mem = some rk ∧ 15 ≤ rk.length) ∧ e.osslOk = true

theorem key_expand_ok (hw : AesHw) (env : AesEnv) (he : env.Ok) (key : Bytes) (len : Nat) (hlen : len = 16 ∨ len = 32) (hk : len ≤ key.length) :
    ∃ a, crypto_aes_key_expand hw env key len = .ok (some a) ∧ GoodKey hw (key.take len) a := by
  obtain ⟨⟨rk, hrk, hl⟩, ho⟩ := he
  have hc : (decide (len = 16) || decide (len = 32)) = true := by rcases hlen with h | h <;> simp [h]
  unfold crypto_aes_key_expand
  rw [hc]
  cases hw with
  | software =>
    refine ⟨.ossl (key.take len), ?_, rfl, rfl⟩
    simp [ho, rdSlice_ok (show 0 + len ≤ key.length by omega)]
  | x86_aesni =>
    obtain ⟨h, e, g⟩ := expand_aesni_ok key len hlen hk rk hl
    refine ⟨.aesni h, ?_, rfl, g⟩
    simp only [hrk, e, cassert_true, Res.bind_ok]; rfl
  | arm_aes =>
    obtain ⟨h, e, g⟩ := expand_arm_ok key len hlen hk rk hl
    refine ⟨.arm h, ?_, rfl, g⟩
    simp only [hrk, e, cassert_true, Res.bind_ok]; rfl

/-- Whatever the system does, expansion of a valid-length key returns NULL or a good key. -/
theorem key_expand_cases (hw : AesHw) (env : AesEnv) (hm : ∀ rk, env.mem = some rk → 15 ≤ rk.length) (key : Bytes) (len : Nat) (hlen : len = 16 ∨ len = 32) (hk : len ≤ key.length) :
    crypto_aes_key_expand hw env key len = .ok none ∨ ∃ a, crypto_aes_key_expand hw env key len = .ok (some a) ∧ GoodKey hw (key.take len) a := by
  by_cases he : env.Ok
  · exact .inr (key_expand_ok hw env he key len hlen hk)
  · have hc : (decide (len = 16) || decide (len = 32)) = true := by rcases hlen with h | h <;> simp [h]
    unfold crypto_aes_key_expand
    rw [hc]
    cases hw with
    | software =>
      cases ho : env.osslOk with
      | false => left; simp
      | true => right; exact ⟨.ossl (key.take len), by simp [rdSlice_ok (show 0 + len ≤ key.length by omega)], rfl, rfl⟩
    | x86_aesni =>
      cases hrk : env.mem with
      | none => left; rfl
      | some rk =>
        right
        obtain ⟨h, e, g⟩ := expand_aesni_ok key len hlen hk rk (hm rk hrk)
        refine ⟨.aesni h, ?_, rfl, g⟩
        simp only [e, cassert_true, Res.bind_ok]; rfl
    | arm_aes =>
      cases hrk : env.mem with
      | none => left; rfl
      | some rk =>
        right
        obtain ⟨h, e, g⟩ := expand_arm_ok key len hlen hk rk (hm rk hrk)
        refine ⟨.arm h, ?_, rfl, g⟩
        simp only [e, cassert_true, Res.bind_ok]; rfl

end Scrypt
