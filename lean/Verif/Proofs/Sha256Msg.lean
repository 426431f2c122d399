import Verif.Proofs.Intrin
namespace Scrypt
open Spec

theorem rounds_succ (M : Nat → W32) (n : Nat) (s : Regs) :
    rounds M (n + 1) s = round (K n) (Wt M n) (rounds M n s) := rfl

theorem rounds_add4 (M : Nat → W32) (n : Nat) (s : Regs) :
    rounds M (n + 4) s = round (K (n + 3)) (Wt M (n + 3)) (round (K (n + 2)) (Wt M (n + 2))
      (round (K (n + 1)) (Wt M (n + 1)) (round (K n) (Wt M n) (rounds M n s)))) := by
  rw [show n + 4 = (n + 3) + 1 from rfl, rounds_succ, show n + 3 = (n + 2) + 1 from rfl, rounds_succ,
    show n + 2 = (n + 1) + 1 from rfl, rounds_succ, rounds_succ]

/-! ### The message schedule, four words at a time -/

theorem Wt_step (M : Nat → W32) (t : Nat) :
    Wt M (t + 16) = sig1 (Wt M (t + 14)) + Wt M (t + 9) + sig0 (Wt M (t + 1)) + Wt M t := by
  conv => lhs; rw [Wt]
  rw [if_neg (by omega)]; rfl

theorem s0_128_eq (x : V4) : Sse2.s0_128 x = V4.map sig0 x := by
  have h : ∀ y : W32, ((y >>> 7 ||| y <<< (32 - 7)) ^^^ (y >>> 18 ||| y <<< (32 - 18))) ^^^ y >>> 3 = sig0 y := by
    intro y
    have := CSha.s0_eq y
    simpa [CSha.s0, CSha.ROTR, CSha.SHR] using this
  simp only [Sse2.s0_128, Sse2.ROTR32, Sse2.SHR32, mm_xor_si128, mm_or_si128, mm_srli_epi32,
    mm_slli_epi32, V4.zip, V4.map, h]

theorem s1_128_low_eq (x : V4) : Sse2.s1_128_low x = ⟨sig1 x.l2, sig1 x.l3, 0, 0⟩ := by
  simp only [Sse2.s1_128_low, srli_si128_8]
  simp [mm_shuffle_epi32, MM_SHUFFLE, mm_srli_epi64, mm_srli_epi32, mm_xor_si128, V4.zip, V4.map,
    srl64_rotr, sig1]

theorem s1_128_high_eq (x : V4) : Sse2.s1_128_high x = ⟨0, 0, sig1 x.l0, sig1 x.l1⟩ := by
  simp only [Sse2.s1_128_high, slli_si128_8]
  simp [mm_shuffle_epi32, MM_SHUFFLE, mm_srli_epi64, mm_srli_epi32, mm_xor_si128, V4.zip, V4.map,
    srl64_rotr, sig1]

theorem MSG4_sse2 (M : Nat → W32) (t : Nat) :
    Sse2.MSG4 (V4w M t) (V4w M (t + 4)) (V4w M (t + 8)) (V4w M (t + 12)) = V4w M (t + 16) := by
  have h0 := Wt_step M t
  have h1 := Wt_step M (t + 1)
  have h2 := Wt_step M (t + 2)
  have h3 := Wt_step M (t + 3)
  simp only [Nat.add_assoc, Nat.reduceAdd] at h0 h1 h2 h3
  simp only [Sse2.MSG4, s1_128_low_eq, s1_128_high_eq, s0_128_eq]
  simp only [Sse2.SPAN_ONE_THREE, mm_move_ss, mm_shuffle_epi32, MM_SHUFFLE, V4w, V4.map, V4.zip,
    mm_add_epi32, Nat.add_assoc, Nat.reduceAdd, V4.mk.injEq, h0, h1, h2, h3]
  refine ⟨?_, ?_, ?_, ?_⟩
  · simp; ac_rfl
  · simp; ac_rfl
  · simp; ac_rfl
  · simp; ac_rfl

theorem MSG4_arm (M : Nat → W32) (t : Nat) :
    Arm.MSG4 (V4w M t) (V4w M (t + 4)) (V4w M (t + 8)) (V4w M (t + 12)) = V4w M (t + 16) := by
  have h0 := Wt_step M t
  have h1 := Wt_step M (t + 1)
  have h2 := Wt_step M (t + 2)
  have h3 := Wt_step M (t + 3)
  simp only [Nat.add_assoc, Nat.reduceAdd] at h0 h1 h2 h3
  simp only [Arm.MSG4, vsha256su1q_u32, vsha256su0q_u32, V4w, Nat.add_assoc, Nat.reduceAdd, V4.mk.injEq, h0, h1, h2, h3]
  refine ⟨?_, ?_, ?_, ?_⟩
  · ac_rfl
  · ac_rfl
  · rw [show sig1 (Wt M (t + 14)) + (sig0 (Wt M (t + 1)) + Wt M t + Wt M (t + 9)) = sig1 (Wt M (t + 14)) + Wt M (t + 9) + sig0 (Wt M (t + 1)) + Wt M t by ac_rfl]
    ac_rfl
  · rw [show sig1 (Wt M (t + 15)) + (sig0 (Wt M (t + 2)) + Wt M (t + 1) + Wt M (t + 10)) = sig1 (Wt M (t + 15)) + Wt M (t + 10) + sig0 (Wt M (t + 2)) + Wt M (t + 1) by ac_rfl]
    ac_rfl

theorem MSG4_shani (M : Nat → W32) (t : Nat) :
    mm_sha256msg2_epu32 (mm_add_epi32 (mm_sha256msg1_epu32 (V4w M t) (V4w M (t + 4)))
      (mm_alignr_epi8 (V4w M (t + 12)) (V4w M (t + 8)) 4)) (V4w M (t + 12)) = V4w M (t + 16) := by
  have h0 := Wt_step M t
  have h1 := Wt_step M (t + 1)
  have h2 := Wt_step M (t + 2)
  have h3 := Wt_step M (t + 3)
  simp only [Nat.add_assoc, Nat.reduceAdd] at h0 h1 h2 h3
  simp only [alignr_4, mm_sha256msg2_epu32, mm_sha256msg1_epu32, mm_add_epi32, V4.zip, V4w,
    Nat.add_assoc, Nat.reduceAdd, V4.mk.injEq, h0, h1, h2, h3]
  refine ⟨?_, ?_, ?_, ?_⟩
  · ac_rfl
  · ac_rfl
  · rw [show Wt M t + sig0 (Wt M (t + 1)) + Wt M (t + 9) + sig1 (Wt M (t + 14)) = sig1 (Wt M (t + 14)) + Wt M (t + 9) + sig0 (Wt M (t + 1)) + Wt M t by ac_rfl]
    ac_rfl
  · rw [show Wt M (t + 1) + sig0 (Wt M (t + 2)) + Wt M (t + 10) + sig1 (Wt M (t + 15)) = sig1 (Wt M (t + 15)) + Wt M (t + 10) + sig0 (Wt M (t + 2)) + Wt M (t + 1) by ac_rfl]
    ac_rfl

end Scrypt
