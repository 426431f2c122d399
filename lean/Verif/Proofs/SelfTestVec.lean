import Verif.Proofs.SelfTestEval
/-
The self-test vector is scrypt of the self-test inputs, so a correct smix passes the self-test.
-/
namespace Scrypt
open Spec

set_option maxRecDepth 100000 in
theorem blks_lit : blks (litBlocks selfB0).flatten = litBlocks selfB0 := by decide +kernel

set_option maxRecDepth 100000 in
theorem lit_len : (litBlocks selfB0).flatten.length = 16 * (2 * 8) := by decide +kernel

theorem zeroHctx_sized : zeroHctx.Sized := by
  constructor <;> constructor <;> rfl

theorem selfRomixBytes : roMix 8 16 (leWordBytes (litBlocks selfB0).flatten) = leWordBytes (litBlocks selfB1).flatten := by
  rw [← romixF_spec _ lit_len, blks_lit, selfRomix]

theorem hmac_of {key msg out : Bytes} (h : HMAC_SHA256_Buf swTransform zeroHctx key msg = .ok out) : hmac key msg = out := by
  rw [HMAC_SHA256_Buf_spec swTransform goodTf_sw zeroHctx zeroHctx_sized] at h
  exact Res.ok.inj h

theorem pbT_one (P S : Bytes) (i : Nat) : pbkdf2T P S 1 i = hmac P (S ++ beBytes 4 i) := by
  rw [pbkdf2T]; rfl

set_option maxRecDepth 100000 in
theorem halves : (List.range 32).flatMap half = leWordBytes (litBlocks selfB0).flatten := by decide +kernel

theorem selfT : ∀ i, i < 32 → pbkdf2T testPasswd testSalt 1 (i + 1) = half i := by
  intro i hi
  rw [pbT_one]
  apply hmac_of
  have h : i ∈ [0, 1, 2, 3] ∨ i ∈ [4, 5, 6, 7] ∨ i ∈ [8, 9, 10, 11] ∨ i ∈ [12, 13, 14, 15] ∨ i ∈ [16, 17, 18, 19] ∨ i ∈ [20, 21, 22, 23] ∨
      i ∈ [24, 25, 26, 27] ∨ i ∈ [28, 29, 30, 31] := by
    simp only [List.mem_cons, List.not_mem_nil, or_false]; omega
  rcases h with h | h | h | h | h | h | h | h
  · exact selfPb0_0 i h
  · exact selfPb0_1 i h
  · exact selfPb0_2 i h
  · exact selfPb0_3 i h
  · exact selfPb0_4 i h
  · exact selfPb0_5 i h
  · exact selfPb0_6 i h
  · exact selfPb0_7 i h

theorem selfPb0' : pbkdf2 testPasswd testSalt 1 1024 = leWordBytes (litBlocks selfB0).flatten := by
  have l := pbkdf2_length testPasswd testSalt 1 1024
  unfold pbkdf2 at l ⊢
  rw [show (1024 + 31) / 32 = 32 from rfl] at l ⊢
  have e : (List.range 32).flatMap (fun i => pbkdf2T testPasswd testSalt 1 (i + 1)) = (List.range 32).flatMap half :=
    flatMap_congr' _ _ _ selfT
  rw [e, halves] at l ⊢
  apply List.take_of_length_le
  have : (leWordBytes (litBlocks selfB0).flatten).length = 1024 := by
    rw [leWordBytes_length, lit_len]
  omega

theorem selfPb1' : pbkdf2 testPasswd (leWordBytes (litBlocks selfB1).flatten) 1 64 = testResult := by
  unfold pbkdf2
  rw [show (64 + 31) / 32 = 2 from rfl, show List.range 2 = [0, 1] from rfl, List.flatMap_cons, List.flatMap_cons, List.flatMap_nil,
    List.append_nil, pbT_one, pbT_one, hmac_of selfPb1_0, hmac_of selfPb1_1, List.take_append_drop]
  exact List.take_of_length_le (by decide)

theorem selfScrypt : Spec.scrypt testPasswd testSalt 16 8 1 64 = testResult := by
  have l := pbkdf2_length testPasswd testSalt 1 1024
  have h1 : (List.range 1).flatMap (fun i => roMix 8 16 (((pbkdf2 testPasswd testSalt 1 1024).drop (128 * 8 * i)).take (128 * 8)))
      = leWordBytes (litBlocks selfB1).flatten := by
    rw [show List.range 1 = [0] from rfl, List.flatMap_cons, List.flatMap_nil, List.append_nil, Nat.mul_zero, List.drop_zero,
      List.take_of_length_le (by omega), selfPb0', selfRomixBytes]
  unfold Spec.scrypt
  simp only []
  rw [show 1 * 128 * 8 = 1024 from rfl, h1, selfPb1']

end Scrypt
