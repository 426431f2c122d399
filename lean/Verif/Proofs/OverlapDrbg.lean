import Verif.Proofs.OverlapHash
import Verif.Proofs.Drbg
/- The generator on the bytes of its static state: `V` is hashed into itself. -/
namespace Scrypt
open Spec

section
variable {K V : Bytes} (hK : K.length = 32) (hV : V.length = 32)
include hK

theorem kv_key (t : Bytes) : sl (K ++ V ++ t) 0 32 = K := by simp [sl, hK]

theorem ow_key (t k : Bytes) (hk : k.length = 32) : ow (K ++ V ++ t) 0 k = k ++ V ++ t := by simp [ow, hk, hK, List.append_assoc]

include hV

theorem kv_v (t : Bytes) : sl (K ++ V ++ t) 32 32 = V := by
  simp [sl, List.append_assoc, List.drop_append, hK, List.drop_eq_nil_of_le, hV]

theorem kv_vx (x : Byte) : sl (K ++ V ++ [x]) 32 33 = V ++ [x] := by
  simp [sl, List.append_assoc, List.drop_append, hK, List.drop_eq_nil_of_le, hV, List.take_append]

theorem ow_v (t v : Bytes) (hv : v.length = 32) : ow (K ++ V ++ t) 32 v = K ++ v ++ t := by
  simp [ow, hv, List.append_assoc, hK, List.take_append, List.drop_append, List.drop_eq_nil_of_le, hV]

theorem kv_len (t : Bytes) : (K ++ V ++ t).length = 64 + t.length := by simp [hK, hV]; omega

theorem set_tag (x tag : Byte) : (K ++ V ++ [x]).set 64 tag = K ++ V ++ [tag] := by
  rw [List.set_append_right _ _ (by simp [hK, hV])]; simp [hK, hV]

theorem mixFrame_eq {sys : DrbgSys} (g : sys.Good) (ctx : HMAC_SHA256_CTX) (hc : ctx.Sized) (x tag : Byte) (data : Bytes) :
    ∃ c, mixFrame sys ctx (K ++ V ++ [x]) tag data = .ok (hmac K (V ++ [tag] ++ data) ++ hmac (hmac K (V ++ [tag] ++ data)) V ++ [tag], c) ∧ c.Sized := by
  obtain ⟨c1, e1, h1⟩ := HMAC_SHA256_Init_spec sys.tf g.tf ctx hc K
  obtain ⟨c2, e2, h2⟩ := HMAC_SHA256_Update_spec sys.tf g.tf _ _ _ (V ++ [tag]) h1
  obtain ⟨c3, e3, h3⟩ := HMAC_SHA256_Update_spec sys.tf g.tf _ _ _ data h2
  rw [List.nil_append] at h3
  obtain ⟨c4, -, s4, e4⟩ := HMAC_SHA256_Final_internalM_eq sys.tf g.tf _ _ _ h3 (K ++ V ++ [tag]) 0 (by simp [hK, hV])
  refine ⟨c4, ?_, s4⟩
  have hw : wr (K ++ V ++ [x]) 64 tag = .ok (K ++ V ++ [tag]) := by
    unfold wr
    rw [if_pos (by simp [hK, hV]), set_tag hK hV]
  have hl := kv_len hK hV [tag]
  have hk := hmac_length K (V ++ [tag] ++ data)
  have hl' := kv_len hk hV [tag]
  simp only [List.length_singleton] at hl hl'
  unfold mixFrame
  rw [hw, Res.bind_ok, HMAC_SHA256_InitM_eq _ g.tf _ hc _ _ _ (by omega), kv_key hK, e1, Res.bind_ok, HMAC_SHA256_UpdateM_eq _ _ _ _ _ (by omega),
    kv_vx hK hV, e2, Res.bind_ok, e3, Res.bind_ok, e4, Res.bind_ok, ow_key hK _ _ hk]
  simp only
  rw [HMAC_SHA256_BufM_eq _ g.tf _ g.junk _ _ _ _ _ _ (by omega) (by omega) (by omega), kv_key hk, kv_v hk hV, Res.bind_ok,
    ow_v hk hV _ _ (hmac_length _ _)]
  rfl

theorem updateM_eq {sys : DrbgSys} (g : sys.Good) (frame : Bytes) (hf : frame.length = 65) (data : Bytes) :
    updateM sys frame (K ++ V) data = .ok ((Spec.Drbg.update K V data).1 ++ (Spec.Drbg.update K V data).2) := by
  have k0 := kv_key (V := V) hK []
  have v0 := kv_v hK hV []
  rw [List.append_nil] at k0 v0
  obtain ⟨x, hx⟩ : ∃ x, ow (ow frame 0 K) 32 V = K ++ V ++ [x] := by
    refine ⟨frame[64]'(by omega), ?_⟩
    have : frame.drop 64 = [frame[64]'(by omega)] := by
      rw [List.drop_eq_getElem_cons (by omega), List.drop_eq_nil_of_le (by omega)]
    simp [ow, hK, hV, List.append_assoc, List.drop_append, List.drop_eq_nil_of_le, this]
  obtain ⟨c, e, hc⟩ := mixFrame_eq hK hV g sys.junk g.junk x 0x00 data
  have hk := hmac_length K (V ++ [0x00] ++ data)
  have hv := hmac_length (hmac K (V ++ [0x00] ++ data)) V
  unfold updateM
  rw [rdSlice_sl (by simp [hK]), k0, Res.bind_ok, wrSlice_ow (by omega), Res.bind_ok, rdSlice_sl (by simp [hK, hV]), v0, Res.bind_ok,
    wrSlice_ow (by rw [ow_length _ _ _ (by omega)]; omega), Res.bind_ok, hx, e, Res.bind_ok]
  simp only
  have fin : ∀ (k v : Bytes) (t : Byte), k.length = 32 → v.length = 32 →
      (rdSlice (k ++ v ++ [t]) 0 32 >>= fun a => wrSlice (K ++ V) 0 a >>= fun d => rdSlice (k ++ v ++ [t]) 32 32 >>= fun b => wrSlice d 32 b)
        = .ok (k ++ v) := by
    intro k v t hk hv
    have a := ow_key (V := V) hK [] k hk
    have b := ow_v hk hV [] v hv
    simp only [List.append_nil] at a b
    rw [rdSlice_sl (by simp [hk]), kv_key hk, Res.bind_ok, wrSlice_ow (by simp [hK, hk]), a, Res.bind_ok, rdSlice_sl (by simp [hk, hv]),
      kv_v hk hv, Res.bind_ok, wrSlice_ow (by simp [hk, hv, hV]), b]
  by_cases hd : data = []
  · subst hd
    simp only [List.length_nil, ne_eq, not_true_eq_false, if_false, Res.pure_eq, Res.bind_ok]
    rw [fin _ _ _ hk hv]
    simp [Spec.Drbg.update]
  · have hl : data.length ≠ 0 := fun h => hd (List.length_eq_zero_iff.mp h)
    obtain ⟨c', e', -⟩ := mixFrame_eq hk hv g c hc 0x00 0x01 data
    simp only [ne_eq, hl, not_false_eq_true, if_true]
    rw [e', Res.bind_ok]
    simp only
    rw [fin _ _ _ (hmac_length _ _) (hmac_length _ _)]
    simp [Spec.Drbg.update, hd]

theorem genStepM_eq {sys : DrbgSys} (g : sys.Good) (off n : Nat) (buf : Bytes) (i : Nat) :
    Res.Rel (fun a b => a.1 = b.1 ∧ a.2 = K ++ b.2 ∧ b.2.length = 32) (genStepM sys off n (buf, K ++ V) i) (genStep sys K off n (buf, V) i) := by
  have k0 := kv_key (V := V) hK []
  have v0 := kv_v hK hV []
  have o0 := ow_v hK hV [] (hmac K V) (hmac_length _ _)
  have v1 := kv_v hK (hmac_length K V) []
  have hl := kv_len hK hV []
  simp only [List.append_nil, List.length_nil] at k0 v0 o0 hl v1
  have hcl : (if n - 32 * i ≥ 32 then 32 else n - 32 * i) ≤ 32 := by split <;> omega
  unfold genStepM genStep
  simp only
  rw [HMAC_SHA256_BufM_eq _ g.tf _ g.junk _ _ _ _ _ _ (by omega) (by omega) (by omega), k0, v0, o0, Res.bind_ok,
    HMAC_SHA256_Buf_spec sys.tf g.tf sys.junk g.junk, Res.bind_ok]
  rw [rdSlice_sl (by rw [List.length_append, hK, hmac_length]; omega), Res.bind_ok]
  have : sl (K ++ hmac K V) 32 (if n - 32 * i ≥ 32 then 32 else n - 32 * i) = (hmac K V).take (if n - 32 * i ≥ 32 then 32 else n - 32 * i) := by
    have := sl_sl (K ++ hmac K V) 32 32 0 (if n - 32 * i ≥ 32 then 32 else n - 32 * i) (by omega)
    rw [v1] at this
    simpa [sl] using this.symm
  rw [this]
  exact Res.Rel.same fun b => ⟨rfl, rfl, hmac_length _ _⟩

/-- `generate` on the bytes of the state is `generate` on its fields. -/
theorem generateM_eq {sys : DrbgSys} (g : sys.Good) (frame : Bytes) (hf : frame.length = 65) (ctr : W32) (inst : Bool) (buf : Bytes) (off n : Nat) :
    generateM sys frame (K ++ V) ctr buf off n =
      (generate sys ⟨K, V, ctr, inst⟩ buf off n >>= fun r => .ok (r.1, r.2.Key ++ r.2.V, r.2.reseed_counter)) := by
  unfold generateM generate
  simp only [bind_assoc]
  refine Res.Rel.toEq (Res.Rel.same fun _ => Res.Rel.same fun _ => ?_)
  refine Res.Rel.bind (R := fun (a b : Bytes × Bytes) => a.1 = b.1 ∧ a.2 = K ++ b.2 ∧ b.2.length = 32)
    (Res.Rel.forLoop (R := fun _ (a b : Bytes × Bytes) => a.1 = b.1 ∧ a.2 = K ++ b.2 ∧ b.2.length = 32) ⟨rfl, rfl, hV⟩ ?_) ?_
  · rintro i ⟨a, d⟩ ⟨b, v⟩ _ ⟨h1, h2, h3⟩
    simp only at h1 h2 h3
    subst h1 h2
    exact genStepM_eq hK h3 g off n a i
  · rintro ⟨a, d⟩ ⟨b, v⟩ ⟨h1, h2, h3⟩
    simp only at h1 h2 h3
    subst h1 h2
    simp only
    rw [updateM_eq hK h3 g frame hf, drbgUpdate_spec g _ h3]
    exact rfl

end
end Scrypt
