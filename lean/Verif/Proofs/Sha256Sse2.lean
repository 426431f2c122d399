import Verif.Proofs.Sha256Msg
namespace Scrypt
open Spec

/-! ### SSE2 -/

theorem storeu_WOk (M : Nat → W32) (W : List W32) (n : Nat) (hn : n + 4 ≤ 64) (h : WOk M n W) :
    ∃ W', mm_storeu_words W n (V4w M n) = .ok W' ∧ WOk M (n + 4) W' := by
  obtain ⟨hl, hw⟩ := h
  refine ⟨(((W.set n (Wt M n)).set (n + 1) (Wt M (n + 1))).set (n + 2) (Wt M (n + 2))).set (n + 3) (Wt M (n + 3)), ?_, ?_, ?_⟩
  · simp only [mm_storeu_words, V4w]
    rw [wr_ok _ (by omega), Res.bind_ok, wr_ok _ (by simp; omega), Res.bind_ok, wr_ok _ (by simp; omega),
      Res.bind_ok, wr_ok _ (by simp; omega)]
  · simp [hl]
  · intro t ht
    simp only [List.getElem?_set, List.length_set, hl]
    by_cases h3 : n + 3 = t
    · simp [h3]; omega
    by_cases h2 : n + 2 = t
    · simp [h3, h2]; omega
    by_cases h1 : n + 1 = t
    · simp [h3, h2, h1]; omega
    by_cases h0 : n = t
    · simp [h0]; omega
    · simp only [h3, h2, h1, h0, if_false]; exact hw t (by omega)

theorem WOk.mono {M : Nat → W32} {W : List W32} {m n : Nat} (h : WOk M n W) (hm : m ≤ n) : WOk M m W :=
  ⟨h.1, fun t ht => h.2 t (by omega)⟩

def Y4Ok (M : Nat → W32) (t : Nat) (Y : Sse2.Y4) : Prop :=
  Y.y0 = V4w M t ∧ Y.y1 = V4w M (t + 4) ∧ Y.y2 = V4w M (t + 8) ∧ Y.y3 = V4w M (t + 12)

theorem sse2_mixStep_spec (M : Nat → W32) (s0 : Regs) (W S : List W32) (Y : Sse2.Y4) (q : Nat) (hq : q < 4)
    (hW : WOk M (16 * (q + 1)) W) (hS : Rot 0 S (Spec.rounds M (16 * q) s0))
    (hY : Y4Ok M (16 * q) Y) :
    ∃ W' S' Y', Sse2.mixStep (W, S, Y) q = .ok (W', S', Y') ∧ WOk M (min 64 (16 * (q + 2))) W' ∧
      Rot 0 S' (Spec.rounds M (16 * (q + 1)) s0) ∧ (q < 3 → Y4Ok M (16 * (q + 1)) Y') := by
  obtain ⟨S', e1, hS'⟩ := forLoop_inv (n := 16) (f := fun S j => CSha.RNDr Sse2.Krnd S W j (16 * q)) (s := S)
    (fun j S => Rot j S (Spec.rounds M (16 * q + j) s0)) (by simpa using hS) (by
      intro j S hj hR
      have hw := hW.2 (j + 16 * q) (by omega)
      obtain ⟨S', e, h⟩ := CSha.RNDr_spec Sse2.Krnd S W _ j (16 * q) _ hj (by omega) rfl hR hw
      refine ⟨S', e, ?_⟩
      rw [show 16 * q + (j + 1) = (16 * q + j) + 1 from rfl, Spec.rounds]
      rwa [Nat.add_comm j (16 * q)] at h)
  have hS'' : Rot 0 S' (Spec.rounds M (16 * (q + 1)) s0) := by
    simpa [Rot, Nat.mul_add] using hS'
  by_cases h48 : 16 * q = 48
  · refine ⟨W, S', Y, ?_, ?_, hS'', fun h => by omega⟩
    · simp [Sse2.mixStep, h48]
      rw [h48] at e1; simp [e1]
    · have : q = 3 := by omega
      subst this; simpa using hW
  · obtain ⟨y0, y1, y2, y3⟩ := hY
    have n0 := MSG4_sse2 M (16 * q)
    have n1 := MSG4_sse2 M (16 * q + 4)
    have n2 := MSG4_sse2 M (16 * q + 8)
    have n3 := MSG4_sse2 M (16 * q + 12)
    simp only [Nat.add_assoc, Nat.reduceAdd] at n0 n1 n2 n3
    obtain ⟨W1, f1, g1⟩ := storeu_WOk M W (16 * q + 16) (by omega) (by rwa [Nat.mul_add] at hW)
    obtain ⟨W2, f2, g2⟩ := storeu_WOk M W1 (16 * q + 20) (by omega) g1
    obtain ⟨W3, f3, g3⟩ := storeu_WOk M W2 (16 * q + 24) (by omega) g2
    obtain ⟨W4, f4, g4⟩ := storeu_WOk M W3 (16 * q + 28) (by omega) g3
    refine ⟨W4, S', ⟨V4w M (16 * q + 16), V4w M (16 * q + 20), V4w M (16 * q + 24), V4w M (16 * q + 28)⟩,
      ?_, ?_, hS'', fun _ => ?_⟩
    · simp only [Sse2.mixStep, e1, Res.bind_ok, beq_iff_eq, h48, if_false, y0, y1, y2, y3, n0, n1, n2, n3,
        show 16 + 16 * q + 0 = 16 * q + 16 by omega, show 16 + 16 * q + 4 = 16 * q + 20 by omega,
        show 16 + 16 * q + 8 = 16 * q + 24 by omega, show 16 + 16 * q + 12 = 16 * q + 28 by omega,
        f1, f2, f3, f4, Res.pure_eq]
    · rw [show min 64 (16 * (q + 2)) = 16 * q + 28 + 4 by omega]; exact g4
    · exact ⟨rfl, rfl, rfl, rfl⟩

theorem WOk_zero (M : Nat → W32) (W : List W32) (h : W.length = 64) : WOk M 0 W := ⟨h, by simp⟩

/-- `SHA256_Transform_sse2` is the FIPS 180-4 compression function. -/
theorem SHA256_Transform_sse2_full (s : Regs) (block : Bytes) (W S : List W32)
    (hb : block.length = 64) (hW : W.length = 64) (hS : S.length = 8) :
    ∃ W' S', SHA256_Transform_sse2 s.toList block W S = .ok ((compress s block).toList, W', S') ∧
      WOk (wordBE block) 64 W' ∧ S'.length = 8 := by
  obtain ⟨x0, l0, b0⟩ := load_block block hb 0 (by omega)
  obtain ⟨x1, l1, b1⟩ := load_block block hb 1 (by omega)
  obtain ⟨x2, l2, b2⟩ := load_block block hb 2 (by omega)
  obtain ⟨x3, l3, b3⟩ := load_block block hb 3 (by omega)
  simp only [Nat.mul_zero, Nat.reduceMul] at l0 l1 l2 l3 b0 b1 b2 b3
  obtain ⟨W1, f1, g1⟩ := storeu_WOk (wordBE block) W 0 (by omega) (WOk_zero _ _ hW)
  obtain ⟨W2, f2, g2⟩ := storeu_WOk (wordBE block) W1 4 (by omega) g1
  obtain ⟨W3, f3, g3⟩ := storeu_WOk (wordBE block) W2 8 (by omega) g2
  obtain ⟨W4, f4, g4⟩ := storeu_WOk (wordBE block) W3 12 (by omega) g3
  have e2 : wrSlice S 0 s.toList = .ok s.toList := by
    rw [wrSlice_ok (by simp [Regs.toList, hS])]
    simp [Regs.toList, List.drop_eq_nil_of_le, hS]
  obtain ⟨⟨W5, S5, Y5⟩, e3, hW5, h3, -⟩ := forLoop_inv (n := 4) (f := Sse2.mixStep)
    (s := (W4, s.toList, ⟨V4w (wordBE block) 0, V4w (wordBE block) 4, V4w (wordBE block) 8, V4w (wordBE block) 12⟩))
    (fun q st => WOk (wordBE block) (min 64 (16 * (q + 1))) st.1 ∧
      Rot 0 st.2.1 (rounds (wordBE block) (16 * q) s) ∧ (q < 4 → Y4Ok (wordBE block) (16 * q) st.2.2))
    ⟨g4, by simp [Rot, Regs.toList, rounds], fun _ => ⟨rfl, rfl, rfl, rfl⟩⟩ (by
      rintro q ⟨W, S, Y⟩ hq ⟨hW, hS, hY⟩
      obtain ⟨W', S', Y', e, h1, h2, h3⟩ := sse2_mixStep_spec _ s W S Y q hq
        (by rwa [Nat.min_eq_right (by omega)] at hW) hS (hY hq)
      exact ⟨(W', S', Y'), e, h1, h2, fun h => h3 (by omega)⟩)
  obtain ⟨hl, ha, hb, hc, hd, he, hf, hg, hh⟩ := h3
  have hS5 : S5 = (rounds (wordBE block) 64 s).toList := by
    match S5, hl with
    | [x0, x1, x2, x3, x4, x5, x6, x7], _ =>
      simp at ha hb hc hd he hf hg hh
      simp [Regs.toList, ha, hb, hc, hd, he, hf, hg, hh]
  refine ⟨W5, S5, ?_, hW5, hl⟩
  simp only [SHA256_Transform_sse2, l0, l1, l2, l3, bswap_sse2, b0, b1, b2, b3, f1, f2, f3, f4, Res.bind_ok]
  rw [rdSlice_ok (by simp [Regs.toList])]
  simp only [List.drop_zero, Res.bind_ok]
  rw [show List.take 8 s.toList = s.toList by simp [Regs.toList]]
  simp only [e2, Res.bind_ok, e3]
  rw [hS5]
  simp [forLoop, rd, wr, Regs.toList, compress, Regs.add, BitVec.add_comm]

/-- The same without what is left in the scratch arrays. -/
theorem SHA256_Transform_sse2_spec (s : Regs) (block : Bytes) (W S : List W32)
    (hb : block.length = 64) (hW : W.length = 64) (hS : S.length = 8) :
    ∃ W' S', SHA256_Transform_sse2 s.toList block W S = .ok ((compress s block).toList, W', S') := by
  obtain ⟨W', S', h, -⟩ := SHA256_Transform_sse2_full s block W S hb hW hS
  exact ⟨W', S', h⟩

end Scrypt
