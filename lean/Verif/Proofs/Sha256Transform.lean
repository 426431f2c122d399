import Verif.Model.Sha256
import Verif.Spec.Sha256
import Verif.Proofs.Endian
namespace Scrypt
open Spec

theorem CSha.Ch_eq (x y z : W32) : CSha.Ch x y z = Spec.Ch x y z := by
  apply BitVec.eq_of_getElem_eq
  intro i hi
  simp only [CSha.Ch, Spec.Ch, BitVec.getElem_xor, BitVec.getElem_and, BitVec.getElem_not]
  cases x[i] <;> cases y[i] <;> cases z[i] <;> rfl

theorem CSha.Maj_eq (x y z : W32) : CSha.Maj x y z = Spec.Maj x y z := by
  apply BitVec.eq_of_getElem_eq
  intro i hi
  simp only [CSha.Maj, Spec.Maj, BitVec.getElem_xor, BitVec.getElem_and, BitVec.getElem_or]
  cases x[i] <;> cases y[i] <;> cases z[i] <;> rfl

theorem CSha.ROTR_eq (x : W32) (n : Nat) (h : n < 32) : CSha.ROTR x n = Spec.ROTR n x := by
  simp [CSha.ROTR, Spec.ROTR, BitVec.rotateRight, BitVec.rotateRightAux, Nat.mod_eq_of_lt h]

theorem CSha.S0_eq (x : W32) : CSha.S0 x = Sig0 x := by simp [CSha.S0, Sig0, CSha.ROTR_eq]
theorem CSha.S1_eq (x : W32) : CSha.S1 x = Sig1 x := by simp [CSha.S1, Sig1, CSha.ROTR_eq]
theorem CSha.s0_eq (x : W32) : CSha.s0 x = sig0 x := by
  simp [CSha.s0, sig0, CSha.ROTR_eq, CSha.SHR]
theorem CSha.s1_eq (x : W32) : CSha.s1 x = sig1 x := by
  simp [CSha.s1, sig1, CSha.ROTR_eq, CSha.SHR]

theorem Krnd_eq : Krnd = Ktab := rfl

theorem rd_Krnd (t : Nat) (h : t < 64) : rd Krnd t = .ok (K t) := by
  have hl : t < Ktab.length := h
  rw [Krnd_eq, rd_ok hl, K, List.getD_eq_getElem?_getD, List.getElem?_eq_getElem hl]; rfl

/-- The register file at rotation `i`: element `(64 + j - i) % 8` of the array holds variable `j`. -/
def Rot (i : Nat) (S : List W32) (s : Regs) : Prop :=
  S.length = 8 ∧ S[(64 - i) % 8]? = some s.a ∧ S[(65 - i) % 8]? = some s.b ∧
  S[(66 - i) % 8]? = some s.c ∧ S[(67 - i) % 8]? = some s.d ∧ S[(68 - i) % 8]? = some s.e ∧
  S[(69 - i) % 8]? = some s.f ∧ S[(70 - i) % 8]? = some s.g ∧ S[(71 - i) % 8]? = some s.h

private theorem idx_eq : ∀ i < 16,
    (64 - (i + 1)) % 8 = (71 - i) % 8 ∧ (65 - (i + 1)) % 8 = (64 - i) % 8 ∧
    (66 - (i + 1)) % 8 = (65 - i) % 8 ∧ (67 - (i + 1)) % 8 = (66 - i) % 8 ∧
    (68 - (i + 1)) % 8 = (67 - i) % 8 ∧ (69 - (i + 1)) % 8 = (68 - i) % 8 ∧
    (70 - (i + 1)) % 8 = (69 - i) % 8 ∧ (71 - (i + 1)) % 8 = (70 - i) % 8 := by decide

private theorem idx_ne : ∀ i < 16,
    (71 - i) % 8 ≠ (64 - i) % 8 ∧ (71 - i) % 8 ≠ (65 - i) % 8 ∧ (71 - i) % 8 ≠ (66 - i) % 8 ∧
    (71 - i) % 8 ≠ (67 - i) % 8 ∧ (71 - i) % 8 ≠ (68 - i) % 8 ∧ (71 - i) % 8 ≠ (69 - i) % 8 ∧
    (71 - i) % 8 ≠ (70 - i) % 8 ∧ (67 - i) % 8 ≠ (64 - i) % 8 ∧ (67 - i) % 8 ≠ (65 - i) % 8 ∧
    (67 - i) % 8 ≠ (66 - i) % 8 ∧ (67 - i) % 8 ≠ (68 - i) % 8 ∧ (67 - i) % 8 ≠ (69 - i) % 8 ∧
    (67 - i) % 8 ≠ (70 - i) % 8 := by decide

theorem CSha.RNDr_spec (Kt S W : List W32) (s : Regs) (i ii : Nat) (w : W32) (hi : i < 16)
    (hii : ii ≤ 48) (hKt : Kt = Ktab) (hS : Rot i S s) (hW : W[i + ii]? = some w) :
    ∃ S', RNDr Kt S W i ii = .ok S' ∧ Rot (i + 1) S' (Spec.round (K (i + ii)) w s) := by
  obtain ⟨hl, ha, hb, hc, hd, he, hf, hg, hh⟩ := hS
  have hk := rd_Krnd (i + ii) (by omega)
  rw [Krnd_eq, ← hKt] at hk
  have h1 : (71 - i) % 8 < 8 := Nat.mod_lt _ (by omega)
  have h2 : (67 - i) % 8 < 8 := Nat.mod_lt _ (by omega)
  have e : RNDr Kt S W i ii = .ok (((S.set ((71 - i) % 8) (s.h + (S1 s.e + Ch s.e s.f s.g + (w + K (i + ii))))).set
      ((67 - i) % 8) (s.d + (s.h + (S1 s.e + Ch s.e s.f s.g + (w + K (i + ii)))))).set ((71 - i) % 8)
      ((s.h + (S1 s.e + Ch s.e s.f s.g + (w + K (i + ii)))) + (S0 s.a + Maj s.a s.b s.c))) := by
    simp only [RNDr, rd_some ha, rd_some hb, rd_some hc, rd_some hd, rd_some he, rd_some hf,
      rd_some hg, rd_some hh, rd_some hW, hk, Res.bind_ok, wr, List.length_set, hl, h1, h2, if_true]
  refine ⟨_, e, ?_⟩
  have ht : s.h + (S1 s.e + Ch s.e s.f s.g + (w + K (i + ii)))
      = s.h + Sig1 s.e + Spec.Ch s.e s.f s.g + K (i + ii) + w := by
    rw [S1_eq, Ch_eq]; ac_rfl
  rw [ht, S0_eq, Maj_eq]
  refine ⟨by simp [hl], ?_⟩
  simp only [Spec.round]
  generalize s.h + Sig1 s.e + Spec.Ch s.e s.f s.g + K (i + ii) + w = T1
  obtain ⟨e1, e2, e3, e4, e5, e6, e7, e8⟩ := idx_eq i hi
  rw [e1, e2, e3, e4, e5, e6, e7, e8]
  obtain ⟨n1, n2, n3, n4, n5, n6, n7, m1, m2, m3, m5, m6, m7⟩ := idx_ne i hi
  clear e1 e2 e3 e4 e5 e6 e7 e8 e ht hW hk
  generalize (71 - i) % 8 = p7 at *
  generalize (70 - i) % 8 = p6 at *
  generalize (69 - i) % 8 = p5 at *
  generalize (68 - i) % 8 = p4 at *
  generalize (67 - i) % 8 = p3 at *
  generalize (66 - i) % 8 = p2 at *
  generalize (65 - i) % 8 = p1 at *
  generalize (64 - i) % 8 = p0 at *
  refine ⟨?_, ?_, ?_, ?_, ?_, ?_, ?_, ?_⟩
  · rw [List.getElem?_set_self (by simpa [hl] using h1)]
  · rw [List.getElem?_set_ne n1, List.getElem?_set_ne m1, List.getElem?_set_ne n1, ha]
  · rw [List.getElem?_set_ne n2, List.getElem?_set_ne m2, List.getElem?_set_ne n2, hb]
  · rw [List.getElem?_set_ne n3, List.getElem?_set_ne m3, List.getElem?_set_ne n3, hc]
  · rw [List.getElem?_set_ne n4, List.getElem?_set_self (by simpa [hl] using h2)]
  · rw [List.getElem?_set_ne n5, List.getElem?_set_ne m5, List.getElem?_set_ne n5, he]
  · rw [List.getElem?_set_ne n6, List.getElem?_set_ne m6, List.getElem?_set_ne n6, hf]
  · rw [List.getElem?_set_ne n7, List.getElem?_set_ne m7, List.getElem?_set_ne n7, hg]

/-- The first `n` words of the schedule are in place. -/
def WOk (M : Nat → W32) (n : Nat) (W : List W32) : Prop :=
  W.length = 64 ∧ ∀ t, t < n → W[t]? = some (Wt M t)

theorem CSha.MSCH_spec (M : Nat → W32) (W : List W32) (ii i n : Nat) (hn : n = i + ii + 16)
    (hlt : n < 64) (hW : WOk M n W) : ∃ W', MSCH W ii i = .ok W' ∧ WOk M (n + 1) W' := by
  obtain ⟨hl, hw⟩ := hW
  have a14 := hw (i + ii + 14) (by omega)
  have a9 := hw (i + ii + 9) (by omega)
  have a1 := hw (i + ii + 1) (by omega)
  have a0 := hw (i + ii) (by omega)
  have e : MSCH W ii i = .ok (W.set n (s1 (Wt M (i + ii + 14)) + Wt M (i + ii + 9)
      + s0 (Wt M (i + ii + 1)) + Wt M (i + ii))) := by
    simp [MSCH, rd, a14, a9, a1, a0, wr, hl, ← hn, hlt]
  refine ⟨_, e, by simp [hl], ?_⟩
  intro t ht
  rcases Nat.lt_or_ge t n with h | h
  · rw [List.getElem?_set_ne (by omega), hw t h]
  · have : t = n := by omega
    subst this
    rw [List.getElem?_set_self (by omega)]
    conv => rhs; rw [Wt]
    rw [if_neg (by omega), s1_eq, s0_eq, hn]
    rfl

theorem CSha.mixStep_spec (M : Nat → W32) (s0 : Regs) (W S : List W32) (q : Nat) (hq : q < 4)
    (hW : WOk M (16 * (q + 1)) W) (hS : Rot 0 S (Spec.rounds M (16 * q) s0)) :
    ∃ W' S', mixStep (W, S) q = .ok (W', S') ∧ WOk M (min 64 (16 * (q + 2))) W' ∧
      Rot 0 S' (Spec.rounds M (16 * (q + 1)) s0) := by
  obtain ⟨S', e1, hS'⟩ := forLoop_inv (n := 16) (f := fun S j => RNDr Krnd S W j (16 * q)) (s := S)
    (fun j S => Rot j S (Spec.rounds M (16 * q + j) s0)) (by simpa using hS) (by
      intro j S hj hR
      have hw := hW.2 (j + 16 * q) (by omega)
      obtain ⟨S', e, h⟩ := RNDr_spec Krnd S W _ j (16 * q) _ hj (by omega) Krnd_eq hR hw
      refine ⟨S', e, ?_⟩
      rw [show 16 * q + (j + 1) = (16 * q + j) + 1 from rfl, Spec.rounds]
      rwa [Nat.add_comm j (16 * q)] at h)
  have hS'' : Rot 0 S' (Spec.rounds M (16 * (q + 1)) s0) := by
    simpa [Rot, Nat.mul_add] using hS'
  by_cases h48 : 16 * q = 48
  · refine ⟨W, S', ?_, ?_, hS''⟩
    · simp [mixStep, h48]
      rw [h48] at e1; simp [e1]
    · have : q = 3 := by omega
      subst this; simpa using hW
  · obtain ⟨W', e2, hW'⟩ := forLoop_inv (n := 16) (f := fun W j => MSCH W j (16 * q)) (s := W)
      (fun j W => WOk M (16 * (q + 1) + j) W) (by simpa using hW) (by
        intro j W hj hR
        exact MSCH_spec M W j (16 * q) (16 * (q + 1) + j) (by omega) (by omega) hR)
    refine ⟨W', S', ?_, ?_, hS''⟩
    · simp [mixStep, e1, e2, h48]
    · rw [show min 64 (16 * (q + 2)) = 16 * (q + 1) + 16 by omega]; exact hW'

/-- `Regs` as the eight-element array used by the code. -/
def Spec.Regs.toList (s : Regs) : List W32 := [s.a, s.b, s.c, s.d, s.e, s.f, s.g, s.h]

theorem be32dec_slice (p : Bytes) (i : Nat) (h : 4 * i + 4 ≤ p.length) :
    be32dec (p.drop (i * 4)) = .ok (wordBE p i) := by
  have hl : ((p.drop (4 * i)).take 4).length = 4 := by simp; omega
  have hd : p.drop (i * 4) = (p.drop (4 * i)).take 4 ++ (p.drop (4 * i)).drop 4 := by
    rw [List.take_append_drop, Nat.mul_comm]
  rw [hd]
  match hm : (p.drop (4 * i)).take 4, hl with
  | [a, b, c, d], _ => simp [be32dec_eq, wordBE, hm]

theorem be32dec_vect_spec (W : List W32) (block : Bytes) (hW : W.length = 64)
    (hb : block.length = 64) :
    ∃ W', be32dec_vect W block 64 = .ok W' ∧ WOk (wordBE block) 16 W' := by
  obtain ⟨W', e, h⟩ := forLoop_inv (n := 16)
    (f := fun dst i => do let x ← be32dec (block.drop (i * 4)); wr dst i x) (s := W)
    (fun j W => WOk (wordBE block) (min j 16) W) ⟨hW, by simp⟩ (by
      intro j W hj hR
      refine ⟨W.set j (wordBE block j), ?_, by simp [hR.1], ?_⟩
      · rw [be32dec_slice _ _ (by omega)]
        simp [wr, hR.1]; omega
      · intro t ht
        rcases Nat.lt_or_ge t j with h | h
        · rw [List.getElem?_set_ne (by omega), hR.2 t (by omega)]
        · have : t = j := by omega
          subst this
          rw [List.getElem?_set_self (by rw [hR.1]; omega), Wt, if_pos hj])
  exact ⟨W', by simpa [be32dec_vect] using e, h⟩

theorem regs_of_length {l : List W32} (h : l.length = 8) : ∃ s : Regs, l = s.toList := by
  match l, h with
  | [a, b, c, d, e, f, g, i], _ => exact ⟨⟨a, b, c, d, e, f, g, i⟩, rfl⟩

/-- `SHA256_Transform` (software) is the FIPS 180-4 compression function, whatever the scratch
arrays contain. -/
theorem SHA256_Transform_sw_full (s : Regs) (block : Bytes) (W S : List W32)
    (hb : block.length = 64) (hW : W.length = 64) (hS : S.length = 8) :
    ∃ W' S', SHA256_Transform_sw s.toList block W S
      = .ok ((compress s block).toList, W', S') ∧ WOk (wordBE block) 64 W' ∧ S'.length = 8 := by
  obtain ⟨W1, e1, h1⟩ := be32dec_vect_spec W block hW hb
  have e2 : wrSlice S 0 s.toList = .ok s.toList := by
    rw [wrSlice_ok (by simp [Regs.toList, hS])]
    simp [Regs.toList, List.drop_eq_nil_of_le, hS]
  obtain ⟨⟨W2, S2⟩, e3, hW2, h3⟩ := forLoop_inv (n := 4) (f := CSha.mixStep) (s := (W1, s.toList))
    (fun q WS => WOk (wordBE block) (min 64 (16 * (q + 1))) WS.1 ∧
      Rot 0 WS.2 (rounds (wordBE block) (16 * q) s)) ⟨h1, by simp [Rot, Regs.toList, rounds]⟩ (by
      rintro q ⟨W, S⟩ hq ⟨hW, hS⟩
      obtain ⟨W', S', e, h1, h2⟩ := CSha.mixStep_spec _ s W S q hq
        (by rwa [Nat.min_eq_right (by omega)] at hW) hS
      exact ⟨(W', S'), e, h1, h2⟩)
  obtain ⟨hl, ha, hb, hc, hd, he, hf, hg, hh⟩ := h3
  have hS2 : S2 = (rounds (wordBE block) 64 s).toList := by
    match S2, hl with
    | [x0, x1, x2, x3, x4, x5, x6, x7], _ =>
      simp at ha hb hc hd he hf hg hh
      simp [Regs.toList, ha, hb, hc, hd, he, hf, hg, hh]
  refine ⟨W2, S2, ?_, hW2, hl⟩
  simp only [SHA256_Transform_sw, e1, Res.bind_ok]
  rw [rdSlice_ok (by simp [Regs.toList])]
  simp only [List.drop_zero, Res.bind_ok]
  rw [show List.take 8 s.toList = s.toList by simp [Regs.toList]]
  simp only [e2, Res.bind_ok, e3]
  rw [hS2]
  simp [forLoop, rd, wr, Regs.toList, compress, Regs.add, BitVec.add_comm]

/-- The same without what is left in the scratch arrays. -/
theorem SHA256_Transform_sw_spec (s : Regs) (block : Bytes) (W S : List W32)
    (hb : block.length = 64) (hW : W.length = 64) (hS : S.length = 8) :
    ∃ W' S', SHA256_Transform_sw s.toList block W S
      = .ok ((compress s block).toList, W', S') := by
  obtain ⟨W', S', h, -⟩ := SHA256_Transform_sw_full s block W S hb hW hS
  exact ⟨W', S', h⟩

theorem swTransform_spec (s : Regs) (block : Bytes) (hb : block.length = 64) :
    swTransform s.toList block = .ok (compress s block).toList := by
  obtain ⟨W', S', e⟩ := SHA256_Transform_sw_spec s block (List.replicate 64 0) (List.replicate 8 0)
    hb (by simp) (by simp)
  simp only [swTransform, e, Res.bind_ok, Res.pure_eq]

end Scrypt
