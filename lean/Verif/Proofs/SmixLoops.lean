import Verif.Proofs.SmixGen
namespace Scrypt
open Spec

/-- What the two loops need from an implementation. -/
structure OpsSpec (ops : Smix.Ops) (σ : List W32 → List W32) (itf : Nat → List W32 → W64) : Prop where
  lenσ : ∀ x, x.length = 16 → (σ x).length = 16
  cpy : ∀ V voff XY xoff n, n % 4 = 0 → voff + n ≤ V.length → xoff + n ≤ XY.length →
    ops.cpyToV V voff XY xoff n = .ok (ow V voff (sl XY xoff n))
  xor : ∀ XY xoff V voff n, n % 4 = 0 → xoff + n ≤ XY.length → voff + n ≤ V.length →
    ops.xorV XY xoff V voff n = .ok (ow XY xoff (xorL (sl XY xoff n) (sl V voff n)))
  bm : ∀ XY bin bout z r, 0 < r → bin + 32 * r ≤ XY.length → bout + 32 * r ≤ XY.length → z + 16 ≤ XY.length →
    Disj bin (32 * r) bout (32 * r) → Disj bin (32 * r) z 16 → Disj bout (32 * r) z 16 →
    ∃ m', ops.blockmix XY bin bout z r = .ok m' ∧ m'.length = XY.length ∧
      sl m' bout (32 * r) = gBM 16 σ r (sl XY bin (32 * r))
  itg : ∀ XY off r, 0 < r → off + 32 * r ≤ XY.length → ops.integerify XY off r = .ok (itf r (sl XY off (32 * r)))

theorem gen_bm_body (m' : List W32) (bin bout z r k : Nat) (hk : k < r)
    (h1 : bin + 32 * r ≤ m'.length) (h2 : bout + 32 * r ≤ m'.length) (h3 : z + 16 ≤ m'.length)
    (d2 : Disj bin (32 * r) z 16) (d3 : Disj bout (32 * r) z 16) :
    (do
    let i := 2 * k
    let m ← xorWithin m' z (bin + i * 16) 16
    let m ← Gen.salsa20_8 m z
    let m ← cpyWithin m (bout + i * 8) z 16
    let m ← xorWithin m z (bin + i * 16 + 16) 16
    let m ← Gen.salsa20_8 m z
    cpyWithin m (bout + i * 8 + r * 16) z 16) = .ok (stepP 16 salsa20_8_words bin bout z r m' k) := by
  unfold Disj at d2 d3
  unfold stepP
  simp only []
  rw [show bin + 2 * k * 16 = bin + 16 * (2 * k) by omega, show bout + 2 * k * 8 = bout + 16 * k by omega,
    show bin + 16 * (2 * k) + 16 = bin + 16 * (2 * k + 1) by omega, show bout + 16 * k + r * 16 = bout + 16 * (r + k) by omega]
  rw [xorWithin_ok _ _ _ _ (by omega) (by omega) (by omega), Res.bind_ok]
  have l1 := ow_length m' z (xorL (sl m' z 16) (sl m' (bin + 16 * (2 * k)) 16)) (by
    rw [xorL_length _ _ 16 (sl_length _ _ _ (by omega)) (sl_length _ _ _ (by omega))]; omega)
  generalize ow m' z (xorL (sl m' z 16) (sl m' (bin + 16 * (2 * k)) 16)) = m1 at *
  rw [gen_salsa_spec _ _ (by omega), Res.bind_ok]
  have l2 := ow_length m1 z (salsa20_8_words (sl m1 z 16)) (by
    rw [salsa20_8_words_length _ (sl_length _ _ _ (by omega))]; omega)
  generalize ow m1 z (salsa20_8_words (sl m1 z 16)) = m2 at *
  rw [cpyWithin_ok _ _ _ _ (by omega) (by omega), Res.bind_ok]
  have l3 := ow_length m2 (bout + 16 * k) (sl m2 z 16) (by rw [sl_length _ _ _ (by omega)]; omega)
  generalize ow m2 (bout + 16 * k) (sl m2 z 16) = m3 at *
  rw [xorWithin_ok _ _ _ _ (by omega) (by omega) (by omega), Res.bind_ok]
  have l4 := ow_length m3 z (xorL (sl m3 z 16) (sl m3 (bin + 16 * (2 * k + 1)) 16)) (by
    rw [xorL_length _ _ 16 (sl_length _ _ _ (by omega)) (sl_length _ _ _ (by omega))]; omega)
  generalize ow m3 z (xorL (sl m3 z 16) (sl m3 (bin + 16 * (2 * k + 1)) 16)) = m4 at *
  rw [gen_salsa_spec _ _ (by omega), Res.bind_ok]
  have l5 := ow_length m4 z (salsa20_8_words (sl m4 z 16)) (by
    rw [salsa20_8_words_length _ (sl_length _ _ _ (by omega))]; omega)
  generalize ow m4 z (salsa20_8_words (sl m4 z 16)) = m5 at *
  rw [cpyWithin_ok _ _ _ _ (by omega) (by omega)]

theorem salsaP_length (x : List W32) : (salsaP x).length = 16 := perm_length _

theorem sse_bm_body (m' : List W32) (bin bout z r i : Nat) (hk : i < r)
    (h1 : bin + 32 * r ≤ m'.length) (h2 : bout + 32 * r ≤ m'.length) (h3 : z + 16 ≤ m'.length)
    (d2 : Disj bin (32 * r) z 16) (d3 : Disj bout (32 * r) z 16) :
    (do
    let m ← SseSmix.blkxorWithin m' z (bin + 4 * (i * 8)) 16
    let m ← SseSmix.salsa20_8 m z
    let m ← SseSmix.blkcpyWithin m (bout + 4 * (i * 4)) z 16
    let m ← SseSmix.blkxorWithin m z (bin + 4 * (i * 8 + 4)) 16
    let m ← SseSmix.salsa20_8 m z
    SseSmix.blkcpyWithin m (bout + 4 * ((r + i) * 4)) z 16) = .ok (stepP 16 salsaP bin bout z r m' i) := by
  unfold Disj at d2 d3
  unfold stepP
  simp only []
  rw [show bin + 4 * (i * 8) = bin + 16 * (2 * i) by omega, show bout + 4 * (i * 4) = bout + 16 * i by omega,
    show bin + 4 * (i * 8 + 4) = bin + 16 * (2 * i + 1) by omega, show bout + 4 * ((r + i) * 4) = bout + 16 * (r + i) by omega]
  rw [blkxorWithin_ok _ _ _ _ (by omega) (by omega) (by omega) (by omega), Res.bind_ok]
  have l1 := ow_length m' z (xorL (sl m' z 16) (sl m' (bin + 16 * (2 * i)) 16)) (by
    rw [xorL_length _ _ 16 (sl_length _ _ _ (by omega)) (sl_length _ _ _ (by omega))]; omega)
  generalize ow m' z (xorL (sl m' z 16) (sl m' (bin + 16 * (2 * i)) 16)) = m1 at *
  rw [sse_salsa_spec _ _ (by omega), Res.bind_ok]
  have l2 := ow_length m1 z (salsaP (sl m1 z 16)) (by rw [salsaP_length]; omega)
  generalize ow m1 z (salsaP (sl m1 z 16)) = m2 at *
  rw [blkcpyWithin_ok _ _ _ _ (by omega) (by omega) (by omega) (by omega), Res.bind_ok]
  have l3 := ow_length m2 (bout + 16 * i) (sl m2 z 16) (by rw [sl_length _ _ _ (by omega)]; omega)
  generalize ow m2 (bout + 16 * i) (sl m2 z 16) = m3 at *
  rw [blkxorWithin_ok _ _ _ _ (by omega) (by omega) (by omega) (by omega), Res.bind_ok]
  have l4 := ow_length m3 z (xorL (sl m3 z 16) (sl m3 (bin + 16 * (2 * i + 1)) 16)) (by
    rw [xorL_length _ _ 16 (sl_length _ _ _ (by omega)) (sl_length _ _ _ (by omega))]; omega)
  generalize ow m3 z (xorL (sl m3 z 16) (sl m3 (bin + 16 * (2 * i + 1)) 16)) = m4 at *
  rw [sse_salsa_spec _ _ (by omega), Res.bind_ok]
  have l5 := ow_length m4 z (salsaP (sl m4 z 16)) (by rw [salsaP_length]; omega)
  generalize ow m4 z (salsaP (sl m4 z 16)) = m5 at *
  rw [blkcpyWithin_ok _ _ _ _ (by omega) (by omega) (by omega) (by omega)]

/-- Word `1` and word `0` (resp. `13` and `0`) of the last block. -/
def itfW (c : Nat) (r : Nat) (S : List W32) : W64 :=
  ((S.getD (16 * (2 * r - 1) + c) 0).setWidth 64 <<< 32) + (S.getD (16 * (2 * r - 1)) 0).setWidth 64

theorem getD_sl (m : List W32) (o n i : Nat) (h : o + n ≤ m.length) (hi : i < n) :
    m[o + i]? = some ((sl m o n).getD i 0) := by
  rw [List.getD_eq_getElem?_getD, sl_getElem?, if_pos hi, List.getElem?_eq_getElem (by omega), Option.getD_some]

theorem gen_ops_spec : OpsSpec Gen.ops salsa20_8_words (itfW 1) where
  lenσ := fun x h => salsa20_8_words_length x h
  cpy := fun V voff XY xoff n _ h1 h2 => cpyFrom_ok _ _ _ _ _ h1 h2
  xor := fun XY xoff V voff n _ h1 h2 => xorFrom_ok _ _ _ _ _ h1 h2
  bm := by
    intro XY bin bout z r hr h1 h2 h3 d1 d2 d3
    obtain ⟨m', e, hl, hs, _⟩ := blockmix_common (g := 16) (σ := salsa20_8_words) (fun x h => salsa20_8_words_length x h)
      bin bout z r hr XY (by omega) (by omega) h3 (by unfold Disj at *; omega) (by unfold Disj at *; omega)
      (by unfold Disj at *; omega) _ (fun m' k hm hk => gen_bm_body m' bin bout z r k hk (by omega) (by omega) (by omega) d2 d3)
    rw [show 16 * (2 * r) = 32 * r by omega] at hs
    refine ⟨m', ?_, hl, hs⟩
    rw [← e]
    show Gen.blockmix XY bin bout z r = _
    unfold Gen.blockmix
    rw [cpyWithin_ok _ _ _ _ h3 (by omega), Res.bind_ok, show (2 * r - 1) * 16 = 16 * (2 * r - 1) by omega]
  itg := by
    intro XY off r hr h
    show Gen.integerify XY off r = _
    unfold Gen.integerify itfW
    rw [show (2 * r - 1) * 16 = 16 * (2 * r - 1) by omega, Nat.add_assoc off _ 1,
      rd_some (getD_sl XY off (32 * r) (16 * (2 * r - 1) + 1) h (by omega)), Res.bind_ok,
      show off + 16 * (2 * r - 1) + 0 = off + 16 * (2 * r - 1) by omega,
      rd_some (getD_sl XY off (32 * r) (16 * (2 * r - 1)) h (by omega)), Res.bind_ok]
    rfl

theorem V4_of_sl (m : List W32) (o : Nat) (v : V4) (h : [v.l0, v.l1, v.l2, v.l3] = sl m o 4) :
    v.l0 = (sl m o 4).getD 0 0 ∧ v.l1 = (sl m o 4).getD 1 0 := by
  rw [← h]; exact ⟨rfl, rfl⟩

theorem srli4 (v : V4) : (mm_srli_si128 v 4).l0 = v.l1 := by
  obtain ⟨l0, l1, l2, l3⟩ := v
  apply BitVec.eq_of_getLsbD_eq
  intro i hi
  simp only [mm_srli_si128, V4.ofBV, V4.toBV, BitVec.getLsbD_extractLsb', BitVec.getLsbD_ushiftRight,
    BitVec.getLsbD_append, hi, decide_true, Bool.true_and, Nat.zero_add]
  rw [if_neg (by omega), if_pos (by omega)]
  exact congrArg _ (by omega)

theorem sse_ops_spec : OpsSpec SseSmix.ops salsaP (itfW 13) where
  lenσ := fun x _ => salsaP_length x
  cpy := fun V voff XY xoff n hn h1 h2 => blkcpyFrom_ok _ _ _ _ _ hn h1 h2
  xor := fun XY xoff V voff n hn h1 h2 => blkxorFrom_ok _ _ _ _ _ hn h1 h2
  bm := by
    intro XY bin bout z r hr h1 h2 h3 d1 d2 d3
    obtain ⟨m', e, hl, hs, _⟩ := blockmix_common (g := 16) (σ := salsaP) (fun x _ => salsaP_length x)
      bin bout z r hr XY (by omega) (by omega) h3 (by unfold Disj at *; omega) (by unfold Disj at *; omega)
      (by unfold Disj at *; omega) _ (fun m' k hm hk => sse_bm_body m' bin bout z r k hk (by omega) (by omega) (by omega) d2 d3)
    rw [show 16 * (2 * r) = 32 * r by omega] at hs
    refine ⟨m', ?_, hl, hs⟩
    rw [← e]
    show SseSmix.blockmix XY bin bout z r = _
    unfold SseSmix.blockmix
    unfold Disj at *
    rw [blkcpyWithin_ok _ _ _ _ (by omega) h3 (by omega) (by omega), Res.bind_ok, show 4 * (8 * r - 4) = 16 * (2 * r - 1) by omega]
  itg := by
    intro XY off r hr h
    show SseSmix.integerify XY off r = _
    unfold SseSmix.integerify itfW
    obtain ⟨v0, e0, h0⟩ := loadu_sl XY (off + 4 * ((2 * r - 1) * 4) + 4 * 0) (by omega)
    obtain ⟨v3, e3, h3⟩ := loadu_sl XY (off + 4 * ((2 * r - 1) * 4) + 4 * 3) (by omega)
    rw [SseSmix.ld, e0, Res.bind_ok]
    simp only []
    rw [SseSmix.ld, e3, Res.bind_ok, srli4, (V4_of_sl _ _ _ h0).1, (V4_of_sl _ _ _ h3).2]
    rw [Res.pure_eq]
    congr 3
    · congr 1
      rw [List.getD_eq_getElem?_getD, List.getD_eq_getElem?_getD, sl_getElem?, sl_getElem?, if_pos (by omega), if_pos (by omega)]
      congr 2; omega
    · rw [List.getD_eq_getElem?_getD, List.getD_eq_getElem?_getD, sl_getElem?, sl_getElem?, if_pos (by omega), if_pos (by omega)]
      congr 2; omega

/-- The two loops compute ROMix on the word representation. -/
theorem loops_spec {ops : Smix.Ops} {σ : List W32 → List W32} {itf : Nat → List W32 → W64} (H : OpsSpec ops σ itf)
    (r N k : Nat) (hr : 0 < r) (hN : N = 2 ^ k) (hk1 : 1 ≤ k) (hk2 : k ≤ 63) (V XY : List W32)
    (hV : V.length = 32 * r * N) (hXY : XY.length = 64 * r + 16) :
    ∃ V' XY', Smix.loops ops r N V XY = .ok (V', XY') ∧ V'.length = 32 * r * N ∧ XY'.length = 64 * r + 16 ∧
      sl XY' 0 (32 * r) = gRO 16 σ r N (fun S => (itf r S).toNat % N) (sl XY 0 (32 * r)) N := by
  obtain ⟨B, hBd⟩ : ∃ B, B = sl XY 0 (32 * r) := ⟨_, rfl⟩
  have hB : B.length = 16 * (2 * r) := by rw [hBd, sl_length _ _ _ (by omega)]; omega
  have hB' : B.length = 32 * r := by omega
  have hNe : N = 2 * ((N + 1) / 2) := by
    have : 2 ∣ N := by rw [hN]; exact dvd_pow_self 2 (by omega)
    omega
  obtain ⟨h, hh⟩ : ∃ h, h = (N + 1) / 2 := ⟨_, rfl⟩
  have hidx : ∀ i, i < N → i * (32 * r) + 32 * r ≤ V.length := by
    intro i hi
    rw [hV, ← Nat.succ_mul, Nat.mul_comm]
    exact Nat.mul_le_mul_left _ (by omega)
  have hJ : ∀ t : W64, (t &&& (BitVec.ofNat 64 N - 1)).toNat = t.toNat % N := by
    intro t
    rw [BitVec.toNat_and]
    have hlt : 2 ^ k < 2 ^ 64 := Nat.pow_lt_pow_right (by omega) (by omega)
    have hpos : 0 < 2 ^ k := Nat.two_pow_pos k
    have : (BitVec.ofNat 64 N - 1).toNat = 2 ^ k - 1 := by
      rw [BitVec.toNat_sub, BitVec.toNat_ofNat, hN, Nat.mod_eq_of_lt hlt]
      simp only [BitVec.ofNat_eq_ofNat, BitVec.toNat_ofNat, Nat.one_mod]
      omega
    rw [this, Nat.and_two_pow_sub_one_eq_mod, hN]
  have hNpos : 0 < N := by rw [hN]; exact Nat.two_pow_pos k
  have lV := gV_length H.lenσ r B hr hB
  have lRO := gRO_length H.lenσ r N (fun S => (itf r S).toNat % N) B hr hB
  unfold Smix.loops
  simp only []
  rw [← hh]
  -- first loop
  obtain ⟨s1, e1, l1, l2, hx, hv⟩ := forLoop_inv (n := h) (s := (V, XY))
    (f := fun x q => do
      let V ← ops.cpyToV x.1 ((2 * q) * (32 * r)) x.2 0 (32 * r)
      let XY ← ops.blockmix x.2 0 (32 * r) (64 * r) r
      let V ← ops.cpyToV V (((2 * q) + 1) * (32 * r)) XY (32 * r) (32 * r)
      let XY ← ops.blockmix XY (32 * r) 0 (64 * r) r
      return (V, XY))
    (fun q s => s.1.length = V.length ∧ s.2.length = XY.length ∧ sl s.2 0 (32 * r) = gV 16 σ r B (2 * q) ∧
      ∀ i, i < 2 * q → sl s.1 (i * (32 * r)) (32 * r) = gV 16 σ r B i)
    ⟨rfl, rfl, by rw [← hBd]; rfl, by intro i hi; omega⟩ (by
      rintro q ⟨V1, XY1⟩ hq ⟨a1, a2, a3, a4⟩
      simp only at a1 a2 a3 a4 ⊢
      have i0 := hidx (2 * q) (by omega)
      have i1 := hidx (2 * q + 1) (by omega)
      obtain ⟨XY2, b1, b2, b3⟩ := H.bm XY1 0 (32 * r) (64 * r) r hr (by omega) (by omega) (by omega) (by unfold Disj; omega)
        (by unfold Disj; omega) (by unfold Disj; omega)
      obtain ⟨XY3, c1, c2, c3⟩ := H.bm XY2 (32 * r) 0 (64 * r) r hr (by omega) (by omega) (by omega) (by unfold Disj; omega)
        (by unfold Disj; omega) (by unfold Disj; omega)
      have s0 : (sl XY1 0 (32 * r)).length = 32 * r := sl_length _ _ _ (by omega)
      have s1 : (sl XY2 (32 * r) (32 * r)).length = 32 * r := sl_length _ _ _ (by omega)
      have t1 := ow_length V1 (2 * q * (32 * r)) (sl XY1 0 (32 * r)) (by omega)
      have t2 := ow_length (ow V1 (2 * q * (32 * r)) (sl XY1 0 (32 * r))) ((2 * q + 1) * (32 * r)) (sl XY2 (32 * r) (32 * r)) (by omega)
      refine ⟨(ow (ow V1 (2 * q * (32 * r)) (sl XY1 0 (32 * r))) ((2 * q + 1) * (32 * r)) (sl XY2 (32 * r) (32 * r)), XY3), ?_, ?_⟩
      · rw [H.cpy _ _ _ _ _ (by omega) (by omega) (by omega), Res.bind_ok, b1, Res.bind_ok,
          H.cpy _ _ _ _ _ (by omega) (by omega) (by omega), Res.bind_ok, c1, Res.bind_ok]
        rfl
      · refine ⟨t2.trans (t1.trans a1), c2.trans (b2.trans a2), ?_, ?_⟩
        · show sl XY3 0 (32 * r) = _
          rw [c3, b3, a3, show 2 * (q + 1) = 2 * q + 1 + 1 by omega]; rfl
        · intro i hi
          show sl (ow _ _ _) _ _ = _
          have mm : ∀ a b, a < b → a * (32 * r) + 32 * r ≤ b * (32 * r) := by
            intro a b hab; rw [← Nat.succ_mul]; exact Nat.mul_le_mul_right _ hab
          rcases Nat.lt_or_ge i (2 * q + 1) with hi1 | hi1
          · have := mm i (2 * q + 1) hi1
            rw [sl_ow_disj _ _ _ (by omega) _ _ (by omega)]
            rcases Nat.lt_or_ge i (2 * q) with hi2 | hi2
            · have := mm i (2 * q) hi2
              rw [sl_ow_disj _ _ _ (by omega) _ _ (by omega), a4 i hi2]
            · have : i = 2 * q := by omega
              subst this
              rw [sl_ow_same' _ _ _ _ s0 (by omega), a3]
          · have : i = 2 * q + 1 := by omega
            subst this
            rw [sl_ow_same' _ _ _ _ s1 (by omega), b3, a3]; rfl)
  rw [e1, Res.bind_ok]
  obtain ⟨V1, XY1⟩ := s1
  simp only at l1 l2 hx hv
  have hvj : ∀ j, j < N → sl V1 (j * (32 * r)) (32 * r) = gV 16 σ r B j := fun j hj => hv j (by omega)
  -- second loop
  obtain ⟨XY2, e2, m1, m2⟩ := forLoop_inv (n := h) (s := XY1)
    (f := fun XY _ => do
      let t ← ops.integerify XY 0 r
      let XY ← ops.xorV XY 0 V1 ((t &&& (BitVec.ofNat 64 N - 1)).toNat * (32 * r)) (32 * r)
      let XY ← ops.blockmix XY 0 (32 * r) (64 * r) r
      let t ← ops.integerify XY (32 * r) r
      let XY ← ops.xorV XY (32 * r) V1 ((t &&& (BitVec.ofNat 64 N - 1)).toNat * (32 * r)) (32 * r)
      ops.blockmix XY (32 * r) 0 (64 * r) r)
    (fun q s => s.length = XY.length ∧ sl s 0 (32 * r) = gRO 16 σ r N (fun S => (itf r S).toNat % N) B (2 * q))
    ⟨l2, by rw [hx, show 2 * h = N by omega]; rfl⟩ (by
      rintro q XYa hq ⟨a1, a2⟩
      have lS := lRO (2 * q)
      rw [H.itg _ _ _ hr (by omega), Res.bind_ok, hJ, a2]
      generalize hS : gRO 16 σ r N (fun S => (itf r S).toNat % N) B (2 * q) = S at *
      have j0 : (itf r S).toNat % N < N := Nat.mod_lt _ hNpos
      have i0 := hidx _ j0
      rw [H.xor _ _ _ _ _ (by omega) (by omega) (by omega), Res.bind_ok, hvj _ j0, a2]
      have lv0 := lV ((itf r S).toNat % N)
      have lx : (xorL S (gV 16 σ r B ((itf r S).toNat % N))).length = 32 * r := by
        rw [xorL_length _ _ _ lS lv0]; omega
      have w1 := ow_length XYa 0 (xorL S (gV 16 σ r B ((itf r S).toNat % N))) (by omega)
      obtain ⟨XY2, b1, b2, b3⟩ := H.bm (ow XYa 0 (xorL S (gV 16 σ r B ((itf r S).toNat % N)))) 0 (32 * r) (64 * r) r hr
        (by omega) (by omega) (by omega) (by unfold Disj; omega) (by unfold Disj; omega) (by unfold Disj; omega)
      rw [sl_ow_same' _ _ _ _ lx (by omega)] at b3
      have hS1 : sl XY2 (32 * r) (32 * r) = gRO 16 σ r N (fun S => (itf r S).toNat % N) B (2 * q + 1) := by
        rw [b3, gRO, hS]
      have lS1 := lRO (2 * q + 1)
      rw [b1, Res.bind_ok, H.itg _ _ _ hr (by omega), Res.bind_ok, hJ, hS1]
      generalize hSS : gRO 16 σ r N (fun S => (itf r S).toNat % N) B (2 * q + 1) = S1 at *
      have j1 : (itf r S1).toNat % N < N := Nat.mod_lt _ hNpos
      have i1 := hidx _ j1
      rw [H.xor _ _ _ _ _ (by omega) (by omega) (by omega), Res.bind_ok, hvj _ j1, hS1]
      have lv1 := lV ((itf r S1).toNat % N)
      have lx1 : (xorL S1 (gV 16 σ r B ((itf r S1).toNat % N))).length = 32 * r := by
        rw [xorL_length _ _ _ lS1 lv1]; omega
      have w2 := ow_length XY2 (32 * r) (xorL S1 (gV 16 σ r B ((itf r S1).toNat % N))) (by omega)
      obtain ⟨XY3, c1, c2, c3⟩ := H.bm (ow XY2 (32 * r) (xorL S1 (gV 16 σ r B ((itf r S1).toNat % N)))) (32 * r) 0 (64 * r) r hr
        (by omega) (by omega) (by omega) (by unfold Disj; omega) (by unfold Disj; omega) (by unfold Disj; omega)
      rw [sl_ow_same' _ _ _ _ lx1 (by omega)] at c3
      refine ⟨XY3, c1, by omega, ?_⟩
      rw [c3, show 2 * (q + 1) = 2 * q + 1 + 1 by omega, gRO, hSS])
  rw [e2, Res.bind_ok]
  refine ⟨V1, XY2, rfl, by omega, by omega, ?_⟩
  rw [← hBd, m2, show 2 * h = N by omega]

end Scrypt
