import Verif.Proofs.AccessOps
/-
The two loops of the mixing routines, with what they access.
-/
namespace Scrypt
open Spec Logged

theorem range_pairs (g : Nat → List Acc) : ∀ h, (List.range (2 * h)).flatMap g = (List.range h).flatMap fun q => g (2 * q) ++ g (2 * q + 1)
  | 0 => rfl
  | h + 1 => by
    rw [Nat.mul_succ, show 2 * h + 2 = 2 * h + 1 + 1 by omega, List.range_succ, List.range_succ, List.flatMap_append, List.flatMap_append, range_pairs g h,
      List.range_succ, List.flatMap_append, List.flatMap_singleton, List.flatMap_singleton, List.flatMap_singleton, List.append_assoc]

section
variable {opsT : Smix.OpsT} {ops : Smix.Ops} {cp xo : Nat → Nat → Nat → List Acc} {bm : Nat → Nat → Nat → Nat → List Acc} {ig : Nat → Nat → List Acc}

/-- Turn `i` of the first loop: X or Y is stored in V and mixed into the other. -/
def trFill (cp : Nat → Nat → Nat → List Acc) (bm : Nat → Nat → Nat → Nat → List Acc) (r i : Nat) : List Acc :=
  if i % 2 = 0 then cp (i * (32 * r)) 0 (32 * r) ++ bm 0 (32 * r) (64 * r) r
  else cp (i * (32 * r)) (32 * r) (32 * r) ++ bm (32 * r) 0 (64 * r) r

/-- Turn `i` of the second loop, which visits block `j` of V. -/
def trVisit (xo : Nat → Nat → Nat → List Acc) (bm : Nat → Nat → Nat → Nat → List Acc) (ig : Nat → Nat → List Acc) (r i j : Nat) : List Acc :=
  if i % 2 = 0 then ig 0 r ++ (xo 0 (j * (32 * r)) (32 * r) ++ bm 0 (32 * r) (64 * r) r)
  else ig (32 * r) r ++ (xo (32 * r) (j * (32 * r)) (32 * r) ++ bm (32 * r) 0 (64 * r) r)

theorem loopsT_spec (T : OpsTSpec opsT ops cp xo bm ig) {σ : List W32 → List W32} {itf : Nat → List W32 → W64} (H : OpsSpec ops σ itf)
    (r N k : Nat) (hr : 0 < r) (hN : N = 2 ^ k) (hk1 : 1 ≤ k) (hk2 : k ≤ 63) (V XY : List W32)
    (hV : V.length = 32 * r * N) (hXY : XY.length = 64 * r + 16) :
    ∃ V' XY', Smix.loopsT opsT r N V XY = Res.ok ((V', XY'), (List.range N).flatMap (trFill cp bm r) ++
        (List.range N).flatMap fun i => trVisit xo bm ig r i ((itf r (gRO 16 σ r N (fun S => (itf r S).toNat % N) (sl XY 0 (32 * r)) i)).toNat % N)) ∧
      V'.length = 32 * r * N ∧ XY'.length = 64 * r + 16 := by
  obtain ⟨B, hBd⟩ : ∃ B, B = sl XY 0 (32 * r) := ⟨_, rfl⟩
  have hB : B.length = 16 * (2 * r) := by rw [hBd, sl_length _ _ _ (by omega)]; omega
  have hB' : B.length = 32 * r := by omega
  have hNe : N = 2 * ((N + 1) / 2) := by
    have : 2 ∣ N := by rw [hN]; exact dvd_pow_self 2 (by omega)
    omega
  obtain ⟨h, hh⟩ : ∃ h, h = (N + 1) / 2 := ⟨_, rfl⟩
  have hidx : ∀ i, i < N → i * (32 * r) + 32 * r ≤ V.length := by
    intro i hi
    rw [hV, ← Nat.succ_mul, Nat.mul_comm]
    exact Nat.mul_le_mul_left _ (by omega)
  have hJ : ∀ t : W64, (t &&& (BitVec.ofNat 64 N - 1)).toNat = t.toNat % N := by
    intro t
    rw [BitVec.toNat_and]
    have hlt : 2 ^ k < 2 ^ 64 := Nat.pow_lt_pow_right (by omega) (by omega)
    have hpos : 0 < 2 ^ k := Nat.two_pow_pos k
    have : (BitVec.ofNat 64 N - 1).toNat = 2 ^ k - 1 := by
      rw [BitVec.toNat_sub, BitVec.toNat_ofNat, hN, Nat.mod_eq_of_lt hlt]
      simp only [BitVec.ofNat_eq_ofNat, BitVec.toNat_ofNat, Nat.one_mod]
      omega
    rw [this, Nat.and_two_pow_sub_one_eq_mod, hN]
  have hNpos : 0 < N := by rw [hN]; exact Nat.two_pow_pos k
  have lV := gV_length H.lenσ r B hr hB
  have lRO := gRO_length H.lenσ r N (fun S => (itf r S).toNat % N) B hr hB
  rw [← hBd]
  unfold Smix.loopsT
  simp only []
  rw [← hh]
  -- first loop
  obtain ⟨s1, e1, l1, l2, hx, hv⟩ := forLoopT_inv (n := h) (s := (V, XY))
    (f := fun x q => do
      let V ← opsT.cpyToV x.1 ((2 * q) * (32 * r)) x.2 0 (32 * r)
      let XY ← opsT.blockmix x.2 0 (32 * r) (64 * r) r
      let V ← opsT.cpyToV V (((2 * q) + 1) * (32 * r)) XY (32 * r) (32 * r)
      let XY ← opsT.blockmix XY (32 * r) 0 (64 * r) r
      return (V, XY))
    (fun q s => s.1.length = V.length ∧ s.2.length = XY.length ∧ sl s.2 0 (32 * r) = gV 16 σ r B (2 * q) ∧
      ∀ i, i < 2 * q → sl s.1 (i * (32 * r)) (32 * r) = gV 16 σ r B i)
    (fun q => cp (2 * q * (32 * r)) 0 (32 * r) ++ (bm 0 (32 * r) (64 * r) r ++ (cp ((2 * q + 1) * (32 * r)) (32 * r) (32 * r) ++ (bm (32 * r) 0 (64 * r) r ++ []))))
    ⟨rfl, rfl, by rw [← hBd]; rfl, by intro i hi; omega⟩ (by
      rintro q ⟨V1, XY1⟩ hq ⟨a1, a2, a3, a4⟩
      simp only at a1 a2 a3 a4 ⊢
      have i0 := hidx (2 * q) (by omega)
      have i1 := hidx (2 * q + 1) (by omega)
      obtain ⟨XY2, b1, b2, b3⟩ := H.bm XY1 0 (32 * r) (64 * r) r hr (by omega) (by omega) (by omega) (by unfold Disj; omega)
        (by unfold Disj; omega) (by unfold Disj; omega)
      obtain ⟨XY3, c1, c2, c3⟩ := H.bm XY2 (32 * r) 0 (64 * r) r hr (by omega) (by omega) (by omega) (by unfold Disj; omega)
        (by unfold Disj; omega) (by unfold Disj; omega)
      have s0 : (sl XY1 0 (32 * r)).length = 32 * r := sl_length _ _ _ (by omega)
      have s1 : (sl XY2 (32 * r) (32 * r)).length = 32 * r := sl_length _ _ _ (by omega)
      have t1 := ow_length V1 (2 * q * (32 * r)) (sl XY1 0 (32 * r)) (by omega)
      have t2 := ow_length (ow V1 (2 * q * (32 * r)) (sl XY1 0 (32 * r))) ((2 * q + 1) * (32 * r)) (sl XY2 (32 * r) (32 * r)) (by omega)
      refine ⟨(ow (ow V1 (2 * q * (32 * r)) (sl XY1 0 (32 * r))) ((2 * q + 1) * (32 * r)) (sl XY2 (32 * r) (32 * r)), XY3), ?_, ?_⟩
      · refine tr_bind (tr_of ((T.eCpy _ _ _ _ _).trans (H.cpy _ _ _ _ _ (by omega) (by omega) (by omega))) (T.tCpy _ _ _ _ _)) ?_
        refine tr_bind (tr_of ((T.eBm _ _ _ _ _).trans b1) (T.tBm _ _ _ _ _)) ?_
        refine tr_bind (tr_of ((T.eCpy _ _ _ _ _).trans (H.cpy _ _ _ _ _ (by omega) (by omega) (by omega))) (T.tCpy _ _ _ _ _)) ?_
        refine tr_bind (tr_of ((T.eBm _ _ _ _ _).trans c1) (T.tBm _ _ _ _ _)) ?_
        rfl
      · refine ⟨t2.trans (t1.trans a1), c2.trans (b2.trans a2), ?_, ?_⟩
        · show sl XY3 0 (32 * r) = _
          rw [c3, b3, a3, show 2 * (q + 1) = 2 * q + 1 + 1 by omega]; rfl
        · intro i hi
          show sl (ow _ _ _) _ _ = _
          have mm : ∀ a b, a < b → a * (32 * r) + 32 * r ≤ b * (32 * r) := by
            intro a b hab; rw [← Nat.succ_mul]; exact Nat.mul_le_mul_right _ hab
          rcases Nat.lt_or_ge i (2 * q + 1) with hi1 | hi1
          · have := mm i (2 * q + 1) hi1
            rw [sl_ow_disj _ _ _ (by omega) _ _ (by omega)]
            rcases Nat.lt_or_ge i (2 * q) with hi2 | hi2
            · have := mm i (2 * q) hi2
              rw [sl_ow_disj _ _ _ (by omega) _ _ (by omega), a4 i hi2]
            · have : i = 2 * q := by omega
              subst this
              rw [sl_ow_same' _ _ _ _ s0 (by omega), a3]
          · have : i = 2 * q + 1 := by omega
            subst this
            rw [sl_ow_same' _ _ _ _ s1 (by omega), b3, a3]; rfl)
  obtain ⟨V1, XY1⟩ := s1
  simp only at l1 l2 hx hv
  have hvj : ∀ j, j < N → sl V1 (j * (32 * r)) (32 * r) = gV 16 σ r B j := fun j hj => hv j (by omega)
  obtain ⟨g, hg⟩ : ∃ g, g = gRO 16 σ r N (fun S => (itf r S).toNat % N) B := ⟨_, rfl⟩
  -- second loop
  obtain ⟨XY2, e2, m1, m2⟩ := forLoopT_inv (n := h) (s := XY1)
    (f := fun XY _ => do
      let t ← opsT.integerify XY 0 r
      let XY ← opsT.xorV XY 0 V1 ((t &&& (BitVec.ofNat 64 N - 1)).toNat * (32 * r)) (32 * r)
      let XY ← opsT.blockmix XY 0 (32 * r) (64 * r) r
      let t ← opsT.integerify XY (32 * r) r
      let XY ← opsT.xorV XY (32 * r) V1 ((t &&& (BitVec.ofNat 64 N - 1)).toNat * (32 * r)) (32 * r)
      opsT.blockmix XY (32 * r) 0 (64 * r) r)
    (fun q s => s.length = XY.length ∧ sl s 0 (32 * r) = g (2 * q))
    (fun q => ig 0 r ++ (xo 0 ((itf r (g (2 * q))).toNat % N * (32 * r)) (32 * r) ++ (bm 0 (32 * r) (64 * r) r ++ (ig (32 * r) r ++
      (xo (32 * r) ((itf r (g (2 * q + 1))).toNat % N * (32 * r)) (32 * r) ++ bm (32 * r) 0 (64 * r) r)))))
    ⟨l2, by rw [hg, hx, show 2 * h = N by omega]; rfl⟩ (by
      rintro q XYa hq ⟨a1, a2⟩
      have lS : (g (2 * q)).length = 16 * (2 * r) := by rw [hg]; exact lRO (2 * q)
      have lS1 : (g (2 * q + 1)).length = 16 * (2 * r) := by rw [hg]; exact lRO (2 * q + 1)
      have gs : ∀ i, g (i + 1) = gBM 16 σ r (xorL (g i) (gV 16 σ r B ((itf r (g i)).toNat % N))) := by
        intro i; rw [hg]; rfl
      have j0 : (itf r (g (2 * q))).toNat % N < N := Nat.mod_lt _ hNpos
      have i0 := hidx _ j0
      have lv0 := lV ((itf r (g (2 * q))).toNat % N)
      have lx : (xorL (g (2 * q)) (gV 16 σ r B ((itf r (g (2 * q))).toNat % N))).length = 32 * r := by
        rw [xorL_length _ _ _ lS lv0]; omega
      have w1 := ow_length XYa 0 (xorL (g (2 * q)) (gV 16 σ r B ((itf r (g (2 * q))).toNat % N))) (by omega)
      obtain ⟨XY2, b1, b2, b3⟩ := H.bm (ow XYa 0 (xorL (g (2 * q)) (gV 16 σ r B ((itf r (g (2 * q))).toNat % N)))) 0 (32 * r) (64 * r) r hr
        (by omega) (by omega) (by omega) (by unfold Disj; omega) (by unfold Disj; omega) (by unfold Disj; omega)
      rw [sl_ow_same' _ _ _ _ lx (by omega), ← gs] at b3
      have j1 : (itf r (g (2 * q + 1))).toNat % N < N := Nat.mod_lt _ hNpos
      have i1 := hidx _ j1
      have lv1 := lV ((itf r (g (2 * q + 1))).toNat % N)
      have lx1 : (xorL (g (2 * q + 1)) (gV 16 σ r B ((itf r (g (2 * q + 1))).toNat % N))).length = 32 * r := by
        rw [xorL_length _ _ _ lS1 lv1]; omega
      have w2 := ow_length XY2 (32 * r) (xorL (g (2 * q + 1)) (gV 16 σ r B ((itf r (g (2 * q + 1))).toNat % N))) (by omega)
      obtain ⟨XY3, c1, c2, c3⟩ := H.bm (ow XY2 (32 * r) (xorL (g (2 * q + 1)) (gV 16 σ r B ((itf r (g (2 * q + 1))).toNat % N)))) (32 * r) 0 (64 * r) r hr
        (by omega) (by omega) (by omega) (by unfold Disj; omega) (by unfold Disj; omega) (by unfold Disj; omega)
      rw [sl_ow_same' _ _ _ _ lx1 (by omega), ← gs] at c3
      have x0 := H.xor XYa 0 V1 ((itf r (g (2 * q))).toNat % N * (32 * r)) (32 * r) (by omega) (by omega) (by omega)
      rw [hvj _ j0, a2] at x0
      have x1 := H.xor XY2 (32 * r) V1 ((itf r (g (2 * q + 1))).toNat % N * (32 * r)) (32 * r) (by omega) (by omega) (by omega)
      rw [hvj _ j1, b3] at x1
      have g0 := H.itg XYa 0 r hr (by omega)
      have g1 := H.itg XY2 (32 * r) r hr (by omega)
      rw [a2] at g0
      rw [b3] at g1
      refine ⟨XY3, ?_, by omega, by rw [c3]; rfl⟩
      refine tr_bind (tr_of ((T.eIg _ _ _).trans g0) (T.tIg _ _ _)) ?_
      rw [hJ]
      refine tr_bind (tr_of ((T.eXor _ _ _ _ _).trans x0) (T.tXor _ _ _ _ _)) ?_
      refine tr_bind (tr_of ((T.eBm _ _ _ _ _).trans b1) (T.tBm _ _ _ _ _)) ?_
      refine tr_bind (tr_of ((T.eIg _ _ _).trans g1) (T.tIg _ _ _)) ?_
      rw [hJ]
      refine tr_bind (tr_of ((T.eXor _ _ _ _ _).trans x1) (T.tXor _ _ _ _ _)) ?_
      exact tr_of ((T.eBm _ _ _ _ _).trans c1) (T.tBm _ _ _ _ _))
  refine ⟨V1, XY2, ?_, by omega, by omega⟩
  have F1 : (List.range N).flatMap (trFill cp bm r) = (List.range h).flatMap fun q => cp (2 * q * (32 * r)) 0 (32 * r) ++ (bm 0 (32 * r) (64 * r) r ++
      (cp ((2 * q + 1) * (32 * r)) (32 * r) (32 * r) ++ (bm (32 * r) 0 (64 * r) r ++ []))) := by
    rw [hNe, ← hh, range_pairs]
    congr 1
    funext q
    unfold trFill
    rw [if_pos (by omega), if_neg (by omega), List.append_nil, List.append_assoc]
  have F2 : ((List.range N).flatMap fun i => trVisit xo bm ig r i ((itf r (g i)).toNat % N)) = (List.range h).flatMap fun q =>
      ig 0 r ++ (xo 0 ((itf r (g (2 * q))).toNat % N * (32 * r)) (32 * r) ++ (bm 0 (32 * r) (64 * r) r ++ (ig (32 * r) r ++
      (xo (32 * r) ((itf r (g (2 * q + 1))).toNat % N * (32 * r)) (32 * r) ++ bm (32 * r) 0 (64 * r) r)))) := by
    rw [show List.range N = List.range (2 * h) by rw [hh, ← hNe], range_pairs]
    congr 1
    funext q
    unfold trVisit
    rw [if_pos (by omega), if_neg (by omega)]
    simp only [List.append_assoc]
  rw [← hg, F1, F2]
  refine tr_bind e1 ?_
  rw [← List.append_nil ((List.range h).flatMap fun q =>
      ig 0 r ++ (xo 0 ((itf r (g (2 * q))).toNat % N * (32 * r)) (32 * r) ++ (bm 0 (32 * r) (64 * r) r ++ (ig (32 * r) r ++
      (xo (32 * r) ((itf r (g (2 * q + 1))).toNat % N * (32 * r)) (32 * r) ++ bm (32 * r) 0 (64 * r) r)))))]
  exact tr_bind e2 rfl

theorem onV_fill (T : OpsTSpec opsT ops cp xo bm ig) (r i : Nat) : onV (trFill cp bm r i) = accs .V true (i * (32 * r)) (32 * r) := by
  unfold trFill
  split <;> rw [onV_append, T.vCpy _ _ _ (by omega), T.vBm, List.append_nil]

theorem onV_visit (T : OpsTSpec opsT ops cp xo bm ig) (r i j : Nat) : onV (trVisit xo bm ig r i j) = accs .V false (j * (32 * r)) (32 * r) := by
  unfold trVisit
  split <;> rw [onV_append, onV_append, T.vIg, T.vXor _ _ _ (by omega), T.vBm, List.append_nil, List.nil_append]

end

end Scrypt
