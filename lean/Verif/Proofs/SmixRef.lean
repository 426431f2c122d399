import Verif.Proofs.SmixBytes
namespace Scrypt
open Spec

theorem zip_add_cells (b x : List W32) (n : Nat) (hb : b.length = n) (hx : x.length = n) :
    forLoop n (fun B32 i => do
      let b ← rd B32 i
      let xi ← rd x i
      wr B32 i (b + xi)) b = .ok (List.zipWith (· + ·) b x) := by
  have := forLoop_zipWith (· + ·) b x n (by omega) (by omega)
  rw [this, List.take_of_length_le (by omega), List.take_of_length_le (by omega), List.drop_of_length_le (by omega), List.append_nil]

theorem ref_salsa_spec (B : Bytes) (h : B.length = 64) : Ref.salsa20_8 B = .ok (salsa20_8 B) := by
  have hW := leWords_length 16 B
  have ld := load_loop B 16 (List.replicate 16 0) (by omega) (by simp)
  have sto := store_loop (salsa20_8_words (leWords 16 B)) 16 B (by omega) (by rw [salsa20_8_words_length _ hW])
  have hz := zip_add_cells (leWords 16 B) (dr4 (leWords 16 B)) 16 hW (dr4_length _ hW)
  unfold Ref.salsa20_8
  simp only [Nat.mul_comm _ 4]
  rw [ld, Res.bind_ok, ow_full _ _ (by simp [hW]), rounds8_spec _ hW, Res.bind_ok, hz, Res.bind_ok]
  have e : List.zipWith (· + ·) (leWords 16 B) (dr4 (leWords 16 B)) = salsa20_8_words (leWords 16 B) := rfl
  rw [e, sto, sl_full _ _ (salsa20_8_words_length _ hW)]
  rfl

theorem ref_blockmix_spec (m : Bytes) (b y r : Nat) (hr : 0 < r) (h1 : b + 128 * r ≤ m.length) (h2 : y + 128 * r ≤ m.length)
    (d : Disj b (128 * r) y (128 * r)) :
    ∃ m', Ref.blockmix m b y r = .ok m' ∧ m'.length = m.length ∧ sl m' b (128 * r) = blockMix r (sl m b (128 * r)) := by
  obtain ⟨B, hBd⟩ : ∃ B, B = sl m b (128 * r) := ⟨_, rfl⟩
  have hB : B.length = 64 * (2 * r) := by rw [hBd, sl_length _ _ _ h1]; omega
  unfold Disj at d
  have hblk : ∀ i, i < 2 * r → sl m (b + i * 64) 64 = sl B (64 * i) 64 := by
    intro i hi
    rw [hBd, sl_sl _ _ _ _ _ (by omega), Nat.mul_comm i 64]
  have lτ := salsa_hom.lenτ
  have lX := gX_length lτ r B hr hB
  rw [blockMix_eq, ← hBd]
  unfold Ref.blockmix
  rw [rdSlice_sl (by omega), Res.bind_ok, hblk _ (by omega)]
  obtain ⟨⟨X1, m1⟩, e, ha1, ha2, ha3, ha4⟩ := forLoop_inv (n := 2 * r) (s := (sl B (64 * (2 * r - 1)) 64, m))
    (f := fun x i => do
      let X ← xorFrom x.1 0 x.2 (b + i * 64) 64
      let X ← Ref.salsa20_8 X
      let m ← wrSlice x.2 (y + i * 64) X
      return (X, m))
    (fun i s => s.1 = gX 64 salsa20_8 r B i ∧ s.2.length = m.length ∧
      (∀ j, j < i → sl s.2 (y + 64 * j) 64 = gX 64 salsa20_8 r B (j + 1)) ∧
      (∀ x, (x < y ∨ y + 128 * r ≤ x) → s.2[x]? = m[x]?))
    ⟨rfl, rfl, by intro j hj; omega, fun _ _ => rfl⟩ (by
      rintro i ⟨X, m'⟩ hi ⟨e1, e2, e3, e4⟩
      simp only at e1 e2 e3 e4 ⊢
      subst e1
      have lx := lX i (by omega)
      have hs : sl m' (b + i * 64) 64 = sl B (64 * i) 64 := by
        rw [← hblk i hi]
        exact sl_ext _ _ _ _ _ (fun j hj => e4 _ (by omega))
      have lb := sl_grp_length B 64 (2 * r) i hB hi
      have lxx := xorL_length _ _ _ lx lb
      rw [xorFrom_ok _ _ _ _ _ (by omega) (by omega), Res.bind_ok, sl_full _ _ lx, hs, ow_full _ _ (by omega),
        ref_salsa_spec _ lxx, Res.bind_ok]
      have ly : (salsa20_8 (xorL (gX 64 salsa20_8 r B i) (sl B (64 * i) 64))).length = 64 := lX (i + 1) (by omega)
      rw [wrSlice_ow (by omega), Res.bind_ok]
      refine ⟨_, rfl, rfl, ?_, ?_, ?_⟩
      · rw [ow_length _ _ _ (by omega), e2]
      · intro j hj
        rcases Nat.lt_or_ge j i with hji | hji
        · show sl (ow _ _ _) _ _ = _
          rw [sl_ow_disj _ _ _ (by omega) _ _ (by omega), e3 j hji]
        · have : j = i := by omega
          subst this
          show sl (ow _ _ _) _ _ = _
          rw [Nat.mul_comm j 64, sl_ow_same' _ _ _ _ ly (by omega)]; rfl
      · intro x hx
        show (ow _ _ _)[x]? = _
        rw [ow_getElem? _ _ _ (by omega), if_neg (by omega), e4 x hx])
  rw [e, Res.bind_ok]
  simp only at ha1 ha2 ha3 ha4 ⊢
  have f1 : ∀ i, i < r → (gX 64 salsa20_8 r B (2 * i + 1)).length = 64 := fun i hi => lX _ (by omega)
  have f2 : ∀ i, i < r → (gX 64 salsa20_8 r B (2 * i + 2)).length = 64 := fun i hi => lX _ (by omega)
  rw [loop_groups b 64 r m1 (fun i => gX 64 salsa20_8 r B (2 * i + 1)) _ (by omega) f1 (by
    intro k m' hk hm hrest
    have : sl m' (y + k * 2 * 64) 64 = gX 64 salsa20_8 r B (2 * k + 1) := by
      rw [← ha3 (2 * k) (by omega), show k * 2 * 64 = 64 * (2 * k) by omega]
      exact sl_ext _ _ _ _ _ (fun j hj => hrest _ (by omega))
    rw [cpyWithin_ok _ _ _ _ (by omega) (by omega), this, Nat.mul_comm k 64]), Res.bind_ok]
  have lf1 := flatMap_range_length (fun i => gX 64 salsa20_8 r B (2 * i + 1)) 64 r f1
  have lf2 := flatMap_range_length (fun i => gX 64 salsa20_8 r B (2 * i + 2)) 64 r f2
  have lo := ow_length m1 b ((List.range r).flatMap fun i => gX 64 salsa20_8 r B (2 * i + 1)) (by omega)
  rw [loop_groups (b + 64 * r) 64 r _ (fun i => gX 64 salsa20_8 r B (2 * i + 2)) _ (by omega) f2 (by
    intro k m' hk hm hrest
    have : sl m' (y + (k * 2 + 1) * 64) 64 = gX 64 salsa20_8 r B (2 * k + 2) := by
      rw [← ha3 (2 * k + 1) (by omega), show (k * 2 + 1) * 64 = 64 * (2 * k + 1) by omega]
      apply sl_ext
      intro j hj
      rw [hrest _ (by omega), ow_getElem? _ _ _ (by omega), if_neg (by omega)]
    rw [cpyWithin_ok _ _ _ _ (by omega) (by omega), this, show b + (k + r) * 64 = b + 64 * r + 64 * k by omega])]
  rw [ow_ow_adj _ _ _ _ _ (by omega) (by omega)]
  have hg : gBM 64 salsa20_8 r B = ((List.range r).flatMap fun i => gX 64 salsa20_8 r B (2 * i + 1)) ++
    ((List.range r).flatMap fun i => gX 64 salsa20_8 r B (2 * i + 2)) := rfl
  rw [← hg]
  have lg := gBM_length lτ r B hr hB
  refine ⟨_, rfl, ?_, ?_⟩
  · rw [ow_length _ _ _ (by omega), ha2]
  · exact sl_ow_same' _ _ _ _ (by omega) (by omega)

theorem le64dec_ok (B : Bytes) (o : Nat) (h : o + 8 ≤ B.length) :
    le64dec (B.drop o) = .ok (BitVec.ofNat 64 (leVal ((B.drop o).take 8))) := by
  have hl : 8 ≤ (B.drop o).length := by rw [List.length_drop]; omega
  match hB : B.drop o, hl with
  | a :: b :: c :: d :: e :: f :: g :: i :: t, _ => rw [le64dec_eq]; rfl

/-- `j = integerify(X) & (N - 1)` -/
theorem mask_mod (k : Nat) (hk2 : k ≤ 63) (t : W64) :
    (t &&& (BitVec.ofNat 64 (2 ^ k) - 1)).toNat = t.toNat % 2 ^ k := by
  rw [BitVec.toNat_and]
  have hlt : 2 ^ k < 2 ^ 64 := Nat.pow_lt_pow_right (by omega) (by omega)
  have hpos : 0 < 2 ^ k := Nat.two_pow_pos k
  have : (BitVec.ofNat 64 (2 ^ k) - 1).toNat = 2 ^ k - 1 := by
    rw [BitVec.toNat_sub, BitVec.toNat_ofNat, Nat.mod_eq_of_lt hlt]
    simp only [BitVec.ofNat_eq_ofNat, BitVec.toNat_ofNat, Nat.one_mod]
    omega
  rw [this, Nat.and_two_pow_sub_one_eq_mod]

theorem ref_integerify (m : Bytes) (r k : Nat) (hr : 0 < r) (hk : k ≤ 63) (b : Nat) (h : b + 128 * r ≤ m.length) :
    ∃ t : W64, Ref.integerify m b r = .ok t ∧ t.toNat % 2 ^ k = Spec.integerify r (sl m b (128 * r)) % 2 ^ k := by
  refine ⟨_, le64dec_ok m _ (by omega), ?_⟩
  have e : blk64 (sl m b (128 * r)) (2 * r - 1) = sl m (b + (2 * r - 1) * 64) 64 := by
    show sl (sl m b (128 * r)) (64 * (2 * r - 1)) 64 = _
    rw [sl_sl _ _ _ _ _ (by omega), Nat.mul_comm 64]
  have e8 : (m.drop (b + (2 * r - 1) * 64)).take 8 = sl m (b + (2 * r - 1) * 64) 8 := rfl
  rw [Spec.integerify, e, e8, show (64 : Nat) = 8 + 56 from rfl, sl_append, leVal_append,
    sl_length _ _ 8 (by omega), BitVec.toNat_ofNat]
  have h8 := leVal_lt (sl m (b + (2 * r - 1) * (8 + 56)) 8)
  rw [sl_length _ _ 8 (by omega)] at h8
  rw [Nat.mod_eq_of_lt (a := leVal _) (by omega)]
  have p : 256 ^ 8 = 2 ^ k * 2 ^ (64 - k) := by rw [← Nat.pow_add, show k + (64 - k) = 64 by omega]; rfl
  rw [p, Nat.mul_assoc, Nat.add_mul_mod_self_left]

theorem smix_ref_spec (B : Bytes) (r N k : Nat) (hr : 0 < r) (hN : N = 2 ^ k) (hk2 : k ≤ 63) (V XY : Bytes)
    (hB : B.length = 128 * r) (hV : V.length = 128 * r * N) (hXY : XY.length = 256 * r) :
    ∃ V' XY', Ref.smix B r N V XY = .ok (roMix r N B, V', XY') ∧ V'.length = 128 * r * N ∧ XY'.length = 256 * r := by
  have lτ := salsa_hom.lenτ
  have hNpos : 0 < N := by rw [hN]; exact Nat.two_pow_pos k
  have hB2 : B.length = 64 * (2 * r) := by omega
  have lV : ∀ i, (roMixV r B i).length = 128 * r := by
    intro i; rw [roMixV_eq, gV_length lτ r B hr hB2]; omega
  have lX : ∀ i, (roMixX r N B i).length = 128 * r := by
    intro i; rw [roMixX_eq, gRO_length lτ r N _ B hr hB2]; omega
  have hidx : ∀ i, i < N → i * (128 * r) + 128 * r ≤ V.length := by
    intro i hi
    rw [hV, ← Nat.succ_mul, Nat.mul_comm]
    exact Nat.mul_le_mul_left _ (by omega)
  have l0 := ow_length XY 0 B (by omega)
  unfold Ref.smix
  simp only []
  rw [cpyFrom_ok _ _ _ _ _ (by omega) (by omega), Res.bind_ok, sl_full _ _ hB]
  obtain ⟨⟨V1, XY1⟩, e1, a1, a2, a3, a4⟩ := forLoop_inv (n := N) (s := (V, ow XY 0 B))
    (f := fun x i => do
      let V ← cpyFrom x.1 (i * (128 * r)) x.2 0 (128 * r)
      let XY ← Ref.blockmix x.2 0 (128 * r) r
      return (V, XY))
    (fun i s => s.1.length = V.length ∧ s.2.length = XY.length ∧ sl s.2 0 (128 * r) = roMixV r B i ∧
      ∀ j, j < i → sl s.1 (j * (128 * r)) (128 * r) = roMixV r B j)
    ⟨rfl, l0, sl_ow_same' _ _ _ _ hB (by omega), by intro j hj; omega⟩ (by
      rintro i ⟨V1, XY1⟩ hi ⟨a1, a2, a3, a4⟩
      simp only at a1 a2 a3 a4 ⊢
      have i0 := hidx i hi
      obtain ⟨XY2, b1, b2, b3⟩ := ref_blockmix_spec XY1 0 (128 * r) r hr (by omega) (by omega) (by unfold Disj; omega)
      have lv := lV i
      have t := ow_length V1 (i * (128 * r)) (roMixV r B i) (by omega)
      rw [cpyFrom_ok _ _ _ _ _ (by omega) (by omega), Res.bind_ok, b1, Res.bind_ok, a3]
      refine ⟨_, rfl, t.trans a1, b2.trans a2, ?_, ?_⟩
      · show sl XY2 0 _ = _
        rw [b3, a3]; rfl
      · intro j hj
        show sl (ow _ _ _) _ _ = _
        have mm : ∀ a b, a < b → a * (128 * r) + 128 * r ≤ b * (128 * r) := by
          intro a b hab; rw [← Nat.succ_mul]; exact Nat.mul_le_mul_right _ hab
        rcases Nat.lt_or_ge j i with hji | hji
        · have := mm j i hji
          rw [sl_ow_disj _ _ _ (by omega) _ _ (by omega), a4 j hji]
        · have : j = i := by omega
          subst this
          rw [sl_ow_same' _ _ _ _ lv (by omega)])
  rw [e1, Res.bind_ok]
  simp only at a1 a2 a3 a4 ⊢
  obtain ⟨XY2, e2, b1, b2⟩ := forLoop_inv (n := N) (s := XY1)
    (f := fun XY _ => do
      let t ← Ref.integerify XY 0 r
      let XY ← xorFrom XY 0 V1 ((t &&& (BitVec.ofNat 64 N - 1)).toNat * (128 * r)) (128 * r)
      Ref.blockmix XY 0 (128 * r) r)
    (fun i s => s.length = XY.length ∧ sl s 0 (128 * r) = roMixX r N B i)
    ⟨a2, a3⟩ (by
      rintro i XYa hi ⟨c1, c2⟩
      obtain ⟨t, et, ht⟩ := ref_integerify XYa r k hr hk2 0 (by omega)
      rw [c2] at ht
      have lS := lX i
      have j0 : t.toNat % N < N := Nat.mod_lt _ hNpos
      have i0 := hidx _ j0
      rw [et, Res.bind_ok]
      have hm : (t &&& (BitVec.ofNat 64 N - 1)).toNat = t.toNat % N := by rw [hN]; exact mask_mod k hk2 t
      rw [hm, xorFrom_ok _ _ _ _ _ (by omega) (by omega), Res.bind_ok, a4 _ j0, c2]
      rw [← hN] at ht
      rw [ht]
      have lv := lV (Spec.integerify r (roMixX r N B i) % N)
      have lx := xorL_length _ _ _ lS lv
      have w := ow_length XYa 0 (xorL (roMixX r N B i) (roMixV r B (Spec.integerify r (roMixX r N B i) % N))) (by omega)
      obtain ⟨XY3, d1, d2, d3⟩ := ref_blockmix_spec (ow XYa 0 (xorL (roMixX r N B i) (roMixV r B (Spec.integerify r (roMixX r N B i) % N))))
        0 (128 * r) r hr (by omega) (by omega) (by unfold Disj; omega)
      rw [sl_ow_same' _ _ _ _ lx (by omega)] at d3
      exact ⟨XY3, d1, by omega, d3⟩)
  rw [e2, Res.bind_ok, cpyFrom_ok _ _ _ _ _ (by omega) (by omega), Res.bind_ok, b2, ow_full _ _ (by rw [lX, hB])]
  exact ⟨V1, XY2, rfl, by omega, by omega⟩

end Scrypt
