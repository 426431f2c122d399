import Verif.Proofs.SmixMem
namespace Scrypt
open Spec

/-! ### BlockMix / ROMix over an arbitrary alphabet with blocks of `g` elements -/
section
variable {α : Type} [XorOp α]

/-- `X` before step `i` of BlockMix. -/
def gX (g : Nat) (σ : List α → List α) (r : Nat) (B : List α) : Nat → List α
  | 0 => sl B (g * (2 * r - 1)) g
  | i + 1 => σ (xorL (gX g σ r B i) (sl B (g * i) g))

/-- BlockMix. -/
def gBM (g : Nat) (σ : List α → List α) (r : Nat) (B : List α) : List α :=
  ((List.range r).flatMap fun i => gX g σ r B (2 * i + 1)) ++
  ((List.range r).flatMap fun i => gX g σ r B (2 * i + 2))

def gV (g : Nat) (σ : List α → List α) (r : Nat) (B : List α) : Nat → List α
  | 0 => B
  | i + 1 => gBM g σ r (gV g σ r B i)

def gRO (g : Nat) (σ : List α → List α) (r N : Nat) (J : List α → Nat) (B : List α) : Nat → List α
  | 0 => gV g σ r B N
  | i + 1 => gBM g σ r (xorL (gRO g σ r N J B i) (gV g σ r B (J (gRO g σ r N J B i))))

variable {g : Nat} {σ : List α → List α}

theorem gX_length (hσ : ∀ x, x.length = g → (σ x).length = g) (r : Nat) (B : List α) (hr : 0 < r) (hB : B.length = g * (2 * r))
    (i : Nat) (hi : i ≤ 2 * r) : (gX g σ r B i).length = g := by
  induction i with
  | zero =>
    refine sl_length _ _ _ ?_
    rw [hB, ← Nat.mul_succ]; exact Nat.mul_le_mul_left g (by omega)
  | succ i ih =>
    refine hσ _ (xorL_length _ _ _ (ih (by omega)) (sl_length _ _ _ ?_))
    rw [hB, ← Nat.mul_succ]; exact Nat.mul_le_mul_left g (by omega)

/-- BlockMix as a single family of groups. -/
theorem gBM_eq (r : Nat) (B : List α) :
    gBM g σ r B = (List.range (2 * r)).flatMap fun k =>
      if k < r then gX g σ r B (2 * k + 1) else gX g σ r B (2 * (k - r) + 2) := by
  rw [show 2 * r = r + r by omega, List.range_add, List.flatMap_append, gBM]
  congr 1
  · exact flatMap_congr' _ _ _ (fun i hi => by rw [if_pos hi])
  · rw [List.flatMap_map]
    exact flatMap_congr' _ _ _ (fun i hi => by rw [if_neg (by omega)]; congr 1; omega)

theorem gBM_length (hσ : ∀ x, x.length = g → (σ x).length = g) (r : Nat) (B : List α) (hr : 0 < r) (hB : B.length = g * (2 * r)) :
    (gBM g σ r B).length = g * (2 * r) := by
  rw [gBM_eq]
  apply flatMap_range_length
  intro i hi
  split <;> exact gX_length hσ r B hr hB _ (by omega)

theorem gBM_sl (hσ : ∀ x, x.length = g → (σ x).length = g) (r : Nat) (B : List α) (hr : 0 < r) (hB : B.length = g * (2 * r))
    (k : Nat) (hk : k < 2 * r) : sl (gBM g σ r B) (g * k) g =
      if k < r then gX g σ r B (2 * k + 1) else gX g σ r B (2 * (k - r) + 2) := by
  rw [gBM_eq]
  rw [sl_flatMap (fun k => if k < r then gX g σ r B (2 * k + 1) else gX g σ r B (2 * (k - r) + 2)) g (2 * r) k _ hk]
  intro i hi
  split <;> exact gX_length hσ r B hr hB _ (by omega)

theorem gV_length (hσ : ∀ x, x.length = g → (σ x).length = g) (r : Nat) (B : List α) (hr : 0 < r) (hB : B.length = g * (2 * r))
    (i : Nat) : (gV g σ r B i).length = g * (2 * r) := by
  induction i with
  | zero => exact hB
  | succ i ih => exact gBM_length hσ r _ hr ih

theorem gRO_length (hσ : ∀ x, x.length = g → (σ x).length = g) (r N : Nat) (J : List α → Nat) (B : List α) (hr : 0 < r)
    (hB : B.length = g * (2 * r)) (i : Nat) : (gRO g σ r N J B i).length = g * (2 * r) := by
  induction i with
  | zero => exact gV_length hσ r B hr hB N
  | succ i ih => exact gBM_length hσ r _ hr (xorL_length _ _ _ ih (gV_length hσ r B hr hB _))

end

/-! ### Change of representation -/
section
variable {α β : Type} [XorOp α] [XorOp β]

/-- Applying `φ` to each of the `n` blocks. -/
def gmap (g : Nat) (φ : List α → List β) (n : Nat) (B : List α) : List β :=
  (List.range n).flatMap fun k => φ (sl B (g * k) g)

/-- `φ` turns `σ`-computations on `g`-blocks into `τ`-computations on `h`-blocks. -/
structure Hom (g h : Nat) (σ : List α → List α) (τ : List β → List β) (φ : List α → List β) : Prop where
  lenσ : ∀ x, x.length = g → (σ x).length = g
  lenτ : ∀ x, x.length = h → (τ x).length = h
  lenφ : ∀ x, x.length = g → (φ x).length = h
  hσ : ∀ x, x.length = g → φ (σ x) = τ (φ x)
  hxor : ∀ x y, x.length = g → y.length = g → φ (xorL x y) = xorL (φ x) (φ y)

variable {g h : Nat} {σ : List α → List α} {τ : List β → List β} {φ : List α → List β}

theorem sl_grp_length {γ : Type} (B : List γ) (g n k : Nat) (hB : B.length = g * n) (hk : k < n) : (sl B (g * k) g).length = g := by
  apply sl_length
  rw [hB, ← Nat.mul_succ]; exact Nat.mul_le_mul_left g (by omega)

theorem gmap_length (H : Hom g h σ τ φ) (n : Nat) (B : List α) (hB : B.length = g * n) : (gmap g φ n B).length = h * n :=
  flatMap_range_length _ _ _ (fun i hi => H.lenφ _ (sl_grp_length B g n i hB hi))

theorem gmap_sl (H : Hom g h σ τ φ) (n : Nat) (B : List α) (hB : B.length = g * n) (k : Nat) (hk : k < n) :
    sl (gmap g φ n B) (h * k) h = φ (sl B (g * k) g) :=
  sl_flatMap (fun k => φ (sl B (g * k) g)) h n k (fun i hi => H.lenφ _ (sl_grp_length B g n i hB hi)) hk

theorem gX_map (H : Hom g h σ τ φ) (r : Nat) (hr : 0 < r) (B : List α) (hB : B.length = g * (2 * r)) (i : Nat) (hi : i ≤ 2 * r) :
    gX h τ r (gmap g φ (2 * r) B) i = φ (gX g σ r B i) := by
  induction i with
  | zero => exact gmap_sl H _ B hB _ (by omega)
  | succ i ih =>
    have l1 := gX_length H.lenσ r B hr hB i (by omega)
    have l2 := sl_grp_length B g (2 * r) i hB (by omega)
    rw [gX, ih (by omega), gmap_sl H _ B hB _ (by omega), ← H.hxor _ _ l1 l2, ← H.hσ _ (xorL_length _ _ _ l1 l2), gX]

theorem gBM_map (H : Hom g h σ τ φ) (r : Nat) (hr : 0 < r) (B : List α) (hB : B.length = g * (2 * r)) :
    gBM h τ r (gmap g φ (2 * r) B) = gmap g φ (2 * r) (gBM g σ r B) := by
  have l1 := gBM_length H.lenσ r B hr hB
  apply ext_groups _ _ h (2 * r) (gBM_length H.lenτ _ _ hr (gmap_length H _ _ hB)) (gmap_length H _ _ l1)
  intro k hk
  rw [gBM_sl H.lenτ r _ hr (gmap_length H _ _ hB) k hk, gmap_sl H _ _ l1 k hk, gBM_sl H.lenσ r B hr hB k hk]
  split
  · exact gX_map H r hr B hB _ (by omega)
  · exact gX_map H r hr B hB _ (by omega)

theorem sl_xorL {γ : Type} [XorOp γ] (a b : List γ) (o n : Nat) : sl (xorL a b) o n = xorL (sl a o n) (sl b o n) :=
  sl_zipWith _ _ _ _ _

theorem gxor_map (H : Hom g h σ τ φ) (n : Nat) (A B : List α) (hA : A.length = g * n) (hB : B.length = g * n) :
    xorL (gmap g φ n A) (gmap g φ n B) = gmap g φ n (xorL A B) := by
  have l := xorL_length _ _ _ hA hB
  apply ext_groups _ _ h n (xorL_length _ _ _ (gmap_length H _ _ hA) (gmap_length H _ _ hB)) (gmap_length H _ _ l)
  intro k hk
  rw [sl_xorL, gmap_sl H _ _ hA k hk, gmap_sl H _ _ hB k hk, gmap_sl H _ _ l k hk, sl_xorL,
    H.hxor _ _ (sl_grp_length A g n k hA hk) (sl_grp_length B g n k hB hk)]

theorem gV_map (H : Hom g h σ τ φ) (r : Nat) (hr : 0 < r) (B : List α) (hB : B.length = g * (2 * r)) (i : Nat) :
    gV h τ r (gmap g φ (2 * r) B) i = gmap g φ (2 * r) (gV g σ r B i) := by
  induction i with
  | zero => rfl
  | succ i ih => rw [gV, ih, gBM_map H r hr _ (gV_length H.lenσ r B hr hB i), gV]

theorem gRO_map (H : Hom g h σ τ φ) (r N : Nat) (hr : 0 < r) (J : List α → Nat) (J' : List β → Nat)
    (hJ : ∀ x, x.length = g * (2 * r) → J' (gmap g φ (2 * r) x) = J x)
    (B : List α) (hB : B.length = g * (2 * r)) (i : Nat) :
    gRO h τ r N J' (gmap g φ (2 * r) B) i = gmap g φ (2 * r) (gRO g σ r N J B i) := by
  induction i with
  | zero => exact gV_map H r hr B hB N
  | succ i ih =>
    have l := gRO_length H.lenσ r N J B hr hB i
    have l' := gV_length H.lenσ r B hr hB (J (gRO g σ r N J B i))
    rw [gRO, ih, hJ _ l, gV_map H r hr B hB, gxor_map H _ _ _ l l', gBM_map H r hr _ (xorL_length _ _ _ l l'), gRO]

end

/-! ### blockmix_salsa8 in memory -/
section
variable {α : Type} [XorOp α]

/-- One double step of the interleaved `blockmix_salsa8`, as overwrites. -/
def stepP (g : Nat) (σ : List α → List α) (bin bout z r : Nat) (m : List α) (k : Nat) : List α :=
  let m := ow m z (xorL (sl m z g) (sl m (bin + g * (2 * k)) g))
  let m := ow m z (σ (sl m z g))
  let m := ow m (bout + g * k) (sl m z g)
  let m := ow m z (xorL (sl m z g) (sl m (bin + g * (2 * k + 1)) g))
  let m := ow m z (σ (sl m z g))
  ow m (bout + g * (r + k)) (sl m z g)

omit [XorOp α] in
theorem ow_ow_same (m : List α) (o : Nat) (a b : List α) (h : a.length = b.length) (hm : o + a.length ≤ m.length) :
    ow (ow m o a) o b = ow m o b := by
  have l := ow_length m o a hm
  apply List.ext_getElem?
  intro i
  rw [ow_getElem? _ _ _ (by omega), ow_getElem? _ _ _ (by omega), ow_getElem? _ _ _ (by omega)]
  rw [h]
  split
  · rfl
  · rfl

/-- Regions `[o, o+n)` and `[o', o'+n')` do not meet. -/
def Disj (o n o' n' : Nat) : Prop := o + n ≤ o' ∨ o' + n' ≤ o

theorem stepP_spec {g : Nat} {σ : List α → List α} (hσ : ∀ x, x.length = g → (σ x).length = g)
    (bin bout z r : Nat) (m : List α) (k : Nat) (hk : k < r) (B : List α) (X : List α)
    (hB : B.length = g * (2 * r)) (hX : X.length = g)
    (h1 : bin + g * (2 * r) ≤ m.length) (h2 : bout + g * (2 * r) ≤ m.length) (h3 : z + g ≤ m.length)
    (d1 : Disj bin (g * (2 * r)) bout (g * (2 * r))) (d2 : Disj bin (g * (2 * r)) z g) (d3 : Disj bout (g * (2 * r)) z g)
    (hb : ∀ i, i < 2 * r → sl m (bin + g * i) g = sl B (g * i) g) (hz : sl m z g = X) :
    ∃ Y0 Y1, Y0 = σ (xorL X (sl B (g * (2 * k)) g)) ∧ Y1 = σ (xorL Y0 (sl B (g * (2 * k + 1)) g)) ∧
     stepP g σ bin bout z r m k = ow (ow (ow m (bout + g * k) Y0) z Y1) (bout + g * (r + k)) Y1 := by
  refine ⟨_, _, rfl, rfl, ?_⟩
  have b0 := sl_grp_length B g (2 * r) (2 * k) hB (by omega)
  have b1 := sl_grp_length B g (2 * r) (2 * k + 1) hB (by omega)
  have q0 : g * (2 * k) + g ≤ g * (2 * r) := by rw [← Nat.mul_succ]; exact Nat.mul_le_mul_left g (by omega)
  have q1 : g * (2 * k + 1) + g ≤ g * (2 * r) := by rw [← Nat.mul_succ]; exact Nat.mul_le_mul_left g (by omega)
  have q2 : g * k + g ≤ g * (2 * r) := by rw [← Nat.mul_succ]; exact Nat.mul_le_mul_left g (by omega)
  have q3 : g * (r + k) + g ≤ g * (2 * r) := by rw [← Nat.mul_succ]; exact Nat.mul_le_mul_left g (by omega)
  have hx1 := xorL_length _ _ _ hX b0
  have hy0 := hσ _ hx1
  have hx2 := xorL_length _ _ _ hy0 b1
  have hy1 := hσ _ hx2
  unfold Disj at d1 d2 d3
  unfold stepP
  simp only []
  rw [hz, hb (2 * k) (by omega)]
  generalize hY0 : σ (xorL X (sl B (g * (2 * k)) g)) = Y0 at *
  generalize hY1 : σ (xorL Y0 (sl B (g * (2 * k + 1)) g)) = Y1 at *
  rw [sl_ow_same' _ _ _ _ hx1 h3, hY0, ow_ow_same m z _ Y0 (by omega) (by omega), sl_ow_same' _ _ _ _ hy0 h3]
  have lA := ow_length m z Y0 (by omega)
  have lB := ow_length (ow m z Y0) (bout + g * k) Y0 (by omega)
  have ez : sl (ow (ow m z Y0) (bout + g * k) Y0) z g = Y0 := by
    rw [sl_ow_disj _ _ _ (by omega) _ _ (by omega), sl_ow_same' _ _ _ _ hy0 h3]
  have eb : sl (ow (ow m z Y0) (bout + g * k) Y0) (bin + g * (2 * k + 1)) g = sl B (g * (2 * k + 1)) g := by
    rw [sl_ow_disj _ _ _ (by omega) _ _ (by omega), sl_ow_disj _ _ _ (by omega) _ _ (by omega), hb _ (by omega)]
  rw [ez, eb, sl_ow_same' _ _ _ _ hx2 (by omega), hY1, ow_ow_same (ow (ow m z Y0) (bout + g * k) Y0) z _ Y1 (by omega) (by omega), sl_ow_same' _ _ _ _ hy1 (by omega)]
  -- the intermediate value of Z is overwritten
  have lC := ow_length m (bout + g * k) Y0 (by omega)
  have : ow (ow (ow m z Y0) (bout + g * k) Y0) z Y1 = ow (ow m (bout + g * k) Y0) z Y1 := by
    apply List.ext_getElem?
    intro i
    rw [ow_getElem? _ _ _ (by omega), ow_getElem? _ _ _ (by omega), ow_getElem? _ _ _ (by omega), ow_getElem? _ _ _ (by omega),
      ow_getElem? _ _ _ (by omega)]
    rw [hy0, hy1]
    split
    · rfl
    · next hi => split
                 · rfl
                 · rfl
  rw [this]

/-- The whole of `blockmix_salsa8`. -/
theorem blockmix_common {g : Nat} {σ : List α → List α} (hσ : ∀ x, x.length = g → (σ x).length = g)
    (bin bout z r : Nat) (hr : 0 < r) (m : List α)
    (h1 : bin + g * (2 * r) ≤ m.length) (h2 : bout + g * (2 * r) ≤ m.length) (h3 : z + g ≤ m.length)
    (d1 : Disj bin (g * (2 * r)) bout (g * (2 * r))) (d2 : Disj bin (g * (2 * r)) z g) (d3 : Disj bout (g * (2 * r)) z g)
    (body : List α → Nat → Res (List α))
    (hbody : ∀ m' k, m'.length = m.length → k < r → body m' k = .ok (stepP g σ bin bout z r m' k)) :
    ∃ m', forLoop r body (ow m z (sl m (bin + g * (2 * r - 1)) g)) = .ok m' ∧ m'.length = m.length ∧
      sl m' bout (g * (2 * r)) = gBM g σ r (sl m bin (g * (2 * r))) ∧
      (∀ i, (i < bout ∨ bout + g * (2 * r) ≤ i) → (i < z ∨ z + g ≤ i) → m'[i]? = m[i]?) := by
  obtain ⟨B, hBd⟩ : ∃ B, B = sl m bin (g * (2 * r)) := ⟨_, rfl⟩
  have hB : B.length = g * (2 * r) := by rw [hBd]; exact sl_length _ _ _ h1
  have hblk : ∀ i, i < 2 * r → sl m (bin + g * i) g = sl B (g * i) g := by
    intro i hi
    have : g * i + g ≤ g * (2 * r) := by rw [← Nat.mul_succ]; exact Nat.mul_le_mul_left g (by omega)
    rw [hBd, sl_sl _ _ _ _ _ this]
  rw [← hBd, hblk _ (by omega)]
  have lb : ∀ i, i < 2 * r → g * i + g ≤ g * (2 * r) := by
    intro i hi; rw [← Nat.mul_succ]; exact Nat.mul_le_mul_left g (by omega)
  have l0 := gX_length hσ r B hr hB 0 (by omega)
  have key := forLoop_inv (n := r) (f := body) (s := ow m z (sl B (g * (2 * r - 1)) g))
    (fun k m' => m'.length = m.length ∧ sl m' z g = gX g σ r B (2 * k) ∧
      (∀ i, i < k → sl m' (bout + g * i) g = gX g σ r B (2 * i + 1)) ∧
      (∀ i, i < k → sl m' (bout + g * (r + i)) g = gX g σ r B (2 * i + 2)) ∧
      (∀ i, (i < bout ∨ bout + g * (2 * r) ≤ i) → (i < z ∨ z + g ≤ i) → m'[i]? = m[i]?))
    ⟨ow_length _ _ _ (by rw [gX] at l0; omega), sl_ow_same' _ _ _ _ l0 h3, by intro i hi; omega, by intro i hi; omega, by
      intro i _ hi
      rw [gX] at l0
      rw [ow_getElem? _ _ _ (by omega), if_neg (by omega)]⟩ (by
      rintro k m' hk ⟨hl, hz, ha, hb, hf⟩
      refine ⟨_, hbody m' k hl hk, ?_⟩
      have lX := gX_length hσ r B hr hB (2 * k) (by omega)
      have hsl : ∀ i, i < 2 * r → sl m' (bin + g * i) g = sl B (g * i) g := by
        intro i hi
        rw [← hblk i hi]
        apply sl_ext
        intro j hj
        have := lb i hi
        unfold Disj at d1 d2
        exact hf _ (by omega) (by omega)
      obtain ⟨Y0, Y1, e0, e1, e⟩ := stepP_spec hσ bin bout z r m' k hk B _ hB lX (by omega) (by omega) (by omega) d1 d2 d3 hsl hz
      have e0' : Y0 = gX g σ r B (2 * k + 1) := e0
      have e1' : Y1 = gX g σ r B (2 * k + 2) := by rw [e1, e0']; rfl
      have y0 : Y0.length = g := by rw [e0']; exact gX_length hσ r B hr hB _ (by omega)
      have y1 : Y1.length = g := by rw [e1']; exact gX_length hσ r B hr hB _ (by omega)
      have k1 := lb k (by omega)
      have k2 := lb (r + k) (by omega)
      have g1 := ow_length m' (bout + g * k) Y0 (by omega)
      have g2 := ow_length (ow m' (bout + g * k) Y0) z Y1 (by omega)
      have g3 := ow_length (ow (ow m' (bout + g * k) Y0) z Y1) (bout + g * (r + k)) Y1 (by omega)
      have mrk : ∀ i j, i < j → g * i + g ≤ g * j := by
        intro i j hij; rw [← Nat.mul_succ]; exact Nat.mul_le_mul_left g (by omega)
      unfold Disj at d1 d2 d3
      rw [e]
      refine ⟨by omega, ?_, ?_, ?_, ?_⟩
      · rw [sl_ow_disj _ _ _ (by omega) _ _ (by omega), sl_ow_same' _ _ _ _ y1 (by omega), e1']; rfl
      · intro i hi
        have := mrk i (r + k) (by omega)
        rw [sl_ow_disj _ _ _ (by omega) _ _ (by omega), sl_ow_disj _ _ _ (by omega) _ _ (by have := lb i (by omega); omega)]
        rcases Nat.lt_or_ge i k with h | h
        · have := mrk i k h
          rw [sl_ow_disj _ _ _ (by omega) _ _ (by omega), ha i h]
        · have : i = k := by omega
          subst this
          rw [sl_ow_same' _ _ _ _ y0 (by omega), e0']
      · intro i hi
        rcases Nat.lt_or_ge i k with h | h
        · have := mrk (r + i) (r + k) (by omega)
          have := mrk k (r + i) (by omega)
          have := lb (r + i) (by omega)
          rw [sl_ow_disj _ _ _ (by omega) _ _ (by omega), sl_ow_disj _ _ _ (by omega) _ _ (by omega),
            sl_ow_disj _ _ _ (by omega) _ _ (by omega), hb i h]
        · have : i = k := by omega
          subst this
          rw [sl_ow_same' _ _ _ _ y1 (by omega), e1']
      · intro i hi1 hi2
        rw [ow_getElem? _ _ _ (by omega), if_neg (by omega), ow_getElem? _ _ _ (by omega), if_neg (by omega),
          ow_getElem? _ _ _ (by omega), if_neg (by omega)]
        exact hf i hi1 hi2)
  obtain ⟨m', e, hl, _, ha, hb, hf⟩ := key
  refine ⟨m', e, hl, ?_, hf⟩
  apply ext_groups _ _ g (2 * r) (sl_length _ _ _ (by omega)) (gBM_length hσ r B hr hB)
  intro k hk
  rw [gBM_sl hσ r B hr hB k hk, sl_sl _ _ _ _ _ (lb k hk)]
  split
  · next h => exact ha k h
  · next h =>
    have := hb (k - r) (by omega)
    rw [show r + (k - r) = k by omega] at this
    exact this

end
end Scrypt
