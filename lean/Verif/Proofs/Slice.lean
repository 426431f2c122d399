import Verif.Basic
namespace Scrypt

/-- Elements `o .. o+n-1`. -/
def sl {α : Type} (m : List α) (o n : Nat) : List α := (m.drop o).take n

section
variable {α : Type}

theorem sl_length (m : List α) (o n : Nat) (h : o + n ≤ m.length) : (sl m o n).length = n := by
  simp [sl]; omega

theorem sl_getElem? (m : List α) (o n i : Nat) : (sl m o n)[i]? = if i < n then m[o + i]? else none := by
  simp only [sl, List.getElem?_take, List.getElem?_drop]

theorem rdSlice_sl {m : List α} {o n : Nat} (h : o + n ≤ m.length) : rdSlice m o n = .ok (sl m o n) :=
  rdSlice_ok h

/-- Overwriting a region. -/
def ow (m : List α) (o : Nat) (s : List α) : List α := m.take o ++ s ++ m.drop (o + s.length)

theorem wrSlice_ow {m : List α} {o : Nat} {s : List α} (h : o + s.length ≤ m.length) :
    wrSlice m o s = .ok (ow m o s) := wrSlice_ok h

theorem ow_length (m : List α) (o : Nat) (s : List α) (h : o + s.length ≤ m.length) :
    (ow m o s).length = m.length := by
  simp [ow]; omega

theorem ow_getElem? (m : List α) (o : Nat) (s : List α) (h : o + s.length ≤ m.length) (i : Nat) :
    (ow m o s)[i]? = if o ≤ i ∧ i < o + s.length then s[i - o]? else m[i]? := by
  unfold ow
  have hl : (m.take o).length = o := by simp; omega
  rcases Nat.lt_or_ge i o with h1 | h1
  · rw [List.append_assoc, List.getElem?_append_left (by omega), List.getElem?_take, if_pos h1,
      if_neg (by omega)]
  · rcases Nat.lt_or_ge i (o + s.length) with h2 | h2
    · rw [List.append_assoc, List.getElem?_append_right (by omega), hl,
        List.getElem?_append_left (by omega), if_pos ⟨h1, h2⟩]
    · rw [List.getElem?_append_right (by simp; omega), List.getElem?_drop, if_neg (by omega)]
      congr 1; simp; omega

theorem sl_ext (a b : List α) (o o' n : Nat) (h : ∀ i, i < n → a[o + i]? = b[o' + i]?) :
    sl a o n = sl b o' n := by
  apply List.ext_getElem?
  intro i
  rw [sl_getElem?, sl_getElem?]
  split
  · next hi => exact h i hi
  · rfl

theorem sl_ow_same (m : List α) (o : Nat) (s : List α) (h : o + s.length ≤ m.length) :
    sl (ow m o s) o s.length = s := by
  apply List.ext_getElem?
  intro i
  rw [sl_getElem?]
  split
  · next hi => rw [ow_getElem? _ _ _ h, if_pos (by omega)]; congr 1; omega
  · next hi => rw [List.getElem?_eq_none (by omega)]

theorem sl_ow_same' (m : List α) (o n : Nat) (s : List α) (hn : s.length = n) (h : o + n ≤ m.length) :
    sl (ow m o s) o n = s := by
  subst hn; exact sl_ow_same m o s h

theorem sl_ow_inside (m : List α) (o : Nat) (s : List α) (h : o + s.length ≤ m.length) (p n : Nat)
    (hp : p + n ≤ s.length) : sl (ow m o s) (o + p) n = sl s p n := by
  apply sl_ext
  intro i hi
  rw [ow_getElem? _ _ _ h, if_pos (by omega)]
  congr 1; omega

theorem sl_ow_disj (m : List α) (o : Nat) (s : List α) (h : o + s.length ≤ m.length) (o' n : Nat)
    (hd : o' + n ≤ o ∨ o + s.length ≤ o') : sl (ow m o s) o' n = sl m o' n := by
  apply sl_ext
  intro i hi
  rw [ow_getElem? _ _ _ h, if_neg (by omega)]

theorem sl_sl (m : List α) (o n p k : Nat) (h : p + k ≤ n) : sl (sl m o n) p k = sl m (o + p) k := by
  apply List.ext_getElem?
  intro i
  rw [sl_getElem?, sl_getElem?, sl_getElem?]
  split
  · rw [if_pos (by omega), Nat.add_assoc]
  · rfl

theorem sl_all (m : List α) : sl m 0 m.length = m := by simp [sl]

theorem sl_full (m : List α) (n : Nat) (h : m.length = n) : sl m 0 n = m := by subst h; exact sl_all m

theorem ow_full (m s : List α) (h : s.length = m.length) : ow m 0 s = s := by
  simp [ow, h]

/-- The `n` cells at `o`, as a function of the contents. -/
theorem getElem?_of_sl {m : List α} {o n : Nat} {s : List α} (h : sl m o n = s) (i : Nat) (hi : i < n) :
    m[o + i]? = s[i]? := by
  rw [← h, sl_getElem?, if_pos hi]

theorem sl_append (m : List α) (o a b : Nat) : sl m o (a + b) = sl m o a ++ sl m (o + a) b := by
  simp only [sl, List.take_add, List.drop_drop]

theorem cpy_ok (d : List α) (doff : Nat) (s : List α) (soff n : Nat) (h1 : soff + n ≤ s.length)
    (h2 : doff + n ≤ d.length) :
    (do let x ← rdSlice s soff n; wrSlice d doff x) = .ok (ow d doff (sl s soff n)) := by
  rw [rdSlice_sl h1, Res.bind_ok, wrSlice_ow (by rw [sl_length _ _ _ h1]; exact h2)]

/-- Loop invariant rule phrased with the final memory: cells `o .. o+n-1` are updated one by one. -/
theorem loop_cells (o n : Nat) (m : List α) (g : Nat → α) (body : List α → Nat → Res (List α))
    (h : o + n ≤ m.length)
    (hb : ∀ k m', k < n → m'.length = m.length → (∀ i, i < k → m'[o + i]? = some (g i)) →
      (∀ i, (i < o ∨ o + k ≤ i) → m'[i]? = m[i]?) → body m' k = .ok (m'.set (o + k) (g k))) :
    forLoop n body m = .ok (ow m o ((List.range n).map g)) := by
  have key := forLoop_inv (n := n) (f := body) (s := m)
    (fun k m' => m'.length = m.length ∧ (∀ i, i < k → m'[o + i]? = some (g i)) ∧
      (∀ i, (i < o ∨ o + k ≤ i) → m'[i]? = m[i]?))
    ⟨rfl, by simp, by simp⟩ (by
      rintro k m' hk ⟨h1, h2, h3⟩
      refine ⟨_, hb k m' hk h1 h2 h3, by simp [h1], ?_, ?_⟩
      · intro i hi
        rw [List.getElem?_set]
        by_cases e : o + k = o + i
        · have : k = i := by omega
          subst this
          rw [if_pos rfl, if_pos (by omega)]
        · rw [if_neg e]; exact h2 i (by omega)
      · intro i hi
        rw [List.getElem?_set, if_neg (by omega)]; exact h3 i (by omega))
  obtain ⟨m', e, h1, h2, h3⟩ := key
  rw [e]; congr 1
  apply List.ext_getElem?
  intro i
  rw [ow_getElem? _ _ _ (by simpa using h)]
  simp only [List.length_map, List.length_range]
  split
  · next hi =>
    have := h2 (i - o) (by omega)
    rw [show o + (i - o) = i by omega] at this
    rw [this]; simp [show i - o < n by omega]
  · next hi => exact h3 i (by omega)

end
end Scrypt

namespace Scrypt
section
variable {α : Type}

theorem ow_nil (m : List α) (o : Nat) : ow m o [] = m := by simp [ow]

theorem ow_ow_adj (m : List α) (o o' : Nat) (a b : List α) (h : o + a.length + b.length ≤ m.length)
    (ho : o' = o + a.length) : ow (ow m o a) o' b = ow m o (a ++ b) := by
  subst ho
  have h1 := ow_length m o a (by omega)
  apply List.ext_getElem?
  intro i
  rw [ow_getElem? _ _ _ (by omega), ow_getElem? _ _ _ (by omega), ow_getElem? _ _ _ (by simp; omega)]
  simp only [List.length_append]
  by_cases c1 : o + a.length ≤ i ∧ i < o + a.length + b.length
  · rw [if_pos c1, if_pos (by omega), List.getElem?_append_right (by omega)]
    congr 1; omega
  · rw [if_neg c1]
    by_cases c2 : o ≤ i ∧ i < o + a.length
    · rw [if_pos c2, if_pos (by omega), List.getElem?_append_left (by omega)]
    · rw [if_neg c2, if_neg (by omega)]

theorem set_eq_ow (m : List α) (o : Nat) (x : α) (h : o < m.length) : m.set o x = ow m o [x] := by
  apply List.ext_getElem?
  intro i
  rw [ow_getElem? _ _ _ (by simp; omega), List.getElem?_set]
  by_cases e : o = i
  · subst e; simp [h]
  · rw [if_neg e, if_neg (by simp; omega)]

theorem wr_ow {m : List α} {o : Nat} (x : α) (h : o < m.length) : wr m o x = .ok (ow m o [x]) := by
  rw [wr_ok _ h, set_eq_ow _ _ _ h]

theorem flatMap_range_succ {β : Type} (f : Nat → List β) (n : Nat) :
    (List.range (n + 1)).flatMap f = (List.range n).flatMap f ++ f n := by
  rw [List.range_succ, List.flatMap_append]; simp

theorem flatMap_range_length {β : Type} (f : Nat → List β) (g n : Nat) (h : ∀ i, i < n → (f i).length = g) :
    ((List.range n).flatMap f).length = g * n := by
  induction n with
  | zero => simp
  | succ n ih =>
    rw [flatMap_range_succ, List.length_append, ih (fun i hi => h i (by omega)), h n (by omega), Nat.mul_succ]

/-- A loop that overwrites consecutive groups of `g` cells. -/
theorem loop_groups (o g n : Nat) (m : List α) (f : Nat → List α) (body : List α → Nat → Res (List α))
    (h : o + g * n ≤ m.length) (hf : ∀ k, k < n → (f k).length = g)
    (hb : ∀ k m', k < n → m'.length = m.length →
      (∀ i, (i < o ∨ o + g * k ≤ i) → m'[i]? = m[i]?) → body m' k = .ok (ow m' (o + g * k) (f k))) :
    forLoop n body m = .ok (ow m o ((List.range n).flatMap f)) := by
  induction n with
  | zero => simp [ow_nil]
  | succ n ih =>
    have hm : g * (n + 1) = g * n + g := Nat.mul_succ g n
    have hl := flatMap_range_length f g n (fun i hi => hf i (by omega))
    rw [forLoop_succ, ih (by omega) (fun k hk => hf k (by omega)) (fun k m' hk => hb k m' (by omega)), Res.bind_ok,
      hb n _ (by omega) (ow_length _ _ _ (by omega)) (by
        intro i hi
        rw [ow_getElem? _ _ _ (by omega), if_neg (by omega)])]
    rw [flatMap_range_succ, ow_ow_adj _ _ _ _ _ (by rw [hl, hf n (by omega)]; omega) (by rw [hl])]

/-- Slices at multiples of the group size of a concatenation of groups. -/
theorem sl_flatMap (f : Nat → List α) (g n k : Nat) (h : ∀ i, i < n → (f i).length = g) (hk : k < n) :
    sl ((List.range n).flatMap f) (g * k) g = f k := by
  induction n with
  | zero => omega
  | succ n ih =>
    have hl := flatMap_range_length f g n (fun i hi => h i (by omega))
    rw [flatMap_range_succ]
    rcases Nat.lt_or_ge k n with hkn | hkn
    · have : g * k + g ≤ g * n := by rw [← Nat.mul_succ]; exact Nat.mul_le_mul_left g hkn
      rw [← ih (fun i hi => h i (by omega)) hkn]
      apply sl_ext
      intro i hi
      rw [List.getElem?_append_left (by omega)]
    · have : k = n := by omega
      subst this
      have hk' := h k (by omega)
      apply List.ext_getElem?
      intro i
      rw [sl_getElem?]
      split
      · next hi => rw [List.getElem?_append_right (by omega), hl]; congr 1; omega
      · next hi => rw [List.getElem?_eq_none (by omega)]

/-- A list is the concatenation of its groups. -/
theorem flatMap_sl (m : List α) (g n : Nat) (h : m.length = g * n) :
    (List.range n).flatMap (fun k => sl m (g * k) g) = m := by
  have key : ∀ j, j ≤ n → (List.range j).flatMap (fun k => sl m (g * k) g) = m.take (g * j) := by
    intro j hj
    induction j with
    | zero => simp
    | succ j ih =>
      rw [flatMap_range_succ, ih (by omega), Nat.mul_succ, List.take_add]
      rfl
  rw [key n (Nat.le_refl n), ← h, List.take_length]

theorem flatMap_congr' {β : Type} (n : Nat) (f g : Nat → List β) (h : ∀ i, i < n → f i = g i) :
    (List.range n).flatMap f = (List.range n).flatMap g := by
  induction n with
  | zero => rfl
  | succ n ih => rw [flatMap_range_succ, flatMap_range_succ, ih (fun i hi => h i (by omega)), h n (by omega)]

/-- Extensionality by groups. -/
theorem ext_groups (a b : List α) (g n : Nat) (ha : a.length = g * n) (hb : b.length = g * n)
    (h : ∀ k, k < n → sl a (g * k) g = sl b (g * k) g) : a = b := by
  rw [← flatMap_sl a g n ha, ← flatMap_sl b g n hb, flatMap_congr' n _ _ h]

end
end Scrypt
