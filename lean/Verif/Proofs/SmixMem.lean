import Verif.Proofs.Salsa
namespace Scrypt
open Spec

/-- Element-wise exclusive or. -/
def xorL {α : Type} [XorOp α] (a b : List α) : List α := List.zipWith (· ^^^ ·) a b

section
variable {α : Type} [XorOp α]

theorem xorL_length (a b : List α) (n : Nat) (ha : a.length = n) (hb : b.length = n) : (xorL a b).length = n := by
  simp [xorL, ha, hb]

theorem flatMap_singleton {β : Type} (n : Nat) (l : List β) (h : l.length = n) :
    (List.range n).flatMap (fun i => sl l i 1) = l := by
  rw [flatMap_congr' n _ (fun k => sl l (1 * k) 1) (fun i _ => by rw [Nat.one_mul])]
  exact flatMap_sl l 1 n (h.trans (Nat.one_mul n).symm)

theorem sl_one {β : Type} (l : List β) (i : Nat) (h : i < l.length) : sl l i 1 = [l[i]] := by
  rw [sl, List.drop_eq_getElem_cons h]; rfl

theorem getElem?_len {β : Type} (l : List β) (i : Nat) (h : i < l.length) : l[i]? = some l[i] :=
  List.getElem?_eq_getElem h

theorem xorFrom_ok (d : List α) (doff : Nat) (s : List α) (soff n : Nat) (h1 : doff + n ≤ d.length)
    (h2 : soff + n ≤ s.length) : xorFrom d doff s soff n = .ok (ow d doff (xorL (sl d doff n) (sl s soff n))) := by
  have l1 := sl_length d doff n h1
  have l2 := sl_length s soff n h2
  have hx := xorL_length _ _ _ l1 l2
  unfold xorFrom
  rw [loop_groups doff 1 n d (fun i => sl (xorL (sl d doff n) (sl s soff n)) i 1) _ (by omega)
    (fun k hk => sl_length _ _ _ (by omega)), flatMap_singleton _ _ hx]
  intro k m' hk hm hrest
  have e1 : m'[doff + k]? = some (sl d doff n)[k] := by
    rw [hrest _ (by omega), ← getElem?_len, sl_getElem?, if_pos hk]
  have e2 : s[soff + k]? = some (sl s soff n)[k] := by
    rw [← getElem?_len, sl_getElem?, if_pos hk]
  rw [rd_some e1, Res.bind_ok, rd_some e2, Res.bind_ok, wr_ow _ (by omega), Nat.one_mul,
    sl_one _ _ (by omega)]
  simp [xorL]

theorem xorWithin_ok (m : List α) (doff soff n : Nat) (h1 : doff + n ≤ m.length)
    (h2 : soff + n ≤ m.length) (hd : doff + n ≤ soff ∨ soff + n ≤ doff) :
    xorWithin m doff soff n = .ok (ow m doff (xorL (sl m doff n) (sl m soff n))) := by
  have l1 := sl_length m doff n h1
  have l2 := sl_length m soff n h2
  have hx := xorL_length _ _ _ l1 l2
  unfold xorWithin
  rw [loop_groups doff 1 n m (fun i => sl (xorL (sl m doff n) (sl m soff n)) i 1) _ (by omega)
    (fun k hk => sl_length _ _ _ (by omega)), flatMap_singleton _ _ hx]
  intro k m' hk hm hrest
  have e1 : m'[doff + k]? = some (sl m doff n)[k] := by
    rw [hrest _ (by omega), ← getElem?_len, sl_getElem?, if_pos hk]
  have e2 : m'[soff + k]? = some (sl m soff n)[k] := by
    rw [hrest _ (by omega), ← getElem?_len, sl_getElem?, if_pos hk]
  rw [rd_some e1, Res.bind_ok, rd_some e2, Res.bind_ok, wr_ow _ (by omega), Nat.one_mul,
    sl_one _ _ (by omega)]
  simp [xorL]

end

theorem cpyFrom_ok {α : Type} (d : List α) (doff : Nat) (s : List α) (soff n : Nat) (h1 : doff + n ≤ d.length)
    (h2 : soff + n ≤ s.length) : cpyFrom d doff s soff n = .ok (ow d doff (sl s soff n)) :=
  cpy_ok d doff s soff n h2 h1

theorem cpyWithin_ok {α : Type} (m : List α) (doff soff n : Nat) (h1 : doff + n ≤ m.length)
    (h2 : soff + n ≤ m.length) : cpyWithin m doff soff n = .ok (ow m doff (sl m soff n)) :=
  cpy_ok m doff m soff n h2 h1

/-! ### Vector loads and stores -/

theorem storeu_ow (m : List W32) (o : Nat) (v : V4) (h : o + 4 ≤ m.length) :
    mm_storeu_words m o v = .ok (ow m o [v.l0, v.l1, v.l2, v.l3]) := by
  unfold mm_storeu_words
  have l1 := ow_length m o [v.l0] (by simp; omega)
  have l2 := ow_length m o [v.l0, v.l1] (by simp; omega)
  have l3 := ow_length m o [v.l0, v.l1, v.l2] (by simp; omega)
  have l1' := ow_length m o [v.l0] (by simp; omega)
  rw [wr_ow _ (by omega), Res.bind_ok, wr_ow _ (by omega), Res.bind_ok,
    ow_ow_adj m o (o + 1) [v.l0] [v.l1] (by simp; omega) (by simp), List.singleton_append, wr_ow _ (by omega), Res.bind_ok,
    ow_ow_adj m o (o + 2) [v.l0, v.l1] [v.l2] (by simp; omega) (by simp), List.cons_append, List.singleton_append,
    wr_ow _ (by omega),
    ow_ow_adj m o (o + 3) [v.l0, v.l1, v.l2] [v.l3] (by simp; omega) (by simp)]
  rfl

theorem loadu_sl (m : List W32) (o : Nat) (h : o + 4 ≤ m.length) :
    ∃ v, mm_loadu_words m o = .ok v ∧ [v.l0, v.l1, v.l2, v.l3] = sl m o 4 := by
  refine ⟨⟨m[o], m[o + 1], m[o + 2], m[o + 3]⟩, ?_, ?_⟩
  · rw [mm_loadu_words, rd_ok (by omega), Res.bind_ok, rd_ok (by omega), Res.bind_ok, rd_ok (by omega),
      Res.bind_ok, rd_ok (by omega), Res.bind_ok]; rfl
  · rw [show (4 : Nat) = 1 + (1 + (1 + 1)) from rfl, sl_append, sl_append, sl_append,
      sl_one m o (by omega), sl_one m (o + 1) (by omega), sl_one m (o + 1 + 1) (by omega),
      sl_one m (o + 1 + 1 + 1) (by omega)]
    rfl

theorem blkcpyFrom_ok (d : List W32) (doff : Nat) (s : List W32) (soff n : Nat) (hn : n % 4 = 0)
    (h1 : doff + n ≤ d.length) (h2 : soff + n ≤ s.length) :
    SseSmix.blkcpyFrom d doff s soff n = .ok (ow d doff (sl s soff n)) := by
  have hn' : 4 * (n / 4) = n := by omega
  unfold SseSmix.blkcpyFrom
  rw [loop_groups doff 4 (n / 4) d (fun i => sl (sl s soff n) (4 * i) 4) _ (by omega)
    (fun k hk => sl_length _ _ _ (by rw [sl_length _ _ _ h2]; omega)),
    flatMap_sl _ 4 (n / 4) (by rw [sl_length _ _ _ h2]; omega)]
  intro k m' hk hm hrest
  obtain ⟨v, e, hv⟩ := loadu_sl s (soff + 4 * k) (by omega)
  rw [SseSmix.ld, e, Res.bind_ok, SseSmix.st, storeu_ow _ _ _ (by omega), hv, sl_sl _ _ _ _ _ (by omega)]

theorem blkcpyWithin_ok (m : List W32) (doff soff n : Nat) (hn : n % 4 = 0) (h1 : doff + n ≤ m.length)
    (h2 : soff + n ≤ m.length) (hd : doff + n ≤ soff ∨ soff + n ≤ doff) :
    SseSmix.blkcpyWithin m doff soff n = .ok (ow m doff (sl m soff n)) := by
  have hn' : 4 * (n / 4) = n := by omega
  unfold SseSmix.blkcpyWithin
  rw [loop_groups doff 4 (n / 4) m (fun i => sl (sl m soff n) (4 * i) 4) _ (by omega)
    (fun k hk => sl_length _ _ _ (by rw [sl_length _ _ _ h2]; omega)),
    flatMap_sl _ 4 (n / 4) (by rw [sl_length _ _ _ h2]; omega)]
  intro k m' hk hm hrest
  obtain ⟨v, e, hv⟩ := loadu_sl m' (soff + 4 * k) (by omega)
  rw [SseSmix.ld, e, Res.bind_ok, SseSmix.st, storeu_ow _ _ _ (by omega), hv, sl_sl _ _ _ _ _ (by omega)]
  congr 2
  exact sl_ext _ _ _ _ _ (fun i hi => hrest _ (by omega))

theorem sl_zipWith {α β γ : Type} (f : α → β → γ) (a : List α) (b : List β) (o n : Nat) :
    sl (List.zipWith f a b) o n = List.zipWith f (sl a o n) (sl b o n) := by
  simp only [sl, List.drop_zipWith, List.take_zipWith]

theorem blkxorFrom_ok (d : List W32) (doff : Nat) (s : List W32) (soff n : Nat) (hn : n % 4 = 0)
    (h1 : doff + n ≤ d.length) (h2 : soff + n ≤ s.length) :
    SseSmix.blkxorFrom d doff s soff n = .ok (ow d doff (xorL (sl d doff n) (sl s soff n))) := by
  have hn' : 4 * (n / 4) = n := by omega
  have hx := xorL_length _ _ _ (sl_length d doff n h1) (sl_length s soff n h2)
  unfold SseSmix.blkxorFrom
  rw [loop_groups doff 4 (n / 4) d (fun i => sl (xorL (sl d doff n) (sl s soff n)) (4 * i) 4) _ (by omega)
    (fun k hk => sl_length _ _ _ (by rw [hx]; omega)),
    flatMap_sl _ 4 (n / 4) (by rw [hx]; omega)]
  intro k m' hk hm hrest
  obtain ⟨v, e, hv⟩ := loadu_sl m' (doff + 4 * k) (by omega)
  obtain ⟨w, e', hw⟩ := loadu_sl s (soff + 4 * k) (by omega)
  have : sl m' (doff + 4 * k) 4 = sl d (doff + 4 * k) 4 := sl_ext _ _ _ _ _ (fun i hi => hrest _ (by omega))
  rw [SseSmix.ld, e, Res.bind_ok, SseSmix.ld, e', Res.bind_ok, SseSmix.st, storeu_ow _ _ _ (by omega)]
  rw [xorL, sl_zipWith, sl_sl _ _ _ _ _ (by omega), sl_sl _ _ _ _ _ (by omega), ← this, ← hv, ← hw]
  rfl

theorem blkxorWithin_ok (m : List W32) (doff soff n : Nat) (hn : n % 4 = 0)
    (h1 : doff + n ≤ m.length) (h2 : soff + n ≤ m.length) (hd : doff + n ≤ soff ∨ soff + n ≤ doff) :
    SseSmix.blkxorWithin m doff soff n = .ok (ow m doff (xorL (sl m doff n) (sl m soff n))) := by
  have hn' : 4 * (n / 4) = n := by omega
  have hx := xorL_length _ _ _ (sl_length m doff n h1) (sl_length m soff n h2)
  unfold SseSmix.blkxorWithin
  rw [loop_groups doff 4 (n / 4) m (fun i => sl (xorL (sl m doff n) (sl m soff n)) (4 * i) 4) _ (by omega)
    (fun k hk => sl_length _ _ _ (by rw [hx]; omega)),
    flatMap_sl _ 4 (n / 4) (by rw [hx]; omega)]
  intro k m' hk hm hrest
  obtain ⟨v, e, hv⟩ := loadu_sl m' (doff + 4 * k) (by omega)
  obtain ⟨w, e', hw⟩ := loadu_sl m' (soff + 4 * k) (by omega)
  have t1 : sl m' (doff + 4 * k) 4 = sl m (doff + 4 * k) 4 := sl_ext _ _ _ _ _ (fun i hi => hrest _ (by omega))
  have t2 : sl m' (soff + 4 * k) 4 = sl m (soff + 4 * k) 4 := sl_ext _ _ _ _ _ (fun i hi => hrest _ (by omega))
  rw [SseSmix.ld, e, Res.bind_ok, SseSmix.ld, e', Res.bind_ok, SseSmix.st, storeu_ow _ _ _ (by omega)]
  rw [xorL, sl_zipWith, sl_sl _ _ _ _ _ (by omega), sl_sl _ _ _ _ _ (by omega), ← t1, ← t2, ← hv, ← hw]
  rfl

/-! ### SSE2 salsa20_8 on memory -/

/-- Inverse of `perm` (5 · 13 = 65 ≡ 1 mod 16). -/
def iperm (y : List W32) : List W32 := (List.range 16).map fun i => y.getD (i * 13 % 16) 0

@[simp] theorem iperm_length (x : List W32) : (iperm x).length = 16 := by simp [iperm]

theorem perm_iperm (y : List W32) (h : y.length = 16) : perm (iperm y) = y := by
  match y, h with
  | [x0, x1, x2, x3, x4, x5, x6, x7, x8, x9, x10, x11, x12, x13, x14, x15], _ => rfl

theorem iperm_perm (y : List W32) (h : y.length = 16) : iperm (perm y) = y := by
  match y, h with
  | [x0, x1, x2, x3, x4, x5, x6, x7, x8, x9, x10, x11, x12, x13, x14, x15], _ => rfl

/-- Salsa20/8 in the diagonal layout. -/
def salsaP (y : List W32) : List W32 := perm (salsa20_8_words (iperm y))

theorem salsaP_perm (x : List W32) (h : x.length = 16) : salsaP (perm x) = perm (salsa20_8_words x) := by
  rw [salsaP, iperm_perm x h]

/-- Concatenation of the four vectors. -/
def unvecs (v : V4 × V4 × V4 × V4) : List W32 :=
  [v.1.l0, v.1.l1, v.1.l2, v.1.l3] ++ ([v.2.1.l0, v.2.1.l1, v.2.1.l2, v.2.1.l3] ++
    ([v.2.2.1.l0, v.2.2.1.l1, v.2.2.1.l2, v.2.2.1.l3] ++ [v.2.2.2.l0, v.2.2.2.l1, v.2.2.2.l2, v.2.2.2.l3]))

theorem unvecs_vecs (x : List W32) : unvecs (vecs x) = perm x := by
  simp [unvecs, vecs, perm, List.range, List.range.loop]

theorem vecs_unvecs (B0 B1 B2 B3 : V4) (x : List W32) (h : unvecs (B0, B1, B2, B3) = perm x) :
    (B0, B1, B2, B3) = vecs x := by
  rw [← unvecs_vecs] at h
  generalize vecs x = v at h
  obtain ⟨⟨a0, a1, a2, a3⟩, ⟨b0, b1, b2, b3⟩, ⟨c0, c1, c2, c3⟩, ⟨d0, d1, d2, d3⟩⟩ := v
  obtain ⟨e0, e1, e2, e3⟩ := B0
  obtain ⟨f0, f1, f2, f3⟩ := B1
  obtain ⟨g0, g1, g2, g3⟩ := B2
  obtain ⟨h0, h1, h2, h3⟩ := B3
  simp only [unvecs, List.cons_append, List.nil_append, List.cons.injEq, and_true] at h
  simp only [Prod.mk.injEq, V4.mk.injEq]
  obtain ⟨rfl, rfl, rfl, rfl, rfl, rfl, rfl, rfl, rfl, rfl, rfl, rfl, rfl, rfl, rfl, rfl⟩ := h
  simp

theorem iter_dround (x : List W32) (h : x.length = 16) :
    iter 4 (fun X _ => SseSmix.dround X) (vecs x) = vecs (dr4 x) := by
  have h1 := doubleround_length _ h
  have h2 := doubleround_length _ h1
  have h3 := doubleround_length _ h2
  rw [iter, iter, iter, iter, iter, dround_spec x h, dround_spec _ h1, dround_spec _ h2, dround_spec _ h3, dr4]

theorem perm_zipWith (f : W32 → W32 → W32) (a b : List W32) (ha : a.length = 16) (hb : b.length = 16) :
    perm (List.zipWith f a b) = List.zipWith f (perm a) (perm b) := by
  match a, ha, b, hb with
  | [x0, x1, x2, x3, x4, x5, x6, x7, x8, x9, x10, x11, x12, x13, x14, x15], _,
    [y0, y1, y2, y3, y4, y5, y6, y7, y8, y9, y10, y11, y12, y13, y14, y15], _ =>
    simp [perm, List.range, List.range.loop]

theorem sse_salsa_spec (m : List W32) (off : Nat) (h : off + 16 ≤ m.length) :
    SseSmix.salsa20_8 m off = .ok (ow m off (salsaP (sl m off 16))) := by
  have hl := sl_length m off 16 h
  obtain ⟨x, hx, hp⟩ : ∃ x : List W32, x.length = 16 ∧ sl m off 16 = perm x :=
    ⟨iperm (sl m off 16), by simp, (perm_iperm _ hl).symm⟩
  obtain ⟨B0, e0, h0⟩ := loadu_sl m (off + 4 * 0) (by omega)
  obtain ⟨B1, e1, h1⟩ := loadu_sl m (off + 4 * 1) (by omega)
  obtain ⟨B2, e2, h2⟩ := loadu_sl m (off + 4 * 2) (by omega)
  obtain ⟨B3, e3, h3⟩ := loadu_sl m (off + 4 * 3) (by omega)
  have hu : unvecs (B0, B1, B2, B3) = sl m off 16 := by
    rw [unvecs, h0, h1, h2, h3, show (16 : Nat) = 4 + (4 + (4 + 4)) from rfl, sl_append, sl_append, sl_append]
    rfl
  have hv := vecs_unvecs B0 B1 B2 B3 x (hu.trans hp)
  have hw := iter_dround x hx
  have hs : salsaP (sl m off 16) = List.zipWith (· + ·) (unvecs (B0, B1, B2, B3)) (unvecs (vecs (dr4 x))) := by
    rw [hp, salsaP_perm x hx, show salsa20_8_words x = List.zipWith (· + ·) x (dr4 x) from rfl,
      perm_zipWith _ _ _ hx (dr4_length x hx), hu, hp, unvecs_vecs]
  rw [hs]
  unfold SseSmix.salsa20_8
  simp only [SseSmix.ld, e0, e1, e2, e3, Res.bind_ok]
  rw [← hv] at hw
  rw [hw]
  generalize vecs (dr4 x) = v
  obtain ⟨X0, X1, X2, X3⟩ := v
  simp only [SseSmix.st]
  -- reloads see the original contents
  have reload : ∀ (s : List W32) (k : Nat), s.length = 4 * k → k < 4 → ∀ B, mm_loadu_words m (off + 4 * k) = .ok B →
      [B.l0, B.l1, B.l2, B.l3] = sl m (off + 4 * k) 4 → mm_loadu_words (ow m off s) (off + 4 * k) = .ok B := by
    intro s k hs hk B _ hB
    obtain ⟨B', e, h'⟩ := loadu_sl (ow m off s) (off + 4 * k) (by rw [ow_length _ _ _ (by omega)]; omega)
    rw [sl_ow_disj _ _ _ (by omega) _ _ (by omega), ← hB] at h'
    rw [e]; congr 1
    obtain ⟨b0, b1, b2, b3⟩ := B
    obtain ⟨c0, c1, c2, c3⟩ := B'
    simpa using h'
  have hlen : ∀ s : List W32, off + s.length ≤ m.length → (ow m off s).length = m.length := fun s hs => ow_length m off s hs
  rw [storeu_ow _ _ _ (by omega), Res.bind_ok, Nat.mul_zero, Nat.add_zero,
    reload _ 1 (by simp) (by omega) B1 e1 h1, Res.bind_ok, storeu_ow _ _ _ (by rw [hlen _ (by simp; omega)]; omega), Res.bind_ok,
    ow_ow_adj _ _ _ _ _ (by simp; omega) (by simp),
    reload _ 2 (by simp) (by omega) B2 e2 h2, Res.bind_ok, storeu_ow _ _ _ (by rw [hlen _ (by simp; omega)]; omega), Res.bind_ok,
    ow_ow_adj _ _ _ _ _ (by simp; omega) (by simp),
    reload _ 3 (by simp) (by omega) B3 e3 h3, Res.bind_ok, storeu_ow _ _ _ (by rw [hlen _ (by simp; omega)]; omega),
    ow_ow_adj _ _ _ _ _ (by simp; omega) (by simp)]
  rfl

end Scrypt
