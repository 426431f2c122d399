import Verif.Model.Smix
import Verif.Spec.Scrypt
import Verif.Proofs.Slice
import Verif.Proofs.Intrin
namespace Scrypt
open Spec

theorem R_eq (a : W32) (n : Nat) (hn : n < 32) : Smix.R a n = a.rotateLeft n := by
  simp [Smix.R, BitVec.rotateLeft, BitVec.rotateLeftAux, Nat.mod_eq_of_lt hn]

theorem qstep_eq (x : List W32) (d a b n : Nat) (hn : n < 32) (xa xb xd : W32) (ha : x[a]? = some xa)
   (hb : x[b]? = some xb) (hd : x[d]? = some xd) :
   Smix.qstep x d a b n = .ok (x.set d (xd ^^^ (xa + xb).rotateLeft n)) := by
  have hl : d < x.length := by
    rcases Nat.lt_or_ge d x.length with h | h
    · exact h
    · rw [List.getElem?_eq_none h] at hd; cases hd
  rw [Smix.qstep, rd_some ha, Res.bind_ok, rd_some hb, Res.bind_ok, rd_some hd, Res.bind_ok, wr_ok _ hl, R_eq _ _ hn]

theorem quarter_eq (x : List W32) (a b c d : Nat) (xa xb xc xd : W32) (ha : x[a]? = some xa)
   (hb : x[b]? = some xb) (hc : x[c]? = some xc) (hd : x[d]? = some xd) 
   (hab : a ≠ b) (hac : a ≠ c) (had : a ≠ d) (hbc : b ≠ c) (hbd : b ≠ d) (hcd : c ≠ d) (k : List W32 → Res (List W32)) :
   (Smix.qstep x b a d 7 >>= fun x => Smix.qstep x c b a 9 >>= fun x => Smix.qstep x d c b 13 >>= fun x => Smix.qstep x a d c 18 >>= k) 
   = k ((((x.set b (quarterround xa xb xc xd).2.1).set c (quarterround xa xb xc xd).2.2.1).set d (quarterround xa xb xc xd).2.2.2).set a (quarterround xa xb xc xd).1) := by
  have L : ∀ i v, x[i]? = some v → i < x.length := by
    intro i v h
    rcases Nat.lt_or_ge i x.length with h' | h'
    · exact h'
    · rw [List.getElem?_eq_none h'] at h; cases h
  have la := L _ _ ha; have lb := L _ _ hb; have lc := L _ _ hc; have ld := L _ _ hd
  rw [qstep_eq x b a d 7 (by omega) xa xd xb ha hd hb, Res.bind_ok]
  rw [qstep_eq _ c b a 9 (by omega) (quarterround xa xb xc xd).2.1 xa xc (by simp [lb, quarterround]) (by rw [List.getElem?_set_ne (by omega), ha]) (by rw [List.getElem?_set_ne (by omega), hc]), Res.bind_ok]
  rw [qstep_eq _ d c b 13 (by omega) (quarterround xa xb xc xd).2.2.1 (quarterround xa xb xc xd).2.1 xd (by simp [lc, quarterround]) (by rw [List.getElem?_set_ne (by omega)]; simp [lb, quarterround]) (by rw [List.getElem?_set_ne (by omega), List.getElem?_set_ne (by omega), hd]), Res.bind_ok]
  rw [qstep_eq _ a d c 18 (by omega) (quarterround xa xb xc xd).2.2.2 (quarterround xa xb xc xd).2.2.1 xa (by simp [ld, quarterround]) (by rw [List.getElem?_set_ne (by omega)]; simp [lc, quarterround]) (by rw [List.getElem?_set_ne (by omega), List.getElem?_set_ne (by omega), List.getElem?_set_ne (by omega), ha]), Res.bind_ok]
  rfl

theorem colStep_spec (x : List W32) (h : x.length = 16) : Smix.colStep x = .ok (columnround x) := by
  match x, h with
  | [x0, x1, x2, x3, x4, x5, x6, x7, x8, x9, x10, x11, x12, x13, x14, x15], _ =>
   rcases h0 : quarterround x0 x4 x8 x12 with ⟨a0, b0, c0, d0⟩
   rcases h1 : quarterround x5 x9 x13 x1 with ⟨a1, b1, c1, d1⟩
   rcases h2 : quarterround x10 x14 x2 x6 with ⟨a2, b2, c2, d2⟩
   rcases h3 : quarterround x15 x3 x7 x11 with ⟨a3, b3, c3, d3⟩
   unfold Smix.colStep
   rw [quarter_eq _ 0 4 8 12 x0 x4 x8 x12 rfl rfl rfl rfl (by omega) (by omega) (by omega) (by omega) (by omega) (by omega), h0]
   simp only [List.set_cons_succ, List.set_cons_zero]
   rw [quarter_eq _ 5 9 13 1 x5 x9 x13 x1 rfl rfl rfl rfl (by omega) (by omega) (by omega) (by omega) (by omega) (by omega), h1]
   simp only [List.set_cons_succ, List.set_cons_zero]
   rw [quarter_eq _ 10 14 2 6 x10 x14 x2 x6 rfl rfl rfl rfl (by omega) (by omega) (by omega) (by omega) (by omega) (by omega), h2]
   simp only [List.set_cons_succ, List.set_cons_zero]
   have l := fun y p1 p2 p3 p4 => quarter_eq y 15 3 7 11 x15 x3 x7 x11 p1 p2 p3 p4 (by omega) (by omega) (by omega) (by omega) (by omega) (by omega) (fun x => .ok x)
   simp only [← Res.pure_eq, bind_pure] at l
   rw [l _ rfl rfl rfl rfl, h3]
   simp only [List.set_cons_succ, List.set_cons_zero]
   simp only [columnround, h0, h1, h2, h3, Res.pure_eq]

theorem rowStep_spec (x : List W32) (h : x.length = 16) : Smix.rowStep x = .ok (rowround x) := by
  match x, h with
  | [x0, x1, x2, x3, x4, x5, x6, x7, x8, x9, x10, x11, x12, x13, x14, x15], _ =>
   rcases h0 : quarterround x0 x1 x2 x3 with ⟨a0, b0, c0, d0⟩
   rcases h1 : quarterround x5 x6 x7 x4 with ⟨a1, b1, c1, d1⟩
   rcases h2 : quarterround x10 x11 x8 x9 with ⟨a2, b2, c2, d2⟩
   rcases h3 : quarterround x15 x12 x13 x14 with ⟨a3, b3, c3, d3⟩
   unfold Smix.rowStep
   rw [quarter_eq _ 0 1 2 3 x0 x1 x2 x3 rfl rfl rfl rfl (by omega) (by omega) (by omega) (by omega) (by omega) (by omega), h0]
   simp only [List.set_cons_succ, List.set_cons_zero]
   rw [quarter_eq _ 5 6 7 4 x5 x6 x7 x4 rfl rfl rfl rfl (by omega) (by omega) (by omega) (by omega) (by omega) (by omega), h1]
   simp only [List.set_cons_succ, List.set_cons_zero]
   rw [quarter_eq _ 10 11 8 9 x10 x11 x8 x9 rfl rfl rfl rfl (by omega) (by omega) (by omega) (by omega) (by omega) (by omega), h2]
   simp only [List.set_cons_succ, List.set_cons_zero]
   have l := fun y p1 p2 p3 p4 => quarter_eq y 15 12 13 14 x15 x12 x13 x14 p1 p2 p3 p4 (by omega) (by omega) (by omega) (by omega) (by omega) (by omega) (fun x => .ok x)
   simp only [← Res.pure_eq, bind_pure] at l
   rw [l _ rfl rfl rfl rfl, h3]
   simp only [List.set_cons_succ, List.set_cons_zero]
   simp only [rowround, h0, h1, h2, h3, Res.pure_eq]

theorem columnround_length (x : List W32) (h : x.length = 16) : (columnround x).length = 16 := by
  match x, h with
  | [x0, x1, x2, x3, x4, x5, x6, x7, x8, x9, x10, x11, x12, x13, x14, x15], _ => rfl

theorem rowround_length (x : List W32) (h : x.length = 16) : (rowround x).length = 16 := by
  match x, h with
  | [x0, x1, x2, x3, x4, x5, x6, x7, x8, x9, x10, x11, x12, x13, x14, x15], _ => rfl

theorem doubleround_length (x : List W32) (h : x.length = 16) : (doubleround x).length = 16 :=
  rowround_length _ (columnround_length _ h)

/-- Four double rounds. -/
def dr4 (x : List W32) : List W32 := doubleround (doubleround (doubleround (doubleround x)))

theorem dr4_length (x : List W32) (h : x.length = 16) : (dr4 x).length = 16 :=
  doubleround_length _ (doubleround_length _ (doubleround_length _ (doubleround_length _ h)))

theorem forLoop4 {σ : Type} (f : σ → Nat → Res σ) (s s1 s2 s3 s4 : σ) (h1 : f s 0 = .ok s1) (h2 : f s1 1 = .ok s2)
    (h3 : f s2 2 = .ok s3) (h4 : f s3 3 = .ok s4) : forLoop 4 f s = .ok s4 := by
  rw [forLoop_succ, forLoop_succ, forLoop_succ, forLoop_succ, forLoop_zero, Res.bind_ok, h1, Res.bind_ok, h2,
    Res.bind_ok, h3, Res.bind_ok, h4]

theorem rounds8_spec (x : List W32) (h : x.length = 16) : Smix.rounds8 x = .ok (dr4 x) := by
  have step : ∀ y : List W32, y.length = 16 → (do
    let x ← Smix.colStep y
    Smix.rowStep x) = .ok (doubleround y) := by
    intro y hy
    rw [colStep_spec y hy, Res.bind_ok, rowStep_spec _ (columnround_length _ hy)]; rfl
  have h1 := doubleround_length _ h
  have h2 := doubleround_length _ h1
  have h3 := doubleround_length _ h2
  rw [dr4]
  exact forLoop4 _ _ _ _ _ _ (step _ h) (step _ h1) (step _ h2) (step _ h3)

@[simp] theorem salsa20_8_words_length (x : List W32) (h : x.length = 16) : (salsa20_8_words x).length = 16 := by
  have := dr4_length x h
  unfold dr4 at this
  simp [salsa20_8_words, h, this]

/-- The generic `salsa20_8` on a region of memory. -/
theorem gen_salsa_spec (m : List W32) (off : Nat) (h : off + 16 ≤ m.length) :
    Gen.salsa20_8 m off = .ok (ow m off (salsa20_8_words (sl m off 16))) := by
  have hl := sl_length m off 16 h
  have hd := dr4_length _ hl
  rw [Gen.salsa20_8, rdSlice_sl h, Res.bind_ok, rounds8_spec _ hl, Res.bind_ok]
  have hs : salsa20_8_words (sl m off 16) = List.zipWith (· + ·) (sl m off 16) (dr4 (sl m off 16)) := rfl
  rw [hs]
  generalize dr4 (sl m off 16) = d at hd
  rw [loop_cells off 16 m (fun i => (sl m off 16).getD i 0 + d.getD i 0) _ h]
  · congr 2
    apply List.ext_getElem?
    intro i
    rcases Nat.lt_or_ge i 16 with hi | hi
    · simp only [List.getElem?_map, List.getElem?_range, hi, List.getElem?_zipWith, List.getD_eq_getElem?_getD]
      have a1 : (sl m off 16)[i]? = some (sl m off 16)[i] := List.getElem?_eq_getElem _
      have a2 : d[i]? = some d[i] := List.getElem?_eq_getElem _
      simp [a1, a2]
    · rw [List.getElem?_eq_none (by simpa using hi), List.getElem?_eq_none (by simp [hl, hi])]
  · intro k m' hk hm _ hrest
    have e0 : (sl m off 16)[k]? = some (sl m off 16)[k] := List.getElem?_eq_getElem _
    have e1 : m'[off + k]? = some (sl m off 16)[k] := by
      rw [hrest _ (by omega), ← e0, sl_getElem?, if_pos hk]
    have e2 : d[k]? = some d[k] := List.getElem?_eq_getElem _
    rw [rd_some e1, rd_some e2]
    simp only [Res.bind_ok]
    rw [wr_ok _ (by omega)]
    simp [List.getD_eq_getElem?_getD, e2, e0]

/-! ### SSE2: permuted layout -/

/-- The diagonal layout: word `i` of the vector form is word `5i mod 16` of the block. -/
def perm (x : List W32) : List W32 := (List.range 16).map fun i => x.getD (i * 5 % 16) 0

@[simp] theorem perm_length (x : List W32) : (perm x).length = 16 := by simp [perm]

theorem shl_xor_shr (x : W32) (n : Nat) (h0 : 0 < n) (hn : n < 32) :
    x <<< n ^^^ x >>> (32 - n) = x.rotateLeft n := by
  rw [← R_eq _ _ hn, Smix.R]
  apply BitVec.eq_of_getLsbD_eq
  intro j hj
  simp only [BitVec.getLsbD_xor, BitVec.getLsbD_or, BitVec.getLsbD_shiftLeft, BitVec.getLsbD_ushiftRight]
  by_cases h : j < n
  · simp [h]
  · rw [BitVec.getLsbD_of_ge x (32 - n + j) (by omega)]; simp

theorem qv_eq (D A B : V4) (n : Nat) (h0 : 0 < n) (hn : n < 32) :
    SseSmix.qv D A B n = ⟨D.l0 ^^^ (A.l0 + B.l0).rotateLeft n, D.l1 ^^^ (A.l1 + B.l1).rotateLeft n,
      D.l2 ^^^ (A.l2 + B.l2).rotateLeft n, D.l3 ^^^ (A.l3 + B.l3).rotateLeft n⟩ := by
  simp only [SseSmix.qv, mm_add_epi32, mm_xor_si128, mm_slli_epi32, mm_srli_epi32, V4.zip, V4.map,
    BitVec.xor_assoc, shl_xor_shr _ n h0 hn]

/-- The four vectors of a block in diagonal layout. -/
def vecs (x : List W32) : V4 × V4 × V4 × V4 :=
  let g := fun i => (perm x).getD i 0
  (⟨g 0, g 1, g 2, g 3⟩, ⟨g 4, g 5, g 6, g 7⟩, ⟨g 8, g 9, g 10, g 11⟩, ⟨g 12, g 13, g 14, g 15⟩)

theorem shuf93 (v : V4) : mm_shuffle_epi32 v 0x93 = ⟨v.l3, v.l0, v.l1, v.l2⟩ := rfl
theorem shuf4E (v : V4) : mm_shuffle_epi32 v 0x4E = ⟨v.l2, v.l3, v.l0, v.l1⟩ := rfl
theorem shuf39 (v : V4) : mm_shuffle_epi32 v 0x39 = ⟨v.l1, v.l2, v.l3, v.l0⟩ := rfl

theorem dround_spec (x : List W32) (h : x.length = 16) :
    SseSmix.dround (vecs x) = vecs (doubleround x) := by
  match x, h with
  | [x0, x1, x2, x3, x4, x5, x6, x7, x8, x9, x10, x11, x12, x13, x14, x15], _ =>
    simp only [SseSmix.dround, vecs, perm, List.range, List.range.loop, List.map, List.getD_cons_zero,
      List.getD_cons_succ, Nat.reduceMul, Nat.reduceMod, doubleround, columnround, rowround, quarterround]
    simp only [qv_eq _ _ _ 7 (by omega) (by omega), qv_eq _ _ _ 9 (by omega) (by omega),
      qv_eq _ _ _ 13 (by omega) (by omega), qv_eq _ _ _ 18 (by omega) (by omega), shuf93, shuf4E, shuf39]

end Scrypt
