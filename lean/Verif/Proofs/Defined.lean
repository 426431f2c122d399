import Verif.Spec.Defined
import Verif.Proofs.AccessTr
import Verif.Model.AccessEnc
import Mathlib.Tactic.ByContra
/-
A calculus for `WrittenFirst`.
-/
namespace Scrypt
open Logged

theorem after_nil (D : Cells) : after D [] = D := by
  funext a i
  simp [after]

theorem after_append (D : Cells) (t u : List Acc) : after D (t ++ u) = after (after D t) u := by
  funext a i
  simp only [after, List.mem_append, or_assoc]

theorem after_mono {D D' : Cells} (h : ∀ a i, D a i → D' a i) (t : List Acc) : ∀ a i, after D t a i → after D' t a i :=
  fun a i hx => hx.imp (h a i) id

theorem wf_nil (may D : Cells) : WrittenFirst may D [] := by
  intro pre c post e
  simp at e

theorem wf_cons {may D : Cells} {c : Acc} {t : List Acc} :
    WrittenFirst may D (c :: t) ↔ ((c.write = false → D c.arr c.idx) ∧ (c.write = true → may c.arr c.idx)) ∧ WrittenFirst may (after D [c]) t := by
  constructor
  · intro h
    refine ⟨?_, fun pre d post e => ?_⟩
    · have := h [] c t rfl
      rw [after_nil] at this
      exact this
    · have := h (c :: pre) d post (by rw [e]; rfl)
      rw [show c :: pre = [c] ++ pre from rfl, after_append] at this
      exact this
  · rintro ⟨h1, h2⟩ pre d post e
    cases pre with
    | nil =>
      obtain ⟨rfl, rfl⟩ := List.cons.inj e
      rw [after_nil]
      exact h1
    | cons x pre =>
      obtain ⟨rfl, e'⟩ := List.cons.inj e
      rw [show c :: pre = [c] ++ pre from rfl, after_append]
      exact h2 pre d post e'

theorem wf_append {may D : Cells} {t u : List Acc} : WrittenFirst may D (t ++ u) ↔ WrittenFirst may D t ∧ WrittenFirst may (after D t) u := by
  induction t generalizing D with
  | nil => simp only [List.nil_append, after_nil]; exact ⟨fun h => ⟨wf_nil _ _, h⟩, fun h => h.2⟩
  | cons c t ih =>
    rw [List.cons_append, wf_cons, ih, wf_cons, show c :: t = [c] ++ t from rfl, after_append]
    simp only [and_assoc]

theorem wf_mono {may D D' : Cells} (h : ∀ a i, D a i → D' a i) {t : List Acc} (ht : WrittenFirst may D t) : WrittenFirst may D' t :=
  fun pre c post e => ⟨fun hc => after_mono h _ _ _ ((ht pre c post e).1 hc), (ht pre c post e).2⟩

theorem mem_accs' {a b : Arr} {w v : Bool} {o n i : Nat} : (⟨b, i, v⟩ : Acc) ∈ accs a w o n ↔ b = a ∧ v = w ∧ o ≤ i ∧ i < o + n := by
  unfold accs
  simp only [List.mem_map, List.mem_range, Acc.mk.injEq]
  constructor
  · rintro ⟨k, hk, rfl, rfl, rfl⟩
    exact ⟨rfl, rfl, by omega, by omega⟩
  · rintro ⟨rfl, rfl, h1, h2⟩
    exact ⟨i - o, by omega, rfl, by omega, rfl⟩

theorem wf_reads {may D : Cells} {a : Arr} {o n : Nat} (h : ∀ i, o ≤ i → i < o + n → D a i) : WrittenFirst may D (accs a false o n) := by
  intro pre c post e
  obtain ⟨b, i, v⟩ := c
  have hm : (⟨b, i, v⟩ : Acc) ∈ accs a false o n := by rw [e]; simp
  obtain ⟨rfl, rfl, h1, h2⟩ := mem_accs'.1 hm
  exact ⟨fun _ => Or.inl (h i h1 h2), fun hc => nomatch hc⟩

theorem wf_writes {may D : Cells} {a : Arr} {o n : Nat} (h : ∀ i, o ≤ i → i < o + n → may a i) : WrittenFirst may D (accs a true o n) := by
  intro pre c post e
  obtain ⟨b, i, v⟩ := c
  have hm : (⟨b, i, v⟩ : Acc) ∈ accs a true o n := by rw [e]; simp
  obtain ⟨rfl, rfl, h1, h2⟩ := mem_accs'.1 hm
  exact ⟨fun hc => (nomatch hc), fun _ => h i h1 h2⟩

/-- The elements `o ≤ i < o + n` of `a`. -/
def cells (a : Arr) (o n : Nat) : Cells := fun b i => b = a ∧ o ≤ i ∧ i < o + n

/-- No element. -/
def noCells : Cells := fun _ _ => False

/-- `D` and `E`. -/
def both (D E : Cells) : Cells := fun a i => D a i ∨ E a i

/-- `D` contains `E`. -/
def Has (D E : Cells) : Prop := ∀ a i, E a i → D a i

theorem Has.refl (D : Cells) : Has D D := fun _ _ h => h
theorem Has.trans {A B C : Cells} (h : Has A B) (h' : Has B C) : Has A C := fun a i hc => h a i (h' a i hc)
theorem Has.left {D E F : Cells} (h : Has D F) : Has (both D E) F := fun a i hf => Or.inl (h a i hf)
theorem Has.right {D E F : Cells} (h : Has E F) : Has (both D E) F := fun a i hf => Or.inr (h a i hf)
theorem Has.both {D E F : Cells} (h : Has D E) (h' : Has D F) : Has D (both E F) := fun a i hf => hf.elim (h a i) (h' a i)
theorem Has.none (D : Cells) : Has D noCells := fun _ _ h => h.elim
theorem Has.at {D : Cells} {a : Arr} {o n i : Nat} (h : Has D (cells a o n)) (h1 : o ≤ i) (h2 : i < o + n) : D a i := h a i ⟨rfl, h1, h2⟩
theorem Has.sub {D : Cells} {a : Arr} {o n o' n' : Nat} (h : Has D (cells a o n)) (h1 : o ≤ o') (h2 : o' + n' ≤ o + n) : Has D (cells a o' n') :=
  fun _ _ hc => hc.1 ▸ h.at (Nat.le_trans h1 hc.2.1) (by have := hc.2; omega)
theorem Has.of {D : Cells} {a : Arr} {o n : Nat} (h : ∀ i, o ≤ i → i < o + n → D a i) : Has D (cells a o n) := fun _ i hc => hc.1 ▸ h i hc.2.1 hc.2.2
theorem has_cells {a : Arr} {o n o' n' : Nat} (h1 : o ≤ o') (h2 : o' + n' ≤ o + n) : Has (cells a o n) (cells a o' n') :=
  fun _ _ hc => ⟨hc.1, by have := hc.2; omega, by have := hc.2; omega⟩
/-- Two adjoining parts. -/
theorem Has.join {D : Cells} {a : Arr} {o n m o' n' : Nat} (h : Has D (cells a o n)) (h' : Has D (cells a (o + n) m)) (h1 : o ≤ o') (h2 : o' + n' ≤ o + n + m) :
    Has D (cells a o' n') := Has.of fun i hi hj => by
  by_cases hx : i < o + n
  · exact h.at (by omega) hx
  · exact h'.at (by omega) (by omega)

theorem both_none (D : Cells) : both D noCells = D := by
  funext a i
  simp [both, noCells]

/-- If the computation returns, it has read only what had a value and written only where it may; its result meets `R`, and the elements of `P` have a value. -/
def Def {α : Type} (may D : Cells) (x : Logged α) (R : α → Prop) (P : α → Cells) : Prop :=
  ∀ a t, x = Res.ok (a, t) → WrittenFirst may D t ∧ R a ∧ Has (after D t) (P a)

/-- The same, saying nothing of the result. -/
abbrev Def0 {α : Type} (may D : Cells) (x : Logged α) : Prop := Def may D x (fun _ => True) (fun _ => noCells)

variable {may D : Cells}

theorem Def.mono {α : Type} {x : Logged α} {R : α → Prop} {P : α → Cells} {D' : Cells} (h : Def may D x R P) (hd : Has D' D) : Def may D' x R P := by
  intro a t e
  obtain ⟨h1, h2, h3⟩ := h a t e
  exact ⟨wf_mono hd h1, h2, fun b i hb => after_mono hd t b i (h3 b i hb)⟩

theorem Def.conseq {α : Type} {x : Logged α} {R R' : α → Prop} {P P' : α → Cells} (h : Def may D x R P) (hr : ∀ a, R a → R' a)
    (hp : ∀ a, R a → Has (both D (P a)) (P' a)) : Def may D x R' P' := by
  intro a t e
  obtain ⟨h1, h2, h3⟩ := h a t e
  refine ⟨h1, hr a h2, fun b i hb => ?_⟩
  rcases hp a h2 b i hb with h | h
  · exact Or.inl h
  · exact h3 b i h

theorem Def.drop {α : Type} {x : Logged α} {R : α → Prop} {P : α → Cells} (h : Def may D x R P) : Def0 may D x :=
  h.conseq (fun _ _ => trivial) fun _ _ => Has.none _

theorem def_bind {α β : Type} {x : Logged α} {f : α → Logged β} {R : α → Prop} {P : α → Cells} {R2 : β → Prop} {P2 : β → Cells} (hx : Def may D x R P)
    (hf : ∀ a, R a → Def may (both D (P a)) (f a) R2 P2) : Def may D (x >>= f) R2 P2 := by
  intro b k e
  obtain ⟨a, t, u, e1, e2, rfl⟩ := tr_bind_inv e
  obtain ⟨h1, h2, h3⟩ := hx a t e1
  obtain ⟨k1, k2, k3⟩ := hf a h2 b u e2
  have hsub : ∀ c i, both D (P a) c i → after D t c i := fun c i h => h.elim Or.inl (h3 c i)
  refine ⟨wf_append.2 ⟨h1, wf_mono hsub k1⟩, k2, fun c i hc => ?_⟩
  rw [after_append]
  exact after_mono hsub u c i (k3 c i hc)

/-- The first part gives no element a value that the second needs. -/
theorem def_seq {α β : Type} {x : Logged α} {f : α → Logged β} {R : α → Prop} {P : α → Cells} {R2 : β → Prop} {P2 : β → Cells} (hx : Def may D x R P)
    (hf : ∀ a, R a → Def may D (f a) R2 P2) : Def may D (x >>= f) R2 P2 :=
  def_bind hx fun a ha => (hf a ha).mono fun _ _ h => Or.inl h

theorem def_pure {α : Type} {a : α} {R : α → Prop} {P : α → Cells} (h : R a) (hp : Has D (P a)) : Def may D (pure a : Logged α) R P := by
  intro b t e
  obtain ⟨rfl, rfl⟩ := Prod.mk.inj (Res.ok.inj e)
  exact ⟨wf_nil _ _, h, by rw [after_nil]; exact hp⟩

theorem def_pure0 {α : Type} {a : α} : Def0 may D (pure a : Logged α) := def_pure trivial (Has.none _)

theorem def_log {α : Type} {t : List Acc} {x : Res α} {R : α → Prop} {P : α → Cells} (hw : WrittenFirst may D t) (h : ∀ a, x = .ok a → R a ∧ Has (after D t) (P a)) :
    Def may D (log t x) R P := by
  intro b u e
  cases x with
  | ok a =>
    obtain ⟨rfl, rfl⟩ := Prod.mk.inj (Res.ok.inj e)
    exact ⟨hw, h a rfl⟩
  | ub => cases e
  | abort => cases e

theorem def_log0 {α : Type} {t : List Acc} {x : Res α} (hw : WrittenFirst may D t) : Def0 may D (log t x) :=
  def_log hw fun _ _ => ⟨trivial, Has.none _⟩

/-- An operation that accesses nothing. -/
theorem def_quiet {α : Type} {x : Res α} {R : α → Prop} (h : ∀ a, x = .ok a → R a) : Def may D (log [] x) R (fun _ => noCells) :=
  def_log (wf_nil _ _) fun a e => ⟨h a e, Has.none _⟩

theorem def_reads {α : Type} {a : Arr} {o n : Nat} {x : Res α} (h : Has D (cells a o n)) : Def may D (log (accs a false o n) x) (fun v => x = .ok v) (fun _ => noCells) :=
  def_log (wf_reads fun _ h1 h2 => h.at h1 h2) fun _ e => ⟨e, Has.none _⟩

theorem def_writes {α : Type} {a : Arr} {o n : Nat} {x : Res α} (h : Has may (cells a o n)) :
    Def may D (log (accs a true o n) x) (fun v => x = .ok v) (fun _ => cells a o n) :=
  def_log (wf_writes fun _ h1 h2 => h.at h1 h2) fun _ e => ⟨e, fun _ _ hc => Or.inr (mem_accs'.2 ⟨hc.1, rfl, hc.2⟩)⟩

theorem accs_one (a : Arr) (w : Bool) (i : Nat) : accs a w i 1 = [⟨a, i, w⟩] := by simp [accs, List.range_succ]

theorem def_rd {α : Type} {a : Arr} {m : List α} {i : Nat} (h : D a i) : Def0 may D (rdT a m i) := by
  unfold rdT
  rw [← accs_one]
  exact (def_reads (Has.of fun j h1 h2 => (show j = i by omega) ▸ h)).drop

theorem def_wr {α : Type} {a : Arr} {m : List α} {i : Nat} {v : α} (h : may a i) :
    Def may D (wrT a m i v) (fun _ => True) (fun _ => cells a i 1) := by
  unfold wrT
  rw [← accs_one]
  exact (def_writes (Has.of fun j h1 h2 => (show j = i by omega) ▸ h)).conseq (fun _ _ => trivial) fun _ _ => Has.right (Has.refl _)

theorem def_ite {α : Type} {c : Prop} [Decidable c] {x y : Logged α} {R : α → Prop} {P : α → Cells} (hx : c → Def may D x R P) (hy : ¬c → Def may D y R P) :
    Def may D (if c then x else y) R P := by
  by_cases h : c
  · rw [if_pos h]; exact hx h
  · rw [if_neg h]; exact hy h

/-- A loop whose `i`-th pass gives more elements a value. -/
theorem def_loop {σ : Type} {f : σ → Nat → Logged σ} {s : σ} {R : Nat → σ → Prop} (G : Nat → Cells) {n : Nat} (h0 : R 0 s) (hg : Has D (G 0))
    (h : ∀ s i, i < n → R i s → Def may (both D (G i)) (f s i) (R (i + 1)) (fun _ => G (i + 1))) : Def may D (forLoopT n f s) (R n) (fun _ => G n) := by
  suffices H : ∀ k, k ≤ n → Def may D (forLoopT k f s) (R k) (fun _ => G k) from H n (Nat.le_refl n)
  intro k
  induction k with
  | zero => intro _; exact def_pure h0 hg
  | succ k ih => intro hk; exact def_bind (ih (by omega)) fun a ha => h a k (by omega) ha

/-- A loop that gives no new element a value. -/
theorem def_loop0 {σ : Type} {f : σ → Nat → Logged σ} {s : σ} {R : σ → Prop} {n : Nat} (h0 : R s)
    (h : ∀ s i, i < n → R s → Def may D (f s i) R (fun _ => noCells)) : Def may D (forLoopT n f s) R (fun _ => noCells) :=
  def_loop (R := fun _ => R) (fun _ => noCells) h0 (Has.none _) fun s i hi hs => by rw [both_none]; exact h s i hi hs

theorem def_for0 {σ : Type} {f : σ → Nat → Logged σ} {s : σ} {n : Nat} (h : ∀ s i, i < n → Def0 may D (f s i)) : Def0 may D (forLoopT n f s) :=
  def_loop0 (R := fun _ => True) trivial fun s i hi _ => h s i hi

/-- Where the callee that is given `&a[off]` finds the elements. -/
def pulled (a : Arr) (off : Nat) (D : Cells) : Cells := fun b i => if b = a then D b (off + i) else D b i

theorem wf_moved {a : Arr} {off : Nat} {t : List Acc} (h : WrittenFirst (pulled a off may) (pulled a off D) t) : WrittenFirst may D (t.map (Acc.moved a off)) := by
  induction t generalizing D with
  | nil => exact wf_nil _ _
  | cons c t ih =>
    obtain ⟨⟨h1, h2⟩, h3⟩ := wf_cons.1 h
    rw [List.map_cons, wf_cons]
    obtain ⟨b, i, w⟩ := c
    refine ⟨?_, ih (wf_mono ?_ h3)⟩
    · simp only [pulled] at h1 h2
      simp only [Acc.moved]
      by_cases hb : b = a
      · rw [if_pos hb]
        exact ⟨fun hw => by have := h1 hw; rwa [if_pos hb] at this, fun hw => by have := h2 hw; rwa [if_pos hb] at this⟩
      · rw [if_neg hb]
        exact ⟨fun hw => by have := h1 hw; rwa [if_neg hb] at this, fun hw => by have := h2 hw; rwa [if_neg hb] at this⟩
    · intro e j hj
      simp only [after, List.mem_singleton, pulled, Acc.moved] at hj ⊢
      by_cases he : e = a
      · rw [if_pos he] at hj ⊢
        rcases hj with hj | hj
        · exact Or.inl hj
        · obtain ⟨rfl, rfl, rfl⟩ := Acc.mk.inj hj
          exact Or.inr (by rw [if_pos he])
      · rw [if_neg he] at hj ⊢
        rcases hj with hj | hj
        · exact Or.inl hj
        · obtain ⟨rfl, rfl, rfl⟩ := Acc.mk.inj hj
          exact Or.inr (by rw [if_neg he])

theorem def_move {α : Type} {a : Arr} {off : Nat} {x : Logged α} {R : α → Prop} {P : α → Cells} (h : Def (pulled a off may) (pulled a off D) x R P)
    (hp : ∀ v i, ¬P v a i) : Def may D (move a off x) R P := by
  intro v t e
  cases x with
  | ok r =>
    obtain ⟨rfl, rfl⟩ := Prod.mk.inj (Res.ok.inj e)
    obtain ⟨h1, h2, h3⟩ := h r.1 r.2 rfl
    refine ⟨wf_moved h1, h2, fun b i hb => ?_⟩
    have hne : b ≠ a := fun e => hp _ _ (e ▸ hb)
    rcases h3 b i hb with hh | hh
    · refine Or.inl ?_
      simp only [pulled] at hh
      rwa [if_neg hne] at hh
    · exact Or.inr (List.mem_map.2 ⟨_, hh, by simp only [Acc.moved]; rw [if_neg hne]⟩)
  | ub => cases e
  | abort => cases e

end Scrypt
