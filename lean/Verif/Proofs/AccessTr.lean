import Verif.Model.Access
import Verif.Proofs.SmixBytes
import Mathlib.Tactic.Common
/-
Calculating with logged computations: forgetting the log, and logs that do not depend on the data.
-/
namespace Scrypt
open Spec

namespace Logged

theorem erase_pure {α : Type} (a : α) : erase (pure a : Logged α) = .ok a := rfl

theorem erase_bind {α β : Type} (x : Logged α) (f : α → Logged β) : erase (x >>= f) = (erase x >>= fun a => erase (f a)) := by
  show Res.bind (Logged.bind x f) _ = Res.bind (Res.bind x _) _
  unfold Logged.bind
  cases x with
  | ok a =>
    show Res.bind (Res.bind (f a.1) _) _ = Res.bind (f a.1) _
    cases f a.1 <;> rfl
  | ub => rfl
  | abort => rfl

theorem erase_log {α : Type} (t : List Acc) (x : Res α) : erase (log t x) = x := by cases x <;> rfl

end Logged

open Logged

theorem erase_forLoopT {σ : Type} (f : σ → Nat → Logged σ) (s : σ) : ∀ n, erase (forLoopT n f s) = forLoop n (fun s i => erase (f s i)) s
  | 0 => rfl
  | n + 1 => by
    rw [forLoopT, erase_bind, erase_forLoopT f s n]
    rfl

/-- The computation, if it returns, has made exactly the accesses `t`. -/
def HasTr {α : Type} (x : Logged α) (t : List Acc) : Prop := ∀ a u, x = Res.ok (a, u) → u = t

theorem hasTr_pure {α : Type} (a : α) : HasTr (pure a : Logged α) [] := by
  intro b k h
  exact (Prod.mk.inj (Res.ok.inj h)).2.symm

theorem hasTr_log {α : Type} (t : List Acc) (x : Res α) : HasTr (log t x) t := by
  intro b k h
  cases x with
  | ok a => exact (Prod.mk.inj (Res.ok.inj h)).2.symm
  | ub => cases h
  | abort => cases h

theorem tr_bind_inv {α β : Type} {x : Logged α} {f : α → Logged β} {b : β} {k : List Acc} (h : (x >>= f) = (Res.ok (b, k) : Res _)) :
    ∃ a i j, x = Res.ok (a, i) ∧ f a = Res.ok (b, j) ∧ k = i ++ j := by
  have h : Logged.bind x f = Res.ok (b, k) := h
  unfold Logged.bind at h
  obtain ⟨a, h1, h⟩ := Res.bind_eq_ok.1 (show (_ >>= _ : Res _) = _ from h)
  obtain ⟨c, h2, h⟩ := Res.bind_eq_ok.1 (show (_ >>= _ : Res _) = _ from h)
  obtain ⟨h3, h4⟩ := Prod.mk.inj (Res.ok.inj h)
  exact ⟨a.1, a.2, c.2, h1, by rw [h2, ← h3], h4.symm⟩

theorem hasTr_bind {α β : Type} {x : Logged α} {f : α → Logged β} {t u : List Acc} (hx : HasTr x t) (hf : ∀ a, HasTr (f a) u) : HasTr (x >>= f) (t ++ u) := by
  intro b k h
  obtain ⟨a, i, j, h1, h2, h3⟩ := tr_bind_inv h
  rw [h3, hx a i h1, hf a b j h2]

/-- As `hasTr_bind`, when the rest needs to know that the first part returned its value. -/
theorem hasTr_bind' {α β : Type} {x : Logged α} {f : α → Logged β} {t u : List Acc} (hx : HasTr x t) (hf : ∀ a, erase x = .ok a → HasTr (f a) u) :
    HasTr (x >>= f) (t ++ u) := by
  intro b k h
  obtain ⟨a, i, j, h1, h2, h3⟩ := tr_bind_inv h
  rw [h3, hx a i h1, hf a (by rw [h1]; rfl) b j h2]

theorem hasTr_forLoop {σ : Type} {f : σ → Nat → Logged σ} {t : Nat → List Acc} (hf : ∀ s i, HasTr (f s i) (t i)) (s : σ) :
    ∀ n, HasTr (forLoopT n f s) ((List.range n).flatMap t)
  | 0 => hasTr_pure s
  | n + 1 => by
    rw [List.range_succ, List.flatMap_append]
    refine hasTr_bind (hasTr_forLoop hf s n) (fun s => ?_)
    rw [List.flatMap_singleton]
    exact hf s n

theorem HasTr.cast {α : Type} {x : Logged α} {t u : List Acc} (h : HasTr x t) (e : t = u) : HasTr x u := e ▸ h

theorem tr_of {α : Type} {x : Logged α} {t : List Acc} {a : α} (h : erase x = .ok a) (ht : HasTr x t) : x = Res.ok (a, t) := by
  cases x with
  | ok p =>
    obtain ⟨b, u⟩ := p
    have h1 : b = a := Res.ok.inj h
    have h2 := ht b u rfl
    rw [h1, h2]
  | ub => cases h
  | abort => cases h

theorem tr_bind {α β : Type} {x : Logged α} {f : α → Logged β} {a : α} {b : β} {t u : List Acc} (hx : x = Res.ok (a, t)) (hf : f a = Res.ok (b, u)) :
    (x >>= f) = (Res.ok (b, t ++ u) : Res _) := by
  subst hx
  show Res.bind (f a) _ = _
  rw [hf]
  rfl

/-- A loop with an invariant, and what every turn accesses. -/
theorem forLoopT_inv {σ : Type} {n : Nat} {f : σ → Nat → Logged σ} {s : σ} (I : Nat → σ → Prop) (t : Nat → List Acc) (h0 : I 0 s)
    (hs : ∀ i s, i < n → I i s → ∃ s', f s i = Res.ok (s', t i) ∧ I (i + 1) s') :
    ∃ s', forLoopT n f s = Res.ok (s', (List.range n).flatMap t) ∧ I n s' := by
  induction n with
  | zero => exact ⟨s, rfl, h0⟩
  | succ n ih =>
    obtain ⟨s1, e1, i1⟩ := ih (fun i s hi => hs i s (by omega))
    obtain ⟨s2, e2, i2⟩ := hs n s1 (by omega) i1
    refine ⟨s2, ?_, i2⟩
    rw [List.range_succ, List.flatMap_append, List.flatMap_singleton]
    exact tr_bind e1 e2

/-! ### The accesses to V -/

/-- The accesses to the table V among `t`. -/
def onV (t : List Acc) : List Acc := t.filter fun a => decide (a.arr = .V)

@[simp] theorem onV_nil : onV [] = [] := rfl
@[simp] theorem onV_append (t u : List Acc) : onV (t ++ u) = onV t ++ onV u := List.filter_append ..
@[simp] theorem onV_cons (a : Acc) (u : List Acc) : onV (a :: u) = (if a.arr = .V then [a] else []) ++ onV u := by
  unfold onV
  rw [List.filter_cons]
  by_cases h : a.arr = .V <;> simp [h]

theorem onV_flatMap (l : List Nat) (t : Nat → List Acc) : onV (l.flatMap t) = l.flatMap fun i => onV (t i) := by
  induction l with
  | nil => rfl
  | cons a l ih => rw [List.flatMap_cons, onV_append, ih, List.flatMap_cons]

@[simp] theorem onV_accs (w : Bool) (o n : Nat) : onV (accs .V w o n) = accs .V w o n := by
  unfold onV accs
  apply List.filter_eq_self.2
  intro a ha
  obtain ⟨k, _, rfl⟩ := List.mem_map.1 ha
  rfl

theorem onV_accs_ne (a : Arr) (ha : a ≠ .V) (w : Bool) (o n : Nat) : onV (accs a w o n) = [] := by
  unfold onV accs
  apply List.filter_eq_nil_iff.2
  intro b hb
  obtain ⟨k, _, rfl⟩ := List.mem_map.1 hb
  simpa using ha

@[simp] theorem onV_accs_XY (w : Bool) (o n : Nat) : onV (accs .XY w o n) = [] := onV_accs_ne _ (by decide) _ _ _
@[simp] theorem onV_accs_B (w : Bool) (o n : Nat) : onV (accs .B w o n) = [] := onV_accs_ne _ (by decide) _ _ _
@[simp] theorem onV_accs_x (w : Bool) (o n : Nat) : onV (accs .x w o n) = [] := onV_accs_ne _ (by decide) _ _ _

theorem flatMap_nil_of (l : List Nat) : (l.flatMap fun _ => ([] : List Acc)) = [] := by
  induction l with
  | nil => rfl
  | cons a l ih => rw [List.flatMap_cons, ih]; rfl

theorem accs_singles (a : Arr) (w : Bool) (o n : Nat) : ((List.range n).flatMap fun i => [(⟨a, o + i, w⟩ : Acc)]) = accs a w o n := by
  unfold accs
  induction n with
  | zero => rfl
  | succ n ih => rw [List.range_succ, List.flatMap_append, ih, List.map_append]; rfl

theorem accs_add (a : Arr) (w : Bool) (o n k : Nat) : accs a w o (n + k) = accs a w o n ++ accs a w (o + n) k := by
  unfold accs
  rw [List.range_add, List.map_append, List.map_map]
  congr 1
  apply List.map_congr_left
  intro i _
  show (⟨a, o + (n + i), w⟩ : Acc) = _
  rw [Nat.add_assoc]

theorem accs_fours (a : Arr) (w : Bool) (o n : Nat) : ((List.range n).flatMap fun i => accs a w (o + 4 * i) 4) = accs a w o (4 * n) := by
  induction n with
  | zero => rfl
  | succ n ih => rw [List.range_succ, List.flatMap_append, ih, List.flatMap_singleton, Nat.mul_succ, accs_add]

theorem accs_fours' (a : Arr) (w : Bool) (o n : Nat) (h : n % 4 = 0) : ((List.range (n / 4)).flatMap fun i => accs a w (o + 4 * i) 4) = accs a w o n := by
  rw [accs_fours]
  congr 1
  omega

end Scrypt
