import Verif.Model.Threads
import Mathlib.Tactic.ByContra
import Mathlib.Tactic.Common
/-
Reasoning about interleavings: invariants of the shared variables together with per-thread assertions that no other thread's step destroys, and progress.
-/
namespace Scrypt

variable {σ τ : Type} {step : σ → τ → σ × τ}

theorem interleave_length (sched : List Nat) (s : σ × List τ) : (interleave step sched s).2.length = s.2.length := by
  induction sched generalizing s with
  | nil => rfl
  | cons i is ih =>
    unfold interleave
    cases h : s.2[i]? with
    | none => exact ih s
    | some t => simp only [ih, List.length_set]

/-- Rely-guarantee: `P` is an invariant of the shared variables, `Q i` an assertion about thread `i`. -/
theorem interleave_inv (P : σ → Prop) (Q : Nat → σ → τ → Prop)
    (hstep : ∀ i g t, P g → Q i g t → P (step g t).1 ∧ Q i (step g t).1 (step g t).2)
    (hstab : ∀ i g t, P g → Q i g t → ∀ j u, Q j g u → Q j (step g t).1 u)
    (sched : List Nat) (s : σ × List τ) (h0 : P s.1) (h1 : ∀ i t, s.2[i]? = some t → Q i s.1 t) :
    P (interleave step sched s).1 ∧ ∀ i t, (interleave step sched s).2[i]? = some t → Q i (interleave step sched s).1 t := by
  induction sched generalizing s with
  | nil => exact ⟨h0, h1⟩
  | cons i is ih =>
    unfold interleave
    cases h : s.2[i]? with
    | none => exact ih s h0 h1
    | some t =>
      obtain ⟨a, b⟩ := hstep i s.1 t h0 (h1 i t h)
      refine ih _ a ?_
      intro j u hj
      simp only [List.getElem?_set] at hj
      by_cases e : i = j
      · subst e
        rw [if_pos rfl] at hj
        split at hj
        · cases hj; exact b
        · cases hj
      · rw [if_neg e] at hj
        exact hstab i s.1 t h0 (h1 i t h) j u (h1 j u hj)

/-- Progress: a thread that takes as many steps as its measure is finished, whatever the others do. -/
theorem interleave_progress (μ : τ → Nat) (hμ : ∀ g t, μ (step g t).2 ≤ μ t - 1) (sched : List Nat) (s : σ × List τ) (i : Nat) (t : τ)
    (h : s.2[i]? = some t) : ∃ u, (interleave step sched s).2[i]? = some u ∧ μ u ≤ μ t - sched.count i := by
  induction sched generalizing s t with
  | nil => exact ⟨t, h, by simp⟩
  | cons j is ih =>
    unfold interleave
    cases hj : s.2[j]? with
    | none =>
      obtain ⟨u, hu, hm⟩ := ih s t h
      refine ⟨u, hu, ?_⟩
      have : j ≠ i := by rintro rfl; rw [h] at hj; cases hj
      rw [List.count_cons, if_neg (by simpa using this)]
      omega
    | some v =>
      by_cases e : j = i
      · subst e
        rw [h] at hj; cases hj
        have hlt : j < s.2.length := by
          by_contra hc
          rw [List.getElem?_eq_none (by omega)] at h; cases h
        obtain ⟨u, hu, hm⟩ := ih ((step s.1 t).1, s.2.set j (step s.1 t).2) (step s.1 t).2 (by simp [List.getElem?_set, hlt])
        refine ⟨u, hu, ?_⟩
        have := hμ s.1 t
        rw [List.count_cons, if_pos (by simp)]
        omega
      · obtain ⟨u, hu, hm⟩ := ih ((step s.1 v).1, s.2.set j (step s.1 v).2) t (by simp [List.getElem?_set, e, h])
        refine ⟨u, hu, ?_⟩
        rw [List.count_cons, if_neg (by simpa using e)]
        omega

/-- What a thread is made of does not change if no step changes it. -/
theorem interleave_const {γ : Type} (c : τ → γ) (hc : ∀ g t, c (step g t).2 = c t) (sched : List Nat) (s : σ × List τ) :
    (interleave step sched s).2.map c = s.2.map c := by
  induction sched generalizing s with
  | nil => rfl
  | cons i is ih =>
    unfold interleave
    cases h : s.2[i]? with
    | none => exact ih s
    | some t =>
      simp only [ih]
      rw [List.map_set, hc]
      apply List.ext_getElem?
      intro j
      rw [List.getElem?_set]
      by_cases e : i = j
      · subst e
        have hlt : i < s.2.length := by
          by_contra hx
          rw [List.getElem?_eq_none (by omega)] at h; cases h
        simp [hlt, h]
        rw [List.getElem?_eq_getElem hlt] at h
        exact (Option.some.inj h) ▸ rfl
      · rw [if_neg e]

end Scrypt
