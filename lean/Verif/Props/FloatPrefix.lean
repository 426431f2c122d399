import Verif.Props.NumberAny
/-
C93: doubles with characters after the number.
-/
namespace Scrypt.Props
open Scrypt Spec

theorem longestFloat_whole {s : CStr} {v : FloatVal} (h : FloatDenotes s v) : LongestFloat s v s.length :=
  ⟨Nat.le_refl _, by rw [List.take_length]; exact h, fun k _ h1 h2 => absurd h1 (by omega)⟩

theorem longestFloat_pos {s : CStr} {v : FloatVal} {n : Nat} (h : LongestFloat s v n) : n ≠ 0 := by
  rintro rfl
  exact floatDenotes_nonempty h.2.1 rfl

/-- If an initial part denotes a number, there is a longest one that does. -/
theorem longestFloat_exists {s : CStr} (h : ∃ n v, n ≤ s.length ∧ FloatDenotes (s.take n) v) : ∃ v n, LongestFloat s v n := by
  classical
  obtain ⟨n, v, hn, hv⟩ := h
  by_contra hno
  have : ∀ d, d ≤ s.length → ∀ k (v : FloatVal), s.length - d ≤ k → k ≤ s.length → ¬ FloatDenotes (s.take k) v := by
    intro d
    induction d with
    | zero =>
      intro _ k v h1 h2 hk
      exact hno ⟨v, k, h2, hk, fun j _ hj1 hj2 => absurd hj1 (by omega)⟩
    | succ d ih =>
      intro hd k v h1 h2 hk
      exact hno ⟨v, k, h2, hk, fun j v' hj1 hj2 => ih (by omega) j v' (by omega) hj2⟩
  exact this s.length (Nat.le_refl _) n v (by omega) hn hv

/-- What ISO C says about initial parts contains what it says about whole texts. -/
theorem goodPrefixStrtod_good {sd : Strtod} (h : GoodPrefixStrtod sd) : GoodStrtod sd := by
  refine ⟨fun s neg q hs => ?_, fun s hs => ?_, fun s neg hs => ?_, fun s hs => ?_⟩
  · obtain ⟨x, e, h1, rfl, h2, h3⟩ := h.conv s _ _ (longestFloat_whole hs)
    exact ⟨e, h1, h2, h3⟩
  · obtain ⟨x, e, h1, rfl, rfl⟩ := h.conv s _ _ (longestFloat_whole hs)
    exact h1
  · obtain ⟨x, e, h1, rfl, rfl⟩ := h.conv s _ _ (longestFloat_whole hs)
    exact h1
  · by_cases hp : ∃ n v, n ≤ s.length ∧ FloatDenotes (s.take n) v
    · obtain ⟨v, n, hl⟩ := longestFloat_exists hp
      obtain ⟨x, e, h1, -⟩ := h.conv s v n hl
      rw [h1]
      refine .inr fun hn => ?_
      dsimp only at hn
      subst hn
      have := hl.2.1
      rw [List.take_length] at this
      exact hs v this
    · exact .inl (h.none s fun n v hn hv => hp ⟨n, v, hn, hv⟩)

/-- **C93, doubles with characters after the number.**  The longest initial part that denotes a number, infinity or NaN is stored if it is within
the bounds; if it is not, or it overflows, errno is ERANGE; if there is no such part, EINVAL, and only then. -/
theorem C93_double_prefix (sd : Strtod) (hsd : GoodPrefixStrtod sd) (s : CStr) (min max : NumArg) :
    (∀ v n, LongestFloat s v n → ∃ x e, FloatAnswer v x e ∧
      PARSENUM_EX6 sd .dbl s min max 0 true =
        .ok (.dbl x (if e = false ∧ F64.lt x min.toF64 = false ∧ F64.lt max.toF64 x = false then none else some .ERANGE))) ∧
    ((∃ w, PARSENUM_EX6 sd .dbl s min max 0 true = .ok (.dbl w (some .EINVAL))) ↔ ∀ n v, n ≤ s.length → ¬ FloatDenotes (s.take n) v) := by
  have hstep : ∀ v n, LongestFloat s v n → ∃ x e, FloatAnswer v x e ∧
      PARSENUM_EX6 sd .dbl s min max 0 true =
        .ok (.dbl x (if e = false ∧ F64.lt x min.toF64 = false ∧ F64.lt max.toF64 x = false then none else some .ERANGE)) := by
    intro v n hl
    obtain ⟨x, e, h1, h2⟩ := hsd.conv s v n hl
    refine ⟨x, e, h2, ?_⟩
    have hn := longestFloat_pos hl
    unfold PARSENUM_EX6 parsenum_float
    rw [h1]
    simp only [if_true]
    rw [if_neg (by rintro (h | ⟨h, -⟩); · exact hn h
                   · cases h)]
    cases e <;> cases F64.lt x min.toF64 <;> cases F64.lt max.toF64 x <;> rfl
  refine ⟨hstep, ⟨fun ⟨w, h⟩ n v hn hv => ?_, fun h => ?_⟩⟩
  · obtain ⟨v', n', hl⟩ := longestFloat_exists ⟨n, v, hn, hv⟩
    obtain ⟨x, e, -, h2⟩ := hstep v' n' hl
    rw [h2] at h
    split at h <;> cases h
  · have h0 := hsd.none s h
    unfold PARSENUM_EX6 parsenum_float
    simp only [if_true]
    rw [if_pos (.inl h0)]
    exact ⟨_, rfl⟩

/-! ### The assumption can be met -/

open Classical in
/-- A strtod that does what ISO C says about initial parts. -/
noncomputable def exPrefixStrtod : Strtod := fun s =>
  if h : ∃ n v, LongestFloat s v n then ((exStored h.choose_spec.choose).1, h.choose, (exStored h.choose_spec.choose).2) else (F64.round false 0, 0, false)

theorem longestFloat_unique {s : CStr} {v v' : FloatVal} {n n' : Nat} (h : LongestFloat s v n) (h' : LongestFloat s v' n') : n = n' ∧ v = v' := by
  have hn : n = n' := by
    rcases Nat.lt_trichotomy n n' with hl | hl | hl
    · exact absurd h'.2.1 (h.2.2 _ _ hl h'.1)
    · exact hl
    · exact absurd h.2.1 (h'.2.2 _ _ hl h.1)
  subst hn
  exact ⟨rfl, floatDenotes_unique h.2.1 h'.2.1⟩

theorem exStored_answer (v : FloatVal) : FloatAnswer v (exStored v).1 (exStored v).2 := by
  cases v with
  | num neg q =>
    have hf : ∀ P : Prop, [Decidable P] → ¬ P → decide P = false := fun P _ h => decide_eq_false h
    have hd : (exStored (.num neg q)).2 = decide ((2 : ℚ) ^ (1024 : ℕ) ≤ F64.roundMag q) := by unfold exStored; rfl
    have hv : (exStored (.num neg q)).1 = F64.round neg q := by unfold exStored; rfl
    unfold FloatAnswer
    rw [hd, hv]
    generalize hL : (2 : ℚ) ^ (1024 : ℕ) = L
    have hL0 : 0 < L := by rw [← hL]; positivity
    refine ⟨rfl, fun h => decide_eq_true h, ?_⟩
    rintro (rfl | ⟨-, h1⟩)
    · have h0 : F64.roundMag 0 = 0 := by
        simp [F64.roundMag]
      rw [h0]
      exact hf _ (not_le.2 hL0)
    · exact hf _ (not_le.2 h1)
  | inf neg => exact ⟨rfl, rfl⟩
  | nan => exact ⟨rfl, rfl⟩

/-- `GoodPrefixStrtod` is satisfiable. -/
theorem exPrefixStrtod_good : GoodPrefixStrtod exPrefixStrtod := by
  constructor
  · intro s v n hl
    have he : ∃ n v, LongestFloat s v n := ⟨n, v, hl⟩
    obtain ⟨h1, h2⟩ := longestFloat_unique he.choose_spec.choose_spec hl
    refine ⟨_, _, ?_, exStored_answer v⟩
    unfold exPrefixStrtod
    rw [dif_pos he, h2, h1]
  · intro s h
    unfold exPrefixStrtod
    rw [dif_neg]
    rintro ⟨n, v, hl⟩
    exact h n v hl.1 hl.2.1

/-- "2.5x": the number is 2.5. -/
example : LongestFloat "2.5x".toList (.num false (25 / 10)) 3 := by
  refine ⟨by decide, .dec (by decide +kernel), fun k v h1 h2 hd => ?_⟩
  have hk : k = 4 := by
    have : "2.5x".toList.length = 4 := rfl
    omega
  subst hk
  cases hd with
  | dec h => exact absurd h (by rw [show decFloat ("2.5x".toList.take 4) = none from by decide +kernel]; nofun)
  | hex h => exact absurd h (by rw [show afterSign ("2.5x".toList.take 4) = '2' :: '.' :: "5x".toList from rfl]; intro h; cases h)
  | inf h => rcases h with h | h <;> · have := h.length_eq; exact absurd this (by decide)
  | nan h => exact absurd h.length_eq (by decide)
  | payload h =>
    rw [show afterSign ("2.5x".toList.take 4) = "2.5".toList ++ ['x'] from rfl] at h
    have := (List.append_inj' h rfl).2
    cases this

end Scrypt.Props
