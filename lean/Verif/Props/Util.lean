import Verif.Proofs.Humansize
/-
C29, C30: human-readable sizes.
-/
namespace Scrypt.Props
open Scrypt Spec

/-- C29. For every size, humansize (when it can allocate) returns the text of a displayable size that is
at most the argument and at least every other displayable size that is at most the argument. -/
theorem C29_humansize (size : W64) :
    ∃ d : Shown, humansize true size = .ok (some d.text) ∧ d.Valid ∧ d.value ≤ size.toNat ∧
      ∀ d' : Shown, d'.Valid → d'.value ≤ size.toNat → d'.value ≤ d.value :=
  humansize_spec size

/-- C29. Sizes up to 999 are printed exactly, in bytes. -/
theorem C29_small (size : W64) (h : size.toNat ≤ 999) :
    humansize true size = .ok (some (dec size.toNat ++ " B".toList)) := by
  unfold humansize
  rw [if_pos (by omega), if_pos rfl]; rfl

/-- C29. Sizes from 1000 up use a prefix from the table. -/
theorem C29_prefixed (size : W64) (h : 1000 ≤ size.toNat) :
    ∃ t k, humansize true size = .ok (some (t ++ [' ', siPrefix k, 'B'])) ∧ 1 ≤ k ∧ k ≤ 6 := by
  obtain ⟨d, h1, h2, h3, h4⟩ := humansize_spec size
  have hd := h4 (.tenths 10 1) (by simp [Shown.Valid]) (by simp [Shown.value]; omega)
  cases d with
  | plain n => simp [Shown.value, Shown.Valid] at hd h2; omega
  | whole x k => exact ⟨_, k, h1, h2.2.2.1, h2.2.2.2⟩
  | tenths y k =>
    refine ⟨dec (y / 10) ++ ['.'] ++ dec (y % 10), k, ?_, h2.2.2.1, h2.2.2.2⟩
    rw [h1]; simp [Shown.text]

/-- C29. When it cannot allocate it returns NULL; it never does anything undefined. -/
theorem C29_oom (size : W64) : humansize false size = .ok none := by
  obtain ⟨d, h1, -⟩ := humansize_spec size
  unfold humansize at h1 ⊢
  by_cases h : size.toNat < 1000
  · rw [if_pos h]; rfl
  · rw [if_neg h] at h1 ⊢
    rw [Res.bind_eq_ok] at h1
    obtain ⟨c, hc, -⟩ := h1
    simp only [hc, Res.bind_ok]
    rfl

/-- Non-vacuity and shape: three displays. -/
example : humansize true 999 = .ok (some "999 B".toList) ∧ humansize true 1999 = .ok (some "1.9 kB".toList) ∧
    humansize true 18446744073709551615 = .ok (some "18 EB".toList) := by decide +kernel

/-- C30. humansize_parse accepts exactly the strings matching `[0-9]+ ?[kMGTPE]?B?` whose value fits in 64
bits, and stores the number times 1000 to the prefix number.  (C strings contain no NUL.) -/
theorem C30_parse (s : CStr) (h0 : '\x00' ∉ s) :
    ∃ r, humansize_parse s = .ok r ∧
      ∀ v, r = some v ↔ ∃ n k, SizeText s n k ∧ n * 1000 ^ k < 2 ^ 64 ∧ v = n * 1000 ^ k :=
  humansize_parse_spec s h0

/-- Non-vacuity: accepted and refused strings. -/
example : humansize_parse "1000".toList = .ok (some 1000) ∧ humansize_parse "10 MB".toList = .ok (some 10000000) ∧
    humansize_parse "18446744073709551615B".toList = .ok (some 18446744073709551615) ∧
    humansize_parse "18446744073709551616".toList = .ok none ∧ humansize_parse "19 EB".toList = .ok none ∧
    humansize_parse "10  B".toList = .ok none ∧ humansize_parse "MB".toList = .ok none ∧
    humansize_parse "1B ".toList = .ok none := by decide +kernel

end Scrypt.Props
