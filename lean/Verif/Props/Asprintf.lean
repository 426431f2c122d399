import Verif.Model.Asprintf
import Verif.Props.Util
/-
C58: formatted strings are complete and fit their memory.
-/
namespace Scrypt.Props
open Scrypt Spec

/-- malloc gives blocks of the size asked for. -/
def MallocOk (m : Nat → Option CStr) : Prop := ∀ n b, m n = some b → b.length = n

/-- **C58.**  A text of at most INT_MAX characters for which there is memory: the block returned holds exactly the text and its NUL, the value returned is its
length, and one block of exactly that size was asked for. -/
theorem C58_asprintf (s : CStr) (hs : s.length ≤ 2147483647) (m : Nat → Option CStr) (hm : MallocOk m) (b : CStr) (hb : m (s.length + 1) = some b) :
    asprintf ⟨some s, some s, m⟩ = .ok ⟨s.length, some (s ++ ['\x00']), [.malloc (s.length + 1) true]⟩ := by
  have e : vsnLen (some s) = s.length := by unfold vsnLen; exact if_pos hs
  have hl := hm _ _ hb
  unfold asprintf
  simp only [e, Int.toNat_natCast]
  rw [if_neg (by omega), hb]
  simp only []
  unfold vsnprintf
  simp only [e, Nat.add_sub_cancel, List.take_length]
  rw [if_neg (by omega), wrSlice_ok (by simp; omega), Res.bind_ok, Res.bind_ok, if_neg (by simp)]
  rw [List.take_zero, List.nil_append, List.drop_of_length_le (by simp; omega), List.append_nil]

/-- **C58.**  Otherwise -1 is returned and nothing is kept: no block was asked for if the text is too long or cannot be formatted, and if the second pass fails
the block is freed. -/
theorem C58_failure (a b : Option CStr) (m : Nat → Option CStr) (o : AspOut) (h : asprintf ⟨a, b, m⟩ = .ok o) :
    (o.rc = -1 ↔ o.block = none) ∧
    (o.rc = -1 → o.ev = [] ∨ (∃ n, o.ev = [.malloc n false]) ∨ ∃ n, o.ev = [.malloc n true, .free]) ∧
    ((∀ s, a = some s → 2147483647 < s.length) → o.rc = -1 ∧ o.ev = []) := by
  unfold asprintf at h
  simp only at h
  by_cases h1 : vsnLen a < 0
  · rw [if_pos h1] at h
    cases h
    exact ⟨by simp, fun _ => .inl rfl, fun _ => ⟨rfl, rfl⟩⟩
  rw [if_neg h1] at h
  have h3 : ¬ ∀ s, a = some s → 2147483647 < s.length := by
    intro h3
    cases a with
    | none => exact h1 (by decide)
    | some s =>
      have := h3 s rfl
      have e : vsnLen (some s) = -1 := by
        unfold vsnLen; exact if_neg (by unfold INT_MAX; omega)
      rw [e] at h1
      exact h1 (by decide)
  cases hm : m ((vsnLen a).toNat + 1) with
  | none =>
    rw [hm] at h
    cases h
    exact ⟨by simp, fun _ => .inr (.inl ⟨_, rfl⟩), fun h => absurd h h3⟩
  | some blk =>
    rw [hm] at h
    simp only [] at h
    rw [Res.bind_eq_ok] at h
    obtain ⟨r, -, h⟩ := h
    by_cases h2 : r.2 < 0
    · rw [if_pos h2] at h
      cases h
      exact ⟨by simp, fun _ => .inr (.inr ⟨_, rfl⟩), fun h => absurd h h3⟩
    · rw [if_neg h2] at h
      cases h
      refine ⟨⟨fun h => ?_, fun h => by cases h⟩, fun h => ?_, fun h => absurd h h3⟩
      · exact absurd (show r.2 = -1 from h) (by omega)
      · exact absurd (show r.2 = -1 from h) (by omega)

/-- **C58.**  Whatever the two passes produce (even if they differ), nothing is written outside the block, and a block that is returned is a C string. -/
theorem C58_bounds (a b : Option CStr) (m : Nat → Option CStr) (hm : MallocOk m) :
    ∃ o, asprintf ⟨a, b, m⟩ = .ok o ∧ ∀ x, o.block = some x → '\x00' ∈ x := by
  unfold asprintf
  simp only
  by_cases h1 : vsnLen a < 0
  · rw [if_pos h1]
    exact ⟨_, rfl, by simp⟩
  rw [if_neg h1]
  cases hb : m ((vsnLen a).toNat + 1) with
  | none => exact ⟨_, rfl, by simp⟩
  | some blk =>
    have hl := hm _ _ hb
    simp only []
    unfold vsnprintf
    cases b with
    | none => exact ⟨_, rfl, by simp⟩
    | some s =>
      simp only []
      rw [if_neg (by omega), wrSlice_ok (by simp; omega), Res.bind_ok, Res.bind_ok]
      by_cases h2 : vsnLen (some s) < 0
      · rw [if_pos h2]
        exact ⟨_, rfl, by simp⟩
      · rw [if_neg h2]
        refine ⟨_, rfl, fun x hx => ?_⟩
        cases hx
        simp

/-- **C58.**  humansize gives a block that holds exactly the text of C29 and its NUL, or NULL, never part of a text. -/
theorem C58_humansize (e1 e2 : Bool) (m : Nat → Option CStr) (hm : MallocOk m) (size : W64) :
    ∃ (d : Shown) (r : Option CStr) (ev : List AspEv), humansizeMem e1 e2 m size = .ok (r, ev) ∧ d.Valid ∧ d.value ≤ size.toNat ∧
      (r = none ∨ r = some (d.text ++ ['\x00'])) ∧ (e1 = true → e2 = true → d.text.length ≤ 2147483647 → m (d.text.length + 1) ≠ none → r ≠ none) := by
  obtain ⟨d, h1, h2, h3, -⟩ := C29_humansize size
  unfold humansizeMem
  rw [h1, Res.bind_ok]
  refine ⟨d, ?_⟩
  by_cases hs : d.text.length ≤ 2147483647 ∧ m (d.text.length + 1) ≠ none ∧ e1 = true ∧ e2 = true
  · obtain ⟨hs, hn, rfl, rfl⟩ := hs
    obtain ⟨b, hb⟩ := Option.ne_none_iff_exists'.1 hn
    simp only [if_true]
    rw [C58_asprintf d.text hs m hm b hb, Res.bind_ok, if_neg (by simp)]
    exact ⟨_, _, rfl, h2, h3, .inr rfl, fun _ _ _ _ => by simp⟩
  · have : ∃ o, asprintf ⟨if e1 = true then some d.text else none, if e2 = true then some d.text else none, m⟩ = .ok o ∧ o.rc = -1 := by
      unfold asprintf
      simp only
      cases e1 with
      | false => exact ⟨_, rfl, rfl⟩
      | true =>
        simp only [if_true]
        by_cases hl : d.text.length ≤ 2147483647
        · have e : vsnLen (some d.text) = d.text.length := by unfold vsnLen; exact if_pos hl
          rw [e, if_neg (by omega), Int.toNat_natCast]
          cases hb : m (d.text.length + 1) with
          | none => exact ⟨_, rfl, rfl⟩
          | some b =>
            cases e2 with
            | false => exact ⟨_, rfl, rfl⟩
            | true => exact absurd ⟨hl, (by rw [hb]; simp), rfl, rfl⟩ hs
        · have e : vsnLen (some d.text) = -1 := by unfold vsnLen; exact if_neg hl
          rw [e, if_pos (by decide)]
          exact ⟨_, rfl, rfl⟩
    obtain ⟨o, ho, hr⟩ := this
    rw [ho, Res.bind_ok, if_pos hr]
    exact ⟨_, _, rfl, h2, h3, .inl rfl, fun a b c e => absurd ⟨c, e, a, b⟩ hs⟩

/-- Non-vacuity: memory full of '#'. -/
example : (asprintf ⟨some "5 kB".toList, some "5 kB".toList, fun n => some (List.replicate n '#')⟩) =
    .ok ⟨4, some ['5', ' ', 'k', 'B', '\x00'], [.malloc 5 true]⟩ := by
  rw [C58_asprintf _ (by decide) _ (fun n b h => by cases h; simp) (List.replicate 5 '#') (by rfl)]
  rfl

end Scrypt.Props
