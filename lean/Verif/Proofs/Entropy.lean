import Verif.Spec.Entropy
import Verif.Proofs.Hmac
import Verif.Proofs.Endian
import Mathlib.Tactic.ByContra
import Mathlib.Tactic.Common
/-
Refinement of the entropy reader and of the HMAC_DRBG.
-/
namespace Scrypt
open Spec

/-! ### entropy_read -/

theorem fillLoop_spec (rs : List (Option Bytes)) : ∀ (buf : Bytes) (off n : Nat) (b : Bool) (buf' : Bytes), off + n ≤ buf.length →
    fillLoop rs buf off n = .ok (some (b, buf')) →
    ∃ (chunks : List Bytes) (rest : List (Option Bytes)), rs = chunks.map some ++ rest ∧ (∀ c ∈ chunks, c ≠ []) ∧ chunks.flatten.length ≤ n ∧
      buf' = buf.take off ++ chunks.flatten ++ buf.drop (off + chunks.flatten.length) ∧
      (b = true ↔ chunks.flatten.length = n) ∧
      (b = false → ∃ r, rest = none :: r ∨ rest = some [] :: r) := by
  induction rs with
  | nil =>
    intro buf off n b buf' hl h
    cases n with
    | zero =>
      simp only [fillLoop, Res.ok.injEq, Option.some.injEq, Prod.mk.injEq] at h
      exact ⟨[], [], rfl, by simp, by simp, by simp [← h.2], by simp [← h.1], by simp [← h.1]⟩
    | succ n => simp [fillLoop] at h
  | cons a rs ih =>
    intro buf off n b buf' hl h
    cases n with
    | zero =>
      simp only [fillLoop, Res.ok.injEq, Option.some.injEq, Prod.mk.injEq] at h
      exact ⟨[], a :: rs, rfl, by simp, by simp, by simp [← h.2], by simp [← h.1], by simp [← h.1]⟩
    | succ n =>
      cases a with
      | none =>
        simp only [fillLoop, Res.ok.injEq, Option.some.injEq, Prod.mk.injEq] at h
        exact ⟨[], none :: rs, rfl, by simp, by simp, by simp [← h.2], by simp [← h.1], fun _ => ⟨rs, .inl rfl⟩⟩
      | some d =>
        simp only [fillLoop] at h
        split at h
        · rename_i hd
          simp only [Res.ok.injEq, Option.some.injEq, Prod.mk.injEq] at h
          exact ⟨[], some d :: rs, rfl, by simp, by simp, by simp [← h.2], by simp [← h.1],
            fun _ => ⟨rs, .inr (by rw [List.length_eq_zero_iff.1 hd])⟩⟩
        · rename_i hd
          split at h
          · cases h
          · rename_i hn
            rw [wrSlice_ok (by omega), Res.bind_ok] at h
            have hl' : (buf.take off ++ d ++ buf.drop (off + d.length)).length = buf.length := by
              simp only [List.length_append, List.length_take, List.length_drop]; omega
            obtain ⟨cs, rest, h1, h2, h3, h4, h5, h6⟩ := ih _ _ _ _ _ (by rw [hl']; omega) h
            have htk : (buf.take off ++ d).length = off + d.length := by
              rw [List.length_append, List.length_take]; omega
            refine ⟨d :: cs, rest, by rw [h1]; rfl, ?_, ?_, ?_, ?_, h6⟩
            · intro c hc
              rcases List.mem_cons.1 hc with rfl | hc
              · intro e; rw [e] at hd; exact hd rfl
              · exact h2 c hc
            · rw [List.flatten_cons, List.length_append]; omega
            · rw [h4, List.flatten_cons, List.length_append]
              rw [List.take_left' htk, ← List.drop_drop, List.drop_left' htk, List.drop_drop]
              simp only [List.append_assoc]
              congr 4
              omega
            · rw [h5, List.flatten_cons, List.length_append]; omega

theorem closeLoop_spec (cs : List CloseAns) : ∀ (b : Bool) (tr : List EntEv), closeLoop cs = some (b, tr) →
    ∃ k rest a, cs = List.replicate k .eintr ++ a :: rest ∧ a ≠ .eintr ∧ (b = true ↔ a = .ok) ∧
      tr = List.replicate k (.close .eintr) ++ [.close a] := by
  induction cs with
  | nil => intro b tr h; cases h
  | cons c cs ih =>
    intro b tr h
    cases c with
    | ok => cases h; exact ⟨0, cs, .ok, rfl, by simp, by simp, rfl⟩
    | err => cases h; exact ⟨0, cs, .err, rfl, by simp, by simp, rfl⟩
    | eintr =>
      simp only [closeLoop, Option.map_eq_some_iff] at h
      obtain ⟨⟨b', tr'⟩, h1, h2⟩ := h
      cases h2
      obtain ⟨k, rest, a, e1, e2, e3, e4⟩ := ih _ _ h1
      exact ⟨k + 1, rest, a, by rw [e1]; rfl, e2, e3, by rw [e4]; rfl⟩

theorem replicate_eintr_unique {k k' : Nat} {a a' : CloseAns} {r r' : List CloseAns} (h : a ≠ .eintr) (h' : a' ≠ .eintr)
    (e : List.replicate k CloseAns.eintr ++ a :: r = List.replicate k' .eintr ++ a' :: r') : k = k' ∧ a = a' := by
  induction k generalizing k' with
  | zero =>
    cases k' with
    | zero => simp at e; exact ⟨rfl, e.1⟩
    | succ k' => rw [List.replicate_succ] at e; simp at e; exact absurd e.1 h
  | succ k ih =>
    cases k' with
    | zero => rw [List.replicate_succ] at e; simp at e; exact absurd e.1.symm h'
    | succ k' =>
      rw [List.replicate_succ, List.replicate_succ] at e
      simp only [List.cons_append, List.cons.injEq, true_and] at e
      obtain ⟨e1, e2⟩ := ih e
      exact ⟨by rw [e1], e2⟩

/-- Chunks are determined by their total length. -/
theorem delivered_unique {cs cs' : List Bytes} {r r' : List (Option Bytes)} (e : cs.map some ++ r = cs'.map some ++ r')
    (h : ∀ c ∈ cs, c ≠ []) (h' : ∀ c ∈ cs', c ≠ []) (hl : cs'.flatten.length ≤ cs.flatten.length) : ∃ t, cs = cs' ++ t := by
  induction cs' generalizing cs with
  | nil => exact ⟨cs, rfl⟩
  | cons c' cs' ih =>
    cases cs with
    | nil =>
      exfalso
      have := h' c' (by simp)
      rw [List.flatten_cons, List.length_append] at hl
      simp at hl
      exact this hl.1
    | cons c cs =>
      simp only [List.map_cons, List.cons_append, List.cons.injEq, Option.some.injEq] at e
      obtain ⟨rfl, e⟩ := e
      simp only [List.flatten_cons, List.length_append] at hl
      obtain ⟨t, ht⟩ := ih e (fun x hx => h x (by simp [hx])) (fun x hx => h' x (by simp [hx])) (by omega)
      exact ⟨t, by rw [ht]; rfl⟩

theorem fill_iff {reads : List (Option Bytes)} {buf buf' : Bytes} {n : Nat} {b : Bool} (hn : n ≤ buf.length)
    (h : fillLoop reads buf 0 n = .ok (some (b, buf'))) :
    (b = true ↔ ∃ d, Delivered reads n d) ∧ (∀ d, b = true → Delivered reads n d → buf' = d ++ buf.drop n) ∧
    (∃ d, d.length ≤ n ∧ buf' = d ++ buf.drop d.length) := by
  obtain ⟨cs, rest, h1, h2, h3, h4, h5, h6⟩ := fillLoop_spec reads buf 0 n b buf' (by omega) h
  simp only [List.take_zero, List.nil_append, Nat.zero_add] at h4
  refine ⟨⟨fun hb => ⟨cs.flatten, cs, rest, h1, h2, rfl, h5.1 hb⟩, ?_⟩, ?_, ⟨cs.flatten, h3, h4⟩⟩
  · rintro ⟨d, cs', rest', e1, e2, e3, e4⟩
    by_contra hb
    have hb : b = false := by simpa using hb
    have hlt : cs.flatten.length < cs'.flatten.length := by
      rw [← e3, e4]
      rcases Nat.lt_or_ge cs.flatten.length n with h | h
      · exact h
      · rw [h5.2 (by omega)] at hb; cases hb
    obtain ⟨t, ht⟩ := delivered_unique (e1 ▸ h1 : cs'.map some ++ rest' = cs.map some ++ rest) e2 h2 (by omega)
    obtain ⟨r, hr⟩ := h6 hb
    cases t with
    | nil => rw [List.append_nil] at ht; rw [ht] at hlt; omega
    | cons t0 t =>
      rw [e1, ht, List.map_append, List.append_assoc] at h1
      have h1 := List.append_cancel_left h1
      rw [List.map_cons, List.cons_append] at h1
      rcases hr with hr | hr
      · rw [hr] at h1; simp at h1
      · rw [hr] at h1
        simp only [List.cons.injEq, Option.some.injEq] at h1
        exact e2 t0 (by rw [ht]; simp) h1.1
  · rintro d hb ⟨cs', rest', e1, e2, e3, e4⟩
    obtain ⟨t, ht⟩ := delivered_unique (e1 ▸ h1 : cs'.map some ++ rest' = cs.map some ++ rest) e2 h2 (by rw [← e3, e4, h5.1 hb]; exact Nat.le_refl n)
    have : t.flatten.length = 0 := by
      have h7 := congrArg (fun l => (List.flatten l).length) ht
      simp only [List.flatten_append, List.length_append] at h7
      rw [← e3, e4, h5.1 hb] at h7
      omega
    rw [h4, e3, ht, List.flatten_append, List.length_eq_zero_iff.1 this, List.append_nil, h5.1 hb]

/-- The contract of read(2) rules out undefined behaviour. -/
theorem fillLoop_defined (rs : List (Option Bytes)) : ∀ (buf : Bytes) (off n : Nat), off + n ≤ buf.length → ReadContract rs n →
    ∃ r, fillLoop rs buf off n = .ok r ∧ (n ≤ rs.length → r ≠ none) := by
  induction rs with
  | nil =>
    intro buf off n hl _
    cases n with
    | zero => exact ⟨_, rfl, by simp⟩
    | succ n => exact ⟨_, rfl, by simp⟩
  | cons a rs ih =>
    intro buf off n hl hc
    cases n with
    | zero => exact ⟨_, rfl, by simp⟩
    | succ n =>
      cases a with
      | none => exact ⟨_, rfl, by simp⟩
      | some d =>
        by_cases hd : d.length = 0
        · exact ⟨_, by rw [fillLoop, if_pos hd], by simp⟩
        · have hd' : d ≠ [] := fun e => hd (by rw [e]; rfl)
          obtain ⟨c1, c2⟩ := hc
          have hl' : (buf.take off ++ d ++ buf.drop (off + d.length)).length = buf.length := by
            simp only [List.length_append, List.length_take, List.length_drop]; omega
          obtain ⟨r, h1, h2⟩ := ih (buf.take off ++ d ++ buf.drop (off + d.length)) (off + d.length) (n + 1 - d.length) (by rw [hl']; omega) (c2 hd')
          refine ⟨r, ?_, fun h => h2 ?_⟩
          · rw [fillLoop, if_neg hd, if_neg (by omega), wrSlice_ok (by omega), Res.bind_ok, h1]
          · rw [List.length_cons] at h; omega

/-- The outcomes of `entropy_read`. -/
theorem entropy_read_spec {os : EntropyOs} {buf : Bytes} {n : Nat} {o : EntOut} (hn : n ≤ buf.length)
    (h : entropy_read os buf n = .ok (some o)) :
    (o.ok = true ↔ ∃ d, Obtained os n d) ∧ (∀ d, o.ok = true → Delivered os.reads n d → o.buf = d ++ buf.drop n) ∧
    (∃ d, d.length ≤ n ∧ o.buf = d ++ buf.drop d.length) ∧
    (o.tr = [] ∨ o.tr = [.malloc, .free] ∨
      ∃ k a, a ≠ .eintr ∧ o.tr = [.malloc, .open] ++ List.replicate k (.close .eintr) ++ [.close a, .free]) := by
  unfold entropy_read at h
  by_cases hs : SSIZE_MAX < n
  · rw [if_pos hs] at h; cases h
  rw [if_neg hs] at h
  cases hm : os.mallocOk with
  | false =>
    rw [if_pos (by rw [hm]; rfl)] at h
    cases h
    exact ⟨⟨by simp, by rintro ⟨d, h, -⟩; rw [hm] at h; exact absurd h (by simp)⟩, by simp, ⟨[], by simp, by simp⟩, .inl rfl⟩
  | true =>
    rw [if_neg (by rw [hm]; simp)] at h
    cases ho : os.openOk with
    | false =>
      rw [if_pos (by rw [ho]; rfl)] at h
      cases h
      exact ⟨⟨by simp, by rintro ⟨d, -, h, -⟩; rw [ho] at h; exact absurd h (by simp)⟩, by simp, ⟨[], by simp, by simp⟩, .inr (.inl rfl)⟩
    | true =>
      rw [if_neg (by rw [ho]; simp)] at h
      unfold entropy_read_fill at h
      rw [if_neg hs, Res.bind_eq_ok] at h
      obtain ⟨f, hf, h⟩ := h
      cases f with
      | none => cases h
      | some f =>
        obtain ⟨b, buf'⟩ := f
        obtain ⟨f1, f2, f3⟩ := fill_iff hn hf
        simp only [] at h
        cases hd : entropy_read_done os with
        | none => rw [hd] at h; cases h
        | some c =>
          obtain ⟨c, tr⟩ := c
          rw [hd] at h
          cases h
          unfold entropy_read_done at hd
          rw [Option.map_eq_some_iff] at hd
          obtain ⟨⟨c', tr'⟩, g1, g2⟩ := hd
          cases g2
          obtain ⟨k, rest, a, e1, e2, e3, e4⟩ := closeLoop_spec _ _ _ g1
          refine ⟨?_, ?_, f3, .inr (.inr ⟨k, a, e2, ?_⟩)⟩
          · simp only [Bool.and_eq_true]
            constructor
            · rintro ⟨hb, hc⟩
              obtain ⟨d, hd⟩ := f1.1 hb
              exact ⟨d, hm, ho, hd, k, rest, by rw [e1, e3.1 hc]⟩
            · rintro ⟨d, -, -, hd, k', rest', hc⟩
              refine ⟨f1.2 ⟨d, hd⟩, ?_⟩
              rw [e1] at hc
              exact e3.2 (replicate_eintr_unique e2 (by simp) hc).2
          · intro d hb hd
            simp only [Bool.and_eq_true] at hb
            exact f2 d hb.1 hd
          · simp only [e4]; simp
end Scrypt
