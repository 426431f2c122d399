import Verif.Spec.Readpass
import Mathlib.Tactic.ByContra
import Mathlib.Tactic.Common
/-
Reading a passphrase.
-/
namespace Scrypt
open Spec

theorem fgetsChunk_prefix (n : Nat) : ∀ d : Bytes, ∃ r, d = fgetsChunk n d ++ r := by
  induction n with
  | zero => intro d; exact ⟨d, by cases d <;> rfl⟩
  | succ n ih =>
    intro d
    cases d with
    | nil => exact ⟨[], rfl⟩
    | cons c d =>
      unfold fgetsChunk
      split
      · exact ⟨d, rfl⟩
      · obtain ⟨r, hr⟩ := ih d
        exact ⟨r, by rw [List.cons_append, ← hr]⟩

theorem fgetsChunk_length (n : Nat) : ∀ d : Bytes, (fgetsChunk n d).length ≤ n := by
  induction n with
  | zero => intro d; cases d <;> simp [fgetsChunk]
  | succ n ih =>
    intro d
    cases d with
    | nil => simp [fgetsChunk]
    | cons c d =>
      unfold fgetsChunk
      split
      · simp
      · have := ih d; simp only [List.length_cons]; omega

theorem fgetsChunk_lf (n : Nat) : ∀ d : Bytes, LF ∉ (fgetsChunk n d).dropLast ∧
    (LF ∈ fgetsChunk n d → (fgetsChunk n d).getLast? = some LF) ∧
    (LF ∉ fgetsChunk n d → (fgetsChunk n d).length < n → fgetsChunk n d = d) := by
  induction n with
  | zero => intro d; cases d <;> simp [fgetsChunk]
  | succ n ih =>
    intro d
    cases d with
    | nil => simp [fgetsChunk]
    | cons c d =>
      obtain ⟨h1, h2, h3⟩ := ih d
      unfold fgetsChunk
      split
      · rename_i hc; subst hc; simp
      · rename_i hc
        refine ⟨?_, ?_, ?_⟩
        · cases hd : fgetsChunk n d with
          | nil => simp
          | cons x xs =>
            rw [List.dropLast_cons_of_ne_nil (by simp), List.mem_cons]
            rintro (h | h)
            · exact hc h.symm
            · rw [hd] at h1; exact h1 h
        · intro h
          rcases List.mem_cons.1 h with h | h
          · exact absurd h.symm hc
          · have := h2 h
            cases hd : fgetsChunk n d with
            | nil => rw [hd] at this; cases this
            | cons x xs => rw [hd] at this; rw [List.getLast?_cons_cons]; exact this
        · intro h hl
          rw [h3 (fun hh => h (List.mem_cons_of_mem _ hh)) (by simp only [List.length_cons] at hl; omega)]

/-- fgets with the 2048-byte buffers, in terms of the specification. -/
inductive FgetsSpec (f : Strm) : Fgets → Prop
  | line {c f'} : Reads f c f' → FgetsSpec f (.line c f')
  | eof : f.data = [] → f.tail = .eof → FgetsSpec f .eof
  | err : LF ∉ f.data → f.data.length < 2047 → f.tail = .err → FgetsSpec f .err
  | wait : Waits f → FgetsSpec f .wait

theorem fgets_spec (f : Strm) : FgetsSpec f (fgets MAXPASSLEN f) := by
  unfold fgets MAXPASSLEN
  have hle := fgetsChunk_length 2047 f.data
  obtain ⟨h1, h2, h3⟩ := fgetsChunk_lf 2047 f.data
  obtain ⟨r, hr⟩ := fgetsChunk_prefix 2047 f.data
  simp only [show 2048 - 1 = 2047 from rfl]
  generalize fgetsChunk 2047 f.data = c at *
  have hd : f.data.drop c.length = r := by conv_lhs => rw [hr]; rw [List.drop_left]
  split
  · rename_i hc
    refine .line ⟨?_, rfl, ?_, hle, h1, ?_⟩
    · show f.data = c ++ f.data.drop c.length
      rw [hd]; exact hr
    · rcases hc with hc | hc
      · omega
      · cases c with
        | nil => cases hc
        | cons => simp
    · rcases hc with hc | hc
      · exact .inl hc
      · exact .inr (.inl (h2 hc))
  · rename_i hc
    rw [not_or] at hc
    obtain ⟨hc1, hc2⟩ := hc
    have hcd := h3 hc2 (by omega)
    cases ht : f.tail with
    | eof =>
      simp only []
      split
      · rename_i h; exact .eof (by rw [← hcd, h]) ht
      · rename_i h
        refine .line ⟨by rw [List.append_nil]; exact hcd.symm, by rw [ht], ?_, hle, h1, .inr (.inr ⟨rfl, ht⟩)⟩
        exact List.length_pos_iff.2 h
    | err => exact .err (by rw [← hcd]; exact hc2) (by rw [← hcd]; omega) ht
    | wait => exact .wait ⟨by rw [← hcd]; exact hc2, by rw [← hcd]; omega, ht⟩

/-! The next line is determined. -/

theorem reads_cut {f f' : Strm} {c : Bytes} (h : Reads f c f') : f' = ⟨f.data.drop c.length, f.tail⟩ ∧ c = f.data.take c.length := by
  obtain ⟨h1, h2, -⟩ := h
  obtain ⟨d, t⟩ := f'
  simp only [] at h1 h2
  constructor
  · rw [h1, List.drop_left, h2]
  · rw [h1, List.take_left]

theorem last_mem {c : Bytes} (h : c.getLast? = some LF) : LF ∈ c := List.mem_of_getLast? h

theorem reads_unique_le {f f1 f2 : Strm} {c d : Bytes} (h : Reads f c f1) (h' : Reads f d f2) (hl : c.length ≤ d.length) : c.length = d.length := by
  by_contra hne
  have hlt : c.length < d.length := by omega
  obtain ⟨h1, h2, h3, h4, h5, h6⟩ := h
  obtain ⟨k1, k2, k3, k4, k5, k6⟩ := h'
  rcases h6 with h6 | h6 | ⟨h6, -⟩
  · omega
  · -- the newline of c would be inside d
    have hp : c = d.take c.length := by
      have := h1.symm.trans k1
      have h7 := congrArg (List.take c.length) this
      rw [List.take_left, List.take_append_of_le_length (by omega)] at h7
      exact h7
    apply k5
    have hm : LF ∈ d.take c.length := by rw [← hp]; exact last_mem h6
    rw [List.dropLast_eq_take]
    exact (List.take_subset_take_left d (by omega)) hm
  · rw [h6, List.append_nil] at h1
    rw [h1] at k1
    have := congrArg List.length k1
    rw [List.length_append] at this
    omega

theorem reads_unique {f f1 f2 : Strm} {c d : Bytes} (h : Reads f c f1) (h' : Reads f d f2) : c = d ∧ f1 = f2 := by
  have hl : c.length = d.length := by
    rcases Nat.le_total c.length d.length with hl | hl
    · exact reads_unique_le h h' hl
    · exact (reads_unique_le h' h hl).symm
  obtain ⟨a1, a2⟩ := reads_cut h
  obtain ⟨b1, b2⟩ := reads_cut h'
  exact ⟨by rw [a2, b2, hl], by rw [a1, b1, hl]⟩

theorem reads_not_ends {f f1 : Strm} {c : Bytes} (h : Reads f c f1) (h' : Ends f) : False := by
  obtain ⟨h1, h2, h3, h4, h5, h6⟩ := h
  rcases h' with ⟨k1, k2⟩ | ⟨k1, k2, k3⟩
  · rw [k1] at h1
    have := congrArg List.length h1
    rw [List.length_append, List.length_nil] at this
    omega
  · rcases h6 with h6 | h6 | ⟨-, h6⟩
    · have := congrArg List.length h1
      rw [List.length_append] at this
      omega
    · exact k1 (by rw [h1]; exact List.mem_append_left _ (last_mem h6))
    · rw [k3] at h6; cases h6

theorem confirmed_unique {f r r' : Strm} {p p' : Bytes} (h : Confirmed f p r) (h' : Confirmed f p' r') : p = p' ∧ r = r' := by
  induction h with
  | same a1 a2 a3 =>
    cases h' with
    | same b1 b2 b3 =>
      obtain ⟨rfl, rfl⟩ := reads_unique a1 b1
      exact ⟨rfl, (reads_unique a2 b2).2⟩
    | again b1 b2 b3 _ =>
      obtain ⟨rfl, rfl⟩ := reads_unique a1 b1
      obtain ⟨rfl, rfl⟩ := reads_unique a2 b2
      exact absurd a3 b3
  | again a1 a2 a3 _ ih =>
    cases h' with
    | same b1 b2 b3 =>
      obtain ⟨rfl, rfl⟩ := reads_unique a1 b1
      obtain ⟨rfl, rfl⟩ := reads_unique a2 b2
      exact absurd b3 a3
    | again b1 b2 b3 b4 =>
      obtain ⟨rfl, rfl⟩ := reads_unique a1 b1
      obtain ⟨rfl, rfl⟩ := reads_unique a2 b2
      exact ih b4

theorem reads_not_waits {f f1 : Strm} {c : Bytes} (h : Reads f c f1) (h' : Waits f) : False := by
  obtain ⟨h1, h2, h3, h4, h5, h6⟩ := h
  obtain ⟨k1, k2, k3⟩ := h'
  rcases h6 with h6 | h6 | ⟨-, h6⟩
  · have := congrArg List.length h1
    rw [List.length_append] at this
    omega
  · exact k1 (by rw [h1]; exact List.mem_append_left _ (last_mem h6))
  · rw [k3] at h6; cases h6

theorem confirmed_not_awaiting {f r : Strm} {p : Bytes} (h : Confirmed f p r) : ¬ Awaiting f := by
  induction h with
  | same a1 a2 a3 =>
    intro h'
    cases h' with
    | first b => exact reads_not_waits a1 b
    | second b1 b2 =>
      obtain ⟨rfl, rfl⟩ := reads_unique a1 b1
      exact reads_not_waits a2 b2
    | again b1 b2 b3 _ =>
      obtain ⟨rfl, rfl⟩ := reads_unique a1 b1
      obtain ⟨rfl, rfl⟩ := reads_unique a2 b2
      exact b3 a3
  | again a1 a2 a3 _ ih =>
    intro h'
    cases h' with
    | first b => exact reads_not_waits a1 b
    | second b1 b2 =>
      obtain ⟨rfl, rfl⟩ := reads_unique a1 b1
      exact reads_not_waits a2 b2
    | again b1 b2 b3 b4 =>
      obtain ⟨rfl, rfl⟩ := reads_unique a1 b1
      obtain ⟨rfl, rfl⟩ := reads_unique a2 b2
      exact ih b4

theorem confirmed_not_unconfirmed {f r : Strm} {p : Bytes} (h : Confirmed f p r) : ¬ Unconfirmed f := by
  induction h with
  | same a1 a2 a3 =>
    intro h'
    cases h' with
    | first b => exact reads_not_ends a1 b
    | second b1 b2 =>
      obtain ⟨rfl, rfl⟩ := reads_unique a1 b1
      exact reads_not_ends a2 b2
    | again b1 b2 b3 _ =>
      obtain ⟨rfl, rfl⟩ := reads_unique a1 b1
      obtain ⟨rfl, rfl⟩ := reads_unique a2 b2
      exact b3 a3
  | again a1 a2 a3 _ ih =>
    intro h'
    cases h' with
    | first b => exact reads_not_ends a1 b
    | second b1 b2 =>
      obtain ⟨rfl, rfl⟩ := reads_unique a1 b1
      exact reads_not_ends a2 b2
    | again b1 b2 b3 b4 =>
      obtain ⟨rfl, rfl⟩ := reads_unique a1 b1
      obtain ⟨rfl, rfl⟩ := reads_unique a2 b2
      exact ih b4

/-! ### Buffers -/

theorem storeLine_ok {buf l : Bytes} (hb : buf.length = 2048) (hl : l.length ≤ 2047) :
    storeLine buf l = .ok (l ++ [0] ++ buf.drop (l.length + 1)) ∧ (l ++ [0] ++ buf.drop (l.length + 1)).length = 2048 := by
  constructor
  · unfold storeLine
    rw [wrSlice_ok (by simp only [List.length_append, List.length_singleton]; omega)]
    simp
  · simp only [List.length_append, List.length_singleton, List.length_drop]; omega

theorem takeWhile_zero (l r : Bytes) : (l ++ [0] ++ r).takeWhile (· ≠ 0) = l.takeWhile (· ≠ 0) := by
  induction l with
  | nil => simp
  | cons a l ih =>
    rw [List.cons_append, List.cons_append, List.takeWhile_cons, List.takeWhile_cons, ih]

theorem takeWhile_self {p : Byte → Bool} : ∀ {l : Bytes}, (∀ x ∈ l, p x = true) → l.takeWhile p = l
  | [], _ => rfl
  | a :: l, h => by
    rw [List.takeWhile_cons, if_pos (h a (List.mem_cons_self)), takeWhile_self fun x hx => h x (List.mem_cons_of_mem _ hx)]

theorem takeWhile_imp {p : Byte → Bool} {x : Byte} : ∀ {l : Bytes}, x ∈ l.takeWhile p → p x = true
  | [], h => by cases h
  | a :: l, h => by
    rw [List.takeWhile_cons] at h
    split at h
    · rename_i ha
      rcases List.mem_cons.1 h with rfl | h
      · exact ha
      · exact takeWhile_imp h
    · cases h

theorem cstr_line (l r : Bytes) : cstr (l ++ [0] ++ r) = .ok (l.takeWhile (· ≠ 0)) := by
  unfold cstr
  rw [if_pos (by simp), takeWhile_zero]

theorem takeWhile_takeWhile (l : Bytes) : (l.takeWhile (· ≠ 0)).takeWhile (fun c => c ≠ CR ∧ c ≠ LF) = passText l := by
  unfold passText
  induction l with
  | nil => rfl
  | cons a l ih =>
    by_cases h : a = 0
    · simp [h]
    · by_cases h' : a ≠ CR ∧ a ≠ LF
      · simp only [List.takeWhile_cons, h, ne_eq, not_false_eq_true, decide_true, if_true, true_and]
        simp only [ne_eq] at h' ih
        rw [if_pos (by simpa using h'), if_pos (by simpa using h'), ih]
      · simp only [List.takeWhile_cons, h, ne_eq, not_false_eq_true, decide_true, if_true, true_and]
        simp only [ne_eq] at h'
        rw [if_neg (by simpa using h'), if_neg (by simpa using h')]

/-- After `passbuf[strcspn(passbuf, "\r\n")] = 0` the buffer holds the text. -/
theorem truncate_spec (l r : Bytes) :
    ∃ b, truncateAtEol (l ++ [0] ++ r) = .ok b ∧ b.length = (l ++ [0] ++ r).length ∧ cstr b = .ok (passText l) := by
  unfold truncateAtEol
  rw [cstr_line, Res.bind_ok, takeWhile_takeWhile]
  have hpre : ∃ t, l = passText l ++ t := ⟨l.dropWhile _, (List.takeWhile_append_dropWhile).symm⟩
  obtain ⟨t, ht⟩ := hpre
  have hlen : (passText l).length ≤ l.length := by
    have := congrArg List.length ht; rw [List.length_append] at this; omega
  rw [wr_ok _ (by simp only [List.length_append, List.length_singleton]; omega)]
  refine ⟨_, rfl, by rw [List.length_set], ?_⟩
  have hset : ∃ r', (l ++ [0] ++ r).set (passText l).length 0 = passText l ++ [0] ++ r' := by
    have e : l ++ [0] ++ r = passText l ++ (t ++ [0] ++ r) := by
      conv_lhs => rw [ht]
      simp
    rw [e, List.set_append_right _ _ (Nat.le_refl _), Nat.sub_self]
    cases t with
    | nil => exact ⟨r, by simp⟩
    | cons a t => exact ⟨t ++ [0] ++ r, by simp⟩
  obtain ⟨r', hr'⟩ := hset
  rw [hr', cstr_line]
  congr 1
  apply takeWhile_self
  intro x hx
  have := takeWhile_imp hx
  simp only [decide_eq_true_eq] at this ⊢
  exact this.1

theorem zeroBuf_ok {buf : Bytes} (h : buf.length = 2048) : zeroBuf buf = .ok (List.replicate 2048 0) := by
  unfold zeroBuf MAXPASSLEN
  rw [wrSlice_ok (by rw [List.length_replicate]; omega), List.take_zero, List.nil_append, List.length_replicate, Nat.zero_add,
    List.drop_eq_nil_of_le (by omega), List.append_nil]

/-! ### The loop -/

/-- What the reading loop does. -/
inductive LoopSpec (confirm : Bool) (f : Strm) : RpRead → Prop
  | waiting {s} : NotYet confirm f → LoopSpec confirm f (.waiting s)
  | failed {p c s} : p.length = 2048 → c.length = 2048 → NotEntered confirm f → LoopSpec confirm f (.failed p c s)
  | done {l r c rest s} : (l ++ [0] ++ r : Bytes).length = 2048 → c.length = 2048 →
      (if confirm then Confirmed f (passText l) rest else Reads f l rest) → LoopSpec confirm f (.done (l ++ [0] ++ r) c rest s)

theorem reads_shrinks {f f' : Strm} {c : Bytes} (h : Reads f c f') : f'.data.length < f.data.length := by
  obtain ⟨h1, -, h3, -⟩ := h
  rw [h1, List.length_append]; omega

theorem retryLoop_spec (arr : Nat → List Sig) (usingtty confirm : Bool) (n : Nat) : ∀ (f : Strm) (_ : f.data.length ≤ n) (p c : Bytes)
    (_ : p.length = 2048) (_ : c.length = 2048) (s : RpSt), ∃ r, retryLoop arr usingtty confirm p c f s = .ok r ∧ LoopSpec confirm f r := by
  induction n using Nat.strongRecOn with
  | ind n ih =>
    intro f hn p c hp hc s
    rw [retryLoop]
    have h1 := fgets_spec f
    generalize fgets MAXPASSLEN f = g at h1 ⊢
    cases h1 with
    | wait h =>
      refine ⟨_, rfl, .waiting ?_⟩
      cases confirm
      · exact h
      · exact .first h
    | eof h h' =>
      refine ⟨_, rfl, .failed hp hc ?_⟩
      cases confirm
      · exact .inl ⟨h, h'⟩
      · exact .first (.inl ⟨h, h'⟩)
    | err h h' h'' =>
      refine ⟨_, rfl, .failed hp hc ?_⟩
      cases confirm
      · exact .inr ⟨h, h', h''⟩
      · exact .first (.inr ⟨h, h', h''⟩)
    | @line l f1 hr =>
      obtain ⟨e1, e2⟩ := storeLine_ok hp hr.2.2.2.1
      simp only [e1, Res.bind_ok]
      cases confirm with
      | false => exact ⟨_, rfl, .done e2 hc hr⟩
      | true =>
        rw [if_neg (by simp)]
        have h2 := fgets_spec f1
        generalize fgets MAXPASSLEN f1 = g at h2 ⊢
        cases h2 with
        | wait h => exact ⟨_, rfl, .waiting (.second hr h)⟩
        | eof h h' => exact ⟨_, rfl, .failed e2 hc (.second hr (.inl ⟨h, h'⟩))⟩
        | err h h' h'' => exact ⟨_, rfl, .failed e2 hc (.second hr (.inr ⟨h, h', h''⟩))⟩
        | @line l2 f2 hr2 =>
          obtain ⟨e3, e4⟩ := storeLine_ok hc hr2.2.2.2.1
          simp only [e3, Res.bind_ok, cstr_line]
          have hs1 := reads_shrinks hr
          have hs2 := reads_shrinks hr2
          by_cases hsame : l.takeWhile (· ≠ 0) = l2.takeWhile (· ≠ 0)
          · rw [if_neg (not_not.2 hsame)]
            exact ⟨_, rfl, .done e2 e4 (.same hr hr2 hsame)⟩
          · rw [if_pos hsame, dif_pos (by omega)]
            obtain ⟨r, k1, k2⟩ := ih f2.data.length (by omega) f2 (Nat.le_refl _) _ _ e2 e4
              (act arr (act arr (if usingtty = true then act arr (act arr (if usingtty = true then act arr s .prompt else s) .read) .confirmPrompt
                else act arr (if usingtty = true then act arr s .prompt else s) .read) .read) .mismatch)
            refine ⟨r, k1, ?_⟩
            cases k2 with
            | waiting h => exact .waiting (.again hr hr2 hsame h)
            | failed a b h => exact .failed a b (.again hr hr2 hsame h)
            | done a b h => exact .done a b (.again hr hr2 hsame h)

end Scrypt
