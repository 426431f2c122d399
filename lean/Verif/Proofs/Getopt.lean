import Verif.Model.Getopt
import Verif.Spec.Getopt
import Mathlib.Tactic.ByContra
import Mathlib.Tactic.Common
/-
getopt: registration of the options, search, and the meaning of the loop.
-/
namespace Scrypt
open Spec

/-! ### The table of options -/

/-- "-X", or "--foo" without '='. -/
def ValidName (o : CStr) : Prop :=
  '\x00' ∉ o ∧ ((∃ c, c ≠ '-' ∧ o = ['-', c]) ∨ (∃ n, n ≠ [] ∧ '=' ∉ n ∧ o = '-' :: '-' :: n))

/-- The option a label registers. -/
def GoLbl.name? : GoLbl → Option CStr
  | .opt o => some o
  | .optarg o => some o
  | .missing => none

/-- The label for an option. -/
def goLbl (b : Bool) (o : CStr) : GoLbl := if b then .optarg o else .opt o

/-- A usable table: lines in order, GETOPT_DEFAULT last, valid and distinct options. -/
structure GoTable.WF (t : GoTable) : Prop where
  sorted : t.labels.Pairwise (fun p q => p.1 < q.1)
  bound : ∀ p ∈ t.labels, p.1 < t.dflt
  names : ∀ p ∈ t.labels, ∀ o, p.2.name? = some o → ValidName o
  distinct : t.labels.Pairwise (fun p q => ∀ o, p.2.name? = some o → q.2.name? ≠ some o)

/-- What the table says about an option string. -/
def GoTable.kind (t : GoTable) : OptKind := fun os =>
  t.labels.findSome? fun p =>
    match p.2 with
    | .opt o => if o = os then some false else none
    | .optarg o => if o = os then some true else none
    | .missing => none

/-- Is there a GETOPT_MISSING_ARG? -/
def GoTable.hasMissing (t : GoTable) : Bool := t.labels.any fun p => p.2 == .missing

theorem lookup_mem {l : List (Nat × GoLbl)} (h : l.Pairwise (fun p q => p.1 < q.1)) (ln : Nat) (x : GoLbl) :
    l.lookup ln = some x ↔ (ln, x) ∈ l := by
  induction l with
  | nil => simp
  | cons p l ih =>
    obtain ⟨k, y⟩ := p
    rw [List.pairwise_cons] at h
    rw [List.lookup_cons]
    by_cases hk : ln = k
    · subst hk
      simp only [beq_self_eq_true, List.mem_cons, Prod.mk.injEq, true_and]
      constructor
      · intro h'; left; exact (Option.some.inj h').symm
      · rintro (rfl | h')
        · rfl
        · exact absurd (h.1 _ h') (Nat.lt_irrefl _)
    · rw [show (ln == k) = false by simpa using hk]
      simp only [List.mem_cons, Prod.mk.injEq, hk, false_and, false_or]
      exact ih h.2

theorem GoTable.WF.at_mem {t : GoTable} (h : t.WF) (ln : Nat) (x : GoLbl) : t.at ln = some x ↔ (ln, x) ∈ t.labels :=
  lookup_mem h.sorted ln x

theorem GoTable.WF.name_unique {t : GoTable} (h : t.WF) {p q : Nat × GoLbl} (hp : p ∈ t.labels) (hq : q ∈ t.labels) {o : CStr}
    (h1 : p.2.name? = some o) (h2 : q.2.name? = some o) : p = q := by
  have := h.distinct
  revert hp hq
  generalize t.labels = l at this
  induction l with
  | nil => intro hp; cases hp
  | cons r l ih =>
    rw [List.pairwise_cons] at this
    intro hp hq
    rcases List.mem_cons.1 hp with e1 | hp' <;> rcases List.mem_cons.1 hq with e2 | hq'
    · rw [e1, e2]
    · rw [e1] at h1; exact absurd h2 (this.1 _ hq' _ h1)
    · rw [e2] at h2; exact absurd h1 (this.1 _ hp' _ h2)
    · exact ih this.2 hp' hq'

theorem GoTable.WF.kind_some {t : GoTable} (h : t.WF) (os : CStr) (b : Bool) : t.kind os = some b ↔ ∃ ln, (ln, goLbl b os) ∈ t.labels := by
  unfold GoTable.kind
  constructor
  · intro hk
    obtain ⟨p, hp, h1⟩ := List.exists_of_findSome?_eq_some hk
    obtain ⟨ln, l⟩ := p
    cases l with
    | opt o =>
      simp only [] at h1
      split at h1
      · rename_i ho; subst ho; cases h1; exact ⟨ln, hp⟩
      · cases h1
    | optarg o =>
      simp only [] at h1
      split at h1
      · rename_i ho; subst ho; cases h1; exact ⟨ln, hp⟩
      · cases h1
    | missing => cases h1
  · rintro ⟨ln, hm⟩
    cases hf : t.labels.findSome? (fun p => match p.2 with
      | .opt o => if o = os then some false else none
      | .optarg o => if o = os then some true else none
      | .missing => none) with
    | none =>
      rw [List.findSome?_eq_none_iff] at hf
      have := hf _ hm
      cases b <;> simp [goLbl] at this
    | some b' =>
      obtain ⟨⟨ln', l⟩, hp, h1⟩ := List.exists_of_findSome?_eq_some hf
      have hn : (goLbl b os).name? = some os := by cases b <;> rfl
      cases l with
      | opt o =>
        simp only [] at h1
        split at h1
        · rename_i ho; subst ho; cases h1
          have := h.name_unique hm hp hn rfl
          cases b
          · rfl
          · cases (Prod.mk.inj this).2
        · cases h1
      | optarg o =>
        simp only [] at h1
        split at h1
        · rename_i ho; subst ho; cases h1
          have := h.name_unique hm hp hn rfl
          cases b
          · cases (Prod.mk.inj this).2
          · rfl
        · cases h1
      | missing => cases h1

theorem GoTable.WF.kind_none {t : GoTable} (h : t.WF) (os : CStr) : t.kind os = none ↔ ∀ p ∈ t.labels, p.2.name? ≠ some os := by
  constructor
  · rintro hk ⟨ln, l⟩ hp hn
    have : ∃ b, l = goLbl b os := by
      cases l with
      | opt o => cases hn; exact ⟨false, rfl⟩
      | optarg o => cases hn; exact ⟨true, rfl⟩
      | missing => cases hn
    obtain ⟨b, rfl⟩ := this
    rw [(h.kind_some os b).2 ⟨ln, hp⟩] at hk
    cases hk
  · intro hp
    cases hk : t.kind os with
    | none => rfl
    | some b =>
      obtain ⟨ln, hm⟩ := (h.kind_some os b).1 hk
      exact absurd (by cases b <;> rfl) (hp _ hm)

theorem GoTable.WF.kind_valid {t : GoTable} (h : t.WF) {os : CStr} {b : Bool} (hk : t.kind os = some b) : ValidName os := by
  obtain ⟨ln, hm⟩ := (h.kind_some os b).1 hk
  exact h.names _ hm os (by cases b <;> rfl)

/-! ### Strings -/

theorem strAt_lt {s : CStr} {i : Nat} (h : i < s.length) : strAt s i = .ok s[i] := by rw [strAt, dif_pos h]
theorem strAt_end {s : CStr} : strAt s s.length = .ok '\x00' := by rw [strAt, dif_neg (by omega), if_pos rfl]

theorem strAt_append (o r : CStr) : strAt (o ++ r) o.length = .ok (r.head?.getD '\x00') := by
  cases r with
  | nil => rw [List.append_nil, strAt_end]; rfl
  | cons c r =>
    rw [strAt_lt (by simp)]
    simp

theorem strncmpEq_prefix (o os : CStr) : strncmpEq o.length o os = true ↔ o <+: os := by
  induction o generalizing os with
  | nil => simp [strncmpEq]
  | cons a o ih =>
    cases os with
    | nil => simp [strncmpEq]
    | cons b os =>
      rw [List.length_cons, strncmpEq, Bool.and_eq_true, ih, List.cons_prefix_cons, beq_iff_eq]

/-- The option string names this option, perhaps with '=' and a value. -/
def NameMatch (o os : CStr) : Prop := os = o ∨ ∃ v, os = o ++ '=' :: v

theorem nameMatch_iff {o os : CStr} (hz : '\x00' ∉ os) : NameMatch o os ↔
    ∃ r, os = o ++ r ∧ (r.head?.getD '\x00' = '\x00' ∨ r.head?.getD '\x00' = '=') := by
  constructor
  · rintro (rfl | ⟨v, rfl⟩)
    · exact ⟨[], by simp, .inl rfl⟩
    · exact ⟨'=' :: v, rfl, .inr rfl⟩
  · rintro ⟨r, rfl, h⟩
    cases r with
    | nil => left; simp
    | cons c r =>
      simp only [List.head?_cons, Option.getD_some] at h
      rcases h with rfl | rfl
      · exact absurd (by simp) hz
      · exact .inr ⟨r, rfl⟩

theorem split_eq_unique {n m v w : CStr} (hn : '=' ∉ n) (hm : '=' ∉ m) (h : n ++ '=' :: v = m ++ '=' :: w) : n = m ∧ v = w := by
  induction n generalizing m with
  | nil =>
    cases m with
    | nil => simp only [List.nil_append, List.cons.injEq, true_and] at h; exact ⟨rfl, h⟩
    | cons b m =>
      simp only [List.nil_append, List.cons_append, List.cons.injEq] at h
      exact absurd (by simp [← h.1]) hm
  | cons a n ih =>
    cases m with
    | nil =>
      simp only [List.nil_append, List.cons_append, List.cons.injEq] at h
      exact absurd (by simp [h.1]) hn
    | cons b m =>
      simp only [List.cons_append, List.cons.injEq] at h
      obtain ⟨h1, h2⟩ := ih (fun h => hn (List.mem_cons_of_mem _ h)) (fun h => hm (List.mem_cons_of_mem _ h)) h.2
      exact ⟨by rw [h.1, h1], h2⟩

theorem nameMatch_unique {o p os : CStr} (ho : ValidName o) (hp : ValidName p) (h1 : NameMatch o os) (h2 : NameMatch p os) : o = p := by
  rcases ho.2 with ⟨c, hc, rfl⟩ | ⟨n, hn, hn', rfl⟩ <;> rcases hp.2 with ⟨d, hd, rfl⟩ | ⟨m, hm, hm', rfl⟩
  · rcases h1 with rfl | ⟨v, rfl⟩ <;> rcases h2 with h2 | ⟨w, h2⟩
    · exact h2
    · simp at h2
    · simp at h2
    · simp at h2; rw [h2.1]
  · rcases h1 with rfl | ⟨v, rfl⟩ <;> rcases h2 with h2 | ⟨w, h2⟩ <;> simp at h2 <;> exact absurd h2.1 hc
  · rcases h1 with rfl | ⟨v, rfl⟩ <;> rcases h2 with h2 | ⟨w, h2⟩ <;> simp at h2 <;> exact absurd h2.1.symm hd
  · rcases h1 with rfl | ⟨v, rfl⟩ <;> rcases h2 with h2 | ⟨w, h2⟩
    · exact h2
    · simp at h2; exact absurd (by rw [h2]; simp) hn'
    · simp at h2; exact absurd (by rw [← h2]; simp) hm'
    · simp only [List.cons_append, List.cons.injEq, true_and] at h2
      rw [(split_eq_unique hn' hm' h2).1]

/-! ### Search -/

/-- The loop finds the slot whose option matches. -/
theorem searchLoop_spec {arr : List (Option Opt)} {os : CStr} {d : Nat} (hz : '\x00' ∉ os) (hlen : ∀ o, some o ∈ arr → o.olen = o.os.length)
    (i n : Nat) (hn : i + n = arr.length) :
    (∃ j o, i ≤ j ∧ arr[j]? = some (some o) ∧ NameMatch o.os os ∧ searchLoop arr os d i n = .ok j) ∨
    ((∀ j o, i ≤ j → arr[j]? = some (some o) → ¬ NameMatch o.os os) ∧ searchLoop arr os d i n = .ok d) := by
  induction n generalizing i with
  | zero =>
    right
    refine ⟨?_, rfl⟩
    intro j o hj h
    have := List.getElem?_eq_none (show arr.length ≤ j by omega)
    rw [this] at h; cases h
  | succ n ih =>
    have hi : i < arr.length := by omega
    have ih := ih (i + 1) (by omega)
    have hcont : ∀ {x}, (∀ o, arr[i] = some o → ¬ NameMatch o.os os) → x = searchLoop arr os d (i + 1) n →
      (∃ j o, i ≤ j ∧ arr[j]? = some (some o) ∧ NameMatch o.os os ∧ x = .ok j) ∨
      ((∀ j o, i ≤ j → arr[j]? = some (some o) → ¬ NameMatch o.os os) ∧ x = .ok d) := by
      rintro x hno rfl
      rcases ih with ⟨j, o, h1, h2⟩ | ⟨h1, h2⟩
      · exact .inl ⟨j, o, by omega, h2⟩
      · refine .inr ⟨?_, h2⟩
        intro j o hj h
        rcases Nat.lt_or_ge i j with h' | h'
        · exact h1 j o h' h
        · have : j = i := by omega
          subst this
          rw [List.getElem?_eq_getElem hi] at h
          exact hno o (Option.some.inj h)
    rw [searchLoop, rd_ok hi, Res.bind_ok]
    cases ha : arr[i] with
    | none => exact hcont (fun o h => (by rw [ha] at h; cases h)) rfl
    | some o =>
      simp only []
      rw [hlen o (by rw [← ha]; exact List.getElem_mem hi)]
      by_cases hp : o.os <+: os
      · rw [(strncmpEq_prefix _ _).2 hp, if_neg (show ¬ true = false by decide)]
        obtain ⟨r, rfl⟩ := hp
        rw [strAt_append, Res.bind_ok]
        by_cases hr : r.head?.getD '\x00' = '\x00' ∨ r.head?.getD '\x00' = '='
        · rw [if_pos hr]
          exact .inl ⟨i, o, Nat.le_refl _, by rw [List.getElem?_eq_getElem hi, ha], (nameMatch_iff hz).2 ⟨r, rfl, hr⟩, rfl⟩
        · rw [if_neg hr]
          refine hcont ?_ rfl
          intro o' h
          rw [ha] at h
          obtain rfl := Option.some.inj h
          intro hm
          obtain ⟨r', h1, h2⟩ := (nameMatch_iff hz).1 hm
          exact hr (by rw [List.append_cancel_left h1]; exact h2)
      · rw [if_pos (show strncmpEq o.os.length o.os os = false from by
          rw [Bool.eq_false_iff]; intro h; exact hp ((strncmpEq_prefix _ _).1 h))]
        refine hcont ?_ rfl
        intro o' h
        rw [ha] at h
        obtain rfl := Option.some.inj h
        intro hm
        obtain ⟨r', h1, h2⟩ := (nameMatch_iff hz).1 hm
        exact hp ⟨r', h1.symm⟩

/-! ### Registration -/

/-- The slot a label fills. -/
def slotOf : Option GoLbl → Option Opt
  | some (.opt o) => some ⟨o, o.length, false⟩
  | some (.optarg o) => some ⟨o, o.length, true⟩
  | _ => none

/-- The state while lines below `j` have been registered. -/
structure Registering (t : GoTable) (j : Nat) (st0 st : GoSt) : Prop where
  rst : st.optreset = false
  ini : st.initialized = false
  opts : st.opts = some ((List.range j).map (fun i => slotOf (t.at i)) ++ List.replicate (t.dflt - j) none)
  nopts : st.nopts = t.dflt
  dflt : st.opt_default = t.dflt + 1
  miss : (st.opt_missing = t.dflt + 1 ∧ ∀ i < j, t.at i ≠ some .missing) ∨ (t.at st.opt_missing = some .missing)
  optind : st.optind = st0.optind
  packed : st.packedopts = st0.packedopts
  warned : st.warned = st0.warned
  opterr : st.opterr = st0.opterr
  cmd : st.cmdname = st0.cmdname

theorem optNameBad_valid {o : CStr} (h : ValidName o) : optNameBad o = .ok false := by
  obtain ⟨hz, ⟨c, hc, rfl⟩ | ⟨n, hn, hn', rfl⟩⟩ := h
  · simp only [List.mem_cons, List.not_mem_nil, or_false, not_or] at hz
    unfold optNameBad
    rw [strAt_lt (by decide : 0 < 2), Res.bind_ok]
    simp only [List.getElem_cons_zero, ne_eq, not_true_eq_false, if_false]
    rw [strAt_lt (show 1 < ['-', c].length by simp), Res.bind_ok]
    simp only [List.getElem_cons_succ, List.getElem_cons_zero]
    rw [if_neg (Ne.symm hz.2), show strAt ['-', c] 2 = .ok '\x00' from strAt_end (s := ['-', c]), Res.bind_ok]
    simp [hc]
  · cases n with
    | nil => exact absurd rfl hn
    | cons d n =>
      simp only [List.mem_cons, not_or] at hz
      unfold optNameBad
      rw [strAt_lt (by simp), Res.bind_ok]
      simp only [List.getElem_cons_zero, ne_eq, not_true_eq_false, if_false]
      rw [strAt_lt (by simp), Res.bind_ok]
      simp only [List.getElem_cons_succ, List.getElem_cons_zero]
      rw [if_neg (show ¬ ('-' : Char) = '\x00' by decide), strAt_lt (by simp), Res.bind_ok]
      simp [Ne.symm hz.2.2.1]

theorem slots_mem {t : GoTable} {j k : Nat} {o : Opt} (h : some o ∈ (List.range j).map (fun i => slotOf (t.at i)) ++ List.replicate k none) :
    ∃ i < j, slotOf (t.at i) = some o := by
  rcases List.mem_append.1 h with h | h
  · obtain ⟨i, hi, h⟩ := List.mem_map.1 h
    exact ⟨i, List.mem_range.1 hi, h⟩
  · exact absurd (List.eq_of_mem_replicate h) (by simp)

theorem slotOf_eq {l : Option GoLbl} {o : Opt} (h : slotOf l = some o) : l = some (goLbl o.hasarg o.os) ∧ o.olen = o.os.length := by
  unfold slotOf at h
  split at h
  · cases h; exact ⟨rfl, rfl⟩
  · cases h; exact ⟨rfl, rfl⟩
  · cases h

theorem register_step {t : GoTable} (hw : t.WF) {j : Nat} (hj : j < t.dflt) {st0 st : GoSt} (hr : Registering t j st0 st) {o : CStr} {b : Bool}
    (hl : t.at j = some (goLbl b o)) : ∃ st', getopt_register_opt o j b st = .ok st' ∧ Registering t (j + 1) st0 st' := by
  have hlen : ((List.range j).map (fun i => slotOf (t.at i))).length = j := by simp
  have hv : ValidName o := hw.names _ ((hw.at_mem _ _).1 hl) o (by cases b <;> rfl)
  have hslot : ((List.range j).map (fun i => slotOf (t.at i)) ++ List.replicate (t.dflt - j) (none : Option Opt))[j]? = some none := by
    rw [List.getElem?_append_right (by omega), hlen, Nat.sub_self, List.getElem?_replicate, if_pos (by omega)]
  have hsearch : searchopt st o = .ok st.opt_default := by
    unfold searchopt
    rw [hr.opts, Option.getD_some, hr.nopts]
    rcases searchLoop_spec (arr := (List.range j).map (fun i => slotOf (t.at i)) ++ List.replicate (t.dflt - j) none) (d := st.opt_default) hv.1
        (fun o h => by obtain ⟨i, _, h⟩ := slots_mem h; exact (slotOf_eq h).2) 0 t.dflt (by simp; omega) with ⟨i, o', -, h1, h2, -⟩ | ⟨-, h⟩
    · exfalso
      obtain ⟨i, hi, h3⟩ := slots_mem (List.mem_of_getElem? h1)
      have h4 := (hw.at_mem _ _).1 (slotOf_eq h3).1
      have hn : (goLbl o'.hasarg o'.os).name? = some o'.os := by cases o'.hasarg <;> rfl
      have h5 := nameMatch_unique (hw.names _ h4 o'.os hn) hv h2 (.inl rfl)
      have h6 := hw.name_unique h4 ((hw.at_mem _ _).1 hl) hn (by rw [h5]; cases b <;> rfl)
      have := (Prod.mk.inj h6).1
      omega
    · exact h
  refine ⟨{ st with opts := some ((List.range (j + 1)).map (fun i => slotOf (t.at i)) ++ List.replicate (t.dflt - (j + 1)) none) }, ?_, ?_⟩
  · unfold getopt_register_opt
    rw [hr.rst, hr.ini, if_neg (by decide)]
    simp only [decide_true, cassert_true, Res.bind_ok]
    rw [hr.opts]
    simp only []
    rw [rd_some hslot, Res.bind_ok]
    simp only [Option.isNone_none, cassert_true, Res.bind_ok]
    rw [optNameBad_valid hv, Res.bind_ok, if_neg (by decide), hsearch, Res.bind_ok, if_neg (by simp), wr_ok _ (by simp; omega), Res.bind_ok]
    congr 2
    rw [List.set_append_right _ _ (by omega), hlen, Nat.sub_self, show t.dflt - j = (t.dflt - (j + 1)) + 1 by omega, List.replicate_succ,
      List.set_cons_zero, List.range_succ, List.map_append, List.append_assoc]
    simp only [List.map_cons, List.map_nil, List.singleton_append, hl]
    cases b <;> rfl
  · refine ⟨hr.rst, hr.ini, rfl, hr.nopts, hr.dflt, ?_, hr.optind, hr.packed, hr.warned, hr.opterr, hr.cmd⟩
    rcases hr.miss with ⟨h1, h2⟩ | h
    · left
      refine ⟨h1, fun i hi => ?_⟩
      rcases Nat.lt_or_ge i j with h | h
      · exact h2 i h
      · have : i = j := by omega
        subst this
        rw [hl]
        cases b <;> simp [goLbl]
    · exact .inr h

/-- The state after registration. -/
structure Ready (t : GoTable) (st : GoSt) : Prop where
  rst : st.optreset = false
  ini : st.initialized = true
  opts : st.opts = some ((List.range t.dflt).map (fun i => slotOf (t.at i)))
  nopts : st.nopts = t.dflt
  dflt : st.opt_default = t.dflt + 1
  miss : (st.opt_missing = t.dflt + 1 ∧ t.hasMissing = false) ∨ (t.at st.opt_missing = some .missing ∧ t.hasMissing = true)

theorem hasMissing_iff {t : GoTable} (hw : t.WF) : t.hasMissing = true ↔ ∃ i, t.at i = some .missing := by
  unfold GoTable.hasMissing
  rw [List.any_eq_true]
  constructor
  · rintro ⟨⟨i, l⟩, hp, h⟩
    exact ⟨i, (hw.at_mem _ _).2 (by simpa [beq_iff_eq] using (by rw [beq_iff_eq] at h; rw [← h]; exact hp : (i, GoLbl.missing) ∈ t.labels))⟩
  · rintro ⟨i, h⟩
    exact ⟨_, (hw.at_mem _ _).1 h, by simp⟩

theorem switchInit_loop {t : GoTable} (hw : t.WF) {mallocOk : Bool} {st0 : GoSt} (n j : Nat) (hn : j + n = t.dflt) {st : GoSt} (hr : Registering t j st0 st) :
    ∃ st', switchInit mallocOk t (j + 1) true st = .ok st' ∧ Ready t st' ∧ st'.optind = st0.optind ∧ st'.packedopts = st0.packedopts ∧
      st'.warned = st0.warned ∧ st'.opterr = st0.opterr ∧ st'.cmdname = st0.cmdname := by
  induction n generalizing j st with
  | zero =>
    have : j = t.dflt := by omega
    subst this
    refine ⟨{ st with initialized := true }, by rw [switchInit, if_pos rfl], ?_, hr.optind, hr.packed, hr.warned, hr.opterr, hr.cmd⟩
    refine ⟨hr.rst, rfl, ?_, hr.nopts, hr.dflt, ?_⟩
    · have := hr.opts
      rw [Nat.sub_self, List.replicate_zero, List.append_nil] at this
      exact this
    · rcases hr.miss with ⟨h1, h2⟩ | h
      · refine .inl ⟨h1, ?_⟩
        rw [Bool.eq_false_iff, ne_eq, hasMissing_iff hw]
        rintro ⟨i, hi⟩
        exact h2 i (hw.bound _ ((hw.at_mem _ _).1 hi)) hi
      · exact .inr ⟨h, (hasMissing_iff hw).2 ⟨_, h⟩⟩
  | succ n ih =>
    have hj : j < t.dflt := by omega
    rw [switchInit, if_neg (by omega), if_neg (by omega), if_neg (by omega), Nat.add_sub_cancel]
    cases hl : t.at j with
    | none =>
      simp only [defaultInit, if_true, Res.bind_ok]
      refine ih (j + 1) (by omega) ⟨hr.rst, hr.ini, ?_, hr.nopts, hr.dflt, ?_, hr.optind, hr.packed, hr.warned, hr.opterr, hr.cmd⟩
      · rw [hr.opts, List.range_succ, List.map_append, List.append_assoc, show t.dflt - j = (t.dflt - (j + 1)) + 1 by omega, List.replicate_succ]
        simp only [List.map_cons, List.map_nil, List.singleton_append, hl]
        rfl
      · rcases hr.miss with ⟨h1, h2⟩ | h
        · left
          refine ⟨h1, fun i hi => ?_⟩
          rcases Nat.lt_or_ge i j with h | h
          · exact h2 i h
          · have : i = j := by omega
            subst this
            rw [hl]; simp
        · exact .inr h
    | some l =>
      simp only []
      cases l with
      | opt o =>
        obtain ⟨st', h1, h2⟩ := register_step hw hj hr (b := false) hl
        rw [registerLbl, h1, Res.bind_ok]
        exact ih (j + 1) (by omega) h2
      | optarg o =>
        obtain ⟨st', h1, h2⟩ := register_step hw hj hr (b := true) hl
        rw [registerLbl, h1, Res.bind_ok]
        exact ih (j + 1) (by omega) h2
      | missing =>
        have : getopt_register_missing j st = .ok { st with opt_missing := j } := by
          unfold getopt_register_missing
          rw [hr.rst, hr.ini]
          rfl
        rw [registerLbl, this, Res.bind_ok]
        refine ih (j + 1) (by omega) ⟨hr.rst, hr.ini, ?_, hr.nopts, hr.dflt, .inr hl, hr.optind, hr.packed, hr.warned, hr.opterr, hr.cmd⟩
        show st.opts = _
        rw [hr.opts, List.range_succ, List.map_append, List.append_assoc, show t.dflt - j = (t.dflt - (j + 1)) + 1 by omega, List.replicate_succ]
        simp only [List.map_cons, List.map_nil, List.singleton_append, hl]
        rfl

/-- **Registration.**  A usable table is registered completely; the position in argv does not change. -/
theorem switchInit_spec {t : GoTable} (hw : t.WF) {st : GoSt} (h1 : st.optreset = false) (h2 : st.initialized = false) :
    ∃ st', switchInit true t 0 false st = .ok st' ∧ Ready t st' ∧ st'.optind = st.optind ∧ st'.packedopts = st.packedopts ∧
      st'.warned = st.warned ∧ st'.opterr = st.opterr ∧ st'.cmdname = st.cmdname := by
  rw [switchInit, if_neg (by omega), if_neg (by omega), if_pos rfl]
  simp only [defaultInit]
  have : getopt_setrange true t.dflt st = .ok { st with opts := some (List.replicate t.dflt none), nopts := t.dflt, opt_missing := t.dflt + 1, opt_default := t.dflt + 1 } := by
    unfold getopt_setrange
    rw [h1, h2]
    simp
  rw [if_neg (by decide), this, Res.bind_ok]
  refine switchInit_loop hw t.dflt 0 (by omega) (st0 := st) ⟨h1, h2, ?_, rfl, rfl, .inl ⟨rfl, fun i h => absurd h (by omega)⟩, rfl, rfl, rfl, rfl, rfl⟩
  simp

end Scrypt
