import Verif.Props.Getopt
import Verif.Spec.Register
/-
C91: a switch with a malformed or repeated option is refused.  C32: the messages of getopt.
-/
namespace Scrypt.Props
open Scrypt Spec

/-- getopt.c:315-318 -/
theorem optNameBad_shape {o : CStr} (hz : '\x00' ∉ o) : (OptShape o → optNameBad o = .ok false) ∧ (¬ OptShape o → optNameBad o = .ok true) := by
  match o, hz with
  | [], _ =>
    refine ⟨?_, fun _ => by decide⟩
    rintro (⟨c, -, h⟩ | ⟨n, -, h⟩) <;> cases h
  | [a], hz =>
    refine ⟨?_, fun _ => ?_⟩
    · rintro (⟨c, -, h⟩ | ⟨n, -, h⟩) <;> cases h
    · unfold optNameBad
      rw [strAt_lt (by simp), Res.bind_ok, List.getElem_cons_zero]
      by_cases ha : a = '-'
      · rw [if_neg (by simpa using ha), show strAt [a] 1 = .ok '\x00' from strAt_end (s := [a]), Res.bind_ok, if_pos rfl]
      · rw [if_pos ha]
  | [a, b], hz =>
    have hb : b ≠ '\x00' := fun h => hz (by simp [h])
    have e : optNameBad [a, b] = .ok (decide (a ≠ '-' ∨ b = '-')) := by
      unfold optNameBad
      rw [strAt_lt (by simp), Res.bind_ok, List.getElem_cons_zero]
      by_cases ha : a = '-'
      · rw [if_neg (by simpa using ha), strAt_lt (by simp), Res.bind_ok]
        simp only [List.getElem_cons_succ, List.getElem_cons_zero]
        rw [if_neg hb, show strAt [a, b] 2 = .ok '\x00' from strAt_end (s := [a, b]), Res.bind_ok]
        simp [ha]
      · rw [if_pos ha]; simp [ha]
    rw [e]
    constructor
    · rintro (⟨c, hc, h⟩ | ⟨n, hn, h⟩)
      · have e2 : b = c := (List.cons.inj (List.cons.inj h).2).1
        simp [e2, hc, (List.cons.inj h).1]
      · exact absurd (List.cons.inj (List.cons.inj h).2).2.symm hn
    · intro hs
      by_cases ha : a = '-'
      · by_cases hd : b = '-'
        · simp [hd]
        · exact absurd (.inl ⟨b, hd, by rw [ha]⟩) hs
      · simp [ha]
  | a :: b :: c :: r, hz =>
    have hb : b ≠ '\x00' := fun h => hz (by simp [h])
    have hc : c ≠ '\x00' := fun h => hz (by simp [h])
    have e : optNameBad (a :: b :: c :: r) = .ok (decide (a ≠ '-' ∨ b ≠ '-')) := by
      unfold optNameBad
      rw [strAt_lt (by simp), Res.bind_ok, List.getElem_cons_zero]
      by_cases ha : a = '-'
      · rw [if_neg (by simpa using ha), strAt_lt (by simp), Res.bind_ok]
        simp only [List.getElem_cons_succ, List.getElem_cons_zero]
        rw [if_neg hb, strAt_lt (by simp), Res.bind_ok]
        simp [ha, hc]
      · rw [if_pos ha]; simp [ha]
    rw [e]
    constructor
    · rintro (⟨d, hd, h⟩ | ⟨n, hn, h⟩)
      · cases h
      · have e1 : a = '-' := (List.cons.inj h).1
        have e2 : b = '-' := (List.cons.inj (List.cons.inj h).2).1
        simp [e1, e2]
    · intro hs
      by_cases ha : a = '-'
      · by_cases hd : b = '-'
        · exact absurd (.inr ⟨c :: r, by simp, by rw [ha, hd]⟩) hs
        · simp [hd]
      · simp [ha]

/-- Line `j` may be registered. -/
def LineOk (t : GoTable) (j : Nat) : Prop :=
  ∀ o b, t.at j = some (goLbl b o) → OptShape o ∧ ∀ i < j, ∀ o' b', t.at i = some (goLbl b' o') → ¬ TakenFor o' o

/-- One option: registered if its line is fine, otherwise the program stops. -/
theorem register_opt_cases {t : GoTable} {j : Nat} (hj : j < t.dflt) {st0 st : GoSt} (hr : Registering t j st0 st) {o : CStr} {b : Bool}
    (hl : t.at j = some (goLbl b o)) (hz : '\x00' ∉ o) :
    (LineOk t j → ∃ st', getopt_register_opt o j b st = .ok st' ∧ Registering t (j + 1) st0 st') ∧
    (¬ LineOk t j → getopt_register_opt o j b st = .abort) := by
  have hlen : ((List.range j).map (fun i => slotOf (t.at i))).length = j := by simp
  have hslot : ((List.range j).map (fun i => slotOf (t.at i)) ++ List.replicate (t.dflt - j) (none : Option Opt))[j]? = some none := by
    rw [List.getElem?_append_right (by omega), hlen, Nat.sub_self, List.getElem?_replicate, if_pos (by omega)]
  have hinj : ∀ o' b', goLbl b o = goLbl b' o' → o' = o ∧ b' = b := by
    intro o' b' h
    cases b <;> cases b' <;> cases h <;> exact ⟨rfl, rfl⟩
  have pre : ∀ k, getopt_register_opt o j b st =
      (optNameBad o >>= fun bad => if bad then .abort else searchopt st o >>= fun f => if f ≠ st.opt_default then .abort else
        wr ((List.range j).map (fun i => slotOf (t.at i)) ++ List.replicate (t.dflt - j) none) j (some ⟨o, o.length, b⟩) >>= fun opts => k opts) ∨
      k ≠ fun opts => .ok { st with opts := some opts } := by
    intro k
    by_cases hk : k = fun opts => .ok { st with opts := some opts }
    · left
      subst hk
      unfold getopt_register_opt
      rw [hr.rst, hr.ini, if_neg (by decide)]
      simp only [decide_true, cassert_true, Res.bind_ok]
      rw [hr.opts]
      simp only []
      rw [rd_some hslot, Res.bind_ok]
      simp only [Option.isNone_none, cassert_true, Res.bind_ok]
    · exact .inr hk
  have pre := (pre fun opts => .ok { st with opts := some opts }).resolve_right (fun h => h rfl)
  have hsearch := searchLoop_spec (arr := (List.range j).map (fun i => slotOf (t.at i)) ++ List.replicate (t.dflt - j) none) (d := st.opt_default) hz
        (fun o h => by obtain ⟨i, _, h⟩ := slots_mem h; exact (slotOf_eq h).2) 0 t.dflt (by simp; omega)
  have hs : searchopt st o = searchLoop ((List.range j).map (fun i => slotOf (t.at i)) ++ List.replicate (t.dflt - j) none) o st.opt_default 0 t.dflt := by
    unfold searchopt
    rw [hr.opts, Option.getD_some, hr.nopts]
  rw [pre]
  constructor
  · intro hok
    obtain ⟨hshape, hnew⟩ := hok o b hl
    rw [(optNameBad_shape hz).1 hshape, Res.bind_ok, if_neg (by decide)]
    rcases hsearch with ⟨i, o', -, h1, h2, -⟩ | ⟨-, h⟩
    · exfalso
      obtain ⟨i, hi, h3⟩ := slots_mem (List.mem_of_getElem? h1)
      exact hnew i hi _ _ (slotOf_eq h3).1 h2
    · rw [hs, h, Res.bind_ok, if_neg (by simp), wr_ok _ (by simp; omega), Res.bind_ok]
      refine ⟨_, rfl, hr.rst, hr.ini, ?_, hr.nopts, hr.dflt, ?_, hr.optind, hr.packed, hr.warned, hr.opterr, hr.cmd⟩
      · dsimp only
        congr 1
        rw [List.set_append_right _ _ (by omega), hlen, Nat.sub_self, show t.dflt - j = (t.dflt - (j + 1)) + 1 by omega, List.replicate_succ,
          List.set_cons_zero, List.range_succ, List.map_append, List.append_assoc]
        simp only [List.map_cons, List.map_nil, List.singleton_append, hl]
        cases b <;> rfl
      · rcases hr.miss with ⟨h1, h2⟩ | h
        · left
          refine ⟨h1, fun i hi => ?_⟩
          rcases Nat.lt_or_ge i j with h | h
          · exact h2 i h
          · have : i = j := by omega
            subst this
            rw [hl]
            cases b <;> simp [goLbl]
        · exact .inr h
  · intro hbad
    by_cases hshape : OptShape o
    · rw [(optNameBad_shape hz).1 hshape, Res.bind_ok, if_neg (by decide), hs]
      have : ∃ i < j, ∃ o' b', t.at i = some (goLbl b' o') ∧ TakenFor o' o := by
        by_contra hno
        push Not at hno
        refine hbad fun o2 b2 h2 => ?_
        obtain ⟨rfl, rfl⟩ := hinj _ _ (Option.some.inj (hl.symm.trans h2))
        exact ⟨hshape, hno⟩
      obtain ⟨i, hi, o', b', h1, h2⟩ := this
      rcases hsearch with ⟨k, o2, -, h3, -, h4⟩ | ⟨h3, -⟩
      · rw [h4, Res.bind_ok, if_pos]
        rw [hr.dflt]
        have := (List.getElem?_eq_some_iff.1 h3).1
        simp at this
        omega
      · exfalso
        refine h3 i ⟨o', o'.length, b'⟩ (Nat.zero_le _) ?_ h2
        rw [List.getElem?_append_left (by omega), List.getElem?_map, List.getElem?_range hi, Option.map_some, h1]
        cases b' <;> rfl
    · rw [(optNameBad_shape hz).2 hshape, Res.bind_ok, if_pos rfl]

theorem register_loop {t : GoTable} (hz : ∀ j o b, t.at j = some (goLbl b o) → '\x00' ∉ o) {mallocOk : Bool} {st0 : GoSt} (n j : Nat) (hn : j + n = t.dflt) {st : GoSt}
    (hr : Registering t j st0 st) :
    ((∀ i, j ≤ i → i < t.dflt → LineOk t i) → ∃ st', switchInit mallocOk t (j + 1) true st = .ok st' ∧ st'.initialized = true) ∧
    ((∃ i, j ≤ i ∧ i < t.dflt ∧ ¬ LineOk t i) → switchInit mallocOk t (j + 1) true st = .abort) := by
  induction n generalizing j st with
  | zero =>
    have : j = t.dflt := by omega
    subst this
    refine ⟨fun _ => ⟨{ st with initialized := true }, by rw [switchInit, if_pos rfl], rfl⟩, ?_⟩
    rintro ⟨i, h1, h2, -⟩
    omega
  | succ n ih =>
    have hj : j < t.dflt := by omega
    have more : ∀ {st'}, Registering t (j + 1) st0 st' → LineOk t j →
        ((∀ i, j ≤ i → i < t.dflt → LineOk t i) → ∃ st'', switchInit mallocOk t (j + 1 + 1) true st' = .ok st'' ∧ st''.initialized = true) ∧
        ((∃ i, j ≤ i ∧ i < t.dflt ∧ ¬ LineOk t i) → switchInit mallocOk t (j + 1 + 1) true st' = .abort) := by
      intro st' hr' hl
      obtain ⟨h1, h2⟩ := ih (j + 1) (by omega) hr'
      refine ⟨fun h => h1 fun i hi hi' => h i (by omega) hi', ?_⟩
      rintro ⟨i, a, b, c⟩
      refine h2 ⟨i, ?_, b, c⟩
      rcases Nat.eq_or_lt_of_le a with e | e
      · subst e; exact absurd hl c
      · omega
    rw [switchInit, if_neg (by omega), if_neg (by omega), if_neg (by omega), Nat.add_sub_cancel]
    cases hl : t.at j with
    | none =>
      simp only [defaultInit, if_true, Res.bind_ok]
      refine more ⟨hr.rst, hr.ini, ?_, hr.nopts, hr.dflt, ?_, hr.optind, hr.packed, hr.warned, hr.opterr, hr.cmd⟩ ?_
      · rw [hr.opts, List.range_succ, List.map_append, List.append_assoc, show t.dflt - j = (t.dflt - (j + 1)) + 1 by omega, List.replicate_succ]
        simp only [List.map_cons, List.map_nil, List.singleton_append, hl]
        rfl
      · rcases hr.miss with ⟨h1, h2⟩ | h
        · left
          refine ⟨h1, fun i hi => ?_⟩
          rcases Nat.lt_or_ge i j with h | h
          · exact h2 i h
          · have : i = j := by omega
            subst this
            rw [hl]; simp
        · exact .inr h
      · intro o b h
        rw [hl] at h; cases h
    | some l =>
      simp only []
      have opt : ∀ b o, l = goLbl b o → ((∀ i, j ≤ i → i < t.dflt → LineOk t i) → ∃ st', (getopt_register_opt o j b st >>= fun st => switchInit mallocOk t (j + 1 + 1) true st) = .ok st' ∧
            st'.initialized = true) ∧
          ((∃ i, j ≤ i ∧ i < t.dflt ∧ ¬ LineOk t i) → (getopt_register_opt o j b st >>= fun st => switchInit mallocOk t (j + 1 + 1) true st) = .abort) := by
        intro b o e
        subst e
        obtain ⟨h1, h2⟩ := register_opt_cases hj hr hl (hz j o b hl)
        by_cases hok : LineOk t j
        · obtain ⟨st', h3, h4⟩ := h1 hok
          rw [h3, Res.bind_ok]
          exact more h4 hok
        · rw [h2 hok]
          exact ⟨fun h => absurd (h j (Nat.le_refl j) hj) hok, fun _ => rfl⟩
      cases l with
      | opt o => exact opt false o rfl
      | optarg o => exact opt true o rfl
      | missing =>
        have : getopt_register_missing j st = .ok { st with opt_missing := j } := by
          unfold getopt_register_missing
          rw [hr.rst, hr.ini]
          rfl
        rw [registerLbl, this, Res.bind_ok]
        refine more ⟨hr.rst, hr.ini, ?_, hr.nopts, hr.dflt, .inr hl, hr.optind, hr.packed, hr.warned, hr.opterr, hr.cmd⟩ ?_
        · show st.opts = _
          rw [hr.opts, List.range_succ, List.map_append, List.append_assoc, show t.dflt - j = (t.dflt - (j + 1)) + 1 by omega, List.replicate_succ]
          simp only [List.map_cons, List.map_nil, List.singleton_append, hl]
          rfl
        · intro o b h
          rw [hl] at h
          cases b <;> cases h

theorem optionOf_goLbl (b : Bool) (o : CStr) : o ∈ optionOf (goLbl b o) := by cases b <;> rfl

theorem goLbl_of_optionOf {l : GoLbl} {o : CStr} (h : o ∈ optionOf l) : ∃ b, l = goLbl b o := by
  cases l with
  | opt x => cases h; exact ⟨false, rfl⟩
  | optarg x => cases h; exact ⟨true, rfl⟩
  | missing => cases h

theorem pairwise_before {α : Type} {R : α → α → Prop} {f : α → Nat} {l : List α} (hs : l.Pairwise fun p q => f p < f q) (hp : l.Pairwise R) {p q : α} (h1 : p ∈ l) (h2 : q ∈ l)
    (hlt : f p < f q) : R p q := by
  induction l with
  | nil => cases h1
  | cons a l ih =>
    rw [List.pairwise_cons] at hs hp
    rcases List.mem_cons.1 h1 with rfl | h3
    · rcases List.mem_cons.1 h2 with rfl | h4
      · omega
      · exact hp.1 q h4
    · rcases List.mem_cons.1 h2 with rfl | h4
      · have := hs.1 p h3; omega
      · exact ih hs.2 hp.2 h3 h4

theorem lines_good {t : GoTable} (hc : Compiles t) : (∀ i, 0 ≤ i → i < t.dflt → LineOk t i) ↔ GoodSwitch t.labels := by
  obtain ⟨hs, hb, -⟩ := hc
  have hat : ∀ ln x, t.at ln = some x ↔ (ln, x) ∈ t.labels := fun ln x => lookup_mem hs ln x
  constructor
  · intro h
    refine ⟨?_, hs.imp_of_mem ?_⟩
    · rintro ⟨ln, l⟩ hp o ho
      obtain ⟨b, rfl⟩ := goLbl_of_optionOf ho
      exact (h ln (Nat.zero_le _) (hb _ hp) o b ((hat _ _).2 hp)).1
    · rintro ⟨ln, l⟩ ⟨ln', l'⟩ hp hq hlt o ho o' ho'
      obtain ⟨b, rfl⟩ := goLbl_of_optionOf ho
      obtain ⟨b', rfl⟩ := goLbl_of_optionOf ho'
      exact (h ln' (Nat.zero_le _) (hb _ hq) o' b' ((hat _ _).2 hq)).2 ln hlt o b ((hat _ _).2 hp)
  · rintro ⟨h1, h2⟩ j - - o b hj
    have hj := (hat _ _).1 hj
    refine ⟨h1 _ hj o (optionOf_goLbl b o), fun i hi o' b' h => ?_⟩
    exact pairwise_before (f := Prod.fst) hs h2 ((hat _ _).1 h) hj hi o' (optionOf_goLbl b' o') o (optionOf_goLbl b o)

theorem switch_register {t : GoTable} (hc : Compiles t) {st : GoSt} (h1 : st.optreset = false) (h2 : st.initialized = false) :
    (GoodSwitch t.labels → ∃ st', switchInit true t 0 false st = .ok st' ∧ st'.initialized = true) ∧ (¬ GoodSwitch t.labels → switchInit true t 0 false st = .abort) := by
  rw [switchInit, if_neg (by omega), if_neg (by omega), if_pos rfl]
  simp only [defaultInit]
  have : getopt_setrange true t.dflt st = .ok { st with opts := some (List.replicate t.dflt none), nopts := t.dflt, opt_missing := t.dflt + 1, opt_default := t.dflt + 1 } := by
    unfold getopt_setrange
    rw [h1, h2]
    simp
  rw [if_neg (by decide), this, Res.bind_ok]
  obtain ⟨a, b⟩ := register_loop (t := t) (mallocOk := true) (fun j o b h => hc.2.2 _ ((lookup_mem hc.1 _ _).1 h) o (optionOf_goLbl b o)) t.dflt 0 (by omega) (st0 := st)
    (st := { st with opts := some (List.replicate t.dflt none), nopts := t.dflt, opt_missing := t.dflt + 1, opt_default := t.dflt + 1 })
    ⟨h1, h2, by simp, rfl, rfl, .inl ⟨rfl, fun i h => absurd h (by omega)⟩, rfl, rfl, rfl, rfl, rfl⟩
  rw [lines_good hc] at a
  refine ⟨a, fun h => b ?_⟩
  rw [← lines_good hc] at h
  push Not at h
  obtain ⟨i, x, y, z⟩ := h
  exact ⟨i, x, y, z⟩

theorem getopt_first {argv : List CStr} {st : GoSt} (hst : st.optreset = true) : getopt argv st = .ok (.dummy, goReset argv { st with optarg := none }) := by
  unfold getopt
  simp only []
  rw [show (if st.optreset = true then goReset argv { st with optarg := none } else { st with optarg := none }) = goReset argv { st with optarg := none } from if_pos hst]
  rw [if_pos (show (goReset argv { st with optarg := none }).initialized = false from rfl)]

theorem loop_first {σ ε : Type} {mallocOk : Bool} {t : GoTable} {argv : List CStr} {body : σ → SwEv → Except ε σ} {fuel : Nat} {s : σ} {st : GoSt} (hst : st.optreset = true) :
    getoptLoop mallocOk t argv body (fuel + 1) s st =
      (switchInit mallocOk t 0 false (goReset argv { st with optarg := none }) >>= fun st => getoptLoop mallocOk t argv body fuel s st) := by
  rw [getoptLoop, getopt_first hst, Res.bind_ok, if_neg (by simp), if_neg (by simp [goReset])]

/-- **C91.**  A getopt loop whose switch has a malformed option, or one which can be taken for another further up, stops the program when it is first reached, whatever the
command line; the body is not run. -/
theorem C91_refused {σ ε : Type} (t : GoTable) (hc : Compiles t) (hbad : ¬ GoodSwitch t.labels) (argv : List CStr) (body : σ → SwEv → Except ε σ) (s : σ) (st : GoSt)
    (hst : st.optreset = true) (fuel : Nat) : getoptLoop true t argv body (fuel + 1) s st = .abort := by
  rw [loop_first hst, (switch_register hc rfl rfl).2 hbad]
  rfl

/-- **C91.**  Any other switch is taken: the loop goes on, with the table set up. -/
theorem C91_taken {σ ε : Type} (t : GoTable) (hc : Compiles t) (hg : GoodSwitch t.labels) (argv : List CStr) (body : σ → SwEv → Except ε σ) (s : σ) (st : GoSt)
    (hst : st.optreset = true) :
    ∃ st', st'.initialized = true ∧ ∀ fuel, getoptLoop true t argv body (fuel + 1) s st = getoptLoop true t argv body fuel s st' := by
  obtain ⟨st', h1, h2⟩ := (switch_register hc (st := goReset argv { st with optarg := none }) rfl rfl).1 hg
  exact ⟨st', h2, fun fuel => by rw [loop_first hst, h1, Res.bind_ok]⟩

/-- **C91.**  Without memory for the table the program stops too. -/
theorem C91_no_memory {σ ε : Type} (t : GoTable) (ht : t.dflt > 0) (argv : List CStr) (body : σ → SwEv → Except ε σ) (s : σ) (st : GoSt)
    (hst : st.optreset = true) (fuel : Nat) : getoptLoop false t argv body (fuel + 1) s st = .abort := by
  have : switchInit false t 0 false (goReset argv { st with optarg := none }) = .abort := by
    rw [switchInit, if_neg (by omega), if_neg (by omega), if_pos rfl]
    simp only [defaultInit]
    rw [if_neg (by decide)]
    unfold getopt_setrange
    rw [if_neg (by simp [goReset])]
    simp only [goReset, decide_true, cassert_true, Res.bind_ok]
    rw [if_pos ⟨ht, trivial⟩]
    rfl
  rw [loop_first hst, this]
  rfl

/-- The switches C32 speaks of are good ones: `--foo=bar` as the name of an option is all that is missing. -/
theorem wf_good {t : GoTable} (hw : t.WF) : Compiles t ∧ GoodSwitch t.labels := by
  have nm : ∀ l : GoLbl, ∀ o, o ∈ optionOf l → l.name? = some o := fun l o h => by cases l <;> exact h
  refine ⟨⟨hw.sorted, hw.bound, fun p hp o ho => (hw.names p hp o (nm _ _ ho)).1⟩, fun p hp o ho => ?_, hw.distinct.imp_of_mem ?_⟩
  · rcases (hw.names p hp o (nm _ _ ho)).2 with h | ⟨n, h1, -, h2⟩
    · exact .inl h
    · exact .inr ⟨n, h1, h2⟩
  · intro p q hp hq h o ho o' ho' ht
    have := nameMatch_unique (hw.names p hp o (nm _ _ ho)) (hw.names q hq o' (nm _ _ ho')) ht (.inl rfl)
    subst this
    exact h o (nm _ _ ho) (nm _ _ ho')

/-! ### Messages -/

theorem cmdLoop_basename (p : CStr) : ∀ q, ('/' ∉ p → cmdLoop q p = q) ∧ ('/' ∈ p → ∃ dir name, '/' ∉ name ∧ p = dir ++ '/' :: name ∧ cmdLoop q p = name) := by
  induction p with
  | nil => exact fun q => ⟨fun _ => rfl, fun h => absurd h List.not_mem_nil⟩
  | cons c cs ih =>
    intro q
    rw [cmdLoop]
    by_cases hc : c = '/'
    · rw [if_pos hc]
      refine ⟨fun h => absurd (by rw [hc]; exact List.mem_cons_self) h, fun _ => ?_⟩
      by_cases hm : '/' ∈ cs
      · obtain ⟨dir, name, h1, h2, h3⟩ := (ih cs).2 hm
        exact ⟨c :: dir, name, h1, by rw [h2]; rfl, h3⟩
      · exact ⟨[], cs, hm, by rw [hc]; rfl, (ih cs).1 hm⟩
    · rw [if_neg hc]
      constructor
      · intro h
        exact (ih q).1 fun h' => h (List.mem_cons_of_mem _ h')
      · intro h
        rcases List.mem_cons.1 h with h | h
        · exact absurd h.symm hc
        · obtain ⟨dir, name, h1, h2, h3⟩ := (ih q).2 h
          exact ⟨c :: dir, name, h1, by rw [h2]; rfl, h3⟩

theorem cmdLoop_spec (a : CStr) : Basename a (cmdLoop a a) := by
  by_cases h : '/' ∈ a
  · obtain ⟨dir, name, h1, h2, h3⟩ := (cmdLoop_basename a a).2 h
    rw [h3]
    exact ⟨h1, .inr ⟨dir, h2⟩⟩
  · rw [(cmdLoop_basename a a).1 h]
    exact ⟨h, .inl rfl⟩

/-- **C32.**  The messages themselves: the name of the program without its directory, and what is wrong with which option, in the order of the command line; no others. -/
theorem C32_says (t : GoTable) (hw : t.WF) (a0 : CStr) (args : List CStr) (hz : NoNul (a0 :: args)) (st : GoSt) (hst : st.optreset = true)
    (he : st.opterr = true) (hm : t.hasMissing = false) :
    ∃ name evs ops, Basename a0 name ∧ Parses t.kind [] args evs ops ∧ ∀ fuel, evs.length + 2 ≤ fuel →
      ∃ r st', getoptLoop true t (a0 :: args) collect fuel [] st = .ok (some (r, st')) ∧ st'.warned = st.warned ++ evs.flatMap (getoptSays t.kind name) := by
  obtain ⟨evs, ops, hP, h⟩ := getopt_fresh hw (argv := a0 :: args) (by simp) hz hst
  refine ⟨cmdLoop a0 a0, evs, ops, cmdLoop_spec a0, hP, fun fuel hf => ?_⟩
  obtain ⟨st', h1, h2⟩ := h _ _ collect [] fuel hf
  rw [foldBody_collect] at h1 h2
  obtain ⟨-, -, h5⟩ := h2 rfl
  refine ⟨_, st', h1, ?_⟩
  rw [h5]
  congr 2
  funext e
  cases e <;> simp [GoTable.warns, getoptSays, he, hm]

/-- Non-vacuity: `/usr/bin/tool` without GETOPT_MISSING_ARG; and a switch with `-a` twice, or `-ab`, is refused. -/
example : (match getoptLoop true ⟨[(1, .opt "-f".toList), (3, .optarg "--logN".toList)], 5⟩ (["/usr/bin/tool", "-x", "-f", "--f=1", "--logN"].map String.toList) collect 20 [] goInitial with
    | .ok (some (.ok _, st')) => st'.warned
    | _ => []) =
    [(some "tool".toList, .unknown "-x".toList), (some "tool".toList, .unknown "--f=1".toList), (some "tool".toList, .needsArg "--logN".toList)] := by decide +kernel

theorem exSwitch : Compiles ⟨[(1, .opt "-a".toList), (2, .optarg "-a".toList)], 4⟩ ∧ ¬ GoodSwitch [(1, .opt "-a".toList), (2, .optarg "-a".toList)] := by
  refine ⟨⟨by simp, by simp, ?_⟩, fun h => ?_⟩
  · intro p hp o ho
    simp only [List.mem_cons, List.not_mem_nil, or_false] at hp
    rcases hp with rfl | rfl <;> cases ho <;> decide
  · have := (List.pairwise_cons.1 h.2).1 _ (List.mem_cons_self) _ rfl _ rfl
    exact this (.inl rfl)

end Scrypt.Props
