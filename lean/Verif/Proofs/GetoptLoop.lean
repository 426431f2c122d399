import Verif.Proofs.Getopt
/-
getopt: one call, and the loop.
-/
namespace Scrypt
open Spec

/-- Where we are: `pend` is left of a group of one-letter options, `args` are the arguments after that. -/
structure GoAt (argv : List CStr) (pend : CStr) (args : List CStr) (st : GoSt) : Prop where
  packed : st.packedopts = if pend = [] then none else some pend
  rest : argv.drop (if pend = [] then st.optind else st.optind + 1) = args
  bound : (if pend = [] then st.optind else st.optind + 1) ≤ argv.length

/-- What the switch makes of an option. -/
def GoTable.seen (t : GoTable) : OptEv → SwEv
  | .flag o => .opt o
  | .arg o v => .optarg o v
  | .missing o => if t.hasMissing then .missing o else .dflt o
  | .bad o => .dflt o

/-- The messages getopt itself prints: none if there is a GETOPT_MISSING_ARG or opterr is zero. -/
def GoTable.warns (t : GoTable) (opterr : Bool) (cmd : Option CStr) : OptEv → List (Option CStr × OptWarn)
  | .flag _ => []
  | .arg _ _ => []
  | .missing o => if opterr ∧ t.hasMissing = false then [(cmd, .needsArg o)] else []
  | .bad o => if opterr ∧ t.hasMissing = false then [(cmd, if t.kind o = none then .unknown o else .noArg o)] else []

theorem goWarn_eq {t : GoTable} (hw : t.WF) {st : GoSt} (hr : Ready t st) (w : OptWarn) :
    goWarn w st = { st with warned := st.warned ++ (if st.opterr ∧ t.hasMissing = false then [(st.cmdname, w)] else []) } := by
  unfold goWarn
  have hmd : st.opt_missing ≠ st.opt_default ↔ t.hasMissing = true := by
    rw [hr.dflt]
    rcases hr.miss with ⟨h1, h2⟩ | ⟨h1, h2⟩
    · rw [h1, h2]; simp
    · rw [h2]
      have := hw.bound _ ((hw.at_mem _ _).1 h1)
      simp only [ne_eq, iff_true]
      intro h
      simp only [] at this
      omega
  cases he : st.opterr with
  | false => simp only [if_true, Bool.false_eq_true, false_and, if_false, List.append_nil]; cases st; simp_all
  | true =>
    rw [if_neg (by decide)]
    cases hm : t.hasMissing with
    | true => rw [if_pos (hmd.2 hm)]; cases st; simp_all
    | false => rw [if_neg (by rw [hmd, hm]; decide)]; cases st; simp_all

theorem ready_slot {t : GoTable} (hw : t.WF) {ln : Nat} {b : Bool} {o : CStr} (h : t.at ln = some (goLbl b o)) :
    ((List.range t.dflt).map (fun i => slotOf (t.at i)))[ln]? = some (some ⟨o, o.length, b⟩) := by
  have hb := hw.bound _ ((hw.at_mem _ _).1 h)
  simp only [] at hb
  rw [List.getElem?_map, List.getElem?_range hb, Option.map_some, h]
  cases b <;> rfl

/-- The search finds a known option. -/
theorem search_hit {t : GoTable} (hw : t.WF) {st : GoSt} (hr : Ready t st) {os o : CStr} {b : Bool} (hz : '\x00' ∉ os) (hk : t.kind o = some b)
    (hm : NameMatch o os) : ∃ ln, t.at ln = some (goLbl b o) ∧ searchopt st os = .ok ln := by
  unfold searchopt
  rw [hr.opts, Option.getD_some, hr.nopts]
  obtain ⟨ln, hl⟩ := (hw.kind_some o b).1 hk
  have hl' := (hw.at_mem _ _).2 hl
  rcases searchLoop_spec (arr := (List.range t.dflt).map (fun i => slotOf (t.at i))) (d := st.opt_default) hz
      (fun o h => by obtain ⟨i, _, h⟩ := slots_mem (k := 0) (by simpa using h); exact (slotOf_eq h).2) 0 t.dflt (by simp) with
    ⟨j, o', -, h1, h2, h3⟩ | ⟨h1, -⟩
  · refine ⟨ln, hl', ?_⟩
    rw [h3]
    rw [List.getElem?_map] at h1
    have hj : j < t.dflt := by
      by_contra hc
      rw [List.getElem?_eq_none (by simp; omega)] at h1
      cases h1
    rw [List.getElem?_range hj] at h1
    have h4 := slotOf_eq (Option.some.inj h1)
    have h5 := (hw.at_mem _ _).1 h4.1
    have hn : (goLbl o'.hasarg o'.os).name? = some o'.os := by cases o'.hasarg <;> rfl
    have h6 := nameMatch_unique (hw.names _ h5 o'.os hn) (hw.kind_valid hk) h2 hm
    have h7 := hw.name_unique h5 hl hn (by rw [h6]; cases b <;> rfl)
    rw [(Prod.mk.inj h7).1]
  · exact absurd hm (h1 ln _ (Nat.zero_le _) (ready_slot hw hl'))

/-- The search finds nothing. -/
theorem search_miss {t : GoTable} {st : GoSt} (hw : t.WF) (hr : Ready t st) {os : CStr} (hz : '\x00' ∉ os)
    (hno : ∀ o, NameMatch o os → t.kind o = none) : searchopt st os = .ok (t.dflt + 1) := by
  unfold searchopt
  rw [hr.opts, Option.getD_some, hr.nopts, ← hr.dflt]
  rcases searchLoop_spec (arr := (List.range t.dflt).map (fun i => slotOf (t.at i))) (d := st.opt_default) hz
      (fun o h => by obtain ⟨i, _, h⟩ := slots_mem (k := 0) (by simpa using h); exact (slotOf_eq h).2) 0 t.dflt (by simp) with
    ⟨j, o', -, h1, h2, h3⟩ | ⟨-, h⟩
  · exfalso
    obtain ⟨i, hi, h4⟩ := slots_mem (k := 0) (by simpa using List.mem_of_getElem? h1)
    have := hno _ h2
    rw [(hw.kind_some o'.os o'.hasarg).2 ⟨i, (hw.at_mem _ _).1 (slotOf_eq h4).1⟩] at this
    cases this
  · exact h

/-- The part of the state that options do not change. -/
structure Same (st st' : GoSt) : Prop where
  opterr : st'.opterr = st.opterr
  cmd : st'.cmdname = st.cmdname

/-- A call of getopt followed by the switch: the event `ev`. -/
structure StepTo (t : GoTable) (argv : List CStr) (st : GoSt) (ev : OptEv) (pend : CStr) (args : List CStr) (st' : GoSt) : Prop where
  ready : Ready t st'
  pos : GoAt argv pend args st'
  same : Same st st'
  warned : st'.warned = st.warned ++ t.warns st.opterr st.cmdname ev
  run : ∃ ch v, getopt argv st = .ok (.os ch, st') ∧ getopt_lookup st' (.os ch) = .ok v ∧ switchJump t v ch st' = .ok (some (t.seen ev))

theorem lookup_ok {t : GoTable} {st : GoSt} (hr : Ready t st) {ch : CStr}
    (h : st.opt_found = st.opt_missing ∨ st.opt_found = st.opt_default ∨ ∃ b, t.at st.opt_found = some (goLbl b ch) ∧ st.opt_found < t.dflt) :
    getopt_lookup st (.os ch) = .ok st.opt_found := by
  unfold getopt_lookup
  rw [hr.rst, hr.ini, if_neg (by decide)]
  simp only [cassert_true, Res.bind_ok]
  have : lookupOk st ch = true := by
    unfold lookupOk
    rcases h with h | h | ⟨b, h1, h2⟩
    · rw [h]; simp
    · rw [h]; simp
    · rw [hr.opts, Option.getD_some, hr.nopts, List.getElem?_map, List.getElem?_range h2, Option.map_some, h1]
      cases b <;> simp [goLbl, slotOf, h2]
  rw [this, cassert_true, Res.bind_ok]

theorem jump_dflt {t : GoTable} (hw : t.WF) {ch : CStr} {st : GoSt} : switchJump t (t.dflt + 1) ch st = .ok (some (.dflt ch)) := by
  unfold switchJump
  rw [if_neg (by omega)]
  cases h : t.at (t.dflt + 1) with
  | none => rfl
  | some l =>
    have := hw.bound _ ((hw.at_mem _ _).1 h)
    simp only [] at this
    omega

theorem jump_flag {t : GoTable} (hw : t.WF) {ln : Nat} {o ch : CStr} {st : GoSt} (h : t.at ln = some (.opt o)) : switchJump t ln ch st = .ok (some (.opt ch)) := by
  unfold switchJump
  have := hw.bound _ ((hw.at_mem _ _).1 h)
  simp only [] at this
  rw [if_neg (by omega), h]

theorem jump_arg {t : GoTable} (hw : t.WF) {ln : Nat} {o ch a : CStr} {st : GoSt} (h : t.at ln = some (.optarg o)) (ha : st.optarg = some a) :
    switchJump t ln ch st = .ok (some (.optarg ch a)) := by
  unfold switchJump
  have := hw.bound _ ((hw.at_mem _ _).1 h)
  simp only [] at this
  rw [if_neg (by omega), h]
  simp only []
  rw [ha]

theorem jump_missing {t : GoTable} (hw : t.WF) {ch : CStr} {st : GoSt} (hr : Ready t st) :
    switchJump t st.opt_missing ch st = .ok (some (t.seen (.missing ch))) := by
  rcases hr.miss with ⟨h1, h2⟩ | ⟨h1, h2⟩
  · rw [h1, jump_dflt hw, GoTable.seen, if_neg (by rw [h2]; decide)]
  · unfold switchJump
    have := hw.bound _ ((hw.at_mem _ _).1 h1)
    simp only [] at this
    rw [if_neg (by omega), h1, GoTable.seen, if_pos h2]

/-- getopt.c:203-257 once the option string is there: unknown. -/
theorem found_bad {t : GoTable} (hw : t.WF) {argv : List CStr} {st : GoSt} (hr : Ready t st) {os : CStr} (hz : '\x00' ∉ os)
    (hno : ∀ o, NameMatch o os → t.kind o = none) :
    ∃ st', goFound argv os st = .ok (.os os, st') ∧ Ready t st' ∧ st'.packedopts = st.packedopts ∧ st'.optind = st.optind ∧ Same st st' ∧
      st'.warned = st.warned ++ t.warns st.opterr st.cmdname (.bad os) ∧ getopt_lookup st' (.os os) = .ok (t.dflt + 1) := by
  have hr' : Ready t { st with opt_found := t.dflt + 1 } := ⟨hr.rst, hr.ini, hr.opts, hr.nopts, hr.dflt, hr.miss⟩
  refine ⟨goWarn (.unknown os) { st with opt_found := t.dflt + 1 }, ?_, ?_, ?_, ?_, ?_, ?_, ?_⟩
  · unfold goFound
    rw [search_miss hw hr hz hno, Res.bind_ok]
    simp only []
    rw [if_pos hr.dflt.symm]
  all_goals rw [goWarn_eq hw hr']
  · exact ⟨hr.rst, hr.ini, hr.opts, hr.nopts, hr.dflt, hr.miss⟩
  · exact ⟨rfl, rfl⟩
  · simp only [GoTable.warns]
    rw [hno os (.inl rfl), if_pos rfl]
  · have := lookup_ok (ch := os) (st := { { st with opt_found := t.dflt + 1 } with warned := st.warned ++ (if st.opterr ∧ t.hasMissing = false then [(st.cmdname, .unknown os)] else []) })
      ⟨hr.rst, hr.ini, hr.opts, hr.nopts, hr.dflt, hr.miss⟩ (.inr (.inl hr.dflt.symm))
    exact this

theorem goFound_hit {t : GoTable} (hw : t.WF) {argv : List CStr} {st : GoSt} (hr : Ready t st) {os o : CStr} {b : Bool} (hz : '\x00' ∉ os)
    (hk : t.kind o = some b) (hm : NameMatch o os) : ∃ ln, t.at ln = some (goLbl b o) ∧ ln < t.dflt ∧
      goFound argv os st = ((if b then goArg argv ⟨o, o.length, b⟩ os { st with opt_found := ln } else goNoArg ⟨o, o.length, b⟩ os { st with opt_found := ln }) >>=
        fun st' => .ok (.os o, st')) := by
  obtain ⟨ln, h1, h2⟩ := search_hit hw hr hz hk hm
  have hb := hw.bound _ ((hw.at_mem _ _).1 h1)
  simp only [] at hb
  refine ⟨ln, h1, hb, ?_⟩
  unfold goFound
  rw [h2, Res.bind_ok]
  simp only []
  rw [if_neg (by rw [hr.dflt]; omega), hr.opts, Option.getD_some, rd_some (ready_slot hw h1), Res.bind_ok]
  simp only []
  cases b <;> rfl

/-- The option takes no argument. -/
theorem found_flag {t : GoTable} (hw : t.WF) {argv : List CStr} {st : GoSt} (hr : Ready t st) {o : CStr} (hk : t.kind o = some false) :
    ∃ ln, t.at ln = some (.opt o) ∧ ln < t.dflt ∧ goFound argv o st = .ok (.os o, { st with opt_found := ln }) := by
  obtain ⟨ln, h1, h2, h3⟩ := goFound_hit hw hr (argv := argv) (hw.kind_valid hk).1 hk (.inl rfl)
  refine ⟨ln, h1, h2, ?_⟩
  rw [h3, if_neg (by decide)]
  unfold goNoArg
  rw [strAt_end, Res.bind_ok, if_neg (by decide), Res.bind_ok]

/-- The option takes no argument but there is one. -/
theorem found_badEq {t : GoTable} (hw : t.WF) {argv : List CStr} {st : GoSt} (hr : Ready t st) {o v : CStr} (hk : t.kind o = some false) (hz : '\x00' ∉ v) :
    ∃ st', goFound argv (o ++ '=' :: v) st = .ok (.os o, st') ∧ Ready t st' ∧ st'.packedopts = st.packedopts ∧ st'.optind = st.optind ∧ Same st st' ∧
      st'.warned = st.warned ++ t.warns st.opterr st.cmdname (.bad o) ∧ getopt_lookup st' (.os o) = .ok (t.dflt + 1) := by
  have hz' : '\x00' ∉ o ++ '=' :: v := by
    simp only [List.mem_append, List.mem_cons, not_or]
    exact ⟨(hw.kind_valid hk).1, by decide, hz⟩
  obtain ⟨ln, h1, h2, h3⟩ := goFound_hit hw hr (argv := argv) hz' hk (.inr ⟨v, rfl⟩)
  have hr' : Ready t { st with opt_found := ln } := ⟨hr.rst, hr.ini, hr.opts, hr.nopts, hr.dflt, hr.miss⟩
  refine ⟨{ goWarn (.noArg o) { st with opt_found := ln } with opt_found := st.opt_default }, ?_, ?_, ?_, ?_, ?_, ?_, ?_⟩
  · rw [h3, if_neg (by decide)]
    unfold goNoArg
    rw [strAt_append, Res.bind_ok, if_pos (show ('=' :: v).head?.getD '\x00' = '=' from rfl), Res.bind_ok]
  all_goals rw [goWarn_eq hw hr']
  · exact ⟨hr.rst, hr.ini, hr.opts, hr.nopts, hr.dflt, hr.miss⟩
  · exact ⟨rfl, rfl⟩
  · simp only [GoTable.warns]
    rw [hk, if_neg (show ¬ some false = none by simp)]
  · have := lookup_ok (t := t) (ch := o) (st := { { st with opt_found := ln } with warned := st.warned ++ (if st.opterr ∧ t.hasMissing = false then [(st.cmdname, .noArg o)] else []), opt_found := st.opt_default })
      ⟨hr.rst, hr.ini, hr.opts, hr.nopts, hr.dflt, hr.miss⟩ (.inr (.inl rfl))
    simp only [] at this ⊢
    rw [this, hr.dflt]

/-- The option takes an argument: after the '='. -/
theorem found_argEq {t : GoTable} (hw : t.WF) {argv : List CStr} {st : GoSt} (hr : Ready t st) (hp : st.packedopts = none) {o v : CStr} (hk : t.kind o = some true)
    (hz : '\x00' ∉ v) : ∃ ln, t.at ln = some (.optarg o) ∧ ln < t.dflt ∧ goFound argv (o ++ '=' :: v) st = .ok (.os o, { st with opt_found := ln, optarg := some v }) := by
  have hz' : '\x00' ∉ o ++ '=' :: v := by
    simp only [List.mem_append, List.mem_cons, not_or]
    exact ⟨(hw.kind_valid hk).1, by decide, hz⟩
  obtain ⟨ln, h1, h2, h3⟩ := goFound_hit hw hr (argv := argv) hz' hk (.inr ⟨v, rfl⟩)
  refine ⟨ln, h1, h2, ?_⟩
  rw [h3, if_pos rfl]
  unfold goArg argPacked
  simp only [hp]
  unfold argEq
  rw [strAt_append, Res.bind_ok, if_pos (show ('=' :: v).head?.getD '\x00' = '=' from rfl), Res.bind_ok]
  have : (o ++ '=' :: v).drop (o.length + 1) = v := by
    rw [← List.drop_drop, List.drop_left]; rfl
  rw [this]
  unfold argNext
  rw [if_neg (by simp), Res.bind_ok]
  unfold argMissing
  rw [if_neg (by simp), Res.bind_ok]

/-- The option takes an argument: the rest of the group. -/
theorem found_argPacked {t : GoTable} (hw : t.WF) {argv : List CStr} {st : GoSt} (hr : Ready t st) {o p : CStr} (hp : st.packedopts = some p) (hk : t.kind o = some true) :
    ∃ ln, t.at ln = some (.optarg o) ∧ ln < t.dflt ∧
      goFound argv o st = .ok (.os o, { st with opt_found := ln, optarg := some p, packedopts := none, optind := st.optind + 1 }) := by
  obtain ⟨ln, h1, h2, h3⟩ := goFound_hit hw hr (argv := argv) (hw.kind_valid hk).1 hk (.inl rfl)
  refine ⟨ln, h1, h2, ?_⟩
  rw [h3, if_pos rfl]
  unfold goArg argPacked
  simp only [hp]
  unfold argEq
  rw [strAt_end, Res.bind_ok, if_neg (by decide), Res.bind_ok]
  unfold argNext
  rw [if_neg (by simp), Res.bind_ok]
  unfold argMissing
  rw [if_neg (by simp), Res.bind_ok]

/-- The option takes an argument: the next element of argv. -/
theorem found_argNext {t : GoTable} (hw : t.WF) {argv : List CStr} {st : GoSt} (hr : Ready t st) {o v : CStr} (hp : st.packedopts = none) (ho : st.optarg = none)
    (hk : t.kind o = some true) (hv : argv[st.optind]? = some v) :
    ∃ ln, t.at ln = some (.optarg o) ∧ ln < t.dflt ∧
      goFound argv o st = .ok (.os o, { st with opt_found := ln, optarg := some v, optind := st.optind + 1 }) := by
  obtain ⟨ln, h1, h2, h3⟩ := goFound_hit hw hr (argv := argv) (hw.kind_valid hk).1 hk (.inl rfl)
  refine ⟨ln, h1, h2, ?_⟩
  rw [h3, if_pos rfl]
  unfold goArg argPacked
  simp only [hp]
  unfold argEq
  rw [strAt_end, Res.bind_ok, if_neg (by decide), Res.bind_ok]
  unfold argNext
  have hlt : st.optind < argv.length := by
    by_contra hc
    rw [List.getElem?_eq_none (by omega)] at hv
    cases hv
  rw [if_pos ⟨ho, hlt⟩]
  simp only []
  rw [rd_some hv, Res.bind_ok, Res.bind_ok]
  unfold argMissing
  rw [if_neg (by simp), Res.bind_ok]

/-- The option takes an argument: there is none. -/
theorem found_missing {t : GoTable} (hw : t.WF) {argv : List CStr} {st : GoSt} (hr : Ready t st) {o : CStr} (hp : st.packedopts = none) (ho : st.optarg = none)
    (hk : t.kind o = some true) (hv : argv.length ≤ st.optind) :
    ∃ st', goFound argv o st = .ok (.os o, st') ∧ Ready t st' ∧ st'.packedopts = none ∧ st'.optind = st.optind ∧ Same st st' ∧
      st'.warned = st.warned ++ t.warns st.opterr st.cmdname (.missing o) ∧ st'.opt_found = st'.opt_missing := by
  obtain ⟨ln, h1, h2, h3⟩ := goFound_hit hw hr (argv := argv) (hw.kind_valid hk).1 hk (.inl rfl)
  have hr' : Ready t { st with opt_found := ln } := ⟨hr.rst, hr.ini, hr.opts, hr.nopts, hr.dflt, hr.miss⟩
  refine ⟨{ goWarn (.needsArg o) { st with opt_found := ln } with opt_found := st.opt_missing }, ?_, ?_, ?_, ?_, ?_, ?_, ?_⟩
  · rw [h3, if_pos rfl]
    unfold goArg argPacked
    simp only [hp]
    unfold argEq
    rw [strAt_end, Res.bind_ok, if_neg (by decide), Res.bind_ok]
    unfold argNext
    rw [if_neg (by simp only [not_and]; intro _; omega), Res.bind_ok]
    unfold argMissing
    rw [if_pos ho, Res.bind_ok]
  all_goals rw [goWarn_eq hw hr']
  · exact ⟨hr.rst, hr.ini, hr.opts, hr.nopts, hr.dflt, hr.miss⟩
  · exact hp
  · exact ⟨rfl, rfl⟩
  · simp only [GoTable.warns]

end Scrypt
