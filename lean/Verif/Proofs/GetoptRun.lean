import Verif.Proofs.GetoptLoop
/-
getopt: the loop does what `Parses` says.
-/
namespace Scrypt
open Spec

variable {t : GoTable} {argv : List CStr} {st : GoSt}

/-- getopt once the options are registered. -/
theorem getopt_ready (hr : Ready t st) (hi : st.optind < argv.length) : getopt argv st =
    (goPack argv { st with optarg := none } >>= fun st => goShort st >>= fun (os, st) => goLong argv os st >>= fun (os, st) =>
      match os with
      | none => .ok (.null, st)
      | some os => goFound argv os st) := by
  unfold getopt
  simp only []
  rw [show (if st.optreset = true then goReset argv { st with optarg := none } else { st with optarg := none }) = { st with optarg := none } from
    if_neg (by rw [hr.rst]; decide)]
  simp only []
  rw [if_neg (by rw [hr.ini]; decide), if_neg (by omega)]
  rfl

theorem getopt_end (hr : Ready t st) (hi : argv.length ≤ st.optind) : getopt argv st = .ok (.null, { st with optarg := none }) := by
  unfold getopt
  simp only []
  rw [show (if st.optreset = true then goReset argv { st with optarg := none } else { st with optarg := none }) = { st with optarg := none } from
    if_neg (by rw [hr.rst]; decide)]
  simp only []
  rw [if_neg (by rw [hr.ini]; decide), if_pos (by omega)]

theorem ready_noarg (hr : Ready t st) : Ready t { st with optarg := none } := ⟨hr.rst, hr.ini, hr.opts, hr.nopts, hr.dflt, hr.miss⟩

theorem strAt_zero (c : Char) (s : CStr) : strAt (c :: s) 0 = .ok c := strAt_lt (s := c :: s) (i := 0) (by simp)
theorem strAt_one (c d : Char) (s : CStr) : strAt (c :: d :: s) 1 = .ok d := strAt_lt (s := c :: d :: s) (i := 1) (by simp)
theorem strAt_two (c d e : Char) (s : CStr) : strAt (c :: d :: e :: s) 2 = .ok e := strAt_lt (s := c :: d :: e :: s) (i := 2) (by simp)

/-- A letter of a group. -/
theorem getopt_short (hr : Ready t st) {c : Char} {cs : CStr} (hp : st.packedopts = some (c :: cs)) (hi : st.optind < argv.length) (hz : '\x00' ∉ cs) :
    getopt argv st = goFound argv ['-', c] { st with optarg := none, packedopts := if cs = [] then none else some cs, optind := if cs = [] then st.optind + 1 else st.optind } := by
  rw [getopt_ready hr hi]
  unfold goPack
  simp only [hp, Res.bind_ok]
  unfold goShort
  simp only [hp]
  rw [strAt_zero, Res.bind_ok]
  cases cs with
  | nil =>
    rw [show strAt [c] 1 = .ok '\x00' from strAt_end (s := [c]), Res.bind_ok, if_pos rfl, Res.bind_ok]
    simp only [goLong, Res.bind_ok, if_true]
  | cons d cs =>
    have hd : d ≠ '\x00' := fun h => hz (by rw [h]; simp)
    rw [strAt_one, Res.bind_ok, if_neg hd, Res.bind_ok]
    simp only [goLong, Res.bind_ok, List.drop_succ_cons, List.drop_zero]
    rw [if_neg (by simp), if_neg (by simp)]

/-- A group starts. -/
theorem getopt_group (hr : Ready t st) {c : Char} {cs : CStr} (hp : st.packedopts = none) (ha : argv[st.optind]? = some ('-' :: c :: cs)) (hc : c ≠ '-') (hc' : c ≠ '\x00') :
    getopt argv st = getopt argv { st with packedopts := some (c :: cs) } := by
  have hi : st.optind < argv.length := by
    by_contra h
    rw [List.getElem?_eq_none (by omega)] at ha
    cases ha
  rw [getopt_ready hr hi, getopt_ready (t := t) (st := { st with packedopts := some (c :: cs) }) ⟨hr.rst, hr.ini, hr.opts, hr.nopts, hr.dflt, hr.miss⟩ hi]
  congr 1
  unfold goPack startsGroup
  simp only [hp]
  rw [rd_some ha, Res.bind_ok, strAt_zero, Res.bind_ok, if_pos rfl, strAt_one, Res.bind_ok, Res.bind_ok]
  simp [hc, hc']

/-- Not the start of a group. -/
theorem pack_no (hp : st.packedopts = none) {a : CStr} (ha : argv[st.optind]? = some a) (hs : startsGroup a = .ok false) :
    goPack argv { st with optarg := none } = .ok { st with optarg := none } ∧ goShort { st with optarg := none } = .ok (none, { st with optarg := none }) := by
  constructor
  · unfold goPack
    simp only [hp]
    rw [rd_some ha, Res.bind_ok, hs, Res.bind_ok, if_neg (by decide)]
  · unfold goShort
    simp only [hp]

theorem idx_lt {a : CStr} (ha : argv[st.optind]? = some a) : st.optind < argv.length := by
  by_contra h
  rw [List.getElem?_eq_none (by omega)] at ha
  cases ha

/-- "--foo…" -/
theorem getopt_long (hr : Ready t st) {n : CStr} (hp : st.packedopts = none) (ha : argv[st.optind]? = some ('-' :: '-' :: n)) (hn : n ≠ []) (hz : '\x00' ∉ n) :
    getopt argv st = goFound argv ('-' :: '-' :: n) { st with optarg := none, optind := st.optind + 1 } := by
  rw [getopt_ready hr (idx_lt ha)]
  have hs : startsGroup ('-' :: '-' :: n) = .ok false := by
    unfold startsGroup
    rw [strAt_zero, Res.bind_ok, if_pos rfl, strAt_one, Res.bind_ok]
    simp
  rw [(pack_no hp ha hs).1, Res.bind_ok, (pack_no hp ha hs).2, Res.bind_ok]
  unfold goLong
  simp only []
  rw [rd_some ha, Res.bind_ok, strAt_zero, Res.bind_ok, if_pos rfl, strAt_one, Res.bind_ok, if_pos rfl]
  cases n with
  | nil => exact absurd rfl hn
  | cons d n =>
    have hd : d ≠ '\x00' := fun h => hz (by rw [h]; simp)
    rw [strAt_two, Res.bind_ok, if_pos hd, Res.bind_ok]

/-- "--" -/
theorem getopt_dashdash (hr : Ready t st) (hp : st.packedopts = none) (ha : argv[st.optind]? = some "--".toList) :
    getopt argv st = .ok (.null, { st with optarg := none, optind := st.optind + 1 }) := by
  change argv[st.optind]? = some ['-', '-'] at ha
  rw [getopt_ready hr (idx_lt ha)]
  have hs : startsGroup ['-', '-'] = .ok false := rfl
  rw [(pack_no hp ha hs).1, Res.bind_ok, (pack_no hp ha hs).2, Res.bind_ok]
  unfold goLong
  simp only []
  rw [rd_some ha, Res.bind_ok]
  rfl

/-- "-" -/
theorem getopt_dash (hr : Ready t st) (hp : st.packedopts = none) (ha : argv[st.optind]? = some "-".toList) :
    getopt argv st = .ok (.null, { st with optarg := none }) := by
  change argv[st.optind]? = some ['-'] at ha
  rw [getopt_ready hr (idx_lt ha)]
  have hs : startsGroup ['-'] = .ok false := rfl
  rw [(pack_no hp ha hs).1, Res.bind_ok, (pack_no hp ha hs).2, Res.bind_ok]
  unfold goLong
  simp only []
  rw [rd_some ha, Res.bind_ok]
  rfl

/-- An operand. -/
theorem getopt_operand (hr : Ready t st) {a : CStr} (hp : st.packedopts = none) (ha : argv[st.optind]? = some a) (hh : a.head? ≠ some '-') :
    getopt argv st = .ok (.null, { st with optarg := none }) := by
  rw [getopt_ready hr (idx_lt ha)]
  have hc : ∃ c, strAt a 0 = .ok c ∧ c ≠ '-' := by
    cases a with
    | nil => exact ⟨'\x00', strAt_end (s := []), by decide⟩
    | cons c a => exact ⟨c, strAt_zero c a, fun h => hh (by rw [h]; rfl)⟩
  obtain ⟨c, hc1, hc2⟩ := hc
  have hs : startsGroup a = .ok false := by
    unfold startsGroup
    rw [hc1, Res.bind_ok, if_neg hc2]
  rw [(pack_no hp ha hs).1, Res.bind_ok, (pack_no hp ha hs).2, Res.bind_ok]
  unfold goLong
  simp only []
  rw [rd_some ha, Res.bind_ok, hc1, Res.bind_ok, if_neg hc2, Res.bind_ok]

/-! ### The loop -/

/-- Handling of options in order until one makes the program leave the loop. -/
def foldBody {σ ε : Type} (body : σ → SwEv → Except ε σ) : σ → List SwEv → Except ε σ
  | s, [] => .ok s
  | s, e :: es =>
    match body s e with
    | .error x => .error x
    | .ok s' => foldBody body s' es

/-- No NUL inside an argument. -/
def NoNul (l : List CStr) : Prop := ∀ a ∈ l, '\x00' ∉ a

/-- The result of the loop from a state on. -/
def LoopDoes (t : GoTable) (argv : List CStr) (evs : List OptEv) (ops : List CStr) (st : GoSt) : Prop :=
  ∀ (σ ε : Type) (body : σ → SwEv → Except ε σ) (s : σ) (fuel : Nat), evs.length + 1 ≤ fuel →
    ∃ st', getoptLoop true t argv body fuel s st = .ok (some (foldBody body s (evs.map t.seen), st')) ∧
      ((foldBody body s (evs.map t.seen)).isOk = true → argv.drop st'.optind = ops ∧ st'.optind ≤ argv.length ∧
        st'.warned = st.warned ++ evs.flatMap (t.warns st.opterr st.cmdname))

theorem loop_end {st' : GoSt} {ops : List CStr} (h : getopt argv st = .ok (.null, st')) (h1 : argv.drop st'.optind = ops) (h2 : st'.optind ≤ argv.length)
    (h3 : st'.warned = st.warned) : LoopDoes t argv [] ops st := by
  intro σ ε body s fuel hf
  obtain ⟨f, rfl⟩ : ∃ f, fuel = f + 1 := ⟨fuel - 1, by simp at hf; omega⟩
  refine ⟨st', ?_, fun _ => ⟨h1, h2, by rw [h3]; simp⟩⟩
  rw [getoptLoop, h, Res.bind_ok, if_pos rfl]
  rfl

theorem loop_step {ev : OptEv} {evs : List OptEv} {ops : List CStr} {st' : GoSt} {ch : CStr} {v : Nat} (hr : Ready t st') (h1 : getopt argv st = .ok (.os ch, st'))
    (h2 : getopt_lookup st' (.os ch) = .ok v) (h3 : switchJump t v ch st' = .ok (some (t.seen ev))) (hs : Same st st')
    (hw : st'.warned = st.warned ++ t.warns st.opterr st.cmdname ev) (hrest : LoopDoes t argv evs ops st') : LoopDoes t argv (ev :: evs) ops st := by
  intro σ ε body s fuel hf
  obtain ⟨f, rfl⟩ : ∃ f, fuel = f + 1 := ⟨fuel - 1, by simp at hf; omega⟩
  rw [List.length_cons] at hf
  have hloop : ∀ st'' : Res (Option (Except ε σ × GoSt)), (match body s (t.seen ev) with
        | .error x => Res.ok (some (.error x, st'))
        | .ok s' => getoptLoop true t argv body f s' st') = st'' → getoptLoop true t argv body (f + 1) s st = st'' := by
    rintro _ rfl
    rw [getoptLoop, h1, Res.bind_ok, if_neg (by simp), if_pos hr.ini, h2, Res.bind_ok, GoRet.str, h3, Res.bind_ok]
    rfl
  rw [List.map_cons, foldBody]
  cases hb : body s (t.seen ev) with
  | error x =>
    refine ⟨st', hloop _ (by rw [hb]), ?_⟩
    intro h; cases h
  | ok s' =>
    obtain ⟨st'', h5, h6⟩ := hrest σ ε body s' f (by omega)
    refine ⟨st'', hloop _ (by rw [hb]; exact h5), ?_⟩
    intro h
    obtain ⟨h7, h8, h9⟩ := h6 h
    refine ⟨h7, h8, ?_⟩
    rw [h9, hw, hs.opterr, hs.cmd, List.flatMap_cons, List.append_assoc]

theorem drop_cons {l : List CStr} {n : Nat} {a : CStr} {rest : List CStr} (h : l.drop n = a :: rest) : l[n]? = some a ∧ l.drop (n + 1) = rest ∧ n + 1 ≤ l.length := by
  have hl : n < l.length := by
    by_contra hc
    rw [List.drop_eq_nil_of_le (by omega)] at h
    cases h
  rw [List.drop_eq_getElem_cons hl] at h
  obtain ⟨h1, h2⟩ := List.cons.inj h
  exact ⟨by rw [List.getElem?_eq_getElem hl, h1], h2, hl⟩

theorem goAt_nil {args : List CStr} (h : GoAt argv [] args st) : st.packedopts = none ∧ argv.drop st.optind = args ∧ st.optind ≤ argv.length :=
  ⟨by simpa using h.packed, by simpa using h.rest, by simpa using h.bound⟩

theorem goAt_cons {c : Char} {cs : CStr} {args : List CStr} (h : GoAt argv (c :: cs) args st) :
    st.packedopts = some (c :: cs) ∧ argv.drop (st.optind + 1) = args ∧ st.optind < argv.length := by
  have := h.bound
  rw [if_neg (by simp)] at this
  exact ⟨by simpa using h.packed, by simpa using h.rest, by omega⟩

/-- **The loop.** -/
theorem getopt_parses (hw : t.WF) {pend : CStr} {args : List CStr} {evs : List OptEv} {ops : List CStr} (hP : Parses t.kind pend args evs ops)
    (hz : '\x00' ∉ pend) (hzs : NoNul args) (hr : Ready t st) (hat : GoAt argv pend args st) : LoopDoes t argv evs ops st := by
  induction hP generalizing st with
  | done =>
    obtain ⟨hp, h1, h2⟩ := goAt_nil hat
    have hlen : argv.length ≤ st.optind := List.drop_eq_nil_iff.1 h1
    exact loop_end (getopt_end hr hlen) h1 h2 rfl
  | @dashdash rest =>
    obtain ⟨hp, h1, h2⟩ := goAt_nil hat
    obtain ⟨h3, h4, h5⟩ := drop_cons h1
    exact loop_end (getopt_dashdash hr hp h3) h4 h5 rfl
  | @dash rest =>
    obtain ⟨hp, h1, h2⟩ := goAt_nil hat
    obtain ⟨h3, h4, h5⟩ := drop_cons h1
    exact loop_end (getopt_dash hr hp h3) h1 h2 rfl
  | @operand a rest ha =>
    obtain ⟨hp, h1, h2⟩ := goAt_nil hat
    obtain ⟨h3, h4, h5⟩ := drop_cons h1
    exact loop_end (getopt_operand hr hp h3 ha) h1 h2 rfl
  | @longFlag n rest evs ops hn hk _ ih =>
    obtain ⟨hp, h1, h2⟩ := goAt_nil hat
    obtain ⟨h3, h4, h5⟩ := drop_cons h1
    have hzn : '\x00' ∉ n := fun h => hzs _ (List.mem_cons_self ..) (by simp [h])
    have hr1 : Ready t { st with optarg := none, optind := st.optind + 1 } := ⟨hr.rst, hr.ini, hr.opts, hr.nopts, hr.dflt, hr.miss⟩
    obtain ⟨ln, h6, h7, h8⟩ := found_flag hw hr1 (argv := argv) hk
    refine loop_step (ch := '-' :: '-' :: n) (v := ln) ?_ ((getopt_long hr hp h3 hn hzn).trans h8) ?_ (jump_flag hw h6) ⟨rfl, rfl⟩ (by simp [GoTable.warns])
      (ih (by simp) (fun a h => hzs a (List.mem_cons_of_mem _ h)) ?_ ?_)
    · exact ⟨hr.rst, hr.ini, hr.opts, hr.nopts, hr.dflt, hr.miss⟩
    · refine lookup_ok (t := t) ?_ ?_
      · exact ⟨hr.rst, hr.ini, hr.opts, hr.nopts, hr.dflt, hr.miss⟩
      · exact (.inr (.inr ⟨false, h6, h7⟩))
    · exact ⟨hr.rst, hr.ini, hr.opts, hr.nopts, hr.dflt, hr.miss⟩
    · exact ⟨hp, h4, h5⟩
  | @longArg n v rest evs ops hn hk _ ih =>
    obtain ⟨hp, h1, h2⟩ := goAt_nil hat
    obtain ⟨h3, h4, h5⟩ := drop_cons h1
    obtain ⟨h3', h4', h5'⟩ := drop_cons h4
    have hzn : '\x00' ∉ n := fun h => hzs _ (List.mem_cons_self ..) (by simp [h])
    have hr1 : Ready t { st with optarg := none, optind := st.optind + 1 } := ⟨hr.rst, hr.ini, hr.opts, hr.nopts, hr.dflt, hr.miss⟩
    obtain ⟨ln, h6, h7, h8⟩ := found_argNext hw hr1 (argv := argv) hp rfl hk h3'
    refine loop_step (ch := '-' :: '-' :: n) (v := ln) ?_ ((getopt_long hr hp h3 hn hzn).trans h8) ?_ (jump_arg hw h6 rfl) ⟨rfl, rfl⟩ (by simp [GoTable.warns])
      (ih (by simp) (fun a h => hzs a (List.mem_cons_of_mem _ (List.mem_cons_of_mem _ h))) ?_ ?_)
    · exact ⟨hr.rst, hr.ini, hr.opts, hr.nopts, hr.dflt, hr.miss⟩
    · refine lookup_ok (t := t) ?_ ?_
      · exact ⟨hr.rst, hr.ini, hr.opts, hr.nopts, hr.dflt, hr.miss⟩
      · exact (.inr (.inr ⟨true, h6, h7⟩))
    · exact ⟨hr.rst, hr.ini, hr.opts, hr.nopts, hr.dflt, hr.miss⟩
    · exact ⟨hp, h4', h5'⟩
  | @longMissing n hn hk =>
    obtain ⟨hp, h1, h2⟩ := goAt_nil hat
    obtain ⟨h3, h4, h5⟩ := drop_cons h1
    have hzn : '\x00' ∉ n := fun h => hzs _ (List.mem_cons_self ..) (by simp [h])
    have hr1 : Ready t { st with optarg := none, optind := st.optind + 1 } := ⟨hr.rst, hr.ini, hr.opts, hr.nopts, hr.dflt, hr.miss⟩
    obtain ⟨st', h6, h7, h8, h9, h10, h11, h12⟩ := found_missing hw hr1 (argv := argv) hp rfl hk (List.drop_eq_nil_iff.1 h4)
    have hlen : argv.length ≤ st'.optind := by rw [h9]; exact List.drop_eq_nil_iff.1 h4
    refine loop_step (ch := '-' :: '-' :: n) (v := st'.opt_found) h7 ((getopt_long hr hp h3 hn hzn).trans h6) (lookup_ok h7 (.inl h12)) ?_ ⟨h10.opterr, h10.cmd⟩ h11
      (loop_end (getopt_end h7 hlen) ?_ ?_ rfl)
    · rw [h12]; exact jump_missing hw h7
    · show argv.drop st'.optind = []
      rw [h9]; exact h4
    · show st'.optind ≤ argv.length
      rw [h9]; exact h5
  | @longEq n v rest evs ops hn hk _ ih =>
    obtain ⟨hp, h1, h2⟩ := goAt_nil hat
    obtain ⟨h3, h4, h5⟩ := drop_cons h1
    have hzn : '\x00' ∉ n ++ '=' :: v := fun h => hzs _ (List.mem_cons_self ..) (List.mem_cons_of_mem _ (List.mem_cons_of_mem _ h))
    have hzv : '\x00' ∉ v := fun h => hzn (by simp [h])
    have hr1 : Ready t { st with optarg := none, optind := st.optind + 1 } := ⟨hr.rst, hr.ini, hr.opts, hr.nopts, hr.dflt, hr.miss⟩
    obtain ⟨ln, h6, h7, h8⟩ := found_argEq hw hr1 (argv := argv) hp hk hzv
    refine loop_step (ch := '-' :: '-' :: n) (v := ln) ?_ ((getopt_long hr hp h3 (by simp) hzn).trans h8) ?_ (jump_arg hw h6 rfl) ⟨rfl, rfl⟩ (by simp [GoTable.warns])
      (ih (by simp) (fun a h => hzs a (List.mem_cons_of_mem _ h)) ?_ ?_)
    · exact ⟨hr.rst, hr.ini, hr.opts, hr.nopts, hr.dflt, hr.miss⟩
    · refine lookup_ok (t := t) ?_ ?_
      · exact ⟨hr.rst, hr.ini, hr.opts, hr.nopts, hr.dflt, hr.miss⟩
      · exact (.inr (.inr ⟨true, h6, h7⟩))
    · exact ⟨hr.rst, hr.ini, hr.opts, hr.nopts, hr.dflt, hr.miss⟩
    · exact ⟨hp, h4, h5⟩
  | @longBadEq n v rest evs ops hn hk _ ih =>
    obtain ⟨hp, h1, h2⟩ := goAt_nil hat
    obtain ⟨h3, h4, h5⟩ := drop_cons h1
    have hzn : '\x00' ∉ n ++ '=' :: v := fun h => hzs _ (List.mem_cons_self ..) (List.mem_cons_of_mem _ (List.mem_cons_of_mem _ h))
    have hzv : '\x00' ∉ v := fun h => hzn (by simp [h])
    have hr1 : Ready t { st with optarg := none, optind := st.optind + 1 } := ⟨hr.rst, hr.ini, hr.opts, hr.nopts, hr.dflt, hr.miss⟩
    obtain ⟨st', h6, h7, h8, h9, h10, h11, h12⟩ := found_badEq hw hr1 (argv := argv) hk hzv
    refine loop_step (ch := '-' :: '-' :: n) (v := t.dflt + 1) h7 ((getopt_long hr hp h3 (by simp) hzn).trans h6) h12 (jump_dflt hw) ⟨h10.opterr, h10.cmd⟩ h11
      (ih (by simp) (fun a h => hzs a (List.mem_cons_of_mem _ h)) h7 ⟨h8.trans hp, ?_, ?_⟩)
    · rw [h9]; exact h4
    · rw [h9]; exact h5
  | @longBad n rest evs ops hn hk hk' _ ih =>
    obtain ⟨hp, h1, h2⟩ := goAt_nil hat
    obtain ⟨h3, h4, h5⟩ := drop_cons h1
    have hza : '\x00' ∉ '-' :: '-' :: n := hzs _ (List.mem_cons_self ..)
    have hzn : '\x00' ∉ n := fun h => hza (by simp [h])
    have hr1 : Ready t { st with optarg := none, optind := st.optind + 1 } := ⟨hr.rst, hr.ini, hr.opts, hr.nopts, hr.dflt, hr.miss⟩
    obtain ⟨st', h6, h7, h8, h9, h10, h11, h12⟩ := found_bad hw hr1 (argv := argv) (os := '-' :: '-' :: n) hza (by
      rintro o (rfl | ⟨v, ho⟩)
      · exact hk
      · cases hko : t.kind o with
        | none => rfl
        | some b =>
          exfalso
          rcases (hw.kind_valid hko).2 with ⟨c, hc, rfl⟩ | ⟨m, -, -, rfl⟩
          · simp at ho; exact hc ho.1.symm
          · simp only [List.cons_append, List.cons.injEq, true_and] at ho
            rw [hk' m v ho] at hko
            cases hko)
    refine loop_step (ch := '-' :: '-' :: n) (v := t.dflt + 1) h7 ((getopt_long hr hp h3 hn hzn).trans h6) h12 (jump_dflt hw) ⟨h10.opterr, h10.cmd⟩ h11
      (ih (by simp) (fun a h => hzs a (List.mem_cons_of_mem _ h)) h7 ⟨h8.trans hp, ?_, ?_⟩)
    · rw [h9]; exact h4
    · rw [h9]; exact h5
  | @group c cs rest evs ops hc _ ih =>
    obtain ⟨hp, h1, h2⟩ := goAt_nil hat
    obtain ⟨h3, h4, h5⟩ := drop_cons h1
    have hza : '\x00' ∉ '-' :: c :: cs := hzs _ (List.mem_cons_self ..)
    have hzc : '\x00' ∉ c :: cs := fun h => hza (List.mem_cons_of_mem _ h)
    have hg := getopt_group hr hp h3 hc (fun h => hzc (by rw [h]; simp))
    have := ih (st := { st with packedopts := some (c :: cs) }) hzc (fun a h => hzs a (List.mem_cons_of_mem _ h)) ⟨hr.rst, hr.ini, hr.opts, hr.nopts, hr.dflt, hr.miss⟩
      ⟨by simp, by simpa using h4, by simpa using h5⟩
    intro σ ε body s fuel hf
    obtain ⟨f, rfl⟩ : ∃ f, fuel = f + 1 := ⟨fuel - 1, by omega⟩
    obtain ⟨st', h6, h7⟩ := this σ ε body s (f + 1) hf
    refine ⟨st', ?_, h7⟩
    rw [← h6, getoptLoop, getoptLoop, hg]
  | @shortFlag c cs rest evs ops hk _ ih =>
    obtain ⟨hp, h1, h2⟩ := goAt_cons hat
    have hzc : '\x00' ∉ cs := fun h => hz (List.mem_cons_of_mem _ h)
    obtain ⟨ln, h6, h7, h8⟩ := found_flag (argv := argv) (st := { st with optarg := none, packedopts := if cs = [] then none else some cs, optind := if cs = [] then st.optind + 1 else st.optind })
      hw ⟨hr.rst, hr.ini, hr.opts, hr.nopts, hr.dflt, hr.miss⟩ hk
    refine loop_step (ch := ['-', c]) (v := ln) ?_ ((getopt_short hr hp h2 hzc).trans h8) ?_ (jump_flag hw h6) ⟨rfl, rfl⟩ (by simp [GoTable.warns])
      (ih hzc hzs ?_ ?_)
    · exact ⟨hr.rst, hr.ini, hr.opts, hr.nopts, hr.dflt, hr.miss⟩
    · refine lookup_ok (t := t) ?_ ?_
      · exact ⟨hr.rst, hr.ini, hr.opts, hr.nopts, hr.dflt, hr.miss⟩
      · exact (.inr (.inr ⟨false, h6, h7⟩))
    · exact ⟨hr.rst, hr.ini, hr.opts, hr.nopts, hr.dflt, hr.miss⟩
    · refine ⟨rfl, ?_, ?_⟩
      · simp only []
        rw [← h1]; congr 1; split <;> rfl
      · simp only []
        split <;> omega
  | @shortPacked c d cs rest evs ops hk _ ih =>
    obtain ⟨hp, h1, h2⟩ := goAt_cons hat
    have hzc : '\x00' ∉ d :: cs := fun h => hz (List.mem_cons_of_mem _ h)
    obtain ⟨ln, h6, h7, h8⟩ := found_argPacked (argv := argv) (p := d :: cs) (st := { st with optarg := none, packedopts := if d :: cs = [] then none else some (d :: cs), optind := if d :: cs = [] then st.optind + 1 else st.optind })
      hw ⟨hr.rst, hr.ini, hr.opts, hr.nopts, hr.dflt, hr.miss⟩ (by simp) hk
    refine loop_step (ch := ['-', c]) (v := ln) ?_ ((getopt_short hr hp h2 hzc).trans h8) ?_ (jump_arg hw h6 rfl) ⟨rfl, rfl⟩ (by simp [GoTable.warns])
      (ih (by simp) hzs ?_ ?_)
    · exact ⟨hr.rst, hr.ini, hr.opts, hr.nopts, hr.dflt, hr.miss⟩
    · refine lookup_ok (t := t) ?_ ?_
      · exact ⟨hr.rst, hr.ini, hr.opts, hr.nopts, hr.dflt, hr.miss⟩
      · exact (.inr (.inr ⟨true, h6, h7⟩))
    · exact ⟨hr.rst, hr.ini, hr.opts, hr.nopts, hr.dflt, hr.miss⟩
    · refine ⟨rfl, ?_, ?_⟩
      · simpa using h1
      · simp only []
        simp
        omega
  | @shortArg c v rest evs ops hk _ ih =>
    obtain ⟨hp, h1, h2⟩ := goAt_cons hat
    obtain ⟨h3', h4', h5'⟩ := drop_cons h1
    obtain ⟨ln, h6, h7, h8⟩ := found_argNext (argv := argv) (st := { st with optarg := none, packedopts := if ([] : CStr) = [] then none else some [], optind := if ([] : CStr) = [] then st.optind + 1 else st.optind })
      hw ⟨hr.rst, hr.ini, hr.opts, hr.nopts, hr.dflt, hr.miss⟩ (by simp) rfl hk (by simpa using h3')
    refine loop_step (ch := ['-', c]) (v := ln) ?_ ((getopt_short hr hp h2 (by simp)).trans h8) ?_ (jump_arg hw h6 rfl) ⟨rfl, rfl⟩ (by simp [GoTable.warns])
      (ih (by simp) (fun a h => hzs a (List.mem_cons_of_mem _ h)) ?_ ?_)
    · exact ⟨hr.rst, hr.ini, hr.opts, hr.nopts, hr.dflt, hr.miss⟩
    · refine lookup_ok (t := t) ?_ ?_
      · exact ⟨hr.rst, hr.ini, hr.opts, hr.nopts, hr.dflt, hr.miss⟩
      · exact (.inr (.inr ⟨true, h6, h7⟩))
    · exact ⟨hr.rst, hr.ini, hr.opts, hr.nopts, hr.dflt, hr.miss⟩
    · exact ⟨rfl, by simpa using h4', by simpa using h5'⟩
  | @shortMissing c hk =>
    obtain ⟨hp, h1, h2⟩ := goAt_cons hat
    have hlen0 : argv.length ≤ st.optind + 1 := List.drop_eq_nil_iff.1 h1
    obtain ⟨st', h6, h7, h8, h9, h10, h11, h12⟩ := found_missing (argv := argv) (st := { st with optarg := none, packedopts := if ([] : CStr) = [] then none else some [], optind := if ([] : CStr) = [] then st.optind + 1 else st.optind })
      hw ⟨hr.rst, hr.ini, hr.opts, hr.nopts, hr.dflt, hr.miss⟩ (by simp) rfl hk (by simpa using hlen0)
    simp only [if_true] at h9
    refine loop_step (ch := ['-', c]) (v := st'.opt_found) h7 ((getopt_short hr hp h2 (by simp)).trans h6) (lookup_ok h7 (.inl h12)) ?_ ⟨h10.opterr, h10.cmd⟩ h11
      (loop_end (getopt_end h7 (by rw [h9]; exact hlen0)) ?_ ?_ rfl)
    · rw [h12]; exact jump_missing hw h7
    · show argv.drop st'.optind = []
      rw [h9]; exact h1
    · show st'.optind ≤ argv.length
      rw [h9]; exact h2
  | @shortBad c cs rest evs ops hk _ ih =>
    obtain ⟨hp, h1, h2⟩ := goAt_cons hat
    have hzc : '\x00' ∉ cs := fun h => hz (List.mem_cons_of_mem _ h)
    have hc : '\x00' ≠ c := fun h => hz (by rw [h]; simp)
    obtain ⟨st', h6, h7, h8, h9, h10, h11, h12⟩ := found_bad (argv := argv) (os := ['-', c]) (st := { st with optarg := none, packedopts := if cs = [] then none else some cs, optind := if cs = [] then st.optind + 1 else st.optind })
      hw ⟨hr.rst, hr.ini, hr.opts, hr.nopts, hr.dflt, hr.miss⟩ (by simp [hc]) (by
      rintro o (rfl | ⟨v, ho⟩)
      · exact hk
      · cases hko : t.kind o with
        | none => rfl
        | some b =>
          exfalso
          rcases (hw.kind_valid hko).2 with ⟨c, hc, rfl⟩ | ⟨m, -, -, rfl⟩
          · simp at ho
          · simp at ho)
    refine loop_step (ch := ['-', c]) (v := t.dflt + 1) h7 ((getopt_short hr hp h2 hzc).trans h6) h12 (jump_dflt hw) ⟨h10.opterr, h10.cmd⟩ h11
      (ih hzc hzs h7 ⟨h8, ?_, ?_⟩)
    · rw [h9]
      simp only []
      rw [← h1]; congr 1; split <;> rfl
    · rw [h9]
      simp only []
      split <;> omega

/-! ### Every command line has one meaning -/

theorem parses_exists (kind : OptKind) (hk0 : kind ['-', '-'] = none) : ∀ (k : Nat) (pend : CStr) (args : List CStr), pend.length + (args.map (·.length + 1)).sum ≤ k →
    ∃ evs ops, Parses kind pend args evs ops := by
  intro k
  induction k with
  | zero =>
    intro pend args h
    cases pend with
    | cons c cs => simp at h
    | nil =>
      cases args with
      | nil => exact ⟨[], [], .done⟩
      | cons a args => simp at h
  | succ k ih =>
    intro pend args h
    cases pend with
    | cons c cs =>
      simp only [List.length_cons] at h
      cases hk : kind ['-', c] with
      | none =>
        obtain ⟨evs, ops, h1⟩ := ih cs args (by omega)
        exact ⟨_, _, .shortBad hk h1⟩
      | some b =>
        cases b with
        | false =>
          obtain ⟨evs, ops, h1⟩ := ih cs args (by omega)
          exact ⟨_, _, .shortFlag hk h1⟩
        | true =>
          cases cs with
          | cons d cs =>
            obtain ⟨evs, ops, h1⟩ := ih [] args (by simp at h ⊢; omega)
            exact ⟨_, _, .shortPacked hk h1⟩
          | nil =>
            cases args with
            | nil => exact ⟨_, _, .shortMissing hk⟩
            | cons v args =>
              obtain ⟨evs, ops, h1⟩ := ih [] args (by simp at h ⊢; omega)
              exact ⟨_, _, .shortArg hk h1⟩
    | nil =>
      cases args with
      | nil => exact ⟨[], [], .done⟩
      | cons a args =>
        rw [List.map_cons, List.sum_cons] at h
        cases a with
        | nil => exact ⟨_, _, .operand (by simp)⟩
        | cons c a =>
          by_cases hc : c = '-'
          · subst hc
            cases a with
            | nil => exact ⟨_, _, .dash⟩
            | cons d n =>
              by_cases hd : d = '-'
              · subst hd
                obtain ⟨evs, ops, h1⟩ := ih [] args (by simp at h ⊢; omega)
                by_cases hn : n = []
                · subst hn
                  exact ⟨_, _, .dashdash⟩
                · cases hk : kind ('-' :: '-' :: n) with
                  | some b =>
                    cases b with
                    | false => exact ⟨_, _, .longFlag hn hk h1⟩
                    | true =>
                      cases args with
                      | nil => exact ⟨_, _, .longMissing hn hk⟩
                      | cons v args =>
                        obtain ⟨evs, ops, h1⟩ := ih [] args (by simp at h ⊢; omega)
                        exact ⟨_, _, .longArg hn hk h1⟩
                  | none =>
                    by_cases he : ∃ m v, n = m ++ '=' :: v ∧ m ≠ [] ∧ kind ('-' :: '-' :: m) ≠ none
                    · obtain ⟨m, v, rfl, hm, hkm⟩ := he
                      cases hkm' : kind ('-' :: '-' :: m) with
                      | none => exact absurd hkm' hkm
                      | some b =>
                        cases b with
                        | false => exact ⟨_, _, .longBadEq hm hkm' h1⟩
                        | true => exact ⟨_, _, .longEq hm hkm' h1⟩
                    · refine ⟨_, _, .longBad hn hk ?_ h1⟩
                      intro m v hmv
                      by_contra hkm
                      by_cases hm : m = []
                      · subst hm; exact hkm hk0
                      · exact he ⟨m, v, hmv, hm, hkm⟩
              · obtain ⟨evs, ops, h1⟩ := ih (d :: n) args (by simp at h ⊢; omega)
                exact ⟨_, _, .group hd h1⟩
          · exact ⟨_, _, .operand (by simpa using hc)⟩


theorem inv_long {kind : OptKind} {n : CStr} {rest : List CStr} {evs : List OptEv} {ops : List CStr} (hn : n ≠ []) (h : Parses kind [] (('-' :: '-' :: n) :: rest) evs ops) :
    (kind ('-' :: '-' :: n) = some false ∧ ∃ e, evs = .flag ('-' :: '-' :: n) :: e ∧ Parses kind [] rest e ops) ∨
    (kind ('-' :: '-' :: n) = some true ∧ ∃ v r e, rest = v :: r ∧ evs = .arg ('-' :: '-' :: n) v :: e ∧ Parses kind [] r e ops) ∨
    (kind ('-' :: '-' :: n) = some true ∧ rest = [] ∧ evs = [.missing ('-' :: '-' :: n)] ∧ ops = []) ∨
    (∃ m v e, n = m ++ '=' :: v ∧ kind ('-' :: '-' :: m) = some true ∧ evs = .arg ('-' :: '-' :: m) v :: e ∧ Parses kind [] rest e ops) ∨
    (∃ m v e, n = m ++ '=' :: v ∧ kind ('-' :: '-' :: m) = some false ∧ evs = .bad ('-' :: '-' :: m) :: e ∧ Parses kind [] rest e ops) ∨
    (kind ('-' :: '-' :: n) = none ∧ (∀ m v, n = m ++ '=' :: v → kind ('-' :: '-' :: m) = none) ∧ ∃ e, evs = .bad ('-' :: '-' :: n) :: e ∧ Parses kind [] rest e ops) := by
  generalize hA : ('-' :: '-' :: n) :: rest = A at h
  cases h with
  | done => cases hA
  | dashdash => simp [hn] at hA
  | dash => simp at hA
  | operand hh => obtain ⟨ha, -⟩ := List.cons.inj hA; subst ha; exact absurd rfl hh
  | longFlag h1 h2 h3 =>
    obtain ⟨ha, hr⟩ := List.cons.inj hA
    simp only [List.cons.injEq, true_and] at ha
    subst ha hr
    exact .inl ⟨h2, _, rfl, h3⟩
  | longArg h1 h2 h3 =>
    obtain ⟨ha, hr⟩ := List.cons.inj hA
    simp only [List.cons.injEq, true_and] at ha
    subst ha hr
    exact .inr (.inl ⟨h2, _, _, _, rfl, rfl, h3⟩)
  | longMissing h1 h2 =>
    obtain ⟨ha, hr⟩ := List.cons.inj hA
    simp only [List.cons.injEq, true_and] at ha
    subst ha hr
    exact .inr (.inr (.inl ⟨h2, rfl, rfl, rfl⟩))
  | longEq h1 h2 h3 =>
    obtain ⟨ha, hr⟩ := List.cons.inj hA
    simp only [List.cons_append, List.cons.injEq, true_and] at ha
    subst ha hr
    exact .inr (.inr (.inr (.inl ⟨_, _, _, rfl, h2, rfl, h3⟩)))
  | longBadEq h1 h2 h3 =>
    obtain ⟨ha, hr⟩ := List.cons.inj hA
    simp only [List.cons_append, List.cons.injEq, true_and] at ha
    subst ha hr
    exact .inr (.inr (.inr (.inr (.inl ⟨_, _, _, rfl, h2, rfl, h3⟩))))
  | longBad h1 h2 h3 h4 =>
    obtain ⟨ha, hr⟩ := List.cons.inj hA
    simp only [List.cons.injEq, true_and] at ha
    subst ha hr
    exact .inr (.inr (.inr (.inr (.inr ⟨h2, h3, _, rfl, h4⟩))))
  | group h1 h2 =>
    obtain ⟨ha, hr⟩ := List.cons.inj hA
    simp only [List.cons.injEq, true_and] at ha
    exact absurd ha.1.symm h1

/-- Nothing but the end of the options. -/
theorem inv_stop {kind : OptKind} {a : CStr} {rest : List CStr} {evs : List OptEv} {ops : List CStr} (h : Parses kind [] (a :: rest) evs ops)
    (ha : a = ['-', '-'] ∨ a = ['-'] ∨ a.head? ≠ some '-') : evs = [] ∧ ops = if a = ['-', '-'] then rest else a :: rest := by
  generalize hA : a :: rest = A at h
  cases h with
  | done => cases hA
  | dashdash =>
    obtain ⟨rfl, rfl⟩ := List.cons.inj hA
    exact ⟨rfl, by rw [if_pos (show "--".toList = ['-', '-'] from rfl)]⟩
  | dash =>
    obtain ⟨rfl, rfl⟩ := List.cons.inj hA
    exact ⟨rfl, by rw [if_neg (by decide)]⟩
  | operand hh =>
    obtain ⟨rfl, rfl⟩ := List.cons.inj hA
    exact ⟨rfl, by rw [if_neg]; rintro rfl; exact hh rfl⟩
  | longFlag h1 => obtain ⟨rfl, -⟩ := List.cons.inj hA; rcases ha with ha | ha | ha <;> simp [h1] at ha
  | longArg h1 => obtain ⟨rfl, -⟩ := List.cons.inj hA; rcases ha with ha | ha | ha <;> simp [h1] at ha
  | longMissing h1 => obtain ⟨rfl, -⟩ := List.cons.inj hA; rcases ha with ha | ha | ha <;> simp [h1] at ha
  | longEq h1 => obtain ⟨rfl, -⟩ := List.cons.inj hA; rcases ha with ha | ha | ha <;> simp [h1] at ha
  | longBadEq h1 => obtain ⟨rfl, -⟩ := List.cons.inj hA; rcases ha with ha | ha | ha <;> simp [h1] at ha
  | longBad h1 => obtain ⟨rfl, -⟩ := List.cons.inj hA; rcases ha with ha | ha | ha <;> simp [h1] at ha
  | group h1 => obtain ⟨rfl, -⟩ := List.cons.inj hA; rcases ha with ha | ha | ha <;> simp [h1] at ha

theorem inv_group {kind : OptKind} {c : Char} {cs : CStr} {rest : List CStr} {evs : List OptEv} {ops : List CStr} (hc : c ≠ '-')
    (h : Parses kind [] (('-' :: c :: cs) :: rest) evs ops) : Parses kind (c :: cs) rest evs ops := by
  generalize hA : ('-' :: c :: cs) :: rest = A at h
  cases h with
  | done => cases hA
  | dashdash => simp [hc] at hA
  | dash => simp at hA
  | operand hh => obtain ⟨ha, -⟩ := List.cons.inj hA; subst ha; exact absurd rfl hh
  | longFlag h1 => simp [hc] at hA
  | longArg h1 => simp [hc] at hA
  | longMissing h1 => simp [hc] at hA
  | longEq h1 => simp [hc] at hA
  | longBadEq h1 => simp [hc] at hA
  | longBad h1 => simp [hc] at hA
  | group h1 h2 =>
    obtain ⟨ha, hr⟩ := List.cons.inj hA
    simp only [List.cons.injEq, true_and] at ha
    obtain ⟨rfl, rfl⟩ := ha
    subst hr
    exact h2

theorem parses_unique (kind : OptKind) (hk : ∀ n b, kind ('-' :: '-' :: n) = some b → '=' ∉ n) {pend : CStr} {args : List CStr} {evs evs' : List OptEv} {ops ops' : List CStr}
    (h1 : Parses kind pend args evs ops) (h2 : Parses kind pend args evs' ops') : evs = evs' ∧ ops = ops' := by
  have hx : ∀ {m v : CStr} {b}, kind ('-' :: '-' :: (m ++ '=' :: v)) = some b → False := fun h => hk _ _ h (by simp)
  have hy : ∀ {n m v w : CStr} {b c}, kind ('-' :: '-' :: n) = some b → kind ('-' :: '-' :: m) = some c → n ++ '=' :: v = m ++ '=' :: w → n = m ∧ v = w :=
    fun h h' => split_eq_unique (hk _ _ h) (hk _ _ h')
  induction h1 generalizing evs' ops' with
  | done => cases h2; exact ⟨rfl, rfl⟩
  | @dashdash rest =>
    obtain ⟨rfl, rfl⟩ := inv_stop h2 (.inl rfl)
    exact ⟨rfl, rfl⟩
  | @dash rest =>
    obtain ⟨rfl, rfl⟩ := inv_stop h2 (.inr (.inl rfl))
    exact ⟨rfl, rfl⟩
  | @operand a rest ha =>
    obtain ⟨rfl, rfl⟩ := inv_stop h2 (.inr (.inr ha))
    rw [if_neg (by rintro rfl; exact ha rfl)]
    exact ⟨rfl, rfl⟩
  | @longFlag n rest evs ops hn hkn _ ih =>
    rcases inv_long hn h2 with ⟨k, e, rfl, p⟩ | ⟨k, _⟩ | ⟨k, _⟩ | ⟨m, v, e, rfl, _⟩ | ⟨m, v, e, rfl, _⟩ | ⟨k, _⟩
    · obtain ⟨rfl, rfl⟩ := ih p; exact ⟨rfl, rfl⟩
    · rw [hkn] at k; cases k
    · rw [hkn] at k; cases k
    · exact (hx hkn).elim
    · exact (hx hkn).elim
    · rw [hkn] at k; cases k
  | @longArg n v rest evs ops hn hkn _ ih =>
    rcases inv_long hn h2 with ⟨k, _⟩ | ⟨k, v', r, e, hr, rfl, p⟩ | ⟨k, hr, _⟩ | ⟨m, v, e, rfl, _⟩ | ⟨m, v, e, rfl, _⟩ | ⟨k, _⟩
    · rw [hkn] at k; cases k
    · obtain ⟨rfl, rfl⟩ := List.cons.inj hr
      obtain ⟨rfl, rfl⟩ := ih p; exact ⟨rfl, rfl⟩
    · cases hr
    · exact (hx hkn).elim
    · exact (hx hkn).elim
    · rw [hkn] at k; cases k
  | @longMissing n hn hkn =>
    rcases inv_long hn h2 with ⟨k, _⟩ | ⟨k, v', r, e, hr, _⟩ | ⟨k, hr, rfl, rfl⟩ | ⟨m, v, e, rfl, _⟩ | ⟨m, v, e, rfl, _⟩ | ⟨k, _⟩
    · rw [hkn] at k; cases k
    · cases hr
    · exact ⟨rfl, rfl⟩
    · exact (hx hkn).elim
    · exact (hx hkn).elim
    · rw [hkn] at k; cases k
  | @longEq n v rest evs ops hn hkn _ ih =>
    rcases inv_long (n := n ++ '=' :: v) (by simp) h2 with ⟨k, _⟩ | ⟨k, _⟩ | ⟨k, _⟩ | ⟨m, w, e, he, k, rfl, p⟩ | ⟨m, w, e, he, k, _⟩ | ⟨k, k', _⟩
    · exact (hx k).elim
    · exact (hx k).elim
    · exact (hx k).elim
    · obtain ⟨rfl, rfl⟩ := hy hkn k he
      obtain ⟨rfl, rfl⟩ := ih p; exact ⟨rfl, rfl⟩
    · obtain ⟨rfl, rfl⟩ := hy hkn k he
      rw [hkn] at k; cases k
    · rw [k' n v rfl] at hkn; cases hkn
  | @longBadEq n v rest evs ops hn hkn _ ih =>
    rcases inv_long (n := n ++ '=' :: v) (by simp) h2 with ⟨k, _⟩ | ⟨k, _⟩ | ⟨k, _⟩ | ⟨m, w, e, he, k, _⟩ | ⟨m, w, e, he, k, rfl, p⟩ | ⟨k, k', _⟩
    · exact (hx k).elim
    · exact (hx k).elim
    · exact (hx k).elim
    · obtain ⟨rfl, rfl⟩ := hy hkn k he
      rw [hkn] at k; cases k
    · obtain ⟨rfl, rfl⟩ := hy hkn k he
      obtain ⟨rfl, rfl⟩ := ih p; exact ⟨rfl, rfl⟩
    · rw [k' n v rfl] at hkn; cases hkn
  | @longBad n rest evs ops hn hkn hkm _ ih =>
    rcases inv_long hn h2 with ⟨k, _⟩ | ⟨k, _⟩ | ⟨k, _⟩ | ⟨m, v, e, he, k, _⟩ | ⟨m, v, e, he, k, _⟩ | ⟨k, k', e, rfl, p⟩
    · rw [hkn] at k; cases k
    · rw [hkn] at k; cases k
    · rw [hkn] at k; cases k
    · rw [hkm m v he] at k; cases k
    · rw [hkm m v he] at k; cases k
    · obtain ⟨rfl, rfl⟩ := ih p; exact ⟨rfl, rfl⟩
  | @group c cs rest evs ops hc _ ih => exact ih (inv_group hc h2)
  | @shortFlag c cs rest evs ops hkc _ ih =>
    cases h2 with
    | shortFlag k p => obtain ⟨rfl, rfl⟩ := ih p; exact ⟨rfl, rfl⟩
    | shortPacked k p => rw [hkc] at k; cases k
    | shortArg k p => rw [hkc] at k; cases k
    | shortMissing k => rw [hkc] at k; cases k
    | shortBad k p => rw [hkc] at k; cases k
  | shortPacked hkc _ ih =>
    cases h2 with
    | shortFlag k p => rw [hkc] at k; cases k
    | shortPacked k p => obtain ⟨rfl, rfl⟩ := ih p; exact ⟨rfl, rfl⟩
    | shortBad k p => rw [hkc] at k; cases k
  | shortArg hkc _ ih =>
    cases h2 with
    | shortFlag k p => rw [hkc] at k; cases k
    | shortArg k p => obtain ⟨rfl, rfl⟩ := ih p; exact ⟨rfl, rfl⟩
    | shortBad k p => rw [hkc] at k; cases k
  | shortMissing hkc =>
    cases h2 with
    | shortFlag k p => rw [hkc] at k; cases k
    | shortMissing k => exact ⟨rfl, rfl⟩
    | shortBad k p => rw [hkc] at k; cases k
  | shortBad hkc _ ih =>
    cases h2 with
    | shortFlag k p => rw [hkc] at k; cases k
    | shortPacked k p => rw [hkc] at k; cases k
    | shortArg k p => rw [hkc] at k; cases k
    | shortMissing k => rw [hkc] at k; cases k
    | shortBad k p => obtain ⟨rfl, rfl⟩ := ih p; exact ⟨rfl, rfl⟩
end Scrypt
