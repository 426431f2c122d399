import Verif.Proofs.GetoptRun
/-
C32: the command line is split as documented.
-/
namespace Scrypt.Props
open Scrypt Spec

theorem getopt_fresh {t : GoTable} (hw : t.WF) {argv : List CStr} (hne : argv ≠ []) (hz : NoNul argv) {st : GoSt} (hst : st.optreset = true) :
    ∃ evs ops, Parses t.kind [] argv.tail evs ops ∧
      ∀ (σ ε : Type) (body : σ → SwEv → Except ε σ) (s : σ) (fuel : Nat), evs.length + 2 ≤ fuel →
        ∃ st', getoptLoop true t argv body fuel s st = .ok (some (foldBody body s (evs.map t.seen), st')) ∧
          ((foldBody body s (evs.map t.seen)).isOk = true → argv.drop st'.optind = ops ∧ st'.optind ≤ argv.length ∧
            st'.warned = st.warned ++ evs.flatMap (t.warns st.opterr (argv.head?.map fun a => cmdLoop a a))) := by
  have hk0 : t.kind ['-', '-'] = none := by
    cases h : t.kind ['-', '-'] with
    | none => rfl
    | some b =>
      rcases (hw.kind_valid h).2 with ⟨c, hc, h1⟩ | ⟨n, hn, -, h1⟩
      · simp at h1; exact absurd h1.symm hc
      · simp at h1; exact absurd h1 hn
  obtain ⟨evs, ops, hP⟩ := parses_exists t.kind hk0 _ [] argv.tail (Nat.le_refl _)
  refine ⟨evs, ops, hP, ?_⟩
  intro σ ε body s fuel hf
  obtain ⟨f, rfl⟩ : ∃ f, fuel = f + 1 := ⟨fuel - 1, by omega⟩
  have hg : getopt argv st = .ok (.dummy, goReset argv { st with optarg := none }) := by
    unfold getopt
    simp only []
    rw [show (if st.optreset = true then goReset argv { st with optarg := none } else { st with optarg := none }) = goReset argv { st with optarg := none } from if_pos hst]
    rw [if_pos (show (goReset argv { st with optarg := none }).initialized = false from rfl)]
  obtain ⟨st1, h1, h2, h3, h4, h5, h6, h7⟩ := switchInit_spec hw (st := goReset argv { st with optarg := none }) rfl rfl
  have hat : GoAt argv [] argv.tail st1 := by
    refine ⟨by rw [h4]; rfl, ?_, ?_⟩
    · rw [if_pos rfl, h3]
      exact List.drop_one
    · rw [if_pos rfl, h3]
      exact List.length_pos_iff.2 hne
  obtain ⟨st', h8, h9⟩ := getopt_parses hw hP (by simp) (fun a h => hz a (List.mem_of_mem_tail h)) h2 hat σ ε body s f (by omega)
  refine ⟨st', ?_, ?_⟩
  · rw [getoptLoop, hg, Res.bind_ok, if_neg (by simp), if_neg (by simp [goReset]), h1, Res.bind_ok]
    exact h8
  · intro h
    obtain ⟨h10, h11, h12⟩ := h9 h
    refine ⟨h10, h11, ?_⟩
    rw [h12, h5, h6, h7]
    cases argv with
    | nil => exact absurd rfl hne
    | cons a l => rfl

/-- A body that only notes what it sees. -/
def collect : List SwEv → SwEv → Except Empty (List SwEv) := fun l e => .ok (l ++ [e])

theorem foldBody_collect (l es : List SwEv) : foldBody collect l es = .ok (l ++ es) := by
  induction es generalizing l with
  | nil => simp [foldBody]
  | cons e es ih => rw [foldBody]; simp only [collect]; rw [ih]; simp

/-- **C32.**  Every command line has exactly one meaning (options and operands, `Spec.Parses`), and a getopt loop, started in the initial state or after setting
optreset, sees these options in this order and ends with optind at the first operand: no undefined behaviour, no abort, no endless loop. -/
theorem C32_getopt (t : GoTable) (hw : t.WF) (argv : List CStr) (hne : argv ≠ []) (hz : NoNul argv) (st : GoSt) (hst : st.optreset = true) :
    ∃ evs ops, Parses t.kind [] argv.tail evs ops ∧ (∀ evs' ops', Parses t.kind [] argv.tail evs' ops' → evs' = evs ∧ ops' = ops) ∧
      ∀ fuel, evs.length + 2 ≤ fuel → ∃ st', getoptLoop true t argv collect fuel [] st = .ok (some (.ok (evs.map t.seen), st')) ∧
        argv.drop st'.optind = ops ∧ st'.optind ≤ argv.length := by
  obtain ⟨evs, ops, hP, h⟩ := getopt_fresh hw hne hz hst
  refine ⟨evs, ops, hP, fun evs' ops' hP' => ?_, fun fuel hf => ?_⟩
  · refine parses_unique t.kind ?_ hP' hP
    intro n b hk
    rcases (hw.kind_valid hk).2 with ⟨c, hc, h1⟩ | ⟨m, -, hm, h1⟩
    · simp at h1; exact absurd h1.1.symm hc
    · simp at h1; rw [h1]; exact hm
  · obtain ⟨st', h1, h2⟩ := h _ _ collect [] fuel hf
    rw [foldBody_collect] at h1 h2
    obtain ⟨h3, h4, -⟩ := h2 rfl
    exact ⟨st', h1, h3, h4⟩

/-- **C32.**  getopt itself prints a message for every bad option or missing argument unless opterr is zero or the caller has a GETOPT_MISSING_ARG label,
and prints nothing else. -/
theorem C32_messages (t : GoTable) (hw : t.WF) (argv : List CStr) (hne : argv ≠ []) (hz : NoNul argv) (st : GoSt) (hst : st.optreset = true) :
    ∃ evs ops, Parses t.kind [] argv.tail evs ops ∧ ∀ fuel, evs.length + 2 ≤ fuel →
      ∃ r st', getoptLoop true t argv collect fuel [] st = .ok (some (r, st')) ∧
        ((st.opterr = false ∨ t.hasMissing = true) → st'.warned = st.warned) ∧
        (st.opterr = true → t.hasMissing = false → (st'.warned.length = st.warned.length +
          (evs.filter fun e => match e with | .missing _ => true | .bad _ => true | _ => false).length)) := by
  obtain ⟨evs, ops, hP, h⟩ := getopt_fresh hw hne hz hst
  refine ⟨evs, ops, hP, fun fuel hf => ?_⟩
  obtain ⟨st', h1, h2⟩ := h _ _ collect [] fuel hf
  rw [foldBody_collect] at h1 h2
  obtain ⟨-, -, h5⟩ := h2 rfl
  refine ⟨_, st', h1, ?_, ?_⟩
  · intro hc
    rw [h5]
    have : ∀ e, t.warns st.opterr (argv.head?.map fun a => cmdLoop a a) e = [] := by
      intro e
      cases e <;> simp only [GoTable.warns] <;> rw [if_neg] <;> rintro ⟨a, b⟩ <;> rcases hc with hc | hc
      · rw [hc] at a; cases a
      · rw [hc] at b; cases b
      · rw [hc] at a; cases a
      · rw [hc] at b; cases b
    have h6 : evs.flatMap (t.warns st.opterr (argv.head?.map fun a => cmdLoop a a)) = [] := by
      rw [List.flatMap_eq_nil_iff]
      exact fun e _ => this e
    rw [h6, List.append_nil]
  · intro ho hm
    rw [h5, List.length_append]
    congr 1
    clear h1 h2 h5 h hP hf
    induction evs with
    | nil => rfl
    | cons e es ih =>
      rw [List.flatMap_cons, List.length_append, ih]
      cases e <;> simp [GoTable.warns, ho, hm] <;> omega

/-- A table, to show the hypotheses are met. -/
def exTable : GoTable := ⟨[(1, .opt "-f".toList), (3, .optarg "--logN".toList), (4, .optarg "-M".toList), (7, .missing)], 9⟩

theorem exTable_wf : exTable.WF := by
  refine ⟨by simp [exTable], by simp [exTable], ?_, ?_⟩
  · intro p hp o ho
    simp only [exTable, List.mem_cons, List.not_mem_nil, or_false] at hp
    rcases hp with rfl | rfl | rfl | rfl
    · cases ho; exact ⟨by decide, .inl ⟨'f', by decide, rfl⟩⟩
    · cases ho; exact ⟨by decide, .inr ⟨"logN".toList, by decide, by decide, rfl⟩⟩
    · cases ho; exact ⟨by decide, .inl ⟨'M', by decide, rfl⟩⟩
    · cases ho
  · simp [exTable, GoLbl.name?]

/-- The forms in the documentation, seen through the loop. -/
example : (match getoptLoop true exTable (["scrypt", "-fMarg", "--logN", "--", "--logN=x=y", "-zf", "--f", "-M", "-", "--", "-f", "x"].map String.toList) collect 20 [] goInitial with
    | .ok (some (.ok evs, st')) => some (evs, st'.optind)
    | _ => none) =
    some ([.opt "-f".toList, .optarg "-M".toList "arg".toList, .optarg "--logN".toList "--".toList, .optarg "--logN".toList "x=y".toList, .dflt "-z".toList,
      .opt "-f".toList, .dflt "--f".toList, .optarg "-M".toList "-".toList], 10) := by decide +kernel

end Scrypt.Props
