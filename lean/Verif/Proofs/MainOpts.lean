import Verif.Model.Main
import Verif.Spec.CommandLine
import Verif.Props.Parsenum
import Verif.Props.Util
import Verif.Props.Readpass
import Verif.Props.Getopt
/-
The option loop of main.c against Spec.CommandLine.
-/
namespace Scrypt
open Spec Props

/-! ### The table -/

theorem mainTable_wf : mainTable.WF := by
  refine ⟨by simp [mainTable], by simp [mainTable], ?_, ?_⟩
  · intro p hp o ho
    simp only [mainTable, List.mem_cons, List.not_mem_nil, or_false] at hp
    rcases hp with rfl | rfl | rfl | rfl | rfl | rfl | rfl | rfl | rfl | rfl | rfl
    · cases ho; exact ⟨by decide, .inl ⟨'f', by decide, rfl⟩⟩
    · cases ho; exact ⟨by decide, .inr ⟨"logN".toList, by decide, by decide, rfl⟩⟩
    · cases ho; exact ⟨by decide, .inl ⟨'M', by decide, rfl⟩⟩
    · cases ho; exact ⟨by decide, .inl ⟨'m', by decide, rfl⟩⟩
    · cases ho; exact ⟨by decide, .inl ⟨'p', by decide, rfl⟩⟩
    · cases ho; exact ⟨by decide, .inr ⟨"passphrase".toList, by decide, by decide, rfl⟩⟩
    · cases ho; exact ⟨by decide, .inl ⟨'r', by decide, rfl⟩⟩
    · cases ho; exact ⟨by decide, .inl ⟨'t', by decide, rfl⟩⟩
    · cases ho; exact ⟨by decide, .inl ⟨'v', by decide, rfl⟩⟩
    · cases ho; exact ⟨by decide, .inl ⟨'P', by decide, rfl⟩⟩
    · cases ho
  · simp [mainTable, GoLbl.name?]

theorem mainTable_kind : mainTable.kind = scryptOptions := by
  funext o
  by_cases h1 : o = "-f".toList
  · subst h1; decide
  by_cases h2 : o = "--logN".toList
  · subst h2; decide
  by_cases h3 : o = "-M".toList
  · subst h3; decide
  by_cases h4 : o = "-m".toList
  · subst h4; decide
  by_cases h5 : o = "-p".toList
  · subst h5; decide
  by_cases h6 : o = "--passphrase".toList
  · subst h6; decide
  by_cases h7 : o = "-r".toList
  · subst h7; decide
  by_cases h8 : o = "-t".toList
  · subst h8; decide
  by_cases h9 : o = "-v".toList
  · subst h9; decide
  by_cases h10 : o = "-P".toList
  · subst h10; decide
  unfold scryptOptions
  rw [if_neg (by simp only [List.mem_cons, List.not_mem_nil, or_false]; tauto), if_neg (by simp only [List.mem_cons, List.not_mem_nil, or_false]; tauto)]
  unfold GoTable.kind mainTable
  simp only [List.findSome?_cons, List.findSome?_nil]
  rw [if_neg (fun h => h1 h.symm), if_neg (fun h => h2 h.symm), if_neg (fun h => h3 h.symm), if_neg (fun h => h4 h.symm), if_neg (fun h => h5 h.symm),
    if_neg (fun h => h6 h.symm), if_neg (fun h => h7 h.symm), if_neg (fun h => h8 h.symm), if_neg (fun h => h9 h.symm), if_neg (fun h => h10 h.symm)]

theorem mainTable_missing : mainTable.hasMissing = true := by decide

/-! ### What the options of a parsed command line are -/

theorem parses_known {kind : OptKind} {pend : CStr} {args : List CStr} {evs : List OptEv} {ops : List CStr} (h : Parses kind pend args evs ops) :
    ∀ e ∈ evs, (∀ o, e = .flag o → kind o = some false) ∧ (∀ o v, e = .arg o v → kind o = some true) := by
  induction h with
  | done => simp
  | dashdash => simp
  | dash => simp
  | operand _ => simp
  | longFlag _ hk _ ih => intro e he; rcases List.mem_cons.1 he with rfl | he; exact ⟨fun o ho => (by cases ho; exact hk), fun o v ho => by cases ho⟩; exact ih e he
  | longArg _ hk _ ih => intro e he; rcases List.mem_cons.1 he with rfl | he; exact ⟨fun o ho => (by cases ho), fun o v ho => by cases ho; exact hk⟩; exact ih e he
  | longMissing _ hk => intro e he; rw [List.mem_singleton] at he; subst he; exact ⟨fun o ho => (by cases ho), fun o v ho => by cases ho⟩
  | longEq _ hk _ ih => intro e he; rcases List.mem_cons.1 he with rfl | he; exact ⟨fun o ho => (by cases ho), fun o v ho => by cases ho; exact hk⟩; exact ih e he
  | longBadEq _ hk _ ih => intro e he; rcases List.mem_cons.1 he with rfl | he; exact ⟨fun o ho => (by cases ho), fun o v ho => by cases ho⟩; exact ih e he
  | longBad _ hk _ _ ih => intro e he; rcases List.mem_cons.1 he with rfl | he; exact ⟨fun o ho => (by cases ho), fun o v ho => by cases ho⟩; exact ih e he
  | group _ _ ih => exact ih
  | shortFlag hk _ ih => intro e he; rcases List.mem_cons.1 he with rfl | he; exact ⟨fun o ho => (by cases ho; exact hk), fun o v ho => by cases ho⟩; exact ih e he
  | shortPacked hk _ ih => intro e he; rcases List.mem_cons.1 he with rfl | he; exact ⟨fun o ho => (by cases ho), fun o v ho => by cases ho; exact hk⟩; exact ih e he
  | shortArg hk _ ih => intro e he; rcases List.mem_cons.1 he with rfl | he; exact ⟨fun o ho => (by cases ho), fun o v ho => by cases ho; exact hk⟩; exact ih e he
  | shortMissing hk => intro e he; rw [List.mem_singleton] at he; subst he; exact ⟨fun o ho => (by cases ho), fun o v ho => by cases ho⟩
  | shortBad hk _ ih => intro e he; rcases List.mem_cons.1 he with rfl | he; exact ⟨fun o ho => (by cases ho), fun o v ho => by cases ho⟩; exact ih e he

theorem parses_length {kind : OptKind} {pend : CStr} {args : List CStr} {evs : List OptEv} {ops : List CStr} (h : Parses kind pend args evs ops) :
    evs.length ≤ pend.length + (args.map (·.length + 1)).sum := by
  induction h <;> simp only [List.length_cons, List.length_nil, List.map_cons, List.sum_cons, List.map_nil, List.sum_nil, List.length_append] at * <;> omega

theorem parses_nonul {kind : OptKind} {pend : CStr} {args : List CStr} {evs : List OptEv} {ops : List CStr} (h : Parses kind pend args evs ops) :
    '\x00' ∉ pend → NoNul args → ∀ o v, .arg o v ∈ evs → '\x00' ∉ v := by
  have tl : ∀ {a : CStr} {l : List CStr}, NoNul (a :: l) → NoNul l := fun h b hb => h b (List.mem_cons_of_mem _ hb)
  have hd : ∀ {a : CStr} {l : List CStr}, NoNul (a :: l) → '\x00' ∉ a := fun h => h _ List.mem_cons_self
  induction h with
  | done => intro _ _ o v h; simp at h
  | dashdash => intro _ _ o v h; simp at h
  | dash => intro _ _ o v h; simp at h
  | operand _ => intro _ _ o v h; simp at h
  | longFlag _ _ _ ih => intro h1 h2 o v h; rcases List.mem_cons.1 h with h | h; cases h; exact ih (by simp) (tl h2) o v h
  | longArg _ _ _ ih =>
    intro h1 h2 o v h; rcases List.mem_cons.1 h with h | h
    · cases h; exact hd (tl h2)
    · exact ih (by simp) (tl (tl h2)) o v h
  | longMissing _ _ => intro _ _ o v h; simp at h
  | longEq _ _ _ ih =>
    intro h1 h2 o v h; rcases List.mem_cons.1 h with h | h
    · cases h; intro h3; exact hd h2 (by simp [h3])
    · exact ih (by simp) (tl h2) o v h
  | longBadEq _ _ _ ih => intro h1 h2 o v h; rcases List.mem_cons.1 h with h | h; cases h; exact ih (by simp) (tl h2) o v h
  | longBad _ _ _ _ ih => intro h1 h2 o v h; rcases List.mem_cons.1 h with h | h; cases h; exact ih (by simp) (tl h2) o v h
  | group _ _ ih => intro h1 h2; exact ih (fun h3 => hd h2 (List.mem_cons_of_mem _ h3)) (tl h2)
  | shortFlag _ _ ih =>
    intro h1 h2 o v h; rcases List.mem_cons.1 h with h | h
    · cases h
    · exact ih (fun h3 => h1 (List.mem_cons_of_mem _ h3)) h2 o v h
  | shortPacked _ _ ih =>
    intro h1 h2 o v h; rcases List.mem_cons.1 h with h | h
    · cases h; intro h3; exact h1 (List.mem_cons_of_mem _ h3)
    · exact ih (by simp) h2 o v h
  | shortArg _ _ ih =>
    intro h1 h2 o v h; rcases List.mem_cons.1 h with h | h
    · cases h; exact hd h2
    · exact ih (by simp) (tl h2) o v h
  | shortMissing _ => intro _ _ o v h; simp at h
  | shortBad _ _ ih =>
    intro h1 h2 o v h; rcases List.mem_cons.1 h with h | h
    · cases h
    · exact ih (fun h3 => h1 (List.mem_cons_of_mem _ h3)) h2 o v h

/-! ### Single arguments -/

/-- A parsing function of main against what it should accept. -/
def Reads' {α : Type} (f : Except Halt α) (Val : α → Prop) : Prop :=
  (∃ x, f = .ok x ∧ Val x) ∨ ((∃ m, m ≠ [] ∧ f = .error (.exit m)) ∧ ¬ ∃ x, Val x)

theorem optNum_logN (ch a : CStr) : Reads' (optNum tyInt ch a 10 40) (fun v => ∃ n : Nat, v = n ∧ LogNText a n) := by
  obtain ⟨h1, h2, h3⟩ := C31_signed 32 (by decide) (by decide) 10 40 (by decide) (by decide) a
  have hiff : ∀ v : Int, (∃ neg m, Numeral 0 a neg m ∧ v = sVal neg m ∧ 10 ≤ v ∧ v ≤ 40) ↔ ∃ n : Nat, v = n ∧ LogNText a n := by
    intro v
    constructor
    · rintro ⟨neg, m, hn, rfl, hl, hh⟩
      cases neg with
      | false => exact ⟨m, rfl, hn, by simp only [sVal] at hl; simpa using hl, by simp only [sVal] at hh; simpa using hh⟩
      | true => exfalso; simp only [sVal, if_true] at hl; omega
    · rintro ⟨n, rfl, hn, hl, hh⟩
      exact ⟨false, n, hn, by simp [sVal], by omega, by omega⟩
  have hx : optNum tyInt ch a 10 40 = match PARSENUM_int ⟨true, 32⟩ a 10 40 with
      | .ok v => .ok v
      | .error .ERANGE => .error (.exit [.diag (.warn0 (ch ++ " must be between ".toList ++ fmtD 10 ++ " and ".toList ++ fmtD 40 ++ " (inclusive)".toList))])
      | .error .EINVAL => .error (.exit [.diag (.warnp ("Invalid option: ".toList ++ ch ++ " ".toList ++ a))]) := rfl
  rw [hx]
  cases hp : PARSENUM_int ⟨true, 32⟩ a 10 40 with
  | ok v => exact .inl ⟨v, rfl, (hiff v).1 ((h1 v).1 hp)⟩
  | error e =>
    refine .inr ⟨?_, ?_⟩
    · cases e <;> exact ⟨_, by simp, rfl⟩
    · rintro ⟨v, hv⟩
      have := (h1 v).2 ((hiff v).2 hv)
      rw [hp] at this; cases this

theorem optNum_count (ch a : CStr) (hi : Nat) (hh : hi < 2 ^ 32) :
    Reads' (optNum tyU32 ch a 1 hi) (fun v => ∃ n : Nat, v = n ∧ CountText hi a n) := by
  obtain ⟨h1, -⟩ := C31_unsigned 32 (by decide) 1 hi (by omega) a
  have hiff : ∀ v : Int, (∃ neg m, Numeral 0 a neg m ∧ m < 2 ^ 64 ∧ v = (umaxVal neg m : Int) ∧ 1 ≤ v ∧ v ≤ hi ∧ v < 2 ^ 32) ↔ ∃ n : Nat, v = n ∧ CountText hi a n := by
    intro v
    constructor
    · rintro ⟨neg, m, hn, hm, rfl, hl, hh, -⟩
      exact ⟨_, rfl, by omega, by omega, neg, m, hn, hm, rfl⟩
    · rintro ⟨n, rfl, hl, hh, neg, m, hn, hm, rfl⟩
      exact ⟨neg, m, hn, hm, rfl, by omega, by omega, by omega⟩
  have hx : optNum tyU32 ch a 1 hi = match PARSENUM_int ⟨false, 32⟩ a 1 hi with
      | .ok v => .ok v
      | .error .ERANGE => .error (.exit [.diag (.warn0 (ch ++ " must be between ".toList ++ fmtD 1 ++ " and ".toList ++ fmtD hi ++ " (inclusive)".toList))])
      | .error .EINVAL => .error (.exit [.diag (.warnp ("Invalid option: ".toList ++ ch ++ " ".toList ++ a))]) := rfl
  rw [hx]
  cases hp : PARSENUM_int ⟨false, 32⟩ a 1 hi with
  | ok v => exact .inl ⟨v, rfl, (hiff v).1 ((h1 v).1 hp)⟩
  | error e =>
    refine .inr ⟨?_, ?_⟩
    · cases e <;> exact ⟨_, by simp, rfl⟩
    · rintro ⟨v, hv⟩
      have := (h1 v).2 ((hiff v).2 hv)
      rw [hp] at this; cases this

theorem optFlt_float (sd : Strtod) (ch a : CStr) (max : F64) : Reads' (optFlt sd ch a max) (FloatText sd (.fin false 0) max a) := by
  unfold optFlt
  cases hp : PARSENUM_flt sd a (.fin false 0) max with
  | ok v =>
    obtain ⟨h1, h2, h3, h4⟩ := C31_float_bounds sd a _ _ v hp
    exact .inl ⟨v, rfl, h4, h3, h1, h2⟩
  | error e =>
    refine .inr ⟨⟨_, by simp, rfl⟩, ?_⟩
    rintro ⟨v, h1, h2, h3, h4⟩
    unfold PARSENUM_flt parsenum_float at hp
    rw [h2] at hp
    simp only [] at hp
    have := List.length_pos_iff.2 h1
    rw [if_neg (by omega), if_neg (by simp [h3, h4])] at hp
    cases hp

theorem optM_mem {szMax : Nat} (hsz : szMax < 2 ^ 64) (a : CStr) (h0 : '\x00' ∉ a) : Reads' (optM szMax a) (MemText szMax a) := by
  obtain ⟨r, hr, hs⟩ := C30_parse a h0
  unfold optM
  rw [hr]
  cases r with
  | none =>
    refine .inr ⟨⟨_, by simp, rfl⟩, ?_⟩
    rintro ⟨v, n, k, h1, h2, h3⟩
    have := (hs v).2 ⟨n, k, h1, by omega, h2⟩
    cases this
  | some v =>
    obtain ⟨n, k, h1, h2, h3⟩ := (hs v).1 rfl
    by_cases h : v > szMax
    · refine .inr ⟨⟨_, by simp, if_pos h⟩, ?_⟩
      rintro ⟨v', n', k', h1', h2', h3'⟩
      have := (hs v').2 ⟨n', k', h1', by omega, h2'⟩
      cases this
      omega
    · exact .inl ⟨v, if_neg h, n, k, h1, h3, by omega⟩

/-! ### The loop -/

theorem valuesOf_append (o : CStr) (a b : List OptEv) : valuesOf o (a ++ b) = valuesOf o a ++ valuesOf o b := List.filterMap_append

theorem passOptions_append (a b : List OptEv) : passOptions (a ++ b) = passOptions a ++ passOptions b := List.filterMap_append

theorem valuesOf_flag (o f : CStr) : valuesOf o [.flag f] = [] := rfl

theorem valuesOf_arg (o f v : CStr) : valuesOf o [.arg f v] = if f = o then [v] else [] := by
  unfold valuesOf
  by_cases h : f = o
  · simp [h]
  · simp [h]

theorem sets_other {α : Type} {o : CStr} {evs : List OptEv} {V : CStr → α → Prop} {d x : α} {e : OptEv} (h : Sets o evs V d x) (he : valuesOf o [e] = []) :
    Sets o (evs ++ [e]) V d x := by
  unfold Sets
  rw [valuesOf_append, he, List.append_nil]
  exact h

theorem sets_new {α : Type} {o v : CStr} {evs : List OptEv} {V : CStr → α → Prop} {d x y : α} (h : Sets o evs V d x) (hv : V v y) :
    Sets o (evs ++ [.arg o v]) V d y := by
  unfold Sets
  rw [valuesOf_append, valuesOf_arg, if_pos rfl]
  refine ⟨fun w hw => ?_, ?_⟩
  · rw [List.mem_append, List.mem_singleton] at hw
    rcases hw with hw | rfl
    · exact h.1 w hw
    · exact ⟨y, hv⟩
  · rw [List.getLast?_append]
    exact hv

theorem sets_unique {α : Type} {o : CStr} {evs : List OptEv} {V : CStr → α → Prop} {d x y : α} (hV : ∀ v ∈ valuesOf o evs, ∀ a b, V v a → V v b → a = b)
    (h : Sets o evs V d x) (h' : Sets o evs V d y) : x = y := by
  obtain ⟨-, h⟩ := h
  obtain ⟨-, h'⟩ := h'
  cases hl : (valuesOf o evs).getLast? with
  | none => rw [hl] at h h'; exact h.trans h'.symm
  | some v => rw [hl] at h h'; exact hV v (List.mem_of_getLast? hl) _ _ h h'

/-- The variables after the options `evs`. -/
structure Did (sd : Strtod) (szMax : Nat) (P0 : EncParams) (evs : List OptEv) (s : Settings) : Prop where
  known : ∀ e ∈ evs, (∃ o, e = .flag o) ∨ ∃ o v, e = .arg o v
  force : s.force = true ↔ OptEv.flag "-f".toList ∈ evs
  verbose : s.verbose = true ↔ OptEv.flag "-v".toList ∈ evs
  maxmem : Sets "-M".toList evs (MemText szMax) P0.maxmem s.P.maxmem
  maxmemfrac : Sets "-m".toList evs (FloatText sd (.fin false 0) (.fin false (1 / 2))) P0.maxmemfrac s.P.maxmemfrac
  maxtime : Sets "-t".toList evs (FloatText sd (.fin false 0) (.inf false)) P0.maxtime s.P.maxtime
  logN : ∃ n : Nat, s.P.logN = n ∧ Sets "--logN".toList evs LogNText 0 n
  r : Sets "-r".toList evs (CountText 32) 0 s.P.r.toNat
  p : Sets "-p".toList evs (CountText 2048) 0 s.P.p.toNat
  pass : (passOptions evs = [] ∧ s.entry = .unset) ∨ (passOptions evs ≠ [] ∧ s.entry ≠ .unset ∧ PassChoice (passOptions evs) s.entry s.arg)

/-- No option is wrong by itself. -/
structure Legal (sd : Strtod) (szMax : Nat) (evs : List OptEv) : Prop where
  known : ∀ e ∈ evs, (∃ o, e = .flag o) ∨ ∃ o v, e = .arg o v
  maxmem : ∀ v ∈ valuesOf "-M".toList evs, ∃ y, MemText szMax v y
  maxmemfrac : ∀ v ∈ valuesOf "-m".toList evs, ∃ y, FloatText sd (.fin false 0) (.fin false (1 / 2)) v y
  maxtime : ∀ v ∈ valuesOf "-t".toList evs, ∃ y, FloatText sd (.fin false 0) (.inf false) v y
  logN : ∀ v ∈ valuesOf "--logN".toList evs, ∃ y, LogNText v y
  r : ∀ v ∈ valuesOf "-r".toList evs, ∃ y, CountText 32 v y
  p : ∀ v ∈ valuesOf "-p".toList evs, ∃ y, CountText 2048 v y
  pass : ∃ m a, PassChoice (passOptions evs) m a

theorem Legal.prefix {sd : Strtod} {szMax : Nat} {a b : List OptEv} (h : Legal sd szMax (a ++ b)) : Legal sd szMax a := by
  have hv : ∀ o v, v ∈ valuesOf o a → v ∈ valuesOf o (a ++ b) := fun o v hv => by rw [valuesOf_append]; exact List.mem_append_left _ hv
  refine ⟨fun e he => h.known e (List.mem_append_left _ he), fun v hv' => h.maxmem v (hv _ v hv'), fun v hv' => h.maxmemfrac v (hv _ v hv'),
    fun v hv' => h.maxtime v (hv _ v hv'), fun v hv' => h.logN v (hv _ v hv'), fun v hv' => h.r v (hv _ v hv'), fun v hv' => h.p v (hv _ v hv'), ?_⟩
  obtain ⟨m, x, hp⟩ := h.pass
  rw [passOptions_append] at hp
  cases hq : passOptions a with
  | nil => exact ⟨_, _, .dflt⟩
  | cons w ws =>
    rw [hq] at hp
    cases hp' : ws ++ passOptions b with
    | nil =>
      rw [List.append_eq_nil_iff] at hp'
      rw [hp'.1] at hp ⊢
      rw [hp'.2] at hp
      exact ⟨m, x, hp⟩
    | cons y ys =>
      rw [List.cons_append, hp'] at hp
      cases hp

theorem method_set {v : CStr} {m : PassEntry} {a : CStr} (h : Method v m a) : m ≠ .unset := by cases h <;> decide

/-- What one option does. -/
def StepOk (sd : Strtod) (szMax : Nat) (P0 : EncParams) (evs : List OptEv) (e : OptEv) (r : Except Halt Settings) : Prop :=
  (∃ s', r = .ok s' ∧ Did sd szMax P0 (evs ++ [e]) s') ∨ ((∃ m, m ≠ [] ∧ r = .error (.exit m)) ∧ ¬ Legal sd szMax (evs ++ [e]))

theorem known_snoc {evs : List OptEv} {e : OptEv} (h : ∀ e ∈ evs, (∃ o, e = .flag o) ∨ ∃ o v, e = .arg o v) (he : (∃ o, e = .flag o) ∨ ∃ o v, e = .arg o v) :
    ∀ x ∈ evs ++ [e], (∃ o, x = .flag o) ∨ ∃ o v, x = .arg o v := by
  intro x hx
  rw [List.mem_append, List.mem_singleton] at hx
  rcases hx with hx | rfl
  · exact h x hx
  · exact he

/-- An option that sets a value. -/
theorem Did.arg {sd : Strtod} {szMax : Nat} {P0 : EncParams} {evs : List OptEv} {s s' : Settings} (h : Did sd szMax P0 evs s) {o v : CStr}
    (hf : s'.force = s.force) (hv : s'.verbose = s.verbose)
    (h1 : Sets "-M".toList (evs ++ [.arg o v]) (MemText szMax) P0.maxmem s'.P.maxmem)
    (h2 : Sets "-m".toList (evs ++ [.arg o v]) (FloatText sd (.fin false 0) (.fin false (1 / 2))) P0.maxmemfrac s'.P.maxmemfrac)
    (h3 : Sets "-t".toList (evs ++ [.arg o v]) (FloatText sd (.fin false 0) (.inf false)) P0.maxtime s'.P.maxtime)
    (h4 : ∃ n : Nat, s'.P.logN = n ∧ Sets "--logN".toList (evs ++ [.arg o v]) LogNText 0 n)
    (h5 : Sets "-r".toList (evs ++ [.arg o v]) (CountText 32) 0 s'.P.r.toNat)
    (h6 : Sets "-p".toList (evs ++ [.arg o v]) (CountText 2048) 0 s'.P.p.toNat)
    (h7 : (passOptions (evs ++ [.arg o v]) = [] ∧ s'.entry = .unset) ∨
      (passOptions (evs ++ [.arg o v]) ≠ [] ∧ s'.entry ≠ .unset ∧ PassChoice (passOptions (evs ++ [.arg o v])) s'.entry s'.arg)) :
    Did sd szMax P0 (evs ++ [.arg o v]) s' := by
  refine ⟨known_snoc h.known (.inr ⟨o, v, rfl⟩), ?_, ?_, h1, h2, h3, h4, h5, h6, h7⟩
  · rw [hf, h.force]; simp
  · rw [hv, h.verbose]; simp

theorem passOptions_arg_ne {o v : CStr} (ho : o ≠ "--passphrase".toList) (evs : List OptEv) : passOptions (evs ++ [.arg o v]) = passOptions evs := by
  rw [passOptions_append, show passOptions [_] = [] by unfold passOptions; simp only [List.filterMap_cons, if_neg ho, List.filterMap_nil], List.append_nil]

theorem passOptions_arg (v : CStr) (evs : List OptEv) : passOptions (evs ++ [.arg "--passphrase".toList v]) = passOptions evs ++ [some v] := by
  rw [passOptions_append]
  rfl

theorem passOptions_flag_ne {o : CStr} (ho : o ≠ "-P".toList) (evs : List OptEv) : passOptions (evs ++ [.flag o]) = passOptions evs := by
  rw [passOptions_append, show passOptions [_] = [] by unfold passOptions; simp only [List.filterMap_cons, if_neg ho, List.filterMap_nil], List.append_nil]

theorem passOptions_flag (evs : List OptEv) : passOptions (evs ++ [.flag "-P".toList]) = passOptions evs ++ [none] := by
  rw [passOptions_append]
  rfl

theorem Except.map_ok' {ε α β : Type} (f : α → β) (x : α) : (Except.ok x : Except ε α).map f = .ok (f x) := rfl
theorem Except.map_error' {ε α β : Type} (f : α → β) (x : ε) : (Except.error x : Except ε α).map f = .error x := rfl


theorem flag_cases {o : CStr} (h : scryptOptions o = some false) : o = "-f".toList ∨ o = "-v".toList ∨ o = "-P".toList := by
  unfold scryptOptions at h
  split at h
  · rename_i hm; simpa using hm
  · split at h <;> cases h

theorem arg_cases {o : CStr} (h : scryptOptions o = some true) : o = "--logN".toList ∨ o = "-M".toList ∨ o = "-m".toList ∨ o = "-p".toList ∨
    o = "--passphrase".toList ∨ o = "-r".toList ∨ o = "-t".toList := by
  unfold scryptOptions at h
  split at h
  · cases h
  · split at h
    · rename_i hm; simpa using hm
    · cases h

theorem passChoice_snoc {l : List (Option CStr)} {x : Option CStr} {m : PassEntry} {a : CStr} (h : PassChoice (l ++ [x]) m a) : l = [] := by
  generalize hl : l ++ [x] = L at h
  cases h with
  | dflt => simp at hl
  | stdin => cases l with
    | nil => rfl
    | cons y ys => simp at hl
  | method _ => cases l with
    | nil => rfl
    | cons y ys => simp at hl

theorem step_pass {sd : Strtod} {szMax : Nat} {P0 : EncParams} {evs : List OptEv} {s : Settings} (h : Did sd szMax P0 evs s) (v : CStr) :
    StepOk sd szMax P0 evs (.arg "--passphrase".toList v) (optPass s (some v)) := by
  unfold optPass
  by_cases hu : s.entry = .unset
  · have hp : passOptions evs = [] := by
      rcases h.pass with h1 | h1
      · exact h1.1
      · exact absurd hu h1.2.1
    rw [if_neg (not_not.2 hu)]
    simp only []
    cases hm : passphrase_entry_parse v with
    | none =>
      refine .inr ⟨⟨_, by simp, rfl⟩, fun hL => ?_⟩
      obtain ⟨m, a, hc⟩ := hL.pass
      rw [passOptions_arg, hp] at hc
      cases hc with
      | method hc => rw [(C38_parse _ _ _).2 hc] at hm; cases hm
    | some x =>
      obtain ⟨m, a⟩ := x
      have hM := (C38_parse _ _ _).1 hm
      refine .inl ⟨_, rfl, h.arg rfl rfl ?_ ?_ ?_ ?_ ?_ ?_ (.inr ?_)⟩
      · exact sets_other h.maxmem (by rw [valuesOf_arg, if_neg (by decide)])
      · exact sets_other h.maxmemfrac (by rw [valuesOf_arg, if_neg (by decide)])
      · exact sets_other h.maxtime (by rw [valuesOf_arg, if_neg (by decide)])
      · obtain ⟨n, h1, h2⟩ := h.logN; exact ⟨n, h1, sets_other h2 (by rw [valuesOf_arg, if_neg (by decide)])⟩
      · exact sets_other h.r (by rw [valuesOf_arg, if_neg (by decide)])
      · exact sets_other h.p (by rw [valuesOf_arg, if_neg (by decide)])
      · rw [passOptions_arg, hp]
        exact ⟨by simp, method_set hM, .method hM⟩
  · rw [if_pos hu]
    have hp : passOptions evs ≠ [] := by
      rcases h.pass with h1 | h1
      · exact absurd h1.2 hu
      · exact h1.1
    refine .inr ⟨⟨_, by simp, rfl⟩, fun hL => ?_⟩
    obtain ⟨m, a, hc⟩ := hL.pass
    rw [passOptions_arg] at hc
    exact hp (passChoice_snoc hc)

theorem Did.flag {sd : Strtod} {szMax : Nat} {P0 : EncParams} {evs : List OptEv} {s s' : Settings} (h : Did sd szMax P0 evs s) {o : CStr}
    (hf : s'.force = true ↔ (s.force = true ∨ o = "-f".toList)) (hv : s'.verbose = true ↔ (s.verbose = true ∨ o = "-v".toList)) (hP : s'.P = s.P)
    (h7 : (passOptions (evs ++ [.flag o]) = [] ∧ s'.entry = .unset) ∨
      (passOptions (evs ++ [.flag o]) ≠ [] ∧ s'.entry ≠ .unset ∧ PassChoice (passOptions (evs ++ [.flag o])) s'.entry s'.arg)) :
    Did sd szMax P0 (evs ++ [.flag o]) s' := by
  refine ⟨known_snoc h.known (.inl ⟨o, rfl⟩), ?_, ?_, ?_, ?_, ?_, ?_, ?_, ?_, h7⟩
  · rw [hf, h.force, List.mem_append, List.mem_singleton]
    constructor <;> rintro (h | h) <;> first | exact .inl h | (exact .inr (by rw [h])) | (cases h; exact .inr rfl)
  · rw [hv, h.verbose, List.mem_append, List.mem_singleton]
    constructor <;> rintro (h | h) <;> first | exact .inl h | (exact .inr (by rw [h])) | (cases h; exact .inr rfl)
  · rw [hP]; exact sets_other h.maxmem rfl
  · rw [hP]; exact sets_other h.maxmemfrac rfl
  · rw [hP]; exact sets_other h.maxtime rfl
  · rw [hP]; obtain ⟨n, h1, h2⟩ := h.logN; exact ⟨n, h1, sets_other h2 rfl⟩
  · rw [hP]; exact sets_other h.r rfl
  · rw [hP]; exact sets_other h.p rfl

theorem step_flag {sd : Strtod} {szMax : Nat} {P0 : EncParams} {evs : List OptEv} {s : Settings} (h : Did sd szMax P0 evs s) {o : CStr}
    (ho : scryptOptions o = some false) : StepOk sd szMax P0 evs (.flag o) (optCase sd szMax s (.opt o)) := by
  rcases flag_cases ho with rfl | rfl | rfl
  · refine .inl ⟨_, rfl, h.flag (by simp) (by simp) rfl ?_⟩
    rw [passOptions_flag_ne (by decide)]
    exact h.pass
  · refine .inl ⟨_, rfl, h.flag (by simp) (by simp) rfl ?_⟩
    rw [passOptions_flag_ne (by decide)]
    exact h.pass
  · show StepOk _ _ _ _ _ (optPass s none)
    unfold optPass
    by_cases hu : s.entry = .unset
    · have hp : passOptions evs = [] := by
        rcases h.pass with h1 | h1
        · exact h1.1
        · exact absurd hu h1.2.1
      rw [if_neg (not_not.2 hu)]
      refine .inl ⟨_, rfl, h.flag (by simp) (by simp) rfl (.inr ?_)⟩
      rw [passOptions_flag, hp]
      exact ⟨by simp, by simp, .stdin⟩
    · rw [if_pos hu]
      have hp : passOptions evs ≠ [] := by
        rcases h.pass with h1 | h1
        · exact absurd h1.2 hu
        · exact h1.1
      refine .inr ⟨⟨_, by simp, rfl⟩, fun hL => ?_⟩
      obtain ⟨m, a, hc⟩ := hL.pass
      rw [passOptions_flag] at hc
      exact hp (passChoice_snoc hc)

theorem illegal_value {o v : CStr} {α : Type} {evs : List OptEv} {V : CStr → α → Prop} (h : ∀ w ∈ valuesOf o (evs ++ [.arg o v]), ∃ y, V w y) : ∃ y, V v y :=
  h v (by rw [valuesOf_append, valuesOf_arg, if_pos rfl]; simp)

theorem step_arg {sd : Strtod} {szMax : Nat} (hsz : szMax < 2 ^ 64) {P0 : EncParams} {evs : List OptEv} {s : Settings} (h : Did sd szMax P0 evs s) {o v : CStr}
    (ho : scryptOptions o = some true) (hv : '\x00' ∉ v) : StepOk sd szMax P0 evs (.arg o v) (optCase sd szMax s (.optarg o v)) := by
  have pass : ∀ {o : CStr} {s' : Settings}, o ≠ "--passphrase".toList → s'.entry = s.entry → s'.arg = s.arg →
      (passOptions (evs ++ [.arg o v]) = [] ∧ s'.entry = .unset) ∨
      (passOptions (evs ++ [.arg o v]) ≠ [] ∧ s'.entry ≠ .unset ∧ PassChoice (passOptions (evs ++ [.arg o v])) s'.entry s'.arg) := by
    intro o s' h1 h2 h3
    rw [passOptions_arg_ne h1, h2, h3]; exact h.pass
  have hlog : ∀ {o : CStr}, valuesOf "--logN".toList [.arg o v] = [] → ∃ n : Nat, s.P.logN = n ∧ Sets "--logN".toList (evs ++ [.arg o v]) LogNText 0 n := by
    intro o h0
    obtain ⟨n, h1, h2⟩ := h.logN
    exact ⟨n, h1, sets_other h2 h0⟩
  rcases arg_cases ho with rfl | rfl | rfl | rfl | rfl | rfl | rfl
  · show StepOk _ _ _ _ _ ((optNum tyInt "--logN".toList v 10 40).map _)
    rcases optNum_logN "--logN".toList v with ⟨x, hx, hV⟩ | ⟨⟨m, hm, hx⟩, hV⟩
    · rw [hx]
      obtain ⟨n, rfl, hV⟩ := hV
      refine .inl ⟨_, rfl, h.arg rfl rfl ?_ ?_ ?_ ?_ ?_ ?_ (pass (by decide) rfl rfl)⟩
      · exact sets_other h.maxmem (by rw [valuesOf_arg, if_neg (by decide)])
      · exact sets_other h.maxmemfrac (by rw [valuesOf_arg, if_neg (by decide)])
      · exact sets_other h.maxtime (by rw [valuesOf_arg, if_neg (by decide)])
      · obtain ⟨n0, -, h2⟩ := h.logN; exact ⟨n, rfl, sets_new h2 hV⟩
      · exact sets_other h.r (by rw [valuesOf_arg, if_neg (by decide)])
      · exact sets_other h.p (by rw [valuesOf_arg, if_neg (by decide)])
    · rw [hx]
      refine .inr ⟨⟨m, hm, rfl⟩, fun hL => hV ?_⟩
      obtain ⟨n, hn⟩ := illegal_value hL.logN
      exact ⟨_, n, rfl, hn⟩
  · show StepOk _ _ _ _ _ ((optM szMax v).map _)
    rcases optM_mem hsz v hv with ⟨x, hx, hV⟩ | ⟨⟨m, hm, hx⟩, hV⟩
    · rw [hx]
      refine .inl ⟨_, rfl, h.arg rfl rfl ?_ ?_ ?_ ?_ ?_ ?_ (pass (by decide) rfl rfl)⟩
      · exact sets_new h.maxmem hV
      · exact sets_other h.maxmemfrac (by rw [valuesOf_arg, if_neg (by decide)])
      · exact sets_other h.maxtime (by rw [valuesOf_arg, if_neg (by decide)])
      · exact hlog (by rw [valuesOf_arg, if_neg (by decide)])
      · exact sets_other h.r (by rw [valuesOf_arg, if_neg (by decide)])
      · exact sets_other h.p (by rw [valuesOf_arg, if_neg (by decide)])
    · rw [hx]
      refine .inr ⟨⟨m, hm, rfl⟩, fun hL => hV ?_⟩
      exact illegal_value hL.maxmem
  · show StepOk _ _ _ _ _ ((optFlt sd "-m".toList v (.fin false (1 / 2))).map _)
    rcases optFlt_float sd "-m".toList v (.fin false (1 / 2)) with ⟨x, hx, hV⟩ | ⟨⟨m, hm, hx⟩, hV⟩
    · rw [hx]
      refine .inl ⟨_, rfl, h.arg rfl rfl ?_ ?_ ?_ ?_ ?_ ?_ (pass (by decide) rfl rfl)⟩
      · exact sets_other h.maxmem (by rw [valuesOf_arg, if_neg (by decide)])
      · exact sets_new h.maxmemfrac hV
      · exact sets_other h.maxtime (by rw [valuesOf_arg, if_neg (by decide)])
      · exact hlog (by rw [valuesOf_arg, if_neg (by decide)])
      · exact sets_other h.r (by rw [valuesOf_arg, if_neg (by decide)])
      · exact sets_other h.p (by rw [valuesOf_arg, if_neg (by decide)])
    · rw [hx]
      refine .inr ⟨⟨m, hm, rfl⟩, fun hL => hV ?_⟩
      exact illegal_value hL.maxmemfrac
  · show StepOk _ _ _ _ _ ((optNum tyU32 "-p".toList v 1 2048).map _)
    rcases optNum_count "-p".toList v 2048 (by decide) with ⟨x, hx, hV⟩ | ⟨⟨m, hm, hx⟩, hV⟩
    · rw [hx]
      obtain ⟨n, rfl, hV⟩ := hV
      refine .inl ⟨_, rfl, h.arg rfl rfl ?_ ?_ ?_ ?_ ?_ ?_ (pass (by decide) rfl rfl)⟩
      · exact sets_other h.maxmem (by rw [valuesOf_arg, if_neg (by decide)])
      · exact sets_other h.maxmemfrac (by rw [valuesOf_arg, if_neg (by decide)])
      · exact sets_other h.maxtime (by rw [valuesOf_arg, if_neg (by decide)])
      · exact hlog (by rw [valuesOf_arg, if_neg (by decide)])
      · exact sets_other h.r (by rw [valuesOf_arg, if_neg (by decide)])
      · rw [show (BitVec.ofInt 32 ((n : Nat) : Int)).toNat = n by have := hV.2.1; rw [BitVec.ofInt_natCast, BitVec.toNat_ofNat]; omega]; exact sets_new h.p hV
    · rw [hx]
      refine .inr ⟨⟨m, hm, rfl⟩, fun hL => hV ?_⟩
      obtain ⟨n, hn⟩ := illegal_value hL.p
      exact ⟨_, n, rfl, hn⟩
  · exact step_pass h v
  · show StepOk _ _ _ _ _ ((optNum tyU32 "-r".toList v 1 32).map _)
    rcases optNum_count "-r".toList v 32 (by decide) with ⟨x, hx, hV⟩ | ⟨⟨m, hm, hx⟩, hV⟩
    · rw [hx]
      obtain ⟨n, rfl, hV⟩ := hV
      refine .inl ⟨_, rfl, h.arg rfl rfl ?_ ?_ ?_ ?_ ?_ ?_ (pass (by decide) rfl rfl)⟩
      · exact sets_other h.maxmem (by rw [valuesOf_arg, if_neg (by decide)])
      · exact sets_other h.maxmemfrac (by rw [valuesOf_arg, if_neg (by decide)])
      · exact sets_other h.maxtime (by rw [valuesOf_arg, if_neg (by decide)])
      · exact hlog (by rw [valuesOf_arg, if_neg (by decide)])
      · rw [show (BitVec.ofInt 32 ((n : Nat) : Int)).toNat = n by have := hV.2.1; rw [BitVec.ofInt_natCast, BitVec.toNat_ofNat]; omega]; exact sets_new h.r hV
      · exact sets_other h.p (by rw [valuesOf_arg, if_neg (by decide)])
    · rw [hx]
      refine .inr ⟨⟨m, hm, rfl⟩, fun hL => hV ?_⟩
      obtain ⟨n, hn⟩ := illegal_value hL.r
      exact ⟨_, n, rfl, hn⟩
  · show StepOk _ _ _ _ _ ((optFlt sd "-t".toList v (.inf false)).map _)
    rcases optFlt_float sd "-t".toList v (.inf false) with ⟨x, hx, hV⟩ | ⟨⟨m, hm, hx⟩, hV⟩
    · rw [hx]
      refine .inl ⟨_, rfl, h.arg rfl rfl ?_ ?_ ?_ ?_ ?_ ?_ (pass (by decide) rfl rfl)⟩
      · exact sets_other h.maxmem (by rw [valuesOf_arg, if_neg (by decide)])
      · exact sets_other h.maxmemfrac (by rw [valuesOf_arg, if_neg (by decide)])
      · exact sets_new h.maxtime hV
      · exact hlog (by rw [valuesOf_arg, if_neg (by decide)])
      · exact sets_other h.r (by rw [valuesOf_arg, if_neg (by decide)])
      · exact sets_other h.p (by rw [valuesOf_arg, if_neg (by decide)])
    · rw [hx]
      refine .inr ⟨⟨m, hm, rfl⟩, fun hL => hV ?_⟩
      exact illegal_value hL.maxtime

/-- The whole loop. -/
theorem optLoop_spec {sd : Strtod} {szMax : Nat} (hsz : szMax < 2 ^ 64) {P0 : EncParams} :
    ∀ (todo done : List OptEv) (s : Settings), Did sd szMax P0 done s →
      (∀ e ∈ todo, (∀ o, e = .flag o → scryptOptions o = some false) ∧ (∀ o v, e = .arg o v → scryptOptions o = some true ∧ '\x00' ∉ v)) →
      (∃ s', foldBody (optCase sd szMax) s (todo.map mainTable.seen) = .ok s' ∧ Did sd szMax P0 (done ++ todo) s') ∨
      ((∃ m, m ≠ [] ∧ foldBody (optCase sd szMax) s (todo.map mainTable.seen) = .error (.exit m)) ∧ ¬ Legal sd szMax (done ++ todo)) := by
  intro todo
  induction todo with
  | nil => intro done s h _; rw [List.append_nil]; exact .inl ⟨s, rfl, h⟩
  | cons e es ih =>
    intro done s h hk
    have hs : StepOk sd szMax P0 done e (optCase sd szMax s (mainTable.seen e)) := by
      obtain ⟨h1, h2⟩ := hk e List.mem_cons_self
      cases e with
      | flag o => exact step_flag h (h1 o rfl)
      | arg o v => exact step_arg hsz h (h2 o v rfl).1 (h2 o v rfl).2
      | missing o =>
        rw [show mainTable.seen (OptEv.missing o) = SwEv.missing o by simp only [GoTable.seen, mainTable_missing, if_true]]
        refine .inr ⟨⟨_, by simp, rfl⟩, fun hL => ?_⟩
        rcases hL.known (.missing o) (by simp) with ⟨a, ha⟩ | ⟨a, b, ha⟩ <;> cases ha
      | bad o =>
        refine .inr ⟨⟨_, by simp, rfl⟩, fun hL => ?_⟩
        rcases hL.known (.bad o) (by simp) with ⟨a, ha⟩ | ⟨a, b, ha⟩ <;> cases ha
    rw [List.map_cons]
    unfold foldBody
    rcases hs with ⟨s', hs, hd⟩ | ⟨⟨m, hm, hs⟩, hL⟩
    · rw [hs]
      have := ih (done ++ [e]) s' hd (fun x hx => hk x (List.mem_cons_of_mem _ hx))
      rw [List.append_assoc] at this
      exact this
    · rw [hs]
      refine .inr ⟨⟨m, hm, rfl⟩, fun h' => hL ?_⟩
      rw [show done ++ e :: es = (done ++ [e]) ++ es by simp] at h'
      exact h'.prefix

end Scrypt
