import Verif.Spec.Spelling
import Verif.Props.CommandLine
/-
C94: how the options are written, and in which order, does not matter.
-/
namespace Scrypt.Props
open Scrypt Spec

/-- Two lists of options that agree in everything that counts. -/
structure SameMeaning (a b : List OptEv) : Prop where
  known : (∀ e ∈ a, (∃ o, e = .flag o) ∨ ∃ o v, e = .arg o v) ↔ ∀ e ∈ b, (∃ o, e = .flag o) ∨ ∃ o v, e = .arg o v
  flags : ∀ o, OptEv.flag o ∈ a ↔ OptEv.flag o ∈ b
  values : ∀ o, valuesOf o a = valuesOf o b
  pass : passOptions a = passOptions b ∨ (2 ≤ (passOptions a).length ∧ 2 ≤ (passOptions b).length)

theorem alike_refl (a : List OptEv) : SameMeaning a a := ⟨.rfl, fun _ => .rfl, fun _ => rfl, .inl rfl⟩

theorem alike_symm {a b : List OptEv} (h : SameMeaning a b) : SameMeaning b a :=
  ⟨h.known.symm, fun o => (h.flags o).symm, fun o => (h.values o).symm, h.pass.elim (fun e => .inl e.symm) fun e => .inr ⟨e.2, e.1⟩⟩

theorem alike_trans {a b c : List OptEv} (h : SameMeaning a b) (k : SameMeaning b c) : SameMeaning a c := by
  refine ⟨h.known.trans k.known, fun o => (h.flags o).trans (k.flags o), fun o => (h.values o).trans (k.values o), ?_⟩
  rcases h.pass with e | e
  · rcases k.pass with e' | e'
    · exact .inl (e.trans e')
    · exact .inr ⟨by rw [e]; exact e'.1, e'.2⟩
  · rcases k.pass with e' | e'
    · exact .inr ⟨e.1, by rw [← e']; exact e.2⟩
    · exact .inr ⟨e.1, e'.2⟩

theorem alike_cons {a b : List OptEv} (e : OptEv) (h : SameMeaning a b) : SameMeaning (e :: a) (e :: b) := by
  refine ⟨?_, ?_, ?_, ?_⟩
  · rw [List.forall_mem_cons, List.forall_mem_cons, h.known]
  · intro o
    rw [List.mem_cons, List.mem_cons, h.flags]
  · intro o
    rw [← List.singleton_append, valuesOf_append, h.values, ← valuesOf_append]
    rfl
  · have e1 : ∀ x, passOptions (e :: x) = passOptions [e] ++ passOptions x := fun x => by rw [← passOptions_append]; rfl
    rw [e1 a, e1 b]
    rcases h.pass with k | k
    · rw [k]; exact .inl rfl
    · rw [List.length_append, List.length_append]
      exact .inr ⟨by omega, by omega⟩

/-- The name of an option. -/
def optName : OptEv → CStr
  | .flag o => o
  | .arg o _ => o
  | .missing o => o
  | .bad o => o

theorem valuesOf_ne {o : CStr} {e : OptEv} (h : optName e ≠ o) : valuesOf o [e] = [] := by
  cases e with
  | flag f => rfl
  | arg f v => rw [valuesOf_arg]; exact if_neg h
  | missing f => rfl
  | bad f => rfl

/-- Options of different names may be swapped. -/
theorem alike_swap {e e' : OptEv} (h : optName e ≠ optName e') (a : List OptEv) : SameMeaning (e :: e' :: a) (e' :: e :: a) := by
  have c1 : ∀ x y : OptEv, ∀ o, valuesOf o (x :: y :: a) = valuesOf o [x] ++ (valuesOf o [y] ++ valuesOf o a) := fun x y o => by
    rw [← valuesOf_append, ← valuesOf_append]; rfl
  have c2 : ∀ x y : OptEv, passOptions (x :: y :: a) = passOptions [x] ++ (passOptions [y] ++ passOptions a) := fun x y => by
    rw [← passOptions_append, ← passOptions_append]; rfl
  refine ⟨?_, ?_, ?_, ?_⟩
  · rw [List.forall_mem_cons, List.forall_mem_cons, List.forall_mem_cons, List.forall_mem_cons]
    exact ⟨fun ⟨x, y, z⟩ => ⟨y, x, z⟩, fun ⟨x, y, z⟩ => ⟨y, x, z⟩⟩
  · intro o
    rw [List.mem_cons, List.mem_cons, List.mem_cons, List.mem_cons]
    exact or_left_comm
  · intro o
    rw [c1, c1]
    by_cases hx : optName e = o
    · rw [valuesOf_ne (e := e') (fun hy => h (hx.trans hy.symm)), List.nil_append, List.nil_append]
    · rw [valuesOf_ne hx, List.nil_append, List.nil_append]
  · rw [c2, c2]
    cases p : passOptions [e] with
    | nil => exact .inl (by rw [List.nil_append, List.nil_append])
    | cons x xs =>
      cases p' : passOptions [e'] with
      | nil => exact .inl (by rw [List.nil_append, List.nil_append])
      | cons y ys => exact .inr ⟨by simp only [List.length_append, List.length_cons]; omega, by simp only [List.length_append, List.length_cons]; omega⟩

theorem scryptOptions_dash : scryptOptions ['-', '-'] = none := by decide

theorem one_parses {o : CStr} {w : List CStr} (h : OneOption o w) :
    ∃ e, optName e = o ∧ ∀ rest evs ops, Parses scryptOptions [] rest evs ops → Parses scryptOptions [] (w ++ rest) (e :: evs) ops := by
  cases h with
  | @flag c hk =>
    have hc : c ≠ '-' := by
      rintro rfl
      rw [scryptOptions_dash] at hk
      cases hk
    exact ⟨.flag ['-', c], rfl, fun rest evs ops hp => .group hc (.shortFlag hk hp)⟩
  | @arg _ v hk =>
    refine ⟨.arg o v, rfl, fun rest evs ops hp => ?_⟩
    unfold scryptOptions at hk
    by_cases h1 : o ∈ ["-f".toList, "-v".toList, "-P".toList]
    · rw [if_pos h1] at hk
      cases hk
    · rw [if_neg h1] at hk
      by_cases h2 : o ∈ ["--logN".toList, "-M".toList, "-m".toList, "-p".toList, "--passphrase".toList, "-r".toList, "-t".toList]
      · simp only [List.mem_cons, List.not_mem_nil, or_false] at h2
        rcases h2 with rfl | rfl | rfl | rfl | rfl | rfl | rfl
        · exact .longArg (n := "logN".toList) (by decide) (by decide) hp
        · exact .group (c := 'M') (cs := []) (by decide) (.shortArg (by decide) hp)
        · exact .group (c := 'm') (cs := []) (by decide) (.shortArg (by decide) hp)
        · exact .group (c := 'p') (cs := []) (by decide) (.shortArg (by decide) hp)
        · exact .longArg (n := "passphrase".toList) (by decide) (by decide) hp
        · exact .group (c := 'r') (cs := []) (by decide) (.shortArg (by decide) hp)
        · exact .group (c := 't') (cs := []) (by decide) (.shortArg (by decide) hp)
      · rw [if_neg h2] at hk
        cases hk

theorem scrypt_parses (pend : CStr) (rest : List CStr) : ∃ evs ops, Parses scryptOptions pend rest evs ops :=
  parses_exists scryptOptions scryptOptions_dash _ pend rest le_rfl

theorem scryptOptions_noeq (n : CStr) (b : Bool) (h : scryptOptions ('-' :: '-' :: n) = some b) : '=' ∉ n := by
  unfold scryptOptions at h
  by_cases h1 : ('-' :: '-' :: n) ∈ ["-f".toList, "-v".toList, "-P".toList]
  · simp at h1
  · rw [if_neg h1] at h
    by_cases h2 : ('-' :: '-' :: n) ∈ ["--logN".toList, "-M".toList, "-m".toList, "-p".toList, "--passphrase".toList, "-r".toList, "-t".toList]
    · simp at h2
      rcases h2 with rfl | rfl <;> decide
    · rw [if_neg h2] at h
      cases h

/-- Arguments that say the same parse to options that agree in everything that counts and to the same operands. -/
theorem same_alike {a b : List CStr} (h : SameOptions a b) :
    ∃ evs evs' ops, Parses scryptOptions [] a evs ops ∧ Parses scryptOptions [] b evs' ops ∧ SameMeaning evs evs' := by
  induction h with
  | @joined c v rest hk hv =>
    obtain ⟨evs, ops, hp⟩ := scrypt_parses [] rest
    have hc : c ≠ '-' := by
      rintro rfl
      rw [scryptOptions_dash] at hk
      cases hk
    cases v with
    | nil => exact absurd rfl hv
    | cons d cs => exact ⟨_, _, ops, .group hc (.shortArg hk hp), .group hc (.shortPacked hk hp), alike_refl _⟩
  | @equals n v rest hk =>
    obtain ⟨evs, ops, hp⟩ := scrypt_parses [] rest
    have hn : n ≠ [] := by
      rintro rfl
      rw [scryptOptions_dash] at hk
      cases hk
    exact ⟨_, _, ops, .longArg hn hk hp, .longEq hn hk hp, alike_refl _⟩
  | @grouped c cs rest hk hn hd =>
    have hc : c ≠ '-' := by
      rintro rfl
      rw [scryptOptions_dash] at hk
      cases hk
    cases cs with
    | nil => exact absurd rfl hn
    | cons d cs =>
      obtain ⟨evs, ops, hp⟩ := scrypt_parses (d :: cs) rest
      have hd' : d ≠ '-' := by
        rintro rfl
        exact hd rfl
      exact ⟨_, _, ops, .group hc (.shortFlag hk (.group hd' hp)), .group hc (.shortFlag hk hp), alike_refl _⟩
  | @ended a rest ha =>
    rcases ha with ha | rfl
    · exact ⟨_, _, _, .operand ha, .dashdash, alike_refl _⟩
    · exact ⟨_, _, _, .dash, .dashdash, alike_refl _⟩
  | @swap o o' w w' rest h1 h2 hne =>
    obtain ⟨e, n1, p1⟩ := one_parses h1
    obtain ⟨e', n2, p2⟩ := one_parses h2
    obtain ⟨evs, ops, hp⟩ := scrypt_parses [] rest
    refine ⟨_, _, ops, ?_, ?_, alike_swap (e := e) (e' := e') (by rw [n1, n2]; exact hne) evs⟩
    · rw [List.append_assoc]
      exact p1 _ _ _ (p2 _ _ _ hp)
    · rw [List.append_assoc]
      exact p2 _ _ _ (p1 _ _ _ hp)
  | @twice o rest ho =>
    obtain ⟨evs, ops, hp⟩ := scrypt_parses [] rest
    have key : ∀ c, c ≠ '-' → scryptOptions ['-', c] = some false → passOptions [.flag ['-', c]] = [] →
        ∃ evs evs' ops, Parses scryptOptions [] (['-', c] :: ['-', c] :: rest) evs ops ∧ Parses scryptOptions [] (['-', c] :: rest) evs' ops ∧ SameMeaning evs evs' := by
      intro c hc hk hpo
      refine ⟨_, _, ops, .group hc (.shortFlag hk (.group hc (.shortFlag hk hp))), .group hc (.shortFlag hk hp), ?_, ?_, ?_, ?_⟩
      · rw [List.forall_mem_cons, List.forall_mem_cons]
        exact ⟨fun ⟨x, y⟩ => y, fun y => ⟨y.1, y⟩⟩
      · intro o
        rw [List.mem_cons, List.mem_cons]
        exact ⟨fun x => x.elim .inl id, .inr⟩
      · intro o
        rfl
      · have c2 : ∀ x : OptEv, ∀ a, passOptions (x :: a) = passOptions [x] ++ passOptions a := fun x a => by rw [← passOptions_append]; rfl
        rw [c2, hpo]
        exact .inl rfl
    rcases ho with rfl | rfl
    · exact key 'f' (by decide) (by decide) rfl
    · exact key 'v' (by decide) (by decide) rfl
  | @after o w rest rest' h1 _ ih =>
    obtain ⟨e, -, p1⟩ := one_parses h1
    obtain ⟨evs, evs', ops, q1, q2, q3⟩ := ih
    exact ⟨_, _, ops, p1 _ _ _ q1, p1 _ _ _ q2, alike_cons e q3⟩
  | @refl rest =>
    obtain ⟨evs, ops, hp⟩ := scrypt_parses [] rest
    exact ⟨_, _, _, hp, hp, alike_refl _⟩
  | symm _ ih =>
    obtain ⟨evs, evs', ops, q1, q2, q3⟩ := ih
    exact ⟨_, _, _, q2, q1, alike_symm q3⟩
  | trans _ _ ih1 ih2 =>
    obtain ⟨evs, evs', ops, q1, q2, q3⟩ := ih1
    obtain ⟨fvs, fvs', ops', r1, r2, r3⟩ := ih2
    obtain ⟨rfl, rfl⟩ := parses_unique scryptOptions scryptOptions_noeq q2 r1
    exact ⟨_, _, _, q1, r2, alike_trans q3 r3⟩

theorem sets_alike {α : Type} {o : CStr} {a b : List OptEv} {V : CStr → α → Prop} {d x : α} (e : valuesOf o a = valuesOf o b) (h : Sets o a V d x) :
    Sets o b V d x := by
  unfold Sets at h ⊢
  rw [← e]
  exact h

theorem passChoice_one {l : List (Option CStr)} {m : PassEntry} {a : CStr} (h : PassChoice l m a) : l.length ≤ 1 := by
  cases h <;> simp

theorem asks_alike {sd : Strtod} {szMax : Nat} {a b : List OptEv} {ops : List CStr} {q : Spec.Request} (h : SameMeaning a b) (k : Asks sd szMax a ops q) :
    Asks sd szMax b ops q where
  known := h.known.1 k.known
  force := k.force.trans (h.flags _)
  verbose := k.verbose.trans (h.flags _)
  maxmem := sets_alike (h.values _) k.maxmem
  maxmemfrac := sets_alike (h.values _) k.maxmemfrac
  maxtime := sets_alike (h.values _) k.maxtime
  logN := sets_alike (h.values _) k.logN
  r := sets_alike (h.values _) k.r
  p := sets_alike (h.values _) k.p
  pass := by
    rcases h.pass with e | ⟨e, -⟩
    · rw [← e]; exact k.pass
    · exact absurd (passChoice_one k.pass) (by omega)
  explicit := k.explicit
  frac := k.frac
  files := k.files
  once := k.once

/-- **C94.**  Arguments that say the same ask for the same, or are both not accepted. -/
theorem C94_requests {sd : Strtod} {szMax : Nat} {op : Operation} {a b : List CStr} (h : SameOptions a b) (q : Spec.Request) :
    Requests sd szMax (op.name :: a) q ↔ Requests sd szMax (op.name :: b) q := by
  have key : ∀ {a b : List CStr}, SameOptions a b → Requests sd szMax (op.name :: a) q → Requests sd szMax (op.name :: b) q := by
    rintro a b h ⟨rest, evs, ops, he, hp, ha⟩
    obtain ⟨h1, rfl⟩ := List.cons.inj he
    obtain ⟨fvs, fvs', ops', q1, q2, q3⟩ := same_alike h
    obtain ⟨rfl, rfl⟩ := parses_unique scryptOptions scryptOptions_noeq hp q1
    exact ⟨_, _, _, by rw [h1], q2, asks_alike q3 ha⟩
  exact ⟨key h, key (.symm h)⟩

theorem opName_ne (op : Operation) (rest : List CStr) : (op.name :: rest).head? ≠ some "--version".toList := by
  cases op <;> exact fun e => absurd (Option.some.inj e) (by decide)

/-- **C94.**  The runs of two command lines that say the same, under whatever name the program was called, are the same if they are accepted;
and otherwise neither touches a file, and both end with 1. -/
theorem C94_run (env : MainEnv) (hmal : env.mallocOk = true) (hsz : env.sys.par.szMax < 2 ^ 64) (a0 b0 : CStr) (op : Operation) {a b : List CStr}
    (h : SameOptions a b) (ha : NoNul (op.name :: a)) (hb : NoNul (op.name :: b)) :
    (∃ q, Requests env.sd env.sys.par.szMax (op.name :: a) q ∧ Requests env.sd env.sys.par.szMax (op.name :: b) q ∧
      scryptMain env (a0 :: op.name :: a) = scryptMain env (b0 :: op.name :: b)) ∨
    ∃ m m', m ≠ [] ∧ m' ≠ [] ∧ scryptMain env (a0 :: op.name :: a) = .ok (some ⟨1, m, [], [], []⟩) ∧
      scryptMain env (b0 :: op.name :: b) = .ok (some ⟨1, m', [], [], []⟩) := by
  by_cases hq : ∃ q, Requests env.sd env.sys.par.szMax (op.name :: a) q
  · obtain ⟨q, hq⟩ := hq
    have hq' := (C94_requests h q).1 hq
    refine .inl ⟨q, hq, hq', ?_⟩
    rw [C33_accepted env hmal hsz a0 _ ha q hq, C33_accepted env hmal hsz b0 _ hb q hq']
  · have hq' : ¬ ∃ q, Requests env.sd env.sys.par.szMax (op.name :: b) q := fun ⟨q, k⟩ => hq ⟨q, (C94_requests h q).2 k⟩
    obtain ⟨m, m1, m2⟩ := C33_refused env hmal hsz a0 _ ha hq (opName_ne op a)
    obtain ⟨m', m1', m2'⟩ := C33_refused env hmal hsz b0 _ hb hq' (opName_ne op b)
    exact .inr ⟨m, m', m1, m1', m2, m2'⟩

/-! ### The last one counts -/

theorem sets_more {α : Type} {o o' v : CStr} {evs : List OptEv} {V : CStr → α → Prop} {d x : α} (hv : o' = o → ∃ y, V v y) (hl : o' = o → valuesOf o evs ≠ []) :
    Sets o (.arg o' v :: evs) V d x ↔ Sets o evs V d x := by
  have c1 : valuesOf o (.arg o' v :: evs) = (if o' = o then [v] else []) ++ valuesOf o evs := by
    rw [← valuesOf_arg, ← valuesOf_append]; rfl
  unfold Sets
  rw [c1]
  by_cases h : o' = o
  · rw [if_pos h]
    cases e : valuesOf o evs with
    | nil => exact absurd e (hl h)
    | cons y ys =>
      rw [List.singleton_append, List.getLast?_cons_cons, List.forall_mem_cons]
      exact ⟨fun ⟨⟨_, p⟩, q⟩ => ⟨p, q⟩, fun ⟨p, q⟩ => ⟨⟨hv h, p⟩, q⟩⟩
  · rw [if_neg h, List.nil_append]

/-- **C94.**  A valid limit or parameter given again later has no effect. -/
theorem C94_last {sd : Strtod} {szMax : Nat} {op : Operation} {o v : CStr} {rest : List CStr} {evs : List OptEv} {ops : List CStr}
    (hp : Parses scryptOptions [] rest evs ops) (hv : Accepts sd szMax o v) (hl : valuesOf o evs ≠ []) (q : Spec.Request) :
    Requests sd szMax (op.name :: o :: v :: rest) q ↔ Requests sd szMax (op.name :: rest) q := by
  have hk : scryptOptions o = some true ∧ o ≠ "--passphrase".toList := by
    rcases hv with ⟨rfl, -⟩ | ⟨rfl, -⟩ | ⟨rfl, -⟩ | ⟨rfl, -⟩ | ⟨rfl, -⟩ | ⟨rfl, -⟩ <;> exact ⟨by decide, by decide⟩
  have hp' : Parses scryptOptions [] (o :: v :: rest) (.arg o v :: evs) ops := by
    obtain ⟨evs1, evs1', ops1, q1, -⟩ := same_alike (SameOptions.refl (rest := o :: v :: rest))
    have h1 : OneOption o [o, v] := .arg hk.1
    have : Parses scryptOptions [] ([o, v] ++ rest) (.arg o v :: evs) ops := by
      rcases hv with ⟨rfl, -⟩ | ⟨rfl, -⟩ | ⟨rfl, -⟩ | ⟨rfl, -⟩ | ⟨rfl, -⟩ | ⟨rfl, -⟩
      · exact .group (c := 'M') (cs := []) (by decide) (.shortArg (by decide) hp)
      · exact .group (c := 'm') (cs := []) (by decide) (.shortArg (by decide) hp)
      · exact .group (c := 't') (cs := []) (by decide) (.shortArg (by decide) hp)
      · exact .longArg (n := "logN".toList) (by decide) (by decide) hp
      · exact .group (c := 'r') (cs := []) (by decide) (.shortArg (by decide) hp)
      · exact .group (c := 'p') (cs := []) (by decide) (.shortArg (by decide) hp)
    exact this
  have hps : passOptions (.arg o v :: evs) = passOptions evs := by
    have c2 : passOptions (.arg o v :: evs) = passOptions [.arg o v] ++ passOptions evs := by rw [← passOptions_append]; rfl
    have c3 : passOptions [.arg o v] = [] := by
      have := passOptions_arg_ne (v := v) hk.2 []
      exact this
    rw [c2, c3, List.nil_append]
  have hfl : ∀ f, OptEv.flag f ∈ (OptEv.arg o v :: evs) ↔ OptEv.flag f ∈ evs := by
    intro f
    rw [List.mem_cons, or_iff_right (fun e => by cases e)]
  have sets : ∀ {α : Type} {o' : CStr} {V : CStr → α → Prop} {d x : α}, (o = o' → ∃ y, V v y) → (Sets o' (.arg o v :: evs) V d x ↔ Sets o' evs V d x) :=
    fun h => sets_more h (fun e => by rw [← e]; exact hl)
  have val : (o = "-M".toList → ∃ n, MemText szMax v n) ∧ (o = "-m".toList → ∃ x, FloatText sd (.fin false 0) (.fin false (1 / 2)) v x) ∧
      (o = "-t".toList → ∃ x, FloatText sd (.fin false 0) (.inf false) v x) ∧ (o = "--logN".toList → ∃ n, LogNText v n) ∧
      (o = "-r".toList → ∃ n, CountText 32 v n) ∧ (o = "-p".toList → ∃ n, CountText 2048 v n) := by
    rcases hv with ⟨rfl, h⟩ | ⟨rfl, h⟩ | ⟨rfl, h⟩ | ⟨rfl, h⟩ | ⟨rfl, h⟩ | ⟨rfl, h⟩
    · exact ⟨fun _ => h, fun e => absurd e (by decide), fun e => absurd e (by decide), fun e => absurd e (by decide), fun e => absurd e (by decide), fun e => absurd e (by decide)⟩
    · exact ⟨fun e => absurd e (by decide), fun _ => h, fun e => absurd e (by decide), fun e => absurd e (by decide), fun e => absurd e (by decide), fun e => absurd e (by decide)⟩
    · exact ⟨fun e => absurd e (by decide), fun e => absurd e (by decide), fun _ => h, fun e => absurd e (by decide), fun e => absurd e (by decide), fun e => absurd e (by decide)⟩
    · exact ⟨fun e => absurd e (by decide), fun e => absurd e (by decide), fun e => absurd e (by decide), fun _ => h, fun e => absurd e (by decide), fun e => absurd e (by decide)⟩
    · exact ⟨fun e => absurd e (by decide), fun e => absurd e (by decide), fun e => absurd e (by decide), fun e => absurd e (by decide), fun _ => h, fun e => absurd e (by decide)⟩
    · exact ⟨fun e => absurd e (by decide), fun e => absurd e (by decide), fun e => absurd e (by decide), fun e => absurd e (by decide), fun e => absurd e (by decide), fun _ => h⟩
  obtain ⟨v1, v2, v3, v4, v5, v6⟩ := val
  constructor
  · rintro ⟨r1, e1, o1, he, hp1, k⟩
    obtain ⟨h1, rfl⟩ := List.cons.inj he
    obtain ⟨rfl, rfl⟩ := parses_unique scryptOptions scryptOptions_noeq hp1 hp'
    refine ⟨rest, evs, _, by rw [h1], hp, ?_⟩
    exact ⟨fun e he => k.known e (List.mem_cons_of_mem _ he), k.force.trans (hfl _), k.verbose.trans (hfl _), (sets v1).1 k.maxmem, (sets v2).1 k.maxmemfrac,
      (sets v3).1 k.maxtime, (sets v4).1 k.logN, (sets v5).1 k.r, (sets v6).1 k.p, by rw [← hps]; exact k.pass, k.explicit, k.frac, k.files, k.once⟩
  · rintro ⟨r1, e1, o1, he, hp1, k⟩
    obtain ⟨h1, rfl⟩ := List.cons.inj he
    obtain ⟨rfl, rfl⟩ := parses_unique scryptOptions scryptOptions_noeq hp1 hp
    refine ⟨_, _, _, by rw [h1], hp', ?_⟩
    refine ⟨?_, k.force.trans (hfl _).symm, k.verbose.trans (hfl _).symm, (sets v1).2 k.maxmem, (sets v2).2 k.maxmemfrac,
      (sets v3).2 k.maxtime, (sets v4).2 k.logN, (sets v5).2 k.r, (sets v6).2 k.p, by rw [hps]; exact k.pass, k.explicit, k.frac, k.files, k.once⟩
    intro e he
    rcases List.mem_cons.1 he with rfl | he
    · exact .inr ⟨_, _, rfl⟩
    · exact k.known e he

/-! ### Non-vacuity -/

/-- `scrypt enc -fv -p1 -r 8 in` and `scrypt enc -r8 -v -f -v -p 1 -- in` ask for the same. -/
example (sd : Strtod) (q : Spec.Request) :
    Requests sd (2 ^ 64 - 1) (["enc", "-fv", "-p1", "-r", "8", "in"].map String.toList) q ↔
    Requests sd (2 ^ 64 - 1) (["enc", "-r8", "-v", "-f", "-v", "-p", "1", "--", "in"].map String.toList) q := by
  have f : OneOption "-f".toList ["-f".toList] := .flag (c := 'f') (by decide)
  have v : OneOption "-v".toList ["-v".toList] := .flag (c := 'v') (by decide)
  have p : OneOption "-p".toList ["-p".toList, "1".toList] := .arg (by decide)
  have r : OneOption "-r".toList ["-r".toList, "8".toList] := .arg (by decide)
  refine C94_requests (op := .enc) (a := ["-fv", "-p1", "-r", "8", "in"].map String.toList) (b := ["-r8", "-v", "-f", "-v", "-p", "1", "--", "in"].map String.toList) ?_ q
  have s1 : SameOptions (["-fv", "-p1", "-r", "8", "in"].map String.toList) (["-f", "-v", "-p1", "-r", "8", "in"].map String.toList) :=
    .symm (.grouped (c := 'f') (cs := ['v']) (by decide) (by decide) (by decide))
  have s2 : SameOptions (["-f", "-v", "-p1", "-r", "8", "in"].map String.toList) (["-f", "-v", "-p", "1", "-r", "8", "in"].map String.toList) :=
    .after f (.after v (.symm (.joined (c := 'p') (v := ['1']) (by decide) (by decide))))
  have s3 : SameOptions (["-f", "-v", "-p", "1", "-r", "8", "in"].map String.toList) (["-f", "-v", "-r", "8", "-p", "1", "in"].map String.toList) :=
    .after f (.after v (.swap (rest := ["in".toList]) p r (by decide)))
  have s4 : SameOptions (["-f", "-v", "-r", "8", "-p", "1", "in"].map String.toList) (["-f", "-v", "-v", "-r", "8", "-p", "1", "in"].map String.toList) :=
    .after f (.symm (.twice (.inr rfl)))
  have s5 : SameOptions (["-f", "-v", "-v", "-r", "8", "-p", "1", "in"].map String.toList) (["-v", "-f", "-v", "-r", "8", "-p", "1", "in"].map String.toList) :=
    .swap (rest := ["-v", "-r", "8", "-p", "1", "in"].map String.toList) f v (by decide)
  have s6 : SameOptions (["-v", "-f", "-v", "-r", "8", "-p", "1", "in"].map String.toList) (["-v", "-f", "-r", "8", "-v", "-p", "1", "in"].map String.toList) :=
    .after v (.after f (.swap (rest := ["-p", "1", "in"].map String.toList) v r (by decide)))
  have s7 : SameOptions (["-v", "-f", "-r", "8", "-v", "-p", "1", "in"].map String.toList) (["-v", "-r", "8", "-f", "-v", "-p", "1", "in"].map String.toList) :=
    .after v (.swap (rest := ["-v", "-p", "1", "in"].map String.toList) f r (by decide))
  have s8 : SameOptions (["-v", "-r", "8", "-f", "-v", "-p", "1", "in"].map String.toList) (["-r", "8", "-v", "-f", "-v", "-p", "1", "in"].map String.toList) :=
    .swap (rest := ["-f", "-v", "-p", "1", "in"].map String.toList) v r (by decide)
  have s9 : SameOptions (["-r", "8", "-v", "-f", "-v", "-p", "1", "in"].map String.toList) (["-r", "8", "-v", "-f", "-v", "-p", "1", "--", "in"].map String.toList) :=
    .after r (.after v (.after f (.after v (.after p (.ended (.inl (by decide)))))))
  have s10 : SameOptions (["-r", "8", "-v", "-f", "-v", "-p", "1", "--", "in"].map String.toList) (["-r8", "-v", "-f", "-v", "-p", "1", "--", "in"].map String.toList) :=
    .joined (c := 'r') (v := ['8']) (by decide) (by decide)
  exact s1.trans (s2.trans (s3.trans (s4.trans (s5.trans (s6.trans (s7.trans (s8.trans (s9.trans s10))))))))

/-- The example command line, its options in another order and another spelling. -/
example (sd : Strtod) : Requests sd (2 ^ 64 - 1) (["enc", "-f", "-r", "8", "--logN=10", "-p", "1", "--passphrase=env:PW", "in", "out"].map String.toList) exRequest := by
  have f : OneOption "-f".toList ["-f".toList] := .flag (c := 'f') (by decide)
  have l : OneOption "--logN".toList ["--logN".toList, "10".toList] := .arg (by decide)
  have r : OneOption "-r".toList ["-r".toList, "8".toList] := .arg (by decide)
  have s1 : SameOptions exArgs.tail (["-f", "--logN", "10", "-r", "8", "-p", "1", "--passphrase=env:PW", "in", "out"].map String.toList) :=
    .after f (.after l (.symm (.joined (c := 'r') (v := ['8']) (by decide) (by decide))))
  have s2 : SameOptions (["-f", "--logN", "10", "-r", "8", "-p", "1", "--passphrase=env:PW", "in", "out"].map String.toList)
      (["-f", "-r", "8", "--logN", "10", "-p", "1", "--passphrase=env:PW", "in", "out"].map String.toList) :=
    .after f (.swap (rest := ["-p", "1", "--passphrase=env:PW", "in", "out"].map String.toList) l r (by decide))
  have s3 : SameOptions (["-f", "-r", "8", "--logN", "10", "-p", "1", "--passphrase=env:PW", "in", "out"].map String.toList)
      (["-f", "-r", "8", "--logN=10", "-p", "1", "--passphrase=env:PW", "in", "out"].map String.toList) :=
    .after f (.after r (.equals (n := "logN".toList) (by decide)))
  exact (C94_requests (op := .enc) (s1.trans (s2.trans s3)) exRequest).1 (exRequests sd _)

/-- A first `-r 7` in the example command line has no effect. -/
example (sd : Strtod) : Requests sd (2 ^ 64 - 1) ("enc".toList :: "-r".toList :: "7".toList :: exArgs.tail) exRequest :=
  (C94_last (op := .enc) exParses (.inr (.inr (.inr (.inr (.inl ⟨rfl, 7, by decide, by decide, false, 7,
    exNum (.dec rfl (by decide) (by decide)) (by decide), by decide, rfl⟩))))) (by decide) exRequest).2 (exRequests sd _)

end Scrypt.Props
