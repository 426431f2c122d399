import Verif.Spec.Refusal
import Verif.Props.CommandLine
/-
C69: what a refused command line is told.
-/
namespace Scrypt.Props
open Scrypt Spec

/-- One step of the option loop says exactly what is objected to. -/
def Says (sd : Strtod) (szMax : Nat) (pre : List OptEv) (e : OptEv) (r : Except Halt Settings) : Prop :=
  match r with
  | .ok _ => ∀ m, ¬ Objection sd szMax pre e m
  | .error (.exit m) => ∀ m', Objection sd szMax pre e m' ↔ m' = m
  | .error _ => False

/-- The same for the parsing of one argument, `Q` being what is objected to. -/
def Tells {α : Type} (f : Except Halt α) (Q : List MMsg → Prop) : Prop :=
  match f with
  | .ok _ => ∀ m, ¬ Q m
  | .error (.exit m) => ∀ m', Q m' ↔ m' = m
  | .error _ => False

theorem says_num {α : Type} {sd : Strtod} {szMax : Nat} {pre : List OptEv} {e : OptEv} (f : Except Halt α) (g : α → Settings) (Q : List MMsg → Prop)
    (hobj : ∀ m, Objection sd szMax pre e m ↔ Q m)
    (hf : Tells f Q) : Says sd szMax pre e (f.map g) := by
  unfold Says
  cases f with
  | ok x => exact fun m h => hf m ((hobj m).1 h)
  | error h =>
    cases h with
    | exit m => exact fun m' => (hobj m').trans (hf m')
    | ub => exact hf
    | abort => exact hf

theorem num_says {t : IntTy} {o v : CStr} {lo hi : Nat} {los his : CStr} {Val : Nat → Prop} (hlo : fmtD lo = los) (hhi : fmtD hi = his)
    (h1 : (∃ x, PARSENUM_int t v lo hi = .ok x) ↔ ∃ n, Val n) (h2 : PARSENUM_int t v lo hi = .error .EINVAL ↔ ¬ ∃ neg m, Numeral 0 v neg m)
    (h3 : (∃ n, Val n) → ∃ neg m, Numeral 0 v neg m) :
    Tells (optNum t o v lo hi) (BadNumber o los his v Val) := by
  unfold Tells optNum
  cases hp : PARSENUM_int t v lo hi with
  | ok x =>
    have hv := h1.1 ⟨x, hp⟩
    rintro m (⟨a, -⟩ | ⟨-, a, -⟩)
    · exact a (h3 hv)
    · exact a hv
  | error e =>
    have hv : ¬ ∃ n, Val n := by
      rw [← h1]; rintro ⟨x, hx⟩; rw [hp] at hx; cases hx
    cases e with
    | EINVAL =>
      have hn := h2.1 hp
      intro m'
      constructor
      · rintro (⟨-, a⟩ | ⟨a, -, -⟩)
        · exact a
        · exact absurd a hn
      · exact fun a => .inl ⟨hn, a⟩
    | ERANGE =>
      have hn : ∃ neg m, Numeral 0 v neg m := by
        by_contra hc
        have := h2.2 hc
        rw [hp] at this; cases this
      intro m'
      rw [hlo, hhi]
      constructor
      · rintro (⟨a, -⟩ | ⟨-, -, a⟩)
        · exact absurd hn a
        · exact a
      · exact fun a => .inr ⟨hn, hv, a⟩

theorem reads_iff {α : Type} {f : Except Halt α} {Val : α → Prop} (h : Reads' f Val) : (∃ x, f = .ok x) ↔ ∃ x, Val x := by
  rcases h with ⟨x, hx, hv⟩ | ⟨⟨m, -, hm⟩, hv⟩
  · exact ⟨fun _ => ⟨x, hv⟩, fun _ => ⟨x, hx⟩⟩
  · exact ⟨fun ⟨x, hx⟩ => (by rw [hm] at hx; cases hx), fun hx => absurd hx hv⟩

theorem optNum_ok_iff {t : IntTy} {o v : CStr} {lo hi : Nat} : (∃ x, optNum t o v lo hi = .ok x) ↔ ∃ x, PARSENUM_int t v lo hi = .ok x := by
  unfold optNum
  cases PARSENUM_int t v lo hi with
  | ok x => exact ⟨fun _ => ⟨x, rfl⟩, fun _ => ⟨x, rfl⟩⟩
  | error e => cases e <;> exact ⟨fun ⟨x, hx⟩ => (by cases hx), fun ⟨x, hx⟩ => (by cases hx)⟩

theorem says_logN (v : CStr) :
    Tells (optNum tyInt "--logN".toList v 10 40) (BadNumber "--logN".toList "10".toList "40".toList v (LogNText v)) := by
  obtain ⟨-, h2, -⟩ := C31_signed 32 (by decide) (by decide) 10 40 (by decide) (by decide) v
  refine num_says (by decide) (by decide) ?_ h2 (fun ⟨n, hn⟩ => ⟨_, _, hn.1⟩)
  rw [← optNum_ok_iff (o := []), reads_iff (optNum_logN [] v)]
  exact ⟨fun ⟨_, n, _, h⟩ => ⟨n, h⟩, fun ⟨n, h⟩ => ⟨_, n, rfl, h⟩⟩

theorem says_count (o v : CStr) (hi : Nat) (his : CStr) (hh : hi < 2 ^ 32) (hhi : fmtD hi = his) :
    Tells (optNum tyU32 o v 1 hi) (BadNumber o "1".toList his v (CountText hi v)) := by
  obtain ⟨-, h2⟩ := C31_unsigned 32 (by decide) 1 hi (by omega) v
  refine num_says (by decide) hhi ?_ h2 (fun ⟨n, hn⟩ => ?_)
  · rw [← optNum_ok_iff (o := []), reads_iff (optNum_count [] v hi hh)]
    exact ⟨fun ⟨_, n, _, h⟩ => ⟨n, h⟩, fun ⟨n, h⟩ => ⟨_, n, rfl, h⟩⟩
  · obtain ⟨-, -, neg, m, h, -⟩ := hn
    exact ⟨neg, m, h⟩

theorem says_float (sd : Strtod) (o v : CStr) (max : F64) :
    Tells (optFlt sd o v max) (fun m => ((¬ ∃ x, FloatText sd (.fin false 0) max v x) ∧ m = invalidOption o v)) := by
  have h := optFlt_float sd o v max
  rw [Reads'] at h
  unfold Tells
  unfold optFlt at h ⊢
  cases hp : PARSENUM_flt sd v (.fin false 0) max with
  | ok x =>
    rw [hp] at h
    rcases h with ⟨y, -, hy⟩ | ⟨⟨m, -, hm⟩, -⟩
    · exact fun m hm => hm.1 ⟨y, hy⟩
    · cases hm
  | error e =>
    rw [hp] at h
    rcases h with ⟨y, hy, -⟩ | ⟨-, hv⟩
    · cases hy
    · exact fun m' => ⟨fun a => a.2, fun a => ⟨hv, a⟩⟩

theorem says_size {szMax : Nat} (v : CStr) (h0 : '\x00' ∉ v) :
    Tells (optM szMax v) (BadSize szMax v) := by
  obtain ⟨r, hr, hs⟩ := C30_parse v h0
  unfold Tells optM
  rw [hr]
  cases r with
  | none =>
    have hn : ∀ a k, SizeText v a k → ¬ a * 1000 ^ k < 2 ^ 64 := fun a k h1 h2 => by
      have := (hs (a * 1000 ^ k)).2 ⟨a, k, h1, h2, rfl⟩
      cases this
    intro m'
    constructor
    · rintro (⟨-, a⟩ | ⟨⟨a, k, h1, h2, -⟩, -⟩)
      · exact a
      · exact absurd h2 (hn a k h1)
    · exact fun a => .inl ⟨fun ⟨a, k, h1, h2⟩ => hn a k h1 h2, a⟩
  | some x =>
    obtain ⟨a, k, h1, h2, h3⟩ := (hs x).1 rfl
    have hall : ∀ a' k', SizeText v a' k' → a' * 1000 ^ k' < 2 ^ 64 → a' * 1000 ^ k' = x := fun a' k' h1' h2' => by
      have := (hs (a' * 1000 ^ k')).2 ⟨a', k', h1', h2', rfl⟩
      exact (Option.some.inj this).symm
    dsimp only []
    by_cases h : x > szMax
    · rw [if_pos h]
      intro m'
      constructor
      · rintro (⟨b, -⟩ | ⟨-, b⟩)
        · exact absurd ⟨a, k, h1, h2⟩ b
        · exact b
      · exact fun b => .inr ⟨⟨a, k, h1, h2, by omega⟩, b⟩
    · rw [if_neg h]
      rintro m (⟨b, -⟩ | ⟨⟨a', k', h1', h2', h3'⟩, -⟩)
      · exact b ⟨a, k, h1, h2⟩
      · have := hall a' k' h1' h2'
        omega

theorem says_pass {sd : Strtod} {szMax : Nat} {P0 : EncParams} {evs : List OptEv} {s : Settings} (h : Did sd szMax P0 evs s) (e : OptEv) (new : Option CStr)
    (hobj : ∀ m, Objection sd szMax evs e m ↔ (passOptions evs ≠ [] ∧ m = onlyOne) ∨
      (passOptions evs = [] ∧ ∃ v, new = some v ∧ (¬ ∃ e a, Method v e a) ∧ m = complain ("Invalid option: --passphrase ".toList ++ v))) :
    Says sd szMax evs e (optPass s new) := by
  unfold optPass
  by_cases hu : s.entry = .unset
  · have hp : passOptions evs = [] := by
      rcases h.pass with h1 | h1
      · exact h1.1
      · exact absurd hu h1.2.1
    rw [if_neg (not_not.2 hu)]
    cases new with
    | none =>
      intro m hm
      rcases (hobj m).1 hm with ⟨a, -⟩ | ⟨-, v, hv, -⟩
      · exact a hp
      · cases hv
    | some v =>
      dsimp only []
      cases hm : passphrase_entry_parse v with
      | none =>
        intro m'
        rw [hobj]
        constructor
        · rintro (⟨a, -⟩ | ⟨-, w, hw, -, a⟩)
          · exact absurd hp a
          · rw [a, Option.some.inj hw]; rfl
        · intro a
          refine .inr ⟨hp, v, rfl, ?_, a⟩
          rintro ⟨e', a', hM⟩
          rw [(C38_parse _ _ _).2 hM] at hm; cases hm
      | some x =>
        obtain ⟨e', a'⟩ := x
        intro m hm'
        rcases (hobj m).1 hm' with ⟨a, -⟩ | ⟨-, w, hw, hno, -⟩
        · exact a hp
        · rw [← Option.some.inj hw] at hno
          exact hno ⟨e', a', (C38_parse _ _ _).1 hm⟩
  · rw [if_pos hu]
    have hp : passOptions evs ≠ [] := by
      rcases h.pass with h1 | h1
      · exact absurd h1.2 hu
      · exact h1.1
    intro m'
    rw [hobj]
    constructor
    · rintro (⟨-, a⟩ | ⟨a, -⟩)
      · exact a
      · exact absurd a hp
    · exact fun a => .inl ⟨hp, a⟩

theorem says_step {sd : Strtod} {szMax : Nat} {P0 : EncParams} {evs : List OptEv} {s : Settings} (h : Did sd szMax P0 evs s) (e : OptEv)
    (hk : (∀ o, e = .flag o → scryptOptions o = some false) ∧ (∀ o v, e = .arg o v → scryptOptions o = some true ∧ '\x00' ∉ v)) :
    Says sd szMax evs e (optCase sd szMax s (mainTable.seen e)) := by
  cases e with
  | missing o =>
    rw [show mainTable.seen (OptEv.missing o) = SwEv.missing o by simp only [GoTable.seen, mainTable_missing, if_true]]
    exact fun m' => Iff.rfl
  | bad o => exact fun m' => Iff.rfl
  | flag o =>
    rcases flag_cases (hk.1 o rfl) with rfl | rfl | rfl
    · exact fun m hm => absurd hm.1 (by decide)
    · exact fun m hm => absurd hm.1 (by decide)
    · refine says_pass h _ none (fun m => ?_)
      constructor
      · exact fun a => .inl a.2
      · rintro (a | ⟨-, v, hv, -⟩)
        · exact ⟨rfl, a⟩
        · cases hv
  | arg o v =>
    obtain ⟨ho, hv⟩ := hk.2 o v rfl
    rcases arg_cases ho with rfl | rfl | rfl | rfl | rfl | rfl | rfl
    · exact says_num (optNum tyInt "--logN".toList v 10 40) _ _ (fun m => by simp (decide := true) [Objection]) (says_logN v)
    · exact says_num (optM szMax v) _ _ (fun m => by simp (decide := true) [Objection]) (says_size v hv)
    · exact says_num (optFlt sd "-m".toList v (.fin false (1 / 2))) _ _ (fun m => by simp (decide := true) [Objection]) (says_float sd "-m".toList v _)
    · exact says_num (optNum tyU32 "-p".toList v 1 2048) _ _ (fun m => by simp (decide := true) [Objection])
        (says_count "-p".toList v 2048 "2048".toList (by decide) (by decide))
    · exact says_pass h _ (some v) (fun m => by simp (decide := true) [Objection])
    · exact says_num (optNum tyU32 "-r".toList v 1 32) _ _ (fun m => by simp (decide := true) [Objection])
        (says_count "-r".toList v 32 "32".toList (by decide) (by decide))
    · exact says_num (optFlt sd "-t".toList v (.inf false)) _ _ (fun m => by simp (decide := true) [Objection]) (says_float sd "-t".toList v _)

/-- No option of `todo` is objected to, `done` being the options before. -/
def UnobjectedAfter (sd : Strtod) (szMax : Nat) (done todo : List OptEv) : Prop :=
  ∀ a e b, todo = a ++ e :: b → ∀ m, ¬ Objection sd szMax (done ++ a) e m

theorem unobjectedAfter_cons {sd : Strtod} {szMax : Nat} {done todo : List OptEv} {e : OptEv} (h1 : ∀ m, ¬ Objection sd szMax done e m)
    (h2 : UnobjectedAfter sd szMax (done ++ [e]) todo) : UnobjectedAfter sd szMax done (e :: todo) := by
  intro a x b hab m
  cases a with
  | nil =>
    obtain ⟨h3, -⟩ := List.cons.inj hab
    rw [List.append_nil, ← h3]; exact h1 m
  | cons y a =>
    obtain ⟨h3, h4⟩ := List.cons.inj hab
    rw [← h3]
    have := h2 a x b h4 m
    rw [List.append_assoc] at this
    exact this

theorem optLoop_says {sd : Strtod} {szMax : Nat} (hsz : szMax < 2 ^ 64) {P0 : EncParams} :
    ∀ (todo done : List OptEv) (s : Settings), Did sd szMax P0 done s →
      (∀ e ∈ todo, (∀ o, e = .flag o → scryptOptions o = some false) ∧ (∀ o v, e = .arg o v → scryptOptions o = some true ∧ '\x00' ∉ v)) →
      (∃ s', foldBody (optCase sd szMax) s (todo.map mainTable.seen) = .ok s' ∧ Did sd szMax P0 (done ++ todo) s' ∧ UnobjectedAfter sd szMax done todo) ∨
      (∃ m a e b, foldBody (optCase sd szMax) s (todo.map mainTable.seen) = .error (.exit m) ∧ todo = a ++ e :: b ∧ UnobjectedAfter sd szMax done a ∧
        (∀ m', Objection sd szMax (done ++ a) e m' ↔ m' = m) ∧ ¬ Legal sd szMax (done ++ todo)) := by
  intro todo
  induction todo with
  | nil => intro done s h _; rw [List.append_nil]; exact .inl ⟨s, rfl, h, fun a e b hab => by simp at hab⟩
  | cons e es ih =>
    intro done s h hk
    have hsay := says_step h e (hk e List.mem_cons_self)
    have hs : StepOk sd szMax P0 done e (optCase sd szMax s (mainTable.seen e)) := by
      obtain ⟨h1, h2⟩ := hk e List.mem_cons_self
      cases e with
      | flag o => exact step_flag h (h1 o rfl)
      | arg o v => exact step_arg hsz h (h2 o v rfl).1 (h2 o v rfl).2
      | missing o =>
        rw [show mainTable.seen (OptEv.missing o) = SwEv.missing o by simp only [GoTable.seen, mainTable_missing, if_true]]
        refine .inr ⟨⟨_, by simp, rfl⟩, fun hL => ?_⟩
        rcases hL.known (.missing o) (by simp) with ⟨a, ha⟩ | ⟨a, b, ha⟩ <;> cases ha
      | bad o =>
        refine .inr ⟨⟨_, by simp, rfl⟩, fun hL => ?_⟩
        rcases hL.known (.bad o) (by simp) with ⟨a, ha⟩ | ⟨a, b, ha⟩ <;> cases ha
    rw [List.map_cons]
    unfold foldBody
    rcases hs with ⟨s', hs, hd⟩ | ⟨⟨m, hm, hs⟩, hL⟩
    · rw [hs] at hsay ⊢
      rcases ih (done ++ [e]) s' hd (fun x hx => hk x (List.mem_cons_of_mem _ hx)) with ⟨s2, h1, h2, h3⟩ | ⟨m, a, x, b, h1, h0, h3, h4, h5⟩
      · rw [List.append_assoc] at h2
        exact .inl ⟨s2, h1, h2, unobjectedAfter_cons hsay h3⟩
      · rw [List.append_assoc] at h4 h5
        exact .inr ⟨m, e :: a, x, b, h1, by rw [h0]; rfl, unobjectedAfter_cons hsay h3, h4, h5⟩
    · rw [hs] at hsay ⊢
      refine .inr ⟨m, [], e, es, rfl, rfl, fun a e b hab => by simp at hab, ?_, fun h' => hL ?_⟩
      · rw [List.append_nil]
        exact hsay
      · rw [show done ++ e :: es = (done ++ [e]) ++ es by simp] at h'
        exact h'.prefix

/-- Two places where an objection comes first are the same place. -/
theorem first_unique {sd : Strtod} {szMax : Nat} {a b a' b' : List OptEv} {e e' : OptEv} (h : a ++ e :: b = a' ++ e' :: b') {m m' : List MMsg}
    (hu : Unobjected sd szMax a) (ho : Objection sd szMax a e m) (hu' : Unobjected sd szMax a') (ho' : Objection sd szMax a' e' m') : a = a' ∧ e = e' := by
  rcases List.append_eq_append_iff.1 h with ⟨c, h1, h2⟩ | ⟨c, h1, h2⟩
  · cases c with
    | nil => rw [List.append_nil] at h1; exact ⟨h1.symm, (List.cons.inj h2).1⟩
    | cons x c =>
      obtain ⟨rfl, h2⟩ := List.cons.inj h2
      exact absurd ho (hu' a e c h1 m)
  · cases c with
    | nil => rw [List.append_nil] at h1; exact ⟨h1, (List.cons.inj h2).1.symm⟩
    | cons x c =>
      obtain ⟨rfl, h2⟩ := List.cons.inj h2
      exact absurd ho' (hu a' e' c h1 m')

/-! ### After the options -/

theorem sets_given {o : CStr} {evs : List OptEv} {V : CStr → Nat → Prop} {x : Nat} (h : Sets o evs V 0 x) (hV : ∀ v y, V v y → 1 ≤ y) : x ≠ 0 ↔ Given evs o := by
  obtain ⟨-, h⟩ := h
  unfold Given
  cases hl : (valuesOf o evs).getLast? with
  | none =>
    rw [hl] at h
    rw [List.getLast?_eq_none_iff] at hl
    simp only [] at h
    rw [h, hl]
    exact ⟨fun h => absurd rfl h, fun h => absurd rfl h⟩
  | some v =>
    rw [hl] at h
    have h1 := hV v x h
    refine ⟨fun _ hc => ?_, fun _ => by omega⟩
    rw [hc] at hl
    cases hl

theorem firstOf_all {α : Type} {l : List (Prop × α)} (h : ∀ m, ¬ FirstOf l m) : ∀ x ∈ l, x.1 := by
  induction l with
  | nil => simp
  | cons y l ih =>
    obtain ⟨ok, m⟩ := y
    have hy : ok := by
      by_contra hc
      exact h m (.inl ⟨hc, rfl⟩)
    intro x hx
    rcases List.mem_cons.1 hx with rfl | hx
    · exact hy
    · exact ih (fun m' hm => h m' (.inr ⟨hy, hm⟩)) x hx

theorem viol_iff {a b c A B C : Prop} (ga : ¬ a ↔ A) (gb : ¬ b ↔ B) (gc : ¬ c ↔ C) : (¬ a ∧ (b ∨ c)) ↔ ¬ (A → B ∧ C) := by
  tauto

theorem all_or_none {a b c A B C : Prop} (ga : ¬ a ↔ A) (gb : ¬ b ↔ B) (gc : ¬ c ↔ C) (h1 : A → B ∧ C) (h2 : B → A ∧ C) (h3 : C → A ∧ B) :
    (a ∧ b ∧ c) ∨ (¬ a ∧ ¬ b ∧ ¬ c) := by
  tauto

theorem given_all {a b c A B C : Prop} (ga : ¬ a ↔ A) (gb : ¬ b ↔ B) (gc : ¬ c ↔ C) (h : (a ∧ b ∧ c) ∨ (¬ a ∧ ¬ b ∧ ¬ c)) :
    (A → B ∧ C) ∧ (B → A ∧ C) ∧ (C → A ∧ B) := by
  tauto

theorem explicitMsg_given {sd : Strtod} {szMax : Nat} {P0 : EncParams} {evs : List OptEv} {s : Settings} (h : Did sd szMax P0 evs s) :
    (s.P.logN ≠ 0 ↔ Given evs "--logN".toList) ∧ (s.P.r ≠ 0 ↔ Given evs "-r".toList) ∧ (s.P.p ≠ 0 ↔ Given evs "-p".toList) := by
  have t0 : ∀ b : W32, b = 0 ↔ b.toNat = 0 := fun b => ⟨fun h => by rw [h]; rfl, fun h => BitVec.eq_of_toNat_eq (by rw [h]; rfl)⟩
  obtain ⟨n, m4, hn⟩ := h.logN
  refine ⟨?_, ?_, ?_⟩
  · rw [← sets_given hn (fun v y hy => by have := hy.2.1; omega), m4]; simp
  · rw [← sets_given h.r (fun v y hy => hy.1), Ne, t0]
  · rw [← sets_given h.p (fun v y hy => hy.1), Ne, t0]

theorem isZero_given {sd : Strtod} {szMax : Nat} {P0 : EncParams} {evs : List OptEv} {s : Settings} (h : Did sd szMax P0 evs s) {op : Operation}
    (h1 : P0.maxmemfrac = op.frac) :
    s.P.maxmemfrac.isZero = true ↔ ∃ v sg, (valuesOf "-m".toList evs).getLast? = some v ∧ sd v = (.fin sg 0, v.length, false) := by
  obtain ⟨-, hm⟩ := h.maxmemfrac
  rw [isZero_iff]
  cases hl : (valuesOf "-m".toList evs).getLast? with
  | none =>
    rw [hl, h1] at hm
    simp only [] at hm
    rw [hm]
    constructor
    · rintro ⟨sg, hs⟩
      cases op <;> (unfold Operation.frac at hs; injection hs with _ hs; norm_num at hs)
    · rintro ⟨v, sg, hv, -⟩
      cases hv
  | some v =>
    rw [hl] at hm
    obtain ⟨-, hm, -⟩ := hm
    constructor
    · rintro ⟨sg, hs⟩
      exact ⟨v, sg, rfl, by rw [hm, hs]⟩
    · rintro ⟨w, sg, hw, hsd⟩
      rw [← Option.some.inj hw, hm] at hsd
      exact ⟨sg, (Prod.mk.inj hsd).1⟩

theorem stdin_given {sd : Strtod} {szMax : Nat} {P0 : EncParams} {evs : List OptEv} {s : Settings} (h : Did sd szMax P0 evs s) :
    (if s.entry = .unset then { s with entry := .ttyStdin, arg := [] } else s).entry = .stdinOnce ↔ ∃ a, PassChoice (passOptions evs) .stdinOnce a := by
  rcases h.pass with ⟨p1, p2⟩ | ⟨p1, p2, p3⟩
  · rw [if_pos p2, p1]
    constructor
    · intro hc; cases hc
    · rintro ⟨a, ha⟩
      cases ha
  · rw [if_neg p2]
    constructor
    · intro hc; rw [hc] at p3; exact ⟨_, p3⟩
    · rintro ⟨a, ha⟩
      exact (passChoice_unique p3 ha).1

theorem afterOptions_says {env : MainEnv} {op : Operation} {evs : List OptEv} {ops : List CStr} {s : Settings} {P0 : EncParams}
    (h : Did env.sd env.sys.par.szMax P0 evs s) (h1 : P0.maxmemfrac = op.frac) (dec info : Bool) {m : List MMsg} (hm : FirstOf (lastChecks env.sd evs ops) m) :
    afterOptions env dec info s ops = .ok (some (dieWith m)) := by
  obtain ⟨g1, g2, g3⟩ := explicitMsg_given h
  have gz := isZero_given h h1
  have gs := stdin_given h
  unfold afterOptions
  rcases hm with ⟨c, rfl⟩ | ⟨c, hm⟩
  · cases ops with
    | nil => rfl
    | cons i rest => exact if_pos (show rest.length > 1 by simp at c; rcases rest with _ | ⟨_, _ | _⟩ <;> simp at c ⊢)
  obtain ⟨i, rest, rfl, hr⟩ : ∃ i rest, ops = i :: rest ∧ ¬ rest.length > 1 := by
    cases ops with
    | nil => simp at c
    | cons i rest => exact ⟨i, rest, rfl, by simp at c; rcases c with c | c <;> simp [c]⟩
  dsimp only []
  rw [if_neg hr]
  unfold explicitMsg
  rcases hm with ⟨c1, rfl⟩ | ⟨c1, hm⟩
  · rw [if_pos (show s.P.logN ≠ 0 ∧ (s.P.r = 0 ∨ s.P.p = 0) from (viol_iff g1 g2 g3).2 c1)]; rfl
  rw [if_neg (show ¬ (s.P.logN ≠ 0 ∧ (s.P.r = 0 ∨ s.P.p = 0)) from fun hc => (viol_iff g1 g2 g3).1 hc c1)]
  rcases hm with ⟨c2, rfl⟩ | ⟨c2, hm⟩
  · rw [if_pos (show s.P.r ≠ 0 ∧ (s.P.logN = 0 ∨ s.P.p = 0) from (viol_iff g2 g1 g3).2 c2)]; rfl
  rw [if_neg (show ¬ (s.P.r ≠ 0 ∧ (s.P.logN = 0 ∨ s.P.p = 0)) from fun hc => (viol_iff g2 g1 g3).1 hc c2)]
  rcases hm with ⟨c3, rfl⟩ | ⟨c3, hm⟩
  · rw [if_pos (show s.P.p ≠ 0 ∧ (s.P.logN = 0 ∨ s.P.r = 0) from (viol_iff g3 g1 g2).2 c3)]; rfl
  rw [if_neg (show ¬ (s.P.p ≠ 0 ∧ (s.P.logN = 0 ∨ s.P.r = 0)) from fun hc => (viol_iff g3 g1 g2).1 hc c3)]
  dsimp only []
  rcases hm with ⟨c4, rfl⟩ | ⟨c4, hm⟩
  · rw [if_pos (gz.2 (not_not.1 c4))]; rfl
  rw [if_neg (fun hc => c4 (gz.1 hc))]
  rcases hm with ⟨c5, rfl⟩ | ⟨-, hm⟩
  · obtain ⟨c5, c6⟩ := not_not.1 c5
    have c6 : i = "-".toList := Option.some.inj c6
    unfold dispatch
    rw [if_pos ⟨gs.2 c5, if_pos c6⟩]; rfl
  · exact absurd hm id

theorem asks_of_lastChecks {sd : Strtod} {szMax : Nat} {op : Operation} {evs : List OptEv} {ops : List CStr} {s : Settings} {P0 : EncParams}
    (h : Did sd szMax P0 evs s) (h0 : P0.maxmem = 0) (h1 : P0.maxmemfrac = op.frac) (h2 : P0.maxtime = op.time)
    (hno : ∀ m, ¬ FirstOf (lastChecks sd evs ops) m) : ∃ q, q.op = op ∧ Asks sd szMax evs ops q := by
  have hall := firstOf_all hno
  unfold lastChecks at hall
  simp only [List.forall_mem_cons] at hall
  obtain ⟨c, c1, c2, c3, c4, c5, -⟩ := hall
  obtain ⟨g1, g2, g3⟩ := explicitMsg_given h
  have gz := isZero_given h h1
  have gs := stdin_given h
  obtain ⟨i, rest, rfl, hr⟩ : ∃ i rest, ops = i :: rest ∧ ¬ rest.length > 1 := by
    cases ops with
    | nil => simp at c
    | cons i rest => exact ⟨i, rest, rfl, by simp at c; rcases c with c | c <;> simp [c]⟩
  refine asks_of_checks h h0 h1 h2 hr ?_ (fun hc => c4 (gz.1 hc)) (fun ⟨ha, hb⟩ => c5 ⟨gs.1 ha, ?_⟩)
  · rw [explicitMsg_none]
    exact all_or_none g1 g2 g3 c1 c2 c3
  · by_cases hi : i = "-".toList
    · rw [hi]; rfl
    · rw [if_neg hi] at hb; cases hb

/-! ### The theorems -/

/-- What the option loop of a command line comes to. -/
theorem withMode_says {env : MainEnv} (hmal : env.mallocOk = true) (hsz : env.sys.par.szMax < 2 ^ 64) {name : CStr} {rest : List CStr}
    (hz : NoNul (name :: rest)) (op : Operation) :
    ∃ evs ops, Parses scryptOptions [] rest evs ops ∧
      ((∃ m a e b, withMode env (op = .dec) (op = .info) (defaults op) (name :: rest) = .ok (some (dieWith m)) ∧ evs = a ++ e :: b ∧
          Unobjected env.sd env.sys.par.szMax a ∧ (∀ m', Objection env.sd env.sys.par.szMax a e m' ↔ m' = m) ∧ ¬ Legal env.sd env.sys.par.szMax evs) ∨
       (∃ s, Did env.sd env.sys.par.szMax (defaults op) evs s ∧ Unobjected env.sd env.sys.par.szMax evs ∧
          withMode env (op = .dec) (op = .info) (defaults op) (name :: rest) = afterOptions env (op = .dec) (op = .info) s ops)) := by
  obtain ⟨evs, ops, hP, hloop⟩ := getopt_fresh mainTable_wf (argv := name :: rest) (by simp) hz (st := goInitial) rfl
  rw [mainTable_kind, List.tail_cons] at hP
  refine ⟨evs, ops, hP, ?_⟩
  have hlen : evs.length + 2 ≤ ((name :: rest).map (·.length + 1)).sum + 2 := by
    have := parses_length hP
    simp only [List.map_cons, List.sum_cons, List.length_nil] at this ⊢
    omega
  obtain ⟨st', hl, hok⟩ := hloop _ _ (optCase env.sd env.sys.par.szMax) ⟨false, false, defaults op, .unset, []⟩ _ hlen
  have hk : ∀ e ∈ evs, (∀ o, e = .flag o → scryptOptions o = some false) ∧ (∀ o v, e = .arg o v → scryptOptions o = some true ∧ '\x00' ∉ v) := by
    intro e he
    obtain ⟨k1, k2⟩ := parses_known hP e he
    refine ⟨k1, fun o v h => ⟨k2 o v h, ?_⟩⟩
    exact parses_nonul hP (by simp) (fun a ha => hz a (List.mem_cons_of_mem _ ha)) o v (h ▸ he)
  have hspec := optLoop_says hsz evs [] _ (did_nil env.sd env.sys.par.szMax (defaults op) ⟨rfl, rfl, rfl⟩) hk
  rw [List.nil_append] at hspec
  unfold withMode
  rw [hmal, hl, Res.bind_ok]
  rcases hspec with ⟨s, hs, hd, hu⟩ | ⟨m, a, e, b, hs, hab, hu, ho, hL⟩
  · rw [hs] at hok ⊢
    obtain ⟨hdrop, -⟩ := hok rfl
    simp only []
    rw [hdrop]
    exact .inr ⟨s, hd, hu, rfl⟩
  · rw [hs]
    exact .inl ⟨m, a, e, b, rfl, hab, hu, ho, hL⟩

/-- **C69.**  A command line that is refused for a reason is told exactly that reason - the first objectionable option, or, if there is none, the
first of the final checks that fails - and ends with exit code 1 having touched nothing. -/
theorem C69_told (env : MainEnv) (hmal : env.mallocOk = true) (hsz : env.sys.par.szMax < 2 ^ 64) (a0 : CStr) (op : Operation) (rest : List CStr)
    (hz : NoNul rest) {m : List MMsg} (hm : Refusal env.sd env.sys.par.szMax rest m) :
    scryptMain env (a0 :: op.name :: rest) = .ok (some ⟨1, m, [], [], []⟩) := by
  have hz' : NoNul (op.name :: rest) := by
    intro a ha
    rcases List.mem_cons.1 ha with rfl | ha
    · cases op <;> decide
    · exact hz a ha
  rw [main_op]
  obtain ⟨evs, ops, hP, hw⟩ := withMode_says hmal hsz hz' op
  obtain ⟨evs', ops', hP', hr⟩ := hm
  obtain ⟨rfl, rfl⟩ := parses_unique scryptOptions (fun n b => scryptOptions_long) hP hP'
  rcases hw with ⟨m1, a, e, b, hw, hab, hu, ho, -⟩ | ⟨s, hd, hu, hw⟩
  · rcases hr with ⟨a', e', b', hab', hu', ho'⟩ | ⟨hu', -⟩
    · obtain ⟨rfl, rfl⟩ := first_unique (hab.symm.trans hab') hu ((ho m1).2 rfl) hu' ho'
      rw [hw, (ho m).1 ho']; rfl
    · exact absurd ((ho m1).2 rfl) (hu' a e b hab m1)
  · rcases hr with ⟨a', e', b', hab', hu', ho'⟩ | ⟨-, hf⟩
    · exact absurd ho' (hu a' e' b' hab' m)
    · rw [hw, afterOptions_says hd rfl _ _ hf]; rfl

theorem asks_passes {sd : Strtod} {szMax : Nat} {evs : List OptEv} {ops : List CStr} {q : Request} (hq : Asks sd szMax evs ops q) {m : List MMsg} :
    ¬ FirstOf (lastChecks sd evs ops) m := by
  obtain ⟨e1, e2, e3⟩ := given_all (sets_given hq.logN (fun v y hy => by have := hy.2.1; omega)) (sets_given hq.r (fun v y hy => hy.1))
    (sets_given hq.p (fun v y hy => hy.1)) hq.explicit
  obtain ⟨i, hi, hin⟩ := hq.files
  rintro (⟨c, -⟩ | ⟨-, ⟨c, -⟩ | ⟨-, ⟨c, -⟩ | ⟨-, ⟨c, -⟩ | ⟨-, ⟨c, -⟩ | ⟨-, ⟨c, -⟩ | ⟨-, c⟩⟩⟩⟩⟩⟩)
  · rcases hi with ⟨h1, -⟩ | ⟨o, h1, -⟩
    · exact c (.inl (by rw [h1]; rfl))
    · exact c (.inr (by rw [h1]; rfl))
  · exact c e1
  · exact c e2
  · exact c e3
  · obtain ⟨v, sg, hv, hsd⟩ := not_not.1 c
    obtain ⟨-, hm⟩ := hq.maxmemfrac
    rw [hv] at hm
    have h1 := hm.2.1.symm.trans hsd
    exact hq.frac sg (Prod.mk.inj h1).1
  · obtain ⟨⟨a, ha⟩, ho⟩ := not_not.1 c
    have h1 : i = "-".toList := by
      rcases hi with ⟨h1, -⟩ | ⟨o, h1, -⟩ <;> (rw [h1] at ho; exact Option.some.inj ho)
    exact hq.once ⟨(passChoice_unique hq.pass ha).1, by rw [hin, if_pos h1]⟩
  · exact c

/-- **C69.**  Every command line that names an operation either asks for something (C33) or is refused for a reason, never both, and the reason is
unique. -/
theorem C69_reason (env : MainEnv) (hmal : env.mallocOk = true) (hsz : env.sys.par.szMax < 2 ^ 64) (op : Operation) (rest : List CStr) (hz : NoNul rest) :
    ((∃ m, Refusal env.sd env.sys.par.szMax rest m) ↔ ¬ ∃ q, q.op = op ∧ Requests env.sd env.sys.par.szMax (op.name :: rest) q) ∧
    ∀ m m', Refusal env.sd env.sys.par.szMax rest m → Refusal env.sd env.sys.par.szMax rest m' → m = m' := by
  refine ⟨?_, fun m m' h h' => ?_⟩
  · have hz' : NoNul (op.name :: rest) := by
      intro a ha
      rcases List.mem_cons.1 ha with rfl | ha
      · cases op <;> decide
      · exact hz a ha
    obtain ⟨evs, ops, hP, hw⟩ := withMode_says hmal hsz hz' op
    have huniq : ∀ {evs' ops'}, Parses scryptOptions [] rest evs' ops' → evs' = evs ∧ ops' = ops := fun hP' =>
      parses_unique scryptOptions (fun n b => scryptOptions_long) hP' hP
    constructor
    · rintro ⟨m, evs', ops', hP', hr⟩ ⟨q, -, rest', evs2, ops2, hre, hP2, hA⟩
      rw [← (List.cons.inj hre).2] at hP2
      obtain ⟨rfl, rfl⟩ := huniq hP'
      obtain ⟨rfl, rfl⟩ := huniq hP2
      rcases hw with ⟨m1, a, e, b, -, hab, hu, ho, hL⟩ | ⟨s, hd, hu, -⟩
      · exact hL (asks_legal hA)
      · rcases hr with ⟨a', e', b', hab', hu', ho'⟩ | ⟨-, hf⟩
        · exact hu a' e' b' hab' m ho'
        · exact asks_passes hA hf
    · intro hno
      rcases hw with ⟨m1, a, e, b, -, hab, hu, ho, -⟩ | ⟨s, hd, hu, -⟩
      · exact ⟨m1, evs, ops, hP, .inl ⟨a, e, b, hab, hu, (ho m1).2 rfl⟩⟩
      · by_contra hc
        obtain ⟨q, hq, hA⟩ := asks_of_lastChecks hd rfl rfl rfl (fun m hm => hc ⟨m, evs, ops, hP, .inr ⟨hu, hm⟩⟩)
        exact hno ⟨q, hq, rest, evs, ops, by rw [hq], hP, hA⟩
  · have h1 := C69_told env hmal hsz [] op rest hz h
    rw [C69_told env hmal hsz [] op rest hz h'] at h1
    exact (MainOut.mk.inj (Option.some.inj (Res.ok.inj h1))).2.1.symm

/-- **C69.**  A command line that names no operation gets the usage message, after a complaint if there is a first argument. -/
theorem C69_no_operation (env : MainEnv) (a0 : CStr) :
    scryptMain env [a0] = .ok (some ⟨1, [.usage], [], [], []⟩) ∧
    ∀ a rest, (∀ op : Operation, a ≠ op.name) → a ≠ "--version".toList →
      scryptMain env (a0 :: a :: rest) = .ok (some ⟨1, complain "First argument must be 'enc', 'dec', or 'info'.".toList ++ [.usage], [], [], []⟩) := by
  refine ⟨rfl, fun a rest h hv => ?_⟩
  unfold scryptMain
  dsimp only []
  rw [if_neg (show ¬ a = "enc".toList from h .enc), if_neg (show ¬ a = "dec".toList from h .dec), if_neg (show ¬ a = "info".toList from h .info), if_neg hv]
  rfl

/-! ### Examples -/

/-- `-v -p 0 …`: the number is out of range. -/
theorem exRefused : Refusal (fun _ => (.nan, 0, false)) (2 ^ 64 - 1) ["-v".toList, "-p".toList, "0".toList, "-x".toList]
    (complain "-p must be between 1 and 2048 (inclusive)".toList) := by
  refine ⟨[.flag "-v".toList, .arg "-p".toList "0".toList, .bad "-x".toList], [],
    .group (by decide) (.shortFlag (by decide) (.group (by decide) (.shortArg (by decide) (.group (by decide) (.shortBad (by decide) .done))))), .inl
    ⟨[.flag "-v".toList], _, _, rfl, ?_, ?_⟩⟩
  · intro a e b hab m ho
    cases a with
    | nil =>
      obtain ⟨h1, -⟩ := List.cons.inj hab
      rw [← h1] at ho
      exact absurd ho.1 (by decide)
    | cons x a => simp at hab
  · have hn : Numeral 0 "0".toList false 0 := ⟨[], [], "0".toList, 8, "0".toList, rfl, by decide, .inl ⟨rfl, rfl⟩, .oct rfl (by decide), by decide⟩
    refine .inr (.inr (.inr (.inl ⟨rfl, .inr ⟨⟨false, 0, hn⟩, ?_, rfl⟩⟩)))
    rintro ⟨n, h1, -, neg, m, hm, -, h2⟩
    obtain ⟨rfl, rfl⟩ := numeral_unique hn hm
    rw [h2] at h1
    exact absurd h1 (by decide)

/-- Two operands too many. -/
theorem exRefused2 : Refusal (fun _ => (.nan, 0, false)) (2 ^ 64 - 1) ["a".toList, "b".toList, "c".toList] [.usage] :=
  ⟨[], _, .operand (by decide), .inr ⟨fun a e b hab => by simp at hab, .inl ⟨by decide, rfl⟩⟩⟩

end Scrypt.Props
