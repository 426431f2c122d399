import Verif.Proofs.MainOpts
/-
C33: which command lines lead to an operation, and with which settings.
-/
namespace Scrypt.Props
open Scrypt Spec

/-- The parameters of a request, as passed to the library. -/
def _root_.Scrypt.Spec.Request.params (q : Request) : EncParams := ⟨q.maxmem, q.maxmemfrac, q.maxtime, q.logN, BitVec.ofNat 32 q.r, BitVec.ofNat 32 q.p⟩

/-- The operation asked for, ending in exit 0 or exit 1. -/
def perform (env : MainEnv) (q : Request) : Res (Option MainOut) :=
  match q.op with
  | .info => finish (scrypt_mode_info env q.infile)
  | .enc => finish (scrypt_mode_enc_dec env q.params q.method q.methodArg false q.verbose q.force q.infile q.outfile)
  | .dec => finish (scrypt_mode_enc_dec env q.params q.method q.methodArg true q.verbose q.force q.infile q.outfile)

/-! ### A command line asks for at most one thing -/

theorem logNText_unique {v : CStr} {a b : Nat} (h : LogNText v a) (h' : LogNText v b) : a = b := (numeral_unique h.1 h'.1).2

theorem countText_unique {hi : Nat} {v : CStr} {a b : Nat} (h : CountText hi v a) (h' : CountText hi v b) : a = b := by
  obtain ⟨-, -, n, m, h1, -, rfl⟩ := h
  obtain ⟨-, -, n', m', h1', -, rfl⟩ := h'
  obtain ⟨rfl, rfl⟩ := numeral_unique h1 h1'
  rfl

theorem floatText_unique {sd : Strtod} {lo hi : F64} {v : CStr} {a b : F64} (h : FloatText sd lo hi v a) (h' : FloatText sd lo hi v b) : a = b := by
  have := h.2.1.symm.trans h'.2.1
  cases this
  rfl

theorem sizeText_nonul {v : CStr} {n k : Nat} (h : SizeText v n k) : '\x00' ∉ v := by
  obtain ⟨ds, sp, pf, b, rfl, -, hd, -, hs, hp, hb⟩ := h
  intro h0
  simp only [List.mem_append] at h0
  rcases h0 with ((h0 | h0) | h0) | h0
  · have := (hd _ h0).1; revert this; decide
  · rcases hs with rfl | rfl
    · simp at h0
    · simp at h0
  · rcases hp with ⟨rfl, -⟩ | ⟨h1, h2, rfl⟩
    · simp at h0
    · have : k = 1 ∨ k = 2 ∨ k = 3 ∨ k = 4 ∨ k = 5 ∨ k = 6 := by omega
      rw [List.mem_singleton] at h0
      rcases this with rfl | rfl | rfl | rfl | rfl | rfl <;> exact absurd h0 (by decide)
  · rcases hb with rfl | rfl
    · simp at h0
    · simp at h0

theorem memText_unique {szMax : Nat} (hsz : szMax < 2 ^ 64) {v : CStr} {a b : Nat} (h : MemText szMax v a) (h' : MemText szMax v b) : a = b := by
  obtain ⟨n, k, h1, h2, h3⟩ := h
  obtain ⟨n', k', h1', h2', h3'⟩ := h'
  obtain ⟨r, -, hr⟩ := C30_parse v (sizeText_nonul h1)
  have e1 := (hr a).2 ⟨n, k, h1, by omega, h2⟩
  have e2 := (hr b).2 ⟨n', k', h1', by omega, h2'⟩
  rw [e1] at e2
  cases e2
  rfl

theorem passChoice_unique {l : List (Option CStr)} {m m' : PassEntry} {a a' : CStr} (h : PassChoice l m a) (h' : PassChoice l m' a') : m = m' ∧ a = a' := by
  cases h with
  | dflt => cases h'; exact ⟨rfl, rfl⟩
  | stdin => cases h'; exact ⟨rfl, rfl⟩
  | method h1 =>
    cases h' with
    | method h2 =>
      have := ((C38_parse _ _ _).2 h1).symm.trans ((C38_parse _ _ _).2 h2)
      cases this
      exact ⟨rfl, rfl⟩

theorem asks_legal {sd : Strtod} {szMax : Nat} {evs : List OptEv} {ops : List CStr} {q : Request} (h : Asks sd szMax evs ops q) : Legal sd szMax evs :=
  ⟨h.known, h.maxmem.1, h.maxmemfrac.1, h.maxtime.1, h.logN.1, h.r.1, h.p.1, _, _, h.pass⟩

/-- The settings that a request comes from. -/
structure Matches (s : Settings) (q : Request) : Prop where
  force : s.force = q.force
  verbose : s.verbose = q.verbose
  P : s.P = q.params
  entry : (if s.entry = .unset then .ttyStdin else s.entry) = q.method
  arg : (if s.entry = .unset then [] else s.arg) = q.methodArg

theorem countText_lt {hi : Nat} {v : CStr} {a : Nat} (h : CountText hi v a) : a ≤ hi := h.2.1

theorem sets_bound {o : CStr} {evs : List OptEv} {V : CStr → Nat → Prop} {x hi : Nat} (h : Sets o evs V 0 x) (hV : ∀ v y, V v y → y ≤ hi) : x ≤ hi := by
  obtain ⟨-, h⟩ := h
  cases hl : (valuesOf o evs).getLast? with
  | none => rw [hl] at h; simp only [] at h; omega
  | some v => rw [hl] at h; exact hV v x h

theorem did_matches {sd : Strtod} {szMax : Nat} (hsz : szMax < 2 ^ 64) {P0 : EncParams} {evs : List OptEv} {ops : List CStr} {s : Settings} {q : Request}
    (h : Did sd szMax P0 evs s) (hq : Asks sd szMax evs ops q) (h0 : P0.maxmem = 0) (h1 : P0.maxmemfrac = q.op.frac) (h2 : P0.maxtime = q.op.time) :
    Matches s q := by
  have e1 : s.force = q.force := by rw [Bool.eq_iff_iff, h.force, hq.force]
  have e2 : s.verbose = q.verbose := by rw [Bool.eq_iff_iff, h.verbose, hq.verbose]
  have m1 := sets_unique (V := MemText _) (fun v _ a b => memText_unique hsz) (by have := h.maxmem; rwa [h0] at this) hq.maxmem
  have m2 := sets_unique (V := FloatText _ _ _) (fun v _ a b => floatText_unique) (by have := h.maxmemfrac; rwa [h1] at this) hq.maxmemfrac
  have m3 := sets_unique (V := FloatText _ _ _) (fun v _ a b => floatText_unique) (by have := h.maxtime; rwa [h2] at this) hq.maxtime
  obtain ⟨n, m4, hn⟩ := h.logN
  have m5 := sets_unique (V := LogNText) (fun v _ a b => logNText_unique) hn hq.logN
  have m6 := sets_unique (V := CountText _) (fun v _ a b => countText_unique) h.r hq.r
  have m7 := sets_unique (V := CountText _) (fun v _ a b => countText_unique) h.p hq.p
  have hP : s.P = q.params := by
    have b1 := sets_bound hq.r (fun v y => countText_lt)
    have b2 := sets_bound hq.p (fun v y => countText_lt)
    unfold Request.params
    rcases hs : s.P with ⟨a, b, c, d, e, f⟩
    rw [hs] at m1 m2 m3 m4 m6 m7
    simp only at m1 m2 m3 m4 m6 m7
    rw [m1, m2, m3, m4, m5, ← m6, ← m7]
    simp
  rcases h.pass with ⟨p1, p2⟩ | ⟨p1, p2, p3⟩
  · have := hq.pass
    rw [p1] at this
    have := passChoice_unique .dflt this
    exact ⟨e1, e2, hP, by rw [if_pos p2]; exact this.1, by rw [if_pos p2]; exact this.2⟩
  · have := passChoice_unique p3 hq.pass
    exact ⟨e1, e2, hP, by rw [if_neg p2]; exact this.1, by rw [if_neg p2]; exact this.2⟩

theorem isZero_iff (x : F64) : x.isZero = true ↔ ∃ s, x = .fin s 0 := by
  cases x with
  | nan => simp [F64.isZero]
  | inf _ => simp [F64.isZero]
  | fin s m => simp [F64.isZero]

theorem ofNat_zero_iff {n : Nat} (h : n < 2 ^ 32) : BitVec.ofNat 32 n = 0 ↔ n = 0 := by
  constructor
  · intro h0
    have := congrArg BitVec.toNat h0
    rw [BitVec.toNat_ofNat, Nat.mod_eq_of_lt h] at this
    simpa using this
  · rintro rfl; rfl

theorem explicit_none {α : Type} {a b c : Prop} [Decidable a] [Decidable b] [Decidable c] (t u v : α) :
    (if ¬ a ∧ (b ∨ c) then some t else if ¬ b ∧ (a ∨ c) then some u else if ¬ c ∧ (a ∨ b) then some v else none) = none ↔
      (a ∧ b ∧ c) ∨ (¬ a ∧ ¬ b ∧ ¬ c) := by
  by_cases h1 : a <;> by_cases h2 : b <;> by_cases h3 : c <;> simp [h1, h2, h3]

theorem explicitMsg_none {P : EncParams} : explicitMsg P = none ↔ (P.logN = 0 ∧ P.r = 0 ∧ P.p = 0) ∨ (P.logN ≠ 0 ∧ P.r ≠ 0 ∧ P.p ≠ 0) := by
  unfold explicitMsg
  exact explicit_none _ _ _

/-- What the options lead to. -/
theorem afterOptions_asked {env : MainEnv} {evs : List OptEv} {ops : List CStr} {s : Settings} {q : Request}
    (hm : Matches s q) (hq : Asks env.sd env.sys.par.szMax evs ops q) :
    afterOptions env (q.op = .dec) (q.op = .info) s ops = perform env q := by
  obtain ⟨i, hi, hin⟩ := hq.files
  have b1 := sets_bound hq.r (fun v y => countText_lt)
  have b2 := sets_bound hq.p (fun v y => countText_lt)
  have hx : explicitMsg s.P = none := by
    rw [explicitMsg_none, hm.P]
    unfold Request.params
    simp only []
    rcases hq.explicit with ⟨x, y, z⟩ | ⟨x, y, z⟩
    · left; exact ⟨by simp [x], by simp [y], by simp [z]⟩
    · right; exact ⟨by simpa using x, by rw [Ne, ofNat_zero_iff (by omega)]; exact y, by rw [Ne, ofNat_zero_iff (by omega)]; exact z⟩
  have hz : s.P.maxmemfrac.isZero = false := by
    rw [Bool.eq_false_iff]; intro h
    obtain ⟨sg, h⟩ := (isZero_iff _).1 h
    rw [hm.P] at h
    exact hq.frac sg h
  have main : ∀ rest, ops = i :: rest → rest.length ≤ 1 → rest.head? = q.outfile → afterOptions env (q.op = .dec) (q.op = .info) s ops = perform env q := by
    intro rest hr hl ho
    rw [hr]
    unfold afterOptions
    simp only []
    rw [if_neg (by omega), hx]
    simp only []
    rw [if_neg (by simp [hz]), ← hin, ho]
    generalize hs' : (if s.entry = .unset then { s with entry := .ttyStdin, arg := [] } else s) = s'
    have f1 : s'.entry = q.method := by rw [← hm.entry, ← hs']; split <;> rfl
    have f2 : s'.arg = q.methodArg := by rw [← hm.arg, ← hs']; split <;> rfl
    have f3 : s'.P = q.params := by rw [← hm.P, ← hs']; split <;> rfl
    have f4 : s'.force = q.force := by rw [← hm.force, ← hs']; split <;> rfl
    have f5 : s'.verbose = q.verbose := by rw [← hm.verbose, ← hs']; split <;> rfl
    unfold dispatch perform
    rw [if_neg (by rw [f1]; exact hq.once), f1, f2, f3, f4, f5]
    cases q.op <;> rfl
  rcases hi with ⟨h1, h2⟩ | ⟨o, h1, h2⟩
  · exact main [] h1 (by simp) h2.symm
  · exact main [o] h1 (by simp) h2.symm

/-- The request a final state of the option loop amounts to. -/
def requestOf (op : Operation) (s : Settings) (i : CStr) (outfile : Option CStr) : Request :=
  ⟨op, s.force, s.verbose, s.P.maxmem, s.P.maxmemfrac, s.P.maxtime, s.P.logN.toNat, s.P.r.toNat, s.P.p.toNat,
    if s.entry = .unset then .ttyStdin else s.entry, if s.entry = .unset then [] else s.arg, if i = "-".toList then none else some i, outfile⟩

/-- Options that are right by themselves and together amount to a request. -/
theorem asks_of_checks {sd : Strtod} {szMax : Nat} {op : Operation} {evs : List OptEv} {s : Settings} {P0 : EncParams}
    (h : Did sd szMax P0 evs s) (h0 : P0.maxmem = 0) (h1 : P0.maxmemfrac = op.frac) (h2 : P0.maxtime = op.time) {i : CStr} {rest : List CStr}
    (hr : ¬ rest.length > 1) (hx : explicitMsg s.P = none) (hz : ¬ s.P.maxmemfrac.isZero = true)
    (hs : ¬ ((if s.entry = .unset then { s with entry := .ttyStdin, arg := [] } else s).entry = .stdinOnce ∧
      (if i = "-".toList then none else some i) = none)) :
    ∃ q, q.op = op ∧ Asks sd szMax evs (i :: rest) q := by
  obtain ⟨n, m4, hn⟩ := h.logN
  refine ⟨requestOf op s i rest.head?, rfl, ⟨h.known, h.force, h.verbose, by have := h.maxmem; rwa [h0] at this, by have := h.maxmemfrac; rwa [h1] at this, by have := h.maxtime; rwa [h2] at this, ?_, h.r, h.p, ?_, ?_, ?_, ?_, ?_⟩⟩
  · show Sets _ _ _ _ s.P.logN.toNat
    rw [m4]; exact hn
  · show PassChoice _ (if s.entry = .unset then .ttyStdin else s.entry) (if s.entry = .unset then [] else s.arg)
    rcases h.pass with ⟨p1, p2⟩ | ⟨p1, p2, p3⟩
    · rw [if_pos p2, if_pos p2, p1]; exact .dflt
    · rw [if_neg p2, if_neg p2]; exact p3
  · show (s.P.logN.toNat = 0 ∧ s.P.r.toNat = 0 ∧ s.P.p.toNat = 0) ∨ (s.P.logN.toNat ≠ 0 ∧ s.P.r.toNat ≠ 0 ∧ s.P.p.toNat ≠ 0)
    rw [explicitMsg_none, m4] at hx
    rw [m4]
    have t0 : ∀ b : W32, b = 0 ↔ b.toNat = 0 := fun b => ⟨fun h => by rw [h]; rfl, fun h => BitVec.eq_of_toNat_eq (by rw [h]; rfl)⟩
    rw [Ne, Ne, Ne, t0, t0] at hx
    simpa using hx
  · intro sg hf
    exact hz ((isZero_iff _).2 ⟨sg, hf⟩)
  · refine ⟨i, ?_, rfl⟩
    cases rest with
    | nil => exact .inl ⟨rfl, rfl⟩
    | cons o os =>
      cases os with
      | nil => exact .inr ⟨o, rfl, rfl⟩
      | cons _ _ => simp at hr
  · show ¬ ((if s.entry = .unset then .ttyStdin else s.entry) = .stdinOnce ∧ (if i = "-".toList then none else some i) = none)
    rintro ⟨a, b⟩
    apply hs
    refine ⟨?_, b⟩
    rw [← a]
    split <;> rfl

theorem afterOptions_refused {env : MainEnv} {op : Operation} {evs : List OptEv} {ops : List CStr} {s : Settings} {P0 : EncParams}
    (h : Did env.sd env.sys.par.szMax P0 evs s) (h0 : P0.maxmem = 0) (h1 : P0.maxmemfrac = op.frac) (h2 : P0.maxtime = op.time)
    (hno : ¬ ∃ q, q.op = op ∧ Asks env.sd env.sys.par.szMax evs ops q) (dec info : Bool) :
    ∃ m, m ≠ [] ∧ afterOptions env dec info s ops = .ok (some (dieWith m)) := by
  unfold afterOptions
  cases ops with
  | nil => exact ⟨_, by simp, rfl⟩
  | cons i rest =>
    simp only []
    by_cases hr : rest.length > 1
    · exact ⟨_, by simp, if_pos hr⟩
    rw [if_neg hr]
    cases hx : explicitMsg s.P with
    | some t => exact ⟨_, by simp, rfl⟩
    | none =>
      simp only []
      by_cases hz : s.P.maxmemfrac.isZero = true
      · exact ⟨_, by simp, if_pos hz⟩
      rw [if_neg hz]
      unfold dispatch
      by_cases hs : (if s.entry = .unset then { s with entry := .ttyStdin, arg := [] } else s).entry = .stdinOnce ∧
          (if i = "-".toList then none else some i) = none
      · rw [if_pos hs]
        exact ⟨_, by simp, rfl⟩
      exact absurd (asks_of_checks h h0 h1 h2 hr hx hz hs) hno

/-- The default parameters. -/
def defaults (op : Operation) : EncParams := ⟨0, op.frac, op.time, 0, 0, 0⟩

theorem did_nil (sd : Strtod) (szMax : Nat) (P0 : EncParams) (h : P0.logN = 0 ∧ P0.r = 0 ∧ P0.p = 0) : Did sd szMax P0 [] ⟨false, false, P0, .unset, []⟩ := by
  obtain ⟨h1, h2, h3⟩ := h
  refine ⟨by simp, by simp, by simp, ⟨by simp [valuesOf], rfl⟩, ⟨by simp [valuesOf], rfl⟩, ⟨by simp [valuesOf], rfl⟩, ⟨0, h1, by simp [valuesOf], rfl⟩,
    ⟨by simp [valuesOf], ?_⟩, ⟨by simp [valuesOf], ?_⟩, .inl ⟨rfl, rfl⟩⟩
  · show P0.r.toNat = 0
    rw [h2]; rfl
  · show P0.p.toNat = 0
    rw [h3]; rfl

theorem withMode_spec {env : MainEnv} (hmal : env.mallocOk = true) (hsz : env.sys.par.szMax < 2 ^ 64) {name : CStr} {rest : List CStr}
    (hz : NoNul (name :: rest)) (op : Operation) :
    ∃ evs ops, Parses scryptOptions [] rest evs ops ∧
      (∀ q, q.op = op → Asks env.sd env.sys.par.szMax evs ops q → withMode env (op = .dec) (op = .info) (defaults op) (name :: rest) = perform env q) ∧
      ((¬ ∃ q, q.op = op ∧ Asks env.sd env.sys.par.szMax evs ops q) →
        ∃ m, m ≠ [] ∧ withMode env (op = .dec) (op = .info) (defaults op) (name :: rest) = .ok (some (dieWith m))) := by
  obtain ⟨evs, ops, hP, hloop⟩ := getopt_fresh mainTable_wf (argv := name :: rest) (by simp) hz (st := goInitial) rfl
  rw [mainTable_kind, List.tail_cons] at hP
  refine ⟨evs, ops, hP, ?_⟩
  have hlen : evs.length + 2 ≤ ((name :: rest).map (·.length + 1)).sum + 2 := by
    have := parses_length hP
    simp only [List.map_cons, List.sum_cons, List.length_nil] at this ⊢
    omega
  obtain ⟨st', hl, hok⟩ := hloop _ _ (optCase env.sd env.sys.par.szMax) ⟨false, false, defaults op, .unset, []⟩ _ hlen
  have hk : ∀ e ∈ evs, (∀ o, e = .flag o → scryptOptions o = some false) ∧ (∀ o v, e = .arg o v → scryptOptions o = some true ∧ '\x00' ∉ v) := by
    intro e he
    obtain ⟨k1, k2⟩ := parses_known hP e he
    refine ⟨k1, fun o v h => ⟨k2 o v h, ?_⟩⟩
    exact parses_nonul hP (by simp) (fun a ha => hz a (List.mem_cons_of_mem _ ha)) o v (h ▸ he)
  have hspec := optLoop_spec hsz evs [] _ (did_nil env.sd env.sys.par.szMax (defaults op) ⟨rfl, rfl, rfl⟩) hk
  rw [List.nil_append] at hspec
  unfold withMode
  rw [hmal, hl, Res.bind_ok]
  rcases hspec with ⟨s, hs, hd⟩ | ⟨⟨m, hm, hs⟩, hL⟩
  · rw [hs] at hok ⊢
    obtain ⟨hdrop, -⟩ := hok rfl
    simp only []
    rw [hdrop]
    refine ⟨fun q hqo hq => ?_, fun hno => afterOptions_refused hd rfl rfl rfl hno _ _⟩
    subst hqo
    exact afterOptions_asked (did_matches hsz hd hq rfl rfl rfl) hq
  · rw [hs]
    exact ⟨fun q _ hq => absurd (asks_legal hq) hL, fun _ => ⟨m, hm, rfl⟩⟩

theorem op_name_inj {a b : Operation} (h : a.name = b.name) : a = b := by
  cases a <;> cases b <;> first | rfl | exact absurd h (by decide)

theorem scryptOptions_long {n : CStr} {b : Bool} (h : scryptOptions ('-' :: '-' :: n) = some b) : '=' ∉ n := by
  cases b with
  | false => rcases flag_cases h with h | h | h <;> exact absurd (List.cons.inj (List.cons.inj h).2).1 (by decide)
  | true =>
    rcases arg_cases h with h | h | h | h | h | h | h
    · cases h; decide
    · exact absurd (List.cons.inj (List.cons.inj h).2).1 (by decide)
    · exact absurd (List.cons.inj (List.cons.inj h).2).1 (by decide)
    · exact absurd (List.cons.inj (List.cons.inj h).2).1 (by decide)
    · cases h; decide
    · exact absurd (List.cons.inj (List.cons.inj h).2).1 (by decide)
    · exact absurd (List.cons.inj (List.cons.inj h).2).1 (by decide)

/-- The command line of the program, as `withMode` sees it. -/
theorem main_op (env : MainEnv) (a0 : CStr) (op : Operation) (rest : List CStr) :
    scryptMain env (a0 :: op.name :: rest) = withMode env (op = .dec) (op = .info) (defaults op) (op.name :: rest) := by
  cases op <;> rfl

/-- **C33.**  A command line that asks for an operation (`Spec.Requests`) leads to exactly that operation with exactly those settings. -/
theorem C33_accepted (env : MainEnv) (hmal : env.mallocOk = true) (hsz : env.sys.par.szMax < 2 ^ 64) (a0 : CStr) (args : List CStr)
    (hz : NoNul args) (q : Request) (hq : Requests env.sd env.sys.par.szMax args q) :
    scryptMain env (a0 :: args) = perform env q := by
  obtain ⟨rest, evs, ops, rfl, hP, hA⟩ := hq
  obtain ⟨evs', ops', hP', h1, -⟩ := withMode_spec hmal hsz hz q.op
  obtain ⟨rfl, rfl⟩ := parses_unique scryptOptions (fun n b => scryptOptions_long) hP hP'
  rw [main_op]
  exact h1 q rfl hA

/-- **C33.**  Any other command line (except `--version`) ends with a message and exit code 1; no file is opened, no passphrase is read, nothing is
written.  In particular there is no undefined behaviour and no abort. -/
theorem C33_refused (env : MainEnv) (hmal : env.mallocOk = true) (hsz : env.sys.par.szMax < 2 ^ 64) (a0 : CStr) (args : List CStr)
    (hz : NoNul args) (hno : ¬ ∃ q, Requests env.sd env.sys.par.szMax args q) (hv : args.head? ≠ some "--version".toList) :
    ∃ msgs, msgs ≠ [] ∧ scryptMain env (a0 :: args) = .ok (some ⟨1, msgs, [], [], []⟩) := by
  cases args with
  | nil => exact ⟨_, by simp, rfl⟩
  | cons m rest =>
    have known : ∀ op : Operation, m = op.name → ∃ msgs, msgs ≠ [] ∧ scryptMain env (a0 :: m :: rest) = .ok (some ⟨1, msgs, [], [], []⟩) := by
      rintro op rfl
      obtain ⟨evs, ops, hP, -, h2⟩ := withMode_spec hmal hsz hz op
      rw [main_op]
      refine h2 ?_
      rintro ⟨q, rfl, hA⟩
      exact hno ⟨q, rest, evs, ops, rfl, hP, hA⟩
    by_cases h1 : m = "enc".toList
    · exact known .enc h1
    by_cases h2 : m = "dec".toList
    · exact known .dec h2
    by_cases h3 : m = "info".toList
    · exact known .info h3
    have h4 : m ≠ "--version".toList := fun h => hv (by rw [h]; rfl)
    unfold scryptMain
    simp only []
    rw [if_neg h1, if_neg h2, if_neg h3, if_neg h4]
    exact ⟨_, by simp, rfl⟩

/-- **C33.**  `--version` prints the version and does nothing else. -/
theorem C33_version (env : MainEnv) (a0 : CStr) (rest : List CStr) :
    scryptMain env (a0 :: "--version".toList :: rest) = .ok (some ⟨0, [], "scrypt ".toList ++ env.version ++ ['\n'], [], []⟩) := rfl

/-- **C33.**  A command line asks for at most one thing. -/
theorem C33_unique (sd : Strtod) (szMax : Nat) (hsz : szMax < 2 ^ 64) (args : List CStr) (q q' : Request) (h : Requests sd szMax args q)
    (h' : Requests sd szMax args q') : q = q' := by
  obtain ⟨rest, evs, ops, rfl, hP, hA⟩ := h
  obtain ⟨rest', evs', ops', hr, hP', hA'⟩ := h'
  obtain ⟨hop, rfl⟩ := List.cons.inj hr
  have hop := op_name_inj hop
  obtain ⟨rfl, rfl⟩ := parses_unique scryptOptions (fun n b => scryptOptions_long) hP hP'
  have e1 : q.force = q'.force := by rw [Bool.eq_iff_iff, hA.force, hA'.force]
  have e2 : q.verbose = q'.verbose := by rw [Bool.eq_iff_iff, hA.verbose, hA'.verbose]
  have m1 := sets_unique (V := MemText _) (fun v _ a b => memText_unique hsz) hA.maxmem hA'.maxmem
  have m2 := sets_unique (V := FloatText _ _ _) (fun v _ a b => floatText_unique) hA.maxmemfrac (by have := hA'.maxmemfrac; rwa [← hop] at this)
  have m3 := sets_unique (V := FloatText _ _ _) (fun v _ a b => floatText_unique) hA.maxtime (by have := hA'.maxtime; rwa [← hop] at this)
  have m5 := sets_unique (V := LogNText) (fun v _ a b => logNText_unique) hA.logN hA'.logN
  have m6 := sets_unique (V := CountText _) (fun v _ a b => countText_unique) hA.r hA'.r
  have m7 := sets_unique (V := CountText _) (fun v _ a b => countText_unique) hA.p hA'.p
  obtain ⟨p1, p2⟩ := passChoice_unique hA.pass hA'.pass
  obtain ⟨i, f1, f2⟩ := hA.files
  obtain ⟨i', f1', f2'⟩ := hA'.files
  have f3 : q.infile = q'.infile ∧ q.outfile = q'.outfile := by
    rcases f1 with ⟨a, b⟩ | ⟨o, a, b⟩ <;> rcases f1' with ⟨a', b'⟩ | ⟨o', a', b'⟩ <;> rw [a] at a' <;> cases a' <;> exact ⟨f2.trans f2'.symm, b.trans b'.symm⟩
  cases q; cases q'
  simp only at *
  simp only [hop, e1, e2, m1, m2, m3, m5, m6, m7, p1, p2, f3.1, f3.2]

/-! ### An example -/

/-- scrypt enc -f --logN 10 -r8 -p 1 --passphrase=env:PW in out -/
def exArgs : List CStr := ["enc", "-f", "--logN", "10", "-r8", "-p", "1", "--passphrase=env:PW", "in", "out"].map String.toList

/-- What it asks for. -/
def exRequest : Request := ⟨.enc, true, false, 0, .fin false (1 / 8), .fin false 5, 10, 8, 1, .env, "PW".toList, some "in".toList, some "out".toList⟩

/-- Its options. -/
def exEvs : List OptEv := [.flag "-f".toList, .arg "--logN".toList "10".toList, .arg "-r".toList "8".toList, .arg "-p".toList "1".toList,
  .arg "--passphrase".toList "env:PW".toList]

theorem exParses : Parses scryptOptions [] exArgs.tail exEvs ["in".toList, "out".toList] := by
  refine .group (c := 'f') (cs := []) (by decide) (.shortFlag (by decide) ?_)
  refine .longArg (n := "logN".toList) (by decide) (by decide) ?_
  refine .group (c := 'r') (cs := ['8']) (by decide) (.shortPacked (by decide) ?_)
  refine .group (c := 'p') (cs := []) (by decide) (.shortArg (by decide) ?_)
  refine .longEq (n := "passphrase".toList) (v := "env:PW".toList) (by decide) (by decide) ?_
  exact .operand (by decide)

theorem exNum {a b : CStr} {n : Nat} (hb : Body 0 a 10 b) (hv : numVal 10 b = n) : Numeral 0 a false n :=
  ⟨[], [], a, 10, b, by simp, by simp, .inl ⟨rfl, rfl⟩, hb, hv.symm⟩

/-- The hypotheses of C33 are met: a request with options in every form. -/
theorem exRequests (sd : Strtod) (szMax : Nat) : Requests sd szMax exArgs exRequest := by
  refine ⟨exArgs.tail, exEvs, _, rfl, exParses, ?_⟩
  have none : ∀ {α : Type} {o : CStr} {V : CStr → α → Prop} {d : α}, valuesOf o exEvs = [] → Sets o exEvs V d d := by
    intro α o V d h
    unfold Sets
    rw [h]
    exact ⟨by simp, rfl⟩
  have one : ∀ {α : Type} {o v : CStr} {V : CStr → α → Prop} {d x : α}, valuesOf o exEvs = [v] → V v x → Sets o exEvs V d x := by
    intro α o v V d x h hV
    unfold Sets
    rw [h]
    exact ⟨fun w hw => ⟨x, by rw [List.mem_singleton] at hw; rw [hw]; exact hV⟩, hV⟩
  refine ⟨?_, ?_, ?_, none (by decide), none (by decide), none (by decide), one (v := "10".toList) (by decide) ?_, one (v := "8".toList) (by decide) ?_,
    one (v := "1".toList) (by decide) ?_, ?_, ?_, ?_, ?_, ?_⟩
  · intro e he
    simp only [exEvs, List.mem_cons, List.not_mem_nil, or_false] at he
    rcases he with rfl | rfl | rfl | rfl | rfl
    · exact .inl ⟨_, rfl⟩
    all_goals exact .inr ⟨_, _, rfl⟩
  · exact iff_of_true rfl (by decide)
  · exact iff_of_false (by decide) (by decide)
  · exact ⟨exNum (.dec rfl (by decide) (by decide)) (by decide), by decide, by decide⟩
  · exact ⟨by decide, by decide, false, 8, exNum (.dec rfl (by decide) (by decide)) (by decide), by decide, rfl⟩
  · exact ⟨by decide, by decide, false, 1, exNum (.dec rfl (by decide) (by decide)) (by decide), by decide, rfl⟩
  · exact .method (v := "env:PW".toList) (.env "PW".toList)
  · exact .inr ⟨by decide, by decide, by decide⟩
  · intro s h
    have := (F64.fin.inj h).2
    norm_num at this
  · exact ⟨"in".toList, .inr ⟨"out".toList, rfl, rfl⟩, by decide⟩
  · exact fun h => absurd h.1 (by decide)

/-- So this command line leads to an encryption with N = 2^10, r = 8, p = 1, whatever the limits. -/
example (env : MainEnv) (hmal : env.mallocOk = true) (hsz : env.sys.par.szMax < 2 ^ 64) :
    scryptMain env ("scrypt".toList :: exArgs) =
      finish (scrypt_mode_enc_dec env ⟨0, .fin false (1 / 8), .fin false 5, 10, 8, 1⟩ .env "PW".toList false false true (some "in".toList) (some "out".toList)) :=
  C33_accepted env hmal hsz _ _ (by unfold NoNul; decide) exRequest (exRequests _ _)

/-- Without -p it is refused. -/
example (sd : Strtod) (szMax : Nat) : ¬ ∃ q, Requests sd szMax (["enc", "--logN", "14", "-r8", "in"].map String.toList) q := by
  rintro ⟨q, rest, evs, ops, h1, h2, h3⟩
  have hr : rest = ["--logN", "14", "-r8", "in"].map String.toList := (List.cons.inj h1).2.symm
  subst hr
  have hp : Parses scryptOptions [] (["--logN", "14", "-r8", "in"].map String.toList) [.arg "--logN".toList "14".toList, .arg "-r".toList "8".toList] ["in".toList] := by
    refine .longArg (n := "logN".toList) (by decide) (by decide) ?_
    refine .group (c := 'r') (cs := ['8']) (by decide) (.shortPacked (by decide) ?_)
    exact .operand (by decide)
  obtain ⟨rfl, rfl⟩ := parses_unique scryptOptions (fun n b => scryptOptions_long) h2 hp
  have hr : CountText 32 "8".toList q.r := h3.r.2
  have hpp : q.p = 0 := h3.p.2
  have := hr.1
  rcases h3.explicit with ⟨-, h, -⟩ | ⟨-, -, h⟩
  · omega
  · exact h hpp

/-- **C33.**  What an accepted argument of -m or -t means: NaN, an infinity, or a number that does not overflow, rounded to the nearest double. -/
theorem C33_number_option {sd : Strtod} (hsd : GoodStrtod sd) {lo hi : F64} {v : CStr} {x : F64} (h : FloatText sd lo hi v x) :
    (FloatDenotes v .nan ∧ x = .nan) ∨ (∃ neg, FloatDenotes v (.inf neg) ∧ x = .inf neg) ∨
    ∃ neg q, FloatDenotes v (.num neg q) ∧ x = F64.round neg q ∧ F64.roundMag q < (2 : ℚ) ^ (1024 : ℕ) := by
  obtain ⟨h1, h2, -, -⟩ := h
  by_cases hd : ∃ d, FloatDenotes v d
  case neg =>
    rcases hsd.other v (fun d hv => hd ⟨d, hv⟩) with k | k
    · rw [h2] at k; exact absurd (List.length_eq_zero_iff.1 k) h1
    · rw [h2] at k; exact absurd rfl k
  obtain ⟨d, hd⟩ := hd
  cases d with
  | nan => rw [hsd.nan v hd] at h2; exact .inl ⟨hd, (Prod.mk.inj h2).1.symm⟩
  | inf neg => rw [hsd.inf v neg hd] at h2; exact .inr (.inl ⟨neg, hd, (Prod.mk.inj h2).1.symm⟩)
  | num neg q =>
    obtain ⟨e, k1, k2, -⟩ := hsd.num v neg q hd
    rw [k1] at h2
    obtain ⟨a, b⟩ := Prod.mk.inj h2
    refine .inr (.inr ⟨neg, q, hd, a.symm, ?_⟩)
    by_contra hc
    rw [k2 (not_lt.1 hc)] at b
    cases (Prod.mk.inj b).2

end Scrypt.Props
