import Verif.Props.Utility
import Verif.Props.Enough
/-
C84: what one run of the utility encrypts, another run decrypts without -f, if the second is allowed at least what the first was; with the default options: if
there is at least a quarter of the memory and a sixtieth of the speed.
-/
namespace Scrypt.Props
open Scrypt Spec F64

/-- The measurement of the speed, in this process, ends with the code `c` and the speed `x` (operations per second). -/
def Measures (m : Machine) (e : CallEnv) (c : Code) (x : F64) : Prop :=
  ∃ sm sm', cpuperfL m e (shaTransform m.bestSha) sm = .ok (some (c, x), sm')

/-- The memory the process may use, by the limits of the system and of the command line. -/
def MayUse (m : Machine) (e : CallEnv) (q : Spec.Request) (n : Nat) : Prop :=
  memtouse m.szMax m.cfg e.mem q.maxmem q.maxmemfrac = .ok (some n)

theorem Answered.mayUse {m : Machine} {e : CallEnv} {sys : EncSys} (h : Answered m e sys) {q : Spec.Request} {n : Nat} :
    MemLimit sys q.params n ↔ MayUse m e q n := by
  unfold MemLimit MayUse
  rw [h.szMax, h.cfg, h.mem]
  rfl

theorem Answered.measures {m : Machine} {e : CallEnv} {sys : EncSys} (h : Answered m e sys) (hp : sys.par.perf.1 = .OK) :
    Measures m e .OK sys.par.perf.2 := by
  rcases h.perf with h1 | ⟨sm, sm', h1⟩
  · rw [h1] at hp; cases hp
  · refine ⟨sm, sm', ?_⟩
    rw [h1, ← hp]

/-! ### The clock is asked -/

/-- The speed was measured, or the call was made, when the clock was taken to fail, and did not report this. -/
theorem answers_perf {m : Machine} {e : CallEnv} {st : Statics} (hi : StInv m st) {f : EncSys → Res Code} {x : EncSys × Statics} {c : Code}
    (hc : answers m e st f = .ok (some x)) (hf : f x.1 = .ok c) :
    (∃ sm sm', cpuperfL m e (shaTransform m.bestSha) sm = .ok (some x.1.par.perf, sm')) ∨
    ∃ sm c', c' ≠ .ECLOCK ∧ f (baseSys m e m.bestSha sm) = .ok c' := by
  unfold answers at hc
  rw [hi.sha_init, Res.bind_ok] at hc
  obtain ⟨r, h1, hc⟩ := Res.bind_eq_ok.1 hc
  cases r with
  | none => cases hc
  | some sys =>
    simp only [] at hc
    obtain ⟨r, h2, hc⟩ := Res.bind_eq_ok.1 hc
    cases r with
    | none => cases hc
    | some y =>
      simp only [] at hc
      obtain ⟨z, h3, hc⟩ := Res.bind_eq_ok.1 hc
      have hc := Option.some.inj (Res.ok.inj hc)
      subst hc
      have pa : z.1.par = y.1.par := by
        unfold askAes at h3
        split at h3
        · obtain ⟨hw, -, h3⟩ := Res.bind_eq_ok.1 h3
          rw [← Res.ok.inj h3]
        · rw [← Res.ok.inj h3]
      have ps : y.1.par = sys.par := by
        unfold askSalt at h2
        split at h2
        · obtain ⟨r, -, h2⟩ := Res.bind_eq_ok.1 h2
          cases r with
          | none => cases h2
          | some o => rw [← Option.some.inj (Res.ok.inj h2)]
        · rw [← Option.some.inj (Res.ok.inj h2)]
      have rep : ∀ {s : EncSys} {c' : Code}, reports (f s) c' = true → f s = .ok c' := by
        intro s c' h
        cases hs : f s with
        | ok d => rw [hs] at h; simp only [reports, decide_eq_true_eq] at h; rw [h]
        | ub => rw [hs] at h; cases h
        | abort => rw [hs] at h; cases h
      unfold askPerf at h1
      split at h1
      · left
        obtain ⟨⟨r, sm⟩, h4, h1⟩ := Res.bind_eq_ok.1 h1
        cases r with
        | none => cases h1
        | some perf =>
          simp only [] at h1
          have h1 := Option.some.inj (Res.ok.inj h1)
          subst h1
          refine ⟨(baseSys m e m.bestSha st.smix).smix, sm, ?_⟩
          rw [pa, ps]
          exact h4
      · rename_i hn
        right
        have h1 := Option.some.inj (Res.ok.inj h1)
        subst h1
        refine ⟨st.smix, ?_⟩
        by_cases g1 : reports (f (baseSys m e m.bestSha st.smix)) .ESALT = true
        · exact ⟨_, by decide, rep g1⟩
        · unfold askSalt at h2
          rw [if_neg g1] at h2
          have h2 := Option.some.inj (Res.ok.inj h2)
          subst h2
          by_cases g2 : reports (f (baseSys m e m.bestSha st.smix)) .EOPENSSL = true
          · exact ⟨_, by decide, rep g2⟩
          · unfold askAes at h3
            rw [if_neg g2] at h3
            rw [← Res.ok.inj h3] at hf
            refine ⟨c, ?_, hf⟩
            intro hcc
            rw [hcc] at hf
            rw [hf] at hn
            simp [reports] at hn

/-- The same for the utility, together with `utility_performs`. -/
theorem utility_measured {m : Machine} {e : CallEnv} {seeds : List SeedEnv} {env : MainEnv} {a0 : CStr} {args : List CStr} (n : Normal m e env (a0 :: args))
    {q : Spec.Request} (hq : Requests env.sd m.szMax args q) {o : MainOut} (h : utility m e seeds env (a0 :: args) = .ok (some o)) :
    ∃ sys, Answered m e sys ∧ perform { env with sys := sys } q = .ok (some o) ∧ (sys.aes = e.aes ∨ codeOf (some o) ≠ .EOPENSSL) ∧
      ((∃ sm sm', cpuperfL m e (shaTransform m.bestSha) sm = .ok (some sys.par.perf, sm')) ∨
       ∃ sys' o', Answered m e sys' ∧ sys'.par.perf = (.ECLOCK, .nan) ∧ perform { env with sys := sys' } q = .ok o' ∧ codeOf o' ≠ .ECLOCK) := by
  have toPerform : ∀ {sys : EncSys}, Answered m e sys → scryptMain { env with sys := sys } (a0 :: args) = perform { env with sys := sys } q := by
    intro sys a1
    have hsz : sys.par.szMax < 2 ^ 64 := by rw [a1.szMax]; rcases n.machine.sz with h | h <;> omega
    exact C33_accepted { env with sys := sys } n.malloc hsz a0 args (fun a h => n.argv a (List.mem_cons_of_mem _ h)) q (by
      show Requests env.sd sys.par.szMax args q
      rw [a1.szMax]; exact hq)
  unfold utility at h
  obtain ⟨r, h1, h⟩ := Res.bind_eq_ok.1 h
  cases r with
  | none => cases h
  | some x =>
    obtain ⟨x, st'⟩ := x
    have h := Res.ok.inj h
    simp only [Option.bind_some] at h
    subst h
    have hi := StInv.initial m seeds
    unfold withAnswers at h1
    obtain ⟨r, h2, h1⟩ := Res.bind_eq_ok.1 h1
    cases r with
    | none => cases h1
    | some y =>
      simp only [] at h1
      obtain ⟨o', h3, h1⟩ := Res.bind_eq_ok.1 h1
      obtain ⟨rfl, -⟩ := Prod.mk.inj (Option.some.inj (Res.ok.inj h1))
      obtain ⟨a1, -, -⟩ := answers_answered n.machine n.call hi h2
      refine ⟨y.1, a1, ?_, ?_, ?_⟩
      · rw [← toPerform a1]; exact h3
      · refine (answers_aes h2).imp id ?_
        intro h4
        beta_reduce at h4
        rw [h3, Res.bind_ok] at h4
        simpa [reports] using h4
      · refine (answers_perf hi h2 (c := codeOf (some o)) (by beta_reduce; rw [h3, Res.bind_ok])).imp id ?_
        rintro ⟨sm, c', hc, hb⟩
        obtain ⟨o', hb1, hb2⟩ := Res.bind_eq_ok.1 hb
        have hb := baseSys_answered n.machine n.call sm
        refine ⟨_, o', hb, rfl, ?_, ?_⟩
        · rw [← toPerform hb]; exact hb1
        · rw [Res.ok.inj hb2]; exact hc

/-- A decryption stopped by the clock says so. -/
theorem dec_says_clock {env : MainEnv} (g : env.sys.Good) {q : Spec.Request} (hop : q.op = .dec) {pw : Bytes} {inf : InFile} (hs : Session env q pw inf)
    (hv : prepVerdict env.sys inf pw q.params q.verbose q.force = .ECLOCK) {o : Option MainOut} (h : perform env q = .ok o) : codeOf o = .ECLOCK := by
  have hne : q.op ≠ .info := by rw [hop]; decide
  rw [perform_session hne hs, operate_dec hop] at h
  obtain ⟨mo, hm, h⟩ := Res.bind_eq_ok.1 h
  rw [← Res.ok.inj h]
  unfold decRun at hm
  obtain ⟨p, hpr, hm⟩ := Res.bind_eq_ok.1 hm
  obtain ⟨p1, -⟩ := decPrep_spec g hpr
  rw [hv] at p1
  simp only [] at hm
  rw [if_pos (by rw [p1]; decide), p1] at hm
  unfold encDecCleanup at hm
  simp only [] at hm
  rw [if_pos (by decide)] at hm
  obtain ⟨d, hd, ht⟩ := C48_message .ECLOCK (by decide) q.infile q.outfile
  rw [hd, Res.bind_ok] at hm
  rw [← Res.ok.inj hm]
  have ht : diagText d = "Error reading clocks".toList := ht
  have hlib : ∀ (t : CStr) (l : List Msg), saysText t (l.map .lib) = false := by
    intro t l
    unfold saysText
    rw [List.any_eq_false]
    intro x hx
    obtain ⟨y, -, rfl⟩ := List.mem_map.1 hx
    simp
  have happ : ∀ (t : CStr) (a b : List MMsg), saysText t (a ++ b) = (saysText t a || saysText t b) := by
    intro t a b; unfold saysText; exact List.any_append
  have hcl : ∀ t : CStr, t ≠ "fclose".toList → saysText t (closeInput env q.infile).2 = false ∧ saysText t (closeOutput env false).2 = false := by
    intro t ht
    constructor
    · unfold closeInput
      cases q.infile with
      | none => rfl
      | some _ =>
        cases env.fcloseIn with
        | true => rfl
        | false =>
          show (decide ("fclose".toList = t) || false) = false
          rw [Bool.or_false]
          exact decide_eq_false (Ne.symm ht)
    · rfl
  have hone : ∀ t : CStr, saysText t [.diag d] = decide (diagText d = t) := by
    intro t
    unfold saysText
    rw [List.any_cons, List.any_nil, Bool.or_false]
    cases d <;> rfl
  have hall : ∀ t : CStr, t ≠ "fclose".toList → saysText t (List.map MMsg.lib p.err ++ (closeInput env q.infile).2 ++ (closeOutput env false).2 ++ [.diag d]) =
      decide (diagText d = t) := by
    intro t h
    rw [happ, happ, happ, hlib, (hcl t h).1, (hcl t h).2, hone]
    rfl
  unfold codeOf toExit
  simp only []
  rw [hall _ (by decide), hall _ (by decide), hall _ (by decide), ht]
  rfl

/-! ### Enough is allowed -/

/-- The number of operations the time limit allows at the speed `x`, as the code reckons, compared: not fewer at `y`. -/
def NotFewer (x : F64) (tx : F64) (y ty : F64) : Prop :=
  F64.le (F64.ofNat 0) (F64.mul x tx) = true ∧ F64.le (F64.mul x tx) (F64.mul y ty) = true

theorem mul_mag {x y : F64} {s : Bool} {q : ℚ} (h : F64.mul x y = fin s q) : 0 ≤ q := by
  have hr : ∀ {s' : Bool} {z : ℚ}, F64.round s' z = fin s q → 0 ≤ q := by
    intro s' z h
    unfold F64.round at h
    split at h
    · cases h
    · obtain ⟨-, rfl⟩ := F64.fin.inj h
      exact roundMag_nonneg _
  cases x with
  | nan => cases y <;> cases h
  | inf a =>
    cases y with
    | nan => cases h
    | inf b => cases h
    | fin b n => simp only [F64.mul] at h; split at h <;> cases h
  | fin a m =>
    cases y with
    | nan => cases h
    | inf b => simp only [F64.mul] at h; split at h <;> cases h
    | fin b n => exact hr h

theorem NotFewer.below {x tx y ty : F64} (h : NotFewer x tx y ty) : Below (F64.mul x tx) (F64.mul y ty) := by
  obtain ⟨h0, h1⟩ := h
  have ex : ∀ s q, F64.mul x tx = fin s q → 0 ≤ q := fun s q h => mul_mag h
  have ey : ∀ s q, F64.mul y ty = fin s q → 0 ≤ q := fun s q h => mul_mag h
  generalize F64.mul x tx = a at *
  generalize F64.mul y ty = b at *
  have e0 : F64.ofNat 0 = fin false 0 := by
    have := ofNat_small (n := 0) (by norm_num); exact_mod_cast this
  rw [e0] at h0
  cases b with
  | nan => exact .inl (.inl rfl)
  | inf s =>
    cases s with
    | false => exact .inl (.inr rfl)
    | true => cases a with
      | nan => simp [F64.le] at h1
      | inf s => cases s <;> simp [F64.le] at h0 h1
      | fin s q => simp [F64.le] at h1
  | fin s' q' =>
    cases a with
    | nan => simp [F64.le] at h1
    | inf s => cases s <;> simp [F64.le] at h0 h1
    | fin s q =>
      have hq := ex s q rfl
      have hq' := ey s' q' rfl
      have neg : ∀ {t : Bool} {z : ℚ}, 0 ≤ z → 0 ≤ F64.val t z → t = true → z = 0 := by
        intro t z hz h ht
        subst ht
        simp only [val, if_true] at h
        linarith
      have valeq : ∀ {t : Bool} {z : ℚ}, (t = true → z = 0) → F64.val t z = z := by
        intro t z h
        cases t with
        | false => rfl
        | true => rw [h rfl]; simp [val]
      simp only [F64.le, decide_eq_true_eq] at h0 h1
      have h0 : 0 ≤ F64.val s q := by simpa [val] using h0
      have n1 := neg hq h0
      have n2 := neg hq' (le_trans h0 h1)
      rw [valeq n1, valeq n2] at h1
      exact .inr ⟨q, q', ⟨s, rfl, hq, n1⟩, ⟨s', rfl, hq', n2⟩, h1⟩

/-- A refusal for lack of time would be one where fewer operations are allowed. -/
theorem slow_below {xa ta xb tb : F64} (h : Below (F64.mul xa ta) (F64.mul xb tb)) {l r p : Nat} (hg : GoodParams l r p) (hs : Slow xb tb (2 ^ l) r p) :
    Slow xa ta (2 ^ l) r p := by
  obtain ⟨-, g2, g3, g4, g5⟩ := hg
  have hr30 : r < 2 ^ 30 := lt_of_le_of_lt (Nat.le_mul_of_pos_right r g4) g5
  have hp30 : p < 2 ^ 30 := lt_of_le_of_lt (Nat.le_mul_of_pos_left p g3) g5
  unfold Slow at hs ⊢
  rw [ofNat_pow (by omega : l < 64), ofNat_small (by omega : r < 2 ^ 53), ofNat_small (by omega : p < 2 ^ 53), ofNat_small (by norm_num : 4 < 2 ^ 53)] at hs ⊢
  exact below_lt (div_below (by exact_mod_cast g4) (div_below (by exact_mod_cast g3) (div_below (by positivity) h))) hs

/-- The encrypting run kept to its own limits: the parameters were chosen for it and the time allows the minimum of 32768 operations; or they were given on the
command line, without -f, and no warning was printed. -/
def KeptLimits (m : Machine) (e : CallEnv) (seeds : List SeedEnv) (env : MainEnv) (argv : List CStr) (q : Spec.Request) : Prop :=
  (q.logN = 0 ∧ ∀ x, Measures m e .OK x → LeExact 32768 (F64.mul x q.maxtime)) ∨
  (q.logN ≠ 0 ∧ q.force = false ∧ q.maxmemfrac ≠ nan ∧
    ∀ o, utility m e seeds env argv = .ok (some o) → .lib memWarning ∉ o.msgs ∧ .lib timeWarning ∉ o.msgs)

theorem explicit_pass {sys : EncSys} (g : sys.Good) {P P' : EncParams} {verbose : Bool} {msgs : List Msg} (hl : LimitsOk sys P verbose false) (h0 : P.logN ≠ 0)
    (h : setupParams sys P verbose false = .ok (.OK, P', msgs)) (hm : memWarning ∉ msgs) (ht : timeWarning ∉ msgs) :
    P' = P ∧ LimitsPass sys P false (2 ^ P.logN.toNat) P.r.toNat P.p.toNat := by
  unfold setupParams at h
  rw [if_pos h0] at h
  obtain ⟨t, hc⟩ := checkparams_table g hl P.logN P.r P.p
  rw [hc, Res.bind_ok] at h
  generalize hcode : firstFail .OK ((GoodParams P.logN P.r.toNat P.p.toNat, Code.EINVAL) ::
    limitTable sys P false (2 ^ P.logN.toNat) P.r.toNat P.p.toNat) = code at h
  simp only [Res.ok.injEq, Prod.mk.injEq] at h
  obtain ⟨h1, h2, h3⟩ := h
  refine ⟨h2.symm, ?_⟩
  rw [← h3] at hm ht
  obtain ⟨w1, w2⟩ := explicitWarn_mem code
  have hm : ¬ (code = .ETOOBIG ∨ code = .EBIGSLOW) := fun hx => hm (List.mem_append_right _ (w1.2 hx))
  have ht : ¬ (code = .ETOOSLOW ∨ code = .EBIGSLOW) := fun hx => ht (List.mem_append_right _ (w2.2 hx))
  have hok : code = .OK := by
    unfold explicitCode at h1
    have hno : ¬ (code = .ETOOBIG ∨ code = .ETOOSLOW ∨ code = .EBIGSLOW) := by
      rintro (hx | hx | hx)
      exacts [hm (.inl hx), ht (.inl hx), hm (.inr hx)]
    simp only [hno, if_false] at h1
    split at h1
    · cases h1
    · exact h1
  subst hok
  by_cases l0 : GoodParams P.logN P.r.toNat P.p.toNat
  case neg => rw [firstFail_stop l0] at hcode; cases hcode
  rw [firstFail_cons l0] at hcode
  unfold limitTable at hcode
  by_cases l1 : ∃ m, MemLimit sys P m
  case neg => rw [firstFail_stop (by simpa using l1)] at hcode; cases hcode
  rw [firstFail_cons (.inr l1)] at hcode
  by_cases l2 : sys.par.perf.1 = .OK
  case neg => rw [firstFail_stop (by simpa using l2)] at hcode; exact absurd hcode l2
  rw [firstFail_cons (.inr l2)] at hcode
  by_cases l3 : TooBig sys P (2 ^ P.logN.toNat) P.r.toNat ∧ TooSlow sys P (2 ^ P.logN.toNat) P.r.toNat P.p.toNat
  case pos => rw [firstFail_stop (by simpa using l3)] at hcode; cases hcode
  rw [firstFail_cons (.inr l3)] at hcode
  by_cases l4 : TooBig sys P (2 ^ P.logN.toNat) P.r.toNat
  case pos => rw [firstFail_stop (by simpa using l4)] at hcode; cases hcode
  rw [firstFail_cons (.inr l4)] at hcode
  by_cases l5 : TooSlow sys P (2 ^ P.logN.toNat) P.r.toNat P.p.toNat
  case pos => rw [firstFail_stop (by simpa using l5)] at hcode; cases hcode
  exact .inr ⟨l1, l2, l4, l5⟩

/-- What the encrypting run wrote, and that it keeps to the limits. -/
theorem Encrypted.kept {m : Machine} {e : CallEnv} {seeds : List SeedEnv} {env : MainEnv} {a0 : CStr} {args : List CStr} {q : Spec.Request} {pw msg D : Bytes}
    (h : Encrypted m e seeds env a0 args q pw msg D) (hk : KeptLimits m e seeds env (a0 :: args) q) :
    ∃ (sys : EncSys) (salt : Bytes) (l r p : Nat), Answered m e sys ∧ salt.length = 32 ∧ GoodParams l r p ∧ r < 2 ^ 32 ∧ p < 2 ^ 32 ∧
      D = Spec.container (scryptCode pw salt (2 ^ l) r p 64) l r p salt msg ∧ KdfOk sys (2 ^ l) r p ∧ LimitsPass sys q.params false (2 ^ l) r p := by
  obtain ⟨inf, o, hs, rfl, hr, h0, rfl⟩ := h.run
  obtain ⟨sys, st', a1, a2, a3, -⟩ := utility_performs h.normal h.request hr
  have hne : q.op ≠ .info := by rw [h.op]; decide
  obtain ⟨mo, hm, rfl⟩ := session_run hne a2 (hs.with_sys sys)
  rw [operate_enc h.op] at hm
  cases hoe : openOutput env q.outfile with
  | none =>
    have := C35_cannot_open { env with sys := sys } a1.good q hne _ a2 hoe
    rw [this.1] at h0
    cases h0
  | some outf =>
    obtain ⟨of, h1, h2, h3, -⟩ := encRun_file (env := { env with sys := sys }) hoe hm
    have herr : ∀ x ∈ of.err, MMsg.lib x ∈ mo.msgs := by
      intro x hx
      unfold encRun at hm
      have hoe' : openOutput { env with sys := sys } q.outfile = some outf := hoe
      rw [hoe'] at hm
      simp only [] at hm
      rw [h1, Res.bind_ok] at hm
      unfold encDecCleanup at hm
      simp only [] at hm
      rw [if_neg (not_not.2 (h2.1 (exit_eq.1 h0)))] at hm
      rw [← Res.ok.inj hm]
      exact List.mem_append_left _ (List.mem_append_left _ (List.mem_map.2 ⟨x, hx, rfl⟩))
    rw [truncated_sep (env := { env with sys := sys }) h.sep] at h1
    have hok := h2.1 (exit_eq.1 h0)
    obtain ⟨salt, l, i1, i2, i3, i4, i5, -, -, -, i7, i8⟩ := encFile_inv a1.good (by have := h.len; omega) h1 hok
    have hout : (toExit mo).out = of.outf.written := h3
    rw [openOutput_empty (env := { env with sys := sys }) hoe, List.nil_append] at i8
    refine ⟨sys, salt, l, of.P.r.toNat, of.P.p.toNat, a1, i2, i4, of.P.r.isLt, of.P.p.isLt, by rw [hout, i8], i5, ?_⟩
    rcases hk with ⟨k0, k1⟩ | ⟨k0, k1, k2, k3⟩
    · have hl0 : q.params.logN = 0 := by unfold Spec.Request.params; simp [k0]
      obtain ⟨l', b1, -, b3⟩ := picked_pass a1.good hl0 (k1 _ (a1.measures (setup_measured hl0 i7))) i7
      have : l = l' := by omega
      rw [this]; exact b3
    · have hl0 : q.params.logN ≠ 0 := by unfold Spec.Request.params; simp [k0]
      obtain ⟨_, evs, ops, -, -, ha⟩ := h.request
      have hl : LimitsOk sys q.params q.verbose false := a1.limits ⟨fun _ => asks_frac h.normal.strtod ha k2, fun _ => h.normal.disp⟩
      rw [k1] at i7
      obtain ⟨w1, w2⟩ := k3 _ hr
      obtain ⟨b1, b2⟩ := explicit_pass a1.good hl hl0 i7 (fun hx => w1 (herr _ hx)) (fun hx => w2 (herr _ hx))
      rw [b1] at i3 ⊢
      have : q.params.logN.toNat = l := by rw [i3]; rfl
      rw [← this]; exact b2

/-- The code of the decryption of a container within the limits: success, unless AES is missing. -/
theorem unlocked_code {mB : Machine} {eB : CallEnv} {envB : MainEnv} {qB : Spec.Request} {pw salt msg : Bytes} {l r p : Nat} {infB : InFile}
    (hC : IsContainer (scryptCode pw salt (2 ^ l) r p 64) l r p salt msg infB.data) (hg : GoodParams l r p) {sys : EncSys}
    (hl : LimitsOk sys qB.params qB.verbose qB.force) (hlim : LimitsPass sys qB.params qB.force (2 ^ l) r p) (kdf : KdfOk sys (2 ^ l) r p)
    (hin : infB.data.length < 2 ^ 64) (hp : PlentyU eB envB qB infB msg.length) (a1 : Answered mB eB sys)
    {outf : OutFile} (hfit : Fits outf msg.length) {of : FileOut} (h1 : scryptdec_file sys infB outf pw qB.params qB.verbose qB.force = .ok of) :
    (of.rc = .OK ∧ of.outf.written = outf.written ++ msg) ∨ (of.rc = .EOPENSSL ∧ ¬ aesAvail sys = true) := by
  have hlen := hC.len
  have hU := container_unlocked a1.good hC hg hl hlim kdf
  obtain ⟨s1, s2, -⟩ := decFile_spec a1.good hin h1
  have hpv : prepVerdict sys infB pw qB.params qB.verbose qB.force = .OK :=
    prepVerdict_ok.2 ⟨by rw [a1.cookieOk]; exact hp.cookie, ⟨by omega, hU.2.magic, hU.2.version, hU.2.sum, hU.2.params, hU.2.kdf, hU.2.pass⟩⟩
  rw [hpv, if_neg (by simp)] at s1
  unfold copyVerdict at s1
  by_cases hav : aesAvail sys = true
  · have ha : aesCode sys = .OK := aesCode_avail hav (by rw [a1.ctr]; exact hp.ctr)
    rw [if_neg (not_not.2 ha), hlen, Nat.add_sub_cancel, if_neg (not_not.2 hfit), if_neg (by simp [hp.input]), if_neg (by omega),
      if_neg (not_not.2 (by rw [hU.1]; exact hC.tag))] at s1
    refine .inl ⟨s1, ?_⟩
    rcases decFile_container a1.good hC hg hl hin h1 with ⟨c1, c2⟩ | ⟨c1, n, c2⟩
    · exact c2
    · rw [s1] at c1
      exact absurd c1 (by simp [ResourceCode])
  · have he : aesCode sys = .EOPENSSL := by unfold aesCode; simp [hav]
    rw [he, if_pos (by simp)] at s1
    exact .inr ⟨s1, hav⟩

theorem reports_openssl {q : Spec.Request} {o : MainOut} (h : Reports o.msgs q .EOPENSSL) : codeOf (some o) = .EOPENSSL := by
  obtain ⟨d, d1, d2⟩ := h
  unfold codeOf
  simp only []
  refine if_pos ?_
  unfold saysText
  rw [List.any_eq_true]
  refine ⟨_, d1, ?_⟩
  cases d <;> exact decide_eq_true d2

/-- What is assumed about the decrypting run: it is allowed at least what the encrypting run was, and the clock works. -/
structure AllowedAsMuch (mA mB : Machine) (eA eB : CallEnv) (qA qB : Spec.Request) : Prop where
  /-- addresses are at least as wide -/
  sz : mA.szMax ≤ mB.szMax
  /-- at least the same amount of memory may be used -/
  mem : ∀ n, MayUse mA eA qA n → ∃ n', MayUse mB eB qB n' ∧ n ≤ n'
  /-- the time limit allows at least as many operations -/
  time : ∀ x y, Measures mA eA .OK x → Measures mB eB .OK y → NotFewer x qA.maxtime y qB.maxtime
  /-- the speed can be measured -/
  clock : ∀ c y, Measures mB eB c y → c = .OK

/-- **C84.**  `scrypt enc` ended with exit status 0 and kept to its own limits; `scrypt dec`, with or without -f, is run on what it wrote, with the same passphrase,
is allowed at least as much memory and time, and gets the memory it asks for: it exits with 0, and its output is the original data. -/
theorem C84_recovers {mA mB : Machine} {eA eB : CallEnv} {seedsA seedsB : List SeedEnv} {envA envB : MainEnv} {a0 b0 : CStr} {argsA argsB : List CStr}
    {qA qB : Spec.Request} {pw msg D : Bytes} {infB : InFile} {o : MainOut} (hA : Encrypted mA eA seedsA envA a0 argsA qA pw msg D)
    (hk : KeptLimits mA eA seedsA envA (a0 :: argsA) qA) (hB : Decrypted mB eB seedsB envB b0 argsB qB pw D infB o)
    (hr : AllowedAsMuch mA mB eA eB qA qB) (hp : PlentyU eB envB qB infB msg.length) :
    o.exit = 0 ∧ o.out = msg := by
  by_cases hforce : qB.force = true
  · exact C59_forced hr.sz hA hB hforce hp
  have hforce : qB.force = false := by simpa using hforce
  obtain ⟨sA, salt, l, r, p, aA, h32, hg, hr32, hp32, hD, hkA, hlA⟩ := hA.kept hk
  have hC := container_fields (scryptCode pw salt (2 ^ l) r p 64) l r p salt msg h32 (by have := hg.2.1; omega) hr32 hp32
  rw [← hD, ← hB.input] at hC
  have hlen := hC.len
  have hin : infB.data.length < 2 ^ 64 := by have := hA.len; omega
  have hne : qB.op ≠ .info := by rw [hB.op]; decide
  obtain ⟨outf, hoe, hfit⟩ := hp.output
  rcases hlA with hx | ⟨⟨n, hn⟩, hperf, hbig, hslow⟩
  · cases hx
  obtain ⟨n', hn', hle⟩ := hr.mem n (aA.mayUse.1 hn)
  have hxA := aA.measures hperf
  have fine : ∀ {sys : EncSys}, Answered mB eB sys → ¬ TooBig sys qB.params (2 ^ l) r := by
    rintro sys a ⟨k, k1, k2⟩
    have k1 := a.mayUse.1 k1
    unfold MayUse at k1 hn'
    rw [hn'] at k1
    obtain rfl := Option.some.inj (Res.ok.inj k1)
    exact hbig ⟨n, hn, by omega⟩
  obtain ⟨sys, a1, a2, a4, a5⟩ := utility_measured hB.normal hB.request hB.run
  -- the speed was measured
  have hmeas : Measures mB eB sys.par.perf.1 sys.par.perf.2 := by
    rcases a5 with ⟨sm, sm', h⟩ | ⟨sys', o', b1, b2, b3, b4⟩
    · exact ⟨sm, sm', h⟩
    · exfalso
      refine b4 (dec_says_clock (env := { envB with sys := sys' }) b1.good hB.op (hB.session.with_sys sys') ?_ b3)
      show prepVerdict sys' infB pw qB.params qB.verbose qB.force = .ECLOCK
      rw [prepVerdict_table b1.good (hB.limits b1)]
      unfold prepChecks
      rw [hC.logN, hC.r, hC.p, hforce]
      simp only [List.cons_append, List.nil_append]
      rw [firstFail_cons (by rw [b1.cookieOk]; exact hp.cookie), firstFail_cons (by omega), firstFail_cons hC.magic, firstFail_cons hC.version,
        firstFail_cons (by omega), firstFail_cons hC.sum, firstFail_cons hg]
      unfold limitTable
      simp only [List.cons_append, List.nil_append]
      rw [firstFail_cons (.inr ⟨n', b1.mayUse.2 hn'⟩), firstFail_stop (by rw [b2]; simp), b2]
  have hok := hr.clock _ _ hmeas
  rw [hok] at hmeas
  have hlim : LimitsPass sys qB.params qB.force (2 ^ l) r p :=
    .inr ⟨⟨n', a1.mayUse.2 hn'⟩, hok, fine a1, fun hs => hslow (slow_below (hr.time _ _ hxA hmeas).below hg hs)⟩
  obtain ⟨mo, hm, rfl⟩ := session_run hne a2 (hB.session.with_sys sys)
  rw [operate_dec hB.op] at hm
  obtain ⟨of, h1, h2, h3, -, -, h4⟩ := decRun_file (env := { envB with sys := sys }) a1.good hB.sep hoe hm
  have hw : outf.written = [] := openOutput_empty (env := { envB with sys := sys }) hoe
  have hout : (toExit mo).out = of.outf.written := h3
  have kdf : KdfOk sys (2 ^ l) r p := by
    obtain ⟨⟨q1, q2, q3, q4, q5, q6, q7, q8⟩, -⟩ := hkA
    rw [aA.szMax] at q6 q7 q8
    have hsz := hr.sz
    unfold KdfOk
    rw [a1.szMax, a1.kdf]
    exact ⟨⟨q1, q2, q3, q4, q5, by omega, by omega, le_trans q8 hsz⟩, (hp.kdf _).1, (hp.kdf _).2.1, (hp.kdf _).2.2, hp.munmap⟩
  rcases unlocked_code hC hg (hB.limits a1) hlim kdf hin hp a1 hfit h1 with ⟨c1, c2⟩ | ⟨c1, c2⟩
  · exact ⟨exit_eq.2 (h2.2 c1), by rw [hout, c2, hw, List.nil_append]⟩
  · exfalso
    rcases a4 with a4 | a4
    · refine c2 ?_
      unfold aesAvail
      rw [a4]
      obtain ⟨q1, q2⟩ := hp.aes
      cases hx : eB.aes.mem with
      | none => exact absurd hx q1
      | some _ => cases sys.aesHw <;> simp [q2]
    · exact a4 (reports_openssl (by have := h4 (by rw [c1]; simp); rwa [c1] at this))

/-! ### The default limits -/

/-- No -M, -m, -t and --logN: the default limits, parameters chosen by the program. -/
structure DefaultLimits (q : Spec.Request) : Prop where
  maxmem : q.maxmem = 0
  maxmemfrac : q.maxmemfrac = q.op.frac
  maxtime : q.maxtime = q.op.time
  logN : q.logN = 0

/-- These are the limits where none of these options is given. -/
theorem default_limits {sd : Strtod} {szMax : Nat} {evs : List OptEv} {ops : List CStr} {q : Spec.Request} (h : Asks sd szMax evs ops q)
    (hn : ∀ o ∈ ["-M".toList, "-m".toList, "-t".toList, "--logN".toList], valuesOf o evs = []) : DefaultLimits q := by
  have key : ∀ {α : Type} {o : CStr} {Val : CStr → α → Prop} {d x : α}, valuesOf o evs = [] → Sets o evs Val d x → x = d := by
    intro α o Val d x h0 hs
    have := hs.2
    rw [h0] at this
    exact this
  exact ⟨key (hn _ (by simp)) h.maxmem, key (hn _ (by simp)) h.maxmemfrac, key (hn _ (by simp)) h.maxtime, key (hn _ (by simp)) h.logN⟩

theorem log_four {q : ℚ} (h : 0 < q) : Int.log 2 (4 * q) = Int.log 2 q + 2 := by
  obtain ⟨a, b⟩ := log_bounds h
  have h4 : (4 : ℚ) = 2 ^ (2 : ℤ) := by norm_num
  apply le_antisymm
  · have : Int.log 2 (4 * q) < Int.log 2 q + 3 := by
      rw [← Int.lt_zpow_iff_log_lt (by norm_num) (by positivity)]
      have : ((2 : ℕ) : ℚ) ^ (Int.log 2 q + 3) = 4 * 2 ^ (Int.log 2 q + 1) := by
        rw [h4, ← zpow_add₀ (by norm_num)]
        push_cast
        congr 1; ring
      rw [this]
      linarith
    omega
  · rw [← Int.zpow_le_iff_le_log (by norm_num) (by positivity)]
    have : ((2 : ℕ) : ℚ) ^ (Int.log 2 q + 2) = 4 * 2 ^ Int.log 2 q := by
      rw [h4, ← zpow_add₀ (by norm_num)]
      push_cast
      congr 1; ring
    rw [this]
    linarith

theorem roundMag_four (n : Nat) : roundMag (4 * (n : ℚ)) = 4 * roundMag (n : ℚ) := by
  rcases Nat.eq_zero_or_pos n with rfl | hn
  · simp [roundMag_zero]
  have h1 : (1 : ℚ) ≤ n := by exact_mod_cast hn
  have h0 : (0 : ℚ) < n := by linarith
  have hl : 0 ≤ Int.log 2 (n : ℚ) := by
    rw [← Int.zpow_le_iff_le_log (by norm_num) h0]
    simpa using h1
  have e1 : ulpExp (n : ℚ) = Int.log 2 (n : ℚ) - 52 := by unfold ulpExp; omega
  have e2 : ulpExp (4 * (n : ℚ)) = ulpExp (n : ℚ) + 2 := by
    rw [e1]; unfold ulpExp; rw [log_four h0]; omega
  unfold roundMag
  rw [if_neg (by linarith), if_neg (by linarith), e2, zpow_add₀ (by norm_num)]
  have h4 : (2 : ℚ) ^ (2 : ℤ) = 4 := by norm_num
  rw [h4, mul_comm ((2 : ℚ) ^ ulpExp (n : ℚ)) 4, mul_div_mul_left _ _ (by norm_num)]
  ring

/-- A quarter of the memory is enough: decryption may use half of it, encryption used an eighth. -/
theorem mayUse_default {mA mB : Machine} (gA : mA.Good) (gB : mB.Good) {eA eB : CallEnv} {qA qB : Spec.Request} (oA : qA.op = .enc) (oB : qB.op = .dec)
    (dA : DefaultLimits qA) (dB : DefaultLimits qB) (hsz : mA.szMax ≤ mB.szMax) (hans : ¬ QueryFailed mB.cfg eB.mem)
    (hlim : ∀ n, SysLimit mB.szMax mB.cfg eB.mem n → mA.szMax ≤ 4 * n ∨ ∃ n', n' ≤ 4 * n ∧ SysLimit mA.szMax mA.cfg eA.mem n')
    {n : Nat} (h : MayUse mA eA qA n) : ∃ n', MayUse mB eB qB n' ∧ n ≤ n' := by
  have fA : qA.maxmemfrac = fin false (1 / 8) := by rw [dA.maxmemfrac, oA]; rfl
  have fB : qB.maxmemfrac = fin false (1 / 2) := by rw [dB.maxmemfrac, oB]; rfl
  have rep : F64.Rep (1 / 2 : ℚ) := ⟨1, -1, by norm_num, by norm_num, by norm_num⟩
  obtain ⟨r, hr, hn⟩ := C17_defined gB.sz mB.cfg eB.mem qB.maxmem (by norm_num : (0 : ℚ) < 1 / 2) le_rfl rep
  cases r with
  | none => exact absurd (hn.1 rfl) hans
  | some m' =>
    refine ⟨m', by unfold MayUse; rw [fB]; exact hr, ?_⟩
    unfold MayUse at h
    rw [fA] at h
    have hsa : mA.szMax < 2 ^ 64 := by rcases gA.sz with h | h <;> rw [h] <;> norm_num
    have hsb : mB.szMax < 2 ^ 64 := by rcases gB.sz with h | h <;> rw [h] <;> norm_num
    obtain ⟨qa, x, a1, a2, a3⟩ := memtouse_ok h
    obtain ⟨qb, y, b1, b2, b3⟩ := memtouse_ok hr
    obtain ⟨c1, c2, c3⟩ := memMin_spec (by omega) a1
    obtain ⟨d1, d2, d3⟩ := memMin_spec (by omega) b1
    have hmin : memMin mA.szMax qa ≤ 4 * memMin mB.szMax qb := by
      by_cases hlt : memMin mB.szMax qb < mB.szMax
      · rcases hlim _ (d3 hlt) with hx | ⟨n', hx, hs⟩
        · omega
        · have := c2 _ hs; omega
      · omega
    rw [(mul_frac (by norm_num) (by omega : memMin mA.szMax qa < 2 ^ 64)).1] at a2
    rw [(mul_frac (by norm_num) (by omega : memMin mB.szMax qb < 2 ^ 64)).1] at b2
    obtain ⟨s, v, hx, -, -, hfl⟩ := toUnsigned_ok a2
    obtain ⟨rfl, rfl⟩ := F64.fin.inj hx
    obtain ⟨s', v', hx', -, -, hfl'⟩ := toUnsigned_ok b2
    obtain ⟨rfl, rfl⟩ := F64.fin.inj hx'
    have hxa := hfl rfl (roundMag_nonneg _)
    have hyb := hfl' rfl (roundMag_nonneg _)
    have h4 : roundMag (memMin mA.szMax qa : ℚ) ≤ 4 * roundMag (memMin mB.szMax qb : ℚ) := by
      rw [← roundMag_four]
      exact roundMag_mono (by exact_mod_cast hmin)
    have hle : roundMag (1 / 8 * roundMag (memMin mA.szMax qa : ℚ)) ≤ roundMag (1 / 2 * roundMag (memMin mB.szMax qb : ℚ)) :=
      roundMag_mono (by linarith)
    have hxy : (x : ℤ) ≤ y := by rw [hxa, hyb]; exact Int.floor_mono hle
    have hxy : x ≤ y := by exact_mod_cast hxy
    rw [a3, b3, (memClip_bounds qA.maxmem x).2.2.2, (memClip_bounds qB.maxmem y).2.2.2, dA.maxmem, dB.maxmem]
    simp only [lt_irrefl, if_false]
    omega

/-- **C84, the default options.**  A file encrypted with the default limits is decrypted with the default limits, without -f: on the same or any other machine with
at least a quarter of the memory (each limit the system reports is at least a quarter of one the encrypting machine reported) and at least a sixtieth of the measured
speed.  (The encrypting machine must make 32768 operations in its five seconds: C61_corner.) -/
theorem C84_defaults {mA mB : Machine} {eA eB : CallEnv} {seedsA seedsB : List SeedEnv} {envA envB : MainEnv} {a0 b0 : CStr} {argsA argsB : List CStr}
    {qA qB : Spec.Request} {pw msg D : Bytes} {infB : InFile} {o : MainOut} (hA : Encrypted mA eA seedsA envA a0 argsA qA pw msg D)
    (hB : Decrypted mB eB seedsB envB b0 argsB qB pw D infB o) (dA : DefaultLimits qA) (dB : DefaultLimits qB)
    (hsz : mA.szMax ≤ mB.szMax) (hans : ¬ QueryFailed mB.cfg eB.mem)
    (hmem : ∀ n, SysLimit mB.szMax mB.cfg eB.mem n → mA.szMax ≤ 4 * n ∨ ∃ n', n' ≤ 4 * n ∧ SysLimit mA.szMax mA.cfg eA.mem n')
    (hfast : ∀ x, Measures mA eA .OK x → ∃ a : ℚ, x = fin false a ∧ 32768 ≤ 5 * a)
    (hspeed : ∀ a y, Measures mA eA .OK (fin false a) → Measures mB eB .OK y → ∃ b : ℚ, y = fin false b ∧ a ≤ 60 * b)
    (hclock : ∀ c y, Measures mB eB c y → c = .OK) (hp : PlentyU eB envB qB infB msg.length) :
    o.exit = 0 ∧ o.out = msg := by
  have tA : qA.maxtime = fin false 5 := by rw [dA.maxtime, hA.op]; rfl
  have tB : qB.maxtime = fin false 300 := by rw [dB.maxtime, hB.op]; rfl
  have r32 : roundMag (32768 : ℚ) = 32768 := roundMag_rep ⟨1, 15, by norm_num, by norm_num, by norm_num⟩
  have e0 : F64.ofNat 0 = fin false 0 := by
    have := ofNat_small (n := 0) (by norm_num); exact_mod_cast this
  refine C84_recovers hA (.inl ⟨dA.logN, ?_⟩) hB ⟨hsz, fun n hn => mayUse_default hA.normal.machine hB.normal.machine hA.op hB.op dA dB hsz hans hmem hn, ?_, hclock⟩ hp
  · intro x hx
    obtain ⟨a, rfl, ha⟩ := hfast x hx
    rw [tA]
    show LeExact 32768 (F64.round false (a * 5))
    unfold F64.round
    split
    · rfl
    · show (32768 : ℚ) ≤ roundMag (a * 5)
      rw [← r32]
      exact roundMag_mono (by linarith)
  · intro x y hx hy
    obtain ⟨a, rfl, ha⟩ := hfast x hx
    obtain ⟨b, rfl, hb⟩ := hspeed a y hx hy
    rw [tA, tB]
    have hm : roundMag (a * 5) ≤ roundMag (b * 300) := roundMag_mono (by linarith)
    unfold NotFewer
    show F64.le _ (F64.round false (a * 5)) = true ∧ F64.le (F64.round false (a * 5)) (F64.round false (b * 300)) = true
    rw [e0]
    unfold F64.round
    by_cases h2 : (2 : ℚ) ^ (1024 : ℕ) ≤ roundMag (b * 300)
    · rw [if_pos h2]
      split
      · exact ⟨rfl, rfl⟩
      · refine ⟨?_, rfl⟩
        simp only [F64.le, decide_eq_true_eq, val]
        simpa using roundMag_nonneg _
    · rw [if_neg h2, if_neg (fun hc => h2 (le_trans hc hm))]
      constructor
      · simp only [F64.le, decide_eq_true_eq, val]
        simpa using roundMag_nonneg _
      · simp only [F64.le, decide_eq_true_eq, val]
        simpa using hm
