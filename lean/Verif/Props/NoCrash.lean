import Verif.Props.MainEx
/-
C52: the utility never crashes.
-/
namespace Scrypt.Props
open Scrypt Spec F64

/-- What the system is assumed to do: libc and the entropy source behave (`EncSys.Good`), the self-tests of crypto_scrypt can allocate their memory,
malloc for the option table and the two asprintf calls succeed, strtod gives doubles, the measured speed is a positive number (see `C45_rate`). -/
structure SaneEnv (env : MainEnv) : Prop where
  good : env.sys.Good
  ready : SelfTestReady env.sys
  malloc : env.mallocOk = true
  disp : env.sys.par.disp.asprintf1 = true ∧ env.sys.par.disp.asprintf2 = true
  strtod : ∀ s, (env.sd s).1.Valid
  rate : env.sys.par.perf.1 = .OK → ∃ v, env.sys.par.perf.2 = fin false v ∧ 0 < v

/-- What the run is about is not one of the known crashes: no -m nan or -t nan (F3), no explicit parameters for dec (F1), no nonsense `log2 N` in a file
given to info (F5); and the files are ordinary: opening the output does not make the input longer, less than 2^64 bytes of input. -/
structure Ordinary (env : MainEnv) (q : Request) : Prop where
  frac : q.maxmemfrac ≠ nan
  time : q.maxtime ≠ nan
  dec : q.op = .dec → q.logN = 0
  info : q.op = .info → ∀ inf, Input env q env.pe.rp.stdin inf → firstFail .OK (infoChecks inf.data inf.err) = .OK → hdrLogN inf.data ≤ 63
  cut : NeverLonger env q
  len : ∀ pw inf, Session env q pw inf → inf.data.length < 2 ^ 64

theorem sets_cases {α : Type} {o : CStr} {evs : List OptEv} {V : CStr → α → Prop} {d x : α} (h : Sets o evs V d x) : x = d ∨ ∃ v, V v x := by
  obtain ⟨-, h⟩ := h
  cases hl : (valuesOf o evs).getLast? with
  | none => rw [hl] at h; exact .inl h
  | some v => rw [hl] at h; exact .inr ⟨v, h⟩

theorem rep_pow_neg (k : Nat) (hk : k ≤ 1074) : Rep (1 / 2 ^ k) :=
  ⟨1, -(k : ℤ), by norm_num, by omega, by rw [zpow_neg, zpow_natCast]; simp⟩

/-- The memory fraction of a request: a double, more than 0 and at most 1/2 (or NaN, F3). -/
theorem asks_frac {sd : Strtod} (hsd : ∀ s, (sd s).1.Valid) {szMax : Nat} {evs : List OptEv} {ops : List CStr} {q : Request} (h : Asks sd szMax evs ops q)
    (hn : q.maxmemfrac ≠ nan) : ∃ v : ℚ, q.maxmemfrac = fin false v ∧ 0 < v ∧ v ≤ 1 / 2 ∧ Rep v := by
  rcases sets_cases h.maxmemfrac with e | ⟨v, -, e, h1, h2⟩
  · rw [e]
    cases q.op with
    | enc => exact ⟨1 / 8, rfl, by norm_num, by norm_num, by have := rep_pow_neg 3 (by omega); norm_num at this ⊢; exact this⟩
    | dec => exact ⟨1 / 2, rfl, by norm_num, by norm_num, by have := rep_pow_neg 1 (by omega); norm_num at this ⊢; exact this⟩
    | info => exact ⟨1 / 2, rfl, by norm_num, by norm_num, by have := rep_pow_neg 1 (by omega); norm_num at this ⊢; exact this⟩
  · have hv := hsd v
    rw [e] at hv
    have hz := h.frac
    generalize q.maxmemfrac = x at *
    cases x with
    | nan => exact absurd rfl hn
    | inf s => cases s <;> simp [F64.lt] at h1 h2
    | fin s m =>
      obtain ⟨hr, -⟩ := hv
      have hm : 0 ≤ m := by obtain ⟨a, b, -, -, rfl⟩ := hr; positivity
      have hm0 : m ≠ 0 := fun h => hz s (by rw [h])
      have hp : 0 < m := lt_of_le_of_ne hm (Ne.symm hm0)
      cases s with
      | true => simp only [F64.lt, val, decide_eq_false_iff_not, not_lt] at h1; simp at h1; linarith
      | false => simp only [F64.lt, val, decide_eq_false_iff_not, not_lt] at h2; exact ⟨m, rfl, hp, by simpa using h2, hr⟩

theorem asks_time {sd : Strtod} {szMax : Nat} {evs : List OptEv} {ops : List CStr} {q : Request} (h : Asks sd szMax evs ops q)
    (hn : q.maxtime ≠ nan) (v : ℚ) (hv : 0 < v) : F64.mul (fin false v) q.maxtime ≠ nan := by
  clear h
  cases hx : q.maxtime with
  | nan => exact absurd hx hn
  | inf s => show (if v = 0 then nan else inf _) ≠ nan; rw [if_neg (ne_of_gt hv)]; simp
  | fin s m => show F64.round _ _ ≠ nan; unfold F64.round; split <;> simp

theorem asks_params {sd : Strtod} {szMax : Nat} {evs : List OptEv} {ops : List CStr} {q : Request} (h : Asks sd szMax evs ops q) :
    (q.params.zero || q.params.nonzero) = true ∧ (q.logN = 0 → q.params.r = 0 ∧ q.params.p = 0) := by
  have b1 := sets_bound h.r (fun v y => countText_lt)
  have b2 := sets_bound h.p (fun v y => countText_lt)
  have er : q.params.r = 0 ↔ q.r = 0 := ofNat_zero_iff (by omega)
  have ep : q.params.p = 0 ↔ q.p = 0 := ofNat_zero_iff (by omega)
  have el : q.params.logN = 0 ↔ q.logN = 0 := by show (q.logN : Int) = 0 ↔ _; omega
  unfold EncParams.zero EncParams.nonzero
  rcases h.explicit with ⟨h1, h2, h3⟩ | ⟨h1, h2, h3⟩
  · exact ⟨by simp [el.2 h1, er.2 h2, ep.2 h3], fun _ => ⟨er.2 h2, ep.2 h3⟩⟩
  · refine ⟨?_, fun h => absurd h h1⟩
    have := mt el.1 h1
    have := mt er.1 h2
    have := mt ep.1 h3
    simp only [*, ne_eq, decide_false, Bool.false_and, Bool.false_or, not_false_eq_true, decide_true, Bool.and_self]

theorem info_total (env : MainEnv) (e : SaneEnv env) (q : Request) (hq : q.op = .info) (ho : Ordinary env q) : ∃ r, perform env q = .ok r := by
  have main : ∃ r, scrypt_mode_info env q.infile = .ok r := by
    unfold scrypt_mode_info
    cases h1 : openInput env q.infile with
    | none => exact ⟨_, rfl⟩
    | some f =>
      simp only []
      cases h2 : f.orElse fun _ => stdinFile env env.pe.rp.stdin with
      | none => exact ⟨_, rfl⟩
      | some inf =>
        simp only []
        have hi : Input env q env.pe.rp.stdin inf := by
          unfold openInput at h1
          cases hn : q.infile with
          | none =>
            rw [hn] at h1
            cases h1
            have h2 : stdinFile env env.pe.rp.stdin = some inf := h2
            unfold stdinFile at h2
            by_cases hw : env.pe.rp.stdin.tail = .wait
            · rw [if_pos hw] at h2; cases h2
            rw [if_neg hw] at h2
            cases h2
            exact .stdin hn hw
          | some n =>
            rw [hn] at h1
            simp only at h1
            cases h3 : env.openIn n with
            | none => rw [h3] at h1; cases h1
            | some f' =>
              rw [h3] at h1
              cases h1
              cases h2
              exact .file hn h3
        obtain ⟨f', -, g1, g2⟩ := C44_info env.sys.par.disp e.disp.1 e.disp.2 env.sys.header0 e.good.header0 inf
        unfold infoRun
        by_cases hc : firstFail .OK (infoChecks inf.data inf.err) = .OK
        · obtain ⟨d, hd, -⟩ := g2 hc (ho.info hq inf hi hc)
          rw [hd, Res.bind_ok]
          simp only []
          rw [if_neg (by simp)]
          exact ⟨_, rfl⟩
        · rw [g1 hc, Res.bind_ok]
          simp only []
          obtain ⟨d, hd, -⟩ := C48_message _ hc q.infile none
          rw [if_pos hc, hd, Res.bind_ok]
          exact ⟨_, rfl⟩
  obtain ⟨r, hr⟩ := main
  unfold perform
  rw [hq]
  simp only []
  rw [hr]
  exact ⟨_, rfl⟩

/-- **C52.**  Whatever the command line, the files, standard input and the terminal contain, the utility does not crash: the run ends with an exit status
(or is still waiting for input), unless the request is one of the known crashes (`Ordinary`). -/
theorem C52_no_crash (env : MainEnv) (e : SaneEnv env) (argv : List CStr) (hz : NoNul argv)
    (ho : ∀ q, Requests env.sd env.sys.par.szMax argv.tail q → Ordinary env q) : ∃ r, scryptMain env argv = .ok r := by
  have hsz : env.sys.par.szMax < 2 ^ 64 := by rcases e.good.sz with h | h <;> omega
  cases argv with
  | nil => exact ⟨_, rfl⟩
  | cons a0 args =>
    have hz' : NoNul args := fun a h => hz a (List.mem_cons_of_mem _ h)
    by_cases hr : ∃ q, Requests env.sd env.sys.par.szMax args q
    · obtain ⟨q, hr⟩ := hr
      have o := ho q hr
      rw [C33_accepted env e.malloc hsz a0 args hz' q hr]
      by_cases hi : q.op = .info
      · exact info_total env e q hi o
      obtain ⟨_, evs, ops, -, -, ha⟩ := hr
      have hf := asks_frac e.strtod ha o.frac
      have lim : ∀ force, LimitsOk env.sys q.params q.verbose force := fun _ => ⟨fun _ => hf, fun _ => e.disp⟩
      obtain ⟨p1, p2⟩ := asks_params ha
      refine C35_total env e.good e.ready q hi o.cut o.len (fun hd => ⟨⟨o.dec hd, p2 (o.dec hd)⟩, lim _⟩) (fun _ => ⟨p1, ⟨fun _ => lim _, fun _ => ⟨lim _, ?_⟩⟩⟩)
      intro hp
      obtain ⟨v, hv, v0⟩ := e.rate hp
      rw [hv]
      exact asks_time ha o.time v v0
    · by_cases hv : args.head? = some "--version".toList
      · cases args with
        | nil => cases hv
        | cons b rest => cases hv; exact ⟨_, C33_version env a0 rest⟩
      · obtain ⟨m, -, h⟩ := C33_refused env e.malloc hsz a0 args hz' hr hv
        exact ⟨_, h⟩

/-! ### The exceptions are real -/

/-- **C52 (F3).**  Encrypting with -m nan aborts, once a passphrase was read and the output file opened. -/
theorem C52_F3_nan (env : MainEnv) (q : Request) (hq : q.op = .enc) (hn : q.maxmemfrac = nan) (hl : q.params.zero = true) (pw : Bytes) (inf : InFile)
    (hs : Session env q pw inf) (outf : OutFile) (ho : openOutput env q.outfile = some outf) : perform env q = .abort := by
  have hz : q.params.logN = 0 := by
    have := hl
    unfold EncParams.zero at this
    simp only [Bool.and_eq_true, decide_eq_true_eq] at this
    exact this.1.1
  have hp : pickparams env.sys.par q.params.maxmem q.params.maxmemfrac q.params.maxtime q.verbose = .abort := by
    unfold pickparams memtouse
    rw [show q.params.maxmemfrac = nan from hn, show F64.lt (F64.ofNat 0) nan = false from by cases F64.ofNat 0 <;> rfl]
    rfl
  have hf : ∀ i, scryptenc_file env.sys i outf pw q.params q.verbose q.force = .abort := by
    intro i
    unfold scryptenc_file scryptenc_setup setupParams
    rw [if_neg (not_not.2 hz), hp, hl]
    rfl
  rw [perform_session (by rw [hq]; decide) hs, operate_enc hq]
  unfold encRun
  rw [ho]
  simp only []
  rw [hf]
  rfl

/-- **C52 (F5).**  `info` on a file with a proper header but a `log2 N` of 64 or more is undefined behaviour. -/
theorem C52_F5_info (env : MainEnv) (hh : env.sys.header0.length = 96) (q : Request) (hq : q.op = .info) (inf : InFile)
    (hi : Input env q env.pe.rp.stdin inf) (hc : firstFail .OK (infoChecks inf.data inf.err) = .OK) (hl : 64 ≤ hdrLogN inf.data) :
    perform env q = .ub := by
  have hopen : ∃ f, openInput env q.infile = some f ∧ (f.orElse fun _ => stdinFile env env.pe.rp.stdin) = some inf := by
    cases hi with
    | file a b => refine ⟨some inf, ?_, rfl⟩; unfold openInput; rw [a]; simp only [b, Option.map_some]
    | stdin a b =>
      refine ⟨none, ?_, ?_⟩
      · unfold openInput; rw [a]
      · show stdinFile env env.pe.rp.stdin = _
        unfold stdinFile; rw [if_neg b]
  obtain ⟨f, e1, e2⟩ := hopen
  unfold perform
  rw [hq]
  simp only []
  unfold scrypt_mode_info
  rw [e1]
  simp only [e2]
  unfold infoRun
  rw [C44_F5_shift env.sys.par.disp env.sys.header0 hh inf hc hl]
  rfl

/-! ### Non-vacuity -/

theorem exMain_sane (sha : ShaHw) (hw : AesHw) (name : CStr) (segs : List Bytes) : SaneEnv (exMain sha hw name segs) where
  good := exEnc_good sha hw exSalt_length
  ready := exEnc_ready sha hw exSalt
  malloc := rfl
  disp := ⟨rfl, rfl⟩
  strtod := fun _ => trivial
  rate := fun h => by
    refine ⟨10 ^ 6, ?_, by norm_num⟩
    show F64.ofNat _ = _
    rw [ofNat_small (by norm_num)]
    norm_num

/-- Any file can be encrypted or decrypted (successfully or not) without a crash. -/
example (sha : ShaHw) (hw : AesHw) (segs : List Bytes) (hlen : segs.flatten.length < 2 ^ 64) :
    (∃ r, scryptMain (exMain sha hw "in".toList segs) ("scrypt".toList :: exArgs) = .ok r) ∧
    (∃ r, scryptMain (exMain sha hw "out".toList segs) ("scrypt".toList :: exArgs2) = .ok r) := by
  constructor
  · refine C52_no_crash _ (exMain_sane sha hw _ _) _ (by unfold NoNul; decide) ?_
    intro q hq
    cases C33_unique _ _ (by show 2 ^ 64 - 1 < 2 ^ 64; norm_num) _ _ _ hq (exRequests _ _)
    refine ⟨by unfold exRequest; simp, by unfold exRequest; simp, fun h => (by cases h), fun h => (by cases h), fun _ _ _ => Nat.le_refl _, fun pw inf hs => ?_⟩
    cases (hs.unique (exSession sha hw segs)).2
    exact hlen
  · refine C52_no_crash _ (exMain_sane sha hw _ _) _ (by unfold NoNul; decide) ?_
    intro q hq
    cases C33_unique _ _ (by show 2 ^ 64 - 1 < 2 ^ 64; norm_num) _ _ _ hq (exRequests2 _ _)
    refine ⟨by unfold exRequest2; simp, by unfold exRequest2; simp, fun _ => rfl, fun h => (by cases h), fun _ _ _ => Nat.le_refl _, fun pw inf hs => ?_⟩
    cases (hs.unique (exSession2 sha hw segs)).2
    exact hlen

end Scrypt.Props
