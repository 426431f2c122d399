import Verif.Props.PassTalkMain
import Verif.Props.Verbose
import Verif.Props.Picked
/-
C74: what a run of the utility prints, completely: nothing else, in this order.
-/
namespace Scrypt.Spec
open Scrypt Scrypt.Props

/-! ### Specification -/

/-- The codes that stand for a failure of the system: their message comes with the system's reason. -/
def SystemFailure : Code → Bool
  | .ELIMIT | .ECLOCK | .EKEY | .ESALT | .EOPENSSL | .ENOMEM | .EWRFILE | .ERDFILE => true
  | _ => false

/-- The line for a code: its message, with the system's reason if the system failed. -/
def codeLine (infile outfile : Option CStr) (c : Code) : MMsg :=
  let t := expectedMessage c (infile.getD "standard input".toList) (outfile.getD "standard output".toList)
  .diag (if SystemFailure c then .warnp t else .warn0 t)

/-- A line about a file that was opened by name and could not be closed. -/
def closeLine (name : Option CStr) (closed : Bool) : List MMsg :=
  if name.isSome ∧ closed = false then [.diag (.warnp "fclose".toList)] else []

/-- No line for success, one for a failure. -/
def endLine (infile outfile : Option CStr) (c : Code) : List MMsg := if c = .OK then [] else [codeLine infile outfile c]

/-- The line about an output file that cannot be opened. -/
def noOutputLine (outfile : Option CStr) : MMsg := .diag (.warnp ("Cannot open output file: ".toList ++ outfile.getD []))

/-- The report on the parameters that a decryption of `D` prints. -/
def DecReport (sys : EncSys) (P : EncParams) (verbose force : Bool) (D : Bytes) (ms : List Msg) : Prop :=
  (Headed 96 D → sys.cookieOk = true → Told sys P verbose force (hdrLogN D) (hdrR D) (hdrP D) ms) ∧
  (¬ (Headed 96 D ∧ sys.cookieOk = true) → ms = [])

/-- What an encryption prints about its parameters (`P'`: the parameters used): for parameters that were given, the report and then the warnings that
apply; for parameters it picked, the report. -/
def EncReport (sys : EncSys) (P P' : EncParams) (verbose force : Bool) (ms : List Msg) : Prop :=
  (P.logN ≠ 0 → ∃ rep warns, ms = rep ++ warns ∧ warns.Sublist [memWarning, timeWarning] ∧
    (∀ l : Nat, P.logN = l → GoodParams l P.r.toNat P.p.toNat → Told sys P verbose force l P.r.toNat P.p.toNat rep) ∧
    (¬ GoodParams P.logN P.r.toNat P.p.toNat → ms = []) ∧
    (memWarning ∈ ms ↔ Examined sys P force ∧ TooBig sys P (2 ^ P.logN.toNat) P.r.toNat) ∧
    (timeWarning ∈ ms ↔ Examined sys P force ∧ TooSlow sys P (2 ^ P.logN.toNat) P.r.toNat P.p.toNat)) ∧
  (P.logN = 0 →
    (∀ m, MemLimit sys P m → sys.par.perf.1 = .OK → ∃ l : Nat, P'.logN = l ∧ Told sys P verbose false l P'.r.toNat P'.p.toNat ms) ∧
    (¬ ((∃ m, MemLimit sys P m) ∧ sys.par.perf.1 = .OK) → ms = []))

end Scrypt.Spec

namespace Scrypt.Props
open Scrypt Scrypt.Spec
set_option exponentiation.threshold 1100

/-- **C48.**  The message for a code comes with the system's reason exactly if it is the system that failed. -/
theorem C48_reason (c : Code) (hc : c ≠ .OK) (i u : Option CStr) :
    scryptenc_print_error c.num i u = .ok (if SystemFailure c then .warnp (expectedMessage c (i.getD "standard input".toList) (u.getD "standard output".toList))
      else .warn0 (expectedMessage c (i.getD "standard input".toList) (u.getD "standard output".toList))) := by
  cases c <;> first | exact absurd rfl hc | rfl

theorem closeInput_line (env : MainEnv) (i : Option CStr) : (closeInput env i).2 = closeLine i env.fcloseIn := by
  unfold closeInput closeLine
  cases i <;> cases h : env.fcloseIn <;> simp

theorem closeOutput_line (env : MainEnv) (u : Option CStr) : (closeOutput env u.isSome).2 = closeLine u env.fcloseOut := by
  unfold closeOutput closeLine
  cases u <;> cases h : env.fcloseOut <;> simp

theorem cleanup_account {env : MainEnv} {i u : Option CStr} {ev : List MEv} {msgs : List MMsg} {ck op : Bool} {rc : Code} {out : Bytes} {m : ModeOut}
    (h : encDecCleanup env i u ev msgs ck op rc out = .ok m) :
    m.msgs = msgs ++ closeLine i env.fcloseIn ++ (closeOutput env op).2 ++ endLine i u rc ∧ (m.ok = true ↔ rc = .OK) := by
  unfold encDecCleanup at h
  simp only [] at h
  rw [closeInput_line] at h
  unfold endLine
  by_cases hr : rc = .OK
  · rw [if_neg (not_not.2 hr)] at h
    rw [← Res.ok.inj h, if_pos hr]
    exact ⟨(List.append_nil _).symm, by simp [hr]⟩
  · rw [if_pos hr, C48_reason rc hr, Res.bind_ok] at h
    rw [← Res.ok.inj h, if_neg hr]
    exact ⟨rfl, by simp [hr]⟩

theorem decRun_account {env : MainEnv} (g : env.sys.Good) {P : EncParams} (hv : P.maxmemfrac.Valid) {v f : Bool} {i u : Option CStr} {inf : InFile} {pw : Bytes}
    {ev0 : List MEv} {m : ModeOut} (sep : ∀ n, u = some n → ∀ f, env.trunc n f = f) (h : decRun env P v f i u inf pw ev0 = .ok m)
    (hin : inf.data.length < 2 ^ 64) (hl : LimitsOk env.sys P v f) :
    ∃ ms, DecReport env.sys P v f inf.data ms ∧
      (firstFail .OK (prepChecks env.sys pw P f inf.data inf.err) ≠ .OK →
        m.ok = false ∧ m.msgs = ms.map .lib ++ closeLine i env.fcloseIn ++ [codeLine i u (firstFail .OK (prepChecks env.sys pw P f inf.data inf.err))]) ∧
      (firstFail .OK (prepChecks env.sys pw P f inf.data inf.err) = .OK → openOutput env u = none →
        m.ok = false ∧ m.msgs = ms.map .lib ++ [noOutputLine u] ++ closeLine i env.fcloseIn) ∧
      (firstFail .OK (prepChecks env.sys pw P f inf.data inf.err) = .OK → ∀ outf, openOutput env u = some outf →
        (m.ok = true ↔ firstFail .OK (copyChecks env.sys pw inf.data inf.err outf) = .OK) ∧
        m.msgs = ms.map .lib ++ closeLine i env.fcloseIn ++ closeLine u env.fcloseOut ++
          endLine i u (firstFail .OK (copyChecks env.sys pw inf.data inf.err outf))) := by
  have hfile := fun outf ho => decRun_file g (outf := outf) sep ho h
  unfold decRun at h
  rw [Res.bind_eq_ok] at h
  obtain ⟨p, hpr, h⟩ := h
  obtain ⟨c1, -⟩ := C08_prep g hl hpr
  obtain ⟨-, p2, -, -⟩ := decPrep_spec g hpr
  refine ⟨p.err, prep_told g hv hpr, ?_⟩
  rw [← c1]
  simp only at h
  by_cases hp : p.rc = .OK
  case neg =>
    rw [if_pos hp] at h
    obtain ⟨a, b⟩ := cleanup_account h
    refine ⟨fun _ => ⟨?_, ?_⟩, fun h0 => absurd h0 hp, fun h0 => absurd h0 hp⟩
    · by_contra hc
      exact hp (b.1 (by simpa using hc))
    · rw [a, show (closeOutput env false).2 = [] from rfl, List.append_nil]
      unfold endLine
      rw [if_neg hp]
  rw [if_neg (not_not.2 hp)] at h
  refine ⟨fun h0 => absurd hp h0, fun _ ho => ?_, fun _ outf ho => ?_⟩
  · rw [ho] at h
    rw [← Res.ok.inj h]
    refine ⟨rfl, ?_⟩
    unfold encDecErr2
    simp only [closeInput_line]
    rfl
  · obtain ⟨of, f1, f2, -⟩ := hfile outf ho
    have hc := C08_file g hin hl f1
    rw [(firstFail_split (prepChecks_codes env.sys pw P f inf.data inf.err)).1 (c1 ▸ hp)] at hc
    rw [ho] at h
    obtain ⟨c, hcc, -⟩ := p2 hp
    rw [hcc] at h
    simp only at h
    rw [Res.bind_eq_ok] at h
    obtain ⟨oc, hco, h⟩ := h
    obtain ⟨a, b⟩ := cleanup_account h
    rw [closeOutput_line] at a
    have hrc : oc.rc = of.rc := by
      rw [truncated_sep sep] at hco
      have hco : scryptdec_file_copy env.sys c outf = .ok oc := hco
      unfold scryptdec_file at f1
      rw [Res.bind_eq_ok] at f1
      obtain ⟨-, -, f1⟩ := f1
      rw [hpr, Res.bind_ok, hcc] at f1
      simp only at f1
      rw [hco, Res.bind_ok] at f1
      rw [← Res.ok.inj f1]
    rw [hrc, hc] at a b
    exact ⟨b, a⟩

/-- **C74.**  What a decryption prints, from the moment it has a passphrase: the report on the parameters if asked for (C67), then either the line for the
header's first fault (and nothing was opened), or that the output cannot be opened, or the line for the first fault met while copying, or nothing; lines
about files that could not be closed stand before the line for the fault.  It exits with 0 exactly if there is no line for a fault. -/
theorem C74_dec (env : MainEnv) (g : env.sys.Good) (q : Request) (hq : q.op = .dec) (hl : LimitsOk env.sys q.params q.verbose q.force)
    (hv : q.maxmemfrac.Valid) (hsep : Separate env q) (o : MainOut) (h : perform env q = .ok (some o)) (pw : Bytes) (inf : InFile) (hs : Session env q pw inf)
    (hin : inf.data.length < 2 ^ 64) :
    let c1 := firstFail .OK (prepChecks env.sys pw q.params q.force inf.data inf.err)
    let c2 := fun outf => firstFail .OK (copyChecks env.sys pw inf.data inf.err outf)
    ∃ ms, DecReport env.sys q.params q.verbose q.force inf.data ms ∧
      (c1 ≠ .OK → o.exit = 1 ∧ o.msgs = ms.map .lib ++ closeLine q.infile env.fcloseIn ++ [codeLine q.infile q.outfile c1]) ∧
      (c1 = .OK → openOutput env q.outfile = none →
        o.exit = 1 ∧ o.msgs = ms.map .lib ++ [noOutputLine q.outfile] ++ closeLine q.infile env.fcloseIn) ∧
      (c1 = .OK → ∀ outf, openOutput env q.outfile = some outf →
        o.exit = (if c2 outf = .OK then 0 else 1) ∧
        o.msgs = ms.map .lib ++ closeLine q.infile env.fcloseIn ++ closeLine q.outfile env.fcloseOut ++ endLine q.infile q.outfile (c2 outf)) := by
  intro c1 c2
  obtain ⟨m, hm, rfl⟩ := session_run (by rw [hq]; decide) h hs
  rw [operate_dec hq] at hm
  obtain ⟨ms, a, b, c, d⟩ := decRun_account g hv hsep hm hin hl
  refine ⟨ms, a, fun h1 => ?_, fun h1 h2 => ?_, fun h1 outf h2 => ?_⟩
  · obtain ⟨x, y⟩ := b h1
    exact ⟨by unfold toExit; rw [x]; rfl, y⟩
  · obtain ⟨x, y⟩ := c h1 h2
    exact ⟨by unfold toExit; rw [x]; rfl, y⟩
  · obtain ⟨x, y⟩ := d h1 outf h2
    refine ⟨?_, y⟩
    by_cases hc : c2 outf = .OK
    · rw [if_pos hc]; exact exit_eq.2 (x.2 hc)
    · rw [if_neg hc]
      rcases exit_one (m := m) with h0 | h0
      · exact absurd (x.1 (exit_eq.1 h0)) hc
      · exact h0

/-- **C74.**  What an encryption prints, from the moment it has a passphrase: that the output cannot be opened; or what there is to say about the parameters,
lines about files that could not be closed, and the line for the first fault, if there was one.  It exits with 0 exactly if there is no line for a fault. -/
theorem C74_enc (env : MainEnv) (g : env.sys.Good) (q : Request) (hq : q.op = .enc)
    (hl : q.params.logN ≠ 0 → LimitsOk env.sys q.params q.verbose q.force) (hv : q.maxmemfrac.Valid) (hsep : Separate env q)
    (o : MainOut) (h : perform env q = .ok (some o)) (pw : Bytes) (inf : InFile) (hs : Session env q pw inf) (hin : inf.data.length < 2 ^ 64) :
    (openOutput env q.outfile = none → o.exit = 1 ∧ o.msgs = [noOutputLine q.outfile] ++ closeLine q.infile env.fcloseIn) ∧
    (∀ outf, openOutput env q.outfile = some outf → ∃ (P' : EncParams) (ms : List Msg),
      EncReport env.sys q.params P' q.verbose q.force ms ∧
      let c := firstFail .OK (encChecks env.sys q.params P' q.force ++ streamChecks env.sys inf outf)
      o.exit = (if c = .OK then 0 else 1) ∧
      o.msgs = ms.map .lib ++ closeLine q.infile env.fcloseIn ++ closeLine q.outfile env.fcloseOut ++ endLine q.infile q.outfile c) := by
  obtain ⟨m, hm, rfl⟩ := session_run (by rw [hq]; decide) h hs
  rw [operate_enc hq] at hm
  constructor
  · intro ho
    unfold encRun at hm
    rw [ho] at hm
    rw [← Res.ok.inj hm]
    refine ⟨rfl, ?_⟩
    unfold encDecErr2 toExit
    simp only [closeInput_line]
    rfl
  · intro outf ho
    unfold encRun at hm
    rw [ho] at hm
    simp only at hm
    rw [Res.bind_eq_ok] at hm
    obtain ⟨of, h1, hm⟩ := hm
    rw [truncated_sep hsep] at h1
    obtain ⟨a, b⟩ := cleanup_account hm
    rw [closeOutput_line] at a
    have hc := (C60_file g hin hl h1).1
    refine ⟨of.P, of.err, ⟨fun h0 => ?_, fun h0 => C67_enc_file_auto g hin hv h1 h0⟩, ?_⟩
    · obtain ⟨rep, ws, e1, e2, e3, e4⟩ := C67_enc_file g hin hv h1 h0
      obtain ⟨-, -, -, -, -, e5, e6⟩ := C15_file g hin (hl h0) h0 h1
      exact ⟨rep, ws, e1, e2, e3, e4, e5, e6⟩
    · intro c
      rw [show of.rc = c from hc] at a b
      refine ⟨?_, a⟩
      by_cases hc : c = .OK
      · rw [if_pos hc]; exact exit_eq.2 (b.2 hc)
      · rw [if_neg hc]
        rcases exit_one (m := m) with h0 | h0
        · exact absurd (b.1 (exit_eq.1 h0)) hc
        · exact h0

/-- **C74.**  If the input file cannot be opened that is all that is said, before any passphrase is asked for. -/
theorem C74_no_input (env : MainEnv) (q : Request) (n : CStr) (hn : q.infile = some n) (ho : env.openIn n = none) :
    perform env q = .ok (some ⟨1, [.diag (.warnp ("Cannot open input file: ".toList ++ n))], [], [.openIn n false], []⟩) := by
  have e1 : openInput env q.infile = none := by unfold openInput; rw [hn]; simp only [ho, Option.map_none]
  have e2 : openInputEv env q.infile = [.openIn n false] := by unfold openInputEv; rw [hn]; simp only [ho, Option.isSome_none]
  have e3 : cannotOpenIn q.infile = .diag (.warnp ("Cannot open input file: ".toList ++ n)) := by unfold cannotOpenIn; rw [hn]; rfl
  unfold perform
  cases q.op
  all_goals
    simp only [scrypt_mode_info, scrypt_mode_enc_dec, e1, e2, e3]
    rfl

/-- **C74.**  If no passphrase is obtained, the utility adds one line to what obtaining it has said (C73), and one about the input file if that cannot be closed. -/
theorem C74_no_passphrase (env : MainEnv) (q : Request) (hq : q.op ≠ .info) (f : Option InFile) (hin : openInput env q.infile = some f) (pe : PeOut)
    (hp : passphrase_entry_readpass env.pe q.method q.methodArg (q.op = .dec) = .ok (some pe)) (hno : pe.passwd = none) (o : MainOut)
    (h : perform env q = .ok (some o)) :
    o.exit = 1 ∧ o.msgs = [.diag (.warnp "passphrase_entry_readpass".toList)] ++ closeLine q.infile env.fcloseIn := by
  rw [perform_ed hq] at h
  unfold scrypt_mode_enc_dec at h
  rw [hin] at h
  simp only [hp, Res.bind_ok, hno] at h
  rw [finish_some] at h
  obtain ⟨m, h, rfl⟩ := h
  have h := Option.some.inj (Res.ok.inj h)
  rw [← h]
  exact ⟨rfl, by unfold toExit; simp only [closeInput_line]; rfl⟩

/-- **C74.**  What `info` prints: the parameters in the header, or the line for the header's first fault; and a line about the input file if that cannot be closed. -/
theorem C74_info (env : MainEnv) (hd : env.sys.par.disp.asprintf1 = true ∧ env.sys.par.disp.asprintf2 = true) (hh : env.sys.header0.length = 96) (q : Request)
    (hq : q.op = .info) (o : MainOut) (h : perform env q = .ok (some o)) (inf : InFile) (hi : Input env q env.pe.rp.stdin inf) :
    let c := firstFail .OK (infoChecks inf.data inf.err)
    (c ≠ .OK → o.exit = 1 ∧ o.msgs = [codeLine q.infile none c] ++ closeLine q.infile env.fcloseIn) ∧
    (c = .OK → hdrLogN inf.data ≤ 63 ∧ ∃ d : Shown,
      o.exit = 0 ∧ o.msgs = [.lib (.params (infoText (hdrLogN inf.data) (hdrR inf.data) (hdrP inf.data) d))] ++ closeLine q.infile env.fcloseIn ∧ d.Valid ∧
      (hdrR inf.data < 2 ^ 25 → 128 * 2 ^ hdrLogN inf.data * hdrR inf.data < 2 ^ 64 → ShownFor d (128 * 2 ^ hdrLogN inf.data * hdrR inf.data))) := by
  intro c
  unfold perform at h
  rw [hq] at h
  simp only at h
  rw [finish_some] at h
  obtain ⟨m, h, rfl⟩ := h
  have hopen : ∃ f, openInput env q.infile = some f ∧ (f.orElse fun _ => stdinFile env env.pe.rp.stdin) = some inf := by
    cases hi with
    | file a b => refine ⟨some inf, ?_, rfl⟩; unfold openInput; rw [a]; simp only [b, Option.map_some]
    | stdin a b =>
      refine ⟨none, ?_, ?_⟩
      · unfold openInput; rw [a]
      · show stdinFile env env.pe.rp.stdin = _
        unfold stdinFile; rw [if_neg b]
  obtain ⟨f, e1, e2⟩ := hopen
  unfold scrypt_mode_info at h
  rw [e1] at h
  simp only [e2] at h
  rw [Res.bind_eq_ok] at h
  obtain ⟨m', h, h'⟩ := h
  cases h'
  obtain ⟨f', -, g1, g2⟩ := C44_info env.sys.par.disp hd.1 hd.2 env.sys.header0 hh inf
  unfold infoRun at h
  by_cases hc : c = .OK
  case neg =>
    rw [g1 hc, Res.bind_ok] at h
    simp only at h
    rw [if_pos hc, C48_reason c hc, Res.bind_ok] at h
    rw [← Res.ok.inj h]
    refine ⟨fun _ => ⟨rfl, ?_⟩, fun h => absurd h hc⟩
    unfold toExit
    simp only [closeInput_line]
    rfl
  by_cases hl : hdrLogN inf.data ≤ 63
  case neg =>
    rw [C44_F5_shift env.sys.par.disp env.sys.header0 hh inf hc (by omega)] at h
    cases h
  obtain ⟨d, hp, hv, n1, n2, n3⟩ := g2 hc hl
  rw [hp, Res.bind_ok] at h
  simp only at h
  rw [if_neg (by simp)] at h
  rw [← Res.ok.inj h]
  refine ⟨fun h => absurd hc h, fun _ => ⟨hl, d, rfl, ?_, hv, fun a b => ?_⟩⟩
  · unfold toExit
    simp only [closeInput_line]
    unfold msgOf
    rw [if_neg (show infoText (hdrLogN inf.data) (hdrR inf.data) (hdrP inf.data) d ≠ [] from fun h => by
      unfold infoText at h
      simp only [List.append_eq_nil_iff] at h
      exact absurd h.2 (by decide))]
    rfl
  · rw [n1 a b] at n2 n3
    exact ⟨hv, n2, n3⟩

/-- **C74.**  A successful run says nothing, unless -v asked for the report, parameters were given explicitly, or a file could not be closed. -/
theorem C74_silent (env : MainEnv) (g : env.sys.Good) (q : Request) (hq : q.op ≠ .info) (hl : LimitsOk env.sys q.params q.verbose q.force)
    (hv : q.maxmemfrac.Valid) (hsep : Separate env q) (o : MainOut) (h : perform env q = .ok (some o)) (pw : Bytes) (inf : InFile) (hs : Session env q pw inf)
    (hin : inf.data.length < 2 ^ 64) (h0 : o.exit = 0) (hnv : q.verbose = false) (he : q.op = .enc → q.params.logN = 0)
    (hci : env.fcloseIn = true) (hco : env.fcloseOut = true) : o.msgs = [] := by
  have close : ∀ n : Option CStr, closeLine n true = [] := by
    intro n; unfold closeLine; rw [if_neg (by simp)]
  cases hop : q.op with
  | info => exact absurd hop hq
  | dec =>
    obtain ⟨ms, a, b, c, d⟩ := C74_dec env g q hop hl hv hsep o h pw inf hs hin
    have hms : ms = [] := by
      by_cases hH : Headed 96 inf.data ∧ env.sys.cookieOk = true
      · exact (a.1 hH.1 hH.2).1 hnv
      · exact a.2 hH
    by_cases h1 : firstFail .OK (prepChecks env.sys pw q.params q.force inf.data inf.err) = .OK
    · cases ho : openOutput env q.outfile with
      | none => rw [(c h1 ho).1] at h0; cases h0
      | some outf =>
        obtain ⟨x, y⟩ := d h1 outf ho
        by_cases h2 : firstFail .OK (copyChecks env.sys pw inf.data inf.err outf) = .OK
        · rw [y, hms, hci, hco, close, close]
          unfold endLine
          rw [if_pos h2]
          rfl
        · rw [x, if_neg h2] at h0; cases h0
    · rw [(b h1).1] at h0; cases h0
  | enc =>
    obtain ⟨a, b⟩ := C74_enc env g q hop (fun _ => hl) hv hsep o h pw inf hs hin
    cases ho : openOutput env q.outfile with
    | none => rw [(a ho).1] at h0; cases h0
    | some outf =>
      obtain ⟨P', ms, c, d, e⟩ := b outf ho
      have hms : ms = [] := by
        obtain ⟨t1, t2⟩ := c.2 (he hop)
        by_cases hk : (∃ m, MemLimit env.sys q.params m) ∧ env.sys.par.perf.1 = .OK
        · obtain ⟨⟨m, hm⟩, hp⟩ := hk
          obtain ⟨l, -, ht⟩ := t1 m hm hp
          exact ht.1 hnv
        · exact t2 hk
      by_cases h2 : firstFail .OK (encChecks env.sys q.params P' q.force ++ streamChecks env.sys inf outf) = .OK
      · rw [e, hms, hci, hco, close, close]
        unfold endLine
        rw [if_pos h2]
        rfl
      · rw [d, if_neg h2] at h0; cases h0

theorem exHalfValid : exRequest2.maxmemfrac.Valid :=
  show (F64.fin false (1 / 2)).Valid from
    ⟨rep_half, lt_of_lt_of_le (by norm_num) (one_le_pow₀ (by norm_num : (1 : ℚ) ≤ 2) : (1 : ℚ) ≤ 2 ^ 1024)⟩

/-- Non-vacuity: `scrypt dec -fv` on a file that is no container, on a system where the file cannot be closed, prints exactly two lines. -/
example (sha : ShaHw) (hw : AesHw) : ∃ o, perform { exMain sha hw "out".toList [[1, 2, 3]] with fcloseIn := false } exRequest2 = .ok (some o) ∧ o.exit = 1 ∧
    o.msgs = [.diag (.warnp "fclose".toList), .diag (.warn0 "Input is not valid scrypt-encrypted block".toList)] := by
  let env : MainEnv := { exMain sha hw "out".toList [[1, 2, 3]] with fcloseIn := false }
  have g : env.sys.Good := exEnc_good sha hw exSalt_length
  have hl : LimitsOk env.sys exRequest2.params exRequest2.verbose exRequest2.force := ⟨fun h => (by cases h), fun _ => ⟨rfl, rfl⟩⟩
  have hs : Session env exRequest2 [0x68, 0x69] ⟨[[1, 2, 3]], false⟩ := by
    obtain ⟨pe, a, b, c⟩ := exSession2 sha hw [[1, 2, 3]]
    exact ⟨pe, a, b, .file rfl rfl⟩
  obtain ⟨r, hr⟩ := C35_total env g (exEnc_ready sha hw exSalt) exRequest2 (by decide) (fun _ _ _ => Nat.le_refl _)
    (fun pw inf h => by obtain ⟨-, rfl⟩ := hs.unique h; decide) (fun _ => ⟨⟨rfl, rfl, rfl⟩, hl⟩) (fun h => by cases h)
  have hr' := hr
  rw [perform_session (by decide) hs, Res.bind_eq_ok] at hr'
  obtain ⟨m, -, hr'⟩ := hr'
  cases hr'
  have hc : firstFail .OK (prepChecks env.sys [0x68, 0x69] exRequest2.params exRequest2.force [1, 2, 3] false) = .EINVAL := by
    unfold prepChecks
    simp only [List.cons_append]
    rw [firstFail_cons (show env.sys.cookieOk = true from rfl), firstFail_stop (by decide)]
    rfl
  obtain ⟨ms, a, b, -⟩ := C74_dec env g exRequest2 rfl hl exHalfValid (fun _ _ _ => rfl) _ hr _ _ hs (by decide)
  have hms : ms = [] := a.2 fun h => absurd h.1.1 (by decide)
  obtain ⟨b1, b2⟩ := b (by show firstFail .OK (prepChecks _ _ _ _ [1, 2, 3] false) ≠ .OK; rw [hc]; decide)
  refine ⟨_, hr, b1, ?_⟩
  rw [b2, hms]
  show _ ++ [codeLine _ _ (firstFail .OK (prepChecks env.sys [0x68, 0x69] exRequest2.params exRequest2.force [1, 2, 3] false))] = _
  rw [hc]
  rfl

end Scrypt.Props
