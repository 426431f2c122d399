import Verif.Props.MainCut
/-
C34, C35, C41: encryption followed by decryption with the utility, cleaning up, findings F1, F7, F20, and a complete example.
-/
namespace Scrypt.Props
open Scrypt Spec

/-- **C35.**  `scrypt enc` with exit status 0, then `scrypt dec` on what it wrote, with the same passphrase, on a system that can do it and within its limits:
exit status 0 and the original input. -/
theorem C35_roundtrip (env env' : MainEnv) (g : env.sys.Good) (g' : env'.sys.Good) (ready : SelfTestReady env'.sys) (q q' : Request)
    (hq : q.op = .enc) (hq' : q'.op = .dec) (hsep : Separate env q) (hsep' : Separate env' q') (pw : Bytes) (inf inf' : InFile)
    (hs : Session env q pw inf) (hs' : Session env' q' pw inf') (hlen : inf.data.length + 128 < 2 ^ 64)
    (o : MainOut) (h : perform env q = .ok (some o)) (h0 : o.exit = 0)
    (hin : inf'.data = o.out) (herr : inf'.err = false) (outf : OutFile) (ho : openOutput env' q'.outfile = some outf) (hroom : Fits outf inf.data.length)
    (hx : q'.params.zero = true) (hl : LimitsOk env'.sys q'.params q'.verbose q'.force)
    (hlim : LimitsPass env'.sys q'.params q'.force (2 ^ hdrLogN o.out) (hdrR o.out) (hdrP o.out))
    (hk : KdfOk env'.sys (2 ^ hdrLogN o.out) (hdrR o.out) (hdrP o.out)) (ha : aesCode env'.sys = .OK) (hc : env'.sys.cookieOk = true) :
    ∃ o', perform env' q' = .ok (some o') ∧ o'.exit = 0 ∧ o'.out = inf.data := by
  obtain ⟨m, hm, rfl⟩ := session_run (by rw [hq]; decide) h hs
  rw [operate_enc hq] at hm
  cases hoe : openOutput env q.outfile with
  | none =>
    have := C35_cannot_open env g q (by rw [hq]; decide) _ h hoe
    rw [this.1] at h0
    cases h0
  | some outfe =>
    obtain ⟨of, h1, h2, h3, -⟩ := encRun_file hoe hm
    rw [truncated_sep hsep] at h1
    have hok := h2.1 (exit_eq.1 h0)
    obtain ⟨salt, l, i1, i2, i3, i4, -, -, i5, i6, -, i8⟩ := encFile_inv g (by omega) h1 hok
    have hout : (toExit m).out = of.outf.written := h3
    rw [openOutput_empty hoe, List.nil_append] at i8
    have hD := container_fields (scryptCode pw salt (2 ^ l) of.P.r.toNat of.P.p.toNat 64) l of.P.r.toNat of.P.p.toNat salt inf.data i2
      (by have := i4.2.1; omega) of.P.r.isLt of.P.p.isLt
    rw [hout, i8, hD.logN, hD.r, hD.p] at hlim hk
    have hl' : of.P.logN.toNat = l := by omega
    obtain ⟨o2, e1, e2, e3, -⟩ := C02_roundtrip g g' ready hlen h1 hok (inf2 := inf') (outf2 := outf) (P2 := q'.params) (verbose2 := q'.verbose)
      (force2 := q'.force) (by rw [openOutput_empty hoe, List.nil_append, hin, hout]) herr hroom hx hl (by rw [hl']; exact hlim) (by rw [hl']; exact hk) ha hc
    obtain ⟨r, hr⟩ := C35_total env' g' ready q' (by rw [hq']; decide) hsep'.neverLonger
      (by
        intro pw2 inf2 hs2
        obtain ⟨-, rfl⟩ := hs'.unique hs2
        rw [hin, hout, i8, hD.len]; omega)
      (fun _ => ⟨by
        unfold EncParams.zero at hx
        simp only [Bool.and_eq_true, decide_eq_true_eq] at hx
        refine ⟨?_, hx.1.2, hx.2⟩
        have : (q'.logN : Int) = 0 := hx.1.1
        omega, hl⟩)
      (fun h => by rw [hq'] at h; cases h)
    rw [perform_session (by rw [hq']; decide) hs'] at hr
    have hr' := hr
    rw [Res.bind_eq_ok] at hr'
    obtain ⟨m', hm', hr'⟩ := hr'
    rw [perform_session (by rw [hq']; decide) hs', hm', Res.bind_ok]
    rw [operate_dec hq'] at hm'
    obtain ⟨of', f1, f2, f3, -⟩ := decRun_file g' hsep' ho hm'
    rw [e1] at f1
    cases f1
    refine ⟨_, rfl, exit_eq.2 (f2.2 e2), ?_⟩
    show m'.out = _
    rw [f3, e3, openOutput_empty ho, List.nil_append]

/-- **C41**, the utility.  The passphrase is zeroed and then freed on every path after it was obtained; and, except after a write error (finding F2), so is
every heap object holding key material. -/
theorem C41_main (env : MainEnv) (g : env.sys.Good) (q : Request) (hq : q.op ≠ .info) (hn : NeverLonger env q) (o : MainOut) (h : perform env q = .ok (some o))
    (hlen : ∀ pw inf, Session env q pw inf → inf.data.length < 2 ^ 64) :
    Released (passOf o.ev) .gotPass .zeroPass .freePass ∧
    ((∀ x, CleanedUp (keysOf o.ev) x) ∨
      (Reports o.msgs q .EWRFILE ∧ (keysOf o.ev = leakTrace ∨ keysOf o.ev = [.alloc .cookie] ++ leakTrace ++ [.zero .cookie, .free .cookie]))) := by
  have fst : ∀ ev, keysOf (openInputEv env q.infile ++ [.gotPass]) ++ ev = ev := fun ev => by
    rw [keysOf_append, (keys_openIn env q.infile).1]; rfl
  have fst0 : keysOf (openInputEv env q.infile ++ [.gotPass]) = [] := by
    rw [keysOf_append, (keys_openIn env q.infile).1]; rfl
  have pst : passOf (openInputEv env q.infile ++ [.gotPass]) ++ [.zeroPass, .freePass] = [.gotPass, .zeroPass, .freePass] := by
    rw [passOf_append, (keys_openIn env q.infile).2]; rfl
  by_cases hs : ∃ pw inf, Session env q pw inf
  case neg =>
    rw [perform_ed hq, finish_some] at h
    obtain ⟨m, h, rfl⟩ := h
    unfold scrypt_mode_enc_dec at h
    cases ho : openInput env q.infile with
    | none =>
      rw [ho] at h
      cases h
      have k := keys_openIn env q.infile
      exact ⟨.inl k.2, .inl fun x => .inl (by show eventsOf (keysOf (openInputEv env q.infile)) x = []; rw [k.1]; rfl)⟩
    | some f =>
      rw [ho] at h
      simp only at h
      rw [Res.bind_eq_ok] at h
      obtain ⟨r, hr, h⟩ := h
      cases r with
      | none => cases h
      | some pe =>
        simp only at h
        cases hp : pe.passwd with
        | none =>
          rw [hp] at h
          cases h
          have k := keys_openIn env q.infile
          have k' := keys_close env q.infile
          exact ⟨.inl (by show passOf (_ ++ _) = []; rw [passOf_append, k.2, k'.2]; rfl),
            .inl fun x => .inl (by show eventsOf (keysOf (_ ++ _)) x = []; rw [keysOf_append, k.1, k'.1]; rfl)⟩
        | some pw =>
          rw [hp] at h
          simp only at h
          cases hf : f.orElse fun _ => stdinFile env pe.stdin with
          | none => rw [hf] at h; cases h
          | some inf =>
            refine absurd ⟨pw, inf, pe, hr, hp, ?_⟩ hs
            rcases openInput_some ho with ⟨rfl, h2⟩ | ⟨n, g, rfl, h2, h3⟩
            · have h4 : stdinFile env pe.stdin = some inf := hf
              unfold stdinFile at h4
              by_cases hw : pe.stdin.tail = .wait
              · rw [if_pos hw] at h4; cases h4
              · rw [if_neg hw] at h4; cases h4; exact .stdin h2 hw
            · cases hf; exact .file h2 h3
  obtain ⟨pw, inf, hs⟩ := hs
  have hin := hlen _ _ hs
  obtain ⟨m, hm, rfl⟩ := session_run hq h hs
  show Released (passOf m.ev) _ _ _ ∧ ((∀ x, CleanedUp (keysOf m.ev) x) ∨ (Reports m.msgs q .EWRFILE ∧ (keysOf m.ev = _ ∨ keysOf m.ev = _)))
  cases hop : q.op with
  | info => exact absurd hop hq
  | dec =>
    rw [operate_dec hop] at hm
    cases ho : openOutput env q.outfile with
    | none =>
      obtain ⟨-, -, -, h4, h5⟩ := decRun_noout g ho hm
      exact ⟨.inr (by rw [h5, pst]), .inl fun x => h4 x (by rw [fst0]; exact .inl rfl) fst0⟩
    | some outf =>
      classical
      obtain ⟨rest, -, rc, h1, -, -, h4, h5, h6⟩ := decRun_cut g hn hin ho hm
      refine ⟨.inr (by rw [h5, pst]), ?_⟩
      rw [h4, fst]
      by_cases hp : prepVerdict env.sys inf pw q.params q.verbose q.force = .OK
      · rw [if_pos hp]
        rw [if_neg (not_not.2 hp)] at h1
        by_cases hc : aesCode env.sys = .OK ∧ ¬ Fits outf ((inf.data.take 96 ++ rest.data).length - 128)
        · refine .inr ⟨?_, .inr ?_⟩
          · have e : rc = .EWRFILE := by
              rw [h1]
              unfold copyVerdict
              rw [if_neg (not_not.2 hc.1), if_pos hc.2]
            have := h6 (by rw [e]; decide)
            rw [e] at this
            exact this
          · unfold copyTrace
            rw [if_pos hc]
            rfl
        · exact .inl fun x => copyTrace_clean _ _ _ hc x
      · rw [if_neg hp]
        left
        intro x
        split
        · cases x
          · exact .inl (by decide)
          · exact .inl (by decide)
          · exact .inr (by decide)
        · exact .inl rfl
  | enc =>
    rw [operate_enc hop] at hm
    cases ho : openOutput env q.outfile with
    | none =>
      unfold encRun at hm
      rw [ho] at hm
      cases hm
      have e1 : keysOf (encDecErr2 env q.infile q.outfile (openInputEv env q.infile ++ [.gotPass]) [] false).ev = [] := by
        unfold encDecErr2
        simp only [keysOf_append, (keys_openIn env q.infile).1, keys_end.1, keys_end.2.2.1, (keys_openOut env q.outfile).1, (keys_close env q.infile).1,
          (keys_cookie false).1]
        rfl
      have e2 : passOf (encDecErr2 env q.infile q.outfile (openInputEv env q.infile ++ [.gotPass]) [] false).ev = [.gotPass, .zeroPass, .freePass] := by
        unfold encDecErr2
        simp only [passOf_append, (keys_openIn env q.infile).2, keys_end.2.1, keys_end.2.2.2, (keys_openOut env q.outfile).2, (keys_close env q.infile).2,
          (keys_cookie false).2]
        rfl
      exact ⟨.inr e2, .inl fun x => .inl (by rw [e1]; rfl)⟩
    | some outf =>
      obtain ⟨of, h1, -, -, h4, h5, h6⟩ := encRun_file ho hm
      refine ⟨.inr (by rw [h5, pst]), ?_⟩
      rw [h4, fst]
      rcases (C41_enc_file g (Nat.lt_of_le_of_lt (truncated_short hn inf) hin) h1).2 with h7 | ⟨h7, h8, -⟩
      · exact .inl h7
      · refine .inr ⟨?_, .inl h7⟩
        have := h6 (by rw [h8]; decide)
        rw [h8] at this
        exact this

/-! ### Findings -/

/-- **Finding F1.**  A decryption with explicit parameters passes all checks of the command line, asks for the passphrase, and then aborts (assertion). -/
theorem C33_F1_abort (env : MainEnv) (q : Request) (hq : q.op = .dec) (hx : q.logN ≠ 0) (pw : Bytes) (inf : InFile) (hs : Session env q pw inf) :
    perform env q = .abort := by
  rw [perform_session (by rw [hq]; decide) hs, operate_dec hq]
  unfold decRun scryptdec_file_prep
  have hz : q.params.zero = false := by
    unfold EncParams.zero
    have : q.params.logN ≠ 0 := by show (q.logN : Int) ≠ 0; omega
    simp [this]
  rw [hz]
  rfl

theorem cleanup_fclose {env : MainEnv} (b : Bool) {i u : Option CStr} {ev : List MEv} {msgs : List MMsg} {ck op : Bool} {rc : Code} {out : Bytes} {m : ModeOut}
    (h : encDecCleanup env i u ev msgs ck op rc out = .ok m) :
    ∃ m', encDecCleanup { env with fcloseOut := b } i u ev msgs ck op rc out = .ok m' ∧ m'.ok = m.ok ∧ m'.out = m.out := by
  obtain ⟨m1, h1, h2, h3, -⟩ := cleanup_ok (env := env) (i := i) (u := u) (ev := ev) (msgs := msgs) (ck := ck) (op := op) (rc := rc) (out := out)
  obtain ⟨m2, h1', h2', h3', -⟩ := cleanup_ok (env := { env with fcloseOut := b }) (i := i) (u := u) (ev := ev) (msgs := msgs) (ck := ck) (op := op) (rc := rc)
    (out := out)
  rw [h] at h1
  cases h1
  exact ⟨m2, h1', by rw [Bool.eq_iff_iff, h2, h2'], by rw [h3, h3']⟩

theorem operate_fclose {env : MainEnv} (b : Bool) {q : Request} {inf : InFile} {pw : Bytes} {m : ModeOut} (h : operate env q inf pw = .ok m) :
    ∃ m', operate { env with fcloseOut := b } q inf pw = .ok m' ∧ m'.ok = m.ok ∧ m'.out = m.out := by
  have cl : ∀ {ev msgs ck op rc out m}, encDecCleanup env q.infile q.outfile ev msgs ck op rc out = .ok m →
      ∃ m', encDecCleanup { env with fcloseOut := b } q.infile q.outfile ev msgs ck op rc out = .ok m' ∧ m'.ok = m.ok ∧ m'.out = m.out := cleanup_fclose b
  have err : ∀ {ev msgs ck}, encDecErr2 { env with fcloseOut := b } q.infile q.outfile ev msgs ck = encDecErr2 env q.infile q.outfile ev msgs ck := rfl
  have f1 : { env with fcloseOut := b }.sys = env.sys := rfl
  have f2 : openOutput { env with fcloseOut := b } q.outfile = openOutput env q.outfile := rfl
  have f3 : ∀ f, truncated { env with fcloseOut := b } q.outfile f = truncated env q.outfile f := fun _ => rfl
  have f4 : openInputEv { env with fcloseOut := b } q.infile = openInputEv env q.infile := rfl
  have f5 : openOutputEv { env with fcloseOut := b } q.outfile = openOutputEv env q.outfile := rfl
  generalize { env with fcloseOut := b } = env' at cl err f1 f2 f3 f4 f5 ⊢
  unfold operate at h ⊢
  rw [f4]
  by_cases hd : q.op = .dec
  · rw [if_pos hd] at h ⊢
    unfold decRun at h ⊢
    simp only [f1, f2, f3, f5, err]
    rw [Res.bind_eq_ok] at h
    obtain ⟨p, hp, h⟩ := h
    rw [hp, Res.bind_ok]
    simp only at h ⊢
    by_cases h0 : p.rc = .OK
    case neg =>
      rw [if_pos h0] at h ⊢
      exact cl h
    rw [if_neg (not_not.2 h0)] at h ⊢
    cases ho : openOutput env q.outfile with
    | none =>
      rw [ho] at h
      cases h
      exact ⟨_, rfl, rfl, rfl⟩
    | some outf =>
      rw [ho] at h
      simp only at h ⊢
      cases hc : p.cookie with
      | none => rw [hc] at h; cases h
      | some c =>
        rw [hc] at h
        simp only at h ⊢
        rw [Res.bind_eq_ok] at h
        obtain ⟨oc, hoc, h⟩ := h
        rw [hoc, Res.bind_ok]
        exact cl h
  · rw [if_neg hd] at h ⊢
    unfold encRun at h ⊢
    simp only [f1, f2, f3, f5, err]
    cases ho : openOutput env q.outfile with
    | none =>
      rw [ho] at h
      cases h
      exact ⟨_, rfl, rfl, rfl⟩
    | some outf =>
      rw [ho] at h
      simp only at h ⊢
      rw [Res.bind_eq_ok] at h
      obtain ⟨oc, hoc, h⟩ := h
      rw [hoc, Res.bind_ok]
      exact cl h

/-- **Finding F7.**  Whether closing the output file succeeds makes no difference to the exit status: a run that exits 0 also exits 0 if the final `fclose`
(which flushes the buffer) fails. -/
theorem C35_F7_fclose (env : MainEnv) (b : Bool) (q : Request) (hq : q.op ≠ .info) (o : MainOut) (h : perform env q = .ok (some o)) (h0 : o.exit = 0) :
    ∃ o', perform { env with fcloseOut := b } q = .ok (some o') ∧ o'.exit = 0 ∧ o'.out = o.out := by
  by_cases hs : ∃ pw inf, Session env q pw inf
  case neg =>
    have := (C34_no_session env q hq o h hs).1
    rw [h0] at this
    cases this
  obtain ⟨pw, inf, hs⟩ := hs
  obtain ⟨m, hm, rfl⟩ := session_run hq h hs
  obtain ⟨m', hm', e1, e2⟩ := operate_fclose b hm
  have hs' : Session { env with fcloseOut := b } q pw inf := by
    obtain ⟨pe, a1, a2, a3⟩ := hs
    refine ⟨pe, a1, a2, ?_⟩
    cases a3 with
    | file x y => exact .file x y
    | stdin x y => exact .stdin x y
  refine ⟨toExit m', ?_, exit_eq.2 (by rw [e1]; exact exit_eq.1 h0), e2⟩
  rw [perform_session hq hs', hm', Res.bind_ok]

/-- **Finding F20.**  Encrypting a file onto itself: opening the output empties the input, and what is written, with exit status 0, is an encryption of
the empty string. -/
theorem C35_F20_same_file (env : MainEnv) (g : env.sys.Good) (q : Request) (hq : q.op = .enc) (n : CStr) (hn : q.outfile = some n)
    (htr : ∀ f, env.trunc n f = ⟨[], false⟩) (o : MainOut) (h : perform env q = .ok (some o)) (pw : Bytes) (inf : InFile)
    (hs : Session env q pw inf) (h0 : o.exit = 0) :
    ∃ (salt : Bytes) (logN r p : Nat), env.sys.salt = some salt ∧ o.out = container (scryptCode pw salt (2 ^ logN) r p 64) logN r p salt [] := by
  obtain ⟨m, hm, rfl⟩ := session_run (by rw [hq]; decide) h hs
  rw [operate_enc hq] at hm
  cases ho : openOutput env q.outfile with
  | none =>
    have := C35_cannot_open env g q (by rw [hq]; decide) _ h ho
    rw [this.1] at h0
    cases h0
  | some outf =>
    obtain ⟨of, h1, h2, h3, -⟩ := encRun_file ho hm
    rw [show truncated env q.outfile inf = ⟨[], false⟩ from by rw [hn]; exact htr inf] at h1
    obtain ⟨salt, l, i1, -, -, -, -, -, -, -, -, i8⟩ := encFile_inv g (by show (0 : Nat) < 2 ^ 64; norm_num) h1 (h2.1 (exit_eq.1 h0))
    refine ⟨salt, l, of.P.r.toNat, of.P.p.toNat, i1, ?_⟩
    show m.out = _
    rw [h3, i8, openOutput_empty ho, List.nil_append]
    rfl

end Scrypt.Props
