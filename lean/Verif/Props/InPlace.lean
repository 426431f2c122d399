import Verif.Proofs.InPlace
import Verif.Props.MainCut
import Verif.Props.MainEx
import Verif.Proofs.EncSteps
/-
C88: the output file is the input file.
-/
namespace Scrypt.Props
open Scrypt Spec

/-- What the file, called `u` as the output, contains after the run: untouched unless the output was opened, then what was written. -/
def FileAfter (D : Bytes) (u : CStr) (m : ModeOut) : Bytes := if MEv.openOut u true ∈ m.ev then m.out else D

/-- The operation `q` on a file that is input and output, under the names `i` and `u`. -/
abbrev sameRun (env : MainEnv) (c : Stdio) (q : Request) (i u : CStr) : Res (Option ModeOut) :=
  scrypt_mode_enc_decS env c q.params q.method q.methodArg (q.op = .dec) q.verbose q.force i u

theorem sameRun_session {env : MainEnv} {c : Stdio} {q : Request} {i u : CStr} (hi : q.infile = some i) {pw : Bytes} {inf : InFile}
    (hs : Session env q pw inf) :
    sameRun env c q i u = if q.op = .dec then decRunS env c q.params q.verbose q.force i u inf pw (openInputEv env (some i) ++ [.gotPass])
      else encRunS env c q.params q.verbose q.force i u pw (openInputEv env (some i) ++ [.gotPass]) := by
  obtain ⟨pe, h1, h2, h3⟩ := hs
  have ho : env.openIn i = some inf := by
    cases h3 with
    | file a b => rw [hi] at a; cases a; exact b
    | stdin a b => rw [hi] at a; cases a
  unfold sameRun scrypt_mode_enc_decS openInput
  simp only [ho, Option.map_some]
  rw [h1, Res.bind_ok]
  simp only [h2, decide_eq_true_eq]

theorem openOut_mem {env : MainEnv} {u : CStr} {outf : OutFile} (ho : openOutput env (some u) = some outf) : MEv.openOut u true ∈ openOutputEv env (some u) := by
  unfold openOutput at ho
  unfold openOutputEv
  simp only at ho ⊢
  cases h : env.openOut u with
  | none => rw [h] at ho; cases ho
  | some r => simp

theorem fileAfter_open {D : Bytes} {u : CStr} {m : ModeOut} (h : MEv.openOut u true ∈ m.ev) : FileAfter D u m = m.out := if_pos h

/-- **C88.**  `scrypt enc` with one file as input and output: whatever was in the file, it then contains an encryption of nothing, and the exit
status says success. -/
theorem C88_enc (env : MainEnv) (g : env.sys.Good) (ready : SelfTestReady env.sys) (c : Stdio) (hB : 96 ≤ c.B) (hst : 0 < c.steps) (q : Request)
    (hq : q.op = .enc) (i u : CStr) (hi : q.infile = some i) (pw : Bytes) (inf : InFile) (hs : Session env q pw inf) (outf : OutFile)
    (ho : openOutput env (some u) = some outf) (hP : (q.params.zero || q.params.nonzero) = true)
    (hl : EncLimitsOk env.sys q.params q.verbose q.force) :
    ∃ m, sameRun env c q i u = .ok (some m) ∧ FileAfter inf.data u m = m.out ∧ m.out.length ≤ 128 ∧
      (m.ok = true → ∃ (salt : Bytes) (logN r p : Nat), env.sys.salt = some salt ∧ salt.length = 32 ∧ GoodParams logN r p ∧
        m.out = container (scryptCode pw salt (2 ^ logN) r p 64) logN r p salt []) ∧
      (∃ o, scryptenc_file env.sys ⟨[], false⟩ outf pw q.params q.verbose q.force = .ok o ∧ (m.ok = true ↔ o.rc = .OK) ∧ m.out = o.outf.written) := by
  have hw := openOutput_empty ho
  obtain ⟨o, he⟩ := encFile_total (passwd := pw) g ready (inf := ⟨[], false⟩) (outf := outf) (by decide) hP hl
  obtain ⟨j, hS⟩ := encFileS_sim env.sys c hB hst outf hw pw q.params q.verbose q.force o he
  rw [sameRun_session hi hs, if_neg (by rw [hq]; decide)]
  unfold encRunS
  rw [ho]
  simp only
  rw [hS, Res.bind_ok]
  simp only
  obtain ⟨m, h1, h2, h3, -, h5⟩ := cleanup_ok (env := env) (i := some i) (u := some u) (ev := openInputEv env (some i) ++ [.gotPass] ++ openOutputEv env (some u) ++ o.tr.map .key)
    (msgs := o.err.map .lib) (ck := false) (op := true) (rc := o.rc) (out := o.outf.written)
  rw [h1, Res.bind_ok]
  refine ⟨m, rfl, fileAfter_open ?_, ?_, fun hok => ?_, o, he, h2, h3⟩
  · rw [h5]
    simp only [List.mem_append]
    exact .inl (.inl (.inl (.inl (.inl (.inr (openOut_mem ho))))))
  · rw [h3]
    obtain ⟨s, -, -, -, -, b1, b2⟩ := encFile_spec g (by decide) he
    by_cases hrc : s.rc = .OK
    · obtain ⟨salt, l, -, hsl, -, -, hhd, -, -, -, ho2, -⟩ := b2 hrc
      have hx : ∀ x : Bytes, x.length ≤ 128 → (fwrite outf x).2.written.length ≤ 128 := fun x hx => by
        have := fwrite_written_le outf x
        rw [hw, List.length_nil] at this
        omega
      have h96 : s.header.length = 96 := by rw [hhd]; exact header96_length _ _ _ _ _ hsl
      have hdl : (dataCipher s.dk (⟨[], false⟩ : InFile).data).length = 0 := by rw [dataCipher_length]; rfl
      rw [ho2]
      split
      · exact hx _ (by omega)
      · split
        · exact hx _ (by rw [List.length_append, h96, hdl]; omega)
        · exact hx _ (by rw [container_length _ _ _ _ _ _ hsl]; exact Nat.le_refl _)
    · rw [(b1 hrc).2.1, hw]; decide
  · obtain ⟨salt, l, i1, i2, -, i4, -, -, -, -, -, i8⟩ := encFile_inv g (by decide) he (h2.1 hok)
    rw [hw, List.nil_append] at i8
    exact ⟨salt, l, _, _, i1, i2, i4, by rw [h3, i8]; rfl⟩

/-- **C88.**  `scrypt dec` with one file as input and output, when the header or the passphrase is refused or the file cannot be opened for writing:
the file is left alone. -/
theorem C88_dec_refused (env : MainEnv) (g : env.sys.Good) (ready : SelfTestReady env.sys) (c : Stdio) (q : Request)
    (hq : q.op = .dec) (i u : CStr) (hi : q.infile = some i) (pw : Bytes) (inf : InFile) (hs : Session env q pw inf)
    (hz : q.params.zero = true) (hl : LimitsOk env.sys q.params q.verbose q.force)
    (hno : openOutput env (some u) = none ∨ firstFail .OK (prepChecks env.sys pw q.params q.force inf.data inf.err) ≠ .OK) :
    ∃ m, sameRun env c q i u = .ok (some m) ∧ FileAfter inf.data u m = inf.data ∧ m.ok = false := by
  obtain ⟨p, hp⟩ := decPrep_total (passwd := pw) g ready (inf := inf) hz (fun _ => checkDefined g hl _)
  obtain ⟨p1, p2, p3, -⟩ := decPrep_spec g hp
  rw [sameRun_session hi hs, if_pos hq]
  unfold decRunS
  rw [hp, Res.bind_ok]
  simp only
  have hkeys : ∀ t : List Ev, MEv.openOut u true ∉ t.map MEv.key := fun t => keyEv_no t u true
  by_cases hrc : p.rc = .OK
  · have hnone : openOutput env (some u) = none := by
      rcases hno with h | h
      · exact h
      · rw [← prepVerdict_table g hl, ← p1] at h; exact absurd hrc h
    rw [if_neg (not_not.2 hrc), hnone]
    refine ⟨_, rfl, if_neg ?_, rfl⟩
    unfold encDecErr2
    simp only [List.mem_append, not_or]
    have ho : env.openOut u = none := by
      unfold openOutput at hnone
      simpa using hnone
    refine ⟨⟨⟨⟨⟨⟨openInputEv_no _ _ _ _, by simp⟩, hkeys _⟩, ?_⟩, ?_⟩, by simp⟩, closeInput_no _ _ _ _⟩
    · unfold openOutputEv; simp [ho]
    · simpa using cookieEv_no true u true
  · rw [if_pos hrc]
    obtain ⟨m, h1, h2, h3, -, h5⟩ := cleanup_ok (env := env) (i := some i) (u := some u) (ev := openInputEv env (some i) ++ [.gotPass] ++ p.tr.map .key)
      (msgs := p.err.map .lib) (ck := false) (op := false) (rc := p.rc) (out := [])
    rw [h1, Res.bind_ok]
    refine ⟨m, rfl, if_neg ?_, ?_⟩
    · rw [h5]
      simp only [List.mem_append, not_or]
      refine ⟨⟨⟨⟨⟨⟨openInputEv_no _ _ _ _, by simp⟩, hkeys _⟩, cookieEv_no _ _ _⟩, by simp⟩, closeInput_no _ _ _ _⟩, ?_⟩
      unfold closeOutput; simp
    · cases hm : m.ok with
      | false => rfl
      | true => exact absurd (h2.1 hm) hrc

theorem head_cut {D : Bytes} (h : 96 ≤ D.length) (n : Nat) : D.take (96 + n) = D.take 96 ++ (D.drop 96).take n := by
  rw [List.take_add]

theorem plaintext_cut {D : Bytes} (dk : Bytes) (h : 96 ≤ D.length) (n : Nat) : plaintext dk (D.take (96 + n)) <+: plaintext dk D := by
  unfold plaintext
  refine ctr_prefix _ ?_
  unfold field
  rw [List.drop_take, List.take_take, List.length_take]
  exact List.take_prefix_take_left (by omega)

/-- **C88.**  `scrypt dec` with one file as input and output, when the header and the passphrase are right: the run decrypts what the C library
had read ahead when the output was opened (`ahead` bytes after the header), and the file is that. -/
theorem C88_dec (env : MainEnv) (g : env.sys.Good) (ready : SelfTestReady env.sys) (c : Stdio) (q : Request)
    (hq : q.op = .dec) (i u : CStr) (hi : q.infile = some i) (hu : q.outfile = some u) (pw : Bytes) (inf : InFile) (hs : Session env q pw inf)
    (hin : inf.data.length < 2 ^ 64) (hst : inf.data.length < c.steps)
    (hz : q.params.zero = true) (hl : LimitsOk env.sys q.params q.verbose q.force)
    (hprep : firstFail .OK (prepChecks env.sys pw q.params q.force inf.data inf.err) = .OK) (outf : OutFile) (ho : openOutput env (some u) = some outf) :
    let D := inf.data.take (96 + c.ahead)
    let v := firstFail .OK (copyChecks env.sys pw D false outf)
    ∃ m, sameRun env c q i u = .ok (some m) ∧ FileAfter inf.data u m = m.out ∧ (m.ok = true ↔ v = .OK) ∧ (v ≠ .OK → Reports m.msgs q v) ∧
      (m.ok = true → m.out.length + 128 = D.length ∧
        D = container (scryptCode pw (hdrSalt D) (2 ^ hdrLogN D) (hdrR D) (hdrP D) 64) (hdrLogN D) (hdrR D) (hdrP D) (hdrSalt D) m.out) ∧
      m.out.length ≤ c.ahead - 32 ∧
      m.out <+: plaintext (scryptCode pw (hdrSalt inf.data) (2 ^ hdrLogN inf.data) (hdrR inf.data) (hdrP inf.data) 64) inf.data := by
  intro D v
  classical
  have hone : ∀ b : Bytes, (⟨[b], false⟩ : InFile).data = b := fun b => by simp [InFile.data]
  obtain ⟨p, hp⟩ := decPrep_total (passwd := pw) g ready (inf := inf) hz (fun _ => checkDefined g hl _)
  obtain ⟨p1, p2, -, -⟩ := decPrep_spec g hp
  have hv : prepVerdict env.sys inf pw q.params q.verbose q.force = .OK := by rw [prepVerdict_table g hl]; exact hprep
  have hrc : p.rc = .OK := by rw [p1, hv]
  have hU := (prepVerdict_ok.1 hv).2
  have hlen := hU.len
  obtain ⟨k, c1, c2, c3, c4, c5, c6, c7⟩ := p2 hrc
  have hw := openOutput_empty ho
  rw [sameRun_session hi hs, if_pos hq]
  unfold decRunS
  rw [hp, Res.bind_ok]
  simp only
  rw [if_neg (not_not.2 hrc), ho, c1]
  simp only
  rw [c2, c5, c3]
  have hbl : ((inf.data.drop 96).take c.ahead).length ≤ inf.data.length - 96 := by
    rw [List.length_take, List.length_drop]; omega
  obtain ⟨e, oc, oc', d1, d2, d3, d4, d5⟩ := decCopyS_sim g c ⟨96 + ((inf.data.drop 96).take c.ahead).length, (inf.data.drop 96).take c.ahead, 0⟩ (inf.data.take 96)
    (inpKey pw inf.data) outf (by rw [List.length_take]; omega) (inpKey_length _ _) (by dsimp only; omega) (by dsimp only; rw [hw, List.length_nil]; omega)
    (by dsimp only; omega)
  obtain ⟨o2, f1, f2, f3, -⟩ := decCopy_ok (g.shift e) ⟨⟨[(inf.data.drop 96).take c.ahead], false⟩, inf.data.take 96, inpKey pw inf.data⟩ outf
    (by dsimp only; rw [List.length_take]; omega) (inpKey_length _ _) (by rw [hone]; omega)
  rw [d1] at f1
  cases f1
  have hD : D = inf.data.take 96 ++ (inf.data.drop 96).take c.ahead := head_cut (by omega) _
  have hkey : inpKey pw D = inpKey pw inf.data := by rw [hD]; exact key_head (by omega) _ _
  dsimp only at f2 f3
  rw [hone] at f2 f3
  rw [← hD, show aesCode (env.sys.shift e) = aesCode env.sys from rfl, ← hkey, copyVerdict_table] at f2
  rw [← hD, show copyOut (env.sys.shift e) D outf (inpKey pw inf.data) = copyOut env.sys D outf (inpKey pw inf.data) from rfl] at f3
  rw [d2, Res.bind_ok]
  simp only
  obtain ⟨m, h1, h2, h3, h4, h5⟩ := cleanup_ok (env := env) (i := some i) (u := some u)
    (ev := openInputEv env (some i) ++ [.gotPass] ++ p.tr.map .key ++ openOutputEv env (some u) ++ oc'.tr.map .key)
    (msgs := p.err.map .lib) (ck := true) (op := true) (rc := oc'.rc) (out := oc'.outf.written)
  rw [h1, Res.bind_ok]
  have hvv : oc'.rc = v := by rw [d3, f2]
  have hDl : D.length ≤ 96 + c.ahead := List.length_take_le _ _
  have hout : m.out <+: plaintext (inpKey pw inf.data) D := by
    rw [h3, d4, f3]
    unfold copyOut
    split
    · obtain ⟨n, hn⟩ := Scrypt.fwrite_prefix outf (plaintext (inpKey pw inf.data) D)
      rw [hn, hw, List.nil_append]
      exact List.take_prefix _ _
    · rw [hw]; exact List.nil_prefix
  have hpl : (plaintext (inpKey pw inf.data) D).length = D.length - 128 := plaintext_length _ _
  refine ⟨m, rfl, fileAfter_open ?_, by rw [h2, hvv], fun hne => ?_, fun hok => ?_, ?_, ?_⟩
  · rw [h5]
    simp only [List.mem_append]
    exact .inl (.inl (.inl (.inl (.inl (.inr (openOut_mem ho))))))
  · obtain ⟨d, x1, x2⟩ := h4 (by rw [hvv]; exact hne)
    rw [hvv] at x2
    exact ⟨d, x1, by rw [hi, hu]; exact x2⟩
  · have hok' : v = .OK := by rw [← hvv]; exact h2.1 hok
    have hcv : copyVerdict D false outf (inpKey pw D) (aesCode env.sys) = .OK := by rw [copyVerdict_table]; exact hok'
    unfold copyVerdict at hcv
    by_cases h1' : aesCode env.sys = .OK
    case neg => rw [if_pos h1'] at hcv; exact absurd hcv h1'
    rw [if_neg (not_not.2 h1')] at hcv
    by_cases h2' : Fits outf (D.length - 128)
    case neg => rw [if_pos h2'] at hcv; cases hcv
    rw [if_neg (not_not.2 h2'), if_neg (by simp)] at hcv
    by_cases h3' : D.length < 128
    case pos => rw [if_pos h3'] at hcv; cases hcv
    rw [if_neg h3'] at hcv
    by_cases h4' : TagOk (inpKey pw D) D
    case neg => rw [if_pos h4'] at hcv; cases hcv
    have hmo : m.out = plaintext (inpKey pw D) D := by
      rw [h3, d4, f3, hkey, copyOut, if_pos h1', fwrite_fits (by rw [hpl]; exact h2'), hw, List.nil_append]
    have hf : ∀ a b, a + b ≤ 96 → field D a b = field inf.data a b := fun a b hab => by rw [hD]; exact field_head (by omega) _ _ _ hab
    refine ⟨by rw [hmo, hkey, hpl]; omega, ?_⟩
    rw [hmo]
    refine container_of_checks (inpKey pw D) D (by omega) ?_ ?_ ?_ ?_ h4'
    · have := hU.magic; unfold HasMagic at this ⊢; rw [hf _ _ (by omega)]; exact this
    · have := hU.version; unfold VersionOk at this ⊢; rw [hf _ _ (by omega)]; exact this
    · have := hU.sum; unfold ChecksumOk at this ⊢; rw [hf _ _ (by omega), hf _ _ (by omega)]; exact this
    · have := hU.pass; unfold PasswordOk at this ⊢; rw [hkey, hf _ _ (by omega), hf _ _ (by omega)]; exact this
  · have := hout.length_le
    omega
  · exact hout.trans (plaintext_cut _ (by omega) _)

/-- **C88.**  A file that the C library had read in full when the output was opened is decrypted in place as if the output were another file: if
the checks on it pass, it then contains the plaintext of which it was an encryption. -/
theorem C88_dec_whole (env : MainEnv) (g : env.sys.Good) (ready : SelfTestReady env.sys) (c : Stdio) (q : Request)
    (hq : q.op = .dec) (i u : CStr) (hi : q.infile = some i) (hu : q.outfile = some u) (pw : Bytes) (inf : InFile) (hs : Session env q pw inf)
    (hin : inf.data.length < 2 ^ 64) (hst : inf.data.length < c.steps) (hah : inf.data.length ≤ 96 + c.ahead)
    (hz : q.params.zero = true) (hl : LimitsOk env.sys q.params q.verbose q.force) (outf : OutFile) (ho : openOutput env (some u) = some outf)
    (hall : firstFail .OK (prepChecks env.sys pw q.params q.force inf.data inf.err ++ copyChecks env.sys pw inf.data false outf) = .OK) :
    ∃ m, sameRun env c q i u = .ok (some m) ∧ m.ok = true ∧ FileAfter inf.data u m = m.out ∧
      inf.data = container (scryptCode pw (hdrSalt inf.data) (2 ^ hdrLogN inf.data) (hdrR inf.data) (hdrP inf.data) 64) (hdrLogN inf.data)
        (hdrR inf.data) (hdrP inf.data) (hdrSalt inf.data) m.out := by
  obtain ⟨h1, h2⟩ := firstFail_split (b := copyChecks env.sys pw inf.data false outf) (prepChecks_codes env.sys pw q.params q.force inf.data inf.err)
  have hp : firstFail .OK (prepChecks env.sys pw q.params q.force inf.data inf.err) = .OK := by
    by_cases h : firstFail .OK (prepChecks env.sys pw q.params q.force inf.data inf.err) = .OK
    · exact h
    · exact absurd (h2 h ▸ hall) h
  rw [h1 hp] at hall
  obtain ⟨m, a1, a2, a3, -, a5, -⟩ := C88_dec env g ready c q hq i u hi hu pw inf hs hin hst hz hl hp outf ho
  rw [List.take_of_length_le hah] at a3 a5
  exact ⟨m, a1, a3.2 hall, a2, (a5 (a3.2 hall)).2⟩

/-- **C88.**  A longer file does not survive: whatever the run reports, the file is then a beginning of the plaintext, and not all of it. -/
theorem C88_dec_lost (env : MainEnv) (g : env.sys.Good) (ready : SelfTestReady env.sys) (c : Stdio) (q : Request)
    (hq : q.op = .dec) (i u : CStr) (hi : q.infile = some i) (hu : q.outfile = some u) (pw : Bytes) (inf : InFile) (hs : Session env q pw inf)
    (hin : inf.data.length < 2 ^ 64) (hst : inf.data.length < c.steps) (hah : 96 + c.ahead < inf.data.length)
    (hz : q.params.zero = true) (hl : LimitsOk env.sys q.params q.verbose q.force)
    (hprep : firstFail .OK (prepChecks env.sys pw q.params q.force inf.data inf.err) = .OK) (outf : OutFile) (ho : openOutput env (some u) = some outf)
    (logN r p : Nat) (salt M : Bytes) (hsalt : salt.length = 32) (hN : logN < 256) (hr : r < 2 ^ 32) (hp : p < 2 ^ 32)
    (hC : inf.data = container (scryptCode pw salt (2 ^ logN) r p 64) logN r p salt M) (hM : M ≠ []) :
    ∃ m, sameRun env c q i u = .ok (some m) ∧ FileAfter inf.data u m <+: M ∧ (FileAfter inf.data u m).length < M.length ∧
      (FileAfter inf.data u m).length ≤ c.ahead - 32 := by
  have hF := container_fields (scryptCode pw salt (2 ^ logN) r p 64) logN r p salt M hsalt hN hr hp
  rw [← hC] at hF
  obtain ⟨m, a1, a2, -, -, -, a6, a7⟩ := C88_dec env g ready c q hq i u hi hu pw inf hs hin hst hz hl hprep outf ho
  rw [hF.salt, hF.logN, hF.r, hF.p, hF.text] at a7
  refine ⟨m, a1, ?_, ?_, ?_⟩
  · rw [a2]; exact a7
  · rw [a2]
    have := hF.len
    have : 0 < M.length := List.length_pos_iff.2 hM
    omega
  · rw [a2]; exact a6

/-- `scrypt enc f f` -/
def exInPlace : Spec.Request := { exRequest with outfile := some "in".toList }

/-- The hypotheses of `C88_enc` are met whatever the file contains, and the run succeeds. -/
theorem exInPlace_enc (sha : ShaHw) (hw : AesHw) (segs : List Bytes) :
    ∃ m, sameRun (exMain sha hw "in".toList segs) ⟨4096, fun _ => 4095, fun _ => 4096, 1, 0⟩ exInPlace "in".toList "in".toList = .ok (some m) ∧
      m.ok = true ∧ FileAfter segs.flatten "in".toList m = container (scryptCode [0x68, 0x69] exSalt (2 ^ 10) 8 1 64) 10 8 1 exSalt [] := by
  have hP : exInPlace.params = exP := exParams
  have g := exEnc_good sha hw exSalt_length
  have hs : Session (exMain sha hw "in".toList segs) exInPlace [0x68, 0x69] ⟨segs, false⟩ := ⟨_, rfl, rfl, .file (n := "in".toList) rfl (by simp [exMain])⟩
  obtain ⟨m, a1, a2, -, a4, o, a5, a6, a7⟩ := C88_enc (exMain sha hw "in".toList segs) g (exEnc_ready sha hw exSalt) ⟨4096, fun _ => 4095, fun _ => 4096, 1, 0⟩
    (by decide) (by decide) exInPlace rfl "in".toList "in".toList rfl [0x68, 0x69] ⟨segs, false⟩ hs ⟨[], none⟩ rfl (by rw [hP]; exact exP_nonzero)
    (by rw [hP]; exact ⟨fun _ => exLimits sha hw exSalt exP rfl _ _, fun h => by cases h⟩)
  obtain ⟨of, e1, e2, e3⟩ := exEnc_file sha hw exSalt_length ⟨[], false⟩ ⟨[], none⟩ [0x68, 0x69] (by decide) rfl (by intro k hk; cases hk) exInPlace.verbose exInPlace.force
  rw [hP] at a5
  have e1' : scryptenc_file (exMain sha hw "in".toList segs).sys ⟨[], false⟩ ⟨[], none⟩ [0x68, 0x69] exP exInPlace.verbose exInPlace.force = .ok of := e1
  rw [e1'] at a5
  cases a5
  refine ⟨m, a1, a6.2 e2, ?_⟩
  have hcut : FileAfter segs.flatten "in".toList m = m.out := a2
  obtain ⟨salt, l, i1, i2, i3, i4, -, -, -, -, -, i8⟩ := encFile_inv g (by decide) e1 e2
  rw [hcut, a7, i8]
  have : exSalt = salt := by
    have : (exEnc sha hw exSalt).salt = some exSalt := rfl
    rw [this] at i1; cases i1; rfl
  subst this
  rw [e3] at i3
  have hl : l = 10 := by
    have : (10 : Int) = l := i3
    omega
  subst hl
  rw [e3, show exP.r.toNat = 8 from by decide, show exP.p.toNat = 1 from by decide]
  show [] ++ _ = _
  rw [List.nil_append, show (⟨[], false⟩ : InFile).data = [] from rfl]

/-- `scrypt dec f f` -/
def exInPlace2 : Spec.Request := { exRequest2 with outfile := some "out".toList }

/-- The encryption of three bytes: 131 bytes. -/
def exThree : Bytes := container (scryptCode [0x68, 0x69] exSalt (2 ^ 10) 8 1 64) 10 8 1 exSalt [1, 2, 3]

theorem exThree_length : exThree.length = 131 := container_length _ _ _ _ _ _ exSalt_length

theorem exThree_checks (sha : ShaHw) (hw : AesHw) :
    firstFail .OK (prepChecks (exEnc sha hw exSalt) [0x68, 0x69] exInPlace2.params exInPlace2.force exThree false ++
      copyChecks (exEnc sha hw exSalt) [0x68, 0x69] exThree false ⟨[], none⟩) = .OK := by
  obtain ⟨o, o', h1, h2, h3, h4, h5⟩ := exMain_roundtrip sha sha hw hw [[1, 2, 3]] (by decide)
  obtain ⟨o'', k1, -, k3⟩ := exMain_enc sha hw [[1, 2, 3]] (by decide)
  rw [h1] at k1
  cases k1
  have hone : ∀ b : Bytes, (⟨[b], false⟩ : InFile).data = b := fun b => by simp [InFile.data]
  have k3' : o.out = exThree := k3
  rw [k3'] at h3
  rw [C33_accepted (exMain sha hw "out".toList [exThree]) rfl (by show 2 ^ 64 - 1 < 2 ^ 64; norm_num) "scrypt".toList exArgs2 (by unfold NoNul; decide)
    exRequest2 (exRequests2 _ _)] at h3
  have := (C35_dec (exMain sha hw "out".toList [exThree]) (exEnc_good sha hw exSalt_length) exRequest2 rfl ⟨fun h => (by cases h), fun _ => ⟨rfl, rfl⟩⟩
    (fun _ _ _ => rfl) o' h3 [0x68, 0x69] ⟨[exThree], false⟩ (exSession2 sha hw [exThree]) (by rw [hone, exThree_length]; norm_num) ⟨[], none⟩ rfl).1.1 h4
  rw [hone] at this
  exact this

/-- The hypotheses of `C88_dec_whole` and `C88_dec_lost` are met: with 35 bytes read ahead the three bytes come out, with 34 at most two of them are left. -/
theorem exInPlace_dec (sha : ShaHw) (hw : AesHw) :
    (∃ m, sameRun (exMain sha hw "out".toList [exThree]) ⟨1024, fun _ => 1023, fun _ => 1024, 132, 35⟩ exInPlace2 "out".toList "out".toList = .ok (some m) ∧
      m.ok = true ∧ FileAfter exThree "out".toList m = [1, 2, 3]) ∧
    (∃ m, sameRun (exMain sha hw "out".toList [exThree]) ⟨1024, fun _ => 1023, fun _ => 1024, 132, 34⟩ exInPlace2 "out".toList "out".toList = .ok (some m) ∧
      FileAfter exThree "out".toList m <+: [1, 2, 3] ∧ (FileAfter exThree "out".toList m).length ≤ 2) := by
  have hone : ∀ b : Bytes, (⟨[b], false⟩ : InFile).data = b := fun b => by simp [InFile.data]
  have hl := exThree_length
  have g := exEnc_good sha hw exSalt_length
  have hs : Session (exMain sha hw "out".toList [exThree]) exInPlace2 [0x68, 0x69] ⟨[exThree], false⟩ :=
    ⟨_, rfl, rfl, .file (n := "out".toList) rfl (by simp [exMain])⟩
  have hall := exThree_checks sha hw
  have hD := container_fields (scryptCode [0x68, 0x69] exSalt (2 ^ 10) 8 1 64) 10 8 1 exSalt [1, 2, 3] exSalt_length (by norm_num) (by norm_num) (by norm_num)
  refine ⟨?_, ?_⟩
  · obtain ⟨m, a1, a2, a3, a4⟩ := C88_dec_whole (exMain sha hw "out".toList [exThree]) g (exEnc_ready sha hw exSalt) ⟨1024, fun _ => 1023, fun _ => 1024, 132, 35⟩
      exInPlace2 rfl "out".toList "out".toList rfl rfl [0x68, 0x69] ⟨[exThree], false⟩ hs (by rw [hone, hl]; norm_num) (by rw [hone, hl]; norm_num)
      (by rw [hone, hl]; show 131 ≤ 96 + 35; norm_num) (by decide) ⟨fun h => (by cases h), fun _ => ⟨rfl, rfl⟩⟩ ⟨[], none⟩ rfl (by rw [hone]; exact hall)
    rw [hone] at a3 a4
    refine ⟨m, a1, a2, ?_⟩
    rw [a3]
    have e1 : plaintext (scryptCode [0x68, 0x69] exSalt (2 ^ 10) 8 1 64) exThree = [1, 2, 3] := hD.text
    have hS : hdrSalt exThree = exSalt := hD.salt
    have hN : hdrLogN exThree = 10 := hD.logN
    have hR : hdrR exThree = 8 := hD.r
    have hP : hdrP exThree = 1 := hD.p
    rw [hS, hN, hR, hP] at a4
    have e2 := (container_fields (scryptCode [0x68, 0x69] exSalt (2 ^ 10) 8 1 64) 10 8 1 exSalt m.out exSalt_length (by norm_num) (by norm_num) (by norm_num)).text
    rw [← a4, e1] at e2
    exact e2.symm
  · obtain ⟨h1, h2⟩ := firstFail_split (b := copyChecks (exEnc sha hw exSalt) [0x68, 0x69] exThree false ⟨[], none⟩)
      (prepChecks_codes (exEnc sha hw exSalt) [0x68, 0x69] exInPlace2.params exInPlace2.force exThree false)
    have hp : firstFail .OK (prepChecks (exEnc sha hw exSalt) [0x68, 0x69] exInPlace2.params exInPlace2.force exThree false) = .OK := by
      by_cases h : firstFail .OK (prepChecks (exEnc sha hw exSalt) [0x68, 0x69] exInPlace2.params exInPlace2.force exThree false) = .OK
      · exact h
      · exact absurd (h2 h ▸ hall) h
    obtain ⟨m, a1, a2, a3, a4⟩ := C88_dec_lost (exMain sha hw "out".toList [exThree]) g (exEnc_ready sha hw exSalt) ⟨1024, fun _ => 1023, fun _ => 1024, 132, 34⟩
      exInPlace2 rfl "out".toList "out".toList rfl rfl [0x68, 0x69] ⟨[exThree], false⟩ hs (by rw [hone, hl]; norm_num) (by rw [hone, hl]; norm_num)
      (by rw [hone, hl]; norm_num) (by decide) ⟨fun h => (by cases h), fun _ => ⟨rfl, rfl⟩⟩ (by rw [hone]; exact hp) ⟨[], none⟩ rfl 10 8 1 exSalt [1, 2, 3]
      exSalt_length (by norm_num) (by norm_num) (by norm_num) (by rw [hone]; rfl) (by simp)
    rw [hone] at a2 a4
    exact ⟨m, a1, a2, a4⟩

end Scrypt.Props
