import Verif.Props.MainRun
/-
Non-vacuity for C33, C34, C35, C41: a complete session, from the command line to the files: `scrypt enc ... in out`, then `scrypt dec ... out back`.
-/
namespace Scrypt.Props
open Scrypt Spec F64

/-- A standard input nobody has typed anything on. -/
def exRpQuiet : RpEnv := ⟨none, ⟨[], .wait⟩, false, false, true, true, true, true, fun _ => [], fun _ => 0, fun _ => 0⟩

/-- An environment: the variable PW is set, the file `name` contains `segs`, every file can be written to. -/
def exMain (sha : ShaHw) (hw : AesHw) (name : CStr) (segs : List Bytes) : MainEnv :=
  { mallocOk := true, sd := fun _ => (.nan, 0, false), sys := exEnc sha hw exSalt,
    pe := ⟨exRpQuiet, fun v => if v = "PW".toList then some [0x68, 0x69] else none, true, fun _ => ⟨none, true, true, fun _ => 0⟩⟩,
    cut := fun x => [x], openIn := fun n => if n = name then some ⟨segs, false⟩ else none, openOut := fun _ => some none, trunc := fun _ f => f,
    stdoutRoom := none, fcloseIn := true, fcloseOut := true, version := "1".toList }

/-- scrypt dec -v --passphrase env:PW out back -/
def exArgs2 : List CStr := ["dec", "-fv", "--passphrase", "env:PW", "out", "back"].map String.toList

def exRequest2 : Request := ⟨.dec, true, true, 0, .fin false (1 / 2), .fin false 300, 0, 0, 0, .env, "PW".toList, some "out".toList, some "back".toList⟩

def exEvs2 : List OptEv := [.flag "-f".toList, .flag "-v".toList, .arg "--passphrase".toList "env:PW".toList]

theorem exRequests2 (sd : Strtod) (szMax : Nat) : Requests sd szMax exArgs2 exRequest2 := by
  refine ⟨exArgs2.tail, exEvs2, ["out".toList, "back".toList], rfl, ?_, ?_⟩
  · refine .group (c := 'f') (cs := ['v']) (by decide) (.shortFlag (by decide) (.shortFlag (by decide) ?_))
    refine .longArg (n := "passphrase".toList) (by decide) (by decide) ?_
    exact .operand (by decide)
  have none : ∀ {α : Type} {o : CStr} {V : CStr → α → Prop} {d : α}, valuesOf o exEvs2 = [] → Sets o exEvs2 V d d := by
    intro α o V d h
    unfold Sets
    rw [h]
    exact ⟨by simp, rfl⟩
  refine ⟨?_, ?_, ?_, none (by decide), none (by decide), none (by decide), none (by decide), none (by decide), none (by decide), ?_, ?_, ?_, ?_, ?_⟩
  · intro e he
    simp only [exEvs2, List.mem_cons, List.not_mem_nil, or_false] at he
    rcases he with rfl | rfl | rfl
    · exact .inl ⟨_, rfl⟩
    · exact .inl ⟨_, rfl⟩
    · exact .inr ⟨_, _, rfl⟩
  · exact iff_of_true rfl (by decide)
  · exact iff_of_true rfl (by decide)
  · exact .method (v := "env:PW".toList) (.env "PW".toList)
  · exact .inl ⟨by decide, by decide, by decide⟩
  · intro s h
    have := (F64.fin.inj h).2
    norm_num at this
  · exact ⟨"out".toList, .inr ⟨"back".toList, rfl, rfl⟩, by decide⟩
  · exact fun h => absurd h.1 (by decide)

theorem exSession (sha : ShaHw) (hw : AesHw) (segs : List Bytes) : Session (exMain sha hw "in".toList segs) exRequest [0x68, 0x69] ⟨segs, false⟩ :=
  ⟨_, rfl, rfl, .file (n := "in".toList) rfl (by simp [exMain])⟩

theorem exSession2 (sha : ShaHw) (hw : AesHw) (segs : List Bytes) : Session (exMain sha hw "out".toList segs) exRequest2 [0x68, 0x69] ⟨segs, false⟩ :=
  ⟨_, rfl, rfl, .file (n := "out".toList) rfl (by simp [exMain])⟩

theorem exParams : exRequest.params = exP := by
  unfold Request.params exRequest exP
  rw [ofNat_small (by norm_num)]
  rfl

/-- Encrypting any file (of less than 2^64 - 128 bytes) exits 0. -/
theorem exMain_enc (sha : ShaHw) (hw : AesHw) (segs : List Bytes) (hlen : segs.flatten.length + 128 < 2 ^ 64) :
    ∃ o, scryptMain (exMain sha hw "in".toList segs) ("scrypt".toList :: exArgs) = .ok (some o) ∧ o.exit = 0 ∧
      o.out = container (scryptCode [0x68, 0x69] exSalt (2 ^ 10) 8 1 64) 10 8 1 exSalt segs.flatten := by
  have g := exEnc_good sha hw exSalt_length
  obtain ⟨of, e1, e2, -⟩ := exEnc_file sha hw exSalt_length ⟨segs, false⟩ ⟨[], none⟩ [0x68, 0x69] hlen rfl (by intro k hk; cases hk) false true
  have e1 : scryptenc_file (exMain sha hw "in".toList segs).sys ⟨segs, false⟩ ⟨[], none⟩ [0x68, 0x69] exP false true = .ok of := e1
  have hacc := C33_accepted (exMain sha hw "in".toList segs) rfl (by show 2 ^ 64 - 1 < 2 ^ 64; norm_num) "scrypt".toList exArgs (by unfold NoNul; decide) exRequest
    (exRequests _ _)
  obtain ⟨m, hm⟩ : ∃ m, operate (exMain sha hw "in".toList segs) exRequest ⟨segs, false⟩ [0x68, 0x69] = .ok m := by
    rw [operate_enc rfl]
    unfold encRun
    rw [show openOutput (exMain sha hw "in".toList segs) exRequest.outfile = some ⟨[], none⟩ from rfl]
    simp only []
    rw [show truncated (exMain sha hw "in".toList segs) exRequest.outfile ⟨segs, false⟩ = ⟨segs, false⟩ from rfl, exParams]
    rw [show exRequest.verbose = false from rfl, show exRequest.force = true from rfl, e1, Res.bind_ok]
    obtain ⟨m, hm, -⟩ := cleanup_ok (env := exMain sha hw "in".toList segs) (i := exRequest.infile) (u := exRequest.outfile)
      (ev := openInputEv (exMain sha hw "in".toList segs) exRequest.infile ++ [.gotPass] ++ openOutputEv (exMain sha hw "in".toList segs) exRequest.outfile ++
        of.tr.map .key) (msgs := of.err.map .lib) (ck := false) (op := exRequest.outfile.isSome) (rc := of.rc) (out := of.outf.written)
    exact ⟨m, hm⟩
  have hperf : perform (exMain sha hw "in".toList segs) exRequest = .ok (some (toExit m)) := by
    rw [perform_session (by decide) (exSession sha hw segs), hm, Res.bind_ok]
  refine ⟨toExit m, by rw [hacc, hperf], ?_⟩
  have hm' := hm
  rw [operate_enc rfl] at hm'
  obtain ⟨of', f1, f2, f3, -⟩ := encRun_file (outf := ⟨[], none⟩) rfl hm'
  rw [show truncated (exMain sha hw "in".toList segs) exRequest.outfile ⟨segs, false⟩ = ⟨segs, false⟩ from rfl, exParams] at f1
  have h0 : (toExit m).exit = 0 := by
    rw [exit_eq, f2]
    have : Res.ok of = Res.ok of' := e1.symm.trans f1
    cases this
    exact e2
  refine ⟨h0, ?_⟩
  obtain ⟨-, salt, l, r, p, a1, -, -, a2, -, a3⟩ := (C35_enc _ g exRequest rfl (fun _ _ _ => rfl) _ hperf _ _ (exSession sha hw segs)
    (by show segs.flatten.length < 2 ^ 64; omega)).1 h0
  obtain ⟨rfl, rfl, rfl⟩ := a2 (by decide) (by decide) (by decide)
  cases a1
  exact a3

/-- ... and decrypting the result, on any other hardware, gives the file back. -/
theorem exMain_roundtrip (sha sha' : ShaHw) (hw hw' : AesHw) (segs : List Bytes) (hlen : segs.flatten.length + 128 < 2 ^ 64) :
    ∃ o o', scryptMain (exMain sha hw "in".toList segs) ("scrypt".toList :: exArgs) = .ok (some o) ∧ o.exit = 0 ∧
      scryptMain (exMain sha' hw' "out".toList [o.out]) ("scrypt".toList :: exArgs2) = .ok (some o') ∧ o'.exit = 0 ∧ o'.out = segs.flatten := by
  obtain ⟨o, h1, h2, h3⟩ := exMain_enc sha hw segs hlen
  have hacc := C33_accepted (exMain sha hw "in".toList segs) rfl (by show 2 ^ 64 - 1 < 2 ^ 64; norm_num) "scrypt".toList exArgs (by unfold NoNul; decide) exRequest
    (exRequests _ _)
  have hacc2 := C33_accepted (exMain sha' hw' "out".toList [o.out]) rfl (by show 2 ^ 64 - 1 < 2 ^ 64; norm_num) "scrypt".toList exArgs2 (by unfold NoNul; decide)
    exRequest2 (exRequests2 _ _)
  rw [hacc] at h1
  have hD := container_fields (scryptCode [0x68, 0x69] exSalt (2 ^ 10) 8 1 64) 10 8 1 exSalt segs.flatten exSalt_length (by norm_num) (by norm_num) (by norm_num)
  obtain ⟨o', e1, e2, e3⟩ := C35_roundtrip (exMain sha hw "in".toList segs) (exMain sha' hw' "out".toList [o.out]) (exEnc_good sha hw exSalt_length)
    (exEnc_good sha' hw' exSalt_length) (exEnc_ready sha' hw' exSalt) exRequest exRequest2 rfl rfl (fun _ _ _ => rfl) (fun _ _ _ => rfl) [0x68, 0x69]
    ⟨segs, false⟩ ⟨[o.out], false⟩ (exSession sha hw segs) (exSession2 sha' hw' [o.out]) hlen o h1 h2 (by simp [InFile.data]) rfl ⟨[], none⟩ rfl
    (by intro k hk; cases hk) (by decide) ⟨fun h => (by cases h), fun _ => ⟨rfl, rfl⟩⟩ (.inl rfl)
    (by rw [h3, hD.logN, hD.r, hD.p]; exact exEnc_kdf sha' hw' exSalt) (exEnc_aes sha' hw' exSalt) rfl
  exact ⟨o, o', by rw [hacc, h1], h2, by rw [hacc2, e1], e2, e3⟩

example (sha sha' : ShaHw) (hw hw' : AesHw) :
    ∃ o o', scryptMain (exMain sha hw "in".toList [[1], [], [2, 3]]) ("scrypt".toList :: exArgs) = .ok (some o) ∧ o.exit = 0 ∧
      scryptMain (exMain sha' hw' "out".toList [o.out]) ("scrypt".toList :: exArgs2) = .ok (some o') ∧ o'.exit = 0 ∧ o'.out = [1, 2, 3] :=
  exMain_roundtrip sha sha' hw hw' [[1], [], [2, 3]] (by decide)

/-- A wrong file (no scrypt header): the hypotheses of `C34_failed` are met. -/
example (sha : ShaHw) (hw : AesHw) : ∃ o, scryptMain (exMain sha hw "out".toList [[1, 2, 3]]) ("scrypt".toList :: exArgs2) = .ok (some o) ∧ o.exit = 1 ∧
    ¬ OpensOut o.ev ∧ o.out = [] ∧ Reports o.msgs exRequest2 .EINVAL := by
  have g := exEnc_good sha hw exSalt_length
  have hacc2 := C33_accepted (exMain sha hw "out".toList [[1, 2, 3]]) rfl (by show 2 ^ 64 - 1 < 2 ^ 64; norm_num) "scrypt".toList exArgs2 (by unfold NoNul; decide)
    exRequest2 (exRequests2 _ _)
  have hl : LimitsOk (exMain sha hw "out".toList [[1, 2, 3]]).sys exRequest2.params exRequest2.verbose exRequest2.force :=
    ⟨fun h => (by cases h), fun _ => ⟨rfl, rfl⟩⟩
  obtain ⟨r, hr⟩ := C35_total (exMain sha hw "out".toList [[1, 2, 3]]) g (exEnc_ready sha hw exSalt) exRequest2 (by decide) (fun _ _ _ => Nat.le_refl _)
    (fun pw inf hs => by obtain ⟨-, rfl⟩ := (exSession2 sha hw [[1, 2, 3]]).unique hs; decide)
    (fun _ => ⟨⟨rfl, rfl, rfl⟩, hl⟩) (fun h => by cases h)
  have hr' := hr
  rw [perform_session (by decide) (exSession2 sha hw [[1, 2, 3]]), Res.bind_eq_ok] at hr'
  obtain ⟨m, -, hr'⟩ := hr'
  cases hr'
  have hc : firstFail .OK (prepChecks (exMain sha hw "out".toList [[1, 2, 3]]).sys [0x68, 0x69] exRequest2.params exRequest2.force [1, 2, 3] false) = .EINVAL := by
    unfold prepChecks
    simp only [List.cons_append]
    rw [firstFail_cons (show (exMain sha hw "out".toList [[1, 2, 3]]).sys.cookieOk = true from rfl), firstFail_stop (by decide)]
    rfl
  obtain ⟨a1, a2, a3, a4⟩ := C34_failed (exMain sha hw "out".toList [[1, 2, 3]]) g exRequest2 rfl hl _ hr _ _ (exSession2 sha hw [[1, 2, 3]])
    (by show firstFail .OK (prepChecks _ _ _ _ [1, 2, 3] false) ≠ .OK; rw [hc]; decide)
  have a4 : Reports _ _ (firstFail .OK (prepChecks (exMain sha hw "out".toList [[1, 2, 3]]).sys [0x68, 0x69] exRequest2.params exRequest2.force [1, 2, 3] false)) := a4
  rw [hc] at a4
  exact ⟨_, by rw [hacc2, hr], a1, a2, a3, a4⟩

end Scrypt.Props
