import Verif.Props.NoCrash
/-
C35 without the assumption that the output is not the input: `scrypt dec x x`, finding F30.
-/
namespace Scrypt.Props
open Scrypt Spec

/-- **C35**, decryption, also if the output file is the input file.  `D`: the header that was read before the output file was opened, and what could be read
of the input after that.  Exit status 0 exactly if all checks on the header pass, and the checks on `D` do; then the output is the message of which `D` is the
encryption.  Otherwise the exit status is 1, the reason is reported, and the output is a beginning of what `D` decrypts to. -/
theorem C35_dec_same_file (env : MainEnv) (g : env.sys.Good) (q : Request) (hq : q.op = .dec) (hl : LimitsOk env.sys q.params q.verbose q.force)
    (hn : NeverLonger env q) (o : MainOut) (h : perform env q = .ok (some o)) (pw : Bytes) (inf : InFile) (hs : Session env q pw inf)
    (hin : inf.data.length < 2 ^ 64) (outf : OutFile) (ho : openOutput env q.outfile = some outf) :
    ∃ rest, LeftAfterOpen env q inf rest ∧
    let D := inf.data.take 96 ++ rest.data
    let c := firstFail .OK (prepChecks env.sys pw q.params q.force inf.data inf.err ++ copyChecks env.sys pw D rest.err outf)
    (o.exit = 0 ↔ c = .OK) ∧ (c ≠ .OK → o.exit = 1 ∧ Reports o.msgs q c) ∧
    (o.exit = 0 → o.out.length + 128 = D.length ∧ rest.err = false ∧
      D = container (scryptCode pw (hdrSalt D) (2 ^ hdrLogN D) (hdrR D) (hdrP D) 64) (hdrLogN D) (hdrR D) (hdrP D) (hdrSalt D) o.out) ∧
    (∃ n, o.out = (plaintext (scryptCode pw (hdrSalt D) (2 ^ hdrLogN D) (hdrR D) (hdrP D) 64) D).take n) := by
  obtain ⟨m, hm, rfl⟩ := session_run (by rw [hq]; decide) h hs
  rw [operate_dec hq] at hm
  obtain ⟨rest, hL, rc, r1, r2, r3, -, -, r4⟩ := decRun_cut g hn hin ho hm
  refine ⟨rest, hL, ?_⟩
  intro D c
  have hw := openOutput_empty ho
  have hc : rc = c := by
    obtain ⟨h1, h2⟩ := firstFail_split (b := copyChecks env.sys pw D rest.err outf) (prepChecks_codes env.sys pw q.params q.force inf.data inf.err)
    have ht := prepVerdict_table g (inf := inf) (passwd := pw) hl
    by_cases hp : prepVerdict env.sys inf pw q.params q.verbose q.force = .OK
    · have hlen := (prepVerdict_ok.1 hp).2.len
      rw [r1, if_neg (not_not.2 hp)]
      have := key_head hlen rest.data pw
      rw [← this, copyVerdict_table]
      exact (h1 (by rw [← ht]; exact hp)).symm
    · rw [r1, if_pos hp]
      show _ = firstFail _ _
      rw [h2 (by rw [← ht]; exact hp), ht]
  rw [exit_eq, r3, hc]
  refine ⟨Iff.rfl, fun hne => ⟨?_, ?_⟩, fun hok => ?_, ?_⟩
  · rcases exit_one (m := m) with h0 | h0
    · exact absurd (hc ▸ r3.1 (exit_eq.1 h0)) hne
    · exact h0
  · have := r4 (by rw [hc]; exact hne)
    rw [hc] at this
    exact this
  · by_cases hp : prepVerdict env.sys inf pw q.params q.verbose q.force = .OK
    case neg =>
      rw [if_pos hp] at r1
      exact absurd (r1.symm.trans (hc.trans hok)) hp
    have hU := (prepVerdict_ok.1 hp).2
    have hlen := hU.len
    have hk := key_head hlen rest.data pw
    rw [if_neg (not_not.2 hp)] at r1
    rw [if_pos hp] at r2
    have hv : copyVerdict D rest.err outf (inpKey pw inf.data) (aesCode env.sys) = .OK := by rw [← r1, hc, hok]
    unfold copyVerdict at hv
    by_cases a1 : aesCode env.sys = .OK
    case neg => rw [if_pos a1] at hv; exact absurd hv a1
    rw [if_neg (not_not.2 a1)] at hv
    by_cases a2 : Fits outf (D.length - 128)
    case neg => rw [if_pos a2] at hv; cases hv
    rw [if_neg (not_not.2 a2)] at hv
    by_cases a3 : rest.err = true
    · rw [if_pos a3] at hv; cases hv
    rw [if_neg a3] at hv
    by_cases a4 : D.length < 128
    · rw [if_pos a4] at hv; cases hv
    rw [if_neg a4] at hv
    by_cases a5 : TagOk (inpKey pw inf.data) D
    case neg => rw [if_pos a5] at hv; cases hv
    have e1 : HasMagic D := by unfold HasMagic; rw [field_head hlen rest.data 0 6 (by omega)]; exact hU.magic
    have e2 : VersionOk D := by unfold VersionOk; rw [field_head hlen rest.data 6 1 (by omega)]; exact hU.version
    have e3 : ChecksumOk D := by
      unfold ChecksumOk
      rw [field_head hlen rest.data 48 16 (by omega), field_head hlen rest.data 0 48 (by omega)]; exact hU.sum
    have e4 : PasswordOk (inpKey pw D) D := by
      unfold PasswordOk
      rw [hk, field_head hlen rest.data 64 32 (by omega), field_head hlen rest.data 0 64 (by omega)]; exact hU.pass
    have hcont := container_of_checks (inpKey pw D) D (by omega) e1 e2 e3 e4 (by rw [hk]; exact a5)
    have hpl : (plaintext (inpKey pw D) D).length = D.length - 128 := plaintext_length _ _
    have hout : m.out = plaintext (inpKey pw D) D := by
      rw [r2, copyOut, if_pos a1, ← hk, fwrite_fits (by rw [hpl]; exact a2), hw, List.nil_append]
    show m.out.length + 128 = _ ∧ _ ∧ D = container _ _ _ _ _ m.out
    rw [hout]
    exact ⟨by omega, by simpa using a3, hcont⟩
  · show ∃ n, m.out = _
    by_cases hp : prepVerdict env.sys inf pw q.params q.verbose q.force = .OK
    case neg =>
      rw [if_neg hp] at r2
      exact ⟨0, by rw [r2, List.take_zero]⟩
    have hk := key_head (prepVerdict_ok.1 hp).2.len rest.data pw
    rw [if_pos hp] at r2
    rw [r2]
    unfold copyOut
    split
    · rw [← hk]
      obtain ⟨n, e⟩ := fwrite_prefix outf (plaintext (inpKey pw D) D)
      exact ⟨n, by rw [e, hw, List.nil_append]; rfl⟩
    · exact ⟨0, by rw [hw, List.take_zero]⟩

/-- **Finding F30.**  `scrypt dec x x`: `x` is the encryption of `m` with this passphrase, and opening the output leaves only `k` bytes of the input after the
header to be read (what stdio had already read ahead), fewer than there were.  Then at most `k - 32` bytes of the message come out, and since the output file is
the input file, the rest of it is lost.  The exit status is 1, unless the shortened file happens to be a valid encryption of what came out (an HMAC forgery). -/
theorem C35_F30_same_file (env : MainEnv) (g : env.sys.Good) (q : Request) (hq : q.op = .dec) (hl : LimitsOk env.sys q.params q.verbose q.force)
    (n : CStr) (hn : q.outfile = some n) (k : Nat) (htr : ∀ f, (env.trunc n f).data = f.data.take k) (hok : ∀ s, env.openOut s ≠ none)
    (o : MainOut) (h : perform env q = .ok (some o)) (pw : Bytes) (inf : InFile) (hs : Session env q pw inf)
    (logN r p : Nat) (salt m : Bytes) (hsalt : salt.length = 32) (hN : logN < 256) (hr : r < 2 ^ 32) (hp : p < 2 ^ 32)
    (hin : inf.data = container (scryptCode pw salt (2 ^ logN) r p 64) logN r p salt m) (hm : m.length + 128 < 2 ^ 64) (hk : k < m.length + 32) :
    o.out <+: m ∧ o.out.length ≤ k - 32 ∧
      (o.exit = 1 ∨ (32 ≤ k ∧ inf.data.take (96 + k) = container (scryptCode pw salt (2 ^ logN) r p 64) logN r p salt o.out)) := by
  have hD := container_fields (scryptCode pw salt (2 ^ logN) r p 64) logN r p salt m hsalt hN hr hp
  rw [← hin] at hD
  have hlen := hD.len
  obtain ⟨outf, ho⟩ : ∃ outf, openOutput env q.outfile = some outf := by
    rw [hn]
    unfold openOutput
    cases he : env.openOut n with
    | none => exact absurd he (hok n)
    | some room => exact ⟨⟨[], room⟩, by simp only [he, Option.map]⟩
  have hnl : NeverLonger env q := by
    intro n' hn' f
    rw [hn] at hn'
    cases hn'
    rw [htr, List.length_take]
    omega
  obtain ⟨rest, ⟨f, f1, -, rfl⟩, h1, -, h2, n', h3⟩ := C35_dec_same_file env g q hq hl hnl o h pw inf hs (by omega) outf ho
  have hrest : (truncated env q.outfile f).data = (inf.data.drop 96).take k := by
    rw [hn, ← f1]
    exact htr f
  rw [hrest, ← List.take_add] at h2 h3
  have e : ∀ a b, a + b ≤ 96 → field (inf.data.take (96 + k)) a b = field inf.data a b := by
    intro a b hab
    rw [List.take_add]
    exact field_head (by omega) _ a b hab
  have key : ∀ x, x = inf.data.take (96 + k) → hdrSalt x = salt ∧ hdrLogN x = logN ∧ hdrR x = r ∧ hdrP x = p := by
    rintro x rfl
    rw [← hD.salt, ← hD.logN, ← hD.r, ← hD.p]
    unfold hdrSalt hdrLogN hdrR hdrP
    rw [e 16 32 (by omega), e 7 1 (by omega), e 8 4 (by omega), e 12 4 (by omega)]
    exact ⟨rfl, rfl, rfl, rfl⟩
  obtain ⟨k1, k2, k3, k4⟩ := key _ rfl
  rw [k1, k2, k3, k4] at h2 h3
  have hl' : (inf.data.take (96 + k)).length = 96 + k := by rw [List.length_take]; omega
  have hpl : plaintext (scryptCode pw salt (2 ^ logN) r p 64) (inf.data.take (96 + k)) = m.take (k - 32) := by
    rw [← hD.text]
    unfold plaintext dataCipher
    rw [hl', hlen, show 96 + k - 128 = k - 32 by omega, show m.length + 128 - 128 = m.length by omega]
    have e1 : field (inf.data.take (96 + k)) 96 (k - 32) = (field inf.data 96 m.length).take (k - 32) := by
      unfold field
      rw [List.drop_take, List.take_take, List.take_take]
      congr 1
      omega
    have hfl : (field inf.data 96 m.length).length = m.length := by unfold field; rw [List.length_take, List.length_drop]; omega
    rw [e1]
    conv_rhs => rw [← List.take_append_drop (k - 32) (field inf.data 96 m.length), ctr_append]
    rw [List.take_append_of_le_length (by rw [ctr_length, List.length_take]; omega)]
    exact (List.take_of_length_le (by rw [ctr_length, List.length_take]; omega)).symm
  rw [hpl, List.take_take] at h3
  refine ⟨by rw [h3]; exact List.take_prefix _ _, by rw [h3, List.length_take]; omega, ?_⟩
  have hex : o.exit = 0 ∨ o.exit = 1 := by
    obtain ⟨m', -, rfl⟩ := session_run (by rw [hq]; decide) h hs
    exact exit_one
  rcases hex with h0 | h0
  · obtain ⟨a1, -, a3⟩ := h2 h0
    rw [hl'] at a1
    exact .inr ⟨by omega, a3⟩
  · exact .inl h0

/-- The hypotheses of `C35_F30_same_file` are met, by any message: nothing of the input is left after the header, exit status 1, and nothing is left at all. -/
theorem exSameFile (sha : ShaHw) (hw : AesHw) (m : Bytes) (hm : m.length + 128 < 2 ^ 64) :
    ∃ o, perform { exMain sha hw "out".toList [container (scryptCode [0x68, 0x69] exSalt (2 ^ 10) 8 1 64) 10 8 1 exSalt m] with
        trunc := fun _ _ => ⟨[], false⟩ } exRequest2 = .ok (some o) ∧ o.exit = 1 ∧ o.out = [] := by
  generalize hC : container (scryptCode [0x68, 0x69] exSalt (2 ^ 10) 8 1 64) 10 8 1 exSalt m = C
  have hlen : C.length = m.length + 128 := by rw [← hC]; exact container_length _ _ _ _ _ _ exSalt_length
  have gd := exEnc_good sha hw exSalt_length
  have hs : Session { exMain sha hw "out".toList [C] with trunc := fun _ _ => ⟨[], false⟩ } exRequest2 [0x68, 0x69] ⟨[C], false⟩ :=
    ⟨_, rfl, rfl, .file (n := "out".toList) rfl (by simp [exMain])⟩
  have hmain := C33_accepted { exMain sha hw "out".toList [C] with trunc := fun _ _ => ⟨[], false⟩ } rfl (by show 2 ^ 64 - 1 < 2 ^ 64; norm_num) "scrypt".toList
    exArgs2 (by unfold NoNul; decide) exRequest2 (exRequests2 _ _)
  obtain ⟨x, hx⟩ := C52_no_crash { exMain sha hw "out".toList [C] with trunc := fun _ _ => ⟨[], false⟩ }
    (by have := exMain_sane sha hw "out".toList [C]; exact ⟨this.good, this.ready, this.malloc, this.disp, this.strtod, this.rate⟩)
    ("scrypt".toList :: exArgs2) (by unfold NoNul; decide) (by
      intro q hq
      cases C33_unique _ _ (by show 2 ^ 64 - 1 < 2 ^ 64; norm_num) _ _ _ hq (exRequests2 _ _)
      refine ⟨by unfold exRequest2; simp, by unfold exRequest2; simp, fun _ => rfl, fun h => (by cases h), fun _ _ _ => Nat.zero_le _, fun pw inf hs' => ?_⟩
      cases (hs'.unique hs).2
      show ([C] : List Bytes).flatten.length < 2 ^ 64
      rw [List.flatten_singleton]
      omega)
  rw [hmain, perform_session (by decide) hs, Res.bind_eq_ok] at hx
  obtain ⟨y, hy, -⟩ := hx
  have hperf := perform_session (by decide : exRequest2.op ≠ .info) hs
  rw [hy, Res.bind_ok] at hperf
  obtain ⟨a1, a2, a3⟩ := C35_F30_same_file _ gd exRequest2 rfl ⟨fun h => (by cases h), fun _ => ⟨rfl, rfl⟩⟩ "back".toList rfl 0 (fun _ => by simp [InFile.data])
    (fun _ => by simp [exMain]) _ hperf [0x68, 0x69] ⟨[C], false⟩ hs 10 8 1 exSalt m exSalt_length (by norm_num) (by norm_num) (by norm_num)
    (by rw [hC]; simp [InFile.data]) hm (by omega)
  refine ⟨_, hperf, ?_, List.length_eq_zero_iff.1 (by omega)⟩
  rcases a3 with h | h
  · exact h
  · omega

end Scrypt.Props
