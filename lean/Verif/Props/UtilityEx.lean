import Verif.Props.Utility
import Verif.Props.ProcessEx
import Verif.Props.MainEx
/-
What the utility asks its components for (`codeOf` reads the right code off the messages), and non-vacuity for C59: two complete processes, from the command
line to the files, on machines with any CPU features.
-/
namespace Scrypt.Props
open Scrypt Spec F64

/-! ### `codeOf` is the code of the library operation -/

/-- The code, if it is one that tells that the speed, the salt or AES were missing. -/
def askedCode (c : Code) : Code := if c = .EOPENSSL ∨ c = .ESALT ∨ c = .ECLOCK then c else .OK

theorem saysText_append (t : CStr) (a b : List MMsg) : saysText t (a ++ b) = (saysText t a || saysText t b) := by unfold saysText; rw [List.any_append]

theorem saysText_lib (t : CStr) {a : List MMsg} (h : ∀ x ∈ a, ∃ l, x = .lib l) : saysText t a = false := by
  unfold saysText
  rw [List.any_eq_false]
  intro x hx
  obtain ⟨l, rfl⟩ := h x hx
  simp

theorem saysText_close {t : CStr} (ht : t ≠ "fclose".toList) (env : MainEnv) (i : Option CStr) (b : Bool) :
    saysText t (closeInput env i).2 = false ∧ saysText t (closeOutput env b).2 = false := by
  have h : saysText t [.diag (.warnp "fclose".toList)] = false := by
    unfold saysText
    simp only [List.any_cons, List.any_nil, Bool.or_false, decide_eq_false_iff_not]
    exact Ne.symm ht
  constructor
  · unfold closeInput
    cases i with
    | none => rfl
    | some _ => cases env.fcloseIn with
      | true => rfl
      | false => exact h
  · unfold closeOutput
    cases b with
    | false => rfl
    | true => cases env.fcloseOut with
      | true => rfl
      | false => exact h

theorem saysText_diag (t : CStr) (d : Diag) : saysText t [.diag d] = true ↔ diagText d = t := by
  unfold saysText
  rw [List.any_cons, List.any_nil, Bool.or_false]
  cases d <;> exact decide_eq_true_iff

theorem codeOf_cleanup {env : MainEnv} {i u : Option CStr} {ev : List MEv} {msgs : List MMsg} {ck op : Bool} {rc : Code} {out : Bytes} {m : ModeOut}
    (hl : ∀ x ∈ msgs, ∃ l, x = .lib l) (h : encDecCleanup env i u ev msgs ck op rc out = .ok m) : codeOf (some (toExit m)) = askedCode rc := by
  have inj := fun d => C48_injective rc d (i.getD "standard input".toList) (u.getD "standard output".toList)
  have key : ∀ t, t ≠ "fclose".toList → (saysText t m.msgs = true ↔
      rc ≠ .OK ∧ expectedMessage rc (i.getD "standard input".toList) (u.getD "standard output".toList) = t) := by
    intro t ht
    obtain ⟨c1, c2⟩ := saysText_close ht env i op
    unfold encDecCleanup at h
    simp only [] at h
    by_cases h0 : rc = .OK
    · rw [if_neg (not_not.2 h0)] at h
      rw [← Res.ok.inj h]
      show saysText t (_ ++ _ ++ _) = true ↔ _
      rw [saysText_append, saysText_append, saysText_lib t hl, c1, c2]
      exact ⟨fun h => absurd h Bool.false_ne_true, fun h => absurd h0 h.1⟩
    · obtain ⟨d, e1, e2⟩ := C48_message rc h0 i u
      rw [if_pos h0, e1, Res.bind_ok] at h
      rw [← Res.ok.inj h]
      show saysText t (_ ++ _ ++ _ ++ [.diag d]) = true ↔ _
      rw [saysText_append, saysText_append, saysText_append, saysText_lib t hl, c1, c2, Bool.false_or, Bool.false_or, Bool.false_or, saysText_diag, e2]
      exact ⟨fun h => ⟨h0, h⟩, fun h => h.2⟩
  have k1 := key "OpenSSL error".toList (by decide)
  have k2 := key "Error reading salt".toList (by decide)
  have k3 := key "Error reading clocks".toList (by decide)
  have k1 : saysText "OpenSSL error".toList m.msgs = true ↔ rc = .EOPENSSL :=
    k1.trans ⟨fun h => inj .EOPENSSL h.2, fun h => by subst h; exact ⟨by simp, rfl⟩⟩
  have k2 : saysText "Error reading salt".toList m.msgs = true ↔ rc = .ESALT :=
    k2.trans ⟨fun h => inj .ESALT h.2, fun h => by subst h; exact ⟨by simp, rfl⟩⟩
  have k3 : saysText "Error reading clocks".toList m.msgs = true ↔ rc = .ECLOCK :=
    k3.trans ⟨fun h => inj .ECLOCK h.2, fun h => by subst h; exact ⟨by simp, rfl⟩⟩
  clear key inj
  unfold codeOf
  show (if saysText _ m.msgs = true then _ else if saysText _ m.msgs = true then _ else if saysText _ m.msgs = true then _ else _) = _
  generalize saysText "OpenSSL error".toList m.msgs = b1 at k1 ⊢
  generalize saysText "Error reading salt".toList m.msgs = b2 at k2 ⊢
  generalize saysText "Error reading clocks".toList m.msgs = b3 at k3 ⊢
  unfold askedCode
  by_cases h1 : rc = .EOPENSSL
  · rw [if_pos (k1.2 h1), if_pos (.inl h1), h1]
  by_cases h2 : rc = .ESALT
  · rw [if_neg (mt k1.1 h1), if_pos (k2.2 h2), if_pos (.inr (.inl h2)), h2]
  by_cases h3 : rc = .ECLOCK
  · rw [if_neg (mt k1.1 h1), if_neg (mt k2.1 h2), if_pos (k3.2 h3), if_pos (.inr (.inr h3)), h3]
  · rw [if_neg (mt k1.1 h1), if_neg (mt k2.1 h2), if_neg (mt k3.1 h3), if_neg (by simp [h1, h2, h3])]

theorem lib_msgs (ms : List Msg) : ∀ x ∈ ms.map MMsg.lib, ∃ l, x = MMsg.lib l := by
  intro x hx
  obtain ⟨l, -, rfl⟩ := List.mem_map.1 hx
  exact ⟨l, rfl⟩

/-- An encryption: the code is that of scryptenc_file. -/
theorem codeOf_enc {env : MainEnv} {P : EncParams} {v f : Bool} {i u : Option CStr} {inf : InFile} {pw : Bytes} {ev0 : List MEv}
    {m : ModeOut} {outf : OutFile} (ho : openOutput env u = some outf) (h : encRun env P v f i u inf pw ev0 = .ok m) :
    ∃ o, scryptenc_file env.sys (truncated env u inf) outf pw P v f = .ok o ∧ codeOf (some (toExit m)) = askedCode o.rc := by
  unfold encRun at h
  rw [ho] at h
  simp only [] at h
  obtain ⟨o, h0, h⟩ := Res.bind_eq_ok.1 h
  exact ⟨o, h0, codeOf_cleanup (lib_msgs _) h⟩

/-- A decryption: the code is that of scryptdec_file_prep or, if this succeeds, of scryptdec_file_copy. -/
theorem codeOf_dec {env : MainEnv} {P : EncParams} {v f : Bool} {i u : Option CStr} {inf : InFile} {pw : Bytes} {ev0 : List MEv}
    {m : ModeOut} {outf : OutFile} (ho : openOutput env u = some outf) (h : decRun env P v f i u inf pw ev0 = .ok m) :
    ∃ p, scryptdec_file_prep env.sys inf pw P v f = .ok p ∧
      ((p.rc ≠ .OK ∧ codeOf (some (toExit m)) = askedCode p.rc) ∨
       (p.rc = .OK ∧ ∃ c o, p.cookie = some c ∧ scryptdec_file_copy env.sys { c with inf := truncated env u c.inf } outf = .ok o ∧
        codeOf (some (toExit m)) = askedCode o.rc)) := by
  unfold decRun at h
  obtain ⟨p, h0, h⟩ := Res.bind_eq_ok.1 h
  refine ⟨p, h0, ?_⟩
  simp only [] at h
  by_cases hp : p.rc = .OK
  · rw [if_neg (not_not.2 hp), ho] at h
    simp only [] at h
    cases hc : p.cookie with
    | none => rw [hc] at h; cases h
    | some c =>
      rw [hc] at h
      simp only [] at h
      obtain ⟨o, h1, h⟩ := Res.bind_eq_ok.1 h
      exact .inr ⟨hp, c, o, rfl, h1, codeOf_cleanup (lib_msgs _) h⟩
  · rw [if_pos hp] at h
    exact .inl ⟨hp, codeOf_cleanup (lib_msgs _) h⟩

/-- ... that is, of scryptdec_file. -/
theorem codeOf_decFile {env : MainEnv} (g : env.sys.Good) {P : EncParams} {v f : Bool} {i u : Option CStr} {inf : InFile} {pw : Bytes} {ev0 : List MEv}
    {m : ModeOut} (sep : ∀ n, u = some n → ∀ f, env.trunc n f = f) {outf : OutFile} (ho : openOutput env u = some outf) (h : decRun env P v f i u inf pw ev0 = .ok m) :
    ∃ o, scryptdec_file env.sys inf outf pw P v f = .ok o ∧ codeOf (some (toExit m)) = askedCode o.rc := by
  obtain ⟨o, h1, -⟩ := decRun_file g sep ho h
  refine ⟨o, h1, ?_⟩
  obtain ⟨p, hp, hc⟩ := codeOf_dec ho h
  obtain ⟨-, -, p3, -⟩ := decPrep_spec g hp
  unfold scryptdec_file at h1
  obtain ⟨_, -, h1⟩ := Res.bind_eq_ok.1 h1
  rw [hp, Res.bind_ok] at h1
  rcases hc with ⟨c1, c2⟩ | ⟨c1, c, oc, c2, c3, c4⟩
  · rw [(p3 c1).1] at h1
    rw [c2, ← Res.ok.inj h1]
  · rw [c2] at h1
    simp only [] at h1
    rw [truncated_sep sep] at c3
    have c3 : scryptdec_file_copy env.sys c outf = .ok oc := c3
    rw [c3, Res.bind_ok] at h1
    rw [c4, ← Res.ok.inj h1]

/-! ### Two complete processes -/

theorem exNormal (a : ShaHw → Bool) (b : AesHw → Bool) (c : Bool) (name : CStr) (segs : List Bytes) (args : List CStr) (h : NoNul args) :
    Normal (exMachine a b c) exCallEnv (exMain .software .software name segs) ("scrypt".toList :: args) where
  machine := exMachine_good a b c
  call := exCallEnv_good
  malloc := rfl
  strtod := fun _ => trivial
  disp := ⟨rfl, rfl⟩
  argv := fun x hx => by
    rcases List.mem_cons.1 hx with rfl | hx
    · decide
    · exact h x hx

/-- The code of a forced encryption of a file with `exP`. -/
theorem exEncFile_code {shaFeat : ShaHw → Bool} {aesFeat : AesHw → Bool} {sse2 : Bool} {m : Machine} (hm : m = exMachine shaFeat aesFeat sse2) {sys : EncSys}
    (a : Answered m exCallEnv sys) (segs : List Bytes) (passwd : Bytes) (h1 : segs.flatten.length + 128 < 2 ^ 64) :
    ∃ o, scryptenc_file sys ⟨segs, false⟩ ⟨[], none⟩ passwd exP false true = .ok o ∧
      o.rc = if sys.salt = none then .ESALT else if aesAvail sys = true then .OK else .EOPENSSL := by
  have hl : LimitsOk sys exP false true := a.limits ⟨(by simp), (by simp)⟩
  obtain ⟨o, h⟩ := encFile_total a.good (a.ready exCallEnv_ready) (inf := ⟨segs, false⟩) (outf := ⟨[], none⟩) (passwd := passwd)
    (by show segs.flatten.length < 2 ^ 64; omega) (P := exP) (verbose := false) (force := true) exP_nonzero ⟨fun _ => hl, fun h => by cases h⟩
  obtain ⟨ob, hb, hc⟩ := exEnc_code shaFeat aesFeat sse2 hm a segs.flatten (List.replicate (segs.flatten.length + 128) 0) passwd h1 (by rw [List.length_replicate])
  obtain ⟨e1, -⟩ := C04_enc_same_code a.good (inf := ⟨segs, false⟩) (by show segs.flatten.length < 2 ^ 64; omega) (by rw [List.length_replicate]; exact Nat.le_refl _) rfl rfl
    (by intro k hk; cases hk) hb h
  exact ⟨o, h, by rw [← hc]; exact e1⟩

/-- The utility, as a process, encrypts any file. -/
theorem exUtility_enc (shaFeat : ShaHw → Bool) (aesFeat : AesHw → Bool) (sse2 : Bool) (segs : List Bytes) (hlen : segs.flatten.length + 128 < 2 ^ 64) :
    ∃ o, utility (exMachine shaFeat aesFeat sse2) exCallEnv [exSeed] (exMain .software .software "in".toList segs) ("scrypt".toList :: exArgs) = .ok (some o) ∧
      o.exit = 0 := by
  generalize hm : exMachine shaFeat aesFeat sse2 = m
  have hm := hm.symm
  have run : ∀ sys, Answered m exCallEnv sys → ∃ mo, scryptMain { exMain .software .software "in".toList segs with sys := sys } ("scrypt".toList :: exArgs) =
      .ok (some (toExit mo)) ∧ ∃ of, (mo.ok = true ↔ of = Code.OK) ∧ codeOf (some (toExit mo)) = askedCode of ∧
        of = (if sys.salt = none then .ESALT else if aesAvail sys = true then .OK else .EOPENSSL) := by
    intro sys a
    obtain ⟨of, e1, e2⟩ := exEncFile_code hm a segs [0x68, 0x69] hlen
    generalize henv : ({ exMain .software .software "in".toList segs with sys := sys } : MainEnv) = env
    have hsys : env.sys = sys := by rw [← henv]
    have hs : Session env exRequest [0x68, 0x69] ⟨segs, false⟩ := by
      rw [← henv]; exact (exSession .software .software segs).with_sys sys
    have ho : openOutput env exRequest.outfile = some ⟨[], none⟩ := by rw [← henv]; rfl
    have ht : truncated env exRequest.outfile ⟨segs, false⟩ = ⟨segs, false⟩ := by rw [← henv]; rfl
    have hacc := C33_accepted env (by rw [← henv]; rfl) (by rw [hsys, a.szMax, hm]; show 2 ^ 64 - 1 < 2 ^ 64; norm_num) "scrypt".toList exArgs
      (by unfold NoNul; decide) exRequest (exRequests _ _)
    obtain ⟨mo, hmo⟩ : ∃ mo, operate env exRequest ⟨segs, false⟩ [0x68, 0x69] = .ok mo := by
      rw [operate_enc rfl]
      unfold encRun
      rw [ho]
      simp only []
      rw [ht, exParams, hsys]
      rw [show exRequest.verbose = false from rfl, show exRequest.force = true from rfl, e1, Res.bind_ok]
      obtain ⟨mo, hmo, -⟩ := cleanup_ok (env := env) (i := exRequest.infile) (u := exRequest.outfile)
        (ev := openInputEv env exRequest.infile ++ [.gotPass] ++ openOutputEv env exRequest.outfile ++ of.tr.map .key) (msgs := of.err.map .lib) (ck := false)
        (op := exRequest.outfile.isSome) (rc := of.rc) (out := of.outf.written)
      exact ⟨mo, hmo⟩
    have hperf : perform env exRequest = .ok (some (toExit mo)) := by
      rw [perform_session (by decide) hs, hmo, Res.bind_ok]
    rw [operate_enc rfl] at hmo
    obtain ⟨of', f1, f2⟩ := codeOf_enc ho hmo
    obtain ⟨of'', f3, f4, -⟩ := encRun_file ho hmo
    rw [ht, exParams, hsys, show exRequest.verbose = false from rfl, show exRequest.force = true from rfl, e1] at f1 f3
    have f1 := Res.ok.inj f1
    have f3 := Res.ok.inj f3
    rw [← f1] at f2
    rw [← f3] at f4
    exact ⟨mo, by rw [hacc, hperf], of.rc, f4, f2, e2⟩
  obtain ⟨o, st', sys, k1, k2, k3, k4, k5⟩ := exAnswers shaFeat aesFeat sse2 hm
    (fun sys => scryptMain { exMain .software .software "in".toList segs with sys := sys } ("scrypt".toList :: exArgs)) codeOf (fun _ => none) (by
      intro sys a
      obtain ⟨mo, h1, of, -, h2, h3⟩ := run sys a
      refine ⟨_, h1, ?_⟩
      rw [h2, h3]
      by_cases hs : sys.salt = none
      · simp only [if_pos hs]; decide
      · simp only [if_neg hs]
        by_cases ha : aesAvail sys = true
        · simp only [if_pos ha]; decide
        · simp only [if_neg ha]; decide)
  obtain ⟨mo, h1, of, h2, -, h3⟩ := run sys k2
  rw [if_neg k4, if_pos k5] at h3
  have k3 : scryptMain { exMain .software .software "in".toList segs with sys := sys } ("scrypt".toList :: exArgs) = .ok o := k3
  rw [h1] at k3
  have k3 := Res.ok.inj k3
  refine ⟨toExit mo, ?_, exit_eq.2 (h2.2 h3)⟩
  unfold utility
  rw [k1, Res.bind_ok, ← k3]
  rfl

theorem exArgs_nonul : NoNul exArgs := by unfold NoNul; decide
theorem exArgs2_nonul : NoNul exArgs2 := by unfold NoNul; decide

/-- The hypotheses of C59_roundtrip, C59_forced and C59_salt are met: the first process. -/
theorem exEncrypted (shaFeat : ShaHw → Bool) (aesFeat : AesHw → Bool) (sse2 : Bool) (segs : List Bytes) (hlen : segs.flatten.length + 128 < 2 ^ 64) :
    ∃ D, Encrypted (exMachine shaFeat aesFeat sse2) exCallEnv [exSeed] (exMain .software .software "in".toList segs) "scrypt".toList exArgs exRequest [0x68, 0x69]
      segs.flatten D := by
  obtain ⟨o, h1, h2⟩ := exUtility_enc shaFeat aesFeat sse2 segs hlen
  exact ⟨o.out, ⟨exNormal _ _ _ _ _ _ exArgs_nonul, exRequests _ _, rfl, fun _ _ _ => rfl, hlen, ⟨segs, false⟩, o, exSession .software .software segs, rfl, h1, h2, rfl⟩⟩

/-- ... and the second, on another machine: it ends, with the original data. -/
theorem exDecrypted (shaFeat shaFeat' : ShaHw → Bool) (aesFeat aesFeat' : AesHw → Bool) (sse2 sse2' : Bool) (segs : List Bytes) (hlen : segs.flatten.length + 128 < 2 ^ 64) :
    ∃ D o, Encrypted (exMachine shaFeat aesFeat sse2) exCallEnv [exSeed] (exMain .software .software "in".toList segs) "scrypt".toList exArgs exRequest [0x68, 0x69]
        segs.flatten D ∧
      Decrypted (exMachine shaFeat' aesFeat' sse2') exCallEnv [exSeed] (exMain .software .software "out".toList [D]) "scrypt".toList exArgs2 exRequest2 [0x68, 0x69]
        D ⟨[D], false⟩ o ∧ o.exit = 0 ∧ o.out = segs.flatten := by
  obtain ⟨D, hA⟩ := exEncrypted shaFeat aesFeat sse2 segs hlen
  have n := exNormal shaFeat' aesFeat' sse2' "out".toList [D] exArgs2 exArgs2_nonul
  have hD : D.length = segs.flatten.length + 128 := by
    obtain ⟨sA, -, salt, l, r, p, aA, -, -, h32, hg, hr, hpp, hD, hk⟩ := hA.container
    have hC := container_fields (scryptCode [0x68, 0x69] salt (2 ^ l) r p 64) l r p salt segs.flatten h32 (by have := hg.2.1; omega) hr hpp
    rw [← hD] at hC
    exact hC.len
  have hD1 : ([D] : List Bytes).flatten = D := by simp
  have hs := exSession2 .software .software [D]
  have hp : PlentyU exCallEnv (exMain .software .software "out".toList [D]) exRequest2 ⟨[D], false⟩ segs.flatten.length :=
    ⟨fun _ => ⟨Option.some_ne_none _, Option.some_ne_none _, Option.some_ne_none _⟩, rfl, ⟨Option.some_ne_none _, rfl⟩, Option.some_ne_none _, rfl, rfl, ⟨[], none⟩, rfl,
      (by intro k hk; cases hk)⟩
  have hreq := exRequests2 (exMain .software .software "out".toList [D]).sd (exMachine shaFeat' aesFeat' sse2').szMax
  have run : ∀ sys, Answered (exMachine shaFeat' aesFeat' sse2') exCallEnv sys →
      ∃ o, scryptMain { exMain .software .software "out".toList [D] with sys := sys } ("scrypt".toList :: exArgs2) = .ok (some o) ∧
        codeOf (some o) ≠ .ECLOCK ∧ codeOf (some o) ≠ .ESALT := by
    intro sys a
    have hl : LimitsOk sys exRequest2.params exRequest2.verbose exRequest2.force := a.limits ⟨fun h => (by cases h), fun _ => n.disp⟩
    generalize henv : ({ exMain .software .software "out".toList [D] with sys := sys } : MainEnv) = env
    have hsys : env.sys = sys := by rw [← henv]
    have hs : Session env exRequest2 [0x68, 0x69] ⟨[D], false⟩ := by
      rw [← henv]; exact hs.with_sys sys
    have ho : openOutput env exRequest2.outfile = some ⟨[], none⟩ := by rw [← henv]; rfl
    have hsep : Separate env exRequest2 := by rw [← henv]; exact fun _ _ _ => rfl
    have hacc := C33_accepted env (by rw [← henv]; rfl) (by rw [hsys, a.szMax]; show 2 ^ 64 - 1 < 2 ^ 64; norm_num) "scrypt".toList exArgs2
      exArgs2_nonul exRequest2 (exRequests2 _ _)
    obtain ⟨r, hr⟩ := C35_total env (by rw [hsys]; exact a.good) (by rw [hsys]; exact a.ready exCallEnv_ready) exRequest2 (by decide) hsep.neverLonger (by
        intro pw inf h
        rw [(h.unique hs).2]
        show ([D] : List Bytes).flatten.length < 2 ^ 64
        rw [hD1]; omega)
      (fun _ => ⟨⟨rfl, rfl, rfl⟩, by rw [hsys]; exact hl⟩) (fun h => by cases h)
    have hr' := hr
    rw [perform_session (by decide) hs] at hr'
    obtain ⟨mo, hm, hr'⟩ := Res.bind_eq_ok.1 hr'
    rw [operate_dec rfl] at hm
    obtain ⟨of, f1, f2⟩ := codeOf_decFile (by rw [hsys]; exact a.good) hsep ho hm
    rw [hsys] at f1
    refine ⟨toExit mo, by rw [hacc, hr, ← hr'], ?_⟩
    rw [f2]
    rcases forced_code (infB := ⟨[D], false⟩) (by exact Nat.le_refl (2 ^ 64 - 1)) hA hD1 rfl hp a hl (by intro k hk; cases hk) f1 with ⟨c1, -⟩ | ⟨c1, -⟩
    · rw [c1]; decide
    · rw [c1]; decide
  have hfair : FairSeq false [exSeed] := exSeed_fair
  obtain ⟨r, hr⟩ := C59_no_crash n exCallEnv_ready hfair (by
    intro q hq
    cases C33_unique _ _ (by show 2 ^ 64 - 1 < 2 ^ 64; norm_num) _ _ _ hq hreq
    refine ⟨by unfold exRequest2; simp, by unfold exRequest2; simp, fun _ => rfl, fun h => (by cases h), fun _ _ _ => Nat.le_refl _, fun pw inf h => ?_⟩
    cases (h.unique hs).2
    show ([D] : List Bytes).flatten.length < 2 ^ 64
    rw [hD1]; omega)
  have hr' := hr
  unfold utility at hr'
  obtain ⟨x, hx, hr'⟩ := Res.bind_eq_ok.1 hr'
  have hne := withAnswers_prompt n.machine n.call (StInv.initial _ _) (fun sys a => by
    obtain ⟨o, h1, h2⟩ := run sys a
    exact ⟨some o, h1, h2⟩) hx
  cases x with
  | none => exact absurd rfl hne
  | some x =>
    obtain ⟨sys, a1, a2, -⟩ := withAnswers_full n.machine n.call (StInv.initial _ _) hx
    obtain ⟨o, h1, -⟩ := run sys a1
    have a2 : scryptMain { exMain .software .software "out".toList [D] with sys := sys } ("scrypt".toList :: exArgs2) = .ok x.1 := a2
    rw [h1] at a2
    have hro : r = some o := by rw [← Res.ok.inj hr', Option.bind_some, ← Res.ok.inj a2]
    rw [hro] at hr
    have hB : Decrypted (exMachine shaFeat' aesFeat' sse2') exCallEnv [exSeed] (exMain .software .software "out".toList [D]) "scrypt".toList exArgs2 exRequest2
        [0x68, 0x69] D ⟨[D], false⟩ o := ⟨n, hreq, rfl, fun h => (by cases h), fun _ _ _ => rfl, hs, hD1, hr⟩
    exact ⟨D, o, hA, hB, C59_forced (by exact Nat.le_refl (2 ^ 64 - 1)) hA hB rfl hp⟩

end Scrypt.Props
