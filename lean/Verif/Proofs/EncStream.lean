import Verif.Proofs.EncMain
/-
scryptenc_file and scryptdec_file as functions of the data in their input files.
-/
namespace Scrypt
open Spec

/-! ### Header of a stream -/

theorem field_take (D : Bytes) (n a b : Nat) (h : a + b ≤ n) : field (D.take n) a b = field D a b := by
  unfold field
  rw [List.drop_take, List.take_take, Nat.min_eq_left (by omega)]

theorem hdrLogN_take (D : Bytes) : hdrLogN (D.take 96) = hdrLogN D := by unfold hdrLogN; rw [field_take _ _ _ _ (by omega)]
theorem hdrR_take (D : Bytes) : hdrR (D.take 96) = hdrR D := by unfold hdrR; rw [field_take _ _ _ _ (by omega)]
theorem hdrP_take (D : Bytes) : hdrP (D.take 96) = hdrP D := by unfold hdrP; rw [field_take _ _ _ _ (by omega)]
theorem hdrSalt_take (D : Bytes) : hdrSalt (D.take 96) = hdrSalt D := by unfold hdrSalt; rw [field_take _ _ _ _ (by omega)]
theorem checksum_take (D : Bytes) : ChecksumOk (D.take 96) ↔ ChecksumOk D := by
  unfold ChecksumOk; rw [field_take _ _ _ _ (by omega), field_take _ _ _ _ (by omega)]
theorem password_take (dk D : Bytes) : PasswordOk dk (D.take 96) ↔ PasswordOk dk D := by
  unfold PasswordOk; rw [field_take _ _ _ _ (by omega), field_take _ _ _ _ (by omega)]
theorem inpKey_take (passwd D : Bytes) : inpKey passwd (D.take 96) = inpKey passwd D := by
  unfold inpKey; rw [hdrLogN_take, hdrR_take, hdrP_take, hdrSalt_take]
theorem hdrParams_take (P : EncParams) (D : Bytes) : hdrParams P (D.take 96) = hdrParams P D := by
  unfold hdrParams; rw [hdrLogN_take, hdrR_take, hdrP_take]
theorem paramCode_take (sys : EncSys) (P : EncParams) (verbose force : Bool) (D : Bytes) :
    paramCode sys P verbose force (D.take 96) = paramCode sys P verbose force D := by
  unfold paramCode; rw [hdrLogN_take, hdrR_take, hdrP_take]
theorem checkDefined_take {sys : EncSys} {P : EncParams} {verbose force : Bool} {D : Bytes} :
    CheckDefined sys P verbose force (D.take 96) ↔ CheckDefined sys P verbose force D := by
  unfold CheckDefined; rw [hdrLogN_take, hdrR_take, hdrP_take]

/-- The verdict on the first 96 bytes of a stream, before any cryptography. -/
def headVerdict (D : Bytes) (err : Bool) : Code :=
  if D.length < 7 then (if err then .ERDFILE else .EINVAL)
  else if ¬ HasMagic D then .EINVAL
  else if ¬ VersionOk D then .EVERSION
  else if D.length < 96 then (if err then .ERDFILE else .EINVAL)
  else .OK

theorem headVerdict_ok {D : Bytes} {err : Bool} : headVerdict D err = .OK ↔ 96 ≤ D.length ∧ HasMagic D ∧ VersionOk D := by
  unfold headVerdict
  by_cases h1 : D.length < 7
  · rw [if_pos h1]; refine ⟨fun h => ?_, fun h => by omega⟩
    split at h <;> simp at h
  rw [if_neg h1]
  by_cases h2 : HasMagic D
  case neg => rw [if_pos h2]; exact ⟨fun h => by simp at h, fun h => absurd h.2.1 h2⟩
  rw [if_neg (not_not.2 h2)]
  by_cases h3 : VersionOk D
  case neg => rw [if_pos h3]; exact ⟨fun h => by simp at h, fun h => absurd h.2.2 h3⟩
  rw [if_neg (not_not.2 h3)]
  by_cases h4 : D.length < 96
  · rw [if_pos h4]; refine ⟨fun h => ?_, fun h => by omega⟩
    split at h <;> simp at h
  rw [if_neg h4]
  exact ⟨fun _ => ⟨by omega, h2, h3⟩, fun _ => rfl⟩

/-- scryptdec_file_load_header: the code, and on success the header and the rest of the file. -/
theorem loadHeader_ok (f : InFile) (header : Bytes) (hh : header.length = 96) :
    ∃ h f', scryptdec_file_load_header f header = .ok (headVerdict f.data f.err, h, f') ∧ f'.err = f.err ∧
      (∃ n, n ≤ 96 ∧ f'.data = f.data.drop n) ∧
      (headVerdict f.data f.err = .OK → h = f.data.take 96 ∧ f'.data = f.data.drop 96) := by
  unfold scryptdec_file_load_header freadExact
  by_cases h7 : 7 ≤ f.data.length
  case neg =>
    rw [if_neg h7]
    have hv : headVerdict f.data f.err = if f.err then .ERDFILE else .EINVAL := by unfold headVerdict; rw [if_pos (by omega)]
    refine ⟨header, { f with segs := [] }, ?_, rfl, ⟨96, le_rfl, ?_⟩, ?_⟩
    · rw [hv]; rfl
    · rw [List.drop_eq_nil_of_le (by omega)]; rfl
    · rw [hv]; intro h; split at h <;> simp at h
  rw [if_pos h7]
  simp only []
  have l7 : (f.data.take 7).length = 7 := by rw [List.length_take]; omega
  rw [wrSlice_zero header _ (by omega), Res.bind_ok, l7, rdSlice_ok (by rw [List.length_append, l7]; omega), Res.bind_ok, List.drop_zero,
    List.take_append_of_le_length (by omega), List.take_take, Nat.min_eq_left (by omega)]
  have d7 : ({ f with segs := [f.data.drop 7] } : InFile).data = f.data.drop 7 := by simp [InFile.data]
  by_cases hM : HasMagic f.data
  case neg =>
    rw [if_pos (fun h => hM ((hasMagic_iff _).2 h))]
    have hv : headVerdict f.data f.err = .EINVAL := by unfold headVerdict; rw [if_neg (by omega), if_pos hM]
    refine ⟨_, ⟨[f.data.drop 7], f.err⟩, by rw [hv], rfl, ⟨7, by omega, d7⟩, fun h => by rw [hv] at h; cases h⟩
  rw [if_neg (not_not.2 ((hasMagic_iff _).1 hM))]
  obtain ⟨v, ev, hV⟩ := rd_version f.data h7
  have e6 : rd (f.data.take 7 ++ header.drop 7) 6 = .ok v := by
    rw [rd_ok (by omega)] at ev
    rw [rd_ok (by simp; omega)]
    rw [← ev]
    congr 1
    rw [List.getElem_append_left (by omega), List.getElem_take]
  rw [e6, Res.bind_ok]
  by_cases h0 : v = 0
  case neg =>
    rw [if_pos h0]
    have hv : headVerdict f.data f.err = .EVERSION := by
      unfold headVerdict; rw [if_neg (by omega), if_neg (not_not.2 hM), if_pos (fun h => h0 (hV.1 h))]
    refine ⟨_, ⟨[f.data.drop 7], f.err⟩, by rw [hv], rfl, ⟨7, by omega, d7⟩, fun h => by rw [hv] at h; cases h⟩
  rw [if_neg (not_not.2 h0), d7, List.length_drop]
  have hVO := hV.2 h0
  by_cases h96 : 96 ≤ f.data.length
  case neg =>
    rw [if_neg (by omega)]
    have hv : headVerdict f.data f.err = if f.err then .ERDFILE else .EINVAL := by
      unfold headVerdict; rw [if_neg (by omega), if_neg (not_not.2 hM), if_neg (not_not.2 hVO), if_pos (by omega)]
    refine ⟨_, ⟨[], f.err⟩, by rw [hv]; rfl, rfl, ⟨96, le_rfl, ?_⟩, ?_⟩
    · rw [List.drop_eq_nil_of_le (by omega)]; rfl
    · rw [hv]; intro h; split at h <;> simp at h
  rw [if_pos (by omega)]
  simp only []
  have hv : headVerdict f.data f.err = .OK := headVerdict_ok.2 ⟨h96, hM, hVO⟩
  have l89 : (List.take 89 (f.data.drop 7)).length = 89 := by rw [List.length_take, List.length_drop]; omega
  rw [wrSlice_append _ _ _ 7 l7 (by rw [l89, List.length_drop]; omega), Res.bind_ok, hv]
  have e : List.take 7 f.data ++ List.take 89 (f.data.drop 7) = f.data.take 96 := by
    rw [show (96 : Nat) = 7 + 89 by rfl, List.take_add]
  refine ⟨_, ⟨[(f.data.drop 7).drop 89], f.err⟩, rfl, rfl, ⟨96, le_rfl, ?_⟩, fun _ => ⟨?_, ?_⟩⟩
  · simp [InFile.data]
  · rw [l89, e, List.drop_drop, List.drop_eq_nil_of_le (by omega), List.append_nil]
  · simp [InFile.data]

/-! ### Decryption -/

open scoped Classical in
/-- The verdict of the copying phase on an input with valid header and correct passphrase. -/
noncomputable def copyVerdict (inp : Bytes) (err : Bool) (outf : OutFile) (dk : Bytes) (ac : Code) : Code :=
  if ac ≠ .OK then ac
  else if ¬ Fits outf (inp.length - 128) then .EWRFILE
  else if err then .ERDFILE
  else if inp.length < 128 then .EINVAL
  else if ¬ TagOk dk inp then .EINVAL
  else .OK

open scoped Classical in
/-- What happens to the expanded key and the stream in the copying phase. -/
noncomputable def copyTrace (sys : EncSys) (inp : Bytes) (outf : OutFile) : List Ev :=
  if aesCode sys = .OK ∧ ¬ Fits outf (inp.length - 128) then [.alloc .aesKey, .alloc .aesCtr, .zero .aesCtr, .free .aesCtr]
  else openTrace sys

open scoped Classical in
/-- What the copying phase leaves in the output file. -/
noncomputable def copyOut (sys : EncSys) (inp : Bytes) (outf : OutFile) (dk : Bytes) : OutFile :=
  if aesCode sys = .OK then (fwrite outf (plaintext dk inp)).2 else outf

theorem field_tail (h D : Bytes) (hh : h.length = 96) : field (h ++ D) 96 ((h ++ D).length - 128) = D.take (D.length - 32) := by
  unfold field
  rw [List.drop_append_of_le_length (by omega), List.drop_eq_nil_of_le (by omega), List.nil_append, List.length_append, hh,
    show 96 + D.length - 128 = D.length - 32 by omega]

theorem decCopy_ok {sys : EncSys} (g : sys.Good) (c : Cookie) (outf : OutFile) (hh : c.header.length = 96) (hdk : c.dk.length = 64)
    (hD : c.inf.data.length + 96 < 2 ^ 64) :
    ∃ o, scryptdec_file_copy sys c outf = .ok o ∧
      o.rc = copyVerdict (c.header ++ c.inf.data) c.inf.err outf c.dk (aesCode sys) ∧
      o.outf = copyOut sys (c.header ++ c.inf.data) outf c.dk ∧
      o.tr = copyTrace sys (c.header ++ c.inf.data) outf := by
  have hlen : (c.header ++ c.inf.data).length = 96 + c.inf.data.length := by rw [List.length_append, hh]
  unfold scryptdec_file_copy
  rw [rdSlice_ok (by omega), Res.bind_ok]
  obtain ⟨hctx, e1, r1⟩ := HMAC_SHA256_Init_spec sys.tf g.tf sys.junkHmac2 g.junkHmac2 (keyHmac c.dk)
  rw [show List.take 32 (List.drop 32 c.dk) = keyHmac c.dk from rfl, e1, Res.bind_ok, rdSlice_ok (by omega), Res.bind_ok, List.drop_zero,
    List.take_of_length_le (by omega)]
  obtain ⟨hctx2, e2, r2⟩ := HMAC_SHA256_Update_spec sys.tf g.tf hctx (keyHmac c.dk) [] c.header r1
  rw [e2, Res.bind_ok]
  rw [List.nil_append] at r2
  rcases aesOpen_cases g c.dk hdk with ⟨h, hc⟩ | ⟨h, hc⟩ | ⟨st, h, hc, hr⟩
  · rw [h, Res.bind_ok]
    exact ⟨_, rfl, by simp [copyVerdict, hc], by simp [copyOut, hc], by simp [copyTrace, openTrace, hc]⟩
  · rw [h, Res.bind_ok]
    exact ⟨_, rfl, by simp [copyVerdict, hc], by simp [copyOut, hc], by simp [copyTrace, openTrace, hc]⟩
  · rw [h, Res.bind_ok]
    simp only []
    have tail := field_tail c.header c.inf.data hh
    obtain ⟨l, el, lo, lw, lf⟩ := decLoop_ok g c.dk (keyHmac c.dk) (c.inf.data.length + 1) st 0 hctx2 c.header sys.iobuf [] c.inf.segs outf hr r2
      g.iobuf (by simp) (by simp) (by simp [InFile.data]) (by rw [show c.inf.segs.flatten = c.inf.data from rfl]; omega)
    simp only [List.nil_append, List.length_nil, show c.inf.segs.flatten = c.inf.data from rfl] at el lo lw lf
    rw [el, Res.bind_ok]
    have hlen2 : (c.header ++ c.inf.data).length - 128 = c.inf.data.length - 32 := by omega
    have ho : l.outf = copyOut sys (c.header ++ c.inf.data) outf c.dk := by
      rw [lo, copyOut, if_pos hc, plaintext, tail]; rfl
    unfold decFileEnd
    by_cases hw : l.wfail = true
    · rw [if_pos hw]
      have hn : ¬ Fits outf ((c.header ++ c.inf.data).length - 128) := by rw [hlen2]; exact lw.1 hw
      refine ⟨_, rfl, ?_, ho, ?_⟩
      · unfold copyVerdict; rw [if_neg (not_not.2 hc), if_pos hn]
      · unfold copyTrace; rw [if_pos ⟨hc, hn⟩]; rfl
    · rw [if_neg hw]
      have hF : Fits outf ((c.header ++ c.inf.data).length - 128) := by rw [hlen2]; by_contra hn; exact hw (lw.2 hn)
      obtain ⟨f1, f2, f3, f4, f5⟩ := lf (by simpa using hw)
      have htr : copyTrace sys (c.header ++ c.inf.data) outf = [.alloc .aesKey, .alloc .aesCtr] ++ crypto_aesctr_free ++ crypto_aes_key_free := by
        unfold copyTrace; rw [if_neg (fun h => h.2 hF), openTrace, if_pos hc]; rfl
      by_cases he : c.inf.err = true
      · simp only [he, if_true]
        refine ⟨_, rfl, ?_, ho, htr.symm⟩
        unfold copyVerdict; rw [if_neg (not_not.2 hc), if_neg (not_not.2 hF), if_pos rfl]
      · have he' : c.inf.err = false := by simpa using he
        simp only [he', Bool.false_eq_true, if_false]
        by_cases hb : l.buflen < 32
        · rw [if_pos hb]
          refine ⟨_, rfl, ?_, ho, htr.symm⟩
          unfold copyVerdict; rw [if_neg (not_not.2 hc), if_neg (not_not.2 hF), if_neg (by simp), if_pos (by omega)]
        · rw [if_neg hb]
          have hn32 : 32 ≤ c.inf.data.length := by omega
          have hb32 : l.buflen = 32 := by omega
          rw [hb32] at f5
          obtain ⟨hd, eh⟩ := HMAC_Final_ok sys.tf g.tf l.hctx (keyHmac c.dk) _ f1
          rw [eh, Res.bind_ok]
          simp only []
          obtain ⟨v, e, hv⟩ := verify_bytes_ok (hmac (keyHmac c.dk) (c.header ++ List.take (c.inf.data.length - 32) c.inf.data)) l.buf 32 (by simp) (by omega)
          rw [e, Res.bind_ok]
          rw [List.take_of_length_le (Nat.le_of_eq (hmac_length _ _)), f5] at hv
          have hT : TagOk c.dk (c.header ++ c.inf.data) ↔ v = 0 := by
            rw [hv, TagOk, hlen]
            have e1 : (c.header ++ c.inf.data).drop (96 + c.inf.data.length - 32) = c.inf.data.drop (c.inf.data.length - 32) := by
              rw [show 96 + c.inf.data.length - 32 = c.header.length + (c.inf.data.length - 32) by omega, List.drop_append]
              simp
            have e2 : (c.header ++ c.inf.data).take (96 + c.inf.data.length - 32) = c.header ++ c.inf.data.take (c.inf.data.length - 32) := by
              rw [show 96 + c.inf.data.length - 32 = c.header.length + (c.inf.data.length - 32) by omega, List.take_append]
              simp
            rw [e1, e2]; exact eq_comm
          have hcv : copyVerdict (c.header ++ c.inf.data) false outf c.dk (aesCode sys) =
              if ¬ TagOk c.dk (c.header ++ c.inf.data) then .EINVAL else .OK := by
            unfold copyVerdict
            rw [if_neg (not_not.2 hc), if_neg (not_not.2 hF), if_neg (by simp), if_neg (by omega)]
          refine ⟨_, rfl, ?_, ho, htr.symm⟩
          rw [hcv]
          by_cases h0 : v = 0
          · rw [if_neg (not_not.2 (hT.2 h0))]; exact if_neg (not_not.2 h0)
          · rw [if_pos (fun h => h0 (hT.1 h))]; exact if_pos h0

open scoped Classical in
/-- The verdict of scryptdec_setup. -/
noncomputable def setupVerdict (D : Bytes) (pc : Code) (kdfOk : Prop) (dk : Bytes) : Code :=
  if ¬ ChecksumOk D then .EINVAL
  else if pc ≠ .OK then pc
  else if ¬ kdfOk then .EKEY
  else if ¬ PasswordOk dk D then .EPASS
  else .OK

theorem setupVerdict_ok {D : Bytes} {pc : Code} {k : Prop} {dk : Bytes} :
    setupVerdict D pc k dk = .OK ↔ ChecksumOk D ∧ pc = .OK ∧ k ∧ PasswordOk dk D := by
  unfold setupVerdict
  by_cases h4 : ChecksumOk D
  case neg => rw [if_pos h4]; exact ⟨fun h => by simp at h, fun h => absurd h.1 h4⟩
  rw [if_neg (not_not.2 h4)]
  by_cases h5 : pc = .OK
  case neg => rw [if_pos h5]; exact ⟨fun h => absurd h h5, fun h => absurd h.2.1 h5⟩
  rw [if_neg (not_not.2 h5)]
  by_cases h6 : k
  case neg => rw [if_pos h6]; exact ⟨fun h => by simp at h, fun h => absurd h.2.2.1 h6⟩
  rw [if_neg (not_not.2 h6)]
  by_cases h7 : PasswordOk dk D
  case neg => rw [if_pos h7]; exact ⟨fun h => by simp at h, fun h => absurd h.2.2.2 h7⟩
  rw [if_neg (not_not.2 h7)]
  exact ⟨fun _ => ⟨h4, h5, h6, h7⟩, fun _ => rfl⟩

/-- `setupVerdict` for a given environment. -/
noncomputable def sysVerdict (sys : EncSys) (passwd : Bytes) (P : EncParams) (verbose force : Bool) (D : Bytes) : Code :=
  setupVerdict D (paramCode sys P verbose force D) (KdfOk sys (2 ^ hdrLogN D) (hdrR D) (hdrP D)) (inpKey passwd D)

theorem decSetup_spec {sys : EncSys} (g : sys.Good) {h passwd : Bytes} (hl : 96 ≤ h.length) {P : EncParams}
    {verbose force : Bool} {s : SetupOut} (hs : scryptdec_setup sys h passwd P verbose force = .ok s) :
    s.rc = sysVerdict sys passwd P verbose force h ∧ s.header = h ∧ s.P = hdrParams P h := by
  rw [decSetup_eq g h passwd hl] at hs
  unfold sysVerdict setupVerdict
  by_cases h1 : ChecksumOk h
  case neg => rw [if_pos h1] at hs; cases hs; exact ⟨(if_pos h1).symm, rfl, rfl⟩
  rw [if_neg (not_not.2 h1), Res.bind_eq_ok] at hs
  rw [if_neg (not_not.2 h1)]
  obtain ⟨⟨c, t⟩, hc, hs⟩ := hs
  have hpc : paramCode sys P verbose force h = c := by unfold paramCode; rw [hc]
  rw [hpc]
  simp only [] at hs
  by_cases h2 : c = .OK
  case neg => rw [if_pos h2] at hs; cases hs; exact ⟨(if_pos h2).symm, rfl, rfl⟩
  rw [if_neg (not_not.2 h2), Res.bind_eq_ok] at hs
  rw [if_neg (not_not.2 h2)]
  obtain ⟨⟨k, st⟩, hk, hs⟩ := hs
  have hg := checkparams_good (c := c) (t := t) hc (by rw [h2]; simp)
  obtain ⟨k1, k2⟩ := deriveKey_inp g (by have := hg.2.1; omega) hk
  simp only [] at hs
  by_cases h3 : k.rc = 0
  case neg => rw [if_pos h3] at hs; cases hs; exact ⟨(if_pos (fun h => h3 (k1.2 h))).symm, rfl, rfl⟩
  rw [if_neg (not_not.2 h3)] at hs
  rw [if_neg (not_not.2 (k1.1 h3))]
  cases hs
  refine ⟨?_, rfl, rfl⟩
  rw [k2 h3]
  by_cases h7 : PasswordOk (inpKey passwd h) h
  · rw [if_neg (not_not.2 h7)]; exact if_pos h7
  · rw [if_pos h7]; exact if_neg h7

theorem sysVerdict_take (sys : EncSys) (passwd : Bytes) (P : EncParams) (verbose force : Bool) (D : Bytes) :
    sysVerdict sys passwd P verbose force (D.take 96) = sysVerdict sys passwd P verbose force D := by
  unfold sysVerdict setupVerdict
  rw [paramCode_take, inpKey_take, hdrLogN_take, hdrR_take, hdrP_take]
  simp only [checksum_take, password_take]

/-- The code of scryptdec_file_prep. -/
noncomputable def prepVerdict (sys : EncSys) (inf : InFile) (passwd : Bytes) (P : EncParams) (verbose force : Bool) : Code :=
  if sys.cookieOk = false then .ENOMEM
  else if headVerdict inf.data inf.err ≠ .OK then headVerdict inf.data inf.err
  else sysVerdict sys passwd P verbose force inf.data

theorem prepVerdict_ok {sys : EncSys} {inf : InFile} {passwd : Bytes} {P : EncParams} {verbose force : Bool} :
    prepVerdict sys inf passwd P verbose force = .OK ↔ sys.cookieOk = true ∧ Unlocked sys passwd P verbose force inf.data 96 := by
  unfold prepVerdict
  by_cases h1 : sys.cookieOk = false
  · rw [if_pos h1]; simp [h1]
  rw [if_neg h1]
  have h1' : sys.cookieOk = true := by simpa using h1
  by_cases h2 : headVerdict inf.data inf.err = .OK
  · rw [if_neg (not_not.2 h2)]
    have := headVerdict_ok.1 h2
    unfold sysVerdict
    rw [setupVerdict_ok]
    exact ⟨fun h => ⟨h1', this.1, this.2.1, this.2.2, h.1, h.2.1, h.2.2.1, h.2.2.2⟩, fun h => ⟨h.2.sum, h.2.params, h.2.kdf, h.2.pass⟩⟩
  · rw [if_pos h2]
    exact ⟨fun h => absurd h h2, fun h => absurd (headVerdict_ok.2 ⟨h.2.len, h.2.magic, h.2.version⟩) h2⟩

/-- What scryptdec_file_prep does. -/
theorem decPrep_spec {sys : EncSys} (g : sys.Good) {inf : InFile} {passwd : Bytes} {P : EncParams} {verbose force : Bool} {o : PrepOut}
    (h : scryptdec_file_prep sys inf passwd P verbose force = .ok o) :
    o.rc = prepVerdict sys inf passwd P verbose force ∧
      (o.rc = .OK → ∃ c, o.cookie = some c ∧ c.header = inf.data.take 96 ∧ c.inf.data = inf.data.drop 96 ∧ c.inf.err = inf.err ∧
        c.dk = inpKey passwd inf.data ∧ o.tr = [.alloc .cookie] ∧ o.inf = c.inf) ∧
      (o.rc ≠ .OK → o.cookie = none ∧ o.tr = if sys.cookieOk then [.alloc .cookie, .zero .cookie, .free .cookie] else []) ∧
      o.P = (if sys.cookieOk = true ∧ headVerdict inf.data inf.err = .OK then hdrParams P inf.data else P) ∧
      (∃ n, n ≤ 96 ∧ o.inf.data = inf.data.drop n) := by
  unfold scryptdec_file_prep at h
  rw [Res.bind_eq_ok] at h
  obtain ⟨-, -, h⟩ := h
  unfold prepVerdict
  by_cases h1 : sys.cookieOk = true
  case neg =>
    have h1' : sys.cookieOk = false := by simpa using h1
    rw [if_pos (by simp [h1'])] at h
    cases h
    rw [if_pos h1']
    exact ⟨rfl, fun h => by simp at h, fun _ => ⟨rfl, by simp [h1']⟩, by simp [h1'], ⟨0, by omega, rfl⟩⟩
  rw [if_neg (by simp [h1])] at h
  rw [if_neg (by simp [h1])]
  obtain ⟨hd, f', e, fe, fn, fo⟩ := loadHeader_ok inf sys.header0 g.header0
  rw [e, Res.bind_ok] at h
  simp only [] at h
  by_cases h2 : headVerdict inf.data inf.err = .OK
  case neg =>
    rw [if_pos h2] at h
    cases h
    rw [if_pos h2]
    exact ⟨rfl, fun h => absurd h h2, fun _ => ⟨rfl, by rw [if_pos h1]; rfl⟩, (if_neg (fun h => h2 h.2)).symm, fn⟩
  rw [if_neg (not_not.2 h2)] at h
  rw [if_neg (not_not.2 h2)]
  obtain ⟨rfl, fd⟩ := fo h2
  have h96 : 96 ≤ (inf.data.take 96).length := by rw [List.length_take]; have := (headVerdict_ok.1 h2).1; omega
  rw [Res.bind_eq_ok] at h
  obtain ⟨s, hs, h⟩ := h
  obtain ⟨s1, s2, s3⟩ := decSetup_spec g h96 hs
  rw [sysVerdict_take] at s1
  rw [hdrParams_take] at s3
  have hPP : (if sys.cookieOk = true ∧ headVerdict inf.data inf.err = .OK then hdrParams P inf.data else P) = hdrParams P inf.data :=
    if_pos ⟨h1, h2⟩
  rw [hPP, ← s1]
  by_cases h3 : s.rc = .OK
  · rw [if_neg (not_not.2 h3)] at h
    cases h
    refine ⟨h3.symm, fun _ => ⟨_, rfl, rfl, fd, fe, ?_, rfl, rfl⟩, fun h => absurd rfl h, s3, fn⟩
    have := decSetup_dk g h96 hs h3
    rw [inpKey_take] at this
    exact this
  · rw [if_pos h3] at h
    cases h
    exact ⟨rfl, fun h => absurd h h3, fun _ => ⟨rfl, by rw [if_pos h1]; rfl⟩, s3, fn⟩

theorem decPrep_total {sys : EncSys} (g : sys.Good) (ready : SelfTestReady sys) {inf : InFile} {passwd : Bytes} {P : EncParams}
    {verbose force : Bool} (hP : P.zero = true) (hc : 96 ≤ inf.data.length → CheckDefined sys P verbose force inf.data) :
    ∃ o, scryptdec_file_prep sys inf passwd P verbose force = .ok o := by
  unfold scryptdec_file_prep
  rw [hP, cassert_true, Res.bind_ok]
  by_cases h1 : sys.cookieOk = true
  case neg => rw [if_pos (by simp [h1])]; exact ⟨_, rfl⟩
  rw [if_neg (by simp [h1])]
  obtain ⟨hd, f', e, fe, fn, fo⟩ := loadHeader_ok inf sys.header0 g.header0
  rw [e, Res.bind_ok]
  simp only []
  by_cases h2 : headVerdict inf.data inf.err = .OK
  case neg => rw [if_pos h2]; exact ⟨_, rfl⟩
  rw [if_neg (not_not.2 h2)]
  obtain ⟨rfl, fd⟩ := fo h2
  have hl := (headVerdict_ok.1 h2).1
  obtain ⟨s, hs⟩ := decSetup_total g ready (inf.data.take 96) passwd (by rw [List.length_take]; omega) P verbose force (checkDefined_take.2 (hc hl))
  rw [hs, Res.bind_ok]
  by_cases h3 : s.rc = .OK
  · rw [if_neg (not_not.2 h3)]; exact ⟨_, rfl⟩
  · rw [if_pos h3]; exact ⟨_, rfl⟩

open scoped Classical in
/-- What scryptdec_file does. -/
theorem decFile_spec {sys : EncSys} (g : sys.Good) {inf : InFile} {outf : OutFile} {passwd : Bytes} (hin : inf.data.length < 2 ^ 64)
    {P : EncParams} {verbose force : Bool} {o : FileOut}
    (h : scryptdec_file sys inf outf passwd P verbose force = .ok o) :
    o.rc = (if prepVerdict sys inf passwd P verbose force ≠ .OK then prepVerdict sys inf passwd P verbose force
      else copyVerdict inf.data inf.err outf (inpKey passwd inf.data) (aesCode sys)) ∧
    o.outf = (if prepVerdict sys inf passwd P verbose force = .OK then copyOut sys inf.data outf (inpKey passwd inf.data) else outf) ∧
    o.P = (if sys.cookieOk = true ∧ headVerdict inf.data inf.err = .OK then hdrParams P inf.data else P) ∧
    o.tr = (if prepVerdict sys inf passwd P verbose force = .OK then
        [.alloc .cookie] ++ copyTrace sys inf.data outf ++ [.zero .cookie, .free .cookie]
      else if sys.cookieOk then [.alloc .cookie, .zero .cookie, .free .cookie] else []) ∧
    o.dk = zero64 := by
  unfold scryptdec_file at h
  rw [Res.bind_eq_ok] at h
  obtain ⟨-, -, h⟩ := h
  rw [Res.bind_eq_ok] at h
  obtain ⟨p, hp, h⟩ := h
  obtain ⟨p1, p2, p3, p4, p5⟩ := decPrep_spec g hp
  by_cases h1 : p.rc = .OK
  · obtain ⟨c, c1, c2, c3, c4, c5, c6, c7⟩ := p2 h1
    have hv : prepVerdict sys inf passwd P verbose force = .OK := by rw [← p1, h1]
    have hU := (prepVerdict_ok.1 hv).2
    have hD : c.header ++ c.inf.data = inf.data := by rw [c2, c3, List.take_append_drop]
    obtain ⟨q, e, q1, q2, q3⟩ := decCopy_ok g c outf (by rw [c2, List.length_take]; have := hU.len; omega) (by rw [c5]; exact inpKey_length _ _)
      (by rw [c3, List.length_drop]; have := hU.len; omega)
    rw [hD, c4, c5] at q1
    rw [hD, c5] at q2
    rw [hD] at q3
    simp only [c1] at h
    rw [e, Res.bind_ok] at h
    cases h
    rw [if_neg (not_not.2 hv), if_pos hv, if_pos hv]
    exact ⟨q1, q2, p4, by rw [c6, q3]; rfl, rfl⟩
  · obtain ⟨c1, c2⟩ := p3 h1
    have hv : prepVerdict sys inf passwd P verbose force ≠ .OK := by rw [← p1]; exact h1
    simp only [c1] at h
    cases h
    rw [if_pos hv, if_neg hv, if_neg hv]
    exact ⟨p1, rfl, p4, c2, rfl⟩

theorem decFile_total {sys : EncSys} (g : sys.Good) (ready : SelfTestReady sys) {inf : InFile} {outf : OutFile} {passwd : Bytes}
    (hin : inf.data.length < 2 ^ 64) {P : EncParams}
    {verbose force : Bool} (hP : P.zero = true) (hc : 96 ≤ inf.data.length → CheckDefined sys P verbose force inf.data) :
    ∃ o, scryptdec_file sys inf outf passwd P verbose force = .ok o := by
  unfold scryptdec_file
  obtain ⟨p, hp⟩ := decPrep_total g ready (inf := inf) (passwd := passwd) hP hc
  rw [hP, cassert_true, Res.bind_ok, hp, Res.bind_ok]
  obtain ⟨p1, p2, p3, p4, p5⟩ := decPrep_spec g hp
  by_cases h1 : p.rc = .OK
  · obtain ⟨c, c1, c2, c3, c4, c5, c6, c7⟩ := p2 h1
    have hU := (prepVerdict_ok.1 (p1.symm.trans h1)).2
    obtain ⟨q, e, -⟩ := decCopy_ok g c outf (by rw [c2, List.length_take]; have := hU.len; omega) (by rw [c5]; exact inpKey_length _ _)
      (by rw [c3, List.length_drop]; have := hU.len; omega)
    simp only [c1]
    rw [e, Res.bind_ok]
    exact ⟨_, rfl⟩
  · simp only [(p3 h1).1]
    exact ⟨_, rfl⟩

/-! ### Encryption -/

open scoped Classical in
/-- scryptenc_file after a successful setup. -/
theorem encFileBody_ok {sys : EncSys} (g : sys.Good) (inf : InFile) (outf : OutFile) (hin : inf.data.length < 2 ^ 64)
    (s : SetupOut) (l r p : Nat) (salt : Bytes) (hsalt : salt.length = 32) (hdk : s.dk.length = 64) (hh : s.header = header96 s.dk l r p salt) :
    ∃ o, encFileBody sys inf outf s = .ok o ∧ o.P = s.P ∧ o.dk = zero64 ∧ o.err = s.err ∧
      o.rc = (if ¬ Fits outf 96 then .EWRFILE else if aesCode sys ≠ .OK then aesCode sys
        else if ¬ Fits outf (96 + inf.data.length) then .EWRFILE
        else if inf.err then .ERDFILE
        else if ¬ Fits outf (inf.data.length + 128) then .EWRFILE else .OK) ∧
      o.outf = (if ¬ Fits outf 96 ∨ aesCode sys ≠ .OK then (fwrite outf s.header).2
        else if ¬ Fits outf (96 + inf.data.length) ∨ inf.err then (fwrite outf (s.header ++ dataCipher s.dk inf.data)).2
        else (fwrite outf (container s.dk l r p salt inf.data)).2) ∧
      o.tr = (if ¬ Fits outf 96 then [] else if aesCode sys = .OK ∧ ¬ Fits outf (96 + inf.data.length) then
        [.alloc .aesKey, .alloc .aesCtr, .zero .aesCtr, .free .aesCtr] else openTrace sys) := by
  have l96 := header96_length s.dk l r p salt hsalt
  rw [← hh] at l96
  unfold encFileBody
  rw [rdSlice_ok (by omega), Res.bind_ok]
  obtain ⟨hctx, e1, r1⟩ := HMAC_SHA256_Init_spec sys.tf g.tf sys.junkHmac2 g.junkHmac2 (keyHmac s.dk)
  rw [show List.take 32 (List.drop 32 s.dk) = keyHmac s.dk from rfl, e1, Res.bind_ok, rdSlice_ok (by omega), Res.bind_ok, List.drop_zero,
    List.take_of_length_le (by omega)]
  obtain ⟨hctx2, e2, r2⟩ := HMAC_SHA256_Update_spec sys.tf g.tf hctx (keyHmac s.dk) [] s.header r1
  rw [e2, Res.bind_ok]
  rw [List.nil_append] at r2
  have hw : (fwrite outf s.header).1 < 96 ↔ ¬ Fits outf 96 := by have := fwrite_lt outf s.header; rwa [l96] at this
  simp only []
  by_cases hF : Fits outf 96
  case neg =>
    rw [if_pos (hw.2 hF), if_pos hF, if_pos hF, if_pos (.inl hF)]
    exact ⟨_, rfl, rfl, rfl, rfl, rfl, rfl, rfl⟩
  rw [if_neg (fun h => hw.1 h hF), if_neg (not_not.2 hF), if_neg (not_not.2 hF)]
  have hF' : Fits outf s.header.length := by rw [l96]; exact hF
  rcases aesOpen_cases g s.dk hdk with ⟨h, hc⟩ | ⟨h, hc⟩ | ⟨st, h, hc, hr⟩
  · rw [h, Res.bind_ok]
    exact ⟨_, rfl, rfl, rfl, rfl, by simp [hc], by simp [hc], by simp [openTrace, hc]⟩
  · rw [h, Res.bind_ok]
    exact ⟨_, rfl, rfl, rfl, rfl, by simp [hc], by simp [hc], by simp [openTrace, hc]⟩
  rw [h, Res.bind_ok]
  simp only []
  obtain ⟨q, el, lo, lw, lf⟩ := encLoop_ok g s.dk (keyHmac s.dk) (inf.data.length + 1) st 0 hctx2 s.header (sys.iobuf.take ENCBLOCK) inf.segs
    (fwrite outf s.header).2 hr r2 (by rw [List.length_take, g.iobuf]; rfl) (by simp [InFile.data])
    (by rw [show inf.segs.flatten = inf.data from rfl]; omega)
  rw [show inf.segs.flatten = inf.data from rfl, show ctr (aes (keyEnc s.dk)) 0 0 inf.data = dataCipher s.dk inf.data from rfl] at lo lf
  rw [show inf.segs.flatten = inf.data from rfl, fits_append hF', l96] at lw
  rw [el, Res.bind_ok]
  rw [fwrite_seq hF'] at lo
  have lB : (s.header ++ dataCipher s.dk inf.data).length = 96 + inf.data.length := by rw [List.length_append, l96, dataCipher_length]
  rw [if_neg (not_not.2 hc), if_neg (show ¬ (¬ Fits outf 96 ∨ aesCode sys ≠ .OK) by simp [hF, hc])]
  unfold encFileEnd
  by_cases hw : q.wfail = true
  · have hn := lw.1 hw
    rw [if_pos hw, if_pos hn, if_pos (.inl hn), if_pos ⟨hc, hn⟩]
    exact ⟨_, rfl, rfl, rfl, rfl, rfl, lo, rfl⟩
  have hF2 : Fits outf (96 + inf.data.length) := by by_contra hn; exact hw (lw.2 hn)
  rw [if_neg hw, if_neg (not_not.2 hF2), if_neg (show ¬ (aesCode sys = .OK ∧ ¬ Fits outf (96 + inf.data.length)) from fun h => h.2 hF2)]
  have htr : openTrace sys = [.alloc .aesKey, .alloc .aesCtr] ++ crypto_aesctr_free ++ crypto_aes_key_free := by
    rw [openTrace, if_pos hc]; rfl
  by_cases he : inf.err = true
  · rw [if_pos he, if_pos he, if_pos (.inr he)]
    exact ⟨_, rfl, rfl, rfl, rfl, rfl, lo, htr.symm⟩
  rw [if_neg he, if_neg he, if_neg (show ¬ (¬ Fits outf (96 + inf.data.length) ∨ inf.err = true) by simp [hF2, he])]
  obtain ⟨f1, f2⟩ := lf (by simpa using hw)
  obtain ⟨hd, eh⟩ := HMAC_Final_ok sys.tf g.tf q.hctx (keyHmac s.dk) _ f1
  rw [eh, Res.bind_ok]
  simp only []
  rw [rdSlice_ok (by rw [hmac_length]), Res.bind_ok, List.drop_zero, List.take_of_length_le (by rw [hmac_length])]
  have hF3 : Fits outf (s.header ++ dataCipher s.dk inf.data).length := by rw [lB]; exact hF2
  have hlt : (fwrite q.outf (hmac (keyHmac s.dk) (s.header ++ dataCipher s.dk inf.data))).1 < 32 ↔ ¬ Fits outf (inf.data.length + 128) := by
    have := fwrite_lt q.outf (hmac (keyHmac s.dk) (s.header ++ dataCipher s.dk inf.data))
    rw [hmac_length, lo, fits_append hF3, lB, show 96 + inf.data.length + 32 = inf.data.length + 128 by omega] at this
    rw [lo]; exact this
  refine ⟨_, rfl, rfl, rfl, rfl, ?_, ?_, htr.symm⟩
  · by_cases hF4 : Fits outf (inf.data.length + 128)
    · rw [if_neg (not_not.2 hF4)]; exact if_neg (fun h => hlt.1 h hF4)
    · rw [if_pos hF4]; exact if_pos (hlt.2 hF4)
  · show (fwrite q.outf (hmac (keyHmac s.dk) (s.header ++ dataCipher s.dk inf.data))).2 = _
    rw [lo, fwrite_seq hF3, container, ← hh]

end Scrypt
