import Verif.Props.Enc
/-
C04 - C07, C09, C10: agreement of the interfaces, authenticity, what is written, what is reported.
-/
namespace Scrypt.Props
open Scrypt Spec F64

set_option exponentiation.threshold 1100

theorem plaintext_length (dk inp : Bytes) : (plaintext dk inp).length = inp.length - 128 := by
  unfold plaintext dataCipher
  rw [ctr_length]
  simp [field]
  omega

/-! ### C04: the two interfaces agree -/

/-- C04, encryption. With the same salt and the same parameters the two interfaces produce the same bytes, on
whatever systems they run. -/
theorem C04_enc_same_bytes {sb sf : EncSys} (gb : sb.Good) (gf : sf.Good) {m outbuf passwd : Bytes} (hm : m.length < 2 ^ 64)
    (hout : m.length + 128 ≤ outbuf.length) {inf : InFile} (hin : inf.data = m) {outf : OutFile}
    {Pb Pf : EncParams} {vb fb vf ff : Bool} {ob : BufOut} {of : FileOut}
    (hb : scryptenc_buf sb m outbuf passwd Pb vb fb = .ok ob) (hf : scryptenc_file sf inf outf passwd Pf vf ff = .ok of)
    (hrb : ob.rc = .OK) (hrf : of.rc = .OK) (hs : sb.salt = sf.salt) (hl : ob.P.logN = of.P.logN) (hr : ob.P.r = of.P.r)
    (hp : ob.P.p = of.P.p) : of.outf.written = outf.written ++ ob.out.take (m.length + 128) := by
  obtain ⟨salt, l, b1, b2, b3, b4, b5, -⟩ := C03_buf gb hm hout hb hrb
  obtain ⟨salt', l', f1, f2, f3, f4, -⟩ := C03_file gf (by rw [hin]; exact hm) hf hrf
  rw [b1, f1] at hs
  cases hs
  have : l = l' := by omega
  subst this
  rw [f4, b4, List.take_append_of_le_length (by omega), List.take_of_length_le (by omega), hin, hr, hp]

/-- C04, encryption. On the same system, with the same arguments, the two interfaces return the same code, choose the
same parameters and print the same messages, if reading and writing the streams does not fail. -/
theorem C04_enc_same_code {sys : EncSys} (g : sys.Good) {m outbuf passwd : Bytes} (hm : m.length < 2 ^ 64)
    (hout : m.length + 128 ≤ outbuf.length) {inf : InFile} (hin : inf.data = m) (herr : inf.err = false) {outf : OutFile}
    (hroom : Fits outf (m.length + 128)) {P : EncParams} {verbose force : Bool} {ob : BufOut} {of : FileOut}
    (hb : scryptenc_buf sys m outbuf passwd P verbose force = .ok ob)
    (hf : scryptenc_file sys inf outf passwd P verbose force = .ok of) :
    of.rc = ob.rc ∧ of.P = ob.P ∧ of.err = ob.err := by
  classical
  subst hin
  obtain ⟨s, hs, b1, b2, -, b3, b4⟩ := encBuf_spec g hm hout hb
  obtain ⟨s', hs', f1, f2, -, f3, f4⟩ := encFile_spec g hm hf
  rw [hs] at hs'
  cases hs'
  refine ⟨?_, by rw [b1, f1], by rw [b2, f2]⟩
  by_cases h0 : s.rc = .OK
  · obtain ⟨salt, l, -, -, -, -, -, -, -, f5, -⟩ := f4 h0
    have r1 : Fits outf 96 := fun k hk => by have := hroom k hk; omega
    have r2 : Fits outf (96 + inf.data.length) := fun k hk => by have := hroom k hk; omega
    rw [f5, (b4 h0).1, if_neg (not_not.2 r1), if_neg (not_not.2 r2), if_neg (show ¬ inf.err = true by simp [herr]), if_neg (not_not.2 hroom)]
    by_cases ha : aesCode sys = .OK
    · rw [if_neg (not_not.2 ha), ha]
    · rw [if_pos ha]
  · rw [(f3 h0).1, (b3 h0).1]

/-- C04, decryption. On the same input, on the same system, if reading and writing the streams does not fail: one
succeeds iff the other does, with the same plaintext; and both return the same code, except that an input of 96 to 127
bytes is EINVAL for scryptdec_buf while scryptdec_file looks at its header first. -/
theorem C04_dec {sys : EncSys} (g : sys.Good) {D outbuf passwd : Bytes} {outlen : Nat} (hD : D.length < 2 ^ 64) (hout : D.length ≤ outbuf.length)
    {inf : InFile} (hin : inf.data = D) (herr : inf.err = false) (hc : sys.cookieOk = true) {outf : OutFile}
    (hroom : Fits outf (D.length - 128)) {P : EncParams} {verbose force : Bool} {ob : BufOut} {of : FileOut}
    (hb : scryptdec_buf sys D outbuf outlen passwd P verbose force = .ok ob)
    (hf : scryptdec_file sys inf outf passwd P verbose force = .ok of) :
    (of.rc = .OK ↔ ob.rc = .OK) ∧
    (of.rc = .OK → of.outf.written = outf.written ++ ob.out.take ob.outlen) ∧
    (D.length < 96 ∨ 128 ≤ D.length → of.rc = ob.rc) ∧
    (96 ≤ D.length → D.length < 128 → of.rc ≠ .OK ∧ (ob.rc = .EINVAL ∨ ob.rc = .EVERSION)) := by
  classical
  subst hin
  have hs := decBuf_spec g hD hout hb
  obtain ⟨f1, f2, -⟩ := decFile_spec g hD hf
  have long : 128 ≤ inf.data.length → of.rc = ob.rc := by
    intro h128
    have n128 : ¬ inf.data.length < 128 := by omega
    rw [f1, hs.rc]
    unfold prepVerdict headVerdict sysVerdict setupVerdict copyVerdict bufVerdict
    rw [if_neg (show ¬ sys.cookieOk = false by simp [hc]), if_neg (show ¬ inf.data.length < 7 by omega), if_neg (show ¬ inf.data.length < 96 by omega)]
    by_cases h1 : HasMagic inf.data
    case neg => simp [h1]
    rw [if_neg (not_not.2 h1), if_neg (show ¬ (inf.data.length < 7 ∨ ¬ HasMagic inf.data) by simp [h1]; omega)]
    by_cases h2 : VersionOk inf.data
    case neg => rw [if_pos h2, if_pos h2]; simp
    rw [if_neg (not_not.2 h2), if_neg (not_not.2 h2), if_neg (not_not.2 rfl), if_neg (show ¬ inf.data.length < 128 by omega)]
    by_cases h3 : ChecksumOk inf.data
    case neg => simp [h3]
    rw [if_neg (not_not.2 h3), if_neg (not_not.2 h3)]
    by_cases h4 : paramCode sys P verbose force inf.data = .OK
    case neg => simp [h4, n128]
    rw [if_neg (not_not.2 h4), if_neg (not_not.2 h4)]
    by_cases h5 : KdfOk sys (2 ^ hdrLogN inf.data) (hdrR inf.data) (hdrP inf.data)
    case neg => simp [h5, n128]
    rw [if_neg (not_not.2 h5), if_neg (not_not.2 h5)]
    by_cases h6 : PasswordOk (inpKey passwd inf.data) inf.data
    case neg => simp [h6, n128]
    rw [if_neg (not_not.2 h6), if_neg (not_not.2 h6), if_neg (not_not.2 rfl), if_neg (not_not.2 hroom), if_neg (show ¬ inf.err = true by simp [herr]),
      if_neg (show ¬ inf.data.length < 128 by omega)]
  have short : inf.data.length < 128 → of.rc ≠ .OK ∧ (ob.rc = .EINVAL ∨ ob.rc = .EVERSION) := by
    intro h128
    constructor
    · rw [f1]
      split
      · assumption
      · unfold copyVerdict
        rw [if_neg (not_not.2 hroom), if_neg (show ¬ inf.err = true by simp [herr]), if_pos h128]
        split
        · assumption
        · simp
    · rw [hs.rc]
      unfold bufVerdict
      rw [if_pos h128]
      split
      · exact .inl rfl
      split
      · exact .inr rfl
      · exact .inl rfl
  have ok : of.rc = .OK ↔ ob.rc = .OK := by
    by_cases h : 128 ≤ inf.data.length
    · rw [long h]
    · obtain ⟨a, b⟩ := short (by omega)
      refine ⟨fun h => absurd h a, fun h => ?_⟩
      rw [h] at b; simp at b
  refine ⟨ok, fun h => ?_, ?_, fun _ h => short h⟩
  · have hb' := ok.1 h
    rw [hs.rc, bufVerdict_ok] at hb'
    obtain ⟨a1, a2, a3, a4, a5, a6, a7, a8, a9⟩ := hb'
    obtain ⟨o1, o2⟩ := hs.out_yes ⟨a1, a2, a3, a4, a5, a6, a7⟩ a8
    rw [f2, if_pos (prepVerdict_ok.2 ⟨hc, ⟨by omega, a2, a3, a4, a5, a6, a7⟩⟩), copyOut, if_pos a8]
    have hl : (plaintext (inpKey passwd inf.data) inf.data).length = inf.data.length - 128 := plaintext_length _ _
    rw [fwrite_fits (by rw [hl]; exact hroom), o1, o2, List.take_append_of_le_length (by omega), List.take_of_length_le (by omega)]
  · rintro (h | h)
    · rw [f1, hs.rc]
      unfold prepVerdict headVerdict bufVerdict
      rw [if_neg (show ¬ sys.cookieOk = false by simp [hc]), if_pos h, if_neg (show ¬ inf.err = true by simp [herr])]
      by_cases h7 : inf.data.length < 7
      · simp [h7]
      rw [if_neg h7]
      by_cases h1 : HasMagic inf.data
      case neg => simp [h1]
      rw [if_neg (not_not.2 h1), if_neg (show ¬ (inf.data.length < 7 ∨ ¬ HasMagic inf.data) by simp [h1]; omega)]
      by_cases h2 : VersionOk inf.data
      case neg => rw [if_pos h2, if_pos h2]; simp
      rw [if_neg (not_not.2 h2), if_neg (not_not.2 h2), if_pos (show inf.data.length < 128 by omega)]
      simp
    · exact long h

/-! ### C05: only genuine containers are accepted -/

/-- C05, buffers. -/
theorem C05_buf {sys : EncSys} (g : sys.Good) {D outbuf passwd : Bytes} {outlen : Nat} (hD : D.length < 2 ^ 64) (hout : D.length ≤ outbuf.length)
    {P : EncParams} {verbose force : Bool} {o : BufOut} (h : scryptdec_buf sys D outbuf outlen passwd P verbose force = .ok o)
    (hok : o.rc = .OK) :
    (o.out.take o.outlen).length = D.length - 128 ∧
    D = container (scryptCode passwd (hdrSalt D) (2 ^ hdrLogN D) (hdrR D) (hdrP D) 64) (hdrLogN D) (hdrR D) (hdrP D) (hdrSalt D)
      (o.out.take o.outlen) ∧
    (hdrP D ≤ 2 ^ 25 → D = encrypted passwd (hdrLogN D) (hdrR D) (hdrP D) (hdrSalt D) (o.out.take o.outlen)) := by
  classical
  have hs := decBuf_spec g hD hout h
  rw [hs.rc, bufVerdict_ok] at hok
  obtain ⟨a1, a2, a3, a4, a5, a6, a7, a8, a9⟩ := hok
  obtain ⟨o1, o2⟩ := hs.out_yes ⟨a1, a2, a3, a4, a5, a6, a7⟩ a8
  have hl : (plaintext (inpKey passwd D) D).length = D.length - 128 := plaintext_length _ _
  have e : o.out.take o.outlen = plaintext (inpKey passwd D) D := by
    rw [o1, o2, List.take_append_of_le_length (by omega), List.take_of_length_le (by omega)]
  have hc := container_of_checks (inpKey passwd D) D a1 a2 a3 a4 a7 a9
  rw [e]
  refine ⟨hl, hc, fun hp => ?_⟩
  unfold encrypted
  rw [← scryptCode_eq _ _ _ _ _ _ hp]
  exact hc

theorem decFile_ok {sys : EncSys} (g : sys.Good) {inf : InFile} {outf : OutFile} {passwd : Bytes} (hin : inf.data.length < 2 ^ 64)
    {P : EncParams} {verbose force : Bool} {o : FileOut}
    (h : scryptdec_file sys inf outf passwd P verbose force = .ok o) :
    o.rc = .OK ↔ sys.cookieOk = true ∧ Unlocked sys passwd P verbose force inf.data 96 ∧ aesCode sys = .OK ∧ Fits outf (inf.data.length - 128) ∧
      inf.err = false ∧ 128 ≤ inf.data.length ∧ TagOk (inpKey passwd inf.data) inf.data := by
  classical
  rw [(decFile_spec g hin h).1]
  by_cases h1 : prepVerdict sys inf passwd P verbose force = .OK
  case neg =>
    rw [if_pos h1]
    exact ⟨fun h => absurd h h1, fun h => absurd (prepVerdict_ok.2 ⟨h.1, h.2.1⟩) h1⟩
  rw [if_neg (not_not.2 h1)]
  obtain ⟨p1, p2⟩ := prepVerdict_ok.1 h1
  unfold copyVerdict
  by_cases h2 : aesCode sys = .OK
  case neg => rw [if_pos h2]; exact ⟨fun h => absurd h h2, fun h => absurd h.2.2.1 h2⟩
  rw [if_neg (not_not.2 h2)]
  by_cases h3 : Fits outf (inf.data.length - 128)
  case neg => rw [if_pos h3]; exact ⟨fun h => by simp at h, fun h => absurd h.2.2.2.1 h3⟩
  rw [if_neg (not_not.2 h3)]
  by_cases h4 : inf.err = true
  · rw [if_pos h4]; exact ⟨fun h => by simp at h, fun h => by simp [h4] at h⟩
  rw [if_neg h4]
  by_cases h5 : inf.data.length < 128
  · rw [if_pos h5]; exact ⟨fun h => by simp at h, fun h => by omega⟩
  rw [if_neg h5]
  by_cases h6 : TagOk (inpKey passwd inf.data) inf.data
  case neg => rw [if_pos h6]; exact ⟨fun h => by simp at h, fun h => absurd h.2.2.2.2.2.2 h6⟩
  rw [if_neg (not_not.2 h6)]
  exact ⟨fun _ => ⟨p1, p2, h2, h3, by simpa using h4, by omega, h6⟩, fun _ => rfl⟩

/-- C05, streams. -/
theorem C05_file {sys : EncSys} (g : sys.Good) {inf : InFile} {outf : OutFile} {passwd : Bytes} (hin : inf.data.length < 2 ^ 64)
    {P : EncParams} {verbose force : Bool} {o : FileOut}
    (h : scryptdec_file sys inf outf passwd P verbose force = .ok o) (hok : o.rc = .OK) :
    ∃ m, o.outf.written = outf.written ++ m ∧ m.length + 128 = inf.data.length ∧ inf.err = false ∧
    inf.data = container (scryptCode passwd (hdrSalt inf.data) (2 ^ hdrLogN inf.data) (hdrR inf.data) (hdrP inf.data) 64)
      (hdrLogN inf.data) (hdrR inf.data) (hdrP inf.data) (hdrSalt inf.data) m ∧
    (hdrP inf.data ≤ 2 ^ 25 → inf.data = encrypted passwd (hdrLogN inf.data) (hdrR inf.data) (hdrP inf.data) (hdrSalt inf.data) m) := by
  classical
  obtain ⟨c1, c2, c3, c4, c5, c6, c7⟩ := (decFile_ok g hin h).1 hok
  have hl : (plaintext (inpKey passwd inf.data) inf.data).length = inf.data.length - 128 := plaintext_length _ _
  have hc := container_of_checks (inpKey passwd inf.data) inf.data c6 c2.magic c2.version c2.sum c2.pass c7
  refine ⟨plaintext (inpKey passwd inf.data) inf.data, ?_, by omega, c5, hc, fun hp => ?_⟩
  · rw [(decFile_spec g hin h).2.1, if_pos (prepVerdict_ok.2 ⟨c1, c2⟩), copyOut, if_pos c3]
    exact fwrite_fits (by rw [hl]; exact c4)
  · unfold encrypted
    rw [← scryptCode_eq _ _ _ _ _ _ hp]
    exact hc

/-! ### C06: tampering -/

/-- Decryption of `D`, through either interface, succeeds. -/
inductive Accepted (sys : EncSys) (passwd D : Bytes) : Prop
  | buf (outbuf : Bytes) (outlen : Nat) (P : EncParams) (verbose force : Bool) (o : BufOut) (hout : D.length ≤ outbuf.length)
      (h : scryptdec_buf sys D outbuf outlen passwd P verbose force = .ok o) (hok : o.rc = .OK)
  | file (inf : InFile) (outf : OutFile) (P : EncParams) (verbose force : Bool) (o : FileOut) (hin : inf.data = D)
      (h : scryptdec_file sys inf outf passwd P verbose force = .ok o) (hok : o.rc = .OK)

theorem Accepted.checks {sys : EncSys} (g : sys.Good) {passwd D : Bytes} (hD : D.length < 2 ^ 64) (h : Accepted sys passwd D) :
    128 ≤ D.length ∧ ChecksumOk D ∧ PasswordOk (inpKey passwd D) D ∧ TagOk (inpKey passwd D) D := by
  classical
  cases h with
  | buf outbuf outlen P verbose force o hout h hok =>
    rw [(decBuf_spec g hD hout h).rc, bufVerdict_ok] at hok
    exact ⟨hok.1, hok.2.2.2.1, hok.2.2.2.2.2.2.1, hok.2.2.2.2.2.2.2.2⟩
  | file inf outf P verbose force o hin h hok =>
    subst hin
    obtain ⟨c1, c2, c3, c4, c5, c6, c7⟩ := (decFile_ok g hD h).1 hok
    exact ⟨c6, c2.sum, c2.pass, c7⟩

/-- C06. Inputs of fewer than 128 bytes are rejected. -/
theorem C06_short {sys : EncSys} (g : sys.Good) {passwd D : Bytes} (hD : D.length < 128) : ¬ Accepted sys passwd D :=
  fun h => by have := (h.checks g (by omega)).1; omega

theorem inpKey_congr {passwd D D' : Bytes} (hh : D.take 48 = D'.take 48) : inpKey passwd D = inpKey passwd D' := by
  have e : ∀ a b, a + b ≤ 48 → field D a b = field D' a b := by
    intro a b hab
    have f : ∀ X : Bytes, field X a b = field (X.take 48) a b := by
      intro X
      unfold field
      rw [List.drop_take, List.take_take, Nat.min_eq_left (by omega)]
    rw [f D, f D', hh]
  unfold inpKey hdrSalt hdrLogN hdrR hdrP
  rw [e 16 32 (by omega), e 7 1 (by omega), e 8 4 (by omega), e 12 4 (by omega)]

/-- C06. A second, different accepted input with the header of the first one is a forgery of HMAC-SHA256 under the
key of the file: a message other than the one the encryptor authenticated, together with its correct tag.  If the
two tags are equal, the two messages are an explicit HMAC collision. -/
theorem C06_forgery {sys sys' : EncSys} (g : sys.Good) (g' : sys'.Good) {passwd D D' : Bytes} (hD : D.length < 2 ^ 64) (hD' : D'.length < 2 ^ 64)
    (h : Accepted sys passwd D) (h' : Accepted sys' passwd D') (hne : D ≠ D') (hh : D.take 96 = D'.take 96) :
    let K := keyHmac (scryptCode passwd (hdrSalt D) (2 ^ hdrLogN D) (hdrR D) (hdrP D) 64)
    let X := D.take (D.length - 32)
    let X' := D'.take (D'.length - 32)
    X ≠ X' ∧ D.drop (D.length - 32) = hmac K X ∧ D'.drop (D'.length - 32) = hmac K X' ∧
      (D.drop (D.length - 32) = D'.drop (D'.length - 32) → hmac K X = hmac K X') := by
  obtain ⟨a1, -, -, a2⟩ := h.checks g hD
  obtain ⟨b1, -, -, b2⟩ := h'.checks g' hD'
  have hk : inpKey passwd D = inpKey passwd D' := inpKey_congr (by
    have := congrArg (List.take 48) hh
    rwa [List.take_take, List.take_take] at this)
  have t1 : D.drop (D.length - 32) = hmac (keyHmac (inpKey passwd D)) (D.take (D.length - 32)) := a2
  have t2 : D'.drop (D'.length - 32) = hmac (keyHmac (inpKey passwd D)) (D'.take (D'.length - 32)) := by rw [hk]; exact b2
  refine ⟨fun hx => hne ?_, t1, t2, fun he => ?_⟩
  · calc D = D.take (D.length - 32) ++ D.drop (D.length - 32) := (List.take_append_drop _ _).symm
      _ = D'.take (D'.length - 32) ++ D'.drop (D'.length - 32) := by rw [t1, t2, hx]
      _ = D' := List.take_append_drop _ _
  · exact t1.symm.trans (he.trans t2)

/-- C06. Changing nothing but the final tag of an accepted input makes it rejected. -/
theorem C06_tag {sys sys' : EncSys} (g : sys.Good) (g' : sys'.Good) {passwd D D' : Bytes} (hD : D.length < 2 ^ 64) (hD' : D'.length = D.length)
    (h : Accepted sys passwd D) (hb : D'.take (D.length - 32) = D.take (D.length - 32)) (hne : D' ≠ D) : ¬ Accepted sys' passwd D' := by
  intro h'
  have h128 := (h.checks g hD).1
  have hh : D.take 96 = D'.take 96 := by
    have := congrArg (List.take 96) hb
    rw [List.take_take, List.take_take, Nat.min_eq_left (by omega)] at this
    exact this.symm
  obtain ⟨h1, -⟩ := C06_forgery g g' hD (by omega) h h' (Ne.symm hne) hh
  exact h1 (by rw [hD', hb])

/-- C06. Two accepted inputs with different first 48 bytes (version, logN, r, p, salt) but the same checksum bytes
are an explicit collision of the first 128 bits of SHA-256. -/
theorem C06_header {sys sys' : EncSys} (g : sys.Good) (g' : sys'.Good) {passwd passwd' D D' : Bytes} (hD : D.length < 2 ^ 64)
    (hD' : D'.length < 2 ^ 64) (h : Accepted sys passwd D) (h' : Accepted sys' passwd' D')
    (hc : field D 48 16 = field D' 48 16) (hne : D.take 48 ≠ D'.take 48) :
    D.take 48 ≠ D'.take 48 ∧ (sha256 (D.take 48)).take 16 = (sha256 (D'.take 48)).take 16 := by
  refine ⟨hne, ?_⟩
  have a : field D 48 16 = (sha256 (D.take 48)).take 16 := (h.checks g hD).2.1
  have b : field D' 48 16 = (sha256 (D'.take 48)).take 16 := (h'.checks g' hD').2.1
  rw [← a, ← b, hc]

/-- C06. Changing only the checksum (bytes 48 .. 63) of an accepted input, or only the header signature (bytes
64 .. 95), makes it rejected. -/
theorem C06_header_check {sys sys' : EncSys} (g : sys.Good) (g' : sys'.Good) {passwd D D' : Bytes} (hD : D.length < 2 ^ 64)
    (hlen : D'.length = D.length) (h : Accepted sys passwd D) (hne : D' ≠ D) (ht : D'.drop 96 = D.drop 96)
    (hh : D'.take 48 = D.take 48 ∧ D'.drop 64 = D.drop 64 ∨ D'.take 64 = D.take 64) : ¬ Accepted sys' passwd D' := by
  intro h'
  obtain ⟨a1, a2, a3, a4⟩ := h.checks g hD
  obtain ⟨b1, b2, b3, b4⟩ := h'.checks g' (by omega)
  have h48 : D'.take 48 = D.take 48 := by
    rcases hh with hh | hh
    · exact hh.1
    · have := congrArg (List.take 48) hh
      rwa [List.take_take, List.take_take] at this
  have s1 : field D 48 16 = (sha256 (D.take 48)).take 16 := a2
  have s2 : field D' 48 16 = (sha256 (D'.take 48)).take 16 := b2
  have h64 : D'.take 64 = D.take 64 := by
    have e : ∀ X : Bytes, X.take 64 = X.take 48 ++ field X 48 16 := fun X => by
      unfold field; rw [show (64 : Nat) = 48 + 16 from rfl, List.take_add]
    rw [e, e, s1, s2, h48]
  have hk : inpKey passwd D' = inpKey passwd D := inpKey_congr h48
  have p1 : field D 64 32 = hmac (keyHmac (inpKey passwd D)) (D.take 64) := a3
  have p2 : field D' 64 32 = hmac (keyHmac (inpKey passwd D)) (D'.take 64) := by rw [← hk]; exact b3
  have h96 : D'.take 96 = D.take 96 := by
    have e : ∀ X : Bytes, X.take 96 = X.take 64 ++ field X 64 32 := fun X => by
      unfold field; rw [show (96 : Nat) = 64 + 32 from rfl, List.take_add]
    rw [e, e, p1, p2, h64]
  exact hne (by rw [← List.take_append_drop 96 D', ← List.take_append_drop 96 D, h96, ht])

/-! ### C07: wrong passphrase -/

theorem paramCode_ne_pass {sys : EncSys} (g : sys.Good) {P : EncParams} {verbose force : Bool} (hl : LimitsOk sys P verbose force) (D : Bytes) :
    paramCode sys P verbose force D ≠ .EPASS := by
  rcases paramCode_cases g hl D with h | h | h
  · rw [h.1]; simp
  · rw [h.1]; simp
  · intro hc; rw [hc] at h; simp [LimitCode] at h

theorem headVerdict_ne_pass (D : Bytes) (err : Bool) : headVerdict D err ≠ .EPASS := by
  unfold headVerdict
  repeat' (first | split | simp)

theorem aesCode_ne_pass (sys : EncSys) : aesCode sys ≠ .EPASS := by
  unfold aesCode; split
  · simp
  · split <;> simp

/-- C07: the header is well formed, its checksum matches, its parameters pass the checks and the key can be derived. -/
structure HeaderPasses (sys : EncSys) (P : EncParams) (force : Bool) (D : Bytes) (minLen : Nat) : Prop where
  len : minLen ≤ D.length
  magic : HasMagic D
  version : VersionOk D
  sum : ChecksumOk D
  params : GoodParams (hdrLogN D) (hdrR D) (hdrP D)
  limits : LimitsPass sys P force (2 ^ hdrLogN D) (hdrR D) (hdrP D)
  kdf : KdfOk sys (2 ^ hdrLogN D) (hdrR D) (hdrP D)

theorem Unlocked.passes {sys : EncSys} (g : sys.Good) {passwd : Bytes} {P : EncParams} {verbose force : Bool}
    (hl : LimitsOk sys P verbose force) {D : Bytes} {n : Nat} :
    Unlocked sys passwd P verbose force D n ↔ HeaderPasses sys P force D n ∧ PasswordOk (inpKey passwd D) D := by
  constructor
  · intro h
    obtain ⟨a, b⟩ := (paramCode_ok g hl D).1 h.params
    exact ⟨⟨h.len, h.magic, h.version, h.sum, a, b, h.kdf⟩, h.pass⟩
  · rintro ⟨h, hp⟩
    exact ⟨h.len, h.magic, h.version, h.sum, (paramCode_ok g hl D).2 ⟨h.params, h.limits⟩, h.kdf, hp⟩

/-- C07, buffers. EPASS exactly when the header passes and its HMAC under the derived key is wrong; then neither the
output buffer nor outlen is touched. -/
theorem C07_buf {sys : EncSys} (g : sys.Good) {D outbuf passwd : Bytes} {outlen : Nat} (hD : D.length < 2 ^ 64) (hout : D.length ≤ outbuf.length)
    {P : EncParams} {verbose force : Bool} (hl : LimitsOk sys P verbose force) {o : BufOut}
    (h : scryptdec_buf sys D outbuf outlen passwd P verbose force = .ok o) :
    (o.rc = .EPASS ↔ HeaderPasses sys P force D 128 ∧
      ¬ PasswordOk (scryptCode passwd (hdrSalt D) (2 ^ hdrLogN D) (hdrR D) (hdrP D) 64) D) ∧
    (o.rc = .EPASS → o.out = outbuf ∧ o.outlen = outlen) := by
  classical
  have hs := decBuf_spec g hD hout h
  have key : o.rc = .EPASS ↔ HeaderPasses sys P force D 128 ∧ ¬ PasswordOk (inpKey passwd D) D := by
    rw [hs.rc]
    unfold bufVerdict
    by_cases h1 : D.length < 7 ∨ ¬ HasMagic D
    · rw [if_pos h1]
      refine ⟨fun h => by simp at h, fun h => ?_⟩
      rcases h1 with h1 | h1
      · have := h.1.len; omega
      · exact absurd h.1.magic h1
    rw [if_neg h1]
    have hM : HasMagic D := by by_contra hc; exact h1 (.inr hc)
    by_cases h2 : VersionOk D
    case neg => rw [if_pos h2]; exact ⟨fun h => by simp at h, fun h => absurd h.1.version h2⟩
    rw [if_neg (not_not.2 h2)]
    by_cases h3 : D.length < 128
    · rw [if_pos h3]; exact ⟨fun h => by simp at h, fun h => by have := h.1.len; omega⟩
    rw [if_neg h3]
    by_cases h4 : ChecksumOk D
    case neg => rw [if_pos h4]; exact ⟨fun h => by simp at h, fun h => absurd h.1.sum h4⟩
    rw [if_neg (not_not.2 h4)]
    by_cases h5 : paramCode sys P verbose force D = .OK
    case neg =>
      rw [if_pos h5]
      exact ⟨fun h => absurd h (paramCode_ne_pass g hl D), fun h => absurd ((paramCode_ok g hl D).2 ⟨h.1.params, h.1.limits⟩) h5⟩
    rw [if_neg (not_not.2 h5)]
    by_cases h6 : KdfOk sys (2 ^ hdrLogN D) (hdrR D) (hdrP D)
    case neg => rw [if_pos h6]; exact ⟨fun h => by simp at h, fun h => absurd h.1.kdf h6⟩
    rw [if_neg (not_not.2 h6)]
    obtain ⟨p1, p2⟩ := (paramCode_ok g hl D).1 h5
    by_cases h7 : PasswordOk (inpKey passwd D) D
    case neg => rw [if_pos h7]; exact ⟨fun _ => ⟨⟨by omega, hM, h2, h4, p1, p2, h6⟩, h7⟩, fun _ => rfl⟩
    rw [if_neg (not_not.2 h7)]
    refine ⟨fun h => ?_, fun h => absurd h7 h.2⟩
    split at h
    · exact absurd h (aesCode_ne_pass sys)
    · split at h <;> simp at h
  refine ⟨key, fun h => hs.out_no (fun hu => ?_)⟩
  exact (key.1 h).2 hu.1.pass

/-- C07, streams: nothing is written when EPASS is returned. -/
theorem C07_file {sys : EncSys} (g : sys.Good) {inf : InFile} {outf : OutFile} {passwd : Bytes} (hin : inf.data.length < 2 ^ 64)
    {P : EncParams} {verbose force : Bool} (hl : LimitsOk sys P verbose force) {o : FileOut}
    (h : scryptdec_file sys inf outf passwd P verbose force = .ok o) :
    (o.rc = .EPASS ↔ sys.cookieOk = true ∧ HeaderPasses sys P force inf.data 96 ∧
      ¬ PasswordOk (scryptCode passwd (hdrSalt inf.data) (2 ^ hdrLogN inf.data) (hdrR inf.data) (hdrP inf.data) 64) inf.data) ∧
    (o.rc = .EPASS → o.outf = outf) := by
  classical
  obtain ⟨f1, f2, -⟩ := decFile_spec g hin h
  have copy : copyVerdict inf.data inf.err outf (inpKey passwd inf.data) (aesCode sys) ≠ .EPASS := by
    unfold copyVerdict
    split
    · exact aesCode_ne_pass sys
    repeat (first | (split; · simp) | simp)
  have key : o.rc = .EPASS ↔ sys.cookieOk = true ∧ HeaderPasses sys P force inf.data 96 ∧ ¬ PasswordOk (inpKey passwd inf.data) inf.data := by
    rw [f1]
    by_cases h1 : prepVerdict sys inf passwd P verbose force = .OK
    · rw [if_neg (not_not.2 h1)]
      exact ⟨fun h => absurd h copy, fun h => absurd (prepVerdict_ok.1 h1).2.pass h.2.2⟩
    rw [if_pos h1]
    unfold prepVerdict at h1 ⊢
    by_cases h2 : sys.cookieOk = false
    · rw [if_pos h2]; exact ⟨fun h => by simp at h, fun h => by simp [h2] at h⟩
    rw [if_neg h2] at h1 ⊢
    by_cases h3 : headVerdict inf.data inf.err = .OK
    case neg =>
      rw [if_pos h3]
      refine ⟨fun h => ?_, fun h => absurd (headVerdict_ok.2 ⟨h.2.1.len, h.2.1.magic, h.2.1.version⟩) h3⟩
      exact absurd h (headVerdict_ne_pass _ _)
    rw [if_neg (not_not.2 h3)] at h1 ⊢
    obtain ⟨e1, e2, e3⟩ := headVerdict_ok.1 h3
    unfold sysVerdict setupVerdict at h1 ⊢
    by_cases h4 : ChecksumOk inf.data
    case neg => rw [if_pos h4]; exact ⟨fun h => by simp at h, fun h => absurd h.2.1.sum h4⟩
    rw [if_neg (not_not.2 h4)] at h1 ⊢
    by_cases h5 : paramCode sys P verbose force inf.data = .OK
    case neg =>
      rw [if_pos h5]
      exact ⟨fun h => absurd h (paramCode_ne_pass g hl _), fun h => absurd ((paramCode_ok g hl _).2 ⟨h.2.1.params, h.2.1.limits⟩) h5⟩
    rw [if_neg (not_not.2 h5)] at h1 ⊢
    by_cases h6 : KdfOk sys (2 ^ hdrLogN inf.data) (hdrR inf.data) (hdrP inf.data)
    case neg => rw [if_pos h6]; exact ⟨fun h => by simp at h, fun h => absurd h.2.1.kdf h6⟩
    rw [if_neg (not_not.2 h6)] at h1 ⊢
    obtain ⟨p1, p2⟩ := (paramCode_ok g hl _).1 h5
    by_cases h7 : PasswordOk (inpKey passwd inf.data) inf.data
    · rw [if_neg (not_not.2 h7)] at h1; exact absurd rfl h1
    rw [if_pos h7]
    exact ⟨fun _ => ⟨by simpa using h2, ⟨e1, e2, e3, h4, p1, p2, h6⟩, h7⟩, fun _ => rfl⟩
  refine ⟨key, fun h => ?_⟩
  rw [f2, if_neg]
  intro hp
  exact (key.1 h).2.2 (prepVerdict_ok.1 hp).2.pass

/-! ### C09: what streaming decryption writes -/

theorem fwrite_prefix (f : OutFile) (x : Bytes) : ∃ n, (fwrite f x).2.written = f.written ++ x.take n := by
  unfold fwrite
  cases f.room with
  | none => exact ⟨x.length, by simp⟩
  | some k =>
    simp only []
    split
    · exact ⟨x.length, by simp⟩
    · exact ⟨k, rfl⟩

/-- C09. Whatever happens, what scryptdec_file writes is a prefix of the decrypted data without its last 32 bytes;
something is written only if the header passes and the passphrase is right; on success, everything has been written. -/
theorem C09_written {sys : EncSys} (g : sys.Good) {inf : InFile} {outf : OutFile} {passwd : Bytes} (hin : inf.data.length < 2 ^ 64)
    {P : EncParams} {verbose force : Bool} (hl : LimitsOk sys P verbose force) {o : FileOut}
    (h : scryptdec_file sys inf outf passwd P verbose force = .ok o) :
    let dk := scryptCode passwd (hdrSalt inf.data) (2 ^ hdrLogN inf.data) (hdrR inf.data) (hdrP inf.data) 64
    (∃ n, o.outf.written = outf.written ++ (plaintext dk inf.data).take n) ∧
    (o.outf.written ≠ outf.written → HeaderPasses sys P force inf.data 96 ∧ PasswordOk dk inf.data) ∧
    (o.rc = .OK → o.outf.written = outf.written ++ plaintext dk inf.data) := by
  classical
  intro dk
  obtain ⟨f1, f2, -⟩ := decFile_spec g hin h
  refine ⟨?_, fun hne => ?_, fun hok => ?_⟩
  · rw [f2]
    unfold copyOut
    split
    · split
      · exact fwrite_prefix _ _
      · exact ⟨0, by simp⟩
    · exact ⟨0, by simp⟩
  · by_cases hp : prepVerdict sys inf passwd P verbose force = .OK
    · exact (Unlocked.passes g hl).1 (prepVerdict_ok.1 hp).2
    · rw [f2, if_neg hp] at hne; exact absurd rfl hne
  · obtain ⟨c1, c2, c3, c4, c5, c6, c7⟩ := (decFile_ok g hin h).1 hok
    rw [f2, if_pos (prepVerdict_ok.2 ⟨c1, c2⟩), copyOut, if_pos c3]
    exact fwrite_fits (by rw [plaintext_length _ _]; exact c4)

/-! ### C10: parameters reported back -/

/-- C10, encryption (buffers). The parameters reported are those in the output's header (from which the key is derived,
`C03_buf`); parameters given explicitly come back unchanged, as do the limits. -/
theorem C10_enc_buf {sys : EncSys} (g : sys.Good) {m outbuf passwd : Bytes} (hm : m.length < 2 ^ 64)
    (hout : m.length + 128 ≤ outbuf.length) {P : EncParams} {verbose force : Bool} {o : BufOut}
    (h : scryptenc_buf sys m outbuf passwd P verbose force = .ok o) (hok : o.rc = .OK) :
    (hdrLogN o.out : Int) = o.P.logN ∧ hdrR o.out = o.P.r.toNat ∧ hdrP o.out = o.P.p.toNat ∧ sys.salt = some (hdrSalt o.out) ∧
    o.P.maxmem = P.maxmem ∧ o.P.maxmemfrac = P.maxmemfrac ∧ o.P.maxtime = P.maxtime ∧ (P.logN ≠ 0 → o.P = P) := by
  obtain ⟨salt, l, i1, i2, i3, i4, i5, i6⟩ := encBuf_inv g hm hout h hok
  have hsalt := g.salt _ i1
  have hD := container_fields (scryptCode passwd salt (2 ^ l) o.P.r.toNat o.P.p.toNat 64) l o.P.r.toNat o.P.p.toNat salt m hsalt
    (by have := i3.2.1; omega) o.P.r.isLt o.P.p.isLt
  have hlen := hD.len
  generalize hC : container (scryptCode passwd salt (2 ^ l) o.P.r.toNat o.P.p.toNat 64) l o.P.r.toNat o.P.p.toNat salt m = C at hD i6 hlen
  have e : ∀ a b, a + b ≤ 96 → field o.out a b = field C a b := by
    intro a b hab
    rw [i6]
    unfold field
    rw [List.drop_append_of_le_length (by omega), List.take_append_of_le_length (by rw [List.length_drop]; omega)]
  obtain ⟨-, q1, q2, q3, q4⟩ := setupParams_good g i4
  have f1 := hD.logN
  have f2 := hD.r
  have f3 := hD.p
  have f4 := hD.salt
  unfold hdrLogN at f1; unfold hdrR at f2; unfold hdrP at f3; unfold hdrSalt at f4
  unfold hdrLogN hdrR hdrP hdrSalt
  rw [e 7 1 (by omega), e 8 4 (by omega), e 12 4 (by omega), e 16 32 (by omega), f1, f2, f3, f4]
  exact ⟨i2.symm, rfl, rfl, i1, q1, q2, q3, q4⟩

/-- C10, encryption (streams). -/
theorem C10_enc_file {sys : EncSys} (g : sys.Good) {inf : InFile} {outf : OutFile} {passwd : Bytes} (hin : inf.data.length < 2 ^ 64)
    {P : EncParams} {verbose force : Bool} {o : FileOut}
    (h : scryptenc_file sys inf outf passwd P verbose force = .ok o) (hok : o.rc = .OK) :
    ∃ D, o.outf.written = outf.written ++ D ∧
    (hdrLogN D : Int) = o.P.logN ∧ hdrR D = o.P.r.toNat ∧ hdrP D = o.P.p.toNat ∧ sys.salt = some (hdrSalt D) ∧
    o.P.maxmem = P.maxmem ∧ o.P.maxmemfrac = P.maxmemfrac ∧ o.P.maxtime = P.maxtime ∧ (P.logN ≠ 0 → o.P = P) := by
  obtain ⟨salt, l, i1, i2, i3, i4, -, -, -, -, i5, i6⟩ := encFile_inv g hin h hok
  have hD := container_fields (scryptCode passwd salt (2 ^ l) o.P.r.toNat o.P.p.toNat 64) l o.P.r.toNat o.P.p.toNat salt inf.data i2
    (by have := i4.2.1; omega) o.P.r.isLt o.P.p.isLt
  obtain ⟨-, q1, q2, q3, q4⟩ := setupParams_good g i5
  exact ⟨_, i6, by rw [hD.logN]; exact i3.symm, hD.r, hD.p, by rw [hD.salt]; exact i1, q1, q2, q3, q4⟩

/-- C10, decryption. After a decryption that got as far as the header (magic, version, length), through either
interface, the parameters are the header's; otherwise they are untouched. -/
theorem C10_dec {sys : EncSys} (g : sys.Good) {D outbuf passwd : Bytes} {outlen : Nat} (hD : D.length < 2 ^ 64) (hout : D.length ≤ outbuf.length)
    {inf : InFile} (hin : inf.data = D) {outf : OutFile} {P : EncParams} {verbose force : Bool} {ob : BufOut} {of : FileOut} :
    (scryptdec_buf sys D outbuf outlen passwd P verbose force = .ok ob →
      (HasMagic D ∧ VersionOk D ∧ 128 ≤ D.length →
        ob.P.logN = hdrLogN D ∧ ob.P.r.toNat = hdrR D ∧ ob.P.p.toNat = hdrP D ∧ ob.P.maxmem = P.maxmem ∧ ob.P.maxmemfrac = P.maxmemfrac ∧
          ob.P.maxtime = P.maxtime) ∧
      (¬ (HasMagic D ∧ VersionOk D ∧ 128 ≤ D.length) → ob.P = P)) ∧
    (scryptdec_file sys inf outf passwd P verbose force = .ok of →
      (sys.cookieOk = true ∧ HasMagic D ∧ VersionOk D ∧ 96 ≤ D.length →
        of.P.logN = hdrLogN D ∧ of.P.r.toNat = hdrR D ∧ of.P.p.toNat = hdrP D ∧ of.P.maxmem = P.maxmem ∧ of.P.maxmemfrac = P.maxmemfrac ∧
          of.P.maxtime = P.maxtime) ∧
      (¬ (sys.cookieOk = true ∧ HasMagic D ∧ VersionOk D ∧ 96 ≤ D.length) → of.P = P)) := by
  classical
  subst hin
  have hp : ∀ Q, Q = hdrParams P inf.data → Q.logN = hdrLogN inf.data ∧ Q.r.toNat = hdrR inf.data ∧ Q.p.toNat = hdrP inf.data ∧
      Q.maxmem = P.maxmem ∧ Q.maxmemfrac = P.maxmemfrac ∧ Q.maxtime = P.maxtime := by
    rintro Q rfl
    exact ⟨rfl, hdrR_toNat _, hdrP_toNat _, rfl, rfl, rfl⟩
  constructor
  · intro h
    have := (decBuf_spec g hD hout h).par
    exact ⟨fun hc => hp _ (by rw [this, if_pos hc]), fun hc => by rw [this, if_neg hc]⟩
  · intro h
    obtain ⟨-, -, f3, -⟩ := decFile_spec g hD h
    refine ⟨fun hc => hp _ ?_, fun hc => ?_⟩
    · rw [f3, if_pos ⟨hc.1, headVerdict_ok.2 ⟨hc.2.2.2, hc.2.1, hc.2.2.1⟩⟩]
    · rw [f3, if_neg]
      rintro ⟨a, b⟩
      obtain ⟨b1, b2, b3⟩ := headVerdict_ok.1 b
      exact hc ⟨a, b2, b3, b1⟩

end Scrypt.Props
