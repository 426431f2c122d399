import Verif.Proofs.EncFile
/-
The encryption and decryption functions as functions of their input.
-/
namespace Scrypt
open Spec

/-! ### Containers -/

theorem dataCipher_length (dk m : Bytes) : (dataCipher dk m).length = m.length := ctr_length _ _ _ _

theorem dataCipher_twice (dk m : Bytes) : dataCipher dk (dataCipher dk m) = m := ctr_ctr _ _ _ _

theorem container_length (dk : Bytes) (logN r p : Nat) (salt m : Bytes) (h : salt.length = 32) :
    (container dk logN r p salt m).length = m.length + 128 := by
  simp only [container, List.length_append, header96_length _ _ _ _ _ h, dataCipher_length, hmac_length]
  omega

/-- What the fields of a container are. -/
structure IsContainer (dk : Bytes) (logN r p : Nat) (salt m inp : Bytes) : Prop where
  len : inp.length = m.length + 128
  magic : HasMagic inp
  version : VersionOk inp
  logN : hdrLogN inp = logN
  r : hdrR inp = r
  p : hdrP inp = p
  salt : hdrSalt inp = salt
  sum : ChecksumOk inp
  pass : PasswordOk dk inp
  tag : TagOk dk inp
  text : plaintext dk inp = m

theorem field_append (a x b : Bytes) (off len : Nat) (ho : a.length = off) (hx : x.length = len) : field (a ++ x ++ b) off len = x := by
  unfold field
  rw [List.append_assoc, List.drop_append_of_le_length (by omega), List.drop_eq_nil_of_le (by omega), List.nil_append,
    List.take_append_of_le_length (by omega), List.take_of_length_le (by omega)]

theorem field_append_left (a b : Bytes) (off len : Nat) (h : off + len ≤ a.length) : field (a ++ b) off len = field a off len := by
  unfold field
  rw [List.drop_append_of_le_length (by omega), List.take_append_of_le_length (by simp; omega)]

theorem container_fields (dk : Bytes) (logN r p : Nat) (salt m : Bytes) (hs : salt.length = 32) (hl : logN < 256) (hr : r < 2 ^ 32)
    (hp : p < 2 ^ 32) : IsContainer dk logN r p salt m (container dk logN r p salt m) := by
  have l48 := header48_length logN r p salt hs
  have l64 := header64_length logN r p salt hs
  have l96 := header96_length dk logN r p salt hs
  have lD := dataCipher_length dk m
  have len := container_length dk logN r p salt m hs
  -- the container as a concatenation, at several nestings
  have e64 : container dk logN r p salt m = header64 logN r p salt ++ (hmac (keyHmac dk) (header64 logN r p salt) ++ (dataCipher dk m ++
      hmac (keyHmac dk) (header96 dk logN r p salt ++ dataCipher dk m))) := by
    simp only [container, header96, List.append_assoc]
  have e48 : container dk logN r p salt m = header48 logN r p salt ++ ((sha256 (header48 logN r p salt)).take 16 ++
      (hmac (keyHmac dk) (header64 logN r p salt) ++ (dataCipher dk m ++
      hmac (keyHmac dk) (header96 dk logN r p salt ++ dataCipher dk m)))) := by
    rw [e64]
    generalize hmac (keyHmac dk) (header64 logN r p salt) = x
    rw [header64, List.append_assoc]
  have f48 : ∀ off len, off + len ≤ 48 → field (container dk logN r p salt m) off len = field (header48 logN r p salt) off len := by
    intro off len h
    rw [e48]; exact field_append_left _ _ _ _ (by omega)
  have t48 : field (container dk logN r p salt m) 0 48 = header48 logN r p salt := by
    rw [f48 0 48 (by omega)]; simp [field, List.take_of_length_le (Nat.le_of_eq l48)]
  have t64 : field (container dk logN r p salt m) 0 64 = header64 logN r p salt := by
    rw [e64, field_append_left _ _ _ _ (by omega)]; simp [field, List.take_of_length_le (Nat.le_of_eq l64)]
  have p4 : (256 : Nat) ^ 4 = 2 ^ 32 := by norm_num
  refine ⟨len, ?_, ?_, ?_, ?_, ?_, ?_, ?_, ?_, ?_, ?_⟩
  · unfold HasMagic; rw [f48 _ _ (by omega)]; simp [header48, field, Spec.magic]
  · unfold VersionOk; rw [f48 _ _ (by omega)]; simp [header48, field, Spec.magic]
  · unfold hdrLogN; rw [f48 _ _ (by omega)]
    have : field (header48 logN r p salt) 7 1 = [BitVec.ofNat 8 logN] := by simp [header48, field, Spec.magic]
    rw [this]
    simp [beVal, Nat.mod_eq_of_lt hl]
  · unfold hdrR; rw [f48 _ _ (by omega)]
    have : field (header48 logN r p salt) 8 4 = beBytes 4 r := by
      have := field_append (Spec.magic ++ [0] ++ [BitVec.ofNat 8 logN]) (beBytes 4 r) (beBytes 4 p ++ salt) 8 4 rfl (beBytes_length _ _)
      rw [← this]; simp only [header48, List.append_assoc]
    rw [this, beVal_beBytes, p4, Nat.mod_eq_of_lt hr]
  · unfold hdrP; rw [f48 _ _ (by omega)]
    have : field (header48 logN r p salt) 12 4 = beBytes 4 p := by
      have := field_append (Spec.magic ++ [0] ++ [BitVec.ofNat 8 logN] ++ beBytes 4 r) (beBytes 4 p) salt 12 4 (by simp [Spec.magic]) (beBytes_length _ _)
      rw [← this]; simp only [header48, List.append_assoc]
    rw [this, beVal_beBytes, p4, Nat.mod_eq_of_lt hp]
  · unfold hdrSalt; rw [f48 _ _ (by omega)]
    have := field_append (Spec.magic ++ [0] ++ [BitVec.ofNat 8 logN] ++ beBytes 4 r ++ beBytes 4 p) salt [] 16 32 (by simp [Spec.magic]) hs
    rw [List.append_nil] at this
    conv_rhs => rw [← this]
    simp only [header48, List.append_assoc]
  · unfold ChecksumOk
    rw [t48, e48, ← List.append_assoc]
    exact field_append _ _ _ 48 16 l48 (by simp)
  · unfold PasswordOk
    rw [t64, e64, ← List.append_assoc]
    exact field_append _ _ _ 64 32 l64 (hmac_length _ _)
  · unfold TagOk
    rw [len, show m.length + 128 - 32 = (header96 dk logN r p salt ++ dataCipher dk m).length by simp; omega]
    simp only [container]
    rw [List.drop_append_of_le_length le_rfl, List.drop_length, List.nil_append, List.take_append_of_le_length le_rfl, List.take_length]
  · unfold plaintext
    rw [len, Nat.add_sub_cancel]
    have : field (container dk logN r p salt m) 96 m.length = dataCipher dk m := by
      unfold container
      exact field_append _ _ _ 96 m.length l96 lD
    rw [this, dataCipher_twice]

/-- `take` in terms of successive fields. -/
theorem take_field (l : Bytes) (a b : Nat) : l.take (a + b) = l.take a ++ field l a b := List.take_add ..

/-- An input that passes all the checks is a container. -/
theorem container_of_checks (dk inp : Bytes) (hlen : 128 ≤ inp.length) (hm : HasMagic inp) (hv : VersionOk inp) (hc : ChecksumOk inp)
    (hp : PasswordOk dk inp) (ht : TagOk dk inp) :
    inp = container dk (hdrLogN inp) (hdrR inp) (hdrP inp) (hdrSalt inp) (plaintext dk inp) := by
  have h7 : field inp 7 1 = [BitVec.ofNat 8 (hdrLogN inp)] := by
    unfold hdrLogN
    have := field_length inp 7 1 (by omega)
    match hf : field inp 7 1, this with
    | [x], _ => simp [beVal]
  have h8 : field inp 8 4 = beBytes 4 (hdrR inp) := by
    have := beBytes_beVal (field inp 8 4)
    rw [field_length inp 8 4 (by omega)] at this
    exact this.symm
  have h12 : field inp 12 4 = beBytes 4 (hdrP inp) := by
    have := beBytes_beVal (field inp 12 4)
    rw [field_length inp 12 4 (by omega)] at this
    exact this.symm
  have t48 : inp.take 48 = header48 (hdrLogN inp) (hdrR inp) (hdrP inp) (hdrSalt inp) := by
    have h0 : inp.take 6 = Spec.magic := by simpa [HasMagic, field] using hm
    rw [show (48 : Nat) = 16 + 32 by rfl, take_field, show (16 : Nat) = 12 + 4 by rfl, take_field, show (12 : Nat) = 8 + 4 by rfl, take_field,
      show (8 : Nat) = 7 + 1 by rfl, take_field, show (7 : Nat) = 6 + 1 by rfl, take_field, h0, hv, h7, h8, h12]
    rfl
  have t64 : inp.take 64 = header64 (hdrLogN inp) (hdrR inp) (hdrP inp) (hdrSalt inp) := by
    rw [show (64 : Nat) = 48 + 16 by rfl, take_field, hc, header64, ← t48]
    simp [field]
  have t96 : inp.take 96 = header96 dk (hdrLogN inp) (hdrR inp) (hdrP inp) (hdrSalt inp) := by
    rw [show (96 : Nat) = 64 + 32 by rfl, take_field, hp, header96, ← t64]
    simp [field]
  have tB : inp.take (inp.length - 32) = header96 dk (hdrLogN inp) (hdrR inp) (hdrP inp) (hdrSalt inp) ++ dataCipher dk (plaintext dk inp) := by
    rw [show inp.length - 32 = 96 + (inp.length - 128) by omega, take_field, t96, plaintext, dataCipher_twice]
  simp only [container]
  rw [← tB, ← ht, List.take_append_drop]

/-! ### Buffers -/

theorem wrSlice_zero {α : Type} (t x : List α) (hx : x.length ≤ t.length) : wrSlice t 0 x = .ok (x ++ t.drop x.length) := by
  simpa using wrSlice_append [] t x 0 rfl hx

theorem hdrParams_container {P : EncParams} {dk : Bytes} {logN r p : Nat} {salt m inp : Bytes} (h : IsContainer dk logN r p salt m inp) :
    hdrParams P inp = { P with logN := logN, r := BitVec.ofNat 32 r, p := BitVec.ofNat 32 p } := by
  unfold hdrParams; rw [h.logN, h.r, h.p]

theorem aesctr_free_eq : crypto_aesctr_free = [.zero .aesCtr, .free .aesCtr] := rfl
theorem aes_key_free_eq : crypto_aes_key_free = [.zero .aesKey, .free .aesKey] := rfl

/-- The trace of a complete, orderly use of the cipher. -/
def fullTrace : List Ev := [.alloc .aesKey, .alloc .aesCtr, .zero .aesCtr, .free .aesCtr, .zero .aesKey, .free .aesKey]

/-- The trace of opening the cipher and closing it again, or of failing to open it. -/
def openTrace (sys : EncSys) : List Ev :=
  if aesCode sys = .OK then fullTrace else if aesCode sys = .ENOMEM then [.alloc .aesKey, .zero .aesKey, .free .aesKey] else []

theorem encBufBody_ok {sys : EncSys} (g : sys.Good) (inbuf outbuf : Bytes) (hin : inbuf.length < 2 ^ 64) (hout : inbuf.length + 128 ≤ outbuf.length)
    (s : SetupOut) (l r p : Nat) (salt : Bytes) (hsalt : salt.length = 32) (hdk : s.dk.length = 64) (hh : s.header = header96 s.dk l r p salt) :
    encBufBody sys inbuf outbuf s =
      .ok ⟨aesCode sys, s.P,
        if aesCode sys = .OK then container s.dk l r p salt inbuf ++ outbuf.drop (inbuf.length + 128) else s.header ++ outbuf.drop 96,
        0, zero64, openTrace sys, s.err, s.smix⟩ := by
  have l96 := header96_length s.dk l r p salt hsalt
  rw [← hh] at l96
  unfold encBufBody
  rw [rdSlice_ok (by omega), Res.bind_ok, List.drop_zero, List.take_of_length_le (by omega),
    wrSlice_zero outbuf s.header (by omega), Res.bind_ok, l96]
  rcases aesOpen_cases g s.dk hdk with ⟨h, hc⟩ | ⟨h, hc⟩ | ⟨st, h, hc, hr⟩
  · rw [h, Res.bind_ok]; simp [hc, openTrace]
  · rw [h, Res.bind_ok]; simp [hc, openTrace]
  · rw [h, Res.bind_ok]
    simp only []
    obtain ⟨st', es, -⟩ := hr.stream (sys.xmm 0) inbuf inbuf.length rfl (by omega)
    rw [es, Res.bind_ok]
    simp only []
    rw [show Spec.ctr (Spec.aes (keyEnc s.dk)) 0 0 inbuf = dataCipher s.dk inbuf from rfl]
    have lD := dataCipher_length s.dk inbuf
    rw [wrSlice_append s.header _ _ 96 l96 (by simp; omega), Res.bind_ok,
      rdSlice_ok (by simp; omega), Res.bind_ok, List.drop_zero,
      List.take_append_of_le_length (by simp; omega), List.take_of_length_le (by simp; omega),
      bufTag_ok sys g _ _ (by omega), Res.bind_ok, rdSlice_ok (by simp), Res.bind_ok, List.drop_zero,
      List.take_of_length_le (by simp),
      wrSlice_append _ _ _ (96 + inbuf.length) (by simp; omega) (by simp; omega), Res.bind_ok, hc]
    rw [List.drop_drop, List.drop_drop]
    simp only [openTrace, hc, if_true, container, hh, hmac_length, lD]
    rw [show 96 + (inbuf.length + 32) = inbuf.length + 128 by omega]
    rfl

/-- Encryption of a buffer, after a successful setup. -/
theorem encBuf_inv {sys : EncSys} (g : sys.Good) {inbuf outbuf passwd : Bytes} (hin : inbuf.length < 2 ^ 64)
    (hout : inbuf.length + 128 ≤ outbuf.length) {P : EncParams} {verbose force : Bool} {o : BufOut}
    (h : scryptenc_buf sys inbuf outbuf passwd P verbose force = .ok o) (h0 : o.rc = .OK) :
    ∃ (salt : Bytes) (l : Nat), sys.salt = some salt ∧ o.P.logN = l ∧ GoodParams l o.P.r.toNat o.P.p.toNat ∧
      setupParams sys P verbose force = .ok (.OK, o.P, o.err) ∧
      KdfOk sys (2 ^ l) o.P.r.toNat o.P.p.toNat ∧
      o.out = container (scryptCode passwd salt (2 ^ l) o.P.r.toNat o.P.p.toNat 64) l o.P.r.toNat o.P.p.toNat salt inbuf ++
        outbuf.drop (inbuf.length + 128) := by
  unfold scryptenc_buf at h
  rw [Res.bind_eq_ok] at h
  obtain ⟨-, -, h⟩ := h
  rw [Res.bind_eq_ok] at h
  obtain ⟨s, hs, h⟩ := h
  by_cases hrc : s.rc = .OK
  · rw [if_neg (by simp [hrc])] at h
    obtain ⟨salt, l, i1, i2, i3, i4, i5, i6, i7⟩ := encSetup_inv g hs hrc
    have hdk : s.dk.length = 64 := by rw [i5]; exact scryptCode_length _ _ _ _ _ _
    rw [encBufBody_ok g inbuf outbuf hin hout s l _ _ salt (g.salt _ i1) hdk i7] at h
    cases h
    simp only [] at h0
    refine ⟨salt, l, i1, i2, i3, i4, i6, ?_⟩
    simp only [h0, if_true]
    rw [← i5]
  · rw [if_pos hrc] at h
    cases h
    exact absurd h0 hrc

/-- Decryption of a buffer in terms of the fields of the input. -/
theorem decBufBody_ok {sys : EncSys} (g : sys.Good) (inbuf outbuf : Bytes) (outlen : Nat) (hlen : 128 ≤ inbuf.length) (hin : inbuf.length < 2 ^ 64)
    (hout : inbuf.length ≤ outbuf.length) (s : SetupOut) (hdk : s.dk.length = 64) :
    decBufBody sys inbuf outbuf outlen s =
      if aesCode sys ≠ .OK then .ok ⟨aesCode sys, s.P, outbuf, outlen, zero64, openTrace sys, s.err, s.smix⟩
      else .ok ⟨if TagOk s.dk inbuf then .OK else .EINVAL, s.P, plaintext s.dk inbuf ++ outbuf.drop (inbuf.length - 128),
        inbuf.length - 128, zero64, openTrace sys, s.err, s.smix⟩ := by
  unfold decBufBody
  rcases aesOpen_cases g s.dk hdk with ⟨h, hc⟩ | ⟨h, hc⟩ | ⟨st, h, hc, hr⟩
  · rw [h, Res.bind_ok]; simp [hc, openTrace]
  · rw [h, Res.bind_ok]; simp [hc, openTrace]
  · rw [h, Res.bind_ok, if_neg (by simp [hc])]
    simp only []
    rw [rdSlice_ok (by omega), Res.bind_ok, show List.take (inbuf.length - 128) (List.drop 96 inbuf) = field inbuf 96 (inbuf.length - 128) from rfl]
    have lf := field_length inbuf 96 (inbuf.length - 128) (by omega)
    obtain ⟨st', es, -⟩ := hr.stream (sys.xmm 0) (field inbuf 96 (inbuf.length - 128)) (inbuf.length - 128) lf.symm (by omega)
    rw [es, Res.bind_ok]
    simp only []
    rw [show Spec.ctr (Spec.aes (keyEnc s.dk)) 0 0 (field inbuf 96 (inbuf.length - 128)) = plaintext s.dk inbuf from rfl]
    have lP : (plaintext s.dk inbuf).length = inbuf.length - 128 := by rw [plaintext, dataCipher_length, lf]
    rw [wrSlice_zero outbuf _ (by omega), Res.bind_ok, lP,
      rdSlice_ok (by omega), Res.bind_ok, List.drop_zero, bufTag_ok sys g _ _ (by omega), Res.bind_ok, rdSlice_ok (by omega), Res.bind_ok]
    obtain ⟨v, e, hv⟩ := verify_bytes_ok (hmac (keyHmac s.dk) (inbuf.take (inbuf.length - 32))) ((inbuf.drop (inbuf.length - 32)).take 32) 32 (by simp) (by simp; omega)
    rw [e, Res.bind_ok]
    rw [List.take_of_length_le (Nat.le_of_eq (hmac_length _ _)), List.take_take, Nat.min_self,
      List.take_of_length_le (show (inbuf.drop (inbuf.length - 32)).length ≤ 32 by rw [List.length_drop]; omega)] at hv
    have hT : TagOk s.dk inbuf ↔ v = 0 := by rw [hv, TagOk]; exact eq_comm
    by_cases h0 : v = 0
    · simp only [h0, ne_eq, not_true_eq_false, if_false, if_pos (hT.2 h0), openTrace, hc, if_true]; rfl
    · simp only [h0, ne_eq, not_false_eq_true, if_true, if_neg (fun h => h0 (hT.1 h)), openTrace, hc]; rfl

/-- The verdict on a buffer, given what the environment contributes: the code of the parameter check,
whether the key derivation succeeds, the derived key, and the code of the cipher setup. -/
def bufVerdict (inp : Bytes) (pc : Code) (kdfOk : Prop) [Decidable kdfOk] (dk : Bytes) (ac : Code) : Code :=
  if inp.length < 7 ∨ ¬ HasMagic inp then .EINVAL
  else if ¬ VersionOk inp then .EVERSION
  else if inp.length < 128 then .EINVAL
  else if ¬ ChecksumOk inp then .EINVAL
  else if pc ≠ .OK then pc
  else if ¬ kdfOk then .EKEY
  else if ¬ PasswordOk dk inp then .EPASS
  else if ac ≠ .OK then ac
  else if ¬ TagOk dk inp then .EINVAL
  else .OK

/-- The code of the parameter check on the header of `inp`. -/
def paramCode (sys : EncSys) (P : EncParams) (verbose force : Bool) (inp : Bytes) : Code :=
  match checkparams sys.par P.maxmem P.maxmemfrac P.maxtime (hdrLogN inp) (BitVec.ofNat 32 (hdrR inp)) (BitVec.ofNat 32 (hdrP inp)) verbose force with
  | .ok (c, _) => c
  | _ => .OK

/-- The key derived for `inp`. -/
def inpKey (passwd inp : Bytes) : Bytes := scryptCode passwd (hdrSalt inp) (2 ^ hdrLogN inp) (hdrR inp) (hdrP inp) 64

theorem hasMagic_iff (inp : Bytes) : HasMagic inp ↔ inp.take 6 = [0x73, 0x63, 0x72, 0x79, 0x70, 0x74] := by
  unfold HasMagic field; rw [List.drop_zero]; exact Iff.rfl

theorem rd_version (inp : Bytes) (h : 7 ≤ inp.length) : ∃ v, rd inp 6 = .ok v ∧ (VersionOk inp ↔ v = 0) := by
  refine ⟨inp[6], rd_ok (by omega), ?_⟩
  unfold VersionOk field
  rw [List.drop_eq_getElem_cons (show 6 < inp.length by omega), List.take_succ_cons, List.take_zero]
  simp

/-- Everything up to and including the passphrase check goes through: the input is at least `minLen` bytes
long and its header is right, the parameters are accepted, and the key belongs to this input. -/
structure Unlocked (sys : EncSys) (passwd : Bytes) (P : EncParams) (verbose force : Bool) (inp : Bytes) (minLen : Nat) : Prop where
  len : minLen ≤ inp.length
  magic : HasMagic inp
  version : VersionOk inp
  sum : ChecksumOk inp
  params : paramCode sys P verbose force inp = .OK
  kdf : KdfOk sys (2 ^ hdrLogN inp) (hdrR inp) (hdrP inp)
  pass : PasswordOk (inpKey passwd inp) inp

open scoped Classical in
/-- What scryptdec_buf does. -/
structure DecBufSpec (sys : EncSys) (inbuf outbuf : Bytes) (outlen : Nat) (passwd : Bytes) (P : EncParams) (verbose force : Bool)
    (o : BufOut) : Prop where
  rc : o.rc = bufVerdict inbuf (paramCode sys P verbose force inbuf) (KdfOk sys (2 ^ hdrLogN inbuf) (hdrR inbuf) (hdrP inbuf))
    (inpKey passwd inbuf) (aesCode sys)
  out_yes : Unlocked sys passwd P verbose force inbuf 128 → aesCode sys = .OK →
    o.out = plaintext (inpKey passwd inbuf) inbuf ++ outbuf.drop (inbuf.length - 128) ∧ o.outlen = inbuf.length - 128
  out_no : ¬ (Unlocked sys passwd P verbose force inbuf 128 ∧ aesCode sys = .OK) → o.out = outbuf ∧ o.outlen = outlen
  par : o.P = if HasMagic inbuf ∧ VersionOk inbuf ∧ 128 ≤ inbuf.length then hdrParams P inbuf else P
  tr : o.tr = if Unlocked sys passwd P verbose force inbuf 128 then openTrace sys else []
  dk : o.dk = if HasMagic inbuf ∧ VersionOk inbuf ∧ 128 ≤ inbuf.length then zero64 else sys.dk0

theorem inpKey_length (passwd inp : Bytes) : (inpKey passwd inp).length = 64 := scryptCode_length _ _ _ _ _ _

theorem deriveKey_inp {sys : EncSys} (g : sys.Good) {passwd inp : Bytes} {o : ScOut} {st : Option SmixImpl} (h63 : hdrLogN inp ≤ 63)
    (h : deriveKey sys passwd (hdrSalt inp) (hdrLogN inp) (BitVec.ofNat 32 (hdrR inp)) (BitVec.ofNat 32 (hdrP inp)) = .ok (o, st)) :
    (o.rc = 0 ↔ KdfOk sys (2 ^ hdrLogN inp) (hdrR inp) (hdrP inp)) ∧ (o.rc = 0 → o.buf = inpKey passwd inp) := by
  have := deriveKey_spec g rfl h63 h
  rwa [hdrR_toNat, hdrP_toNat] at this

open scoped Classical in
theorem decBuf_spec {sys : EncSys} (g : sys.Good) {inbuf outbuf : Bytes} {outlen : Nat} {passwd : Bytes} (hin : inbuf.length < 2 ^ 64)
    (hout : inbuf.length ≤ outbuf.length) {P : EncParams} {verbose force : Bool} {o : BufOut}
    (h : scryptdec_buf sys inbuf outbuf outlen passwd P verbose force = .ok o) :
    DecBufSpec sys inbuf outbuf outlen passwd P verbose force o := by
  unfold scryptdec_buf at h
  rw [Res.bind_eq_ok] at h
  obtain ⟨-, -, h⟩ := h
  by_cases h7 : inbuf.length < 7 ∨ inbuf.take 6 ≠ [0x73, 0x63, 0x72, 0x79, 0x70, 0x74]
  · rw [if_pos h7] at h
    cases h
    have hno : ¬ (128 ≤ inbuf.length ∧ HasMagic inbuf) := by
      rw [hasMagic_iff]
      rintro ⟨h1, h2⟩
      rcases h7 with h7 | h7
      · omega
      · exact h7 h2
    have hU : ¬ Unlocked sys passwd P verbose force inbuf 128 := fun u => hno ⟨u.len, u.magic⟩
    have hno' : ¬ (HasMagic inbuf ∧ VersionOk inbuf ∧ 128 ≤ inbuf.length) := fun u => hno ⟨u.2.2, u.1⟩
    have h7' : inbuf.length < 7 ∨ ¬ HasMagic inbuf := by rw [hasMagic_iff]; exact h7
    exact ⟨by rw [bufVerdict, if_pos h7'], fun u => absurd u hU, fun _ => ⟨rfl, rfl⟩, (if_neg hno').symm, (if_neg hU).symm, (if_neg hno').symm⟩
  rw [if_neg h7] at h
  have hlen7 : 7 ≤ inbuf.length := by by_contra hc; exact h7 (.inl (by omega))
  have hM : HasMagic inbuf := by rw [hasMagic_iff]; by_contra hc; exact h7 (.inr hc)
  have h7' : ¬ (inbuf.length < 7 ∨ ¬ HasMagic inbuf) := by rintro (h | h); omega; exact h hM
  obtain ⟨v, ev, hv⟩ := rd_version inbuf hlen7
  rw [ev, Res.bind_ok] at h
  by_cases hV : v = 0
  case neg =>
    rw [if_pos hV] at h
    cases h
    have hnv : ¬ VersionOk inbuf := fun h => hV (hv.1 h)
    have hU : ¬ Unlocked sys passwd P verbose force inbuf 128 := fun u => hnv u.version
    have hno' : ¬ (HasMagic inbuf ∧ VersionOk inbuf ∧ 128 ≤ inbuf.length) := fun u => hnv u.2.1
    exact ⟨by rw [bufVerdict, if_neg h7', if_pos hnv], fun u => absurd u hU, fun _ => ⟨rfl, rfl⟩, (if_neg hno').symm, (if_neg hU).symm, (if_neg hno').symm⟩
  have hVO : VersionOk inbuf := hv.2 hV
  rw [if_neg (by simp [hV])] at h
  by_cases h128 : inbuf.length < 128
  · rw [if_pos h128] at h
    cases h
    have hU : ¬ Unlocked sys passwd P verbose force inbuf 128 := fun u => absurd u.len (by omega)
    have hno' : ¬ (HasMagic inbuf ∧ VersionOk inbuf ∧ 128 ≤ inbuf.length) := fun u => absurd u.2.2 (by omega)
    exact ⟨by rw [bufVerdict, if_neg h7', if_neg (not_not.2 hVO), if_pos h128], fun u => absurd u hU, fun _ => ⟨rfl, rfl⟩, (if_neg hno').symm, (if_neg hU).symm, (if_neg hno').symm⟩
  rw [if_neg h128, decSetup_eq g inbuf passwd (by omega)] at h
  have hyes : HasMagic inbuf ∧ VersionOk inbuf ∧ 128 ≤ inbuf.length := ⟨hM, hVO, by omega⟩
  by_cases hC : ChecksumOk inbuf
  case neg =>
    rw [if_pos hC, Res.bind_ok, if_pos (by simp)] at h
    cases h
    have hU : ¬ Unlocked sys passwd P verbose force inbuf 128 := fun u => hC u.sum
    exact ⟨by rw [bufVerdict, if_neg h7', if_neg (not_not.2 hVO), if_neg h128, if_pos hC], fun u => absurd u hU, fun _ => ⟨rfl, rfl⟩, (if_pos hyes).symm, (if_neg hU).symm, (if_pos hyes).symm⟩
  rw [if_neg (not_not.2 hC), Res.bind_eq_ok] at h
  obtain ⟨s, hs, h⟩ := h
  rw [Res.bind_eq_ok] at hs
  obtain ⟨⟨c, t⟩, hck, hs⟩ := hs
  have hpc : paramCode sys P verbose force inbuf = c := by unfold paramCode; rw [hck]
  simp only [] at hs
  by_cases hcc : c = .OK
  case neg =>
    rw [if_pos hcc] at hs
    cases hs
    rw [if_pos hcc] at h
    cases h
    have hU : ¬ Unlocked sys passwd P verbose force inbuf 128 := fun u => hcc (hpc ▸ u.params)
    exact ⟨by rw [bufVerdict, if_neg h7', if_neg (not_not.2 hVO), if_neg h128, if_neg (not_not.2 hC), hpc, if_pos hcc], fun u => absurd u hU, fun _ => ⟨rfl, rfl⟩, (if_pos hyes).symm, (if_neg hU).symm, (if_pos hyes).symm⟩
  subst hcc
  rw [if_neg (by simp), Res.bind_eq_ok] at hs
  obtain ⟨⟨k, st⟩, hk, hs⟩ := hs
  have hg := checkparams_good hck (by simp)
  obtain ⟨k1, k2⟩ := deriveKey_inp g (by have := hg.2.1; omega) hk
  simp only [] at hs
  by_cases hk0 : k.rc = 0
  case neg =>
    rw [if_pos hk0] at hs
    cases hs
    rw [if_pos (by simp)] at h
    cases h
    have hnk : ¬ KdfOk sys (2 ^ hdrLogN inbuf) (hdrR inbuf) (hdrP inbuf) := fun h => hk0 (k1.2 h)
    have hU : ¬ Unlocked sys passwd P verbose force inbuf 128 := fun u => hnk u.kdf
    exact ⟨by rw [bufVerdict, if_neg h7', if_neg (not_not.2 hVO), if_neg h128, if_neg (not_not.2 hC), hpc, if_neg (by simp), if_pos hnk], fun u => absurd u hU, fun _ => ⟨rfl, rfl⟩, (if_pos hyes).symm, (if_neg hU).symm, (if_pos hyes).symm⟩
  have hK := k1.1 hk0
  have hdk := k2 hk0
  rw [if_neg (by simp [hk0]), hdk] at hs
  by_cases hPw : PasswordOk (inpKey passwd inbuf) inbuf
  case neg =>
    rw [if_neg hPw] at hs
    cases hs
    rw [if_pos (by simp)] at h
    cases h
    have hU : ¬ Unlocked sys passwd P verbose force inbuf 128 := fun u => hPw u.pass
    exact ⟨by rw [bufVerdict, if_neg h7', if_neg (not_not.2 hVO), if_neg h128, if_neg (not_not.2 hC), hpc, if_neg (by simp), if_neg (not_not.2 hK), if_pos hPw], fun u => absurd u hU, fun _ => ⟨rfl, rfl⟩, (if_pos hyes).symm, (if_neg hU).symm, (if_pos hyes).symm⟩
  rw [if_pos hPw] at hs
  cases hs
  rw [if_neg (by simp), decBufBody_ok g inbuf outbuf outlen (by omega) hin hout _ (inpKey_length _ _)] at h
  have hU : Unlocked sys passwd P verbose force inbuf 128 := ⟨by omega, hM, hVO, hC, hpc, hK, hPw⟩
  by_cases hA : aesCode sys = .OK
  · rw [if_neg (by simp [hA])] at h
    cases h
    refine ⟨?_, fun _ _ => ⟨rfl, rfl⟩, fun hn => absurd ⟨hU, hA⟩ hn, (if_pos hyes).symm, (if_pos hU).symm, (if_pos hyes).symm⟩
    have hb : bufVerdict inbuf (paramCode sys P verbose force inbuf) (KdfOk sys (2 ^ hdrLogN inbuf) (hdrR inbuf) (hdrP inbuf))
        (inpKey passwd inbuf) (aesCode sys) = if ¬ TagOk (inpKey passwd inbuf) inbuf then .EINVAL else .OK := by
      unfold bufVerdict
      rw [if_neg h7', if_neg (not_not.2 hVO), if_neg h128, if_neg (not_not.2 hC), if_neg (not_not.2 hpc), if_neg (not_not.2 hK), if_neg (not_not.2 hPw),
        if_neg (not_not.2 hA)]
    rw [hb]
    by_cases hT : TagOk (inpKey passwd inbuf) inbuf
    · rw [if_neg (not_not.2 hT)]; exact if_pos hT
    · rw [if_pos hT]; exact if_neg hT
  · rw [if_pos hA] at h
    cases h
    refine ⟨?_, fun _ hn => absurd hn hA, fun _ => ⟨rfl, rfl⟩, (if_pos hyes).symm, (if_pos hU).symm, (if_pos hyes).symm⟩
    rw [bufVerdict, if_neg h7', if_neg (not_not.2 hVO), if_neg h128, if_neg (not_not.2 hC), hpc, if_neg (by simp), if_neg (not_not.2 hK), if_neg (not_not.2 hPw), if_pos hA]

theorem bufVerdict_ok {inp : Bytes} {pc : Code} {k : Prop} [Decidable k] {dk : Bytes} {ac : Code} :
    bufVerdict inp pc k dk ac = .OK ↔ 128 ≤ inp.length ∧ HasMagic inp ∧ VersionOk inp ∧ ChecksumOk inp ∧ pc = .OK ∧ k ∧ PasswordOk dk inp ∧
      ac = .OK ∧ TagOk dk inp := by
  unfold bufVerdict
  by_cases h1 : inp.length < 7 ∨ ¬ HasMagic inp
  · rw [if_pos h1]
    refine ⟨fun h => by simp at h, fun h => ?_⟩
    rcases h1 with h1 | h1
    · omega
    · exact absurd h.2.1 h1
  rw [if_neg h1]
  have hM : HasMagic inp := by by_contra hc; exact h1 (.inr hc)
  by_cases h2 : VersionOk inp
  case neg => rw [if_pos h2]; exact ⟨fun h => by simp at h, fun h => absurd h.2.2.1 h2⟩
  rw [if_neg (not_not.2 h2)]
  by_cases h3 : inp.length < 128
  · rw [if_pos h3]; exact ⟨fun h => by simp at h, fun h => absurd h.1 (by omega)⟩
  rw [if_neg h3]
  by_cases h4 : ChecksumOk inp
  case neg => rw [if_pos h4]; exact ⟨fun h => by simp at h, fun h => absurd h.2.2.2.1 h4⟩
  rw [if_neg (not_not.2 h4)]
  by_cases h5 : pc = .OK
  case neg => rw [if_pos h5]; exact ⟨fun h => absurd h h5, fun h => absurd h.2.2.2.2.1 h5⟩
  rw [if_neg (not_not.2 h5)]
  by_cases h6 : k
  case neg => rw [if_pos h6]; exact ⟨fun h => by simp at h, fun h => absurd h.2.2.2.2.2.1 h6⟩
  rw [if_neg (not_not.2 h6)]
  by_cases h7 : PasswordOk dk inp
  case neg => rw [if_pos h7]; exact ⟨fun h => by simp at h, fun h => absurd h.2.2.2.2.2.2.1 h7⟩
  rw [if_neg (not_not.2 h7)]
  by_cases h8 : ac = .OK
  case neg => rw [if_pos h8]; exact ⟨fun h => absurd h h8, fun h => absurd h.2.2.2.2.2.2.2.1 h8⟩
  rw [if_neg (not_not.2 h8)]
  by_cases h9 : TagOk dk inp
  case neg => rw [if_pos h9]; exact ⟨fun h => by simp at h, fun h => absurd h.2.2.2.2.2.2.2.2 h9⟩
  rw [if_neg (not_not.2 h9)]
  exact ⟨fun _ => ⟨by omega, hM, h2, h4, h5, h6, h7, h8, h9⟩, fun _ => rfl⟩

/-- The parameter check has a defined outcome (see `paramsDefined`). -/
def CheckDefined (sys : EncSys) (P : EncParams) (verbose force : Bool) (inp : Bytes) : Prop :=
  ∃ c, checkparams sys.par P.maxmem P.maxmemfrac P.maxtime (hdrLogN inp) (BitVec.ofNat 32 (hdrR inp)) (BitVec.ofNat 32 (hdrP inp)) verbose force = .ok c

theorem decSetup_total {sys : EncSys} (g : sys.Good) (ready : SelfTestReady sys) (h passwd : Bytes) (hl : 96 ≤ h.length) (P : EncParams)
    (verbose force : Bool) (hc : CheckDefined sys P verbose force h) :
    ∃ s, scryptdec_setup sys h passwd P verbose force = .ok s := by
  rw [decSetup_eq g h passwd hl]
  by_cases h1 : ChecksumOk h
  case neg => rw [if_pos h1]; exact ⟨_, rfl⟩
  rw [if_neg (not_not.2 h1)]
  obtain ⟨c, hc⟩ := hc
  rw [hc, Res.bind_ok]
  by_cases h2 : c.1 = .OK
  case neg => rw [if_pos h2]; exact ⟨_, rfl⟩
  rw [if_neg (not_not.2 h2)]
  obtain ⟨o, st, ho⟩ := deriveKey_total g ready passwd (hdrSalt h) (hdrLogN h) (BitVec.ofNat 32 (hdrR h)) (BitVec.ofNat 32 (hdrP h))
  rw [ho, Res.bind_ok]
  by_cases h3 : o.rc = 0
  case neg => exact ⟨_, if_pos h3⟩
  exact ⟨_, if_neg (not_not.2 h3)⟩

/-- The key in a successful setup has 64 bytes. -/
theorem decSetup_dk {sys : EncSys} (g : sys.Good) {h passwd : Bytes} (hl : 96 ≤ h.length) {P : EncParams}
    {verbose force : Bool} {s : SetupOut} (hs : scryptdec_setup sys h passwd P verbose force = .ok s) (h0 : s.rc = .OK) :
    s.dk = inpKey passwd h := by
  rw [decSetup_eq g h passwd hl] at hs
  by_cases h1 : ChecksumOk h
  case neg => rw [if_pos h1] at hs; cases hs; cases h0
  rw [if_neg (not_not.2 h1), Res.bind_eq_ok] at hs
  obtain ⟨c, hc, hs⟩ := hs
  by_cases h2 : c.1 = .OK
  case neg => rw [if_pos h2] at hs; cases hs; exact absurd h0 h2
  rw [if_neg (not_not.2 h2), Res.bind_eq_ok] at hs
  obtain ⟨⟨k, st⟩, hk, hs⟩ := hs
  have hg := checkparams_good (c := c.1) (t := c.2) hc (by rw [h2]; simp)
  obtain ⟨k1, k2⟩ := deriveKey_inp g (by have := hg.2.1; omega) hk
  simp only [] at hs
  by_cases h3 : k.rc = 0
  case neg => rw [if_pos h3] at hs; cases hs; cases h0
  rw [if_neg (not_not.2 h3)] at hs
  cases hs
  exact k2 h3

theorem decBuf_total {sys : EncSys} (g : sys.Good) (ready : SelfTestReady sys) {inbuf outbuf : Bytes} {outlen : Nat} {passwd : Bytes}
    (hin : inbuf.length < 2 ^ 64) (hout : inbuf.length ≤ outbuf.length) {P : EncParams} {verbose force : Bool} (hP : P.zero = true)
    (hc : 128 ≤ inbuf.length → CheckDefined sys P verbose force inbuf) :
    ∃ o, scryptdec_buf sys inbuf outbuf outlen passwd P verbose force = .ok o := by
  unfold scryptdec_buf
  rw [hP, cassert_true, Res.bind_ok]
  by_cases h7 : inbuf.length < 7 ∨ inbuf.take 6 ≠ [0x73, 0x63, 0x72, 0x79, 0x70, 0x74]
  · rw [if_pos h7]; exact ⟨_, rfl⟩
  rw [if_neg h7]
  obtain ⟨v, ev, -⟩ := rd_version inbuf (by by_contra hc; exact h7 (.inl (by omega)))
  rw [ev, Res.bind_ok]
  by_cases h1 : v = 0
  case neg => rw [if_pos h1]; exact ⟨_, rfl⟩
  rw [if_neg (not_not.2 h1)]
  by_cases h2 : inbuf.length < 128
  · rw [if_pos h2]; exact ⟨_, rfl⟩
  rw [if_neg h2]
  obtain ⟨s, hs⟩ := decSetup_total g ready inbuf passwd (by omega) P verbose force (hc (by omega))
  rw [hs, Res.bind_ok]
  by_cases h3 : s.rc = .OK
  case neg => rw [if_pos h3]; exact ⟨_, rfl⟩
  rw [if_neg (not_not.2 h3)]
  have hdk : s.dk.length = 64 := by rw [decSetup_dk g (by omega) hs h3]; exact inpKey_length _ _
  rw [decBufBody_ok g inbuf outbuf outlen (by omega) hin hout s hdk]
  split
  · exact ⟨_, rfl⟩
  · exact ⟨_, rfl⟩

end Scrypt
