import Mathlib.Data.List.GetD
import Verif.Proofs.EncSteps
import Verif.Props.EncLooks
import Verif.Props.EncEx
/-
C99: what is recovered from a damaged file whose header is intact.
-/
namespace Scrypt.Props
open Scrypt Spec

theorem plaintext_at (dk D : Bytes) (i : Nat) (h : i < D.length - 128) :
    (plaintext dk D).getD i 0 = D.getD (96 + i) 0 ^^^ ctrByte (aes (keyEnc dk)) 0 i := by
  have hf : (field D 96 (D.length - 128)).length = D.length - 128 := by simp [field]; omega
  have h1 : i < (plaintext dk D).length := by rw [plaintext_length]; exact h
  have h2 : 96 + i < D.length := by omega
  rw [List.getD_eq_getElem _ _ h1, List.getD_eq_getElem _ _ h2]
  simp only [plaintext, dataCipher, ctr, xorBytes, ctrStream, field, List.getElem_zipWith, List.getElem_take, List.getElem_drop, List.getElem_map,
    List.getElem_range, Nat.zero_add]

theorem xor_swap (a b k : Byte) : a ^^^ k = (b ^^^ k) ^^^ (a ^^^ b) := by
  rw [BitVec.xor_assoc, BitVec.xor_comm k, BitVec.xor_assoc a b k, ← BitVec.xor_assoc b a, BitVec.xor_comm b a, BitVec.xor_assoc a b, ← BitVec.xor_assoc b b k,
    BitVec.xor_self, BitVec.zero_xor]

/-- Under one key, data that differ give texts that differ in the same bits of the same places. -/
theorem plaintext_damage (dk : Bytes) {D D' : Bytes} {i : Nat} (h : i < D.length - 128) (h' : i < D'.length - 128) :
    (plaintext dk D').getD i 0 = (plaintext dk D).getD i 0 ^^^ (D'.getD (96 + i) 0 ^^^ D.getD (96 + i) 0) := by
  rw [plaintext_at _ _ _ h, plaintext_at _ _ _ h']
  exact xor_swap _ _ _

/-- A file that was once the encryption of `m` under the passphrase and whose first 96 bytes are still what they were. -/
structure OnceEncrypted (passwd : Bytes) (l r p : Nat) (salt m inp : Bytes) : Prop where
  params : GoodParams l r p
  salt32 : salt.length = 32
  head : inp.take 96 = (container (scryptCode passwd salt (2 ^ l) r p 64) l r p salt m).take 96

/-- What `inp` ought to be. -/
def original (passwd : Bytes) (l r p : Nat) (salt m : Bytes) : Bytes := container (scryptCode passwd salt (2 ^ l) r p 64) l r p salt m

theorem once_opens {sys : EncSys} (g : sys.Good) {passwd : Bytes} {l r p : Nat} {salt m inp : Bytes} (h : OnceEncrypted passwd l r p salt m inp) {P : EncParams}
    {v f : Bool} (hl : LimitsOk sys P v f) (hpass : LimitsPass sys P f (2 ^ l) r p) (hkdf : KdfOk sys (2 ^ l) r p) {n : Nat} (hn : n ≤ inp.length) :
    Unlocked sys passwd P v f inp n ∧ inpKey passwd inp = scryptCode passwd salt (2 ^ l) r p 64 := by
  obtain ⟨g1, g2, g3, g4, g5⟩ := h.params
  have c := container_fields (scryptCode passwd salt (2 ^ l) r p 64) l r p salt m h.salt32 (by omega) (by nlinarith) (by nlinarith)
  have hc := h.head
  generalize container (scryptCode passwd salt (2 ^ l) r p 64) l r p salt m = C at c hc
  have e1 : hdrLogN inp = l := by rw [← hdrLogN_take, hc, hdrLogN_take, c.logN]
  have e2 : hdrR inp = r := by rw [← hdrR_take, hc, hdrR_take, c.r]
  have e3 : hdrP inp = p := by rw [← hdrP_take, hc, hdrP_take, c.p]
  have e4 : hdrSalt inp = salt := by rw [← hdrSalt_take, hc, hdrSalt_take, c.salt]
  have e5 : inpKey passwd inp = scryptCode passwd salt (2 ^ l) r p 64 := by unfold inpKey; rw [e1, e2, e3, e4]
  have hM : HasMagic inp := by
    have := c.magic
    unfold HasMagic at this ⊢
    rw [← field_take inp 96 _ _ (by omega), hc, field_take _ _ _ _ (by omega), this]
  have hV : VersionOk inp := by
    have := c.version
    unfold VersionOk at this ⊢
    rw [← field_take inp 96 _ _ (by omega), hc, field_take _ _ _ _ (by omega), this]
  refine ⟨(Unlocked.passes g hl).2 ⟨⟨hn, hM, hV, ?_, ?_, ?_, ?_⟩, ?_⟩, e5⟩
  · rw [← checksum_take, hc, checksum_take]; exact c.sum
  · rw [e1, e2, e3]; exact h.params
  · rw [e1, e2, e3]; exact hpass
  · rw [e1, e2, e3]; exact hkdf
  · rw [e5, ← password_take, hc, password_take]; exact c.pass

/-- The data that are recovered from `inp`: one byte for each byte between header and tag, wrong in exactly the bits in which the input is. -/
def Recovered (passwd : Bytes) (l r p : Nat) (salt m inp w : Bytes) : Prop :=
  w.length = inp.length - 128 ∧
    ∀ i, i < w.length → i < m.length → w.getD i 0 = m.getD i 0 ^^^ (inp.getD (96 + i) 0 ^^^ (original passwd l r p salt m).getD (96 + i) 0)

theorem recovered_plain {passwd : Bytes} {l r p : Nat} {salt m inp : Bytes} (h : OnceEncrypted passwd l r p salt m inp) :
    Recovered passwd l r p salt m inp (plaintext (scryptCode passwd salt (2 ^ l) r p 64) inp) := by
  obtain ⟨g1, g2, g3, g4, g5⟩ := h.params
  have c := container_fields (scryptCode passwd salt (2 ^ l) r p 64) l r p salt m h.salt32 (by omega) (by nlinarith) (by nlinarith)
  refine ⟨plaintext_length _ _, fun i hi hm => ?_⟩
  rw [plaintext_length] at hi
  have := plaintext_damage (scryptCode passwd salt (2 ^ l) r p 64) (D := original passwd l r p salt m) (D' := inp) (i := i)
    (by have := c.len; unfold original; omega) hi
  rw [this]
  unfold original
  rw [c.text]

/-- C99, files: the header is intact, the passphrase right, and the resources are there: whatever has happened to the rest of the file, everything that
is recovered is written: where the input is undamaged, the output is right. The result is OK, EINVAL or (if the input cannot be read) ERDFILE. -/
theorem C99_file {sys : EncSys} (g : sys.Good) {inf : InFile} {outf : OutFile} (hin : inf.data.length < 2 ^ 64) {passwd : Bytes} {l r p : Nat} {salt m : Bytes}
    (hD : OnceEncrypted passwd l r p salt m inf.data) {P : EncParams} {v f : Bool} (hl : LimitsOk sys P v f) (hpass : LimitsPass sys P f (2 ^ l) r p)
    (hkdf : KdfOk sys (2 ^ l) r p) (hk : sys.cookieOk = true) (ha : aesCode sys = .OK) (hfit : Fits outf (inf.data.length - 128)) {o : FileOut}
    (h : scryptdec_file sys inf outf passwd P v f = .ok o) :
    (∃ w, o.outf.written = outf.written ++ w ∧ Recovered passwd l r p salt m inf.data w) ∧ (o.rc = .OK ∨ o.rc = .EINVAL ∨ inf.err = true ∧ o.rc = .ERDFILE) := by
  classical
  obtain ⟨g1, g2, g3, g4, g5⟩ := hD.params
  have l96 : 96 ≤ inf.data.length := by
    have := congrArg List.length hD.head
    rw [List.length_take, List.length_take, container_length _ _ _ _ _ _ hD.salt32] at this
    omega
  obtain ⟨hu, hkey⟩ := once_opens g hD hl hpass hkdf l96
  have hv := prepVerdict_ok.2 ⟨hk, hu⟩
  obtain ⟨f1, f2, -⟩ := decFile_spec g hin h
  rw [if_neg (not_not.2 hv), hkey] at f1
  rw [if_pos hv, hkey] at f2
  have hp := plaintext_length (scryptCode passwd salt (2 ^ l) r p 64) inf.data
  refine ⟨⟨_, ?_, recovered_plain hD⟩, ?_⟩
  · rw [f2]
    unfold copyOut
    rw [if_pos ha, fwrite_written]
    have := fwrite_lt outf (plaintext (scryptCode passwd salt (2 ^ l) r p 64) inf.data)
    rw [hp] at this
    rw [List.take_of_length_le]
    by_contra hc
    exact this.1 (by omega) hfit
  · rw [f1]
    unfold copyVerdict
    rw [if_neg (not_not.2 ha), if_neg (not_not.2 hfit)]
    by_cases he : inf.err = true
    · rw [if_pos he]; exact .inr (.inr ⟨he, rfl⟩)
    rw [if_neg he]
    split
    · exact .inr (.inl rfl)
    split
    · exact .inr (.inl rfl)
    · exact .inl rfl

/-- C99, memory. -/
theorem C99_buf {sys : EncSys} (g : sys.Good) {inbuf outbuf : Bytes} (hin : inbuf.length < 2 ^ 64) (hout : inbuf.length ≤ outbuf.length)
    (h128 : 128 ≤ inbuf.length) {outlen : Nat} {passwd : Bytes} {l r p : Nat} {salt m : Bytes} (hD : OnceEncrypted passwd l r p salt m inbuf) {P : EncParams} {v f : Bool}
    (hl : LimitsOk sys P v f) (hpass : LimitsPass sys P f (2 ^ l) r p) (hkdf : KdfOk sys (2 ^ l) r p) (ha : aesCode sys = .OK) {o : BufOut}
    (h : scryptdec_buf sys inbuf outbuf outlen passwd P v f = .ok o) :
    o.outlen = inbuf.length - 128 ∧ Recovered passwd l r p salt m inbuf (o.out.take o.outlen) ∧ (o.rc = .OK ∨ o.rc = .EINVAL) := by
  classical
  obtain ⟨hu, hkey⟩ := once_opens g hD hl hpass hkdf h128
  have hs := decBuf_spec g hin hout h
  obtain ⟨a1, a2⟩ := hs.out_yes hu ha
  rw [hkey] at a1
  have hp := plaintext_length (scryptCode passwd salt (2 ^ l) r p 64) inbuf
  refine ⟨a2, ?_, ?_⟩
  · rw [a2, a1, List.take_append_of_le_length (by omega), List.take_of_length_le (by omega)]
    exact recovered_plain hD
  · rw [hs.rc]
    unfold bufVerdict
    rw [if_neg (by rintro (h | h); omega; exact h hu.magic), if_neg (not_not.2 hu.version), if_neg (by omega), if_neg (not_not.2 hu.sum),
      if_neg (not_not.2 hu.params), if_neg (not_not.2 hu.kdf), if_neg (not_not.2 hu.pass), if_neg (not_not.2 ha)]
    split
    · exact .inr rfl
    · exact .inl rfl

/-- C99: a byte is right where its place in the input is undamaged, and only there. -/
theorem C99_undamaged {passwd : Bytes} {l r p : Nat} {salt m inp w : Bytes} (h : Recovered passwd l r p salt m inp w) {i : Nat} (hi : i < w.length) (hm : i < m.length) :
    w.getD i 0 = m.getD i 0 ↔ inp.getD (96 + i) 0 = (original passwd l r p salt m).getD (96 + i) 0 := by
  rw [h.2 i hi hm]
  generalize inp.getD (96 + i) 0 = a
  generalize (original passwd l r p salt m).getD (96 + i) 0 = b
  generalize m.getD i 0 = k
  constructor
  · intro h
    have h2 : k ^^^ (k ^^^ (a ^^^ b)) = k ^^^ k := by rw [h]
    rw [← BitVec.xor_assoc, BitVec.xor_self, BitVec.zero_xor] at h2
    have h3 : (a ^^^ b) ^^^ b = 0#8 ^^^ b := by rw [h2]
    rwa [BitVec.xor_assoc, BitVec.xor_self, BitVec.xor_zero, BitVec.zero_xor] at h3
  · rintro rfl
    rw [BitVec.xor_self, BitVec.xor_zero]

/-- C99: a file cut off after `k` bytes gives all of the data but what was cut off and 32 bytes. -/
theorem C99_cut {passwd : Bytes} {l r p : Nat} {salt m w : Bytes} (hs : salt.length = 32) {k : Nat} (h128 : 128 ≤ k) (hk : k ≤ m.length + 128)
    (h : Recovered passwd l r p salt m ((original passwd l r p salt m).take k) w) : w = m.take (k - 128) := by
  have hlen : (original passwd l r p salt m).length = m.length + 128 := container_length _ _ _ _ _ _ hs
  obtain ⟨h1, h2⟩ := h
  rw [List.length_take, hlen] at h1
  refine List.ext_getElem (by rw [h1, List.length_take]; omega) (fun i b1 b2 => ?_)
  have hi : i < m.length := by omega
  have := (C99_undamaged (⟨by rw [List.length_take, hlen]; exact h1, h2⟩ : Recovered passwd l r p salt m ((original passwd l r p salt m).take k) w) b1 hi).2 (by
    rw [List.getD_eq_getElem _ _ (by rw [List.length_take, hlen]; omega), List.getD_eq_getElem _ _ (by rw [hlen]; omega), List.getElem_take])
  rw [List.getD_eq_getElem _ _ b1, List.getD_eq_getElem _ _ hi] at this
  rw [this, List.getElem_take]

/-- Non-vacuity: three bytes are encrypted, the third bit of the second is flipped in the file, and decrypting leaves 1, 6, 3 in the output. -/
example (sha : ShaHw) (hw : AesHw) (passwd : Bytes) : ∃ (inp : Bytes) (o : FileOut), OnceEncrypted passwd 10 8 1 exSalt [1, 2, 3] inp ∧
    scryptdec_file (exEnc sha hw exSalt) ⟨[inp], false⟩ ⟨[8], none⟩ passwd exP0 true false = .ok o ∧ o.outf.written = [8, 1, 6, 3] := by
  have g := exEnc_good sha hw exSalt_length
  have hC : (original passwd 10 8 1 exSalt [1, 2, 3]).length = 131 := container_length _ _ _ _ _ _ exSalt_length
  obtain ⟨C, hCe⟩ : ∃ C, C = original passwd 10 8 1 exSalt [1, 2, 3] := ⟨_, rfl⟩
  rw [← hCe] at hC
  have hlen : (C.set 97 (C.getD 97 0 ^^^ 4)).length = 131 := by rw [List.length_set, hC]
  have hD : OnceEncrypted passwd 10 8 1 exSalt [1, 2, 3] (C.set 97 (C.getD 97 0 ^^^ 4)) := by
    refine ⟨by unfold GoodParams; norm_num, exSalt_length, ?_⟩
    rw [List.take_set_of_le (by norm_num), hCe]
    rfl
  obtain ⟨inp, hi⟩ : ∃ inp, inp = C.set 97 (C.getD 97 0 ^^^ 4) := ⟨_, rfl⟩
  rw [← hi] at hD hlen
  have hdat : InFile.data ⟨[inp], false⟩ = inp := by simp [InFile.data]
  have hin : (InFile.data ⟨[inp], false⟩).length < 2 ^ 64 := by rw [hdat, hlen]; norm_num
  have hl := exLimits sha hw exSalt exP0 rfl true false
  obtain ⟨-, ⟨o, ho⟩, -⟩ := C51_dec g (exEnc_ready sha hw exSalt) [] [] passwd 0 (by simp) (by simp) ⟨[inp], false⟩ hin ⟨[8], none⟩ (by decide) hl
  obtain ⟨⟨w, e1, e2, e3⟩, -⟩ := C99_file g hin (by rw [hdat]; exact hD) hl (exPass sha hw exSalt exP0 rfl rfl rfl false) (exEnc_kdf sha hw exSalt) rfl (exEnc_aes sha hw exSalt)
    (by intro k hk; cases hk) ho
  rw [hdat] at e2 e3
  rw [hlen] at e2
  refine ⟨inp, o, hD, ho, ?_⟩
  rw [← hCe] at e3
  have b (i : Nat) (h : i < 3) : w.getD i 0 = [(1 : Byte), 2, 3].getD i 0 ^^^ (inp.getD (96 + i) 0 ^^^ C.getD (96 + i) 0) := e3 i (by omega) h
  have b0 := b 0 (by norm_num)
  have b1 := b 1 (by norm_num)
  have b2 := b 2 (by norm_num)
  have s0 : inp.getD 96 0 = C.getD 96 0 := by rw [hi, List.getD_eq_getElem?_getD, List.getElem?_set_ne (by norm_num), List.getD_eq_getElem?_getD]
  have s2 : inp.getD 98 0 = C.getD 98 0 := by rw [hi, List.getD_eq_getElem?_getD, List.getElem?_set_ne (by norm_num), List.getD_eq_getElem?_getD]
  have s1 : inp.getD 97 0 = C.getD 97 0 ^^^ 4 := by rw [hi, List.getD_eq_getElem?_getD, List.getElem?_set_self (by rw [hC]; norm_num), Option.getD_some]
  rw [show 96 + 0 = 96 from rfl, s0, BitVec.xor_self, BitVec.xor_zero] at b0
  rw [show 96 + 1 = 97 from rfl, s1, BitVec.xor_comm (C.getD 97 0), BitVec.xor_assoc, BitVec.xor_self, BitVec.xor_zero] at b1
  rw [show 96 + 2 = 98 from rfl, s2, BitVec.xor_self, BitVec.xor_zero] at b2
  rw [e1]
  match w, e2 with
  | [x, y, z], _ =>
    simp only [List.getD_cons_zero, List.getD_cons_succ] at b0 b1 b2
    subst b0 b1 b2
    rfl

end Scrypt.Props
