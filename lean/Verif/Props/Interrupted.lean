import Verif.Proofs.EncSteps
import Verif.Props.EncAuth
import Verif.Props.EncEx
/-
C62: interrupted operations.  A process that is killed has performed a beginning `pre` of its operations, and of the bytes it has written a beginning has reached
the file (the rest is lost in the buffers of stdio).
-/
namespace Scrypt.Props
open Scrypt Spec

/-- **C62.**  Every run of scryptenc_file performs a sequence of operations; ... -/
theorem C62_enc_trace {sys : EncSys} {inf : InFile} {outf : OutFile} {passwd : Bytes} {P : EncParams} {v f : Bool} (o : FileOut) :
    scryptenc_file sys inf outf passwd P v f = .ok o ↔ ∃ es, scryptenc_fileT sys inf outf passwd P v f = .ok (o, es) := by
  rw [← erase_encFile]
  constructor
  · intro h
    obtain ⟨⟨o', es⟩, h1, h2⟩ := Res.bind_eq_ok.1 h
    obtain rfl := Res.ok.inj h2
    exact ⟨es, h1⟩
  · rintro ⟨es, h⟩
    rw [h]; rfl

/-- **C62.**  ... as does every run of scryptdec_file. -/
theorem C62_dec_trace {sys : EncSys} {inf : InFile} {outf : OutFile} {passwd : Bytes} {P : EncParams} {v f : Bool} (o : FileOut) :
    scryptdec_file sys inf outf passwd P v f = .ok o ↔ ∃ es, scryptdec_fileT sys inf outf passwd P v f = .ok (o, es) := by
  rw [← erase_decFile]
  constructor
  · intro h
    obtain ⟨⟨o', es⟩, h1, h2⟩ := Res.bind_eq_ok.1 h
    obtain rfl := Res.ok.inj h2
    exact ⟨es, h1⟩
  · rintro ⟨es, h⟩
    rw [h]; rfl

/-- **C62, encryption.**  If anything is read or written, the parameters, salt and key are settled; at every point a beginning of the container has been written, which
depends only on what has been read so far, and no more than one block is held back. -/
theorem C62_enc {sys : EncSys} (g : sys.Good) {inf : InFile} {outf : OutFile} {passwd : Bytes} (hin : inf.data.length < 2 ^ 64) {P : EncParams} {v f : Bool}
    {o : FileOut} {es : List IoEv} (h : scryptenc_fileT sys inf outf passwd P v f = .ok (o, es)) :
    o.outf.written = outf.written ++ put es ∧
    (es ≠ [] → ∃ (salt : Bytes) (l : Nat), sys.salt = some salt ∧ salt.length = 32 ∧ o.P.logN = l ∧ GoodParams l o.P.r.toNat o.P.p.toNat ∧
      ∀ pre, pre <+: es → EncPoint (scryptCode passwd salt (2 ^ l) o.P.r.toNat o.P.p.toNat 64) l o.P.r.toNat o.P.p.toNat salt inf.data outf.room pre) := by
  have h' := (C62_enc_trace o).2 ⟨es, h⟩
  obtain ⟨s, hs, hP, -⟩ := encFile_spec g hin h'
  unfold scryptenc_fileT at h
  rw [Res.bind_eq_ok] at h
  obtain ⟨-, -, h⟩ := h
  rw [hs, Res.bind_ok] at h
  by_cases h0 : s.rc = .OK
  case neg =>
    rw [if_pos h0] at h
    obtain ⟨h1, rfl⟩ := Prod.mk.inj (Res.ok.inj h)
    rw [← h1]
    exact ⟨by simp [put], fun hc => absurd rfl hc⟩
  rw [if_neg (not_not.2 h0)] at h
  obtain ⟨salt, l, i1, i2, i3, i4, i5, i6, i7⟩ := encSetup_inv g hs h0
  have hsalt := g.salt _ i1
  obtain ⟨o', es', e, t1, t2⟩ := encBodyT_ok g inf outf hsalt i7 (by rw [i5]; exact scryptCode_length _ _ _ _ _ _) hin
  rw [e] at h
  obtain ⟨rfl, rfl⟩ := Prod.mk.inj (Res.ok.inj h)
  refine ⟨t1, fun _ => ⟨salt, l, i1, hsalt, ?_⟩⟩
  rw [hP, ← i5]
  exact ⟨i2, i3, t2⟩

/-- The container, cut off after `n` bytes. -/
theorem cut_checks {sys : EncSys} (g : sys.Good) {passwd salt m D : Bytes} {l r p : Nat} (hsalt : salt.length = 32) (hl : l < 256) (hr : r < 2 ^ 32) (hp : p < 2 ^ 32)
    (hm : m.length + 128 < 2 ^ 64) (hD : D <+: container (scryptCode passwd salt (2 ^ l) r p 64) l r p salt m) (ha : Accepted sys passwd D) :
    128 ≤ D.length ∧ D.drop (D.length - 32) = hmac (keyHmac (scryptCode passwd salt (2 ^ l) r p 64)) (D.take (D.length - 32)) := by
  have hc := container_fields (scryptCode passwd salt (2 ^ l) r p 64) l r p salt m hsalt hl hr hp
  have hlen := hc.len
  obtain ⟨t, ht⟩ := hD
  have hDl : D.length ≤ m.length + 128 := by rw [← hlen, ← ht, List.length_append]; omega
  obtain ⟨a1, -, -, a2⟩ := ha.checks g (by omega)
  refine ⟨a1, ?_⟩
  have hk : inpKey passwd D = scryptCode passwd salt (2 ^ l) r p 64 := by
    rw [inpKey_congr (D' := container (scryptCode passwd salt (2 ^ l) r p 64) l r p salt m) (by rw [← ht, List.take_append_of_le_length (by omega)])]
    unfold inpKey; rw [hc.salt, hc.logN, hc.r, hc.p]
  rw [← hk]
  exact a2

/-- **C62, encryption killed.**  Whatever has reached the file when the process dies is a beginning of the container.  If it is not all of it, decryption (anywhere, with the
same passphrase, buffers or streams, forced or not) rejects it - unless 32 bytes within the data are the HMAC-SHA256 of everything before them. -/
theorem C62_enc_killed {sys : EncSys} (g : sys.Good) {inf : InFile} {outf : OutFile} {passwd : Bytes} (hin : inf.data.length + 128 < 2 ^ 64) {P : EncParams} {v f : Bool}
    {o : FileOut} {es : List IoEv} (h : scryptenc_fileT sys inf outf passwd P v f = .ok (o, es)) {pre : List IoEv} (hpre : pre <+: es) {D : Bytes} (hD : D <+: put pre) :
    D = [] ∨ ∃ (salt : Bytes) (l r p : Nat), sys.salt = some salt ∧
      let K := scryptCode passwd salt (2 ^ l) r p 64
      let C := container K l r p salt inf.data
      D <+: C ∧
      (D ≠ C → ∀ sys' : EncSys, sys'.Good → Accepted sys' passwd D →
        128 ≤ D.length ∧ D.length < C.length ∧ field C (D.length - 32) 32 = hmac (keyHmac K) (C.take (D.length - 32))) := by
  by_cases he : es = []
  · left
    subst he
    obtain rfl := List.prefix_nil.1 hpre
    exact List.prefix_nil.1 hD
  right
  obtain ⟨salt, l, i1, i2, i3, i4, i5⟩ := (C62_enc g (by omega) h).2 he
  refine ⟨salt, l, o.P.r.toNat, o.P.p.toNat, i1, ?_⟩
  intro K C
  have hDC : D <+: C := hD.trans (i5 pre hpre).wr
  refine ⟨hDC, fun hne sys' g' ha => ?_⟩
  obtain ⟨a1, a2⟩ := cut_checks g' i2 (by have := i4.2.1; omega) o.P.r.isLt o.P.p.isLt hin hDC ha
  obtain ⟨t, ht⟩ := hDC
  have hlt : D.length < C.length := by
    rw [← ht, List.length_append]
    cases t with
    | nil => exact absurd (by rw [← ht, List.append_nil]) hne
    | cons => simp
  refine ⟨a1, hlt, ?_⟩
  unfold field
  rw [← ht, List.take_append_of_le_length (by omega), ← a2, List.drop_append_of_le_length (by omega), List.take_append_of_le_length (by rw [List.length_drop]; omega),
    List.take_of_length_le (by rw [List.length_drop]; omega)]

/-- **C62, decryption.**  If anything is read after the header, or written, the header is authentic for this passphrase; at every point a beginning of what the input read so
far decrypts to has been written (hence of the plaintext), and no more than one block is held back. -/
theorem C62_dec {sys : EncSys} (g : sys.Good) {inf : InFile} {outf : OutFile} {passwd : Bytes} (hin : inf.data.length < 2 ^ 64) {P : EncParams} {v f : Bool}
    {o : FileOut} {es : List IoEv} (h : scryptdec_fileT sys inf outf passwd P v f = .ok (o, es)) :
    o.outf.written = outf.written ++ put es ∧
    (es ≠ [] → 96 ≤ inf.data.length ∧ HasMagic inf.data ∧ VersionOk inf.data ∧ ChecksumOk inf.data ∧
      PasswordOk (scryptCode passwd (hdrSalt inf.data) (2 ^ hdrLogN inf.data) (hdrR inf.data) (hdrP inf.data) 64) inf.data) ∧
    (∀ pre, pre <+: es →
      let dk := scryptCode passwd (hdrSalt inf.data) (2 ^ hdrLogN inf.data) (hdrR inf.data) (hdrP inf.data) 64
      DecPoint dk (inf.data.drop 96) outf.room pre ∧ put pre <+: plaintext dk inf.data) := by
  unfold scryptdec_fileT at h
  rw [Res.bind_eq_ok] at h
  obtain ⟨-, -, h⟩ := h
  rw [Res.bind_eq_ok] at h
  obtain ⟨p, hp, h⟩ := h
  obtain ⟨p1, p2, p3, -⟩ := decPrep_spec g hp
  by_cases h1 : p.rc = .OK
  case neg =>
    obtain ⟨c1, -⟩ := p3 h1
    simp only [c1] at h
    obtain ⟨h2, rfl⟩ := Prod.mk.inj (Res.ok.inj h)
    rw [← h2]
    refine ⟨by simp [put], fun hc => absurd rfl hc, fun pre hpre => ?_⟩
    obtain rfl := List.prefix_nil.1 hpre
    exact ⟨⟨List.nil_prefix, List.nil_prefix, .inl (by simp [taken])⟩, List.nil_prefix⟩
  obtain ⟨c, c1, c2, c3, c4, c5, c6, c7⟩ := p2 h1
  have hU := (prepVerdict_ok.1 (p1.symm.trans h1)).2
  obtain ⟨q, es', e, t1, t2⟩ := decCopyT_ok g c outf (by rw [c2, List.length_take]; have := hU.len; omega) (by rw [c5]; exact inpKey_length _ _)
    (by rw [c3, List.length_drop]; have := hU.len; omega)
  simp only [c1] at h
  rw [e, Res.bind_ok] at h
  obtain ⟨h2, rfl⟩ := Prod.mk.inj (Res.ok.inj h)
  rw [c3, c5] at t2
  refine ⟨by rw [← h2]; exact t1, fun _ => ⟨hU.len, hU.magic, hU.version, hU.sum, hU.pass⟩, fun pre hpre => ?_⟩
  intro dk
  have hpt : DecPoint dk (inf.data.drop 96) outf.room pre := t2 pre hpre
  refine ⟨hpt, hpt.wr.trans ?_⟩
  unfold plaintext
  refine ctr_prefix dk ?_
  obtain ⟨t, ht⟩ := hpt.rd
  unfold field
  rw [← ht]
  have hl : inf.data.length - 128 = (taken pre).length + t.length - 32 := by
    have := congrArg List.length ht
    rw [List.length_append, List.length_drop] at this
    omega
  rw [hl, List.take_append]
  refine List.IsPrefix.trans ?_ (List.prefix_append _ _)
  rw [show (taken pre).take ((taken pre).length - 32) = ((taken pre).take ((taken pre).length + t.length - 32)).take ((taken pre).length - 32) by
    rw [List.take_take, Nat.min_eq_left (by omega)]]
  exact List.take_prefix _ _

/-- **C62, decryption of what there is of a container.**  Whatever is written, at any point, is a beginning of the original data. -/
theorem C62_dec_cut {sys : EncSys} (g : sys.Good) {inf : InFile} {outf : OutFile} {passwd salt m : Bytes} {l r p : Nat} (hsalt : salt.length = 32) (hg : GoodParams l r p)
    (hcut : inf.data <+: container (scryptCode passwd salt (2 ^ l) r p 64) l r p salt m) (hm : m.length + 128 < 2 ^ 64) {P : EncParams} {v f : Bool}
    {o : FileOut} {es : List IoEv} (h : scryptdec_fileT sys inf outf passwd P v f = .ok (o, es)) {pre : List IoEv} (hpre : pre <+: es) : put pre <+: m := by
  obtain ⟨-, g2, g3, g4, g5⟩ := hg
  have hr : r < 2 ^ 30 := lt_of_le_of_lt (Nat.le_mul_of_pos_right r g4) g5
  have hp : p < 2 ^ 30 := lt_of_le_of_lt (Nat.le_mul_of_pos_left p g3) g5
  have hc := container_fields (scryptCode passwd salt (2 ^ l) r p 64) l r p salt m hsalt (by omega) (by omega) (by omega)
  have hlen := hc.len
  obtain ⟨t, ht⟩ := hcut
  have hDl : inf.data.length ≤ m.length + 128 := by rw [← hlen, ← ht, List.length_append]; omega
  obtain ⟨-, a2, a3⟩ := C62_dec g (by omega) h
  by_cases he : es = []
  · subst he
    obtain rfl := List.prefix_nil.1 hpre
    exact List.nil_prefix
  have h96 := (a2 he).1
  obtain ⟨pt, pl⟩ := a3 pre hpre
  have hk : scryptCode passwd (hdrSalt inf.data) (2 ^ hdrLogN inf.data) (hdrR inf.data) (hdrP inf.data) 64 = scryptCode passwd salt (2 ^ l) r p 64 := by
    show inpKey passwd inf.data = _
    rw [inpKey_congr (D' := container (scryptCode passwd salt (2 ^ l) r p 64) l r p salt m) (by rw [← ht, List.take_append_of_le_length (by omega)])]
    unfold inpKey; rw [hc.salt, hc.logN, hc.r, hc.p]
  rw [hk] at pl
  refine pl.trans ?_
  rw [← hc.text]
  unfold plaintext
  refine ctr_prefix _ ?_
  unfold field
  rw [hlen, ← ht, List.drop_append_of_le_length (by omega)]
  have : List.take (inf.data.length - 128) (List.drop 96 inf.data) <+: List.drop 96 inf.data ++ t := (List.take_prefix _ _).trans (List.prefix_append _ _)
  exact List.prefix_of_prefix_length_le this (List.take_prefix _ _) (by
    have := congrArg List.length ht
    rw [List.length_append, hlen] at this
    simp only [List.length_take, List.length_append, List.length_drop]
    omega)

/-- Non-vacuity for C62: encrypting three bytes (delivered in pieces) performs operations that write 131 bytes; killed after any number of them, and with any part of the output
written, what is there is a beginning of the container.  Decrypting it performs operations that write the three bytes. -/
example (sha sha' : ShaHw) (hw hw' : AesHw) (passwd : Bytes) :
    ∃ o es o2 es2, scryptenc_fileT (exEnc sha hw exSalt) ⟨[[1], [], [2, 3]], false⟩ ⟨[], some 131⟩ passwd exP true false = .ok (o, es) ∧ (put es).length = 131 ∧
      (∀ n k, ((put (es.take n)).take k) <+: put es) ∧
      scryptdec_fileT (exEnc sha' hw' exSalt) ⟨[o.outf.written.take 5, o.outf.written.drop 5], false⟩ ⟨[8], some 3⟩ passwd exP0 true false = .ok (o2, es2) ∧
      put es2 = [1, 2, 3] := by
  obtain ⟨o, h, hok, hP⟩ := exEnc_file sha hw exSalt_length ⟨[[1], [], [2, 3]], false⟩ ⟨[], some 131⟩ passwd (by decide) rfl
    (by intro k hk; cases hk; decide) true false
  obtain ⟨o2, h2, r, t, -⟩ := C02_roundtrip (inf2 := ⟨[o.outf.written.take 5, o.outf.written.drop 5], false⟩) (outf2 := ⟨[8], some 3⟩) (P2 := exP0)
    (verbose2 := true) (force2 := false)
    (exEnc_good sha hw exSalt_length) (exEnc_good sha' hw' exSalt_length) (exEnc_ready sha' hw' exSalt)
    (by decide) h hok (by simp [InFile.data]) rfl (by intro k hk; cases hk; decide) (by decide)
    (exLimits _ _ _ _ rfl _ _) (by rw [hP]; exact exPass _ _ _ _ rfl rfl rfl _) (by rw [hP]; exact exEnc_kdf _ _ _) (exEnc_aes _ _ _) rfl
  obtain ⟨es, he⟩ := (C62_enc_trace o).1 h
  obtain ⟨es2, he2⟩ := (C62_dec_trace o2).1 h2
  have g := exEnc_good sha hw exSalt_length
  have w := (C62_enc g (by decide) he).1
  obtain ⟨salt, l, -, hs, e3, hg, -, -, -, -, -, hwr⟩ := encFile_inv g (by decide) h hok
  have hlen : o.outf.written.length = 131 := by
    obtain ⟨-, q2, q3, q4, q5⟩ := hg
    rw [hwr, List.nil_append, (container_fields _ l _ _ salt _ hs (by omega) o.P.r.isLt o.P.p.isLt).len]
    rfl
  rw [List.nil_append] at w
  have w2 := (C62_dec (exEnc_good sha' hw' exSalt_length) (by simp [InFile.data, hlen]) he2).1
  refine ⟨o, es, o2, es2, he, by rw [← w, hlen], fun n k => ?_, he2, ?_⟩
  · refine (List.take_prefix _ _).trans ?_
    conv => rhs; rw [← List.take_append_drop n es, put_append]
    exact List.prefix_append _ _
  · rw [t] at w2
    exact (List.append_cancel_left w2).symm

end Scrypt.Props
