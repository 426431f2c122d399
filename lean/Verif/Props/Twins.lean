import Verif.Props.Enough
/-
C64: which passphrases are interchangeable.
-/
namespace Scrypt.Spec

/-- Passphrases the code cannot tell apart: the relation generated by "a NUL byte at the end of one shorter than 64 bytes" and "one longer than
64 bytes, and its SHA-256 digest". -/
inductive Twin : Bytes → Bytes → Prop
  | refl (a : Bytes) : Twin a a
  | symm {a b : Bytes} : Twin a b → Twin b a
  | trans {a b c : Bytes} : Twin a b → Twin b c → Twin a c
  | nul (a : Bytes) : a.length < 64 → Twin a (a ++ [0])
  | long (a : Bytes) : 64 < a.length → Twin a (sha256 a)

end Scrypt.Spec

namespace Scrypt.Props
open Scrypt Spec

theorem hmacKey_short {a : Bytes} (h : a.length ≤ 64) : hmacKey a = a ++ List.replicate (64 - a.length) 0 := by
  unfold hmacKey
  rw [if_neg (by omega)]

theorem hmacKey_long {a : Bytes} (h : 64 < a.length) : hmacKey a = hmacKey (sha256 a) := by
  rw [hmacKey_short (a := sha256 a) (by rw [sha256_length]; omega)]
  unfold hmacKey
  rw [if_pos h]

theorem twin_pad {a : Bytes} : ∀ n, a.length + n ≤ 64 → Twin a (a ++ List.replicate n 0)
  | 0, _ => by rw [List.replicate_zero, List.append_nil]; exact .refl a
  | n + 1, h => by
    rw [List.replicate_succ', ← List.append_assoc]
    exact (twin_pad n (by omega)).trans (.nul _ (by rw [List.length_append, List.length_replicate]; omega))

theorem twin_hmacKey (a : Bytes) : Twin a (hmacKey a) := by
  by_cases h : a.length ≤ 64
  · rw [hmacKey_short h]
    exact twin_pad _ (by omega)
  · rw [hmacKey_long (by omega)]
    refine .trans (.long a (by omega)) ?_
    rw [hmacKey_short (a := sha256 a) (by rw [sha256_length]; omega)]
    exact twin_pad _ (by rw [sha256_length])

/-- **C64.**  Twins are exactly the passphrases that HMAC's key preparation (RFC 2104) makes equal. -/
theorem C64_twin_iff (a b : Bytes) : Twin a b ↔ hmacKey a = hmacKey b := by
  constructor
  · intro h
    induction h with
    | refl a => rfl
    | symm _ ih => exact ih.symm
    | trans _ _ i1 i2 => exact i1.trans i2
    | nul a h =>
      rw [hmacKey_short (by omega), hmacKey_short (by rw [List.length_append]; simp only [List.length_singleton]; omega), List.append_assoc,
        List.length_append, List.length_singleton, ← List.replicate_one (a := (0 : Byte)), ← List.replicate_add]
      congr 2
      omega
    | long a h => exact hmacKey_long h
  · intro h
    exact (twin_hmacKey a).trans (h ▸ (twin_hmacKey b).symm)

theorem hmac_twin {a b : Bytes} (h : Twin a b) (t : Bytes) : hmac a t = hmac b t := by
  unfold hmac
  rw [(C64_twin_iff a b).1 h]

theorem pbkdf2U_twin {a b : Bytes} (h : Twin a b) (S : Bytes) (i : Nat) : ∀ j, pbkdf2U a S i j = pbkdf2U b S i j
  | 0 => hmac_twin h _
  | j + 1 => by
    unfold pbkdf2U
    rw [pbkdf2U_twin h S i j, hmac_twin h]

theorem pbkdf2_twin {a b : Bytes} (h : Twin a b) (S : Bytes) (c n : Nat) : pbkdf2 a S c n = pbkdf2 b S c n := by
  unfold pbkdf2 pbkdf2T
  simp only [pbkdf2U_twin h]

theorem scryptCode_twin {a b : Bytes} (h : Twin a b) (S : Bytes) (N r p n : Nat) : scryptCode a S N r p n = scryptCode b S N r p n := by
  unfold scryptCode
  simp only [pbkdf2_twin h]

theorem inpKey_twin {a b : Bytes} (h : Twin a b) (D : Bytes) : inpKey a D = inpKey b D := scryptCode_twin h _ _ _ _ _

theorem unlocked_twin {a b : Bytes} (h : Twin a b) {sys : EncSys} {P : EncParams} {verbose force : Bool} {D : Bytes} {n : Nat} :
    Unlocked sys a P verbose force D n ↔ Unlocked sys b P verbose force D n := by
  constructor
  · exact fun u => { u with pass := inpKey_twin h D ▸ u.pass }
  · exact fun u => { u with pass := (inpKey_twin h D).symm ▸ u.pass }

theorem prepVerdict_twin {a b : Bytes} (h : Twin a b) (sys : EncSys) (inf : InFile) (P : EncParams) (verbose force : Bool) :
    prepVerdict sys inf a P verbose force = prepVerdict sys inf b P verbose force := by
  unfold prepVerdict sysVerdict
  rw [inpKey_twin h]

/-- **C64**, key derivation: the outcome of a call (return value, errno, output, releases) is the same for twins. -/
theorem C64_kdf (hw : ShaHw) (szMax : Nat) (hs : IsSizeMax szMax) (sse2Ok : Bool) (e1 e2 env : ScEnv) (he : env.Sized)
    (junk : HMAC_SHA256_CTX) (hj : junk.Sized) (hbuf : Bytes) (st : Option SmixImpl) {a b : Bytes} (hab : Twin a b) (S : Bytes) (N : W64) (r p : W32)
    (buf : Bytes) (buflen : Nat) (hbl : buflen ≤ buf.length) (hbs : buflen ≤ szMax) (o1 o2 : ScOut) (s1 s2 : Option SmixImpl)
    (h1 : crypto_scrypt szMax sse2Ok e1 e2 env (shaTransform hw) junk hbuf smixImpl st a S N r p buf buflen = .ok (o1, s1))
    (h2 : crypto_scrypt szMax sse2Ok e1 e2 env (shaTransform hw) junk hbuf smixImpl st b S N r p buf buflen = .ok (o2, s2)) :
    o1 = o2 := by
  obtain ⟨f1, -, -, i1⟩ := call_inv h1
  obtain ⟨f2, -, -, i2⟩ := call_inv h2
  rcases internal_total szMax hs env he _ (goodTf hw) junk hj _ (goodSmix f1) a S N r p buf buflen hbl hbs with ⟨c1, x1, q1, y1⟩ | ⟨c1, ⟨d1, y1⟩ | ⟨d1, y1⟩⟩ <;>
  rcases internal_total szMax hs env he _ (goodTf hw) junk hj _ (goodSmix f2) b S N r p buf buflen hbl hbs with ⟨c2, x2, q2, y2⟩ | ⟨c2, ⟨d2, y2⟩ | ⟨d2, y2⟩⟩ <;>
  rw [i1] at y1 <;> rw [i2] at y2
  · rw [q1] at q2; cases q2; cases y1; cases y2; rfl
  · exact absurd c2 c1
  · exact absurd c2 c1
  · exact absurd c1 c2
  · cases y1; cases y2; rfl
  · obtain ⟨x, y, z⟩ := d2; rcases d1 with d | d | d <;> contradiction
  · exact absurd c1 c2
  · obtain ⟨x, y, z⟩ := d1; rcases d2 with d | d | d <;> contradiction
  · rw [scryptCode_twin hab] at y1; cases y1; cases y2; rfl

/-- **C64**, decryption of a buffer: the code, the output, its length, and the parameters reported are the same for twins. -/
theorem C64_dec_buf {sys : EncSys} (g : sys.Good) {D outbuf a b : Bytes} {outlen : Nat} (hD : D.length < 2 ^ 64) (hout : D.length ≤ outbuf.length)
    {P : EncParams} {verbose force : Bool} (hab : Twin a b) {o1 o2 : BufOut} (h1 : scryptdec_buf sys D outbuf outlen a P verbose force = .ok o1)
    (h2 : scryptdec_buf sys D outbuf outlen b P verbose force = .ok o2) :
    o1.rc = o2.rc ∧ o1.out = o2.out ∧ o1.outlen = o2.outlen ∧ o1.P = o2.P := by
  classical
  have d1 := decBuf_spec g hD hout h1
  have d2 := decBuf_spec g hD hout h2
  have hu := unlocked_twin hab (sys := sys) (P := P) (verbose := verbose) (force := force) (D := D) (n := 128)
  refine ⟨by rw [d1.rc, d2.rc, inpKey_twin hab], ?_⟩
  by_cases hy : Unlocked sys a P verbose force D 128 ∧ aesCode sys = .OK
  · obtain ⟨x1, x2⟩ := d1.out_yes hy.1 hy.2
    obtain ⟨y1, y2⟩ := d2.out_yes (hu.1 hy.1) hy.2
    exact ⟨by rw [x1, y1, inpKey_twin hab], by rw [x2, y2], by rw [d1.par, d2.par]⟩
  · obtain ⟨x1, x2⟩ := d1.out_no hy
    obtain ⟨y1, y2⟩ := d2.out_no (by rw [← hu]; exact hy)
    exact ⟨by rw [x1, y1], by rw [x2, y2], by rw [d1.par, d2.par]⟩

/-- **C64**, decryption of a file. -/
theorem C64_dec_file {sys : EncSys} (g : sys.Good) {inf : InFile} {outf : OutFile} {a b : Bytes} (hD : inf.data.length < 2 ^ 64)
    {P : EncParams} {verbose force : Bool} (hab : Twin a b) {o1 o2 : FileOut} (h1 : scryptdec_file sys inf outf a P verbose force = .ok o1)
    (h2 : scryptdec_file sys inf outf b P verbose force = .ok o2) :
    o1.rc = o2.rc ∧ o1.outf = o2.outf ∧ o1.P = o2.P := by
  obtain ⟨x1, x2, x3, -⟩ := decFile_spec g hD h1
  obtain ⟨y1, y2, y3, -⟩ := decFile_spec g hD h2
  rw [prepVerdict_twin hab, inpKey_twin hab] at x1 x2
  exact ⟨by rw [x1, y1], by rw [x2, y2], by rw [x3, y3]⟩

theorem setup_twin {sys : EncSys} (g : sys.Good) {a b : Bytes} {P : EncParams} {verbose force : Bool} {s1 s2 : SetupOut}
    (h1 : scryptenc_setup sys a P verbose force = .ok s1) (h2 : scryptenc_setup sys b P verbose force = .ok s2) :
    s1.rc = s2.rc ∧ s1.P = s2.P ∧ s1.err = s2.err := by
  classical
  obtain ⟨c1, p1, q1, r1⟩ := encSetup_spec g h1
  obtain ⟨c2, p2, q2, r2⟩ := encSetup_spec g h2
  rw [p1] at p2
  obtain ⟨e1, e2⟩ := Prod.mk.inj (Res.ok.inj p2)
  obtain ⟨e2, e3⟩ := Prod.mk.inj e2
  refine ⟨?_, e2, e3⟩
  by_cases hc : c1 = .OK
  · rw [r1 hc, r2 (e1 ▸ hc), e2]
  · rw [q1 hc, q2 (e1 ▸ hc), e1]

/-- **C64**, encryption of a buffer: the same code, parameters and messages, and if it succeeds the same bytes. -/
theorem C64_enc_buf {sys : EncSys} (g : sys.Good) {m outbuf a b : Bytes} (hm : m.length < 2 ^ 64) (hout : m.length + 128 ≤ outbuf.length)
    {P : EncParams} {verbose force : Bool} (hab : Twin a b) {o1 o2 : BufOut} (h1 : scryptenc_buf sys m outbuf a P verbose force = .ok o1)
    (h2 : scryptenc_buf sys m outbuf b P verbose force = .ok o2) :
    o1.rc = o2.rc ∧ o1.P = o2.P ∧ o1.err = o2.err ∧ (o1.rc = .OK → o1.out = o2.out) := by
  obtain ⟨s1, i1, x1, x2, -, x3, x4⟩ := encBuf_spec g hm hout h1
  obtain ⟨s2, i2, y1, y2, -, y3, y4⟩ := encBuf_spec g hm hout h2
  obtain ⟨e1, e2, e3⟩ := setup_twin g i1 i2
  have hP : o1.P = o2.P := by rw [x1, y1, e2]
  have hrc : o1.rc = o2.rc := by
    by_cases hr : s1.rc = .OK
    · rw [(x4 hr).1, (y4 (e1 ▸ hr)).1]
    · rw [(x3 hr).1, (y3 (e1 ▸ hr)).1, e1]
  refine ⟨hrc, hP, by rw [x2, y2, e3], fun hok => ?_⟩
  obtain ⟨u, l, u1, u2, -, -, -, u3⟩ := encBuf_inv g hm hout h1 hok
  obtain ⟨v, k, v1, v2, -, -, -, v3⟩ := encBuf_inv g hm hout h2 (hrc ▸ hok)
  rw [u1] at v1
  have huv := Option.some.inj v1
  rw [hP, v2] at u2
  have hlk : k = l := by exact_mod_cast u2
  rw [u3, v3, hP, huv, hlk, scryptCode_twin hab]

/-- **C64**, encryption of a stream. -/
theorem C64_enc_file {sys : EncSys} (g : sys.Good) {inf : InFile} {outf : OutFile} {a b : Bytes} (hm : inf.data.length < 2 ^ 64)
    {P : EncParams} {verbose force : Bool} (hab : Twin a b) {o1 o2 : FileOut} (h1 : scryptenc_file sys inf outf a P verbose force = .ok o1)
    (h2 : scryptenc_file sys inf outf b P verbose force = .ok o2) :
    o1.rc = o2.rc ∧ o1.P = o2.P ∧ o1.err = o2.err ∧ (o1.rc = .OK → o1.outf.written = o2.outf.written) := by
  classical
  obtain ⟨s1, i1, x1, x2, -, x3, x4⟩ := encFile_spec g hm h1
  obtain ⟨s2, i2, y1, y2, -, y3, y4⟩ := encFile_spec g hm h2
  obtain ⟨e1, e2, e3⟩ := setup_twin g i1 i2
  have hP : o1.P = o2.P := by rw [x1, y1, e2]
  have hrc : o1.rc = o2.rc := by
    by_cases hr : s1.rc = .OK
    · obtain ⟨_, _, -, -, -, -, -, -, -, z1, -⟩ := x4 hr
      obtain ⟨_, _, -, -, -, -, -, -, -, z2, -⟩ := y4 (e1 ▸ hr)
      rw [z1, z2]
    · rw [(x3 hr).1, (y3 (e1 ▸ hr)).1, e1]
  refine ⟨hrc, hP, by rw [x2, y2, e3], fun hok => ?_⟩
  obtain ⟨u, l, u1, -, u2, u3, -⟩ := C03_file g hm h1 hok
  obtain ⟨v, k, v1, -, v2, v3, -⟩ := C03_file g hm h2 (hrc ▸ hok)
  rw [u1] at v1
  have huv := Option.some.inj v1
  rw [hP, v2] at u2
  have hlk : k = l := by exact_mod_cast u2
  rw [u3, v3, hP, huv, hlk, scryptCode_twin hab]

/-- **C64.**  Passphrases of at most 64 bytes that do not end in a NUL byte (every passphrase of that length the utility can be given) are never twins of
each other. -/
theorem C64_distinct {a b : Bytes} (ha : a.length ≤ 64) (hb : b.length ≤ 64) (na : a.getLast? ≠ some 0) (nb : b.getLast? ≠ some 0) :
    Twin a b ↔ a = b := by
  refine ⟨fun h => ?_, fun h => h ▸ .refl a⟩
  have e := (C64_twin_iff a b).1 h
  rw [hmacKey_short ha, hmacKey_short hb] at e
  have key : ∀ {x y : Bytes}, x.length < y.length → y.length ≤ 64 → x ++ List.replicate (64 - x.length) 0 = y ++ List.replicate (64 - y.length) 0 →
      y.getLast? = some 0 := by
    intro x y hxy hy e
    have hl : y.getLast? = y[y.length - 1]? := List.getLast?_eq_getElem?
    have e2 : (y ++ List.replicate (64 - y.length) 0)[y.length - 1]? = y[y.length - 1]? := List.getElem?_append_left (by omega)
    rw [hl, ← e2, ← e, List.getElem?_append_right (by omega), List.getElem?_replicate, if_pos (by omega)]
  rcases Nat.lt_trichotomy a.length b.length with hl | hl | hl
  · exact absurd (key hl hb e) nb
  · exact (List.append_inj e hl).1
  · exact absurd (key hl ha e.symm) na

/-- **C64** (finding F24).  Every passphrase longer than 64 bytes has a twin of 32 bytes, and every one shorter than 64 bytes one that is a byte longer. -/
theorem C64_F24 (a : Bytes) :
    (64 < a.length → ∃ b, Twin a b ∧ b ≠ a ∧ b.length = 32) ∧ (a.length < 64 → ∃ b, Twin a b ∧ b ≠ a ∧ b.length = a.length + 1) :=
  ⟨fun h => ⟨sha256 a, .long a h, fun e => by have := sha256_length a; rw [e] at this; omega, sha256_length a⟩,
   fun h => ⟨a ++ [0], .nul a h, fun e => by have := congrArg List.length e; simp at this, by simp⟩⟩

/-- **C64.**  What was encrypted under a passphrase decrypts under its twin. -/
theorem C64_recover {se sd : EncSys} (ge : se.Good) (gd : sd.Good) (ready : SelfTestReady sd) {m outbuf a b : Bytes} (hab : Twin a b)
    (hm : m.length + 128 < 2 ^ 64) (hout : m.length + 128 ≤ outbuf.length) {P : EncParams} {verbose force : Bool} {o : BufOut}
    (henc : scryptenc_buf se m outbuf a P verbose force = .ok o) (hok : o.rc = .OK)
    {outbuf2 : Bytes} {outlen : Nat} (hout2 : m.length + 128 ≤ outbuf2.length)
    {P2 : EncParams} {verbose2 force2 : Bool} (hz : P2.zero = true) (hl : LimitsOk sd P2 verbose2 force2)
    (hlim : LimitsPass sd P2 force2 (2 ^ o.P.logN.toNat) o.P.r.toNat o.P.p.toNat)
    (hk : KdfOk sd (2 ^ o.P.logN.toNat) o.P.r.toNat o.P.p.toNat) (ha : aesCode sd = .OK) :
    ∃ o2, scryptdec_buf sd (o.out.take (m.length + 128)) outbuf2 outlen b P2 verbose2 force2 = .ok o2 ∧
      o2.rc = .OK ∧ o2.outlen = m.length ∧ o2.out.take o2.outlen = m := by
  obtain ⟨o1, h1, r1, n1, t1, -⟩ := C01_roundtrip (outlen := outlen) ge gd ready hm hout henc hok hout2 hz hl hlim hk ha
  have hD : (o.out.take (m.length + 128)).length ≤ m.length + 128 := List.length_take_le _ _
  obtain ⟨⟨o2, h2⟩, -⟩ := C51_dec gd ready (o.out.take (m.length + 128)) outbuf2 b outlen (by omega) (by omega) ⟨[], false⟩ (by simp [InFile.data])
    ⟨[], none⟩ hz hl
  obtain ⟨e1, e2, e3, -⟩ := C64_dec_buf gd (by omega) (by omega) hab h1 h2
  exact ⟨o2, h2, e1 ▸ r1, e3 ▸ n1, by rw [← e2, ← e3]; exact t1⟩

/-- A passphrase of 65 bytes, and its twin of 32. -/
def exLong : Bytes := List.replicate 65 0x61

theorem exLong_twin : Twin exLong (sha256 exLong) := .long _ (by rw [exLong, List.length_replicate]; omega)

/-- Non-vacuity: three bytes are encrypted under 65 letters `a` and decrypted under the 32 bytes of their digest. -/
example (sha : ShaHw) (hw : AesHw) : ∃ o o2,
    scryptenc_buf (exEnc sha hw exSalt) [1, 2, 3] (List.replicate 131 0) exLong exP false false = .ok o ∧ o.rc = .OK ∧
    scryptdec_buf (exEnc sha hw exSalt) (o.out.take 131) (List.replicate 131 9) 77 (sha256 exLong) exP0 false true = .ok o2 ∧
    o2.rc = .OK ∧ o2.out.take o2.outlen = [1, 2, 3] := by
  have g := exEnc_good sha hw exSalt_length
  obtain ⟨o, h, hok, hP⟩ := exEnc_buf sha hw exSalt_length [1, 2, 3] (List.replicate 131 0) exLong (by decide)
    (by rw [List.length_replicate]; decide) false false
  obtain ⟨o2, h2, r, -, t⟩ := C64_recover (outlen := 77) (outbuf2 := List.replicate 131 9) (P2 := exP0) (verbose2 := false) (force2 := true) g g
    (exEnc_ready sha hw exSalt) exLong_twin (by decide) (by rw [List.length_replicate]; decide) h hok (by rw [List.length_replicate]; decide) (by decide) ⟨by simp, by simp⟩ (.inl rfl)
    (by rw [hP]; exact exEnc_kdf sha hw exSalt) (exEnc_aes sha hw exSalt)
  exact ⟨o, o2, h, hok, h2, r, t⟩

/-- Non-vacuity for C64_distinct: two ordinary passphrases are not twins. -/
example : ¬ Twin [0x61, 0x62] [0x61, 0x63] := by
  rw [C64_distinct (by decide) (by decide) (by decide) (by decide)]; decide

end Scrypt.Props
