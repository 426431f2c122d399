import Verif.Props.EncMisc
/-
Non-vacuity for C01 - C10, C15, C16, C41, C46, C51: concrete systems satisfying every hypothesis, and complete runs on
them (encryption and decryption, on different hardware, both interfaces, right and wrong input).
-/
namespace Scrypt.Props
open Scrypt Spec F64

set_option exponentiation.threshold 1100

/-- A concrete system: everything can be allocated, 1 GiB address space, any SHA-256 and AES code. -/
def exEnc (sha : ShaHw) (hw : AesHw) (salt : Bytes) : EncSys :=
  { par := exSys, sha := sha, aesHw := hw, ossl := Spec.aes, sse2Ok := true, kdf1 := okEnv, kdf2 := okEnv, kdf := okEnv, smix := none,
    salt := some salt, aes := ⟨some (List.replicate 15 []), true⟩, ctr := some ⟨.ossl [], 7, List.replicate 16 1, List.replicate 16 2⟩,
    cookieOk := true, junkSha := SHA256_CTX.zero, junkHmac := zeroHctx, junkHmac2 := zeroHctx, junkTest := List.replicate 64 3,
    dk0 := List.replicate 64 4, header0 := List.replicate 96 5, iobuf := List.replicate 65568 6, xmm := fun _ => [] }

theorem zero_sized : SHA256_CTX.zero.Sized := (zeroHctx_sized).1

theorem exEnc_good (sha : ShaHw) (hw : AesHw) {salt : Bytes} (hs : salt.length = 32) : (exEnc sha hw salt).Good where
  sz := .inr rfl
  perf := .inl rfl
  kdf := okEnv_sized
  junkSha := zero_sized
  junkHmac := zeroHctx_sized
  junkHmac2 := zeroHctx_sized
  ossl := fun _ k b _ _ => rfl
  aesMem := fun rk h => by cases h; rfl
  ctr := fun c h => by cases h; exact ⟨rfl, rfl⟩
  salt := fun s h => by cases h; exact hs
  dk0 := rfl
  header0 := rfl
  iobuf := List.length_replicate

theorem exEnc_ready (sha : ShaHw) (hw : AesHw) (salt : Bytes) : SelfTestReady (exEnc sha hw salt) := fun _ =>
  ⟨okEnv_sized, okEnv_sized, rfl,
    ⟨Option.some_ne_none _, Option.some_ne_none _, Option.some_ne_none _, rfl⟩,
    ⟨Option.some_ne_none _, Option.some_ne_none _, Option.some_ne_none _, rfl⟩⟩

theorem exEnc_aes (sha : ShaHw) (hw : AesHw) (salt : Bytes) : aesCode (exEnc sha hw salt) = .OK := by
  cases hw <;> rfl

/-- Explicit parameters logN = 10, r = 8, p = 1. -/
def exP : EncParams := ⟨0, fin false (1 / 8), F64.ofNat 5, 10, 8, 1⟩

/-- The same limits, no explicit parameters. -/
def exP0 : EncParams := ⟨0, fin false (1 / 8), F64.ofNat 5, 0, 0, 0⟩

theorem exP_good : GoodParams exP.logN exP.r.toNat exP.p.toNat := by
  unfold GoodParams exP; decide

theorem exEnc_kdf (sha : ShaHw) (hw : AesHw) (salt : Bytes) : KdfOk (exEnc sha hw salt) (2 ^ 10) 8 1 :=
  ⟨⟨by norm_num, by norm_num, by norm_num, ⟨10, rfl, by norm_num, by norm_num⟩, by norm_num,
    by show 128 * 8 * 1 ≤ 2 ^ 64 - 1; norm_num, by show 256 * 8 + 64 ≤ 2 ^ 64 - 1; norm_num, by show 128 * 8 * 2 ^ 10 ≤ 2 ^ 64 - 1; norm_num⟩,
   Option.some_ne_none _, Option.some_ne_none _, Option.some_ne_none _, rfl⟩

theorem exLimits (sha : ShaHw) (hw : AesHw) (salt : Bytes) (P : EncParams) (hP : P.maxmemfrac = fin false (1 / 8)) (verbose force : Bool) :
    LimitsOk (exEnc sha hw salt) P verbose force :=
  ⟨fun _ => ⟨1 / 8, hP, by norm_num, by norm_num, rep_eighth⟩, fun _ => ⟨rfl, rfl⟩⟩

theorem exMemLimit (sha : ShaHw) (hw : AesHw) (salt : Bytes) (P : EncParams) (h1 : P.maxmem = 0) (h2 : P.maxmemfrac = fin false (1 / 8)) :
    ∃ m, MemLimit (exEnc sha hw salt) P m ∧ 1048576 ≤ m ∧ m < 2 ^ 28 := by
  obtain ⟨m, hm⟩ := exSys_mem
  have hv : (fin false (1 / 8)).Valid := ⟨rep_eighth, by norm_num⟩
  obtain ⟨q, hq, -, -, a1, -, -, a2⟩ := C17_bounds (Or.inr rfl) _ _ _ _ hv hm
  obtain ⟨-, rfl⟩ := F64.fin.inj hq
  refine ⟨m, ?_, a1, ?_⟩
  · unfold MemLimit; rw [h1, h2]; exact hm
  · have h3 := a2 (2 ^ 30) (Or.inl ⟨rfl, _, rfl, by decide⟩)
    have h4 : (m : ℚ) < 2 ^ 28 := by refine lt_of_le_of_lt h3 ?_; norm_num
    exact_mod_cast h4

theorem exPass (sha : ShaHw) (hw : AesHw) (salt : Bytes) (P : EncParams) (h1 : P.maxmem = 0) (h2 : P.maxmemfrac = fin false (1 / 8))
    (h3 : P.maxtime = F64.ofNat 5) (force : Bool) : LimitsPass (exEnc sha hw salt) P force (2 ^ 10) 8 1 := by
  right
  obtain ⟨m, hm, hm1, -⟩ := exMemLimit sha hw salt P h1 h2
  refine ⟨⟨m, hm⟩, rfl, ?_, ?_⟩
  · rintro ⟨m', hm', hb⟩
    unfold MemLimit at hm hm'
    rw [hm] at hm'
    cases hm'
    unfold memNeed at hb
    omega
  · unfold TooSlow
    rw [h3]
    exact (C13_time_test _ _ 10 8 1 (by unfold GoodParams; decide)).1 (by
      show LeExact _ (F64.mul exSys.perf.2 (F64.ofNat 5))
      rw [exSys_ops]; simp only [LeExact, val, cpuNeed]; norm_num)

theorem exP_nonzero : (exP.zero || exP.nonzero) = true := by decide

/-- Encryption into a buffer on the example system succeeds. -/
theorem exEnc_buf (sha : ShaHw) (hw : AesHw) {salt : Bytes} (hs : salt.length = 32) (m outbuf passwd : Bytes) (hm : m.length < 2 ^ 64)
    (hout : m.length + 128 ≤ outbuf.length) (verbose force : Bool) :
    ∃ o, scryptenc_buf (exEnc sha hw salt) m outbuf passwd exP verbose force = .ok o ∧ o.rc = .OK ∧ o.P = exP := by
  have g := exEnc_good sha hw hs
  obtain ⟨o, h⟩ := encBuf_total (passwd := passwd) g (exEnc_ready sha hw salt) hm hout (P := exP) (verbose := verbose) (force := force) exP_nonzero
    ⟨fun _ => exLimits sha hw salt exP rfl verbose force, fun h => by cases h⟩
  have hr := (C15_buf g hm hout (exLimits sha hw salt exP rfl verbose force) (by decide) h).2.2.2.2.1
  obtain ⟨l, hmem, -⟩ := exMemLimit sha hw salt exP rfl rfl
  have ha := exEnc_aes sha hw salt
  have hok : o.rc = .OK := by
    rw [hr]
    unfold explicitChecks
    simp only [List.cons_append, List.nil_append]
    rw [firstFail_cons exP_good, firstFail_cons (.inr ⟨l, hmem⟩), firstFail_cons (.inr rfl), firstFail_cons (show (exEnc sha hw salt).salt ≠ none from Option.some_ne_none _),
      firstFail_cons (show KdfOk (exEnc sha hw salt) (2 ^ exP.logN.toNat) exP.r.toNat exP.p.toNat from exEnc_kdf sha hw salt), aes_table, ha, firstFail_cons (rfl : Code.OK = Code.OK)]
    rfl
  exact ⟨o, h, hok, (C10_enc_buf g hm hout h hok).2.2.2.2.2.2.2 (by decide)⟩

/-- Encryption of a stream on the example system succeeds. -/
theorem exEnc_file (sha : ShaHw) (hw : AesHw) {salt : Bytes} (hs : salt.length = 32) (inf : InFile) (outf : OutFile) (passwd : Bytes)
    (hm : inf.data.length + 128 < 2 ^ 64) (he : inf.err = false) (hr : Fits outf (inf.data.length + 128)) (verbose force : Bool) :
    ∃ o, scryptenc_file (exEnc sha hw salt) inf outf passwd exP verbose force = .ok o ∧ o.rc = .OK ∧ o.P = exP := by
  have g := exEnc_good sha hw hs
  obtain ⟨o, h⟩ := encFile_total (passwd := passwd) g (exEnc_ready sha hw salt) (inf := inf) (outf := outf) (by omega) (P := exP)
    (verbose := verbose) (force := force) exP_nonzero ⟨fun _ => exLimits sha hw salt exP rfl verbose force, fun h => by cases h⟩
  obtain ⟨ob, hb, hok, hP⟩ := exEnc_buf sha hw hs inf.data (List.replicate (inf.data.length + 128) 0) passwd (by omega)
    (by rw [List.length_replicate]) verbose force
  obtain ⟨e1, e2, -⟩ := C04_enc_same_code g (by omega) (by rw [List.length_replicate]) rfl he hr hb h
  exact ⟨o, h, by rw [e1, hok], by rw [e2, hP]⟩

/-- A 32-byte salt. -/
def exSalt : Bytes := List.replicate 32 0x5a

theorem exSalt_length : exSalt.length = 32 := rfl

/-- Non-vacuity for C01, C03, C05, C10, C16, C51: on any hardware, encrypting (any message, e.g. [1, 2, 3]) succeeds, and
decrypting the result on any other hardware, unforced and within the limits, gives the message back. -/
example (sha sha' : ShaHw) (hw hw' : AesHw) (passwd : Bytes) :
    ∃ o o2, scryptenc_buf (exEnc sha hw exSalt) [1, 2, 3] (List.replicate 200 0) passwd exP true false = .ok o ∧ o.rc = .OK ∧
      scryptdec_buf (exEnc sha' hw' exSalt) (o.out.take 131) (List.replicate 131 9) 77 passwd exP0 true false = .ok o2 ∧ o2.rc = .OK ∧
      o2.out.take o2.outlen = [1, 2, 3] ∧ o2.P.logN = 10 := by
  obtain ⟨o, h, hok, hP⟩ := exEnc_buf sha hw exSalt_length [1, 2, 3] (List.replicate 200 0) passwd (by decide)
    (by rw [List.length_replicate]; decide) true false
  obtain ⟨o2, h2, r, -, t, l, -⟩ := C01_roundtrip (outlen := 77) (outbuf2 := List.replicate 131 9) (P2 := exP0) (verbose2 := true) (force2 := false)
    (exEnc_good sha hw exSalt_length) (exEnc_good sha' hw' exSalt_length) (exEnc_ready sha' hw' exSalt)
    (by decide) (by rw [List.length_replicate]; decide) h hok (by rw [List.length_replicate]; decide) (by decide)
    (exLimits _ _ _ _ rfl _ _) (by rw [hP]; exact exPass _ _ _ _ rfl rfl rfl _) (by rw [hP]; exact exEnc_kdf _ _ _) (exEnc_aes _ _ _)
  exact ⟨o, o2, h, hok, h2, r, t, by rw [l, hP]; rfl⟩

/-- Non-vacuity for C02, C09: a stream delivered in pieces of 1, 0, 2 bytes comes back from the encryption delivered in
pieces of 5 and 126 bytes. -/
example (sha sha' : ShaHw) (hw hw' : AesHw) (passwd : Bytes) :
    ∃ o o2, scryptenc_file (exEnc sha hw exSalt) ⟨[[1], [], [2, 3]], false⟩ ⟨[], some 131⟩ passwd exP true false = .ok o ∧ o.rc = .OK ∧
      scryptdec_file (exEnc sha' hw' exSalt) ⟨[o.outf.written.take 5, o.outf.written.drop 5], false⟩ ⟨[8], some 3⟩ passwd exP0 true false = .ok o2 ∧
      o2.rc = .OK ∧ o2.outf.written = [8, 1, 2, 3] := by
  obtain ⟨o, h, hok, hP⟩ := exEnc_file sha hw exSalt_length ⟨[[1], [], [2, 3]], false⟩ ⟨[], some 131⟩ passwd (by decide) rfl
    (by intro k hk; cases hk; decide) true false
  obtain ⟨o2, h2, r, t, -⟩ := C02_roundtrip (inf2 := ⟨[o.outf.written.take 5, o.outf.written.drop 5], false⟩) (outf2 := ⟨[8], some 3⟩) (P2 := exP0)
    (verbose2 := true) (force2 := false)
    (exEnc_good sha hw exSalt_length) (exEnc_good sha' hw' exSalt_length) (exEnc_ready sha' hw' exSalt)
    (by decide) h hok (by simp [InFile.data]) rfl (by intro k hk; cases hk; decide) (by decide)
    (exLimits _ _ _ _ rfl _ _) (by rw [hP]; exact exPass _ _ _ _ rfl rfl rfl _) (by rw [hP]; exact exEnc_kdf _ _ _) (exEnc_aes _ _ _) rfl
  exact ⟨o, o2, h, hok, h2, r, t⟩

/-- Non-vacuity for C06: two encryptions of different messages under the same salt and passphrase are both accepted and
have the same header. -/
example (sha : ShaHw) (hw : AesHw) (passwd : Bytes) :
    ∃ D D' : Bytes, Accepted (exEnc sha hw exSalt) passwd D ∧ Accepted (exEnc sha hw exSalt) passwd D' ∧ D ≠ D' ∧ D.take 96 = D'.take 96 := by
  have g := exEnc_good sha hw exSalt_length
  have acc : ∀ m : Bytes, m.length = 1 → ∃ o, scryptenc_buf (exEnc sha hw exSalt) m (List.replicate 129 0) passwd exP false false = .ok o ∧ o.rc = .OK ∧
      o.P = exP ∧ ∃ o2, scryptdec_buf (exEnc sha hw exSalt) (o.out.take 129) (List.replicate 129 9) 77 passwd exP0 false false = .ok o2 ∧ o2.rc = .OK ∧
        o2.out.take o2.outlen = m := by
    intro m hm
    obtain ⟨o, h, hok, hP⟩ := exEnc_buf sha hw exSalt_length m (List.replicate 129 0) passwd (by omega) (by rw [List.length_replicate]; omega) false false
    obtain ⟨o2, h2, r, -, t, l, -⟩ := C01_roundtrip (outlen := 77) (outbuf2 := List.replicate 129 9) (P2 := exP0) (verbose2 := false) (force2 := false)
      g g (exEnc_ready sha hw exSalt)
      (by omega) (by rw [List.length_replicate]; omega) h hok (by rw [List.length_replicate]; omega) (by decide)
      (exLimits _ _ _ _ rfl _ _) (by rw [hP]; exact exPass _ _ _ _ rfl rfl rfl _) (by rw [hP]; exact exEnc_kdf _ _ _) (exEnc_aes _ _ _)
    rw [hm] at h2
    exact ⟨o, h, hok, hP, o2, h2, r, t⟩
  obtain ⟨o, h, hok, hP, o2, h2, hok2, t⟩ := acc [1] rfl
  obtain ⟨o', h', hok', hP', o2', h2', hok2', t'⟩ := acc [2] rfl
  have len : ∀ m o, m.length = 1 → scryptenc_buf (exEnc sha hw exSalt) m (List.replicate 129 0) passwd exP false false = .ok o → o.rc = .OK →
      o.P = exP → (o.out.take 129).take 96 =
        header96 (scryptCode passwd exSalt (2 ^ 10) 8 1 64) 10 8 1 exSalt ∧ (o.out.take 129).length = 129 := by
    intro m o hm h hok hP
    obtain ⟨salt, l, a1, a2, a3, a4, a5, -⟩ := C03_buf g (by omega) (by rw [List.length_replicate]; omega) h hok
    cases a1
    rw [hP] at a3 a4 a5
    have : l = 10 := by have : (10 : Int) = (l : Nat) := a3; omega
    subst this
    rw [hm] at a5
    constructor
    · rw [List.take_take, a4, List.take_append_of_le_length (by omega)]
      unfold container
      simp only []
      rw [List.append_assoc, List.take_append_of_le_length (by rw [header96_length _ _ _ _ _ rfl]; omega),
        List.take_of_length_le (by rw [header96_length _ _ _ _ _ rfl]; omega)]
      rfl
    · rw [List.length_take, a4, List.length_append, a5, List.length_drop, List.length_replicate]; omega
  obtain ⟨hd, hl⟩ := len _ _ rfl h hok hP
  obtain ⟨hd', hl'⟩ := len _ _ rfl h' hok' hP'
  refine ⟨o.out.take 129, o'.out.take 129, .buf (List.replicate 129 9) 77 exP0 false false o2 (by rw [hl, List.length_replicate]) h2 hok2,
    .buf (List.replicate 129 9) 77 exP0 false false o2' (by rw [hl', List.length_replicate]) h2' hok2', fun he => ?_, by rw [hd, hd']⟩
  rw [he] at h2
  rw [h2] at h2'
  cases h2'
  rw [t] at t'
  cases t'

/-- Non-vacuity for C07: a well-formed header with a wrong header signature is reported as a wrong passphrase. -/
example (sha : ShaHw) (hw : AesHw) (passwd : Bytes) : ∃ D o, scryptdec_buf (exEnc sha hw exSalt) D (List.replicate 128 9) 77 passwd exP0 false false = .ok o ∧
    o.rc = .EPASS ∧ o.out = List.replicate 128 9 := by
  have g := exEnc_good sha hw exSalt_length
  let dk := scryptCode passwd exSalt (2 ^ 10) 8 1 64
  -- a container made with another key
  obtain ⟨K, hK, hne⟩ : ∃ S : Bytes, S.length = 32 ∧ S ≠ hmac (keyHmac dk) (header64 10 8 1 exSalt) := by
    by_cases h : List.replicate 32 (0 : Byte) = hmac (keyHmac dk) (header64 10 8 1 exSalt)
    · exact ⟨List.replicate 32 1, by simp, fun hc => by rw [← hc] at h; revert h; decide⟩
    · exact ⟨_, by simp, h⟩
  have h64 : (header64 10 8 1 exSalt).length = 64 := by unfold header64 header48; simp [magic, exSalt]
  let D := header64 10 8 1 exSalt ++ K ++ List.replicate 32 0
  have hD : D.length = 128 := by simp [D, h64, hK]
  have hc := container_fields dk 10 8 1 exSalt [] exSalt_length (by norm_num) (by norm_num) (by norm_num)
  have e : ∀ a b, a + b ≤ 64 → field D a b = field (container dk 10 8 1 exSalt []) a b := by
    intro a b hab
    unfold field D container header96
    simp only [List.append_assoc]
    rw [List.drop_append_of_le_length (by omega), List.take_append_of_le_length (by rw [List.length_drop]; omega),
      List.drop_append_of_le_length (by omega), List.take_append_of_le_length (by rw [List.length_drop]; omega)]
  have hm : HasMagic D := by unfold HasMagic; rw [e 0 6 (by omega)]; exact hc.magic
  have hv : VersionOk D := by unfold VersionOk; rw [e 6 1 (by omega)]; exact hc.version
  have hsum : ChecksumOk D := by unfold ChecksumOk; rw [e 48 16 (by omega), e 0 48 (by omega)]; exact hc.sum
  have hl : hdrLogN D = 10 := by unfold hdrLogN; rw [e 7 1 (by omega)]; exact hc.logN
  have hr : hdrR D = 8 := by unfold hdrR; rw [e 8 4 (by omega)]; exact hc.r
  have hp : hdrP D = 1 := by unfold hdrP; rw [e 12 4 (by omega)]; exact hc.p
  have hs : hdrSalt D = exSalt := by unfold hdrSalt; rw [e 16 32 (by omega)]; exact hc.salt
  obtain ⟨⟨o, ho⟩, -⟩ := C51_dec g (exEnc_ready sha hw exSalt) D (List.replicate 128 9) passwd 77 (by omega) (by rw [hD, List.length_replicate])
    ⟨[], false⟩ (by decide) ⟨[], none⟩ (P := exP0) (verbose := false) (force := false) (by decide) (exLimits _ _ _ _ rfl _ _)
  obtain ⟨c1, c2⟩ := C07_buf g (by omega) (by rw [hD, List.length_replicate]) (exLimits _ _ _ exP0 rfl _ _) ho
  have hE : o.rc = .EPASS := by
    refine c1.2 ⟨⟨by omega, hm, hv, hsum, ?_, ?_, ?_⟩, ?_⟩
    · rw [hl, hr, hp]; unfold GoodParams; decide
    · rw [hl, hr, hp]; exact exPass _ _ _ _ rfl rfl rfl _
    · rw [hl, hr, hp]; exact exEnc_kdf _ _ _
    · rw [hl, hr, hp, hs]
      intro hpw
      unfold PasswordOk at hpw
      have e1 : field D 64 32 = K := field_append _ _ _ 64 32 h64 hK
      have e2 : field D 0 64 = header64 10 8 1 exSalt := by
        unfold field D
        rw [List.append_assoc, List.drop_zero, List.take_append_of_le_length (by omega), List.take_of_length_le (by omega)]
      rw [e1, e2] at hpw
      exact hne hpw
  exact ⟨D, o, ho, hE, (c2 hE).1⟩

/-- Non-vacuity for C15: 2^40 * 8 * 128 bytes exceed the limit, so there is a warning, but encryption goes on; logN = 64 is
EPARAM. -/
example (sha : ShaHw) (hw : AesHw) (passwd : Bytes) :
    (∃ o, scryptenc_buf (exEnc sha hw exSalt) [1] (List.replicate 129 0) passwd { exP with logN := 40 } false false = .ok o ∧ memWarning ∈ o.err) ∧
    (∃ o, scryptenc_buf (exEnc sha hw exSalt) [1] (List.replicate 129 0) passwd { exP with logN := 64 } false false = .ok o ∧ o.rc = .EPARAM) := by
  have g := exEnc_good sha hw exSalt_length
  have tot : ∀ l : Int, l ≠ 0 → ∃ o, scryptenc_buf (exEnc sha hw exSalt) [1] (List.replicate 129 0) passwd { exP with logN := l } false false = .ok o := by
    intro l hl
    refine encBuf_total g (exEnc_ready sha hw exSalt) (by decide) (by rw [List.length_replicate]; decide) ?_
      ⟨fun _ => exLimits _ _ _ _ rfl _ _, fun h => absurd h hl⟩
    simp [EncParams.zero, EncParams.nonzero, exP, hl]
  constructor
  · obtain ⟨o, ho⟩ := tot 40 (by decide)
    refine ⟨o, ho, ?_⟩
    have := (C15_buf g (by decide) (by rw [List.length_replicate]; decide) (exLimits _ _ _ _ rfl _ _) (by decide) ho).2.2.2.2.2.1
    rw [this]
    obtain ⟨m, hm, -, hm2⟩ := exMemLimit sha hw exSalt { exP with logN := 40 } rfl rfl
    refine ⟨⟨rfl, by unfold GoodParams exP; decide, ⟨m, hm⟩, rfl⟩, m, hm, ?_⟩
    have : memNeed (2 ^ 40) 8 > m := by unfold memNeed; omega
    exact this
  · obtain ⟨o, ho⟩ := tot 64 (by decide)
    refine ⟨o, ho, ?_⟩
    exact (C15_buf g (by decide) (by rw [List.length_replicate]; decide) (exLimits _ _ _ _ rfl _ _) (by decide) ho).1.2
      (by unfold GoodParams exP; decide)

/-- Non-vacuity for C41 and its finding F2: with room for 100 bytes, encrypting 10 bytes leaks the expanded key. -/
example (sha : ShaHw) (hw : AesHw) (passwd : Bytes) :
    ∃ o, scryptenc_file (exEnc sha hw exSalt) ⟨[List.replicate 10 1], false⟩ ⟨[], some 100⟩ passwd exP false false = .ok o ∧ ¬ CleanedUp o.tr .aesKey := by
  have g := exEnc_good sha hw exSalt_length
  have hl : EncLimitsOk (exEnc sha hw exSalt) exP false false := ⟨fun _ => exLimits _ _ _ _ rfl _ _, fun h => by cases h⟩
  obtain ⟨o, ho⟩ := encFile_total (passwd := passwd) g (exEnc_ready sha hw exSalt) (inf := ⟨[List.replicate 10 1], false⟩) (outf := ⟨[], some 100⟩)
    (by decide) exP_nonzero hl
  obtain ⟨s, hs⟩ := encSetup_total g (exEnc_ready sha hw exSalt) passwd hl
  have h0 : s.rc = .OK := by
    obtain ⟨ob, hb, hok, -⟩ := exEnc_buf sha hw exSalt_length [] (List.replicate 128 0) passwd (by decide) (by rw [List.length_replicate]; decide) false false
    obtain ⟨s', hs', -, -, -, b3, -⟩ := encBuf_spec g (by decide) (by rw [List.length_replicate]; decide) hb
    rw [hs] at hs'
    cases hs'
    by_contra hc
    rw [(b3 hc).1] at hok
    exact hc hok
  refine ⟨o, ho, C41_F2_witness g (by decide) ho hs h0 (exEnc_aes _ _ _) ?_ ?_⟩
  · intro k hk; cases hk; decide
  · intro hc; have := hc 100 rfl; revert this; decide

end Scrypt.Props
