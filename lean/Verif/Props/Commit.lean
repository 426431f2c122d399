import Verif.Spec.Commit
import Verif.Props.Twins
import Verif.Props.EncEx
import Verif.Proofs.SelfTestVec
/-
C87: a file opens with one passphrase.
-/
namespace Scrypt.Props
open Scrypt Spec

theorem hmac_outer (K text : Bytes) : hmac K text = sha256 (hmacOuter K text) := rfl

theorem hmacKey_len (K : Bytes) : (hmacKey K).length = 64 := by
  unfold hmacKey
  by_cases h : 64 < K.length
  · simp [h]
  · simp only [h, if_false, List.length_append, List.length_replicate]
    omega

theorem map_xor_inj {x y : Bytes} {v : Byte} (h : x.map (· ^^^ v) = y.map (· ^^^ v)) : x = y :=
  List.map_injective_iff.2 (fun a b e => by
    have := congrArg (· ^^^ v) e
    simpa [BitVec.xor_assoc] using this) h

/-- Equal HMACs: equal prepared keys, or a collision of SHA-256 in the outer hash. -/
theorem hmac_commits {K K' t t' : Bytes} (h : hmac K t = hmac K' t') : hmacKey K = hmacKey K' ∨ Collision (hmacOuter K t) (hmacOuter K' t') := by
  by_cases e : hmacOuter K t = hmacOuter K' t'
  · refine .inl (map_xor_inj (v := 0x5c) ?_)
    unfold hmacOuter at e
    exact (List.append_inj e (by simp [hmacKey_len])).1
  · exact .inr ⟨e, h⟩

theorem flatMap_block (f : Nat → Bytes) (hf : ∀ i, (f i).length = 32) : ∀ (n i : Nat), i < n → (((List.range n).flatMap f).drop (32 * i)).take 32 = f i := by
  intro n
  induction n with
  | zero => intro i h; omega
  | succ n ih =>
    intro i h
    have hl : ((List.range n).flatMap f).length = 32 * n := by
      rw [List.length_flatMap]
      simp only [hf, List.map_const', List.length_range, List.sum_replicate_nat]
      omega
    rw [List.range_succ, List.flatMap_append, List.flatMap_cons, List.flatMap_nil, List.append_nil]
    by_cases hi : i < n
    · rw [List.drop_append_of_le_length (by omega), List.take_append_of_le_length (by rw [List.length_drop]; omega), ih i hi]
    · obtain rfl : i = n := by omega
      rw [List.drop_append, hl, Nat.sub_self, List.drop_zero, List.drop_of_length_le (by omega), List.nil_append, List.take_of_length_le (by rw [hf])]

theorem pbkdf2_block (P S : Bytes) (n i : Nat) (h : 32 * (i + 1) ≤ n) : ((pbkdf2 P S 1 n).drop (32 * i)).take 32 = hmac P (S ++ beBytes 4 (i + 1)) := by
  unfold pbkdf2
  rw [List.drop_take, List.take_take, Nat.min_eq_left (by omega), flatMap_block _ (fun j => pbkdf2T_length _ _ _ _) _ i (by omega), pbT_one]

theorem scryptCode_mixed (P S : Bytes) (N r p n : Nat) : scryptCode P S N r p n = pbkdf2 P (scryptMixed P S N r p) 1 n := rfl

/-- **C87.**  A derived key commits to the passphrase: if two derivations, with whatever salts, parameters and machines, agree in one of their 32-byte blocks at the same place,
the passphrases are interchangeable (C64), or the two messages hashed last are a collision of SHA-256. -/
theorem C87_kdf (hw hw' : ShaHw) (szMax szMax' : Nat) (hs : IsSizeMax szMax) (hs' : IsSizeMax szMax') (sse2Ok sse2Ok' : Bool) (e1 e2 env e1' e2' env' : ScEnv)
    (he : env.Sized) (he' : env'.Sized) (junk junk' : HMAC_SHA256_CTX) (hj : junk.Sized) (hj' : junk'.Sized) (hbuf hbuf' : Bytes) (st st' : Option SmixImpl)
    (a b S S' : Bytes) (N N' : W64) (r p r' p' : W32) (buf buf' : Bytes) (n n' i : Nat) (hn : 32 * (i + 1) ≤ n) (hn' : 32 * (i + 1) ≤ n') (hb : n ≤ buf.length)
    (hb' : n' ≤ buf'.length) (hz : n ≤ szMax) (hz' : n' ≤ szMax') (o o' : ScOut) (t t' : Option SmixImpl)
    (h : crypto_scrypt szMax sse2Ok e1 e2 env (shaTransform hw) junk hbuf smixImpl st a S N r p buf n = .ok (o, t))
    (h' : crypto_scrypt szMax' sse2Ok' e1' e2' env' (shaTransform hw') junk' hbuf' smixImpl st' b S' N' r' p' buf' n' = .ok (o', t'))
    (h0 : o.rc = 0) (h0' : o'.rc = 0) (heq : (o.buf.drop (32 * i)).take 32 = (o'.buf.drop (32 * i)).take 32) :
    Twin a b ∨ Collision (hmacOuter a (scryptMixed a S N.toNat r.toNat p.toNat ++ beBytes 4 (i + 1)))
      (hmacOuter b (scryptMixed b S' N'.toNat r'.toNat p'.toNat ++ beBytes 4 (i + 1))) := by
  have key : ∀ (x : Bytes) (m : Nat) (y : Bytes), x.length = m → 32 * (i + 1) ≤ m → ((x ++ y).drop (32 * i)).take 32 = (x.drop (32 * i)).take 32 := by
    intro x m y hx hm
    rw [List.drop_append_of_le_length (by omega), List.take_append_of_le_length (by rw [List.length_drop]; omega)]
  rw [C21_exact hw szMax hs sse2Ok e1 e2 env he junk hj hbuf st a S N r p buf n hb hz o t h h0,
    C21_exact hw' szMax' hs' sse2Ok' e1' e2' env' he' junk' hj' hbuf' st' b S' N' r' p' buf' n' hb' hz' o' t' h' h0',
    key _ n _ (scryptCode_length _ _ _ _ _ _) hn, key _ n' _ (scryptCode_length _ _ _ _ _ _) hn', scryptCode_mixed, scryptCode_mixed, pbkdf2_block _ _ _ _ hn,
    pbkdf2_block _ _ _ _ hn'] at heq
  exact (hmac_commits heq).imp (C64_twin_iff a b).2 id

/-- The key of the container `D` under the passphrase `a`. -/
abbrev keyOf (a D : Bytes) : Bytes := scryptCode a (hdrSalt D) (2 ^ hdrLogN D) (hdrR D) (hdrP D) 64

/-- The collision that a container with two passphrases would contain: in the HMAC of the header, or in the derivation of the HMAC key. -/
def TwoKeys (a b D : Bytes) : Prop :=
  Collision (hmacOuter (keyHmac (keyOf a D)) (D.take 64)) (hmacOuter (keyHmac (keyOf b D)) (D.take 64)) ∨
  Collision (hmacOuter a (scryptMixed a (hdrSalt D) (2 ^ hdrLogN D) (hdrR D) (hdrP D) ++ [0, 0, 0, 2]))
    (hmacOuter b (scryptMixed b (hdrSalt D) (2 ^ hdrLogN D) (hdrR D) (hdrP D) ++ [0, 0, 0, 2]))

theorem keyHmac_block (a D : Bytes) : keyHmac (keyOf a D) = hmac a (scryptMixed a (hdrSalt D) (2 ^ hdrLogN D) (hdrR D) (hdrP D) ++ [0, 0, 0, 2]) :=
  pbkdf2_block a _ 64 1 (by omega)

theorem commits {a b D : Bytes} (ha : PasswordOk (keyOf a D) D) (hb : PasswordOk (keyOf b D) D) : Twin a b ∨ TwoKeys a b D := by
  unfold PasswordOk at ha hb
  have e0 : field D 0 64 = D.take 64 := by unfold field; rw [List.drop_zero]
  rw [e0] at ha hb
  rcases hmac_commits (ha.symm.trans hb) with h | h
  · have l : ∀ x : Bytes, (keyHmac (keyOf x D)).length = 32 := fun x => by rw [keyHmac_block, hmac_outer, sha256_length]
    rw [hmacKey_short (by rw [l]; omega), hmacKey_short (by rw [l]; omega)] at h
    have h2 := (List.append_inj h (by rw [l, l])).1
    rw [keyHmac_block, keyHmac_block] at h2
    exact (hmac_commits h2).imp (C64_twin_iff a b).2 .inr
  · exact .inr (.inl h)

/-- **C87.**  A container that `scryptdec_buf` accepts with two passphrases, on whatever machines and with whatever limits: the passphrases are interchangeable and give the same
plaintext, or the container yields a collision of SHA-256. -/
theorem C87_buf {sys sys' : EncSys} (g : sys.Good) (g' : sys'.Good) {D outbuf outbuf' a b : Bytes} {outlen outlen' : Nat} (hD : D.length < 2 ^ 64) (hout : D.length ≤ outbuf.length)
    (hout' : D.length ≤ outbuf'.length) {P P' : EncParams} {verbose force verbose' force' : Bool} {o o' : BufOut}
    (h : scryptdec_buf sys D outbuf outlen a P verbose force = .ok o) (h' : scryptdec_buf sys' D outbuf' outlen' b P' verbose' force' = .ok o')
    (hok : o.rc = .OK) (hok' : o'.rc = .OK) :
    (Twin a b ∧ o.out.take o.outlen = o'.out.take o'.outlen) ∨ TwoKeys a b D := by
  classical
  have plain : ∀ {sys : EncSys} (g : sys.Good) {outbuf a : Bytes} {outlen : Nat} (hout : D.length ≤ outbuf.length) {P : EncParams} {verbose force : Bool} {o : BufOut},
      scryptdec_buf sys D outbuf outlen a P verbose force = .ok o → o.rc = .OK → PasswordOk (inpKey a D) D ∧ o.out.take o.outlen = plaintext (inpKey a D) D := by
    intro sys g outbuf a outlen hout P verbose force o h hok
    have hs := decBuf_spec g hD hout h
    rw [hs.rc, bufVerdict_ok] at hok
    obtain ⟨a1, a2, a3, a4, a5, a6, a7, a8, a9⟩ := hok
    obtain ⟨o1, o2⟩ := hs.out_yes ⟨a1, a2, a3, a4, a5, a6, a7⟩ a8
    have hl : (plaintext (inpKey a D) D).length = D.length - 128 := plaintext_length _ _
    exact ⟨a7, by rw [o1, o2, List.take_append_of_le_length (by omega), List.take_of_length_le (by omega)]⟩
  obtain ⟨p1, q1⟩ := plain g hout h hok
  obtain ⟨p2, q2⟩ := plain g' hout' h' hok'
  refine (commits p1 p2).imp (fun ht => ⟨ht, ?_⟩) id
  rw [q1, q2, inpKey_twin ht]

/-- **C87.**  Two stream decryptions of one file, with two passphrases, that both write anything at all, however they end: the passphrases are interchangeable and one output is
a beginning of the other, or the file yields a collision of SHA-256. -/
theorem C87_file {sys sys' : EncSys} (g : sys.Good) (g' : sys'.Good) {inf inf' : InFile} {outf outf' : OutFile} {a b : Bytes} (hin : inf.data.length < 2 ^ 64)
    (hsame : inf'.data = inf.data) {P P' : EncParams} {verbose force verbose' force' : Bool} (hl : LimitsOk sys P verbose force) (hl' : LimitsOk sys' P' verbose' force') {o o' : FileOut}
    (h : scryptdec_file sys inf outf a P verbose force = .ok o) (h' : scryptdec_file sys' inf' outf' b P' verbose' force' = .ok o')
    (hw : o.outf.written ≠ outf.written) (hw' : o'.outf.written ≠ outf'.written) :
    (Twin a b ∧ ∃ m m', o.outf.written = outf.written ++ m ∧ o'.outf.written = outf'.written ++ m' ∧ (m <+: m' ∨ m' <+: m)) ∨ TwoKeys a b inf.data := by
  obtain ⟨⟨n, w1⟩, p1, -⟩ := C09_written g hin hl h
  obtain ⟨⟨n', w2⟩, p2, -⟩ := C09_written g' (hsame ▸ hin) hl' h'
  rw [hsame] at w2 p2
  refine (commits (p1 hw).2 (p2 hw').2).imp (fun ht => ⟨ht, _, _, w1, w2, ?_⟩) id
  have e : keyOf b inf.data = keyOf a inf.data := (inpKey_twin ht (D := inf.data)).symm
  show (plaintext (keyOf a inf.data) inf.data).take n <+: (plaintext (keyOf b inf.data) inf.data).take n' ∨ _
  rw [e]
  rcases Nat.le_total n n' with hle | hle
  · exact .inl (by rw [← Nat.min_eq_left hle, ← List.take_take]; exact List.take_prefix _ _)
  · refine .inr ?_
    show (plaintext (keyOf b inf.data) inf.data).take n' <+: _
    rw [e, ← Nat.min_eq_left hle, ← List.take_take]
    exact List.take_prefix _ _

/-- **C87.**  So passphrases of at most 64 bytes without NUL, both of which open a container, are the same passphrase, or a collision of SHA-256 has been found. -/
theorem C87_text {sys sys' : EncSys} (g : sys.Good) (g' : sys'.Good) {D outbuf outbuf' a b : Bytes} {outlen outlen' : Nat} (hD : D.length < 2 ^ 64) (hout : D.length ≤ outbuf.length)
    (hout' : D.length ≤ outbuf'.length) {P P' : EncParams} {verbose force verbose' force' : Bool} {o o' : BufOut}
    (h : scryptdec_buf sys D outbuf outlen a P verbose force = .ok o) (h' : scryptdec_buf sys' D outbuf' outlen' b P' verbose' force' = .ok o')
    (hok : o.rc = .OK) (hok' : o'.rc = .OK) (ha : a.length ≤ 64) (hb : b.length ≤ 64) (na : 0 ∉ a) (nb : 0 ∉ b) : a = b ∨ TwoKeys a b D := by
  have nz : ∀ x : Bytes, 0 ∉ x → x.getLast? ≠ some 0 := fun x hx e => hx (List.mem_of_getLast? e)
  refine (C87_buf g g' hD hout hout' h h' hok hok').imp (fun ht => ?_) id
  exact (C64_distinct ha hb (nz a na) (nz b nb)).1 ht.1

/-- Non-vacuity for C87_buf: the container of three bytes under 65 letters `a` is accepted with them and with the 32 bytes of their digest. -/
example (sha : ShaHw) (hw : AesHw) : ∃ (D : Bytes) (o o' : BufOut), D.length ≤ 131 ∧
    scryptdec_buf (exEnc sha hw exSalt) D (List.replicate 131 9) 77 exLong exP0 false true = .ok o ∧ o.rc = .OK ∧
    scryptdec_buf (exEnc sha hw exSalt) D (List.replicate 131 9) 77 (sha256 exLong) exP0 false true = .ok o' ∧ o'.rc = .OK ∧
    o.out.take o.outlen = [1, 2, 3] ∧ exLong ≠ sha256 exLong := by
  have g := exEnc_good sha hw exSalt_length
  obtain ⟨e, h, hok, hP⟩ := exEnc_buf sha hw exSalt_length [1, 2, 3] (List.replicate 131 0) exLong (by decide)
    (by rw [List.length_replicate]; decide) false false
  have dec : ∀ b, Twin exLong b → ∃ o, scryptdec_buf (exEnc sha hw exSalt) (e.out.take 131) (List.replicate 131 9) 77 b exP0 false true = .ok o ∧ o.rc = .OK ∧
      o.outlen = 3 ∧ o.out.take o.outlen = [1, 2, 3] := fun b hb =>
    C64_recover (outlen := 77) (outbuf2 := List.replicate 131 9) (P2 := exP0) (verbose2 := false) (force2 := true) g g
      (exEnc_ready sha hw exSalt) hb (by decide) (by rw [List.length_replicate]; decide) h hok (by rw [List.length_replicate]; decide) (by decide)
      ⟨by simp, by simp⟩ (.inl rfl) (by rw [hP]; exact exEnc_kdf sha hw exSalt) (exEnc_aes sha hw exSalt)
  obtain ⟨o, h1, r1, n1, t1⟩ := dec exLong (.refl _)
  obtain ⟨o', h2, r2, -, -⟩ := dec _ exLong_twin
  refine ⟨e.out.take 131, o, o', List.length_take_le _ _, h1, r1, h2, r2, t1, fun hx => ?_⟩
  have := congrArg List.length hx
  rw [sha256_length, exLong, List.length_replicate] at this
  omega

/-- Non-vacuity for C87_file: both passphrases bring the three bytes out of the stream. -/
example (sha : ShaHw) (hw : AesHw) : ∃ (inf : InFile) (o o' : FileOut), inf.data.length < 2 ^ 64 ∧
    scryptdec_file (exEnc sha hw exSalt) inf ⟨[8], some 3⟩ exLong exP0 true false = .ok o ∧ o.outf.written = [8, 1, 2, 3] ∧
    scryptdec_file (exEnc sha hw exSalt) inf ⟨[8], some 3⟩ (sha256 exLong) exP0 true false = .ok o' ∧ o'.outf.written = [8, 1, 2, 3] := by
  have g := exEnc_good sha hw exSalt_length
  obtain ⟨e, h, hok, hP⟩ := exEnc_file sha hw exSalt_length ⟨[[1], [], [2, 3]], false⟩ ⟨[], some 131⟩ exLong (by decide) rfl
    (by intro k hk; cases hk; decide) true false
  obtain ⟨o, h1, -, t1, -⟩ := C02_roundtrip (inf2 := ⟨[e.outf.written.take 5, e.outf.written.drop 5], false⟩) (outf2 := ⟨[8], some 3⟩) (P2 := exP0)
    (verbose2 := true) (force2 := false) g g (exEnc_ready sha hw exSalt)
    (by decide) h hok (by simp [InFile.data]) rfl (by intro k hk; cases hk; decide) (by decide)
    (exLimits _ _ _ _ rfl _ _) (by rw [hP]; exact exPass _ _ _ _ rfl rfl rfl _) (by rw [hP]; exact exEnc_kdf _ _ _) (exEnc_aes _ _ _) rfl
  have hlen : e.outf.written.length = 131 := by
    obtain ⟨salt, l, -, hs, -, -, -, -, -, -, -, hw⟩ := encFile_inv g (by decide) h hok
    rw [hw, List.nil_append, container_length _ _ _ _ _ _ hs]
    rfl
  obtain ⟨-, ⟨o', h2⟩, -⟩ := C51_dec g (exEnc_ready sha hw exSalt) [] [] (sha256 exLong) 0 (by decide) (by decide)
    ⟨[e.outf.written.take 5, e.outf.written.drop 5], false⟩ (by simp [InFile.data, hlen]) ⟨[8], some 3⟩ (P := exP0) (verbose := true) (force := false) (by decide)
    (exLimits _ _ _ _ rfl _ _)
  obtain ⟨-, e2, -⟩ := C64_dec_file g (by simp [InFile.data, hlen]) exLong_twin h1 h2
  exact ⟨_, o, o', by simp [InFile.data, hlen], h1, t1, h2, e2 ▸ t1⟩

/-- Non-vacuity for C87_text: the passphrase `ab` opens its container. -/
example (sha : ShaHw) (hw : AesHw) : ∃ (D : Bytes) (o : BufOut), D.length ≤ 131 ∧
    scryptdec_buf (exEnc sha hw exSalt) D (List.replicate 131 9) 77 [0x61, 0x62] exP0 false true = .ok o ∧ o.rc = .OK := by
  have g := exEnc_good sha hw exSalt_length
  obtain ⟨e, h, hok, hP⟩ := exEnc_buf sha hw exSalt_length [1, 2, 3] (List.replicate 131 0) [0x61, 0x62] (by decide)
    (by rw [List.length_replicate]; decide) false false
  obtain ⟨o, h1, r1, -⟩ := C64_recover (outlen := 77) (outbuf2 := List.replicate 131 9) (P2 := exP0) (verbose2 := false) (force2 := true) g g
    (exEnc_ready sha hw exSalt) (.refl _) (by decide) (by rw [List.length_replicate]; decide) h hok (by rw [List.length_replicate]; decide) (by decide)
    ⟨by simp, by simp⟩ (.inl rfl) (by rw [hP]; exact exEnc_kdf sha hw exSalt) (exEnc_aes sha hw exSalt)
  exact ⟨_, o, List.length_take_le _ _, h1, r1⟩

/-- Non-vacuity for C87_kdf: the second block of the key derived from 65 letters `a` and of the one derived from their digest are the same. -/
example (hw : ShaHw) (f : SmixImpl) : ∃ o o',
    crypto_scrypt (2 ^ 64 - 1) true okEnv okEnv okEnv (shaTransform hw) zeroHctx [] smixImpl (some f) exLong testSalt 16 8 1 (List.replicate 66 7) 64 = .ok (o, some f) ∧
    crypto_scrypt (2 ^ 64 - 1) true okEnv okEnv okEnv (shaTransform hw) zeroHctx [] smixImpl (some f) (sha256 exLong) testSalt 16 8 1 (List.replicate 66 7) 64 =
      .ok (o', some f) ∧ o.rc = 0 ∧ o'.rc = 0 ∧ (o.buf.drop (32 * 1)).take 32 = (o'.buf.drop (32 * 1)).take 32 := by
  have d : ∀ P, ∃ o, crypto_scrypt (2 ^ 64 - 1) true okEnv okEnv okEnv (shaTransform hw) zeroHctx [] smixImpl (some f) P testSalt 16 8 1 (List.replicate 66 7) 64 =
      .ok (o, some f) ∧ o.rc = 0 := fun P => by
    obtain ⟨o, h, h0, -⟩ := C21_returns_zero hw (2 ^ 64 - 1) (Or.inr rfl) true okEnv okEnv okEnv okEnv_sized zeroHctx zeroHctx_ok [] f
      P testSalt 16 8 1 (List.replicate 66 7) 64 (by rw [List.length_replicate]; omega) (by norm_num)
      (testParams _ (Or.inr rfl)) (Option.some_ne_none _) (Option.some_ne_none _) (Option.some_ne_none _) rfl
    exact ⟨o, h, h0⟩
  obtain ⟨o, h, h0⟩ := d exLong
  obtain ⟨o', h', h0'⟩ := d (sha256 exLong)
  refine ⟨o, o', h, h', h0, h0', ?_⟩
  have e : ∀ P (o : ScOut), crypto_scrypt (2 ^ 64 - 1) true okEnv okEnv okEnv (shaTransform hw) zeroHctx [] smixImpl (some f) P testSalt 16 8 1 (List.replicate 66 7) 64 =
      .ok (o, some f) → o.rc = 0 → o.buf = scryptCode P testSalt 16 8 1 64 ++ [7, 7] := fun P o h h0 =>
    C21_exact hw (2 ^ 64 - 1) (Or.inr rfl) true okEnv okEnv okEnv okEnv_sized zeroHctx zeroHctx_ok [] (some f) P testSalt 16 8 1 (List.replicate 66 7) 64
      (by rw [List.length_replicate]; omega) (by norm_num) o _ h h0
  rw [e _ o h h0, e _ o' h' h0', scryptCode_twin exLong_twin]

end Scrypt.Props
