import Verif.Proofs.Enc
import Verif.Props.Params
/-
Key setup: key derivation, scryptenc_setup, scryptdec_setup, and opening the cipher.
-/
namespace Scrypt
open Spec

/-! ### Key derivation -/

/-- Key derivation with these parameters can succeed: crypto_scrypt accepts them and the memory is there. -/
def KdfOk (sys : EncSys) (N r p : Nat) : Prop :=
  ScParams sys.par.szMax N r p 64 ∧ sys.kdf.allocB (128 * r * p) ≠ none ∧ sys.kdf.allocXY (256 * r + 64) ≠ none ∧
    sys.kdf.allocV (128 * r * N) ≠ none ∧ sys.kdf.munmapOk = true

/-- If the scrypt self-test is still to come, its memory can be allocated. -/
def SelfTestReady (sys : EncSys) : Prop :=
  sys.smix = none → sys.kdf1.Sized ∧ sys.kdf2.Sized ∧ sys.junkTest.length = 64 ∧
    (sys.kdf1.allocB 1024 ≠ none ∧ sys.kdf1.allocXY 2112 ≠ none ∧ sys.kdf1.allocV 16384 ≠ none ∧ sys.kdf1.munmapOk = true) ∧
    (sys.kdf2.allocB 1024 ≠ none ∧ sys.kdf2.allocXY 2112 ≠ none ∧ sys.kdf2.allocV 16384 ≠ none ∧ sys.kdf2.munmapOk = true)

theorem one_shl_toNat (l : Nat) (h : l ≤ 63) : ((1 : W64) <<< l).toNat = 2 ^ l := by
  have : (2 : Nat) ^ l < 2 ^ 64 := Nat.pow_lt_pow_right (by omega) (by omega)
  rw [BitVec.toNat_shiftLeft, show (1 : W64).toNat = 1 from rfl, Nat.shiftLeft_eq, one_mul, Nat.mod_eq_of_lt this]

theorem scryptCode_length (P S : Bytes) (N r p d : Nat) : (scryptCode P S N r p d).length = d := pbkdf2_length _ _ _ _

theorem isSizeMax_64 {m : Nat} (h : IsSizeMax m) : 64 ≤ m := by rcases h with h | h <;> rw [h] <;> norm_num

theorem deriveKey_spec {sys : EncSys} (g : sys.Good) {passwd salt : Bytes} {logN : Int} {l : Nat} (hl : logN = l) (h63 : l ≤ 63)
    {r p : W32} {o : ScOut} {st : Option SmixImpl} (h : deriveKey sys passwd salt logN r p = .ok (o, st)) :
    (o.rc = 0 ↔ KdfOk sys (2 ^ l) r.toNat p.toNat) ∧
    (o.rc = 0 → o.buf = scryptCode passwd salt (2 ^ l) r.toNat p.toNat 64) := by
  subst hl
  unfold deriveKey at h
  obtain ⟨f, -, -, hi⟩ := Props.call_inv h
  have hN := one_shl_toNat l h63
  have hsz := isSizeMax_64 g.sz
  have hd0 : sys.dk0.drop 64 = [] := List.drop_eq_nil_of_le (by rw [g.dk0])
  rw [Int.toNat_natCast] at hi
  rcases internal_total sys.par.szMax g.sz sys.kdf g.kdf sys.tf g.tf sys.junkHmac g.junkHmac (smixImpl f) (goodSmix f)
      passwd salt ((1 : W64) <<< l) r p sys.dk0 64 (by rw [g.dk0]) hsz with ⟨hn, e, -, he⟩ | ⟨hy, ⟨ha, he⟩ | ⟨ha, he⟩⟩
  · rw [hi] at he
    cases he
    rw [hN] at hn
    exact ⟨⟨fun h => absurd h (by simp), fun h => absurd h.1 hn⟩, fun h => absurd h (by simp)⟩
  · rw [hi] at he
    cases he
    rw [hN] at ha
    refine ⟨⟨fun h => absurd h (by simp), fun h => ?_⟩, fun h => absurd h (by simp)⟩
    rcases ha with h' | h' | h'
    · exact absurd h' h.2.1
    · exact absurd h' h.2.2.1
    · exact absurd h' h.2.2.2.1
  · rw [hi] at he
    rw [hN] at ha hy he
    cases hm : sys.kdf.munmapOk with
    | true =>
      rw [hm, hd0, List.append_nil] at he
      cases he
      exact ⟨⟨fun _ => ⟨hy, ha.1, ha.2.1, ha.2.2, hm⟩, fun _ => rfl⟩, fun _ => rfl⟩
    | false =>
      rw [hm] at he
      cases he
      refine ⟨⟨fun h => absurd h (by simp), fun h => ?_⟩, fun h => absurd h (by simp)⟩
      exact absurd (hm.symm.trans h.2.2.2.2) (by simp)

theorem deriveKey_total {sys : EncSys} (g : sys.Good) (ready : SelfTestReady sys) (passwd salt : Bytes) (logN : Int) (r p : W32) :
    ∃ o st, deriveKey sys passwd salt logN r p = .ok (o, st) := by
  have hsz := isSizeMax_64 g.sz
  have key : ∀ f : SmixImpl, ∃ o, crypto_scrypt_internal sys.par.szMax sys.kdf sys.tf sys.junkHmac passwd salt ((1 : W64) <<< logN.toNat) r p sys.dk0 64 (smixImpl f) = .ok o := by
    intro f
    rcases internal_total sys.par.szMax g.sz sys.kdf g.kdf sys.tf g.tf sys.junkHmac g.junkHmac (smixImpl f) (goodSmix f)
      passwd salt ((1 : W64) <<< logN.toNat) r p sys.dk0 64 (by rw [g.dk0]) hsz with ⟨-, e, -, he⟩ | ⟨-, ⟨-, he⟩ | ⟨-, he⟩⟩
    · exact ⟨_, he⟩
    · exact ⟨_, he⟩
    · exact ⟨_, he⟩
  unfold deriveKey crypto_scrypt
  cases hs : sys.smix with
  | some f =>
    obtain ⟨o, ho⟩ := key f
    refine ⟨o, some f, ?_⟩
    simp only [Res.pure_eq, Res.bind_ok]
    rw [ho]
    rfl
  | none =>
    obtain ⟨s1, s2, hj, a1, a2⟩ := ready hs
    have := Props.C43_never_aborts sys.sha sys.par.szMax g.sz sys.sse2Ok sys.kdf1 sys.kdf2 s1 s2 a1 a2 sys.junkHmac g.junkHmac sys.junkTest hj
    obtain ⟨o, ho⟩ := key (if sys.sse2Ok then .sse2 else .generic)
    refine ⟨o, some (if sys.sse2Ok then .sse2 else .generic), ?_⟩
    rw [show sys.tf = shaTransform sys.sha from rfl] at *
    simp only []
    rw [this]
    simp only [Res.bind_ok]
    rw [ho]
    rfl

/-! ### scryptenc_setup -/

/-- The parameters a successful setup ends up with. -/
theorem explicitCode_ok (c : Code) : explicitCode c = .OK ↔ c = .OK ∨ c = .ETOOBIG ∨ c = .ETOOSLOW ∨ c = .EBIGSLOW := by
  cases c <;> simp [explicitCode]

/-- checkparams accepts or merely complains about resources only if the parameters are valid. -/
theorem checkparams_good {sys : ParamSys} {maxmem : Nat} {f maxtime : F64} {logN : Int} {r p : W32} {verbose force : Bool} {c : Code} {t : CStr}
    (h : checkparams sys maxmem f maxtime logN r p verbose force = .ok (c, t)) (hc : c ≠ .EINVAL) : GoodParams logN r.toNat p.toNat := by
  by_contra hg
  rw [Props.C13_invalid sys maxmem f maxtime logN r p verbose force hg] at h
  cases h
  exact hc rfl

theorem setupParams_good {sys : EncSys} (g : sys.Good) {P P' : EncParams} {verbose force : Bool} {msgs : List Msg}
    (h : setupParams sys P verbose force = .ok (.OK, P', msgs)) :
    GoodParams P'.logN P'.r.toNat P'.p.toNat ∧ P'.maxmem = P.maxmem ∧ P'.maxmemfrac = P.maxmemfrac ∧ P'.maxtime = P.maxtime ∧
      (P.logN ≠ 0 → P' = P) := by
  unfold setupParams at h
  by_cases h0 : P.logN ≠ 0
  · rw [if_pos h0, Res.bind_eq_ok] at h
    obtain ⟨⟨c, t⟩, hc, h⟩ := h
    simp only [Res.ok.injEq, Prod.mk.injEq] at h
    obtain ⟨h1, h2, -⟩ := h
    subst h2
    have := (explicitCode_ok c).1 h1
    refine ⟨checkparams_good hc ?_, rfl, rfl, rfl, fun _ => rfl⟩
    rintro rfl
    simp at this
  · rw [if_neg h0, Res.bind_eq_ok] at h
    obtain ⟨o, ho, h⟩ := h
    cases hv : o.val with
    | none =>
      rw [hv] at h
      simp only [Res.ok.injEq, Prod.mk.injEq] at h
      obtain ⟨m, l, p, -, -, -, -, hval⟩ := Props.pickparams_ok ho h.1
      rw [hv] at hval
      cases hval
    | some v =>
      obtain ⟨l, r, p⟩ := v
      rw [hv] at h
      simp only [Res.ok.injEq, Prod.mk.injEq] at h
      obtain ⟨h1, h2, -⟩ := h
      obtain ⟨l', p', m, hval, -, hg, -⟩ := Props.C11_within_limits sys.par g.sz _ _ _ _ ho h1
      rw [hv] at hval
      cases hval
      subst h2
      have hp : p < 2 ^ 32 := by have := hg.2.2.2.2; omega
      refine ⟨?_, rfl, rfl, rfl, fun h => absurd h h0⟩
      show GoodParams (l : Int) (BitVec.ofNat 32 8).toNat (BitVec.ofNat 32 p).toNat
      rw [BitVec.toNat_ofNat, BitVec.toNat_ofNat, Nat.mod_eq_of_lt hp]
      exact hg

/-- Everything about a setup that succeeded. -/
theorem encSetup_inv {sys : EncSys} (g : sys.Good) {passwd : Bytes} {P : EncParams} {verbose force : Bool} {s : SetupOut}
    (h : scryptenc_setup sys passwd P verbose force = .ok s) (h0 : s.rc = .OK) :
    ∃ (salt : Bytes) (l : Nat), sys.salt = some salt ∧ s.P.logN = l ∧ GoodParams l s.P.r.toNat s.P.p.toNat ∧
      setupParams sys P verbose force = .ok (.OK, s.P, s.err) ∧
      s.dk = scryptCode passwd salt (2 ^ l) s.P.r.toNat s.P.p.toNat 64 ∧
      KdfOk sys (2 ^ l) s.P.r.toNat s.P.p.toNat ∧
      s.header = header96 s.dk l s.P.r.toNat s.P.p.toNat salt := by
  unfold scryptenc_setup at h
  rw [Res.bind_eq_ok] at h
  obtain ⟨⟨rc, P', msgs⟩, hp, h⟩ := h
  simp only [] at h
  by_cases hrc : rc = .OK
  · subst hrc
    rw [if_neg (by simp), Res.bind_eq_ok] at h
    obtain ⟨-, -, h⟩ := h
    obtain ⟨hg, -⟩ := setupParams_good g hp
    cases hs : sys.salt with
    | none => rw [hs] at h; cases h; cases h0
    | some salt =>
      rw [hs] at h
      simp only [] at h
      rw [Res.bind_eq_ok] at h
      obtain ⟨⟨o, st⟩, hk, h⟩ := h
      simp only [] at h
      obtain ⟨l, hl⟩ : ∃ l : Nat, P'.logN = l := ⟨P'.logN.toNat, by have := hg.1; omega⟩
      have h63 : l ≤ 63 := by have := hg.2.1; omega
      obtain ⟨k1, k2⟩ := deriveKey_spec g hl h63 hk
      by_cases ho : o.rc = 0
      · rw [if_neg (by simp [ho])] at h
        have hb := k2 ho
        have hlen : o.buf.length = 64 := by rw [hb]; exact scryptCode_length _ _ _ _ _ _
        rw [writeHeader_ok sys g P' l hl salt o.buf (g.salt _ hs) hlen, Res.bind_ok] at h
        cases h
        exact ⟨salt, l, rfl, hl, hl ▸ hg, hp, hb, k1.1 ho, rfl⟩
      · rw [if_pos ho] at h
        cases h
        cases h0
  · rw [if_pos hrc] at h
    cases h
    exact absurd h0 hrc

/-! ### scryptdec_setup -/

/-- The parameters read from a header. -/
def hdrParams (P : EncParams) (h : Bytes) : EncParams :=
  { P with logN := hdrLogN h, r := BitVec.ofNat 32 (hdrR h), p := BitVec.ofNat 32 (hdrP h) }

theorem field_length (h : Bytes) (a b : Nat) (hl : a + b ≤ h.length) : (field h a b).length = b := by
  simp [field]; omega

theorem hdrR_toNat (h : Bytes) : (BitVec.ofNat 32 (hdrR h)).toNat = hdrR h := by
  rw [BitVec.toNat_ofNat]
  refine Nat.mod_eq_of_lt (lt_of_lt_of_le (beVal_lt _) ?_)
  have : (field h 8 4).length ≤ 4 := by simp [field]
  exact Nat.pow_le_pow_right (by norm_num) this

theorem hdrP_toNat (h : Bytes) : (BitVec.ofNat 32 (hdrP h)).toNat = hdrP h := by
  rw [BitVec.toNat_ofNat]
  refine Nat.mod_eq_of_lt (lt_of_lt_of_le (beVal_lt _) ?_)
  have : (field h 12 4).length ≤ 4 := by simp [field]
  exact Nat.pow_le_pow_right (by norm_num) this

theorem be32dec_field (h : Bytes) (off : Nat) (hl : off + 4 ≤ h.length) :
    be32dec (h.drop off) = .ok (BitVec.ofNat 32 (beVal (field h off 4))) := by
  unfold field
  have : 4 ≤ (h.drop off).length := by simp; omega
  match h.drop off, this with
  | a :: b :: c :: d :: t, _ => exact be32dec_eq a b c d t

theorem rd_logN (h : Bytes) (hl : 8 ≤ h.length) : ∃ b : Byte, rd h 7 = .ok b ∧ b.toNat = hdrLogN h := by
  refine ⟨h[7], rd_ok (by omega), ?_⟩
  unfold hdrLogN field
  rw [List.drop_eq_getElem_cons (show 7 < h.length by omega), List.take_succ_cons, List.take_zero]
  simp only [beVal, List.foldl_cons, List.foldl_nil]
  omega

/-- Checking the signature in a header. -/
theorem checkSig_ok {sys : EncSys} (g : sys.Good) (h : Bytes) (hl : 96 ≤ h.length) (P : EncParams) (err : List Msg) (o : ScOut)
    (st : Option SmixImpl) (hd : o.buf.length = 64) :
    checkSig sys h P err o st = .ok ⟨if PasswordOk o.buf h then .OK else .EPASS, h, o.buf, P, err, st⟩ := by
  unfold checkSig
  rw [headerSig_ok sys g h _ (by omega) (by omega), Res.bind_ok, rdSlice_ok (by omega), Res.bind_ok]
  obtain ⟨v, e, hv⟩ := verify_bytes_ok (hmac (keyHmac o.buf) (h.take 64)) ((h.drop 64).take 32) 32 (by simp) (by simp; omega)
  rw [List.take_of_length_le (by simp), List.take_take, Nat.min_self] at hv
  rw [e, Res.bind_ok]
  have hP : PasswordOk o.buf h ↔ v = 0 := by
    rw [hv, PasswordOk, field, field, List.drop_zero]
    exact eq_comm
  by_cases h0 : v = 0
  · rw [if_neg (by simp [h0]), if_pos (hP.2 h0)]
  · rw [if_pos h0, if_neg (fun h' => h0 (hP.1 h'))]

/-- scryptdec_setup in terms of the fields of the header. -/
theorem decSetup_eq {sys : EncSys} (g : sys.Good) (h passwd : Bytes) (hl : 96 ≤ h.length) (P : EncParams) (verbose force : Bool) :
    scryptdec_setup sys h passwd P verbose force =
      if ¬ ChecksumOk h then .ok ⟨.EINVAL, h, sys.dk0, hdrParams P h, [], sys.smix⟩
      else checkparams sys.par P.maxmem P.maxmemfrac P.maxtime (hdrLogN h) (BitVec.ofNat 32 (hdrR h)) (BitVec.ofNat 32 (hdrP h)) verbose force >>= fun c =>
        if c.1 ≠ .OK then .ok ⟨c.1, h, sys.dk0, hdrParams P h, msgOf c.2, sys.smix⟩
        else deriveKey sys passwd (hdrSalt h) (hdrLogN h) (BitVec.ofNat 32 (hdrR h)) (BitVec.ofNat 32 (hdrP h)) >>= fun k =>
          if k.1.rc ≠ 0 then .ok ⟨.EKEY, h, k.1.buf, hdrParams P h, msgOf c.2, k.2⟩
          else .ok ⟨if PasswordOk k.1.buf h then .OK else .EPASS, h, k.1.buf, hdrParams P h, msgOf c.2, k.2⟩ := by
  obtain ⟨b, eb, hb⟩ := rd_logN h (by omega)
  obtain ⟨v, e, hv⟩ := verify_bytes_ok ((h.drop 48).take 16) (sha256 (h.take 48)) 16 (by simp; omega) (by simp)
  rw [List.take_take, Nat.min_self] at hv
  have hC : ChecksumOk h ↔ v = 0 := by rw [hv]; exact Iff.rfl
  unfold scryptdec_setup
  rw [eb, Res.bind_ok, be32dec_field h 8 (by omega), Res.bind_ok, be32dec_field h 12 (by omega), Res.bind_ok,
    rdSlice_ok (by omega), Res.bind_ok, headerSum_ok sys g h (by omega), Res.bind_ok, rdSlice_ok (by omega), Res.bind_ok, e, Res.bind_ok]
  rw [hb]
  by_cases h0 : v = 0
  · rw [if_neg (by simp [h0]), if_neg (by simp [hC.2 h0])]
    show (checkparams _ _ _ _ (hdrLogN h) (BitVec.ofNat 32 (hdrR h)) (BitVec.ofNat 32 (hdrP h)) _ _ >>= _) = _
    cases hc : checkparams sys.par P.maxmem P.maxmemfrac P.maxtime (hdrLogN h) (BitVec.ofNat 32 (hdrR h)) (BitVec.ofNat 32 (hdrP h)) verbose force with
    | ub => rfl
    | abort => rfl
    | ok c =>
      obtain ⟨rc, t⟩ := c
      rw [Res.bind_ok, Res.bind_ok]
      simp only []
      by_cases hrc : rc = .OK
      · subst hrc
        rw [if_neg (by simp), if_neg (by simp)]
        show (deriveKey sys passwd (hdrSalt h) (hdrLogN h) (BitVec.ofNat 32 (hdrR h)) (BitVec.ofNat 32 (hdrP h)) >>= _) = _
        cases hk : deriveKey sys passwd (hdrSalt h) (hdrLogN h) (BitVec.ofNat 32 (hdrR h)) (BitVec.ofNat 32 (hdrP h)) with
        | ub => rfl
        | abort => rfl
        | ok k =>
          obtain ⟨o, st⟩ := k
          rw [Res.bind_ok, Res.bind_ok]
          simp only []
          by_cases ho : o.rc = 0
          · rw [if_neg (by simp [ho]), if_neg (by simp [ho])]
            have hg := checkparams_good hc (by simp)
            have hlen : o.buf.length = 64 := by
              rw [(deriveKey_spec g rfl (by have := hg.2.1; omega) hk).2 ho]; exact scryptCode_length _ _ _ _ _ _
            exact checkSig_ok g h hl _ _ o st hlen
          · rw [if_pos ho, if_pos ho]
            rfl
      · rw [if_pos hrc, if_pos hrc]
        rfl
  · rw [if_pos h0, if_pos (fun hc => h0 (hC.1 hc))]
    rfl

/-! ### Opening the cipher -/

/-- The stream has just been initialised for AES-256-CTR under the first half of `dk`. -/
structure CtrReady (sys : EncSys) (dk : Bytes) (s : CtrStream) (pos : Nat) : Prop where
  key : KeyFor sys.aesHw s.key
  fn : BlockFn sys.aesHw sys.ossl s.key (Spec.aes (keyEnc dk))
  repr : CtrRepr (Spec.aes (keyEnc dk)) 0 pos s

/-- The memory for the expanded key can be allocated (and OpenSSL's key setup works). -/
def aesAvail (sys : EncSys) : Bool :=
  match sys.aesHw with
  | .software => sys.aes.osslOk
  | _ => sys.aes.mem.isSome

/-- The code for the failures that can occur while the cipher is set up. -/
def aesCode (sys : EncSys) : Code :=
  if !aesAvail sys then .EOPENSSL else if sys.ctr.isNone then .ENOMEM else .OK

theorem key_expand_avail {sys : EncSys} (g : sys.Good) (dk : Bytes) (hd : dk.length = 64) :
    (aesAvail sys = false ∧ crypto_aes_key_expand sys.aesHw sys.aes dk 32 = .ok none) ∨
    (aesAvail sys = true ∧ ∃ a, crypto_aes_key_expand sys.aesHw sys.aes dk 32 = .ok (some a) ∧ GoodKey sys.aesHw (keyEnc dk) a) := by
  have hm := fun rk h => Nat.le_of_eq (g.aesMem rk h).symm
  unfold aesAvail crypto_aes_key_expand
  cases hw : sys.aesHw with
  | software =>
    cases ho : sys.aes.osslOk with
    | false => left; exact ⟨rfl, by simp⟩
    | true => right; exact ⟨rfl, .ossl (dk.take 32), by simp [rdSlice_ok (show 0 + 32 ≤ dk.length by omega)], rfl, rfl⟩
  | x86_aesni =>
    cases hrk : sys.aes.mem with
    | none => left; exact ⟨rfl, rfl⟩
    | some rk =>
      right
      obtain ⟨h, e, gk⟩ := expand_aesni_ok dk 32 (.inr rfl) (by omega) rk (hm rk hrk)
      refine ⟨rfl, .aesni h, ?_, rfl, gk⟩
      rw [show (decide (32 = 16) || decide (32 = 32)) = true from rfl]
      simp only [e, cassert_true, Res.bind_ok]; rfl
  | arm_aes =>
    cases hrk : sys.aes.mem with
    | none => left; exact ⟨rfl, rfl⟩
    | some rk =>
      right
      obtain ⟨h, e, gk⟩ := expand_arm_ok dk 32 (.inr rfl) (by omega) rk (hm rk hrk)
      refine ⟨rfl, .arm h, ?_, rfl, gk⟩
      rw [show (decide (32 = 16) || decide (32 = 32)) = true from rfl]
      simp only [e, cassert_true, Res.bind_ok]; rfl

theorem aesOpen_cases {sys : EncSys} (g : sys.Good) (dk : Bytes) (hd : dk.length = 64) :
    (aesOpen sys dk = .ok ((.EOPENSSL, none), []) ∧ aesCode sys = .EOPENSSL) ∨
    (aesOpen sys dk = .ok ((.ENOMEM, none), [.alloc .aesKey, .zero .aesKey, .free .aesKey]) ∧ aesCode sys = .ENOMEM) ∨
    (∃ s, aesOpen sys dk = .ok ((.OK, some s), [.alloc .aesKey, .alloc .aesCtr]) ∧ aesCode sys = .OK ∧ CtrReady sys dk s 0) := by
  unfold aesOpen aesCode
  rcases key_expand_avail g dk hd with ⟨hav, h⟩ | ⟨hav, a, h, gk⟩
  · left
    exact ⟨by rw [h]; rfl, by simp [hav]⟩
  · right
    rw [h, Res.bind_ok]
    unfold crypto_aesctr_init
    cases hc : sys.ctr with
    | none => left; exact ⟨rfl, by simp [hav]⟩
    | some m =>
      right
      obtain ⟨s, es, ks, rs⟩ := init2_ok (Spec.aes (keyEnc dk)) m (g.ctr m hc) a 0
      refine ⟨s, ?_, by simp [hav], ⟨by rw [ks]; exact gk.keyFor, ?_, rs⟩⟩
      · simp only [es, Res.bind_ok]
        rfl
      · rw [ks]
        intro b hb
        have hk : (keyEnc dk).length = 16 ∨ (keyEnc dk).length = 32 := by right; simp [keyEnc]; omega
        exact ⟨encrypt_block_ok sys.aesHw sys.ossl g.ossl (keyEnc dk) hk a gk b hb, aes_length _ _ hk⟩

theorem CtrReady.stream {sys : EncSys} {dk : Bytes} {s : CtrStream} {pos : Nat} (h : CtrReady sys dk s pos) (junk x : Bytes) (n : Nat)
    (hn : n = x.length) (hp : pos + x.length < 2 ^ 64) :
    ∃ s', crypto_aesctr_stream sys.aesHw sys.ossl junk s x n = .ok (s', Spec.ctr (Spec.aes (keyEnc dk)) 0 pos x) ∧
      CtrReady sys dk s' (pos + x.length) := by
  subst hn
  obtain ⟨s', e, hk, hr⟩ := crypto_aesctr_stream_ok sys.aesHw sys.ossl h.key h.fn junk x x.length h.repr hp le_rfl
  rw [List.take_length] at e
  exact ⟨s', e, by rw [hk]; exact h.key, by rw [hk]; exact h.fn, hr⟩

end Scrypt
