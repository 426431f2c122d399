import Verif.Props.Main
import Verif.Props.EncAuth
import Verif.Props.EncEx
/-
C97: a run of the decryption with one wrong passphrase is a run with any other wrong passphrase.
-/
namespace Scrypt.Props
open Scrypt Spec

theorem bind_same {α β : Type} {x : Res α} {f g : α → Res β} (h : ∀ a, f a = g a) : (x >>= f) = (x >>= g) := by
  rw [show f = g from funext h]

theorem ub_same {α β : Type} (f g : α → Res β) : ((Res.ub : Res α) >>= f) = ((Res.ub : Res α) >>= g) := by
  rw [show ((Res.ub : Res α) >>= f) = Res.ub from rfl, show ((Res.ub : Res α) >>= g) = Res.ub from rfl]

theorem abort_same {α β : Type} (f g : α → Res β) : ((Res.abort : Res α) >>= f) = ((Res.abort : Res α) >>= g) := by
  rw [show ((Res.abort : Res α) >>= f) = Res.abort from rfl, show ((Res.abort : Res α) >>= g) = Res.abort from rfl]

theorem ub_not_ok {α β : Type} (f : α → Res β) : ∀ x, ((Res.ub : Res α) >>= f) ≠ .ok x := by
  rw [show ((Res.ub : Res α) >>= f) = Res.ub from rfl]
  exact fun x h => (by cases h)

theorem abort_not_ok {α β : Type} (f : α → Res β) : ∀ x, ((Res.abort : Res α) >>= f) ≠ .ok x := by
  rw [show ((Res.abort : Res α) >>= f) = Res.abort from rfl]
  exact fun x h => (by cases h)

/-- A call whose core comes out the same for two passphrases comes out the same. -/
theorem call_same {szMax : Nat} {sse2Ok : Bool} {e1 e2 env : ScEnv} {tf : Transform} {junk : HMAC_SHA256_CTX} {hbuf : Bytes}
    {impl : SmixImpl → SmixFn} {st : Option SmixImpl} {P S P' S' : Bytes} {N : W64} {r p : W32} {buf : Bytes} {buflen : Nat}
    (H : ∀ f, ∃ a b, crypto_scrypt_internal szMax env tf junk P S N r p buf buflen (impl f) = .ok a ∧
      crypto_scrypt_internal szMax env tf junk P' S' N r p buf buflen (impl f) = .ok b ∧ a.rc = b.rc) :
    (∃ x y, crypto_scrypt szMax sse2Ok e1 e2 env tf junk hbuf impl st P S N r p buf buflen = .ok x ∧
      crypto_scrypt szMax sse2Ok e1 e2 env tf junk hbuf impl st P' S' N r p buf buflen = .ok y ∧ x.1.rc = y.1.rc ∧ x.2 = y.2) ∨
    ((∀ x, crypto_scrypt szMax sse2Ok e1 e2 env tf junk hbuf impl st P S N r p buf buflen ≠ .ok x) ∧
      crypto_scrypt szMax sse2Ok e1 e2 env tf junk hbuf impl st P S N r p buf buflen =
        crypto_scrypt szMax sse2Ok e1 e2 env tf junk hbuf impl st P' S' N r p buf buflen) := by
  unfold crypto_scrypt
  cases st with
  | some f =>
    obtain ⟨a, b, ha, hb, hab⟩ := H f
    simp only [Res.pure_eq, Res.bind_ok]
    rw [ha, hb, Res.bind_ok, Res.bind_ok]
    exact .inl ⟨_, _, rfl, rfl, hab, rfl⟩
  | none =>
    simp only
    cases selectsmix szMax sse2Ok e1 e2 tf junk hbuf impl with
    | ub => exact .inr ⟨ub_not_ok _, ub_same _ _⟩
    | abort => exact .inr ⟨abort_not_ok _, abort_same _ _⟩
    | ok f =>
      obtain ⟨a, b, ha, hb, hab⟩ := H f
      rw [Res.bind_ok, Res.bind_ok, ha, hb, Res.bind_ok, Res.bind_ok]
      exact .inl ⟨_, _, rfl, rfl, hab, rfl⟩

/-- The core comes out the same for any two passphrases and salts. -/
theorem internal_same {szMax : Nat} (hsz : IsSizeMax szMax) {env : ScEnv} (he : env.Sized) {tf : Transform} (ht : GoodTf tf)
    {junk : HMAC_SHA256_CTX} (hj : junk.Sized) {smix : SmixFn} (hm : GoodSmix smix) {P S P' S' : Bytes} {N : W64} {r p : W32} {buf : Bytes} {buflen : Nat}
    (hbl : buflen ≤ buf.length) (hbs : buflen ≤ szMax) :
    ∃ a b, crypto_scrypt_internal szMax env tf junk P S N r p buf buflen smix = .ok a ∧
      crypto_scrypt_internal szMax env tf junk P' S' N r p buf buflen smix = .ok b ∧ a.rc = b.rc := by
  have T (w s : Bytes) := internal_total szMax hsz env he tf ht junk hj smix hm w s N r p buf buflen hbl hbs
  rcases T P S with ⟨hn, e, -, he⟩ | ⟨hy, ⟨ha, he⟩ | ⟨ha, he⟩⟩
  · rcases T P' S' with ⟨-, e', -, he'⟩ | ⟨hy', -⟩
    · exact ⟨_, _, he, he', rfl⟩
    · exact absurd hy' hn
  · rcases T P' S' with ⟨hn', -⟩ | ⟨-, ⟨-, he'⟩ | ⟨ha', -⟩⟩
    · exact absurd hy hn'
    · exact ⟨_, _, he, he', rfl⟩
    · rcases ha with ha | ha | ha
      · exact absurd ha ha'.1
      · exact absurd ha ha'.2.1
      · exact absurd ha ha'.2.2
  · rcases T P' S' with ⟨hn', -⟩ | ⟨-, ⟨ha', -⟩ | ⟨-, he'⟩⟩
    · exact absurd hy hn'
    · rcases ha' with ha' | ha' | ha'
      · exact absurd ha' ha.1
      · exact absurd ha' ha.2.1
      · exact absurd ha' ha.2.2
    · refine ⟨_, _, he, he', ?_⟩
      cases env.munmapOk with
      | true => rw [if_pos rfl, if_pos rfl]
      | false => rw [if_neg (by simp), if_neg (by simp)]

/-- The outcome of a key derivation does not depend on the passphrase or the salt. -/
theorem deriveKey_same {sys : EncSys} (g : sys.Good) (p q salt salt' : Bytes) (logN : Int) (r k : W32) :
    (∃ x y, deriveKey sys p salt logN r k = .ok x ∧ deriveKey sys q salt' logN r k = .ok y ∧ x.1.rc = y.1.rc ∧ x.2 = y.2) ∨
    ((∀ x, deriveKey sys p salt logN r k ≠ .ok x) ∧ deriveKey sys p salt logN r k = deriveKey sys q salt' logN r k) := by
  unfold deriveKey
  exact call_same (fun f => internal_same g.sz g.kdf g.tf g.junkHmac (goodSmix f) (by rw [g.dk0]) (isSizeMax_64 g.sz))

/-- Two results of the setup that a caller who gives up cannot tell apart. -/
def SetupAlike (s s' : SetupOut) : Prop := s.rc = s'.rc ∧ s.P = s'.P ∧ s.err = s'.err ∧ s.smix = s'.smix

/-- Two setups on the same 96 bytes, neither of which succeeds, are the same. -/
theorem setup_same {sys : EncSys} (g : sys.Good) {h h' p q : Bytes} (hl : 96 ≤ h.length) (hl' : 96 ≤ h'.length) (h96 : h.take 96 = h'.take 96)
    {P : EncParams} {v f : Bool} (np : ∀ s, scryptdec_setup sys h p P v f = .ok s → s.rc ≠ .OK)
    (nq : ∀ s, scryptdec_setup sys h' q P v f = .ok s → s.rc ≠ .OK) :
    (∃ s s', scryptdec_setup sys h p P v f = .ok s ∧ scryptdec_setup sys h' q P v f = .ok s' ∧ SetupAlike s s') ∨
    ((∀ s, scryptdec_setup sys h p P v f ≠ .ok s) ∧ scryptdec_setup sys h p P v f = scryptdec_setup sys h' q P v f) := by
  rw [decSetup_eq g h p hl] at np ⊢
  rw [decSetup_eq g h' q hl'] at nq ⊢
  have e1 : hdrLogN h' = hdrLogN h := by rw [← hdrLogN_take h', ← h96, hdrLogN_take]
  have e2 : hdrR h' = hdrR h := by rw [← hdrR_take h', ← h96, hdrR_take]
  have e3 : hdrP h' = hdrP h := by rw [← hdrP_take h', ← h96, hdrP_take]
  have e4 : hdrParams P h' = hdrParams P h := by rw [← hdrParams_take P h', ← h96, hdrParams_take]
  have e5 : ChecksumOk h' ↔ ChecksumOk h := by rw [← checksum_take h', ← h96, checksum_take]
  rw [e1, e2, e3, e4] at nq ⊢
  by_cases hC : ChecksumOk h
  case neg =>
    rw [if_pos hC, if_pos (fun x => hC (e5.1 x))]
    exact .inl ⟨_, _, rfl, rfl, rfl, rfl, rfl, rfl⟩
  have nC : ¬ ¬ ChecksumOk h := not_not.2 hC
  have nC' : ¬ ¬ ChecksumOk h' := not_not.2 (e5.2 hC)
  rw [if_neg nC] at np ⊢
  rw [if_neg nC'] at nq ⊢
  cases hc : checkparams sys.par P.maxmem P.maxmemfrac P.maxtime (hdrLogN h) (BitVec.ofNat 32 (hdrR h)) (BitVec.ofNat 32 (hdrP h)) v f with
  | ub => exact .inr ⟨ub_not_ok _, ub_same _ _⟩
  | abort => exact .inr ⟨abort_not_ok _, abort_same _ _⟩
  | ok c =>
    rw [hc, Res.bind_ok] at np nq
    rw [Res.bind_ok, Res.bind_ok]
    by_cases h2 : c.1 = .OK
    case neg => rw [if_pos h2, if_pos h2]; exact .inl ⟨_, _, rfl, rfl, rfl, rfl, rfl, rfl⟩
    have n2 : ¬ c.1 ≠ .OK := not_not.2 h2
    rw [if_neg n2] at np nq ⊢
    rw [if_neg n2]
    rcases deriveKey_same g p q (hdrSalt h) (hdrSalt h') (hdrLogN h) (BitVec.ofNat 32 (hdrR h)) (BitVec.ofNat 32 (hdrP h)) with ⟨x, y, hx, hy, hxy⟩ | ⟨hx, hy⟩
    · rw [hx, Res.bind_ok] at np
      rw [hy, Res.bind_ok] at nq
      rw [hx, hy, Res.bind_ok, Res.bind_ok]
      obtain ⟨hrc, hst⟩ := hxy
      by_cases h3 : x.1.rc = 0
      · have n3 : ¬ x.1.rc ≠ 0 := not_not.2 h3
        have n3' : ¬ y.1.rc ≠ 0 := not_not.2 (hrc ▸ h3)
        rw [if_neg n3] at np ⊢
        rw [if_neg n3'] at nq ⊢
        have k1 : ¬ PasswordOk x.1.buf h := fun hp => np _ rfl (if_pos hp)
        have k2 : ¬ PasswordOk y.1.buf h' := fun hp => nq _ rfl (if_pos hp)
        rw [if_neg k1, if_neg k2]
        exact .inl ⟨_, _, rfl, rfl, rfl, rfl, rfl, hst⟩
      · rw [if_pos h3, if_pos (fun h => h3 (hrc.trans h))]
        exact .inl ⟨_, _, rfl, rfl, rfl, rfl, rfl, hst⟩
    · cases hx' : deriveKey sys p (hdrSalt h) (hdrLogN h) (BitVec.ofNat 32 (hdrR h)) (BitVec.ofNat 32 (hdrP h)) with
      | ok x => exact absurd hx' (hx x)
      | ub => rw [← hy, hx']; exact .inr ⟨ub_not_ok _, rfl⟩
      | abort => rw [← hy, hx']; exact .inr ⟨abort_not_ok _, rfl⟩

/-- The setup succeeds only on an input that is unlocked. -/
theorem setup_locked {sys : EncSys} (g : sys.Good) {h p : Bytes} {P : EncParams} {v f : Bool} {n : Nat} (hn : 96 ≤ n) (hl : n ≤ h.length)
    (hM : HasMagic h) (hV : VersionOk h) (no : ¬ Unlocked sys p P v f h n) : ∀ s, scryptdec_setup sys h p P v f = .ok s → s.rc ≠ .OK := by
  intro s hs h0
  have h1 := (decSetup_spec g (by omega) hs).1
  rw [h0] at h1
  unfold sysVerdict at h1
  obtain ⟨a, b, c, d⟩ := setupVerdict_ok.1 h1.symm
  exact no ⟨hl, hM, hV, a, b, c, d⟩

/-- C97, memory, two inputs: two inputs that begin with the same 96 bytes and are complete containers or longer, and two passphrases, neither
of which gets past the passphrase check: the two runs are one and the same, in everything they return and leave behind. -/
theorem C97_buf_data {sys : EncSys} (g : sys.Good) {inbuf inbuf' outbuf : Bytes} {outlen : Nat} {p q : Bytes} {P : EncParams} {v f : Bool}
    (hl : 128 ≤ inbuf.length) (hl' : 128 ≤ inbuf'.length) (h96 : inbuf.take 96 = inbuf'.take 96)
    (np : ¬ Unlocked sys p P v f inbuf 128) (nq : ¬ Unlocked sys q P v f inbuf' 128) :
    scryptdec_buf sys inbuf outbuf outlen p P v f = scryptdec_buf sys inbuf' outbuf outlen q P v f := by
  unfold scryptdec_buf
  refine bind_same (fun _ => ?_)
  have e6 : inbuf'.take 6 = inbuf.take 6 := by
    have := congrArg (List.take 6) h96
    rwa [List.take_take, List.take_take, show min 6 96 = 6 by omega, eq_comm] at this
  have l7 : ¬ inbuf.length < 7 := by omega
  have l7' : ¬ inbuf'.length < 7 := by omega
  rw [e6]
  by_cases hM : inbuf.take 6 ≠ [0x73, 0x63, 0x72, 0x79, 0x70, 0x74]
  · rw [if_pos (.inr hM), if_pos (.inr hM)]
  have k7 : ¬ (inbuf.length < 7 ∨ inbuf.take 6 ≠ [0x73, 0x63, 0x72, 0x79, 0x70, 0x74]) := fun h => h.elim l7 hM
  have k7' : ¬ (inbuf'.length < 7 ∨ inbuf.take 6 ≠ [0x73, 0x63, 0x72, 0x79, 0x70, 0x74]) := fun h => h.elim l7' hM
  rw [if_neg k7, if_neg k7']
  obtain ⟨x, ex, hx⟩ := rd_version inbuf (by omega)
  obtain ⟨y, ey, hy⟩ := rd_version inbuf' (by omega)
  have eV : VersionOk inbuf' ↔ VersionOk inbuf := by
    unfold VersionOk
    rw [← field_take inbuf' 96 _ _ (by omega), ← h96, field_take _ _ _ _ (by omega)]
  rw [ex, ey, Res.bind_ok, Res.bind_ok]
  by_cases hV : x = 0
  case neg => rw [if_pos hV, if_pos (fun h => hV (hx.1 (eV.1 (hy.2 h))))]
  have hV' : y = 0 := hy.1 (eV.2 (hx.2 hV))
  have a1 : ¬ x ≠ 0 := not_not.2 hV
  have a2 : ¬ y ≠ 0 := not_not.2 hV'
  have a3 : ¬ inbuf.length < 128 := by omega
  have a4 : ¬ inbuf'.length < 128 := by omega
  rw [if_neg a1, if_neg a2, if_neg a3, if_neg a4]
  have hM' : HasMagic inbuf := by rw [hasMagic_iff]; exact not_not.1 hM
  have hM'' : HasMagic inbuf' := by rw [hasMagic_iff, e6]; exact not_not.1 hM
  have n1 := setup_locked g (by omega) hl hM' (hx.2 hV) np
  have n2 := setup_locked g (by omega) hl' hM'' (hy.2 hV') nq
  rcases setup_same g (by omega) (by omega) h96 n1 n2 with ⟨s, s', hs, hs', he⟩ | ⟨hs, he⟩
  · rw [hs, hs', Res.bind_ok, Res.bind_ok, if_pos (n1 s hs), if_pos (n2 s' hs')]
    obtain ⟨i1, i2, i3, i4⟩ := he
    rw [i1, i2, i3, i4]
  · rw [← he]
    cases hx' : scryptdec_setup sys inbuf p P v f with
    | ok s => exact absurd hx' (hs s)
    | ub => exact ub_same _ _
    | abort => exact abort_same _ _

/-- C97, memory: of two passphrases neither of which gets past the passphrase check, a run with one is a run with the other: the code, the
parameters reported, the output buffer and length, the allocations, the memory left behind, the messages. -/
theorem C97_buf {sys : EncSys} (g : sys.Good) {inbuf outbuf : Bytes} {outlen : Nat} {p q : Bytes} {P : EncParams} {v f : Bool}
    (np : ¬ Unlocked sys p P v f inbuf 128) (nq : ¬ Unlocked sys q P v f inbuf 128) :
    scryptdec_buf sys inbuf outbuf outlen p P v f = scryptdec_buf sys inbuf outbuf outlen q P v f := by
  by_cases hl : 128 ≤ inbuf.length
  · exact C97_buf_data g hl hl rfl np nq
  · have a3 : inbuf.length < 128 := by omega
    unfold scryptdec_buf
    rw [if_pos a3, if_pos a3]

/-- C97, files, the passphrase stage. -/
theorem C97_prep {sys : EncSys} (g : sys.Good) {inf : InFile} {p q : Bytes} {P : EncParams} {v f : Bool}
    (np : ¬ Unlocked sys p P v f inf.data 96) (nq : ¬ Unlocked sys q P v f inf.data 96) :
    scryptdec_file_prep sys inf p P v f = scryptdec_file_prep sys inf q P v f := by
  unfold scryptdec_file_prep
  refine bind_same (fun _ => ?_)
  by_cases hco : sys.cookieOk = true
  case neg => rw [if_pos (by simp [hco]), if_pos (by simp [hco])]
  case pos =>
    obtain ⟨hd, f', e, fe, fn, fo⟩ := loadHeader_ok inf sys.header0 g.header0
    rw [if_neg (by simp [hco]), if_neg (by simp [hco]), e, Res.bind_ok, Res.bind_ok]
    dsimp only
    by_cases h2 : headVerdict inf.data inf.err = .OK
    case neg => rw [if_pos h2, if_pos h2]
    have a2 : ¬ headVerdict inf.data inf.err ≠ .OK := not_not.2 h2
    rw [if_neg a2, if_neg a2]
    obtain ⟨rfl, fd⟩ := fo h2
    obtain ⟨b1, b2, b3⟩ := headVerdict_ok.1 h2
    have len : 96 ≤ (inf.data.take 96).length := by rw [List.length_take]; omega
    have lock {w : Bytes} (n : ¬ Unlocked sys w P v f inf.data 96) : ∀ s, scryptdec_setup sys (inf.data.take 96) w P v f = .ok s → s.rc ≠ .OK := by
      intro s hs h0
      have h1 := (decSetup_spec g len hs).1
      rw [h0, sysVerdict_take] at h1
      unfold sysVerdict at h1
      obtain ⟨a, b, c, d⟩ := setupVerdict_ok.1 h1.symm
      exact n ⟨b1, b2, b3, a, b, c, d⟩
    rcases setup_same g len len rfl (lock np) (lock nq) with ⟨s, s', hs, hs', he⟩ | ⟨hs, he⟩
    · rw [hs, hs', Res.bind_ok, Res.bind_ok, if_pos (lock np s hs), if_pos (lock nq s' hs')]
      obtain ⟨i1, i2, i3, i4⟩ := he
      rw [i1, i2, i3, i4]
    · rw [he]

/-- C97, files: a run with one wrong passphrase is a run with the other. -/
theorem C97_file {sys : EncSys} (g : sys.Good) {inf : InFile} {outf : OutFile} {p q : Bytes} {P : EncParams} {v f : Bool}
    (np : ¬ Unlocked sys p P v f inf.data 96) (nq : ¬ Unlocked sys q P v f inf.data 96) :
    scryptdec_file sys inf outf p P v f = scryptdec_file sys inf outf q P v f := by
  unfold scryptdec_file
  rw [C97_prep g np nq]

/-- Once it has the passphrase, the program does not ask how it got it. -/
theorem operate_pe (env : MainEnv) (pe' : PeEnv) (q : Request) (inf : InFile) (pw : Bytes) :
    operate { env with pe := pe' } q inf pw = operate env q inf pw := by
  cases env
  rfl

/-- C97, the program: two runs of `scrypt dec` that differ only in how the passphrase was obtained and in what it is, neither passphrase being
right: everything the program does after it has the passphrase is the same: exit code, messages, output, files opened and closed. -/
theorem C97_program {env : MainEnv} (g : env.sys.Good) {pe' : PeEnv} {q : Request} (hq : q.op = .dec) {pw pw' : Bytes} {inf : InFile}
    (hs : Session env q pw inf) (hs' : Session { env with pe := pe' } q pw' inf)
    (np : ¬ Unlocked env.sys pw q.params q.verbose q.force inf.data 96) (nq : ¬ Unlocked env.sys pw' q.params q.verbose q.force inf.data 96) :
    perform env q = perform { env with pe := pe' } q := by
  have hi : q.op ≠ .info := by rw [hq]; exact fun h => (by cases h)
  rw [perform_session hi hs, perform_session hi hs']
  rw [operate_pe env pe' q]
  refine congrArg (fun x : Res ModeOut => x >>= fun m => .ok (some (toExit m))) ?_
  unfold operate
  rw [if_pos hq, if_pos hq]
  unfold decRun
  rw [C97_prep g np nq]

/-- C97 seen from outside, memory: two runs that both say that the passphrase is wrong are the same run. -/
theorem C97_refused_buf {sys : EncSys} (g : sys.Good) {inbuf outbuf : Bytes} (hD : inbuf.length < 2 ^ 64) (hout : inbuf.length ≤ outbuf.length)
    {outlen : Nat} {p q : Bytes} {P : EncParams} {v f : Bool} (hl : LimitsOk sys P v f) {o o' : BufOut}
    (h : scryptdec_buf sys inbuf outbuf outlen p P v f = .ok o) (h' : scryptdec_buf sys inbuf outbuf outlen q P v f = .ok o')
    (ho : o.rc = .EPASS) (ho' : o'.rc = .EPASS) : o = o' := by
  have np : ¬ Unlocked sys p P v f inbuf 128 := fun u => ((C07_buf g hD hout hl h).1.1 ho).2 u.pass
  have nq : ¬ Unlocked sys q P v f inbuf 128 := fun u => ((C07_buf g hD hout hl h').1.1 ho').2 u.pass
  rw [C97_buf g np nq, h'] at h
  exact (Res.ok.inj h).symm

/-- C97 seen from outside, files. -/
theorem C97_refused_file {sys : EncSys} (g : sys.Good) {inf : InFile} {outf : OutFile} (hD : inf.data.length < 2 ^ 64)
    {p q : Bytes} {P : EncParams} {v f : Bool} (hl : LimitsOk sys P v f) {o o' : FileOut}
    (h : scryptdec_file sys inf outf p P v f = .ok o) (h' : scryptdec_file sys inf outf q P v f = .ok o')
    (ho : o.rc = .EPASS) (ho' : o'.rc = .EPASS) : o = o' := by
  have np : ¬ Unlocked sys p P v f inf.data 96 := fun u => ((C07_file g hD hl h).1.1 ho).2.2 u.pass
  have nq : ¬ Unlocked sys q P v f inf.data 96 := fun u => ((C07_file g hD hl h').1.1 ho').2.2 u.pass
  rw [C97_file g np nq, h'] at h
  exact (Res.ok.inj h).symm

/-- A header that is well formed, with any 32 bytes for a signature: the fields. -/
theorem forged_fields {K : Bytes} (hK : K.length = 32) (rest : Bytes) :
    ∃ D, D.length = 96 + rest.length ∧ HasMagic D ∧ VersionOk D ∧ ChecksumOk D ∧ hdrLogN D = 10 ∧ hdrR D = 8 ∧ hdrP D = 1 ∧ hdrSalt D = exSalt ∧
      field D 64 32 = K ∧ field D 0 64 = header64 10 8 1 exSalt := by
  have h64 : (header64 10 8 1 exSalt).length = 64 := by unfold header64 header48; simp [magic, exSalt]
  have hc := container_fields (List.replicate 64 0) 10 8 1 exSalt [] exSalt_length (by norm_num) (by norm_num) (by norm_num)
  have e : ∀ a b, a + b ≤ 64 → field (header64 10 8 1 exSalt ++ K ++ rest) a b = field (container (List.replicate 64 0) 10 8 1 exSalt []) a b := by
    intro a b hab
    unfold field container header96
    simp only [List.append_assoc]
    rw [List.drop_append_of_le_length (by omega), List.take_append_of_le_length (by rw [List.length_drop]; omega),
      List.drop_append_of_le_length (by omega), List.take_append_of_le_length (by rw [List.length_drop]; omega)]
  refine ⟨header64 10 8 1 exSalt ++ K ++ rest, by simp [h64, hK]; omega, ?_, ?_, ?_, ?_, ?_, ?_, ?_, field_append _ _ _ 64 32 h64 hK, ?_⟩
  · unfold HasMagic; rw [e 0 6 (by omega)]; exact hc.magic
  · unfold VersionOk; rw [e 6 1 (by omega)]; exact hc.version
  · unfold ChecksumOk; rw [e 48 16 (by omega), e 0 48 (by omega)]; exact hc.sum
  · unfold hdrLogN; rw [e 7 1 (by omega)]; exact hc.logN
  · unfold hdrR; rw [e 8 4 (by omega)]; exact hc.r
  · unfold hdrP; rw [e 12 4 (by omega)]; exact hc.p
  · unfold hdrSalt; rw [e 16 32 (by omega)]; exact hc.salt
  · unfold field
    rw [List.append_assoc, List.drop_zero, List.take_append_of_le_length (by omega), List.take_of_length_le (by omega)]

/-- Non-vacuity: for any two passphrases there is a container whose header is in order and to which both are wrong: EPASS twice. -/
example (sha : ShaHw) (hw : AesHw) (p q : Bytes) : ∃ D o o', scryptdec_buf (exEnc sha hw exSalt) D (List.replicate 128 9) 77 p exP0 false false = .ok o ∧
    scryptdec_buf (exEnc sha hw exSalt) D (List.replicate 128 9) 77 q exP0 false false = .ok o' ∧ o.rc = .EPASS ∧ o'.rc = .EPASS := by
  have g := exEnc_good sha hw exSalt_length
  -- a signature that is neither that of `p` nor that of `q`
  obtain ⟨K, hK, h1, h2⟩ : ∃ S : Bytes, S.length = 32 ∧ S ≠ hmac (keyHmac (scryptCode p exSalt (2 ^ 10) 8 1 64)) (header64 10 8 1 exSalt) ∧
      S ≠ hmac (keyHmac (scryptCode q exSalt (2 ^ 10) 8 1 64)) (header64 10 8 1 exSalt) := by
    generalize hmac (keyHmac (scryptCode p exSalt (2 ^ 10) 8 1 64)) (header64 10 8 1 exSalt) = a
    generalize hmac (keyHmac (scryptCode q exSalt (2 ^ 10) 8 1 64)) (header64 10 8 1 exSalt) = b
    have d01 : List.replicate 32 (0 : Byte) ≠ List.replicate 32 1 := by decide
    have d02 : List.replicate 32 (0 : Byte) ≠ List.replicate 32 2 := by decide
    have d12 : List.replicate 32 (1 : Byte) ≠ List.replicate 32 2 := by decide
    by_cases ha : List.replicate 32 (0 : Byte) = a
    · by_cases hb : List.replicate 32 (1 : Byte) = b
      · exact ⟨List.replicate 32 2, List.length_replicate, fun h => d02 (ha.trans h.symm), fun h => d12 (hb.trans h.symm)⟩
      · exact ⟨List.replicate 32 1, List.length_replicate, fun h => d01 (ha.trans h.symm), hb⟩
    · by_cases hb : List.replicate 32 (0 : Byte) = b
      · by_cases hc : List.replicate 32 (1 : Byte) = a
        · exact ⟨List.replicate 32 2, List.length_replicate, fun h => d12 (hc.trans h.symm), fun h => d02 (hb.trans h.symm)⟩
        · exact ⟨List.replicate 32 1, List.length_replicate, hc, fun h => d01 (hb.trans h.symm)⟩
      · exact ⟨List.replicate 32 0, List.length_replicate, ha, hb⟩
  obtain ⟨D, hD, hm, hv, hsum, hL, hr, hp, hs, hsig, hhd⟩ := forged_fields hK (List.replicate 32 0)
  rw [List.length_replicate] at hD
  have run (w : Bytes) (hw' : K ≠ hmac (keyHmac (scryptCode w exSalt (2 ^ 10) 8 1 64)) (header64 10 8 1 exSalt)) :
      ∃ o, scryptdec_buf (exEnc sha hw exSalt) D (List.replicate 128 9) 77 w exP0 false false = .ok o ∧ o.rc = .EPASS := by
    obtain ⟨⟨o, ho⟩, -⟩ := C51_dec g (exEnc_ready sha hw exSalt) D (List.replicate 128 9) w 77 (by omega) (by rw [hD, List.length_replicate])
      ⟨[], false⟩ (by decide) ⟨[], none⟩ (P := exP0) (verbose := false) (force := false) (by decide) (exLimits _ _ _ _ rfl _ _)
    obtain ⟨c1, -⟩ := C07_buf g (by omega) (by rw [hD, List.length_replicate]) (exLimits _ _ _ exP0 rfl _ _) ho
    refine ⟨o, ho, c1.2 ⟨⟨by omega, hm, hv, hsum, ?_, ?_, ?_⟩, ?_⟩⟩
    · rw [hL, hr, hp]; unfold GoodParams; decide
    · rw [hL, hr, hp]; exact exPass _ _ _ _ rfl rfl rfl _
    · rw [hL, hr, hp]; exact exEnc_kdf _ _ _
    · rw [hL, hr, hp, hs]
      intro hpw
      unfold PasswordOk at hpw
      rw [hsig, hhd] at hpw
      exact hw' hpw
  obtain ⟨o, ho, r⟩ := run p h1
  obtain ⟨o', ho', r'⟩ := run q h2
  exact ⟨D, o, o', ho, ho', r, r'⟩

end Scrypt.Props
