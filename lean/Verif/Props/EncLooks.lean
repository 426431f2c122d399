import Verif.Props.WrongPass
import Verif.Props.MainEx
/-
C98: what an encryption shows, apart from the encrypted bytes, does not depend on the passphrase or on what is encrypted.
-/
namespace Scrypt.Props
open Scrypt Spec

/-- A setup with one passphrase ends as a setup with any other. -/
theorem encSetup_same {sys : EncSys} (g : sys.Good) {p : Bytes} (q : Bytes) {P : EncParams} {v f : Bool} {s : SetupOut}
    (h : scryptenc_setup sys p P v f = .ok s) : ∃ s', scryptenc_setup sys q P v f = .ok s' ∧ SetupAlike s s' := by
  unfold scryptenc_setup at h ⊢
  rw [Res.bind_eq_ok] at h
  obtain ⟨⟨rc, P', msgs⟩, hp, h⟩ := h
  rw [hp, Res.bind_ok]
  dsimp only at h ⊢
  by_cases hrc : rc = .OK
  case neg =>
    rw [if_pos hrc] at h
    rw [if_pos hrc]
    cases h
    exact ⟨_, rfl, rfl, rfl, rfl, rfl⟩
  subst hrc
  have n : ¬ (Code.OK ≠ Code.OK) := not_not.2 rfl
  rw [if_neg n, Res.bind_eq_ok] at h
  rw [if_neg n]
  obtain ⟨u, ha, h⟩ := h
  rw [ha, Res.bind_ok]
  obtain ⟨hg, -⟩ := setupParams_good g hp
  cases hs : sys.salt with
  | none =>
    rw [hs] at h
    cases h
    exact ⟨_, rfl, rfl, rfl, rfl, rfl⟩
  | some salt =>
    rw [hs] at h
    dsimp only at h ⊢
    rw [Res.bind_eq_ok] at h
    obtain ⟨x, hk, h⟩ := h
    rcases deriveKey_same g p q salt salt P'.logN P'.r P'.p with ⟨x', y, hx, hy, e1, e2⟩ | ⟨hx, -⟩
    case inr => exact absurd hk (hx x)
    rw [hk] at hx
    cases hx
    rw [hy, Res.bind_ok]
    by_cases ho : x.1.rc = 0
    · have ho' : y.1.rc = 0 := e1 ▸ ho
      have m1 : ¬ x.1.rc ≠ 0 := not_not.2 ho
      have m2 : ¬ y.1.rc ≠ 0 := not_not.2 ho'
      obtain ⟨l, hl⟩ : ∃ l : Nat, P'.logN = l := ⟨P'.logN.toNat, by have := hg.1; omega⟩
      have h63 : l ≤ 63 := by have := hg.2.1; omega
      have len {w : Bytes} {k : ScOut × Option SmixImpl} (hk : deriveKey sys w salt P'.logN P'.r P'.p = .ok k) (h0 : k.1.rc = 0) : k.1.buf.length = 64 := by
        rw [(deriveKey_spec g hl h63 hk).2 h0]
        exact scryptCode_length _ _ _ _ _ _
      rw [if_neg m1, writeHeader_ok sys g P' l hl salt _ (g.salt _ hs) (len hk ho), Res.bind_ok] at h
      rw [if_neg m2, writeHeader_ok sys g P' l hl salt _ (g.salt _ hs) (len hy ho'), Res.bind_ok]
      cases h
      exact ⟨_, rfl, rfl, rfl, rfl, e2⟩
    · rw [if_pos ho] at h
      rw [if_pos (fun h => ho (e1.trans h))]
      cases h
      exact ⟨_, rfl, rfl, rfl, rfl, e2⟩

/-- The first 64 bytes of a container: everything but what depends on the key. -/
theorem container_head (dk dk' : Bytes) (l r p : Nat) {salt : Bytes} (hs : salt.length = 32) (m m' : Bytes) :
    (container dk l r p salt m).take 64 = (container dk' l r p salt m').take 64 := by
  have h := header64_length l r p salt hs
  have key (k n : Bytes) : (container k l r p salt n).take 64 = header64 l r p salt := by
    unfold container header96
    dsimp only
    rw [List.append_assoc, List.append_assoc, List.take_append_of_le_length (by omega), List.take_of_length_le (by omega)]
  rw [key, key]

theorem header96_head (dk dk' : Bytes) (l r p : Nat) {salt : Bytes} (hs : salt.length = 32) :
    (header96 dk l r p salt).take 64 = (header96 dk' l r p salt).take 64 := by
  have h := header64_length l r p salt hs
  unfold header96
  rw [List.take_append_of_le_length (by omega), List.take_append_of_le_length (by omega)]

theorem drop_past {a b c : Bytes} {n : Nat} (h : a.length = b.length) (hn : b.length ≤ n) : (a ++ c).drop n = (b ++ c).drop n := by
  rw [List.drop_append, List.drop_append, List.drop_eq_nil_of_le (show a.length ≤ n by omega), List.drop_eq_nil_of_le hn, h]

/-- C98, memory: an encryption of other data of the same length with another passphrase also comes to an end, and gives the same result, parameters,
messages, allocations and state; what it leaves in the output buffer has the same first 64 bytes, and the same bytes after the container. -/
theorem C98_buf {sys : EncSys} (g : sys.Good) {inbuf inbuf' outbuf p : Bytes} (q : Bytes) (hlen : inbuf'.length = inbuf.length) (hin : inbuf.length < 2 ^ 64)
    (hout : inbuf.length + 128 ≤ outbuf.length) {P : EncParams} {v f : Bool} {o : BufOut} (h : scryptenc_buf sys inbuf outbuf p P v f = .ok o) :
    ∃ o', scryptenc_buf sys inbuf' outbuf q P v f = .ok o' ∧ o'.rc = o.rc ∧ o'.P = o.P ∧ o'.err = o.err ∧ o'.tr = o.tr ∧ o'.dk = o.dk ∧ o'.smix = o.smix ∧
      o'.outlen = o.outlen ∧ o'.out.length = o.out.length ∧ o'.out.take 64 = o.out.take 64 ∧ o'.out.drop (inbuf.length + 128) = o.out.drop (inbuf.length + 128) := by
  unfold scryptenc_buf at h ⊢
  rw [Res.bind_eq_ok] at h
  obtain ⟨u, ha, h⟩ := h
  rw [Res.bind_eq_ok] at h
  obtain ⟨s, hs, h⟩ := h
  obtain ⟨s', hs', a1, a2, a3, a4⟩ := encSetup_same g q hs
  rw [ha, Res.bind_ok, hs', Res.bind_ok]
  by_cases h0 : s.rc = .OK
  case neg =>
    rw [if_pos h0] at h
    rw [if_pos (fun h => h0 (a1.trans h))]
    cases h
    exact ⟨_, rfl, a1.symm, a2.symm, a3.symm, rfl, rfl, a4.symm, rfl, rfl, rfl, rfl⟩
  have h0' : s'.rc = .OK := a1 ▸ h0
  have n1 : ¬ s.rc ≠ .OK := not_not.2 h0
  have n2 : ¬ s'.rc ≠ .OK := not_not.2 h0'
  obtain ⟨salt, l, i1, i2, i3, i4, i5, i6, i7⟩ := encSetup_inv g hs h0
  obtain ⟨salt', l', j1, j2, j3, j4, j5, j6, j7⟩ := encSetup_inv g hs' h0'
  obtain rfl : salt = salt' := Option.some.inj (i1.symm.trans j1)
  obtain rfl : l = l' := by rw [a2, j2] at i2; exact_mod_cast i2.symm
  rw [← a2] at j7
  have hl := g.salt _ i1
  have b1 : s.dk.length = 64 := by rw [i5]; exact scryptCode_length _ _ _ _ _ _
  have b2 : s'.dk.length = 64 := by rw [j5]; exact scryptCode_length _ _ _ _ _ _
  rw [if_neg n1, encBufBody_ok g inbuf outbuf hin hout s l _ _ salt hl b1 i7] at h
  rw [if_neg n2, encBufBody_ok g inbuf' outbuf (by omega) (by omega) s' l _ _ salt hl b2 j7]
  cases h
  refine ⟨_, rfl, rfl, a2.symm, a3.symm, rfl, rfl, a4.symm, rfl, ?_⟩
  dsimp only
  have c1 := container_length s.dk l s.P.r.toNat s.P.p.toNat salt inbuf hl
  have c2 := container_length s'.dk l s.P.r.toNat s.P.p.toNat salt inbuf' hl
  have d1 := header96_length s.dk l s.P.r.toNat s.P.p.toNat salt hl
  have d2 := header96_length s'.dk l s.P.r.toNat s.P.p.toNat salt hl
  by_cases hc : aesCode sys = .OK
  · rw [if_pos hc, if_pos hc, hlen]
    refine ⟨by rw [List.length_append, List.length_append]; omega, ?_, ?_⟩
    · rw [List.take_append_of_le_length (by omega), List.take_append_of_le_length (by omega)]
      exact container_head _ _ _ _ _ hl _ _
    · exact drop_past (by omega) (by omega)
  · rw [if_neg hc, if_neg hc, i7, j7]
    refine ⟨by rw [List.length_append, List.length_append]; omega, ?_, ?_⟩
    · rw [List.take_append_of_le_length (by omega), List.take_append_of_le_length (by omega)]
      exact header96_head _ _ _ _ _ hl
    · exact drop_past (by omega) (by omega)

/-- What a look at a file shows once something has been added to `f0`: how much, whether there is room for more, and the first 64 bytes. -/
def FileLooks (f0 f : OutFile) : Nat × Option Nat × Bytes := (f.written.length, f.room, (f.written.drop f0.written.length).take 64)

theorem take_swap (z : Bytes) (k : Nat) : (z.take k).take 64 = (z.take 64).take k := by
  rw [List.take_take, List.take_take, Nat.min_comm]

theorem fwrite_looks (f : OutFile) {x y : Bytes} (hl : x.length = y.length) (h64 : x.take 64 = y.take 64) :
    FileLooks f (fwrite f x).2 = FileLooks f (fwrite f y).2 := by
  unfold FileLooks fwrite
  cases hr : f.room with
  | none =>
    dsimp only
    rw [List.length_append, List.length_append, hl, List.drop_left, List.drop_left, h64]
  | some k =>
    dsimp only
    rw [hl]
    by_cases hk : y.length ≤ k
    · rw [if_pos hk, if_pos hk]
      dsimp only
      rw [List.length_append, List.length_append, hl, List.drop_left, List.drop_left, h64]
    · rw [if_neg hk, if_neg hk]
      dsimp only
      rw [List.length_append, List.length_append, List.drop_left, List.drop_left, List.length_take, List.length_take, hl, take_swap, h64,
        ← take_swap]

/-- C98, files: an encryption of another file of the same length with another passphrase also comes to an end, and gives the same result, parameters,
messages and allocations; it writes as many bytes, of which the first 64 are the same. -/
theorem C98_file {sys : EncSys} (g : sys.Good) {inf inf' : InFile} {outf : OutFile} {p : Bytes} (q : Bytes) (hlen : inf'.data.length = inf.data.length)
    (herr : inf'.err = inf.err) (hin : inf.data.length < 2 ^ 64) {P : EncParams} {v f : Bool} {o : FileOut}
    (h : scryptenc_file sys inf outf p P v f = .ok o) :
    ∃ o', scryptenc_file sys inf' outf q P v f = .ok o' ∧ o'.rc = o.rc ∧ o'.P = o.P ∧ o'.err = o.err ∧ o'.tr = o.tr ∧ o'.dk = o.dk ∧
      FileLooks outf o'.outf = FileLooks outf o.outf := by
  -- the second run comes to an end
  obtain ⟨o', h'⟩ : ∃ o', scryptenc_file sys inf' outf q P v f = .ok o' := by
    unfold scryptenc_file at h ⊢
    rw [Res.bind_eq_ok] at h
    obtain ⟨u, ha, h⟩ := h
    rw [Res.bind_eq_ok] at h
    obtain ⟨s, hs, h⟩ := h
    obtain ⟨s', hs', -⟩ := encSetup_same g q hs
    rw [ha, Res.bind_ok, hs', Res.bind_ok]
    by_cases h0 : s'.rc = .OK
    case neg => rw [if_pos h0]; exact ⟨_, rfl⟩
    have n : ¬ s'.rc ≠ .OK := not_not.2 h0
    obtain ⟨salt, l, i1, i2, i3, i4, i5, i6, i7⟩ := encSetup_inv g hs' h0
    obtain ⟨x, e, -⟩ := encFileBody_ok g inf' outf (by omega) s' l _ _ salt (g.salt _ i1) (by rw [i5]; exact scryptCode_length _ _ _ _ _ _) i7
    rw [if_neg n]
    exact ⟨x, e⟩
  refine ⟨o', h', ?_⟩
  obtain ⟨s, hs, p1, p2, p3, p4, p5⟩ := encFile_spec g hin h
  obtain ⟨s', hs', q1, q2, q3, q4, q5⟩ := encFile_spec g (by omega) h'
  obtain ⟨t, ht, a1, a2, a3, a4⟩ := encSetup_same g q hs
  rw [hs'] at ht
  cases ht
  by_cases h0 : s.rc = .OK
  case neg =>
    obtain ⟨b1, b2, b3⟩ := p4 h0
    obtain ⟨c1, c2, c3⟩ := q4 (fun h => h0 (a1.trans h))
    rw [b1, b2, b3, c1, c2, c3, p1, p2, p3, q1, q2, q3, a1, a2, a3]
    exact ⟨rfl, rfl, rfl, rfl, rfl, rfl⟩
  obtain ⟨salt, l, i1, i2, i3, i4, i5, i6, i7, i8, i9, i10⟩ := p5 h0
  obtain ⟨salt', l', j1, j2, j3, j4, j5, j6, j7, j8, j9, j10⟩ := q5 (a1 ▸ h0)
  obtain rfl : salt = salt' := Option.some.inj (i1.symm.trans j1)
  obtain rfl : l = l' := by rw [a2, j3] at i3; exact_mod_cast i3.symm
  rw [← a2] at j5 j9
  have d1 := header96_length s.dk l s.P.r.toNat s.P.p.toNat salt i2
  have d2 := header96_length s'.dk l s.P.r.toNat s.P.p.toNat salt i2
  rw [hlen, herr] at j8 j9
  rw [hlen] at j10
  refine ⟨j8.trans i8.symm, by rw [p1, q1, a2], by rw [p2, q2, a3], j10.trans i10.symm, by rw [p3, q3], ?_⟩
  rw [i9, j9]
  by_cases k1 : ¬ Fits outf 96 ∨ aesCode sys ≠ .OK
  · rw [if_pos k1, if_pos k1, i5, j5]
    exact fwrite_looks outf (by omega) (header96_head _ _ _ _ _ i2)
  rw [if_neg k1, if_neg k1]
  by_cases k2 : ¬ Fits outf (96 + inf.data.length) ∨ inf.err = true
  · rw [if_pos k2, if_pos k2, i5, j5]
    refine fwrite_looks outf ?_ ?_
    · rw [List.length_append, List.length_append, dataCipher_length, dataCipher_length]; omega
    · rw [List.take_append_of_le_length (by omega), List.take_append_of_le_length (by omega)]
      exact header96_head _ _ _ _ _ i2
  · rw [if_neg k2, if_neg k2]
    refine fwrite_looks outf ?_ (container_head _ _ _ _ _ i2 _ _)
    rw [container_length _ _ _ _ _ _ i2, container_length _ _ _ _ _ _ i2, hlen]

theorem byte_xor (a b k : Byte) : (a ^^^ k) ^^^ (b ^^^ k) = a ^^^ b := by
  rw [BitVec.xor_assoc, BitVec.xor_comm b k, ← BitVec.xor_assoc k k b, BitVec.xor_self, BitVec.zero_xor]

theorem stream_xor (dk : Bytes) {m m' : Bytes} (hlen : m'.length = m.length) : xorBytes (dataCipher dk m) (dataCipher dk m') = xorBytes m m' := by
  unfold dataCipher ctr
  rw [hlen]
  have hk := ctrStream_length (aes (keyEnc dk)) 0 0 m.length
  generalize ctrStream (aes (keyEnc dk)) 0 0 m.length = ks at hk
  unfold xorBytes
  refine List.ext_getElem (by simp [hk, hlen]) (fun i b1 b2 => ?_)
  simp only [List.getElem_zipWith]
  exact byte_xor _ _ _

theorem container_data (k : Bytes) (l r p : Nat) {salt : Bytes} (hs : salt.length = 32) (n rest : Bytes) :
    field (container k l r p salt n ++ rest) 96 n.length = dataCipher k n := by
  unfold container
  dsimp only
  rw [List.append_assoc]
  exact field_append _ _ _ 96 _ (header96_length _ _ _ _ _ hs) (dataCipher_length _ _)

/-- C98, finding F36: the key stream is a function of passphrase, salt and parameters alone. If the same salt comes up for two encryptions under
one passphrase, the two containers give away the exclusive or of what they contain. -/
theorem C98_repeated_salt {sys : EncSys} (g : sys.Good) {m m' outbuf p : Bytes} (hlen : m'.length = m.length) (hin : m.length < 2 ^ 64)
    (hout : m.length + 128 ≤ outbuf.length) {P : EncParams} {v f : Bool} {o o' : BufOut} (h : scryptenc_buf sys m outbuf p P v f = .ok o)
    (h' : scryptenc_buf sys m' outbuf p P v f = .ok o') (h0 : o.rc = .OK) :
    xorBytes (field o.out 96 m.length) (field o'.out 96 m.length) = xorBytes m m' := by
  obtain ⟨x, hx, a1, a2, -⟩ := C98_buf g p hlen hin hout h
  rw [h'] at hx
  cases hx
  obtain ⟨salt, l, i1, i2, i3, i4, i5, i6⟩ := encBuf_inv g hin hout h h0
  obtain ⟨salt', l', j1, j2, j3, j4, j5, j6⟩ := encBuf_inv g (by omega) (by omega) h' (a1.trans h0)
  obtain rfl : salt = salt' := Option.some.inj (i1.symm.trans j1)
  rw [a2] at j2 j6
  obtain rfl : l = l' := by rw [j2] at i2; exact_mod_cast i2.symm
  have hs := g.salt _ i1
  rw [i6, j6, container_data _ _ _ _ hs, ← hlen, container_data _ _ _ _ hs]
  exact stream_xor _ hlen

/-- What is written does not matter for what the program says at the end. -/
theorem cleanup_out {env : MainEnv} {i u : Option CStr} {ev : List MEv} {msgs : List MMsg} {c b : Bool} {rc : Code} {out : Bytes} (out' : Bytes) {m : ModeOut}
    (h : encDecCleanup env i u ev msgs c b rc out = .ok m) : m.out = out ∧ encDecCleanup env i u ev msgs c b rc out' = .ok { m with out := out' } := by
  unfold encDecCleanup at h ⊢
  dsimp only at h ⊢
  by_cases hr : rc = .OK
  · have n : ¬ rc ≠ .OK := not_not.2 hr
    rw [if_neg n] at h ⊢
    cases h
    exact ⟨rfl, rfl⟩
  · rw [if_pos hr] at h ⊢
    rw [Res.bind_eq_ok] at h
    obtain ⟨x, hx, h⟩ := h
    rw [hx, Res.bind_ok]
    cases h
    exact ⟨rfl, rfl⟩

/-- The operation does not look at the ways in which passphrase and input were obtained. -/
theorem encRun_env (env : MainEnv) (pe' : PeEnv) (cut' : Bytes → List Bytes) (oi : CStr → Option InFile) (P : EncParams) (v f : Bool) (i u : Option CStr)
    (inf : InFile) (pw : Bytes) (ev : List MEv) :
    encRun { env with pe := pe', cut := cut', openIn := oi } P v f i u inf pw ev = encRun env P v f i u inf pw ev := by
  cases env
  rfl

theorem openInputEv_same {env : MainEnv} {pe' : PeEnv} {cut' : Bytes → List Bytes} {oi : CStr → Option InFile} {q : Request} {pw pw' : Bytes} {inf inf' : InFile}
    (hs : Session env q pw inf) (hs' : Session { env with pe := pe', cut := cut', openIn := oi } q pw' inf') :
    openInputEv { env with pe := pe', cut := cut', openIn := oi } q.infile = openInputEv env q.infile := by
  obtain ⟨_, -, -, h⟩ := hs
  obtain ⟨_, -, -, h'⟩ := hs'
  unfold openInputEv
  cases h with
  | stdin h1 _ => rw [h1]
  | file h1 h2 =>
    cases h' with
    | stdin h1' _ => rw [h1] at h1'; cases h1'
    | file h1' h2' =>
      rw [h1] at h1'
      cases h1'
      rw [h1]
      dsimp only at h2' ⊢
      rw [h2, h2']
      rfl

/-- C98, the program: two runs of `scrypt enc` with the same options and surroundings, on inputs of the same length and with any two passphrases, however
obtained: the exit code, the messages and the files opened and closed are the same, and so are the number of bytes written and the first 64 of them. -/
theorem C98_program {env : MainEnv} (g : env.sys.Good) {pe' : PeEnv} {cut' : Bytes → List Bytes} {oi : CStr → Option InFile} {q : Request} (hq : q.op = .enc)
    {pw pw' : Bytes} {inf inf' : InFile} (hs : Session env q pw inf) (hs' : Session { env with pe := pe', cut := cut', openIn := oi } q pw' inf')
    (sep : Separate env q) (hlen : inf'.data.length = inf.data.length) (herr : inf'.err = inf.err) (hin : inf.data.length < 2 ^ 64) {o : MainOut}
    (h : perform env q = .ok (some o)) :
    ∃ o', perform { env with pe := pe', cut := cut', openIn := oi } q = .ok (some o') ∧ o'.exit = o.exit ∧ o'.msgs = o.msgs ∧ o'.text = o.text ∧ o'.ev = o.ev ∧
      o'.out.length = o.out.length ∧ o'.out.take 64 = o.out.take 64 := by
  have hi : q.op ≠ .info := by rw [hq]; exact fun h => (by cases h)
  have hd : ¬ q.op = .dec := by rw [hq]; exact fun h => (by cases h)
  rw [perform_session hi hs, Res.bind_eq_ok] at h
  obtain ⟨m, hm, h⟩ := h
  cases h
  rw [perform_session hi hs']
  suffices ∃ m', operate { env with pe := pe', cut := cut', openIn := oi } q inf' pw' = .ok m' ∧ m'.ok = m.ok ∧ m'.msgs = m.msgs ∧ m'.ev = m.ev ∧
      m'.out.length = m.out.length ∧ m'.out.take 64 = m.out.take 64 by
    obtain ⟨m', e, a1, a2, a3, a4, a5⟩ := this
    rw [e, Res.bind_ok]
    exact ⟨_, rfl, by unfold toExit; rw [a1], a2, rfl, a3, a4, a5⟩
  unfold operate at hm ⊢
  rw [if_neg hd] at hm
  rw [if_neg hd, openInputEv_same hs hs', encRun_env]
  generalize openInputEv env q.infile ++ [.gotPass] = ev at hm
  unfold encRun at hm ⊢
  cases ho : openOutput env q.outfile with
  | none =>
    rw [ho] at hm
    cases hm
    exact ⟨_, rfl, rfl, rfl, rfl, rfl, rfl⟩
  | some outf =>
    rw [ho] at hm
    dsimp only at hm ⊢
    have hout : outf.written = [] := by
      unfold openOutput at ho
      cases hu : q.outfile with
      | none => rw [hu] at ho; cases ho; rfl
      | some n =>
        rw [hu] at ho
        dsimp only at ho
        rw [Option.map_eq_some_iff] at ho
        obtain ⟨r, -, rfl⟩ := ho
        rfl
    rw [truncated_sep sep] at hm ⊢
    rw [Res.bind_eq_ok] at hm
    obtain ⟨x, hx, hm⟩ := hm
    obtain ⟨y, hy, b1, b2, b3, b4, b5, b6⟩ := C98_file g pw' hlen herr hin hx
    rw [hy, Res.bind_ok, b1, b3, b4]
    obtain ⟨c1, c2⟩ := cleanup_out y.outf.written hm
    unfold FileLooks at b6
    rw [hout] at b6
    have d1 := congrArg (fun t : Nat × Option Nat × Bytes => t.1) b6
    have d2 := congrArg (fun t : Nat × Option Nat × Bytes => t.2.2) b6
    dsimp only [List.length_nil, List.drop_zero] at d1 d2
    exact ⟨_, c2, rfl, rfl, rfl, by rw [c1]; exact d1, by rw [c1]; exact d2⟩

/-- Non-vacuity: two messages of three bytes, two passphrases; and one passphrase and one salt, where the exclusive or comes out. -/
example (sha : ShaHw) (hw : AesHw) (p q : Bytes) : ∃ o o' o'', scryptenc_buf (exEnc sha hw exSalt) [1, 2, 3] (List.replicate 140 0) p exP false false = .ok o ∧
    scryptenc_buf (exEnc sha hw exSalt) [7, 8, 9] (List.replicate 140 0) q exP false false = .ok o' ∧ o.rc = .OK ∧ o'.rc = .OK ∧ o'.out.take 64 = o.out.take 64 ∧
    scryptenc_buf (exEnc sha hw exSalt) [7, 8, 9] (List.replicate 140 0) p exP false false = .ok o'' ∧
    xorBytes (field o.out 96 3) (field o''.out 96 3) = [6, 10, 10] := by
  have g := exEnc_good sha hw exSalt_length
  have hout : [(1 : Byte), 2, 3].length + 128 ≤ (List.replicate 140 (0 : Byte)).length := by rw [List.length_replicate]; simp
  obtain ⟨o, h, hok, -⟩ := exEnc_buf sha hw exSalt_length [1, 2, 3] (List.replicate 140 0) p (show 3 < 2 ^ 64 by norm_num) hout false false
  obtain ⟨o', h', r, -, -, -, -, -, -, -, t, -⟩ := C98_buf (inbuf := [1, 2, 3]) (inbuf' := [7, 8, 9]) g q rfl (show 3 < 2 ^ 64 by norm_num) hout h
  obtain ⟨o'', h'', -⟩ := C98_buf (inbuf := [1, 2, 3]) (inbuf' := [7, 8, 9]) g p rfl (show 3 < 2 ^ 64 by norm_num) hout h
  refine ⟨o, o', o'', h, h', hok, r.trans hok, t, h'', ?_⟩
  rw [show (3 : Nat) = [(1 : Byte), 2, 3].length from rfl, C98_repeated_salt (m := [1, 2, 3]) (m' := [7, 8, 9]) g rfl (show 3 < 2 ^ 64 by norm_num) hout h h'' hok]
  decide

/-- Non-vacuity: two runs of the program on different files of the same length. -/
example (sha : ShaHw) (hw : AesHw) (a b : Bytes) (hlen : b.length = a.length) (ha : a.length + 128 < 2 ^ 64) :
    ∃ o o', perform (exMain sha hw "in".toList [a]) exRequest = .ok (some o) ∧ perform (exMain sha hw "in".toList [b]) exRequest = .ok (some o') ∧
      o.exit = 0 ∧ o'.exit = 0 ∧ o'.out.length = o.out.length ∧ o'.ev = o.ev := by
  have fl (x : Bytes) : [x].flatten = x := by rw [List.flatten_cons, List.flatten_nil, List.append_nil]
  obtain ⟨o, h, h0, -⟩ := exMain_enc sha hw [a] (by rw [fl]; exact ha)
  rw [C33_accepted (exMain sha hw "in".toList [a]) rfl (by show 2 ^ 64 - 1 < 2 ^ 64; norm_num) "scrypt".toList exArgs (by unfold NoNul; decide) exRequest
    (exRequests _ _)] at h
  obtain ⟨o', h', e1, -, -, e4, e5, -⟩ := C98_program (env := exMain sha hw "in".toList [a]) (pe' := (exMain sha hw "in".toList [b]).pe)
    (cut' := (exMain sha hw "in".toList [b]).cut) (oi := (exMain sha hw "in".toList [b]).openIn) (exEnc_good sha hw exSalt_length) (q := exRequest) rfl
    (exSession sha hw [a]) (exSession sha hw [b]) (fun _ _ _ => rfl)
    (show [b].flatten.length = [a].flatten.length by rw [fl, fl, hlen]) rfl (show [a].flatten.length < 2 ^ 64 by rw [fl]; omega) h
  exact ⟨o, o', h, h', h0, e1.trans h0, e5, e4⟩

end Scrypt.Props
