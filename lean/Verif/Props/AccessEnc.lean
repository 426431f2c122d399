import Verif.Proofs.AccessEncMem
import Verif.Props.Overlap
import Verif.Proofs.EncStream
/-
C81: once the key is derived, what encrypting and decrypting read and write in memory (AES-CTR with each implementation, HMAC-SHA256, the header and both
comparisons) depends on lengths and positions only: not on the passphrase, the key, the data, or whether the comparison succeeds. Inside OpenSSL nothing is logged.
-/
namespace Scrypt.Props
open Scrypt Spec Logged

/-- If all the runs of a family log the same accesses, then one list of accesses serves them all. -/
theorem one_log {ι α : Type} (T : ι → Logged α) (M : ι → Res α) (he : ∀ i, erase (T i) = M i) (hs : ∀ i j, SameTr Anyhow (T i) (T j)) :
    ∃ tr : List Acc, ∀ i r, M i = .ok r → T i = Res.ok (r, tr) := by
  by_cases h : ∃ i r u, T i = Res.ok (r, u)
  · obtain ⟨i, r, u, e⟩ := h
    refine ⟨u, fun j r' e' => ?_⟩
    rw [← he j] at e'
    cases hT : T j with
    | ok c =>
      obtain ⟨c1, c2⟩ := c
      rw [hT] at e'
      obtain rfl : c1 = r' := Res.ok.inj e'
      rw [(hs i j r u c1 c2 e hT).1]
    | ub => rw [hT] at e'; cases e'
    | abort => rw [hT] at e'; cases e'
  · refine ⟨[], fun j r' e' => ?_⟩
    rw [← he j] at e'
    cases hT : T j with
    | ok c => exact absurd ⟨j, c.1, c.2, hT⟩ h
    | ub => rw [hT] at e'; cases e'
    | abort => rw [hT] at e'; cases e'

/-- The elements of `A` read, and those written, in `tr` are exactly those in `R` and in `W`. -/
def Exactly (tr : List Acc) (A : Arr) (R W : Nat → Prop) : Prop :=
  ∀ i, ((⟨A, i, false⟩ : Acc) ∈ tr ↔ R i) ∧ ((⟨A, i, true⟩ : Acc) ∈ tr ↔ W i)

/-- `i` is one of the `n` indices from `o` on. -/
def From (o n i : Nat) : Prop := o ≤ i ∧ i < o + n

/-- **C81.**  AES-CTR: for a stream at a given position (and a kind of expanded key), and given the places of the two buffers and the length, one list of accesses serves
every key, every nonce and all data; the bytes of the buffers it contains are exactly the input's, read, and the output's, written. -/
theorem C81_stream (hw : AesHw) (ossl : Ossl) (junk : Bytes) (s0 : CtrStream) (inp outp n : Nat) : ∃ tr : List Acc,
    ∀ (s : CtrStream) (mem : Bytes), StreamLike s0 s → ∀ r, crypto_aesctr_streamM hw ossl junk s mem inp outp n = .ok r →
      crypto_aesctr_streamT (.c .mem) hw ossl junk s mem inp outp n = Res.ok (r, tr) ∧ Exactly tr (.c .mem) (From inp n) (From outp n) := by
  obtain ⟨tr, h⟩ := one_log (ι := { s : CtrStream // StreamLike s0 s } × Bytes)
    (fun x => crypto_aesctr_streamT (.c .mem) hw ossl junk x.1.1 x.2 inp outp n) (fun x => crypto_aesctr_streamM hw ossl junk x.1.1 x.2 inp outp n)
    (fun x => streamT_erase _ _ _ _ _ _ _ _ _)
    (fun x y => (same_streamT _ _ _ _ _ _ ⟨by
      have := x.1.2.key
      have hy := y.1.2.key
      revert this hy
      generalize s0.key = a, x.1.1.key = b, y.1.1.key = c
      cases a <;> cases b <;> cases c <;> simp only [KeyLike] <;> intros <;> simp_all, x.1.2.ctr.symm.trans y.1.2.ctr, x.1.2.low.symm.trans y.1.2.low⟩ _ _ _ _ _).mono fun _ _ _ => trivial)
  refine ⟨tr, fun s mem hs r e => ?_⟩
  have := h (⟨s, hs⟩, mem) r e
  exact ⟨this, acts_streamT .mem hw ossl junk s mem inp outp n _ _ this⟩

/-- **C81.**  Building the header: one list of accesses serves all parameters, salts and keys. -/
theorem C81_header (sys : EncSys) : ∃ tr : List Acc, ∀ (P : EncParams) (salt dk h : Bytes), writeHeader sys P salt dk = .ok h →
    writeHeaderT sys sys.sha P salt dk = Res.ok (h, tr) := by
  obtain ⟨tr, h⟩ := one_log (ι := EncParams × Bytes × Bytes) (fun x => writeHeaderT sys sys.sha x.1 x.2.1 x.2.2) (fun x => writeHeader sys x.1 x.2.1 x.2.2)
    (fun x => writeHeaderT_erase rfl _ _ _) (fun x y => same_writeHeaderT _ _ _ _ _ _ _ _)
  exact ⟨tr, fun P salt dk r e => h (P, salt, dk) r e⟩

/-- **C81.**  Checking the header's signature (is this the right passphrase?): one list of accesses serves all headers and keys, the right and the wrong. -/
theorem C81_check (sys : EncSys) (A : Arr) (off : Nat) : ∃ tr : List Acc, ∀ (header : Bytes) (P : EncParams) (err : List Msg) (o : ScOut) (st : Option SmixImpl) (r : SetupOut),
    checkSig sys header P err o st = .ok r → checkSigT sys sys.sha A off header P err o st = Res.ok (r, tr) := by
  obtain ⟨tr, h⟩ := one_log (ι := Bytes × EncParams × List Msg × ScOut × Option SmixImpl) (fun x => checkSigT sys sys.sha A off x.1 x.2.1 x.2.2.1 x.2.2.2.1 x.2.2.2.2)
    (fun x => checkSig sys x.1 x.2.1 x.2.2.1 x.2.2.2.1 x.2.2.2.2) (fun x => checkSigT_erase rfl _ _ _ _ _ _ _) (fun x y => same_checkSigT _ _ _ _ _ _ _ _ _ _ _ _ _ _)
  exact ⟨tr, fun hd P err o st r e => h (hd, P, err, o, st) r e⟩

/-- **C81.**  `scryptenc_buf`, after the key derivation: given where the input and the output are and the length of the input, one list of accesses serves every successful
call, whatever the data, the passphrase, the salt and the parameters. It reads exactly the input and the container without its tag, and writes exactly the container. -/
theorem C81_enc (sys : EncSys) (inp n outp : Nat) : ∃ tr : List Acc,
    ∀ (mem : Bytes) (pwp pwlen : Nat) (P : EncParams) (verbose force : Bool) (o : BufOut), scryptenc_bufM sys mem inp n outp pwp pwlen P verbose force = .ok o → o.rc = .OK →
      (∃ pw s, rdSlice mem pwp pwlen = .ok pw ∧ scryptenc_setup sys pw P verbose force = .ok s ∧ s.rc = .OK ∧ encBufBodyT sys sys.sha mem inp n outp s = Res.ok (o, tr)) ∧
      Exactly tr (.c .mem) (fun i => From inp n i ∨ From outp (96 + n) i) (From outp (n + 128)) := by
  obtain ⟨tr, h⟩ := one_log (ι := Bytes × SetupOut) (fun x => encBufBodyT sys sys.sha x.1 inp n outp x.2) (fun x => encBufBodyM sys x.1 inp n outp x.2)
    (fun x => encBufT_erase rfl _ _ _ _ _) (fun x y => same_encBufT _ _ _ _ _ _ _ _ _)
  refine ⟨tr, fun mem pwp pwlen P verbose force o e hok => ?_⟩
  unfold scryptenc_bufM at e
  rw [Res.bind_eq_ok] at e
  obtain ⟨_, -, e⟩ := e
  rw [Res.bind_eq_ok] at e
  obtain ⟨pw, hpw, e⟩ := e
  rw [Res.bind_eq_ok] at e
  obtain ⟨s, hs, e⟩ := e
  split at e
  next hrc =>
    obtain rfl := Res.ok.inj e
    exact absurd hok hrc
  next hrc =>
    have ht := h (mem, s) o e
    exact ⟨⟨pw, s, hpw, hs, by simpa using hrc, ht⟩, encBufT_bytes ht hok⟩

/-- **C81.**  `scryptdec_buf`, after the passphrase has been found to be right: given where the input and the output are and the length of the input, one list of accesses
serves every call whether it accepts the data or finds it tampered with. It reads exactly the input, all of it, and writes exactly the plaintext. -/
theorem C81_dec (sys : EncSys) (inp n outp : Nat) (hn : 128 ≤ n) : ∃ tr : List Acc,
    ∀ (mem : Bytes) (outlen pwp pwlen : Nat) (P : EncParams) (verbose force : Bool) (inbuf pw : Bytes) (s : SetupOut) (o : BufOut),
      scryptdec_bufM sys mem inp n outp outlen pwp pwlen P verbose force = .ok o → rdSlice mem inp n = .ok inbuf → inbuf.take 7 = magic ++ [0] → rdSlice mem pwp pwlen = .ok pw →
      scryptdec_setup sys inbuf pw P verbose force = .ok s → s.rc = .OK →
      decBufBodyT sys sys.sha mem inp n outp outlen s = Res.ok (o, tr) ∧
      (o.rc = .OK ∨ o.rc = .EINVAL → Exactly tr (.c .mem) (From inp n) (From outp (n - 128))) := by
  obtain ⟨tr, h⟩ := one_log (ι := Bytes × Nat × SetupOut) (fun x => decBufBodyT sys sys.sha x.1 inp n outp x.2.1 x.2.2) (fun x => decBufBodyM sys x.1 inp n outp x.2.1 x.2.2)
    (fun x => decBufT_erase rfl _ _ _ _ _ _) (fun x y => same_decBufT _ _ _ _ _ _ _ _ _ _ _)
  refine ⟨tr, fun mem outlen pwp pwlen P verbose force inbuf pw s o e hin hmag hpw hs hrc => ?_⟩
  unfold scryptdec_bufM at e
  rw [Res.bind_eq_ok] at e
  obtain ⟨_, -, e⟩ := e
  rw [hin, Res.bind_ok] at e
  have hlen : inbuf.length = n := rdSlice_length hin
  have h6 : inbuf.take 6 = [0x73, 0x63, 0x72, 0x79, 0x70, 0x74] := by
    have := congrArg (List.take 6) hmag
    rw [List.take_take] at this
    exact this
  have h7 : inbuf[6]? = some 0 := by
    have := congrArg (fun l => l[6]?) hmag
    simp only [List.getElem?_take] at this
    exact this
  rw [if_neg (by rw [h6]; simp; omega)] at e
  have hrd : rd inbuf 6 = .ok 0 := by unfold rd; rw [h7]
  rw [hrd, Res.bind_ok, if_neg (by simp), if_neg (by omega), hpw, Res.bind_ok, hs, Res.bind_ok, if_neg (by rw [hrc]; simp)] at e
  have ht := h (mem, outlen, s) o e
  exact ⟨ht, fun hok => decBufT_bytes hn ht hok⟩

/-- **C81.**  `scryptenc_file`, after the key derivation: given the lengths of the pieces in which the input arrives, whether reading it fails, and how much the output
takes, one list of accesses serves every call. -/
theorem C81_enc_file (sys : EncSys) (shape : List Nat) (err : Bool) (room : Option Nat) : ∃ tr : List Acc,
    ∀ (inf : InFile) (outf : OutFile) (passwd : Bytes) (P : EncParams) (verbose force : Bool) (s : SetupOut) (o : FileOut), inf.segs.map List.length = shape → inf.err = err →
      outf.room = room → scryptenc_file sys inf outf passwd P verbose force = .ok o → scryptenc_setup sys passwd P verbose force = .ok s → s.rc = .OK →
      encFileBodyA sys sys.sha inf outf s = Res.ok (o, tr) := by
  obtain ⟨tr, h⟩ := one_log (ι := { f : InFile // f.segs.map List.length = shape ∧ f.err = err } × { f : OutFile // f.room = room } × SetupOut)
    (fun x => encFileBodyA sys sys.sha x.1.1 x.2.1.1 x.2.2) (fun x => encFileBodyM sys x.1.1 x.2.1.1 x.2.2) (fun x => encFileT_erase rfl _ _ _)
    (fun x y => same_encFileT _ _ _ _ (x.1.2.1.trans y.1.2.1.symm) (x.1.2.2.trans y.1.2.2.symm) _ _ (x.2.1.2.trans y.2.1.2.symm) _ _)
  refine ⟨tr, fun inf outf passwd P verbose force s o hsh herr hroom e hs hrc => ?_⟩
  rw [← C80_files.1] at e
  unfold scryptenc_fileM at e
  rw [Res.bind_eq_ok] at e
  obtain ⟨_, -, e⟩ := e
  rw [hs, Res.bind_ok, if_neg (by rw [hrc]; simp)] at e
  exact h (⟨inf, hsh, herr⟩, ⟨outf, hroom⟩, s) o e

/-- **C81.**  `scryptdec_file_copy`: the same, whether the tag at the end of the file is right or not. -/
theorem C81_dec_file (sys : EncSys) (shape : List Nat) (err : Bool) (room : Option Nat) : ∃ tr : List Acc,
    ∀ (c : Cookie) (outf : OutFile) (o : CopyOut), c.inf.segs.map List.length = shape → c.inf.err = err → outf.room = room → scryptdec_file_copy sys c outf = .ok o →
      scryptdec_file_copyA sys sys.sha c outf = Res.ok (o, tr) := by
  obtain ⟨tr, h⟩ := one_log (ι := { c : Cookie // c.inf.segs.map List.length = shape ∧ c.inf.err = err } × { f : OutFile // f.room = room })
    (fun x => scryptdec_file_copyA sys sys.sha x.1.1 x.2.1) (fun x => scryptdec_file_copyM sys x.1.1 x.2.1) (fun x => decCopyT_erase rfl _ _)
    (fun x y => same_decCopyT _ _ _ _ (x.1.2.1.trans y.1.2.1.symm) (x.1.2.2.trans y.1.2.2.symm) _ _ (x.2.2.trans y.2.2.symm))
  refine ⟨tr, fun c outf o hsh herr hroom e => ?_⟩
  rw [← C80_files.2] at e
  exact h (⟨c, hsh, herr⟩, ⟨outf, hroom⟩) o e

/-- A `scryptdec_buf` that succeeds has got past the setup. -/
theorem dec_reached {sys : EncSys} {mem : Bytes} {inp n outp outlen pwp pwlen : Nat} {P : EncParams} {verbose force : Bool} {o : BufOut}
    (e : scryptdec_bufM sys mem inp n outp outlen pwp pwlen P verbose force = .ok o) (hok : o.rc = .OK) : 128 ≤ n ∧ ∃ inbuf pw s,
    rdSlice mem inp n = .ok inbuf ∧ inbuf.take 7 = magic ++ [0] ∧ rdSlice mem pwp pwlen = .ok pw ∧ scryptdec_setup sys inbuf pw P verbose force = .ok s ∧ s.rc = .OK := by
  unfold scryptdec_bufM at e
  rw [Res.bind_eq_ok] at e
  obtain ⟨_, -, e⟩ := e
  rw [Res.bind_eq_ok] at e
  obtain ⟨inbuf, hin, e⟩ := e
  split at e
  · obtain rfl := Res.ok.inj e; cases hok
  next hmag =>
    rw [Res.bind_eq_ok] at e
    obtain ⟨v, hv, e⟩ := e
    split at e
    · obtain rfl := Res.ok.inj e; cases hok
    next hv0 =>
      split at e
      · obtain rfl := Res.ok.inj e; cases hok
      next hn =>
        rw [Res.bind_eq_ok] at e
        obtain ⟨pw, hpw, e⟩ := e
        rw [Res.bind_eq_ok] at e
        obtain ⟨s, hs, e⟩ := e
        split at e
        next hrc => obtain rfl := Res.ok.inj e; exact absurd hok hrc
        next hrc =>
          refine ⟨by omega, inbuf, pw, s, hin, ?_, hpw, hs, by simpa using hrc⟩
          have h6 : inbuf.take 6 = [0x73, 0x63, 0x72, 0x79, 0x70, 0x74] := by
            by_cases h : inbuf.take 6 = [0x73, 0x63, 0x72, 0x79, 0x70, 0x74]
            · exact h
            · exact absurd (.inr h) hmag
          have h7 : inbuf[6]? = some 0 := by
            rw [rd_got hv]
            congr 1
            by_cases h : v = 0
            · exact h
            · exact absurd h hv0
          rw [List.take_add_one (i := 6), h6, h7]
          rfl

set_option maxRecDepth 4000 in
/-- Non-vacuity for `C81_enc`, `C81_stream` and `C81_header`: two calls, with different data and different passphrases, both succeed, and make the same accesses. -/
example (sha : ShaHw) (hw : AesHw) : ∃ (mem mem' : Bytes) (o o' : BufOut) (s s' : SetupOut) (tr : List Acc), region mem 96 3 ≠ region mem' 96 3 ∧ region mem 190 4 ≠ region mem' 190 4 ∧
    scryptenc_bufM (exEnc sha hw exSalt) mem 96 3 0 190 4 exP false false = .ok o ∧ o.rc = .OK ∧
    scryptenc_bufM (exEnc sha hw exSalt) mem' 96 3 0 190 4 exP true true = .ok o' ∧ o'.rc = .OK ∧
    encBufBodyT (exEnc sha hw exSalt) sha mem 96 3 0 s = Res.ok (o, tr) ∧ encBufBodyT (exEnc sha hw exSalt) sha mem' 96 3 0 s' = Res.ok (o', tr) ∧
    (⟨.c .mem, 97, false⟩ : Acc) ∈ tr ∧ (⟨.c .mem, 130, true⟩ : Acc) ∈ tr ∧ (⟨.c .mem, 131, true⟩ : Acc) ∉ tr := by
  have g := exEnc_good sha hw exSalt_length
  obtain ⟨o, h, hok, -⟩ := exEnc_buf sha hw exSalt_length (region exArea 96 3) (region exArea 0 131) (region exArea 190 4) (by decide) (by decide) false false
  obtain ⟨o', h', hok', -⟩ := exEnc_buf sha hw exSalt_length (region (List.replicate 200 9) 96 3) (region (List.replicate 200 9) 0 131) (region (List.replicate 200 9) 190 4)
    (by decide) (by decide) true true
  have e := C80_enc g exArea 96 3 0 190 4 exP false false (by decide) (by decide) (by decide) (by decide)
  have e' := C80_enc g (List.replicate 200 9) 96 3 0 190 4 exP true true (by decide) (by decide) (by decide) (by decide)
  rw [h, Res.bind_ok] at e
  rw [h', Res.bind_ok] at e'
  obtain ⟨tr, ht⟩ := C81_enc (exEnc sha hw exSalt) 96 3 0
  obtain ⟨⟨pw, s, -, -, -, q⟩, hx⟩ := ht exArea 190 4 exP false false _ e hok
  obtain ⟨⟨pw', s', -, -, -, q'⟩, -⟩ := ht (List.replicate 200 9) 190 4 exP true true _ e' hok'
  refine ⟨exArea, List.replicate 200 9, _, _, s, s', tr, by decide, by decide, e, hok, e', hok', q, q', (hx 97).1.2 (.inl ⟨by decide, by decide⟩), (hx 130).2.2 ⟨by decide, by decide⟩,
    fun hm => ?_⟩
  have := ((hx 131).2.1 hm).2
  omega

/-- Non-vacuity for `C81_dec`: a container is accepted, so the setup was reached and succeeded, and its 131 bytes were read. -/
example (sha : ShaHw) (hw : AesHw) : ∃ (mem : Bytes) (o : BufOut) (s : SetupOut) (tr : List Acc), scryptdec_bufM (exEnc sha hw exSalt) mem 0 131 131 77 262 4 exP0 true false = .ok o ∧
    o.rc = .OK ∧ decBufBodyT (exEnc sha hw exSalt) sha mem 0 131 131 77 s = Res.ok (o, tr) ∧ (⟨.c .mem, 130, false⟩ : Acc) ∈ tr := by
  obtain ⟨mem, -, o, -, -, -, e, hok, -⟩ := exDec_area sha hw
  obtain ⟨hn, inbuf, pw, s, h1, h2, h3, h4, h5⟩ := dec_reached e hok
  obtain ⟨tr, ht⟩ := C81_dec (exEnc sha hw exSalt) 0 131 131 hn
  obtain ⟨q, hx⟩ := ht mem 77 262 4 exP0 true false inbuf pw s o e h1 h2 h3 h4 h5
  exact ⟨mem, o, s, tr, e, hok, q, (hx (.inl hok) 130).1.2 ⟨by decide, by decide⟩⟩

/-- Non-vacuity for `C81_enc_file`: the file is encrypted. -/
example (sha : ShaHw) (hw : AesHw) : ∃ (s : SetupOut) (o : FileOut) (tr : List Acc),
    scryptenc_file (exEnc sha hw exSalt) ⟨[[1, 2], [3]], false⟩ ⟨[], none⟩ [7] exP false false = .ok o ∧ o.rc = .OK ∧
    encFileBodyA (exEnc sha hw exSalt) sha ⟨[[1, 2], [3]], false⟩ ⟨[], none⟩ s = Res.ok (o, tr) := by
  obtain ⟨o, e, hok, -⟩ := exEnc_file sha hw exSalt_length ⟨[[1, 2], [3]], false⟩ ⟨[], none⟩ [7] (by decide) rfl (by intro k hk; cases hk) false false
  have e' := e
  unfold scryptenc_file at e'
  rw [Res.bind_eq_ok] at e'
  obtain ⟨_, -, e'⟩ := e'
  rw [Res.bind_eq_ok] at e'
  obtain ⟨s, hs, e'⟩ := e'
  split at e'
  next hrc => obtain rfl := Res.ok.inj e'; exact absurd hok hrc
  next hrc =>
    obtain ⟨tr, ht⟩ := C81_enc_file (exEnc sha hw exSalt) [2, 1] false none
    exact ⟨s, o, tr, e, hok, ht _ _ [7] exP false false s o rfl rfl rfl e hs (by simpa using hrc)⟩

/-- Non-vacuity for `C81_dec_file`: two cookies of which both runs return, so they make the same accesses. -/
example (sha : ShaHw) (hw : AesHw) : ∃ (o o' : CopyOut) (tr : List Acc),
    scryptdec_file_copyA (exEnc sha hw exSalt) sha ⟨⟨[List.replicate 40 1], false⟩, List.replicate 96 2, List.replicate 64 3⟩ ⟨[], none⟩ = Res.ok (o, tr) ∧
    scryptdec_file_copyA (exEnc sha hw exSalt) sha ⟨⟨[List.replicate 40 4], false⟩, List.replicate 96 5, List.replicate 64 6⟩ ⟨[9], none⟩ = Res.ok (o', tr) := by
  have g := exEnc_good sha hw exSalt_length
  obtain ⟨tr, ht⟩ := C81_dec_file (exEnc sha hw exSalt) [40] false none
  obtain ⟨o, e, -⟩ := decCopy_ok g ⟨⟨[List.replicate 40 1], false⟩, List.replicate 96 2, List.replicate 64 3⟩ ⟨[], none⟩ (by simp) (by simp) (by decide)
  obtain ⟨o', e', -⟩ := decCopy_ok g ⟨⟨[List.replicate 40 4], false⟩, List.replicate 96 5, List.replicate 64 6⟩ ⟨[9], none⟩ (by simp) (by simp) (by decide)
  exact ⟨o, o', tr, ht _ _ o rfl rfl rfl e, ht _ _ o' rfl rfl rfl e'⟩

end Scrypt.Props
