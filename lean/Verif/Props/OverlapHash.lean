import Verif.Proofs.OverlapHash
import Verif.Proofs.OverlapDrbg
import Verif.Props.Scrypt
import Verif.Spec.Regions
/-
C82: the output of hashing and of key derivation may lie on top of its inputs.

All buffers of a call are regions of one memory (`Model/OverlapHash.lean`) and may overlap in any way. The
memory afterwards is the memory before with the result stored over the output region, and the result is the
one computed from the bytes the input regions held before the call.
-/
namespace Scrypt.Props
open Spec

/-- C82, `SHA256_Buf(&mem[inp], len, &mem[outp])`. -/
theorem C82_sha256 (hw : ShaHw) (ctx : SHA256_CTX) (hc : ctx.Sized) (mem : Bytes) (inp len outp : Nat)
    (hin : inp + len ≤ mem.length) (hout : outp + 32 ≤ mem.length) :
    SHA256_BufM (shaTransform hw) ctx mem inp len outp = .ok (store mem outp (sha256 (region mem inp len))) :=
  SHA256_BufM_eq _ (goodTf hw) ctx hc mem inp len outp hin hout

/-- C82, `HMAC_SHA256_Buf(&mem[kp], klen, &mem[inp], len, &mem[outp])`. -/
theorem C82_hmac (hw : ShaHw) (ctx : HMAC_SHA256_CTX) (hc : ctx.Sized) (mem : Bytes) (kp klen inp len outp : Nat)
    (hk : kp + klen ≤ mem.length) (hin : inp + len ≤ mem.length) (hout : outp + 32 ≤ mem.length) :
    HMAC_SHA256_BufM (shaTransform hw) ctx mem kp klen inp len outp =
      .ok (store mem outp (hmac (region mem kp klen) (region mem inp len))) :=
  HMAC_SHA256_BufM_eq _ (goodTf hw) ctx hc mem kp klen inp len outp hk hin hout

/-- C82, `PBKDF2_SHA256(&mem[pp], plen, &mem[sp], slen, c, &mem[bp], dkLen)`. -/
theorem C82_pbkdf2 (hw : ShaHw) (junk : HMAC_SHA256_CTX) (hj : junk.Sized) (mem : Bytes) (pp plen sp slen c bp dkLen : Nat)
    (hc : 1 ≤ c) (hd : dkLen ≤ 32 * (2 ^ 32 - 1)) (hp : pp + plen ≤ mem.length) (hs : sp + slen ≤ mem.length) (hb : bp + dkLen ≤ mem.length) :
    PBKDF2_SHA256M (shaTransform hw) junk mem pp plen sp slen c bp dkLen =
      .ok (store mem bp (pbkdf2 (region mem pp plen) (region mem sp slen) c dkLen)) :=
  PBKDF2_SHA256M_eq _ (goodTf hw) junk hj mem pp plen sp slen c bp dkLen hc hd hp hs hb

/-- The outcome with the output array put back into the memory it is a region of. -/
def scInMem (mem : Bytes) (bp : Nat) (o : ScOut) : ScOut := { o with buf := store mem bp o.buf }

theorem scryptCheck_len {szMax : Nat} (hs : IsSizeMax szMax) {N : W64} {r p : W32} {buflen : Nat} (hbs : buflen ≤ szMax)
    (h : scryptCheck szMax N r p buflen = none) : buflen ≤ 32 * (2 ^ 32 - 1) :=
  ((scryptCheck_none_iff szMax hs N r p buflen hbs).1 h).len

theorem store_same {mem : Bytes} {bp n : Nat} (h : bp + n ≤ mem.length) : store mem bp (sl mem bp n) = mem := by
  refine List.ext_getElem? fun i => ?_
  show (ow mem bp (sl mem bp n))[i]? = _
  rw [ow_getElem? _ _ _ (by rw [sl_length _ _ _ h]; exact h), sl_length _ _ _ h]
  by_cases h1 : bp ≤ i ∧ i < bp + n
  · rw [if_pos h1, sl_getElem?, if_pos (by omega), show bp + (i - bp) = i by omega]
  · rw [if_neg h1]

theorem internalM_eq (szMax : Nat) (hs : IsSizeMax szMax) (env : ScEnv) (tf : Transform) (ht : GoodTf tf) (junk : HMAC_SHA256_CTX) (hj : junk.Sized)
    (mem : Bytes) (pp plen sp slen : Nat) (N : W64) (r p : W32) (bp buflen : Nat) (smix : SmixFn) (hbs : buflen ≤ szMax)
    (hp : pp + plen ≤ mem.length) (hsl : sp + slen ≤ mem.length) (hb : bp + buflen ≤ mem.length) :
    crypto_scrypt_internalM szMax env tf junk mem pp plen sp slen N r p bp buflen smix =
      (crypto_scrypt_internal szMax env tf junk (sl mem pp plen) (sl mem sp slen) N r p (sl mem bp buflen) buflen smix >>= fun o =>
        .ok (scInMem mem bp o)) := by
  have hl := sl_length mem bp buflen hb
  unfold crypto_scrypt_internalM crypto_scrypt_internal
  simp only
  cases hck : scryptCheck szMax N r p buflen with
  | some e => simp only [Res.bind_ok, scErr0, scInMem, store_same hb]
  | none =>
  simp only
  cases env.allocB (128 * r.toNat * p.toNat % (szMax + 1)) with
  | none => simp only [Res.bind_ok, scErr0, scInMem, store_same hb]
  | some B =>
  simp only
  cases env.allocXY ((256 * r.toNat + 64) % (szMax + 1)) with
  | none => simp only [Res.bind_ok, scErr0, scErr1, scInMem, store_same hb]
  | some XY =>
  simp only
  cases env.allocV (128 * r.toNat * N.toNat % (szMax + 1)) with
  | none => simp only [Res.bind_ok, scErr0, scErr1, scErr2, scInMem, store_same hb]
  | some V =>
  simp only
  rw [PBKDF2_SHA256_to_eq tf ht junk hj _ _ _ _ _ _ _ _ hp hsl, bind_assoc]
  refine Res.Rel.toEq (Res.Rel.same fun B1 => ?_)
  rw [bind_assoc]
  refine Res.Rel.same fun ⟨B2, _, _⟩ => ?_
  simp only
  rw [bind_assoc]
  refine Res.Rel.same fun Bs => ?_
  have hd := scryptCheck_len hs hbs hck
  rw [PBKDF2_SHA256_from_eq tf ht junk hj _ _ _ _ _ _ _ (Nat.le_refl 1) hd hp hb, PBKDF2_SHA256_spec tf ht junk hj _ _ _ (Nat.le_refl 1) _ _ hd (by omega),
    List.drop_eq_nil_of_le (by omega), List.append_nil]
  simp only [Res.bind_ok]
  cases env.munmapOk <;> exact rfl

/-- C82, `crypto_scrypt(&mem[pp], plen, &mem[sp], slen, N, r, p, &mem[bp], buflen)`: whatever the call does
with three separate buffers it does with overlapping ones, the output going into the common memory. In
particular a refused or failed call leaves the memory as that call leaves its output buffer. -/
theorem C82_scrypt_same (hw : ShaHw) (szMax : Nat) (hs : IsSizeMax szMax) (sse2Ok : Bool) (e1 e2 env : ScEnv)
    (junk : HMAC_SHA256_CTX) (hj : junk.Sized) (hbuf : Bytes) (st : Option SmixImpl)
    (mem : Bytes) (pp plen sp slen : Nat) (N : W64) (r p : W32) (bp buflen : Nat) (hbs : buflen ≤ szMax)
    (hp : pp + plen ≤ mem.length) (hsl : sp + slen ≤ mem.length) (hb : bp + buflen ≤ mem.length) :
    crypto_scryptM szMax sse2Ok e1 e2 env (shaTransform hw) junk hbuf smixImpl st mem pp plen sp slen N r p bp buflen =
      (crypto_scrypt szMax sse2Ok e1 e2 env (shaTransform hw) junk hbuf smixImpl st (region mem pp plen) (region mem sp slen) N r p
        (region mem bp buflen) buflen >>= fun x => .ok (scInMem mem bp x.1, x.2)) := by
  have key : ∀ f : SmixImpl, (crypto_scrypt_internalM szMax env (shaTransform hw) junk mem pp plen sp slen N r p bp buflen (smixImpl f) >>= fun o =>
      Res.ok (o, some f)) = ((crypto_scrypt_internal szMax env (shaTransform hw) junk (region mem pp plen) (region mem sp slen) N r p
        (region mem bp buflen) buflen (smixImpl f) >>= fun o => Res.ok (o, some f)) >>= fun x => .ok (scInMem mem bp x.1, x.2)) := by
    intro f
    rw [internalM_eq szMax hs env _ (goodTf hw) junk hj mem pp plen sp slen N r p bp buflen _ hbs hp hsl hb, bind_assoc, bind_assoc]
    rfl
  unfold crypto_scryptM crypto_scrypt
  cases st with
  | some f => exact key f
  | none =>
    simp only [Res.pure_eq]
    rw [bind_assoc]
    congr 1; funext f
    exact key f

/-- C82, `crypto_scrypt`: when it returns 0, the output region holds scrypt of the password and the salt that
were in memory before the call, and nothing else in memory has changed. -/
theorem C82_scrypt (hw : ShaHw) (szMax : Nat) (hs : IsSizeMax szMax) (sse2Ok : Bool) (e1 e2 env : ScEnv) (he : env.Sized)
    (junk : HMAC_SHA256_CTX) (hj : junk.Sized) (hbuf : Bytes) (st : Option SmixImpl)
    (mem : Bytes) (pp plen sp slen : Nat) (N : W64) (r p : W32) (bp buflen : Nat) (hbs : buflen ≤ szMax)
    (hp : pp + plen ≤ mem.length) (hsl : sp + slen ≤ mem.length) (hb : bp + buflen ≤ mem.length)
    (o : ScOut) (st' : Option SmixImpl)
    (h : crypto_scryptM szMax sse2Ok e1 e2 env (shaTransform hw) junk hbuf smixImpl st mem pp plen sp slen N r p bp buflen = .ok (o, st'))
    (h0 : o.rc = 0) (h25 : p.toNat ≤ 2 ^ 25) :
    o.buf = store mem bp (Spec.scrypt (region mem pp plen) (region mem sp slen) N.toNat r.toNat p.toNat buflen) := by
  rw [C82_scrypt_same hw szMax hs sse2Ok e1 e2 env junk hj hbuf st mem pp plen sp slen N r p bp buflen hbs hp hsl hb] at h
  obtain ⟨⟨o1, s1⟩, h1, h2⟩ := Res.bind_eq_ok.mp h
  obtain ⟨rfl, rfl⟩ := Prod.mk.inj (Res.ok.inj h2)
  have hl : (region mem bp buflen).length = buflen := sl_length mem bp buflen hb
  have := C21_rfc7914 hw szMax hs sse2Ok e1 e2 env he junk hj hbuf st _ _ N r p _ buflen (by omega) hbs o1 s1 h1 h0 h25
  rw [List.drop_eq_nil_of_le (by omega), List.append_nil] at this
  show store mem bp o1.buf = _
  rw [this]

/-- C82, the generator's update (NIST SP 800-90A 10.1.2.2) on the 64 bytes of its state, the local copy of V
being hashed onto itself. -/
theorem C82_drbg_update (hw : ShaHw) (junk : HMAC_SHA256_CTX) (hj : junk.Sized) (rd : Bool) (frame K V : Bytes)
    (hf : frame.length = 65) (hK : K.length = 32) (hV : V.length = 32) (data : Bytes) :
    updateM ⟨shaTransform hw, junk, rd⟩ frame (K ++ V) data = .ok ((Spec.Drbg.update K V data).1 ++ (Spec.Drbg.update K V data).2) :=
  updateM_eq hK hV ⟨goodTf hw, hj⟩ frame hf data

/-- C82, the generator's output (NIST SP 800-90A 10.1.2.5) on the 64 bytes of its state, V being hashed onto
itself: the same bytes and the same new state as with separate buffers. -/
theorem C82_drbg_generate (hw : ShaHw) (junk : HMAC_SHA256_CTX) (hj : junk.Sized) (rd : Bool) (frame K V : Bytes)
    (hf : frame.length = 65) (hK : K.length = 32) (hV : V.length = 32) (ctr : W32) (inst : Bool) (buf : Bytes) (off n : Nat) :
    generateM ⟨shaTransform hw, junk, rd⟩ frame (K ++ V) ctr buf off n =
      (generate ⟨shaTransform hw, junk, rd⟩ ⟨K, V, ctr, inst⟩ buf off n >>= fun r => .ok (r.1, r.2.Key ++ r.2.V, r.2.reseed_counter)) :=
  generateM_eq hK hV ⟨goodTf hw, hj⟩ frame hf ctr inst buf off n

/-- The hypotheses are met, and the call returns 0, with the derived key written over the password and the salt
it was derived from: in a memory of 70 bytes the password is at 3, the salt right behind it and the key at 0. -/
example (hw : ShaHw) (f : SmixImpl) (t : Bytes) (ht : t.length = 40) : ∃ o,
    crypto_scryptM (2 ^ 64 - 1) true okEnv okEnv okEnv (shaTransform hw) zeroHctx [] smixImpl (some f)
      ([9, 9, 9] ++ testPasswd ++ testSalt ++ t) 3 13 16 14 16 8 1 0 64 = .ok (o, some f) ∧ o.rc = 0 ∧
      o.buf = Spec.scrypt testPasswd testSalt 16 8 1 64 ++ t.drop 34 := by
  have hm : ([9, 9, 9] ++ testPasswd ++ testSalt ++ t).length = 70 := by simp [testPasswd, testSalt, ht]
  have hP : region ([9, 9, 9] ++ testPasswd ++ testSalt ++ t) 3 13 = testPasswd := by simp [region, testPasswd, testSalt]
  have hS : region ([9, 9, 9] ++ testPasswd ++ testSalt ++ t) 16 14 = testSalt := by simp [region, testPasswd, testSalt]
  obtain ⟨o, h, h0, -⟩ := C21_returns_zero hw (2 ^ 64 - 1) (Or.inr rfl) true okEnv okEnv okEnv okEnv_sized zeroHctx zeroHctx_ok [] f
    testPasswd testSalt 16 8 1 (region ([9, 9, 9] ++ testPasswd ++ testSalt ++ t) 0 64) 64 (Nat.le_of_eq (sl_length _ 0 64 (by omega)).symm) (by norm_num)
    (testParams _ (Or.inr rfl)) (Option.some_ne_none _) (Option.some_ne_none _) (Option.some_ne_none _) rfl
  have hM := C82_scrypt_same hw (2 ^ 64 - 1) (Or.inr rfl) true okEnv okEnv okEnv zeroHctx zeroHctx_ok [] (some f)
    ([9, 9, 9] ++ testPasswd ++ testSalt ++ t) 3 13 16 14 16 8 1 0 64 (by norm_num) (by omega) (by omega) (by omega)
  rw [hP, hS, h, Res.bind_ok] at hM
  refine ⟨_, hM, h0, ?_⟩
  have := C82_scrypt hw (2 ^ 64 - 1) (Or.inr rfl) true okEnv okEnv okEnv okEnv_sized zeroHctx zeroHctx_ok [] (some f)
    ([9, 9, 9] ++ testPasswd ++ testSalt ++ t) 3 13 16 14 16 8 1 0 64 (by norm_num) (by omega) (by omega) (by omega) _ _ hM h0 (by decide)
  rw [this, hP, hS, show (16 : W64).toNat = 16 from rfl, show (8 : W32).toNat = 8 from rfl, show (1 : W32).toNat = 1 from rfl]
  have hl : (Spec.scrypt testPasswd testSalt 16 8 1 64).length = 64 := by simp [Spec.scrypt, pbkdf2_length]
  unfold store
  rw [hl, List.take_zero, List.nil_append]
  congr 1

/-- The hypotheses of the others are met by buffers that overlap in part and in whole. -/
example (hw : ShaHw) : SHA256_BufM (shaTransform hw) .zero (List.range 40 |>.map (BitVec.ofNat 8)) 0 40 5 =
    .ok (store (List.range 40 |>.map (BitVec.ofNat 8)) 5 (sha256 (List.range 40 |>.map (BitVec.ofNat 8)))) :=
  C82_sha256 hw .zero ⟨rfl, rfl⟩ _ 0 40 5 (by simp) (by simp)
example (hw : ShaHw) (m : Bytes) (h : m.length = 64) : HMAC_SHA256_BufM (shaTransform hw) ⟨.zero, .zero⟩ m 0 32 0 64 0 =
    .ok (store m 0 (hmac (m.take 32) m)) := by
  rw [C82_hmac hw ⟨.zero, .zero⟩ ⟨⟨rfl, rfl⟩, rfl, rfl⟩ m 0 32 0 64 0 (by omega) (by omega) (by omega)]
  simp [region, List.take_of_length_le, h]
example (hw : ShaHw) (m : Bytes) (h : m.length = 100) : PBKDF2_SHA256M (shaTransform hw) ⟨.zero, .zero⟩ m 0 100 20 80 3 0 100 =
    .ok (pbkdf2 m (m.drop 20) 3 100) := by
  rw [C82_pbkdf2 hw ⟨.zero, .zero⟩ ⟨⟨rfl, rfl⟩, rfl, rfl⟩ m 0 100 20 80 3 0 100 (by omega) (by omega) (by omega) (by omega) (by omega)]
  have hl := pbkdf2_length m (m.drop 20) 3 100
  simp [region, List.take_of_length_le, h, store, hl, List.drop_eq_nil_of_le]

end Scrypt.Props
