import Verif.Proofs.ScryptSelect
/-
C21, C22, C23, C43: crypto_scrypt.

Reading guide.  `Spec.scrypt` (Spec/Scrypt.lean) is RFC 7914.  `crypto_scrypt szMax sse2Ok e1 e2 env tf
junk hbuf impl st P S N r p buf buflen` (Model/CryptoScrypt.lean) is a call of the C function: `st` is
the static selection made by earlier calls, `e1`, `e2`, `env` are what the system does in the two
self-tests and in the call proper, `tf` the SHA-256 block function in use, `junk`/`hbuf` uninitialised
stack contents.  The result is `.ok (o, st')` with `o.rc` the return value, `o.buf` the output buffer
and `o.live` the allocations never released; `.ub`/`.abort` are undefined behaviour and `abort()`.
-/
namespace Scrypt.Props
open Scrypt Spec

/-- An arbitrary but fixed system in which allocation always succeeds with dirty memory (for the
non-vacuity examples). -/
def okEnv : ScEnv where
  allocB n := some (List.replicate n 0xa5)
  allocXY n := some (List.replicate (n / 4) 0xdeadbeef)
  allocV n := some (List.replicate (n / 4) 0xdeadbeef)
  munmapOk := true

theorem okEnv_sized : okEnv.Sized := by
  constructor <;> intro n m h <;> cases h <;> simp

theorem zeroHctx_ok : zeroHctx.Sized := zeroHctx_sized

/-- What a call does, given the selection in force. -/
theorem call_inv {szMax : Nat} {sse2Ok : Bool} {e1 e2 env : ScEnv} {tf : Transform} {junk : HMAC_SHA256_CTX} {hbuf : Bytes}
    {impl : SmixImpl → SmixFn} {st : Option SmixImpl} {P S : Bytes} {N : W64} {r p : W32} {buf : Bytes} {buflen : Nat}
    {o : ScOut} {st' : Option SmixImpl}
    (h : crypto_scrypt szMax sse2Ok e1 e2 env tf junk hbuf impl st P S N r p buf buflen = .ok (o, st')) :
    ∃ f, st' = some f ∧ (st = some f ∨ st = none ∧ selectsmix szMax sse2Ok e1 e2 tf junk hbuf impl = .ok f) ∧
      crypto_scrypt_internal szMax env tf junk P S N r p buf buflen (impl f) = .ok o := by
  unfold crypto_scrypt at h
  cases st with
  | some f =>
    simp only [Res.pure_eq, Res.bind_ok] at h
    obtain ⟨a, ha, hb⟩ := Res.bind_eq_ok.1 h
    cases hb
    exact ⟨f, rfl, Or.inl rfl, ha⟩
  | none =>
    simp only at h
    obtain ⟨f, hf, h⟩ := Res.bind_eq_ok.1 h
    obtain ⟨a, ha, hb⟩ := Res.bind_eq_ok.1 h
    cases hb
    exact ⟨f, rfl, Or.inr ⟨rfl, hf⟩, ha⟩

/-! ### C21 -/

/-- C21. Whenever `crypto_scrypt` returns 0 and `p ≤ 2^25`, the first `buflen` bytes of the output
buffer are RFC 7914 scrypt and the rest is untouched — for every password, salt, parameters, history
(`st`), CPU (`hw`, `sse2Ok`), `size_t` width and allocator behaviour. -/
theorem C21_rfc7914 (hw : ShaHw) (szMax : Nat) (hs : IsSizeMax szMax) (sse2Ok : Bool) (e1 e2 env : ScEnv) (he : env.Sized)
    (junk : HMAC_SHA256_CTX) (hj : junk.Sized) (hbuf : Bytes) (st : Option SmixImpl)
    (P S : Bytes) (N : W64) (r p : W32) (buf : Bytes) (buflen : Nat) (hbl : buflen ≤ buf.length) (hbs : buflen ≤ szMax)
    (o : ScOut) (st' : Option SmixImpl)
    (h : crypto_scrypt szMax sse2Ok e1 e2 env (shaTransform hw) junk hbuf smixImpl st P S N r p buf buflen = .ok (o, st'))
    (h0 : o.rc = 0) (hp : p.toNat ≤ 2 ^ 25) :
    o.buf = Spec.scrypt P S N.toNat r.toNat p.toNat buflen ++ buf.drop buflen := by
  obtain ⟨f, -, -, hi⟩ := call_inv h
  rcases internal_total szMax hs env he _ (goodTf hw) junk hj _ (goodSmix f) P S N r p buf buflen hbl hbs with
    ⟨_, e, _, h1⟩ | ⟨_, ⟨_, h1⟩ | ⟨_, h1⟩⟩ <;> rw [hi] at h1 <;> cases h1
  · simp at h0
  · simp at h0
  · rw [scryptCode_eq _ _ _ _ _ _ hp] at h0 ⊢
    cases hm : env.munmapOk <;> rw [hm] at h0
    · simp at h0
    · simp

/-- C21, all accepted parameters: the exact value computed when `p` may exceed `2^25` (finding F13:
`i * 128` is computed in 32 bits, so `scryptCode` mixes block `b` as often as some `i < p` has
`i mod 2^25 = b`). -/
theorem C21_exact (hw : ShaHw) (szMax : Nat) (hs : IsSizeMax szMax) (sse2Ok : Bool) (e1 e2 env : ScEnv) (he : env.Sized)
    (junk : HMAC_SHA256_CTX) (hj : junk.Sized) (hbuf : Bytes) (st : Option SmixImpl)
    (P S : Bytes) (N : W64) (r p : W32) (buf : Bytes) (buflen : Nat) (hbl : buflen ≤ buf.length) (hbs : buflen ≤ szMax)
    (o : ScOut) (st' : Option SmixImpl)
    (h : crypto_scrypt szMax sse2Ok e1 e2 env (shaTransform hw) junk hbuf smixImpl st P S N r p buf buflen = .ok (o, st'))
    (h0 : o.rc = 0) :
    o.buf = scryptCode P S N.toNat r.toNat p.toNat buflen ++ buf.drop buflen := by
  obtain ⟨f, -, -, hi⟩ := call_inv h
  rcases internal_total szMax hs env he _ (goodTf hw) junk hj _ (goodSmix f) P S N r p buf buflen hbl hbs with
    ⟨_, e, _, h1⟩ | ⟨_, ⟨_, h1⟩ | ⟨_, h1⟩⟩ <;> rw [hi] at h1 <;> cases h1
  · simp at h0
  · simp at h0
  · cases hm : env.munmapOk <;> rw [hm] at h0
    · simp at h0
    · simp

/-- Finding F13: blocks with index at least `2^25` are never mixed, whatever `p`. -/
theorem C21_F13_unmixed (p b : Nat) (hb : 2 ^ 25 ≤ b) : mixTimes p b = 0 := by
  rw [mixTimes, List.length_eq_zero_iff, List.filter_eq_nil_iff]
  intro i _
  have := Nat.mod_lt i (show 0 < 2 ^ 25 by norm_num)
  simp only [decide_eq_true_eq]
  omega

/-- Finding F13: with `p = 2^25 + 1`, block 0 is mixed twice. The parameters (`r = 1`, `N = 2`) are
accepted on a 64-bit machine. -/
theorem C21_F13_twice : mixTimes (2 ^ 25 + 1) 0 = 2 ∧ ScParams (2 ^ 64 - 1) 2 1 (2 ^ 25 + 1) 64 := by
  refine ⟨?_, ⟨by omega, by omega, by omega, ⟨1, by norm_num, by omega, by omega⟩, by omega, by omega, by omega, by omega⟩⟩
  rw [mixTimes_succ, mixTimes_one _ _ (Nat.le_refl _) (Nat.two_pow_pos 25), if_pos (Nat.mod_self _)]

/-- C21, the premise `rc = 0` is met for *every* acceptable parameter set when the allocations
succeed: the call returns 0 and nothing stays allocated. -/
theorem C21_returns_zero (hw : ShaHw) (szMax : Nat) (hs : IsSizeMax szMax) (sse2Ok : Bool) (e1 e2 env : ScEnv) (he : env.Sized)
    (junk : HMAC_SHA256_CTX) (hj : junk.Sized) (hbuf : Bytes) (f : SmixImpl)
    (P S : Bytes) (N : W64) (r p : W32) (buf : Bytes) (buflen : Nat) (hbl : buflen ≤ buf.length) (hbs : buflen ≤ szMax)
    (hc : ScParams szMax N.toNat r.toNat p.toNat buflen)
    (aB : env.allocB (128 * r.toNat * p.toNat) ≠ none) (aXY : env.allocXY (256 * r.toNat + 64) ≠ none)
    (aV : env.allocV (128 * r.toNat * N.toNat) ≠ none) (hu : env.munmapOk = true) :
    ∃ o, crypto_scrypt szMax sse2Ok e1 e2 env (shaTransform hw) junk hbuf smixImpl (some f) P S N r p buf buflen = .ok (o, some f) ∧
      o.rc = 0 ∧ o.live = [] := by
  rcases internal_total szMax hs env he _ (goodTf hw) junk hj _ (goodSmix f) P S N r p buf buflen hbl hbs with
    ⟨c, _⟩ | ⟨_, ⟨d, _⟩ | ⟨_, h1⟩⟩
  · exact absurd hc c
  · rcases d with d | d | d <;> contradiction
  · rw [hu, if_pos rfl] at h1
    refine ⟨⟨0, none, scryptCode P S N.toNat r.toNat p.toNat buflen ++ buf.drop buflen, []⟩, ?_, rfl, rfl⟩
    unfold crypto_scrypt
    simp only [Res.pure_eq, Res.bind_ok, h1]

/-- The hypotheses are met, and the statement has content: with the self-test inputs the output is
the vector in the source. -/
example (hw : ShaHw) (f : SmixImpl) : ∃ o,
    crypto_scrypt (2 ^ 64 - 1) true okEnv okEnv okEnv (shaTransform hw) zeroHctx [] smixImpl (some f) testPasswd testSalt 16 8 1
      (List.replicate 66 7) 64 = .ok (o, some f) ∧ o.buf = testResult ++ [7, 7] := by
  obtain ⟨o, h, h0, -⟩ := C21_returns_zero hw (2 ^ 64 - 1) (Or.inr rfl) true okEnv okEnv okEnv okEnv_sized zeroHctx zeroHctx_ok [] f
    testPasswd testSalt 16 8 1 (List.replicate 66 7) 64 (by rw [List.length_replicate]; omega) (by norm_num)
    (testParams _ (Or.inr rfl)) (Option.some_ne_none _) (Option.some_ne_none _) (Option.some_ne_none _) rfl
  refine ⟨o, h, ?_⟩
  rw [C21_rfc7914 hw _ (Or.inr rfl) true okEnv okEnv okEnv okEnv_sized zeroHctx zeroHctx_ok [] (some f) testPasswd testSalt 16 8 1
    (List.replicate 66 7) 64 (by rw [List.length_replicate]; omega) (by norm_num) o _ h h0 (by decide)]
  rw [show (16 : W64).toNat = 16 from rfl, show (8 : W32).toNat = 8 from rfl, show (1 : W32).toNat = 1 from rfl, selfScrypt, List.drop_replicate]
  rfl

/-! ### C22 -/

/-- C22, block level: the SSE2, generic and reference routines compute RFC 7914 scryptROMix on every
block, for every `r ≥ 1` and every power of two `N`, whatever was in the scratch memory. -/
theorem C22_smix (B : Bytes) (r N k : Nat) (hr : 0 < r) (hN : N = 2 ^ k) (k1 : 1 ≤ k) (k2 : k ≤ 63) (hB : B.length = 128 * r)
    (V V2 : List W32) (XY XY2 : List W32) (V3 XY3 : Bytes)
    (hV : V.length = 32 * r * N) (hXY : XY.length = 64 * r + 16) (hV2 : V2.length = 32 * r * N) (hXY2 : XY2.length = 64 * r + 16)
    (hV3 : V3.length = 128 * r * N) (hXY3 : XY3.length = 256 * r) :
    (fun x => x.1) <$> crypto_scrypt_smix_sse2 B r N V XY = .ok (Spec.roMix r N B) ∧
    (fun x => x.1) <$> crypto_scrypt_smix B r N V2 XY2 = .ok (Spec.roMix r N B) ∧
    (fun x => x.1) <$> Ref.smix B r N V3 XY3 = .ok (Spec.roMix r N B) := by
  obtain ⟨_, _, h1, _⟩ := smix_sse2_spec B r N k hr hN k1 k2 V XY hB hV hXY
  obtain ⟨_, _, h2, _⟩ := smix_gen_spec B r N k hr hN k1 k2 V2 XY2 hB hV2 hXY2
  obtain ⟨_, _, h3, _⟩ := smix_ref_spec B r N k hr hN k2 V3 XY3 hB hV3 hXY3
  rw [h1, h2, h3]
  exact ⟨rfl, rfl, rfl⟩

/-- C22: the whole outcome of a call (return value, errno, output, releases) does not depend on which
routine was selected. -/
theorem C22_selection_irrelevant (hw hw' : ShaHw) (szMax : Nat) (hs : IsSizeMax szMax) (sse2Ok sse2Ok' : Bool) (e1 e2 e1' e2' env : ScEnv) (he : env.Sized)
    (junk junk' : HMAC_SHA256_CTX) (hj : junk.Sized) (hj' : junk'.Sized) (hbuf hbuf' : Bytes) (st1 st2 : Option SmixImpl)
    (P S : Bytes) (N : W64) (r p : W32) (buf : Bytes) (buflen : Nat) (hbl : buflen ≤ buf.length) (hbs : buflen ≤ szMax)
    (o1 o2 : ScOut) (s1 s2 : Option SmixImpl)
    (h1 : crypto_scrypt szMax sse2Ok e1 e2 env (shaTransform hw) junk hbuf smixImpl st1 P S N r p buf buflen = .ok (o1, s1))
    (h2 : crypto_scrypt szMax sse2Ok' e1' e2' env (shaTransform hw') junk' hbuf' smixImpl st2 P S N r p buf buflen = .ok (o2, s2)) :
    o1 = o2 := by
  obtain ⟨f1, -, -, i1⟩ := call_inv h1
  obtain ⟨f2, -, -, i2⟩ := call_inv h2
  rcases internal_total szMax hs env he _ (goodTf hw) junk hj _ (goodSmix f1) P S N r p buf buflen hbl hbs with ⟨c1, x1, q1, y1⟩ | ⟨c1, ⟨d1, y1⟩ | ⟨d1, y1⟩⟩ <;>
  rcases internal_total szMax hs env he _ (goodTf hw') junk' hj' _ (goodSmix f2) P S N r p buf buflen hbl hbs with ⟨c2, x2, q2, y2⟩ | ⟨c2, ⟨d2, y2⟩ | ⟨d2, y2⟩⟩ <;>
  rw [i1] at y1 <;> rw [i2] at y2
  · rw [q1] at q2; cases q2; cases y1; cases y2; rfl
  · exact absurd c2 c1
  · exact absurd c2 c1
  · exact absurd c1 c2
  · cases y1; cases y2; rfl
  · obtain ⟨a, b, c⟩ := d2; rcases d1 with d | d | d <;> contradiction
  · exact absurd c1 c2
  · obtain ⟨a, b, c⟩ := d1; rcases d2 with d | d | d <;> contradiction
  · cases y1; cases y2; rfl

/-- C22: the reference `crypto_scrypt` writes the same bytes (for parameters the production code
accepts; all allocations succeeding in both). -/
theorem C22_reference (hw hw' : ShaHw) (szMax : Nat) (hs : IsSizeMax szMax) (sse2Ok : Bool) (e1 e2 env : ScEnv) (he : env.Sized)
    (renv : RefEnv) (hre : renv.Sized) (junk junk' : HMAC_SHA256_CTX) (hj : junk.Sized) (hj' : junk'.Sized) (hbuf : Bytes) (st : Option SmixImpl)
    (P S : Bytes) (N : W64) (r p : W32) (buf : Bytes) (buflen : Nat) (hbl : buflen ≤ buf.length) (hbs : buflen ≤ szMax)
    (o : ScOut) (st' : Option SmixImpl)
    (h : crypto_scrypt szMax sse2Ok e1 e2 env (shaTransform hw) junk hbuf smixImpl st P S N r p buf buflen = .ok (o, st'))
    (h0 : o.rc = 0)
    (aB : renv.allocB (128 * r.toNat * p.toNat) ≠ none) (aXY : renv.allocXY (256 * r.toNat) ≠ none)
    (aV : renv.allocV (128 * r.toNat * N.toNat) ≠ none) :
    crypto_scrypt_ref szMax renv (shaTransform hw') junk' P S N r p buf buflen = .ok ⟨0, none, o.buf, []⟩ := by
  have hex := C21_exact hw szMax hs sse2Ok e1 e2 env he junk hj hbuf st P S N r p buf buflen hbl hbs o st' h h0
  obtain ⟨f, -, -, hi⟩ := call_inv h
  have hc : ScParams szMax N.toNat r.toNat p.toNat buflen := by
    rcases internal_total szMax hs env he _ (goodTf hw) junk hj _ (goodSmix f) P S N r p buf buflen hbl hbs with
      ⟨_, e, _, h1⟩ | ⟨c, _⟩
    · rw [hi] at h1; cases h1; simp at h0
    · exact c
  obtain ⟨B, hB⟩ := Option.ne_none_iff_exists'.1 aB
  obtain ⟨XY, hXY⟩ := Option.ne_none_iff_exists'.1 aXY
  obtain ⟨V, hV⟩ := Option.ne_none_iff_exists'.1 aV
  obtain ⟨r0, p0, rp, ⟨k, hk, k1, k2⟩, len, szB, szXY, szV⟩ := hc
  rw [hex]
  exact ref_spec szMax hs renv hre _ (goodTf hw') junk' hj' P S N r p buf buflen hbl
    ⟨r0, p0, rp, ⟨k, hk, k2⟩, len, szB, by omega, szV⟩ B V XY hB hXY hV

/-- Finding F11: the reference implementation divides by zero for `p = 0`. -/
theorem C22_F11_ref_p0 (env : RefEnv) (tf : Transform) (junk : HMAC_SHA256_CTX) (P S buf : Bytes) :
    crypto_scrypt_ref (2 ^ 64 - 1) env tf junk P S 16 8 0 buf 64 = .ub := rfl

example : ∃ V XY, crypto_scrypt_smix_sse2 (List.replicate 128 3) 1 16 (List.replicate 512 1) (List.replicate 80 2) = .ok (Spec.roMix 1 16 (List.replicate 128 3), V, XY) := by
  obtain ⟨V, XY, h, -⟩ := smix_sse2_spec (List.replicate 128 3) 1 16 4 (by omega) (by norm_num) (by omega) (by omega)
    (List.replicate 512 1) (List.replicate 80 2) (by rw [List.length_replicate]) (by rw [List.length_replicate]) (by rw [List.length_replicate])
  exact ⟨V, XY, h⟩

/-! ### C23 -/

/-- C23. Every call (with the selection already made) returns normally: no out-of-bounds access, no
abort; it fails, leaving the output buffer as it was and nothing allocated, exactly when a parameter
is bad or an allocation fails; otherwise everything is released and it returns 0 — except that a
failing `munmap` makes it return -1 after the output was written (finding F12). -/
theorem C23_total (hw : ShaHw) (szMax : Nat) (hs : IsSizeMax szMax) (sse2Ok : Bool) (e1 e2 env : ScEnv) (he : env.Sized)
    (junk : HMAC_SHA256_CTX) (hj : junk.Sized) (hbuf : Bytes) (f : SmixImpl)
    (P S : Bytes) (N : W64) (r p : W32) (buf : Bytes) (buflen : Nat) (hbl : buflen ≤ buf.length) (hbs : buflen ≤ szMax) :
    ∃ o, crypto_scrypt szMax sse2Ok e1 e2 env (shaTransform hw) junk hbuf smixImpl (some f) P S N r p buf buflen = .ok (o, some f) ∧
      (o.rc = 0 ∨ o.rc = -1) ∧
      (o.rc = 0 → o.live = []) ∧
      ((¬ ScParams szMax N.toNat r.toNat p.toNat buflen ∨ env.allocB (128 * r.toNat * p.toNat) = none ∨
          env.allocXY (256 * r.toNat + 64) = none ∨ env.allocV (128 * r.toNat * N.toNat) = none) →
        o.rc = -1 ∧ o.buf = buf ∧ o.live = []) ∧
      (o.rc = -1 → env.munmapOk = true →
        ¬ ScParams szMax N.toNat r.toNat p.toNat buflen ∨ env.allocB (128 * r.toNat * p.toNat) = none ∨
          env.allocXY (256 * r.toNat + 64) = none ∨ env.allocV (128 * r.toNat * N.toNat) = none) ∧
      o.buf.length = buf.length := by
  have key : ∀ o, crypto_scrypt_internal szMax env (shaTransform hw) junk P S N r p buf buflen (smixImpl f) = .ok o →
      crypto_scrypt szMax sse2Ok e1 e2 env (shaTransform hw) junk hbuf smixImpl (some f) P S N r p buf buflen = .ok (o, some f) := by
    intro o h
    unfold crypto_scrypt
    simp only [Res.pure_eq, Res.bind_ok, h]
  have hlen : (scryptCode P S N.toNat r.toNat p.toNat buflen ++ buf.drop buflen).length = buf.length := by
    rw [List.length_append, List.length_drop]
    unfold scryptCode
    rw [pbkdf2_length]; omega
  rcases internal_total szMax hs env he _ (goodTf hw) junk hj _ (goodSmix f) P S N r p buf buflen hbl hbs with
    ⟨c, e, _, h1⟩ | ⟨c, ⟨d, h1⟩ | ⟨⟨d1, d2, d3⟩, h1⟩⟩
  · exact ⟨_, key _ h1, Or.inr rfl, by simp, by simp, fun _ _ => Or.inl c, rfl⟩
  · exact ⟨_, key _ h1, Or.inr rfl, by simp, by simp, fun _ _ => Or.inr d, rfl⟩
  · cases hm : env.munmapOk <;> rw [hm] at h1
    · refine ⟨_, key _ h1, Or.inr rfl, by simp, ?_, by simp, hlen⟩
      rintro (a | a | a | a) <;> contradiction
    · refine ⟨_, key _ h1, Or.inl rfl, by simp, ?_, by simp, hlen⟩
      rintro (a | a | a | a) <;> contradiction

/-- C23: with acceptable parameters none of the size computations wraps, i.e. the values the allocators
are asked for (computed modulo `SIZE_MAX + 1` in the code) are the mathematical ones. -/
theorem C23_no_wrap (szMax N r p buflen : Nat) (hc : ScParams szMax N r p buflen) :
    128 * r * p % (szMax + 1) = 128 * r * p ∧ (256 * r + 64) % (szMax + 1) = 256 * r + 64 ∧
    128 * r * N % (szMax + 1) = 128 * r * N ∧ p * 128 * r % (szMax + 1) = 128 * r * p := by
  obtain ⟨r0, p0, rp, -, len, szB, szXY, szV⟩ := hc
  refine ⟨Nat.mod_eq_of_lt (by omega), Nat.mod_eq_of_lt (by omega), Nat.mod_eq_of_lt (by omega), ?_⟩
  rw [show p * 128 * r = 128 * r * p by ring]
  exact Nat.mod_eq_of_lt (by omega)

/-- C23: the errno reported for a bad parameter, in the order the code checks. -/
theorem C23_errno (szMax : Nat) (hs : IsSizeMax szMax) (N : W64) (r p : W32) (buflen : Nat) (hbs : buflen ≤ szMax) :
    (r = 0 ∨ p = 0 → scryptCheck szMax N r p buflen = some .EINVAL) ∧
    (r ≠ 0 → p ≠ 0 → (32 * (2 ^ 32 - 1) < buflen ∨ 2 ^ 30 ≤ r.toNat * p.toNat) → scryptCheck szMax N r p buflen = some .EFBIG) ∧
    (r ≠ 0 → p ≠ 0 → buflen ≤ 32 * (2 ^ 32 - 1) → r.toNat * p.toNat < 2 ^ 30 → (¬ ∃ k, N.toNat = 2 ^ k ∧ 1 ≤ k ∧ k ≤ 63) →
        scryptCheck szMax N r p buflen = some .EINVAL) ∧
    (r ≠ 0 → p ≠ 0 → buflen ≤ 32 * (2 ^ 32 - 1) → r.toNat * p.toNat < 2 ^ 30 → (∃ k, N.toNat = 2 ^ k ∧ 1 ≤ k ∧ k ≤ 63) →
        (szMax < 128 * r.toNat * p.toNat ∨ szMax < 256 * r.toNat + 64 ∨ szMax < 128 * r.toNat * N.toNat) →
        scryptCheck szMax N r p buflen = some .ENOMEM) := by
  have z : ∀ x : W32, x ≠ 0 → x.toNat ≠ 0 := fun x hx h => hx (BitVec.eq_of_toNat_eq (by simpa using h))
  have hr := r.isLt
  have hpp : ∀ k, N.toNat = 2 ^ k ∧ 1 ≤ k ∧ k ≤ 63 → (N &&& (N - 1)) = 0 ∧ 2 ≤ N.toNat := by
    rintro k ⟨hk, k1, -⟩
    refine ⟨and_of_pow2 N k hk, ?_⟩
    rw [hk]; calc 2 = 2 ^ 1 := rfl
      _ ≤ 2 ^ k := Nat.pow_le_pow_right (by omega) k1
  unfold scryptCheck
  simp only [mul32_toNat]
  refine ⟨?_, ?_, ?_, ?_⟩
  · rintro (h | h)
    · rw [if_pos (Or.inl (by rw [h]; rfl))]
    · rw [if_pos (Or.inr (by rw [h]; rfl))]
  · intro h1 h2 h
    have := z r h1; have := z p h2
    rw [if_neg (by omega)]
    by_cases hb : 32 * (2 ^ 32 - 1) < buflen
    · rw [if_pos]
      refine ⟨?_, by omega⟩
      rcases hs with e | e <;> omega
    · rw [if_neg (by omega), if_pos (by omega)]
  · intro h1 h2 hb hrp hN
    have := z r h1; have := z p h2
    rw [if_neg (by omega), if_neg (by omega), if_neg (by omega), if_pos]
    by_contra hcon
    simp only [not_or, not_lt, ne_eq, not_not] at hcon
    exact hN (pow2_of_and N hcon.1 hcon.2)
  · intro h1 h2 hb hrp hN hsz
    have r0 := z r h1; have p0 := z p h2
    obtain ⟨k, hk⟩ := hN
    have ⟨a1, a2⟩ := hpp k hk
    rw [if_neg (by omega), if_neg (by omega), if_neg (by omega), if_neg (by rintro (h | h); exact h a1; omega), if_pos]
    by_contra hcon
    simp only [not_or, not_and, not_lt, gt_iff_lt] at hcon
    have b1 := (le_div_div _ _ _ (Nat.pos_of_ne_zero p0)).1 hcon.1
    have b3 := (le_div_div _ _ _ (Nat.pos_of_ne_zero r0)).1 hcon.2.2
    rw [show 128 * N.toNat * r.toNat = 128 * r.toNat * N.toNat by ring] at b3
    rcases hs with e | e
    · have := hcon.2.1 (by subst e; norm_num)
      subst e; omega
    · omega

/-- Both sides of the equivalence occur. -/
example : ScParams (2 ^ 32 - 1) 16384 8 1 64 ∧ ¬ ScParams (2 ^ 32 - 1) (2 ^ 22) 8 1 64 ∧ ScParams (2 ^ 64 - 1) (2 ^ 22) 8 1 64 := by
  refine ⟨⟨by omega, by omega, by omega, ⟨14, by norm_num, by omega, by omega⟩, by omega, by omega, by omega, by omega⟩, ?_,
    ⟨by omega, by omega, by omega, ⟨22, by norm_num, by omega, by omega⟩, by omega, by omega, by omega, by omega⟩⟩
  intro h; have := h.szV; norm_num at this

/-! ### C43 -/

/-- C43. Whatever code the two routines have, a first call that returns has selected a routine whose
self-test passed (and SSE2 only if the CPU has it). -/
theorem C43_selected_passed (szMax : Nat) (sse2Ok : Bool) (e1 e2 env : ScEnv) (tf : Transform) (junk : HMAC_SHA256_CTX) (hbuf : Bytes)
    (impl : SmixImpl → SmixFn) (P S : Bytes) (N : W64) (r p : W32) (buf : Bytes) (buflen : Nat) (o : ScOut) (st' : Option SmixImpl)
    (h : crypto_scrypt szMax sse2Ok e1 e2 env tf junk hbuf impl none P S N r p buf buflen = .ok (o, st')) :
    ∃ f, st' = some f ∧ (f = .sse2 → sse2Ok = true) ∧ ∃ e hout,
      crypto_scrypt_internal szMax e tf junk testPasswd testSalt 16 8 1 hbuf 64 (impl f) = .ok hout ∧
      hout.rc = 0 ∧ hout.buf = testResult := by
  obtain ⟨f, h1, h2 | ⟨-, h2⟩, -⟩ := call_inv h
  · cases h2
  · obtain ⟨h3, h4⟩ := selectsmix_passed _ _ _ _ _ _ _ _ _ h2
    refine ⟨f, h1, h4, (if f = SmixImpl.sse2 then e1 else e2), ?_⟩
    unfold testsmix at h3
    obtain ⟨o, ho, hb⟩ := Res.bind_eq_ok.1 h3
    refine ⟨o, ho, ?_⟩
    simpa using hb

/-- C43. With the code that exists, the first call never aborts when the self-test's (16 kB) allocations
succeed: it selects SSE2 if available, else the generic code. (If they fail, see finding F14.) -/
theorem C43_never_aborts (hw : ShaHw) (szMax : Nat) (hs : IsSizeMax szMax) (sse2Ok : Bool) (e1 e2 : ScEnv) (he1 : e1.Sized) (he2 : e2.Sized)
    (a1 : e1.allocB 1024 ≠ none ∧ e1.allocXY 2112 ≠ none ∧ e1.allocV 16384 ≠ none ∧ e1.munmapOk = true)
    (a2 : e2.allocB 1024 ≠ none ∧ e2.allocXY 2112 ≠ none ∧ e2.allocV 16384 ≠ none ∧ e2.munmapOk = true)
    (junk : HMAC_SHA256_CTX) (hj : junk.Sized) (hbuf : Bytes) (hh : hbuf.length = 64) :
    selectsmix szMax sse2Ok e1 e2 (shaTransform hw) junk hbuf smixImpl = .ok (if sse2Ok then .sse2 else .generic) := by
  have t1 := testsmix_pass szMax hs e1 he1 _ (goodTf hw) junk hj hbuf hh _ (goodSmix .sse2) a1.1 a1.2.1 a1.2.2.1 a1.2.2.2
  have t2 := testsmix_pass szMax hs e2 he2 _ (goodTf hw) junk hj hbuf hh _ (goodSmix .generic) a2.1 a2.2.1 a2.2.2.1 a2.2.2.2
  unfold selectsmix
  cases sse2Ok
  · simp [t2]
  · simp [t1]

/-- Finding F14: if the self-test of the generic code cannot allocate its memory, the program aborts. -/
theorem C43_F14_abort (tf : Transform) (junk : HMAC_SHA256_CTX) (hbuf : Bytes) (e1 e2 : ScEnv) (impl : SmixImpl → SmixFn)
    (h : e2.allocB 1024 = none) :
    selectsmix (2 ^ 64 - 1) false e1 e2 tf junk hbuf impl = .abort := by
  have hc : scryptCheck (2 ^ 64 - 1) 16 8 1 64 = none := by decide +kernel
  have h1 : crypto_scrypt_internal (2 ^ 64 - 1) e2 tf junk testPasswd testSalt 16 8 1 hbuf 64 (impl .generic) = .ok ⟨-1, some .sys, hbuf, []⟩ := by
    unfold crypto_scrypt_internal
    simp only [hc]
    rw [show 128 * (8 : W32).toNat * (1 : W32).toNat % (2 ^ 64 - 1 + 1) = 1024 from rfl, h]
    rfl
  unfold selectsmix testsmix
  rw [h1]
  rfl

/-- C43. The selection is made once: after any call the state is set, and a set state never changes. -/
theorem C43_selected_once (szMax : Nat) (sse2Ok : Bool) (e1 e2 env : ScEnv) (tf : Transform) (junk : HMAC_SHA256_CTX) (hbuf : Bytes)
    (impl : SmixImpl → SmixFn) (st : Option SmixImpl) (P S : Bytes) (N : W64) (r p : W32) (buf : Bytes) (buflen : Nat) (o : ScOut)
    (st' : Option SmixImpl)
    (h : crypto_scrypt szMax sse2Ok e1 e2 env tf junk hbuf impl st P S N r p buf buflen = .ok (o, st')) :
    st'.isSome ∧ (st.isSome → st' = st) := by
  obtain ⟨f, h1, h2, -⟩ := call_inv h
  subst h1
  refine ⟨rfl, ?_⟩
  rcases h2 with h2 | ⟨h2, -⟩ <;> subst h2 <;> simp

/-- One call in a history: what the system does, and the arguments. -/
structure Call where
  (e1 e2 env : ScEnv)
  junk : HMAC_SHA256_CTX
  hbuf : Bytes
  (P S : Bytes)
  N : W64
  (r p : W32)
  buf : Bytes
  buflen : Nat

/-- A history of calls in one process. -/
def runCalls (hw : ShaHw) (szMax : Nat) (sse2Ok : Bool) : Option SmixImpl → List Call → Res (List ScOut × Option SmixImpl)
  | st, [] => .ok ([], st)
  | st, c :: cs => do
    let (o, st) ← crypto_scrypt szMax sse2Ok c.e1 c.e2 c.env (shaTransform hw) c.junk c.hbuf smixImpl st c.P c.S c.N c.r c.p c.buf c.buflen
    let (os, st) ← runCalls hw szMax sse2Ok st cs
    return (o :: os, st)

/-- C43. Two processes making the same history of calls on the same allocator behaviour, one starting
fresh on any CPU and one with any routine already selected, get the same results for every call. -/
theorem C43_history (hw hw' : ShaHw) (szMax : Nat) (hs : IsSizeMax szMax) (sse2Ok sse2Ok' : Bool) (st st' : Option SmixImpl) (cs : List Call)
    (hcs : ∀ c ∈ cs, c.env.Sized ∧ c.junk.Sized ∧ c.buflen ≤ c.buf.length ∧ c.buflen ≤ szMax)
    (os os' : List ScOut) (t t' : Option SmixImpl)
    (h : runCalls hw szMax sse2Ok st cs = .ok (os, t)) (h' : runCalls hw' szMax sse2Ok' st' cs = .ok (os', t')) :
    os = os' := by
  induction cs generalizing st st' os os' with
  | nil => cases h; cases h'; rfl
  | cons c cs ih =>
    unfold runCalls at h h'
    obtain ⟨⟨o1, s1⟩, a1, b1⟩ := Res.bind_eq_ok.1 h
    obtain ⟨⟨l1, u1⟩, c1, d1⟩ := Res.bind_eq_ok.1 b1
    obtain ⟨⟨o2, s2⟩, a2, b2⟩ := Res.bind_eq_ok.1 h'
    obtain ⟨⟨l2, u2⟩, c2, d2⟩ := Res.bind_eq_ok.1 b2
    cases d1; cases d2
    obtain ⟨g1, g2, g3, g4⟩ := hcs c (by simp)
    have e := C22_selection_irrelevant hw hw' szMax hs sse2Ok sse2Ok' c.e1 c.e2 c.e1 c.e2 c.env g1 c.junk c.junk g2 g2 c.hbuf c.hbuf st st'
      c.P c.S c.N c.r c.p c.buf c.buflen g3 g4 o1 o2 s1 s2 a1 a2
    rw [e, ih s1 s2 (fun c hc => hcs c (by simp [hc])) l1 l2 c1 c2]

/-- C43, SHA-256: whatever the accelerated code is, a routine other than the software one is selected
only if the CPU has the feature and its output on the test block equals the software output. -/
theorem C43_sha256_selected_passed (feat : ShaHw → Bool) (impl : ShaHw → Transform) (h : ShaHw)
    (hi : hwaccel_init feat impl none = .ok h) :
    h = .software ∨ (feat h = true ∧ ∃ s, impl .software initial_state hwTestBlock = .ok s ∧ impl h initial_state hwTestBlock = .ok s) := by
  have aux : ∀ (h' : ShaHw) (next : Res ShaHw), cpusupportValidate (feat h') (hwtest (impl .software) (impl h') initial_state hwTestBlock) h' next = .ok h →
      (next = .ok h) ∨ (h = h' ∧ feat h' = true ∧ ∃ s, impl .software initial_state hwTestBlock = .ok s ∧ impl h' initial_state hwTestBlock = .ok s) := by
    intro h' next he
    unfold cpusupportValidate at he
    cases hf : feat h' with
    | false => rw [hf] at he; exact Or.inl he
    | true =>
      rw [hf, if_pos rfl] at he
      obtain ⟨b, hb, hc⟩ := Res.bind_eq_ok.1 he
      cases b with
      | false => exact Or.inl hc
      | true =>
        cases hc
        unfold hwtest at hb
        obtain ⟨x, hx, hb⟩ := Res.bind_eq_ok.1 hb
        obtain ⟨y, hy, hb⟩ := Res.bind_eq_ok.1 hb
        simp only [Res.pure_eq, Res.ok.injEq, beq_iff_eq] at hb
        subst hb
        exact Or.inr ⟨rfl, rfl, x, hx, hy⟩
  unfold hwaccel_init at hi
  rcases aux _ _ hi with h1 | ⟨rfl, h1⟩
  · rcases aux _ _ h1 with h2 | ⟨rfl, h2⟩
    · rcases aux _ _ h2 with h3 | ⟨rfl, h3⟩
      · cases h3; exact Or.inl rfl
      · exact Or.inr h3
    · exact Or.inr h2
  · exact Or.inr h1

/-- C43, SHA-256: with the code that exists no available acceleration is ever disabled, and once made
the selection is never changed. -/
theorem C43_sha256_init (feat : ShaHw → Bool) :
    hwaccel_init feat shaTransform none =
      .ok (if feat .x86_shani then .x86_shani else if feat .x86_sse2 then .x86_sse2 else if feat .arm_sha256 then .arm_sha256 else .software) ∧
    ∀ h, hwaccel_init feat shaTransform (some h) = .ok h := by
  have t := fun h => hwtest_pass _ _ (goodTf .software) (goodTf h)
  refine ⟨?_, fun _ => rfl⟩
  unfold hwaccel_init cpusupportValidate
  simp only [t]
  cases feat .x86_shani <;> cases feat .x86_sse2 <;> cases feat .arm_sha256 <;> rfl

/-- A two-call history whose hypotheses are met: it runs to completion. -/
example (hw : ShaHw) : ∃ os t, runCalls hw (2 ^ 64 - 1) true none
    [⟨okEnv, okEnv, okEnv, zeroHctx, List.replicate 64 9, testPasswd, testSalt, 16, 8, 1, List.replicate 64 0, 64⟩,
     ⟨okEnv, okEnv, okEnv, zeroHctx, List.replicate 64 9, testPasswd, testSalt, 15, 8, 1, List.replicate 64 0, 64⟩] = .ok (os, t) := by
  have sel := C43_never_aborts hw (2 ^ 64 - 1) (Or.inr rfl) true okEnv okEnv okEnv_sized okEnv_sized
    ⟨Option.some_ne_none _, Option.some_ne_none _, Option.some_ne_none _, rfl⟩ ⟨Option.some_ne_none _, Option.some_ne_none _, Option.some_ne_none _, rfl⟩
    zeroHctx zeroHctx_ok (List.replicate 64 9) (by rw [List.length_replicate])
  obtain ⟨o1, h1, -⟩ := C23_total hw (2 ^ 64 - 1) (Or.inr rfl) true okEnv okEnv okEnv okEnv_sized zeroHctx zeroHctx_ok
    (List.replicate 64 9) .sse2 testPasswd testSalt 16 8 1 (List.replicate 64 0) 64 (by rw [List.length_replicate]) (by norm_num)
  obtain ⟨o2, h2, -⟩ := C23_total hw (2 ^ 64 - 1) (Or.inr rfl) true okEnv okEnv okEnv okEnv_sized zeroHctx zeroHctx_ok
    (List.replicate 64 9) .sse2 testPasswd testSalt 15 8 1 (List.replicate 64 0) 64 (by rw [List.length_replicate]) (by norm_num)
  have h1' : crypto_scrypt (2 ^ 64 - 1) true okEnv okEnv okEnv (shaTransform hw) zeroHctx (List.replicate 64 9) smixImpl none
      testPasswd testSalt 16 8 1 (List.replicate 64 0) 64 = .ok (o1, some .sse2) := by
    rw [← h1]
    unfold crypto_scrypt
    simp only [sel, if_pos, Res.pure_eq, Res.bind_ok]
  refine ⟨[o1, o2], some .sse2, ?_⟩
  simp only [runCalls, h1', h2, Res.bind_ok, Res.pure_eq]

end Scrypt.Props
