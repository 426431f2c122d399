import Verif.Props.Scrypt
import Verif.Proofs.EncSetup
/-
C65: asking for more output never changes the bytes already asked for.
-/
namespace Scrypt.Props
open Scrypt Spec

theorem flatMap_len {f : Nat → Bytes} (h : ∀ i, (f i).length = 32) : ∀ k, ((List.range k).flatMap f).length = 32 * k
  | 0 => rfl
  | k + 1 => by rw [List.range_succ, List.flatMap_append, List.length_append, flatMap_len h k, List.flatMap_singleton, h]; omega

theorem pbkdf2_prefix (P S : Bytes) (c : Nat) {n n' : Nat} (h : n ≤ n') : pbkdf2 P S c n = (pbkdf2 P S c n').take n := by
  unfold pbkdf2
  rw [List.take_take, Nat.min_eq_left h]
  obtain ⟨d, hd⟩ : ∃ d, (n' + 31) / 32 = (n + 31) / 32 + d := ⟨(n' + 31) / 32 - (n + 31) / 32, by omega⟩
  rw [hd, List.range_add, List.flatMap_append, List.take_append_of_le_length]
  rw [flatMap_len (fun i => pbkdf2T_length P S c (i + 1))]
  omega

/-- **C65.**  If the same passphrase, salt and parameters are asked for `n` bytes and for `n' ≥ n` bytes, on any two machines and after any histories, and both
calls succeed, the shorter output is the beginning of the longer one. -/
theorem C65_prefix (hw hw' : ShaHw) (szMax szMax' : Nat) (hs : IsSizeMax szMax) (hs' : IsSizeMax szMax') (sse2Ok sse2Ok' : Bool) (e1 e2 env e1' e2' env' : ScEnv)
    (he : env.Sized) (he' : env'.Sized) (junk junk' : HMAC_SHA256_CTX) (hj : junk.Sized) (hj' : junk'.Sized) (hbuf hbuf' : Bytes) (st st' : Option SmixImpl)
    (P S : Bytes) (N : W64) (r p : W32) (buf buf' : Bytes) (n n' : Nat) (hn : n ≤ n') (hb : n ≤ buf.length) (hb' : n' ≤ buf'.length) (hz : n ≤ szMax) (hz' : n' ≤ szMax')
    (o o' : ScOut) (t t' : Option SmixImpl)
    (h : crypto_scrypt szMax sse2Ok e1 e2 env (shaTransform hw) junk hbuf smixImpl st P S N r p buf n = .ok (o, t))
    (h' : crypto_scrypt szMax' sse2Ok' e1' e2' env' (shaTransform hw') junk' hbuf' smixImpl st' P S N r p buf' n' = .ok (o', t'))
    (h0 : o.rc = 0) (h0' : o'.rc = 0) : o.buf.take n = o'.buf.take n := by
  rw [C21_exact hw szMax hs sse2Ok e1 e2 env he junk hj hbuf st P S N r p buf n hb hz o t h h0,
    C21_exact hw' szMax' hs' sse2Ok' e1' e2' env' he' junk' hj' hbuf' st' P S N r p buf' n' hb' hz' o' t' h' h0']
  rw [List.take_append_of_le_length (by rw [scryptCode_length]), List.take_append_of_le_length (by rw [scryptCode_length]; exact hn),
    List.take_of_length_le (by rw [scryptCode_length])]
  unfold scryptCode
  exact pbkdf2_prefix _ _ _ hn

/-- Non-vacuity: with the self-test inputs, 10 bytes are the first 10 bytes of the vector in the source. -/
example (hw : ShaHw) (f : SmixImpl) : ∃ o,
    crypto_scrypt (2 ^ 64 - 1) true okEnv okEnv okEnv (shaTransform hw) zeroHctx [] smixImpl (some f) testPasswd testSalt 16 8 1
      (List.replicate 66 7) 10 = .ok (o, some f) ∧ o.rc = 0 ∧ o.buf.take 10 = testResult.take 10 := by
  obtain ⟨o, h, h0, -⟩ := C21_returns_zero hw (2 ^ 64 - 1) (Or.inr rfl) true okEnv okEnv okEnv okEnv_sized zeroHctx zeroHctx_ok [] f
    testPasswd testSalt 16 8 1 (List.replicate 66 7) 10 (by rw [List.length_replicate]; omega) (by norm_num)
    ⟨by decide, by decide, by decide, ⟨4, rfl, by omega, by omega⟩, by decide, by decide, by decide, by decide⟩
    (Option.some_ne_none _) (Option.some_ne_none _) (Option.some_ne_none _) rfl
  obtain ⟨o', h', h0', -⟩ := C21_returns_zero hw (2 ^ 64 - 1) (Or.inr rfl) true okEnv okEnv okEnv okEnv_sized zeroHctx zeroHctx_ok [] f
    testPasswd testSalt 16 8 1 (List.replicate 66 7) 64 (by rw [List.length_replicate]; omega) (by norm_num)
    (testParams _ (Or.inr rfl)) (Option.some_ne_none _) (Option.some_ne_none _) (Option.some_ne_none _) rfl
  refine ⟨o, h, h0, ?_⟩
  rw [C65_prefix hw hw _ _ (Or.inr rfl) (Or.inr rfl) true true okEnv okEnv okEnv okEnv okEnv okEnv okEnv_sized okEnv_sized zeroHctx zeroHctx zeroHctx_ok zeroHctx_ok
    [] [] (some f) (some f) testPasswd testSalt 16 8 1 (List.replicate 66 7) (List.replicate 66 7) 10 64 (by omega) (by rw [List.length_replicate]; omega)
    (by rw [List.length_replicate]; omega) (by norm_num) (by norm_num) o o' _ _ h h' h0 h0']
  rw [C21_rfc7914 hw _ (Or.inr rfl) true okEnv okEnv okEnv okEnv_sized zeroHctx zeroHctx_ok [] (some f) testPasswd testSalt 16 8 1
    (List.replicate 66 7) 64 (by rw [List.length_replicate]; omega) (by norm_num) o' _ h' h0' (by decide)]
  rw [show (16 : W64).toNat = 16 from rfl, show (8 : W32).toNat = 8 from rfl, show (1 : W32).toNat = 1 from rfl, selfScrypt]
  rw [List.take_append_of_le_length (by decide)]

end Scrypt.Props
