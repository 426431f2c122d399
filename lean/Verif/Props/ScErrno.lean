import Verif.Props.Scrypt
/-
C23: what crypto_scrypt says when it fails.
-/
namespace Scrypt.Props
open Scrypt Spec

/-- **C23.**  The verdict of crypto_scrypt on its parameters, with errno (`.sys`: left as the failing system call set it): checked in the order null r or p, output length and r * p, N, sizes. -/
theorem C23_reports (hw : ShaHw) (szMax : Nat) (hs : IsSizeMax szMax) (sse2Ok : Bool) (e1 e2 env : ScEnv) (he : env.Sized) (junk : HMAC_SHA256_CTX) (hj : junk.Sized)
    (hbuf : Bytes) (st : Option SmixImpl) (P S : Bytes) (N : W64) (r p : W32) (buf : Bytes) (buflen : Nat) (hbl : buflen ≤ buf.length) (hbs : buflen ≤ szMax) (o : ScOut)
    (st' : Option SmixImpl) (h : crypto_scrypt szMax sse2Ok e1 e2 env (shaTransform hw) junk hbuf smixImpl st P S N r p buf buflen = .ok (o, st')) :
    let big := 32 * (2 ^ 32 - 1) < buflen ∨ 2 ^ 30 ≤ r.toNat * p.toNat
    let pow := ∃ k, N.toNat = 2 ^ k ∧ 1 ≤ k ∧ k ≤ 63
    let space := szMax < 128 * r.toNat * p.toNat ∨ szMax < 256 * r.toNat + 64 ∨ szMax < 128 * r.toNat * N.toNat
    (r = 0 ∨ p = 0 → o = ⟨-1, some .EINVAL, buf, []⟩) ∧
    (r ≠ 0 → p ≠ 0 → big → o = ⟨-1, some .EFBIG, buf, []⟩) ∧
    (r ≠ 0 → p ≠ 0 → ¬ big → ¬ pow → o = ⟨-1, some .EINVAL, buf, []⟩) ∧
    (r ≠ 0 → p ≠ 0 → ¬ big → pow → space → o = ⟨-1, some .ENOMEM, buf, []⟩) ∧
    (r ≠ 0 → p ≠ 0 → ¬ big → pow → ¬ space → (o.rc = 0 ∧ o.errno = none) ∨ (o.rc = -1 ∧ o.errno = some .sys)) := by
  intro big pow space
  have hi : ∃ f : SmixImpl, crypto_scrypt_internal szMax env (shaTransform hw) junk P S N r p buf buflen (smixImpl f) = .ok o := by
    unfold crypto_scrypt at h
    cases st with
    | some f =>
      simp only [Res.pure_eq, Res.bind_ok] at h
      obtain ⟨o', h1, h⟩ := (Res.bind_eq_ok ..).1 h
      cases h
      exact ⟨f, h1⟩
    | none =>
      dsimp only at h
      obtain ⟨f, -, h⟩ := (Res.bind_eq_ok ..).1 h
      obtain ⟨o', h1, h⟩ := (Res.bind_eq_ok ..).1 h
      cases h
      exact ⟨f, h1⟩
  obtain ⟨f, hi⟩ := hi
  have bad : ∀ e, scryptCheck szMax N r p buflen = some e → o = ⟨-1, some e, buf, []⟩ := by
    intro e hc
    unfold crypto_scrypt_internal at hi
    dsimp only at hi
    rw [hc] at hi
    exact (Res.ok.inj hi).symm
  obtain ⟨c1, c2, c3, c4⟩ := C23_errno szMax hs N r p buflen hbs
  refine ⟨fun a => bad _ (c1 a), fun a b c => bad _ (c2 a b c), fun a b c d => ?_, fun a b c d e => ?_, fun a b c d e => ?_⟩
  · have c : ¬ (_ ∨ _) := c
    exact bad _ (c3 a b (by omega) (by omega) d)
  · have c : ¬ (_ ∨ _) := c
    exact bad _ (c4 a b (by omega) (by omega) d e)
  · rcases internal_total szMax hs env he _ (goodTf hw) junk hj _ (goodSmix f) P S N r p buf buflen hbl hbs with
      ⟨c', e', h2, h1⟩ | ⟨c', ⟨d', h1⟩ | ⟨d', h1⟩⟩
    · exfalso
      have := (scryptCheck_none_iff szMax hs N r p buflen hbs).not.2 c'
      have hp : ScParams szMax N.toNat r.toNat p.toNat buflen := by
        have c : ¬ (_ ∨ _) := c
        have e : ¬ (_ ∨ _ ∨ _) := e
        have r0 : r.toNat ≠ 0 := fun hr => a (BitVec.eq_of_toNat_eq hr)
        have p0 : p.toNat ≠ 0 := fun hp => b (BitVec.eq_of_toNat_eq hp)
        refine ⟨?_, ?_, ?_, d, ?_, ?_, ?_, ?_⟩ <;> omega
      exact c' hp
    · rw [hi] at h1
      cases h1
      exact .inr ⟨rfl, rfl⟩
    · rw [hi] at h1
      cases hm : env.munmapOk <;> rw [hm] at h1 <;> cases h1
      · exact .inr ⟨rfl, rfl⟩
      · exact .inl ⟨rfl, rfl⟩

/-- Non-vacuity: every case occurs. -/
example : (0 : W32) = 0 ∧ 2 ^ 30 ≤ (2 ^ 15 : W32).toNat * (2 ^ 15 : W32).toNat ∧ (¬ ∃ k, (12 : W64).toNat = 2 ^ k ∧ 1 ≤ k ∧ k ≤ 63) ∧
    (2 ^ 32 - 1 < 128 * (8 : W32).toNat * (2 ^ 22 : W64).toNat) := by
  refine ⟨rfl, by decide, ?_, by decide⟩
  rintro ⟨k, h, -, -⟩
  have h : 12 = 2 ^ k := h
  rcases Nat.lt_or_ge k 4 with hk | hk
  · interval_cases k <;> omega
  · have : 2 ^ 4 ≤ 2 ^ k := Nat.pow_le_pow_right (by decide) hk
    omega

end Scrypt.Props
