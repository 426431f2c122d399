import Verif.Proofs.CryptoScryptRef
import Verif.Proofs.SelfTestVec
import Verif.Proofs.Sha256Hw
import Verif.Model.HwSelect
/-
crypto_scrypt: total description of every call, and implementation selection.
-/
namespace Scrypt
open Spec

/-- Every call of crypto_scrypt_internal with a correct smix, completely described. -/
theorem internal_total (szMax : Nat) (hs : IsSizeMax szMax) (env : ScEnv) (he : env.Sized) (tf : Transform) (ht : GoodTf tf)
    (junk : HMAC_SHA256_CTX) (hj : junk.Sized) (smix : SmixFn) (hm : GoodSmix smix)
    (P S : Bytes) (N : W64) (r p : W32) (buf : Bytes) (buflen : Nat) (hbl : buflen ≤ buf.length) (hbs : buflen ≤ szMax) :
    (¬ ScParams szMax N.toNat r.toNat p.toNat buflen ∧ ∃ e, scryptCheck szMax N r p buflen = some e ∧
        crypto_scrypt_internal szMax env tf junk P S N r p buf buflen smix = .ok ⟨-1, some e, buf, []⟩) ∨
    (ScParams szMax N.toNat r.toNat p.toNat buflen ∧
      ((env.allocB (128 * r.toNat * p.toNat) = none ∨ env.allocXY (256 * r.toNat + 64) = none ∨
          env.allocV (128 * r.toNat * N.toNat) = none) ∧
        crypto_scrypt_internal szMax env tf junk P S N r p buf buflen smix = .ok ⟨-1, some .sys, buf, []⟩ ∨
       (env.allocB (128 * r.toNat * p.toNat) ≠ none ∧ env.allocXY (256 * r.toNat + 64) ≠ none ∧
          env.allocV (128 * r.toNat * N.toNat) ≠ none) ∧
        crypto_scrypt_internal szMax env tf junk P S N r p buf buflen smix =
          .ok (if env.munmapOk then ⟨0, none, scryptCode P S N.toNat r.toNat p.toNat buflen ++ buf.drop buflen, []⟩
           else ⟨-1, some .sys, scryptCode P S N.toNat r.toNat p.toNat buflen ++ buf.drop buflen, [.V]⟩))) := by
  by_cases hc : ScParams szMax N.toNat r.toNat p.toNat buflen
  · right
    refine ⟨hc, ?_⟩
    have hchk := (scryptCheck_none_iff szMax hs N r p buflen hbs).2 hc
    have ⟨_, _, _, _, _, szB, szXY, szV⟩ := hc
    have m1 := Nat.mod_eq_of_lt (show 128 * r.toNat * p.toNat < szMax + 1 by omega)
    have m2 := Nat.mod_eq_of_lt (show 256 * r.toNat + 64 < szMax + 1 by omega)
    have m3 := Nat.mod_eq_of_lt (show 128 * r.toNat * N.toNat < szMax + 1 by omega)
    cases aB : env.allocB (128 * r.toNat * p.toNat) with
    | none =>
      left
      refine ⟨Or.inl rfl, ?_⟩
      unfold crypto_scrypt_internal
      simp only [hchk, m1, aB]
      rfl
    | some B =>
    cases aXY : env.allocXY (256 * r.toNat + 64) with
    | none =>
      left
      refine ⟨Or.inr (Or.inl rfl), ?_⟩
      unfold crypto_scrypt_internal
      simp only [hchk, m1, m2, aB, aXY]
      rfl
    | some XY =>
    cases aV : env.allocV (128 * r.toNat * N.toNat) with
    | none =>
      left
      refine ⟨Or.inr (Or.inr rfl), ?_⟩
      unfold crypto_scrypt_internal
      simp only [hchk, m1, m2, m3, aB, aXY, aV]
      rfl
    | some V =>
      right
      exact ⟨⟨by simp, by simp, by simp⟩, internal_spec szMax hs env he tf ht junk hj smix hm P S N r p buf buflen hbl hbs hc B V XY aB aXY aV⟩
  · left
    refine ⟨hc, ?_⟩
    cases hchk : scryptCheck szMax N r p buflen with
    | none => exact absurd ((scryptCheck_none_iff szMax hs N r p buflen hbs).1 hchk) hc
    | some e =>
      refine ⟨e, rfl, ?_⟩
      unfold crypto_scrypt_internal
      simp only [hchk]
      rfl

/-- Two correct smix routines give the same outcome, whatever the parameters and the system do. -/
theorem internal_congr (szMax : Nat) (hs : IsSizeMax szMax) (env : ScEnv) (he : env.Sized) (tf : Transform) (ht : GoodTf tf)
    (junk : HMAC_SHA256_CTX) (hj : junk.Sized) (f g : SmixFn) (hf : GoodSmix f) (hg : GoodSmix g)
    (P S : Bytes) (N : W64) (r p : W32) (buf : Bytes) (buflen : Nat) (hbl : buflen ≤ buf.length) (hbs : buflen ≤ szMax) :
    crypto_scrypt_internal szMax env tf junk P S N r p buf buflen f = crypto_scrypt_internal szMax env tf junk P S N r p buf buflen g := by
  rcases internal_total szMax hs env he tf ht junk hj f hf P S N r p buf buflen hbl hbs with ⟨c1, e1, q1, h1⟩ | ⟨c1, ⟨d1, h1⟩ | ⟨d1, h1⟩⟩ <;>
  rcases internal_total szMax hs env he tf ht junk hj g hg P S N r p buf buflen hbl hbs with ⟨c2, e2, q2, h2⟩ | ⟨c2, ⟨d2, h2⟩ | ⟨d2, h2⟩⟩
  · rw [q1] at q2; cases q2; rw [h1, h2]
  · exact absurd c2 c1
  · exact absurd c2 c1
  · exact absurd c1 c2
  · rw [h1, h2]
  · obtain ⟨a, b, c⟩ := d2; rcases d1 with d | d | d <;> contradiction
  · exact absurd c1 c2
  · obtain ⟨a, b, c⟩ := d1; rcases d2 with d | d | d <;> contradiction
  · rw [h1, h2]

theorem testParams (szMax : Nat) (hs : IsSizeMax szMax) : ScParams szMax 16 8 1 64 := by
  have : 2 ^ 32 - 1 ≤ szMax := by rcases hs with h | h <;> rw [h] <;> norm_num
  exact ⟨by omega, by omega, by omega, ⟨4, by norm_num, by omega, by omega⟩, by omega, by omega, by omega, by omega⟩

/-- A correct smix passes the self-test when the test's allocations succeed. -/
theorem testsmix_pass (szMax : Nat) (hs : IsSizeMax szMax) (env : ScEnv) (he : env.Sized) (tf : Transform) (ht : GoodTf tf)
    (junk : HMAC_SHA256_CTX) (hj : junk.Sized) (hbuf : Bytes) (hb : hbuf.length = 64) (smix : SmixFn) (hm : GoodSmix smix)
    (aB : env.allocB 1024 ≠ none) (aXY : env.allocXY 2112 ≠ none) (aV : env.allocV 16384 ≠ none) (hu : env.munmapOk = true) :
    testsmix szMax env tf junk hbuf smix = .ok true := by
  have hsz : 2 ^ 32 - 1 ≤ szMax := by rcases hs with h | h <;> rw [h] <;> norm_num
  have ht16 : (16 : W64).toNat = 16 := rfl
  have ht8 : (8 : W32).toNat = 8 := rfl
  have ht1 : (1 : W32).toNat = 1 := rfl
  have h := internal_total szMax hs env he tf ht junk hj smix hm testPasswd testSalt 16 8 1 hbuf 64 (by omega) (by omega)
  rw [ht16, ht8, ht1, hu, if_pos rfl, show 128 * 8 * 1 = 1024 from rfl, show 256 * 8 + 64 = 2112 from rfl,
    show 128 * 8 * 16 = 16384 from rfl] at h
  rcases h with ⟨c1, _⟩ | ⟨_, ⟨d1, _⟩ | ⟨_, h1⟩⟩
  · exact absurd (testParams szMax hs) c1
  · rcases d1 with d | d | d <;> contradiction
  · unfold testsmix
    rw [h1, Res.bind_ok, scryptCode_eq _ _ _ _ _ _ (by norm_num), selfScrypt, List.drop_of_length_le (by omega), List.append_nil]
    simp

/-- Whatever the code of the routines, the one selected is one whose self-test passed. -/
theorem selectsmix_passed (szMax : Nat) (sse2Ok : Bool) (e1 e2 : ScEnv) (tf : Transform) (junk : HMAC_SHA256_CTX)
    (hbuf : Bytes) (impl : SmixImpl → SmixFn) (f : SmixImpl)
    (h : selectsmix szMax sse2Ok e1 e2 tf junk hbuf impl = .ok f) :
    testsmix szMax (if f = .sse2 then e1 else e2) tf junk hbuf (impl f) = .ok true ∧
    (f = .sse2 → sse2Ok = true) := by
  unfold selectsmix at h
  cases sse2Ok with
  | false =>
    simp only [Bool.false_eq_true, if_false, Res.pure_eq, Res.bind_ok] at h
    cases ht : testsmix szMax e2 tf junk hbuf (impl .generic) with
    | ok b =>
      rw [ht, Res.bind_ok] at h
      cases b with
      | true => cases h; exact ⟨ht, by simp⟩
      | false => cases h
    | ub => rw [ht] at h; cases h
    | abort => rw [ht] at h; cases h
  | true =>
    rw [if_pos rfl] at h
    cases ht1 : testsmix szMax e1 tf junk hbuf (impl .sse2) with
    | ub => rw [ht1] at h; cases h
    | abort => rw [ht1] at h; cases h
    | ok b =>
      rw [ht1, Res.bind_ok] at h
      cases b with
      | true => cases h; exact ⟨ht1, fun _ => rfl⟩
      | false =>
        simp only [Bool.false_eq_true, if_false] at h
        cases ht : testsmix szMax e2 tf junk hbuf (impl .generic) with
        | ok b =>
          rw [ht, Res.bind_ok] at h
          cases b with
          | true => cases h; exact ⟨ht, by simp⟩
          | false => cases h
        | ub => rw [ht] at h; cases h
        | abort => rw [ht] at h; cases h

/-- hwtest of any two correct block functions passes. -/
theorem hwtest_pass (sw f : Transform) (h1 : GoodTf sw) (h2 : GoodTf f) : hwtest sw f initial_state hwTestBlock = .ok true := by
  obtain ⟨v, e1⟩ : ∃ v, sw initial_state hwTestBlock = .ok v := ⟨_, h1 H0 hwTestBlock rfl⟩
  have e2 : f initial_state hwTestBlock = .ok v := by
    rw [← e1]
    exact (h2 H0 hwTestBlock rfl).trans
      (h1 H0 hwTestBlock rfl).symm
  unfold hwtest
  rw [e1, e2]
  simp

end Scrypt
