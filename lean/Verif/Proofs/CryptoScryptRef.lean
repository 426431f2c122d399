import Verif.Proofs.CryptoScrypt
/-
The reference crypto_scrypt (lib/crypto/crypto_scrypt-ref.c).
-/
namespace Scrypt
open Spec

theorem pow2_of_and' (N : W64) (h : N &&& (N - 1) = 0) (h0 : N ≠ 0) : ∃ k, N.toNat = 2 ^ k ∧ k ≤ 63 := by
  by_cases h1 : N.toNat = 1
  · exact ⟨0, by simpa using h1, by omega⟩
  · have : N.toNat ≠ 0 := fun h => h0 (BitVec.eq_of_toNat_eq (by simpa using h))
    obtain ⟨k, e, -, k2⟩ := pow2_of_and N h (by omega)
    exact ⟨k, e, k2⟩

theorem scryptCheckRef_none (szMax : Nat) (hs : IsSizeMax szMax) (N : W64) (r p : W32) (buflen : Nat) (hb : buflen ≤ szMax)
    (h : scryptCheckRef szMax N r p buflen = .ok none) : RefParams szMax N.toNat r.toNat p.toNat buflen := by
  unfold scryptCheckRef at h
  simp only [mul32_toNat] at h
  have hr := r.isLt
  unfold IsSizeMax at hs
  split at h
  · cases h
  next c1 =>
  split at h
  · cases h
  next c2 =>
  split at h
  · cases h
  next c3 =>
  split at h
  · cases h
  next c4 =>
  split at h
  · cases h
  next c5 =>
  split at h
  · cases h
  next c6 =>
  split at h
  · cases h
  next c7 =>
  simp only [not_or, not_and, not_lt, ge_iff_le, not_le, ne_eq, not_not, gt_iff_lt] at c1 c2 c3 c4 c5 c6 c7
  have p0 : 0 < p.toNat := by omega
  have r0 : 0 < r.toNat := by omega
  refine ⟨r0, p0, c2, pow2_of_and' N c3.1 c3.2, ?_, (le_div_div _ _ _ p0).1 c5.1, ?_, ?_⟩
  · rcases hs with h | h
    · omega
    · have := c1 (by omega); omega
  · rcases hs with h | h
    · have := c5.2 (by subst h; norm_num)
      subst h; omega
    · omega
  · have := (le_div_div _ _ _ r0).1 c7
    rw [show 128 * r.toNat * N.toNat = 128 * N.toNat * r.toNat by ring]; exact this

theorem scryptCheckRef_of (szMax : Nat) (N : W64) (r p : W32) (buflen : Nat)
    (h : RefParams szMax N.toNat r.toNat p.toNat buflen) : scryptCheckRef szMax N r p buflen = .ok none := by
  obtain ⟨r0, p0, rp, ⟨k, hk, k2⟩, len, szB, szXY, szV⟩ := h
  unfold scryptCheckRef
  simp only [mul32_toNat]
  have hN : N ≠ 0 := by
    intro h; rw [h] at hk
    have := Nat.two_pow_pos k
    simp at hk; omega
  rw [if_neg (by omega), if_neg (by omega), if_neg, if_neg (by omega), if_neg, if_neg (by omega), if_neg]
  · simp only [not_lt, gt_iff_lt]
    exact (le_div_div _ _ _ r0).2 (by rw [show 128 * N.toNat * r.toNat = 128 * r.toNat * N.toNat by ring]; exact szV)
  · simp only [not_or, not_and, not_lt, gt_iff_lt]
    exact ⟨(le_div_div _ _ _ p0).2 szB, fun _ => by omega⟩
  · simp only [not_or, ne_eq, not_not]
    exact ⟨and_of_pow2 N k hk, hN⟩

theorem refBlocks_spec (szMax : Nat) (hs : IsSizeMax szMax) (r p N k : Nat)
    (hr : 0 < r) (hN : N = 2 ^ k) (k2 : k ≤ 63) (hsz : 128 * r * p ≤ szMax) (B V XY : Bytes)
    (hB : B.length = 128 * r * p) (hV : V.length = 128 * r * N) (hXY : XY.length = 256 * r) :
    ∃ V' XY', forLoop p (fun x i => do
      let off := blockIndex szMax i r
      let blk ← rdSlice x.1 off (128 * r)
      let y ← Ref.smix blk r N x.2.1 x.2.2
      let B ← wrSlice x.1 off y.1
      return (B, y.2.1, y.2.2)) (B, V, XY) =
      .ok ((List.range p).flatMap (fun b => (roMix r N)^[mixTimes p b] (sl B (128 * r * b) (128 * r))), V', XY') := by
  have hblk : ∀ b, b < p → (sl B (128 * r * b) (128 * r)).length = 128 * r := fun b hb => sl_grp_length B (128 * r) p b hB hb
  obtain ⟨⟨B', V', XY'⟩, e, h1, h2, h3⟩ := forLoop_inv (n := p) (s := (B, V, XY))
    (f := fun x i => do
      let off := blockIndex szMax i r
      let blk ← rdSlice x.1 off (128 * r)
      let y ← Ref.smix blk r N x.2.1 x.2.2
      let B ← wrSlice x.1 off y.1
      return (B, y.2.1, y.2.2))
    (fun i s => s.1 = (List.range p).flatMap (fun b => (roMix r N)^[mixTimes i b] (sl B (128 * r * b) (128 * r))) ∧
      s.2.1.length = 128 * r * N ∧ s.2.2.length = 256 * r)
    ⟨(flatMap_sl B (128 * r) p hB).symm, hV, hXY⟩ (by
      rintro i ⟨B1, V1, XY1⟩ hi ⟨a1, a2, a3⟩
      simp only at a1 a2 a3 ⊢
      have hmod : i % 2 ^ 25 < p := by have := Nat.mod_le i (2 ^ 25); omega
      have hg : ∀ b, b < p → ((roMix r N)^[mixTimes i b] (sl B (128 * r * b) (128 * r))).length = 128 * r :=
        fun b hb => iterate_roMix_length r N _ _ hr (hblk b hb)
      have lB1 : B1.length = 128 * r * p := by rw [a1]; exact flatMap_range_length _ _ _ hg
      have hle : 128 * r * (i % 2 ^ 25) + 128 * r ≤ 128 * r * p := by rw [← Nat.mul_succ]; exact Nat.mul_le_mul_left _ hmod
      rw [blockIndex_eq szMax i r p hs hi hr hsz, rdSlice_sl (by omega), Res.bind_ok]
      have hsl : sl B1 (128 * r * (i % 2 ^ 25)) (128 * r) =
          (roMix r N)^[mixTimes i (i % 2 ^ 25)] (sl B (128 * r * (i % 2 ^ 25)) (128 * r)) := by
        rw [a1]
        exact sl_flatMap (fun b => (roMix r N)^[mixTimes i b] (sl B (128 * r * b) (128 * r))) (128 * r) p _ hg hmod
      obtain ⟨V2, XY2, e2, b1, b2⟩ := smix_ref_spec (sl B1 (128 * r * (i % 2 ^ 25)) (128 * r)) r N k hr hN k2 V1 XY1
        (sl_length _ _ _ (by omega)) a2 a3
      have lr := roMix_length r N (sl B1 (128 * r * (i % 2 ^ 25)) (128 * r)) hr (sl_length _ _ _ (by omega))
      rw [e2, Res.bind_ok]
      simp only []
      rw [wrSlice_ow (by omega), Res.bind_ok]
      refine ⟨_, rfl, ?_, b1, b2⟩
      show ow B1 _ _ = _
      rw [hsl, a1, ow_flatMap _ (128 * r) p _ _ hg hmod (by rw [← hsl]; exact lr)]
      apply flatMap_congr'
      intro b hb
      rw [mixTimes_succ]
      by_cases e : b = i % 2 ^ 25
      · subst e
        rw [if_pos rfl, if_pos rfl, Function.iterate_succ_apply']
      · rw [if_neg e, if_neg (fun h => e h.symm), Nat.add_zero])
  refine ⟨V', XY', ?_⟩
  simp only at h1
  rw [← h1]
  exact e

theorem ref_spec (szMax : Nat) (hs : IsSizeMax szMax) (env : RefEnv) (he : env.Sized) (tf : Transform) (ht : GoodTf tf)
    (junk : HMAC_SHA256_CTX) (hj : junk.Sized)
    (P S : Bytes) (N : W64) (r p : W32) (buf : Bytes) (buflen : Nat) (hbl : buflen ≤ buf.length)
    (hc : RefParams szMax N.toNat r.toNat p.toNat buflen)
    (B V XY : Bytes) (aB : env.allocB (128 * r.toNat * p.toNat) = some B)
    (aXY : env.allocXY (256 * r.toNat) = some XY) (aV : env.allocV (128 * r.toNat * N.toNat) = some V) :
    crypto_scrypt_ref szMax env tf junk P S N r p buf buflen =
      .ok ⟨0, none, scryptCode P S N.toNat r.toNat p.toNat buflen ++ buf.drop buflen, []⟩ := by
  have hchk := scryptCheckRef_of szMax N r p buflen hc
  obtain ⟨r0, p0, rp, ⟨k, hk, k2⟩, len, szB, szXY, szV⟩ := hc
  have eB : p.toNat * 128 * r.toNat = 128 * r.toNat * p.toNat := by ring
  unfold crypto_scrypt_ref
  rw [hchk, Res.bind_ok]
  simp only [Nat.mod_eq_of_lt (show 128 * r.toNat * p.toNat < szMax + 1 by omega),
    Nat.mod_eq_of_lt (show 256 * r.toNat < szMax + 1 by omega),
    Nat.mod_eq_of_lt (show 128 * r.toNat * N.toNat < szMax + 1 by omega), eB, aB, aXY, aV]
  have lB := he.B _ _ aB
  have lXY := he.XY _ _ aXY
  have lV := he.V _ _ aV
  have hsmall : 128 * r.toNat * p.toNat ≤ 32 * (2 ^ 32 - 1) := by
    rw [Nat.mul_assoc]; omega
  rw [PBKDF2_SHA256_spec tf ht junk hj P S 1 (by omega) B _ hsmall (by omega), Res.bind_ok]
  have lpb := pbkdf2_length P S 1 (128 * r.toNat * p.toNat)
  rw [List.drop_of_length_le (by omega), List.append_nil]
  obtain ⟨V', XY', em⟩ := refBlocks_spec szMax hs r.toNat p.toNat N.toNat k r0 hk k2 szB
    (pbkdf2 P S 1 (128 * r.toNat * p.toNat)) V XY lpb lV lXY
  refine (congrArg (· >>= _) em).trans ?_
  rw [Res.bind_ok]
  simp only []
  have lmix : ((List.range p.toNat).flatMap (fun b => (roMix r.toNat N.toNat)^[mixTimes p.toNat b]
      (sl (pbkdf2 P S 1 (128 * r.toNat * p.toNat)) (128 * r.toNat * b) (128 * r.toNat)))).length = 128 * r.toNat * p.toNat :=
    flatMap_range_length _ _ _ (fun b hb => iterate_roMix_length _ _ _ _ r0 (sl_grp_length _ (128 * r.toNat) p.toNat b lpb hb))
  rw [rdSlice_sl (by omega), Res.bind_ok, sl_full _ _ lmix,
    PBKDF2_SHA256_spec tf ht junk hj P _ 1 (by omega) buf buflen len hbl, Res.bind_ok]
  have hcode : pbkdf2 P ((List.range p.toNat).flatMap (fun b => (roMix r.toNat N.toNat)^[mixTimes p.toNat b]
      (sl (pbkdf2 P S 1 (128 * r.toNat * p.toNat)) (128 * r.toNat * b) (128 * r.toNat)))) 1 buflen =
      scryptCode P S N.toNat r.toNat p.toNat buflen := by
    unfold scryptCode; simp only [eB]; rfl
  rw [hcode]
  rfl

end Scrypt
