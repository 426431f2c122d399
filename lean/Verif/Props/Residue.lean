import Verif.Model.Residue
import Verif.Props.Scrypt
import Verif.Props.EncEx
/-
C76: what a key derivation leaves in the memory it gives back (finding F21).
-/
namespace Scrypt.Props
open Scrypt Scrypt.Spec

/-- The version with the contents of freed memory is the same program. -/
theorem C76_erase (szMax : Nat) (env : ScEnv) (tf : Transform) (junk : HMAC_SHA256_CTX) (P S : Bytes) (N : W64) (r p : W32) (buf : Bytes) (buflen : Nat)
    (smix : SmixFn) :
    (crypto_scrypt_internalR szMax env tf junk P S N r p buf buflen smix >>= fun x => .ok x.1) =
      crypto_scrypt_internal szMax env tf junk P S N r p buf buflen smix := by
  unfold crypto_scrypt_internalR crypto_scrypt_internal
  simp only []
  cases scryptCheck szMax N r p buflen with
  | some e => rfl
  | none =>
    simp only []
    cases env.allocB (128 * r.toNat * p.toNat % (szMax + 1)) with
    | none => rfl
    | some B =>
      simp only []
      cases env.allocXY ((256 * r.toNat + 64) % (szMax + 1)) with
      | none => rfl
      | some XY =>
        simp only []
        cases env.allocV (128 * r.toNat * N.toNat % (szMax + 1)) with
        | none => rfl
        | some V =>
          simp only []
          cases PBKDF2_SHA256 tf junk P S 1 B (p.toNat * 128 * r.toNat % (szMax + 1)) with
          | ub => rfl
          | abort => rfl
          | ok B1 =>
            rw [Res.bind_ok, Res.bind_ok]
            cases mixBlocks szMax smix r.toNat p.toNat N.toNat B1 V XY with
            | ub => rfl
            | abort => rfl
            | ok x =>
              rw [Res.bind_ok, Res.bind_ok]
              cases rdSlice x.1 0 (p.toNat * 128 * r.toNat % (szMax + 1)) with
              | ub => rfl
              | abort => rfl
              | ok Bs =>
                rw [Res.bind_ok, Res.bind_ok]
                cases PBKDF2_SHA256 tf junk P Bs 1 buf buflen with
                | ub => rfl
                | abort => rfl
                | ok b => cases env.munmapOk <;> rfl

/-- `M` is all one needs, besides the passphrase, to have every key this derivation can give, without the memory-hard function: one PBKDF2 with one iteration. -/
def Unlocks (P S : Bytes) (N r p : Nat) (M : Bytes) : Prop := M.length = 128 * r * p ∧ ∀ n, scryptCode P S N r p n = pbkdf2 P M 1 n

/-- The block was not touched: it contains what the allocator put there. -/
def Untouched (env : ScEnv) (N r p : Nat) : Freed → Prop
  | .B b => env.allocB (128 * r * p) = some b
  | .XY x => env.allocXY (256 * r + 64) = some x
  | .V v => env.allocV (128 * r * N) = some v

/-- `mixBlocks_spec` together with the sizes of the two scratch areas. -/
theorem mixBlocks_sized (szMax : Nat) (hs : IsSizeMax szMax) (smix : SmixFn) (hm : GoodSmix smix) (r p N k : Nat)
    (hr : 0 < r) (hN : N = 2 ^ k) (k1 : 1 ≤ k) (k2 : k ≤ 63) (hsz : 128 * r * p ≤ szMax) (B : Bytes) (V XY : List W32)
    (hB : B.length = 128 * r * p) (hV : V.length = 32 * r * N) (hXY : XY.length = 64 * r + 16) :
    ∃ V' XY', mixBlocks szMax smix r p N B V XY =
      .ok ((List.range p).flatMap (fun b => (roMix r N)^[mixTimes p b] (sl B (128 * r * b) (128 * r))), V', XY') ∧ V'.length = 32 * r * N ∧ XY'.length = 64 * r + 16 := by
  have hblk : ∀ b, b < p → (sl B (128 * r * b) (128 * r)).length = 128 * r := fun b hb => sl_grp_length B (128 * r) p b hB hb
  obtain ⟨⟨B', V', XY'⟩, e, h1, h2, h3⟩ := forLoop_inv (n := p) (s := (B, V, XY))
    (f := fun x i => do
      let off := blockIndex szMax i r
      let blk ← rdSlice x.1 off (128 * r)
      let y ← smix blk r N x.2.1 x.2.2
      let B ← wrSlice x.1 off y.1
      return (B, y.2.1, y.2.2))
    (fun i s => s.1 = (List.range p).flatMap (fun b => (roMix r N)^[mixTimes i b] (sl B (128 * r * b) (128 * r))) ∧
      s.2.1.length = 32 * r * N ∧ s.2.2.length = 64 * r + 16)
    ⟨(flatMap_sl B (128 * r) p hB).symm, hV, hXY⟩ (by
      rintro i ⟨B1, V1, XY1⟩ hi ⟨a1, a2, a3⟩
      simp only at a1 a2 a3 ⊢
      have hmod : i % 2 ^ 25 < p := by have := Nat.mod_le i (2 ^ 25); omega
      have hg : ∀ b, b < p → ((roMix r N)^[mixTimes i b] (sl B (128 * r * b) (128 * r))).length = 128 * r :=
        fun b hb => iterate_roMix_length r N _ _ hr (hblk b hb)
      have lB1 : B1.length = 128 * r * p := by rw [a1]; exact flatMap_range_length _ _ _ hg
      have hle : 128 * r * (i % 2 ^ 25) + 128 * r ≤ 128 * r * p := by rw [← Nat.mul_succ]; exact Nat.mul_le_mul_left _ hmod
      rw [blockIndex_eq szMax i r p hs hi hr hsz, rdSlice_sl (by omega), Res.bind_ok]
      have hsl : sl B1 (128 * r * (i % 2 ^ 25)) (128 * r) =
          (roMix r N)^[mixTimes i (i % 2 ^ 25)] (sl B (128 * r * (i % 2 ^ 25)) (128 * r)) := by
        rw [a1]
        exact sl_flatMap (fun b => (roMix r N)^[mixTimes i b] (sl B (128 * r * b) (128 * r))) (128 * r) p _ hg hmod
      obtain ⟨V2, XY2, e2, b1, b2⟩ := hm (sl B1 (128 * r * (i % 2 ^ 25)) (128 * r)) r N k V1 XY1 hr hN k1 k2
        (sl_length _ _ _ (by omega)) a2 a3
      have lr := roMix_length r N (sl B1 (128 * r * (i % 2 ^ 25)) (128 * r)) hr (sl_length _ _ _ (by omega))
      rw [e2, Res.bind_ok]
      simp only []
      rw [wrSlice_ow (by omega), Res.bind_ok]
      refine ⟨_, rfl, ?_, b1, b2⟩
      show ow B1 _ _ = _
      rw [hsl, a1, ow_flatMap _ (128 * r) p _ _ hg hmod (by rw [← hsl]; exact lr)]
      apply flatMap_congr'
      intro b hb
      rw [mixTimes_succ]
      by_cases e : b = i % 2 ^ 25
      · subst e
        rw [if_pos rfl, if_pos rfl, Function.iterate_succ_apply']
      · rw [if_neg e, if_neg (fun h => e h.symm), Nat.add_zero])
  refine ⟨V', XY', ?_, h2, h3⟩
  simp only at h1
  rw [← h1]
  exact e

/-- **C76, finding F21.**  A key derivation that succeeds gives back, last, a block with the mixed data from which, with the passphrase, the key follows by
one PBKDF2 iteration; so does one that fails only because its memory cannot be unmapped.  A derivation that fails earlier gives back its blocks untouched. -/
theorem C76_left (szMax : Nat) (hs : IsSizeMax szMax) (env : ScEnv) (he : env.Sized) (tf : Transform) (ht : GoodTf tf)
    (junk : HMAC_SHA256_CTX) (hj : junk.Sized) (smix : SmixFn) (hm : GoodSmix smix)
    (P S : Bytes) (N : W64) (r p : W32) (buf : Bytes) (buflen : Nat) (hbl : buflen ≤ buf.length) (hbs : buflen ≤ szMax) (o : ScOut) (left : List Freed)
    (h : crypto_scrypt_internalR szMax env tf junk P S N r p buf buflen smix = .ok (o, left)) :
    (o.rc = 0 → ∃ V XY M, left = [.V V, .XY XY, .B M] ∧ V.length = 32 * r.toNat * N.toNat ∧ XY.length = 64 * r.toNat + 16 ∧
        Unlocks P S N.toNat r.toNat p.toNat M ∧ o.buf = pbkdf2 P M 1 buflen ++ buf.drop buflen) ∧
    (o.rc ≠ 0 → (∃ XY M, left = [.XY XY, .B M] ∧ XY.length = 64 * r.toNat + 16 ∧ env.munmapOk = false ∧ Unlocks P S N.toNat r.toNat p.toNat M) ∨
      ∀ f ∈ left, Untouched env N.toNat r.toNat p.toNat f) := by
  unfold crypto_scrypt_internalR at h
  simp only [] at h
  cases hchk : scryptCheck szMax N r p buflen with
  | some e =>
    rw [hchk] at h
    cases h
    exact ⟨(fun h => by cases h), fun _ => .inr (fun f hf => by cases hf)⟩
  | none =>
    obtain ⟨r0, p0, rp, ⟨k, hk, k1, k2⟩, len, szB, szXY, szV⟩ := (scryptCheck_none_iff szMax hs N r p buflen hbs).1 hchk
    have eB : p.toNat * 128 * r.toNat = 128 * r.toNat * p.toNat := by ring
    rw [hchk] at h
    simp only [Nat.mod_eq_of_lt (show 128 * r.toNat * p.toNat < szMax + 1 by omega),
      Nat.mod_eq_of_lt (show 256 * r.toNat + 64 < szMax + 1 by omega),
      Nat.mod_eq_of_lt (show 128 * r.toNat * N.toNat < szMax + 1 by omega), eB] at h
    cases aB : env.allocB (128 * r.toNat * p.toNat) with
    | none =>
      rw [aB] at h
      cases h
      exact ⟨(fun h => by cases h), fun _ => .inr (fun f hf => by cases hf)⟩
    | some B =>
      rw [aB] at h
      simp only [] at h
      cases aXY : env.allocXY (256 * r.toNat + 64) with
      | none =>
        rw [aXY] at h
        cases h
        refine ⟨(fun h => by cases h), fun _ => .inr (fun f hf => ?_)⟩
        rw [List.mem_singleton.1 hf]
        exact aB
      | some XY =>
        rw [aXY] at h
        simp only [] at h
        cases aV : env.allocV (128 * r.toNat * N.toNat) with
        | none =>
          rw [aV] at h
          cases h
          refine ⟨(fun h => by cases h), fun _ => .inr (fun f hf => ?_)⟩
          rcases List.mem_cons.1 hf with e | hf
          · rw [e]; exact aXY
          · rw [List.mem_singleton.1 hf]; exact aB
        | some V =>
          rw [aV] at h
          simp only [] at h
          have lB := he.B _ _ aB
          have lXY := he.XY _ _ aXY
          have lV := he.V _ _ aV
          have hsmall : 128 * r.toNat * p.toNat ≤ 32 * (2 ^ 32 - 1) := by
            rw [Nat.mul_assoc]; omega
          rw [PBKDF2_SHA256_spec tf ht junk hj P S 1 (by omega) B _ hsmall (by omega), Res.bind_ok] at h
          have lpb := pbkdf2_length P S 1 (128 * r.toNat * p.toNat)
          rw [List.drop_of_length_le (by omega), List.append_nil] at h
          obtain ⟨V', XY', em, eV, eXY⟩ := mixBlocks_sized szMax hs smix hm r.toNat p.toNat N.toNat k r0 hk k1 k2 szB
            (pbkdf2 P S 1 (128 * r.toNat * p.toNat)) V XY lpb (by
              rw [lV, show 128 * r.toNat * N.toNat = 4 * (32 * r.toNat * N.toNat) by ring]; exact Nat.mul_div_cancel_left _ (by omega)) (by omega)
          rw [em, Res.bind_ok] at h
          simp only [] at h
          have lmix : ((List.range p.toNat).flatMap (fun b => (roMix r.toNat N.toNat)^[mixTimes p.toNat b]
              (sl (pbkdf2 P S 1 (128 * r.toNat * p.toNat)) (128 * r.toNat * b) (128 * r.toNat)))).length = 128 * r.toNat * p.toNat :=
            flatMap_range_length _ _ _ (fun b hb => iterate_roMix_length _ _ _ _ r0 (sl_grp_length _ (128 * r.toNat) p.toNat b lpb hb))
          rw [rdSlice_sl (by omega), Res.bind_ok, sl_full _ _ lmix,
            PBKDF2_SHA256_spec tf ht junk hj P _ 1 (by omega) buf buflen len hbl, Res.bind_ok] at h
          have hcode : ∀ n, scryptCode P S N.toNat r.toNat p.toNat n = pbkdf2 P ((List.range p.toNat).flatMap (fun b => (roMix r.toNat N.toNat)^[mixTimes p.toNat b]
              (sl (pbkdf2 P S 1 (128 * r.toNat * p.toNat)) (128 * r.toNat * b) (128 * r.toNat)))) 1 n := by
            intro n; unfold scryptCode; simp only [eB]; rfl
          cases hu : env.munmapOk with
          | false =>
            rw [hu, if_pos (by decide)] at h
            cases h
            exact ⟨(fun h => by cases h), fun _ => .inl ⟨_, _, rfl, eXY, rfl, lmix, hcode⟩⟩
          | true =>
            rw [hu, if_neg (by decide)] at h
            cases h
            exact ⟨fun _ => ⟨_, _, _, rfl, eV, eXY, ⟨lmix, hcode⟩, rfl⟩, fun h => absurd rfl h⟩

/-- **C76.**  What such a block is good for: it opens every file encrypted with that passphrase, salt and parameters.  The header accepts the key made from
the block and the passphrase, and that key decrypts the data. -/
theorem C76_opens {P S M m : Bytes} {l r p : Nat} (hS : S.length = 32) (hl : l < 256) (hr : r < 2 ^ 32) (hp : p < 2 ^ 32) (h : Unlocks P S (2 ^ l) r p M) :
    PasswordOk (pbkdf2 P M 1 64) (container (scryptCode P S (2 ^ l) r p 64) l r p S m) ∧
    plaintext (pbkdf2 P M 1 64) (container (scryptCode P S (2 ^ l) r p 64) l r p S m) = m := by
  rw [h.2 64]
  have c := container_fields (pbkdf2 P M 1 64) l r p S m hS hl hr hp
  exact ⟨c.pass, c.text⟩

/-- **C76.**  After every successful encryption such a block has been given back: the derivation (whichever implementation it used) left an `M` with which the
passphrase opens the result. -/
theorem C76_enc_buf {sys : EncSys} (g : sys.Good) {m outbuf passwd : Bytes} (hm : m.length < 2 ^ 64) (hout : m.length + 128 ≤ outbuf.length)
    {P : EncParams} {verbose force : Bool} {o : BufOut} (h : scryptenc_buf sys m outbuf passwd P verbose force = .ok o) (hok : o.rc = .OK) (f : SmixImpl) :
    ∃ (salt : Bytes) (l : Nat) (k : ScOut) (V XY : List W32) (M : Bytes), sys.salt = some salt ∧ o.P.logN = l ∧
      crypto_scrypt_internalR sys.par.szMax sys.kdf sys.tf sys.junkHmac passwd salt ((1 : W64) <<< l) o.P.r o.P.p sys.dk0 64 (smixImpl f) =
        .ok (k, [.V V, .XY XY, .B M]) ∧
      PasswordOk (pbkdf2 passwd M 1 64) (o.out.take (m.length + 128)) ∧ plaintext (pbkdf2 passwd M 1 64) (o.out.take (m.length + 128)) = m := by
  obtain ⟨salt, l, a1, a2, a3, -, ⟨b1, b2, b3, b4, b5⟩, a6⟩ := encBuf_inv g hm hout h hok
  obtain ⟨c1, c2, c3, c4, c5⟩ := a3
  have hN := one_shl_toNat l (by omega)
  obtain ⟨B, e2⟩ := Option.ne_none_iff_exists'.1 b2
  obtain ⟨XY, e3⟩ := Option.ne_none_iff_exists'.1 b3
  obtain ⟨V, e4⟩ := Option.ne_none_iff_exists'.1 b4
  have hz : 64 ≤ sys.par.szMax := by rcases g.sz with h | h <;> rw [h] <;> norm_num
  have int := internal_spec sys.par.szMax g.sz sys.kdf g.kdf sys.tf g.tf sys.junkHmac g.junkHmac (smixImpl f) (goodSmix f) passwd salt
    ((1 : W64) <<< l) o.P.r o.P.p sys.dk0 64 (by rw [g.dk0]) hz (by rw [hN]; exact b1) B V XY e2 e3 (by rw [hN]; exact e4)
  rw [b5, if_pos rfl, ← C76_erase, Res.bind_eq_ok] at int
  obtain ⟨⟨k, left⟩, hR, hk⟩ := int
  have hk := Res.ok.inj hk
  simp only [] at hk
  obtain ⟨V', XY', M, d1, -, -, d2, -⟩ := (C76_left sys.par.szMax g.sz sys.kdf g.kdf sys.tf g.tf sys.junkHmac g.junkHmac (smixImpl f) (goodSmix f) passwd salt
    ((1 : W64) <<< l) o.P.r o.P.p sys.dk0 64 (by rw [g.dk0]) hz k left hR).1 (by rw [hk])
  rw [hN] at d2
  rw [d1] at hR
  have hs := g.salt _ a1
  have len := container_length (scryptCode passwd salt (2 ^ l) o.P.r.toNat o.P.p.toNat 64) l o.P.r.toNat o.P.p.toNat salt m hs
  have ht : o.out.take (m.length + 128) = container (scryptCode passwd salt (2 ^ l) o.P.r.toNat o.P.p.toNat 64) l o.P.r.toNat o.P.p.toNat salt m := by
    rw [a6, ← len]; exact List.take_left' rfl
  rw [ht]
  obtain ⟨x, y⟩ := C76_opens (m := m) hs (by omega) o.P.r.isLt o.P.p.isLt d2
  exact ⟨salt, l, k, V', XY', M, a1, a2, hR, x, y⟩

/-- The hypotheses are met: an encryption which succeeds, on every processor, for every password. -/
example (sha : ShaHw) (hw : AesHw) (passwd : Bytes) :
    ∃ (o : BufOut) (M : Bytes), scryptenc_buf (exEnc sha hw exSalt) [1, 2, 3] (List.replicate 200 0) passwd exP true false = .ok o ∧ o.rc = .OK ∧
      PasswordOk (pbkdf2 passwd M 1 64) (o.out.take 131) := by
  have hl : ([1, 2, 3] : Bytes).length + 128 ≤ (List.replicate 200 (0 : Byte)).length := by rw [List.length_replicate]; decide
  obtain ⟨o, h, hok, -⟩ := exEnc_buf sha hw exSalt_length [1, 2, 3] (List.replicate 200 0) passwd (by decide) hl true false
  obtain ⟨_, _, _, _, _, M, -, -, -, h', -⟩ := C76_enc_buf (exEnc_good sha hw exSalt_length) (by decide) hl h hok .generic
  exact ⟨o, M, h, hok, h'⟩

end Scrypt.Props
