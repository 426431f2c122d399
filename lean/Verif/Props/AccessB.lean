import Verif.Proofs.AccessB
import Verif.Props.Access
/-
C78: the accesses to B in the mixing phase.
-/
namespace Scrypt.Props
open Scrypt Spec Logged

theorem onB_forLoop {σ : Type} {n : Nat} {f : σ → Nat → Logged σ} {t : Nat → List Acc}
    (hf : ∀ s i, i < n → ∀ a u, f s i = Res.ok (a, u) → onB u = t i) : ∀ m, m ≤ n → ∀ s a u, forLoopT m f s = Res.ok (a, u) → onB u = (List.range m).flatMap t
  | 0, _, s, a, u, h => by rw [← (Prod.mk.inj (Res.ok.inj h)).2]; rfl
  | m + 1, hm, s, a, u, h => by
    obtain ⟨s1, i1, j1, a1, h2, e⟩ := tr_bind_inv h
    rw [e, onB_append, onB_forLoop hf m (by omega) _ _ _ a1, hf _ m (by omega) _ _ h2, List.range_succ, List.flatMap_append, List.flatMap_singleton]

theorem onB_map_placed (o : Nat) : ∀ t : List Acc, onB (t.map (placed o)) = (onB t).map (placed o)
  | [] => rfl
  | ⟨arr, i, w⟩ :: t => by
    have ih := onB_map_placed o t
    unfold onB at ih ⊢
    cases arr <;> simp_all [placed]

/-- The accesses to B of a phase with `p` mixings in which a mixing reads the bytes of its block in the order `rd` and writes them in the order `wr`. -/
def blocksOfB (rd wr : List Nat) (r p : Nat) : List Acc :=
  (List.range p).flatMap fun b => (rd.map fun i => (⟨.B, 128 * r * b + i, false⟩ : Acc)) ++ wr.map fun i => (⟨.B, 128 * r * b + i, true⟩ : Acc)

theorem mixBlocksT_onB (szMax : Nat) (hs : IsSizeMax szMax) (f : SmixImpl) (r p N : Nat) (hr : 0 < r) (hp : p ≤ 2 ^ 25) (hsz : 128 * r * p ≤ szMax) {rd wr : List Nat}
    (hf : ∀ (N : Nat) (B : Bytes) (V XY : List W32) (a : Bytes × List W32 × List W32) (t : List Acc), smixImplT f B r N V XY = Res.ok (a, t) →
      onB t = (rd.map fun i => (⟨.B, i, false⟩ : Acc)) ++ wr.map fun i => (⟨.B, i, true⟩ : Acc))
    (B : Bytes) (V XY : List W32) (s : Bytes × List W32 × List W32) (t : List Acc) (h : mixBlocksT szMax f r p N B V XY = Res.ok (s, t)) :
    onB t = blocksOfB rd wr r p := by
  unfold mixBlocksT at h
  refine onB_forLoop (n := p) (t := fun b => _) ?_ p (Nat.le_refl _) _ _ _ h
  intro s i hi a u h
  dsimp only at h
  obtain ⟨b1, i1, j1, a1, h, e1⟩ := tr_bind_inv h
  obtain ⟨b2, i2, j2, a2, h, e2⟩ := tr_bind_inv h
  obtain ⟨b3, i3, j3, a3, h, e3⟩ := tr_bind_inv h
  have t1 := hasTr_log _ _ _ _ a1
  have t3 := hasTr_log _ _ _ _ a3
  have t4 : j3 = [] := (Prod.mk.inj (Res.ok.inj h)).2.symm
  obtain ⟨⟨y, v⟩, hy, hv⟩ := Res.bind_eq_ok.1 (show (_ >>= _ : Res _) = _ from a2)
  have t2 := (Prod.mk.inj (Res.ok.inj hv)).2
  dsimp only at t2
  have q := hf _ _ _ _ _ _ hy
  rw [e1, e2, e3, t1, t3, t4, List.nil_append, List.nil_append, List.append_nil, ← t2, inBlock_placed, onB_map_placed, q,
    blockIndex_eq szMax i r p hs hi hr hsz, Nat.mod_eq_of_lt (show i < 2 ^ 25 by omega), List.map_append, List.map_map, List.map_map]
  rfl

/-- **C78.**  The accesses to B of the mixing phase of every derivation that succeeds: one block of 128r bytes after the other, and of each block every byte is first
read once and then, when it has been mixed, every byte is written once, in orders that are fixed by the routine and `r`. -/
theorem C78_B (f : SmixImpl) (r : W32) (hr : r ≠ 0) : ∃ rd wr : List Nat, rd.Perm (List.range (128 * r.toNat)) ∧ wr.Perm (List.range (128 * r.toNat)) ∧
    ∀ (szMax : Nat), IsSizeMax szMax → ∀ (env : ScEnv) (tf : Transform) (junk : HMAC_SHA256_CTX) (passwd salt : Bytes) (N : W64) (p : W32) (buf : Bytes)
      (buflen : Nat), buflen ≤ szMax → p.toNat ≤ 2 ^ 25 → ∀ (o : ScOut) (tr : List Acc),
      crypto_scrypt_internalT szMax env tf junk passwd salt N r p buf buflen f = Res.ok (o, tr) → o.rc = 0 →
      onB tr = (List.range p.toNat).flatMap fun b => (rd.map fun i => (⟨.B, 128 * r.toNat * b + i, false⟩ : Acc)) ++
        wr.map fun i => (⟨.B, 128 * r.toNat * b + i, true⟩ : Acc) := by
  have hr0 : 0 < r.toNat := by
    rcases Nat.eq_zero_or_pos r.toNat with h | h
    · exact absurd (BitVec.eq_of_toNat_eq h) hr
    · exact h
  obtain ⟨rd, wr, h1, h2, h3⟩ := smix_onB f r.toNat
  refine ⟨rd, wr, h1, h2, fun szMax hs env tf junk passwd salt N p buf buflen hbs hp25 o tr h h0 => ?_⟩
  unfold crypto_scrypt_internalT at h
  simp only [] at h
  cases hc : scryptCheck szMax N r p buflen with
  | some e =>
    rw [hc] at h
    rw [← (Prod.mk.inj (Res.ok.inj h)).1] at h0
    exact absurd h0 (by show ¬ (-1 : Int) = 0; decide)
  | none =>
    rw [hc] at h
    simp only [] at h
    obtain ⟨-, p0, rp, ⟨k, hk, k1, k2⟩, len, szB, szXY, szV⟩ := (scryptCheck_none_iff szMax hs N r p buflen hbs).1 hc
    rw [Nat.mod_eq_of_lt (show 128 * r.toNat * p.toNat < szMax + 1 by omega), Nat.mod_eq_of_lt (show 256 * r.toNat + 64 < szMax + 1 by omega),
      Nat.mod_eq_of_lt (show 128 * r.toNat * N.toNat < szMax + 1 by omega)] at h
    cases hB : env.allocB (128 * r.toNat * p.toNat) with
    | none =>
      rw [hB] at h
      rw [← (Prod.mk.inj (Res.ok.inj h)).1] at h0
      exact absurd h0 (by show ¬ (-1 : Int) = 0; decide)
    | some B =>
    rw [hB] at h
    simp only [] at h
    cases hX : env.allocXY (256 * r.toNat + 64) with
    | none =>
      rw [hX] at h
      rw [← (Prod.mk.inj (Res.ok.inj h)).1] at h0
      exact absurd h0 (by show ¬ (-1 : Int) = 0; decide)
    | some XY =>
    rw [hX] at h
    simp only [] at h
    cases hV : env.allocV (128 * r.toNat * N.toNat) with
    | none =>
      rw [hV] at h
      rw [← (Prod.mk.inj (Res.ok.inj h)).1] at h0
      exact absurd h0 (by show ¬ (-1 : Int) = 0; decide)
    | some V =>
    rw [hV] at h
    dsimp only at h
    obtain ⟨B1, i1, j1, a1, h, e1⟩ := tr_bind_inv h
    obtain ⟨s1, i2, j2, a2, h, e2⟩ := tr_bind_inv h
    obtain ⟨Bs, i3, j3, a3, h, e3⟩ := tr_bind_inv h
    obtain ⟨bf, i4, j4, a4, h, e4⟩ := tr_bind_inv h
    have t1 := hasTr_log _ _ _ _ a1
    have t3 := hasTr_log _ _ _ _ a3
    have t4 := hasTr_log _ _ _ _ a4
    have t5 : j4 = [] := by
      split at h <;> exact (Prod.mk.inj (Res.ok.inj h)).2.symm
    have t2 := mixBlocksT_onB szMax hs f r.toNat p.toNat N.toNat hr0 hp25 szB h3 _ _ _ _ _ a2
    rw [e1, e2, e3, e4, t1, t3, t4, t5, List.nil_append, List.nil_append, List.nil_append, List.append_nil, t2]
    rfl

/-- **C78.**  So every byte of B is both read and written, and nothing beyond B is accessed. -/
theorem C78_B_bytes (f : SmixImpl) (r : W32) (hr : r ≠ 0) (szMax : Nat) (hs : IsSizeMax szMax) (env : ScEnv) (tf : Transform) (junk : HMAC_SHA256_CTX)
    (passwd salt : Bytes) (N : W64) (p : W32) (buf : Bytes) (buflen : Nat) (hb : buflen ≤ szMax) (hp : p.toNat ≤ 2 ^ 25) (o : ScOut) (tr : List Acc)
    (h : crypto_scrypt_internalT szMax env tf junk passwd salt N r p buf buflen f = Res.ok (o, tr)) (h0 : o.rc = 0) (i : Nat) (w : Bool) :
    (⟨.B, i, w⟩ : Acc) ∈ tr ↔ i < 128 * r.toNat * p.toNat := by
  obtain ⟨rd, wr, h1, h2, h3⟩ := C78_B f r hr
  have e := h3 szMax hs env tf junk passwd salt N p buf buflen hb hp o tr h h0
  have m : (⟨.B, i, w⟩ : Acc) ∈ tr ↔ (⟨.B, i, w⟩ : Acc) ∈ onB tr := by
    unfold onB
    rw [List.mem_filter]
    exact ⟨fun h => ⟨h, rfl⟩, fun h => h.1⟩
  have r1 : ∀ k, k ∈ rd ↔ k < 128 * r.toNat := fun k => by rw [h1.mem_iff, List.mem_range]
  have r2 : ∀ k, k ∈ wr ↔ k < 128 * r.toNat := fun k => by rw [h2.mem_iff, List.mem_range]
  rw [m, e, List.mem_flatMap]
  constructor
  · rintro ⟨b, hb1, hm⟩
    have hb1 := List.mem_range.1 hb1
    have hle : 128 * r.toNat * b + 128 * r.toNat ≤ 128 * r.toNat * p.toNat := by rw [← Nat.mul_succ]; exact Nat.mul_le_mul_left _ hb1
    rcases List.mem_append.1 hm with hm | hm
    · obtain ⟨k, hk, e1⟩ := List.mem_map.1 hm
      have := (r1 k).1 hk
      have := congrArg Acc.idx e1
      dsimp only at this
      omega
    · obtain ⟨k, hk, e1⟩ := List.mem_map.1 hm
      have := (r2 k).1 hk
      have := congrArg Acc.idx e1
      dsimp only at this
      omega
  · intro hi
    have hr0 : 0 < 128 * r.toNat := by
      rcases Nat.eq_zero_or_pos (128 * r.toNat) with h | h
      · rw [h] at hi; omega
      · exact h
    have hd := Nat.div_add_mod i (128 * r.toNat)
    have hm := Nat.mod_lt i hr0
    refine ⟨i / (128 * r.toNat), List.mem_range.2 (Nat.div_lt_of_lt_mul hi), List.mem_append.2 ?_⟩
    cases w with
    | false => exact .inl (List.mem_map.2 ⟨_, (r1 _).2 hm, by rw [hd]⟩)
    | true => exact .inr (List.mem_map.2 ⟨_, (r2 _).2 hm, by rw [hd]⟩)

/-- A derivation with N = 1024, r = 8, p = 1 succeeds, and what it does to B is the above. -/
example (hw : ShaHw) (f : SmixImpl) (pw salt : Bytes) : ∃ o tr, crypto_scrypt_internalT (2 ^ 64 - 1) okEnv (shaTransform hw) zeroHctx pw salt 1024 8 1
    (List.replicate 64 0) 64 f = Res.ok (o, tr) ∧ o.rc = 0 ∧ (⟨.B, 1023, true⟩ : Acc) ∈ tr ∧ (⟨.B, 0, false⟩ : Acc) ∈ tr ∧ (⟨.B, 1024, true⟩ : Acc) ∉ tr := by
  have hp : ScParams (2 ^ 64 - 1) (1024 : W64).toNat (8 : W32).toNat (1 : W32).toNat 64 :=
    ⟨by decide, by decide, by decide, ⟨10, by decide, by norm_num, by norm_num⟩, by norm_num, by decide, by decide, by decide⟩
  rcases internal_total (2 ^ 64 - 1) (.inr rfl) okEnv okEnv_sized (shaTransform hw) (goodTf hw) zeroHctx zeroHctx_sized (smixImpl f) (goodSmix f) pw salt 1024 8 1
    (List.replicate 64 0) 64 (by rw [List.length_replicate]) (by norm_num) with ⟨h, -⟩ | ⟨-, ⟨h | h | h, -⟩ | ⟨-, h⟩⟩
  · exact absurd hp h
  · cases h
  · cases h
  · cases h
  · obtain ⟨tr, h1⟩ := C78_exists _ _ _ _ _ _ _ _ _ _ _ _ h
    have b := fun i w => C78_B_bytes f 8 (by decide) _ (.inr rfl) okEnv _ zeroHctx pw salt 1024 1 (List.replicate 64 0) 64 (by norm_num) (by decide) _ tr h1 rfl i w
    exact ⟨_, tr, h1, rfl, (b _ _).2 (by decide), (b _ _).2 (by decide), fun h => absurd ((b _ _).1 h) (by decide)⟩

end Scrypt.Props
