import Verif.Model.Cost
import Verif.Spec.Limits
import Verif.Proofs.ScryptSelect
import Verif.Props.Scrypt
/-
C55: what a key derivation costs.
-/
namespace Scrypt
open Spec

namespace Cnt

theorem erase_pure {α : Type} (a : α) : erase (pure a : Cnt α) = .ok a := rfl

theorem erase_bind {α β : Type} (x : Cnt α) (f : α → Cnt β) : erase (x >>= f) = (erase x >>= fun a => erase (f a)) := by
  show Res.bind (Cnt.bind x f) _ = Res.bind (Res.bind x _) _
  unfold Cnt.bind
  cases x with
  | ok a =>
    show Res.bind (Res.bind (f a.1) _) _ = Res.bind (f a.1) _
    cases f a.1 <;> rfl
  | ub => rfl
  | abort => rfl

theorem erase_free {α : Type} (x : Res α) : erase (free x) = x := by cases x <;> rfl
theorem erase_core {α : Type} (x : Res α) : erase (core x) = x := by cases x <;> rfl

theorem erase_ite {α : Type} (c : Prop) [Decidable c] (x y : Cnt α) : erase (if c then x else y) = if c then erase x else erase y := by split <;> rfl

end Cnt

open Cnt

theorem erase_forLoop {σ : Type} (f : σ → Nat → Cnt σ) (s : σ) : ∀ n, erase (forLoopC n f s) = forLoop n (fun s i => erase (f s i)) s
  | 0 => rfl
  | n + 1 => by
    rw [forLoopC, erase_bind, erase_forLoop f s n]
    rfl

/-- The computation, if it returns, has executed exactly `n` Salsa20/8 cores. -/
def Costs {α : Type} (x : Cnt α) (n : Nat) : Prop := ∀ a k, x = Res.ok (a, k) → k = n

theorem costs_pure {α : Type} (a : α) : Costs (pure a : Cnt α) 0 := by
  intro b k h
  exact (Prod.mk.inj (Res.ok.inj h)).2.symm

theorem costs_free {α : Type} (x : Res α) : Costs (free x) 0 := by
  intro b k h
  cases x with
  | ok a => exact (Prod.mk.inj (Res.ok.inj h)).2.symm
  | ub => cases h
  | abort => cases h

theorem costs_core {α : Type} (x : Res α) : Costs (core x) 1 := by
  intro b k h
  cases x with
  | ok a => exact (Prod.mk.inj (Res.ok.inj h)).2.symm
  | ub => cases h
  | abort => cases h

theorem costs_bind {α β : Type} {x : Cnt α} {f : α → Cnt β} {n m : Nat} (hx : Costs x n) (hf : ∀ a, Costs (f a) m) : Costs (x >>= f) (n + m) := by
  intro b k h
  have h : Cnt.bind x f = Res.ok (b, k) := h
  unfold Cnt.bind at h
  obtain ⟨a, h1, h⟩ := Res.bind_eq_ok.1 (show (_ >>= _ : Res _) = _ from h)
  obtain ⟨c, h2, h⟩ := Res.bind_eq_ok.1 (show (_ >>= _ : Res _) = _ from h)
  rw [← (Prod.mk.inj (Res.ok.inj h)).2, hx a.1 a.2 h1, hf a.1 c.1 c.2 h2]

theorem cnt_bind_inv {α β : Type} {x : Cnt α} {f : α → Cnt β} {b : β} {k : Nat} (h : (x >>= f) = (Res.ok (b, k) : Res _)) :
    ∃ a i j, x = Res.ok (a, i) ∧ f a = Res.ok (b, j) ∧ k = i + j := by
  have h : Cnt.bind x f = Res.ok (b, k) := h
  unfold Cnt.bind at h
  obtain ⟨a, h1, h⟩ := Res.bind_eq_ok.1 (show (_ >>= _ : Res _) = _ from h)
  obtain ⟨c, h2, h⟩ := Res.bind_eq_ok.1 (show (_ >>= _ : Res _) = _ from h)
  obtain ⟨h3, h4⟩ := Prod.mk.inj (Res.ok.inj h)
  exact ⟨a.1, a.2, c.2, h1, by rw [h2, ← h3], h4.symm⟩

theorem costs_forLoop {σ : Type} {f : σ → Nat → Cnt σ} {c : Nat} (hf : ∀ s i, Costs (f s i) c) (s : σ) : ∀ n, Costs (forLoopC n f s) (n * c)
  | 0 => by rw [Nat.zero_mul]; exact costs_pure s
  | n + 1 => by rw [Nat.succ_mul]; exact costs_bind (costs_forLoop hf s n) (fun s => hf s n)

theorem Costs.cast {α : Type} {x : Cnt α} {n m : Nat} (h : Costs x n) (e : n = m) : Costs x m := e ▸ h

/-! ### The counting code is the code -/

theorem gen_blockmix_erase (m : List W32) (bin bout z r : Nat) : erase (Gen.blockmixC m bin bout z r) = Gen.blockmix m bin bout z r := by
  unfold Gen.blockmixC Gen.blockmix
  simp only [erase_bind, erase_free, erase_core, erase_forLoop]

theorem sse_blockmix_erase (m : List W32) (bin bout z r : Nat) : erase (SseSmix.blockmixC m bin bout z r) = SseSmix.blockmix m bin bout z r := by
  unfold SseSmix.blockmixC SseSmix.blockmix
  simp only [erase_bind, erase_free, erase_core, erase_forLoop]

theorem loops_erase {ops : Smix.Ops} {opsC : Smix.OpsC} (h1 : opsC.cpyToV = ops.cpyToV) (h2 : opsC.xorV = ops.xorV) (h3 : opsC.integerify = ops.integerify)
    (h4 : ∀ m bin bout z r, erase (opsC.blockmix m bin bout z r) = ops.blockmix m bin bout z r) (r N : Nat) (V XY : List W32) :
    erase (Smix.loopsC opsC r N V XY) = Smix.loops ops r N V XY := by
  unfold Smix.loopsC Smix.loops
  simp only [erase_bind, erase_free, erase_forLoop, h1, h2, h3, h4, erase_pure, Res.pure_eq]

theorem smix_erase (f : SmixImpl) (B : Bytes) (r N : Nat) (V XY : List W32) : erase (smixImplC f B r N V XY) = smixImpl f B r N V XY := by
  cases f with
  | generic =>
    show erase (crypto_scrypt_smixC B r N V XY) = crypto_scrypt_smix B r N V XY
    unfold crypto_scrypt_smixC crypto_scrypt_smix
    simp only [erase_bind, erase_free, erase_pure, Res.pure_eq, loops_erase (ops := Gen.ops) (opsC := Gen.opsC) rfl rfl rfl gen_blockmix_erase]
  | sse2 =>
    show erase (crypto_scrypt_smix_sse2C B r N V XY) = crypto_scrypt_smix_sse2 B r N V XY
    unfold crypto_scrypt_smix_sse2C crypto_scrypt_smix_sse2
    simp only [erase_bind, erase_free, erase_pure, Res.pure_eq, loops_erase (ops := SseSmix.ops) (opsC := SseSmix.opsC) rfl rfl rfl sse_blockmix_erase]

theorem mixBlocks_erase (szMax : Nat) (f : SmixImpl) (r p N : Nat) (B : Bytes) (V XY : List W32) :
    erase (mixBlocksC szMax f r p N B V XY) = mixBlocks szMax (smixImpl f) r p N B V XY := by
  unfold mixBlocksC mixBlocks
  simp only [erase_forLoop, erase_bind, erase_free, erase_pure, Res.pure_eq, smix_erase]

/-! ### Counting -/

theorem gen_blockmix_costs (m : List W32) (bin bout z r : Nat) : Costs (Gen.blockmixC m bin bout z r) (2 * r) := by
  unfold Gen.blockmixC
  refine (costs_bind (costs_free _) fun m => costs_forLoop (c := 2) (fun m k => ?_) m r).cast (by omega)
  exact (costs_bind (costs_free _) fun _ => costs_bind (costs_core _) fun _ => costs_bind (costs_free _) fun _ => costs_bind (costs_free _) fun _ =>
    costs_bind (costs_core _) fun _ => costs_free _).cast (by omega)

theorem sse_blockmix_costs (m : List W32) (bin bout z r : Nat) : Costs (SseSmix.blockmixC m bin bout z r) (2 * r) := by
  unfold SseSmix.blockmixC
  refine (costs_bind (costs_free _) fun m => costs_forLoop (c := 2) (fun m k => ?_) m r).cast (by omega)
  exact (costs_bind (costs_free _) fun _ => costs_bind (costs_core _) fun _ => costs_bind (costs_free _) fun _ => costs_bind (costs_free _) fun _ =>
    costs_bind (costs_core _) fun _ => costs_free _).cast (by omega)

theorem loops_costs {ops : Smix.OpsC} (h : ∀ m bin bout z r, Costs (ops.blockmix m bin bout z r) (2 * r)) (r N : Nat) (V XY : List W32) :
    Costs (Smix.loopsC ops r N V XY) ((N + 1) / 2 * (8 * r)) := by
  unfold Smix.loopsC
  refine (costs_bind (costs_forLoop (c := 4 * r) (fun s q => ?_) (V, XY) _) fun s => costs_bind (costs_forLoop (c := 4 * r) (fun XY q => ?_) s.2 _) fun _ =>
    costs_pure _).cast (by ring)
  · exact (costs_bind (costs_free _) fun _ => costs_bind (h _ _ _ _ _) fun _ => costs_bind (costs_free _) fun _ => costs_bind (h _ _ _ _ _) fun _ =>
      costs_pure _).cast (by omega)
  · exact (costs_bind (costs_free _) fun _ => costs_bind (costs_free _) fun _ => costs_bind (h _ _ _ _ _) fun _ => costs_bind (costs_free _) fun _ =>
      costs_bind (costs_free _) fun _ => h _ _ _ _ _).cast (by omega)

theorem smix_costs (f : SmixImpl) (B : Bytes) (r N : Nat) (V XY : List W32) : Costs (smixImplC f B r N V XY) ((N + 1) / 2 * (8 * r)) := by
  cases f with
  | generic =>
    exact (costs_bind (costs_free _) fun _ => costs_bind (loops_costs gen_blockmix_costs _ _ _ _) fun _ => costs_bind (costs_free _) fun _ => costs_pure _).cast
      (by omega)
  | sse2 =>
    exact (costs_bind (costs_free _) fun _ => costs_bind (loops_costs sse_blockmix_costs _ _ _ _) fun _ => costs_bind (costs_free _) fun _ => costs_pure _).cast
      (by omega)

theorem mixBlocks_costs (szMax : Nat) (f : SmixImpl) (r p N : Nat) (B : Bytes) (V XY : List W32) :
    Costs (mixBlocksC szMax f r p N B V XY) (p * ((N + 1) / 2 * (8 * r))) := by
  unfold mixBlocksC
  refine costs_forLoop (fun s i => ?_) _ _
  exact (costs_bind (costs_free _) fun _ => costs_bind (smix_costs _ _ _ _ _ _) fun _ => costs_bind (costs_free _) fun _ => costs_pure _).cast (by omega)

end Scrypt

namespace Scrypt.Props
open Scrypt Spec Cnt

/-- **C55.**  Forgetting the cost gives `crypto_scrypt_internal`: the counting model is the model. -/
theorem C55_erase (szMax : Nat) (env : ScEnv) (tf : Transform) (junk : HMAC_SHA256_CTX) (passwd salt : Bytes) (N : W64) (r p : W32) (buf : Bytes)
    (buflen : Nat) (f : SmixImpl) :
    (erase (crypto_scrypt_internalC szMax env tf junk passwd salt N r p buf buflen f) >>= fun x => Res.ok x.1) =
      crypto_scrypt_internal szMax env tf junk passwd salt N r p buf buflen (smixImpl f) := by
  unfold crypto_scrypt_internalC crypto_scrypt_internal
  simp only []
  cases scryptCheck szMax N r p buflen with
  | some e => rfl
  | none =>
  simp only []
  cases env.allocB (128 * r.toNat * p.toNat % (szMax + 1)) with
  | none => rfl
  | some B =>
  simp only []
  cases env.allocXY ((256 * r.toNat + 64) % (szMax + 1)) with
  | none => rfl
  | some XY =>
  simp only []
  cases env.allocV (128 * r.toNat * N.toNat % (szMax + 1)) with
  | none => rfl
  | some V =>
  simp only [erase_bind, erase_free, erase_pure, Res.pure_eq, mixBlocks_erase, bind_assoc, erase_ite]
  congr 1; funext B
  congr 1; funext s
  congr 1; funext Bs
  congr 1; funext bf
  split <;> rfl

/-- **C55.**  What a derivation costs.  If the parameters are refused, nothing.  Otherwise it asks for at most three blocks of memory, of `128rp`, `256r + 64` and
`128Nr` bytes, in this order, and, if it gets them, computes exactly `4Nrp` Salsa20/8 cores (else none); it succeeds only in the former case. -/
theorem C55_cost (szMax : Nat) (hs : IsSizeMax szMax) (env : ScEnv) (tf : Transform) (junk : HMAC_SHA256_CTX) (passwd salt : Bytes) (N : W64) (r p : W32)
    (buf : Bytes) (buflen : Nat) (hb : buflen ≤ szMax) (f : SmixImpl) {o : ScOut} {asked : List Nat} {n : Nat}
    (h : crypto_scrypt_internalC szMax env tf junk passwd salt N r p buf buflen f = Res.ok ((o, asked), n)) :
    (¬ ScParams szMax N.toNat r.toNat p.toNat buflen → asked = [] ∧ n = 0 ∧ o.rc ≠ 0) ∧
    (ScParams szMax N.toNat r.toNat p.toNat buflen →
      asked <+: [128 * r.toNat * p.toNat, 256 * r.toNat + 64, memNeed N.toNat r.toNat] ∧
      (env.allocB (128 * r.toNat * p.toNat) ≠ none ∧ env.allocXY (256 * r.toNat + 64) ≠ none ∧ env.allocV (memNeed N.toNat r.toNat) ≠ none →
        asked.length = 3 ∧ n = cpuNeed N.toNat r.toNat p.toNat) ∧
      (env.allocB (128 * r.toNat * p.toNat) = none ∨ env.allocXY (256 * r.toNat + 64) = none ∨ env.allocV (memNeed N.toNat r.toNat) = none →
        n = 0 ∧ o.rc ≠ 0)) := by
  rw [show memNeed N.toNat r.toNat = 128 * r.toNat * N.toNat by unfold memNeed; ring]
  unfold crypto_scrypt_internalC at h
  simp only [] at h
  have iff := scryptCheck_none_iff szMax hs N r p buflen hb
  cases hc : scryptCheck szMax N r p buflen with
  | some e =>
    rw [hc] at h
    have hn : ¬ ScParams szMax N.toNat r.toNat p.toNat buflen := fun hp => by rw [iff.2 hp] at hc; cases hc
    obtain ⟨h1, h2⟩ := Prod.mk.inj (Res.ok.inj h)
    obtain ⟨h1, h3⟩ := Prod.mk.inj h1
    exact ⟨fun _ => ⟨h3.symm, h2.symm, by rw [← h1]; exact (by decide : (-1 : Int) ≠ 0)⟩, fun hp => absurd hp hn⟩
  | none =>
    rw [hc] at h
    simp only [] at h
    have hp := iff.1 hc
    refine ⟨fun hn => absurd hp hn, fun _ => ?_⟩
    rw [Nat.mod_eq_of_lt (show 128 * r.toNat * p.toNat < szMax + 1 by have := hp.szB; omega), Nat.mod_eq_of_lt (show 256 * r.toNat + 64 < szMax + 1 by have := hp.szXY; omega),
      Nat.mod_eq_of_lt (show 128 * r.toNat * N.toNat < szMax + 1 by have := hp.szV; omega)] at h
    cases hB : env.allocB (128 * r.toNat * p.toNat) with
    | none =>
      rw [hB] at h
      obtain ⟨h1, h2⟩ := Prod.mk.inj (Res.ok.inj h)
      obtain ⟨h1, h3⟩ := Prod.mk.inj h1
      refine ⟨by rw [← h3]; exact ⟨_, rfl⟩, fun h => absurd rfl h.1, fun _ => ⟨h2.symm, by rw [← h1]; exact (by decide : (-1 : Int) ≠ 0)⟩⟩
    | some B =>
    rw [hB] at h
    simp only [] at h
    cases hX : env.allocXY (256 * r.toNat + 64) with
    | none =>
      rw [hX] at h
      obtain ⟨h1, h2⟩ := Prod.mk.inj (Res.ok.inj h)
      obtain ⟨h1, h3⟩ := Prod.mk.inj h1
      refine ⟨by rw [← h3]; exact ⟨_, rfl⟩, fun h => absurd rfl h.2.1, fun _ => ⟨h2.symm, by rw [← h1]; exact (by decide : (-1 : Int) ≠ 0)⟩⟩
    | some XY =>
    rw [hX] at h
    simp only [] at h
    cases hV : env.allocV (128 * r.toNat * N.toNat) with
    | none =>
      rw [hV] at h
      obtain ⟨h1, h2⟩ := Prod.mk.inj (Res.ok.inj h)
      obtain ⟨h1, h3⟩ := Prod.mk.inj h1
      refine ⟨by rw [← h3]; exact ⟨_, rfl⟩, fun h => absurd rfl h.2.2, fun _ => ⟨h2.symm, by rw [← h1]; exact (by decide : (-1 : Int) ≠ 0)⟩⟩
    | some V =>
    rw [hV] at h
    simp only [] at h
    obtain ⟨B1, i1, j1, a1, h, e1⟩ := cnt_bind_inv h
    obtain ⟨s1, i2, j2, a2, h, e2⟩ := cnt_bind_inv h
    obtain ⟨Bs, i3, j3, a3, h, e3⟩ := cnt_bind_inv h
    obtain ⟨bf, i4, j4, a4, h, e4⟩ := cnt_bind_inv h
    have c1 := costs_free _ _ _ a1
    have c2 := mixBlocks_costs _ _ _ _ _ _ _ _ _ _ a2
    have c3 := costs_free _ _ _ a3
    have c4 := costs_free _ _ _ a4
    have fin : asked = [128 * r.toNat * p.toNat, 256 * r.toNat + 64, 128 * r.toNat * N.toNat] ∧ j4 = 0 := by
      split at h
      · obtain ⟨h1, h2⟩ := Prod.mk.inj (Res.ok.inj h)
        exact ⟨(Prod.mk.inj h1).2.symm, h2.symm⟩
      · obtain ⟨h1, h2⟩ := Prod.mk.inj (Res.ok.inj h)
        exact ⟨(Prod.mk.inj h1).2.symm, h2.symm⟩
    obtain ⟨rfl, h4⟩ := fin
    refine ⟨List.prefix_refl _, fun _ => ⟨rfl, ?_⟩, fun h => by rcases h with h | h | h <;> cases h⟩
    obtain ⟨k, hk, hk1, -⟩ := hp.N2
    have hN : (N.toNat + 1) / 2 * 2 = N.toNat := by
      obtain ⟨k, rfl⟩ : ∃ k', k = k' + 1 := ⟨k - 1, by omega⟩
      rw [hk, pow_succ]; omega
    rw [e1, e2, e3, e4, c1, c2, c3, c4, h4]
    unfold cpuNeed
    calc 0 + (p.toNat * ((N.toNat + 1) / 2 * (8 * r.toNat)) + (0 + (0 + 0))) = 4 * ((N.toNat + 1) / 2 * 2) * r.toNat * p.toNat := by ring
      _ = _ := by rw [hN]

/-- The counting run exists whenever the derivation returns. -/
theorem C55_exists (szMax : Nat) (env : ScEnv) (tf : Transform) (junk : HMAC_SHA256_CTX) (passwd salt : Bytes) (N : W64) (r p : W32) (buf : Bytes)
    (buflen : Nat) (f : SmixImpl) {o : ScOut} (h : crypto_scrypt_internal szMax env tf junk passwd salt N r p buf buflen (smixImpl f) = .ok o) :
    ∃ asked n, crypto_scrypt_internalC szMax env tf junk passwd salt N r p buf buflen f = Res.ok ((o, asked), n) := by
  rw [← C55_erase] at h
  obtain ⟨x, h1, h⟩ := Res.bind_eq_ok.1 h
  obtain ⟨y, h2, h1⟩ := Res.bind_eq_ok.1 (show (_ >>= _ : Res _) = _ from h1)
  refine ⟨y.1.2, y.2, h2.trans ?_⟩
  rw [← Res.ok.inj h, ← Res.ok.inj h1]

/-- The unit of the speed measurement: the derivation timed by scryptenc_cpuperf (N = 128, r = p = 1) computes exactly the 512 cores that it is counted for. -/
theorem C55_speed_unit (szMax : Nat) (hs : IsSizeMax szMax) (env : ScEnv) (tf : Transform) (junk : HMAC_SHA256_CTX) (f : SmixImpl) {o : ScOut} {asked : List Nat}
    {n : Nat} (h : crypto_scrypt_internalC szMax env tf junk [] [] 128 1 1 [] 0 f = Res.ok ((o, asked), n)) (h0 : o.rc = 0) : n = 512 := by
  obtain ⟨c1, c2⟩ := C55_cost szMax hs env tf junk [] [] 128 1 1 [] 0 (by omega) f h
  by_cases hp : ScParams szMax (128 : W64).toNat (1 : W32).toNat (1 : W32).toNat 0
  · obtain ⟨-, c3, c4⟩ := c2 hp
    by_cases hc : env.allocB (128 * (1 : W32).toNat * (1 : W32).toNat) = none ∨ env.allocXY (256 * (1 : W32).toNat + 64) = none ∨
        env.allocV (memNeed (128 : W64).toNat (1 : W32).toNat) = none
    · exact absurd h0 (c4 hc).2
    · rw [not_or, not_or] at hc
      exact (c3 hc).2.trans (by decide)
  · exact absurd h0 (c1 hp).2.2

/-- Non-vacuity: N = 1024, r = 8, p = 1, both routines: 32768 cores, 1024 + 2112 + 1048576 bytes. -/
example (hw : ShaHw) (f : SmixImpl) (pw salt : Bytes) : ∃ o, crypto_scrypt_internalC (2 ^ 64 - 1) okEnv (shaTransform hw) zeroHctx pw salt 1024 8 1
    (List.replicate 64 0) 64 f = Res.ok ((o, [1024, 2112, 1048576]), 32768) ∧ o.rc = 0 := by
  have hp : ScParams (2 ^ 64 - 1) (1024 : W64).toNat (8 : W32).toNat (1 : W32).toNat 64 :=
    ⟨by decide, by decide, by decide, ⟨10, by decide, by norm_num, by norm_num⟩, by norm_num, by decide, by decide, by decide⟩
  rcases internal_total (2 ^ 64 - 1) (.inr rfl) okEnv okEnv_sized (shaTransform hw) (goodTf hw) zeroHctx zeroHctx_sized (smixImpl f) (goodSmix f) pw salt 1024 8 1
    (List.replicate 64 0) 64 (by rw [List.length_replicate]) (by norm_num) with ⟨h, -⟩ | ⟨-, ⟨h | h | h, -⟩ | ⟨-, h⟩⟩
  · exact absurd hp h
  · cases h
  · cases h
  · cases h
  · obtain ⟨asked, n, h1⟩ := C55_exists _ _ _ _ _ _ _ _ _ _ _ _ h
    obtain ⟨c1, c2, -⟩ := (C55_cost _ (.inr rfl) _ _ _ _ _ _ _ _ _ _ (by norm_num) _ h1).2 hp
    obtain ⟨c3, c4⟩ := c2 ⟨Option.some_ne_none _, Option.some_ne_none _, Option.some_ne_none _⟩
    rw [c4, List.IsPrefix.eq_of_length c1 (by rw [c3]; rfl)] at h1
    exact ⟨_, h1, rfl⟩

end Scrypt.Props
