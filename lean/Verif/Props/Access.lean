import Verif.Proofs.AccessSmix
import Verif.Props.Scrypt
/-
C78: which memory the mixing phase of a derivation accesses, and how much this tells about the password.

`crypto_scrypt_internalT` (Model/Access.lean) is the derivation with a log of every element of B, V, XY and of the local array of salsa20_8 that the mixing phase
reads or writes, in order; the log is what an observer of the addresses (a shared cache, a paging system) can see at best.
-/
namespace Scrypt.Props
open Scrypt Spec Logged

/-- An access pattern: loading the block, filling entry `i` of V, step `i` of the second loop when it looks up entry `j` of V, storing the block. -/
structure Footprint where
  load : List Acc
  fill : Nat → List Acc
  look : Nat → Nat → List Acc
  store : List Acc

/-- The accesses of one mixing with `N` steps in which step `i` of the second loop looks up entry `j i`. -/
def Footprint.trace (F : Footprint) (N : Nat) (j : Nat → Nat) : List Acc :=
  F.load ++ ((List.range N).flatMap F.fill ++ ((List.range N).flatMap fun i => F.look i (j i)) ++ F.store)

/-- Entry `i` of V: its 32r words, read or written in order. -/
def entry (write : Bool) (r i : Nat) : List Acc := accs .V write (i * (32 * r)) (32 * r)

/-- V is written entry by entry in the first loop, and in the second loop every step reads the entry it looks up and nothing else of V. -/
structure Footprint.Proper (F : Footprint) (r : Nat) : Prop where
  load : onV F.load = []
  fill : ∀ i, onV (F.fill i) = entry true r i
  look : ∀ i j, onV (F.look i j) = entry false r j
  store : onV F.store = []

/-- **C78.**  Forgetting the log gives the two routines and the derivation: the logging code is the code. -/
theorem C78_erase_smix (f : SmixImpl) (B : Bytes) (r N : Nat) (V XY : List W32) : erase (smixImplT f B r N V XY) = smixImpl f B r N V XY :=
  smixT_erase f B r N V XY

theorem shift_erase {α : Type} (o : Nat) (x : Logged α) : erase (shift o x) = erase x := by cases x <;> rfl

theorem shift_tr {α : Type} {o : Nat} {x : Logged α} {t : List Acc} (h : HasTr x t) : HasTr (shift o x) (t.map (Acc.inBlock o)) := by
  intro a u e
  cases x with
  | ok p =>
    obtain ⟨b, v⟩ := p
    have := (Prod.mk.inj (Res.ok.inj e)).2
    rw [← this, h b v rfl]
  | ub => cases e
  | abort => cases e

theorem mixBlocksT_erase (szMax : Nat) (f : SmixImpl) (r p N : Nat) (B : Bytes) (V XY : List W32) :
    erase (mixBlocksT szMax f r p N B V XY) = mixBlocks szMax (smixImpl f) r p N B V XY := by
  unfold mixBlocksT mixBlocks
  simp only [erase_forLoopT, erase_bind, erase_log, erase_pure, Res.pure_eq, smixT_erase, shift_erase]

theorem erase_iteT {α : Type} (c : Prop) [Decidable c] (x y : Logged α) : erase (if c then x else y) = if c then erase x else erase y := by split <;> rfl

theorem C78_erase (szMax : Nat) (env : ScEnv) (tf : Transform) (junk : HMAC_SHA256_CTX) (passwd salt : Bytes) (N : W64) (r p : W32) (buf : Bytes)
    (buflen : Nat) (f : SmixImpl) :
    erase (crypto_scrypt_internalT szMax env tf junk passwd salt N r p buf buflen f) =
      crypto_scrypt_internal szMax env tf junk passwd salt N r p buf buflen (smixImpl f) := by
  unfold crypto_scrypt_internalT crypto_scrypt_internal
  simp only []
  cases scryptCheck szMax N r p buflen with
  | some e => rfl
  | none =>
  simp only []
  cases env.allocB (128 * r.toNat * p.toNat % (szMax + 1)) with
  | none => rfl
  | some B =>
  simp only []
  cases env.allocXY ((256 * r.toNat + 64) % (szMax + 1)) with
  | none => rfl
  | some XY =>
  simp only []
  cases env.allocV (128 * r.toNat * N.toNat % (szMax + 1)) with
  | none => rfl
  | some V =>
  simp only [erase_bind, erase_log, erase_pure, Res.pure_eq, mixBlocksT_erase, erase_iteT]

/-- **C78.**  The accesses of one mixing, with both routines: a pattern that is fixed by the routine and `r`, in which the data only selects the entries looked up in
the second loop, and these are the ones of RFC 7914 (`Integerify (X) mod N`). -/
theorem C78_smix (f : SmixImpl) (r : Nat) (hr : 0 < r) : ∃ F : Footprint, F.Proper r ∧
    ∀ (N k : Nat), N = 2 ^ k → 1 ≤ k → k ≤ 63 → ∀ (B : Bytes) (V XY : List W32), B.length = 128 * r → V.length = 32 * r * N → XY.length = 64 * r + 16 →
      ∃ V' XY', V'.length = 32 * r * N ∧ XY'.length = 64 * r + 16 ∧
        smixImplT f B r N V XY = Res.ok ((roMix r N B, V', XY'), F.trace N (visit r N B)) := by
  obtain ⟨load, store, fill, look, h1, h2, h3, h4, h5⟩ : ∃ (load store : List Acc) (fill : Nat → List Acc) (look : Nat → Nat → List Acc),
      onV load = [] ∧ onV store = [] ∧ (∀ i, onV (fill i) = accs .V true (i * (32 * r)) (32 * r)) ∧ (∀ i j, onV (look i j) = accs .V false (j * (32 * r)) (32 * r)) ∧
      ∀ N k, N = 2 ^ k → 1 ≤ k → k ≤ 63 → ∀ (B : Bytes) (V XY : List W32), B.length = 128 * r → V.length = 32 * r * N → XY.length = 64 * r + 16 →
        HasTr (smixImplT f B r N V XY)
          (load ++ ((List.range N).flatMap fill ++ ((List.range N).flatMap fun i => look i (visit r N B i)) ++ store)) := by
    cases f with
    | generic => exact smixT_gen r hr
    | sse2 => exact smixT_sse r hr
  refine ⟨⟨load, fill, look, store⟩, ⟨h1, h3, h4, h2⟩, fun N k hN k1 k2 B V XY hB hV hXY => ?_⟩
  obtain ⟨V', XY', e, l1, l2⟩ := goodSmix f B r N k V XY hr hN k1 k2 hB hV hXY
  exact ⟨V', XY', l1, l2, tr_of ((smixT_erase f B r N V XY).trans e) (h5 N k hN k1 k2 B V XY hB hV hXY)⟩

/-- An access of a mixing that was given the part of B which begins at byte `o`: its element `i` of B is byte `o + i` of B, and the other arrays are shared. -/
def placed (o : Nat) : Acc → Acc
  | ⟨.B, i, w⟩ => ⟨.B, o + i, w⟩
  | ⟨arr, i, w⟩ => ⟨arr, i, w⟩

theorem inBlock_placed (o : Nat) : Acc.inBlock o = placed o := by
  funext c
  obtain ⟨arr, i, w⟩ := c
  cases arr <;> rfl

/-- The accesses of the mixing phase of a derivation: `p` mixings, one after the other, of consecutive parts of B. -/
def phase (F : Footprint) (N r p : Nat) (j : Nat → Nat → Nat) : List Acc :=
  (List.range p).flatMap fun b => (F.trace N (j b)).map (placed (128 * r * b))

theorem mixBlocksT_tr (szMax : Nat) (hs : IsSizeMax szMax) (f : SmixImpl) (r p N k : Nat) (hr : 0 < r) (hN : N = 2 ^ k) (k1 : 1 ≤ k) (k2 : k ≤ 63)
    (hp : p ≤ 2 ^ 25) (hsz : 128 * r * p ≤ szMax) (F : Footprint)
    (hF : ∀ (B : Bytes) (V XY : List W32), B.length = 128 * r → V.length = 32 * r * N → XY.length = 64 * r + 16 →
      ∃ V' XY', V'.length = 32 * r * N ∧ XY'.length = 64 * r + 16 ∧ smixImplT f B r N V XY = Res.ok ((roMix r N B, V', XY'), F.trace N (visit r N B)))
    (B : Bytes) (V XY : List W32) (hB : B.length = 128 * r * p) (hV : V.length = 32 * r * N) (hXY : XY.length = 64 * r + 16) :
    ∃ s, mixBlocksT szMax f r p N B V XY = Res.ok (s, phase F N r p fun b => visit r N (sl B (128 * r * b) (128 * r))) := by
  unfold mixBlocksT phase
  rw [show (fun b => List.map (placed (128 * r * b)) (F.trace N (visit r N (sl B (128 * r * b) (128 * r))))) =
    fun b => List.map (Acc.inBlock (128 * r * b)) (F.trace N (visit r N (sl B (128 * r * b) (128 * r)))) from funext fun b => by rw [inBlock_placed]]
  obtain ⟨s, e, -⟩ := forLoopT_inv (n := p) (s := (B, V, XY))
    (f := fun x i => do
      let off := blockIndex szMax i r
      let blk ← Logged.log [] (rdSlice x.1 off (128 * r))
      let y ← Logged.shift off (smixImplT f blk r N x.2.1 x.2.2)
      let B ← Logged.log [] (wrSlice x.1 off y.1)
      return (B, y.2.1, y.2.2))
    (fun i s => s.1.length = 128 * r * p ∧ (∀ b, i ≤ b → b < p → sl s.1 (128 * r * b) (128 * r) = sl B (128 * r * b) (128 * r)) ∧
      s.2.1.length = 32 * r * N ∧ s.2.2.length = 64 * r + 16)
    (fun b => (F.trace N (visit r N (sl B (128 * r * b) (128 * r)))).map (Acc.inBlock (128 * r * b)))
    ⟨hB, fun _ _ _ => rfl, hV, hXY⟩ (by
      rintro i ⟨B1, V1, XY1⟩ hi ⟨a1, a2, a3, a4⟩
      simp only at a1 a2 a3 a4 ⊢
      have mono : ∀ a b, a < b → 128 * r * a + 128 * r ≤ 128 * r * b := fun a b hab => by rw [← Nat.mul_succ]; exact Nat.mul_le_mul_left _ hab
      have hle := mono i p hi
      rw [blockIndex_eq szMax i r p hs hi hr hsz, Nat.mod_eq_of_lt (show i < 2 ^ 25 by omega)]
      have lb : (sl B1 (128 * r * i) (128 * r)).length = 128 * r := sl_length _ _ _ (by omega)
      obtain ⟨V2, XY2, l1, l2, e2⟩ := hF (sl B1 (128 * r * i) (128 * r)) V1 XY1 lb a3 a4
      have lr := roMix_length r N _ hr lb
      have e3 := a2 i (Nat.le_refl _) hi
      refine ⟨(ow B1 (128 * r * i) (roMix r N (sl B1 (128 * r * i) (128 * r))), V2, XY2), ?_, ?_, ?_, l1, l2⟩
      · have : ∀ t : List Acc, t = [] ++ (t ++ ([] ++ [])) := fun t => by simp
        rw [this (List.map _ _)]
        refine tr_bind (tr_of ((erase_log _ _).trans (rdSlice_sl (by omega))) (hasTr_log _ _)) ?_
        refine tr_bind (a := (roMix r N (sl B1 (128 * r * i) (128 * r)), V2, XY2)) ?_ ?_
        · rw [e2, ← e3]; rfl
        · have w : wrSlice B1 (128 * r * i) (roMix r N (sl B1 (128 * r * i) (128 * r))) = .ok (ow B1 (128 * r * i) (roMix r N (sl B1 (128 * r * i) (128 * r)))) :=
            wrSlice_ow (by omega)
          exact tr_bind (tr_of ((erase_log _ _).trans w) (hasTr_log _ _)) rfl
      · rw [ow_length _ _ _ (by omega)]; exact a1
      · intro b hb hbp
        have := mono i b hb
        have := mono b p hbp
        show sl (ow _ _ _) _ _ = _
        rw [sl_ow_disj _ _ _ (by omega) _ _ (by omega)]
        exact a2 b (by omega) hbp)
  exact ⟨s, e⟩

/-- **C78.**  The accesses of the mixing phase of every derivation that succeeds, and what they depend on: the routine selected, `N`, `r`, `p`, and the entries of V
looked up in the second loop of each block; on nothing else of the password and the salt. -/
theorem C78_kdf (f : SmixImpl) (r : W32) (hr : r ≠ 0) : ∃ F : Footprint, F.Proper r.toNat ∧
    ∀ (szMax : Nat), IsSizeMax szMax → ∀ (env : ScEnv), env.Sized → ∀ (hw : ShaHw) (junk : HMAC_SHA256_CTX), junk.Sized → ∀ (passwd salt : Bytes) (N : W64) (p : W32)
      (buf : Bytes) (buflen : Nat), buflen ≤ buf.length → buflen ≤ szMax → ∀ (o : ScOut) (tr : List Acc),
      crypto_scrypt_internalT szMax env (shaTransform hw) junk passwd salt N r p buf buflen f = Res.ok (o, tr) → o.rc = 0 → p.toNat ≤ 2 ^ 25 →
      tr = phase F N.toNat r.toNat p.toNat fun b => visit r.toNat N.toNat (mixed passwd salt r.toNat p.toNat b) := by
  have hr0 : 0 < r.toNat := by
    rcases Nat.eq_zero_or_pos r.toNat with h | h
    · exact absurd (BitVec.eq_of_toNat_eq h) hr
    · exact h
  obtain ⟨F, hF, hS⟩ := C78_smix f r.toNat hr0
  refine ⟨F, hF, fun szMax hs env he hw junk hj passwd salt N p buf buflen hbl hbs o tr h h0 hp25 => ?_⟩
  unfold crypto_scrypt_internalT at h
  simp only [] at h
  cases hc : scryptCheck szMax N r p buflen with
  | some e =>
    rw [hc] at h
    rw [← (Prod.mk.inj (Res.ok.inj h)).1] at h0
    exact absurd h0 (by show ¬ (-1 : Int) = 0; decide)
  | none =>
    rw [hc] at h
    simp only [] at h
    obtain ⟨-, p0, rp, ⟨k, hk, k1, k2⟩, len, szB, szXY, szV⟩ := (scryptCheck_none_iff szMax hs N r p buflen hbs).1 hc
    rw [Nat.mod_eq_of_lt (show 128 * r.toNat * p.toNat < szMax + 1 by omega), Nat.mod_eq_of_lt (show 256 * r.toNat + 64 < szMax + 1 by omega),
      Nat.mod_eq_of_lt (show 128 * r.toNat * N.toNat < szMax + 1 by omega)] at h
    have eB : p.toNat * 128 * r.toNat = 128 * r.toNat * p.toNat := by ring
    cases hB : env.allocB (128 * r.toNat * p.toNat) with
    | none =>
      rw [hB] at h
      rw [← (Prod.mk.inj (Res.ok.inj h)).1] at h0
      exact absurd h0 (by show ¬ (-1 : Int) = 0; decide)
    | some B =>
    rw [hB] at h
    simp only [] at h
    cases hX : env.allocXY (256 * r.toNat + 64) with
    | none =>
      rw [hX] at h
      rw [← (Prod.mk.inj (Res.ok.inj h)).1] at h0
      exact absurd h0 (by show ¬ (-1 : Int) = 0; decide)
    | some XY =>
    rw [hX] at h
    simp only [] at h
    cases hV : env.allocV (128 * r.toNat * N.toNat) with
    | none =>
      rw [hV] at h
      rw [← (Prod.mk.inj (Res.ok.inj h)).1] at h0
      exact absurd h0 (by show ¬ (-1 : Int) = 0; decide)
    | some V =>
    rw [hV] at h
    simp only [eB, Nat.mod_eq_of_lt (show 128 * r.toNat * p.toNat < szMax + 1 by omega)] at h
    have lB := he.B _ _ hB
    have lXY := he.XY _ _ hX
    have lV := he.V _ _ hV
    obtain ⟨B1, i1, j1, a1, h, e1⟩ := tr_bind_inv h
    obtain ⟨s1, i2, j2, a2, h, e2⟩ := tr_bind_inv h
    obtain ⟨Bs, i3, j3, a3, h, e3⟩ := tr_bind_inv h
    obtain ⟨bf, i4, j4, a4, h, e4⟩ := tr_bind_inv h
    have t1 := hasTr_log _ _ _ _ a1
    have t3 := hasTr_log _ _ _ _ a3
    have t4 := hasTr_log _ _ _ _ a4
    have t5 : j4 = [] := by
      split at h <;> exact (Prod.mk.inj (Res.ok.inj h)).2.symm
    have hsmall : 128 * r.toNat * p.toNat ≤ 32 * (2 ^ 32 - 1) := by
      rw [Nat.mul_assoc]; omega
    have v1 : B1 = pbkdf2 passwd salt 1 (128 * r.toNat * p.toNat) := by
      have : erase (Logged.log [] (PBKDF2_SHA256 (shaTransform hw) junk passwd salt 1 B (128 * r.toNat * p.toNat))) = .ok B1 := by rw [a1]; rfl
      rw [erase_log, PBKDF2_SHA256_spec _ (goodTf hw) junk hj passwd salt 1 (by omega) B _ hsmall (by omega), List.drop_of_length_le (by omega),
        List.append_nil] at this
      exact (Res.ok.inj this).symm
    obtain ⟨s, e⟩ := mixBlocksT_tr szMax hs f r.toNat p.toNat N.toNat k hr0 hk k1 k2 hp25 szB F (fun B V XY => hS N.toNat k hk k1 k2 B V XY) B1 V XY
      (by rw [v1]; exact pbkdf2_length _ _ _ _) (by
        rw [lV, show 128 * r.toNat * N.toNat = 4 * (32 * r.toNat * N.toNat) by ring]; exact Nat.mul_div_cancel_left _ (by omega)) (by omega)
    rw [a2] at e
    have t2 := (Prod.mk.inj (Res.ok.inj e)).2
    rw [e1, e2, e3, e4, t1, t3, t4, t5, t2, v1, ← eB]
    simp only [List.nil_append, List.append_nil]
    rfl

theorem onV_placed (o : Nat) (t : List Acc) : onV (t.map (placed o)) = onV t := by
  induction t with
  | nil => rfl
  | cons a t ih =>
    rw [List.map_cons, onV_cons, onV_cons, ih]
    obtain ⟨arr, i, w⟩ := a
    cases arr <;> simp [placed]

theorem onV_trace (F : Footprint) (r : Nat) (hF : F.Proper r) (N : Nat) (j : Nat → Nat) :
    onV (F.trace N j) = ((List.range N).flatMap (entry true r)) ++ (List.range N).flatMap fun i => entry false r (j i) := by
  unfold Footprint.trace
  simp only [onV_append, onV_flatMap, hF.load, hF.fill, hF.look, hF.store, List.nil_append, List.append_nil]

theorem onV_phase (F : Footprint) (r : Nat) (hF : F.Proper r) (N p : Nat) (j : Nat → Nat → Nat) :
    onV (phase F N r p j) = (List.range p).flatMap fun b => ((List.range N).flatMap (entry true r)) ++ (List.range N).flatMap fun i => entry false r (j b i) := by
  unfold phase
  simp only [onV_flatMap, onV_placed, onV_trace F r hF]

/-- **C78.**  The accesses to V of every derivation that succeeds: for each of the `p` blocks, first every entry of V is written, in order, and then `N` entries are
read, the ones of RFC 7914; nothing of V is read before it was written for this block, and V is not written while it is being looked up. -/
theorem C78_V (f : SmixImpl) (szMax : Nat) (hs : IsSizeMax szMax) (env : ScEnv) (he : env.Sized) (hw : ShaHw) (junk : HMAC_SHA256_CTX) (hj : junk.Sized)
    (passwd salt : Bytes) (N : W64) (r p : W32) (hr : r ≠ 0) (buf : Bytes) (buflen : Nat) (hl : buflen ≤ buf.length) (hb : buflen ≤ szMax) (o : ScOut) (tr : List Acc)
    (h : crypto_scrypt_internalT szMax env (shaTransform hw) junk passwd salt N r p buf buflen f = Res.ok (o, tr)) (h0 : o.rc = 0) (hp : p.toNat ≤ 2 ^ 25) :
    onV tr = (List.range p.toNat).flatMap fun b => ((List.range N.toNat).flatMap (entry true r.toNat)) ++
      (List.range N.toNat).flatMap fun i => entry false r.toNat (visit r.toNat N.toNat (mixed passwd salt r.toNat p.toNat b) i) := by
  obtain ⟨F, hF, hT⟩ := C78_kdf f r hr
  rw [hT szMax hs env he hw junk hj passwd salt N p buf buflen hl hb o tr h h0 hp, onV_phase F _ hF]

theorem entry_length (w : Bool) (r i : Nat) : (entry w r i).length = 32 * r := by
  unfold entry accs
  rw [List.length_map, List.length_range]

theorem entry_inj {w : Bool} {r i j : Nat} (hr : 0 < r) (h : entry w r i = entry w r j) : i = j := by
  unfold entry accs at h
  obtain ⟨n, hn⟩ : ∃ n, 32 * r = n + 1 := ⟨32 * r - 1, by omega⟩
  have h : (List.range (32 * r)).map (fun k => (⟨.V, i * (32 * r) + k, w⟩ : Acc)) = (List.range (32 * r)).map fun k => (⟨.V, j * (32 * r) + k, w⟩ : Acc) := h
  have h1 := congrArg (fun l => l[0]?) h
  rw [show (List.range (32 * r)) = 0 :: (List.range n).map Nat.succ by rw [hn, List.range_succ_eq_map]] at h1
  simp only [List.map_cons, List.getElem?_cons_zero, Option.some.injEq, Acc.mk.injEq, true_and, and_true, Nat.add_zero] at h1
  exact Nat.eq_of_mul_eq_mul_right (by omega) h1

theorem chunks_inj {n L : Nat} {g g' : Nat → List Acc} (hg : ∀ i, (g i).length = L) (hg' : ∀ i, (g' i).length = L)
    (h : (List.range n).flatMap g = (List.range n).flatMap g') (i : Nat) (hi : i < n) : g i = g' i := by
  rw [← sl_flatMap g L n i (fun b _ => hg b) hi, ← sl_flatMap g' L n i (fun b _ => hg' b) hi, h]

theorem phase_inj (F : Footprint) {r : Nat} (hF : F.Proper r) (hr0 : 0 < r) {N p : Nat} {j j' : Nat → Nat → Nat} (e : phase F N r p j = phase F N r p j') (b : Nat)
    (hb1 : b < p) (i : Nat) (hi : i < N) : j b i = j' b i := by
  have v := congrArg onV e
  rw [onV_phase F r hF, onV_phase F r hF] at v
  have ll : ∀ (w : Bool) (n : Nat) (g : Nat → Nat), ((List.range n).flatMap fun i => entry w r (g i)).length = 32 * r * n := fun w n g =>
    flatMap_range_length _ _ _ fun i _ => entry_length _ _ _
  have c := chunks_inj (L := 32 * r * N + 32 * r * N)
    (fun i => by rw [List.length_append, ll true N fun i => i, ll]) (fun i => by rw [List.length_append, ll true N fun i => i, ll]) v b hb1
  have c := List.append_cancel_left c
  exact entry_inj hr0 (chunks_inj (fun i => entry_length _ _ _) (fun i => entry_length _ _ _) c i hi)

theorem phase_congr (F : Footprint) {r N p : Nat} {j j' : Nat → Nat → Nat} (e : ∀ b, b < p → ∀ i, i < N → j b i = j' b i) : phase F N r p j = phase F N r p j' := by
  unfold phase Footprint.trace
  refine flatMap_congr' _ _ _ fun b hb1 => ?_
  have q : ((List.range N).flatMap fun i => F.look i (j b i)) = (List.range N).flatMap fun i => F.look i (j' b i) :=
    flatMap_congr' _ _ _ fun i hi => by rw [e b hb1 i hi]
  rw [q]

/-- **C78.**  What an observer of the addresses learns is exactly the sequence of entries looked up: two derivations with the same parameters and the same routine,
whatever their passwords and salts, make the same accesses if and only if they look up the same entries of V. -/
theorem C78_exactly (f : SmixImpl) (szMax szMax' : Nat) (hs : IsSizeMax szMax) (hs' : IsSizeMax szMax') (env env' : ScEnv) (he : env.Sized) (he' : env'.Sized)
    (hw hw' : ShaHw) (junk junk' : HMAC_SHA256_CTX) (hj : junk.Sized) (hj' : junk'.Sized) (passwd salt passwd' salt' : Bytes) (N : W64) (r p : W32) (hr : r ≠ 0)
    (buf buf' : Bytes) (buflen buflen' : Nat) (hl : buflen ≤ buf.length) (hl' : buflen' ≤ buf'.length) (hb : buflen ≤ szMax) (hb' : buflen' ≤ szMax')
    (o o' : ScOut) (tr tr' : List Acc)
    (h : crypto_scrypt_internalT szMax env (shaTransform hw) junk passwd salt N r p buf buflen f = Res.ok (o, tr)) (h0 : o.rc = 0)
    (h' : crypto_scrypt_internalT szMax' env' (shaTransform hw') junk' passwd' salt' N r p buf' buflen' f = Res.ok (o', tr')) (h0' : o'.rc = 0)
    (hp : p.toNat ≤ 2 ^ 25) :
    tr = tr' ↔ ∀ b, b < p.toNat → ∀ i, i < N.toNat →
      visit r.toNat N.toNat (mixed passwd salt r.toNat p.toNat b) i = visit r.toNat N.toNat (mixed passwd' salt' r.toNat p.toNat b) i := by
  have hr0 : 0 < r.toNat := by
    rcases Nat.eq_zero_or_pos r.toNat with h | h
    · exact absurd (BitVec.eq_of_toNat_eq h) hr
    · exact h
  constructor
  · intro e b hb1 i hi
    have v := C78_V f szMax hs env he hw junk hj passwd salt N r p hr buf buflen hl hb o tr h h0 hp
    have v' := C78_V f szMax' hs' env' he' hw' junk' hj' passwd' salt' N r p hr buf' buflen' hl' hb' o' tr' h' h0' hp
    rw [e, v'] at v
    have ll : ∀ (w : Bool) (n : Nat) (g : Nat → Nat), ((List.range n).flatMap fun i => entry w r.toNat (g i)).length = 32 * r.toNat * n := fun w n g =>
      flatMap_range_length _ _ _ fun i _ => entry_length _ _ _
    have c := chunks_inj (L := 32 * r.toNat * N.toNat + 32 * r.toNat * N.toNat)
      (fun i => by rw [List.length_append, ll true N.toNat fun i => i, ll]) (fun i => by rw [List.length_append, ll true N.toNat fun i => i, ll]) v b hb1
    have c := List.append_cancel_left c
    exact (entry_inj hr0 (chunks_inj (fun i => entry_length _ _ _) (fun i => entry_length _ _ _) c i hi)).symm
  · intro e
    obtain ⟨F, -, hT⟩ := C78_kdf f r hr
    rw [hT szMax hs env he hw junk hj passwd salt N p buf buflen hl hb o tr h h0 hp,
      hT szMax' hs' env' he' hw' junk' hj' passwd' salt' N p buf' buflen' hl' hb' o' tr' h' h0' hp]
    unfold phase Footprint.trace
    refine flatMap_congr' _ _ _ fun b hb1 => ?_
    have q : ((List.range N.toNat).flatMap fun i => F.look i (visit r.toNat N.toNat (mixed passwd salt r.toNat p.toNat b) i)) =
        (List.range N.toNat).flatMap fun i => F.look i (visit r.toNat N.toNat (mixed passwd' salt' r.toNat p.toNat b) i) :=
      flatMap_congr' _ _ _ fun i hi => by rw [e b hb1 i hi]
    rw [q]

/-- The logged run exists whenever the derivation returns. -/
theorem C78_exists (szMax : Nat) (env : ScEnv) (tf : Transform) (junk : HMAC_SHA256_CTX) (passwd salt : Bytes) (N : W64) (r p : W32) (buf : Bytes)
    (buflen : Nat) (f : SmixImpl) {o : ScOut} (h : crypto_scrypt_internal szMax env tf junk passwd salt N r p buf buflen (smixImpl f) = .ok o) :
    ∃ tr, crypto_scrypt_internalT szMax env tf junk passwd salt N r p buf buflen f = Res.ok (o, tr) := by
  rw [← C78_erase] at h
  obtain ⟨x, h1, h⟩ := Res.bind_eq_ok.1 (show (_ >>= _ : Res _) = _ from h)
  exact ⟨x.2, by rw [h1, ← Res.ok.inj h]⟩

/-- Non-vacuity: N = 1024, r = 8, p = 1, any password and salt, both routines: the derivation succeeds and the log shows the 1024 entries written and then the 1024
entries looked up. -/
example (hw : ShaHw) (f : SmixImpl) (pw salt : Bytes) : ∃ o tr, crypto_scrypt_internalT (2 ^ 64 - 1) okEnv (shaTransform hw) zeroHctx pw salt 1024 8 1
    (List.replicate 64 0) 64 f = Res.ok (o, tr) ∧ o.rc = 0 ∧ onV tr = ((List.range 1024).flatMap (entry true 8)) ++
      (List.range 1024).flatMap fun i => entry false 8 (visit 8 1024 (mixed pw salt 8 1 0) i) := by
  have hp : ScParams (2 ^ 64 - 1) (1024 : W64).toNat (8 : W32).toNat (1 : W32).toNat 64 :=
    ⟨by decide, by decide, by decide, ⟨10, by decide, by norm_num, by norm_num⟩, by norm_num, by decide, by decide, by decide⟩
  rcases internal_total (2 ^ 64 - 1) (.inr rfl) okEnv okEnv_sized (shaTransform hw) (goodTf hw) zeroHctx zeroHctx_sized (smixImpl f) (goodSmix f) pw salt 1024 8 1
    (List.replicate 64 0) 64 (by rw [List.length_replicate]) (by norm_num) with ⟨h, -⟩ | ⟨-, ⟨h | h | h, -⟩ | ⟨-, h⟩⟩
  · exact absurd hp h
  · cases h
  · cases h
  · cases h
  · obtain ⟨tr, h1⟩ := C78_exists _ _ _ _ _ _ _ _ _ _ _ _ h
    have v := C78_V f _ (.inr rfl) okEnv okEnv_sized hw zeroHctx zeroHctx_sized pw salt 1024 8 1 (by decide) (List.replicate 64 0) 64
      (by rw [List.length_replicate]) (by norm_num) _ tr h1 rfl (by decide)
    refine ⟨_, tr, h1, rfl, ?_⟩
    rw [v, show (1 : W32).toNat = 1 from rfl, show (8 : W32).toNat = 8 from rfl, show (1024 : W64).toNat = 1024 from rfl, List.range_one, List.flatMap_singleton]

end Scrypt.Props
