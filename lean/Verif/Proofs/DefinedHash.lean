import Verif.Proofs.Defined
import Verif.Proofs.AccessHash
/-
`WrittenFirst` for the hashing.
-/
namespace Scrypt
open Logged

theorem has_grow {D : Cells} {a : Arr} {o n m : Nat} : Has (both (both D (cells a o n)) (cells a (o + n) m)) (cells a o (n + m)) :=
  Has.join (n := n) (m := m) (Has.left (Has.right (Has.refl _))) (Has.right (Has.refl _)) (Nat.le_refl _) (by omega)

theorem has_grow0 {D : Cells} {a : Arr} {n m k : Nat} (h : k = n + m) : Has (both (both D (cells a 0 n)) (cells a n m)) (cells a 0 k) := by
  subst h
  have := has_grow (D := D) (a := a) (o := 0) (n := n) (m := m)
  rwa [Nat.zero_add] at this

theorem has_empty {D : Cells} {a : Arr} {o : Nat} : Has D (cells a o 0) := Has.of fun i h1 h2 => by omega

variable {may D : Cells}

theorem def_rdSlice {α : Type} {a : Arr} {m : List α} {o n : Nat} (h : Has D (cells a o n)) :
    Def may D (rdSliceT a m o n) (fun s => s.length = n) (fun _ => noCells) :=
  (def_reads h).conseq (fun v e => by
    unfold rdSlice at e
    split at e
    · obtain rfl := Res.ok.inj e
      simp only [List.length_take, List.length_drop]
      omega
    · cases e) fun _ _ => Has.none _

theorem def_wrSlice {α : Type} {a : Arr} {m s : List α} {o : Nat} (h : Has may (cells a o s.length)) :
    Def may D (wrSliceT a m o s) (fun _ => True) (fun _ => cells a o s.length) :=
  (def_writes h).conseq (fun _ _ => trivial) fun _ _ => Has.right (Has.refl _)

/-- What the hashing may rely on: the constant tables have values; the local variables may be written. -/
structure HEnv (may D : Cells) : Prop where
  krnd : Has D (cells (.h .Krnd) 0 64)
  padc : Has D (cells (.h .PAD) 0 64)
  init : Has D (cells (.h .initial_state) 0 8)
  W : Has may (cells (.h .W) 0 64)
  S : Has may (cells (.h .S) 0 8)
  khash : Has may (cells (.h .khash) 0 32)
  pad : Has may (cells (.h .pad) 0 64)
  ihash : Has may (cells (.h .ihash) 0 32)
  state : ∀ cx, Has may (cells (.h (.state cx)) 0 8)
  count : ∀ cx, Has may (cells (.h (.count cx)) 0 1)
  buf : ∀ cx, Has may (cells (.h (.buf cx)) 0 64)

theorem HEnv.mono {D' : Cells} (h : HEnv may D) (hd : Has D' D) : HEnv may D' :=
  { h with
    krnd := hd.trans h.krnd
    padc := hd.trans h.padc
    init := hd.trans h.init }

theorem HEnv.both {E : Cells} (h : HEnv may D) : HEnv may (both D E) := h.mono (Has.left (Has.refl _))

/-! ### The block functions -/

theorem def_be32dec_vectT {da sa : Arr} {so : Nat} {dst : List W32} {src : Bytes} (hs : Has D (cells sa so 64)) (hd : Has may (cells da 0 16)) :
    Def may D (be32dec_vectT da sa so dst src 64) (fun _ => True) (fun _ => cells da 0 16) := by
  unfold be32dec_vectT
  refine def_seq (def_quiet (R := fun _ => True) fun _ _ => trivial) fun _ _ => ?_
  refine def_loop (R := fun _ _ => True) (fun i => cells da 0 i) trivial has_empty fun dst i hi _ => ?_
  refine def_seq (def_reads (Has.left (hs.sub (by omega) (by omega)))) fun x _ => ?_
  exact (def_wr (hd.at (by omega) (by omega))).conseq (fun _ _ => trivial) fun _ _ => has_grow0 rfl

theorem def_RNDrT {Kt S W : List W32} {i ii : Nat} (hk : Has D (cells (.h .Krnd) 0 64)) (hS : Has D (cells (.h .S) 0 8)) (mS : Has may (cells (.h .S) 0 8))
    (hW : Has D (cells (.h .W) 0 (i + ii + 1))) (hi : i + ii < 64) : Def0 may D (CSha.RNDrT Kt S W i ii) := by
  unfold CSha.RNDrT
  iterate 8 refine def_seq (def_rd (hS.at (by omega) (by omega))) fun _ _ => ?_
  refine def_seq (def_rd (hW.at (by omega) (by omega))) fun _ _ => ?_
  refine def_seq (def_rd (hk.at (by omega) (by omega))) fun _ _ => ?_
  iterate 2 refine def_seq (def_wr (mS.at (by omega) (by omega))) fun _ _ => ?_
  exact (def_wr (mS.at (by omega) (by omega))).drop

theorem def_MSCHT {W : List W32} {ii i : Nat} (hW : Has D (cells (.h .W) 0 (i + ii + 16))) (mW : Has may (cells (.h .W) 0 64)) (hi : i + ii + 16 < 64) :
    Def may D (CSha.MSCHT W ii i) (fun _ => True) (fun _ => cells (.h .W) (i + ii + 16) 1) := by
  unfold CSha.MSCHT
  iterate 4 refine def_seq (def_rd (hW.at (by omega) (by omega))) fun _ _ => ?_
  exact def_wr (mW.at (by omega) (by omega))

theorem def_rnds {Kt S W : List W32} {q : Nat} (he : HEnv may D) (hS : Has D (cells (.h .S) 0 8)) (hW : Has D (cells (.h .W) 0 (16 * (q + 1)))) (hq : q < 4) :
    Def0 may D (forLoopT 16 (fun S j => CSha.RNDrT Kt S W j (16 * q)) S) :=
  def_for0 fun _ j hj => def_RNDrT he.krnd hS he.S (hW.sub (by omega) (by omega)) (by omega)

theorem def_sw_mixStepT {st : List W32 × List W32} {q : Nat} (he : HEnv may D) (hS : Has D (cells (.h .S) 0 8)) (hW : Has D (cells (.h .W) 0 (16 * (q + 1)))) (hq : q < 4) :
    Def may D (CSha.mixStepT st q) (fun _ => True) (fun _ => cells (.h .W) 0 (min 64 (16 * (q + 2)))) := by
  obtain ⟨W, S⟩ := st
  unfold CSha.mixStepT
  dsimp only
  refine def_seq (def_rnds he hS hW hq) fun _ _ => ?_
  refine def_ite (fun h => ?_) fun h => ?_
  · have : q = 3 := by simp at h; omega
    exact def_pure trivial (hW.sub (by omega) (by omega))
  · have h3 : q ≠ 3 := by simp at h; omega
    refine def_bind (P := fun _ => cells (.h .W) 0 (16 * (q + 1) + 16)) (R := fun _ => True) ?_ fun _ _ => def_pure trivial (Has.right (has_cells (by omega) (by omega)))
    refine def_loop (R := fun _ _ => True) (fun j => cells (.h .W) 0 (16 * (q + 1) + j)) trivial hW fun W j hj _ => ?_
    refine (def_MSCHT (Has.right (has_cells (by omega) (by omega))) he.W (by omega)).conseq (fun _ _ => trivial) fun _ _ => ?_
    rw [show 16 * q + j + 16 = 16 * (q + 1) + j by omega]
    exact has_grow0 (by omega)

theorem def_addStateT {sa : Arr} {S state : List W32} (hs : Has D (cells sa 0 8)) (ms : Has may (cells sa 0 8)) (hS : Has D (cells (.h .S) 0 8)) :
    Def0 may D (addStateT sa S state) := by
  unfold addStateT
  refine def_for0 fun _ i hi => ?_
  refine def_seq (def_rd (hs.at (by omega) (by omega))) fun _ _ => ?_
  refine def_seq (def_rd (hS.at (by omega) (by omega))) fun _ _ => ?_
  exact (def_wr (ms.at (by omega) (by omega))).drop

/-- The block function reads the state, the block and the constants, and writes the state and its work area. -/
def TfDef (may : Cells) (tf : TransformT) : Prop :=
  ∀ (D : Cells) (sa ba : Arr) (bo : Nat) (state : List W32) (block : Bytes), HEnv may D → Has D (cells sa 0 8) → Has may (cells sa 0 8) → Has D (cells ba bo 64) →
    Def0 may D (tf sa ba bo state block)

theorem def_swT {sa ba : Arr} {bo : Nat} {state : List W32} {block : Bytes} {W S : List W32} (he : HEnv may D) (hs : Has D (cells sa 0 8)) (ms : Has may (cells sa 0 8))
    (hb : Has D (cells ba bo 64)) : Def0 may D (SHA256_Transform_swT sa ba bo state block W S) := by
  unfold SHA256_Transform_swT
  refine def_bind (def_be32dec_vectT hb (he.W.sub (by omega) (by omega))) fun W _ => ?_
  refine def_seq (def_rdSlice (Has.left hs)) fun st hst => ?_
  refine def_bind (def_wrSlice (by rw [hst]; exact he.S)) fun S _ => ?_
  rw [hst]
  refine def_seq (R := fun _ => True) (P := fun _ => cells (.h .W) 0 (min 64 (16 * (4 + 1)))) ?_ fun ⟨W, S⟩ _ => ?_
  · refine def_loop (R := fun _ _ => True) (fun q => cells (.h .W) 0 (min 64 (16 * (q + 1)))) trivial (Has.left (Has.right (has_cells (by omega) (by omega)))) fun st q hq _ => ?_
    exact def_sw_mixStepT he.both.both.both (Has.left (Has.right (Has.refl _))) (Has.right (has_cells (by omega) (by omega))) hq
  · exact def_seq (def_addStateT (Has.left (Has.left hs)) ms (Has.right (Has.refl _))) fun _ _ => def_pure0

theorem def_ldBlockT {ba : Arr} {bo o : Nat} {block : Bytes} (hb : Has D (cells ba bo 64)) (ho : o + 16 ≤ 64) : Def0 may D (ldBlockT ba bo block o) :=
  (def_reads (hb.sub (by omega) (by omega))).drop

theorem def_ldWordsT {a : Arr} {m : List W32} {o : Nat} (h : Has D (cells a o 4)) : Def0 may D (ldWordsT a m o) := (def_reads h).drop

theorem def_stWordsT {a : Arr} {m : List W32} {o : Nat} {v : V4} (h : Has may (cells a o 4)) :
    Def may D (stWordsT a m o v) (fun _ => True) (fun _ => cells a o 4) := (def_writes h).conseq (fun _ _ => trivial) fun _ _ => Has.right (Has.refl _)

theorem def_sse2_mixStepT {st : List W32 × List W32 × Sse2.Y4} {q : Nat} (he : HEnv may D) (hS : Has D (cells (.h .S) 0 8))
    (hW : Has D (cells (.h .W) 0 (16 * (q + 1)))) (hq : q < 4) :
    Def may D (Sse2.mixStepT st q) (fun _ => True) (fun _ => cells (.h .W) 0 (min 64 (16 * (q + 2)))) := by
  obtain ⟨W, S, Y⟩ := st
  unfold Sse2.mixStepT
  dsimp only
  refine def_seq (def_rnds he hS hW hq) fun _ _ => ?_
  refine def_ite (fun h => ?_) fun h => ?_
  · have : q = 3 := by simp at h; omega
    exact def_pure trivial (hW.sub (by omega) (by omega))
  · have h3 : q ≠ 3 := by simp at h; omega
    iterate 4 refine def_bind (def_stWordsT (he.W.sub (by omega) (by omega))) fun _ _ => ?_
    refine def_pure trivial (Has.of fun i _ hi => ?_)
    by_cases h1 : i < 16 * (q + 1)
    · exact Or.inl (Or.inl (Or.inl (Or.inl (hW.at (by omega) (by omega)))))
    by_cases h2 : i < 16 * (q + 1) + 4
    · exact Or.inl (Or.inl (Or.inl (Or.inr ⟨rfl, by omega, by omega⟩)))
    by_cases h4 : i < 16 * (q + 1) + 8
    · exact Or.inl (Or.inl (Or.inr ⟨rfl, by omega, by omega⟩))
    by_cases h5 : i < 16 * (q + 1) + 12
    · exact Or.inl (Or.inr ⟨rfl, by omega, by omega⟩)
    · exact Or.inr ⟨rfl, by omega, by omega⟩

theorem def_sse2T {sa ba : Arr} {bo : Nat} {state : List W32} {block : Bytes} {W S : List W32} (he : HEnv may D) (hs : Has D (cells sa 0 8)) (ms : Has may (cells sa 0 8))
    (hb : Has D (cells ba bo 64)) : Def0 may D (SHA256_Transform_sse2T sa ba bo state block W S) := by
  unfold SHA256_Transform_sse2T
  refine def_seq (def_ldBlockT hb (by omega)) fun _ _ => def_bind (def_stWordsT (he.W.sub (by omega) (by omega))) fun _ _ => ?_
  refine def_seq (def_ldBlockT (Has.left hb) (by omega)) fun _ _ => def_bind (def_stWordsT (he.W.sub (by omega) (by omega))) fun _ _ => ?_
  refine def_seq (def_ldBlockT (Has.left (Has.left hb)) (by omega)) fun _ _ => def_bind (def_stWordsT (he.W.sub (by omega) (by omega))) fun _ _ => ?_
  refine def_seq (def_ldBlockT (Has.left (Has.left (Has.left hb))) (by omega)) fun _ _ => def_bind (def_stWordsT (he.W.sub (by omega) (by omega))) fun _ _ => ?_
  have hs' := Has.left (E := cells (.h .W) 12 4) (Has.left (E := cells (.h .W) 8 4) (Has.left (E := cells (.h .W) 4 4) (Has.left (E := cells (.h .W) 0 4) hs)))
  refine def_seq (def_rdSlice hs') fun st hst => ?_
  refine def_bind (def_wrSlice (by rw [hst]; exact he.S)) fun S _ => ?_
  rw [hst]
  refine def_seq (R := fun _ => True) (P := fun _ => cells (.h .W) 0 (min 64 (16 * (4 + 1)))) ?_ fun ⟨W, S, _⟩ _ => ?_
  · refine def_loop (R := fun _ _ => True) (fun q => cells (.h .W) 0 (min 64 (16 * (q + 1)))) trivial (Has.left (Has.of fun i _ hi => ?_)) fun st q hq _ => ?_
    · by_cases h2 : i < 4
      · exact Or.inl (Or.inl (Or.inl (Or.inr ⟨rfl, by omega, by omega⟩)))
      by_cases h4 : i < 8
      · exact Or.inl (Or.inl (Or.inr ⟨rfl, by omega, by omega⟩))
      by_cases h5 : i < 12
      · exact Or.inl (Or.inr ⟨rfl, by omega, by omega⟩)
      · exact Or.inr ⟨rfl, by omega, by omega⟩
    exact def_sse2_mixStepT he.both.both.both.both.both.both (Has.left (Has.right (Has.refl _))) (Has.right (has_cells (by omega) (by omega))) hq
  · exact def_seq (def_addStateT (Has.left hs') ms (Has.right (Has.refl _))) fun _ _ => def_pure0

theorem def_RNDMSGT {st : (V4 × V4) × List V4} {i : Nat} {K0 K1 K2 K3 : W32} (hW : Has D (cells (.h .W) 0 4)) (mW : Has may (cells (.h .W) 0 64)) :
    Def0 may D (Shani.RNDMSGT st i K0 K1 K2 K3) := by
  obtain ⟨S, W⟩ := st
  unfold Shani.RNDMSGT
  dsimp only
  refine def_seq (def_rd (hW.at (by omega) (by omega))) fun _ _ => ?_
  refine def_ite (fun _ => ?_) fun _ => def_pure0
  refine def_seq (P := fun _ => noCells) (R := fun _ => True) ?_ fun _ _ => def_pure0
  unfold Shani.MSG4T
  iterate 2 refine def_seq (def_rd (hW.at (by omega) (by omega))) fun _ _ => ?_
  refine def_seq (def_wr (mW.at (by omega) (by omega))) fun _ _ => ?_
  iterate 3 refine def_seq (def_rd (hW.at (by omega) (by omega))) fun _ _ => ?_
  refine def_seq (def_wr (mW.at (by omega) (by omega))) fun _ _ => ?_
  iterate 2 refine def_seq (def_rd (hW.at (by omega) (by omega))) fun _ _ => ?_
  exact (def_wr (mW.at (by omega) (by omega))).drop

theorem def_shaniT {sa ba : Arr} {bo : Nat} {state : List W32} {block : Bytes} (he : HEnv may D) (hs : Has D (cells sa 0 8)) (ms : Has may (cells sa 0 8))
    (hb : Has D (cells ba bo 64)) : Def0 may D (SHA256_Transform_shaniT sa ba bo state block) := by
  unfold SHA256_Transform_shaniT Shani.be32dec_128T
  iterate 2 refine def_seq (def_ldWordsT (hs.sub (by omega) (by omega))) fun _ _ => ?_
  iterate 4 refine def_seq (def_seq (def_ldBlockT hb (by omega)) fun _ _ => def_pure0) fun _ _ => ?_
  refine def_bind (def_writes (he.W.sub (by omega) (by omega))) fun W _ => ?_
  refine def_seq (P := fun _ => noCells) (R := fun _ => True) ?_ fun _ _ => ?_
  · unfold Shani.rounds16T
    iterate 15 refine def_seq (def_RNDMSGT (Has.right (Has.refl _)) he.W) fun _ _ => ?_
    exact def_RNDMSGT (Has.right (Has.refl _)) he.W
  · exact def_seq (def_stWordsT (ms.sub (by omega) (by omega))) fun _ _ => (def_stWordsT (ms.sub (by omega) (by omega))).drop

theorem def_arm_mixStepT {st : (V4 × V4) × Sse2.Y4} {q : Nat} (hk : Has D (cells (.h .Krnd) 0 64)) (hq : q < 4) : Def0 may D (Arm.mixStepT st q) := by
  obtain ⟨S, Y⟩ := st
  unfold Arm.mixStepT Arm.RND4T
  dsimp only
  iterate 4 refine def_seq (def_seq (def_ldWordsT (hk.sub (by omega) (by omega))) fun _ _ => def_pure0) fun _ _ => ?_
  exact def_ite (fun _ => def_pure0) fun _ => def_pure0

theorem def_armT {sa ba : Arr} {bo : Nat} {state : List W32} {block : Bytes} (he : HEnv may D) (hs : Has D (cells sa 0 8)) (ms : Has may (cells sa 0 8))
    (hb : Has D (cells ba bo 64)) : Def0 may D (SHA256_Transform_armT sa ba bo state block) := by
  unfold SHA256_Transform_armT
  iterate 4 refine def_seq (def_ldBlockT hb (by omega)) fun _ _ => ?_
  iterate 2 refine def_seq (def_ldWordsT (hs.sub (by omega) (by omega))) fun _ _ => ?_
  refine def_seq (def_for0 fun st q hq => def_arm_mixStepT he.krnd hq) fun ⟨S, _⟩ _ => ?_
  exact def_seq (def_stWordsT (ms.sub (by omega) (by omega))) fun _ _ => (def_stWordsT (ms.sub (by omega) (by omega))).drop

theorem def_tf (may : Cells) (hw : ShaHw) : TfDef may (shaTransformT hw) := by
  intro D sa ba bo state block he hs ms hb
  cases hw with
  | software => exact def_seq (def_swT he hs ms hb) fun ⟨_, _, _⟩ _ => def_pure0
  | x86_shani => exact def_shaniT he hs ms hb
  | x86_sse2 => exact def_seq (def_sse2T he hs ms hb) fun ⟨_, _, _⟩ _ => def_pure0
  | arm_sha256 => exact def_armT he hs ms hb

end Scrypt
