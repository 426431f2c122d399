import Verif.Proofs.AccessReads
import Verif.Proofs.AccessSmix
import Mathlib.Data.List.Perm.Basic
/-
The accesses to B in the mixing phase: both routines read all bytes of the block while loading it and write all of them while storing it, and do not touch B in between.
-/
namespace Scrypt
open Spec Logged

/-- An access to another array than B. -/
def NotB (c : Acc) : Prop := c.arr ≠ .B

theorem notB_accs {a : Arr} {w : Bool} {o k : Nat} (h : a ≠ .B) : ∀ c ∈ accs a w o k, NotB c := fun _ hc e => h ((mem_accs.1 hc).1.symm.trans e)
theorem notB_one {a : Arr} {w : Bool} {i : Nat} (h : a ≠ .B) : ∀ c ∈ [(⟨a, i, w⟩ : Acc)], NotB c := fun c hc => by
  obtain rfl := List.mem_singleton.1 hc
  exact h

theorem notB_rdT {α : Type} {a : Arr} {m : List α} {i : Nat} (h : a ≠ .B) : AllTr NotB (rdT a m i) := allTr_log (notB_one h)
theorem notB_wrT {α : Type} {a : Arr} {m : List α} {i : Nat} {v : α} (h : a ≠ .B) : AllTr NotB (wrT a m i v) := allTr_log (notB_one h)
theorem notB_rdSliceT {α : Type} {a : Arr} {m : List α} {i k : Nat} (h : a ≠ .B) : AllTr NotB (rdSliceT a m i k) := allTr_log (notB_accs h)
theorem notB_wrSliceT {α : Type} {a : Arr} {m : List α} {o : Nat} {s : List α} (h : a ≠ .B) : AllTr NotB (wrSliceT a m o s) := allTr_log (notB_accs h)
theorem notB_ldT {a : Arr} {m : List W32} {f i : Nat} (h : a ≠ .B) : AllTr NotB (SseSmix.ldT a m f i) := allTr_log (notB_accs h)
theorem notB_stT {a : Arr} {m : List W32} {f i : Nat} {v : V4} (h : a ≠ .B) : AllTr NotB (SseSmix.stT a m f i v) := allTr_log (notB_accs h)

macro "nb_ne" : tactic => `(tactic| first | assumption | decide)
macro "nb_op" : tactic => `(tactic| first | exact allTr_pure | exact notB_rdT (by nb_ne) | exact notB_wrT (by nb_ne) | exact notB_rdSliceT (by nb_ne) | exact notB_wrSliceT (by nb_ne) | exact notB_ldT (by nb_ne) | exact notB_stT (by nb_ne))
macro "nb_ops" : tactic => `(tactic| repeat' first | nb_op | refine allTr_bind ?_ fun _ _ => ?_ | refine allTr_forLoop _ _ fun _ _ _ => ?_)

theorem notB_xorFromT {da sa : Arr} (hd : da ≠ .B) (hs : sa ≠ .B) {d s : List W32} {a b k : Nat} : AllTr (NotB) (xorFromT da sa d a s b k) := by
  unfold xorFromT
  nb_ops
theorem notB_cpyFromT {da sa : Arr} (hd : da ≠ .B) (hs : sa ≠ .B) {d s : List W32} {a b k : Nat} : AllTr (NotB) (cpyFromT da sa d a s b k) := by
  unfold cpyFromT
  nb_ops
theorem notB_qstepT {x : List W32} {d a b k : Nat} : AllTr (NotB) (Smix.qstepT x d a b k) := by
  unfold Smix.qstepT
  nb_ops
theorem notB_gen_salsaT {m : List W32} {f : Nat} : AllTr (NotB) (Gen.salsa20_8T m f) := by
  unfold Gen.salsa20_8T Smix.rounds8T
  refine allTr_bind (by nb_op) fun _ _ => ?_
  refine allTr_bind (by nb_op) fun _ _ => ?_
  refine allTr_bind (allTr_forLoop _ _ fun _ _ _ => ?_) fun _ _ => by nb_ops
  refine allTr_bind ?_ fun _ _ => ?_
  · unfold Smix.colStepT
    iterate 15 refine allTr_bind notB_qstepT fun _ _ => ?_
    exact notB_qstepT
  · unfold Smix.rowStepT
    iterate 15 refine allTr_bind notB_qstepT fun _ _ => ?_
    exact notB_qstepT
theorem notB_gen_blockmixT {m : List W32} {a b z r : Nat} : AllTr (NotB) (Gen.blockmixT m a b z r) := by
  unfold Gen.blockmixT xorWithinT cpyWithinT
  refine allTr_bind (by nb_ops) fun _ _ => allTr_forLoop _ _ fun _ _ _ => ?_
  refine allTr_bind (by nb_ops) fun _ _ => ?_
  refine allTr_bind notB_gen_salsaT fun _ _ => ?_
  refine allTr_bind (by nb_ops) fun _ _ => ?_
  refine allTr_bind (by nb_ops) fun _ _ => ?_
  refine allTr_bind notB_gen_salsaT fun _ _ => ?_
  nb_ops
theorem notB_sse_salsaT {m : List W32} {f : Nat} : AllTr (NotB) (SseSmix.salsa20_8T m f) := by
  unfold SseSmix.salsa20_8T
  nb_ops
theorem notB_sse_blockmixT {m : List W32} {a b z r : Nat} : AllTr (NotB) (SseSmix.blockmixT m a b z r) := by
  unfold SseSmix.blockmixT SseSmix.blkcpyWithinT SseSmix.blkxorWithinT
  refine allTr_bind (by nb_ops) fun _ _ => allTr_forLoop _ _ fun _ _ _ => ?_
  refine allTr_bind (by nb_ops) fun _ _ => ?_
  refine allTr_bind notB_sse_salsaT fun _ _ => ?_
  refine allTr_bind (by nb_ops) fun _ _ => ?_
  refine allTr_bind (by nb_ops) fun _ _ => ?_
  refine allTr_bind notB_sse_salsaT fun _ _ => ?_
  nb_ops

/-- The helpers do not access B. -/
structure OpsNotB (ops : Smix.OpsT) : Prop where
  cpyToV : ∀ V a XY b k, AllTr (NotB) (ops.cpyToV V a XY b k)
  xorV : ∀ XY a V b k, AllTr (NotB) (ops.xorV XY a V b k)
  blockmix : ∀ XY a b z r, AllTr (NotB) (ops.blockmix XY a b z r)
  integerify : ∀ XY a r, AllTr (NotB) (ops.integerify XY a r)

theorem notB_loopsT {ops : Smix.OpsT} (h : OpsNotB ops) {r N : Nat} {V XY : List W32} : AllTr (NotB) (Smix.loopsT ops r N V XY) := by
  unfold Smix.loopsT
  refine allTr_bind (allTr_forLoop _ _ fun _ _ _ => ?_) fun _ _ => ?_
  · refine allTr_bind (h.cpyToV _ _ _ _ _) fun _ _ => ?_
    refine allTr_bind (h.blockmix _ _ _ _ _) fun _ _ => ?_
    refine allTr_bind (h.cpyToV _ _ _ _ _) fun _ _ => ?_
    refine allTr_bind (h.blockmix _ _ _ _ _) fun _ _ => ?_
    exact allTr_pure
  · refine allTr_bind (allTr_forLoop _ _ fun _ _ _ => ?_) fun _ _ => allTr_pure
    refine allTr_bind (h.integerify _ _ _) fun _ _ => ?_
    refine allTr_bind (h.xorV _ _ _ _ _) fun _ _ => ?_
    refine allTr_bind (h.blockmix _ _ _ _ _) fun _ _ => ?_
    refine allTr_bind (h.integerify _ _ _) fun _ _ => ?_
    refine allTr_bind (h.xorV _ _ _ _ _) fun _ _ => ?_
    exact h.blockmix _ _ _ _ _

theorem gen_opsNotB : OpsNotB Gen.opsT where
  cpyToV _ _ _ _ _ := notB_cpyFromT (by decide) (by decide)
  xorV _ _ _ _ _ := notB_xorFromT (by decide) (by decide)
  blockmix _ _ _ _ _ := notB_gen_blockmixT
  integerify _ _ _ := by
    show AllTr _ (Gen.integerifyT _ _ _)
    unfold Gen.integerifyT
    nb_ops

theorem sse_opsNotB : OpsNotB SseSmix.opsT where
  cpyToV _ _ _ _ _ := by
    show AllTr _ (SseSmix.blkcpyFromT _ _ _ _ _ _ _)
    unfold SseSmix.blkcpyFromT
    nb_ops
  xorV _ _ _ _ _ := by
    show AllTr _ (SseSmix.blkxorFromT _ _ _ _ _ _ _)
    unfold SseSmix.blkxorFromT
    nb_ops
  blockmix _ _ _ _ _ := notB_sse_blockmixT
  integerify _ _ _ := by
    show AllTr _ (SseSmix.integerifyT _ _ _)
    unfold SseSmix.integerifyT
    nb_ops

/-- The accesses to B. -/
def onB (t : List Acc) : List Acc := t.filter fun a => decide (a.arr = .B)

theorem onB_append (t u : List Acc) : onB (t ++ u) = onB t ++ onB u := List.filter_append ..

theorem onB_flatMap (l : List Nat) (t : Nat → List Acc) : onB (l.flatMap t) = l.flatMap fun i => onB (t i) := by
  induction l with
  | nil => rfl
  | cons a l ih => rw [List.flatMap_cons, onB_append, ih, List.flatMap_cons]

theorem onB_notB {t : List Acc} (h : ∀ c ∈ t, NotB c) : onB t = [] :=
  List.filter_eq_nil_iff.2 fun c hc e => h c hc (of_decide_eq_true e)

theorem onB_accs (w : Bool) (o n : Nat) : onB (accs .B w o n) = accs .B w o n :=
  List.filter_eq_self.2 fun c hc => decide_eq_true (mem_accs.1 hc).1

/-- The bytes of one word, or the word of one column, in the order in which the SSE2 routine takes them. -/
def sseOrder (r : Nat) : List Nat := (List.range (2 * r)).flatMap fun k => (List.range 16).flatMap fun i => (List.range 4).map fun b => (k * 16 + i * 5 % 16) * 4 + b

theorem accs_map (w : Bool) (o n : Nat) : accs .B w o n = ((List.range n).map fun b => o + b).map fun i => (⟨.B, i, w⟩ : Acc) := by
  unfold accs
  rw [List.map_map]
  rfl

theorem flatMap_range_mul (a b : Nat) : ((List.range a).flatMap fun k => (List.range b).map fun i => k * b + i) = List.range (a * b) := by
  induction a with
  | zero => rw [Nat.zero_mul]; rfl
  | succ a ih => rw [List.range_succ, List.flatMap_append, ih, List.flatMap_singleton, Nat.succ_mul, List.range_add]

theorem cols_perm : ((List.range 16).map fun i => i * 5 % 16).Perm (List.range 16) := by decide

theorem sseOrder_perm (r : Nat) : (sseOrder r).Perm (List.range (128 * r)) := by
  have h1 : List.range (128 * r) = (List.range (2 * r)).flatMap fun k => (List.range 16).flatMap fun i => (List.range 4).map fun b => (k * 16 + i) * 4 + b := by
    rw [show 128 * r = 2 * r * 64 by omega, ← flatMap_range_mul (2 * r) 64]
    congr 1
    funext k
    rw [show (64 : Nat) = 16 * 4 from rfl, ← flatMap_range_mul 16 4, List.map_flatMap]
    congr 1
    funext i
    rw [List.map_map]
    refine List.map_congr_left fun b _ => ?_
    show k * 64 + (i * 4 + b) = _
    omega
  rw [h1]
  refine List.Perm.flatMap_left _ fun k _ => ?_
  have h2 : ((List.range 16).flatMap fun i => (List.range 4).map fun b => (k * 16 + i * 5 % 16) * 4 + b) =
      ((List.range 16).map fun i => i * 5 % 16).flatMap fun j => (List.range 4).map fun b => (k * 16 + j) * 4 + b := by
    rw [List.flatMap_map]
  rw [h2]
  exact List.Perm.flatMap_right _ cols_perm

theorem map_flatMap2 {g : Nat → Acc} (r : Nat) (h : Nat → Nat → List Nat) :
    ((List.range (2 * r)).flatMap fun k => (List.range 16).flatMap fun i => (h k i).map g) =
      ((List.range (2 * r)).flatMap fun k => (List.range 16).flatMap fun i => h k i).map g := by
  rw [List.map_flatMap]
  congr 1
  funext k
  rw [List.map_flatMap]

/-- One mixing: every byte of its block is read once, then every byte is written once, in orders that are fixed by the routine and `r`. -/
theorem smix_onB (f : SmixImpl) (r : Nat) : ∃ rd wr : List Nat, rd.Perm (List.range (128 * r)) ∧ wr.Perm (List.range (128 * r)) ∧
    ∀ (N : Nat) (B : Bytes) (V XY : List W32) (a : Bytes × List W32 × List W32) (t : List Acc), smixImplT f B r N V XY = Res.ok (a, t) →
      onB t = (rd.map fun i => (⟨.B, i, false⟩ : Acc)) ++ wr.map fun i => (⟨.B, i, true⟩ : Acc) := by
  cases f with
  | generic =>
    refine ⟨_, _, .refl _, .refl _, fun N B V XY a t h => ?_⟩
    have h : crypto_scrypt_smixT B r N V XY = Res.ok (a, t) := h
    unfold crypto_scrypt_smixT at h
    obtain ⟨X1, i1, j1, a1, h, e1⟩ := tr_bind_inv h
    obtain ⟨s2, i2, j2, a2, h, e2⟩ := tr_bind_inv h
    obtain ⟨B3, i3, j3, a3, h, e3⟩ := tr_bind_inv h
    have t1 := hasTr_forLoop (t := fun k => accs .B false (4 * k) 4 ++ [⟨.XY, k, true⟩]) (fun XY k => hasTr_bind (le32decT_tr _ _) fun _ => wrT_tr _ _ _ _) _ _ _ _ a1
    have t2 := onB_notB (notB_loopsT gen_opsNotB _ _ a2)
    have t3 := hasTr_forLoop (t := fun k => [⟨.XY, k, false⟩] ++ accs .B true (4 * k) 4)
      (fun B k => hasTr_bind (rdT_tr _ _ _) fun w => wrSliceT_tr _ _ _ _ (le32enc_length w)) _ _ _ _ a3
    have t4 : j3 = [] := (Prod.mk.inj (Res.ok.inj h)).2.symm
    have e : ∀ w : Bool, ((List.range (32 * r)).flatMap fun k => accs .B w (4 * k) 4) = (List.range (128 * r)).map fun i => (⟨.B, i, w⟩ : Acc) := fun w => by
      have := accs_fours .B w 0 (32 * r)
      simp only [Nat.zero_add] at this
      rw [this, show 4 * (32 * r) = 128 * r by omega, accs_map]
      simp only [Nat.zero_add, List.map_id']
    rw [e1, e2, e3, onB_append, onB_append, onB_append, t1, t2, t3, t4, onB_flatMap, onB_flatMap]
    simp only [onB_append, onB_accs, onB_notB (notB_one (show Arr.XY ≠ .B by decide)), List.append_nil, List.nil_append, e]
    rw [show onB [] = [] from rfl, List.append_nil]
  | sse2 =>
    refine ⟨_, _, sseOrder_perm r, sseOrder_perm r, fun N B V XY a t h => ?_⟩
    have h : crypto_scrypt_smix_sse2T B r N V XY = Res.ok (a, t) := h
    unfold crypto_scrypt_smix_sse2T at h
    obtain ⟨X1, i1, j1, a1, h, e1⟩ := tr_bind_inv h
    obtain ⟨s2, i2, j2, a2, h, e2⟩ := tr_bind_inv h
    obtain ⟨B3, i3, j3, a3, h, e3⟩ := tr_bind_inv h
    have p1 : ∀ (X : List W32) (k : Nat), HasTr (forLoopT 16 (fun XY i => do
        let w ← le32decT B ((k * 16 + i * 5 % 16) * 4)
        wrT .XY XY (k * 16 + i) w) X) ((List.range 16).flatMap fun i => accs .B false ((k * 16 + i * 5 % 16) * 4) 4 ++ [⟨.XY, k * 16 + i, true⟩]) := by
      intro X k
      refine hasTr_forLoop (fun XY i => ?_) X _
      exact hasTr_bind (le32decT_tr _ _) fun _ => wrT_tr _ _ _ _
    have t1 := hasTr_forLoop p1 _ _ _ _ a1
    have t2 := onB_notB (notB_loopsT sse_opsNotB _ _ a2)
    have p3 : ∀ (B : Bytes) (k : Nat), HasTr (forLoopT 16 (fun B i => do
        let w ← rdT .XY s2.2 (k * 16 + i)
        wrSliceT .B B ((k * 16 + i * 5 % 16) * 4) (le32enc w)) B) ((List.range 16).flatMap fun i => [⟨.XY, k * 16 + i, false⟩] ++ accs .B true ((k * 16 + i * 5 % 16) * 4) 4) := by
      intro B k
      refine hasTr_forLoop (fun B i => ?_) B _
      exact hasTr_bind (rdT_tr _ _ _) fun w => wrSliceT_tr _ _ _ _ (le32enc_length w)
    have t3 := hasTr_forLoop p3 _ _ _ _ a3
    have t4 : j3 = [] := (Prod.mk.inj (Res.ok.inj h)).2.symm
    have e : ∀ w : Bool, ((List.range (2 * r)).flatMap fun k => (List.range 16).flatMap fun i => accs .B w ((k * 16 + i * 5 % 16) * 4) 4) =
        (sseOrder r).map fun i => (⟨.B, i, w⟩ : Acc) := fun w => by
      simp only [accs_map]
      exact map_flatMap2 r _
    rw [e1, e2, e3, onB_append, onB_append, onB_append, t1, t2, t3, t4]
    simp only [onB_flatMap, onB_append, onB_accs, onB_notB (notB_one (show Arr.XY ≠ .B by decide)), List.append_nil, List.nil_append, e]
    rw [show onB [] = [] from rfl, List.append_nil]

end Scrypt
