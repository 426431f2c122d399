import Verif.Proofs.DefinedCtx
import Verif.Proofs.CryptoScrypt
/-
`WrittenFirst` for the mixing phase.
-/
namespace Scrypt
open Spec Logged Smix

variable {may D : Cells}

theorem def_xorFromT {da sa : Arr} {dest src : List W32} {doff soff n : Nat} (hd : Has D (cells da doff n)) (hs : Has D (cells sa soff n)) (md : Has may (cells da doff n)) :
    Def0 may D (xorFromT da sa dest doff src soff n) := by
  unfold xorFromT
  refine def_for0 fun _ i hi => ?_
  refine def_seq (def_rd (hd.at (by omega) (by omega))) fun _ _ => def_seq (def_rd (hs.at (by omega) (by omega))) fun _ _ => ?_
  exact (def_wr (md.at (by omega) (by omega))).drop

theorem def_xorWithinT {m : List W32} {doff soff n : Nat} (hd : Has D (cells .XY doff n)) (hs : Has D (cells .XY soff n)) (md : Has may (cells .XY doff n)) :
    Def0 may D (xorWithinT m doff soff n) := by
  unfold xorWithinT
  refine def_for0 fun _ i hi => ?_
  refine def_seq (def_rd (hd.at (by omega) (by omega))) fun _ _ => def_seq (def_rd (hs.at (by omega) (by omega))) fun _ _ => ?_
  exact (def_wr (md.at (by omega) (by omega))).drop

theorem def_cpyFromT {da sa : Arr} {dest src : List W32} {doff soff n : Nat} (hs : Has D (cells sa soff n)) (md : Has may (cells da doff n)) :
    Def may D (cpyFromT da sa dest doff src soff n) (fun _ => True) (fun _ => cells da doff n) := by
  unfold cpyFromT
  refine def_seq (def_rdSlice hs) fun s hl => ?_
  refine (def_wrSlice (by rw [hl]; exact md)).conseq (fun _ _ => trivial) fun _ _ => ?_
  rw [hl]
  exact Has.right (Has.refl _)

theorem def_cpyWithinT {m : List W32} {doff soff n : Nat} (hs : Has D (cells .XY soff n)) (md : Has may (cells .XY doff n)) :
    Def may D (cpyWithinT m doff soff n) (fun _ => True) (fun _ => cells .XY doff n) := def_cpyFromT (dest := m) (src := m) hs md

theorem def_qstepT {x : List W32} {d a b n : Nat} (hx : Has D (cells .x 0 16)) (mx : Has may (cells .x 0 16)) (h : d < 16 ∧ a < 16 ∧ b < 16) :
    Def0 may D (qstepT x d a b n) := by
  unfold qstepT
  iterate 3 refine def_seq (def_rd (hx.at (by omega) (by omega))) fun _ _ => ?_
  exact (def_wr (mx.at (by omega) (by omega))).drop

theorem def_rounds8T {x : List W32} (hx : Has D (cells .x 0 16)) (mx : Has may (cells .x 0 16)) : Def0 may D (rounds8T x) := by
  unfold rounds8T
  refine def_for0 fun x _ _ => ?_
  refine def_seq (R := fun _ => True) (P := fun _ => noCells) ?_ fun _ _ => ?_
  · unfold colStepT
    iterate 15 refine def_seq (def_qstepT hx mx (by decide)) fun _ _ => ?_
    exact def_qstepT hx mx (by decide)
  · unfold rowStepT
    iterate 15 refine def_seq (def_qstepT hx mx (by decide)) fun _ _ => ?_
    exact def_qstepT hx mx (by decide)

theorem def_gen_salsaT {m : List W32} {off : Nat} (h : Has D (cells .XY off 16)) (mh : Has may (cells .XY off 16)) (mx : Has may (cells .x 0 16)) :
    Def0 may D (Gen.salsa20_8T m off) := by
  unfold Gen.salsa20_8T
  refine def_seq (def_rdSlice h) fun x hl => ?_
  refine def_bind (def_wrSlice (by rw [hl]; exact mx)) fun x _ => ?_
  rw [hl]
  refine def_seq (def_rounds8T (Has.right (Has.refl _)) mx) fun x _ => ?_
  refine def_for0 fun m i hi => ?_
  refine def_seq (def_rd (Has.left h |>.at (by omega) (by omega))) fun _ _ => ?_
  refine def_seq (def_rd (Has.right (Has.refl _) |>.at (by omega) (by omega))) fun _ _ => ?_
  exact (def_wr (mh.at (by omega) (by omega))).drop

/-- The two mixHalves of the output block that `k` rounds have written. -/
def mixHalves (bout r k : Nat) : Cells := both (cells .XY bout (16 * k)) (cells .XY (bout + 16 * r) (16 * k))

theorem has_mixHalves {E : Cells} {bout r k : Nat} (h : Has E (mixHalves bout r k)) (h1 : Has E (cells .XY (bout + 16 * k) 16)) (h2 : Has E (cells .XY (bout + 16 * r + 16 * k) 16)) :
    Has E (mixHalves bout r (k + 1)) :=
  Has.both (Has.join (n := 16 * k) (m := 16) (fun a i x => h a i (Or.inl x)) h1 (by omega) (by omega))
    (Has.join (n := 16 * k) (m := 16) (fun a i x => h a i (Or.inr x)) h2 (by omega) (by omega))

theorem def_gen_blockmixT {m : List W32} {bin bout z r : Nat} (hr : 0 < r) (hb : Has D (cells .XY bin (32 * r))) (mo : Has may (cells .XY bout (32 * r)))
    (mz : Has may (cells .XY z 16)) (mx : Has may (cells .x 0 16)) :
    Def may D (Gen.blockmixT m bin bout z r) (fun _ => True) (fun _ => cells .XY bout (32 * r)) := by
  unfold Gen.blockmixT
  refine def_bind (def_cpyWithinT (hb.sub (by omega) (by omega)) mz) fun m _ => ?_
  refine (def_loop (R := fun _ _ => True) (fun k => mixHalves bout r k) trivial (Has.both has_empty has_empty) fun m k hk _ => ?_).conseq (fun _ _ => trivial)
    fun _ _ => Has.right (Has.join (n := 16 * r) (m := 16 * r) (Has.left (Has.refl _)) (Has.right (Has.refl _)) (by omega) (by omega))
  have hz : Has (both (both D (cells .XY z 16)) (mixHalves bout r k)) (cells .XY z 16) := Has.left (Has.right (Has.refl _))
  have hB : Has (both (both D (cells .XY z 16)) (mixHalves bout r k)) (cells .XY bin (32 * r)) := Has.left (Has.left hb)
  dsimp only
  refine def_seq (def_xorWithinT hz (hB.sub (by omega) (by omega)) mz) fun _ _ => def_seq (def_gen_salsaT hz mz mx) fun _ _ => ?_
  refine def_bind (def_cpyWithinT hz (mo.sub (by omega) (by omega))) fun _ _ => ?_
  refine def_seq (def_xorWithinT (Has.left hz) (Has.left (hB.sub (by omega) (by omega))) mz) fun _ _ => def_seq (def_gen_salsaT (Has.left hz) mz mx) fun _ _ => ?_
  refine (def_cpyWithinT (Has.left hz) (mo.sub (by omega) (by omega))).conseq (fun _ _ => trivial) fun _ _ => ?_
  refine has_mixHalves (Has.left (Has.left (Has.right (Has.refl _)))) (Has.left (Has.right (has_cells (by omega) (by omega)))) (Has.right (has_cells (by omega) (by omega)))

theorem def_gen_integerifyT {m : List W32} {off r : Nat} (hr : 0 < r) (h : Has D (cells .XY off (32 * r))) : Def0 may D (Gen.integerifyT m off r) := by
  unfold Gen.integerifyT
  iterate 2 refine def_seq (def_rd (h.at (by omega) (by omega))) fun _ _ => ?_
  exact def_pure0

/-- The helpers read and write the blocks they are given. -/
structure OpsDef (may : Cells) (r : Nat) (ops : OpsT) : Prop where
  cpyToV : ∀ (D : Cells) (V : List W32) (voff : Nat) (XY : List W32) (xoff : Nat), Has D (cells .XY xoff (32 * r)) → Has may (cells .V voff (32 * r)) →
    Def may D (ops.cpyToV V voff XY xoff (32 * r)) (fun _ => True) (fun _ => cells .V voff (32 * r))
  xorV : ∀ (D : Cells) (XY : List W32) (xoff : Nat) (V : List W32) (voff : Nat), Has D (cells .XY xoff (32 * r)) → Has D (cells .V voff (32 * r)) →
    Has may (cells .XY xoff (32 * r)) → Def0 may D (ops.xorV XY xoff V voff (32 * r))
  blockmix : ∀ (D : Cells) (XY : List W32) (bin bout z : Nat), Has D (cells .XY bin (32 * r)) → Has may (cells .XY bout (32 * r)) → Has may (cells .XY z 16) →
    Def may D (ops.blockmix XY bin bout z r) (fun _ => True) (fun _ => cells .XY bout (32 * r))
  integerify : ∀ (D : Cells) (XY : List W32) (off : Nat), Has D (cells .XY off (32 * r)) → Def0 may D (ops.integerify XY off r)

theorem genOps_def {r : Nat} (hr : 0 < r) (mx : Has may (cells .x 0 16)) : OpsDef may r Gen.opsT :=
  ⟨fun _ _ _ _ _ h1 h2 => def_cpyFromT h1 h2, fun _ _ _ _ _ h1 h2 h3 => def_xorFromT h1 h2 h3, fun _ _ _ _ _ h1 h2 h3 => def_gen_blockmixT hr h1 h2 h3 mx,
    fun _ _ _ h => def_gen_integerifyT hr h⟩

theorem def_ldT {a : Arr} {m : List W32} {off i : Nat} (h : Has D (cells a (off + 4 * i) 4)) : Def0 may D (SseSmix.ldT a m off i) := (def_reads h).drop

theorem def_stT {a : Arr} {m : List W32} {off i : Nat} {v : V4} (h : Has may (cells a (off + 4 * i) 4)) :
    Def may D (SseSmix.stT a m off i v) (fun _ => True) (fun _ => cells a (off + 4 * i) 4) := (def_writes h).conseq (fun _ _ => trivial) fun _ _ => Has.right (Has.refl _)

theorem def_blkcpyFromT {da sa : Arr} {dest src : List W32} {doff soff n : Nat} (h4 : n % 4 = 0) (hs : Has D (cells sa soff n)) (md : Has may (cells da doff n)) :
    Def may D (SseSmix.blkcpyFromT da sa dest doff src soff n) (fun _ => True) (fun _ => cells da doff n) := by
  unfold SseSmix.blkcpyFromT
  refine (def_loop (R := fun _ _ => True) (fun i => cells da doff (4 * i)) trivial has_empty fun d i hi _ => ?_).conseq (fun _ _ => trivial)
    fun _ _ => Has.right (has_cells (by omega) (by omega))
  refine def_seq (def_ldT (Has.left (hs.sub (by omega) (by omega)))) fun _ _ => ?_
  exact (def_stT (md.sub (by omega) (by omega))).conseq (fun _ _ => trivial) fun _ _ => has_grow

theorem def_blkcpyWithinT {m : List W32} {doff soff n : Nat} (h4 : n % 4 = 0) (hs : Has D (cells .XY soff n)) (md : Has may (cells .XY doff n)) :
    Def may D (SseSmix.blkcpyWithinT m doff soff n) (fun _ => True) (fun _ => cells .XY doff n) := by
  unfold SseSmix.blkcpyWithinT
  refine (def_loop (R := fun _ _ => True) (fun i => cells .XY doff (4 * i)) trivial has_empty fun d i hi _ => ?_).conseq (fun _ _ => trivial)
    fun _ _ => Has.right (has_cells (by omega) (by omega))
  refine def_seq (def_ldT (Has.left (hs.sub (by omega) (by omega)))) fun _ _ => ?_
  exact (def_stT (md.sub (by omega) (by omega))).conseq (fun _ _ => trivial) fun _ _ => has_grow

theorem def_blkxorFromT {da sa : Arr} {dest src : List W32} {doff soff n : Nat} (hd : Has D (cells da doff n)) (hs : Has D (cells sa soff n)) (md : Has may (cells da doff n)) :
    Def0 may D (SseSmix.blkxorFromT da sa dest doff src soff n) := by
  unfold SseSmix.blkxorFromT
  refine def_for0 fun _ i hi => ?_
  refine def_seq (def_ldT (hd.sub (by omega) (by omega))) fun _ _ => def_seq (def_ldT (hs.sub (by omega) (by omega))) fun _ _ => ?_
  exact (def_stT (md.sub (by omega) (by omega))).drop

theorem def_blkxorWithinT {m : List W32} {doff soff n : Nat} (hd : Has D (cells .XY doff n)) (hs : Has D (cells .XY soff n)) (md : Has may (cells .XY doff n)) :
    Def0 may D (SseSmix.blkxorWithinT m doff soff n) := by
  unfold SseSmix.blkxorWithinT
  refine def_for0 fun _ i hi => ?_
  refine def_seq (def_ldT (hd.sub (by omega) (by omega))) fun _ _ => def_seq (def_ldT (hs.sub (by omega) (by omega))) fun _ _ => ?_
  exact (def_stT (md.sub (by omega) (by omega))).drop

theorem def_sse_salsaT {m : List W32} {off : Nat} (h : Has D (cells .XY off 16)) (mh : Has may (cells .XY off 16)) : Def0 may D (SseSmix.salsa20_8T m off) := by
  unfold SseSmix.salsa20_8T
  iterate 4 refine def_seq (def_ldT (h.sub (by omega) (by omega))) fun _ _ => ?_
  iterate 3 refine def_seq (def_ldT (h.sub (by omega) (by omega))) fun _ _ => def_seq (def_stT (mh.sub (by omega) (by omega))) fun _ _ => ?_
  exact def_seq (def_ldT (h.sub (by omega) (by omega))) fun _ _ => (def_stT (mh.sub (by omega) (by omega))).drop

theorem def_sse_blockmixT {m : List W32} {bin bout z r : Nat} (hr : 0 < r) (hb : Has D (cells .XY bin (32 * r))) (mo : Has may (cells .XY bout (32 * r)))
    (mz : Has may (cells .XY z 16)) :
    Def may D (SseSmix.blockmixT m bin bout z r) (fun _ => True) (fun _ => cells .XY bout (32 * r)) := by
  unfold SseSmix.blockmixT
  refine def_bind (def_blkcpyWithinT rfl (hb.sub (by omega) (by omega)) mz) fun m _ => ?_
  refine (def_loop (R := fun _ _ => True) (fun k => mixHalves bout r k) trivial (Has.both has_empty has_empty) fun m k hk _ => ?_).conseq (fun _ _ => trivial)
    fun _ _ => Has.right (Has.join (n := 16 * r) (m := 16 * r) (Has.left (Has.refl _)) (Has.right (Has.refl _)) (by omega) (by omega))
  have hz : Has (both (both D (cells .XY z 16)) (mixHalves bout r k)) (cells .XY z 16) := Has.left (Has.right (Has.refl _))
  have hB : Has (both (both D (cells .XY z 16)) (mixHalves bout r k)) (cells .XY bin (32 * r)) := Has.left (Has.left hb)
  refine def_seq (def_blkxorWithinT hz (hB.sub (by omega) (by omega)) mz) fun _ _ => def_seq (def_sse_salsaT hz mz) fun _ _ => ?_
  refine def_bind (def_blkcpyWithinT rfl hz (mo.sub (by omega) (by omega))) fun _ _ => ?_
  refine def_seq (def_blkxorWithinT (Has.left hz) (Has.left (hB.sub (by omega) (by omega))) mz) fun _ _ => def_seq (def_sse_salsaT (Has.left hz) mz) fun _ _ => ?_
  refine (def_blkcpyWithinT rfl (Has.left hz) (mo.sub (by omega) (by omega))).conseq (fun _ _ => trivial) fun _ _ => ?_
  refine has_mixHalves (Has.left (Has.left (Has.right (Has.refl _)))) (Has.left (Has.right (has_cells (by omega) (by omega)))) (Has.right (has_cells (by omega) (by omega)))

theorem def_sse_integerifyT {m : List W32} {off r : Nat} (hr : 0 < r) (h : Has D (cells .XY off (32 * r))) : Def0 may D (SseSmix.integerifyT m off r) := by
  unfold SseSmix.integerifyT
  iterate 2 refine def_seq (def_ldT (h.sub (by omega) (by omega))) fun _ _ => ?_
  exact def_pure0

theorem sseOps_def {r : Nat} (hr : 0 < r) : OpsDef may r SseSmix.opsT :=
  ⟨fun _ _ _ _ _ h1 h2 => def_blkcpyFromT (by omega) h1 h2, fun _ _ _ _ _ h1 h2 h3 => def_blkxorFromT h1 h2 h3, fun _ _ _ _ _ h1 h2 h3 => def_sse_blockmixT hr h1 h2 h3,
    fun _ _ _ h => def_sse_integerifyT hr h⟩

theorem masked_lt (t : W64) (N : Nat) (h0 : 0 < N) (h : N < 2 ^ 64) : (t &&& (BitVec.ofNat 64 N - 1)).toNat < N := by
  rw [BitVec.toNat_and]
  refine Nat.lt_of_le_of_lt Nat.and_le_right ?_
  rw [BitVec.toNat_sub, BitVec.toNat_ofNat]
  show (2 ^ 64 - 1 + N % 2 ^ 64) % 2 ^ 64 < N
  omega

theorem def_loopsT {ops : OpsT} {r N : Nat} (ho : OpsDef may r ops) {V XY : List W32} (h0 : 0 < N) (hN : N < 2 ^ 64) (he : N % 2 = 0) (hX : Has D (cells .XY 0 (32 * r)))
    (mXY : Has may (cells .XY 0 (64 * r + 16))) (mV : Has may (cells .V 0 (N * (32 * r)))) : Def0 may D (loopsT ops r N V XY) := by
  have mX : Has may (cells .XY 0 (32 * r)) := mXY.sub (by omega) (by omega)
  have mY : Has may (cells .XY (32 * r) (32 * r)) := mXY.sub (by omega) (by omega)
  have mZ : Has may (cells .XY (64 * r) 16) := mXY.sub (by omega) (by omega)
  have part : ∀ i, i < N → i * (32 * r) + 32 * r ≤ N * (32 * r) := fun i hi => by
    rw [← Nat.succ_mul]
    exact Nat.mul_le_mul_right _ hi
  unfold loopsT
  refine def_bind (R := fun _ => True) (P := fun _ => cells .V 0 ((2 * ((N + 1) / 2)) * (32 * r))) ?_ fun ⟨V, XY⟩ _ => ?_
  · refine def_loop (R := fun _ _ => True) (fun q => cells .V 0 ((2 * q) * (32 * r))) trivial (by rw [Nat.mul_zero, Nat.zero_mul]; exact has_empty) fun ⟨V, XY⟩ q hq _ => ?_
    dsimp only
    have p1 := part (2 * q) (by omega)
    have p2 := part (2 * q + 1) (by omega)
    have e1 : (2 * q + 1) * (32 * r) = 2 * q * (32 * r) + 32 * r := Nat.succ_mul _ _
    have e2 : 2 * (q + 1) * (32 * r) = 2 * q * (32 * r) + 32 * r + 32 * r := by
      rw [show 2 * (q + 1) = 2 * q + 1 + 1 by omega, Nat.succ_mul, e1]
    refine def_bind (ho.cpyToV _ _ _ _ _ (Has.left hX) (mV.sub (by omega) (by omega))) fun V _ => ?_
    refine def_bind (ho.blockmix _ _ _ _ _ (Has.left (Has.left hX)) mY mZ) fun XY _ => ?_
    refine def_bind (ho.cpyToV _ _ _ _ _ (Has.right (Has.refl _)) (mV.sub (by omega) (by omega))) fun V _ => ?_
    refine def_bind (ho.blockmix _ _ _ _ _ (Has.left (Has.right (Has.refl _))) mX mZ) fun XY _ => ?_
    refine def_pure trivial (Has.left ?_)
    rw [e2, e1]
    refine Has.join (n := 2 * q * (32 * r) + 32 * r) (m := 32 * r) (Has.left (Has.left (has_grow0 rfl))) (Has.right (by rw [Nat.zero_add]; exact Has.refl _)) (by omega) (by omega)
  · rw [show 2 * ((N + 1) / 2) = N by omega]
    dsimp only
    have hV : ∀ {E : Cells}, Has E (cells .V 0 (N * (32 * r))) → ∀ t : W64, Has E (cells .V ((t &&& (BitVec.ofNat 64 N - 1)).toNat * (32 * r)) (32 * r)) :=
      fun h t => h.sub (by omega) (by have := part _ (masked_lt t N h0 hN); omega)
    refine def_seq (def_for0 fun XY q _ => ?_) fun _ _ => def_pure0
    have hX' : Has (both D (cells .V 0 (N * (32 * r)))) (cells .XY 0 (32 * r)) := Has.left hX
    have hV' : Has (both D (cells .V 0 (N * (32 * r)))) (cells .V 0 (N * (32 * r))) := Has.right (Has.refl _)
    refine def_seq (ho.integerify _ _ _ hX') fun t _ => ?_
    refine def_seq (ho.xorV _ _ _ _ _ hX' (hV hV' _) mX) fun XY _ => ?_
    refine def_bind (ho.blockmix _ _ _ _ _ hX' mY mZ) fun XY _ => ?_
    refine def_seq (ho.integerify _ _ _ (Has.right (Has.refl _))) fun t _ => ?_
    refine def_seq (ho.xorV _ _ _ _ _ (Has.right (Has.refl _)) (Has.left (hV hV' _)) mY) fun XY _ => ?_
    exact (ho.blockmix _ _ _ _ _ (Has.right (Has.refl _)) mX mZ).drop

theorem def_smixT {f : SmixImpl} {B : Bytes} {r N : Nat} {V XY : List W32} (hr : 0 < r) (h0 : 0 < N) (hN : N < 2 ^ 64) (he : N % 2 = 0) (hB : Has D (cells .B 0 (128 * r)))
    (mB : Has may (cells .B 0 (128 * r))) (mXY : Has may (cells .XY 0 (64 * r + 16))) (mV : Has may (cells .V 0 (N * (32 * r)))) (mx : Has may (cells .x 0 16)) :
    Def0 may D (smixImplT f B r N V XY) := by
  cases f with
  | generic =>
    show Def0 may D (crypto_scrypt_smixT B r N V XY)
    unfold crypto_scrypt_smixT
    refine def_bind (R := fun _ => True) (P := fun _ => cells .XY 0 (32 * r)) ?_ fun XY _ => ?_
    · refine def_loop (R := fun _ _ => True) (fun k => cells .XY 0 k) trivial has_empty fun XY k hk _ => ?_
      refine def_seq (def_reads (Has.left (hB.sub (by omega) (by omega)))) fun _ _ => ?_
      exact (def_wr (mXY.at (by omega) (by omega))).conseq (fun _ _ => trivial) fun _ _ => has_grow0 rfl
    · refine def_seq (def_loopsT (genOps_def hr mx) h0 hN he (Has.right (Has.refl _)) mXY mV) fun ⟨V, XY⟩ _ => ?_
      dsimp only
      refine def_seq (def_for0 fun B k hk => ?_) fun B _ => def_pure0
      refine def_seq (def_rd (Has.right (Has.refl _) |>.at (by omega) (by omega))) fun w _ => ?_
      exact (def_wrSlice (by show Has may (cells .B (4 * k) 4); exact mB.sub (by omega) (by omega))).drop
  | sse2 =>
    show Def0 may D (crypto_scrypt_smix_sse2T B r N V XY)
    unfold crypto_scrypt_smix_sse2T
    refine def_bind (R := fun _ => True) (P := fun _ => cells .XY 0 (16 * (2 * r))) ?_ fun XY _ => ?_
    · refine def_loop (R := fun _ _ => True) (fun k => cells .XY 0 (16 * k)) trivial has_empty fun XY k hk _ => ?_
      refine (def_loop (R := fun _ _ => True) (fun i => cells .XY 0 (16 * k + i)) trivial (Has.right (Has.refl _)) fun XY i hi _ => ?_).conseq (fun _ _ => trivial)
        fun _ _ => Has.right (has_cells (by omega) (by omega))
      refine def_seq (def_reads (Has.left (Has.left (hB.sub (by omega) (by omega))))) fun _ _ => ?_
      refine (def_wr (mXY.at (by omega) (by omega))).conseq (fun _ _ => trivial) fun _ _ => ?_
      rw [Nat.mul_comm k 16]
      exact has_grow0 rfl
    · refine def_seq (def_loopsT (sseOps_def hr) h0 hN he (Has.right (has_cells (by omega) (by omega))) mXY mV) fun ⟨V, XY⟩ _ => ?_
      dsimp only
      refine def_seq (def_for0 fun B k hk => def_for0 fun B i hi => ?_) fun B _ => def_pure0
      refine def_seq (def_rd (Has.right (Has.refl _) |>.at (by omega) (by omega))) fun w _ => ?_
      exact (def_wrSlice (by show Has may (cells .B _ 4); exact mB.sub (by omega) (by omega))).drop

theorem shift_eq_move {α : Type} (off : Nat) (x : Logged α) : shift off x = move .B off x := rfl

theorem has_pulled {a : Arr} {off n : Nat} (h : Has D (cells a off n)) : Has (pulled a off D) (cells a 0 n) := Has.of fun i h1 h2 => by
  show (if a = a then _ else _)
  rw [if_pos rfl]
  exact h.at (by omega) (by omega)

theorem has_pulled_other {a b : Arr} {off o n : Nat} (hb : b ≠ a) (h : Has D (cells b o n)) : Has (pulled a off D) (cells b o n) := Has.of fun i h1 h2 => by
  show (if b = a then _ else _)
  rw [if_neg hb]
  exact h.at (by omega) (by omega)

theorem def_mixBlocksT {szMax : Nat} (hs : IsSizeMax szMax) {f : SmixImpl} {r p N : Nat} {B : Bytes} {V XY : List W32} (hr : 0 < r) (h0 : 0 < N) (hN : N < 2 ^ 64) (he : N % 2 = 0)
    (hsz : 128 * r * p ≤ szMax) (hB : Has D (cells .B 0 (128 * r * p)))
    (mB : Has may (cells .B 0 (128 * r * p))) (mXY : Has may (cells .XY 0 (64 * r + 16))) (mV : Has may (cells .V 0 (N * (32 * r)))) (mx : Has may (cells .x 0 16)) :
    Def0 may D (mixBlocksT szMax f r p N B V XY) := by
  unfold mixBlocksT
  refine def_for0 fun ⟨B, V, XY⟩ i hi => ?_
  dsimp only
  have ho := blockIndex_eq szMax i r p hs hi hr hsz
  have hin : blockIndex szMax i r + 128 * r ≤ 128 * r * p := by
    rw [ho, ← Nat.mul_succ]
    exact Nat.mul_le_mul_left _ (by omega)
  refine def_seq (def_quiet (R := fun _ => True) fun _ _ => trivial) fun blk _ => ?_
  refine def_seq (R := fun _ => True) (P := fun _ => noCells) ?_ fun ⟨blk, V, XY⟩ _ => def_seq (def_quiet (R := fun _ => True) fun _ _ => trivial) fun B _ => def_pure0
  rw [shift_eq_move]
  refine def_move (def_smixT hr h0 hN he (has_pulled (hB.sub (by omega) (by omega))) (has_pulled (mB.sub (by omega) (by omega))) (has_pulled_other nofun mXY)
    (has_pulled_other nofun mV) (has_pulled_other nofun mx)) fun _ _ h => h

end Scrypt
