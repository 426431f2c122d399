import Verif.Proofs.AccessTr
/-
The helpers of the two mixing routines: the logged ones are the original ones, and what they access depends on the positions they are given, not on the data.
-/
namespace Scrypt
open Spec Logged

/-! ### Forgetting the log -/

theorem rdT_erase {α : Type} (a : Arr) (m : List α) (i : Nat) : erase (rdT a m i) = rd m i := erase_log _ _
theorem wrT_erase {α : Type} (a : Arr) (m : List α) (i : Nat) (v : α) : erase (wrT a m i v) = wr m i v := erase_log _ _
theorem rdSliceT_erase {α : Type} (a : Arr) (m : List α) (o n : Nat) : erase (rdSliceT a m o n) = rdSlice m o n := erase_log _ _
theorem wrSliceT_erase {α : Type} (a : Arr) (m : List α) (o : Nat) (s : List α) : erase (wrSliceT a m o s) = wrSlice m o s := erase_log _ _
theorem le32decT_erase (B : Bytes) (o : Nat) : erase (le32decT B o) = le32dec (B.drop o) := erase_log _ _
theorem ldT_erase (a : Arr) (m : List W32) (o i : Nat) : erase (SseSmix.ldT a m o i) = SseSmix.ld m o i := erase_log _ _
theorem stT_erase (a : Arr) (m : List W32) (o i : Nat) (v : V4) : erase (SseSmix.stT a m o i v) = SseSmix.st m o i v := erase_log _ _

theorem xorFromT_erase (da sa : Arr) (d : List W32) (dof : Nat) (s : List W32) (so n : Nat) : erase (xorFromT da sa d dof s so n) = xorFrom d dof s so n := by
  unfold xorFromT xorFrom
  simp only [erase_bind, erase_forLoopT, rdT_erase, wrT_erase]

theorem xorWithinT_erase (d : List W32) (dof so n : Nat) : erase (xorWithinT d dof so n) = xorWithin d dof so n := by
  unfold xorWithinT xorWithin
  simp only [erase_bind, erase_forLoopT, rdT_erase, wrT_erase]

theorem cpyFromT_erase (da sa : Arr) (d : List W32) (dof : Nat) (s : List W32) (so n : Nat) : erase (cpyFromT da sa d dof s so n) = cpyFrom d dof s so n := by
  unfold cpyFromT cpyFrom
  simp only [erase_bind, rdSliceT_erase, wrSliceT_erase]

theorem cpyWithinT_erase (d : List W32) (dof so n : Nat) : erase (cpyWithinT d dof so n) = cpyWithin d dof so n := by
  unfold cpyWithinT cpyWithin
  simp only [erase_bind, rdSliceT_erase, wrSliceT_erase]

theorem qstepT_erase (x : List W32) (d a b n : Nat) : erase (Smix.qstepT x d a b n) = Smix.qstep x d a b n := by
  unfold Smix.qstepT Smix.qstep
  simp only [erase_bind, rdT_erase, wrT_erase]

theorem colStepT_erase (x : List W32) : erase (Smix.colStepT x) = Smix.colStep x := by
  unfold Smix.colStepT Smix.colStep
  simp only [erase_bind, qstepT_erase]

theorem rowStepT_erase (x : List W32) : erase (Smix.rowStepT x) = Smix.rowStep x := by
  unfold Smix.rowStepT Smix.rowStep
  simp only [erase_bind, qstepT_erase]

theorem rounds8T_erase (x : List W32) : erase (Smix.rounds8T x) = Smix.rounds8 x := by
  unfold Smix.rounds8T Smix.rounds8
  simp only [erase_bind, erase_forLoopT, colStepT_erase, rowStepT_erase]

theorem wrSlice_self {α : Type} (x : List α) : wrSlice x 0 x = .ok x := by
  unfold wrSlice
  rw [if_pos (by omega), List.take_zero, List.nil_append, Nat.zero_add, List.drop_length, List.append_nil]

theorem gen_salsaT_erase (m : List W32) (o : Nat) : erase (Gen.salsa20_8T m o) = Gen.salsa20_8 m o := by
  unfold Gen.salsa20_8T Gen.salsa20_8
  simp only [erase_bind, erase_forLoopT, rdSliceT_erase, wrSliceT_erase, rounds8T_erase, wrSlice_self, Res.bind_ok, rdT_erase, wrT_erase]

theorem gen_blockmixT_erase (m : List W32) (bin bout z r : Nat) : erase (Gen.blockmixT m bin bout z r) = Gen.blockmix m bin bout z r := by
  unfold Gen.blockmixT Gen.blockmix
  simp only [erase_bind, erase_forLoopT, cpyWithinT_erase, xorWithinT_erase, gen_salsaT_erase]

theorem gen_integerifyT_erase (m : List W32) (o r : Nat) : erase (Gen.integerifyT m o r) = Gen.integerify m o r := by
  unfold Gen.integerifyT Gen.integerify
  simp only [erase_bind, rdT_erase, erase_pure, Res.pure_eq]

theorem blkcpyFromT_erase (da sa : Arr) (d : List W32) (dof : Nat) (s : List W32) (so n : Nat) :
    erase (SseSmix.blkcpyFromT da sa d dof s so n) = SseSmix.blkcpyFrom d dof s so n := by
  unfold SseSmix.blkcpyFromT SseSmix.blkcpyFrom
  simp only [erase_bind, erase_forLoopT, ldT_erase, stT_erase]

theorem blkcpyWithinT_erase (d : List W32) (dof so n : Nat) : erase (SseSmix.blkcpyWithinT d dof so n) = SseSmix.blkcpyWithin d dof so n := by
  unfold SseSmix.blkcpyWithinT SseSmix.blkcpyWithin
  simp only [erase_bind, erase_forLoopT, ldT_erase, stT_erase]

theorem blkxorFromT_erase (da sa : Arr) (d : List W32) (dof : Nat) (s : List W32) (so n : Nat) :
    erase (SseSmix.blkxorFromT da sa d dof s so n) = SseSmix.blkxorFrom d dof s so n := by
  unfold SseSmix.blkxorFromT SseSmix.blkxorFrom
  simp only [erase_bind, erase_forLoopT, ldT_erase, stT_erase]

theorem blkxorWithinT_erase (d : List W32) (dof so n : Nat) : erase (SseSmix.blkxorWithinT d dof so n) = SseSmix.blkxorWithin d dof so n := by
  unfold SseSmix.blkxorWithinT SseSmix.blkxorWithin
  simp only [erase_bind, erase_forLoopT, ldT_erase, stT_erase]

theorem sse_salsaT_erase (m : List W32) (o : Nat) : erase (SseSmix.salsa20_8T m o) = SseSmix.salsa20_8 m o := by
  unfold SseSmix.salsa20_8T SseSmix.salsa20_8
  simp only [erase_bind, ldT_erase, stT_erase]

theorem sse_blockmixT_erase (m : List W32) (bin bout z r : Nat) : erase (SseSmix.blockmixT m bin bout z r) = SseSmix.blockmix m bin bout z r := by
  unfold SseSmix.blockmixT SseSmix.blockmix
  simp only [erase_bind, erase_forLoopT, blkcpyWithinT_erase, blkxorWithinT_erase, sse_salsaT_erase]

theorem sse_integerifyT_erase (m : List W32) (o r : Nat) : erase (SseSmix.integerifyT m o r) = SseSmix.integerify m o r := by
  unfold SseSmix.integerifyT SseSmix.integerify
  simp only [erase_bind, ldT_erase, erase_pure, Res.pure_eq]

/-! ### What the helpers access -/

theorem rdT_tr {α : Type} (a : Arr) (m : List α) (i : Nat) : HasTr (rdT a m i) [⟨a, i, false⟩] := hasTr_log _ _
theorem wrT_tr {α : Type} (a : Arr) (m : List α) (i : Nat) (v : α) : HasTr (wrT a m i v) [⟨a, i, true⟩] := hasTr_log _ _
theorem rdSliceT_tr {α : Type} (a : Arr) (m : List α) (o n : Nat) : HasTr (rdSliceT a m o n) (accs a false o n) := hasTr_log _ _
theorem wrSliceT_tr {α : Type} (a : Arr) (m : List α) (o : Nat) (s : List α) {n : Nat} (h : s.length = n) : HasTr (wrSliceT a m o s) (accs a true o n) := by
  subst h; exact hasTr_log _ _
theorem le32decT_tr (B : Bytes) (o : Nat) : HasTr (le32decT B o) (accs .B false o 4) := hasTr_log _ _
theorem ldT_tr (a : Arr) (m : List W32) (o i : Nat) : HasTr (SseSmix.ldT a m o i) (accs a false (o + 4 * i) 4) := hasTr_log _ _
theorem stT_tr (a : Arr) (m : List W32) (o i : Nat) (v : V4) : HasTr (SseSmix.stT a m o i v) (accs a true (o + 4 * i) 4) := hasTr_log _ _

theorem rdSlice_length {α : Type} {m s : List α} {o n : Nat} (h : rdSlice m o n = .ok s) : s.length = n := by
  unfold rdSlice at h
  split at h
  · rename_i hl
    rw [← Res.ok.inj h, List.length_take, List.length_drop]
    omega
  · cases h

theorem xorFromT_tr (da sa : Arr) (d : List W32) (dof : Nat) (s : List W32) (so n : Nat) :
    HasTr (xorFromT da sa d dof s so n)
      ((List.range n).flatMap fun i => [⟨da, dof + i, false⟩] ++ ([⟨sa, so + i, false⟩] ++ [⟨da, dof + i, true⟩])) := by
  unfold xorFromT
  refine hasTr_forLoop (fun d i => ?_) d _
  refine hasTr_bind (rdT_tr _ _ _) fun _ => ?_
  refine hasTr_bind (rdT_tr _ _ _) fun _ => ?_
  exact wrT_tr _ _ _ _

theorem xorWithinT_tr (d : List W32) (dof so n : Nat) :
    HasTr (xorWithinT d dof so n)
      ((List.range n).flatMap fun i => [⟨.XY, dof + i, false⟩] ++ ([⟨.XY, so + i, false⟩] ++ [⟨.XY, dof + i, true⟩])) := by
  unfold xorWithinT
  refine hasTr_forLoop (fun d i => ?_) d _
  refine hasTr_bind (rdT_tr _ _ _) fun _ => ?_
  refine hasTr_bind (rdT_tr _ _ _) fun _ => ?_
  exact wrT_tr _ _ _ _

theorem cpyFromT_tr (da sa : Arr) (d : List W32) (dof : Nat) (s : List W32) (so n : Nat) :
    HasTr (cpyFromT da sa d dof s so n) (accs sa false so n ++ accs da true dof n) :=
  hasTr_bind' (rdSliceT_tr _ _ _ _) fun _ h => wrSliceT_tr _ _ _ _ (rdSlice_length ((rdSliceT_erase _ _ _ _).symm.trans h))

theorem cpyWithinT_tr (d : List W32) (dof so n : Nat) :
    HasTr (cpyWithinT d dof so n) (accs .XY false so n ++ accs .XY true dof n) :=
  hasTr_bind' (rdSliceT_tr _ _ _ _) fun _ h => wrSliceT_tr _ _ _ _ (rdSlice_length ((rdSliceT_erase _ _ _ _).symm.trans h))

theorem qstepT_tr (x : List W32) (d a b n : Nat) :
    HasTr (Smix.qstepT x d a b n) ([⟨.x, a, false⟩] ++ ([⟨.x, b, false⟩] ++ ([⟨.x, d, false⟩] ++ [⟨.x, d, true⟩]))) :=
  hasTr_bind (rdT_tr _ _ _) fun _ => hasTr_bind (rdT_tr _ _ _) fun _ => hasTr_bind (rdT_tr _ _ _) fun _ => wrT_tr _ _ _ _

theorem colStepT_tr : ∃ t, onV t = [] ∧ ∀ x, HasTr (Smix.colStepT x) t := by
  apply Exists.intro
  apply And.intro
  rotate_left
  · intro x
    unfold Smix.colStepT
    iterate 15 apply hasTr_bind (qstepT_tr _ _ _ _ _); intro _
    exact qstepT_tr _ _ _ _ _
  · rfl

theorem rowStepT_tr : ∃ t, onV t = [] ∧ ∀ x, HasTr (Smix.rowStepT x) t := by
  apply Exists.intro
  apply And.intro
  rotate_left
  · intro x
    unfold Smix.rowStepT
    iterate 15 apply hasTr_bind (qstepT_tr _ _ _ _ _); intro _
    exact qstepT_tr _ _ _ _ _
  · rfl

theorem rounds8T_tr : ∃ t, onV t = [] ∧ ∀ x, HasTr (Smix.rounds8T x) t := by
  obtain ⟨tc, vc, hc⟩ := colStepT_tr
  obtain ⟨tr, vr, hr⟩ := rowStepT_tr
  refine ⟨(List.range 4).flatMap fun _ => tc ++ tr, ?_, fun x => ?_⟩
  · rw [onV_flatMap]
    simp only [onV_append, vc, vr, List.append_nil, flatMap_nil_of]
  · unfold Smix.rounds8T
    refine hasTr_forLoop (fun x _ => ?_) x 4
    exact hasTr_bind (hc x) fun x => hr x

theorem gen_salsaT_tr : ∃ t : Nat → List Acc, (∀ o, onV (t o) = []) ∧ ∀ m o, HasTr (Gen.salsa20_8T m o) (t o) := by
  obtain ⟨tr, vr, hr⟩ := rounds8T_tr
  refine ⟨fun o => accs .XY false o 16 ++ (accs .x true 0 16 ++ (tr ++
    (List.range 16).flatMap fun i => [⟨.XY, o + i, false⟩] ++ ([⟨.x, i, false⟩] ++ [⟨.XY, o + i, true⟩]))), fun o => ?_, fun m o => ?_⟩
  · simp only [onV_append, vr, onV_accs_XY, onV_accs_x, onV_flatMap, onV_cons, onV_nil, List.append_nil, List.nil_append, reduceCtorEq, if_false, flatMap_nil_of]
  · unfold Gen.salsa20_8T
    refine hasTr_bind' (rdSliceT_tr _ _ _ _) fun x h => ?_
    refine hasTr_bind (wrSliceT_tr _ _ _ _ (rdSlice_length ((rdSliceT_erase _ _ _ _).symm.trans h))) fun x => ?_
    refine hasTr_bind (hr x) fun x => ?_
    refine hasTr_forLoop (fun m i => ?_) m 16
    refine hasTr_bind (rdT_tr _ _ _) fun _ => ?_
    refine hasTr_bind (rdT_tr _ _ _) fun _ => ?_
    exact wrT_tr _ _ _ _

theorem gen_blockmixT_tr : ∃ t : Nat → Nat → Nat → Nat → List Acc, (∀ bin bout z r, onV (t bin bout z r) = []) ∧
    ∀ m bin bout z r, HasTr (Gen.blockmixT m bin bout z r) (t bin bout z r) := by
  obtain ⟨ts, vs, hs⟩ := gen_salsaT_tr
  apply Exists.intro
  apply And.intro
  rotate_left
  · intro m bin bout z r
    unfold Gen.blockmixT
    apply hasTr_bind (cpyWithinT_tr _ _ _ _)
    intro m
    apply hasTr_forLoop
    intro m k
    apply hasTr_bind (xorWithinT_tr _ _ _ _)
    intro m
    apply hasTr_bind (hs _ _)
    intro m
    apply hasTr_bind (cpyWithinT_tr _ _ _ _)
    intro m
    apply hasTr_bind (xorWithinT_tr _ _ _ _)
    intro m
    apply hasTr_bind (hs _ _)
    intro m
    exact cpyWithinT_tr _ _ _ _
  · intro bin bout z r
    simp only [onV_append, vs, onV_accs_XY, onV_flatMap, onV_cons, onV_nil, List.append_nil, reduceCtorEq, if_false, flatMap_nil_of]

theorem gen_integerifyT_tr (m : List W32) (o r : Nat) :
    HasTr (Gen.integerifyT m o r) ([⟨.XY, o + (2 * r - 1) * 16 + 1, false⟩] ++ ([⟨.XY, o + (2 * r - 1) * 16 + 0, false⟩] ++ [])) :=
  hasTr_bind (rdT_tr _ _ _) fun _ => hasTr_bind (rdT_tr _ _ _) fun _ => hasTr_pure _

theorem blkcpyFromT_tr (da sa : Arr) (d : List W32) (dof : Nat) (s : List W32) (so n : Nat) :
    HasTr (SseSmix.blkcpyFromT da sa d dof s so n) ((List.range (n / 4)).flatMap fun i => accs sa false (so + 4 * i) 4 ++ accs da true (dof + 4 * i) 4) := by
  unfold SseSmix.blkcpyFromT
  refine hasTr_forLoop (fun d i => ?_) d _
  refine hasTr_bind (ldT_tr _ _ _ _) fun _ => ?_
  exact stT_tr _ _ _ _ _

theorem blkcpyWithinT_tr (d : List W32) (dof so n : Nat) :
    HasTr (SseSmix.blkcpyWithinT d dof so n) ((List.range (n / 4)).flatMap fun i => accs .XY false (so + 4 * i) 4 ++ accs .XY true (dof + 4 * i) 4) := by
  unfold SseSmix.blkcpyWithinT
  refine hasTr_forLoop (fun d i => ?_) d _
  refine hasTr_bind (ldT_tr _ _ _ _) fun _ => ?_
  exact stT_tr _ _ _ _ _

theorem blkxorFromT_tr (da sa : Arr) (d : List W32) (dof : Nat) (s : List W32) (so n : Nat) :
    HasTr (SseSmix.blkxorFromT da sa d dof s so n)
      ((List.range (n / 4)).flatMap fun i => accs da false (dof + 4 * i) 4 ++ (accs sa false (so + 4 * i) 4 ++ accs da true (dof + 4 * i) 4)) := by
  unfold SseSmix.blkxorFromT
  refine hasTr_forLoop (fun d i => ?_) d _
  refine hasTr_bind (ldT_tr _ _ _ _) fun _ => ?_
  refine hasTr_bind (ldT_tr _ _ _ _) fun _ => ?_
  exact stT_tr _ _ _ _ _

theorem blkxorWithinT_tr (d : List W32) (dof so n : Nat) :
    HasTr (SseSmix.blkxorWithinT d dof so n)
      ((List.range (n / 4)).flatMap fun i => accs .XY false (dof + 4 * i) 4 ++ (accs .XY false (so + 4 * i) 4 ++ accs .XY true (dof + 4 * i) 4)) := by
  unfold SseSmix.blkxorWithinT
  refine hasTr_forLoop (fun d i => ?_) d _
  refine hasTr_bind (ldT_tr _ _ _ _) fun _ => ?_
  refine hasTr_bind (ldT_tr _ _ _ _) fun _ => ?_
  exact stT_tr _ _ _ _ _

theorem sse_salsaT_tr : ∃ t : Nat → List Acc, (∀ o, onV (t o) = []) ∧ ∀ m o, HasTr (SseSmix.salsa20_8T m o) (t o) := by
  apply Exists.intro
  apply And.intro
  rotate_left
  · intro m o
    unfold SseSmix.salsa20_8T
    apply hasTr_bind (ldT_tr _ _ _ _)
    intro _
    apply hasTr_bind (ldT_tr _ _ _ _)
    intro _
    apply hasTr_bind (ldT_tr _ _ _ _)
    intro _
    apply hasTr_bind (ldT_tr _ _ _ _)
    intro _
    apply hasTr_bind (ldT_tr _ _ _ _)
    intro _
    apply hasTr_bind (stT_tr _ _ _ _ _)
    intro _
    apply hasTr_bind (ldT_tr _ _ _ _)
    intro _
    apply hasTr_bind (stT_tr _ _ _ _ _)
    intro _
    apply hasTr_bind (ldT_tr _ _ _ _)
    intro _
    apply hasTr_bind (stT_tr _ _ _ _ _)
    intro _
    apply hasTr_bind (ldT_tr _ _ _ _)
    intro _
    exact stT_tr _ _ _ _ _
  · intro o
    simp only [onV_append, onV_accs_XY, List.append_nil]

theorem sse_blockmixT_tr : ∃ t : Nat → Nat → Nat → Nat → List Acc, (∀ bin bout z r, onV (t bin bout z r) = []) ∧
    ∀ m bin bout z r, HasTr (SseSmix.blockmixT m bin bout z r) (t bin bout z r) := by
  obtain ⟨ts, vs, hs⟩ := sse_salsaT_tr
  apply Exists.intro
  apply And.intro
  rotate_left
  · intro m bin bout z r
    unfold SseSmix.blockmixT
    apply hasTr_bind (blkcpyWithinT_tr _ _ _ _)
    intro m
    apply hasTr_forLoop
    intro m k
    apply hasTr_bind (blkxorWithinT_tr _ _ _ _)
    intro m
    apply hasTr_bind (hs _ _)
    intro m
    apply hasTr_bind (blkcpyWithinT_tr _ _ _ _)
    intro m
    apply hasTr_bind (blkxorWithinT_tr _ _ _ _)
    intro m
    apply hasTr_bind (hs _ _)
    intro m
    exact blkcpyWithinT_tr _ _ _ _
  · intro bin bout z r
    simp only [onV_append, vs, onV_accs_XY, onV_flatMap, onV_cons, onV_nil, List.append_nil, reduceCtorEq, if_false, flatMap_nil_of]

theorem sse_integerifyT_tr (m : List W32) (o r : Nat) :
    HasTr (SseSmix.integerifyT m o r) (accs .XY false (o + 4 * ((2 * r - 1) * 4) + 4 * 0) 4 ++ (accs .XY false (o + 4 * ((2 * r - 1) * 4) + 4 * 3) 4 ++ [])) :=
  hasTr_bind (ldT_tr _ _ _ _) fun _ => hasTr_bind (ldT_tr _ _ _ _) fun _ => hasTr_pure _

/-- What the two loops need to know about the accesses of an implementation. -/
structure OpsTSpec (opsT : Smix.OpsT) (ops : Smix.Ops) (cp xo : Nat → Nat → Nat → List Acc) (bm : Nat → Nat → Nat → Nat → List Acc)
    (ig : Nat → Nat → List Acc) : Prop where
  eCpy : ∀ V voff XY xoff n, erase (opsT.cpyToV V voff XY xoff n) = ops.cpyToV V voff XY xoff n
  eXor : ∀ XY xoff V voff n, erase (opsT.xorV XY xoff V voff n) = ops.xorV XY xoff V voff n
  eBm : ∀ XY bin bout z r, erase (opsT.blockmix XY bin bout z r) = ops.blockmix XY bin bout z r
  eIg : ∀ XY off r, erase (opsT.integerify XY off r) = ops.integerify XY off r
  tCpy : ∀ V voff XY xoff n, HasTr (opsT.cpyToV V voff XY xoff n) (cp voff xoff n)
  tXor : ∀ XY xoff V voff n, HasTr (opsT.xorV XY xoff V voff n) (xo xoff voff n)
  tBm : ∀ XY bin bout z r, HasTr (opsT.blockmix XY bin bout z r) (bm bin bout z r)
  tIg : ∀ XY off r, HasTr (opsT.integerify XY off r) (ig off r)
  vCpy : ∀ voff xoff n, n % 4 = 0 → onV (cp voff xoff n) = accs .V true voff n
  vXor : ∀ xoff voff n, n % 4 = 0 → onV (xo xoff voff n) = accs .V false voff n
  vBm : ∀ bin bout z r, onV (bm bin bout z r) = []
  vIg : ∀ off r, onV (ig off r) = []

theorem gen_opsT_spec : ∃ cp xo bm ig, OpsTSpec Gen.opsT Gen.ops cp xo bm ig := by
  obtain ⟨tb, vb, hb⟩ := gen_blockmixT_tr
  refine ⟨_, _, tb, _, ⟨fun _ _ _ _ _ => cpyFromT_erase _ _ _ _ _ _ _, fun _ _ _ _ _ => xorFromT_erase _ _ _ _ _ _ _, gen_blockmixT_erase, gen_integerifyT_erase,
    fun V voff XY xoff n => cpyFromT_tr .V .XY V voff XY xoff n, fun XY xoff V voff n => xorFromT_tr .XY .V XY xoff V voff n, hb, gen_integerifyT_tr, ?_, ?_, vb, ?_⟩⟩
  · intro voff xoff n _
    simp only [onV_append, onV_accs_XY, onV_accs, List.nil_append]
  · intro xoff voff n _
    simp only [onV_flatMap, onV_append, onV_cons, onV_nil, List.append_nil, List.nil_append, reduceCtorEq, if_false, if_true, accs_singles]
  · intro off r
    rfl

theorem sse_opsT_spec : ∃ cp xo bm ig, OpsTSpec SseSmix.opsT SseSmix.ops cp xo bm ig := by
  obtain ⟨tb, vb, hb⟩ := sse_blockmixT_tr
  refine ⟨_, _, tb, _, ⟨fun _ _ _ _ _ => blkcpyFromT_erase _ _ _ _ _ _ _, fun _ _ _ _ _ => blkxorFromT_erase _ _ _ _ _ _ _, sse_blockmixT_erase,
    sse_integerifyT_erase, fun V voff XY xoff n => blkcpyFromT_tr .V .XY V voff XY xoff n, fun XY xoff V voff n => blkxorFromT_tr .XY .V XY xoff V voff n, hb,
    sse_integerifyT_tr, ?_, ?_, vb, ?_⟩⟩
  · intro voff xoff n h
    simp only [onV_flatMap, onV_append, onV_accs_XY, onV_accs, List.nil_append]
    exact accs_fours' _ _ _ _ h
  · intro xoff voff n h
    simp only [onV_flatMap, onV_append, onV_accs_XY, onV_accs, List.nil_append, List.append_nil]
    exact accs_fours' _ _ _ _ h
  · intro off r
    simp only [onV_append, onV_accs_XY, onV_nil, List.append_nil]

end Scrypt
