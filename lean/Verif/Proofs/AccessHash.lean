import Verif.Model.AccessHash
import Verif.Proofs.AccessOps
/-
The hashing with a log: forgetting the log gives the original, and two computations on data of the same lengths make the same accesses.
-/
namespace Scrypt
open Spec Logged

/-! ### Forgetting the log -/

theorem erase_ite {α : Type} (c : Prop) [Decidable c] (x y : Logged α) : erase (if c then x else y) = if c then erase x else erase y := by split <;> rfl

theorem be32enc_vectT_erase (da sa : Arr) (src : List W32) (len : Nat) : erase (be32enc_vectT da sa src len) = be32enc_vect src len := by
  unfold be32enc_vectT be32enc_vect
  simp only [erase_bind, erase_forLoopT, erase_log, rdT_erase, Res.pure_eq]

theorem be32dec_vectT_erase (da sa : Arr) (so : Nat) (dst : List W32) (src : Bytes) (len : Nat) :
    erase (be32dec_vectT da sa so dst src len) = be32dec_vect dst src len := by
  unfold be32dec_vectT be32dec_vect
  simp only [erase_bind, erase_forLoopT, erase_log, wrT_erase]

theorem RNDrT_erase (Kt S W : List W32) (i ii : Nat) : erase (CSha.RNDrT Kt S W i ii) = CSha.RNDr Kt S W i ii := by
  unfold CSha.RNDrT CSha.RNDr
  simp only [erase_bind, rdT_erase, wrT_erase]

theorem MSCHT_erase (W : List W32) (ii i : Nat) : erase (CSha.MSCHT W ii i) = CSha.MSCH W ii i := by
  unfold CSha.MSCHT CSha.MSCH
  simp only [erase_bind, rdT_erase, wrT_erase]

theorem mixStepT_erase (st : List W32 × List W32) (q : Nat) : erase (CSha.mixStepT st q) = CSha.mixStep st q := by
  unfold CSha.mixStepT CSha.mixStep
  simp only [erase_bind, erase_forLoopT, erase_ite, RNDrT_erase, MSCHT_erase, erase_pure, Res.pure_eq]

theorem addStateT_erase (sa : Arr) (S state : List W32) : erase (addStateT sa S state) = forLoop 8 (fun state i => do
    let x ← rd state i
    let y ← rd S i
    wr state i (x + y)) state := by
  unfold addStateT
  simp only [erase_bind, erase_forLoopT, rdT_erase, wrT_erase]

theorem swT_erase (sa ba : Arr) (bo : Nat) (state : List W32) (block : Bytes) (W S : List W32) :
    erase (SHA256_Transform_swT sa ba bo state block W S) = SHA256_Transform_sw state block W S := by
  unfold SHA256_Transform_swT SHA256_Transform_sw
  simp only [erase_bind, erase_forLoopT, be32dec_vectT_erase, rdSliceT_erase, wrSliceT_erase, mixStepT_erase, addStateT_erase, erase_pure, Res.pure_eq]

theorem ldBlockT_erase (ba : Arr) (bo : Nat) (block : Bytes) (o : Nat) : erase (ldBlockT ba bo block o) = mm_loadu_bytes (block.drop o) := erase_log _ _
theorem ldWordsT_erase (a : Arr) (m : List W32) (o : Nat) : erase (ldWordsT a m o) = mm_loadu_words m o := erase_log _ _
theorem stWordsT_erase (a : Arr) (m : List W32) (o : Nat) (v : V4) : erase (stWordsT a m o v) = mm_storeu_words m o v := erase_log _ _

theorem sse2_mixStepT_erase (st : List W32 × List W32 × Sse2.Y4) (q : Nat) : erase (Sse2.mixStepT st q) = Sse2.mixStep st q := by
  unfold Sse2.mixStepT Sse2.mixStep
  simp only [erase_bind, erase_forLoopT, erase_ite, RNDrT_erase, stWordsT_erase, erase_pure, Res.pure_eq]

theorem sse2T_erase (sa ba : Arr) (bo : Nat) (state : List W32) (block : Bytes) (W S : List W32) :
    erase (SHA256_Transform_sse2T sa ba bo state block W S) = SHA256_Transform_sse2 state block W S := by
  unfold SHA256_Transform_sse2T SHA256_Transform_sse2
  simp only [erase_bind, erase_forLoopT, ldBlockT_erase, stWordsT_erase, rdSliceT_erase, wrSliceT_erase, sse2_mixStepT_erase, addStateT_erase, erase_pure,
    Res.pure_eq]

theorem be32dec_128T_erase (ba : Arr) (bo : Nat) (block : Bytes) (o : Nat) : erase (Shani.be32dec_128T ba bo block o) = Shani.be32dec_128 (block.drop o) := by
  unfold Shani.be32dec_128T Shani.be32dec_128
  simp only [erase_bind, ldBlockT_erase, erase_pure, Res.pure_eq]

theorem shani_MSG4T_erase (W : List V4) (i : Nat) : erase (Shani.MSG4T W i) = Shani.MSG4 W i := by
  unfold Shani.MSG4T Shani.MSG4
  simp only [erase_bind, rdT_erase, wrT_erase]

theorem RNDMSGT_erase (st : (V4 × V4) × List V4) (i : Nat) (K0 K1 K2 K3 : W32) : erase (Shani.RNDMSGT st i K0 K1 K2 K3) = Shani.RNDMSG st i K0 K1 K2 K3 := by
  unfold Shani.RNDMSGT Shani.RNDMSG
  simp only [erase_bind, erase_ite, rdT_erase, shani_MSG4T_erase, erase_pure, Res.pure_eq]

theorem rounds16T_erase (st : (V4 × V4) × List V4) : erase (Shani.rounds16T st) = Shani.rounds16 st := by
  unfold Shani.rounds16T Shani.rounds16
  simp only [erase_bind, RNDMSGT_erase]

theorem shaniT_erase (sa ba : Arr) (bo : Nat) (state : List W32) (block : Bytes) :
    erase (SHA256_Transform_shaniT sa ba bo state block) = SHA256_Transform_shani state block := by
  unfold SHA256_Transform_shaniT SHA256_Transform_shani
  simp only [erase_bind, ldWordsT_erase, stWordsT_erase, be32dec_128T_erase, rounds16T_erase, erase_log, Res.bind_ok]

theorem arm_RND4T_erase (S : V4 × V4) (M : V4) (k : Nat) : erase (Arm.RND4T S M k) = Arm.RND4 S M k := by
  unfold Arm.RND4T Arm.RND4
  simp only [erase_bind, ldWordsT_erase, erase_pure, Res.pure_eq]

theorem arm_mixStepT_erase (st : (V4 × V4) × Sse2.Y4) (q : Nat) : erase (Arm.mixStepT st q) = Arm.mixStep st q := by
  unfold Arm.mixStepT Arm.mixStep
  simp only [erase_bind, erase_ite, arm_RND4T_erase, erase_pure, Res.pure_eq]

theorem armT_erase (sa ba : Arr) (bo : Nat) (state : List W32) (block : Bytes) :
    erase (SHA256_Transform_armT sa ba bo state block) = SHA256_Transform_arm state block := by
  unfold SHA256_Transform_armT SHA256_Transform_arm
  simp only [erase_bind, erase_forLoopT, ldBlockT_erase, ldWordsT_erase, stWordsT_erase, arm_mixStepT_erase]

theorem shaTransformT_erase (hw : ShaHw) (sa ba : Arr) (bo : Nat) (state : List W32) (block : Bytes) :
    erase (shaTransformT hw sa ba bo state block) = shaTransform hw state block := by
  cases hw with
  | software =>
    show erase (SHA256_Transform_swT _ _ _ _ _ _ _ >>= _) = swTransform state block
    unfold swTransform
    simp only [erase_bind, swT_erase, erase_pure, Res.pure_eq]
  | x86_shani => exact shaniT_erase _ _ _ _ _
  | x86_sse2 =>
    show erase (SHA256_Transform_sse2T _ _ _ _ _ _ _ >>= _) = (SHA256_Transform_sse2 _ _ _ _ >>= _)
    simp only [erase_bind, sse2T_erase, erase_pure, Res.pure_eq]
  | arm_sha256 => exact armT_erase _ _ _ _ _

theorem res_bind_id {α : Type} (x : Res α) : (x >>= fun a => (.ok a : Res α)) = x := by cases x <;> rfl

/-- The logging block function is the block function. -/
def TfErases (tf : TransformT) (tf0 : Transform) : Prop := ∀ sa ba bo state block, erase (tf sa ba bo state block) = tf0 state block

section
variable {tf : TransformT} {tf0 : Transform} (htf : TfErases tf tf0)
include htf

theorem PadT_erase (cx : HCtx) (ctx : SHA256_CTX) : erase (SHA256_PadT tf cx ctx) = SHA256_Pad tf0 ctx := by
  unfold SHA256_PadT SHA256_Pad countT
  simp only [erase_bind, erase_ite, erase_log, rdSliceT_erase, wrSliceT_erase, htf _, erase_pure, Res.pure_eq, Res.bind_ok]

omit htf in
theorem InitT_erase (cx : HCtx) (ctx : SHA256_CTX) : erase (SHA256_InitT cx ctx) = .ok (SHA256_Init ctx) := by
  unfold SHA256_InitT countT
  simp only [erase_bind, erase_log, Res.bind_ok]

theorem updLoopT_erase (cx : HCtx) (ia : Arr) : ∀ (fuel off : Nat) (state : List W32) (src : Bytes),
    (erase (updLoopT tf cx ia fuel off state src) >>= fun x => (.ok (x.1, x.2.1) : Res _)) = updLoop tf0 fuel state src
  | 0, off, state, src => rfl
  | fuel + 1, off, state, src => by
    unfold updLoopT updLoop
    split
    · simp only [erase_bind, htf _, bind_assoc, updLoopT_erase cx ia fuel]
    · rfl

theorem UpdateT_erase (cx : HCtx) (ia : Arr) (ctx : SHA256_CTX) (src : Bytes) : erase (SHA256_UpdateT tf cx ia ctx src) = SHA256_Update tf0 ctx src := by
  unfold SHA256_UpdateT SHA256_Update countT copyInT
  simp only [erase_bind, erase_ite, erase_log, htf _, erase_pure, Res.pure_eq, Res.bind_ok, ← updLoopT_erase htf cx ia _ (64 - ctx.r), bind_assoc]

theorem FinalT_erase (cx : HCtx) (da : Arr) (ctx : SHA256_CTX) : erase (SHA256_Final_internalT tf cx da ctx) = SHA256_Final_internal tf0 ctx := by
  unfold SHA256_Final_internalT SHA256_Final_internal
  simp only [erase_bind, PadT_erase htf, be32enc_vectT_erase, erase_pure, Res.pure_eq]

omit htf in
theorem hmacPadT_erase (ka : Arr) (v : Byte) (K : Bytes) : erase (hmacPadT ka v K) = hmacPad v K := by
  unfold hmacPadT hmacPad
  simp only [erase_bind, erase_forLoopT, wrSliceT_erase, wrSlice_self, Res.bind_ok, rdT_erase, wrT_erase]

theorem HInitT_erase (o : HOwner) (ka : Arr) (ctx : HMAC_SHA256_CTX) (K : Bytes) : erase (HMAC_SHA256_InitT tf o ka ctx K) = HMAC_SHA256_Init tf0 ctx K := by
  unfold HMAC_SHA256_InitT HMAC_SHA256_Init
  simp only [erase_bind, erase_ite, InitT_erase, UpdateT_erase htf, FinalT_erase htf, hmacPadT_erase, erase_pure, Res.pure_eq, Res.bind_ok]
  split
  · simp only [bind_assoc, Res.bind_ok]
  · simp only [Res.bind_ok]

theorem HUpdateT_erase (o : HOwner) (ia : Arr) (ctx : HMAC_SHA256_CTX) (src : Bytes) :
    erase (HMAC_SHA256_UpdateT tf o ia ctx src) = HMAC_SHA256_Update tf0 ctx src := by
  unfold HMAC_SHA256_UpdateT HMAC_SHA256_Update
  simp only [erase_bind, UpdateT_erase htf, erase_pure, Res.pure_eq]

theorem HFinalT_erase (o : HOwner) (da : Arr) (ctx : HMAC_SHA256_CTX) :
    erase (HMAC_SHA256_Final_internalT tf o da ctx) = HMAC_SHA256_Final_internal tf0 ctx := by
  unfold HMAC_SHA256_Final_internalT HMAC_SHA256_Final_internal
  simp only [erase_bind, UpdateT_erase htf, FinalT_erase htf, erase_pure, Res.pure_eq]

theorem InnerT_erase (Phctx : HMAC_SHA256_CTX) (n : Nat) (U T : Bytes) : erase (pbkdf2InnerT tf Phctx n U T) = pbkdf2Inner tf0 Phctx n U T := by
  unfold pbkdf2InnerT pbkdf2Inner copyCtxT
  simp only [erase_bind, erase_forLoopT, erase_log, HUpdateT_erase htf, HFinalT_erase htf, rdT_erase, wrT_erase, erase_pure, Res.pure_eq, Res.bind_ok]

theorem PBKDF2T_erase (pa sa oa : Arr) (junk : HMAC_SHA256_CTX) (passwd salt : Bytes) (c : Nat) (buf : Bytes) (dkLen : Nat) :
    erase (PBKDF2_SHA256T tf pa sa oa junk passwd salt c buf dkLen) = PBKDF2_SHA256 tf0 junk passwd salt c buf dkLen := by
  unfold PBKDF2_SHA256T PBKDF2_SHA256 copyCtxT
  simp only [erase_bind, erase_forLoopT, erase_log, HInitT_erase htf, HUpdateT_erase htf, HFinalT_erase htf, InnerT_erase htf, wrSliceT_erase, rdSliceT_erase,
    wrSlice_self, erase_pure, Res.pure_eq, Res.bind_ok, res_bind_id]

end

/-! ### Two computations on data of the same lengths -/

/-- If both return, they have made the same accesses, and their results are related by `R`. -/
def SameTr {α β : Type} (R : α → β → Prop) (x : Logged α) (y : Logged β) : Prop := ∀ a u b v, x = Res.ok (a, u) → y = Res.ok (b, v) → u = v ∧ R a b

theorem same_pure {α β : Type} {R : α → β → Prop} {a : α} {b : β} (h : R a b) : SameTr R (pure a : Logged α) (pure b : Logged β) := by
  intro c u d v e1 e2
  obtain ⟨h1, h2⟩ := Prod.mk.inj (Res.ok.inj e1)
  obtain ⟨h3, h4⟩ := Prod.mk.inj (Res.ok.inj e2)
  subst h1 h2 h3 h4
  exact ⟨rfl, h⟩

theorem same_log {α β : Type} {R : α → β → Prop} {x : Res α} {y : Res β} {t u : List Acc} (e : t = u) (h : ∀ a b, x = .ok a → y = .ok b → R a b) :
    SameTr R (log t x) (log u y) := by
  intro a v b w e1 e2
  cases x with
  | ok c =>
    cases y with
    | ok d =>
      obtain ⟨h1, h2⟩ := Prod.mk.inj (Res.ok.inj e1)
      obtain ⟨h3, h4⟩ := Prod.mk.inj (Res.ok.inj e2)
      subst h1 h2 h3 h4
      exact ⟨e, h _ _ rfl rfl⟩
    | ub => cases e2
    | abort => cases e2
  | ub => cases e1
  | abort => cases e1

theorem same_bind {α β γ δ : Type} {R : α → β → Prop} {Q : γ → δ → Prop} {x : Logged α} {y : Logged β} {f : α → Logged γ} {g : β → Logged δ} (hx : SameTr R x y)
    (hf : ∀ a b, R a b → SameTr Q (f a) (g b)) : SameTr Q (x >>= f) (y >>= g) := by
  intro a u b v e1 e2
  obtain ⟨c, i, j, h1, h2, rfl⟩ := tr_bind_inv e1
  obtain ⟨d, k, l, h3, h4, rfl⟩ := tr_bind_inv e2
  obtain ⟨rfl, r⟩ := hx c i d k h1 h3
  obtain ⟨rfl, q⟩ := hf c d r a j b l h2 h4
  exact ⟨rfl, q⟩

theorem same_forLoop {σ τ : Type} {R : σ → τ → Prop} {f : σ → Nat → Logged σ} {g : τ → Nat → Logged τ} (hf : ∀ s t i, R s t → SameTr R (f s i) (g t i))
    {s : σ} {t : τ} (h : R s t) : ∀ n, SameTr R (forLoopT n f s) (forLoopT n g t)
  | 0 => same_pure h
  | n + 1 => same_bind (same_forLoop hf h n) fun a b r => hf a b n r

theorem SameTr.mono {α β : Type} {R Q : α → β → Prop} {x : Logged α} {y : Logged β} (h : SameTr R x y) (m : ∀ a b, R a b → Q a b) : SameTr Q x y :=
  fun a u b v e1 e2 => ⟨(h a u b v e1 e2).1, m a b (h a u b v e1 e2).2⟩

/-- Anything about the results. -/
def Anyhow {α β : Type} : α → β → Prop := fun _ _ => True
/-- Data of the same length. -/
def SameLen {α β : Type} : List α → List β → Prop := fun a b => a.length = b.length

theorem same_rdT {α β : Type} (a : Arr) (m : List α) (m' : List β) (i : Nat) : SameTr Anyhow (rdT a m i) (rdT a m' i) := same_log rfl fun _ _ _ _ => trivial
theorem same_wrT {α β : Type} (a : Arr) (m : List α) (m' : List β) (i : Nat) (v : α) (v' : β) : SameTr Anyhow (wrT a m i v) (wrT a m' i v') :=
  same_log rfl fun _ _ _ _ => trivial
theorem wr_length {α : Type} {m m' : List α} {i : Nat} {v : α} (h : wr m i v = .ok m') : m'.length = m.length := by
  unfold wr at h
  split at h
  · rw [← Res.ok.inj h, List.length_set]
  · cases h
theorem same_wrT' {α β : Type} (a : Arr) (m : List α) (m' : List β) (i : Nat) (v : α) (v' : β) (h : SameLen m m') : SameTr SameLen (wrT a m i v) (wrT a m' i v') :=
  same_log rfl fun _ _ e e' => by unfold SameLen; rw [wr_length e, wr_length e']; exact h
theorem same_rdSliceT {α β : Type} (a : Arr) (m : List α) (m' : List β) (o n : Nat) : SameTr SameLen (rdSliceT a m o n) (rdSliceT a m' o n) :=
  same_log rfl fun _ _ e e' => by unfold SameLen; rw [rdSlice_length e, rdSlice_length e']
theorem same_wrSliceT {α β : Type} (a : Arr) (m : List α) (m' : List β) (o : Nat) (s : List α) (s' : List β) (h : SameLen s s') :
    SameTr Anyhow (wrSliceT a m o s) (wrSliceT a m' o s') := same_log (by rw [show s.length = s'.length from h]) fun _ _ _ _ => trivial
theorem same_ldBlockT (a : Arr) (bo : Nat) (b b' : Bytes) (o : Nat) : SameTr Anyhow (ldBlockT a bo b o) (ldBlockT a bo b' o) := same_log rfl fun _ _ _ _ => trivial
theorem same_ldWordsT (a : Arr) (m m' : List W32) (o : Nat) : SameTr Anyhow (ldWordsT a m o) (ldWordsT a m' o) := same_log rfl fun _ _ _ _ => trivial
theorem same_stWordsT (a : Arr) (m m' : List W32) (o : Nat) (v v' : V4) : SameTr Anyhow (stWordsT a m o v) (stWordsT a m' o v') := same_log rfl fun _ _ _ _ => trivial

theorem same_any {α β : Type} {a : α} {b : β} : SameTr Anyhow (pure a : Logged α) (pure b : Logged β) := same_pure trivial

theorem same_be32enc_vectT (da sa : Arr) (s s' : List W32) (len : Nat) : SameTr SameLen (be32enc_vectT da sa s len) (be32enc_vectT da sa s' len) := by
  unfold be32enc_vectT
  refine same_bind (same_log (R := Anyhow) rfl fun _ _ _ _ => trivial) fun _ _ _ => ?_
  refine same_forLoop (fun d d' i r => ?_) (show SameLen [] [] from rfl) _
  refine same_bind (same_rdT _ _ _ _) fun x y _ => ?_
  refine same_log rfl fun a b e e' => ?_
  rw [← Res.ok.inj e, ← Res.ok.inj e']
  show List.length _ = List.length _
  rw [List.length_append, List.length_append, show d.length = d'.length from r]
  rfl

theorem same_be32dec_vectT (da sa : Arr) (so : Nat) (d d' : List W32) (s s' : Bytes) (len : Nat) :
    SameTr Anyhow (be32dec_vectT da sa so d s len) (be32dec_vectT da sa so d' s' len) := by
  unfold be32dec_vectT
  refine same_bind (same_log (R := Anyhow) rfl fun _ _ _ _ => trivial) fun _ _ _ => ?_
  refine same_forLoop (fun d d' i r => ?_) trivial _
  refine same_bind (same_log (R := Anyhow) rfl fun _ _ _ _ => trivial) fun _ _ _ => ?_
  exact same_wrT _ _ _ _ _ _

macro "same_op" : tactic => `(tactic| first
  | exact same_rdT _ _ _ _ | exact same_wrT _ _ _ _ _ _ | exact same_ldBlockT _ _ _ _ _ | exact same_ldWordsT _ _ _ _ | exact same_stWordsT _ _ _ _ _ _
  | exact same_any)
macro "same_ops" : tactic => `(tactic| repeat' first | same_op | refine same_bind (R := Anyhow) ?_ fun _ _ _ => ?_)

theorem same_RNDrT (Kt Kt' S S' W W' : List W32) (i ii : Nat) : SameTr Anyhow (CSha.RNDrT Kt S W i ii) (CSha.RNDrT Kt' S' W' i ii) := by
  unfold CSha.RNDrT
  same_ops

theorem same_MSCHT (W W' : List W32) (i ii : Nat) : SameTr Anyhow (CSha.MSCHT W ii i) (CSha.MSCHT W' ii i) := by
  unfold CSha.MSCHT
  same_ops

theorem same_mixStepT (st st' : List W32 × List W32) (q : Nat) : SameTr Anyhow (CSha.mixStepT st q) (CSha.mixStepT st' q) := by
  unfold CSha.mixStepT
  refine same_bind (R := Anyhow) ?_ fun _ _ _ => ?_
  · exact same_forLoop (R := Anyhow) (fun _ _ _ _ => by exact same_RNDrT _ _ _ _ _ _ _ _) trivial _
  by_cases h : (16 * q == 48) = true
  · rw [if_pos h, if_pos h]; exact same_any
  · rw [if_neg h, if_neg h]
    refine same_bind (R := Anyhow) ?_ fun _ _ _ => same_any
    exact same_forLoop (R := Anyhow) (fun _ _ _ _ => by exact same_MSCHT _ _ _ _) trivial _

theorem same_addStateT (sa : Arr) (S S' s s' : List W32) : SameTr Anyhow (addStateT sa S s) (addStateT sa S' s') := by
  unfold addStateT
  refine same_forLoop (fun _ _ _ _ => ?_) trivial _
  same_ops

theorem same_swT (sa ba : Arr) (bo : Nat) (s s' : List W32) (b b' : Bytes) (W W' S S' : List W32) :
    SameTr Anyhow (SHA256_Transform_swT sa ba bo s b W S) (SHA256_Transform_swT sa ba bo s' b' W' S') := by
  unfold SHA256_Transform_swT
  refine same_bind (same_be32dec_vectT _ _ _ _ _ _ _ _) fun _ _ _ => ?_
  refine same_bind (same_rdSliceT _ _ _ _ _) fun _ _ h => ?_
  refine same_bind (same_wrSliceT _ _ _ _ _ _ h) fun _ _ _ => ?_
  refine same_bind (R := Anyhow) ?_ fun _ _ _ => ?_
  · exact same_forLoop (R := Anyhow) (fun _ _ _ _ => by exact same_mixStepT _ _ _) trivial _
  refine same_bind (R := Anyhow) ?_ fun _ _ _ => ?_
  · exact same_addStateT _ _ _ _ _
  · exact same_any

theorem same_sse2_mixStepT (st st' : List W32 × List W32 × Sse2.Y4) (q : Nat) : SameTr Anyhow (Sse2.mixStepT st q) (Sse2.mixStepT st' q) := by
  unfold Sse2.mixStepT
  refine same_bind (R := Anyhow) ?_ fun _ _ _ => ?_
  · exact same_forLoop (R := Anyhow) (fun _ _ _ _ => by exact same_RNDrT _ _ _ _ _ _ _ _) trivial _
  by_cases h : (16 * q == 48) = true
  · rw [if_pos h, if_pos h]; exact same_any
  · rw [if_neg h, if_neg h]
    same_ops

theorem same_sse2T (sa ba : Arr) (bo : Nat) (s s' : List W32) (b b' : Bytes) (W W' S S' : List W32) :
    SameTr Anyhow (SHA256_Transform_sse2T sa ba bo s b W S) (SHA256_Transform_sse2T sa ba bo s' b' W' S') := by
  unfold SHA256_Transform_sse2T
  iterate 8 refine same_bind (R := Anyhow) (by same_op) fun _ _ _ => ?_
  refine same_bind (same_rdSliceT _ _ _ _ _) fun _ _ h => ?_
  refine same_bind (same_wrSliceT _ _ _ _ _ _ h) fun _ _ _ => ?_
  refine same_bind (R := Anyhow) ?_ fun _ _ _ => ?_
  · exact same_forLoop (R := Anyhow) (fun _ _ _ _ => by exact same_sse2_mixStepT _ _ _) trivial _
  refine same_bind (R := Anyhow) ?_ fun _ _ _ => ?_
  · exact same_addStateT _ _ _ _ _
  · exact same_any

theorem same_RNDMSGT (st st' : (V4 × V4) × List V4) (i : Nat) (K0 K1 K2 K3 : W32) :
    SameTr Anyhow (Shani.RNDMSGT st i K0 K1 K2 K3) (Shani.RNDMSGT st' i K0 K1 K2 K3) := by
  unfold Shani.RNDMSGT
  refine same_bind (same_rdT _ _ _ _) fun _ _ _ => ?_
  by_cases h : i < 12
  · rw [if_pos h, if_pos h]
    refine same_bind (R := Anyhow) ?_ fun _ _ _ => same_any
    unfold Shani.MSG4T
    same_ops
  · rw [if_neg h, if_neg h]; exact same_any

theorem same_rounds16T (st st' : (V4 × V4) × List V4) : SameTr Anyhow (Shani.rounds16T st) (Shani.rounds16T st') := by
  unfold Shani.rounds16T
  iterate 15 refine same_bind (same_RNDMSGT _ _ _ _ _ _ _) fun _ _ _ => ?_
  exact same_RNDMSGT _ _ _ _ _ _ _

theorem same_shaniT (sa ba : Arr) (bo : Nat) (s s' : List W32) (b b' : Bytes) :
    SameTr Anyhow (SHA256_Transform_shaniT sa ba bo s b) (SHA256_Transform_shaniT sa ba bo s' b') := by
  unfold SHA256_Transform_shaniT Shani.be32dec_128T
  iterate 6 refine same_bind (R := Anyhow) (by same_ops) fun _ _ _ => ?_
  refine same_bind (R := Anyhow) ?_ fun _ _ _ => ?_
  · intro a t b u h1 h2
    exact ⟨(hasTr_log _ _ a t h1).trans (hasTr_log _ _ b u h2).symm, trivial⟩
  refine same_bind (same_rounds16T _ _) fun _ _ _ => ?_
  same_ops

theorem same_arm_mixStepT (st st' : (V4 × V4) × Sse2.Y4) (q : Nat) : SameTr Anyhow (Arm.mixStepT st q) (Arm.mixStepT st' q) := by
  unfold Arm.mixStepT Arm.RND4T
  iterate 4 refine same_bind (R := Anyhow) (by same_ops) fun _ _ _ => ?_
  by_cases h : (16 * q == 48) = true
  · rw [if_pos h, if_pos h]; exact same_any
  · rw [if_neg h, if_neg h]; exact same_any

theorem same_armT (sa ba : Arr) (bo : Nat) (s s' : List W32) (b b' : Bytes) :
    SameTr Anyhow (SHA256_Transform_armT sa ba bo s b) (SHA256_Transform_armT sa ba bo s' b') := by
  unfold SHA256_Transform_armT
  iterate 6 refine same_bind (R := Anyhow) (by same_op) fun _ _ _ => ?_
  refine same_bind (R := Anyhow) ?_ fun _ _ _ => ?_
  · exact same_forLoop (R := Anyhow) (fun _ _ _ _ => by exact same_arm_mixStepT _ _ _) trivial _
  same_ops

/-- The block function makes the same accesses whatever the data. -/
def TfSame (tf : TransformT) : Prop := ∀ sa ba bo s s' b b', SameTr Anyhow (tf sa ba bo s b) (tf sa ba bo s' b')

theorem shaTransformT_same (hw : ShaHw) : TfSame (shaTransformT hw) := by
  intro sa ba bo s s' b b'
  cases hw with
  | software => exact same_bind (same_swT _ _ _ _ _ _ _ _ _ _ _) fun _ _ _ => same_any
  | x86_shani => exact same_shaniT _ _ _ _ _ _ _
  | x86_sse2 => exact same_bind (same_sse2T _ _ _ _ _ _ _ _ _ _ _) fun _ _ _ => same_any
  | arm_sha256 => exact same_armT _ _ _ _ _ _ _

/-- Contexts that have been fed the same number of bytes. -/
def SameCnt (c c' : SHA256_CTX) : Prop := c.count = c'.count

theorem SameCnt.r {c c' : SHA256_CTX} (h : SameCnt c c') : c.r = c'.r := by unfold SHA256_CTX.r; rw [show c.count = c'.count from h]

theorem same_countT (cx : HCtx) (w : Bool) : SameTr Anyhow (countT cx w) (countT cx w) := same_log rfl fun _ _ _ _ => trivial

theorem same_copyInT (ia : Arr) (off : Nat) (a : Arr) (m m' : Bytes) (o : Nat) (s s' : Bytes) (h : SameLen s s') :
    SameTr Anyhow (copyInT ia off a m o s) (copyInT ia off a m' o s') := same_log (by rw [show s.length = s'.length from h]) fun _ _ _ _ => trivial

theorem same_InitT (cx : HCtx) (c c' : SHA256_CTX) : SameTr SameCnt (SHA256_InitT cx c) (SHA256_InitT cx c') := by
  unfold SHA256_InitT
  refine same_bind (same_countT _ _) fun _ _ _ => same_log rfl fun a b e e' => ?_
  rw [← Res.ok.inj e, ← Res.ok.inj e']
  rfl

theorem same_hmacPadT (ka : Arr) (v v' : Byte) (K K' : Bytes) (h : SameLen K K') : SameTr SameLen (hmacPadT ka v K) (hmacPadT ka v' K') := by
  unfold hmacPadT
  rw [show K.length = K'.length from h]
  refine same_bind (R := SameLen) ?_ fun p p' hp => ?_
  · intro a u b w e e'
    have l1 := congrArg erase e
    have l2 := congrArg erase e'
    rw [wrSliceT_erase, wrSlice_self] at l1 l2
    refine ⟨(same_wrSliceT _ _ _ _ _ _ (by unfold SameLen; rw [List.length_replicate, List.length_replicate]) a u b w e e').1, ?_⟩
    have l1 : _ = a := Res.ok.inj l1
    have l2 : _ = b := Res.ok.inj l2
    rw [← l1, ← l2]
    show List.length _ = List.length _
    rw [List.length_replicate, List.length_replicate]
  · refine same_forLoop (fun d d' i r => ?_) hp _
    refine same_bind (same_rdT _ _ _ _) fun _ _ _ => ?_
    refine same_bind (same_rdT _ _ _ _) fun _ _ _ => ?_
    exact same_wrT' _ _ _ _ _ _ r

section
variable {tf : TransformT} (htf : TfSame tf)
include htf

theorem same_PadT (cx : HCtx) (c c' : SHA256_CTX) (h : SameCnt c c') : SameTr Anyhow (SHA256_PadT tf cx c) (SHA256_PadT tf cx c') := by
  unfold SHA256_PadT
  refine same_bind (same_countT _ _) fun _ _ _ => ?_
  rw [h.r]
  refine same_bind (R := SameCnt) ?_ fun d d' hd => ?_
  · by_cases hr : c'.r < 56
    · rw [if_pos hr, if_pos hr]
      refine same_bind (same_rdSliceT _ _ _ _ _) fun _ _ hs => ?_
      refine same_bind (same_wrSliceT _ _ _ _ _ _ hs) fun _ _ _ => ?_
      exact same_pure h
    · rw [if_neg hr, if_neg hr]
      refine same_bind (same_rdSliceT _ _ _ _ _) fun _ _ hs => ?_
      refine same_bind (same_wrSliceT _ _ _ _ _ _ hs) fun _ _ _ => ?_
      refine same_bind (htf _ _ _ _ _ _ _) fun _ _ _ => ?_
      refine same_bind (same_wrSliceT _ _ _ _ _ _ rfl) fun _ _ _ => ?_
      exact same_pure h
  · refine same_bind (same_countT _ _) fun _ _ _ => ?_
    refine same_bind (same_wrSliceT _ _ _ _ _ _ rfl) fun _ _ _ => ?_
    refine same_bind (htf _ _ _ _ _ _ _) fun _ _ _ => ?_
    exact same_any

theorem same_updLoopT (cx : HCtx) (ia : Arr) : ∀ (fuel off : Nat) (s s' : List W32) (b b' : Bytes), SameLen b b' →
    SameTr (fun x x' : List W32 × Bytes × Nat => SameLen x.2.1 x'.2.1 ∧ x.2.2 = x'.2.2) (updLoopT tf cx ia fuel off s b) (updLoopT tf cx ia fuel off s' b')
  | 0, off, s, s', b, b', h => same_pure ⟨h, rfl⟩
  | fuel + 1, off, s, s', b, b', h => by
    unfold updLoopT
    rw [show b.length = b'.length from h]
    by_cases hl : b'.length ≥ 64
    · rw [if_pos hl, if_pos hl]
      refine same_bind (htf _ _ _ _ _ _ _) fun _ _ _ => ?_
      refine same_updLoopT cx ia fuel _ _ _ _ _ ?_
      show List.length _ = List.length _
      rw [List.length_drop, List.length_drop, show b.length = b'.length from h]
    · rw [if_neg hl, if_neg hl]
      exact same_pure ⟨h, rfl⟩

theorem same_UpdateT (cx : HCtx) (ia : Arr) (c c' : SHA256_CTX) (h : SameCnt c c') (b b' : Bytes) (hb : SameLen b b') :
    SameTr SameCnt (SHA256_UpdateT tf cx ia c b) (SHA256_UpdateT tf cx ia c' b') := by
  have hl : b.length = b'.length := hb
  have hc : c.count = c'.count := h
  unfold SHA256_UpdateT
  simp only [hl, h.r]
  by_cases h0 : (b'.length == 0) = true
  · rw [if_pos h0, if_pos h0]; exact same_pure h
  rw [if_neg h0, if_neg h0]
  refine same_bind (same_countT _ _) fun _ _ _ => ?_
  refine same_bind (same_countT _ _) fun _ _ _ => ?_
  by_cases h1 : b'.length < 64 - c'.r
  · rw [if_pos h1, if_pos h1]
    refine same_bind (same_copyInT _ _ _ _ _ _ _ _ hb) fun _ _ _ => ?_
    exact same_pure (by unfold SameCnt; rw [hc])
  · rw [if_neg h1, if_neg h1]
    refine same_bind (same_copyInT _ _ _ _ _ _ _ _ (by unfold SameLen; rw [List.length_take, List.length_take, hl])) fun _ _ _ => ?_
    refine same_bind (htf _ _ _ _ _ _ _) fun _ _ _ => ?_
    refine same_bind (same_updLoopT htf _ _ _ _ _ _ _ _ (by unfold SameLen; rw [List.length_drop, List.length_drop, hl])) fun x x' hx => ?_
    rw [show x.2.2 = x'.2.2 from hx.2]
    refine same_bind (same_copyInT _ _ _ _ _ _ _ _ hx.1) fun _ _ _ => ?_
    exact same_pure (by unfold SameCnt; rw [hc])

theorem same_FinalT (cx : HCtx) (da : Arr) (c c' : SHA256_CTX) (h : SameCnt c c') :
    SameTr (fun x x' => SameLen x.1 x'.1) (SHA256_Final_internalT tf cx da c) (SHA256_Final_internalT tf cx da c') := by
  unfold SHA256_Final_internalT
  refine same_bind (same_PadT htf _ _ _ h) fun _ _ _ => ?_
  refine same_bind (same_be32enc_vectT _ _ _ _ _) fun _ _ hd => ?_
  exact same_pure hd

/-- HMAC contexts that have been fed the same number of bytes. -/
def SameH (c c' : HMAC_SHA256_CTX) : Prop := SameCnt c.ictx c'.ictx ∧ SameCnt c.octx c'.octx

theorem same_HInitT (o : HOwner) (ka : Arr) (c c' : HMAC_SHA256_CTX) (K K' : Bytes) (h : SameLen K K') :
    SameTr SameH (HMAC_SHA256_InitT tf o ka c K) (HMAC_SHA256_InitT tf o ka c' K') := by
  have hl : K.length = K'.length := h
  unfold HMAC_SHA256_InitT
  rw [hl]
  refine same_bind (R := fun x x' => SameLen x.2.1 x'.2.1 ∧ x.2.2 = x'.2.2) ?_ fun x x' hx => ?_
  · by_cases h1 : K'.length > 64
    · rw [if_pos h1, if_pos h1]
      refine same_bind (same_InitT _ _ _) fun _ _ h2 => ?_
      refine same_bind (same_UpdateT htf _ _ _ _ h2 _ _ h) fun _ _ h3 => ?_
      refine same_bind (same_FinalT htf _ _ _ _ h3) fun _ _ h4 => ?_
      exact same_pure ⟨h4, rfl⟩
    · rw [if_neg h1, if_neg h1]
      exact same_pure ⟨h, rfl⟩
  · obtain ⟨ic, k, a⟩ := x
    obtain ⟨ic', k', a'⟩ := x'
    obtain ⟨hk, rfl⟩ := hx
    refine same_bind (same_InitT _ _ _) fun _ _ h2 => ?_
    refine same_bind (same_hmacPadT _ _ _ _ _ hk) fun _ _ h3 => ?_
    refine same_bind (same_UpdateT htf _ _ _ _ h2 _ _ h3) fun _ _ h4 => ?_
    refine same_bind (same_InitT _ _ _) fun _ _ h5 => ?_
    refine same_bind (same_hmacPadT _ _ _ _ _ hk) fun _ _ h6 => ?_
    refine same_bind (same_UpdateT htf _ _ _ _ h5 _ _ h6) fun _ _ h7 => ?_
    exact same_pure ⟨h4, h7⟩

theorem same_HUpdateT (o : HOwner) (ia : Arr) (c c' : HMAC_SHA256_CTX) (h : SameH c c') (b b' : Bytes) (hb : SameLen b b') :
    SameTr SameH (HMAC_SHA256_UpdateT tf o ia c b) (HMAC_SHA256_UpdateT tf o ia c' b') := by
  unfold HMAC_SHA256_UpdateT
  exact same_bind (same_UpdateT htf _ _ _ _ h.1 _ _ hb) fun _ _ h1 => same_pure ⟨h1, h.2⟩

theorem same_HFinalT (o : HOwner) (da : Arr) (c c' : HMAC_SHA256_CTX) (h : SameH c c') :
    SameTr (fun x x' => SameLen x.1 x'.1) (HMAC_SHA256_Final_internalT tf o da c) (HMAC_SHA256_Final_internalT tf o da c') := by
  unfold HMAC_SHA256_Final_internalT
  refine same_bind (same_FinalT htf _ _ _ _ h.1) fun _ _ h1 => ?_
  refine same_bind (same_UpdateT htf _ _ _ _ h.2 _ _ h1) fun _ _ h2 => ?_
  refine same_bind (same_FinalT htf _ _ _ _ h2) fun _ _ h3 => ?_
  exact same_pure h3

omit htf in
theorem same_copyCtxT (d s : HOwner) (c c' : HMAC_SHA256_CTX) (h : SameH c c') : SameTr SameH (copyCtxT d s c) (copyCtxT d s c') :=
  same_log rfl fun a b e e' => by rw [← Res.ok.inj e, ← Res.ok.inj e']; exact h

theorem same_InnerT (c c' : HMAC_SHA256_CTX) (h : SameH c c') (n : Nat) (U T U' T' : Bytes) (hu : SameLen U U') :
    SameTr Anyhow (pbkdf2InnerT tf c n U T) (pbkdf2InnerT tf c' n U' T') := by
  unfold pbkdf2InnerT
  refine (same_forLoop (R := fun x x' => SameLen x.1 x'.1) (fun x x' i hx => ?_) hu n).mono fun _ _ _ => trivial
  refine same_bind (same_copyCtxT _ _ _ _ h) fun _ _ h1 => ?_
  refine same_bind (same_HUpdateT htf _ _ _ _ h1 _ _ hx) fun _ _ h2 => ?_
  refine same_bind (same_HFinalT htf _ _ _ _ h2) fun _ _ h3 => ?_
  refine same_bind (R := Anyhow) ?_ fun _ _ _ => same_pure h3
  refine same_forLoop (fun _ _ _ _ => ?_) trivial _
  same_ops

/-- Two PBKDF2 computations with the same lengths and the same number of iterations make the same accesses. -/
theorem same_PBKDF2T (pa sa oa : Arr) (j j' : HMAC_SHA256_CTX) (P P' S S' : Bytes) (hP : SameLen P P') (hS : SameLen S S') (c : Nat) (buf buf' : Bytes)
    (dkLen : Nat) : SameTr Anyhow (PBKDF2_SHA256T tf pa sa oa j P S c buf dkLen) (PBKDF2_SHA256T tf pa sa oa j' P' S' c buf' dkLen) := by
  unfold PBKDF2_SHA256T
  refine same_bind (same_log (R := Anyhow) rfl fun _ _ _ _ => trivial) fun _ _ _ => ?_
  refine same_bind (same_HInitT htf _ _ _ _ _ _ hP) fun ph ph' h1 => ?_
  refine same_bind (same_copyCtxT _ _ _ _ h1) fun _ _ h2 => ?_
  refine same_bind (same_HUpdateT htf _ _ _ _ h2 _ _ hS) fun ps ps' h3 => ?_
  refine same_bind (R := Anyhow) ?_ fun _ _ _ => same_log rfl fun _ _ _ _ => trivial
  refine same_forLoop (fun d d' i _ => ?_) trivial _
  refine same_bind (R := SameLen) ?_ fun _ _ h4 => ?_
  · refine same_log rfl fun a b e e' => ?_
    rw [wrSlice_self] at e e'
    rw [← Res.ok.inj e, ← Res.ok.inj e']
    rfl
  refine same_bind (same_copyCtxT _ _ _ _ h3) fun _ _ h5 => ?_
  refine same_bind (same_HUpdateT htf _ _ _ _ h5 _ _ h4) fun _ _ h6 => ?_
  refine same_bind (same_HFinalT htf _ _ _ _ h6) fun u u' h7 => ?_
  refine same_bind (same_log (R := Anyhow) rfl fun _ _ _ _ => trivial) fun _ _ _ => ?_
  refine same_bind (same_InnerT htf _ _ h1 _ _ _ _ _ h7) fun _ _ _ => ?_
  refine same_bind (same_rdSliceT _ _ _ _ _) fun _ _ h8 => ?_
  exact same_wrSliceT _ _ _ _ _ _ h8

end

end Scrypt
