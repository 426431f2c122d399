import Verif.Model.Scratch
import Verif.Proofs.Sha256Hw
import Verif.Proofs.Hmac
import Mathlib.Tactic.Common
/-
The functions with working memory compute what the functions without it compute, whatever the memory contained, and leave it zero.
-/
namespace Scrypt
open Spec

/-! ### Zeroing -/

theorem forLoop_zero_fill {α : Type} (z : α) (a : List α) (n : Nat) (h : n ≤ a.length) :
    forLoop n (fun b i => wr b i z) a = .ok (List.replicate n z ++ a.drop n) := by
  induction n with
  | zero => simp
  | succ n ih =>
    rw [forLoop_succ, ih (by omega), Res.bind_ok, wr_ok _ (by simp; omega), List.set_append_right _ _ (by simp)]
    congr 1
    rw [List.length_replicate, Nat.sub_self, List.replicate_succ', List.append_assoc, List.singleton_append]
    congr 1
    rw [List.drop_eq_getElem_cons (show n < a.length by omega)]
    rfl

theorem insecure_memzero_spec (a : Bytes) (n : Nat) (h : n ≤ a.length) : insecure_memzero a n = .ok (List.replicate n 0 ++ a.drop n) :=
  forLoop_zero_fill 0 a n h

theorem insecure_memzero_all {a : Bytes} {n : Nat} (h : a.length = n) : insecure_memzero a n = .ok (List.replicate n 0) := by
  rw [insecure_memzero_spec a n (by omega), List.drop_of_length_le (by omega), List.append_nil]

theorem memzero32_all {a : List W32} (h : a.length = 72) : memzero32 a (4 * 72) = .ok (List.replicate 72 0) := by
  unfold memzero32
  rw [forLoop_zero_fill 0 a _ (by omega), List.drop_of_length_le (by omega), List.append_nil]

theorem memzeroCtx_all {c : SHA256_CTX} (h : c.Sized) : memzeroCtx c = .ok SHA256_CTX.zero := by
  unfold memzeroCtx memzero32
  rw [forLoop_zero_fill 0 _ _ (by rw [h.1]), Res.bind_ok, insecure_memzero_all h.2, Res.bind_ok, List.drop_of_length_le (by rw [h.1])]
  rfl

theorem memzeroHctx_all {c : HMAC_SHA256_CTX} (h : c.Sized) : memzeroHctx c = .ok ⟨SHA256_CTX.zero, SHA256_CTX.zero⟩ := by
  unfold memzeroHctx
  rw [memzeroCtx_all h.1, Res.bind_ok, memzeroCtx_all h.2, Res.bind_ok]

/-! ### Lockstep -/

/-- `x` (with scratch) and `y` (without) both succeed with the same value, which satisfies `P`; the scratch keeps its size. -/
def SameRun {α : Type} (P : α → Prop) (x : Res (α × List W32)) (y : Res α) : Prop := ∃ a t, x = .ok (a, t) ∧ y = .ok a ∧ t.length = 72 ∧ P a

theorem SameRun.ok {α : Type} {P : α → Prop} {a : α} {t : List W32} (h : P a) (ht : t.length = 72) : SameRun P (.ok (a, t)) (.ok a) := ⟨a, t, rfl, rfl, ht, h⟩

theorem SameRun.bind {α β : Type} {P : α → Prop} {Q : β → Prop} {x : Res (α × List W32)} {y : Res α} {f : α × List W32 → Res (β × List W32)} {g : α → Res β}
    (h : SameRun P x y) (hf : ∀ a t, P a → t.length = 72 → SameRun Q (f (a, t)) (g a)) : SameRun Q (x >>= f) (y >>= g) := by
  obtain ⟨a, t, rfl, rfl, ht, hp⟩ := h
  exact hf a t hp ht

theorem SameRun.pure {α β : Type} {Q : β → Prop} {x : Res α} {f : α → Res (β × List W32)} {g : α → Res β} (P : α → Prop)
    (h : ∃ a, x = .ok a ∧ P a) (hf : ∀ a, P a → SameRun Q (f a) (g a)) : SameRun Q (x >>= f) (x >>= g) := by
  obtain ⟨a, rfl, hp⟩ := h
  exact hf a hp

theorem Regs.toList_length (s : Regs) : s.toList.length = 8 := rfl

/-- What the two block functions that use the scratch arrays leave in them. -/
theorem transformS_same (hw : ShaHw) {state : List W32} {block : Bytes} {t : List W32} (hs : state.length = 8) (hb : block.length = 64) (ht : t.length = 72) :
    SameRun (fun s => s.length = 8) (transformS hw state block t) (shaTransform hw state block) := by
  obtain ⟨s, rfl⟩ := regs_of_length hs
  rw [goodTf hw s block hb]
  have r1 : rdSlice t 0 64 = .ok ((t.drop 0).take 64) := rdSlice_ok (by omega)
  have r2 : rdSlice t 64 8 = .ok ((t.drop 64).take 8) := rdSlice_ok (by omega)
  cases hw with
  | software =>
    unfold transformS
    obtain ⟨W', S', e, h1, h2⟩ := SHA256_Transform_sw_full s block ((t.drop 0).take 64) ((t.drop 64).take 8) hb (by simp; omega) (by simp; omega)
    simp only [r1, r2, Res.bind_ok, e]
    exact ⟨_, _, rfl, rfl, by rw [List.length_append, h1.1, h2], rfl⟩
  | x86_sse2 =>
    unfold transformS
    obtain ⟨W', S', e, h1, h2⟩ := SHA256_Transform_sse2_full s block ((t.drop 0).take 64) ((t.drop 64).take 8) hb (by simp; omega) (by simp; omega)
    simp only [r1, r2, Res.bind_ok, e]
    exact ⟨_, _, rfl, rfl, by rw [List.length_append, h1.1, h2], rfl⟩
  | x86_shani =>
    unfold transformS
    simp only [SHA256_Transform_shani_spec s block hb, Res.bind_ok]
    exact ⟨_, _, rfl, rfl, ht, rfl⟩
  | arm_sha256 =>
    unfold transformS
    simp only [SHA256_Transform_arm_spec s block hb, Res.bind_ok]
    exact ⟨_, _, rfl, rfl, ht, rfl⟩

theorem SHA256_CTX.r_lt (c : SHA256_CTX) : c.r < 64 := by
  unfold SHA256_CTX.r
  rw [BitVec.toNat_and]
  exact lt_of_le_of_lt Nat.and_le_right (by decide)

theorem wrSlice_len {α : Type} {m src : List α} {off : Nat} (h : off + src.length ≤ m.length) : ∃ m', wrSlice m off src = .ok m' ∧ m'.length = m.length :=
  ⟨_, wrSlice_ok h, by simp; omega⟩

theorem Pad_same (hw : ShaHw) {ctx : SHA256_CTX} {t : List W32} (hc : ctx.Sized) (ht : t.length = 72) :
    SameRun SHA256_CTX.Sized (SHA256_PadS hw ctx t) (SHA256_Pad (shaTransform hw) ctx) := by
  obtain ⟨h1, h2⟩ := hc
  have hr := ctx.r_lt
  unfold SHA256_PadS SHA256_Pad
  refine SameRun.bind (P := SHA256_CTX.Sized) ?_ ?_
  · split
    · refine SameRun.pure (fun s => s.length = 56 - ctx.r) ⟨_, rdSlice_ok (by simp [PAD]; omega), by simp [PAD]; omega⟩ fun src hs => ?_
      refine SameRun.pure (fun b => b.length = 64) (by obtain ⟨m, e, l⟩ := wrSlice_len (m := ctx.buf) (off := ctx.r) (src := src) (by omega); exact ⟨m, e, by omega⟩) fun b hb => ?_
      exact SameRun.ok ⟨h1, hb⟩ ht
    · refine SameRun.pure (fun s => s.length = 64 - ctx.r) ⟨_, rdSlice_ok (by simp [PAD]), by simp [PAD]⟩ fun src hs => ?_
      refine SameRun.pure (fun b => b.length = 64) (by obtain ⟨m, e, l⟩ := wrSlice_len (m := ctx.buf) (off := ctx.r) (src := src) (by omega); exact ⟨m, e, by omega⟩) fun b hb => ?_
      refine SameRun.bind (transformS_same hw h1 hb ht) fun s t hs ht => ?_
      refine SameRun.pure (fun b => b.length = 64) (by
        obtain ⟨m, e, l⟩ := wrSlice_len (m := b) (off := 0) (src := List.replicate 56 0) (by simp; omega); exact ⟨m, e, by omega⟩) fun b hb => ?_
      exact SameRun.ok ⟨hs, hb⟩ ht
  · intro c t hc ht
    refine SameRun.pure (fun b => b.length = 64) (by
        obtain ⟨m, e, l⟩ := wrSlice_len (m := c.buf) (off := 56) (src := be64enc c.count) (by rw [hc.2]; simp [be64enc]); exact ⟨m, e, by rw [l]; exact hc.2⟩)
      fun b hb => ?_
    refine SameRun.bind (transformS_same hw hc.1 hb ht) fun s t hs ht => ?_
    exact SameRun.ok ⟨hs, hb⟩ ht

theorem updLoop_same (hw : ShaHw) (fuel : Nat) {state : List W32} {src : Bytes} {t : List W32} (hs : state.length = 8) (ht : t.length = 72) (hf : src.length < 64 * (fuel + 1)) :
    SameRun (fun x => x.1.length = 8 ∧ x.2.length < 64) (updLoopS hw fuel state src t) (updLoop (shaTransform hw) fuel state src) := by
  induction fuel generalizing state src t with
  | zero => exact SameRun.ok ⟨hs, by omega⟩ ht
  | succ n ih =>
    unfold updLoopS updLoop
    split
    · exact SameRun.bind (transformS_same hw hs (by simp; omega) ht) fun s t hs ht => ih hs ht (by simp; omega)
    · exact SameRun.ok ⟨hs, by show src.length < 64; omega⟩ ht

theorem Update_same (hw : ShaHw) {ctx : SHA256_CTX} {t : List W32} (src : Bytes) (hc : ctx.Sized) (ht : t.length = 72) :
    SameRun SHA256_CTX.Sized (SHA256_Update_internalS hw ctx src t) (SHA256_Update (shaTransform hw) ctx src) := by
  obtain ⟨h1, h2⟩ := hc
  have hr := ctx.r_lt
  unfold SHA256_Update_internalS SHA256_Update
  by_cases h0 : src.length = 0
  · rw [if_pos h0]
    simp only [h0, beq_self_eq_true, if_true]
    exact SameRun.ok ⟨h1, h2⟩ ht
  rw [if_neg h0]
  simp only [beq_iff_eq, h0, if_false]
  by_cases h3 : src.length < 64 - ctx.r
  · rw [if_pos h3, if_pos (show src.length < 64 - ctx.r from h3)]
    refine SameRun.pure (fun b => b.length = 64) (by obtain ⟨m, e, l⟩ := wrSlice_len (m := ctx.buf) (off := ctx.r) (src := src) (by omega); exact ⟨m, e, by omega⟩) fun b hb => ?_
    exact SameRun.ok ⟨h1, hb⟩ ht
  rw [if_neg h3, if_neg (show ¬ src.length < 64 - ctx.r from h3)]
  refine SameRun.pure (fun b => b.length = 64) (by
    obtain ⟨m, e, l⟩ := wrSlice_len (m := ctx.buf) (off := ctx.r) (src := src.take (64 - ctx.r)) (by simp; omega); exact ⟨m, e, by omega⟩) fun b hb => ?_
  refine SameRun.bind (transformS_same hw h1 hb ht) fun s t hs ht => ?_
  refine SameRun.bind (updLoop_same hw src.length hs ht (by simp; omega)) fun x t hx ht => ?_
  obtain ⟨st, rest⟩ := x
  refine SameRun.pure (fun b => b.length = 64) (by obtain ⟨m, e, l⟩ := wrSlice_len (m := b) (off := 0) (src := rest) (by have := hx.2; dsimp only at this; omega); exact ⟨m, e, by omega⟩) fun b hb => ?_
  exact SameRun.ok ⟨hx.1, hb⟩ ht

theorem be32enc_vect_len {s : List W32} (h : s.length = 8) : ∃ d, be32enc_vect s 32 = .ok d ∧ d.length = 32 := by
  obtain ⟨r, rfl⟩ := regs_of_length h
  exact ⟨_, be32enc_vect_spec r, by simp [Regs.bytes]⟩

theorem Final_same (hw : ShaHw) {ctx : SHA256_CTX} {t : List W32} (hc : ctx.Sized) (ht : t.length = 72) :
    SameRun (fun x => x.1.length = 32 ∧ x.2.Sized) (SHA256_Final_internalS hw ctx t) (SHA256_Final_internal (shaTransform hw) ctx) := by
  unfold SHA256_Final_internalS SHA256_Final_internal
  refine SameRun.bind (Pad_same hw hc ht) fun c t hc ht => ?_
  refine SameRun.pure (fun d => d.length = 32) (be32enc_vect_len hc.1) fun d hd => ?_
  exact SameRun.ok ⟨hd, hc⟩ ht

/-! ### HMAC -/

theorem wrSlice_whole {α : Type} {m src : List α} (h : src.length = m.length) : wrSlice m 0 src = .ok src := by
  rw [wrSlice_ok (by omega), List.take_zero, List.nil_append, List.drop_of_length_le (by omega), List.append_nil]

theorem rdSlice_whole {α : Type} {m : List α} {n : Nat} (h : m.length = n) : rdSlice m 0 n = .ok m := by
  rw [rdSlice_ok (by omega), List.drop_zero, List.take_of_length_le (by omega)]

theorem hmacPadS_same (v : Byte) {K pad : Bytes} (hk : K.length ≤ 64) (hp : pad.length = 64) :
    ∃ p, hmacPadS v K pad = .ok p ∧ hmacPad v K = .ok p ∧ p.length = 64 := by
  unfold hmacPadS hmacPad
  rw [wrSlice_whole (by simp [hp]), Res.bind_ok]
  have := forLoop_zipWith (fun x y : Byte => x ^^^ y) (List.replicate 64 v) K K.length (by simpa using hk) (by omega)
  exact ⟨_, this, this, by simp; omega⟩

theorem HInit_same (hw : ShaHw) {ctx : HMAC_SHA256_CTX} (K : Bytes) {t : List W32} {pad khash : Bytes} (hc : ctx.Sized) (ht : t.length = 72)
    (hp : pad.length = 64) (hk : khash.length = 32) :
    ∃ c t' p k, HMAC_SHA256_Init_internalS hw ctx K t pad khash = .ok (c, t', p, k) ∧ HMAC_SHA256_Init (shaTransform hw) ctx K = .ok c ∧
      t'.length = 72 ∧ p.length = 64 ∧ k.length = 32 ∧ c.Sized := by
  have si : ∀ {c : SHA256_CTX}, c.Sized → (SHA256_Init c).Sized := fun h => ⟨rfl, h.2⟩
  -- the key
  have key : ∃ ictx K' kh t', ((if K.length > 64 then
      SHA256_Update_internalS hw (SHA256_Init ctx.ictx) K t >>= fun r =>
        SHA256_Final_internalS hw r.1 r.2 >>= fun r =>
          wrSlice khash 0 r.1.1 >>= fun khash => rdSlice khash 0 32 >>= fun K => .ok (r.1.2, K, khash, r.2)
    else .ok (ctx.ictx, K, khash, t)) : Res (SHA256_CTX × Bytes × Bytes × List W32)) = .ok (ictx, K', kh, t') ∧
    ((if K.length > 64 then do
      let ictx := SHA256_Init ctx.ictx
      let ictx ← SHA256_Update (shaTransform hw) ictx K
      let (khash, ictx) ← SHA256_Final_internal (shaTransform hw) ictx
      return (ictx, khash)
    else return (ctx.ictx, K) : Res (SHA256_CTX × Bytes))) = .ok (ictx, K') ∧ ictx.Sized ∧ K'.length ≤ 64 ∧ kh.length = 32 ∧ t'.length = 72 := by
    by_cases h : K.length > 64
    · rw [if_pos h, if_pos h]
      obtain ⟨c, t1, e1, e2, ht1, hc1⟩ := Update_same hw K (si hc.1) ht
      obtain ⟨⟨d, c2⟩, t2, e3, e4, ht2, hd, hc2⟩ := Final_same hw hc1 ht1
      simp only at hd hc2
      simp only [e1, e2, e3, e4, Res.bind_ok, wrSlice_whole (show d.length = khash.length by omega), rdSlice_whole hd]
      exact ⟨_, _, _, _, rfl, rfl, hc2, by omega, hd, ht2⟩
    · rw [if_neg h, if_neg h]
      exact ⟨_, _, _, _, rfl, rfl, hc.1, by omega, hk, ht⟩
  obtain ⟨ictx, K', kh, t1, k1, k2, k3, k4, k5, k6⟩ := key
  unfold HMAC_SHA256_Init_internalS HMAC_SHA256_Init
  rw [k1, k2]
  obtain ⟨p1, a1, a2, a3⟩ := hmacPadS_same 0x36 k4 hp
  obtain ⟨c1, t2, b1, b2, b3, b4⟩ := Update_same hw p1 (si k3) k6
  obtain ⟨p2, d1, d2, d3⟩ := hmacPadS_same 0x5c k4 a3
  obtain ⟨c2, t3, f1, f2, f3, f4⟩ := Update_same hw p2 (si hc.2) b3
  simp only [Res.bind_ok, a1, a2, rdSlice_whole a3, b1, b2, d1, d2, rdSlice_whole d3, f1, f2]
  exact ⟨_, _, _, _, rfl, rfl, f3, d3, k5, b4, f4⟩

theorem HUpdate_same (hw : ShaHw) {ctx : HMAC_SHA256_CTX} (src : Bytes) {t : List W32} (hc : ctx.Sized) (ht : t.length = 72) :
    SameRun HMAC_SHA256_CTX.Sized (HMAC_SHA256_Update_internalS hw ctx src t) (HMAC_SHA256_Update (shaTransform hw) ctx src) := by
  unfold HMAC_SHA256_Update_internalS HMAC_SHA256_Update
  exact SameRun.bind (Update_same hw src hc.1 ht) fun c t h ht => SameRun.ok ⟨h, hc.2⟩ ht

theorem HFinal_same (hw : ShaHw) {ctx : HMAC_SHA256_CTX} {t : List W32} {ihash : Bytes} (hc : ctx.Sized) (ht : t.length = 72) (hi : ihash.length = 32) :
    ∃ d c t' ih, HMAC_SHA256_Final_internalS hw ctx t ihash = .ok ((d, c), t', ih) ∧ HMAC_SHA256_Final_internal (shaTransform hw) ctx = .ok (d, c) ∧
      d.length = 32 ∧ c.Sized ∧ t'.length = 72 ∧ ih.length = 32 := by
  unfold HMAC_SHA256_Final_internalS HMAC_SHA256_Final_internal
  obtain ⟨⟨d1, c1⟩, t1, a1, a2, a3, a4, a5⟩ := Final_same hw hc.1 ht
  simp only at a4 a5
  obtain ⟨c2, t2, b1, b2, b3, b4⟩ := Update_same hw d1 hc.2 a3
  obtain ⟨⟨d3, c3⟩, t3, f1, f2, f3, f4, f5⟩ := Final_same hw b4 b3
  simp only at f4 f5
  simp only [a1, a2, Res.bind_ok, wrSlice_whole (show d1.length = ihash.length by omega), rdSlice_whole a4, b1, b2, f1, f2]
  exact ⟨_, _, _, _, rfl, rfl, f4, ⟨a5, f5⟩, f3, a4⟩

theorem hmacInitTmp8_same (hw : ShaHw) {ctx : HMAC_SHA256_CTX} (K : Bytes) {t : List W32} {tmp8 : Bytes} (hc : ctx.Sized) (ht : t.length = 72)
    (h8 : tmp8.length = 96) :
    ∃ c t' t8, hmacInitTmp8 hw ctx K t tmp8 = .ok (c, t', t8) ∧ HMAC_SHA256_Init (shaTransform hw) ctx K = .ok c ∧ t'.length = 72 ∧ t8.length = 96 ∧ c.Sized := by
  unfold hmacInitTmp8 splitAt3
  rw [if_pos (by omega), Res.bind_ok]
  obtain ⟨c, t', p, k, e1, e2, e3, e4, e5, e6⟩ := HInit_same hw K (pad := tmp8.take 64) (khash := (tmp8.drop 64).take 32) hc ht (by simp; omega) (by simp; omega)
  simp only [e1, Res.bind_ok]
  exact ⟨_, _, _, rfl, e2, e3, by simp; omega, e6⟩

theorem hmacFinalTmp8_same (hw : ShaHw) {ctx : HMAC_SHA256_CTX} {t : List W32} {tmp8 : Bytes} (hc : ctx.Sized) (ht : t.length = 72) (h8 : tmp8.length = 96) :
    ∃ d c t' t8, hmacFinalTmp8 hw ctx t tmp8 = .ok ((d, c), t', t8) ∧ HMAC_SHA256_Final_internal (shaTransform hw) ctx = .ok (d, c) ∧
      d.length = 32 ∧ c.Sized ∧ t'.length = 72 ∧ t8.length = 96 := by
  unfold hmacFinalTmp8 splitAt3
  rw [if_pos (by omega), Res.bind_ok]
  obtain ⟨d, c, t', ih, e1, e2, e3, e4, e5, e6⟩ := HFinal_same hw (ihash := (tmp8.drop 0).take 32) hc ht (by simp; omega)
  simp only [e1, Res.bind_ok]
  exact ⟨_, _, _, _, rfl, e2, e3, e4, e5, by simp; omega⟩

/-! ### PBKDF2 -/

/-- The automatic variables have their sizes. -/
structure PbLocals.Sized (l : PbLocals) : Prop where
  Phctx : l.Phctx.Sized
  PShctx : l.PShctx.Sized
  hctx : l.hctx.Sized
  tmp32 : l.tmp32.length = 72
  tmp8 : l.tmp8.length = 96
  U : l.U.length = 32
  T : l.T.length = 32

/-- All of them zero. -/
def PbLocals.zero : PbLocals :=
  ⟨⟨SHA256_CTX.zero, SHA256_CTX.zero⟩, ⟨SHA256_CTX.zero, SHA256_CTX.zero⟩, ⟨SHA256_CTX.zero, SHA256_CTX.zero⟩, List.replicate 72 0, List.replicate 96 0,
    List.replicate 32 0, List.replicate 32 0⟩

theorem pbClean_all {l : PbLocals} (h : l.Sized) : pbClean l = .ok PbLocals.zero := by
  unfold pbClean
  simp only [memzeroHctx_all h.Phctx, memzeroHctx_all h.PShctx, memzeroHctx_all h.hctx, memzero32_all h.tmp32, insecure_memzero_all h.tmp8,
    insecure_memzero_all h.U, insecure_memzero_all h.T, Res.bind_ok]
  rfl

theorem pbPrf_same (hw : ShaHw) {l : PbLocals} (h : l.Sized) {src : HMAC_SHA256_CTX} (hs : src.Sized) (x : Bytes) :
    ∃ u c l', pbPrf hw l src x = .ok l' ∧ HMAC_SHA256_Update (shaTransform hw) src x = .ok u ∧ HMAC_SHA256_Final_internal (shaTransform hw) u = .ok (l'.U, c) ∧
      l'.Sized ∧ l'.Phctx = l.Phctx ∧ l'.PShctx = l.PShctx ∧ l'.T = l.T := by
  obtain ⟨u, t1, a1, a2, a3, a4⟩ := HUpdate_same hw x hs h.tmp32
  obtain ⟨d, c, t2, t8, b1, b2, b3, b4, b5, b6⟩ := hmacFinalTmp8_same hw a4 a3 h.tmp8
  unfold pbPrf
  simp only [a1, b1, Res.bind_ok, wrSlice_whole (show d.length = l.U.length by rw [b3, h.U])]
  exact ⟨u, c, _, rfl, a2, b2, ⟨h.Phctx, h.PShctx, b4, b5, b6, b3, h.T⟩, rfl, rfl, rfl⟩

theorem pbInnerS_same (hw : ShaHw) {l0 l : PbLocals} (n : Nat) (h : l.Sized) (h0 : l = l0) :
    ∃ l', forLoop n (fun l _ => pbInnerS hw l) l = .ok l' ∧ pbkdf2Inner (shaTransform hw) l0.Phctx n l0.U l0.T = .ok (l'.U, l'.T) ∧ l'.Sized ∧
      l'.Phctx = l0.Phctx ∧ l'.PShctx = l0.PShctx := by
  subst h0
  unfold pbkdf2Inner
  induction n with
  | zero => exact ⟨l, rfl, rfl, h, rfl, rfl⟩
  | succ n ih =>
    obtain ⟨l1, e1, e2, h1, p1, p2⟩ := ih
    rw [forLoop_succ, forLoop_succ, e1, e2, Res.bind_ok, Res.bind_ok]
    obtain ⟨u, c, l2, a1, a2, a3, a4, a5, a6, a7⟩ := pbPrf_same hw h1 (src := l1.Phctx) h1.Phctx l1.U
    have z := forLoop_zipWith (fun x y : Byte => x ^^^ y) l2.T l2.U 32 (by rw [a4.T]) (by rw [a4.U])
    rw [p1] at a2
    unfold pbInnerS
    rw [rdSlice_whole h1.U, Res.bind_ok, a1, Res.bind_ok]
    simp only [a2, a3, Res.bind_ok, ← a7]
    rw [z, Res.bind_ok, Res.bind_ok]
    refine ⟨_, rfl, rfl, ⟨a4.Phctx, a4.PShctx, a4.hctx, a4.tmp32, a4.tmp8, a4.U, ?_⟩, by show l2.Phctx = _; rw [a5, p1], by show l2.PShctx = _; rw [a6, p2]⟩
    have := a4.T
    have := a4.U
    simp; omega

theorem pbLoop_same (hw : ShaHw) (c dkLen : Nat) {buf : Bytes} (hb : dkLen ≤ buf.length) {l : PbLocals} (h : l.Sized) (n : Nat) (hn : n ≤ (dkLen + 31) / 32) :
    ∃ buf' l', forLoop n (pbBlockS hw c dkLen) (buf, l) = .ok (buf', l') ∧
      forLoop n (fun buf i => do
        let ivec := be32enc (BitVec.ofNat 32 (i + 1))
        let hctx ← HMAC_SHA256_Update (shaTransform hw) l.PShctx ivec
        let (U, _) ← HMAC_SHA256_Final_internal (shaTransform hw) hctx
        let T := U
        let (_, T) ← pbkdf2Inner (shaTransform hw) l.Phctx (c - 1) U T
        let clen := dkLen - i * 32
        let clen := if clen > 32 then 32 else clen
        let src ← rdSlice T 0 clen
        wrSlice buf (i * 32) src) buf = .ok buf' ∧ buf'.length = buf.length ∧ l'.Sized ∧ l'.Phctx = l.Phctx ∧ l'.PShctx = l.PShctx := by
  induction n with
  | zero => exact ⟨buf, l, rfl, rfl, rfl, h, rfl, rfl⟩
  | succ n ih =>
    obtain ⟨b1, l1, e1, e2, e3, e4, e5, e6⟩ := ih (by omega)
    rw [forLoop_succ, forLoop_succ, e1, e2, Res.bind_ok, Res.bind_ok]
    obtain ⟨u, cc, l2, a1, a2, a3, a4, a5, a6, a7⟩ := pbPrf_same hw e4 (src := l1.PShctx) e4.PShctx (be32enc (BitVec.ofNat 32 (n + 1)))
    rw [e6] at a2
    have s3 : ({ l2 with T := l2.U } : PbLocals).Sized := ⟨a4.Phctx, a4.PShctx, a4.hctx, a4.tmp32, a4.tmp8, a4.U, a4.U⟩
    obtain ⟨l3, b1', b2', b3', b4', b5'⟩ := pbInnerS_same hw (c - 1) s3 rfl
    have b2'' : pbkdf2Inner (shaTransform hw) l.Phctx (c - 1) l2.U l2.U = .ok (l3.U, l3.T) := by rw [← e5, ← a5]; exact b2'
    have hlen : (if dkLen - n * 32 > 32 then 32 else dkLen - n * 32) ≤ 32 ∧ n * 32 + (if dkLen - n * 32 > 32 then 32 else dkLen - n * 32) ≤ buf.length := by
      split <;> constructor <;> omega
    have hT := b3'.T
    have r1 := rdSlice_ok (m := l3.T) (off := 0) (len := if dkLen - n * 32 > 32 then 32 else dkLen - n * 32) (by omega)
    obtain ⟨m, w1, w2⟩ := wrSlice_len (m := b1) (off := n * 32) (src := (l3.T.drop 0).take (if dkLen - n * 32 > 32 then 32 else dkLen - n * 32))
      (by rw [List.drop_zero, List.length_take, hT]; omega)
    unfold pbBlockS
    rw [a1, Res.bind_ok, rdSlice_whole a4.U, Res.bind_ok, wrSlice_whole (by rw [a4.U, a4.T]), Res.bind_ok, b1', Res.bind_ok, r1, Res.bind_ok, w1, Res.bind_ok]
    simp only [a2, a3, b2'', Res.bind_ok, r1, w1]
    exact ⟨_, _, rfl, rfl, by omega, b3', by rw [b4']; show l2.Phctx = _; rw [a5, e5], by rw [b5']; show l2.PShctx = _; rw [a6, e6]⟩

theorem PBKDF2S_same (hw : ShaHw) {l : PbLocals} (h : l.Sized) (passwd salt : Bytes) (c : Nat) {buf : Bytes} {dkLen : Nat} (hd : dkLen ≤ 32 * (2 ^ 32 - 1))
    (hb : dkLen ≤ buf.length) :
    ∃ out, PBKDF2_SHA256S hw l passwd salt c buf dkLen = .ok (out, PbLocals.zero) ∧ PBKDF2_SHA256 (shaTransform hw) l.Phctx passwd salt c buf dkLen = .ok out := by
  obtain ⟨ph, t1, t8, a1, a2, a3, a4, a5⟩ := hmacInitTmp8_same hw passwd h.Phctx h.tmp32 h.tmp8
  obtain ⟨psh, t2, b1, b2, b3, b4⟩ := HUpdate_same hw salt a5 a3
  have hs : ({ l with Phctx := ph, PShctx := psh, tmp32 := t2, tmp8 := t8 } : PbLocals).Sized := ⟨a5, b4, h.hctx, b3, a4, h.U, h.T⟩
  obtain ⟨out, l', c1, c2, -, c4, -, -⟩ := pbLoop_same hw c dkLen hb hs _ (le_refl _)
  unfold PBKDF2_SHA256S PBKDF2_SHA256
  rw [show decide (dkLen ≤ 32 * (2 ^ 32 - 1)) = true by simpa using hd, cassert_true, Res.bind_ok, Res.bind_ok, a1, Res.bind_ok, b1, Res.bind_ok, c1, Res.bind_ok,
    pbClean_all c4, Res.bind_ok, a2, Res.bind_ok, b2, Res.bind_ok]
  exact ⟨out, rfl, c2⟩

end Scrypt
