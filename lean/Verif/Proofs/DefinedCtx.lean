import Verif.Proofs.DefinedHash
import Verif.Proofs.Scratch
/-
`WrittenFirst` for SHA-256, HMAC and PBKDF2.
-/
namespace Scrypt
open Logged

variable {may D : Cells}

theorem wrSlice_length {α : Type} {m m' s : List α} {o : Nat} (h : wrSlice m o s = .ok m') : m'.length = m.length := by
  by_cases hl : o + s.length ≤ m.length
  · obtain ⟨x, e, l⟩ := wrSlice_len hl
    rw [e] at h
    exact (Res.ok.inj h) ▸ l
  · unfold wrSlice at h
    rw [if_neg hl] at h
    cases h

theorem def_wr' {α : Type} {a : Arr} {m : List α} {i : Nat} {v : α} (h : may a i) :
    Def may D (wrT a m i v) (fun m' => m'.length = m.length) (fun _ => cells a i 1) := by
  unfold wrT
  rw [← accs_one]
  exact (def_writes (Has.of fun j h1 h2 => (show j = i by omega) ▸ h)).conseq (fun _ e => wr_length e) fun _ _ => Has.right (Has.refl _)

theorem def_wrSlice' {α : Type} {a : Arr} {m s : List α} {o : Nat} (h : Has may (cells a o s.length)) :
    Def may D (wrSliceT a m o s) (fun m' => m'.length = m.length) (fun _ => cells a o s.length) :=
  (def_writes h).conseq (fun _ e => wrSlice_length e) fun _ _ => Has.right (Has.refl _)

/-- A SHA-256 context that is in use. -/
structure CtxIn (D : Cells) (cx : HCtx) (n : Nat) : Prop where
  state : Has D (cells (.h (.state cx)) 0 8)
  count : Has D (cells (.h (.count cx)) 0 1)
  buf : Has D (cells (.h (.buf cx)) 0 n)

theorem CtxIn.mono {D' : Cells} {cx : HCtx} {n : Nat} (h : CtxIn D cx n) (hd : Has D' D) : CtxIn D' cx n := ⟨hd.trans h.state, hd.trans h.count, hd.trans h.buf⟩
theorem CtxIn.both {E : Cells} {cx : HCtx} {n : Nat} (h : CtxIn D cx n) : CtxIn (both D E) cx n := h.mono (Has.left (Has.refl _))
theorem CtxIn.less {cx : HCtx} {n m : Nat} (h : CtxIn D cx n) (hm : m ≤ n) : CtxIn D cx m := ⟨h.state, h.count, h.buf.sub (Nat.le_refl _) (by omega)⟩

/-- The elements of a context. -/
def ctxCells (cx : HCtx) : Cells := both (both (cells (.h (.state cx)) 0 8) (cells (.h (.count cx)) 0 1)) (cells (.h (.buf cx)) 0 64)

theorem CtxIn.has {cx : HCtx} (h : CtxIn D cx 64) : Has D (ctxCells cx) := Has.both (Has.both h.state h.count) h.buf
theorem CtxIn.of {cx : HCtx} (h : Has D (ctxCells cx)) : CtxIn D cx 64 :=
  ⟨fun a i x => h a i (Or.inl (Or.inl x)), fun a i x => h a i (Or.inl (Or.inr x)), fun a i x => h a i (Or.inr x)⟩

theorem def_countR {cx : HCtx} (h : Has D (cells (.h (.count cx)) 0 1)) : Def0 may D (countT cx false) := by
  unfold countT
  rw [← accs_one]
  exact (def_reads h).drop

theorem def_countW {cx : HCtx} (h : Has may (cells (.h (.count cx)) 0 1)) : Def may D (countT cx true) (fun _ => True) (fun _ => cells (.h (.count cx)) 0 1) := by
  unfold countT
  rw [← accs_one]
  exact (def_writes h).conseq (fun _ _ => trivial) fun _ _ => Has.right (Has.refl _)

variable {tf : TransformT}

theorem def_PadT (ht : TfDef may tf) {cx : HCtx} {ctx : SHA256_CTX} (he : HEnv may D) (hc : CtxIn D cx ctx.r) : Def0 may D (SHA256_PadT tf cx ctx) := by
  unfold SHA256_PadT
  have hr := ctx.r_lt
  refine def_seq (def_countR hc.count) fun _ _ => ?_
  dsimp only
  refine def_bind (R := fun _ => True) (P := fun _ => cells (.h (.buf cx)) 0 56) ?_ fun c _ => ?_
  · refine def_ite (fun h => ?_) fun h => ?_
    · refine def_seq (def_rdSlice (he.padc.sub (by omega) (by omega))) fun src hs => ?_
      refine def_bind (def_wrSlice ((he.buf cx).sub (by omega) (by omega))) fun b _ => ?_
      exact def_pure trivial (Has.join (n := ctx.r) (m := src.length) (Has.left hc.buf) (Has.right (by rw [Nat.zero_add]; exact Has.refl _)) (by omega) (by omega))
    · refine def_seq (def_rdSlice (he.padc.sub (by omega) (by omega))) fun src hs => ?_
      refine def_bind (def_wrSlice ((he.buf cx).sub (by omega) (by omega))) fun b _ => ?_
      have hb : Has (both D (cells (.h (.buf cx)) ctx.r src.length)) (cells (.h (.buf cx)) 0 64) :=
        Has.join (n := ctx.r) (m := src.length) (Has.left hc.buf) (Has.right (by rw [Nat.zero_add]; exact Has.refl _)) (by omega) (by omega)
      refine def_seq (ht _ _ _ _ _ _ he.both (Has.left hc.state) (he.state cx) hb) fun s _ => ?_
      refine def_seq (def_wrSlice (by rw [List.length_replicate]; exact (he.buf cx).sub (by omega) (by omega))) fun b _ => ?_
      exact def_pure trivial (hb.sub (by omega) (by omega))
  · refine def_seq (def_countR (Has.left hc.count)) fun _ _ => ?_
    refine def_bind (def_wrSlice (by exact (he.buf cx).sub (o' := 56) (n' := 8) (by omega) (by omega))) fun b _ => ?_
    refine def_seq (ht _ _ _ _ _ _ he.both.both (Has.left (Has.left hc.state)) (he.state cx) ?_) fun s _ => def_pure0
    exact Has.join (n := 56) (m := 8) (Has.left (Has.right (Has.refl _))) (Has.right (Has.refl _)) (by omega) (by omega)

theorem def_InitT {cx : HCtx} {ctx : SHA256_CTX} (he : HEnv may D) :
    Def may D (SHA256_InitT cx ctx) (fun c => c.r = 0) (fun _ => both (cells (.h (.state cx)) 0 8) (cells (.h (.count cx)) 0 1)) := by
  unfold SHA256_InitT
  refine def_bind (def_countW (he.count cx)) fun _ _ => ?_
  refine def_log (wf_append.2 ⟨wf_reads fun i h1 h2 => Or.inl (he.init.at h1 h2), wf_writes fun i h1 h2 => (he.state cx).at h1 h2⟩) fun c e => ⟨?_, ?_⟩
  · obtain rfl := Res.ok.inj e
    show ((0#64 >>> 3) &&& 0x3f#64).toNat = 0
    decide
  · refine Has.both (fun a i h => Or.inr (List.mem_append.2 (Or.inr (mem_accs'.2 ⟨h.1, rfl, h.2⟩)))) (fun a i h => Or.inl (Or.inr h))

theorem def_updLoopT (ht : TfDef may tf) {cx : HCtx} {ia : Arr} (he : HEnv may D) (hs : Has D (cells (.h (.state cx)) 0 8)) : ∀ (fuel off : Nat) (state : List W32) (src : Bytes),
    Has D (cells ia off src.length) → src.length ≤ fuel → Def may D (updLoopT tf cx ia fuel off state src)
      (fun r => off ≤ r.2.2 ∧ r.2.2 + r.2.1.length ≤ off + src.length ∧ r.2.1.length < 64) (fun _ => noCells)
  | 0, off, state, src, _, hl => def_pure ⟨by dsimp only; omega, by dsimp only; omega, by dsimp only; omega⟩ (Has.none _)
  | fuel + 1, off, state, src, hi, hl => by
    unfold updLoopT
    refine def_ite (fun h => ?_) fun h => def_pure ⟨by dsimp only; omega, by dsimp only; omega, by dsimp only; omega⟩ (Has.none _)
    refine def_seq (ht _ _ _ _ _ _ he hs (he.state cx) (hi.sub (by omega) (by omega))) fun s _ => ?_
    have hd : (src.drop 64).length = src.length - 64 := List.length_drop
    refine (def_updLoopT ht he hs fuel (off + 64) s (src.drop 64) (by rw [hd]; exact hi.sub (by omega) (by omega)) (by omega)).conseq (fun r h => ?_) fun _ _ => Has.none _
    rw [hd] at h
    omega

theorem def_copyInT {ia a : Arr} {off o : Nat} {m s : Bytes} (hr : Has D (cells ia off s.length)) (hw : Has may (cells a o s.length)) :
    Def may D (copyInT ia off a m o s) (fun _ => True) (fun _ => cells a o s.length) :=
  def_log (wf_append.2 ⟨wf_reads fun _ h1 h2 => hr.at h1 h2, wf_writes fun _ h1 h2 => hw.at h1 h2⟩) fun _ _ =>
    ⟨trivial, fun _ _ h => Or.inr (List.mem_append.2 (Or.inr (mem_accs'.2 ⟨h.1, rfl, h.2⟩)))⟩

theorem r_add (ctx : SHA256_CTX) (n : Nat) (h : ctx.r + n < 64) :
    (({ ctx with count := ctx.count + (BitVec.ofNat 64 n <<< 3) } : SHA256_CTX)).r = ctx.r + n := by
  have e : ∀ c : SHA256_CTX, c.r = c.count.toNat / 8 % 64 := by
    intro c
    unfold SHA256_CTX.r
    rw [BitVec.toNat_and, BitVec.toNat_ushiftRight, BitVec.toNat_ofNat, Nat.shiftRight_eq_div_pow, show 63 % 2 ^ 64 = 2 ^ 6 - 1 from rfl, Nat.and_two_pow_sub_one_eq_mod]
  rw [e] at h ⊢
  rw [e]
  simp only [BitVec.toNat_add, BitVec.toNat_shiftLeft, BitVec.toNat_ofNat, Nat.shiftLeft_eq]
  omega

/-- How much of the buffer has a value after `SHA256_Update`. -/
def updBuf (ctx : SHA256_CTX) (n : Nat) (c : SHA256_CTX) : Nat := if 64 ≤ ctx.r + n then 64 else c.r

theorem def_UpdateT (ht : TfDef may tf) {cx : HCtx} {ia : Arr} {ctx : SHA256_CTX} {src : Bytes} (he : HEnv may D) (hc : CtxIn D cx ctx.r) (hi : Has D (cells ia 0 src.length)) :
    Def may D (SHA256_UpdateT tf cx ia ctx src) (fun _ => True) (fun c => cells (.h (.buf cx)) 0 (updBuf ctx src.length c)) := by
  unfold SHA256_UpdateT
  dsimp only
  have hr := ctx.r_lt
  refine def_ite (fun h => ?_) fun h => ?_
  · refine def_pure trivial ?_
    have h : src.length = 0 := by simpa using h
    unfold updBuf
    rw [if_neg (by omega)]
    exact hc.buf
  refine def_seq (def_countR hc.count) fun _ _ => def_seq (def_countW (he.count cx)) fun _ _ => ?_
  refine def_ite (fun h => ?_) fun h => ?_
  · refine def_bind (def_copyInT hi ((he.buf cx).sub (by omega) (by omega))) fun b _ => def_pure trivial ?_
    have e := r_add ctx src.length (by omega)
    unfold updBuf
    rw [if_neg (by omega), show SHA256_CTX.r { ctx with count := ctx.count + BitVec.ofNat 64 src.length <<< 3, buf := b } = ctx.r + src.length from e]
    exact Has.join (n := ctx.r) (m := src.length) (Has.left hc.buf) (Has.right (by rw [Nat.zero_add]; exact Has.refl _)) (by omega) (by omega)
  · have hl : (src.take (64 - ctx.r)).length = 64 - ctx.r := by rw [List.length_take]; omega
    have hd : (src.drop (64 - ctx.r)).length = src.length - (64 - ctx.r) := List.length_drop
    refine def_bind (def_copyInT (by rw [hl]; exact hi.sub (by omega) (by omega)) (by rw [hl]; exact (he.buf cx).sub (by omega) (by omega))) fun b _ => ?_
    rw [hl]
    have hb : Has (both D (cells (.h (.buf cx)) ctx.r (64 - ctx.r))) (cells (.h (.buf cx)) 0 64) :=
        Has.join (n := ctx.r) (m := 64 - ctx.r) (Has.left hc.buf) (Has.right (by rw [Nat.zero_add]; exact Has.refl _)) (by omega) (by omega)
    refine def_seq (ht _ _ _ _ _ _ he.both (Has.left hc.state) (he.state cx) hb) fun s _ => ?_
    refine def_seq (def_updLoopT ht he.both (Has.left hc.state) _ _ _ _ (by rw [hd]; exact Has.left (hi.sub (by omega) (by omega))) (by omega)) fun ⟨s, x, o⟩ hx => ?_
    rw [hd] at hx
    dsimp only at hx ⊢
    refine def_seq (def_copyInT (Has.left (hi.sub (by omega) (by omega))) ((he.buf cx).sub (by omega) (by omega))) fun b _ => def_pure trivial ?_
    unfold updBuf
    rw [if_pos (by omega)]
    exact hb

theorem def_be32enc_vectT {da sa : Arr} {src : List W32} (hs : Has D (cells sa 0 8)) (hd : Has may (cells da 0 32)) :
    Def may D (be32enc_vectT da sa src 32) (fun b => b.length = 32) (fun _ => cells da 0 32) := by
  unfold be32enc_vectT
  refine def_seq (def_quiet (R := fun _ => True) fun _ _ => trivial) fun _ _ => ?_
  refine def_loop (R := fun i (b : Bytes) => b.length = 4 * i) (fun i => cells da 0 (4 * i)) rfl has_empty fun dst i hi hl => ?_
  refine def_seq (def_rd (Has.left hs |>.at (by omega) (by omega))) fun x _ => ?_
  refine (def_writes (hd.sub (by omega) (by omega))).conseq (fun b e => ?_) fun _ _ => ?_
  · obtain rfl := Res.ok.inj e
    rw [List.length_append, hl]
    show 4 * i + 4 = _
    omega
  · rw [show i * 4 = 4 * i by omega]
    exact has_grow0 (by omega)

theorem def_FinalT (ht : TfDef may tf) {cx : HCtx} {da : Arr} {ctx : SHA256_CTX} (he : HEnv may D) (hc : CtxIn D cx ctx.r) (hd : Has may (cells da 0 32)) :
    Def may D (SHA256_Final_internalT tf cx da ctx) (fun r => r.1.length = 32) (fun _ => cells da 0 32) := by
  unfold SHA256_Final_internalT
  refine def_seq (def_PadT ht he hc) fun c _ => ?_
  exact def_bind (def_be32enc_vectT hc.state hd) fun b hb => def_pure hb (Has.right (Has.refl _))

theorem def_hmacPadT {ka : Arr} {v : Byte} {K : Bytes} (he : HEnv may D) (hk : Has D (cells ka 0 K.length)) (hl : K.length ≤ 64) :
    Def may D (hmacPadT ka v K) (fun b => b.length = 64) (fun _ => cells (.h .pad) 0 64) := by
  unfold hmacPadT
  refine def_bind (def_wrSlice' (by rw [List.length_replicate]; exact he.pad)) fun b hb => ?_
  rw [List.length_replicate] at hb ⊢
  refine (def_loop0 (R := fun b => b.length = 64) hb fun b i hi hb => ?_).conseq (fun _ h => h) fun _ _ => Has.left (Has.right (Has.refl _))
  refine def_seq (def_rd (Has.right (Has.refl _) |>.at (by omega) (by omega))) fun x _ => ?_
  refine def_seq (def_rd (Has.left hk |>.at (by omega) (by omega))) fun k _ => ?_
  exact (def_wr' (he.pad.at (by omega) (by omega))).conseq (fun _ h => h.trans hb) fun _ _ => Has.none _

/-- Both halves of an HMAC context. -/
def hmacCells (o : HOwner) : Cells := both (ctxCells (.inner o)) (ctxCells (.outer o))

theorem def_padded (ht : TfDef may tf) {cx : HCtx} {ctx : SHA256_CTX} {pad : Bytes} (he : HEnv may D) (hs : Has D (cells (.h (.state cx)) 0 8))
    (hc : Has D (cells (.h (.count cx)) 0 1)) (hr : ctx.r = 0) (hp : Has D (cells (.h .pad) 0 64)) (hl : pad.length = 64) :
    Def may D (SHA256_UpdateT tf cx (.h .pad) ctx pad) (fun _ => True) (fun _ => ctxCells cx) := by
  refine (def_UpdateT ht he ⟨hs, hc, by rw [hr]; exact has_empty⟩ (by rw [hl]; exact hp)).conseq (fun _ _ => trivial) fun c _ => ?_
  unfold updBuf
  rw [if_pos (by omega)]
  exact Has.both (Has.both (Has.left hs) (Has.left hc)) (Has.right (Has.refl _))

theorem def_HInitT (ht : TfDef may tf) {o : HOwner} {ka : Arr} {ctx : HMAC_SHA256_CTX} {K : Bytes} (he : HEnv may D) (hk : Has D (cells ka 0 K.length)) :
    Def may D (HMAC_SHA256_InitT tf o ka ctx K) (fun _ => True) (fun _ => hmacCells o) := by
  unfold HMAC_SHA256_InitT
  refine def_bind (R := fun r => r.2.1.length ≤ 64) (P := fun r => cells r.2.2 0 r.2.1.length) ?_ fun ⟨ictx, K', ka'⟩ hl => ?_
  · refine def_ite (fun h => ?_) fun h => def_pure (show K.length ≤ 64 by omega) hk
    refine def_bind (def_InitT he) fun c hr => ?_
    have hc : CtxIn (both D (both (cells (.h (.state (.inner o))) 0 8) (cells (.h (.count (.inner o))) 0 1))) (.inner o) c.r :=
      ⟨Has.right (Has.left (Has.refl _)), Has.right (Has.right (Has.refl _)), by rw [hr]; exact has_empty⟩
    refine def_bind (def_UpdateT ht he.both hc (Has.left hk)) fun c2 _ => ?_
    refine def_bind (def_FinalT ht he.both.both ⟨Has.left hc.state, Has.left hc.count, Has.right ?_⟩ he.khash) fun ⟨b, c3⟩ hb => ?_
    · refine has_cells (Nat.le_refl _) ?_
      unfold updBuf
      have := c2.r_lt
      split <;> omega
    · have hb : b.length = 32 := hb
      exact def_pure (show b.length ≤ 64 by omega) (by show Has _ (cells (.h .khash) 0 b.length); rw [hb]; exact Has.right (Has.refl _))
  dsimp only at hl ⊢
  refine def_bind (def_InitT he.both) fun c hr => ?_
  refine def_bind (def_hmacPadT he.both.both (Has.left (Has.right (Has.refl _))) hl) fun pad hp => ?_
  refine def_bind (def_padded ht he.both.both.both (Has.left (Has.right (Has.left (Has.refl _)))) (Has.left (Has.right (Has.right (Has.refl _)))) hr (Has.right (Has.refl _)) hp)
    fun c2 _ => ?_
  refine def_bind (def_InitT he.both.both.both.both) fun c hr => ?_
  refine def_bind (def_hmacPadT he.both.both.both.both.both (Has.left (Has.left (Has.left (Has.left (Has.right (Has.refl _)))))) hl) fun pad hp => ?_
  refine def_bind (def_padded ht he.both.both.both.both.both.both (Has.left (Has.right (Has.left (Has.refl _)))) (Has.left (Has.right (Has.right (Has.refl _)))) hr
    (Has.right (Has.refl _)) hp) fun c2 _ => ?_
  exact def_pure trivial (Has.both (Has.left (Has.left (Has.left (Has.right (Has.refl _))))) (Has.right (Has.refl _)))

theorem hmac_inner {o : HOwner} (h : Has D (hmacCells o)) : CtxIn D (.inner o) 64 := CtxIn.of fun a i x => h a i (Or.inl x)
theorem hmac_outer {o : HOwner} (h : Has D (hmacCells o)) : CtxIn D (.outer o) 64 := CtxIn.of fun a i x => h a i (Or.inr x)

theorem def_HUpdateT (ht : TfDef may tf) {o : HOwner} {ia : Arr} {ctx : HMAC_SHA256_CTX} {src : Bytes} (he : HEnv may D) (hc : Has D (hmacCells o)) (hi : Has D (cells ia 0 src.length)) :
    Def0 may D (HMAC_SHA256_UpdateT tf o ia ctx src) := by
  unfold HMAC_SHA256_UpdateT
  exact def_seq (def_UpdateT ht he ((hmac_inner hc).less (Nat.le_of_lt (SHA256_CTX.r_lt _))) hi) fun _ _ => def_pure0

theorem def_HFinalT (ht : TfDef may tf) {o : HOwner} {da : Arr} {ctx : HMAC_SHA256_CTX} (he : HEnv may D) (hc : Has D (hmacCells o)) (hd : Has may (cells da 0 32)) :
    Def may D (HMAC_SHA256_Final_internalT tf o da ctx) (fun r => r.1.length = 32) (fun _ => cells da 0 32) := by
  unfold HMAC_SHA256_Final_internalT
  refine def_bind (def_FinalT ht he ((hmac_inner hc).less (Nat.le_of_lt (SHA256_CTX.r_lt _))) he.ihash) fun ⟨b, c⟩ hb => ?_
  have hb : b.length = 32 := hb
  dsimp only
  refine def_seq (def_UpdateT ht he.both ((hmac_outer (Has.left hc)).less (Nat.le_of_lt (SHA256_CTX.r_lt _))) (by rw [hb]; exact Has.right (Has.refl _))) fun c _ => ?_
  refine def_bind (def_FinalT ht he.both ((hmac_outer (Has.left hc)).less (Nat.le_of_lt (SHA256_CTX.r_lt _))) hd) fun ⟨d, c⟩ hd => ?_
  exact def_pure hd (Has.right (Has.refl _))

theorem wf_ctxR {cx : HCtx} (h : Has D (ctxCells cx)) : WrittenFirst may D (wholeShaCtx cx false) := by
  have hc := CtxIn.of h
  unfold wholeShaCtx
  exact wf_append.2 ⟨wf_append.2 ⟨wf_reads fun _ h1 h2 => hc.state.at h1 h2, wf_reads fun _ h1 h2 => Or.inl (hc.count.at h1 h2)⟩,
    wf_reads fun _ h1 h2 => Or.inl (hc.buf.at h1 h2)⟩

theorem wf_ctxW {cx : HCtx} (he : HEnv may D) : WrittenFirst may D' (wholeShaCtx cx true) := by
  unfold wholeShaCtx
  exact wf_append.2 ⟨wf_append.2 ⟨wf_writes fun _ h1 h2 => (he.state cx).at h1 h2, wf_writes fun _ h1 h2 => (he.count cx).at h1 h2⟩,
    wf_writes fun _ h1 h2 => (he.buf cx).at h1 h2⟩

theorem wf_hmacR {o : HOwner} (h : Has D (hmacCells o)) : WrittenFirst may D (wholeCtx o false) :=
  wf_append.2 ⟨wf_ctxR fun a i x => h a i (Or.inl x), wf_ctxR fun a i x => Or.inl (h a i (Or.inr x))⟩

theorem wf_hmacW {o : HOwner} (he : HEnv may D) : WrittenFirst may D' (wholeCtx o true) := wf_append.2 ⟨wf_ctxW he, wf_ctxW he⟩

theorem after_ctxW (cx : HCtx) : Has (after D (wholeShaCtx cx true)) (ctxCells cx) := by
  intro a i h
  refine Or.inr ?_
  unfold wholeShaCtx
  rcases h with (h | h) | h
  · exact List.mem_append.2 (Or.inl (List.mem_append.2 (Or.inl (mem_accs'.2 ⟨h.1, rfl, h.2⟩))))
  · exact List.mem_append.2 (Or.inl (List.mem_append.2 (Or.inr (mem_accs'.2 ⟨h.1, rfl, h.2⟩))))
  · exact List.mem_append.2 (Or.inr (mem_accs'.2 ⟨h.1, rfl, h.2⟩))

theorem after_hmacW (o : HOwner) : Has (after D (wholeCtx o true)) (hmacCells o) := by
  intro a i h
  unfold wholeCtx
  rw [after_append]
  rcases h with h | h
  · exact Or.inl (after_ctxW _ a i h)
  · exact after_ctxW _ a i h

theorem def_copyCtxT {dst src : HOwner} {ctx : HMAC_SHA256_CTX} (he : HEnv may D) (h : Has D (hmacCells src)) :
    Def may D (copyCtxT dst src ctx) (fun _ => True) (fun _ => hmacCells dst) :=
  def_log (wf_append.2 ⟨wf_hmacR h, wf_hmacW he⟩) fun _ _ => ⟨trivial, by rw [after_append]; exact after_hmacW dst⟩

/-- What PBKDF2 may rely on besides. -/
structure PEnv (may D : Cells) : Prop extends HEnv may D where
  ivec : Has may (cells (.h .ivec) 0 4)
  U : Has may (cells (.h .U) 0 32)
  T : Has may (cells (.h .T) 0 32)

theorem PEnv.both {E : Cells} (h : PEnv may D) : PEnv may (both D E) := { h.toHEnv.both with ivec := h.ivec, U := h.U, T := h.T }

theorem def_innerT (ht : TfDef may tf) {P : HMAC_SHA256_CTX} {n : Nat} {U T : Bytes} (he : PEnv may D) (hp : Has D (hmacCells .Phctx)) (hU : Has D (cells (.h .U) 0 32))
    (hT : Has D (cells (.h .T) 0 32)) (hl : U.length = 32) : Def0 may D (pbkdf2InnerT tf P n U T) := by
  unfold pbkdf2InnerT
  refine (def_loop0 (R := fun UT => UT.1.length = 32) hl fun ⟨U, T⟩ i _ hl => ?_).drop
  have hl : U.length = 32 := hl
  dsimp only
  refine def_bind (def_copyCtxT he.toHEnv hp) fun c _ => ?_
  refine def_seq (def_HUpdateT ht he.toHEnv.both (Has.right (Has.refl _)) (by rw [hl]; exact Has.left hU)) fun c _ => ?_
  refine def_seq (def_HFinalT ht he.toHEnv.both (Has.right (Has.refl _)) he.U) fun ⟨U, c⟩ hl => ?_
  refine def_seq (def_for0 fun T k hk => ?_) fun T _ => def_pure hl (Has.none _)
  refine def_seq (def_rd (Has.left hT |>.at (by omega) (by omega))) fun x _ => ?_
  refine def_seq (def_rd (Has.left hU |>.at (by omega) (by omega))) fun y _ => ?_
  exact (def_wr (he.T.at (by omega) (by omega))).drop

theorem wf_clean (he : PEnv may D) : WrittenFirst may D' pbkdf2Clean := by
  unfold pbkdf2Clean
  refine wf_append.2 ⟨wf_append.2 ⟨wf_append.2 ⟨wf_append.2 ⟨wf_append.2 ⟨wf_append.2 ⟨wf_append.2 ⟨wf_append.2 ⟨wf_hmacW he.toHEnv, wf_hmacW he.toHEnv⟩,
    wf_hmacW he.toHEnv⟩, ?_⟩, ?_⟩, ?_⟩, ?_⟩, ?_⟩, ?_⟩
  · exact wf_writes fun _ h1 h2 => he.W.at h1 h2
  · exact wf_writes fun _ h1 h2 => he.S.at h1 h2
  · exact wf_writes fun _ h1 h2 => he.pad.at h1 h2
  · exact wf_writes fun _ h1 h2 => he.khash.at h1 h2
  · exact wf_writes fun _ h1 h2 => he.U.at h1 h2
  · exact wf_writes fun _ h1 h2 => he.T.at h1 h2

theorem def_PBKDF2T (ht : TfDef may tf) {pa sa oa : Arr} {junk : HMAC_SHA256_CTX} {passwd salt buf : Bytes} {c dkLen : Nat} (he : PEnv may D)
    (hpw : Has D (cells pa 0 passwd.length)) (hs : Has D (cells sa 0 salt.length)) (ho : Has may (cells oa 0 dkLen)) :
    Def may D (PBKDF2_SHA256T tf pa sa oa junk passwd salt c buf dkLen) (fun _ => True) (fun _ => cells oa 0 dkLen) := by
  unfold PBKDF2_SHA256T
  refine def_seq (def_quiet (R := fun _ => True) fun _ _ => trivial) fun _ _ => ?_
  refine def_bind (def_HInitT ht he.toHEnv hpw) fun P _ => ?_
  refine def_bind (def_copyCtxT he.both.toHEnv (Has.right (Has.refl _))) fun PS _ => ?_
  refine def_seq (def_HUpdateT ht he.both.both.toHEnv (Has.right (Has.refl _)) (Has.left (Has.left hs))) fun PS _ => ?_
  refine def_bind (R := fun _ => True) (P := fun _ => cells oa 0 (min dkLen (32 * ((dkLen + 31) / 32)))) ?_ fun b _ => ?_
  · refine def_loop (R := fun _ _ => True) (fun i => cells oa 0 (min dkLen (32 * i))) trivial (by rw [show min dkLen (32 * 0) = 0 by omega]; exact has_empty) fun b i hi _ => ?_
    have hE := he.both (E := hmacCells .Phctx) |>.both (E := hmacCells .PShctx) |>.both (E := cells oa 0 (min dkLen (32 * i)))
    have hP : Has (both (both (both D (hmacCells .Phctx)) (hmacCells .PShctx)) (cells oa 0 (min dkLen (32 * i)))) (hmacCells .Phctx) := Has.left (Has.left (Has.right (Has.refl _)))
    have hPS : Has (both (both (both D (hmacCells .Phctx)) (hmacCells .PShctx)) (cells oa 0 (min dkLen (32 * i)))) (hmacCells .PShctx) := Has.left (Has.right (Has.refl _))
    have hG : Has (both (both (both D (hmacCells .Phctx)) (hmacCells .PShctx)) (cells oa 0 (min dkLen (32 * i)))) (cells oa 0 (min dkLen (32 * i))) := Has.right (Has.refl _)
    revert hE hP hPS hG
    generalize both (both (both D (hmacCells .Phctx)) (hmacCells .PShctx)) (cells oa 0 (min dkLen (32 * i))) = E
    intro hE hP hPS hG
    refine def_bind (def_wrSlice' (s := be32enc (BitVec.ofNat 32 (i + 1))) (by exact hE.ivec)) fun iv hiv => ?_
    refine def_bind (def_copyCtxT hE.both.toHEnv (Has.left hPS)) fun h _ => ?_
    refine def_seq (def_HUpdateT ht hE.both.both.toHEnv (Has.right (Has.refl _)) (by rw [hiv]; exact Has.left (Has.right (Has.refl _)))) fun h _ => ?_
    refine def_bind (def_HFinalT ht hE.both.both.toHEnv (Has.right (Has.refl _)) hE.U) fun ⟨U, _⟩ hU => ?_
    have hU : U.length = 32 := hU
    dsimp only
    refine def_bind (R := fun _ => True) (P := fun _ => cells (.h .T) 0 32)
      (def_log (wf_append.2 ⟨wf_reads fun _ h1 h2 => Or.inr ⟨rfl, h1, h2⟩, wf_writes fun _ h1 h2 => hE.T.at h1 h2⟩) fun _ _ => ⟨trivial, fun _ _ h => Or.inr (List.mem_append.2 (Or.inr (mem_accs'.2 ⟨h.1, rfl, h.2⟩)))⟩) fun T _ => ?_
    refine def_seq (def_innerT ht hE.both.both.both.both (Has.left (Has.left (Has.left (Has.left hP)))) (Has.left (Has.right (Has.refl _))) (Has.right (Has.refl _)) hU) fun ⟨_, T⟩ _ => ?_
    dsimp only
    refine def_seq (def_rdSlice (Has.right (has_cells (by omega) (by split <;> omega)))) fun src hsrc => ?_
    refine (def_wrSlice (ho.sub (by omega) (by split at hsrc <;> omega))).conseq (fun _ _ => trivial) fun _ _ => ?_
    refine Has.join (n := min dkLen (32 * i)) (m := src.length) (Has.left (Has.left (Has.left (Has.left (Has.left hG))))) (Has.right ?_) (by omega) (by split at hsrc <;> omega)
    exact has_cells (by omega) (by omega)
  · exact def_log (wf_clean he) fun _ _ => ⟨trivial, fun a i h => Or.inl (Or.inr ⟨h.1, h.2.1, by have := h.2; omega⟩)⟩

end Scrypt
