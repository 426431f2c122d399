import Verif.Proofs.Scratch
import Verif.Proofs.Drbg
/-
C57: the hash functions and the random generator leave no trace in their working memory.

The statements are about the functions with their automatic variables (Model/Scratch.lean): whatever the stack contained, when a public function returns, every
scratch array, every local copy of a key and every local context is zero, a finished context is zero, and, although one scratch array serves several purposes,
the result is the digest, the HMAC, the derived key, the generator state that the standards define.
-/
namespace Scrypt.Props
open Scrypt Spec

/-- All the bytes of `tmp32[72]` are zero. -/
def clean32 : List W32 := List.replicate 72 0
/-- `n` zero bytes. -/
def cleanBytes (n : Nat) : Bytes := List.replicate n 0
/-- A zero SHA256_CTX, a zero HMAC_SHA256_CTX. -/
def cleanCtx : SHA256_CTX := ⟨List.replicate 8 0, 0, List.replicate 64 0⟩
def cleanHctx : HMAC_SHA256_CTX := ⟨cleanCtx, cleanCtx⟩

/-- Feeding pieces one after the other; with each piece what the stack contains at that moment.  The final context, and what each call leaves on the stack. -/
def feed {C : Type} (upd : C → Bytes → List W32 → Res (C × List W32)) : C → List (Bytes × List W32) → Res (C × List (List W32))
  | c, [] => .ok (c, [])
  | c, p :: ps => upd c p.1 p.2 >>= fun r => feed upd r.1 ps >>= fun q => .ok (q.1, r.2 :: q.2)

/-- **C57.**  insecure_memzero zeroes exactly the bytes it is given. -/
theorem C57_memzero (a b : Bytes) (n : Nat) (h : a.length = n) : insecure_memzero (a ++ b) n = .ok (cleanBytes n ++ b) := by
  rw [insecure_memzero_spec _ _ (by simp; omega), List.drop_append_of_le_length (by omega), List.drop_of_length_le (by omega), List.nil_append]
  rfl

theorem updateS_repr (hw : ShaHw) {c : SHA256_CTX} {msg : Bytes} (h : Repr c msg) (src : Bytes) {t : List W32} (ht : t.length = 72) :
    ∃ c', SHA256_UpdateS hw c src t = .ok (c', clean32) ∧ Repr c' (msg ++ src) := by
  obtain ⟨c1, t1, e1, e2, e3, e4⟩ := Update_same hw src h.sized ht
  obtain ⟨c2, f1, f2⟩ := SHA256_Update_spec _ (goodTf hw) c msg src h
  rw [e2] at f1
  cases f1
  unfold SHA256_UpdateS
  rw [e1, Res.bind_ok, memzero32_all e3, Res.bind_ok]
  exact ⟨_, rfl, f2⟩

theorem finalS_repr (hw : ShaHw) {c : SHA256_CTX} {msg : Bytes} (h : Repr c msg) {t : List W32} (ht : t.length = 72) :
    ∃ c' t', SHA256_Final_internalS hw c t = .ok ((sha256 msg, c'), t') ∧ c'.Sized ∧ t'.length = 72 := by
  obtain ⟨⟨d, c1⟩, t1, e1, e2, e3, e4, e5⟩ := Final_same hw h.sized ht
  obtain ⟨c2, f1, f2⟩ := SHA256_Final_spec _ (goodTf hw) c msg h
  rw [e2] at f1
  obtain ⟨rfl, rfl⟩ := Prod.mk.inj (Res.ok.inj f1)
  exact ⟨_, _, e1, e5, e3⟩

/-- **C57**, SHA256_Init, SHA256_Update, …, SHA256_Final: each call leaves the scratch array zero, the last one the context as well. -/
theorem C57_sha256 (hw : ShaHw) (ctx : SHA256_CTX) (hc : ctx.Sized) (pieces : List (Bytes × List W32)) (hp : ∀ p ∈ pieces, p.2.length = 72)
    (t : List W32) (ht : t.length = 72) :
    ∃ c, feed (SHA256_UpdateS hw) (SHA256_Init ctx) pieces = .ok (c, List.replicate pieces.length clean32) ∧
      SHA256_FinalS hw c t = .ok (sha256 (pieces.map (·.1)).flatten, cleanCtx, clean32) := by
  have step : ∀ (c : SHA256_CTX) (msg : Bytes), Repr c msg →
      ∃ c', feed (SHA256_UpdateS hw) c pieces = .ok (c', List.replicate pieces.length clean32) ∧ Repr c' (msg ++ (pieces.map (·.1)).flatten) := by
    induction pieces with
    | nil => intro c msg h; exact ⟨c, rfl, by simpa using h⟩
    | cons p ps ih =>
      intro c msg h
      obtain ⟨c1, e1, h1⟩ := updateS_repr hw h p.1 (hp p (by simp))
      obtain ⟨c2, e2, h2⟩ := ih (fun q hq => hp q (by simp [hq])) c1 _ h1
      unfold feed
      rw [e1, Res.bind_ok, e2, Res.bind_ok]
      exact ⟨c2, rfl, by simpa using h2⟩
  obtain ⟨c, e, h⟩ := step _ _ (repr_init ctx hc)
  refine ⟨c, e, ?_⟩
  obtain ⟨c', t', f1, f2, f3⟩ := finalS_repr hw h ht
  unfold SHA256_FinalS
  rw [f1, Res.bind_ok, memzeroCtx_all f2, Res.bind_ok, memzero32_all f3, Res.bind_ok]
  rfl

/-- **C57**, SHA256_Buf. -/
theorem C57_sha256_buf (hw : ShaHw) (ctx : SHA256_CTX) (hc : ctx.Sized) (msg : Bytes) (t : List W32) (ht : t.length = 72) :
    SHA256_BufS hw ctx msg t = .ok (sha256 msg, cleanCtx, clean32) := by
  have h0 := repr_init ctx hc
  obtain ⟨c1, t1, e1, e2, e3, e4⟩ := Update_same hw msg h0.sized ht
  obtain ⟨c2, f1, f2⟩ := SHA256_Update_spec _ (goodTf hw) _ _ msg h0
  rw [e2] at f1
  cases f1
  obtain ⟨c', t', g1, g2, g3⟩ := finalS_repr hw f2 e3
  unfold SHA256_BufS
  rw [e1, Res.bind_ok, g1, Res.bind_ok, memzeroCtx_all g2, Res.bind_ok, memzero32_all g3, Res.bind_ok]
  rfl

/-! ### HMAC -/

theorem hinitS_repr (hw : ShaHw) {ctx : HMAC_SHA256_CTX} (hc : ctx.Sized) (K : Bytes) {t : List W32} {pad khash : Bytes} (ht : t.length = 72)
    (hp : pad.length = 64) (hk : khash.length = 32) :
    ∃ c, HMAC_SHA256_InitS hw ctx K t pad khash = .ok (c, clean32, cleanBytes 64, cleanBytes 32) ∧ HRepr c K [] := by
  obtain ⟨c, t', p, k, e1, e2, e3, e4, e5, e6⟩ := HInit_same hw K hc ht hp hk
  obtain ⟨c', f1, f2⟩ := HMAC_SHA256_Init_spec _ (goodTf hw) ctx hc K
  rw [e2] at f1
  cases f1
  unfold HMAC_SHA256_InitS
  rw [e1, Res.bind_ok, memzero32_all e3, Res.bind_ok, insecure_memzero_all e5, Res.bind_ok, insecure_memzero_all e4, Res.bind_ok]
  exact ⟨_, rfl, f2⟩

theorem HRepr.sized {c : HMAC_SHA256_CTX} {K msg : Bytes} (h : HRepr c K msg) : c.Sized := ⟨h.i.sized, h.o.sized⟩

theorem hupdate_repr (hw : ShaHw) {c : HMAC_SHA256_CTX} {K msg : Bytes} (h : HRepr c K msg) (src : Bytes) {t : List W32} (ht : t.length = 72) :
    ∃ c' t', HMAC_SHA256_Update_internalS hw c src t = .ok (c', t') ∧ HRepr c' K (msg ++ src) ∧ t'.length = 72 := by
  obtain ⟨c1, t1, e1, e2, e3, e4⟩ := HUpdate_same hw src (HRepr.sized h) ht
  obtain ⟨c2, f1, f2⟩ := HMAC_SHA256_Update_spec _ (goodTf hw) c K msg src h
  rw [e2] at f1
  cases f1
  exact ⟨_, _, e1, f2, e3⟩

theorem hupdateS_repr (hw : ShaHw) {c : HMAC_SHA256_CTX} {K msg : Bytes} (h : HRepr c K msg) (src : Bytes) {t : List W32} (ht : t.length = 72) :
    ∃ c', HMAC_SHA256_UpdateS hw c src t = .ok (c', clean32) ∧ HRepr c' K (msg ++ src) := by
  obtain ⟨c', t', e1, e2, e3⟩ := hupdate_repr hw h src ht
  unfold HMAC_SHA256_UpdateS
  rw [e1, Res.bind_ok, memzero32_all e3, Res.bind_ok]
  exact ⟨_, rfl, e2⟩

theorem hfinalS_repr (hw : ShaHw) {c : HMAC_SHA256_CTX} {K msg : Bytes} (h : HRepr c K msg) {t : List W32} {ih : Bytes} (ht : t.length = 72)
    (hi : ih.length = 32) : HMAC_SHA256_FinalS hw c t ih = .ok (hmac K msg, cleanHctx, clean32, cleanBytes 32) := by
  obtain ⟨d, c1, t1, ih1, e1, e2, e3, e4, e5, e6⟩ := HFinal_same hw (HRepr.sized h) ht hi
  obtain ⟨c2, f1, f2⟩ := HMAC_SHA256_Final_spec _ (goodTf hw) c K msg h
  rw [e2] at f1
  obtain ⟨rfl, rfl⟩ := Prod.mk.inj (Res.ok.inj f1)
  unfold HMAC_SHA256_FinalS
  rw [e1, Res.bind_ok, memzeroHctx_all e4, Res.bind_ok, memzero32_all e5, Res.bind_ok, insecure_memzero_all e6, Res.bind_ok]
  rfl

/-- **C57**, HMAC_SHA256_Init, HMAC_SHA256_Update, …, HMAC_SHA256_Final: nothing of the key (padded or hashed), of the data or of the inner hash is left. -/
theorem C57_hmac (hw : ShaHw) (ctx : HMAC_SHA256_CTX) (hc : ctx.Sized) (K : Bytes) (t0 : List W32) (ht0 : t0.length = 72) (pad khash : Bytes)
    (hpad : pad.length = 64) (hkhash : khash.length = 32) (pieces : List (Bytes × List W32)) (hp : ∀ p ∈ pieces, p.2.length = 72)
    (t : List W32) (ht : t.length = 72) (ihash : Bytes) (hi : ihash.length = 32) :
    ∃ c0 c, HMAC_SHA256_InitS hw ctx K t0 pad khash = .ok (c0, clean32, cleanBytes 64, cleanBytes 32) ∧
      feed (HMAC_SHA256_UpdateS hw) c0 pieces = .ok (c, List.replicate pieces.length clean32) ∧
      HMAC_SHA256_FinalS hw c t ihash = .ok (hmac K (pieces.map (·.1)).flatten, cleanHctx, clean32, cleanBytes 32) := by
  obtain ⟨c0, a1, a2⟩ := hinitS_repr hw hc K ht0 hpad hkhash
  have step : ∀ (c : HMAC_SHA256_CTX) (msg : Bytes), HRepr c K msg →
      ∃ c', feed (HMAC_SHA256_UpdateS hw) c pieces = .ok (c', List.replicate pieces.length clean32) ∧ HRepr c' K (msg ++ (pieces.map (·.1)).flatten) := by
    induction pieces with
    | nil => intro c msg h; exact ⟨c, rfl, by simpa using h⟩
    | cons p ps ih =>
      intro c msg h
      obtain ⟨c1, e1, h1⟩ := hupdateS_repr hw h p.1 (hp p (by simp))
      obtain ⟨c2, e2, h2⟩ := ih (fun q hq => hp q (by simp [hq])) c1 _ h1
      unfold feed
      rw [e1, Res.bind_ok, e2, Res.bind_ok]
      exact ⟨c2, rfl, by simpa using h2⟩
  obtain ⟨c, e, h⟩ := step _ _ a2
  exact ⟨c0, c, a1, e, hfinalS_repr hw h ht hi⟩

/-- **C57**, HMAC_SHA256_Buf. -/
theorem C57_hmac_buf (hw : ShaHw) (ctx : HMAC_SHA256_CTX) (hc : ctx.Sized) (K msg : Bytes) (t : List W32) (ht : t.length = 72) (tmp8 : Bytes)
    (h8 : tmp8.length = 96) : HMAC_SHA256_BufS hw ctx K msg t tmp8 = .ok (hmac K msg, cleanHctx, clean32, cleanBytes 96) := by
  obtain ⟨c, t1, t8, e1, e2, e3, e4, e5⟩ := hmacInitTmp8_same hw K hc ht h8
  obtain ⟨c', f1, f2⟩ := HMAC_SHA256_Init_spec _ (goodTf hw) ctx hc K
  rw [e2] at f1
  cases f1
  obtain ⟨c1, t2, g1, g2, g3⟩ := hupdate_repr hw f2 msg e3
  obtain ⟨d, c3, t3, t83, k1, k2, k3, k4, k5, k6⟩ := hmacFinalTmp8_same hw (HRepr.sized g2) g3 e4
  obtain ⟨c4, m1, m2⟩ := HMAC_SHA256_Final_spec _ (goodTf hw) c1 K _ g2
  rw [k2] at m1
  obtain ⟨rfl, rfl⟩ := Prod.mk.inj (Res.ok.inj m1)
  unfold HMAC_SHA256_BufS
  rw [e1, Res.bind_ok, g1, Res.bind_ok, k1, Res.bind_ok, memzeroHctx_all k4, Res.bind_ok, memzero32_all k5, Res.bind_ok, insecure_memzero_all k6, Res.bind_ok]
  rfl

/-! ### PBKDF2 -/

/-- **C57**, PBKDF2_SHA256: the derived key is in the buffer (and nothing else changed there); the three HMAC contexts, the scratch arrays and the two blocks
on the stack are zero. -/
theorem C57_pbkdf2 (hw : ShaHw) (l : PbLocals) (h : l.Sized) (passwd salt : Bytes) (c : Nat) (h1 : 1 ≤ c) (_h2 : c < 2 ^ 64 - 1) (buf : Bytes) (dkLen : Nat)
    (hd : dkLen ≤ 32 * (2 ^ 32 - 1)) (hb : dkLen ≤ buf.length) :
    PBKDF2_SHA256S hw l passwd salt c buf dkLen =
      .ok (pbkdf2 passwd salt c dkLen ++ buf.drop dkLen, ⟨cleanHctx, cleanHctx, cleanHctx, clean32, cleanBytes 96, cleanBytes 32, cleanBytes 32⟩) := by
  obtain ⟨out, e1, e2⟩ := PBKDF2S_same hw h passwd salt c hd hb
  rw [PBKDF2_SHA256_spec _ (goodTf hw) _ h.Phctx passwd salt c h1 buf dkLen hd hb] at e2
  rw [e1, Res.ok.inj e2]
  rfl

/-! ### The random generator -/

structure HStk.Sized (k : HStk) : Prop where
  tmp32 : k.tmp32.length = 72
  pad : k.pad.length = 64
  khash : k.khash.length = 32
  ihash : k.ihash.length = 32
  tmp8 : k.tmp8.length = 96
  hctx : k.hctx.Sized

theorem stage_spec (hw : ShaHw) {k : HStk} (hk : HStk.Sized k) (b : Byte) (data K V : Bytes) (x : Byte) (hK : K.length = 32) (hV : V.length = 32)
    {ctx : HMAC_SHA256_CTX} (hc : ctx.Sized) :
    drbgStageS hw k b data (K, V ++ [x], ctx) =
      .ok (hmac K (V ++ [b] ++ data), hmac (hmac K (V ++ [b] ++ data)) V ++ [b], cleanHctx) := by
  unfold drbgStageS
  have w1 : wr (V ++ [x]) 32 b = .ok (V ++ [b]) := by
    rw [wr_ok _ (by simp [hV]), List.set_append_right _ _ (by omega), hV]
    rfl
  obtain ⟨c0, a1, a2⟩ := hinitS_repr hw hc K hk.tmp32 hk.pad hk.khash
  obtain ⟨c1, b1, b2⟩ := hupdateS_repr hw a2 (V ++ [b]) hk.tmp32
  obtain ⟨c2, d1, d2⟩ := hupdateS_repr hw b2 data hk.tmp32
  have e1 := hfinalS_repr hw d2 hk.tmp32 hk.ihash
  rw [List.nil_append] at e1
  have r1 : rdSlice (V ++ [b]) 0 32 = .ok V := by
    rw [rdSlice_ok (by simp [hV]), List.drop_zero, List.take_append_of_le_length (by omega), List.take_of_length_le (by omega)]
  have f1 := C57_hmac_buf hw k.hctx hk.hctx (hmac K (V ++ [b] ++ data)) V k.tmp32 hk.tmp32 k.tmp8 hk.tmp8
  have w2 : wrSlice (V ++ [b]) 0 (hmac (hmac K (V ++ [b] ++ data)) V) = .ok (hmac (hmac K (V ++ [b] ++ data)) V ++ [b]) := by
    rw [wrSlice_ok (by simp [hV]), List.take_zero, List.nil_append, hmac_length, List.drop_append_of_le_length (by omega), List.drop_of_length_le (by omega)]
    rfl
  simp only [w1, Res.bind_ok, rdSlice_whole hK, a1, rdSlice_whole (show (V ++ [b]).length = 33 by simp [hV]), b1, d1, e1,
    wrSlice_whole (show (hmac K (V ++ [b] ++ data)).length = K.length by rw [hmac_length, hK]), rdSlice_whole (hmac_length _ _), r1, f1, w2]

/-- **C57**, the update function of the generator: the state becomes what SP 800-90A says, and the local copies of key and value and the local HMAC
context are zero. -/
theorem C57_drbg_update (hw : ShaHw) (k : HStk) (hk : HStk.Sized k) (st : Drbg) (hK : st.Key.length = 32) (hV : st.V.length = 32) (data : Bytes)
    (K Vx : Bytes) (hk0 : K.length = 32) (hv0 : Vx.length = 33) (ctx : HMAC_SHA256_CTX) (hc : ctx.Sized) :
    drbgUpdateS hw k st data K Vx ctx =
      .ok ({ st with Key := (Spec.Drbg.update st.Key st.V data).1, V := (Spec.Drbg.update st.Key st.V data).2 }, cleanBytes 32, cleanBytes 33, cleanHctx) := by
  unfold drbgUpdateS
  have w2 : wrSlice Vx 0 st.V = .ok (st.V ++ [Vx[32]]) := by
    rw [wrSlice_ok (by omega), List.take_zero, List.nil_append, Nat.zero_add, hV, List.drop_eq_getElem_cons (by omega), List.drop_of_length_le (by omega)]
  rw [wrSlice_whole (by omega), Res.bind_ok, w2, Res.bind_ok, stage_spec hw hk 0x00 data st.Key st.V _ hK hV hc, Res.bind_ok]
  unfold Spec.Drbg.update
  have cz : cleanHctx.Sized := ⟨⟨rfl, rfl⟩, ⟨rfl, rfl⟩⟩
  have fin : ∀ (a v : Bytes) (b : Byte), a.length = 32 → v.length = 32 → (rdSlice a 0 32 >>= fun key =>
            rdSlice (v ++ [b]) 0 32 >>= fun v' =>
              insecure_memzero a 32 >>= fun K => insecure_memzero (v ++ [b]) 33 >>= fun Vx =>
                (Res.ok ({ st with Key := key, V := v' }, K, Vx, cleanHctx) : Res (Drbg × Bytes × Bytes × HMAC_SHA256_CTX))) =
      .ok ({ st with Key := a, V := v }, cleanBytes 32, cleanBytes 33, cleanHctx) := by
    intro a v b ha hv
    have r1 : rdSlice (v ++ [b]) 0 32 = .ok v := by
      rw [rdSlice_ok (by simp [hv]), List.drop_zero, List.take_append_of_le_length (by omega), List.take_of_length_le (by omega)]
    rw [rdSlice_whole ha, Res.bind_ok, r1, Res.bind_ok, insecure_memzero_all ha, Res.bind_ok, insecure_memzero_all (by simp [hv]), Res.bind_ok]
    rfl
  by_cases hd : data.length ≠ 0
  · rw [if_pos hd, stage_spec hw hk 0x01 data _ _ _ (hmac_length _ _) (hmac_length _ _) cz, Res.bind_ok]
    rw [if_neg (show ¬ data = [] from fun h => hd (by rw [h]; rfl))]
    exact fin _ _ _ (hmac_length _ _) (hmac_length _ _)
  · rw [if_neg hd, Res.bind_ok, if_pos (show data = [] from List.length_eq_zero_iff.1 (by omega))]
    exact fin _ _ _ (hmac_length _ _) (hmac_length _ _)

theorem generate_seed_length (as : List (Option W32)) (n : Nat) (b : Bytes) (h : generate_seed_rdrand as n = some b) : b.length = 4 * n := by
  induction n generalizing as b with
  | zero => unfold generate_seed_rdrand at h; cases h; rfl
  | succ n ih =>
    unfold generate_seed_rdrand at h
    split at h
    · rename_i w rest
      cases h' : generate_seed_rdrand rest n with
      | none => rw [h'] at h; cases h
      | some x =>
        rw [h'] at h
        cases h
        have := ih _ _ h'
        simp [le32enc, this]; omega
    · cases h

theorem entropy_buf_length {os : EntropyOs} {buf : Bytes} {n : Nat} {o : EntOut} (hn : n ≤ buf.length) (h : entropy_read os buf n = .ok (some o)) :
    o.buf.length = buf.length := by
  obtain ⟨-, -, ⟨d, h1, h2⟩, -⟩ := entropy_read_spec hn h
  rw [h2]; simp; omega

theorem seedS_spec (hw : ShaHw) {k : HStk} (hk : HStk.Sized k) (has : Bool) (junk : HMAC_SHA256_CTX) (hj : junk.Sized) (st : Drbg) (hK : st.Key.length = 32)
    (hV : st.V.length = 32) (seed : Bytes) (as : List (Option W32)) (K Vx : Bytes) (hk0 : K.length = 32) (hv0 : Vx.length = 33) (ctx : HMAC_SHA256_CTX)
    (hc : ctx.Sized) :
    ∃ st' rb, seedS hw k has st seed seed.length as K Vx ctx = .ok (st', cleanBytes seed.length, rb) ∧ (rb = none ∨ rb = some (cleanBytes 32)) ∧
      (drbgUpdate ⟨shaTransform hw, junk, has⟩ st seed >>= fun st => update_from_rdrand ⟨shaTransform hw, junk, has⟩ st as) = .ok st' := by
  have g : DrbgSys.Good ⟨shaTransform hw, junk, has⟩ := ⟨goodTf hw, hj⟩
  have ul := update_length st.Key st.V seed
  unfold seedS update_from_rdrandS update_from_rdrand
  rw [rdSlice_whole rfl, Res.bind_ok, C57_drbg_update hw k hk st hK hV seed K Vx hk0 hv0 ctx hc, Res.bind_ok, drbgUpdate_spec g st hV, Res.bind_ok]
  simp only []
  cases has with
  | false =>
    rw [if_neg (by simp), if_neg (by simp), Res.bind_ok, insecure_memzero_all rfl, Res.bind_ok]
    exact ⟨_, _, rfl, .inl rfl, rfl⟩
  | true =>
    rw [if_pos rfl, if_pos rfl]
    cases hg : generate_seed_rdrand as 8 with
    | none =>
      simp only []
      rw [Res.bind_ok, insecure_memzero_all rfl, Res.bind_ok]
      exact ⟨_, _, rfl, .inl rfl, rfl⟩
    | some b =>
      simp only []
      rw [C57_drbg_update hw k hk _ ul.1 ul.2 b K Vx hk0 hv0 ctx hc, Res.bind_ok, insecure_memzero_all (generate_seed_length _ _ _ hg), Res.bind_ok, Res.bind_ok,
        insecure_memzero_all rfl, Res.bind_ok, drbgUpdate_spec g _ ul.2]
      exact ⟨_, _, rfl, .inr rfl, rfl⟩

/-- **C57**, instantiating the generator: the seed material (and what RDRAND delivered) is gone from the stack once it has been mixed in.  (If it could not be
obtained, it is not used.)  `instantiate` is the function about which C39 is stated. -/
theorem C57_instantiate (hw : ShaHw) (k : HStk) (hk : HStk.Sized k) (has : Bool) (junk : HMAC_SHA256_CTX) (hj : junk.Sized) (e : SeedEnv) (st : Drbg)
    (K Vx : Bytes) (hk0 : K.length = 32) (hv0 : Vx.length = 33) (ctx : HMAC_SHA256_CTX) (hc : ctx.Sized) (b : Bool) (st' : Drbg) (seed : Bytes) (rb : Option Bytes)
    (h : instantiateS hw k has e st K Vx ctx = .ok (some (b, st', seed, rb))) :
    instantiate ⟨shaTransform hw, junk, has⟩ e st = .ok (some (b, st')) ∧ (b = true → seed = cleanBytes 48 ∧ (rb = none ∨ rb = some (cleanBytes 32))) := by
  unfold instantiateS at h
  unfold instantiate
  rw [Res.bind_eq_ok] at h
  obtain ⟨r, h1, h⟩ := h
  rw [h1, Res.bind_ok]
  cases r with
  | none => cases h
  | some r =>
    simp only [] at h ⊢
    cases hr : r.ok with
    | false =>
      rw [hr] at h
      simp only [Bool.not_false, if_true] at h ⊢
      obtain ⟨rfl, h'⟩ := Prod.mk.inj (Option.some.inj (Res.ok.inj h))
      obtain ⟨rfl, -⟩ := Prod.mk.inj h'
      exact ⟨rfl, fun h => (by cases h)⟩
    | true =>
      rw [hr] at h
      simp only [Bool.not_true, Bool.false_eq_true, if_false] at h ⊢
      have hl : r.buf.length = 48 := by rw [entropy_buf_length (by simp) h1]; simp
      obtain ⟨s1, rb1, a1, a2, a3⟩ := seedS_spec hw hk has junk hj { st with Key := List.replicate 32 0x00, V := List.replicate 32 0x01, reseed_counter := 1 }
        (by simp) (by simp) r.buf e.rdrand K Vx hk0 hv0 ctx hc
      rw [hl] at a1
      rw [a1, Res.bind_ok] at h
      obtain ⟨rfl, h'⟩ := Prod.mk.inj (Option.some.inj (Res.ok.inj h))
      obtain ⟨rfl, h''⟩ := Prod.mk.inj h'
      obtain ⟨rfl, rfl⟩ := Prod.mk.inj h''
      refine ⟨?_, fun _ => ⟨rfl, a2⟩⟩
      rw [List.take_of_length_le (by omega)]
      rw [Res.bind_eq_ok] at a3
      obtain ⟨s2, b1, b2⟩ := a3
      rw [b1, Res.bind_ok, b2, Res.bind_ok]

/-- **C57**, reseeding. -/
theorem C57_reseed (hw : ShaHw) (k : HStk) (hk : HStk.Sized k) (has : Bool) (junk : HMAC_SHA256_CTX) (hj : junk.Sized) (e : SeedEnv) (st : Drbg)
    (hK : st.Key.length = 32) (hV : st.V.length = 32) (K Vx : Bytes) (hk0 : K.length = 32) (hv0 : Vx.length = 33) (ctx : HMAC_SHA256_CTX) (hc : ctx.Sized)
    (b : Bool) (st' : Drbg) (seed : Bytes) (rb : Option Bytes) (h : reseedS hw k has e st K Vx ctx = .ok (some (b, st', seed, rb))) :
    reseed ⟨shaTransform hw, junk, has⟩ e st = .ok (some (b, st')) ∧ (b = true → seed = cleanBytes 32 ∧ (rb = none ∨ rb = some (cleanBytes 32))) := by
  unfold reseedS at h
  unfold reseed
  rw [Res.bind_eq_ok] at h
  obtain ⟨r, h1, h⟩ := h
  rw [h1, Res.bind_ok]
  cases r with
  | none => cases h
  | some r =>
    simp only [] at h ⊢
    cases hr : r.ok with
    | false =>
      rw [hr] at h
      simp only [Bool.not_false, if_true] at h ⊢
      obtain ⟨rfl, h'⟩ := Prod.mk.inj (Option.some.inj (Res.ok.inj h))
      obtain ⟨rfl, -⟩ := Prod.mk.inj h'
      exact ⟨rfl, fun h => (by cases h)⟩
    | true =>
      rw [hr] at h
      simp only [Bool.not_true, Bool.false_eq_true, if_false] at h ⊢
      have hl : r.buf.length = 32 := by rw [entropy_buf_length (by simp) h1]; simp
      obtain ⟨s1, rb1, a1, a2, a3⟩ := seedS_spec hw hk has junk hj st hK hV r.buf e.rdrand K Vx hk0 hv0 ctx hc
      rw [hl] at a1
      rw [a1, Res.bind_ok] at h
      obtain ⟨rfl, h'⟩ := Prod.mk.inj (Option.some.inj (Res.ok.inj h))
      obtain ⟨rfl, h''⟩ := Prod.mk.inj h'
      obtain ⟨rfl, rfl⟩ := Prod.mk.inj h''
      refine ⟨?_, fun _ => ⟨rfl, a2⟩⟩
      rw [List.take_of_length_le (by omega)]
      rw [Res.bind_eq_ok] at a3
      obtain ⟨s2, b1, b2⟩ := a3
      rw [b1, Res.bind_ok, b2, Res.bind_ok]

/-! ### Examples -/

/-- Non-vacuity: a stack full of 0xee satisfies the hypotheses. -/
def dirtyCtx : SHA256_CTX := ⟨List.replicate 8 0xeeeeeeee, 0xee, List.replicate 64 0xee⟩
def dirtyLocals : PbLocals :=
  ⟨⟨dirtyCtx, dirtyCtx⟩, ⟨dirtyCtx, dirtyCtx⟩, ⟨dirtyCtx, dirtyCtx⟩, List.replicate 72 0xeeeeeeee, List.replicate 96 0xee, List.replicate 32 0xee,
    List.replicate 32 0xee⟩

example : dirtyLocals.Sized := by
  have h : dirtyCtx.Sized := ⟨by simp [dirtyCtx], by simp [dirtyCtx]⟩
  exact ⟨⟨h, h⟩, ⟨h, h⟩, ⟨h, h⟩, by simp [dirtyLocals], by simp [dirtyLocals], by simp [dirtyLocals], by simp [dirtyLocals]⟩

/-- Before the cleaning, the scratch array contains the message: without `insecure_memzero`, the first sixteen words of `tmp32` are the block hashed last. -/
theorem scratch_holds_message (s : Regs) (block : Bytes) (hb : block.length = 64) (t : List W32) (ht : t.length = 72) :
    ∃ st t', transformS .software s.toList block t = .ok (st, t') ∧ ∀ i < 16, t'[i]? = some (wordBE block i) := by
  have r1 : rdSlice t 0 64 = .ok ((t.drop 0).take 64) := rdSlice_ok (by omega)
  have r2 : rdSlice t 64 8 = .ok ((t.drop 64).take 8) := rdSlice_ok (by omega)
  obtain ⟨W', S', e, h1, h2⟩ := SHA256_Transform_sw_full s block ((t.drop 0).take 64) ((t.drop 64).take 8) hb (by simp; omega) (by simp; omega)
  unfold transformS
  simp only [r1, r2, Res.bind_ok, e]
  refine ⟨_, _, rfl, fun i hi => ?_⟩
  have := h1.2 i (by omega)
  rw [List.getElem?_append_left (by rw [h1.1]; omega), this]
  congr 1
  unfold Wt
  rw [if_pos hi]

end Scrypt.Props
