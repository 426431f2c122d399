import Verif.Model.AesCtr
import Verif.Proofs.Aes
/-
AES-CTR: every path computes the counter-mode key stream.
-/
namespace Scrypt
open Spec

/-! ### Facts about the specification -/

theorem ctrStream_length (E : Bytes → Bytes) (nonce pos n : Nat) : (ctrStream E nonce pos n).length = n := by
  simp [ctrStream]

theorem ctr_length (E : Bytes → Bytes) (nonce pos : Nat) (d : Bytes) : (ctr E nonce pos d).length = d.length := by
  simp [ctr, xorBytes, ctrStream_length]

theorem ctrStream_add (E : Bytes → Bytes) (nonce pos n m : Nat) :
    ctrStream E nonce pos (n + m) = ctrStream E nonce pos n ++ ctrStream E nonce (pos + n) m := by
  unfold ctrStream
  rw [List.range_add, List.map_append, List.map_map]
  congr 1
  apply List.map_congr_left
  intro j _
  simp only [Function.comp_apply, Nat.add_assoc]

theorem ctr_append (E : Bytes → Bytes) (nonce pos : Nat) (a b : Bytes) :
    ctr E nonce pos (a ++ b) = ctr E nonce pos a ++ ctr E nonce (pos + a.length) b := by
  unfold ctr xorBytes
  rw [List.length_append, ctrStream_add, List.zipWith_append (by rw [ctrStream_length])]

theorem ctr_nil (E : Bytes → Bytes) (nonce pos : Nat) : ctr E nonce pos [] = [] := rfl

theorem ctr_ctr (E : Bytes → Bytes) (nonce pos : Nat) (d : Bytes) : ctr E nonce pos (ctr E nonce pos d) = d := by
  unfold ctr
  have hl : (xorBytes d (ctrStream E nonce pos d.length)).length = d.length := by simp [xorBytes, ctrStream_length]
  rw [hl]
  have hs := ctrStream_length E nonce pos d.length
  generalize ctrStream E nonce pos d.length = k at hs
  unfold xorBytes
  induction d generalizing k with
  | nil => simp
  | cons x d ih =>
    cases k with
    | nil => simp at hs
    | cons y k =>
      simp only [List.zipWith_cons_cons, List.cons.injEq]
      refine ⟨by rw [BitVec.xor_assoc, BitVec.xor_self, BitVec.xor_zero], ih (by simp [xorBytes, ctrStream_length]) k (by simpa using hs)⟩

theorem ctr_take_add (E : Bytes → Bytes) (nonce pos : Nat) (d : Bytes) (n m : Nat) (h : n ≤ d.length) :
    ctr E nonce pos (d.take n) ++ ctr E nonce (pos + n) ((d.drop n).take m) = ctr E nonce pos (d.take (n + m)) := by
  rw [List.take_add, ctr_append, List.length_take, Nat.min_eq_left h]

/-- The counter block. -/
def ctrBlk (nonce c : Nat) : Bytes := beBytes 8 nonce ++ beBytes 8 c

theorem ctrBlk_length (nonce c : Nat) : (ctrBlk nonce c).length = 16 := by simp [ctrBlk]

theorem ctrStream_block (E : Bytes → Bytes) (nonce pos n : Nat) (hE : (E (ctrBlk nonce (pos / 16))).length = 16) (h : pos % 16 + n ≤ 16) :
    ctrStream E nonce pos n = ((E (ctrBlk nonce (pos / 16))).drop (pos % 16)).take n := by
  unfold ctrStream ctrByte
  apply List.ext_getElem
  · rw [List.length_map, List.length_range, List.length_take, List.length_drop, hE]; omega
  · intro i h1 h2
    rw [List.length_map, List.length_range] at h1
    simp only [List.getElem_map, List.getElem_range, List.getElem_take, List.getElem_drop]
    rw [show (pos + i) / 16 = pos / 16 by omega, show (pos + i) % 16 = pos % 16 + i by omega]
    show (E (ctrBlk nonce (pos / 16))).getD _ 0 = _
    rw [List.getD_eq_getElem?_getD, List.getElem?_eq_getElem (by omega)]
    rfl

/-! ### Representation invariant -/

/-- The stream is at byte position `pos` of the key stream of block function `E` with this nonce. -/
structure CtrRepr (E : Bytes → Bytes) (nonce pos : Nat) (s : CtrStream) : Prop where
  ctr : s.bytectr = BitVec.ofNat 64 pos
  blen : s.buf.length = 16
  plen : s.pblk.length = 16
  pn : s.pblk.take 8 = beBytes 8 nonce
  mid : pos % 16 ≠ 0 → s.pblk = ctrBlk nonce (pos / 16) ∧ s.buf = E (ctrBlk nonce (pos / 16))
  edge : pos % 16 = 0 → if pos / 16 % 256 = 0 then s.pblk[15]? = some 0xff else s.pblk = ctrBlk nonce (pos / 16 - 1)

/-- The block function in use. -/
def BlockFn (hw : AesHw) (ossl : Ossl) (key : AesKey) (E : Bytes → Bytes) : Prop :=
  ∀ b, b.length = 16 → crypto_aes_encrypt_block hw ossl b key = .ok (E b) ∧ (E b).length = 16

/-- `n` bytes were processed. -/
structure Stepped (E : Bytes → Bytes) (nonce pos : Nat) (s : CtrStream) (c : Cursor) (n : Nat) (r : CtrStream × Cursor) : Prop where
  key : r.1.key = s.key
  repr : CtrRepr E nonce (pos + n) r.1
  cur : r.2 = ⟨c.inb.drop n, c.out ++ Spec.ctr E nonce pos (c.inb.take n), c.buflen - n⟩

theorem Stepped.zero {E : Bytes → Bytes} {nonce pos : Nat} {s : CtrStream} {c : Cursor} (h : CtrRepr E nonce pos s) : Stepped E nonce pos s c 0 (s, c) :=
  ⟨rfl, h, by simp [ctr_nil]⟩

theorem Stepped.trans {E : Bytes → Bytes} {nonce pos : Nat} {s : CtrStream} {c : Cursor} {n m : Nat} {r r' : CtrStream × Cursor}
    (h : Stepped E nonce pos s c n r) (h' : Stepped E nonce (pos + n) r.1 r.2 m r') (hn : n ≤ c.inb.length) : Stepped E nonce pos s c (n + m) r' := by
  refine ⟨h'.key.trans h.key, ?_, ?_⟩
  · rw [← Nat.add_assoc]; exact h'.repr
  · rw [h'.cur, h.cur]
    simp only [Cursor.mk.injEq]
    refine ⟨by rw [List.drop_drop], ?_, by omega⟩
    rw [List.append_assoc, ctr_take_add _ _ _ _ _ _ hn]

theorem toNat_pos (pos : Nat) (h : pos < 2 ^ 64) : (BitVec.ofNat 64 pos).toNat = pos := by
  rw [BitVec.toNat_ofNat]; exact Nat.mod_eq_of_lt h

theorem bytemod_eq (pos : Nat) (h : pos < 2 ^ 64) : (BitVec.ofNat 64 pos % 16).toNat = pos % 16 := by
  rw [BitVec.toNat_umod, toNat_pos pos h]; rfl

theorem blkctr_eq (pos : Nat) (h : pos < 2 ^ 64) : (BitVec.ofNat 64 pos / 16).toNat = pos / 16 := by
  rw [BitVec.toNat_udiv, toNat_pos pos h]; rfl

theorem ofNat8_inj (a b : Nat) (h : BitVec.ofNat 8 a = BitVec.ofNat 8 b) : a % 256 = b % 256 := by
  have := congrArg BitVec.toNat h
  simpa using this

theorem ctrBlk_15 (nonce c : Nat) : (ctrBlk nonce c)[15]? = some (BitVec.ofNat 8 c) := by
  unfold ctrBlk
  rw [List.getElem?_append_right (by simp), beBytes_length, beBytes, List.getElem?_append_right (by simp)]
  simp

theorem ctrBlk_set (nonce c : Nat) (h0 : c % 256 ≠ 0) : (ctrBlk nonce (c - 1)).set 15 (BitVec.ofNat 8 c) = ctrBlk nonce c := by
  unfold ctrBlk
  rw [List.set_append_right _ _ (by simp), beBytes_length, show beBytes 8 (c - 1) = beBytes 7 ((c - 1) / 256) ++ [BitVec.ofNat 8 (c - 1)] from rfl,
    show beBytes 8 c = beBytes 7 (c / 256) ++ [BitVec.ofNat 8 c] from rfl, List.set_append_right _ _ (by simp), beBytes_length, show (c - 1) / 256 = c / 256 by omega]
  rfl

theorem generate_ok {E : Bytes → Bytes} {nonce pos : Nat} {s : CtrStream} (hw : AesHw) (ossl : Ossl) (hE : BlockFn hw ossl s.key E)
    (h : CtrRepr E nonce pos s) (hp : pos < 2 ^ 64) (h0 : pos % 16 = 0) :
    cipherblock_generate hw ossl s = .ok { s with pblk := ctrBlk nonce (pos / 16), buf := E (ctrBlk nonce (pos / 16)) } := by
  unfold cipherblock_generate
  have ha : (s.bytectr % 16 == 0) = true := by
    rw [h.ctr, beq_iff_eq]
    apply BitVec.eq_of_toNat_eq
    rw [bytemod_eq pos hp, h0]; rfl
  rw [ha]
  simp only [cassert_true, Res.bind_ok]
  have he := h.edge h0
  split at he
  · rename_i hc
    rw [rd_some he]
    simp only [Res.bind_ok]
    rw [wr_ok _ (by rw [h.plen]; omega)]
    simp only [Res.bind_ok]
    rw [rd_some (List.getElem?_set_self (by rw [h.plen]; omega))]
    simp only [Res.bind_ok]
    rw [if_pos (by decide), be64enc_eq, h.ctr, blkctr_eq pos hp, wrSlice_ok (by simp [h.plen])]
    have e : (s.pblk.set 15 (255#8 + 1)).take 8 ++ beBytes 8 (pos / 16) ++ (s.pblk.set 15 (255#8 + 1)).drop (8 + (beBytes 8 (pos / 16)).length) = ctrBlk nonce (pos / 16) := by
      rw [List.drop_of_length_le (by simp [h.plen]), List.append_nil, List.take_set_of_le (by omega), h.pn]; rfl
    simp only [Res.bind_ok]
    erw [e]
    rw [(hE _ (ctrBlk_length _ _)).1]
    simp only [Res.bind_ok, Res.pure_eq]
  · rename_i hc
    rw [he, rd_some (ctrBlk_15 _ _)]
    simp only [Res.bind_ok]
    rw [wr_ok _ (by rw [ctrBlk_length]; omega)]
    have e1 : BitVec.ofNat 8 (pos / 16 - 1) + 1 = BitVec.ofNat 8 (pos / 16) := by
      rw [show (1 : Byte) = BitVec.ofNat 8 1 from rfl, ← BitVec.ofNat_add, show pos / 16 - 1 + 1 = pos / 16 by omega]
    simp only [Res.bind_ok]
    rw [e1, ctrBlk_set _ _ hc, rd_some (ctrBlk_15 _ _)]
    simp only [Res.bind_ok]
    rw [if_neg (fun h => hc (by have := ofNat8_inj (pos / 16) 0 h; omega))]
    simp only [Res.bind_ok, Res.pure_eq]
    rw [(hE _ (ctrBlk_length _ _)).1]
    simp only [Res.bind_ok]

theorem use_loop (inb buf : Bytes) (n m : Nat) (h1 : n ≤ inb.length) (h2 : m + n ≤ buf.length) :
    forLoop n (fun o i => do
      let a ← rd inb i
      let b ← rd buf (m + i)
      return o ++ [a ^^^ b]) [] = .ok (xorBytes (inb.take n) ((buf.drop m).take n)) := by
  induction n with
  | zero => simp [xorBytes]
  | succ n ih =>
    rw [forLoop_succ, ih (by omega) (by omega)]
    simp only [Res.bind_ok]
    rw [rd_ok (show n < inb.length by omega), rd_ok (show m + n < buf.length by omega)]
    simp only [Res.bind_ok, Res.pure_eq]
    rw [List.take_succ_eq_append_getElem (show n < inb.length by omega), List.take_succ_eq_append_getElem (show n < (buf.drop m).length by rw [List.length_drop]; omega)]
    unfold xorBytes
    rw [List.zipWith_append (by simp; omega)]
    simp

theorem use_ok {E : Bytes → Bytes} {nonce pos : Nat} {s : CtrStream} (c : Cursor) (n : Nat)
    (hb : s.bytectr = BitVec.ofNat 64 pos) (hE : (E (ctrBlk nonce (pos / 16))).length = 16)
    (h1 : s.pblk = ctrBlk nonce (pos / 16)) (h2 : s.buf = E (ctrBlk nonce (pos / 16)))
    (hn : n ≤ c.inb.length) (hm : pos % 16 + n ≤ 16) (h0 : pos % 16 ≠ 0 ∨ 0 < n) :
    ∃ r, cipherblock_use s c n (pos % 16) = .ok r ∧ Stepped E nonce pos s c n r := by
  unfold cipherblock_use
  rw [use_loop _ _ _ _ hn (by rw [h2, hE]; omega)]
  refine ⟨_, rfl, rfl, ?_, ?_⟩
  · refine ⟨?_, ?_, ?_, ?_, ?_, ?_⟩
    · show s.bytectr + BitVec.ofNat 64 n = _
      rw [hb, ← BitVec.ofNat_add]
    · show s.buf.length = 16
      rw [h2, hE]
    · show s.pblk.length = 16
      rw [h1, ctrBlk_length]
    · show s.pblk.take 8 = _
      rw [h1, ctrBlk, List.take_append_of_le_length (by simp), List.take_of_length_le (by simp)]
    · intro hne
      show s.pblk = _ ∧ s.buf = _
      rw [show (pos + n) / 16 = pos / 16 by omega]
      exact ⟨h1, h2⟩
    · intro heq
      show if _ then s.pblk[15]? = _ else s.pblk = _
      have e : (pos + n) / 16 = pos / 16 + 1 := by omega
      rw [e]
      split
      · rename_i hc
        rw [h1, ctrBlk_15]
        congr 1
        apply BitVec.eq_of_toNat_eq
        rw [BitVec.toNat_ofNat]
        show _ = 255
        omega
      · rw [h1, Nat.add_sub_cancel]
  · show (⟨_, c.out ++ _, _⟩ : Cursor) = _
    congr 2
    unfold Spec.ctr
    rw [List.length_take, Nat.min_eq_left hn, ctrStream_block _ _ _ _ hE hm, h2]

theorem pre_ok {E : Bytes → Bytes} {nonce pos : Nat} {s : CtrStream} (c : Cursor) (hl : ∀ b, b.length = 16 → (E b).length = 16)
    (h : CtrRepr E nonce pos s) (hp : pos < 2 ^ 64) (hc : c.buflen ≤ c.inb.length) :
    ∃ b r n, pre_wholeblock s c = .ok (b, r) ∧ Stepped E nonce pos s c n r ∧ n ≤ c.buflen ∧ (if b then n = c.buflen else (pos + n) % 16 = 0) := by
  unfold pre_wholeblock
  simp only [h.ctr, bytemod_eq pos hp]
  by_cases h0 : pos % 16 = 0
  · rw [if_neg (by omega)]
    exact ⟨false, (s, c), 0, rfl, Stepped.zero h, by omega, by simpa using h0⟩
  · rw [if_pos h0]
    obtain ⟨m1, m2⟩ := h.mid h0
    by_cases h2 : pos % 16 + c.buflen ≤ 16
    · rw [if_pos h2]
      obtain ⟨r, e, hs⟩ := use_ok c c.buflen h.ctr (hl _ (ctrBlk_length _ _)) m1 m2 hc h2 (.inl h0)
      rw [e]
      exact ⟨true, r, c.buflen, rfl, hs, Nat.le_refl _, by simp⟩
    · rw [if_neg h2]
      obtain ⟨r, e, hs⟩ := use_ok c (16 - pos % 16) h.ctr (hl _ (ctrBlk_length _ _)) m1 m2 (by omega) (by omega) (.inl h0)
      rw [e]
      exact ⟨false, r, 16 - pos % 16, rfl, hs, by omega, by simp only [Bool.false_eq_true, if_false]; omega⟩

theorem gen_use_ok {E : Bytes → Bytes} {nonce pos : Nat} {s : CtrStream} (hw : AesHw) (ossl : Ossl) (hE : BlockFn hw ossl s.key E)
    (c : Cursor) (n : Nat) (h : CtrRepr E nonce pos s) (hp : pos < 2 ^ 64) (h0 : pos % 16 = 0) (hn : n ≤ c.inb.length) (hn1 : 0 < n) (hn2 : n ≤ 16) :
    ∃ r, (cipherblock_generate hw ossl s >>= fun s => cipherblock_use s c n 0) = .ok r ∧ Stepped E nonce pos s c n r := by
  rw [generate_ok hw ossl hE h hp h0, Res.bind_ok]
  have := use_ok (E := E) (nonce := nonce) (pos := pos) (s := { s with pblk := ctrBlk nonce (pos / 16), buf := E (ctrBlk nonce (pos / 16)) }) c n
    h.ctr (hE _ (ctrBlk_length _ _)).2 rfl rfl hn (by omega) (.inr hn1)
  rw [h0] at this
  obtain ⟨r, e, hs⟩ := this
  exact ⟨r, e, hs.key, hs.repr, hs.cur⟩

theorem post_ok {E : Bytes → Bytes} {nonce pos : Nat} {s : CtrStream} (hw : AesHw) (ossl : Ossl) (hE : BlockFn hw ossl s.key E)
    (c : Cursor) (h : CtrRepr E nonce pos s) (hp : pos < 2 ^ 64) (h0 : pos % 16 = 0) (hn : c.buflen ≤ c.inb.length) (hn2 : c.buflen < 16) :
    ∃ r, post_wholeblock hw ossl s c = .ok r ∧ Stepped E nonce pos s c c.buflen r := by
  unfold post_wholeblock
  split
  · exact gen_use_ok hw ossl hE c c.buflen h hp h0 hn (by omega) (by omega)
  · rename_i h1
    rw [show c.buflen = 0 by omega]
    exact ⟨_, rfl, Stepped.zero h⟩

theorem portable_loop_ok {E : Bytes → Bytes} {nonce : Nat} (hw : AesHw) (ossl : Ossl) (key : AesKey) (hE : BlockFn hw ossl key E) (fuel : Nat) :
    ∀ (s : CtrStream) (c : Cursor) (pos : Nat), s.key = key → CtrRepr E nonce pos s → pos + c.buflen < 2 ^ 64 → pos % 16 = 0 → c.buflen ≤ c.inb.length → c.buflen ≤ fuel →
      ∃ r, portable_loop hw ossl fuel s c = .ok r ∧ Stepped E nonce pos s c (16 * (c.buflen / 16)) r := by
  induction fuel with
  | zero =>
    intro s c pos hk h hp h0 hc hf
    unfold portable_loop
    rw [if_neg (by omega), show 16 * (c.buflen / 16) = 0 by omega]
    exact ⟨_, rfl, Stepped.zero h⟩
  | succ fuel ih =>
    intro s c pos hk h hp h0 hc hf
    unfold portable_loop
    by_cases h16 : c.buflen ≥ 16
    · rw [if_pos h16]
      obtain ⟨r, e, hs⟩ := gen_use_ok hw ossl (hk ▸ hE) c 16 h (by omega) h0 (by omega) (by omega) (by omega)
      obtain ⟨s1, c1⟩ := r
      have e' : (cipherblock_generate hw ossl s >>= fun s => cipherblock_use s c 16 0 >>= fun x => match x with | (s, c) => portable_loop hw ossl fuel s c) =
          portable_loop hw ossl fuel s1 c1 := by
        rw [← bind_assoc, e]; rfl
      rw [e']
      have hc1 : c1 = ⟨c.inb.drop 16, c.out ++ Spec.ctr E nonce pos (c.inb.take 16), c.buflen - 16⟩ := hs.cur
      have hbl : c1.buflen = c.buflen - 16 := by rw [hc1]
      have hil : c1.inb.length = c.inb.length - 16 := by rw [hc1, List.length_drop]
      obtain ⟨r, e2, hs2⟩ := ih s1 c1 (pos + 16) (hs.key.trans hk) hs.repr (by omega) (by omega) (by omega) (by omega)
      refine ⟨r, e2, ?_⟩
      have := hs.trans hs2 (by omega)
      rwa [hbl, show 16 + 16 * ((c.buflen - 16) / 16) = 16 * (c.buflen / 16) by omega] at this
    · rw [if_neg h16, show 16 * (c.buflen / 16) = 0 by omega]
      exact ⟨_, rfl, Stepped.zero h⟩

/-- The three stages, for any whole-block stage that does the right thing. -/
theorem stream_ok {E : Bytes → Bytes} {nonce pos : Nat} {s : CtrStream} (hw : AesHw) (ossl : Ossl) (hE : BlockFn hw ossl s.key E)
    (c : Cursor) (h : CtrRepr E nonce pos s) (hp : pos + c.buflen < 2 ^ 64) (hc : c.buflen ≤ c.inb.length)
    (whole : CtrStream → Cursor → Res (CtrStream × Cursor))
    (hwhole : ∀ (s' : CtrStream) (c' : Cursor) (pos' : Nat), s'.key = s.key → CtrRepr E nonce pos' s' → pos' + c'.buflen < 2 ^ 64 → pos' % 16 = 0 → c'.buflen ≤ c'.inb.length →
      ∃ r, whole s' c' = .ok r ∧ Stepped E nonce pos' s' c' (16 * (c'.buflen / 16)) r) :
    ∃ r, (do
      let (done, s, c) ← pre_wholeblock s c
      if done then return (s, c)
      let (s, c) ← whole s c
      post_wholeblock hw ossl s c) = .ok r ∧ Stepped E nonce pos s c c.buflen r := by
  obtain ⟨b, ⟨s1, c1⟩, n, e, hs, hn, hb⟩ := pre_ok c (fun b hb => (hE b hb).2) h (by omega) hc
  rw [e]
  simp only [Res.bind_ok]
  cases b with
  | true =>
    simp only [if_pos] at hb
    subst hb
    exact ⟨_, rfl, hs⟩
  | false =>
    simp only [Bool.false_eq_true, if_false] at hb ⊢
    have hc1 : c1 = ⟨c.inb.drop n, c.out ++ Spec.ctr E nonce pos (c.inb.take n), c.buflen - n⟩ := hs.cur
    have hbl : c1.buflen = c.buflen - n := by rw [hc1]
    have hil : c1.inb.length = c.inb.length - n := by rw [hc1, List.length_drop]
    obtain ⟨⟨s2, c2⟩, e2, hs2⟩ := hwhole s1 c1 (pos + n) hs.key hs.repr (by omega) hb (by omega)
    rw [e2]
    simp only [Res.bind_ok]
    have hc2 : c2 = ⟨c1.inb.drop (16 * (c1.buflen / 16)), c1.out ++ Spec.ctr E nonce (pos + n) (c1.inb.take (16 * (c1.buflen / 16))), c1.buflen - 16 * (c1.buflen / 16)⟩ := hs2.cur
    have hbl2 : c2.buflen = c1.buflen - 16 * (c1.buflen / 16) := by rw [hc2]
    have hil2 : c2.inb.length = c1.inb.length - 16 * (c1.buflen / 16) := by rw [hc2, List.length_drop]
    have hs12 := hs.trans hs2 (by omega)
    have hrp := hs12.repr
    obtain ⟨r, e3, hs3⟩ := post_ok (pos := pos + (n + 16 * (c1.buflen / 16))) hw ossl (by rw [show s2.key = s.key from hs12.key]; exact hE) c2 hrp (by omega) (by omega) (by omega) (by omega)
    refine ⟨r, e3, ?_⟩
    have := hs12.trans hs3 (by omega)
    rwa [hbl2, show n + 16 * (c1.buflen / 16) + (c1.buflen - 16 * (c1.buflen / 16)) = c.buflen by omega] at this

theorem portable_ok {E : Bytes → Bytes} {nonce pos : Nat} {s : CtrStream} (hw : AesHw) (ossl : Ossl) (hE : BlockFn hw ossl s.key E)
    (c : Cursor) (h : CtrRepr E nonce pos s) (hp : pos + c.buflen < 2 ^ 64) (hc : c.buflen ≤ c.inb.length) :
    ∃ r, portable_stream hw ossl s c = .ok r ∧ Stepped E nonce pos s c c.buflen r :=
  stream_ok hw ossl hE c h hp hc (fun s c => portable_loop hw ossl c.buflen s c)
    (fun s' c' pos' hk hr hp0 h0 hc' => portable_loop_ok hw ossl s.key hE c'.buflen s' c' pos' hk hr hp0 h0 hc' (Nat.le_refl _))

/-! ### The accelerated whole-block loops -/

/-- Loop common to both: `blk bc` yields the key-stream block. -/
theorem hw_loop {E : Bytes → Bytes} {nonce : Nat} (gen : W64 → Res Bytes) (inb : Bytes) (out : Bytes) (c0 n : Nat)
    (hgen : ∀ i, i < n → gen (BitVec.ofNat 64 (c0 + i)) = .ok (E (ctrBlk nonce (c0 + i)))) (hE : ∀ b, b.length = 16 → (E b).length = 16)
    (hl : 16 * n ≤ inb.length) :
    forLoop n (fun (st : W64 × Bytes × Bytes × Bytes) _ => do
      let (bc, _, inb, out) := st
      let b ← gen bc
      let i ← q_load inb 0
      return (bc + 1, be64enc bc, inb.drop 16, out ++ q_xor i b)) (BitVec.ofNat 64 c0, [], inb, out) =
    .ok (BitVec.ofNat 64 (c0 + n), (if n = 0 then [] else be64enc (BitVec.ofNat 64 (c0 + n - 1))), inb.drop (16 * n), out ++ Spec.ctr E nonce (16 * c0) (inb.take (16 * n))) := by
  induction n with
  | zero => simp [ctr_nil]
  | succ n ih =>
    rw [forLoop_succ, ih (fun i hi => hgen i (by omega)) (by omega)]
    simp only [Res.bind_ok]
    rw [hgen n (by omega)]
    simp only [Res.bind_ok]
    have hq : q_load (inb.drop (16 * n)) 0 = .ok ((inb.drop (16 * n)).take 16) := by
      unfold q_load
      rw [rdSlice_ok (by rw [List.length_drop]; omega), List.drop_zero]
    rw [hq]
    simp only [Res.bind_ok, Res.pure_eq, Res.ok.injEq, Prod.mk.injEq]
    refine ⟨?_, ?_, ?_, ?_⟩
    · rw [show (1 : W64) = BitVec.ofNat 64 1 from rfl, ← BitVec.ofNat_add]; rfl
    · rw [if_neg (by omega)]; rfl
    · rw [List.drop_drop]; rfl
    · have hl16 : ((inb.drop (16 * n)).take 16).length = 16 := by rw [List.length_take, List.length_drop]; omega
      rw [q_xor_eq _ _ hl16 (hE _ (ctrBlk_length _ _)), show 16 * (n + 1) = 16 * n + 16 by omega, List.append_assoc]
      congr 1
      rw [← ctr_take_add _ _ _ _ _ _ (show 16 * n ≤ inb.length by omega)]
      congr 1
      have hd : (16 * c0 + 16 * n) / 16 = c0 + n := by omega
      unfold Spec.ctr
      rw [hl16, ctrStream_block _ _ _ _ (hE _ (ctrBlk_length _ _)) (by omega), show (16 * c0 + 16 * n) / 16 = c0 + n by omega,
        show (16 * c0 + 16 * n) % 16 = 0 by omega, List.drop_zero, List.take_of_length_le (Nat.le_of_eq (hE _ (ctrBlk_length _ _)))]

theorem unpack_blk (p arr j1 j2 : Bytes) (h1 : p.length = 8) (h2 : arr.length = 8) : mm_unpacklo_epi64_b (p ++ j1) (arr ++ j2) = p ++ arr := by
  match p, h1, arr, h2 with
  | [a0, a1, a2, a3, a4, a5, a6, a7], _, [b0, b1, b2, b3, b4, b5, b6, b7], _ => rfl

theorem after_hw {E : Bytes → Bytes} {nonce pos : Nat} {s : CtrStream} (c : Cursor) (h : CtrRepr E nonce pos s) (hp : pos + c.buflen < 2 ^ 64) (h0 : pos % 16 = 0) (h16 : c.buflen ≥ 16) :
    wrSlice s.pblk 8 (be64enc (BitVec.ofNat 64 (pos / 16 + c.buflen / 16 - 1))) = .ok (ctrBlk nonce (pos / 16 + c.buflen / 16 - 1)) ∧
    Stepped E nonce pos s c (16 * (c.buflen / 16))
      ({ s with pblk := ctrBlk nonce (pos / 16 + c.buflen / 16 - 1), bytectr := s.bytectr + BitVec.ofNat 64 (16 * (c.buflen / 16)) },
        ⟨c.inb.drop (16 * (c.buflen / 16)), c.out ++ Spec.ctr E nonce (16 * (pos / 16)) (c.inb.take (16 * (c.buflen / 16))), c.buflen - 16 * (c.buflen / 16)⟩) := by
  constructor
  · rw [be64enc_eq, toNat_pos _ (by omega), wrSlice_ok (by simp [h.plen]), h.pn, List.drop_of_length_le (by simp [h.plen]), List.append_nil]
    rfl
  · refine ⟨rfl, ⟨?_, h.blen, ctrBlk_length _ _, ?_, ?_, ?_⟩, ?_⟩
    · show s.bytectr + _ = _
      rw [h.ctr, ← BitVec.ofNat_add]
    · show (ctrBlk _ _).take 8 = _
      rw [ctrBlk, List.take_append_of_le_length (by simp), List.take_of_length_le (by simp)]
    · intro hne; exfalso; omega
    · intro _
      show if _ then (ctrBlk _ _)[15]? = _ else ctrBlk _ _ = _
      have e : (pos + 16 * (c.buflen / 16)) / 16 = pos / 16 + c.buflen / 16 := by omega
      rw [e]
      split
      · rename_i hc
        rw [ctrBlk_15]
        congr 1
        apply BitVec.eq_of_toNat_eq
        rw [BitVec.toNat_ofNat]
        show _ = 255
        omega
      · rfl
    · simp only []
      rw [show 16 * (pos / 16) = pos by omega]

theorem aesni_wholeblocks_ok {E : Bytes → Bytes} {nonce pos : Nat} {s : CtrStream} (ossl : Ossl) (k : HwKey) (hk : s.key = .aesni k)
    (hE : BlockFn .x86_aesni ossl s.key E) (junk : Bytes)
    (c : Cursor) (h : CtrRepr E nonce pos s) (hp : pos + c.buflen < 2 ^ 64) (h0 : pos % 16 = 0) (hc : c.buflen ≤ c.inb.length) (h16 : c.buflen ≥ 16) :
    ∃ r, aesni_wholeblocks junk s c = .ok r ∧ Stepped E nonce pos s c (16 * (c.buflen / 16)) r := by
  obtain ⟨hw1, hw2⟩ := after_hw c h hp h0 h16
  have hn0 : ¬ c.buflen / 16 = 0 := by omega
  have hload : load_si64 s.pblk junk = .ok (beBytes 8 nonce ++ junk) := by
    unfold load_si64 mm_loadu_si64
    rw [rdSlice_ok (by rw [h.plen]; omega), List.drop_zero, h.pn]; rfl
  have hl := hw_loop (E := E) (nonce := nonce) (fun bc => do
      let bufsse ← load_si64 (be64enc bc) junk
      let bufsse := mm_unpacklo_epi64_b (beBytes 8 nonce ++ junk) bufsse
      crypto_aes_encrypt_block_aesni_m128i bufsse k) c.inb c.out (pos / 16) (c.buflen / 16) (by
    intro i hi
    have hld : load_si64 (be64enc (BitVec.ofNat 64 (pos / 16 + i))) junk = .ok (beBytes 8 (pos / 16 + i) ++ junk) := by
      unfold load_si64 mm_loadu_si64
      rw [be64enc_eq, toNat_pos _ (by omega), rdSlice_ok (by simp), List.drop_zero, List.take_of_length_le (by simp)]; rfl
    rw [hld]
    simp only [Res.bind_ok]
    rw [unpack_blk _ _ _ _ (by simp) (by simp)]
    have := (hE (ctrBlk nonce (pos / 16 + i)) (ctrBlk_length _ _)).1
    rw [hk] at this
    have h2 : crypto_aes_encrypt_block .x86_aesni ossl (ctrBlk nonce (pos / 16 + i)) (.aesni k) = crypto_aes_encrypt_block_aesni_m128i (ctrBlk nonce (pos / 16 + i)) k := by
      show (q_load _ 0 >>= fun s => crypto_aes_encrypt_block_aesni_m128i s k) = _
      rw [q_load_16 _ (ctrBlk_length _ _), Res.bind_ok]
    rw [h2] at this
    exact this) (fun b hb => (hE b hb).2) (by omega)
  refine ⟨_, ?_, hw2⟩
  unfold aesni_wholeblocks
  rw [hk]
  simp only [Res.pure_eq, Res.bind_ok]
  rw [hload]
  simp only [Res.bind_ok]
  rw [if_neg hn0, show s.bytectr / 16 = BitVec.ofNat 64 (pos / 16) from BitVec.eq_of_toNat_eq (by rw [h.ctr, blkctr_eq _ (by omega), toNat_pos _ (by omega)])]
  have hl' : forLoop (c.buflen / 16) (fun (st : W64 × Bytes × Bytes × Bytes) _ => do
    let (bc, _, inb, out) := st
    let arr := be64enc bc
    let bufsse ← load_si64 arr junk
    let bufsse := mm_unpacklo_epi64_b (beBytes 8 nonce ++ junk) bufsse
    let bufsse ← crypto_aes_encrypt_block_aesni_m128i bufsse k
    let inbufsse ← q_load inb 0
    let bufsse := q_xor inbufsse bufsse
    Res.ok (bc + 1, arr, inb.drop 16, out ++ bufsse)) (BitVec.ofNat 64 (pos / 16), [], c.inb, c.out) =
      .ok (BitVec.ofNat 64 (pos / 16 + c.buflen / 16), (if c.buflen / 16 = 0 then [] else be64enc (BitVec.ofNat 64 (pos / 16 + c.buflen / 16 - 1))), c.inb.drop (16 * (c.buflen / 16)),
        c.out ++ Spec.ctr E nonce (16 * (pos / 16)) (c.inb.take (16 * (c.buflen / 16)))) := by
      rw [← hl]
      congr 1
  erw [hl']
  simp only [Res.bind_ok]
  rw [if_neg hn0, hw1]
  simp only [Res.bind_ok]

theorem arm_wholeblocks_ok {E : Bytes → Bytes} {nonce pos : Nat} {s : CtrStream} (ossl : Ossl) (k : HwKey) (hk : s.key = .arm k)
    (hE : BlockFn .arm_aes ossl s.key E)
    (c : Cursor) (h : CtrRepr E nonce pos s) (hp : pos + c.buflen < 2 ^ 64) (h0 : pos % 16 = 0) (hc : c.buflen ≤ c.inb.length) (h16 : c.buflen ≥ 16) :
    ∃ r, arm_wholeblocks s c = .ok r ∧ Stepped E nonce pos s c (16 * (c.buflen / 16)) r := by
  obtain ⟨hw1, hw2⟩ := after_hw c h hp h0 h16
  have hn0 : ¬ c.buflen / 16 = 0 := by omega
  have hload : vld1_u8 s.pblk = .ok (beBytes 8 nonce) := by
    unfold vld1_u8
    rw [rdSlice_ok (by rw [h.plen]; omega), List.drop_zero, h.pn]
  have hl := hw_loop (E := E) (nonce := nonce) (fun bc => do
      let cb ← vld1_u8 (be64enc bc)
      crypto_aes_encrypt_block_arm_u8 (vcombine_u8 (beBytes 8 nonce) cb) k) c.inb c.out (pos / 16) (c.buflen / 16) (by
    intro i hi
    have hld : vld1_u8 (be64enc (BitVec.ofNat 64 (pos / 16 + i))) = .ok (beBytes 8 (pos / 16 + i)) := by
      unfold vld1_u8
      rw [be64enc_eq, toNat_pos _ (by omega), rdSlice_ok (by simp), List.drop_zero, List.take_of_length_le (by simp)]
    rw [hld]
    simp only [Res.bind_ok]
    have := (hE (ctrBlk nonce (pos / 16 + i)) (ctrBlk_length _ _)).1
    rw [hk] at this
    have h2 : crypto_aes_encrypt_block .arm_aes ossl (ctrBlk nonce (pos / 16 + i)) (.arm k) = crypto_aes_encrypt_block_arm_u8 (ctrBlk nonce (pos / 16 + i)) k := by
      show (q_load _ 0 >>= fun s => crypto_aes_encrypt_block_arm_u8 s k) = _
      rw [q_load_16 _ (ctrBlk_length _ _), Res.bind_ok]
    rw [h2] at this
    exact this) (fun b hb => (hE b hb).2) (by omega)
  refine ⟨_, ?_, hw2⟩
  unfold arm_wholeblocks
  rw [hk]
  simp only [Res.pure_eq, Res.bind_ok]
  rw [hload]
  simp only [Res.bind_ok]
  rw [if_neg hn0, show s.bytectr / 16 = BitVec.ofNat 64 (pos / 16) from BitVec.eq_of_toNat_eq (by rw [h.ctr, blkctr_eq _ (by omega), toNat_pos _ (by omega)])]
  have hl' : forLoop (c.buflen / 16) (fun (st : W64 × Bytes × Bytes × Bytes) _ => do
    let (bc, _, inb, out) := st
    let arr := be64enc bc
    let block_counter_be ← vld1_u8 arr
    let bufarm := vcombine_u8 (beBytes 8 nonce) block_counter_be
    let bufarm ← crypto_aes_encrypt_block_arm_u8 bufarm k
    let inbufarm ← q_load inb 0
    let bufarm := q_xor inbufarm bufarm
    Res.ok (bc + 1, arr, inb.drop 16, out ++ bufarm)) (BitVec.ofNat 64 (pos / 16), [], c.inb, c.out) =
      .ok (BitVec.ofNat 64 (pos / 16 + c.buflen / 16), (if c.buflen / 16 = 0 then [] else be64enc (BitVec.ofNat 64 (pos / 16 + c.buflen / 16 - 1))), c.inb.drop (16 * (c.buflen / 16)),
        c.out ++ Spec.ctr E nonce (16 * (pos / 16)) (c.inb.take (16 * (c.buflen / 16)))) := by
      rw [← hl]
      congr 1
  erw [hl']
  simp only [Res.bind_ok]
  rw [if_neg hn0, hw1]
  simp only [Res.bind_ok]

theorem aesni_stream_ok {E : Bytes → Bytes} {nonce pos : Nat} {s : CtrStream} (ossl : Ossl) (k : HwKey) (hk : s.key = .aesni k)
    (hE : BlockFn .x86_aesni ossl s.key E) (junk : Bytes)
    (c : Cursor) (h : CtrRepr E nonce pos s) (hp : pos + c.buflen < 2 ^ 64) (hc : c.buflen ≤ c.inb.length) :
    ∃ r, aesni_stream .x86_aesni ossl junk s c = .ok r ∧ Stepped E nonce pos s c c.buflen r :=
  stream_ok .x86_aesni ossl hE c h hp hc (aesni_whole_if16 junk)
    (fun s' c' pos' hk' hr hp0 h0 hc' => by
      unfold aesni_whole_if16
      by_cases h16 : c'.buflen ≥ 16
      · simp only [if_pos h16]
        exact aesni_wholeblocks_ok ossl k (hk'.trans hk) (hk' ▸ hE) junk c' hr hp0 h0 hc' h16
      · simp only [if_neg h16]
        rw [show 16 * (c'.buflen / 16) = 0 by omega]
        exact ⟨_, rfl, Stepped.zero hr⟩)

theorem arm_stream_ok {E : Bytes → Bytes} {nonce pos : Nat} {s : CtrStream} (ossl : Ossl) (k : HwKey) (hk : s.key = .arm k)
    (hE : BlockFn .arm_aes ossl s.key E)
    (c : Cursor) (h : CtrRepr E nonce pos s) (hp : pos + c.buflen < 2 ^ 64) (hc : c.buflen ≤ c.inb.length) :
    ∃ r, arm_stream .arm_aes ossl s c = .ok r ∧ Stepped E nonce pos s c c.buflen r :=
  stream_ok .arm_aes ossl hE c h hp hc arm_whole_if16
    (fun s' c' pos' hk' hr hp0 h0 hc' => by
      unfold arm_whole_if16
      by_cases h16 : c'.buflen ≥ 16
      · simp only [if_pos h16]
        exact arm_wholeblocks_ok ossl k (hk'.trans hk) (hk' ▸ hE) c' hr hp0 h0 hc' h16
      · simp only [if_neg h16]
        rw [show 16 * (c'.buflen / 16) = 0 by omega]
        exact ⟨_, rfl, Stepped.zero hr⟩)

/-- A key matches the implementation in use. -/
def KeyFor (hw : AesHw) : AesKey → Prop
  | .ossl _ => hw = .software
  | .aesni _ => hw = .x86_aesni
  | .arm _ => hw = .arm_aes

theorem GoodKey.keyFor {hw : AesHw} {k : Bytes} {key : AesKey} (h : GoodKey hw k key) : KeyFor hw key := by
  cases key <;> exact h.1

theorem crypto_aesctr_stream_ok {E : Bytes → Bytes} {nonce pos : Nat} {s : CtrStream} (hw : AesHw) (ossl : Ossl) (hk : KeyFor hw s.key) (hE : BlockFn hw ossl s.key E)
    (junk : Bytes) (inbuf : Bytes) (buflen : Nat) (h : CtrRepr E nonce pos s) (hp : pos + buflen < 2 ^ 64) (hc : buflen ≤ inbuf.length) :
    ∃ s', crypto_aesctr_stream hw ossl junk s inbuf buflen = .ok (s', Spec.ctr E nonce pos (inbuf.take buflen)) ∧ s'.key = s.key ∧ CtrRepr E nonce (pos + buflen) s' := by
  have key : ∀ (r : CtrStream × Cursor) (x : Res (CtrStream × Cursor)), x = .ok r → Stepped E nonce pos s ⟨inbuf, [], buflen⟩ buflen r →
      ∃ s', (x >>= fun y => match y with | (s, c) => (pure (s, c.out) : Res (CtrStream × Bytes))) = .ok (s', Spec.ctr E nonce pos (inbuf.take buflen)) ∧ s'.key = s.key ∧ CtrRepr E nonce (pos + buflen) s' := by
    intro r x hx hs
    subst hx
    obtain ⟨s', c'⟩ := r
    refine ⟨s', ?_, hs.key, hs.repr⟩
    show Res.ok (s', c'.out) = _
    rw [show c' = _ from hs.cur, List.nil_append]
  unfold crypto_aesctr_stream
  by_cases h1 : buflen ≥ 16 ∧ hw = .x86_aesni
  · simp only [if_pos h1]
    obtain ⟨-, rfl⟩ := h1
    cases hkey : s.key with
    | ossl b => rw [hkey] at hk; cases hk
    | arm b => rw [hkey] at hk; cases hk
    | aesni k =>
      obtain ⟨r, e, hs⟩ := aesni_stream_ok ossl k hkey hE junk ⟨inbuf, [], buflen⟩ h hp hc
      rw [← hkey]
      exact key r _ e hs
  · simp only [if_neg h1]
    by_cases h2 : buflen ≥ 16 ∧ hw = .arm_aes
    · simp only [if_pos h2]
      obtain ⟨-, rfl⟩ := h2
      cases hkey : s.key with
      | ossl b => rw [hkey] at hk; cases hk
      | aesni b => rw [hkey] at hk; cases hk
      | arm k =>
        obtain ⟨r, e, hs⟩ := arm_stream_ok ossl k hkey hE ⟨inbuf, [], buflen⟩ h hp hc
        rw [← hkey]
        exact key r _ e hs
    · simp only [if_neg h2]
      obtain ⟨r, e, hs⟩ := portable_ok hw ossl hE ⟨inbuf, [], buflen⟩ h hp hc
      exact key r _ e hs

/-- Structures as allocated: the arrays have their declared sizes. -/
def CtrStream.Sized (s : CtrStream) : Prop := s.buf.length = 16 ∧ s.pblk.length = 16

theorem init2_ok (E : Bytes → Bytes) (s : CtrStream) (hs : s.Sized) (key : AesKey) (nonce : W64) :
    ∃ s', crypto_aesctr_init2 s (some key) nonce = .ok s' ∧ s'.key = key ∧ CtrRepr E nonce.toNat 0 s' := by
  unfold crypto_aesctr_init2
  simp only []
  rw [be64enc_eq, wrSlice_ok (by simp [hs.2])]
  simp only [Res.bind_ok]
  have hl : (s.pblk.take 0 ++ beBytes 8 nonce.toNat ++ s.pblk.drop (0 + (beBytes 8 nonce.toNat).length)).length = 16 := by simp [hs.2]
  rw [wr_ok _ (by rw [hl]; omega)]
  refine ⟨_, rfl, rfl, rfl, hs.1, ?_, ?_, fun h => absurd rfl h, ?_⟩
  · show (List.set _ _ _).length = 16
    rw [List.length_set, hl]
  · show (List.set _ _ _).take 8 = _
    rw [List.take_set_of_le (by omega), List.take_zero, List.nil_append, List.take_append_of_le_length (by simp), List.take_of_length_le (by simp)]
  · intro _
    rw [if_pos rfl]
    show (List.set _ _ _)[15]? = _
    rw [List.getElem?_set_self (by rw [hl]; omega)]

end Scrypt
