import Verif.Model.Overlap
import Verif.Proofs.Slice
import Mathlib.Tactic.Common
/-
The memory-level stream cipher of Model/Overlap.lean against the one of Model/AesCtr.lean: a simulation
valid whenever no byte is stored over an input byte not read yet.
-/
namespace Scrypt
open Spec

/-- Both computations end the same way, with related results. -/
def Res.Rel {α β : Type} (R : α → β → Prop) : Res α → Res β → Prop
  | .ok a, .ok b => R a b
  | .ub, .ub => True
  | .abort, .abort => True
  | _, _ => False

theorem Res.Rel.bind {α β α' β' : Type} {R : α → β → Prop} {Q : α' → β' → Prop} {x : Res α} {y : Res β}
    {f : α → Res α'} {g : β → Res β'} (h : Res.Rel R x y) (hf : ∀ a b, R a b → Res.Rel Q (f a) (g b)) :
    Res.Rel Q (x >>= f) (y >>= g) := by
  cases x <;> cases y <;> first | exact h.elim | trivial | exact hf _ _ h

theorem Res.Rel.mono {α β : Type} {R Q : α → β → Prop} {x : Res α} {y : Res β} (h : Res.Rel R x y) (hq : ∀ a b, R a b → Q a b) :
    Res.Rel Q x y := by
  cases x <;> cases y <;> first | exact h.elim | trivial | exact hq _ _ h

/-- The same first step on both sides. -/
theorem Res.Rel.same {α α' β' : Type} {Q : α' → β' → Prop} {x : Res α} {f : α → Res α'} {g : α → Res β'}
    (hf : ∀ a, Res.Rel Q (f a) (g a)) : Res.Rel Q (x >>= f) (x >>= g) := by
  cases x <;> first | trivial | exact hf _

theorem Res.Rel.forLoop {σ τ : Type} {R : Nat → σ → τ → Prop} {n : Nat} {f : σ → Nat → Res σ} {g : τ → Nat → Res τ}
    {s : σ} {t : τ} (h0 : R 0 s t) (h : ∀ i s t, i < n → R i s t → Res.Rel (R (i + 1)) (f s i) (g t i)) :
    Res.Rel (R n) (Scrypt.forLoop n f s) (Scrypt.forLoop n g t) := by
  induction n with
  | zero => exact h0
  | succ n ih =>
    rw [forLoop_succ, forLoop_succ]
    exact Res.Rel.bind (ih fun i s t hi => h i s t (by omega)) fun a b hab => h n a b (by omega) hab

/-- The regions `[ip, ip + n)` and `[op, op + n)` lie in the memory and forward copying is safe. -/
structure Fwd (M : Bytes) (ip op n : Nat) : Prop where
  hin : ip + n ≤ M.length
  hout : op + n ≤ M.length
  hov : op ≤ ip ∨ ip + n ≤ op

theorem Fwd.fresh {M : Bytes} {ip op n : Nat} (F : Fwd M ip op n) (out : Bytes) (g : Nat) (h : out.length + g ≤ n) :
    sl (ow M op out) (ip + out.length) g = sl M (ip + out.length) g := by
  have := F.hin; have := F.hout
  refine sl_ow_disj M op out (by omega) _ _ ?_
  rcases F.hov with h | h <;> omega

theorem Fwd.len {M : Bytes} {ip op n : Nat} (F : Fwd M ip op n) (out : Bytes) (h : out.length ≤ n) :
    (ow M op out).length = M.length := by
  have := F.hout
  exact ow_length M op out (by omega)

theorem Fwd.more {M : Bytes} {ip op n : Nat} (F : Fwd M ip op n) (out b : Bytes) (h : out.length + b.length ≤ n) :
    ow (ow M op out) (op + out.length) b = ow M op (out ++ b) := by
  have := F.hout
  exact ow_ow_adj M op _ out b (by omega) rfl

/-- The two cursors agree: what is left of the input is what was there at the start, and the memory is the
original one with the output so far stored. -/
structure InStep (M : Bytes) (ip op n : Nat) (c : Cursor) (m : MCursor) : Prop where
  inb : c.inb = sl M (ip + c.out.length) (n - c.out.length)
  mem : m.mem = ow M op c.out
  inp : m.inp = ip + c.out.length
  outp : m.outp = op + c.out.length
  blen : m.buflen = c.buflen
  tot : c.out.length + c.buflen = n

def InStep2 (M : Bytes) (ip op n : Nat) (a : CtrStream × Cursor) (b : CtrStream × MCursor) : Prop :=
  a.1 = b.1 ∧ InStep M ip op n a.2 b.2

theorem use_rel {M : Bytes} {ip op n : Nat} (F : Fwd M ip op n) (s : CtrStream) (c : Cursor) (m : MCursor)
    (h : InStep M ip op n c m) (nb bm : Nat) (hn : nb ≤ c.buflen) :
    Res.Rel (fun a b => InStep2 M ip op n a b ∧ a.2.buflen = c.buflen - nb) (cipherblock_use s c nb bm) (cipherblock_useM s m nb bm) := by
  have ht := h.tot
  have := F.hin; have := F.hout
  unfold cipherblock_use cipherblock_useM
  refine Res.Rel.bind (R := fun o mm => o.length = nb ∧ mm = ow M op (c.out ++ o)) ?_ ?_
  · refine Res.Rel.forLoop (R := fun i (o mm : Bytes) => o.length = i ∧ mm = ow M op (c.out ++ o)) (n := nb) (s := []) (t := m.mem)
      ⟨rfl, by simpa using h.mem⟩ ?_
    rintro i o mm hi ⟨ho, hm⟩
    have hl : (c.out ++ o).length = c.out.length + i := by simp [ho]
    have hrd : rd mm (m.inp + i) = rd c.inb i := by
      have e1 : mm[m.inp + i]? = M[m.inp + i]? := by
        have hf := F.fresh (c.out ++ o) 1 (by omega)
        have := congrArg (fun l => l[0]?) hf
        simp only [sl_getElem?] at this
        rw [hm, h.inp, Nat.add_assoc, ← hl]
        simpa using this
      have e2 : c.inb[i]? = M[m.inp + i]? := by
        rw [h.inb, sl_getElem?, if_pos (by omega), h.inp]
      unfold rd; rw [e1, e2]
    rw [hrd]
    refine Res.Rel.same fun a => Res.Rel.same fun b => ?_
    have hlen : (ow M op (c.out ++ o)).length = M.length := F.len _ (by omega)
    have hw : wr mm (m.outp + i) (a ^^^ b) = .ok (ow M op (c.out ++ (o ++ [a ^^^ b]))) := by
      rw [hm, wr_ow _ (by rw [hlen, h.outp]; omega), h.outp, Nat.add_assoc, ← hl, F.more _ _ (by simp [ho]; omega),
        List.append_assoc]
    rw [hw]
    exact ⟨by simp [ho], rfl⟩
  · rintro o mm ⟨ho, hm⟩
    refine ⟨⟨rfl, ?_⟩, rfl⟩
    constructor
    · show c.inb.drop nb = _
      rw [h.inb]
      simp only [sl, List.drop_take, List.drop_drop, List.length_append, ho]
      congr 1
      · omega
      · congr 1; omega
    · exact hm
    · show m.inp + nb = _
      simp only [List.length_append, ho, h.inp]; omega
    · show m.outp + nb = _
      simp only [List.length_append, ho, h.outp]; omega
    · show m.buflen - nb = c.buflen - nb
      rw [h.blen]
    · show (c.out ++ o).length + (c.buflen - nb) = n
      simp only [List.length_append, ho]; omega

theorem pre_rel {M : Bytes} {ip op n : Nat} (F : Fwd M ip op n) (s : CtrStream) (c : Cursor) (m : MCursor)
    (h : InStep M ip op n c m) :
    Res.Rel (fun a b => (a.1 = b.1 ∧ InStep2 M ip op n a.2 b.2) ∧ (a.1 = true → a.2.2.buflen = 0)) (pre_wholeblock s c) (pre_wholeblockM s m) := by
  unfold pre_wholeblock pre_wholeblockM
  rw [h.blen]
  by_cases h0 : (s.bytectr % 16).toNat ≠ 0
  · rw [if_pos h0, if_pos h0]
    by_cases h1 : (s.bytectr % 16).toNat + c.buflen ≤ 16
    · rw [if_pos h1, if_pos h1]
      exact Res.Rel.bind (use_rel F s c m h _ _ (Nat.le_refl _)) fun a b hab => ⟨⟨rfl, hab.1⟩, fun _ => by
        show a.2.buflen = 0
        rw [hab.2, Nat.sub_self]⟩
    · rw [if_neg h1, if_neg h1]
      exact Res.Rel.bind (use_rel F s c m h _ _ (by omega)) fun a b hab => ⟨⟨rfl, hab.1⟩, (fun e => nomatch e)⟩
  · rw [if_neg h0, if_neg h0]
    exact ⟨⟨rfl, rfl, h⟩, (fun e => nomatch e)⟩

theorem post_rel {M : Bytes} {ip op n : Nat} (F : Fwd M ip op n) (hw : AesHw) (ossl : Ossl) (s : CtrStream) (c : Cursor) (m : MCursor)
    (h : InStep M ip op n c m) :
    Res.Rel (fun a b => InStep2 M ip op n a b ∧ a.2.buflen = 0) (post_wholeblock hw ossl s c) (post_wholeblockM hw ossl s m) := by
  unfold post_wholeblock post_wholeblockM
  rw [h.blen]
  by_cases h0 : c.buflen > 0
  · rw [if_pos h0, if_pos h0]
    refine Res.Rel.same fun s => ?_
    have := use_rel F s c m h c.buflen 0 (Nat.le_refl _)
    rwa [Nat.sub_self] at this
  · rw [if_neg h0, if_neg h0]
    exact ⟨⟨rfl, h⟩, by show c.buflen = 0; omega⟩

theorem portable_loop_rel {M : Bytes} {ip op n : Nat} (F : Fwd M ip op n) (hw : AesHw) (ossl : Ossl) (fuel : Nat) :
    ∀ (s : CtrStream) (c : Cursor) (m : MCursor), InStep M ip op n c m →
    Res.Rel (InStep2 M ip op n) (portable_loop hw ossl fuel s c) (portable_loopM hw ossl fuel s m) := by
  induction fuel with
  | zero =>
    intro s c m h
    unfold portable_loop portable_loopM
    rw [h.blen]
    split
    · trivial
    · exact ⟨rfl, h⟩
  | succ fuel ih =>
    intro s c m h
    unfold portable_loop portable_loopM
    rw [h.blen]
    by_cases h0 : c.buflen ≥ 16
    · rw [if_pos h0, if_pos h0]
      refine Res.Rel.same fun s => Res.Rel.bind (use_rel F s c m h 16 0 h0) ?_
      rintro ⟨s1, c1⟩ ⟨s2, c2⟩ ⟨⟨e, h⟩, -⟩
      cases e
      exact ih _ _ _ h
    · rw [if_neg h0, if_neg h0]
      exact ⟨rfl, h⟩

theorem portable_rel {M : Bytes} {ip op n : Nat} (F : Fwd M ip op n) (hw : AesHw) (ossl : Ossl) (s : CtrStream) (c : Cursor) (m : MCursor)
    (h : InStep M ip op n c m) :
    Res.Rel (fun a b => InStep2 M ip op n a b ∧ a.2.buflen = 0) (portable_stream hw ossl s c) (portable_streamM hw ossl s m) := by
  unfold portable_stream portable_streamM
  refine Res.Rel.bind (pre_rel F s c m h) ?_
  rintro ⟨d1, s1, c1⟩ ⟨d2, s2, c2⟩ ⟨⟨e, e', h⟩, hd⟩
  cases e; cases e'
  cases d1
  · refine Res.Rel.bind (R := InStep2 M ip op n) ?_ ?_
    · have := portable_loop_rel F hw ossl c1.buflen s1 c1 c2 h
      rw [show c2.buflen = c1.buflen from h.blen]
      exact this
    · rintro ⟨s1, c1⟩ ⟨s2, c2⟩ ⟨e, h⟩
      cases e
      exact post_rel F hw ossl s1 c1 c2 h
  · exact ⟨⟨rfl, h⟩, hd rfl⟩

/-- The states of the two whole-block loops after `i` blocks. -/
def BlkStep (M : Bytes) (ip op n k0 i : Nat) (a : W64 × Bytes × Bytes × Bytes) (b : W64 × Bytes × Bytes × Nat × Nat) : Prop :=
  a.1 = b.1 ∧ a.2.1 = b.2.1 ∧ a.2.2.2.length = k0 + 16 * i ∧ a.2.2.1 = sl M (ip + (k0 + 16 * i)) (n - (k0 + 16 * i)) ∧
    b.2.2.1 = ow M op a.2.2.2 ∧ b.2.2.2.1 = ip + (k0 + 16 * i) ∧ b.2.2.2.2 = op + (k0 + 16 * i)

theorem q_xor_length (a b : Bytes) : (q_xor a b).length = 16 := by simp [q_xor]

/-- One block: load sixteen bytes, store sixteen bytes. -/
theorem blk_rel {M : Bytes} {ip op n k0 i : Nat} (F : Fwd M ip op n) (hk : k0 + 16 * (i + 1) ≤ n)
    (bc : W64) (arr ks inb out m : Bytes) (inp outp : Nat) (bc' : W64) (arr' : Bytes)
    (h : BlkStep M ip op n k0 i (bc, arr, inb, out) (bc, arr, m, inp, outp)) :
    Res.Rel (BlkStep M ip op n k0 (i + 1))
      (q_load inb 0 >>= fun x => (pure (bc', arr', inb.drop 16, out ++ q_xor x ks) : Res _))
      (q_load m inp >>= fun x => wrSlice m outp (q_xor x ks) >>= fun m => (pure (bc', arr', m, inp + 16, outp + 16) : Res _)) := by
  obtain ⟨-, -, ho, hi, hm, h1, h2⟩ := h
  simp only at ho hi hm h1 h2
  have hin := F.hin; have hout := F.hout
  have hlen : (ow M op out).length = M.length := F.len _ (by omega)
  have hf := F.fresh out 16 (by omega)
  rw [ho] at hf
  have e1 : q_load inb 0 = .ok (sl M (ip + (k0 + 16 * i)) 16) := by
    unfold q_load
    rw [rdSlice_sl (by rw [hi, sl_length _ _ _ (by omega)]; omega), hi, sl_sl _ _ _ _ _ (by omega), Nat.add_zero]
  have e2 : q_load m inp = .ok (sl M (ip + (k0 + 16 * i)) 16) := by
    unfold q_load
    rw [hm, h1, rdSlice_sl (by omega), hf]
  rw [e1, e2, Res.bind_ok, Res.bind_ok]
  generalize sl M (ip + (k0 + 16 * i)) 16 = x
  have e3 : wrSlice m outp (q_xor x ks) = .ok (ow M op (out ++ q_xor x ks)) := by
    rw [hm, h2, wrSlice_ow (by rw [hlen, q_xor_length]; omega), ← ho, F.more _ _ (by rw [q_xor_length]; omega)]
  rw [e3, Res.bind_ok]
  refine ⟨rfl, rfl, ?_, ?_, rfl, ?_, ?_⟩
  · simp only [List.length_append, q_xor_length]; omega
  · simp only [hi, sl, List.drop_take, List.drop_drop]
    congr 1
  · show inp + 16 = _
    omega
  · show outp + 16 = _
    omega

theorem aesni_whole_rel {M : Bytes} {ip op n : Nat} (F : Fwd M ip op n) (junk : Bytes) (s : CtrStream) (c : Cursor) (m : MCursor)
    (h : InStep M ip op n c m) : Res.Rel (InStep2 M ip op n) (aesni_wholeblocks junk s c) (aesni_wholeblocksM junk s m) := by
  have ht := h.tot
  unfold aesni_wholeblocks aesni_wholeblocksM
  rw [h.blen]
  obtain ⟨key, bctr, buf, pblk⟩ := s
  cases key <;> simp only [Res.pure_eq, Res.bind_ok] <;> try trivial
  refine Res.Rel.same fun nonce => ?_
  by_cases h0 : c.buflen / 16 = 0
  · rw [if_pos h0, if_pos h0]; trivial
  rw [if_neg h0, if_neg h0]
  refine Res.Rel.bind (R := BlkStep M ip op n c.out.length (c.buflen / 16)) ?_ ?_
  · refine Res.Rel.forLoop (R := BlkStep M ip op n c.out.length) (n := c.buflen / 16) ?_ ?_
    · exact ⟨rfl, rfl, by simp, by simpa using h.inb, h.mem, by simpa using h.inp, by simpa using h.outp⟩
    · rintro i ⟨bc, arr, inb, out⟩ ⟨bc', arr', mm, inp, outp⟩ hi hb
      obtain ⟨e1, e2, hb'⟩ := hb
      simp only at e1 e2
      subst e1 e2
      simp only []
      refine Res.Rel.same fun x => Res.Rel.same fun y => ?_
      exact blk_rel F (by omega) bc arr y inb out mm inp outp _ _ ⟨rfl, rfl, hb'⟩
  · rintro ⟨bc, arr, inb, out⟩ ⟨bc', arr', mm, inp, outp⟩ ⟨e1, e2, ho, hi, hm, hp, hq⟩
    simp only at e1 e2 ho hi hm hp hq
    subst e1 e2
    simp only []
    refine Res.Rel.same fun pblk => ⟨rfl, ?_⟩
    constructor
    · show inb = sl M (ip + out.length) (n - out.length)
      rw [hi, ho]
    · exact hm
    · show inp = ip + out.length
      omega
    · show outp = op + out.length
      omega
    · rfl
    · show out.length + (c.buflen - 16 * (c.buflen / 16)) = n
      omega

theorem arm_whole_rel {M : Bytes} {ip op n : Nat} (F : Fwd M ip op n) (s : CtrStream) (c : Cursor) (m : MCursor)
    (h : InStep M ip op n c m) : Res.Rel (InStep2 M ip op n) (arm_wholeblocks s c) (arm_wholeblocksM s m) := by
  have ht := h.tot
  unfold arm_wholeblocks arm_wholeblocksM
  rw [h.blen]
  obtain ⟨key, bctr, buf, pblk⟩ := s
  cases key <;> simp only [Res.pure_eq, Res.bind_ok] <;> try trivial
  refine Res.Rel.same fun nonce => ?_
  by_cases h0 : c.buflen / 16 = 0
  · rw [if_pos h0, if_pos h0]; trivial
  rw [if_neg h0, if_neg h0]
  refine Res.Rel.bind (R := BlkStep M ip op n c.out.length (c.buflen / 16)) ?_ ?_
  · refine Res.Rel.forLoop (R := BlkStep M ip op n c.out.length) (n := c.buflen / 16) ?_ ?_
    · exact ⟨rfl, rfl, by simp, by simpa using h.inb, h.mem, by simpa using h.inp, by simpa using h.outp⟩
    · rintro i ⟨bc, arr, inb, out⟩ ⟨bc', arr', mm, inp, outp⟩ hi hb
      obtain ⟨e1, e2, hb'⟩ := hb
      simp only at e1 e2
      subst e1 e2
      simp only []
      refine Res.Rel.same fun x => Res.Rel.same fun y => ?_
      exact blk_rel F (by omega) bc arr y inb out mm inp outp _ _ ⟨rfl, rfl, hb'⟩
  · rintro ⟨bc, arr, inb, out⟩ ⟨bc', arr', mm, inp, outp⟩ ⟨e1, e2, ho, hi, hm, hp, hq⟩
    simp only at e1 e2 ho hi hm hp hq
    subst e1 e2
    simp only []
    refine Res.Rel.same fun pblk => ⟨rfl, ?_⟩
    constructor
    · show inb = sl M (ip + out.length) (n - out.length)
      rw [hi, ho]
    · exact hm
    · show inp = ip + out.length
      omega
    · show outp = op + out.length
      omega
    · rfl
    · show out.length + (c.buflen - 16 * (c.buflen / 16)) = n
      omega

theorem aesni_rel {M : Bytes} {ip op n : Nat} (F : Fwd M ip op n) (hw : AesHw) (ossl : Ossl) (junk : Bytes) (s : CtrStream) (c : Cursor)
    (m : MCursor) (h : InStep M ip op n c m) :
    Res.Rel (fun a b => InStep2 M ip op n a b ∧ a.2.buflen = 0) (aesni_stream hw ossl junk s c) (aesni_streamM hw ossl junk s m) := by
  unfold aesni_stream aesni_streamM
  refine Res.Rel.bind (pre_rel F s c m h) ?_
  rintro ⟨d1, s1, c1⟩ ⟨d2, s2, c2⟩ ⟨⟨e, e', h⟩, hd⟩
  cases e; cases e'
  cases d1
  · refine Res.Rel.bind (R := InStep2 M ip op n) ?_ ?_
    · unfold aesni_whole_if16 aesni_whole_if16M
      rw [show c2.buflen = c1.buflen from h.blen]
      split
      · exact aesni_whole_rel F junk s1 c1 c2 h
      · exact ⟨rfl, h⟩
    · rintro ⟨s1, c1⟩ ⟨s2, c2⟩ ⟨e, h⟩
      cases e
      exact post_rel F hw ossl s1 c1 c2 h
  · exact ⟨⟨rfl, h⟩, hd rfl⟩

theorem arm_rel {M : Bytes} {ip op n : Nat} (F : Fwd M ip op n) (hw : AesHw) (ossl : Ossl) (s : CtrStream) (c : Cursor)
    (m : MCursor) (h : InStep M ip op n c m) :
    Res.Rel (fun a b => InStep2 M ip op n a b ∧ a.2.buflen = 0) (arm_stream hw ossl s c) (arm_streamM hw ossl s m) := by
  unfold arm_stream arm_streamM
  refine Res.Rel.bind (pre_rel F s c m h) ?_
  rintro ⟨d1, s1, c1⟩ ⟨d2, s2, c2⟩ ⟨⟨e, e', h⟩, hd⟩
  cases e; cases e'
  cases d1
  · refine Res.Rel.bind (R := InStep2 M ip op n) ?_ ?_
    · unfold arm_whole_if16 arm_whole_if16M
      rw [show c2.buflen = c1.buflen from h.blen]
      split
      · exact arm_whole_rel F s1 c1 c2 h
      · exact ⟨rfl, h⟩
    · rintro ⟨s1, c1⟩ ⟨s2, c2⟩ ⟨e, h⟩
      cases e
      exact post_rel F hw ossl s1 c1 c2 h
  · exact ⟨⟨rfl, h⟩, hd rfl⟩

/-- The whole stream function: the memory-level run stores exactly what the other one returns. -/
theorem stream_rel {M : Bytes} {ip op n : Nat} (F : Fwd M ip op n) (hw : AesHw) (ossl : Ossl) (junk : Bytes) (s : CtrStream) :
    Res.Rel (fun a b => a.1 = b.1 ∧ a.2.length = n ∧ b.2 = ow M op a.2) (crypto_aesctr_stream hw ossl junk s (sl M ip n) n)
      (crypto_aesctr_streamM hw ossl junk s M ip op n) := by
  unfold crypto_aesctr_stream crypto_aesctr_streamM
  have h : InStep M ip op n ⟨sl M ip n, [], n⟩ ⟨M, ip, op, n⟩ :=
    ⟨by simp, by simp [ow_nil], rfl, rfl, rfl, by simp⟩
  simp only []
  have fin : ∀ (a : CtrStream × Cursor) (b : CtrStream × MCursor), InStep2 M ip op n a b ∧ a.2.buflen = 0 →
      Res.Rel (fun (a : CtrStream × Bytes) (b : CtrStream × Bytes) => a.1 = b.1 ∧ a.2.length = n ∧ b.2 = ow M op a.2)
        (pure (a.1, a.2.out)) (pure (b.1, b.2.mem)) := by
    rintro ⟨s1, c1⟩ ⟨s2, c2⟩ ⟨⟨e, h⟩, hz⟩
    have := h.tot
    exact ⟨e, by show c1.out.length = n; simp only at this hz; omega, h.mem⟩
  split
  · exact Res.Rel.bind (aesni_rel F hw ossl junk s _ _ h) fin
  · split
    · exact Res.Rel.bind (arm_rel F hw ossl s _ _ h) fin
    · exact Res.Rel.bind (portable_rel F hw ossl s _ _ h) fin

end Scrypt
