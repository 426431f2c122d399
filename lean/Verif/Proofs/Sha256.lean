import Verif.Proofs.Sha256Transform
namespace Scrypt
open Spec

/-- A block function that computes the FIPS 180-4 compression function. -/
def GoodTf (tf : Transform) : Prop :=
  ∀ (s : Regs) (b : Bytes), b.length = 64 → tf s.toList b = .ok (compress s b).toList

theorem goodTf_sw : GoodTf swTransform := fun s b hb => swTransform_spec s b hb

/-! ### Folding the compression function over complete blocks -/

/-- Compress the complete 64-byte blocks of `l`. -/
def absorb (s : Regs) (l : Bytes) : Regs := (blocks 64 (l.take (64 * (l.length / 64)))).foldl compress s

theorem absorb_short (s : Regs) (l : Bytes) (h : l.length < 64) : absorb s l = s := by
  have : l.length / 64 = 0 := Nat.div_eq_of_lt h
  simp [absorb, this, blocks_nil]

theorem absorb_step (s : Regs) (l : Bytes) (h : 64 ≤ l.length) :
    absorb s l = absorb (compress s (l.take 64)) (l.drop 64) := by
  have hd : l.length / 64 = (l.length - 64) / 64 + 1 := by omega
  unfold absorb
  rw [blocks_cons 64 (by omega) _ (by simp; omega), List.foldl_cons]
  congr 2
  · rw [List.take_take]; congr 1; omega
  · rw [List.length_drop, hd, List.drop_take]
    congr 2

theorem absorb_append (s : Regs) (a b : Bytes) (n : Nat) (h : a.length = 64 * n) :
    absorb s (a ++ b) = absorb (absorb s a) b := by
  induction n generalizing s a with
  | zero =>
    have : a = [] := List.length_eq_zero_iff.mp (by omega)
    subst this; simp [absorb_short]
  | succ n ih =>
    rw [absorb_step s (a ++ b) (by simp; omega), absorb_step s a (by omega)]
    rw [List.take_append_of_le_length (by omega), List.drop_append_of_le_length (by omega)]
    exact ih _ _ (by simp; omega)

theorem absorb_eq_blocks (s : Regs) (l : Bytes) (h : 64 ∣ l.length) :
    absorb s l = (blocks 64 l).foldl compress s := by
  unfold absorb
  rw [Nat.mul_div_cancel' h, List.take_length]

theorem absorb_block (s : Regs) (l : Bytes) (h : l.length = 64) : absorb s l = compress s l := by
  rw [absorb_step s l (by omega), absorb_short _ _ (by simp; omega), List.take_of_length_le (by omega)]

/-! ### The context represents the message fed so far -/

/-- `ctx` is the state reached after feeding `msg` (in whatever pieces). -/
structure Repr (ctx : SHA256_CTX) (msg : Bytes) : Prop where
  count : ctx.count = BitVec.ofNat 64 (8 * msg.length)
  len : ctx.buf.length = 64
  state : ctx.state = (absorb H0 msg).toList
  buf : ctx.buf.take (msg.length % 64) = msg.drop (64 * (msg.length / 64))

theorem Repr.r_eq {ctx : SHA256_CTX} {msg : Bytes} (h : Repr ctx msg) :
    ctx.r = msg.length % 64 := by
  unfold SHA256_CTX.r
  rw [h.count, BitVec.toNat_and, BitVec.toNat_ushiftRight, BitVec.toNat_ofNat, BitVec.toNat_ofNat,
    Nat.shiftRight_eq_div_pow, show 63 % 2 ^ 64 = 2 ^ 6 - 1 from rfl, Nat.and_two_pow_sub_one_eq_mod]
  omega

theorem repr_init (ctx : SHA256_CTX) (h : ctx.Sized) : Repr (SHA256_Init ctx) [] := by
  refine ⟨rfl, h.2, ?_, ?_⟩
  · rw [absorb_short _ _ (by simp)]; rfl
  · simp

theorem updLoop_spec (tf : Transform) (ht : GoodTf tf) (fuel : Nat) (s : Regs) (src : Bytes)
    (hf : src.length / 64 ≤ fuel) :
    updLoop tf fuel s.toList src = .ok ((absorb s src).toList, src.drop (64 * (src.length / 64))) := by
  induction fuel generalizing s src with
  | zero => rw [updLoop, absorb_short _ _ (by omega), show src.length / 64 = 0 by omega]; simp
  | succ n ih =>
    rw [updLoop]
    split
    · rename_i h
      rw [ht _ _ (by simp; omega), Res.bind_ok, ih _ _ (by simp; omega), ← absorb_step _ _ h,
        List.drop_drop, List.length_drop]
      congr 3; omega
    · rename_i h
      rw [absorb_short _ _ (by omega), show src.length / 64 = 0 by omega]; simp

/-- Feeding `src` extends the represented message by `src`. -/
theorem SHA256_Update_spec (tf : Transform) (ht : GoodTf tf) (ctx : SHA256_CTX) (msg src : Bytes)
    (h : Repr ctx msg) : ∃ ctx', SHA256_Update tf ctx src = .ok ctx' ∧ Repr ctx' (msg ++ src) := by
  unfold SHA256_Update
  by_cases h0 : src.length = 0
  · have : src = [] := List.length_eq_zero_iff.mp h0
    subst this
    exact ⟨ctx, by simp, by simpa using h⟩
  have hr := h.r_eq
  have hcount : ctx.count + (BitVec.ofNat 64 src.length <<< 3)
      = BitVec.ofNat 64 (8 * (msg ++ src).length) := by
    rw [h.count]; apply BitVec.eq_of_toNat_eq
    simp [BitVec.toNat_add, BitVec.toNat_shiftLeft, Nat.shiftLeft_eq]; omega
  have hlen := h.len
  have hrlt : msg.length % 64 < 64 := Nat.mod_lt _ (by omega)
  simp only [h0, beq_iff_eq, if_false, hr]
  by_cases hlt : src.length < 64 - msg.length % 64
  · have hq : (msg ++ src).length / 64 = msg.length / 64 := by simp; omega
    have hm : (msg ++ src).length % 64 = msg.length % 64 + src.length := by simp; omega
    simp only [hlt, if_true]
    rw [wrSlice_ok (by omega)]
    refine ⟨_, rfl, ⟨hcount, ?_, ?_, ?_⟩⟩
    · simp; omega
    · simp only
      have e : msg ++ src = (msg.take (64 * (msg.length / 64))) ++ (msg.drop (64 * (msg.length / 64)) ++ src) := by
        rw [← List.append_assoc, List.take_append_drop]
      rw [e, absorb_append _ _ _ (msg.length / 64) (by simp; omega),
        absorb_short _ (_ ++ src) (by simp; omega), h.state]
      conv => lhs; rw [← List.take_append_drop (64 * (msg.length / 64)) msg]
      rw [absorb_append _ _ _ (msg.length / 64) (by simp; omega),
        absorb_short _ (msg.drop _) (by simp; omega)]
    · simp only
      rw [hq, hm, List.take_append_of_le_length (by simp; omega), List.take_of_length_le (by simp; omega),
        h.buf, List.drop_append_of_le_length (by omega)]
  · simp only [hlt, if_false]
    rw [wrSlice_ok (by simp; omega)]
    simp only [Res.bind_ok]
    have hbuf : List.take (msg.length % 64) ctx.buf ++ List.take (64 - msg.length % 64) src ++
        List.drop (msg.length % 64 + (List.take (64 - msg.length % 64) src).length) ctx.buf
        = msg.drop (64 * (msg.length / 64)) ++ src.take (64 - msg.length % 64) := by
      rw [h.buf, List.drop_eq_nil_of_le (as := ctx.buf) (by simp; omega), List.append_nil]
    rw [hbuf]
    have hbl : (msg.drop (64 * (msg.length / 64)) ++ src.take (64 - msg.length % 64)).length = 64 := by
      simp; omega
    rw [h.state, ht _ _ hbl]
    simp only [Res.bind_ok]
    rw [updLoop_spec tf ht _ _ _ (by simp; omega)]
    simp only [Res.bind_ok]
    rw [wrSlice_ok (by simp; omega)]
    refine ⟨_, rfl, ⟨hcount, ?_, ?_, ?_⟩⟩
    · simp; omega
    · simp only
      have e1 : absorb H0 msg = absorb H0 (msg.take (64 * (msg.length / 64))) := by
        conv => lhs; rw [← List.take_append_drop (64 * (msg.length / 64)) msg]
        rw [absorb_append _ _ _ (msg.length / 64) (by simp; omega),
          absorb_short _ (msg.drop _) (by simp; omega)]
      have e2 : msg ++ src = msg.take (64 * (msg.length / 64)) ++
          ((msg.drop (64 * (msg.length / 64)) ++ src.take (64 - msg.length % 64)) ++
            src.drop (64 - msg.length % 64)) := by
        rw [List.append_assoc, List.take_append_drop, ← List.append_assoc, List.take_append_drop]
      rw [e2, absorb_append _ _ _ (msg.length / 64) (by simp; omega), absorb_append _ _ _ 1 hbl,
        absorb_block _ _ hbl, e1]
    · simp only [Nat.zero_add, List.take_zero, List.nil_append]
      have hq : (msg ++ src).length / 64
          = msg.length / 64 + 1 + (src.drop (64 - msg.length % 64)).length / 64 := by
        simp; omega
      have hm : (msg ++ src).length % 64 = ((src.drop (64 - msg.length % 64)).drop
          (64 * ((src.drop (64 - msg.length % 64)).length / 64))).length := by
        simp; omega
      rw [hm, List.take_append_of_le_length (by omega), List.take_length, hq, List.drop_append,
        List.drop_eq_nil_of_le (as := msg) (by omega), List.nil_append, List.drop_drop]
      congr 1
      simp; omega

theorem be32enc_vect_spec (s : Regs) : be32enc_vect s.toList 32 = .ok s.bytes := by
  simp [be32enc_vect, forLoop, Regs.toList, rd, Regs.bytes, be32enc_eq]

theorem PAD_take (n : Nat) (h0 : 1 ≤ n) (h : n ≤ 64) : PAD.take n = [0x80] ++ List.replicate (n - 1) 0 := by
  have : PAD = [0x80] ++ List.replicate 63 0 := rfl
  obtain ⟨m, rfl⟩ : ∃ m, n = m + 1 := ⟨n - 1, by omega⟩
  rw [this, Nat.add_sub_cancel]
  simp only [List.singleton_append, List.take_succ_cons, List.take_replicate]
  rw [Nat.min_eq_left (by omega)]

/-- Finishing produces the SHA-256 digest of the represented message. -/
theorem SHA256_Final_spec (tf : Transform) (ht : GoodTf tf) (ctx : SHA256_CTX) (msg : Bytes)
    (h : Repr ctx msg) :
    ∃ ctx', SHA256_Final_internal tf ctx = .ok (sha256 msg, ctx') ∧ ctx'.Sized := by
  have hr := h.r_eq
  have hlen := h.len
  have hrlt : msg.length % 64 < 64 := Nat.mod_lt _ (by omega)
  have hPAD : PAD.length = 64 := rfl
  have hcnt : be64enc ctx.count = beBytes 8 (8 * msg.length) := by
    rw [be64enc_eq, h.count, BitVec.toNat_ofNat]
    have := beBytes_beVal (beBytes 8 (8 * msg.length))
    rw [beBytes_length, beVal_beBytes] at this
    exact this
  have e1 : absorb H0 msg = absorb H0 (msg.take (64 * (msg.length / 64))) := by
    conv => lhs; rw [← List.take_append_drop (64 * (msg.length / 64)) msg]
    rw [absorb_append _ _ _ (msg.length / 64) (by simp; omega),
      absorb_short _ (msg.drop _) (by simp; omega)]
  have hsplit : msg ++ padding msg.length = msg.take (64 * (msg.length / 64)) ++
      (msg.drop (64 * (msg.length / 64)) ++ padding msg.length) := by
    rw [← List.append_assoc, List.take_append_drop]
  have hdvd : 64 ∣ (msg ++ padding msg.length).length := by
    simp [padding]; omega
  have hsha : sha256 msg = (absorb (absorb H0 msg) (msg.drop (64 * (msg.length / 64)) ++
      padding msg.length)).bytes := by
    rw [sha256, ← absorb_eq_blocks _ _ hdvd, hsplit,
      absorb_append _ _ _ (msg.length / 64) (by simp; omega), ← e1]
  unfold SHA256_Final_internal SHA256_Pad
  simp only [hr]
  by_cases h56 : msg.length % 64 < 56
  · simp only [h56, if_true]
    rw [rdSlice_ok (by omega), List.drop_zero, PAD_take _ (by omega) (by omega), Res.bind_ok,
      wrSlice_ok (by simp; omega)]
    simp only [Res.bind_ok, Res.pure_eq]
    rw [h.buf, hcnt, wrSlice_ok (by simp; omega)]
    simp only [Res.bind_ok]
    generalize hB : List.take 56 _ ++ beBytes 8 (8 * msg.length) ++ List.drop _ _ = B
    have hB' : B = msg.drop (64 * (msg.length / 64)) ++ padding msg.length := by
      rw [← hB]
      generalize htl0 : List.drop _ ctx.buf = tl
      rw [List.append_assoc _ _ tl, ← List.append_assoc, List.take_append_of_le_length (by simp; omega),
        List.take_of_length_le (by simp; omega)]
      generalize hX : List.drop (64 * (msg.length / 64)) msg ++ _ = X
      have hXl : X.length = 56 := by rw [← hX]; simp; omega
      have htl : tl.length = 8 := by simp [← htl0]; omega
      rw [List.drop_eq_nil_of_le (by simp [hXl, htl]), List.append_nil, ← hX]
      unfold padding
      rw [show (119 - msg.length % 64) % 64 = 56 - msg.length % 64 - 1 by omega]
      simp
    have hBl : B.length = 64 := by rw [hB']; simp [padding]; omega
    rw [h.state, ht _ _ hBl]
    simp only [Res.bind_ok, be32enc_vect_spec]
    exact ⟨_, by rw [hsha, ← hB', absorb_block _ _ hBl], by simp [SHA256_CTX.Sized, Regs.toList, hBl]⟩
  · simp only [h56, if_false]
    rw [rdSlice_ok (by omega), List.drop_zero, PAD_take _ (by omega) (by omega), Res.bind_ok,
      wrSlice_ok (by simp; omega)]
    simp only [Res.bind_ok, Res.pure_eq]
    generalize hB : List.take (msg.length % 64) ctx.buf ++ _ ++ List.drop _ ctx.buf = B
    have hB' : B = msg.drop (64 * (msg.length / 64)) ++ ([0x80] ++ List.replicate (63 - msg.length % 64) 0) := by
      rw [← hB, h.buf, List.drop_eq_nil_of_le (as := ctx.buf) (by simp; omega), List.append_nil,
        show 64 - msg.length % 64 - 1 = 63 - msg.length % 64 by omega]
    have hBl : B.length = 64 := by rw [hB']; simp; omega
    rw [h.state, ht _ _ hBl, Res.bind_ok, wrSlice_ok (by simp [hBl])]
    simp only [Res.bind_ok]
    rw [hcnt, wrSlice_ok (by simp; omega)]
    simp only [Res.bind_ok]
    generalize hC : List.take 56 _ ++ beBytes 8 (8 * msg.length) ++ List.drop _ _ = C
    have hC' : C = List.replicate 56 0 ++ beBytes 8 (8 * msg.length) := by
      rw [← hC]
      generalize htl0 : List.drop (0 + _) B = tl
      have htl : tl.length = 8 := by simp [← htl0, hBl]
      rw [List.drop_eq_nil_of_le (by simp [htl]), List.append_nil, List.take_zero, List.nil_append,
        List.take_append_of_le_length (by simp), List.take_of_length_le (by simp)]
    have hCl : C.length = 64 := by rw [hC']; simp
    rw [ht _ _ hCl]
    simp only [Res.bind_ok, be32enc_vect_spec]
    have : msg.drop (64 * (msg.length / 64)) ++ padding msg.length = B ++ C := by
      rw [hB', hC']
      unfold padding
      rw [show (119 - msg.length % 64) % 64 = (63 - msg.length % 64) + 56 by omega,
        ← List.replicate_append_replicate]
      simp only [List.append_assoc]
    exact ⟨_, by rw [hsha, this, absorb_append _ _ _ 1 hBl, absorb_block _ _ hBl,
      absorb_block _ _ hCl], by simp [SHA256_CTX.Sized, Regs.toList, hCl]⟩

theorem Repr.sized {ctx : SHA256_CTX} {msg : Bytes} (h : Repr ctx msg) : ctx.Sized :=
  ⟨by rw [h.state]; rfl, h.len⟩

theorem SHA256_Buf_spec (tf : Transform) (ht : GoodTf tf) (ctx : SHA256_CTX) (hc : ctx.Sized)
    (msg : Bytes) : SHA256_Buf tf ctx msg = .ok (sha256 msg) := by
  obtain ⟨c1, e1, h1⟩ := SHA256_Update_spec tf ht _ _ msg (repr_init ctx hc)
  obtain ⟨c2, e2, -⟩ := SHA256_Final_spec tf ht _ _ h1
  simp [SHA256_Buf, e1, e2]

@[simp] theorem sha256_length (msg : Bytes) : (sha256 msg).length = 32 := by
  simp [sha256, Regs.bytes]

end Scrypt
