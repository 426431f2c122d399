import Verif.Model.Endian
import Verif.Spec.Endian
namespace Scrypt
open Spec

theorem lowByte_eq {n : Nat} (x : BitVec n) : lowByte x = BitVec.ofNat 8 x.toNat := by
  apply BitVec.eq_of_toNat_eq
  have h : (255#n).toNat = 255 % 2 ^ n := by simp
  simp only [lowByte, BitVec.toNat_setWidth, BitVec.toNat_and, h, BitVec.toNat_ofNat]
  rw [show x.toNat &&& 255 % 2 ^ n = x.toNat % 256 from ?_]
  · rw [Nat.mod_mod_of_dvd]; exact Nat.dvd_refl _
  · rcases Nat.lt_or_ge n 8 with h8 | h8
    · have hx := x.isLt
      have hle : 2 ^ n ≤ 2 ^ 7 := Nat.pow_le_pow_right (by omega) (by omega)
      have : 255 % 2 ^ n = 2 ^ n - 1 := by
        have : n = 0 ∨ n = 1 ∨ n = 2 ∨ n = 3 ∨ n = 4 ∨ n = 5 ∨ n = 6 ∨ n = 7 := by omega
        rcases this with rfl | rfl | rfl | rfl | rfl | rfl | rfl | rfl <;> rfl
      rw [this, Nat.and_two_pow_sub_one_eq_mod, Nat.mod_eq_of_lt hx, Nat.mod_eq_of_lt (by omega)]
    · have : (2:Nat)^8 ≤ 2 ^ n := Nat.pow_le_pow_right (by omega) h8
      rw [Nat.mod_eq_of_lt (show 255 < 2 ^ n by omega)]
      exact Nat.and_two_pow_sub_one_eq_mod x.toNat 8

theorem be16enc_eq (x : BitVec 16) : be16enc x = beBytes 2 x.toNat := by
  simp [be16enc, lowByte_eq, beBytes, BitVec.toNat_ushiftRight, Nat.shiftRight_eq_div_pow]
theorem be32enc_eq (x : W32) : be32enc x = beBytes 4 x.toNat := by
  simp [be32enc, lowByte_eq, beBytes, BitVec.toNat_ushiftRight, Nat.shiftRight_eq_div_pow,
    Nat.div_div_eq_div_mul]
theorem be64enc_eq (x : W64) : be64enc x = beBytes 8 x.toNat := by
  simp [be64enc, lowByte_eq, beBytes, BitVec.toNat_ushiftRight, Nat.shiftRight_eq_div_pow,
    Nat.div_div_eq_div_mul]
theorem le16enc_eq (x : BitVec 16) : le16enc x = leBytes 2 x.toNat := by
  simp [le16enc, lowByte_eq, leBytes, BitVec.toNat_ushiftRight, Nat.shiftRight_eq_div_pow]
theorem le32enc_eq (x : W32) : le32enc x = leBytes 4 x.toNat := by
  simp [le32enc, lowByte_eq, leBytes, BitVec.toNat_ushiftRight, Nat.shiftRight_eq_div_pow,
    Nat.div_div_eq_div_mul]
theorem le64enc_eq (x : W64) : le64enc x = leBytes 8 x.toNat := by
  simp [le64enc, lowByte_eq, leBytes, BitVec.toNat_ushiftRight, Nat.shiftRight_eq_div_pow,
    Nat.div_div_eq_div_mul]

/-- Disjoint "or" of a small value and a shifted one is addition. -/
theorem or_shift_toNat {w : Nat} (a b : BitVec w) (k : Nat) (ha : a.toNat < 2 ^ k)
    (hb : b.toNat * 2 ^ k < 2 ^ w) : (a ||| (b <<< k)).toNat = a.toNat + b.toNat * 2 ^ k := by
  rw [BitVec.toNat_or, BitVec.toNat_shiftLeft, Nat.shiftLeft_eq, Nat.mod_eq_of_lt hb,
    Nat.or_comm, Nat.mul_comm, ← Nat.two_pow_add_eq_or_of_lt ha, Nat.add_comm]

theorem be16dec_eq (a b : Byte) (t : Bytes) :
    be16dec (a :: b :: t) = .ok (BitVec.ofNat 16 (beVal [a, b])) := by
  have ha := a.isLt; have hb := b.isLt
  simp only [be16dec, rd, List.getElem?_cons_zero, List.getElem?_cons_succ, Res.bind_ok,
    Res.pure_eq, Res.ok.injEq]
  apply BitVec.eq_of_toNat_eq
  rw [or_shift_toNat] <;> simp [beVal] <;> omega

theorem le16dec_eq (a b : Byte) (t : Bytes) :
    le16dec (a :: b :: t) = .ok (BitVec.ofNat 16 (leVal [a, b])) := by
  have ha := a.isLt; have hb := b.isLt
  simp only [le16dec, rd, List.getElem?_cons_zero, List.getElem?_cons_succ, Res.bind_ok,
    Res.pure_eq, Res.ok.injEq]
  apply BitVec.eq_of_toNat_eq
  rw [or_shift_toNat] <;> simp [leVal] <;> omega

private theorem or4 (a b c d : Byte) :
    (d.setWidth 32 ||| (c.setWidth 32 <<< 8) ||| (b.setWidth 32 <<< 16) |||
      (a.setWidth 32 <<< 24) : W32).toNat
      = d.toNat + c.toNat * 2 ^ 8 + b.toNat * 2 ^ 16 + a.toNat * 2 ^ 24 := by
  have ha := a.isLt; have hb := b.isLt; have hc := c.isLt; have hd := d.isLt
  have e1 : (d.setWidth 32 ||| (c.setWidth 32 <<< 8) : W32).toNat = d.toNat + c.toNat * 2 ^ 8 := by
    rw [or_shift_toNat] <;> simp <;> omega
  have e2 : (d.setWidth 32 ||| (c.setWidth 32 <<< 8) ||| (b.setWidth 32 <<< 16) : W32).toNat
      = d.toNat + c.toNat * 2 ^ 8 + b.toNat * 2 ^ 16 := by
    rw [or_shift_toNat, e1]
    · simp; omega
    · rw [e1]; omega
    · simp; omega
  rw [or_shift_toNat, e2]
  · simp; omega
  · rw [e2]; omega
  · simp; omega

theorem be32dec_eq (a b c d : Byte) (t : Bytes) :
    be32dec (a :: b :: c :: d :: t) = .ok (BitVec.ofNat 32 (beVal [a, b, c, d])) := by
  have ha := a.isLt; have hb := b.isLt; have hc := c.isLt; have hd := d.isLt
  simp only [be32dec, rd, List.getElem?_cons_zero, List.getElem?_cons_succ, Res.bind_ok,
    Res.pure_eq, Res.ok.injEq]
  apply BitVec.eq_of_toNat_eq
  rw [or4]; simp [beVal]; omega

theorem le32dec_eq (a b c d : Byte) (t : Bytes) :
    le32dec (a :: b :: c :: d :: t) = .ok (BitVec.ofNat 32 (leVal [a, b, c, d])) := by
  have ha := a.isLt; have hb := b.isLt; have hc := c.isLt; have hd := d.isLt
  simp only [le32dec, rd, List.getElem?_cons_zero, List.getElem?_cons_succ, Res.bind_ok,
    Res.pure_eq, Res.ok.injEq]
  apply BitVec.eq_of_toNat_eq
  rw [or4]; simp [leVal]; omega

private theorem orStep (x : W64) (y : Byte) (k v : Nat) (hx : x.toNat = v) (hv : v < 2 ^ k)
    (hk : k ≤ 56) : (x ||| (y.setWidth 64 <<< k)).toNat = v + y.toNat * 2 ^ k := by
  have hy := y.isLt
  have h1 : (y.setWidth 64).toNat = y.toNat := by simp; omega
  rw [or_shift_toNat, hx, h1]
  · rw [hx]; exact hv
  · rw [h1]
    calc y.toNat * 2 ^ k < 2 ^ 8 * 2 ^ k := by
          apply Nat.mul_lt_mul_of_pos_right (by simpa using hy) (Nat.two_pow_pos k)
      _ = 2 ^ (8 + k) := by rw [Nat.pow_add]
      _ ≤ 2 ^ 64 := Nat.pow_le_pow_right (by omega) (by omega)

private theorem or8 (a0 a1 a2 a3 a4 a5 a6 a7 : Byte) :
    (a0.setWidth 64 ||| (a1.setWidth 64 <<< 8) ||| (a2.setWidth 64 <<< 16) |||
    (a3.setWidth 64 <<< 24) ||| (a4.setWidth 64 <<< 32) ||| (a5.setWidth 64 <<< 40) |||
    (a6.setWidth 64 <<< 48) ||| (a7.setWidth 64 <<< 56) : W64).toNat
      = a0.toNat + a1.toNat * 2 ^ 8 + a2.toNat * 2 ^ 16 + a3.toNat * 2 ^ 24 + a4.toNat * 2 ^ 32
        + a5.toNat * 2 ^ 40 + a6.toNat * 2 ^ 48 + a7.toNat * 2 ^ 56 := by
  have h0 := a0.isLt; have h1 := a1.isLt; have h2 := a2.isLt; have h3 := a3.isLt
  have h4 := a4.isLt; have h5 := a5.isLt; have h6 := a6.isLt
  refine orStep _ a7 56 _ (orStep _ a6 48 _ (orStep _ a5 40 _ (orStep _ a4 32 _ (orStep _ a3 24 _
    (orStep _ a2 16 _ (orStep _ a1 8 _ (by simp; omega) ?_ ?_) ?_ ?_) ?_ ?_) ?_ ?_) ?_ ?_) ?_ ?_) ?_ ?_
    <;> omega

theorem be64dec_eq (a b c d e f g h : Byte) (t : Bytes) :
    be64dec (a :: b :: c :: d :: e :: f :: g :: h :: t)
      = .ok (BitVec.ofNat 64 (beVal [a, b, c, d, e, f, g, h])) := by
  have ha := a.isLt; have hb := b.isLt; have hc := c.isLt; have hd := d.isLt
  have he := e.isLt; have hf := f.isLt; have hg := g.isLt; have hh := h.isLt
  simp only [be64dec, rd, List.getElem?_cons_zero, List.getElem?_cons_succ, Res.bind_ok,
    Res.pure_eq, Res.ok.injEq]
  apply BitVec.eq_of_toNat_eq
  rw [or8]; simp [beVal]; omega

theorem le64dec_eq (a b c d e f g h : Byte) (t : Bytes) :
    le64dec (a :: b :: c :: d :: e :: f :: g :: h :: t)
      = .ok (BitVec.ofNat 64 (leVal [a, b, c, d, e, f, g, h])) := by
  have ha := a.isLt; have hb := b.isLt; have hc := c.isLt; have hd := d.isLt
  have he := e.isLt; have hf := f.isLt; have hg := g.isLt; have hh := h.isLt
  simp only [le64dec, rd, List.getElem?_cons_zero, List.getElem?_cons_succ, Res.bind_ok,
    Res.pure_eq, Res.ok.injEq]
  apply BitVec.eq_of_toNat_eq
  rw [or8]; simp [leVal]; omega

@[simp] theorem beBytes_length (n v : Nat) : (beBytes n v).length = n := by
  induction n generalizing v with
  | zero => rfl
  | succ n ih => simp [beBytes, ih]

@[simp] theorem leBytes_length (n v : Nat) : (leBytes n v).length = n := by
  induction n generalizing v with
  | zero => rfl
  | succ n ih => simp [leBytes, ih]

theorem beVal_append_singleton (l : Bytes) (x : Byte) : beVal (l ++ [x]) = 256 * beVal l + x.toNat := by
  simp [beVal]

theorem beVal_beBytes (n v : Nat) : beVal (beBytes n v) = v % 256 ^ n := by
  induction n generalizing v with
  | zero => simp [beBytes, beVal, Nat.mod_one]
  | succ n ih =>
    simp only [beBytes, beVal_append_singleton, ih, BitVec.toNat_ofNat]
    have h : 256 ^ (n + 1) = 256 * 256 ^ n := by rw [Nat.pow_succ, Nat.mul_comm]
    rw [h, Nat.mod_mul]
    omega

theorem leVal_leBytes (n v : Nat) : leVal (leBytes n v) = v % 256 ^ n := by
  induction n generalizing v with
  | zero => simp [leBytes, leVal, Nat.mod_one]
  | succ n ih =>
    simp only [leBytes, leVal, ih, BitVec.toNat_ofNat]
    have h : 256 ^ (n + 1) = 256 * 256 ^ n := by rw [Nat.pow_succ, Nat.mul_comm]
    rw [h, Nat.mod_mul]

theorem leBytes_leVal (l : Bytes) : leBytes l.length (leVal l) = l := by
  induction l with
  | nil => rfl
  | cons x xs ih =>
    have hx := x.isLt
    simp only [List.length_cons, leBytes, leVal]
    have h1 : (x.toNat + 256 * leVal xs) / 256 = leVal xs := by omega
    rw [h1, ih]
    congr 1
    apply BitVec.eq_of_toNat_eq
    simp only [BitVec.toNat_ofNat]; omega

theorem leVal_lt (l : Bytes) : leVal l < 256 ^ l.length := by
  induction l with
  | nil => simp [leVal]
  | cons x xs ih =>
    have hx := x.isLt
    simp only [leVal, List.length_cons, Nat.pow_succ]; omega

theorem beVal_eq_leVal_reverse (l : Bytes) : beVal l.reverse = leVal l := by
  induction l with
  | nil => rfl
  | cons x xs ih => simp [beVal_append_singleton, ih, leVal]; omega

theorem beBytes_eq_reverse (n v : Nat) : beBytes n v = (leBytes n v).reverse := by
  induction n generalizing v with
  | zero => rfl
  | succ n ih => simp [beBytes, leBytes, ih]

theorem beBytes_beVal (l : Bytes) : beBytes l.length (beVal l) = l := by
  have h := leBytes_leVal l.reverse
  rw [← beVal_eq_leVal_reverse, List.reverse_reverse, List.length_reverse] at h
  rw [beBytes_eq_reverse, h, List.reverse_reverse]

theorem beVal_lt (l : Bytes) : beVal l < 256 ^ l.length := by
  have := leVal_lt l.reverse
  rwa [← beVal_eq_leVal_reverse, List.reverse_reverse, List.length_reverse] at this

end Scrypt
