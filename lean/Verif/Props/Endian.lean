import Verif.Proofs.Endian
/-
C28: endian encoders and decoders.
-/
namespace Scrypt.Props
open Spec

/-- C28 (encode = positional representation). -/
theorem C28_encode (x16 : BitVec 16) (x32 : W32) (x64 : W64) :
    be16enc x16 = beBytes 2 x16.toNat ∧ le16enc x16 = leBytes 2 x16.toNat ∧
    be32enc x32 = beBytes 4 x32.toNat ∧ le32enc x32 = leBytes 4 x32.toNat ∧
    be64enc x64 = beBytes 8 x64.toNat ∧ le64enc x64 = leBytes 8 x64.toNat :=
  ⟨be16enc_eq _, le16enc_eq _, be32enc_eq _, le32enc_eq _, be64enc_eq _, le64enc_eq _⟩

/-- C28 (decode = positional value); `p` may be followed by further bytes, which are not read. -/
theorem C28_decode16 (p rest : Bytes) (h : p.length = 2) :
    be16dec (p ++ rest) = .ok (BitVec.ofNat 16 (beVal p)) ∧
    le16dec (p ++ rest) = .ok (BitVec.ofNat 16 (leVal p)) := by
  match p, h with
  | [a, b], _ => exact ⟨be16dec_eq .., le16dec_eq ..⟩

theorem C28_decode32 (p rest : Bytes) (h : p.length = 4) :
    be32dec (p ++ rest) = .ok (BitVec.ofNat 32 (beVal p)) ∧
    le32dec (p ++ rest) = .ok (BitVec.ofNat 32 (leVal p)) := by
  match p, h with
  | [a, b, c, d], _ => exact ⟨be32dec_eq .., le32dec_eq ..⟩

theorem C28_decode64 (p rest : Bytes) (h : p.length = 8) :
    be64dec (p ++ rest) = .ok (BitVec.ofNat 64 (beVal p)) ∧
    le64dec (p ++ rest) = .ok (BitVec.ofNat 64 (leVal p)) := by
  match p, h with
  | [a, b, c, d, e, f, g, i], _ => exact ⟨be64dec_eq .., le64dec_eq ..⟩

/-- C28 (mutual inverses, encode then decode). -/
theorem C28_decode_encode (x16 : BitVec 16) (x32 : W32) (x64 : W64) (rest : Bytes) :
    be16dec (be16enc x16 ++ rest) = .ok x16 ∧ le16dec (le16enc x16 ++ rest) = .ok x16 ∧
    be32dec (be32enc x32 ++ rest) = .ok x32 ∧ le32dec (le32enc x32 ++ rest) = .ok x32 ∧
    be64dec (be64enc x64 ++ rest) = .ok x64 ∧ le64dec (le64enc x64 ++ rest) = .ok x64 := by
  have h16 := x16.isLt; have h32 := x32.isLt; have h64 := x64.isLt
  refine ⟨?_, ?_, ?_, ?_, ?_, ?_⟩
  · rw [(C28_decode16 _ rest (by rw [be16enc_eq]; simp)).1, be16enc_eq, beVal_beBytes]
    congr 1; apply BitVec.eq_of_toNat_eq; first | (simp; done) | (simp; omega)
  · rw [(C28_decode16 _ rest (by rw [le16enc_eq]; simp)).2, le16enc_eq, leVal_leBytes]
    congr 1; apply BitVec.eq_of_toNat_eq; first | (simp; done) | (simp; omega)
  · rw [(C28_decode32 _ rest (by rw [be32enc_eq]; simp)).1, be32enc_eq, beVal_beBytes]
    congr 1; apply BitVec.eq_of_toNat_eq; first | (simp; done) | (simp; omega)
  · rw [(C28_decode32 _ rest (by rw [le32enc_eq]; simp)).2, le32enc_eq, leVal_leBytes]
    congr 1; apply BitVec.eq_of_toNat_eq; first | (simp; done) | (simp; omega)
  · rw [(C28_decode64 _ rest (by rw [be64enc_eq]; simp)).1, be64enc_eq, beVal_beBytes]
    congr 1; apply BitVec.eq_of_toNat_eq; first | (simp; done) | (simp; omega)
  · rw [(C28_decode64 _ rest (by rw [le64enc_eq]; simp)).2, le64enc_eq, leVal_leBytes]
    congr 1; apply BitVec.eq_of_toNat_eq; first | (simp; done) | (simp; omega)

/-- C28 (mutual inverses, decode then encode). -/
theorem C28_encode_decode32 (p : Bytes) (h : p.length = 4) :
    (∀ x, be32dec p = .ok x → be32enc x = p) ∧ (∀ x, le32dec p = .ok x → le32enc x = p) := by
  have hb := beVal_lt p; have hl := leVal_lt p
  have e := C28_decode32 p [] h
  rw [List.append_nil] at e
  rw [h] at hb hl
  constructor
  · intro x hx
    rw [e.1] at hx; cases hx
    rw [be32enc_eq, BitVec.toNat_ofNat, Nat.mod_eq_of_lt (by omega), ← h]
    exact beBytes_beVal p
  · intro x hx
    rw [e.2] at hx; cases hx
    rw [le32enc_eq, BitVec.toNat_ofNat, Nat.mod_eq_of_lt (by omega), ← h]
    exact leBytes_leVal p

theorem C28_encode_decode16 (p : Bytes) (h : p.length = 2) :
    (∀ x, be16dec p = .ok x → be16enc x = p) ∧ (∀ x, le16dec p = .ok x → le16enc x = p) := by
  have hb := beVal_lt p; have hl := leVal_lt p
  have e := C28_decode16 p [] h
  rw [List.append_nil] at e
  rw [h] at hb hl
  constructor
  · intro x hx
    rw [e.1] at hx; cases hx
    rw [be16enc_eq, BitVec.toNat_ofNat, Nat.mod_eq_of_lt (by omega), ← h]
    exact beBytes_beVal p
  · intro x hx
    rw [e.2] at hx; cases hx
    rw [le16enc_eq, BitVec.toNat_ofNat, Nat.mod_eq_of_lt (by omega), ← h]
    exact leBytes_leVal p

theorem C28_encode_decode64 (p : Bytes) (h : p.length = 8) :
    (∀ x, be64dec p = .ok x → be64enc x = p) ∧ (∀ x, le64dec p = .ok x → le64enc x = p) := by
  have hb := beVal_lt p; have hl := leVal_lt p
  have e := C28_decode64 p [] h
  rw [List.append_nil] at e
  rw [h] at hb hl
  constructor
  · intro x hx
    rw [e.1] at hx; cases hx
    rw [be64enc_eq, BitVec.toNat_ofNat, Nat.mod_eq_of_lt (by omega), ← h]
    exact beBytes_beVal p
  · intro x hx
    rw [e.2] at hx; cases hx
    rw [le64enc_eq, BitVec.toNat_ofNat, Nat.mod_eq_of_lt (by omega), ← h]
    exact leBytes_leVal p

/-- Short buffers are an out-of-bounds read, not a value. -/
theorem C28_short (p : Bytes) :
    (p.length < 2 → be16dec p = .ub ∧ le16dec p = .ub) ∧
    (p.length < 4 → be32dec p = .ub ∧ le32dec p = .ub) ∧
    (p.length < 8 → be64dec p = .ub ∧ le64dec p = .ub) := by
  refine ⟨?_, ?_, ?_⟩ <;> intro h
  · match p, h with
    | [], _ => exact ⟨rfl, rfl⟩
    | [_], _ => exact ⟨rfl, rfl⟩
  · match p, h with
    | [], _ => exact ⟨rfl, rfl⟩
    | [_], _ => exact ⟨rfl, rfl⟩
    | [_, _], _ => exact ⟨rfl, rfl⟩
    | [_, _, _], _ => exact ⟨rfl, rfl⟩
  · match p, h with
    | [], _ => exact ⟨rfl, rfl⟩
    | [_], _ => exact ⟨rfl, rfl⟩
    | [_, _], _ => exact ⟨rfl, rfl⟩
    | [_, _, _], _ => exact ⟨rfl, rfl⟩
    | [_, _, _, _], _ => exact ⟨rfl, rfl⟩
    | [_, _, _, _, _], _ => exact ⟨rfl, rfl⟩
    | [_, _, _, _, _, _], _ => exact ⟨rfl, rfl⟩
    | [_, _, _, _, _, _, _], _ => exact ⟨rfl, rfl⟩

/-- Non-vacuity: a concrete value. -/
example : be32enc 0x01020304#32 = [1, 2, 3, 4] ∧ le32dec [4, 3, 2, 1, 9] = .ok 0x01020304#32 := by
  decide

end Scrypt.Props
