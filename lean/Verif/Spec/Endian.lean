import Verif.Basic
/-
Specification: positional value of a byte string, most / least significant byte first.
-/
namespace Scrypt.Spec

/-- Value of a byte string read most-significant byte first. -/
def beVal (b : Bytes) : Nat := b.foldl (fun acc x => 256 * acc + x.toNat) 0

/-- Value of a byte string read least-significant byte first. -/
def leVal : Bytes → Nat
  | [] => 0
  | x :: xs => x.toNat + 256 * leVal xs

/-- Most-significant-first encoding of `v` on `n` bytes (of `v mod 256^n`). -/
def beBytes : Nat → Nat → Bytes
  | 0, _ => []
  | n + 1, v => beBytes n (v / 256) ++ [BitVec.ofNat 8 v]

/-- Least-significant-first encoding of `v` on `n` bytes (of `v mod 256^n`). -/
def leBytes : Nat → Nat → Bytes
  | 0, _ => []
  | n + 1, v => BitVec.ofNat 8 v :: leBytes n (v / 256)

end Scrypt.Spec
