import Verif.Spec.Scrypt
/-
Which blocks of the table V the second loop of scryptROMix looks up (RFC 7914, section 5, step 3: `j = Integerify (X) mod N`).
-/
namespace Scrypt.Spec

/-- The block of V that step `i` of the second loop reads when the block `B` is mixed. -/
def visit (r N : Nat) (B : Bytes) (i : Nat) : Nat := integerify r (roMixX r N B i) % N

/-- The `b`-th of the `p` blocks that a derivation mixes: 128r octets of `PBKDF2 (P, S, 1, 128rp)` (RFC 7914, section 6, step 1). -/
def mixed (P S : Bytes) (r p b : Nat) : Bytes := ((pbkdf2 P S 1 (p * 128 * r)).drop (128 * r * b)).take (128 * r)

end Scrypt.Spec
