import Verif.Spec.Format
import Verif.Spec.Scrypt
/-
A collision of SHA-256, and the messages HMAC and scrypt hash last.
-/
namespace Scrypt.Spec

/-- Two different messages with one digest. -/
def Collision (x y : Bytes) : Prop := x ≠ y ∧ sha256 x = sha256 y

/-- The message of HMAC's outer hash (RFC 2104): `HMAC(K, text)` is its SHA-256 digest. -/
def hmacOuter (K text : Bytes) : Bytes := (hmacKey K).map (· ^^^ 0x5c) ++ sha256 ((hmacKey K).map (· ^^^ 0x36) ++ text)

/-- The blocks after the mixing, as the code computes them (for `p ≤ 2^25` those of RFC 7914, step 2). -/
def scryptMixed (P S : Bytes) (N r p : Nat) : Bytes :=
  (List.range p).flatMap fun b => (roMix r N)^[mixTimes p b] (((pbkdf2 P S 1 (p * 128 * r)).drop (128 * r * b)).take (128 * r))

end Scrypt.Spec
