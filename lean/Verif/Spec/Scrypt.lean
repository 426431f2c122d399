import Verif.Spec.Sha256
import Mathlib.Logic.Function.Iterate
/-
Specification of scrypt: RFC 7914 sections 2-6, with Salsa20 as in D. J. Bernstein's specification
(quarterround / rowround / columnround).
-/
namespace Scrypt.Spec

/-! ### Salsa20/8 core (RFC 7914, section 3) -/

/-- Salsa20 specification, section 3. -/
def quarterround (y0 y1 y2 y3 : W32) : W32 × W32 × W32 × W32 :=
  let z1 := y1 ^^^ (y0 + y3).rotateLeft 7
  let z2 := y2 ^^^ (z1 + y0).rotateLeft 9
  let z3 := y3 ^^^ (z2 + z1).rotateLeft 13
  let z0 := y0 ^^^ (z3 + z2).rotateLeft 18
  (z0, z1, z2, z3)

/-- Salsa20 specification, section 4. -/
def rowround : List W32 → List W32
  | [y0, y1, y2, y3, y4, y5, y6, y7, y8, y9, y10, y11, y12, y13, y14, y15] =>
    let (z0, z1, z2, z3) := quarterround y0 y1 y2 y3
    let (z5, z6, z7, z4) := quarterround y5 y6 y7 y4
    let (z10, z11, z8, z9) := quarterround y10 y11 y8 y9
    let (z15, z12, z13, z14) := quarterround y15 y12 y13 y14
    [z0, z1, z2, z3, z4, z5, z6, z7, z8, z9, z10, z11, z12, z13, z14, z15]
  | l => l

/-- Salsa20 specification, section 5. -/
def columnround : List W32 → List W32
  | [x0, x1, x2, x3, x4, x5, x6, x7, x8, x9, x10, x11, x12, x13, x14, x15] =>
    let (y0, y4, y8, y12) := quarterround x0 x4 x8 x12
    let (y5, y9, y13, y1) := quarterround x5 x9 x13 x1
    let (y10, y14, y2, y6) := quarterround x10 x14 x2 x6
    let (y15, y3, y7, y11) := quarterround x15 x3 x7 x11
    [y0, y1, y2, y3, y4, y5, y6, y7, y8, y9, y10, y11, y12, y13, y14, y15]
  | l => l

/-- Salsa20 specification, section 6. -/
def doubleround (x : List W32) : List W32 := rowround (columnround x)

/-- `x + doubleround^4(x)`, word-wise. -/
def salsa20_8_words (x : List W32) : List W32 :=
  List.zipWith (· + ·) x (doubleround (doubleround (doubleround (doubleround x))))

/-- The `n` little-endian words of a byte string. -/
def leWords (n : Nat) (B : Bytes) : List W32 :=
  (List.range n).map fun i => BitVec.ofNat 32 (leVal ((B.drop (4 * i)).take 4))

/-- The bytes of a list of words, little endian. -/
def leWordBytes (w : List W32) : Bytes := w.flatMap fun x => leBytes 4 x.toNat

/-- The Salsa20/8 core on 64 octets. -/
def salsa20_8 (B : Bytes) : Bytes := leWordBytes (salsa20_8_words (leWords 16 B))

/-! ### scryptBlockMix (section 4) -/

/-- The `i`-th 64-octet block. -/
def blk64 (B : Bytes) (i : Nat) : Bytes := (B.drop (64 * i)).take 64

/-- `Y[i]`, the value of `X` after step `i`. -/
def blockMixY (r : Nat) (B : Bytes) : Nat → Bytes
  | 0 => salsa20_8 (xorBytes (blk64 B (2 * r - 1)) (blk64 B 0))
  | i + 1 => salsa20_8 (xorBytes (blockMixY r B i) (blk64 B (i + 1)))

/-- `B' = (Y[0], Y[2], ..., Y[2r-2], Y[1], Y[3], ..., Y[2r-1])` -/
def blockMix (r : Nat) (B : Bytes) : Bytes :=
  ((List.range r).flatMap fun i => blockMixY r B (2 * i)) ++
  ((List.range r).flatMap fun i => blockMixY r B (2 * i + 1))

/-! ### scryptROMix (section 5) -/

/-- `Integerify`: the last 64-octet block as a little-endian integer. -/
def integerify (r : Nat) (B : Bytes) : Nat := leVal (blk64 B (2 * r - 1))

/-- `V[i]`, i.e. `X` after `i` steps of the first loop. -/
def roMixV (r : Nat) (B : Bytes) : Nat → Bytes
  | 0 => B
  | i + 1 => blockMix r (roMixV r B i)

/-- `X` after `i` steps of the second loop. -/
def roMixX (r N : Nat) (B : Bytes) : Nat → Bytes
  | 0 => roMixV r B N
  | i + 1 =>
    let X := roMixX r N B i
    let j := integerify r X % N
    blockMix r (xorBytes X (roMixV r B j))

/-- `scryptROMix (r, B, N)` -/
def roMix (r N : Nat) (B : Bytes) : Bytes := roMixX r N B N

/-! ### scrypt (section 6) -/

/-- `scrypt (P, S, N, r, p, dkLen)` -/
def scrypt (P S : Bytes) (N r p dkLen : Nat) : Bytes :=
  let B := pbkdf2 P S 1 (p * 128 * r)
  let B' := (List.range p).flatMap fun i => roMix r N ((B.drop (128 * r * i)).take (128 * r))
  pbkdf2 P B' 1 dkLen

/-! ### Which parameters are acceptable, and what happens beyond p = 2^25 -/

/-- SIZE_MAX of the two supported widths. -/
def IsSizeMax (m : Nat) : Prop := m = 2 ^ 32 - 1 ∨ m = 2 ^ 64 - 1

/-- The parameters RFC 7914 / the header comment allow and whose buffers fit in `size_t`. -/
structure ScParams (szMax : Nat) (N r p buflen : Nat) : Prop where
  r0 : 0 < r
  p0 : 0 < p
  rp : r * p < 2 ^ 30
  N2 : ∃ k, N = 2 ^ k ∧ 1 ≤ k ∧ k ≤ 63
  len : buflen ≤ 32 * (2 ^ 32 - 1)
  szB : 128 * r * p ≤ szMax
  szXY : 256 * r + 64 ≤ szMax
  szV : 128 * r * N ≤ szMax

/-- The parameters the reference implementation accepts (it also accepts N = 1). -/
structure RefParams (szMax : Nat) (N r p buflen : Nat) : Prop where
  r0 : 0 < r
  p0 : 0 < p
  rp : r * p < 2 ^ 30
  N2 : ∃ k, N = 2 ^ k ∧ k ≤ 63
  len : buflen ≤ 32 * (2 ^ 32 - 1)
  szB : 128 * r * p ≤ szMax
  szXY : 256 * r ≤ szMax
  szV : 128 * r * N ≤ szMax

/-- How many of the first `n` iterations mix block `b`: those whose 32-bit product `i * 128` selects it. -/
def mixTimes (n b : Nat) : Nat := ((List.range n).filter fun i => i % 2 ^ 25 = b).length

/-- The value the code computes for accepted parameters. -/
def scryptCode (P S : Bytes) (N r p dkLen : Nat) : Bytes :=
  let B := pbkdf2 P S 1 (p * 128 * r)
  pbkdf2 P ((List.range p).flatMap fun b => (roMix r N)^[mixTimes p b] ((B.drop (128 * r * b)).take (128 * r))) 1 dkLen

end Scrypt.Spec
