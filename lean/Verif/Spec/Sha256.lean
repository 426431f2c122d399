import Verif.Spec.Endian
/-
Specification of SHA-256 (FIPS 180-4, sections 4.1.2, 4.2.2, 5.1.1, 5.3.3, 6.2), HMAC (RFC 2104 /
FIPS 198-1) and PBKDF2 (RFC 8018, section 5.2) with HMAC-SHA256 as PRF.
-/
namespace Scrypt.Spec

/-- FIPS 180-4, 3.2: rotate right. -/
def ROTR (n : Nat) (x : W32) : W32 := x.rotateRight n
/-- FIPS 180-4, (4.2)-(4.7). -/
def Ch (x y z : W32) : W32 := (x &&& y) ^^^ (~~~x &&& z)
def Maj (x y z : W32) : W32 := (x &&& y) ^^^ (x &&& z) ^^^ (y &&& z)
def Sig0 (x : W32) : W32 := ROTR 2 x ^^^ ROTR 13 x ^^^ ROTR 22 x
def Sig1 (x : W32) : W32 := ROTR 6 x ^^^ ROTR 11 x ^^^ ROTR 25 x
def sig0 (x : W32) : W32 := ROTR 7 x ^^^ ROTR 18 x ^^^ (x >>> 3)
def sig1 (x : W32) : W32 := ROTR 17 x ^^^ ROTR 19 x ^^^ (x >>> 10)

/-- FIPS 180-4, 4.2.2. `Props.C18_constants` proves that these are the first 32 bits of the
fractional parts of the cube roots of the first 64 primes. -/
def Ktab : List W32 := [
  0x428a2f98, 0x71374491, 0xb5c0fbcf, 0xe9b5dba5, 0x3956c25b, 0x59f111f1, 0x923f82a4, 0xab1c5ed5,
  0xd807aa98, 0x12835b01, 0x243185be, 0x550c7dc3, 0x72be5d74, 0x80deb1fe, 0x9bdc06a7, 0xc19bf174,
  0xe49b69c1, 0xefbe4786, 0x0fc19dc6, 0x240ca1cc, 0x2de92c6f, 0x4a7484aa, 0x5cb0a9dc, 0x76f988da,
  0x983e5152, 0xa831c66d, 0xb00327c8, 0xbf597fc7, 0xc6e00bf3, 0xd5a79147, 0x06ca6351, 0x14292967,
  0x27b70a85, 0x2e1b2138, 0x4d2c6dfc, 0x53380d13, 0x650a7354, 0x766a0abb, 0x81c2c92e, 0x92722c85,
  0xa2bfe8a1, 0xa81a664b, 0xc24b8b70, 0xc76c51a3, 0xd192e819, 0xd6990624, 0xf40e3585, 0x106aa070,
  0x19a4c116, 0x1e376c08, 0x2748774c, 0x34b0bcb5, 0x391c0cb3, 0x4ed8aa4a, 0x5b9cca4f, 0x682e6ff3,
  0x748f82ee, 0x78a5636f, 0x84c87814, 0x8cc70208, 0x90befffa, 0xa4506ceb, 0xbef9a3f7, 0xc67178f2]

/-- `K_t` -/
def K (t : Nat) : W32 := Ktab.getD t 0

/-- The eight working variables / hash words. -/
structure Regs where
  (a b c d e f g h : W32)
  deriving DecidableEq, Repr

/-- FIPS 180-4, 5.3.3: initial hash value. -/
def H0 : Regs :=
  ⟨0x6a09e667, 0xbb67ae85, 0x3c6ef372, 0xa54ff53a, 0x510e527f, 0x9b05688c, 0x1f83d9ab, 0x5be0cd19⟩

/-- FIPS 180-4, 6.2.2 step 1: message schedule of the 16 words `M`. -/
def Wt (M : Nat → W32) (t : Nat) : W32 :=
  if t < 16 then M t
  else sig1 (Wt M (t - 2)) + Wt M (t - 7) + sig0 (Wt M (t - 15)) + Wt M (t - 16)
termination_by t

/-- FIPS 180-4, 6.2.2 step 3: one round. -/
def round (k w : W32) (s : Regs) : Regs :=
  let T1 := s.h + Sig1 s.e + Ch s.e s.f s.g + k + w
  let T2 := Sig0 s.a + Maj s.a s.b s.c
  { a := T1 + T2, b := s.a, c := s.b, d := s.c, e := s.d + T1, f := s.e, g := s.f, h := s.g }

/-- The first `n` rounds. -/
def rounds (M : Nat → W32) : Nat → Regs → Regs
  | 0, s => s
  | n + 1, s => round (K n) (Wt M n) (rounds M n s)

/-- FIPS 180-4, 6.2.2 step 4. -/
def Regs.add (x y : Regs) : Regs :=
  ⟨x.a + y.a, x.b + y.b, x.c + y.c, x.d + y.d, x.e + y.e, x.f + y.f, x.g + y.g, x.h + y.h⟩

/-- Word `i` of a block: four bytes, most significant first (FIPS 180-4, 3.1, 5.2.1). -/
def wordBE (blk : Bytes) (i : Nat) : W32 := BitVec.ofNat 32 (beVal ((blk.drop (4 * i)).take 4))

/-- The compression function. -/
def compress (H : Regs) (blk : Bytes) : Regs := (rounds (wordBE blk) 64 H).add H

/-- FIPS 180-4, 5.1.1: `0x80`, the least number of zero bytes making the total a multiple of 64,
and the 64-bit big-endian bit length (defined there for less than 2^64 bits). -/
def padding (len : Nat) : Bytes :=
  [0x80] ++ List.replicate ((119 - len % 64) % 64) 0 ++ beBytes 8 (8 * len)

def Regs.bytes (s : Regs) : Bytes :=
  [s.a, s.b, s.c, s.d, s.e, s.f, s.g, s.h].flatMap fun w => beBytes 4 w.toNat

/-- SHA-256. -/
def sha256 (msg : Bytes) : Bytes :=
  ((blocks 64 (msg ++ padding msg.length)).foldl compress H0).bytes

/-! ### HMAC -/

/-- RFC 2104: the key, hashed if longer than a block, zero-padded to a block. -/
def hmacKey (K : Bytes) : Bytes :=
  let K' := if 64 < K.length then sha256 K else K
  K' ++ List.replicate (64 - K'.length) 0

/-- HMAC-SHA256: `H(K ⊕ opad, H(K ⊕ ipad, text))`. -/
def hmac (K text : Bytes) : Bytes :=
  sha256 ((hmacKey K).map (· ^^^ 0x5c) ++ sha256 ((hmacKey K).map (· ^^^ 0x36) ++ text))

/-! ### PBKDF2 -/

/-- `U_1 = PRF(P, S ‖ INT(i))`, `U_{j+1} = PRF(P, U_j)`; `pbkdf2U P S i j` is `U_{j+1}`. -/
def pbkdf2U (P S : Bytes) (i : Nat) : Nat → Bytes
  | 0 => hmac P (S ++ beBytes 4 i)
  | j + 1 => hmac P (pbkdf2U P S i j)

/-- `T_i = U_1 ⊕ … ⊕ U_c` -/
def pbkdf2T (P S : Bytes) (c i : Nat) : Bytes :=
  (List.range (c - 1)).foldl (fun t j => xorBytes t (pbkdf2U P S i (j + 1))) (pbkdf2U P S i 0)

/-- `DK = (T_1 ‖ T_2 ‖ …)` truncated to `dkLen` bytes (RFC 8018 requires `c ≥ 1` and
`dkLen ≤ (2^32 - 1)·32`). -/
def pbkdf2 (P S : Bytes) (c dkLen : Nat) : Bytes :=
  ((List.range ((dkLen + 31) / 32)).flatMap fun i => pbkdf2T P S c (i + 1)).take dkLen

end Scrypt.Spec
