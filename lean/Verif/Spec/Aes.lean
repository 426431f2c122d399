import Verif.Spec.Sha256
/-
Specification: AES (FIPS 197) and counter mode as used by the file format (64-bit nonce, 64-bit block
counter).  A block / state is a list of 16 bytes in the order of FIPS 197 figure 3 (column major:
s[r, c] is byte r + 4c); a word is a list of 4 bytes.
-/
namespace Scrypt.Spec

/-! ### The field GF(2^8) (FIPS 197 section 4) -/

/-- Multiplication by {02} modulo x^8 + x^4 + x^3 + x + 1. -/
def xtime (b : Byte) : Byte := (b <<< 1) ^^^ (if b.msb then 0x1b else 0)

/-- `gfMulAux n a b`: the product of `a` with the low `n` bits of `b`. -/
def gfMulAux : Nat → Byte → Byte → Byte
  | 0, _, _ => 0
  | n + 1, a, b => (if b.getLsbD 0 then a else 0) ^^^ gfMulAux n (xtime a) (b >>> 1)

def gfMul (a b : Byte) : Byte := gfMulAux 8 a b

/-- `b^(2^n)` -/
def gfSqr (b : Byte) : Nat → Byte
  | 0 => b
  | n + 1 => gfMul (gfSqr b n) (gfSqr b n)

/-- Multiplicative inverse, with 0 mapped to 0: `b^254 = b^2 · b^4 · … · b^128` (the multiplicative group
has order 255); `C26_spec_inverse` checks that it is the inverse. -/
def gfInv (b : Byte) : Byte :=
  gfMul (gfSqr b 1) (gfMul (gfSqr b 2) (gfMul (gfSqr b 3) (gfMul (gfSqr b 4) (gfMul (gfSqr b 5) (gfMul (gfSqr b 6) (gfSqr b 7))))))

/-- S-box (section 5.1.1): inverse, then the affine transformation. -/
def sbox (b : Byte) : Byte :=
  let x := gfInv b
  x ^^^ x.rotateLeft 1 ^^^ x.rotateLeft 2 ^^^ x.rotateLeft 3 ^^^ x.rotateLeft 4 ^^^ 0x63

/-! ### Cipher (section 5.1); the S-box is a parameter so that a table can be substituted -/

def subBytes (S : Byte → Byte) (s : Bytes) : Bytes := s.map S

/-- s'[r, c] = s[r, (c + r) mod 4] -/
def shiftRows (s : Bytes) : Bytes :=
  (List.range 16).map fun k => s.getD (k % 4 + 4 * ((k / 4 + k % 4) % 4)) 0

/-- s'[r, c] = {02} s[r, c] + {03} s[r+1, c] + s[r+2, c] + s[r+3, c] -/
def mixColumns (s : Bytes) : Bytes :=
  (List.range 16).map fun k =>
    let g (j : Nat) : Byte := s.getD ((k % 4 + j) % 4 + 4 * (k / 4)) 0
    gfMul 2 (g 0) ^^^ gfMul 3 (g 1) ^^^ g 2 ^^^ g 3

/-- Round key `round`: words `4·round … 4·round + 3` of the key schedule. -/
def roundKey (w : List Bytes) (round : Nat) : Bytes :=
  w.getD (4 * round) [] ++ w.getD (4 * round + 1) [] ++ w.getD (4 * round + 2) [] ++ w.getD (4 * round + 3) []

def cipher (S : Byte → Byte) (Nr : Nat) (w : List Bytes) (inp : Bytes) : Bytes :=
  let s := xorBytes inp (roundKey w 0)
  let s := (List.range (Nr - 1)).foldl
    (fun s i => xorBytes (mixColumns (shiftRows (subBytes S s))) (roundKey w (i + 1))) s
  xorBytes (shiftRows (subBytes S s)) (roundKey w Nr)

/-! ### Key expansion (section 5.2) -/

def subWord (S : Byte → Byte) (w : Bytes) : Bytes := w.map S
def rotWord (w : Bytes) : Bytes := w.drop 1 ++ w.take 1
/-- `Rcon[j] = {02}^(j-1)`, `j ≥ 1` -/
def rcon : Nat → Byte
  | 0 => 0
  | 1 => 1
  | n + 2 => xtime (rcon (n + 1))

/-- The temporary value xored into `w[i]`, from `w[i-1]`. -/
def keyTemp (S : Byte → Byte) (Nk i : Nat) (prev : Bytes) : Bytes :=
  if i % Nk = 0 then xorBytes (subWord S (rotWord prev)) [rcon (i / Nk), 0, 0, 0]
  else if 6 < Nk ∧ i % Nk = 4 then subWord S prev
  else prev

/-- The first `Nk + n` words of the schedule. -/
def keyExpansion (S : Byte → Byte) (Nk : Nat) (key : Bytes) : Nat → List Bytes
  | 0 => (List.range Nk).map fun i => (key.drop (4 * i)).take 4
  | n + 1 =>
    let w := keyExpansion S Nk key n
    let i := Nk + n
    w ++ [xorBytes (w.getD (i - Nk) []) (keyTemp S Nk i (w.getD (i - 1) []))]

/-- AES with a key of `4·Nk` bytes (`Nk` = 4 or 8 here), `Nr = Nk + 6` rounds. -/
def aesWith (S : Byte → Byte) (key inp : Bytes) : Bytes :=
  let Nk := key.length / 4
  let Nr := Nk + 6
  cipher S Nr (keyExpansion S Nk key (4 * (Nr + 1) - Nk)) inp

def aes (key inp : Bytes) : Bytes := aesWith sbox key inp

/-! ### Counter mode -/

/-- Byte `i` of the key stream of block cipher `E` with a 64-bit nonce. -/
def ctrByte (E : Bytes → Bytes) (nonce : Nat) (i : Nat) : Byte :=
  (E (beBytes 8 nonce ++ beBytes 8 (i / 16))).getD (i % 16) 0

/-- `n` bytes of key stream from position `pos`. -/
def ctrStream (E : Bytes → Bytes) (nonce pos n : Nat) : Bytes :=
  (List.range n).map fun j => ctrByte E nonce (pos + j)

/-- Encryption (= decryption) of `data` located at stream position `pos`. -/
def ctr (E : Bytes → Bytes) (nonce pos : Nat) (data : Bytes) : Bytes :=
  xorBytes data (ctrStream E nonce pos data.length)

end Scrypt.Spec
