import Verif.Spec.Scrypt
import Verif.Spec.Aes
/-
The encrypted data format, transcribed from FORMAT: header, container, and the order in which the parts
of a container are checked.
-/
namespace Scrypt.Spec

/-- "scrypt" -/
def magic : Bytes := [0x73, 0x63, 0x72, 0x79, 0x70, 0x74]

/-- Bytes 0 .. 47: magic, version 0, log2(N), r and p (big-endian), salt. -/
def header48 (logN r p : Nat) (salt : Bytes) : Bytes :=
  magic ++ [0] ++ [BitVec.ofNat 8 logN] ++ beBytes 4 r ++ beBytes 4 p ++ salt

/-- Bytes 0 .. 63: ... and the first 16 bytes of SHA256(bytes 0 .. 47). -/
def header64 (logN r p : Nat) (salt : Bytes) : Bytes :=
  header48 logN r p salt ++ (sha256 (header48 logN r p salt)).take 16

/-- key_enc: the first half of the derived key. -/
def keyEnc (dk : Bytes) : Bytes := dk.take 32

/-- key_hmac: the second half. -/
def keyHmac (dk : Bytes) : Bytes := (dk.drop 32).take 32

/-- Bytes 0 .. 95: ... and HMAC-SHA256(bytes 0 .. 63). -/
def header96 (dk : Bytes) (logN r p : Nat) (salt : Bytes) : Bytes :=
  header64 logN r p salt ++ hmac (keyHmac dk) (header64 logN r p salt)

/-- The data xor the AES256-CTR key stream generated with nonce 0. -/
def dataCipher (dk m : Bytes) : Bytes := ctr (aes (keyEnc dk)) 0 0 m

/-- The whole container for derived key `dk`. -/
def container (dk : Bytes) (logN r p : Nat) (salt m : Bytes) : Bytes :=
  let body := header96 dk logN r p salt ++ dataCipher dk m
  body ++ hmac (keyHmac dk) body

/-- scrypt encrypted data: the container whose key is scrypt(password, salt, N, r, p, 64). -/
def encrypted (password : Bytes) (logN r p : Nat) (salt m : Bytes) : Bytes :=
  container (scrypt password salt (2 ^ logN) r p 64) logN r p salt m

/-! ### Fields of an input -/

/-- `len` bytes at offset `off`. -/
def field (inp : Bytes) (off len : Nat) : Bytes := (inp.drop off).take len

/-- The fields of a header. -/
def hdrLogN (inp : Bytes) : Nat := beVal (field inp 7 1)
def hdrR (inp : Bytes) : Nat := beVal (field inp 8 4)
def hdrP (inp : Bytes) : Nat := beVal (field inp 12 4)
def hdrSalt (inp : Bytes) : Bytes := field inp 16 32

/-- The input starts with the magic. -/
def HasMagic (inp : Bytes) : Prop := field inp 0 6 = magic

/-- The version byte is 0. -/
def VersionOk (inp : Bytes) : Prop := field inp 6 1 = [0]

/-- The header checksum is right. -/
def ChecksumOk (inp : Bytes) : Prop := field inp 48 16 = (sha256 (field inp 0 48)).take 16

/-- The header signature is right, i.e. `dk` comes from the right password. -/
def PasswordOk (dk inp : Bytes) : Prop := field inp 64 32 = hmac (keyHmac dk) (field inp 0 64)

/-- The last 32 bytes are the HMAC of everything before. -/
def TagOk (dk inp : Bytes) : Prop :=
  inp.drop (inp.length - 32) = hmac (keyHmac dk) (inp.take (inp.length - 32))

instance (inp : Bytes) : Decidable (HasMagic inp) := inferInstanceAs (Decidable (_ = _))
instance (inp : Bytes) : Decidable (VersionOk inp) := inferInstanceAs (Decidable (_ = _))
instance (inp : Bytes) : Decidable (ChecksumOk inp) := inferInstanceAs (Decidable (_ = _))
instance (dk inp : Bytes) : Decidable (PasswordOk dk inp) := inferInstanceAs (Decidable (_ = _))
instance (dk inp : Bytes) : Decidable (TagOk dk inp) := inferInstanceAs (Decidable (_ = _))

/-- The plaintext of a container. -/
def plaintext (dk inp : Bytes) : Bytes := dataCipher dk (field inp 96 (inp.length - 128))

end Scrypt.Spec
