import Verif.Model.CryptoScrypt
/-
crypto_scrypt_internal with the contents of the memory it gives back.
-/
namespace Scrypt

/-- What is in a block of memory at the moment it is given back to the system. [free and munmap at crypto_scrypt.c:144-165] -/
inductive Freed
  | B (b : Bytes)
  | XY (x : List W32)
  | V (v : List W32)
deriving DecidableEq

/-- crypto_scrypt.c:55-166 `crypto_scrypt_internal` again, with what each block contains when it is given back (crypto_scrypt.c:144-165), in the order in
which the blocks are given back. -/
def crypto_scrypt_internalR (szMax : Nat) (env : ScEnv) (tf : Transform) (junk : HMAC_SHA256_CTX)
    (passwd salt : Bytes) (N : W64) (r p : W32) (buf : Bytes) (buflen : Nat) (smix : SmixFn) :
    Res (ScOut × List Freed) :=
  let rs := r.toNat; let ps := p.toNat; let M := szMax + 1
  match scryptCheck szMax N r p buflen with
  | some e => .ok (scErr0 e buf [], [])
  | none =>
  match env.allocB (128 * rs * ps % M) with
  | none => .ok (scErr0 .sys buf [], [])
  | some B =>
  match env.allocXY ((256 * rs + 64) % M) with
  | none => .ok (scErr1 .sys buf [.B], [.B B])
  | some XY =>
  match env.allocV (128 * rs * N.toNat % M) with
  | none => .ok (scErr2 .sys buf [.B, .XY], [.XY XY, .B B])
  | some V =>
    PBKDF2_SHA256 tf junk passwd salt 1 B (ps * 128 * rs % M) >>= fun B1 =>
    mixBlocks szMax smix rs ps N.toNat B1 V XY >>= fun x =>
    rdSlice x.1 0 (ps * 128 * rs % M) >>= fun Bs =>
    PBKDF2_SHA256 tf junk passwd Bs 1 buf buflen >>= fun buf' =>
    if !env.munmapOk then .ok (scErr2 .sys buf' [.B, .XY, .V], [.XY x.2.2, .B x.1])
    else .ok (⟨0, none, buf', (([ScObj.B, .XY, .V].erase .V).erase .XY).erase .B⟩, [.V x.2.1, .XY x.2.2, .B x.1])

end Scrypt
