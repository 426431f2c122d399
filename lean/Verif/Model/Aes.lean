import Verif.Spec.IntrinAes
import Verif.Model.Endian
import Verif.Model.HwSelect
/-
Model of libcperciva/crypto/crypto_aes.c, crypto_aes_aesni.c, crypto_aes_arm.c.

OpenSSL is external: `ossl key block` is whatever `AES_encrypt` returns with the schedule made by
`AES_set_encrypt_key` for `key`.
-/
namespace Scrypt
open Spec

/-! ### AES-NI -/

/-- crypto_aes_aesni.c:25-33 `MKRKEY128` -/
def MKRKEY128_aesni (rkeys : List Bytes) (i : Nat) (rcon : Byte) : Res (List Bytes) := do
  let s ← rd rkeys (i - 1)
  let t ← rd rkeys (i - 1)
  let s := q_xor s (mm_slli_si128_b s 4)
  let s := q_xor s (mm_slli_si128_b s 8)
  let t := mm_aeskeygenassist t rcon
  let t := mm_shuffle_epi32_b t 0xff
  wr rkeys i (q_xor s t)

/-- crypto_aes_aesni.c:42-78 `crypto_aes_key_expand_128_aesni` -/
def crypto_aes_key_expand_128_aesni (key : Bytes) (rkeys : List Bytes) : Res (List Bytes) := do
  let k ← q_load key 0
  let rkeys ← wr rkeys 0 k
  let rkeys ← MKRKEY128_aesni rkeys 1 0x01
  let rkeys ← MKRKEY128_aesni rkeys 2 0x02
  let rkeys ← MKRKEY128_aesni rkeys 3 0x04
  let rkeys ← MKRKEY128_aesni rkeys 4 0x08
  let rkeys ← MKRKEY128_aesni rkeys 5 0x10
  let rkeys ← MKRKEY128_aesni rkeys 6 0x20
  let rkeys ← MKRKEY128_aesni rkeys 7 0x40
  let rkeys ← MKRKEY128_aesni rkeys 8 0x80
  let rkeys ← MKRKEY128_aesni rkeys 9 0x1b
  MKRKEY128_aesni rkeys 10 0x36

/-- crypto_aes_aesni.c:81-89 `MKRKEY256` -/
def MKRKEY256_aesni (rkeys : List Bytes) (i : Nat) (shuffle : Nat) (rcon : Byte) : Res (List Bytes) := do
  let s ← rd rkeys (i - 2)
  let t ← rd rkeys (i - 1)
  let s := q_xor s (mm_slli_si128_b s 4)
  let s := q_xor s (mm_slli_si128_b s 8)
  let t := mm_aeskeygenassist t rcon
  let t := mm_shuffle_epi32_b t shuffle
  wr rkeys i (q_xor s t)

/-- crypto_aes_aesni.c:98-141 `crypto_aes_key_expand_256_aesni` -/
def crypto_aes_key_expand_256_aesni (key : Bytes) (rkeys : List Bytes) : Res (List Bytes) := do
  let k0 ← q_load key 0
  let rkeys ← wr rkeys 0 k0
  let k1 ← q_load key 16
  let rkeys ← wr rkeys 1 k1
  let rkeys ← MKRKEY256_aesni rkeys 2 0xff 0x01
  let rkeys ← MKRKEY256_aesni rkeys 3 0xaa 0x00
  let rkeys ← MKRKEY256_aesni rkeys 4 0xff 0x02
  let rkeys ← MKRKEY256_aesni rkeys 5 0xaa 0x00
  let rkeys ← MKRKEY256_aesni rkeys 6 0xff 0x04
  let rkeys ← MKRKEY256_aesni rkeys 7 0xaa 0x00
  let rkeys ← MKRKEY256_aesni rkeys 8 0xff 0x08
  let rkeys ← MKRKEY256_aesni rkeys 9 0xaa 0x00
  let rkeys ← MKRKEY256_aesni rkeys 10 0xff 0x10
  let rkeys ← MKRKEY256_aesni rkeys 11 0xaa 0x00
  let rkeys ← MKRKEY256_aesni rkeys 12 0xff 0x20
  let rkeys ← MKRKEY256_aesni rkeys 13 0xaa 0x00
  MKRKEY256_aesni rkeys 14 0xff 0x40

/-- Expanded key: `struct crypto_aes_key_aesni` (crypto_aes_aesni.c:20-23), `struct crypto_aes_key_arm`
(crypto_aes_arm.c:22-25). The alignment padding is not modelled (see Model/AlignPtr.lean). -/
structure HwKey where
  rkeys : List Bytes
  nr : Nat
  deriving DecidableEq, Repr

/-- crypto_aes_aesni.c:151-183 `crypto_aes_key_expand_aesni`; `none` = NULL. `mem` is the result of
malloc: `none` on failure, else the uninitialised `rkeys`. -/
def crypto_aes_key_expand_aesni (mem : Option (List Bytes)) (key : Bytes) (len : Nat) : Res (Option HwKey) :=
  match mem with
  | none => .ok none
  | some rkeys =>
    if len = 16 then do
      let rkeys ← crypto_aes_key_expand_128_aesni key rkeys
      return some ⟨rkeys, 10⟩
    else if len = 32 then do
      let rkeys ← crypto_aes_key_expand_256_aesni key rkeys
      return some ⟨rkeys, 14⟩
    else .ok none

/-- crypto_aes_aesni.c:192-219 `crypto_aes_encrypt_block_aesni_m128i` -/
def crypto_aes_encrypt_block_aesni_m128i (inp : Bytes) (key : HwKey) : Res Bytes := do
  let s := q_xor inp (← rd key.rkeys 0)
  let s := mm_aesenc s (← rd key.rkeys 1)
  let s := mm_aesenc s (← rd key.rkeys 2)
  let s := mm_aesenc s (← rd key.rkeys 3)
  let s := mm_aesenc s (← rd key.rkeys 4)
  let s := mm_aesenc s (← rd key.rkeys 5)
  let s := mm_aesenc s (← rd key.rkeys 6)
  let s := mm_aesenc s (← rd key.rkeys 7)
  let s := mm_aesenc s (← rd key.rkeys 8)
  let s := mm_aesenc s (← rd key.rkeys 9)
  let s ← if key.nr > 10 then do
      let s := mm_aesenc s (← rd key.rkeys 10)
      let s := mm_aesenc s (← rd key.rkeys 11)
      let s := mm_aesenc s (← rd key.rkeys 12)
      let s := mm_aesenc s (← rd key.rkeys 13)
      pure s
    else pure s
  let s := mm_aesenclast s (← rd key.rkeys key.nr)
  return s

/-- crypto_aes_aesni.c:228-237 `crypto_aes_encrypt_block_aesni` -/
def crypto_aes_encrypt_block_aesni (inp : Bytes) (key : HwKey) : Res Bytes := do
  let s ← q_load inp 0
  crypto_aes_encrypt_block_aesni_m128i s key

/-! ### ARM -/

/-- crypto_aes_arm.c:48 `vshlq_n_u128` -/
def vshlq_n_u128 (a : Bytes) (n : Nat) : Bytes := vextq_u8 vdupq_n_u8_zero a (16 - n)

/-- crypto_aes_arm.c:55-70 `SubWord_duplicate` -/
def SubWord_duplicate (a : Bytes) : Bytes :=
  let a := vdupq_laneq_u32_b a 3
  vaeseq_u8 a vdupq_n_u8_zero

/-- crypto_aes_arm.c:78-100 `SubWord_RotWord_XOR_duplicate` -/
def SubWord_RotWord_XOR_duplicate (a : Bytes) (rcon : W32) : Bytes :=
  let a := SubWord_duplicate a
  let x3 := vgetq_lane_u32_0 a
  let x3 := (x3 >>> 8) ||| (x3 <<< (32 - 8))
  let x3 := x3 ^^^ rcon
  vdupq_n_u32_b x3

/-- crypto_aes_arm.c:103-110 `MKRKEY128` -/
def MKRKEY128_arm (rkeys : List Bytes) (i : Nat) (rcon : W32) : Res (List Bytes) := do
  let s ← rd rkeys (i - 1)
  let t ← rd rkeys (i - 1)
  let s := q_xor s (vshlq_n_u128 s 4)
  let s := q_xor s (vshlq_n_u128 s 8)
  let t := SubWord_RotWord_XOR_duplicate t rcon
  wr rkeys i (q_xor s t)

/-- crypto_aes_arm.c:119-143 `crypto_aes_key_expand_128_arm` -/
def crypto_aes_key_expand_128_arm (key : Bytes) (rkeys : List Bytes) : Res (List Bytes) := do
  let k ← q_load key 0
  let rkeys ← wr rkeys 0 k
  let rkeys ← MKRKEY128_arm rkeys 1 0x01
  let rkeys ← MKRKEY128_arm rkeys 2 0x02
  let rkeys ← MKRKEY128_arm rkeys 3 0x04
  let rkeys ← MKRKEY128_arm rkeys 4 0x08
  let rkeys ← MKRKEY128_arm rkeys 5 0x10
  let rkeys ← MKRKEY128_arm rkeys 6 0x20
  let rkeys ← MKRKEY128_arm rkeys 7 0x40
  let rkeys ← MKRKEY128_arm rkeys 8 0x80
  let rkeys ← MKRKEY128_arm rkeys 9 0x1b
  MKRKEY128_arm rkeys 10 0x36

/-- crypto_aes_arm.c:146-155 `MKRKEY256` -/
def MKRKEY256_arm (rkeys : List Bytes) (i : Nat) (rcon : W32) : Res (List Bytes) := do
  let s ← rd rkeys (i - 2)
  let t ← rd rkeys (i - 1)
  let s := q_xor s (vshlq_n_u128 s 4)
  let s := q_xor s (vshlq_n_u128 s 8)
  let t := if i % 2 = 1 then SubWord_duplicate t else SubWord_RotWord_XOR_duplicate t rcon
  wr rkeys i (q_xor s t)

/-- crypto_aes_arm.c:164-192 `crypto_aes_key_expand_256_arm` -/
def crypto_aes_key_expand_256_arm (key : Bytes) (rkeys : List Bytes) : Res (List Bytes) := do
  let k0 ← q_load key 0
  let rkeys ← wr rkeys 0 k0
  let k1 ← q_load key 16
  let rkeys ← wr rkeys 1 k1
  let rkeys ← MKRKEY256_arm rkeys 2 0x01
  let rkeys ← MKRKEY256_arm rkeys 3 0x00
  let rkeys ← MKRKEY256_arm rkeys 4 0x02
  let rkeys ← MKRKEY256_arm rkeys 5 0x00
  let rkeys ← MKRKEY256_arm rkeys 6 0x04
  let rkeys ← MKRKEY256_arm rkeys 7 0x00
  let rkeys ← MKRKEY256_arm rkeys 8 0x08
  let rkeys ← MKRKEY256_arm rkeys 9 0x00
  let rkeys ← MKRKEY256_arm rkeys 10 0x10
  let rkeys ← MKRKEY256_arm rkeys 11 0x00
  let rkeys ← MKRKEY256_arm rkeys 12 0x20
  let rkeys ← MKRKEY256_arm rkeys 13 0x00
  MKRKEY256_arm rkeys 14 0x40

/-- crypto_aes_arm.c:202-234 `crypto_aes_key_expand_arm` -/
def crypto_aes_key_expand_arm (mem : Option (List Bytes)) (key : Bytes) (len : Nat) : Res (Option HwKey) :=
  match mem with
  | none => .ok none
  | some rkeys =>
    if len = 16 then do
      let rkeys ← crypto_aes_key_expand_128_arm key rkeys
      return some ⟨rkeys, 10⟩
    else if len = 32 then do
      let rkeys ← crypto_aes_key_expand_256_arm key rkeys
      return some ⟨rkeys, 14⟩
    else .ok none

/-- crypto_aes_arm.c:243-272 `crypto_aes_encrypt_block_arm_u8` -/
def crypto_aes_encrypt_block_arm_u8 (inp : Bytes) (key : HwKey) : Res Bytes := do
  let s := inp
  let s := vaesmcq_u8 (vaeseq_u8 s (← rd key.rkeys 0))
  let s := vaesmcq_u8 (vaeseq_u8 s (← rd key.rkeys 1))
  let s := vaesmcq_u8 (vaeseq_u8 s (← rd key.rkeys 2))
  let s := vaesmcq_u8 (vaeseq_u8 s (← rd key.rkeys 3))
  let s := vaesmcq_u8 (vaeseq_u8 s (← rd key.rkeys 4))
  let s := vaesmcq_u8 (vaeseq_u8 s (← rd key.rkeys 5))
  let s := vaesmcq_u8 (vaeseq_u8 s (← rd key.rkeys 6))
  let s := vaesmcq_u8 (vaeseq_u8 s (← rd key.rkeys 7))
  let s := vaesmcq_u8 (vaeseq_u8 s (← rd key.rkeys 8))
  let s ← if key.nr > 10 then do
      let s := vaesmcq_u8 (vaeseq_u8 s (← rd key.rkeys 9))
      let s := vaesmcq_u8 (vaeseq_u8 s (← rd key.rkeys 10))
      let s := vaesmcq_u8 (vaeseq_u8 s (← rd key.rkeys 11))
      let s := vaesmcq_u8 (vaeseq_u8 s (← rd key.rkeys 12))
      pure s
    else pure s
  let s := vaeseq_u8 s (← rd key.rkeys (key.nr - 1))
  let s := q_xor s (← rd key.rkeys key.nr)
  return s

/-- crypto_aes_arm.c:281-290 `crypto_aes_encrypt_block_arm` -/
def crypto_aes_encrypt_block_arm (inp : Bytes) (key : HwKey) : Res Bytes := do
  let s ← q_load inp 0
  crypto_aes_encrypt_block_arm_u8 s key

/-! ### Dispatch -/

/-- `hwaccel` values of crypto_aes.c:21-31 (also crypto_aesctr.c:33-43). -/
inductive AesHw
  | software | x86_aesni | arm_aes
  deriving DecidableEq, Repr

/-- What a `struct crypto_aes_key *` points to. [crypto_aes.c:41, crypto_aes_aesni.c:19-22, crypto_aes_arm.c:22-25 (AES_KEY for OpenSSL)] -/
inductive AesKey
  /-- an OpenSSL `AES_KEY` made from these key bytes -/
  | ossl (key : Bytes)
  | aesni (k : HwKey)
  | arm (k : HwKey)
  deriving DecidableEq, Repr

/-- The OpenSSL block function: key bytes, block. [The library function called at crypto_aes.c:158 and crypto_aes.c:301] -/
abbrev Ossl := Bytes → Bytes → Bytes

/-- What the system does while a key is expanded: malloc's result for the hardware structures, and
whether malloc and AES_set_encrypt_key succeed in the OpenSSL case. [The calls at crypto_aes.c:258-262, crypto_aes_aesni.c:157, crypto_aes_arm.c:208] -/
structure AesEnv where
  mem : Option (List Bytes)
  osslOk : Bool

/-- crypto_aes.c:235-273 `crypto_aes_key_expand` (after `hwaccel_init` chose `hw`). -/
def crypto_aes_key_expand (hw : AesHw) (env : AesEnv) (key : Bytes) (len : Nat) : Res (Option AesKey) := do
  cassert (decide (len = 16) || decide (len = 32))
  match hw with
  | .x86_aesni => do let k ← crypto_aes_key_expand_aesni env.mem key len; return k.map .aesni
  | .arm_aes => do let k ← crypto_aes_key_expand_arm env.mem key len; return k.map .arm
  | .software => do
    if !env.osslOk then return none
    let b ← rdSlice key 0 len
    return some (.ossl b)

/-- crypto_aes.c:280-302 `crypto_aes_encrypt_block`. Using a key made for another implementation is
undefined. -/
def crypto_aes_encrypt_block (hw : AesHw) (ossl : Ossl) (inp : Bytes) (key : AesKey) : Res Bytes :=
  match hw, key with
  | .x86_aesni, .aesni k => crypto_aes_encrypt_block_aesni inp k
  | .arm_aes, .arm k => crypto_aes_encrypt_block_arm inp k
  | .software, .ossl k => .ok (ossl k inp)
  | _, _ => .ub

/-! ### Self-test and selection -/

/-- crypto_aes.c:44-70, testcases: (key, length, ptext, ctext). -/
def aesTestcases : List (Bytes × Nat × Bytes × Bytes) := [
  ([0x00, 0x01, 0x02, 0x03, 0x04, 0x05, 0x06, 0x07, 0x08, 0x09, 0x0a, 0x0b, 0x0c, 0x0d, 0x0e, 0x0f,
    0, 0, 0, 0, 0, 0, 0, 0, 0, 0, 0, 0, 0, 0, 0, 0], 16,
   [0x00, 0x11, 0x22, 0x33, 0x44, 0x55, 0x66, 0x77, 0x88, 0x99, 0xaa, 0xbb, 0xcc, 0xdd, 0xee, 0xff],
   [0x69, 0xc4, 0xe0, 0xd8, 0x6a, 0x7b, 0x04, 0x30, 0xd8, 0xcd, 0xb7, 0x80, 0x70, 0xb4, 0xc5, 0x5a]),
  ([0x00, 0x01, 0x02, 0x03, 0x04, 0x05, 0x06, 0x07, 0x08, 0x09, 0x0a, 0x0b, 0x0c, 0x0d, 0x0e, 0x0f,
    0x10, 0x11, 0x12, 0x13, 0x14, 0x15, 0x16, 0x17, 0x18, 0x19, 0x1a, 0x1b, 0x1c, 0x1d, 0x1e, 0x1f], 32,
   [0x00, 0x11, 0x22, 0x33, 0x44, 0x55, 0x66, 0x77, 0x88, 0x99, 0xaa, 0xbb, 0xcc, 0xdd, 0xee, 0xff],
   [0x8e, 0xa2, 0xb7, 0xca, 0x51, 0x67, 0x45, 0xbf, 0xea, 0xfc, 0x49, 0x90, 0x4b, 0x49, 0x60, 0x89])]

/-- crypto_aes.c:73-102 `functest`; `true` = success (C returns 0). `func key len ptext` is `none` when
the C function returns nonzero. -/
def functest (func : Bytes → Nat → Bytes → Res (Option Bytes)) : List (Bytes × Nat × Bytes × Bytes) → Res Bool
  | [] => .ok true
  | (key, len, ptext, ctext) :: rest => do
    cassert (decide (len = 16) || decide (len = 32))
    match ← func key len ptext with
    | none => return false
    | some c => if c = ctext then functest func rest else return false

/-- crypto_aes.c:105-124 `x86_aesni_oneshot` -/
def x86_aesni_oneshot (mem : Option (List Bytes)) (key : Bytes) (len : Nat) (ptext : Bytes) : Res (Option Bytes) := do
  match ← crypto_aes_key_expand_aesni mem key len with
  | none => return none
  | some k => do let c ← crypto_aes_encrypt_block_aesni ptext k; return some c

/-- crypto_aes.c:128-145 `arm_aes_oneshot` -/
def arm_aes_oneshot (mem : Option (List Bytes)) (key : Bytes) (len : Nat) (ptext : Bytes) : Res (Option Bytes) := do
  match ← crypto_aes_key_expand_arm mem key len with
  | none => return none
  | some k => do let c ← crypto_aes_encrypt_block_arm ptext k; return some c

/-- crypto_aes.c:148-167 `openssl_oneshot` -/
def openssl_oneshot (setOk : Bool) (ossl : Ossl) (key : Bytes) (len : Nat) (ptext : Bytes) : Res (Option Bytes) := do
  if !setOk then return none
  let b ← rdSlice key 0 len
  return some (ossl b ptext)

/-- crypto_aes.c:170-198 `hwaccel_init`. `feat` as for SHA-256; `mem` what malloc returns in the
self-tests. Aborts if OpenSSL gives wrong values. -/
def aes_hwaccel_init (feat : AesHw → Bool) (mem : Option (List Bytes)) (setOk : Bool) (ossl : Ossl) (st : Option AesHw) : Res AesHw :=
  match st with
  | some h => .ok h
  | none =>
    cpusupportValidate (feat .x86_aesni) (functest (x86_aesni_oneshot mem) aesTestcases) .x86_aesni <|
    cpusupportValidate (feat .arm_aes) (functest (arm_aes_oneshot mem) aesTestcases) .arm_aes <| do
    if ← functest (openssl_oneshot setOk ossl) aesTestcases then return .software else .abort

end Scrypt
