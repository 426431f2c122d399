import Verif.Model.AccessHash
import Verif.Model.Overlap
/-
What encrypting and decrypting does once the key is derived, with the list of the memory accesses it makes: the code of Model/Aes.lean, Model/Overlap.lean and
Model/Enc.lean with a ghost log.  `C81_erase_*` show that forgetting the log gives the original.

Not logged: what happens inside OpenSSL (`AES_encrypt`, `AES_set_encrypt_key`: crypto_aes.c:158, 301), inside fread and fwrite apart from the buffer they are
given, and scalar local variables.
-/
namespace Scrypt
open Spec

/-- An access of a callee that is given `&a[off]`. [Ghost state: no code] -/
def Acc.moved (a : Arr) (off : Nat) (c : Acc) : Acc := if c.arr = a then { c with idx := off + c.idx } else c

/-- A call that is given `&a[off]`. [Ghost state: no code] -/
def Logged.move {α : Type} (a : Arr) (off : Nat) (x : Logged α) : Logged α := Res.bind x fun r => Res.ok (r.1, r.2.map (Acc.moved a off))

/-- Loading 16 bytes. [crypto_aes_aesni.c:51, 107-108, crypto_aes_arm.c:126, 171-172, crypto_aesctr_aesni.c:86, crypto_aesctr_arm.c:67] -/
def q_loadT (a : Arr) (m : Bytes) (off : Nat) : Logged Bytes := Logged.log (accs a false off 16) (q_load m off)

/-- crypto_aes_aesni.c:25-33 `MKRKEY128`, logging. -/
def MKRKEY128_aesniT (rkeys : List Bytes) (i : Nat) (rcon : Byte) : Logged (List Bytes) := do
  let s ← rdT (.c .rkeys) rkeys (i - 1)
  let t ← rdT (.c .rkeys) rkeys (i - 1)
  let s := q_xor s (mm_slli_si128_b s 4)
  let s := q_xor s (mm_slli_si128_b s 8)
  let t := mm_aeskeygenassist t rcon
  let t := mm_shuffle_epi32_b t 0xff
  wrT (.c .rkeys) rkeys i (q_xor s t)

/-- crypto_aes_aesni.c:42-78 `crypto_aes_key_expand_128_aesni`, logging. -/
def crypto_aes_key_expand_128_aesniT (key : Bytes) (rkeys : List Bytes) : Logged (List Bytes) := do
  let k ← q_loadT (.c .dk) key 0
  let rkeys ← wrT (.c .rkeys) rkeys 0 k
  let rkeys ← MKRKEY128_aesniT rkeys 1 0x01
  let rkeys ← MKRKEY128_aesniT rkeys 2 0x02
  let rkeys ← MKRKEY128_aesniT rkeys 3 0x04
  let rkeys ← MKRKEY128_aesniT rkeys 4 0x08
  let rkeys ← MKRKEY128_aesniT rkeys 5 0x10
  let rkeys ← MKRKEY128_aesniT rkeys 6 0x20
  let rkeys ← MKRKEY128_aesniT rkeys 7 0x40
  let rkeys ← MKRKEY128_aesniT rkeys 8 0x80
  let rkeys ← MKRKEY128_aesniT rkeys 9 0x1b
  MKRKEY128_aesniT rkeys 10 0x36

/-- crypto_aes_aesni.c:81-89 `MKRKEY256`, logging. -/
def MKRKEY256_aesniT (rkeys : List Bytes) (i : Nat) (shuffle : Nat) (rcon : Byte) : Logged (List Bytes) := do
  let s ← rdT (.c .rkeys) rkeys (i - 2)
  let t ← rdT (.c .rkeys) rkeys (i - 1)
  let s := q_xor s (mm_slli_si128_b s 4)
  let s := q_xor s (mm_slli_si128_b s 8)
  let t := mm_aeskeygenassist t rcon
  let t := mm_shuffle_epi32_b t shuffle
  wrT (.c .rkeys) rkeys i (q_xor s t)

/-- crypto_aes_aesni.c:98-141 `crypto_aes_key_expand_256_aesni`, logging. -/
def crypto_aes_key_expand_256_aesniT (key : Bytes) (rkeys : List Bytes) : Logged (List Bytes) := do
  let k0 ← q_loadT (.c .dk) key 0
  let rkeys ← wrT (.c .rkeys) rkeys 0 k0
  let k1 ← q_loadT (.c .dk) key 16
  let rkeys ← wrT (.c .rkeys) rkeys 1 k1
  let rkeys ← MKRKEY256_aesniT rkeys 2 0xff 0x01
  let rkeys ← MKRKEY256_aesniT rkeys 3 0xaa 0x00
  let rkeys ← MKRKEY256_aesniT rkeys 4 0xff 0x02
  let rkeys ← MKRKEY256_aesniT rkeys 5 0xaa 0x00
  let rkeys ← MKRKEY256_aesniT rkeys 6 0xff 0x04
  let rkeys ← MKRKEY256_aesniT rkeys 7 0xaa 0x00
  let rkeys ← MKRKEY256_aesniT rkeys 8 0xff 0x08
  let rkeys ← MKRKEY256_aesniT rkeys 9 0xaa 0x00
  let rkeys ← MKRKEY256_aesniT rkeys 10 0xff 0x10
  let rkeys ← MKRKEY256_aesniT rkeys 11 0xaa 0x00
  let rkeys ← MKRKEY256_aesniT rkeys 12 0xff 0x20
  let rkeys ← MKRKEY256_aesniT rkeys 13 0xaa 0x00
  MKRKEY256_aesniT rkeys 14 0xff 0x40

/-- crypto_aes_aesni.c:151-183 `crypto_aes_key_expand_aesni`, logging. -/
def crypto_aes_key_expand_aesniT (mem : Option (List Bytes)) (key : Bytes) (len : Nat) : Logged (Option HwKey) :=
  match mem with
  | none => pure none
  | some rkeys =>
    if len = 16 then do
      let rkeys ← crypto_aes_key_expand_128_aesniT key rkeys
      return some ⟨rkeys, 10⟩
    else if len = 32 then do
      let rkeys ← crypto_aes_key_expand_256_aesniT key rkeys
      return some ⟨rkeys, 14⟩
    else pure none

/-- crypto_aes_aesni.c:192-219 `crypto_aes_encrypt_block_aesni_m128i`, logging. -/
def crypto_aes_encrypt_block_aesni_m128iT (inp : Bytes) (key : HwKey) : Logged Bytes := do
  let k ← rdT (.c .rkeys) key.rkeys 0; let s := q_xor inp k
  let k ← rdT (.c .rkeys) key.rkeys 1; let s := mm_aesenc s k
  let k ← rdT (.c .rkeys) key.rkeys 2; let s := mm_aesenc s k
  let k ← rdT (.c .rkeys) key.rkeys 3; let s := mm_aesenc s k
  let k ← rdT (.c .rkeys) key.rkeys 4; let s := mm_aesenc s k
  let k ← rdT (.c .rkeys) key.rkeys 5; let s := mm_aesenc s k
  let k ← rdT (.c .rkeys) key.rkeys 6; let s := mm_aesenc s k
  let k ← rdT (.c .rkeys) key.rkeys 7; let s := mm_aesenc s k
  let k ← rdT (.c .rkeys) key.rkeys 8; let s := mm_aesenc s k
  let k ← rdT (.c .rkeys) key.rkeys 9; let s := mm_aesenc s k
  (if key.nr > 10 then do
      let k ← rdT (.c .rkeys) key.rkeys 10; let s := mm_aesenc s k
      let k ← rdT (.c .rkeys) key.rkeys 11; let s := mm_aesenc s k
      let k ← rdT (.c .rkeys) key.rkeys 12; let s := mm_aesenc s k
      let k ← rdT (.c .rkeys) key.rkeys 13; let s := mm_aesenc s k
      pure s
    else pure s) >>= fun s => do
  let k ← rdT (.c .rkeys) key.rkeys key.nr
  return mm_aesenclast s k

/-- crypto_aes_aesni.c:228-237 `crypto_aes_encrypt_block_aesni`, logging: the block is `a`, the result is stored in `b`. -/
def crypto_aes_encrypt_block_aesniT (a b : Arr) (inp : Bytes) (key : HwKey) : Logged Bytes := do
  let s ← q_loadT a inp 0
  let r ← crypto_aes_encrypt_block_aesni_m128iT s key
  Logged.log (accs b true 0 16) (.ok r)

/-- crypto_aes_arm.c:103-110 `MKRKEY128`, logging. -/
def MKRKEY128_armT (rkeys : List Bytes) (i : Nat) (rcon : W32) : Logged (List Bytes) := do
  let s ← rdT (.c .rkeys) rkeys (i - 1)
  let t ← rdT (.c .rkeys) rkeys (i - 1)
  let s := q_xor s (vshlq_n_u128 s 4)
  let s := q_xor s (vshlq_n_u128 s 8)
  let t := SubWord_RotWord_XOR_duplicate t rcon
  wrT (.c .rkeys) rkeys i (q_xor s t)

/-- crypto_aes_arm.c:119-143 `crypto_aes_key_expand_128_arm`, logging. -/
def crypto_aes_key_expand_128_armT (key : Bytes) (rkeys : List Bytes) : Logged (List Bytes) := do
  let k ← q_loadT (.c .dk) key 0
  let rkeys ← wrT (.c .rkeys) rkeys 0 k
  let rkeys ← MKRKEY128_armT rkeys 1 0x01
  let rkeys ← MKRKEY128_armT rkeys 2 0x02
  let rkeys ← MKRKEY128_armT rkeys 3 0x04
  let rkeys ← MKRKEY128_armT rkeys 4 0x08
  let rkeys ← MKRKEY128_armT rkeys 5 0x10
  let rkeys ← MKRKEY128_armT rkeys 6 0x20
  let rkeys ← MKRKEY128_armT rkeys 7 0x40
  let rkeys ← MKRKEY128_armT rkeys 8 0x80
  let rkeys ← MKRKEY128_armT rkeys 9 0x1b
  MKRKEY128_armT rkeys 10 0x36

/-- crypto_aes_arm.c:146-155 `MKRKEY256`, logging. -/
def MKRKEY256_armT (rkeys : List Bytes) (i : Nat) (rcon : W32) : Logged (List Bytes) := do
  let s ← rdT (.c .rkeys) rkeys (i - 2)
  let t ← rdT (.c .rkeys) rkeys (i - 1)
  let s := q_xor s (vshlq_n_u128 s 4)
  let s := q_xor s (vshlq_n_u128 s 8)
  let t := if i % 2 = 1 then SubWord_duplicate t else SubWord_RotWord_XOR_duplicate t rcon
  wrT (.c .rkeys) rkeys i (q_xor s t)

/-- crypto_aes_arm.c:164-192 `crypto_aes_key_expand_256_arm`, logging. -/
def crypto_aes_key_expand_256_armT (key : Bytes) (rkeys : List Bytes) : Logged (List Bytes) := do
  let k0 ← q_loadT (.c .dk) key 0
  let rkeys ← wrT (.c .rkeys) rkeys 0 k0
  let k1 ← q_loadT (.c .dk) key 16
  let rkeys ← wrT (.c .rkeys) rkeys 1 k1
  let rkeys ← MKRKEY256_armT rkeys 2 0x01
  let rkeys ← MKRKEY256_armT rkeys 3 0x00
  let rkeys ← MKRKEY256_armT rkeys 4 0x02
  let rkeys ← MKRKEY256_armT rkeys 5 0x00
  let rkeys ← MKRKEY256_armT rkeys 6 0x04
  let rkeys ← MKRKEY256_armT rkeys 7 0x00
  let rkeys ← MKRKEY256_armT rkeys 8 0x08
  let rkeys ← MKRKEY256_armT rkeys 9 0x00
  let rkeys ← MKRKEY256_armT rkeys 10 0x10
  let rkeys ← MKRKEY256_armT rkeys 11 0x00
  let rkeys ← MKRKEY256_armT rkeys 12 0x20
  let rkeys ← MKRKEY256_armT rkeys 13 0x00
  MKRKEY256_armT rkeys 14 0x40

/-- crypto_aes_arm.c:202-234 `crypto_aes_key_expand_arm`, logging. -/
def crypto_aes_key_expand_armT (mem : Option (List Bytes)) (key : Bytes) (len : Nat) : Logged (Option HwKey) :=
  match mem with
  | none => pure none
  | some rkeys =>
    if len = 16 then do
      let rkeys ← crypto_aes_key_expand_128_armT key rkeys
      return some ⟨rkeys, 10⟩
    else if len = 32 then do
      let rkeys ← crypto_aes_key_expand_256_armT key rkeys
      return some ⟨rkeys, 14⟩
    else pure none

/-- crypto_aes_arm.c:243-272 `crypto_aes_encrypt_block_arm_u8`, logging. -/
def crypto_aes_encrypt_block_arm_u8T (inp : Bytes) (key : HwKey) : Logged Bytes := do
  let k ← rdT (.c .rkeys) key.rkeys 0; let s := vaesmcq_u8 (vaeseq_u8 inp k)
  let k ← rdT (.c .rkeys) key.rkeys 1; let s := vaesmcq_u8 (vaeseq_u8 s k)
  let k ← rdT (.c .rkeys) key.rkeys 2; let s := vaesmcq_u8 (vaeseq_u8 s k)
  let k ← rdT (.c .rkeys) key.rkeys 3; let s := vaesmcq_u8 (vaeseq_u8 s k)
  let k ← rdT (.c .rkeys) key.rkeys 4; let s := vaesmcq_u8 (vaeseq_u8 s k)
  let k ← rdT (.c .rkeys) key.rkeys 5; let s := vaesmcq_u8 (vaeseq_u8 s k)
  let k ← rdT (.c .rkeys) key.rkeys 6; let s := vaesmcq_u8 (vaeseq_u8 s k)
  let k ← rdT (.c .rkeys) key.rkeys 7; let s := vaesmcq_u8 (vaeseq_u8 s k)
  let k ← rdT (.c .rkeys) key.rkeys 8; let s := vaesmcq_u8 (vaeseq_u8 s k)
  (if key.nr > 10 then do
      let k ← rdT (.c .rkeys) key.rkeys 9; let s := vaesmcq_u8 (vaeseq_u8 s k)
      let k ← rdT (.c .rkeys) key.rkeys 10; let s := vaesmcq_u8 (vaeseq_u8 s k)
      let k ← rdT (.c .rkeys) key.rkeys 11; let s := vaesmcq_u8 (vaeseq_u8 s k)
      let k ← rdT (.c .rkeys) key.rkeys 12; let s := vaesmcq_u8 (vaeseq_u8 s k)
      pure s
    else pure s) >>= fun s => do
  let k ← rdT (.c .rkeys) key.rkeys (key.nr - 1); let s := vaeseq_u8 s k
  let k ← rdT (.c .rkeys) key.rkeys key.nr
  return q_xor s k

/-- crypto_aes_arm.c:281-290 `crypto_aes_encrypt_block_arm`, logging. -/
def crypto_aes_encrypt_block_armT (a b : Arr) (inp : Bytes) (key : HwKey) : Logged Bytes := do
  let s ← q_loadT a inp 0
  let r ← crypto_aes_encrypt_block_arm_u8T s key
  Logged.log (accs b true 0 16) (.ok r)

/-- crypto_aes.c:235-273 `crypto_aes_key_expand`, logging; OpenSSL is given the key. -/
def crypto_aes_key_expandT (hw : AesHw) (env : AesEnv) (key : Bytes) (len : Nat) : Logged (Option AesKey) := do
  Logged.log [] (cassert (decide (len = 16) || decide (len = 32)))
  match hw with
  | .x86_aesni => do let k ← crypto_aes_key_expand_aesniT env.mem key len; return k.map .aesni
  | .arm_aes => do let k ← crypto_aes_key_expand_armT env.mem key len; return k.map .arm
  | .software => do
    if !env.osslOk then return none
    let b ← rdSliceT (.c .dk) key 0 len
    return some (.ossl b)

/-- crypto_aes.c:280-302 `crypto_aes_encrypt_block(in, out, key)`, logging. -/
def crypto_aes_encrypt_blockT (a b : Arr) (hw : AesHw) (ossl : Ossl) (inp : Bytes) (key : AesKey) : Logged Bytes :=
  match hw, key with
  | .x86_aesni, .aesni k => crypto_aes_encrypt_block_aesniT a b inp k
  | .arm_aes, .arm k => crypto_aes_encrypt_block_armT a b inp k
  | .software, .ossl k => Logged.log (accs a false 0 16 ++ accs b true 0 16) (.ok (ossl k inp))
  | _, _ => Logged.log [] .ub

/-- Reading or writing `stream->bytectr`. [crypto_aesctr_shared.c:21, 30, 50, 69, crypto_aesctr_aesni.c:69, 108, crypto_aesctr_arm.c:51, 89, crypto_aesctr.c:115] -/
def bytectrT (w : Bool) : Logged Unit := Logged.log [⟨.c .bytectr, 0, w⟩] (.ok ())

/-- crypto_aesctr_shared.c:16-35 `crypto_aesctr_stream_cipherblock_generate`, logging. -/
def cipherblock_generateT (hw : AesHw) (ossl : Ossl) (s : CtrStream) : Logged CtrStream := do
  bytectrT false
  Logged.log [] (cassert (s.bytectr % 16 == 0))
  let b ← rdT (.c .pblk) s.pblk 15
  let pblk ← wrT (.c .pblk) s.pblk 15 (b + 1)
  let b ← rdT (.c .pblk) pblk 15
  let pblk ← (if b = 0 then do
      bytectrT false
      wrSliceT (.c .pblk) pblk 8 (be64enc (s.bytectr / 16))
    else pure pblk : Logged Bytes)
  let buf ← crypto_aes_encrypt_blockT (.c .pblk) (.c .kblk) hw ossl pblk s.key
  return { s with pblk := pblk, buf := buf }

/-- crypto_aesctr_shared.c:38-56 `crypto_aesctr_stream_cipherblock_use`, logging; `a` is the array both buffers lie in. -/
def cipherblock_useT (a : Arr) (s : CtrStream) (c : MCursor) (nbytes bytemod : Nat) : Logged (CtrStream × MCursor) := do
  let m ← forLoopT nbytes (fun m i => do
    let x ← rdT a m (c.inp + i)
    let b ← rdT (.c .kblk) s.buf (bytemod + i)
    wrT a m (c.outp + i) (x ^^^ b)) c.mem
  bytectrT false
  bytectrT true
  return ({ s with bytectr := s.bytectr + BitVec.ofNat 64 nbytes },
    ⟨m, c.inp + nbytes, c.outp + nbytes, c.buflen - nbytes⟩)

/-- crypto_aesctr_shared.c:62-86 `crypto_aesctr_stream_pre_wholeblock`, logging. -/
def pre_wholeblockT (a : Arr) (s : CtrStream) (c : MCursor) : Logged (Bool × CtrStream × MCursor) := do
  bytectrT false
  let bytemod := (s.bytectr % 16).toNat
  if bytemod ≠ 0 then
    if bytemod + c.buflen ≤ 16 then do
      let (s, c) ← cipherblock_useT a s c c.buflen bytemod
      return (true, s, c)
    else do
      let (s, c) ← cipherblock_useT a s c (16 - bytemod) bytemod
      return (false, s, c)
  else return (false, s, c)

/-- crypto_aesctr_shared.c:89-103 `crypto_aesctr_stream_post_wholeblock`, logging. -/
def post_wholeblockT (a : Arr) (hw : AesHw) (ossl : Ossl) (s : CtrStream) (c : MCursor) : Logged (CtrStream × MCursor) :=
  if c.buflen > 0 then do
    let s ← cipherblock_generateT hw ossl s
    cipherblock_useT a s c c.buflen 0
  else pure (s, c)

/-- crypto_aesctr.c:193-200, logging. -/
def portable_loopT (a : Arr) (hw : AesHw) (ossl : Ossl) : Nat → CtrStream → MCursor → Logged (CtrStream × MCursor)
  | 0, s, c => if c.buflen ≥ 16 then Logged.log [] .ub else pure (s, c)
  | fuel + 1, s, c =>
    if c.buflen ≥ 16 then do
      let s ← cipherblock_generateT hw ossl s
      let (s, c) ← cipherblock_useT a s c 16 0
      portable_loopT a hw ossl fuel s c
    else pure (s, c)

/-- crypto_aesctr.c:187-203, logging. -/
def portable_streamT (a : Arr) (hw : AesHw) (ossl : Ossl) (s : CtrStream) (c : MCursor) : Logged (CtrStream × MCursor) := do
  let (done, s, c) ← pre_wholeblockT a s c
  if done then return (s, c)
  let (s, c) ← portable_loopT a hw ossl c.buflen s c
  post_wholeblockT a hw ossl s c

/-- The body of the loop of crypto_aesctr_aesni.c:76-96, logging. -/
def aesni_stepT (a : Arr) (junk nonce_be : Bytes) (key : HwKey) (st : W64 × Bytes × Bytes × Nat × Nat) : Logged (W64 × Bytes × Bytes × Nat × Nat) := do
  let arr ← Logged.log (accs (.c .cblk) true 0 8) (.ok (be64enc st.1))
  let bufsse ← Logged.log (accs (.c .cblk) false 0 8) (load_si64 arr junk)
  let bufsse := mm_unpacklo_epi64_b nonce_be bufsse
  let bufsse ← crypto_aes_encrypt_block_aesni_m128iT bufsse key
  let inbufsse ← q_loadT a st.2.2.1 st.2.2.2.1
  let bufsse := q_xor inbufsse bufsse
  let m ← wrSliceT a st.2.2.1 st.2.2.2.2 bufsse
  return (st.1 + 1, arr, m, st.2.2.2.1 + 16, st.2.2.2.2 + 16)

/-- crypto_aesctr_aesni.c:55-109 `crypto_aesctr_aesni_stream_wholeblocks`, logging. -/
def aesni_wholeblocksT (a : Arr) (junk : Bytes) (s : CtrStream) (c : MCursor) : Logged (CtrStream × MCursor) :=
  match s.key with
  | .aesni key => do
    let nonce_be ← Logged.log (accs (.c .pblk) false 0 8) (load_si64 s.pblk junk)
    bytectrT false
    if c.buflen / 16 = 0 then Logged.log [] .ub else do
      let st ← forLoopT (c.buflen / 16) (fun st _ => aesni_stepT a junk nonce_be key st) (s.bytectr / 16, [], c.mem, c.inp, c.outp)
      let arr ← rdSliceT (.c .cblk) st.2.1 0 st.2.1.length
      let pblk ← wrSliceT (.c .pblk) s.pblk 8 arr
      bytectrT false
      bytectrT true
      return ({ s with pblk := pblk, bytectr := s.bytectr + BitVec.ofNat 64 (16 * (c.buflen / 16)) },
        ⟨st.2.2.1, st.2.2.2.1, st.2.2.2.2, c.buflen - 16 * (c.buflen / 16)⟩)
  | _ => Logged.log [] .ub

/-- crypto_aesctr_aesni.c:127-130, logging. -/
def aesni_whole_if16T (a : Arr) (junk : Bytes) (s : CtrStream) (c : MCursor) : Logged (CtrStream × MCursor) :=
  if c.buflen ≥ 16 then aesni_wholeblocksT a junk s c else pure (s, c)

/-- crypto_aesctr_aesni.c:117-134 `crypto_aesctr_aesni_stream`, logging. -/
def aesni_streamT (a : Arr) (hw : AesHw) (ossl : Ossl) (junk : Bytes) (s : CtrStream) (c : MCursor) : Logged (CtrStream × MCursor) := do
  let (done, s, c) ← pre_wholeblockT a s c
  if done then return (s, c)
  let (s, c) ← aesni_whole_if16T a junk s c
  post_wholeblockT a hw ossl s c

/-- The body of the loop of crypto_aesctr_arm.c:57-77, logging. -/
def arm_stepT (a : Arr) (nonce_be : Bytes) (key : HwKey) (st : W64 × Bytes × Bytes × Nat × Nat) : Logged (W64 × Bytes × Bytes × Nat × Nat) := do
  let arr ← Logged.log (accs (.c .cblk) true 0 8) (.ok (be64enc st.1))
  let block_counter_be ← Logged.log (accs (.c .cblk) false 0 8) (vld1_u8 arr)
  let bufarm := vcombine_u8 nonce_be block_counter_be
  let bufarm ← crypto_aes_encrypt_block_arm_u8T bufarm key
  let inbufarm ← q_loadT a st.2.2.1 st.2.2.2.1
  let bufarm := q_xor inbufarm bufarm
  let m ← wrSliceT a st.2.2.1 st.2.2.2.2 bufarm
  return (st.1 + 1, arr, m, st.2.2.2.1 + 16, st.2.2.2.2 + 16)

/-- crypto_aesctr_arm.c:36-90 `crypto_aesctr_arm_stream_wholeblocks`, logging. -/
def arm_wholeblocksT (a : Arr) (s : CtrStream) (c : MCursor) : Logged (CtrStream × MCursor) :=
  match s.key with
  | .arm key => do
    let nonce_be ← Logged.log (accs (.c .pblk) false 0 8) (vld1_u8 s.pblk)
    bytectrT false
    if c.buflen / 16 = 0 then Logged.log [] .ub else do
      let st ← forLoopT (c.buflen / 16) (fun st _ => arm_stepT a nonce_be key st) (s.bytectr / 16, [], c.mem, c.inp, c.outp)
      let arr ← rdSliceT (.c .cblk) st.2.1 0 st.2.1.length
      let pblk ← wrSliceT (.c .pblk) s.pblk 8 arr
      bytectrT false
      bytectrT true
      return ({ s with pblk := pblk, bytectr := s.bytectr + BitVec.ofNat 64 (16 * (c.buflen / 16)) },
        ⟨st.2.2.1, st.2.2.2.1, st.2.2.2.2, c.buflen - 16 * (c.buflen / 16)⟩)
  | _ => Logged.log [] .ub

/-- crypto_aesctr_arm.c:108-111, logging. -/
def arm_whole_if16T (a : Arr) (s : CtrStream) (c : MCursor) : Logged (CtrStream × MCursor) :=
  if c.buflen ≥ 16 then arm_wholeblocksT a s c else pure (s, c)

/-- crypto_aesctr_arm.c:98-115 `crypto_aesctr_arm_stream`, logging. -/
def arm_streamT (a : Arr) (hw : AesHw) (ossl : Ossl) (s : CtrStream) (c : MCursor) : Logged (CtrStream × MCursor) := do
  let (done, s, c) ← pre_wholeblockT a s c
  if done then return (s, c)
  let (s, c) ← arm_whole_if16T a s c
  post_wholeblockT a hw ossl s c

/-- crypto_aesctr.c:167-204 `crypto_aesctr_stream(stream, &a[inp], &a[outp], buflen)`, logging. -/
def crypto_aesctr_streamT (a : Arr) (hw : AesHw) (ossl : Ossl) (junk : Bytes) (s : CtrStream) (mem : Bytes) (inp outp buflen : Nat) :
    Logged (CtrStream × Bytes) := do
  let (s, c) ←
    (if buflen ≥ 16 ∧ hw = .x86_aesni then aesni_streamT a hw ossl junk s ⟨mem, inp, outp, buflen⟩
    else if buflen ≥ 16 ∧ hw = .arm_aes then arm_streamT a hw ossl s ⟨mem, inp, outp, buflen⟩
    else portable_streamT a hw ossl s ⟨mem, inp, outp, buflen⟩ : Logged (CtrStream × MCursor))
  return (s, c.mem)

/-- crypto_aesctr.c:104-129 `crypto_aesctr_init2`, logging. -/
def crypto_aesctr_init2T (s : CtrStream) (key : Option AesKey) (nonce : W64) : Logged CtrStream := do
  let s := match key with
    | some k => { s with key := k }
    | none => s
  let pblk ← wrSliceT (.c .pblk) s.pblk 0 (be64enc nonce)
  bytectrT true
  let pblk ← wrT (.c .pblk) pblk 15 0xff
  return { s with bytectr := 0, pblk := pblk }

/-- crypto_aesctr.c:138-159 `crypto_aesctr_init`, logging. -/
def crypto_aesctr_initT (mem : Option CtrStream) (key : AesKey) (nonce : W64) : Logged (Option CtrStream) :=
  match mem with
  | none => pure none
  | some s => do let s ← crypto_aesctr_init2T s (some key) nonce; return some s

/-- What crypto_aesctr_free and crypto_aes_key_free overwrite (the structure of OpenSSL is not modelled). [crypto_aesctr.c:219, crypto_aes_aesni.c:252,
crypto_aes_arm.c:305] -/
def streamWiped : List Acc := accs (.c .bytectr) true 0 1 ++ accs (.c .kblk) true 0 16 ++ accs (.c .pblk) true 0 16

/-- crypto_aes.c:309-334, crypto_aes_aesni.c:243-252, crypto_aes_arm.c:296-305 -/
def keyWiped (hw : AesHw) : List Acc := if hw = .software then [] else accs (.c .rkeys) true 0 15

/-- `crypto_aes_key_expand(key_enc, 32)` and `crypto_aesctr_init(key_enc_exp, 0)` with their error handling, logging.
[scryptenc.c:443-451, 526-534, 615-623, 819-827] -/
def aesOpenT (sys : EncSys) (dk : Bytes) : Logged ((Code × Option CtrStream) × List Ev) :=
  crypto_aes_key_expandT sys.aesHw sys.aes dk 32 >>= fun k =>
  match k with
  | none => pure ((.EOPENSSL, none), [])
  | some k => crypto_aesctr_initT sys.ctr k 0 >>= fun s =>
    match s with
    | none => Logged.log (keyWiped sys.aesHw) (.ok ((.ENOMEM, none), [.alloc .aesKey] ++ crypto_aes_key_free))
    | some s => pure ((.OK, some s), [.alloc .aesKey, .alloc .aesCtr])

/-- sha256.c:589-604 `HMAC_SHA256_Final(hbuf, &hctx)`, logging. -/
def macFinalT (hw : ShaHw) (ctx : HMAC_SHA256_CTX) : Logged Bytes := do
  let r ← HMAC_SHA256_Final_internalT (shaTransformT hw) .mac (.c .hbuf) ctx
  Logged.log (wholeCtx .mac true) (.ok r.1)

/-- HMAC_SHA256_Init(&hctx, &dk[32], 32), logging. [scryptenc.c:306, 392, 457, 541, 605, 809] -/
def macInitT (hw : ShaHw) (junk : HMAC_SHA256_CTX) (dk : Bytes) : Logged HMAC_SHA256_CTX := do
  let k ← Logged.log [] (rdSlice dk 32 32)
  Logged.move (.c .dk) 32 (HMAC_SHA256_InitT (shaTransformT hw) .mac (.c .dk) junk k)

/-- HMAC_SHA256_Update(&hctx, &a[off], n), logging; `x` are the bytes there. [scryptenc.c:307, 393, 458, 542, 604, 627, 810, 843] -/
def macUpdateT (hw : ShaHw) (a : Arr) (off : Nat) (ctx : HMAC_SHA256_CTX) (x : Bytes) : Logged HMAC_SHA256_CTX :=
  Logged.move a off (HMAC_SHA256_UpdateT (shaTransformT hw) .mac a ctx x)

/-- HMAC_SHA256 of the bytes `x` at `&a[off]` under the second half of `dk`, into hbuf, logging. [scryptenc.c:457-459, 541-543] -/
def bufTagT (hw : ShaHw) (junk : HMAC_SHA256_CTX) (dk : Bytes) (a : Arr) (off : Nat) (x : Bytes) : Logged Bytes := do
  let ctx ← macInitT hw junk dk
  let ctx ← macUpdateT hw a off ctx x
  macFinalT hw ctx

/-- scryptenc.c:306-308, 392-394: HMAC of the first 64 bytes of the header, which is at `&a[off]`, logging. -/
def headerSigT (hw : ShaHw) (junk : HMAC_SHA256_CTX) (dk : Bytes) (a : Arr) (off : Nat) (h : Bytes) : Logged Bytes := do
  let ctx ← macInitT hw junk dk
  let x ← Logged.log [] (rdSlice h 0 64)
  let ctx ← macUpdateT hw a off ctx x
  macFinalT hw ctx

/-- crypto_verify_bytes.c:11-21 `crypto_verify_bytes(&a[ao], &b[bo], len)`, logging. -/
def crypto_verify_bytesT (a : Arr) (ao : Nat) (b : Arr) (bo : Nat) (buf0 buf1 : Bytes) (len : Nat) : Logged Byte :=
  forLoopT len (fun (v : Byte) i => do
    let x ← Logged.log [⟨a, ao + i, false⟩] (rd buf0 i)
    let y ← Logged.log [⟨b, bo + i, false⟩] (rd buf1 i)
    return v ||| (x ^^^ y)) 0

/-- scryptenc.c:300-302: SHA256 of the first 48 bytes of the header, logging. -/
def headerSumT (hw : ShaHw) (junk : SHA256_CTX) (h : Bytes) : Logged Bytes := do
  let x ← Logged.log [] (rdSlice h 0 48)
  let ctx ← SHA256_InitT .plain junk
  let ctx ← SHA256_UpdateT (shaTransformT hw) .plain (.c .header) ctx x
  let r ← SHA256_Final_internalT (shaTransformT hw) .plain (.c .hbuf) ctx
  Logged.log (wholeShaCtx .plain true) (.ok r.1)

/-- scryptenc.c:292-309: construct the header, logging. -/
def writeHeaderT (sys : EncSys) (hw : ShaHw) (P : EncParams) (salt dk : Bytes) : Logged Bytes := do
  let h ← wrSliceT (.c .header) sys.header0 0 [0x73, 0x63, 0x72, 0x79, 0x70, 0x74]
  let h ← wrT (.c .header) h 6 0
  let h ← wrT (.c .header) h 7 (BitVec.ofInt 8 P.logN)
  let h ← wrSliceT (.c .header) h 8 (be32enc P.r)
  let h ← wrSliceT (.c .header) h 12 (be32enc P.p)
  let s ← rdSliceT (.c .salt) salt 0 32
  let h ← wrSliceT (.c .header) h 16 s
  let d ← headerSumT hw sys.junkSha h
  let d ← rdSliceT (.c .hbuf) d 0 16
  let h ← wrSliceT (.c .header) h 48 d
  let d ← headerSigT hw sys.junkHmac dk (.c .header) 0 h
  let d ← rdSliceT (.c .hbuf) d 0 32
  wrSliceT (.c .header) h 64 d

/-- scryptenc.c:392-396: check the header signature, logging; the header is at `&a[off]`. -/
def checkSigT (sys : EncSys) (hw : ShaHw) (a : Arr) (off : Nat) (header : Bytes) (P : EncParams) (err : List Msg) (o : ScOut) (st : Option SmixImpl) :
    Logged SetupOut := do
  let d ← headerSigT hw sys.junkHmac o.buf a off header
  let sig ← Logged.log [] (rdSlice header 64 32)
  let v ← crypto_verify_bytesT (.c .hbuf) 0 a (off + 64) d sig 32
  return ⟨if v ≠ 0 then .EPASS else .OK, header, o.buf, P, err, st⟩

/-- scryptenc.c:439-466 with `inbuf = &mem[inp]`, `outbuf = &mem[outp]`, logging. -/
def encBufBodyT (sys : EncSys) (hw : ShaHw) (mem : Bytes) (inp n outp : Nat) (s : SetupOut) : Logged BufOut := do
  let h ← rdSliceT (.c .header) s.header 0 96
  let mem ← wrSliceT (.c .mem) mem outp h
  let a ← aesOpenT sys s.dk
  match a.1.2 with
  | none => Logged.log (accs (.c .dk) true 0 64) (.ok ⟨a.1.1, s.P, mem, 0, zero64, a.2, s.err, s.smix⟩)
  | some st => do
    let r ← crypto_aesctr_streamT (.c .mem) sys.aesHw sys.ossl (sys.xmm 0) st mem inp (outp + 96) n
    Logged.log (streamWiped ++ keyWiped sys.aesHw) (.ok ())
    let x ← Logged.log [] (rdSlice r.2 outp (96 + n))
    let t ← bufTagT hw sys.junkHmac2 s.dk (.c .mem) outp x
    let t ← rdSliceT (.c .hbuf) t 0 32
    let mem ← wrSliceT (.c .mem) r.2 (outp + (96 + n)) t
    Logged.log (accs (.c .dk) true 0 64)
      (.ok ⟨.OK, s.P, mem, 0, zero64, a.2 ++ crypto_aesctr_free ++ crypto_aes_key_free, s.err, s.smix⟩)

/-- scryptenc.c:526-552 with `inbuf = &mem[inp]`, `outbuf = &mem[outp]`, logging. -/
def decBufBodyT (sys : EncSys) (hw : ShaHw) (mem : Bytes) (inp n outp outlen : Nat) (s : SetupOut) : Logged BufOut := do
  let a ← aesOpenT sys s.dk
  match a.1.2 with
  | none => Logged.log (accs (.c .dk) true 0 64) (.ok ⟨a.1.1, s.P, mem, outlen, zero64, a.2, s.err, s.smix⟩)
  | some st => do
    let r ← crypto_aesctr_streamT (.c .mem) sys.aesHw sys.ossl (sys.xmm 0) st mem (inp + 96) outp (n - 128)
    Logged.log (streamWiped ++ keyWiped sys.aesHw) (.ok ())
    let y ← Logged.log [] (rdSlice r.2 inp (n - 32))
    let t ← bufTagT hw sys.junkHmac2 s.dk (.c .mem) inp y
    let tag ← Logged.log [] (rdSlice r.2 (inp + (n - 32)) 32)
    let v ← crypto_verify_bytesT (.c .hbuf) 0 (.c .mem) (inp + (n - 32)) t tag 32
    Logged.log (accs (.c .dk) true 0 64) (.ok ⟨if v ≠ 0 then .EINVAL else .OK, s.P, r.2, n - 128, zero64,
      a.2 ++ crypto_aesctr_free ++ crypto_aes_key_free, s.err, s.smix⟩)

/-- scryptenc.c:624-635, the encryption loop, logging. -/
def encLoopA (sys : EncSys) (hw : ShaHw) : Nat → CtrStream → HMAC_SHA256_CTX → Bytes → List Bytes → OutFile → Logged LoopEnd
  | 0, _, _, _, _, _ => Logged.log [] .ub
  | fuel + 1, s, hctx, buf, inf, outf =>
    if (freadSome ENCBLOCK inf).1 = [] then pure ⟨false, hctx, buf, 0, (freadSome ENCBLOCK inf).2, outf⟩
    else do
      let d := (freadSome ENCBLOCK inf).1
      let buf ← wrSliceT (.c .iobuf) buf 0 d
      let r ← crypto_aesctr_streamT (.c .iobuf) sys.aesHw sys.ossl (sys.xmm fuel) s buf 0 0 d.length
      let y ← Logged.log [] (rdSlice r.2 0 d.length)
      let hctx ← macUpdateT hw (.c .iobuf) 0 hctx y
      Logged.log (accs (.c .iobuf) false 0 d.length) (.ok ())
      if (fwrite outf y).1 < d.length then pure ⟨true, hctx, r.2, 0, (freadSome ENCBLOCK inf).2, (fwrite outf y).2⟩
      else encLoopA sys hw fuel r.1 hctx r.2 (freadSome ENCBLOCK inf).2 (fwrite outf y).2

/-- scryptenc.c:828-855, the decryption loop, logging. -/
def decLoopA (sys : EncSys) (hw : ShaHw) : Nat → CtrStream → HMAC_SHA256_CTX → Bytes → Nat → List Bytes → OutFile → Logged LoopEnd
  | 0, _, _, _, _, _, _ => Logged.log [] .ub
  | fuel + 1, s, hctx, buf, buflen, inf, outf =>
    if (freadSome (ENCBLOCK + 32 - buflen) inf).1 = [] then pure ⟨false, hctx, buf, buflen, (freadSome (ENCBLOCK + 32 - buflen) inf).2, outf⟩
    else do
      let d := (freadSome (ENCBLOCK + 32 - buflen) inf).1
      let buf ← wrSliceT (.c .iobuf) buf buflen d
      if buflen + d.length ≤ 32 then decLoopA sys hw fuel s hctx buf (buflen + d.length) (freadSome (ENCBLOCK + 32 - buflen) inf).2 outf
      else do
        let n := buflen + d.length - 32
        let x ← Logged.log [] (rdSlice buf 0 n)
        let hctx ← macUpdateT hw (.c .iobuf) 0 hctx x
        let r ← crypto_aesctr_streamT (.c .iobuf) sys.aesHw sys.ossl (sys.xmm fuel) s buf 0 0 n
        let y ← rdSliceT (.c .iobuf) r.2 0 n
        if (fwrite outf y).1 < n then pure ⟨true, hctx, r.2, buflen + d.length, (freadSome (ENCBLOCK + 32 - buflen) inf).2, (fwrite outf y).2⟩
        else do
          let t ← rdSliceT (.c .iobuf) r.2 n 32
          let buf ← wrSliceT (.c .iobuf) r.2 0 t
          decLoopA sys hw fuel r.1 hctx buf 32 (freadSome (ENCBLOCK + 32 - buflen) inf).2 (fwrite outf y).2

/-- scryptenc.c:636-651, logging. On a write error the key is not released (finding F2). -/
def encFileEndA (sys : EncSys) (hw : ShaHw) (inf : InFile) (s : SetupOut) (tr : List Ev) (l : LoopEnd) : Logged FileOut :=
  if l.wfail then Logged.log (streamWiped ++ accs (.c .dk) true 0 64)
    (.ok ⟨.EWRFILE, s.P, ⟨l.inf, inf.err⟩, l.outf, zero64, tr ++ crypto_aesctr_free, s.err, s.smix⟩)
  else if inf.err then Logged.log (streamWiped ++ keyWiped sys.aesHw ++ accs (.c .dk) true 0 64)
    (.ok ⟨.ERDFILE, s.P, ⟨l.inf, inf.err⟩, l.outf, zero64, tr ++ crypto_aesctr_free ++ crypto_aes_key_free, s.err, s.smix⟩)
  else do
    Logged.log (streamWiped ++ keyWiped sys.aesHw) (.ok ())
    let t ← macFinalT hw l.hctx
    let t ← rdSliceT (.c .hbuf) t 0 32
    Logged.log (accs (.c .dk) true 0 64) (.ok ⟨if (fwrite l.outf t).1 < 32 then .EWRFILE else .OK, s.P, ⟨l.inf, inf.err⟩, (fwrite l.outf t).2, zero64,
      tr ++ crypto_aesctr_free ++ crypto_aes_key_free, s.err, s.smix⟩)

/-- scryptenc.c:602-651, logging. -/
def encFileBodyA (sys : EncSys) (hw : ShaHw) (inf : InFile) (outf : OutFile) (s : SetupOut) : Logged FileOut := do
  let hctx ← macInitT hw sys.junkHmac2 s.dk
  let h ← Logged.log [] (rdSlice s.header 0 96)
  let hctx ← macUpdateT hw (.c .header) 0 hctx h
  Logged.log (accs (.c .header) false 0 96) (.ok ())
  if (fwrite outf h).1 < 96 then Logged.log (accs (.c .dk) true 0 64) (.ok ⟨.EWRFILE, s.P, inf, (fwrite outf h).2, zero64, [], s.err, s.smix⟩)
  else do
    let a ← aesOpenT sys s.dk
    match a.1.2 with
    | none => Logged.log (accs (.c .dk) true 0 64) (.ok ⟨a.1.1, s.P, inf, (fwrite outf h).2, zero64, a.2, s.err, s.smix⟩)
    | some st => do
      let l ← encLoopA sys hw (inf.data.length + 1) st hctx (sys.iobuf.take ENCBLOCK) inf.segs (fwrite outf h).2
      encFileEndA sys hw inf s a.2 l

/-- scryptenc.c:856-884, logging. -/
def decFileEndA (sys : EncSys) (hw : ShaHw) (err : Bool) (tr : List Ev) (l : LoopEnd) : Logged CopyOut :=
  if l.wfail then Logged.log streamWiped (.ok ⟨.EWRFILE, ⟨l.inf, err⟩, l.outf, tr ++ crypto_aesctr_free⟩)
  else do
    Logged.log (streamWiped ++ keyWiped sys.aesHw) (.ok ())
    if err then pure ⟨.ERDFILE, ⟨l.inf, err⟩, l.outf, tr ++ crypto_aesctr_free ++ crypto_aes_key_free⟩
    else if l.buflen < 32 then pure ⟨.EINVAL, ⟨l.inf, err⟩, l.outf, tr ++ crypto_aesctr_free ++ crypto_aes_key_free⟩
    else do
      let t ← macFinalT hw l.hctx
      let v ← crypto_verify_bytesT (.c .hbuf) 0 (.c .iobuf) 0 t l.buf 32
      return ⟨if v ≠ 0 then .EINVAL else .OK, ⟨l.inf, err⟩, l.outf, tr ++ crypto_aesctr_free ++ crypto_aes_key_free⟩

/-- scryptenc.c:791-884 `scryptdec_file_copy`, logging. -/
def scryptdec_file_copyA (sys : EncSys) (hw : ShaHw) (c : Cookie) (outf : OutFile) : Logged CopyOut := do
  let hctx ← macInitT hw sys.junkHmac2 c.dk
  let h ← Logged.log [] (rdSlice c.header 0 96)
  let hctx ← macUpdateT hw (.c .header) 0 hctx h
  let a ← aesOpenT sys c.dk
  match a.1.2 with
  | none => pure ⟨a.1.1, c.inf, outf, a.2⟩
  | some st => do
    let l ← decLoopA sys hw (c.inf.data.length + 1) st hctx sys.iobuf 0 c.inf.segs outf
    decFileEndA sys hw c.inf.err a.2 l

end Scrypt
