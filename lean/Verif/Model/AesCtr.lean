import Verif.Model.Aes
/-
Model of libcperciva/crypto/crypto_aesctr.c, crypto_aesctr_shared.c, crypto_aesctr_aesni.c,
crypto_aesctr_arm.c.

The pair (inbuf, outbuf) with the remaining length is a `Cursor`: the unread input, what has been
written so far, and the remaining length. inbuf and outbuf may be the same array (each input byte is
read before the output byte at the same index is written, so in-place operation gives the same
output: proved as C80 over Model/Overlap.lean, which also models the other overlaps).
-/
namespace Scrypt
open Spec

/-- crypto_aesctr_shared.c:8-13 `struct crypto_aesctr` (the key by value). -/
structure CtrStream where
  key : AesKey
  bytectr : W64
  buf : Bytes
  pblk : Bytes
  deriving DecidableEq, Repr

/-- `*inbuf`, the bytes stored through `*outbuf` so far, `*buflen`. [The pointer arguments of crypto_aesctr_shared.c:39-41, 63-64, 90-91] -/
structure Cursor where
  inb : Bytes
  out : Bytes
  buflen : Nat
  deriving DecidableEq, Repr

/-- crypto_aesctr_shared.c:16-35 `crypto_aesctr_stream_cipherblock_generate` -/
def cipherblock_generate (hw : AesHw) (ossl : Ossl) (s : CtrStream) : Res CtrStream := do
  cassert (s.bytectr % 16 == 0)
  let b ← rd s.pblk 15
  let pblk ← wr s.pblk 15 (b + 1)
  let b ← rd pblk 15
  let pblk ← if b = 0 then wrSlice pblk 8 (be64enc (s.bytectr / 16)) else pure pblk
  let buf ← crypto_aes_encrypt_block hw ossl pblk s.key
  return { s with pblk := pblk, buf := buf }

/-- crypto_aesctr_shared.c:38-56 `crypto_aesctr_stream_cipherblock_use` -/
def cipherblock_use (s : CtrStream) (c : Cursor) (nbytes bytemod : Nat) : Res (CtrStream × Cursor) := do
  let o ← forLoop nbytes (fun o i => do
    let a ← rd c.inb i
    let b ← rd s.buf (bytemod + i)
    return o ++ [a ^^^ b]) []
  return ({ s with bytectr := s.bytectr + BitVec.ofNat 64 nbytes },
    ⟨c.inb.drop nbytes, c.out ++ o, c.buflen - nbytes⟩)

/-- crypto_aesctr_shared.c:62-86 `crypto_aesctr_stream_pre_wholeblock`; the Boolean is the C result. -/
def pre_wholeblock (s : CtrStream) (c : Cursor) : Res (Bool × CtrStream × Cursor) := do
  let bytemod := (s.bytectr % 16).toNat
  if bytemod ≠ 0 then
    if bytemod + c.buflen ≤ 16 then do
      let (s, c) ← cipherblock_use s c c.buflen bytemod
      return (true, s, c)
    else do
      let (s, c) ← cipherblock_use s c (16 - bytemod) bytemod
      return (false, s, c)
  else return (false, s, c)

/-- crypto_aesctr_shared.c:89-103 `crypto_aesctr_stream_post_wholeblock` -/
def post_wholeblock (hw : AesHw) (ossl : Ossl) (s : CtrStream) (c : Cursor) : Res (CtrStream × Cursor) :=
  if c.buflen > 0 then do
    let s ← cipherblock_generate hw ossl s
    cipherblock_use s c c.buflen 0
  else .ok (s, c)

/-- The loop `while (buflen >= 16)` of crypto_aesctr.c:193-200; `fuel` bounds the number of iterations
(running out is reported as undefined behaviour; callers pass the initial `buflen`). -/
def portable_loop (hw : AesHw) (ossl : Ossl) : Nat → CtrStream → Cursor → Res (CtrStream × Cursor)
  | 0, s, c => if c.buflen ≥ 16 then .ub else .ok (s, c)
  | fuel + 1, s, c =>
    if c.buflen ≥ 16 then do
      let s ← cipherblock_generate hw ossl s
      let (s, c) ← cipherblock_use s c 16 0
      portable_loop hw ossl fuel s c
    else .ok (s, c)

/-- crypto_aesctr.c:187-203, the portable part of `crypto_aesctr_stream`. -/
def portable_stream (hw : AesHw) (ossl : Ossl) (s : CtrStream) (c : Cursor) : Res (CtrStream × Cursor) := do
  let (done, s, c) ← pre_wholeblock s c
  if done then return (s, c)
  let (s, c) ← portable_loop hw ossl c.buflen s c
  post_wholeblock hw ossl s c

/-- crypto_aesctr_aesni.c:43-52 `load_si64`; `junk` is the undefined upper half. -/
def load_si64 (mem : Bytes) (junk : Bytes) : Res Bytes := mm_loadu_si64 mem junk

/-- crypto_aesctr_aesni.c:55-109 `crypto_aesctr_aesni_stream_wholeblocks`. Loop state: block_counter,
block_counter_be_arr, *inbuf, bytes written. The loop runs `num_blocks ≥ 1` times (do-while;
`num_blocks = 0` would loop 2^64 times and is reported as undefined). -/
def aesni_wholeblocks (junk : Bytes) (s : CtrStream) (c : Cursor) : Res (CtrStream × Cursor) := do
  let key ← match s.key with
    | .aesni k => pure k
    | _ => Res.ub
  let nonce_be ← load_si64 s.pblk junk
  let num_blocks := c.buflen / 16
  if num_blocks = 0 then Res.ub else do
  let (_, arr, inb, out) ← forLoop num_blocks (fun (st : W64 × Bytes × Bytes × Bytes) _ => do
    let (bc, _, inb, out) := st
    let arr := be64enc bc
    let bufsse ← load_si64 arr junk
    let bufsse := mm_unpacklo_epi64_b nonce_be bufsse
    let bufsse ← crypto_aes_encrypt_block_aesni_m128i bufsse key
    let inbufsse ← q_load inb 0
    let bufsse := q_xor inbufsse bufsse
    return (bc + 1, arr, inb.drop 16, out ++ bufsse)) (s.bytectr / 16, [], c.inb, c.out)
  let pblk ← wrSlice s.pblk 8 arr
  return ({ s with pblk := pblk, bytectr := s.bytectr + BitVec.ofNat 64 (16 * num_blocks) },
    ⟨inb, out, c.buflen - 16 * num_blocks⟩)

/-- crypto_aesctr_aesni.c:127-130, the `if` around the whole-block call. -/
def aesni_whole_if16 (junk : Bytes) (s : CtrStream) (c : Cursor) : Res (CtrStream × Cursor) :=
  if c.buflen ≥ 16 then aesni_wholeblocks junk s c else .ok (s, c)

/-- crypto_aesctr_aesni.c:117-134 `crypto_aesctr_aesni_stream` -/
def aesni_stream (hw : AesHw) (ossl : Ossl) (junk : Bytes) (s : CtrStream) (c : Cursor) : Res (CtrStream × Cursor) := do
  let (done, s, c) ← pre_wholeblock s c
  if done then return (s, c)
  let (s, c) ← aesni_whole_if16 junk s c
  post_wholeblock hw ossl s c

/-- crypto_aesctr_arm.c:36-90 `crypto_aesctr_arm_stream_wholeblocks` -/
def arm_wholeblocks (s : CtrStream) (c : Cursor) : Res (CtrStream × Cursor) := do
  let key ← match s.key with
    | .arm k => pure k
    | _ => Res.ub
  let nonce_be ← vld1_u8 s.pblk
  let num_blocks := c.buflen / 16
  if num_blocks = 0 then Res.ub else do
  let (_, arr, inb, out) ← forLoop num_blocks (fun (st : W64 × Bytes × Bytes × Bytes) _ => do
    let (bc, _, inb, out) := st
    let arr := be64enc bc
    let block_counter_be ← vld1_u8 arr
    let bufarm := vcombine_u8 nonce_be block_counter_be
    let bufarm ← crypto_aes_encrypt_block_arm_u8 bufarm key
    let inbufarm ← q_load inb 0
    let bufarm := q_xor inbufarm bufarm
    return (bc + 1, arr, inb.drop 16, out ++ bufarm)) (s.bytectr / 16, [], c.inb, c.out)
  let pblk ← wrSlice s.pblk 8 arr
  return ({ s with pblk := pblk, bytectr := s.bytectr + BitVec.ofNat 64 (16 * num_blocks) },
    ⟨inb, out, c.buflen - 16 * num_blocks⟩)

/-- crypto_aesctr_arm.c:108-111, the `if` around the whole-block call. -/
def arm_whole_if16 (s : CtrStream) (c : Cursor) : Res (CtrStream × Cursor) :=
  if c.buflen ≥ 16 then arm_wholeblocks s c else .ok (s, c)

/-- crypto_aesctr_arm.c:98-115 `crypto_aesctr_arm_stream` -/
def arm_stream (hw : AesHw) (ossl : Ossl) (s : CtrStream) (c : Cursor) : Res (CtrStream × Cursor) := do
  let (done, s, c) ← pre_wholeblock s c
  if done then return (s, c)
  let (s, c) ← arm_whole_if16 s c
  post_wholeblock hw ossl s c

/-- crypto_aesctr.c:104-129 `crypto_aesctr_init2` on a structure with arbitrary previous contents `s`;
`key = none` is NULL (retain the key; a stream is always given a key first, so the final assertion of
the C code, that the key is not NULL, holds by typing). -/
def crypto_aesctr_init2 (s : CtrStream) (key : Option AesKey) (nonce : W64) : Res CtrStream := do
  let s := match key with
    | some k => { s with key := k }
    | none => s
  let pblk ← wrSlice s.pblk 0 (be64enc nonce)
  let pblk ← wr pblk 15 0xff
  return { s with bytectr := 0, pblk := pblk }

/-- crypto_aesctr.c:138-159 `crypto_aesctr_init`; `mem` is what `crypto_aesctr_alloc`
(crypto_aesctr.c:81-97) returns: `none` = failure, else uninitialised. -/
def crypto_aesctr_init (mem : Option CtrStream) (key : AesKey) (nonce : W64) : Res (Option CtrStream) := do
  match mem with
  | none => return none
  | some s => do let s ← crypto_aesctr_init2 s (some key) nonce; return some s

/-- crypto_aesctr.c:167-204 `crypto_aesctr_stream`; returns the new state and the output bytes. `hw` is
the result of crypto_aesctr.c:45-74 `hwaccel_init`, i.e. of `crypto_aes_can_use_intrinsics`
(crypto_aes.c:204-224), the value crypto_aes.c itself uses. -/
def crypto_aesctr_stream (hw : AesHw) (ossl : Ossl) (junk : Bytes) (s : CtrStream) (inbuf : Bytes) (buflen : Nat) : Res (CtrStream × Bytes) := do
  let c : Cursor := ⟨inbuf, [], buflen⟩
  let (s, c) ←
    if buflen ≥ 16 ∧ hw = .x86_aesni then aesni_stream hw ossl junk s c
    else if buflen ≥ 16 ∧ hw = .arm_aes then arm_stream hw ossl s c
    else portable_stream hw ossl s c
  return (s, c.out)

/-- crypto_aesctr.c:229-247 `crypto_aesctr_buf`; `stack` is the uninitialised `stream_rec`. -/
def crypto_aesctr_buf (hw : AesHw) (ossl : Ossl) (junk : Bytes) (stack : CtrStream) (key : AesKey) (nonce : W64) (inbuf : Bytes) (buflen : Nat) : Res Bytes := do
  let s ← crypto_aesctr_init2 stack (some key) nonce
  let (_, out) ← crypto_aesctr_stream hw ossl junk s inbuf buflen
  return out

end Scrypt
