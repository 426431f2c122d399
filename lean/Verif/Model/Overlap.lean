import Verif.Model.Enc
/-
crypto_aesctr.c, crypto_aesctr_shared.c, crypto_aesctr_aesni.c, crypto_aesctr_arm.c and the functions of
scryptenc.c that call them, once more, with the buffers of the caller as regions of one memory: every
byte is read from that memory at the moment the C code reads it and stored into it at the moment the C
code stores it, so overlapping buffers behave as they do in C.

`Model/AesCtr.lean` and `Model/Enc.lean` treat the input as a value read beforehand. The stream structure,
the key and the local variables are separate objects, as in C.
-/
namespace Scrypt
open Spec

/-- `*inbuf`, `*outbuf` as indices into the memory, and `*buflen`. [The pointer arguments of
crypto_aesctr_shared.c:39-41, 63-64, 90-91] -/
structure MCursor where
  mem : Bytes
  inp : Nat
  outp : Nat
  buflen : Nat

/-- crypto_aesctr_shared.c:38-56 `crypto_aesctr_stream_cipherblock_use`: one byte loaded, one byte stored,
in turn. -/
def cipherblock_useM (s : CtrStream) (c : MCursor) (nbytes bytemod : Nat) : Res (CtrStream × MCursor) := do
  let m ← forLoop nbytes (fun m i => do
    let a ← rd m (c.inp + i)
    let b ← rd s.buf (bytemod + i)
    wr m (c.outp + i) (a ^^^ b)) c.mem
  return ({ s with bytectr := s.bytectr + BitVec.ofNat 64 nbytes },
    ⟨m, c.inp + nbytes, c.outp + nbytes, c.buflen - nbytes⟩)

/-- crypto_aesctr_shared.c:62-86 `crypto_aesctr_stream_pre_wholeblock` -/
def pre_wholeblockM (s : CtrStream) (c : MCursor) : Res (Bool × CtrStream × MCursor) := do
  let bytemod := (s.bytectr % 16).toNat
  if bytemod ≠ 0 then
    if bytemod + c.buflen ≤ 16 then do
      let (s, c) ← cipherblock_useM s c c.buflen bytemod
      return (true, s, c)
    else do
      let (s, c) ← cipherblock_useM s c (16 - bytemod) bytemod
      return (false, s, c)
  else return (false, s, c)

/-- crypto_aesctr_shared.c:89-103 `crypto_aesctr_stream_post_wholeblock` -/
def post_wholeblockM (hw : AesHw) (ossl : Ossl) (s : CtrStream) (c : MCursor) : Res (CtrStream × MCursor) :=
  if c.buflen > 0 then do
    let s ← cipherblock_generate hw ossl s
    cipherblock_useM s c c.buflen 0
  else .ok (s, c)

/-- crypto_aesctr.c:193-200, the loop over whole blocks; `fuel` as in `portable_loop`. -/
def portable_loopM (hw : AesHw) (ossl : Ossl) : Nat → CtrStream → MCursor → Res (CtrStream × MCursor)
  | 0, s, c => if c.buflen ≥ 16 then .ub else .ok (s, c)
  | fuel + 1, s, c =>
    if c.buflen ≥ 16 then do
      let s ← cipherblock_generate hw ossl s
      let (s, c) ← cipherblock_useM s c 16 0
      portable_loopM hw ossl fuel s c
    else .ok (s, c)

/-- crypto_aesctr.c:187-203 -/
def portable_streamM (hw : AesHw) (ossl : Ossl) (s : CtrStream) (c : MCursor) : Res (CtrStream × MCursor) := do
  let (done, s, c) ← pre_wholeblockM s c
  if done then return (s, c)
  let (s, c) ← portable_loopM hw ossl c.buflen s c
  post_wholeblockM hw ossl s c

/-- crypto_aesctr_aesni.c:55-109 `crypto_aesctr_aesni_stream_wholeblocks`: sixteen bytes loaded, sixteen
bytes stored, in turn. Loop state: block_counter, block_counter_be_arr, the memory, *inbuf, *outbuf. -/
def aesni_wholeblocksM (junk : Bytes) (s : CtrStream) (c : MCursor) : Res (CtrStream × MCursor) := do
  let key ← match s.key with
    | .aesni k => pure k
    | _ => Res.ub
  let nonce_be ← load_si64 s.pblk junk
  let num_blocks := c.buflen / 16
  if num_blocks = 0 then Res.ub else do
  let (_, arr, m, inp, outp) ← forLoop num_blocks (fun (st : W64 × Bytes × Bytes × Nat × Nat) _ => do
    let (bc, _, m, inp, outp) := st
    let arr := be64enc bc
    let bufsse ← load_si64 arr junk
    let bufsse := mm_unpacklo_epi64_b nonce_be bufsse
    let bufsse ← crypto_aes_encrypt_block_aesni_m128i bufsse key
    let inbufsse ← q_load m inp
    let bufsse := q_xor inbufsse bufsse
    let m ← wrSlice m outp bufsse
    return (bc + 1, arr, m, inp + 16, outp + 16)) (s.bytectr / 16, [], c.mem, c.inp, c.outp)
  let pblk ← wrSlice s.pblk 8 arr
  return ({ s with pblk := pblk, bytectr := s.bytectr + BitVec.ofNat 64 (16 * num_blocks) },
    ⟨m, inp, outp, c.buflen - 16 * num_blocks⟩)

/-- crypto_aesctr_aesni.c:127-130 -/
def aesni_whole_if16M (junk : Bytes) (s : CtrStream) (c : MCursor) : Res (CtrStream × MCursor) :=
  if c.buflen ≥ 16 then aesni_wholeblocksM junk s c else .ok (s, c)

/-- crypto_aesctr_aesni.c:117-134 `crypto_aesctr_aesni_stream` -/
def aesni_streamM (hw : AesHw) (ossl : Ossl) (junk : Bytes) (s : CtrStream) (c : MCursor) : Res (CtrStream × MCursor) := do
  let (done, s, c) ← pre_wholeblockM s c
  if done then return (s, c)
  let (s, c) ← aesni_whole_if16M junk s c
  post_wholeblockM hw ossl s c

/-- crypto_aesctr_arm.c:36-90 `crypto_aesctr_arm_stream_wholeblocks` -/
def arm_wholeblocksM (s : CtrStream) (c : MCursor) : Res (CtrStream × MCursor) := do
  let key ← match s.key with
    | .arm k => pure k
    | _ => Res.ub
  let nonce_be ← vld1_u8 s.pblk
  let num_blocks := c.buflen / 16
  if num_blocks = 0 then Res.ub else do
  let (_, arr, m, inp, outp) ← forLoop num_blocks (fun (st : W64 × Bytes × Bytes × Nat × Nat) _ => do
    let (bc, _, m, inp, outp) := st
    let arr := be64enc bc
    let block_counter_be ← vld1_u8 arr
    let bufarm := vcombine_u8 nonce_be block_counter_be
    let bufarm ← crypto_aes_encrypt_block_arm_u8 bufarm key
    let inbufarm ← q_load m inp
    let bufarm := q_xor inbufarm bufarm
    let m ← wrSlice m outp bufarm
    return (bc + 1, arr, m, inp + 16, outp + 16)) (s.bytectr / 16, [], c.mem, c.inp, c.outp)
  let pblk ← wrSlice s.pblk 8 arr
  return ({ s with pblk := pblk, bytectr := s.bytectr + BitVec.ofNat 64 (16 * num_blocks) },
    ⟨m, inp, outp, c.buflen - 16 * num_blocks⟩)

/-- crypto_aesctr_arm.c:108-111 -/
def arm_whole_if16M (s : CtrStream) (c : MCursor) : Res (CtrStream × MCursor) :=
  if c.buflen ≥ 16 then arm_wholeblocksM s c else .ok (s, c)

/-- crypto_aesctr_arm.c:98-115 `crypto_aesctr_arm_stream` -/
def arm_streamM (hw : AesHw) (ossl : Ossl) (s : CtrStream) (c : MCursor) : Res (CtrStream × MCursor) := do
  let (done, s, c) ← pre_wholeblockM s c
  if done then return (s, c)
  let (s, c) ← arm_whole_if16M s c
  post_wholeblockM hw ossl s c

/-- crypto_aesctr.c:167-204 `crypto_aesctr_stream(stream, &mem[inp], &mem[outp], buflen)`; returns the
stream and the memory. -/
def crypto_aesctr_streamM (hw : AesHw) (ossl : Ossl) (junk : Bytes) (s : CtrStream) (mem : Bytes) (inp outp buflen : Nat) :
    Res (CtrStream × Bytes) := do
  let c : MCursor := ⟨mem, inp, outp, buflen⟩
  let (s, c) ←
    if buflen ≥ 16 ∧ hw = .x86_aesni then aesni_streamM hw ossl junk s c
    else if buflen ≥ 16 ∧ hw = .arm_aes then arm_streamM hw ossl s c
    else portable_streamM hw ossl s c
  return (s, c.mem)

/-- crypto_aesctr.c:229-247 `crypto_aesctr_buf(key, nonce, &mem[inp], &mem[outp], buflen)` -/
def crypto_aesctr_bufM (hw : AesHw) (ossl : Ossl) (junk : Bytes) (stack : CtrStream) (key : AesKey) (nonce : W64)
    (mem : Bytes) (inp outp buflen : Nat) : Res Bytes := do
  let s ← crypto_aesctr_init2 stack (some key) nonce
  let (_, m) ← crypto_aesctr_streamM hw ossl junk s mem inp outp buflen
  return m

/-- scryptenc.c:439-466 with `inbuf = &mem[inp]`, `outbuf = &mem[outp]`. -/
def encBufBodyM (sys : EncSys) (mem : Bytes) (inp n outp : Nat) (s : SetupOut) : Res BufOut := do
  let h ← rdSlice s.header 0 96
  let mem ← wrSlice mem outp h
  let a ← aesOpen sys s.dk
  match a.1.2 with
  | none => .ok ⟨a.1.1, s.P, mem, 0, zero64, a.2, s.err, s.smix⟩
  | some st => do
    let (_, mem) ← crypto_aesctr_streamM sys.aesHw sys.ossl (sys.xmm 0) st mem inp (outp + 96) n
    let x ← rdSlice mem outp (96 + n)
    let t ← bufTag sys s.dk x
    let t ← rdSlice t 0 32
    let mem ← wrSlice mem (outp + (96 + n)) t
    .ok ⟨.OK, s.P, mem, 0, zero64, a.2 ++ crypto_aesctr_free ++ crypto_aes_key_free, s.err, s.smix⟩

/-- scryptenc.c:415-473 `scryptenc_buf(&mem[inp], n, &mem[outp], &mem[pwp], pwlen, …)`; the result's `out`
is the memory. -/
def scryptenc_bufM (sys : EncSys) (mem : Bytes) (inp n outp pwp pwlen : Nat) (P : EncParams) (verbose force : Bool) :
    Res BufOut := do
  cassert (P.zero || P.nonzero)
  let passwd ← rdSlice mem pwp pwlen
  let s ← scryptenc_setup sys passwd P verbose force
  if s.rc ≠ .OK then .ok ⟨s.rc, s.P, mem, 0, zero64, [], s.err, s.smix⟩
  else encBufBodyM sys mem inp n outp s

/-- scryptenc.c:526-552 with `inbuf = &mem[inp]`, `outbuf = &mem[outp]`: the data is decrypted first and
the input authenticated after. -/
def decBufBodyM (sys : EncSys) (mem : Bytes) (inp n outp outlen : Nat) (s : SetupOut) : Res BufOut := do
  let a ← aesOpen sys s.dk
  match a.1.2 with
  | none => .ok ⟨a.1.1, s.P, mem, outlen, zero64, a.2, s.err, s.smix⟩
  | some st => do
    let (_, mem) ← crypto_aesctr_streamM sys.aesHw sys.ossl (sys.xmm 0) st mem (inp + 96) outp (n - 128)
    let y ← rdSlice mem inp (n - 32)
    let t ← bufTag sys s.dk y
    let tag ← rdSlice mem (inp + (n - 32)) 32
    let v ← crypto_verify_bytes t tag 32
    .ok ⟨if v.1 ≠ 0 then .EINVAL else .OK, s.P, mem, n - 128, zero64,
      a.2 ++ crypto_aesctr_free ++ crypto_aes_key_free, s.err, s.smix⟩

/-- scryptenc.c:485-564 `scryptdec_buf(&mem[inp], n, &mem[outp], outlen, &mem[pwp], pwlen, …)`. The input is
loaded once for the checks and the setup, which store nothing in the caller's buffers. -/
def scryptdec_bufM (sys : EncSys) (mem : Bytes) (inp n outp outlen pwp pwlen : Nat) (P : EncParams)
    (verbose force : Bool) : Res BufOut := do
  cassert P.zero
  let inbuf ← rdSlice mem inp n
  if n < 7 ∨ inbuf.take 6 ≠ [0x73, 0x63, 0x72, 0x79, 0x70, 0x74] then
    .ok ⟨.EINVAL, P, mem, outlen, sys.dk0, [], [], sys.smix⟩
  else do
    let v ← rd inbuf 6
    if v ≠ 0 then .ok ⟨.EVERSION, P, mem, outlen, sys.dk0, [], [], sys.smix⟩
    else if n < 128 then .ok ⟨.EINVAL, P, mem, outlen, sys.dk0, [], [], sys.smix⟩
    else do
      let passwd ← rdSlice mem pwp pwlen
      let s ← scryptdec_setup sys inbuf passwd P verbose force
      if s.rc ≠ .OK then .ok ⟨s.rc, s.P, mem, outlen, zero64, [], s.err, s.smix⟩
      else decBufBodyM sys mem inp n outp outlen s

/-- scryptenc.c:624-635, the encryption loop, encrypting `buf` in place (scryptenc.c:626). -/
def encLoopM (sys : EncSys) : Nat → CtrStream → HMAC_SHA256_CTX → Bytes → List Bytes → OutFile → Res LoopEnd
  | 0, _, _, _, _, _ => .ub
  | fuel + 1, s, hctx, buf, inf, outf => do
    let (d, inf) := freadSome ENCBLOCK inf
    if d = [] then .ok ⟨false, hctx, buf, 0, inf, outf⟩
    else do
      let buf ← wrSlice buf 0 d
      let (s, buf) ← crypto_aesctr_streamM sys.aesHw sys.ossl (sys.xmm fuel) s buf 0 0 d.length
      let y ← rdSlice buf 0 d.length
      let hctx ← HMAC_SHA256_Update sys.tf hctx y
      let (n, outf) := fwrite outf y
      if n < d.length then .ok ⟨true, hctx, buf, 0, inf, outf⟩
      else encLoopM sys fuel s hctx buf inf outf

/-- scryptenc.c:828-855, the decryption loop, decrypting `buf` in place (scryptenc.c:845). -/
def decLoopM (sys : EncSys) : Nat → CtrStream → HMAC_SHA256_CTX → Bytes → Nat → List Bytes → OutFile → Res LoopEnd
  | 0, _, _, _, _, _, _ => .ub
  | fuel + 1, s, hctx, buf, buflen, inf, outf => do
    let (d, inf) := freadSome (ENCBLOCK + 32 - buflen) inf
    if d = [] then .ok ⟨false, hctx, buf, buflen, inf, outf⟩
    else do
      let buf ← wrSlice buf buflen d
      let buflen := buflen + d.length
      if buflen ≤ 32 then decLoopM sys fuel s hctx buf buflen inf outf
      else do
        let x ← rdSlice buf 0 (buflen - 32)
        let hctx ← HMAC_SHA256_Update sys.tf hctx x
        let (s, buf) ← crypto_aesctr_streamM sys.aesHw sys.ossl (sys.xmm fuel) s buf 0 0 (buflen - 32)
        let y ← rdSlice buf 0 (buflen - 32)
        let (n, outf) := fwrite outf y
        if n < buflen - 32 then .ok ⟨true, hctx, buf, buflen, inf, outf⟩
        else do
          let t ← rdSlice buf (buflen - 32) 32
          let buf ← wrSlice buf 0 t
          decLoopM sys fuel s hctx buf 32 inf outf

/-- scryptenc.c:602-651, everything after a successful setup, the buffer encrypted in place. -/
def encFileBodyM (sys : EncSys) (inf : InFile) (outf : OutFile) (s : SetupOut) : Res FileOut := do
  let k ← rdSlice s.dk 32 32
  let hctx ← HMAC_SHA256_Init sys.tf sys.junkHmac2 k
  let h ← rdSlice s.header 0 96
  let hctx ← HMAC_SHA256_Update sys.tf hctx h
  let (n, outf) := fwrite outf h
  if n < 96 then .ok ⟨.EWRFILE, s.P, inf, outf, zero64, [], s.err, s.smix⟩
  else do
    let a ← aesOpen sys s.dk
    match a.1.2 with
    | none => .ok ⟨a.1.1, s.P, inf, outf, zero64, a.2, s.err, s.smix⟩
    | some st => do
      let l ← encLoopM sys (inf.data.length + 1) st hctx (sys.iobuf.take ENCBLOCK) inf.segs outf
      encFileEnd sys inf s a.2 l

/-- scryptenc.c:576-661 `scryptenc_file`, the buffer encrypted in place. -/
def scryptenc_fileM (sys : EncSys) (inf : InFile) (outf : OutFile) (passwd : Bytes) (P : EncParams)
    (verbose force : Bool) : Res FileOut := do
  cassert (P.zero || P.nonzero)
  let s ← scryptenc_setup sys passwd P verbose force
  if s.rc ≠ .OK then .ok ⟨s.rc, s.P, inf, outf, zero64, [], s.err, s.smix⟩
  else encFileBodyM sys inf outf s

/-- scryptenc.c:791-884 `scryptdec_file_copy`, the buffer decrypted in place. -/
def scryptdec_file_copyM (sys : EncSys) (c : Cookie) (outf : OutFile) : Res CopyOut := do
  let k ← rdSlice c.dk 32 32
  let hctx ← HMAC_SHA256_Init sys.tf sys.junkHmac2 k
  let h ← rdSlice c.header 0 96
  let hctx ← HMAC_SHA256_Update sys.tf hctx h
  let a ← aesOpen sys c.dk
  match a.1.2 with
  | none => .ok ⟨a.1.1, c.inf, outf, a.2⟩
  | some st => do
    let l ← decLoopM sys (c.inf.data.length + 1) st hctx sys.iobuf 0 c.inf.segs outf
    decFileEnd sys c.inf.err a.2 l

end Scrypt
