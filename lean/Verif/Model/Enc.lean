import Verif.Model.Params
import Verif.Model.CryptoScrypt
import Verif.Model.HwSelect
import Verif.Model.AesCtr
/-
Model of lib/scryptenc/scryptenc.c (encryption and decryption) and of
libcperciva/crypto/crypto_verify_bytes.c.

Everything outside this code is in `EncSys`: what the operating system answers, which hardware code is in
use, and what uninitialised memory contains.
-/
namespace Scrypt

/-! ### crypto_verify_bytes -/

/-- One memory access: which buffer (false = buf0), which index. [Observation of crypto_verify_bytes.c:12-21] -/
abbrev Access := Bool × Nat

/-- crypto_verify_bytes.c:11-21 `crypto_verify_bytes`: the return value and the memory accesses in
order (the only branch is the loop condition). -/
def crypto_verify_bytes (buf0 buf1 : Bytes) (len : Nat) : Res (Byte × List Access) :=
  forLoop len (fun (st : Byte × List Access) i => do
    let a ← rd buf0 i
    let b ← rd buf1 i
    return (st.1 ||| (a ^^^ b), st.2 ++ [(false, i), (true, i)])) (0, [])

/-! ### The environment -/

/-- scryptenc.h:64-73, struct scryptenc_params. -/
structure EncParams where
  maxmem : Nat
  maxmemfrac : F64
  maxtime : F64
  logN : Int
  r : W32
  p : W32

/-- What one call can depend on besides its arguments. [The system and components behind scryptenc.c:102-925] -/
structure EncSys where
  /-- memory limit, clock and display answers -/
  par : ParamSys
  /-- SHA-256 block function in use -/
  sha : ShaHw
  /-- AES implementation in use, and OpenSSL's AES -/
  aesHw : AesHw
  ossl : Ossl
  /-- scrypt: SSE2 available, allocations in the two self-tests and in the call, selection made so far -/
  sse2Ok : Bool
  kdf1 : ScEnv
  kdf2 : ScEnv
  kdf : ScEnv
  smix : Option SmixImpl
  /-- crypto_entropy_read(salt, 32): `none` is failure -/
  salt : Option Bytes
  /-- allocations made by crypto_aes_key_expand, crypto_aesctr_init, and the cookie's malloc -/
  aes : AesEnv
  ctr : Option CtrStream
  cookieOk : Bool
  /-- uninitialised stack: contexts, buffers, and register halves for each call of the stream cipher -/
  junkSha : SHA256_CTX
  junkHmac : HMAC_SHA256_CTX
  junkHmac2 : HMAC_SHA256_CTX
  junkTest : Bytes
  dk0 : Bytes
  header0 : Bytes
  iobuf : Bytes
  xmm : Nat → Bytes

/-- The SHA-256 block function. [What sha256.c:232-269 dispatches to] -/
def EncSys.tf (sys : EncSys) : Transform := shaTransform sys.sha

/-- Text printed on stderr: the parameter display, or a warn0 message. [The output at scryptenc.c:71-95, 338] -/
inductive Msg
  | params (t : CStr)
  | warn (t : CStr)
  deriving DecidableEq

/-- A parameter display unless there was none. [scryptenc.c:168-169, 204-205, 221-222] -/
def msgOf (t : CStr) : List Msg := if t = [] then [] else [.params t]

/-- Heap objects that hold key material. [The objects of scryptenc.c:427-428, 751] -/
inductive Obj
  | aesKey | aesCtr | cookie
  deriving DecidableEq, Repr

/-- What happens to them. [Observation of scryptenc.c:448-469, 651-657, 668-682] -/
inductive Ev
  | alloc (o : Obj) | zero (o : Obj) | free (o : Obj)
  deriving DecidableEq, Repr

/-- crypto_aes.c:308-336 `crypto_aes_key_free` (and crypto_aes_aesni.c:243-256, crypto_aes_arm.c:296-309,
which do the same) on a non-NULL key. -/
def crypto_aes_key_free : List Ev := [.zero .aesKey, .free .aesKey]

/-- crypto_aesctr.c:210-223 `crypto_aesctr_free` on a non-NULL stream. -/
def crypto_aesctr_free : List Ev := [.zero .aesCtr, .free .aesCtr]

/-- scryptenc.c:667-682 `scryptdec_file_cookie_free` on a non-NULL cookie. -/
def scryptdec_file_cookie_free : List Ev := [.zero .cookie, .free .cookie]

/-! ### Key setup -/

/-- Outcome of scryptenc_setup / scryptdec_setup. [The results of scryptenc.c:234-313 and 353-402] -/
structure SetupOut where
  rc : Code
  header : Bytes
  dk : Bytes
  P : EncParams
  err : List Msg
  smix : Option SmixImpl

/-- scryptenc.c:253-258: the warnings about explicit parameters. -/
def explicitWarn (rc : Code) : List Msg :=
  (if rc = .ETOOBIG ∨ rc = .EBIGSLOW then
    [.warn "Warning: Explicit parameters might exceed memory limit".toList] else []) ++
  (if rc = .ETOOSLOW ∨ rc = .EBIGSLOW then
    [.warn "Warning: Explicit parameters might exceed time limit".toList] else [])

/-- scryptenc.c:259-265: suppress resource limit errors, rename EINVAL. -/
def explicitCode (rc : Code) : Code :=
  let rc := if rc = .ETOOBIG ∨ rc = .ETOOSLOW ∨ rc = .EBIGSLOW then .OK else rc
  if rc = .EINVAL then .EPARAM else rc

/-- scryptenc.c:248-276: determine the parameters. -/
def setupParams (sys : EncSys) (P : EncParams) (verbose force : Bool) :
    Res (Code × EncParams × List Msg) :=
  if P.logN ≠ 0 then do
    let (rc, t) ← checkparams sys.par P.maxmem P.maxmemfrac P.maxtime P.logN P.r P.p verbose force
    .ok (explicitCode rc, P, msgOf t ++ explicitWarn rc)
  else do
    let o ← pickparams sys.par P.maxmem P.maxmemfrac P.maxtime verbose
    match o.val with
    | none => .ok (o.rc, P, msgOf o.err)
    | some (l, r, p) =>
      .ok (o.rc, { P with logN := l, r := BitVec.ofNat 32 r, p := BitVec.ofNat 32 p }, msgOf o.err)

/-- `crypto_scrypt(passwd, passwdlen, salt, 32, N, r, p, dk, 64)` with `N = (uint64_t)(1) << logN`:
scryptenc.c:282-289 and 387-389. -/
def deriveKey (sys : EncSys) (passwd salt : Bytes) (logN : Int) (r p : W32) :
    Res (ScOut × Option SmixImpl) :=
  crypto_scrypt sys.par.szMax sys.sse2Ok sys.kdf1 sys.kdf2 sys.kdf sys.tf sys.junkHmac sys.junkTest
    smixImpl sys.smix passwd salt ((1 : W64) <<< logN.toNat) r p sys.dk0 64

/-- scryptenc.c:292-297: the first 48 bytes of the header. -/
def writeHeader48 (header : Bytes) (P : EncParams) (salt : Bytes) : Res Bytes := do
  let h ← wrSlice header 0 [0x73, 0x63, 0x72, 0x79, 0x70, 0x74]
  let h ← wr h 6 0
  let h ← wr h 7 (BitVec.ofInt 8 P.logN)
  let h ← wrSlice h 8 (be32enc P.r)
  let h ← wrSlice h 12 (be32enc P.p)
  let s ← rdSlice salt 0 32
  wrSlice h 16 s

/-- scryptenc.c:300-302, 366-368: SHA256 of the first 48 bytes. -/
def headerSum (sys : EncSys) (h : Bytes) : Res Bytes := do
  let x ← rdSlice h 0 48
  let ctx ← SHA256_Update sys.tf (SHA256_Init sys.junkSha) x
  let (d, _) ← SHA256_Final sys.tf ctx
  .ok d

/-- scryptenc.c:306-308, 392-394: HMAC of the first 64 bytes under the second half of `dk`. -/
def headerSig (sys : EncSys) (h dk : Bytes) : Res Bytes := do
  let k ← rdSlice dk 32 32
  let ctx ← HMAC_SHA256_Init sys.tf sys.junkHmac k
  let x ← rdSlice h 0 64
  let ctx ← HMAC_SHA256_Update sys.tf ctx x
  let (d, _) ← HMAC_SHA256_Final sys.tf ctx
  .ok d

/-- scryptenc.c:292-309: construct the header. -/
def writeHeader (sys : EncSys) (P : EncParams) (salt dk : Bytes) : Res Bytes := do
  let h ← writeHeader48 sys.header0 P salt
  let d ← headerSum sys h
  let d ← rdSlice d 0 16
  let h ← wrSlice h 48 d
  let d ← headerSig sys h dk
  let d ← rdSlice d 0 32
  wrSlice h 64 d

/-- scryptenc.c:233-313 `scryptenc_setup` -/
def scryptenc_setup (sys : EncSys) (passwd : Bytes) (P : EncParams) (verbose force : Bool) :
    Res SetupOut := do
  let (rc, P, err) ← setupParams sys P verbose force
  if rc ≠ .OK then .ok ⟨rc, sys.header0, sys.dk0, P, err, sys.smix⟩
  else do
    cassert (decide (P.logN > 0) && decide (P.logN < 64))
    match sys.salt with
    | none => .ok ⟨.ESALT, sys.header0, sys.dk0, P, err, sys.smix⟩
    | some salt => do
      let (o, st) ← deriveKey sys passwd salt P.logN P.r P.p
      if o.rc ≠ 0 then .ok ⟨.EKEY, sys.header0, o.buf, P, err, st⟩
      else do
        let header ← writeHeader sys P salt o.buf
        .ok ⟨.OK, header, o.buf, P, err, st⟩

/-- scryptenc.c:392-396: check the header signature. -/
def checkSig (sys : EncSys) (header : Bytes) (P : EncParams) (err : List Msg) (o : ScOut)
    (st : Option SmixImpl) : Res SetupOut := do
  let d ← headerSig sys header o.buf
  let sig ← rdSlice header 64 32
  let v ← crypto_verify_bytes d sig 32
  if v.1 ≠ 0 then .ok ⟨.EPASS, header, o.buf, P, err, st⟩
  else .ok ⟨.OK, header, o.buf, P, err, st⟩

/-- scryptenc.c:352-402 `scryptdec_setup`. -/
def scryptdec_setup (sys : EncSys) (header passwd : Bytes) (P : EncParams) (verbose force : Bool) :
    Res SetupOut := do
  let l ← rd header 7
  let r ← be32dec (header.drop 8)
  let p ← be32dec (header.drop 12)
  let P := { P with logN := l.toNat, r := r, p := p }
  let salt ← rdSlice header 16 32
  let d ← headerSum sys header
  let sum ← rdSlice header 48 16
  let v ← crypto_verify_bytes sum d 16
  if v.1 ≠ 0 then .ok ⟨.EINVAL, header, sys.dk0, P, [], sys.smix⟩
  else do
    let (rc, t) ← checkparams sys.par P.maxmem P.maxmemfrac P.maxtime P.logN P.r P.p verbose force
    if rc ≠ .OK then .ok ⟨rc, header, sys.dk0, P, msgOf t, sys.smix⟩
    else do
      let (o, st) ← deriveKey sys passwd salt P.logN P.r P.p
      if o.rc ≠ 0 then .ok ⟨.EKEY, header, o.buf, P, msgOf t, st⟩
      else checkSig sys header P (msgOf t) o st

/-- `crypto_aes_key_expand(key_enc, 32)` and `crypto_aesctr_init(key_enc_exp, 0)` with their error
handling (scryptenc.c:443-451, 526-534, 615-623, 819-827): the stream, or the error code. -/
def aesOpen (sys : EncSys) (dk : Bytes) : Res ((Code × Option CtrStream) × List Ev) := do
  match ← crypto_aes_key_expand sys.aesHw sys.aes dk 32 with
  | none => .ok ((.EOPENSSL, none), [])
  | some k => do
    match ← crypto_aesctr_init sys.ctr k 0 with
    | none => .ok ((.ENOMEM, none), [.alloc .aesKey] ++ crypto_aes_key_free)
    | some s => .ok ((.OK, some s), [.alloc .aesKey, .alloc .aesCtr])

/-- HMAC_SHA256 of a whole buffer under the second half of `dk` (scryptenc.c:457-459, 541-543). -/
def bufTag (sys : EncSys) (dk x : Bytes) : Res Bytes := do
  let k ← rdSlice dk 32 32
  let ctx ← HMAC_SHA256_Init sys.tf sys.junkHmac2 k
  let ctx ← HMAC_SHA256_Update sys.tf ctx x
  let (d, _) ← HMAC_SHA256_Final sys.tf ctx
  .ok d

/-- The explicit parameters are all zero. [The conditions at scryptenc.c:501, 755, 903] -/
def EncParams.zero (P : EncParams) : Bool := decide (P.logN = 0) && decide (P.r = 0) && decide (P.p = 0)

/-- The explicit parameters are all non-zero. [The assertions at scryptenc.c:431-432, 594-595] -/
def EncParams.nonzero (P : EncParams) : Bool :=
  decide (P.logN ≠ 0) && decide (P.r ≠ 0) && decide (P.p ≠ 0)

/-- insecure_memzero(dk, 64) [scryptenc.c:463, 469, 554, 560, 651, 657] -/
def zero64 : Bytes := List.replicate 64 0

/-! ### Buffers -/

/-- Outcome of scryptenc_buf / scryptdec_buf: `outlen` is `*outlen`, `dk` the contents of the local key
buffer at return. [The results of scryptenc.c:416-473 and 486-564] -/
structure BufOut where
  rc : Code
  P : EncParams
  out : Bytes
  outlen : Nat
  dk : Bytes
  tr : List Ev
  err : List Msg
  smix : Option SmixImpl

/-- scryptenc.c:439-466: everything after a successful setup. -/
def encBufBody (sys : EncSys) (inbuf outbuf : Bytes) (s : SetupOut) : Res BufOut := do
  let h ← rdSlice s.header 0 96
  let outbuf ← wrSlice outbuf 0 h
  let a ← aesOpen sys s.dk
  match a.1.2 with
  | none => .ok ⟨a.1.1, s.P, outbuf, 0, zero64, a.2, s.err, s.smix⟩
  | some st => do
    let (_, c) ← crypto_aesctr_stream sys.aesHw sys.ossl (sys.xmm 0) st inbuf inbuf.length
    let outbuf ← wrSlice outbuf 96 c
    let x ← rdSlice outbuf 0 (96 + inbuf.length)
    let t ← bufTag sys s.dk x
    let t ← rdSlice t 0 32
    let outbuf ← wrSlice outbuf (96 + inbuf.length) t
    .ok ⟨.OK, s.P, outbuf, 0, zero64, a.2 ++ crypto_aesctr_free ++ crypto_aes_key_free, s.err, s.smix⟩

/-- scryptenc.c:415-473 `scryptenc_buf`; `inbuf` has length `inbuflen` and does not overlap `outbuf`. -/
def scryptenc_buf (sys : EncSys) (inbuf outbuf passwd : Bytes) (P : EncParams) (verbose force : Bool) :
    Res BufOut := do
  cassert (P.zero || P.nonzero)
  let s ← scryptenc_setup sys passwd P verbose force
  if s.rc ≠ .OK then .ok ⟨s.rc, s.P, outbuf, 0, zero64, [], s.err, s.smix⟩
  else encBufBody sys inbuf outbuf s

/-- scryptenc.c:526-552: everything after a successful setup. -/
def decBufBody (sys : EncSys) (inbuf outbuf : Bytes) (outlen : Nat) (s : SetupOut) : Res BufOut := do
  let a ← aesOpen sys s.dk
  match a.1.2 with
  | none => .ok ⟨a.1.1, s.P, outbuf, outlen, zero64, a.2, s.err, s.smix⟩
  | some st => do
    let x ← rdSlice inbuf 96 (inbuf.length - 128)
    let (_, c) ← crypto_aesctr_stream sys.aesHw sys.ossl (sys.xmm 0) st x (inbuf.length - 128)
    let outbuf ← wrSlice outbuf 0 c
    let y ← rdSlice inbuf 0 (inbuf.length - 32)
    let t ← bufTag sys s.dk y
    let tag ← rdSlice inbuf (inbuf.length - 32) 32
    let v ← crypto_verify_bytes t tag 32
    .ok ⟨if v.1 ≠ 0 then .EINVAL else .OK, s.P, outbuf, inbuf.length - 128, zero64,
      a.2 ++ crypto_aesctr_free ++ crypto_aes_key_free, s.err, s.smix⟩

/-- scryptenc.c:485-564 `scryptdec_buf` -/
def scryptdec_buf (sys : EncSys) (inbuf outbuf : Bytes) (outlen : Nat) (passwd : Bytes) (P : EncParams)
    (verbose force : Bool) : Res BufOut := do
  cassert P.zero
  if inbuf.length < 7 ∨ inbuf.take 6 ≠ [0x73, 0x63, 0x72, 0x79, 0x70, 0x74] then
    .ok ⟨.EINVAL, P, outbuf, outlen, sys.dk0, [], [], sys.smix⟩
  else do
    let v ← rd inbuf 6
    if v ≠ 0 then .ok ⟨.EVERSION, P, outbuf, outlen, sys.dk0, [], [], sys.smix⟩
    else if inbuf.length < 128 then .ok ⟨.EINVAL, P, outbuf, outlen, sys.dk0, [], [], sys.smix⟩
    else do
      let s ← scryptdec_setup sys inbuf passwd P verbose force
      if s.rc ≠ .OK then .ok ⟨s.rc, s.P, outbuf, outlen, zero64, [], s.err, s.smix⟩
      else decBufBody sys inbuf outbuf outlen s

/-! ### Streams -/

/-- An input FILE: the data it will still deliver, cut into the pieces that successive reads deliver, and
whether reading ends with an error rather than end of file (`ferror`). [The `FILE *` of scryptenc.c:577, 747] -/
structure InFile where
  segs : List Bytes
  err : Bool
  deriving DecidableEq

/-- All the data. [The `FILE *` of scryptenc.c:577, 747] -/
def InFile.data (f : InFile) : Bytes := f.segs.flatten

/-- `fread(buf, 1, n, f)`: some bytes, at most `n`; none only when the data is exhausted (or n = 0).
Simplification: end of file is final. [C library; called at scryptenc.c:624, 833] -/
def freadSome (n : Nat) : List Bytes → Bytes × List Bytes
  | [] => ([], [])
  | s :: rest =>
    if s = [] then freadSome n rest
    else if s.length ≤ n then (s, rest)
    else (s.take n, s.drop n :: rest)

/-- `fread(buf, n, 1, f)`: `n` bytes if the file still has that many, otherwise whatever is left (a
return value below 1). [C library; called at scryptenc.c:694, 718] -/
def freadExact (f : InFile) (n : Nat) : Option Bytes × InFile :=
  if n ≤ f.data.length then (some (f.data.take n), { f with segs := [f.data.drop n] })
  else (none, { f with segs := [] })

/-- An output FILE: what has been written, and how many more bytes it will take before a write fails
(`none`: no write fails). [The `FILE *` of scryptenc.c:577, 792] -/
structure OutFile where
  written : Bytes
  room : Option Nat
  deriving DecidableEq

/-- `fwrite(x, 1, |x|, f)`: the number of bytes written and the new state. [C library; called at scryptenc.c:605, 628, 645, 846] -/
def fwrite (f : OutFile) (x : Bytes) : Nat × OutFile :=
  match f.room with
  | none => (x.length, { f with written := f.written ++ x })
  | some k =>
    if x.length ≤ k then (x.length, ⟨f.written ++ x, some (k - x.length)⟩)
    else (k, ⟨f.written ++ x.take k, some 0⟩)

/-- scryptenc.c:52, ENCBLOCK -/
def ENCBLOCK : Nat := 65536

/-- State of a copying loop when it ends: whether a write failed, the hash, buffer, buffer length and
files. [The variables after the loops scryptenc.c:623-633, 831-855] -/
structure LoopEnd where
  wfail : Bool
  hctx : HMAC_SHA256_CTX
  buf : Bytes
  buflen : Nat
  inf : List Bytes
  outf : OutFile

/-- scryptenc.c:624-635, the encryption loop; `fuel` bounds the number of iterations (the callers pass
more than the number of bytes left; each iteration consumes at least one). -/
def encLoop (sys : EncSys) : Nat → CtrStream → HMAC_SHA256_CTX → Bytes → List Bytes → OutFile → Res LoopEnd
  | 0, _, _, _, _, _ => .ub
  | fuel + 1, s, hctx, buf, inf, outf => do
    let (d, inf) := freadSome ENCBLOCK inf
    if d = [] then .ok ⟨false, hctx, buf, 0, inf, outf⟩
    else do
      let buf ← wrSlice buf 0 d
      let x ← rdSlice buf 0 d.length
      let (s, c) ← crypto_aesctr_stream sys.aesHw sys.ossl (sys.xmm fuel) s x d.length
      let buf ← wrSlice buf 0 c
      let y ← rdSlice buf 0 d.length
      let hctx ← HMAC_SHA256_Update sys.tf hctx y
      let (n, outf) := fwrite outf y
      if n < d.length then .ok ⟨true, hctx, buf, 0, inf, outf⟩
      else encLoop sys fuel s hctx buf inf outf

/-- Outcome of the functions working on files. [The results of scryptenc.c:577-661, 895-925] -/
structure FileOut where
  rc : Code
  P : EncParams
  inf : InFile
  outf : OutFile
  dk : Bytes
  tr : List Ev
  err : List Msg
  smix : Option SmixImpl

/-- scryptenc.c:637-651: after the loop. -/
def encFileEnd (sys : EncSys) (inf : InFile) (s : SetupOut) (tr : List Ev) (l : LoopEnd) : Res FileOut :=
  if l.wfail then
    .ok ⟨.EWRFILE, s.P, ⟨l.inf, inf.err⟩, l.outf, zero64, tr ++ crypto_aesctr_free, s.err, s.smix⟩
  else if inf.err then
    .ok ⟨.ERDFILE, s.P, ⟨l.inf, inf.err⟩, l.outf, zero64,
      tr ++ crypto_aesctr_free ++ crypto_aes_key_free, s.err, s.smix⟩
  else do
    let (t, _) ← HMAC_SHA256_Final sys.tf l.hctx
    let t ← rdSlice t 0 32
    let (n, outf) := fwrite l.outf t
    .ok ⟨if n < 32 then .EWRFILE else .OK, s.P, ⟨l.inf, inf.err⟩, outf, zero64,
      tr ++ crypto_aesctr_free ++ crypto_aes_key_free, s.err, s.smix⟩

/-- scryptenc.c:602-651: everything after a successful setup. -/
def encFileBody (sys : EncSys) (inf : InFile) (outf : OutFile) (s : SetupOut) : Res FileOut := do
  let k ← rdSlice s.dk 32 32
  let hctx ← HMAC_SHA256_Init sys.tf sys.junkHmac2 k
  let h ← rdSlice s.header 0 96
  let hctx ← HMAC_SHA256_Update sys.tf hctx h
  let (n, outf) := fwrite outf h
  if n < 96 then .ok ⟨.EWRFILE, s.P, inf, outf, zero64, [], s.err, s.smix⟩
  else do
    let a ← aesOpen sys s.dk
    match a.1.2 with
    | none => .ok ⟨a.1.1, s.P, inf, outf, zero64, a.2, s.err, s.smix⟩
    | some st => do
      let l ← encLoop sys (inf.data.length + 1) st hctx (sys.iobuf.take ENCBLOCK) inf.segs outf
      encFileEnd sys inf s a.2 l

/-- scryptenc.c:576-661 `scryptenc_file` -/
def scryptenc_file (sys : EncSys) (inf : InFile) (outf : OutFile) (passwd : Bytes) (P : EncParams)
    (verbose force : Bool) : Res FileOut := do
  cassert (P.zero || P.nonzero)
  let s ← scryptenc_setup sys passwd P verbose force
  if s.rc ≠ .OK then .ok ⟨s.rc, s.P, inf, outf, zero64, [], s.err, s.smix⟩
  else encFileBody sys inf outf s

/-- scryptenc.c:697-704, 720-727: the code for a short header read. -/
def shortCode (f : InFile) : Code := if f.err then .ERDFILE else .EINVAL

/-- scryptenc.c:685-734 `scryptdec_file_load_header`: code, header (the caller's 96-byte array `header`
updated), file. -/
def scryptdec_file_load_header (f : InFile) (header : Bytes) : Res (Code × Bytes × InFile) :=
  match freadExact f 7 with
  | (none, f) => .ok (shortCode f, header, f)
  | (some a, f) => do
    let header ← wrSlice header 0 a
    let m ← rdSlice header 0 6
    if m ≠ [0x73, 0x63, 0x72, 0x79, 0x70, 0x74] then .ok (.EINVAL, header, f)
    else do
      let v ← rd header 6
      if v ≠ 0 then .ok (.EVERSION, header, f)
      else
        match freadExact f 89 with
        | (none, f) => .ok (shortCode f, header, f)
        | (some b, f) => do
          let header ← wrSlice header 7 b
          .ok (.OK, header, f)

/-- struct scryptdec_file_cookie (scryptenc.c:62-66). -/
structure Cookie where
  inf : InFile
  header : Bytes
  dk : Bytes

/-- Outcome of scryptdec_file_prep. [The results of scryptenc.c:747-782] -/
structure PrepOut where
  rc : Code
  P : EncParams
  cookie : Option Cookie
  inf : InFile
  tr : List Ev
  err : List Msg
  smix : Option SmixImpl

/-- scryptenc.c:746-782 `scryptdec_file_prep` -/
def scryptdec_file_prep (sys : EncSys) (inf : InFile) (passwd : Bytes) (P : EncParams)
    (verbose force : Bool) : Res PrepOut := do
  cassert P.zero
  if !sys.cookieOk then .ok ⟨.ENOMEM, P, none, inf, [], [], sys.smix⟩
  else do
    let (rc, header, inf) ← scryptdec_file_load_header inf sys.header0
    if rc ≠ .OK then
      .ok ⟨rc, P, none, inf, [.alloc .cookie] ++ scryptdec_file_cookie_free, [], sys.smix⟩
    else do
      let s ← scryptdec_setup sys header passwd P verbose force
      if s.rc ≠ .OK then
        .ok ⟨s.rc, s.P, none, inf, [.alloc .cookie] ++ scryptdec_file_cookie_free, s.err, s.smix⟩
      else .ok ⟨.OK, s.P, some ⟨inf, header, s.dk⟩, inf, [.alloc .cookie], s.err, s.smix⟩

/-- scryptenc.c:828-855, the decryption loop; `fuel` as in `encLoop`. -/
def decLoop (sys : EncSys) : Nat → CtrStream → HMAC_SHA256_CTX → Bytes → Nat → List Bytes → OutFile → Res LoopEnd
  | 0, _, _, _, _, _, _ => .ub
  | fuel + 1, s, hctx, buf, buflen, inf, outf => do
    let (d, inf) := freadSome (ENCBLOCK + 32 - buflen) inf
    if d = [] then .ok ⟨false, hctx, buf, buflen, inf, outf⟩
    else do
      let buf ← wrSlice buf buflen d
      let buflen := buflen + d.length
      if buflen ≤ 32 then decLoop sys fuel s hctx buf buflen inf outf
      else do
        let x ← rdSlice buf 0 (buflen - 32)
        let hctx ← HMAC_SHA256_Update sys.tf hctx x
        let (s, c) ← crypto_aesctr_stream sys.aesHw sys.ossl (sys.xmm fuel) s x (buflen - 32)
        let buf ← wrSlice buf 0 c
        let y ← rdSlice buf 0 (buflen - 32)
        let (n, outf) := fwrite outf y
        if n < buflen - 32 then .ok ⟨true, hctx, buf, buflen, inf, outf⟩
        else do
          let t ← rdSlice buf (buflen - 32) 32
          let buf ← wrSlice buf 0 t
          decLoop sys fuel s hctx buf 32 inf outf

/-- Outcome of scryptdec_file_copy. [The results of scryptenc.c:792-884] -/
structure CopyOut where
  rc : Code
  inf : InFile
  outf : OutFile
  tr : List Ev

/-- scryptenc.c:856-884: after the loop. -/
def decFileEnd (sys : EncSys) (err : Bool) (tr : List Ev) (l : LoopEnd) : Res CopyOut :=
  if l.wfail then .ok ⟨.EWRFILE, ⟨l.inf, err⟩, l.outf, tr ++ crypto_aesctr_free⟩
  else
    let tr := tr ++ crypto_aesctr_free ++ crypto_aes_key_free
    if err then .ok ⟨.ERDFILE, ⟨l.inf, err⟩, l.outf, tr⟩
    else if l.buflen < 32 then .ok ⟨.EINVAL, ⟨l.inf, err⟩, l.outf, tr⟩
    else do
      let (t, _) ← HMAC_SHA256_Final sys.tf l.hctx
      let v ← crypto_verify_bytes t l.buf 32
      .ok ⟨if v.1 ≠ 0 then .EINVAL else .OK, ⟨l.inf, err⟩, l.outf, tr⟩

/-- scryptenc.c:791-884 `scryptdec_file_copy` -/
def scryptdec_file_copy (sys : EncSys) (c : Cookie) (outf : OutFile) : Res CopyOut := do
  let k ← rdSlice c.dk 32 32
  let hctx ← HMAC_SHA256_Init sys.tf sys.junkHmac2 k
  let h ← rdSlice c.header 0 96
  let hctx ← HMAC_SHA256_Update sys.tf hctx h
  let a ← aesOpen sys c.dk
  match a.1.2 with
  | none => .ok ⟨a.1.1, c.inf, outf, a.2⟩
  | some st => do
    let l ← decLoop sys (c.inf.data.length + 1) st hctx sys.iobuf 0 c.inf.segs outf
    decFileEnd sys c.inf.err a.2 l

/-- scryptenc.c:894-925 `scryptdec_file`; on return the cookie (and with it the key) has been zeroed. -/
def scryptdec_file (sys : EncSys) (inf : InFile) (outf : OutFile) (passwd : Bytes) (P : EncParams)
    (verbose force : Bool) : Res FileOut := do
  cassert P.zero
  let p ← scryptdec_file_prep sys inf passwd P verbose force
  match p.cookie with
  | none => .ok ⟨p.rc, p.P, p.inf, outf, zero64, p.tr, p.err, p.smix⟩
  | some c => do
    let o ← scryptdec_file_copy sys c outf
    .ok ⟨o.rc, p.P, o.inf, o.outf, zero64, p.tr ++ o.tr ++ scryptdec_file_cookie_free, p.err, p.smix⟩

/-- scryptenc.c:319-346 `scryptdec_file_printparams`: code, text printed, file. -/
def scryptdec_file_printparams (disp : DispEnv) (header0 : Bytes) (inf : InFile) :
    Res (Code × CStr × InFile) := do
  let (rc, header, inf) ← scryptdec_file_load_header inf header0
  if rc ≠ .OK then .ok (rc, [], inf)
  else do
    let l ← rd header 7
    let r ← be32dec (header.drop 8)
    let p ← be32dec (header.drop 12)
    let t ← display_params disp l.toNat r p 0 (F64.ofNat 0) (F64.ofNat 0)
    .ok (.OK, t, inf)

end Scrypt
