import Verif.Model.Enc
/-
The stream functions with the sequence of their input and output operations: the same code as in Model/Enc.lean, with a ghost list of what each fread delivered
and of what each fwrite accepted, in order.  A process that is killed has performed a beginning of this sequence.  `erase_*` (Proofs/EncSteps.lean) shows that
forgetting the list gives the original.
-/
namespace Scrypt

/-- An input or output operation that has happened. [Observation of the calls at scryptenc.c:605, 624, 628, 645, 833, 846] -/
inductive IoEv where
  /-- `fread` delivered these bytes. -/
  | rd (d : Bytes)
  /-- `fwrite` accepted these bytes. -/
  | wr (x : Bytes)
  deriving DecidableEq

/-- scryptenc.c:624-635, `encLoop` with its operations. -/
def encLoopT (sys : EncSys) : Nat → CtrStream → HMAC_SHA256_CTX → Bytes → List Bytes → OutFile → Res (LoopEnd × List IoEv)
  | 0, _, _, _, _, _ => .ub
  | fuel + 1, s, hctx, buf, inf, outf => do
    let (d, inf) := freadSome ENCBLOCK inf
    if d = [] then .ok (⟨false, hctx, buf, 0, inf, outf⟩, [])
    else do
      let buf ← wrSlice buf 0 d
      let x ← rdSlice buf 0 d.length
      let (s, c) ← crypto_aesctr_stream sys.aesHw sys.ossl (sys.xmm fuel) s x d.length
      let buf ← wrSlice buf 0 c
      let y ← rdSlice buf 0 d.length
      let hctx ← HMAC_SHA256_Update sys.tf hctx y
      let (n, outf) := fwrite outf y
      if n < d.length then .ok (⟨true, hctx, buf, 0, inf, outf⟩, [.rd d, .wr (y.take n)])
      else encLoopT sys fuel s hctx buf inf outf >>= fun r => .ok (r.1, [.rd d, .wr (y.take n)] ++ r.2)

/-- scryptenc.c:637-651, `encFileEnd` with its operations. -/
def encFileEndT (sys : EncSys) (inf : InFile) (s : SetupOut) (tr : List Ev) (l : LoopEnd) : Res (FileOut × List IoEv) :=
  if l.wfail then
    .ok (⟨.EWRFILE, s.P, ⟨l.inf, inf.err⟩, l.outf, zero64, tr ++ crypto_aesctr_free, s.err, s.smix⟩, [])
  else if inf.err then
    .ok (⟨.ERDFILE, s.P, ⟨l.inf, inf.err⟩, l.outf, zero64,
      tr ++ crypto_aesctr_free ++ crypto_aes_key_free, s.err, s.smix⟩, [])
  else do
    let (t, _) ← HMAC_SHA256_Final sys.tf l.hctx
    let t ← rdSlice t 0 32
    let (n, outf) := fwrite l.outf t
    .ok (⟨if n < 32 then .EWRFILE else .OK, s.P, ⟨l.inf, inf.err⟩, outf, zero64,
      tr ++ crypto_aesctr_free ++ crypto_aes_key_free, s.err, s.smix⟩, [.wr (t.take n)])

/-- scryptenc.c:602-651, `encFileBody` with its operations. -/
def encFileBodyT (sys : EncSys) (inf : InFile) (outf : OutFile) (s : SetupOut) : Res (FileOut × List IoEv) := do
  let k ← rdSlice s.dk 32 32
  let hctx ← HMAC_SHA256_Init sys.tf sys.junkHmac2 k
  let h ← rdSlice s.header 0 96
  let hctx ← HMAC_SHA256_Update sys.tf hctx h
  let (n, outf) := fwrite outf h
  if n < 96 then .ok (⟨.EWRFILE, s.P, inf, outf, zero64, [], s.err, s.smix⟩, [.wr (h.take n)])
  else do
    let a ← aesOpen sys s.dk
    match a.1.2 with
    | none => .ok (⟨a.1.1, s.P, inf, outf, zero64, a.2, s.err, s.smix⟩, [.wr (h.take n)])
    | some st =>
      encLoopT sys (inf.data.length + 1) st hctx (sys.iobuf.take ENCBLOCK) inf.segs outf >>= fun l =>
      encFileEndT sys inf s a.2 l.1 >>= fun e => .ok (e.1, .wr (h.take n) :: (l.2 ++ e.2))

/-- scryptenc.c:576-661 `scryptenc_file` with its operations. -/
def scryptenc_fileT (sys : EncSys) (inf : InFile) (outf : OutFile) (passwd : Bytes) (P : EncParams)
    (verbose force : Bool) : Res (FileOut × List IoEv) := do
  cassert (P.zero || P.nonzero)
  let s ← scryptenc_setup sys passwd P verbose force
  if s.rc ≠ .OK then .ok (⟨s.rc, s.P, inf, outf, zero64, [], s.err, s.smix⟩, [])
  else encFileBodyT sys inf outf s

/-- scryptenc.c:828-855, `decLoop` with its operations. -/
def decLoopT (sys : EncSys) : Nat → CtrStream → HMAC_SHA256_CTX → Bytes → Nat → List Bytes → OutFile → Res (LoopEnd × List IoEv)
  | 0, _, _, _, _, _, _ => .ub
  | fuel + 1, s, hctx, buf, buflen, inf, outf => do
    let (d, inf) := freadSome (ENCBLOCK + 32 - buflen) inf
    if d = [] then .ok (⟨false, hctx, buf, buflen, inf, outf⟩, [])
    else do
      let buf ← wrSlice buf buflen d
      let buflen := buflen + d.length
      if buflen ≤ 32 then decLoopT sys fuel s hctx buf buflen inf outf >>= fun r => .ok (r.1, .rd d :: r.2)
      else do
        let x ← rdSlice buf 0 (buflen - 32)
        let hctx ← HMAC_SHA256_Update sys.tf hctx x
        let (s, c) ← crypto_aesctr_stream sys.aesHw sys.ossl (sys.xmm fuel) s x (buflen - 32)
        let buf ← wrSlice buf 0 c
        let y ← rdSlice buf 0 (buflen - 32)
        let (n, outf) := fwrite outf y
        if n < buflen - 32 then .ok (⟨true, hctx, buf, buflen, inf, outf⟩, [.rd d, .wr (y.take n)])
        else do
          let t ← rdSlice buf (buflen - 32) 32
          let buf ← wrSlice buf 0 t
          decLoopT sys fuel s hctx buf 32 inf outf >>= fun r => .ok (r.1, [.rd d, .wr (y.take n)] ++ r.2)

/-- scryptenc.c:791-884 `scryptdec_file_copy` with its operations. -/
def scryptdec_file_copyT (sys : EncSys) (c : Cookie) (outf : OutFile) : Res (CopyOut × List IoEv) := do
  let k ← rdSlice c.dk 32 32
  let hctx ← HMAC_SHA256_Init sys.tf sys.junkHmac2 k
  let h ← rdSlice c.header 0 96
  let hctx ← HMAC_SHA256_Update sys.tf hctx h
  let a ← aesOpen sys c.dk
  match a.1.2 with
  | none => .ok (⟨a.1.1, c.inf, outf, a.2⟩, [])
  | some st =>
    decLoopT sys (c.inf.data.length + 1) st hctx sys.iobuf 0 c.inf.segs outf >>= fun l =>
    decFileEnd sys c.inf.err a.2 l.1 >>= fun e => .ok (e, l.2)

/-- scryptenc.c:894-925 `scryptdec_file` with its operations after the header has been read (scryptdec_file_prep writes nothing). -/
def scryptdec_fileT (sys : EncSys) (inf : InFile) (outf : OutFile) (passwd : Bytes) (P : EncParams)
    (verbose force : Bool) : Res (FileOut × List IoEv) := do
  cassert P.zero
  let p ← scryptdec_file_prep sys inf passwd P verbose force
  match p.cookie with
  | none => .ok (⟨p.rc, p.P, p.inf, outf, zero64, p.tr, p.err, p.smix⟩, [])
  | some c => do
    let o ← scryptdec_file_copyT sys c outf
    .ok (⟨o.1.rc, p.P, o.1.inf, o.1.outf, zero64, p.tr ++ o.1.tr ++ scryptdec_file_cookie_free, p.err, p.smix⟩, o.2)

end Scrypt
