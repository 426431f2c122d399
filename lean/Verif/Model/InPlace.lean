import Verif.Model.Main
/-
The utility when the output file is the input file: both streams lie over one file of the system.

The file is opened for reading, then (main.c:159) for writing, which empties it.  The C library reads ahead and
writes behind: `ibuf` has been read from the file but not yet handed to the program, and of what the program has
written the first `flushed` bytes have reached the file.  So after the opening the file contains
`written.take flushed`, and reading it at `ipos` gives what lies there at that moment.  When the library reads and how
much, and when it passes on written bytes, is arbitrary, except that up to `B` bytes are kept back.
-/
namespace Scrypt

/-- The two streams over one file. [The `FILE *`s `infile` and `outfile` of main.c:114-163] -/
structure OneFile where
  ipos : Nat
  ibuf : Bytes
  flushed : Nat

/-- The C library: the size of its output buffer, how much it asks read(2) for and up to where it has passed on the output, by step,
how many steps are watched, and how much of the input it had read ahead when the output was opened. [C library under main.c:114-170] -/
structure Stdio where
  B : Nat
  ask : Nat → Nat
  flush : Nat → Nat
  steps : Nat
  ahead : Nat

/-- `fread(buf, 1, n, infile)`: some bytes, at most `n`; none only at the end of the file, as it is now. [C library; called at scryptenc.c:624, 833] -/
def freadS (n ask : Nat) (w : OneFile) (outf : OutFile) : Bytes × OneFile :=
  if w.ibuf = [] then
    let d := ((outf.written.take w.flushed).drop w.ipos).take (ask + 1)
    (d.take n, ⟨w.ipos + d.length, d.drop n, w.flushed⟩)
  else (w.ibuf.take n, ⟨w.ipos, w.ibuf.drop n, w.flushed⟩)

/-- What the library does with the output after an fwrite: nothing if it fits into the buffer, otherwise it passes on some of it.
[C library; after scryptenc.c:605, 628, 846] -/
def flushS (B upto : Nat) (w : OneFile) (outf : OutFile) : OneFile :=
  if outf.written.length ≤ w.flushed + B then w else { w with flushed := max w.flushed (min upto outf.written.length) }

/-- scryptenc.c:624-635, the encryption loop; `none`: still running after all watched steps. -/
def encLoopS (sys : EncSys) (c : Stdio) : Nat → CtrStream → HMAC_SHA256_CTX → Bytes → OneFile → OutFile → Res (Option LoopEnd)
  | 0, _, _, _, _, _ => .ok none
  | n + 1, s, hctx, buf, w, outf =>
    let r := freadS ENCBLOCK (c.ask n) w outf
    if r.1 = [] then .ok (some ⟨false, hctx, buf, 0, [r.2.ibuf], outf⟩)
    else do
      let d := r.1
      let buf ← wrSlice buf 0 d
      let x ← rdSlice buf 0 d.length
      let (s, e) ← crypto_aesctr_stream sys.aesHw sys.ossl (sys.xmm n) s x d.length
      let buf ← wrSlice buf 0 e
      let y ← rdSlice buf 0 d.length
      let hctx ← HMAC_SHA256_Update sys.tf hctx y
      let (k, outf) := fwrite outf y
      if k < d.length then .ok (some ⟨true, hctx, buf, 0, [r.2.ibuf], outf⟩)
      else encLoopS sys c n s hctx buf (flushS c.B (c.flush n) r.2 outf) outf

/-- scryptenc.c:602-651: everything after a successful setup. -/
def encFileBodyS (sys : EncSys) (c : Stdio) (w : OneFile) (outf : OutFile) (s : SetupOut) : Res (Option FileOut) := do
  let k ← rdSlice s.dk 32 32
  let hctx ← HMAC_SHA256_Init sys.tf sys.junkHmac2 k
  let h ← rdSlice s.header 0 96
  let hctx ← HMAC_SHA256_Update sys.tf hctx h
  let (n, outf) := fwrite outf h
  if n < 96 then .ok (some ⟨.EWRFILE, s.P, ⟨[w.ibuf], false⟩, outf, zero64, [], s.err, s.smix⟩)
  else do
    let a ← aesOpen sys s.dk
    match a.1.2 with
    | none => .ok (some ⟨a.1.1, s.P, ⟨[w.ibuf], false⟩, outf, zero64, a.2, s.err, s.smix⟩)
    | some st => do
      let l ← encLoopS sys c c.steps st hctx (sys.iobuf.take ENCBLOCK) (flushS c.B (c.flush c.steps) w outf) outf
      match l with
      | none => .ok none
      | some l => do
        let o ← encFileEnd sys ⟨[w.ibuf], false⟩ s a.2 l
        .ok (some o)

/-- scryptenc.c:576-661 `scryptenc_file`, both files being the one just opened for writing. -/
def scryptenc_fileS (sys : EncSys) (c : Stdio) (w : OneFile) (outf : OutFile) (passwd : Bytes) (P : EncParams)
    (verbose force : Bool) : Res (Option FileOut) := do
  cassert (P.zero || P.nonzero)
  let s ← scryptenc_setup sys passwd P verbose force
  if s.rc ≠ .OK then .ok (some ⟨s.rc, s.P, ⟨[w.ibuf], false⟩, outf, zero64, [], s.err, s.smix⟩)
  else encFileBodyS sys c w outf s

/-- scryptenc.c:828-855, the decryption loop; `none`: still running after all watched steps. -/
def decLoopS (sys : EncSys) (c : Stdio) : Nat → CtrStream → HMAC_SHA256_CTX → Bytes → Nat → OneFile → OutFile → Res (Option LoopEnd)
  | 0, _, _, _, _, _, _ => .ok none
  | n + 1, s, hctx, buf, buflen, w, outf =>
    let r := freadS (ENCBLOCK + 32 - buflen) (c.ask n) w outf
    if r.1 = [] then .ok (some ⟨false, hctx, buf, buflen, [r.2.ibuf], outf⟩)
    else do
      let d := r.1
      let buf ← wrSlice buf buflen d
      let buflen := buflen + d.length
      if buflen ≤ 32 then decLoopS sys c n s hctx buf buflen r.2 outf
      else do
        let x ← rdSlice buf 0 (buflen - 32)
        let hctx ← HMAC_SHA256_Update sys.tf hctx x
        let (s, e) ← crypto_aesctr_stream sys.aesHw sys.ossl (sys.xmm n) s x (buflen - 32)
        let buf ← wrSlice buf 0 e
        let y ← rdSlice buf 0 (buflen - 32)
        let (k, outf) := fwrite outf y
        if k < buflen - 32 then .ok (some ⟨true, hctx, buf, buflen, [r.2.ibuf], outf⟩)
        else do
          let t ← rdSlice buf (buflen - 32) 32
          let buf ← wrSlice buf 0 t
          decLoopS sys c n s hctx buf 32 (flushS c.B (c.flush n) r.2 outf) outf

/-- scryptenc.c:791-884 `scryptdec_file_copy`, both files being the one just opened for writing. -/
def scryptdec_file_copyS (sys : EncSys) (c : Stdio) (w : OneFile) (header dk : Bytes) (outf : OutFile) : Res (Option CopyOut) := do
  let k ← rdSlice dk 32 32
  let hctx ← HMAC_SHA256_Init sys.tf sys.junkHmac2 k
  let h ← rdSlice header 0 96
  let hctx ← HMAC_SHA256_Update sys.tf hctx h
  let a ← aesOpen sys dk
  match a.1.2 with
  | none => .ok (some ⟨a.1.1, ⟨[w.ibuf], false⟩, outf, a.2⟩)
  | some st => do
    let l ← decLoopS sys c c.steps st hctx sys.iobuf 0 w outf
    match l with
    | none => .ok none
    | some l => do
      let o ← decFileEnd sys false a.2 l
      .ok (some o)

/-- main.c:149-170, decryption; when the output is opened, `ahead` bytes of the input after the header are in the input buffer. -/
def decRunS (env : MainEnv) (c : Stdio) (P : EncParams) (verbose force : Bool) (infilename outfilename : CStr) (inf : InFile) (passwd : Bytes)
    (ev : List MEv) : Res (Option ModeOut) :=
  scryptdec_file_prep env.sys inf passwd P verbose force >>= fun p =>
    let ev := ev ++ p.tr.map .key
    let msgs := p.err.map .lib
    if p.rc ≠ .OK then encDecCleanup env (some infilename) (some outfilename) ev msgs false false p.rc [] >>= fun m => .ok (some m)
    else
      match openOutput env (some outfilename) with
      | none => .ok (some (encDecErr2 env (some infilename) (some outfilename) ev msgs true))
      | some outf =>
        match p.cookie with
        | none => .ub
        | some k =>
          let b := k.inf.data.take c.ahead
          scryptdec_file_copyS env.sys c ⟨96 + b.length, b, 0⟩ k.header k.dk outf >>= fun o =>
            match o with
            | none => .ok none
            | some o =>
              encDecCleanup env (some infilename) (some outfilename) (ev ++ openOutputEv env (some outfilename) ++ o.tr.map .key) msgs true true o.rc
                o.outf.written >>= fun m => .ok (some m)

/-- main.c:157-170, encryption; nothing of the input has been read when the output is opened. -/
def encRunS (env : MainEnv) (c : Stdio) (P : EncParams) (verbose force : Bool) (infilename outfilename : CStr) (passwd : Bytes)
    (ev : List MEv) : Res (Option ModeOut) :=
  match openOutput env (some outfilename) with
  | none => .ok (some (encDecErr2 env (some infilename) (some outfilename) ev [] false))
  | some outf =>
    scryptenc_fileS env.sys c ⟨0, [], 0⟩ outf passwd P verbose force >>= fun o =>
      match o with
      | none => .ok none
      | some o =>
        encDecCleanup env (some infilename) (some outfilename) (ev ++ openOutputEv env (some outfilename) ++ o.tr.map .key) (o.err.map .lib) false true o.rc
          o.outf.written >>= fun m => .ok (some m)

/-- main.c:110-205 `scrypt_mode_enc_dec`, for an input file `infilename` which is also the output file, under whatever name. -/
def scrypt_mode_enc_decS (env : MainEnv) (c : Stdio) (P : EncParams) (entry : PassEntry) (arg : CStr) (dec verbose force : Bool)
    (infilename outfilename : CStr) : Res (Option ModeOut) :=
  match openInput env (some infilename) with
  | none => .ok (some ⟨false, [cannotOpenIn (some infilename)], openInputEv env (some infilename), []⟩)
  | some none => .ub
  | some (some inf) =>
    passphrase_entry_readpass env.pe entry arg dec >>= fun r =>
    match r with
    | none => .ok none
    | some o =>
      match o.passwd with
      | none =>
        let k := closeInput env (some infilename)
        .ok (some ⟨false, .diag (.warnp "passphrase_entry_readpass".toList) :: k.2, openInputEv env (some infilename) ++ k.1, []⟩)
      | some pw =>
        if dec then decRunS env c P verbose force infilename outfilename inf pw (openInputEv env (some infilename) ++ [.gotPass])
        else encRunS env c P verbose force infilename outfilename pw (openInputEv env (some infilename) ++ [.gotPass])

end Scrypt
