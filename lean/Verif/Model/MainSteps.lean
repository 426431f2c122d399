import Verif.Model.EncSteps
import Verif.Model.Main
/-
main.c's two operations with the sequence of their effects on the output: the same code as in Model/Main.lean, with a ghost list saying when the output file was
created (and emptied) and what was read and written after that.  A process that is killed has performed a beginning of this sequence.  `erase_*`
(Proofs/MainSteps.lean) shows that forgetting the list gives the original.
-/
namespace Scrypt

/-- Something that has happened. [Observation of the fopen at main.c:159 and of the fread and fwrite calls at scryptenc.c:605, 624, 628, 645, 833, 846] -/
inductive DiskEv where
  /-- `fopen(name, "wb")` succeeded: the file exists and is empty. -/
  | create (name : CStr)
  /-- Data was read or written. -/
  | io (e : IoEv)
  deriving DecidableEq

/-- main.c:158-163: the output file, if it is not standard output, is created. -/
def createEv (outfilename : Option CStr) : List DiskEv :=
  match outfilename with
  | none => []
  | some n => [.create n]

/-- main.c:149-170, `decRun` with its effects. -/
def decRunT (env : MainEnv) (P : EncParams) (verbose force : Bool) (infilename outfilename : Option CStr) (inf : InFile) (passwd : Bytes)
    (ev : List MEv) : Res (ModeOut × List DiskEv) :=
  scryptdec_file_prep env.sys inf passwd P verbose force >>= fun p =>
    let ev := ev ++ p.tr.map .key
    let msgs := p.err.map .lib
    if p.rc ≠ .OK then encDecCleanup env infilename outfilename ev msgs false false p.rc [] >>= fun m => .ok (m, [])
    else
      match openOutput env outfilename with
      | none => .ok (encDecErr2 env infilename outfilename ev msgs true, [])
      | some outf =>
        match p.cookie with
        | none => .ub
        | some c =>
          scryptdec_file_copyT env.sys { c with inf := truncated env outfilename c.inf } outf >>= fun o =>
            encDecCleanup env infilename outfilename (ev ++ openOutputEv env outfilename ++ o.1.tr.map .key) msgs true outfilename.isSome o.1.rc
              o.1.outf.written >>= fun m => .ok (m, createEv outfilename ++ o.2.map .io)

/-- main.c:157-170, `encRun` with its effects. -/
def encRunT (env : MainEnv) (P : EncParams) (verbose force : Bool) (infilename outfilename : Option CStr) (inf : InFile) (passwd : Bytes)
    (ev : List MEv) : Res (ModeOut × List DiskEv) :=
  match openOutput env outfilename with
  | none => .ok (encDecErr2 env infilename outfilename ev [] false, [])
  | some outf =>
    scryptenc_fileT env.sys (truncated env outfilename inf) outf passwd P verbose force >>= fun o =>
      encDecCleanup env infilename outfilename (ev ++ openOutputEv env outfilename ++ o.1.tr.map .key) (o.1.err.map .lib) false outfilename.isSome
        o.1.rc o.1.outf.written >>= fun m => .ok (m, createEv outfilename ++ o.2.map .io)

/-- main.c:110-205, `scrypt_mode_enc_dec` with its effects. -/
def scrypt_mode_enc_decT (env : MainEnv) (P : EncParams) (entry : PassEntry) (arg : CStr) (dec verbose force : Bool)
    (infilename outfilename : Option CStr) : Res (Option (ModeOut × List DiskEv)) :=
  match openInput env infilename with
  | none => .ok (some (⟨false, [cannotOpenIn infilename], openInputEv env infilename, []⟩, []))
  | some f =>
    passphrase_entry_readpass env.pe entry arg dec >>= fun r =>
    match r with
    | none => .ok none
    | some o =>
      match o.passwd with
      | none =>
        let c := closeInput env infilename
        .ok (some (⟨false, .diag (.warnp "passphrase_entry_readpass".toList) :: c.2, openInputEv env infilename ++ c.1, []⟩, []))
      | some pw =>
        match f.orElse fun _ => stdinFile env o.stdin with
        | none => .ok none
        | some inf =>
          (if dec then decRunT env P verbose force infilename outfilename inf pw (openInputEv env infilename ++ [.gotPass])
           else encRunT env P verbose force infilename outfilename inf pw (openInputEv env infilename ++ [.gotPass])) >>= fun o => .ok (some o)

end Scrypt
