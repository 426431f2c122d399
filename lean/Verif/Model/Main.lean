import Verif.Model.Getopt
import Verif.Model.Parsenum
import Verif.Model.Readpass
import Verif.Model.Warnp
/-
Model of main.c, the scrypt utility.

The environment answers the system calls: `fopen` on a name to read (what the file will deliver) and to write (how much it will take),
`fclose`, and everything the library calls need.  Standard input is one stream: what passphrase entry leaves of it is the input file.
Opening the output file truncates it; if it is also the input file, that changes what is left to read (`trunc`).

Simplifications: messages printed inside passphrase_entry_readpass are not recorded; errno texts are not; a run in which
standard input is the input file and has neither ended nor failed counts as still running (a reader that stops early behaves as if
the stream ended there).
-/
namespace Scrypt
open Spec (Strtod)

/-- A message on stderr. [The calls of warnp, warn0 and fprintf in main.c:45-400] -/
inductive MMsg
  | usage
  | diag (d : Diag)
  | lib (m : Msg)
  deriving DecidableEq

/-- What is done to files and to secrets, in order. [Observation of main.c:63-205] -/
inductive MEv
  | openIn (name : CStr) (ok : Bool)
  | openOut (name : CStr) (ok : Bool)
  | closeIn (ok : Bool)
  | closeOut (ok : Bool)
  | gotPass | zeroPass | freePass
  | key (e : Ev)
  deriving DecidableEq

/-- The environment. [The system behind main.c:45-400] -/
structure MainEnv where
  /-- malloc in getopt_setrange -/
  mallocOk : Bool
  sd : Strtod
  sys : EncSys
  /-- passphrase entry; `pe.rp.stdin` is standard input -/
  pe : PeEnv
  /-- how standard input is cut into reads -/
  cut : Bytes → List Bytes
  openIn : CStr → Option InFile
  /-- `some room`: opened, and how much can be written -/
  openOut : CStr → Option (Option Nat)
  /-- what opening this name for output leaves of the input -/
  trunc : CStr → InFile → InFile
  stdoutRoom : Option Nat
  fcloseIn : Bool
  fcloseOut : Bool
  version : CStr

/-- What a run did: exit code, messages, text on stdout (--version), files and secrets, the output (file or stdout). [The results of main.c:221-400] -/
structure MainOut where
  exit : Nat
  msgs : List MMsg
  text : CStr
  ev : List MEv
  out : Bytes

/-- main.c:44-55 `usage`, and every other `exit(1)` before an operation. -/
def dieWith (msgs : List MMsg) : MainOut := ⟨1, msgs, [], [], []⟩

/-! ### The operations -/

/-- What an operation returns: 0 or -1 (`ok`), messages, files and secrets, output. [The results of main.c:63-97 and 111-205] -/
structure ModeOut where
  ok : Bool
  msgs : List MMsg
  ev : List MEv
  out : Bytes

/-- main.c:84, 181, 200: `if ((infile != stdin) && fclose(infile)) warnp("fclose")`: the event and the message. -/
def closeInput (env : MainEnv) (infilename : Option CStr) : List MEv × List MMsg :=
  match infilename with
  | none => ([], [])
  | some _ => ([.closeIn env.fcloseIn], if env.fcloseIn then [] else [.diag (.warnp "fclose".toList)])

/-- main.c:183: `if ((outfile != stdout) && fclose(outfile)) warnp("fclose")` -/
def closeOutput (env : MainEnv) (opened : Bool) : List MEv × List MMsg :=
  if opened then ([.closeOut env.fcloseOut], if env.fcloseOut then [] else [.diag (.warnp "fclose".toList)]) else ([], [])

/-- main.c:75, 129: standard input, or what is left of it, as the input file. -/
def stdinFile (env : MainEnv) (s : Strm) : Option InFile :=
  if s.tail = .wait then none else some ⟨env.cut s.data, s.tail = .err⟩

/-- main.c:68-76, 122-130: opening the input; `none`: goto err0.  The inner option: standard input. -/
def openInput (env : MainEnv) (infilename : Option CStr) : Option (Option InFile) :=
  match infilename with
  | none => some none
  | some n => (env.openIn n).map some

/-- main.c:70, 124: the event of that. -/
def openInputEv (env : MainEnv) (infilename : Option CStr) : List MEv :=
  match infilename with
  | none => []
  | some n => [.openIn n (env.openIn n).isSome]

/-- main.c:71, 125: the message of a failed fopen for input. -/
def cannotOpenIn (infilename : Option CStr) : MMsg :=
  .diag (.warnp ("Cannot open input file: ".toList ++ infilename.getD []))

/-- main.c:78-93: printing the parameters, after the input was opened. -/
def infoRun (env : MainEnv) (infilename : Option CStr) (inf : InFile) : Res ModeOut :=
  scryptdec_file_printparams env.sys.par.disp env.sys.header0 inf >>= fun r =>
    let c := closeInput env infilename
    let ev := openInputEv env infilename ++ c.1
    if r.1 ≠ .OK then
      scryptenc_print_error r.1.num infilename none >>= fun d => .ok ⟨false, .diag d :: c.2, ev, []⟩
    else .ok ⟨true, (msgOf r.2.1).map .lib ++ c.2, ev, []⟩

/-- main.c:62-97 `scrypt_mode_info` -/
def scrypt_mode_info (env : MainEnv) (infilename : Option CStr) : Res (Option ModeOut) :=
  match openInput env infilename with
  | none => .ok (some ⟨false, [cannotOpenIn infilename], openInputEv env infilename, []⟩)
  | some f =>
    match f.orElse fun _ => stdinFile env env.pe.rp.stdin with
    | none => .ok none
    | some inf => infoRun env infilename inf >>= fun o => .ok (some o)

/-- main.c:172-193, from the label cleanup on; `ev`, `msgs`: so far, `cookie`: is there one, `opened`: was an output file opened. -/
def encDecCleanup (env : MainEnv) (infilename outfilename : Option CStr) (ev : List MEv) (msgs : List MMsg) (cookie opened : Bool) (rc : Code)
    (out : Bytes) : Res ModeOut :=
  let ev := ev ++ (if cookie then scryptdec_file_cookie_free.map .key else []) ++ [.zeroPass, .freePass]
  let c := closeInput env infilename
  let d := closeOutput env opened
  let ev := ev ++ c.1 ++ d.1
  let msgs := msgs ++ c.2 ++ d.2
  if rc ≠ .OK then
    scryptenc_print_error rc.num infilename outfilename >>= fun m => .ok ⟨false, msgs ++ [.diag m], ev, out⟩
  else .ok ⟨true, msgs, ev, out⟩

/-- main.c:157-163: opening the output file; `none`: goto err2. -/
def openOutput (env : MainEnv) (outfilename : Option CStr) : Option OutFile :=
  match outfilename with
  | none => some ⟨[], env.stdoutRoom⟩
  | some n => (env.openOut n).map fun room => ⟨[], room⟩

/-- main.c:159: the event of that. -/
def openOutputEv (env : MainEnv) (outfilename : Option CStr) : List MEv :=
  match outfilename with
  | none => []
  | some n => [.openOut n (env.openOut n).isSome]

/-- main.c:159, `fopen(outfilename, "wb")`: what opening the output leaves of the input. -/
def truncated (env : MainEnv) (outfilename : Option CStr) (inf : InFile) : InFile :=
  match outfilename with
  | none => inf
  | some n => env.trunc n inf

/-- main.c:160-162, 195-201: the output file cannot be opened. -/
def encDecErr2 (env : MainEnv) (infilename outfilename : Option CStr) (ev : List MEv) (msgs : List MMsg) (cookie : Bool) : ModeOut :=
  let c := closeInput env infilename
  ⟨false, msgs ++ [.diag (.warnp ("Cannot open output file: ".toList ++ outfilename.getD []))] ++ c.2,
    ev ++ openOutputEv env outfilename ++ (if cookie then scryptdec_file_cookie_free.map .key else []) ++ [.zeroPass, .freePass] ++ c.1, []⟩

/-- main.c:149-170, decryption: the header, the output file, the data. -/
def decRun (env : MainEnv) (P : EncParams) (verbose force : Bool) (infilename outfilename : Option CStr) (inf : InFile) (passwd : Bytes)
    (ev : List MEv) : Res ModeOut :=
  scryptdec_file_prep env.sys inf passwd P verbose force >>= fun p =>
    let ev := ev ++ p.tr.map .key
    let msgs := p.err.map .lib
    if p.rc ≠ .OK then encDecCleanup env infilename outfilename ev msgs false false p.rc []
    else
      match openOutput env outfilename with
      | none => .ok (encDecErr2 env infilename outfilename ev msgs true)
      | some outf =>
        match p.cookie with
        | none => .ub
        | some c =>
          scryptdec_file_copy env.sys { c with inf := truncated env outfilename c.inf } outf >>= fun o =>
            encDecCleanup env infilename outfilename (ev ++ openOutputEv env outfilename ++ o.tr.map .key) msgs true outfilename.isSome o.rc
              o.outf.written

/-- main.c:157-170, encryption: the output file, the data. -/
def encRun (env : MainEnv) (P : EncParams) (verbose force : Bool) (infilename outfilename : Option CStr) (inf : InFile) (passwd : Bytes)
    (ev : List MEv) : Res ModeOut :=
  match openOutput env outfilename with
  | none => .ok (encDecErr2 env infilename outfilename ev [] false)
  | some outf =>
    scryptenc_file env.sys (truncated env outfilename inf) outf passwd P verbose force >>= fun o =>
      encDecCleanup env infilename outfilename (ev ++ openOutputEv env outfilename ++ o.tr.map .key) (o.err.map .lib) false outfilename.isSome o.rc
        o.outf.written

/-- main.c:110-205 `scrypt_mode_enc_dec` -/
def scrypt_mode_enc_dec (env : MainEnv) (P : EncParams) (entry : PassEntry) (arg : CStr) (dec verbose force : Bool)
    (infilename outfilename : Option CStr) : Res (Option ModeOut) :=
  match openInput env infilename with
  | none => .ok (some ⟨false, [cannotOpenIn infilename], openInputEv env infilename, []⟩)
  | some f =>
    passphrase_entry_readpass env.pe entry arg dec >>= fun r =>
    match r with
    | none => .ok none
    | some o =>
      match o.passwd with
      | none =>
        let c := closeInput env infilename
        .ok (some ⟨false, .diag (.warnp "passphrase_entry_readpass".toList) :: c.2, openInputEv env infilename ++ c.1, []⟩)
      | some pw =>
        match f.orElse fun _ => stdinFile env o.stdin with
        | none => .ok none
        | some inf =>
          (if dec then decRun env P verbose force infilename outfilename inf pw (openInputEv env infilename ++ [.gotPass])
           else encRun env P verbose force infilename outfilename inf pw (openInputEv env infilename ++ [.gotPass])) >>= fun o => .ok (some o)

/-! ### The command line -/

/-- The labels of the GETOPT_SWITCH (main.c:260-325), by line number relative to the switch. -/
def mainTable : GoTable :=
  ⟨[(1, .opt "-f".toList), (4, .optarg "--logN".toList), (7, .optarg "-M".toList), (18, .optarg "-m".toList), (24, .optarg "-p".toList),
    (27, .optarg "--passphrase".toList), (39, .optarg "-r".toList), (42, .optarg "-t".toList), (48, .opt "-v".toList), (51, .opt "-P".toList),
    (60, .missing)], 63⟩

/-- The variables set by the options. [The local variables of main.c:223-234] -/
structure Settings where
  force : Bool
  verbose : Bool
  P : EncParams
  entry : PassEntry
  arg : CStr

/-- Leaving the option loop: exit(1) after these messages, or undefined behaviour / abort in humansize_parse. [The calls of exit and usage in main.c:259-326] -/
inductive Halt
  | exit (msgs : List MMsg)
  | ub
  | abort

/-- main.c:208-218 `GETOPT_PARSENUM_WITHIN_UNSIGNED` -/
def optNum (t : IntTy) (ch a : CStr) (min max : Nat) : Except Halt Int :=
  match PARSENUM_int t a min max with
  | .ok v => .ok v
  | .error .ERANGE => .error (.exit [.diag (.warn0 (ch ++ " must be between ".toList ++ fmtD min ++ " and ".toList ++ fmtD max ++ " (inclusive)".toList))])
  | .error .EINVAL => .error (.exit [.diag (.warnp ("Invalid option: ".toList ++ ch ++ " ".toList ++ a))])

/-- main.c:278-283, 302-307 -/
def optFlt (sd : Strtod) (ch a : CStr) (max : F64) : Except Halt F64 :=
  match PARSENUM_flt sd a (.fin false 0) max with
  | .ok v => .ok v
  | .error _ => .error (.exit [.diag (.warnp ("Invalid option: ".toList ++ ch ++ " ".toList ++ a))])

/-- main.c:267-277 -/
def optM (szMax : Nat) (a : CStr) : Except Halt Nat :=
  match humansize_parse a with
  | .ub => .error .ub
  | .abort => .error .abort
  | .ok none => .error (.exit [.diag (.warn0 "Could not parse the parameter to -M.".toList)])
  | .ok (some v) => if v > szMax then .error (.exit [.diag (.warn0 "The parameter to -M is too large.".toList)]) else .ok v

/-- main.c:288-292, 312-316: a second passphrase method. -/
def onlyOnePass : Halt := .exit [.diag (.warn0 "You can only enter one --passphrase or -P argument".toList)]

/-- main.c:287-298, 311-319 -/
def optPass (s : Settings) (new : Option CStr) : Except Halt Settings :=
  if s.entry ≠ .unset then .error onlyOnePass
  else
    match new with
    | none => .ok { s with entry := .stdinOnce, arg := [] }
    | some a =>
      match passphrase_entry_parse a with
      | none => .error (.exit [.diag (.warn0 ("Invalid option: --passphrase ".toList ++ a))])
      | some (m, x) => .ok { s with entry := m, arg := x }

/-- main.c:261-325: the cases of the switch. -/
def optCase (sd : Strtod) (szMax : Nat) (s : Settings) : SwEv → Except Halt Settings
  | .opt ch =>
    if ch = "-f".toList then .ok { s with force := true }
    else if ch = "-v".toList then .ok { s with verbose := true }
    else if ch = "-P".toList then optPass s none
    else .error .ub
  | .optarg ch a =>
    if ch = "--logN".toList then (optNum tyInt ch a 10 40).map fun v => { s with P := { s.P with logN := v } }
    else if ch = "-M".toList then (optM szMax a).map fun v => { s with P := { s.P with maxmem := v } }
    else if ch = "-m".toList then (optFlt sd ch a (.fin false (1 / 2))).map fun v => { s with P := { s.P with maxmemfrac := v } }
    else if ch = "-p".toList then (optNum tyU32 ch a 1 2048).map fun v => { s with P := { s.P with p := BitVec.ofInt 32 v } }
    else if ch = "--passphrase".toList then optPass s (some a)
    else if ch = "-r".toList then (optNum tyU32 ch a 1 32).map fun v => { s with P := { s.P with r := BitVec.ofInt 32 v } }
    else if ch = "-t".toList then (optFlt sd ch a (.inf false)).map fun v => { s with P := { s.P with maxtime := v } }
    else .error .ub
  | .missing ch => .error (.exit [.diag (.warn0 ("Missing argument to ".toList ++ ch)), .usage])
  | .dflt ch => .error (.exit [.diag (.warn0 ("illegal option -- ".toList ++ ch)), .usage])

/-- main.c:381-399: the end of main. -/
def finish (r : Res (Option ModeOut)) : Res (Option MainOut) :=
  r >>= fun o => .ok (o.map fun m => ⟨if m.ok then 0 else 1, m.msgs, [], m.ev, m.out⟩)

/-- main.c:335-347: which of the three messages about explicit parameters, if any. -/
def explicitMsg (P : EncParams) : Option CStr :=
  if P.logN ≠ 0 ∧ (P.r = 0 ∨ P.p = 0) then some "If --logN is set, -r and -p must also be set".toList
  else if P.r ≠ 0 ∧ (P.logN = 0 ∨ P.p = 0) then some "If -r is set, --logN and -p must also be set".toList
  else if P.p ≠ 0 ∧ (P.logN = 0 ∨ P.r = 0) then some "If -p is set, --logN and -r must also be set".toList
  else none

/-- main.c:350: `x == 0.0` -/
def F64.isZero : F64 → Bool
  | .fin _ m => m = 0
  | _ => false

/-- main.c:373-399: the input must not be standard input if the passphrase is, then the operation. -/
def dispatch (env : MainEnv) (dec info : Bool) (s : Settings) (infilename outfilename : Option CStr) : Res (Option MainOut) :=
  if s.entry = .stdinOnce ∧ infilename = none then
    .ok (some (dieWith [.diag (.warn0 "Cannot read both passphrase and input file from standard input".toList)]))
  else if info then finish (scrypt_mode_info env infilename)
  else finish (scrypt_mode_enc_dec env s.P s.entry s.arg dec s.verbose s.force infilename outfilename)

/-- main.c:328-399: after the options; `ops` are the operands. -/
def afterOptions (env : MainEnv) (dec info : Bool) (s : Settings) (ops : List CStr) : Res (Option MainOut) :=
  match ops with
  | [] => .ok (some (dieWith [.usage]))
  | i :: rest =>
    if rest.length > 1 then .ok (some (dieWith [.usage]))
    else
      match explicitMsg s.P with
      | some t => .ok (some (dieWith [.diag (.warn0 t)]))
      | none =>
        if s.P.maxmemfrac.isZero then .ok (some (dieWith [.diag (.warn0 "-m must be greater than 0".toList)]))
        else
          dispatch env dec info (if s.entry = .unset then { s with entry := .ttyStdin, arg := [] } else s)
            (if i = "-".toList then none else some i) rest.head?

/-- main.c:258-399: the options and the rest, once the operation is known.  `args`: argv after `argv++`. -/
def withMode (env : MainEnv) (dec info : Bool) (P : EncParams) (args : List CStr) : Res (Option MainOut) :=
  getoptLoop env.mallocOk mainTable args (optCase env.sd env.sys.par.szMax) ((args.map (·.length + 1)).sum + 2)
      ⟨false, false, P, .unset, []⟩ goInitial >>= fun r =>
    match r with
    | none => .ok none
    | some (.error (.exit m), _) => .ok (some (dieWith m))
    | some (.error .ub, _) => .ub
    | some (.error .abort, _) => .abort
    | some (.ok s, st) => afterOptions env dec info s (args.drop st.optind)

/-- main.c:220-400 `main` (WARNP_INIT only sets the program name in messages).  `fuel` for the option loop is the number of characters. -/
def scryptMain (env : MainEnv) (argv : List CStr) : Res (Option MainOut) :=
  match argv with
  | _ :: m :: rest =>
    if m = "enc".toList then withMode env false false ⟨0, .fin false (1 / 8), .fin false 5, 0, 0, 0⟩ (m :: rest)
    else if m = "dec".toList then withMode env true false ⟨0, .fin false (1 / 2), .fin false 300, 0, 0, 0⟩ (m :: rest)
    else if m = "info".toList then withMode env false true ⟨0, .fin false (1 / 2), .fin false 300, 0, 0, 0⟩ (m :: rest)
    else if m = "--version".toList then .ok (some ⟨0, [], "scrypt ".toList ++ env.version ++ ['\n'], [], []⟩)
    else .ok (some (dieWith [.diag (.warn0 "First argument must be 'enc', 'dec', or 'info'.".toList), .usage]))
  | _ => .ok (some (dieWith [.usage]))

end Scrypt
