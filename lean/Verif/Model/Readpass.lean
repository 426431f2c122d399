import Verif.Model.Humansize
/-
Model of libcperciva/util/readpass.c, readpass_file.c and lib/util/passphrase_entry.c.

A stream is the bytes that arrive on it plus how they end: end of file, a read error, or nothing more so far (then a
reader that needs more is still waiting: outcome `none`).  Passphrases are byte strings; buffers are bounds-checked.
-/
namespace Scrypt

/-- How the bytes of a stream end. [The `FILE *` of readpass.c:72, readpass_file.c:23] -/
inductive Tail
  | eof | err | wait
  deriving DecidableEq, Repr

/-- An input stream opened for reading characters. [The `FILE *` of readpass.c:72, readpass_file.c:23] -/
structure Strm where
  data : Bytes
  tail : Tail

/-- LF and CR. [readpass.c:166, readpass_file.c:56] -/
def LF : Byte := 0x0a
/-- readpass.c:166, readpass_file.c:56. -/
def CR : Byte := 0x0d

/-- The bytes fgets takes when it may store `n`: up to and including the first newline. [C library; called at readpass.c:139, 151, readpass_file.c:33] -/
def fgetsChunk : Nat → Bytes → Bytes
  | 0, _ => []
  | _ + 1, [] => []
  | n + 1, c :: cs => if c = LF then [c] else c :: fgetsChunk n cs

/-- Outcome of fgets: a line, NULL at end of file, NULL after an error, or still waiting. [C library; called at readpass.c:139, 151, readpass_file.c:33] -/
inductive Fgets
  | line (l : Bytes) (rest : Strm)
  | eof
  | err
  | wait

/-- `fgets(buf, size, f)` (C library): stops after a newline or `size - 1` bytes; otherwise the stream ended. [Called at readpass.c:139, 151, readpass_file.c:33] -/
def fgets (size : Nat) (f : Strm) : Fgets :=
  let c := fgetsChunk (size - 1) f.data
  if c.length = size - 1 ∨ LF ∈ c then .line c ⟨f.data.drop c.length, f.tail⟩
  else
    match f.tail with
    | .eof => if c = [] then .eof else .line c ⟨[], .eof⟩
    | .err => .err
    | .wait => .wait

/-- The C string in a buffer: the bytes before the first NUL (reading past the end is undefined). [As read by strcspn, strcmp and strdup at readpass.c:158-180] -/
def cstr (buf : Bytes) : Res Bytes :=
  if (0 : Byte) ∈ buf then .ok (buf.takeWhile (· ≠ 0)) else .ub

/-- What fgets stores: the line and a NUL. [Called at readpass.c:139, 151, readpass_file.c:33] -/
def storeLine (buf l : Bytes) : Res Bytes := wrSlice buf 0 (l ++ [0])

/-- readpass.c:12, readpass_file.c:10: the size of the buffers. -/
def MAXPASSLEN : Nat := 2048

/-- `passbuf[strcspn(passbuf, "\r\n")] = '\0'` (readpass.c:166, readpass_file.c:56). -/
def truncateAtEol (buf : Bytes) : Res Bytes := do
  let s ← cstr buf
  wr buf (s.takeWhile (fun c => c ≠ CR ∧ c ≠ LF)).length 0

/-- The nine signals of `badsigs` (readpass.c:15-19): SIGALRM, SIGHUP, SIGINT, SIGPIPE, SIGQUIT, SIGTERM, SIGTSTP,
SIGTTIN, SIGTTOU. -/
abbrev Sig := Fin 9

/-- A message on stderr; `warnp` adds the text of errno. [The calls of warnp and warn0 at readpass.c:94-208, readpass_file.c:28-72, passphrase_entry.c:96-111] -/
inductive RpMsg
  | warnp (t : CStr)
  | warn0 (t : CStr)
  deriving DecidableEq, Repr

/-- What `readpass` does to the terminal, the signal handlers and the streams, and the signals that arrive. [Observation of readpass.c:113-215] -/
inductive RpEv
  | install (s : Sig) | restore (s : Sig) | raise (s : Sig)
  | tcget (ok : Bool) | echoOff (ok : Bool) | echoOn (flush : Bool)
  | prompt | confirmPrompt | read | mismatch | close
  /-- a complaint on stderr -/
  | say (m : RpMsg)
  /-- a signal arrives: `handle` runs -/
  | caught (s : Sig)
  /-- a signal arrives while our handler is not installed -/
  | other (s : Sig)
  deriving DecidableEq, Repr

/-- Machine state: number of actions so far, trace, which handlers are installed, `gotsig`. [readpass.c:30, 75 (`gotsig`, `savedsa`) and ghost state] -/
structure RpSt where
  t : Nat
  tr : List RpEv
  inst : Sig → Bool
  got : Sig → Bool

/-- A signal arrives; `handle` (readpass.c:33-38) sets gotsig if it is the handler. -/
def deliver1 (s : RpSt) (g : Sig) : RpSt :=
  if s.inst g then { s with got := fun x => if x = g then true else s.got x, tr := s.tr ++ [.caught g] }
  else { s with tr := s.tr ++ [.other g] }

/-- Effect of an action on the installed handlers. [The calls of sigaction at readpass.c:47-48, 116-117] -/
def applyEv (inst : Sig → Bool) : RpEv → Sig → Bool
  | .install g => fun x => if x = g then true else inst x
  | .restore g => fun x => if x = g then false else inst x
  | _ => inst

/-- One action, preceded by the arrival of the signals `arr t`. [One call or assignment in readpass.c:103-215] -/
def act (arr : Nat → List Sig) (s : RpSt) (ev : RpEv) : RpSt :=
  let s := (arr s.t).foldl deliver1 s
  { s with t := s.t + 1, tr := s.tr ++ [ev], inst := applyEv s.inst ev }

/-- Several actions. [Several in readpass.c:103-215] -/
def acts (arr : Nat → List Sig) (s : RpSt) (evs : List RpEv) : RpSt := evs.foldl (act arr) s

/-- All signals, in the order of `badsigs`. [readpass.c:15-19] -/
def badsigs : List Sig := [0, 1, 2, 3, 4, 5, 6, 7, 8]

/-- readpass.c:50-54, the second loop of resetsigs: one action per signal received. -/
def raiseLoop (arr : Nat → List Sig) : List Sig → RpSt → RpSt
  | [], s => s
  | g :: gs, s => raiseLoop arr gs (if s.got g then act arr s (.raise g) else s)

/-- readpass.c:41-55 `resetsigs` -/
def resetsigs (arr : Nat → List Sig) (s : RpSt) : RpSt :=
  raiseLoop arr badsigs (acts arr s (badsigs.map .restore))

/-- The environment of one `readpass` call. [The calls in readpass.c:81-215] -/
structure RpEnv where
  /-- fopen("/dev/tty", "r") -/
  tty : Option Strm
  stdin : Strm
  /-- isatty on the stream read from (first: /dev/tty, second: stdin) -/
  isattyTty : Bool
  isattyStdin : Bool
  tcgetOk : Bool
  tcsetOk : Bool
  strdupOk : Bool
  /-- fclose of /dev/tty succeeds -/
  fcloseOk : Bool
  /-- signals arriving before the n-th action -/
  arr : Nat → List Sig
  /-- uninitialized stack contents -/
  stk1 : Nat → Byte
  stk2 : Nat → Byte

/-- Outcome of `readpass`: the passphrase (`none`: -1 returned), what is left of stdin, the trace, the installed
handlers, and the final contents of the two stack buffers. [The results of readpass.c:69-219] -/
structure RpOut where
  passwd : Option Bytes
  stdin : Strm
  st : RpSt
  passbuf : Bytes
  confpassbuf : Bytes

/-- What a call of `readpass` has come to: blocked in fgets, or returned. [The results of readpass.c:69-219] -/
inductive RpRes
  | waiting (st : RpSt)
  | returned (o : RpOut)

/-- Outcome of the reading part (readpass.c:133-163). -/
inductive RpRead
  /-- both buffers and the rest of the stream -/
  | done (passbuf confpassbuf : Bytes) (rest : Strm) (s : RpSt)
  /-- fgets returned NULL -/
  | failed (passbuf confpassbuf : Bytes) (s : RpSt)
  /-- fgets has not returned yet -/
  | waiting (s : RpSt)

/-- readpass.c:133-163, from `retry:` on.  `confirm`: confirmprompt != NULL. -/
def retryLoop (arr : Nat → List Sig) (usingtty confirm : Bool) (passbuf confpassbuf : Bytes) (f : Strm) (s : RpSt) : Res RpRead :=
  let s := if usingtty then act arr s .prompt else s
  let s := act arr s .read
  match fgets MAXPASSLEN f with
  | .wait => .ok (.waiting s)
  | .eof => .ok (.failed passbuf confpassbuf (act arr s (.say (.warn0 "EOF reading password".toList))))
  | .err => .ok (.failed passbuf confpassbuf (act arr s (.say (.warnp "Cannot read password".toList))))
  | .line l f1 =>
    storeLine passbuf l >>= fun passbuf =>
    if !confirm then .ok (.done passbuf confpassbuf f1 s)
    else
      let s := if usingtty then act arr s .confirmPrompt else s
      let s := act arr s .read
      match fgets MAXPASSLEN f1 with
      | .wait => .ok (.waiting s)
      | .eof => .ok (.failed passbuf confpassbuf (act arr s (.say (.warn0 "EOF reading password".toList))))
      | .err => .ok (.failed passbuf confpassbuf (act arr s (.say (.warnp "Cannot read password".toList))))
      | .line l2 f2 =>
        storeLine confpassbuf l2 >>= fun confpassbuf =>
        cstr passbuf >>= fun a => cstr confpassbuf >>= fun b =>
        if a ≠ b then
          -- an empty chunk cannot occur; the test makes termination evident
          if _h : f2.data.length < f.data.length then
            retryLoop arr usingtty confirm passbuf confpassbuf f2 (act arr s .mismatch)
          else .ub
        else .ok (.done passbuf confpassbuf f2 s)
termination_by f.data.length

/-- `insecure_memzero(buf, MAXPASSLEN)` [readpass.c:195-196, 214-215, readpass_file.c:65, 75] -/
def zeroBuf (buf : Bytes) : Res Bytes := wrSlice buf 0 (List.replicate MAXPASSLEN 0)

/-- readpass.c:80-101: the stream to read from; `none`: failure.  The Boolean: it is /dev/tty (opened here). -/
def chooseStream (env : RpEnv) (devtty : Nat) : Option (Strm × Bool) :=
  match devtty with
  | 0 => some (env.stdin, false)
  | 1 => match env.tty with
    | some f => some (f, true)
    | none => some (env.stdin, false)
  | 2 => env.tty.map (·, true)
  | _ => none

/-- readpass.c:212-218, the label err1 (zero the buffers) and the failure return. -/
def rpErr1 (stdin : Strm) (s : RpSt) (passbuf confpassbuf : Bytes) : Res RpRes :=
  zeroBuf passbuf >>= fun p => zeroBuf confpassbuf >>= fun c => .ok (.returned ⟨none, stdin, s, p, c⟩)

/-- readpass.c:176-177, 207-208: `if ((readfrom != stdin) && fclose(readfrom)) warnp("fclose");` -/
def closeTty (env : RpEnv) (opened : Bool) (s : RpSt) : RpSt :=
  if opened then
    let s := act env.arr s .close
    if env.fcloseOk then s else act env.arr s (.say (.warnp "fclose".toList))
  else s

/-- readpass.c:205-211, the label err2. -/
def rpErr2 (env : RpEnv) (opened : Bool) (stdin : Strm) (s : RpSt) (passbuf confpassbuf : Bytes) : Res RpRes :=
  let s := closeTty env opened s
  rpErr1 stdin (resetsigs env.arr s) passbuf confpassbuf

/-- readpass.c:119-131: disabling echo; `none`: goto err2. -/
def disableEcho (env : RpEnv) (usingtty : Bool) (s : RpSt) : RpSt × Bool :=
  if usingtty then
    let s := act env.arr s (.tcget env.tcgetOk)
    if env.tcgetOk then
      let s := act env.arr s (.echoOff env.tcsetOk)
      (if env.tcsetOk then s else act env.arr s (.say (.warnp "Cannot set terminal settings".toList)), env.tcsetOk)
    else (act env.arr s (.say (.warnp "Cannot read terminal settings".toList)), false)
  else (s, true)

/-- readpass.c:165-199: the password was read (and confirmed). -/
def rpFinish (env : RpEnv) (usingtty opened : Bool) (stdin : Strm) (s : RpSt) (passbuf confpassbuf : Bytes) : Res RpRes :=
  truncateAtEol passbuf >>= fun passbuf =>
  let s := if usingtty then act env.arr s (.echoOn false) else s
  let s := resetsigs env.arr s
  let s := closeTty env opened s
  cstr passbuf >>= fun pw =>
  if env.strdupOk then
    zeroBuf passbuf >>= fun p => zeroBuf confpassbuf >>= fun c => .ok (.returned ⟨some pw, stdin, s, p, c⟩)
  else rpErr1 stdin (act env.arr s (.say (.warnp "Cannot allocate memory".toList))) passbuf confpassbuf

/-- readpass.c:94, 99: why no stream could be chosen. -/
def noStreamMsg (devtty : Nat) : RpMsg :=
  if devtty = 2 then .warnp "fopen(/dev/tty)".toList
  else .warn0 ("readpass does not support devtty=".toList ++ (toString devtty).toList)

/-- readpass.c:68-219 `readpass` -/
def readpass (env : RpEnv) (confirm : Bool) (devtty : Nat) : Res RpRes :=
  let passbuf := (List.range MAXPASSLEN).map env.stk1
  let confpassbuf := (List.range MAXPASSLEN).map env.stk2
  let s : RpSt := ⟨0, [], fun _ => false, fun _ => false⟩
  match chooseStream env devtty with
  | none => rpErr1 env.stdin (act env.arr s (.say (noStreamMsg devtty))) passbuf confpassbuf
  | some (f, opened) =>
    let s := acts env.arr s (badsigs.map .install)
    let usingtty := if opened then env.isattyTty else env.isattyStdin
    match disableEcho env usingtty s with
    | (s, false) => rpErr2 env opened env.stdin s passbuf confpassbuf
    | (s, true) =>
      retryLoop env.arr usingtty confirm passbuf confpassbuf f s >>= fun r =>
        match r with
        | .waiting s => .ok (.waiting s)
        | .failed p c s =>
          let s := if usingtty then act env.arr s (.echoOn true) else s
          rpErr2 env opened (if opened then env.stdin else ⟨[], env.stdin.tail⟩) s p c
        | .done p c rest s => rpFinish env usingtty opened (if opened then env.stdin else rest) s p c

/-! ### Passphrase from a file -/

/-- Environment of `readpass_file`: the file (`none`: fopen fails), the results of fclose and strdup. [The calls in readpass_file.c:27-72] -/
structure RfEnv where
  file : Option Strm
  fcloseOk : Bool
  strdupOk : Bool
  stk : Nat → Byte

/-- Outcome of `readpass_file`: the passphrase (`none`: -1), the final contents of the stack buffer, the complaints. [The results of readpass_file.c:20-79] -/
structure RfOut where
  passwd : Option Bytes
  passbuf : Bytes
  said : List RpMsg

/-- readpass_file.c:73-78, label err1: the buffer is zeroed, failure. -/
def rfFail (said : List RpMsg) (passbuf : Bytes) : Res (Option RfOut) :=
  zeroBuf passbuf >>= fun p => .ok (some ⟨none, p, said⟩)

/-- readpass_file.c:70-78, label err2: the file is closed first. -/
def rfErr2 (env : RfEnv) (why : RpMsg) (passbuf : Bytes) : Res (Option RfOut) :=
  rfFail (why :: if env.fcloseOk then [] else [.warnp "fclose".toList]) passbuf

/-- readpass_file.c:43-68, after the line was read. -/
def rfRest (env : RfEnv) (filename : CStr) (passbuf : Bytes) (rest : Strm) : Res (Option RfOut) :=
  -- fgetc returns EOF at the end of the file and also after a read error
  if rest.data ≠ [] then rfErr2 env (.warn0 ("line too long, or more than 1 line in ".toList ++ filename)) passbuf
  else if rest.tail = .wait then .ok none
  else if !env.fcloseOk then rfFail [.warnp ("fclose(".toList ++ filename ++ ")".toList)] passbuf
  else
    truncateAtEol passbuf >>= fun passbuf =>
    cstr passbuf >>= fun pw =>
    if env.strdupOk then zeroBuf passbuf >>= fun p => .ok (some ⟨some pw, p, []⟩)
    else rfFail [.warnp "Cannot allocate memory".toList] passbuf

/-- readpass_file.c:20-79 `readpass_file`; `none`: blocked in a read. -/
def readpass_file (env : RfEnv) (filename : CStr) : Res (Option RfOut) :=
  let passbuf := (List.range MAXPASSLEN).map env.stk
  match env.file with
  | none => rfFail [.warnp ("fopen(".toList ++ filename ++ ")".toList)] passbuf
  | some f =>
    match fgets MAXPASSLEN f with
    | .wait => .ok none
    | .err => rfErr2 env (.warnp ("fread(".toList ++ filename ++ ")".toList)) passbuf
    | .eof => wr passbuf 0 0 >>= fun passbuf => rfRest env filename passbuf ⟨[], .eof⟩
    | .line l rest => storeLine passbuf l >>= fun passbuf => rfRest env filename passbuf rest

/-! ### Choosing the method -/

/-- passphrase_entry.h:5-12, `enum passphrase_entry` -/
inductive PassEntry
  | unset | ttyStdin | stdinOnce | ttyOnce | env | file
  deriving DecidableEq, Repr

/-- `strncmp(s, p, strlen(p)) == 0` [C library; passphrase_entry.c:26, 40, 44] -/
def hasPrefix (s p : CStr) : Bool := s.take p.length == p

/-- passphrase_entry.c:12-58 `passphrase_entry_parse`: the method and the argument, or `none` for -1. -/
def passphrase_entry_parse (arg : CStr) : Option (PassEntry × CStr) :=
  if ':' ∉ arg then none
  else
    let a := (arg.dropWhile (· ≠ ':')).drop 1
    if hasPrefix arg "dev:".toList ∧ a = "tty-stdin".toList then some (.ttyStdin, a)
    else if hasPrefix arg "dev:".toList ∧ a = "stdin-once".toList then some (.stdinOnce, a)
    else if hasPrefix arg "dev:".toList ∧ a = "tty-once".toList then some (.ttyOnce, a)
    else if hasPrefix arg "env:".toList then some (.env, a)
    else if hasPrefix arg "file:".toList then some (.file, a)
    else none

/-- Environment of `passphrase_entry_readpass`: that of `readpass`, the environment variables, the files. [The calls in passphrase_entry.c:77-116] -/
structure PeEnv where
  rp : RpEnv
  getenv : CStr → Option Bytes
  strdupOk : Bool
  rf : CStr → RfEnv

/-- Where a passphrase came from / what was done to get it. [passphrase_entry.c:77-116] -/
inductive PeCall
  | readpass (confirm : Bool) (devtty : Nat)
  | getenv (name : CStr)
  | readFile (name : CStr)
  | nothing
  deriving DecidableEq

/-- Outcome: the passphrase (`none`: -1), what is left of stdin, which source was consulted, the complaints on stderr. [The results of passphrase_entry.c:71-121] -/
structure PeOut where
  passwd : Option Bytes
  stdin : Strm
  call : PeCall
  said : List RpMsg

/-- The complaints in a trace. [Observation of readpass.c:80-208] -/
def saysOf (tr : List RpEv) : List RpMsg := tr.filterMap fun e => match e with | .say m => some m | _ => none

/-- The result of `readpass` as seen by its caller. [passphrase_entry.c:80, 85, 90] -/
def peReadpass (env : PeEnv) (confirm : Bool) (devtty : Nat) : Res (Option PeOut) :=
  readpass env.rp confirm devtty >>= fun r =>
    match r with
    | .waiting _ => .ok none
    | .returned r => .ok (some ⟨r.passwd, r.stdin, .readpass confirm devtty, saysOf r.st.tr⟩)

/-- passphrase_entry.c:70-121 `passphrase_entry_readpass` -/
def passphrase_entry_readpass (env : PeEnv) (m : PassEntry) (arg : CStr) (once : Bool) : Res (Option PeOut) :=
  match m with
  | .ttyStdin => peReadpass env (!once) 1
  | .stdinOnce => peReadpass env false 0
  | .ttyOnce => peReadpass env false 2
  | .env =>
    match env.getenv arg with
    | none => .ok (some ⟨none, env.rp.stdin, .getenv arg, [.warn0 ("Failed to read from ${".toList ++ arg ++ "}".toList)]⟩)
    | some v =>
      if env.strdupOk then .ok (some ⟨some v, env.rp.stdin, .getenv arg, []⟩)
      else .ok (some ⟨none, env.rp.stdin, .getenv arg, [.warnp "Out of memory".toList]⟩)
  | .file =>
    readpass_file (env.rf arg) arg >>= fun r => .ok (r.map fun r => ⟨r.passwd, env.rp.stdin, .readFile arg, r.said⟩)
  | .unset => .ok (some ⟨none, env.rp.stdin, .nothing, [.warn0 "Programming error: passphrase_entry is not set".toList]⟩)

end Scrypt
