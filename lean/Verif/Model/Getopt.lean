import Verif.Model.Humansize
/-
Model of libcperciva/util/getopt.c and of the macros of getopt.h.

A `char *` is the string it points to; a pointer into an argument (packedopts, optarg) is a suffix of it.  Reading at the terminator gives
NUL, reading behind it is undefined.  argv[argc] is NULL, so using it as a string is undefined, too.
Not modelled: the atexit handler that frees `opts`.
-/
namespace Scrypt

/-- getopt.c:25-29 struct opt (a slot in use) -/
structure Opt where
  os : CStr
  olen : Nat
  hasarg : Bool
  deriving DecidableEq

/-- The messages of getopt.c:238, 274, 283. -/
inductive OptWarn
  | unknown (os : CStr) | needsArg (os : CStr) | noArg (os : CStr)
  deriving DecidableEq

/-- getopt.c:8-38, the global variables.  `warned` collects what WARN printed (cmdname: message). -/
structure GoSt where
  optarg : Option CStr
  optind : Nat
  opterr : Bool
  optreset : Bool
  initialized : Bool
  cmdname : Option CStr
  opts : Option (List (Option Opt))
  nopts : Nat
  opt_missing : Nat
  opt_default : Nat
  opt_found : Nat
  packedopts : Option CStr
  warned : List (Option CStr × OptWarn)

/-- What getopt returns. [The results of getopt.c:139-257] -/
inductive GoRet
  | null | dummy | os (s : CStr)
  deriving DecidableEq

/-- s[i] for a string. [C subscripts, e.g. getopt.c:164, 189] -/
def strAt (s : CStr) (i : Nat) : Res Char :=
  if h : i < s.length then .ok s[i] else if i = s.length then .ok '\x00' else .ub

/-- strncmp(a, b, n) == 0. [C library; called at getopt.c:126] -/
def strncmpEq : Nat → CStr → CStr → Bool
  | 0, _, _ => true
  | _ + 1, [], [] => true
  | n + 1, a :: as, b :: bs => a == b && strncmpEq n as bs
  | _, _, _ => false

/-- getopt.c:54-60, WARN -/
def goWarn (w : OptWarn) (st : GoSt) : GoSt :=
  if st.opterr = false then st
  else if st.opt_missing ≠ st.opt_default then st
  else { st with warned := st.warned ++ [(st.cmdname, w)] }

/-- getopt.c:79-82, the loop finding the basename: `q` is cmdname, the second argument what `p` points to. -/
def cmdLoop (q : CStr) : CStr → CStr
  | [] => q
  | c :: cs => cmdLoop (if c = '/' then cs else q) cs

/-- getopt.c:73-111 `reset`.  (size_t)(-1) is 2^64 - 1. -/
def goReset (argv : List CStr) (st : GoSt) : GoSt :=
  { st with
    cmdname := match argv with | [] => st.cmdname | a :: _ => some (cmdLoop a a)
    opts := none
    optind := 1
    packedopts := none
    opt_found := 2 ^ 64 - 1
    initialized := false
    optreset := false }

/-- getopt.c:116-127, the loop of searchopt from slot i on, `n` slots left. -/
def searchLoop (opts : List (Option Opt)) (os : CStr) (dflt : Nat) : Nat → Nat → Res Nat
  | _, 0 => .ok dflt
  | i, n + 1 => do
    match ← rd opts i with
    | none => searchLoop opts os dflt (i + 1) n
    | some o =>
      if strncmpEq o.olen o.os os = false then searchLoop opts os dflt (i + 1) n
      else do
        let c ← strAt os o.olen
        if c = '\x00' ∨ c = '=' then .ok i else searchLoop opts os dflt (i + 1) n

/-- getopt.c:114-136 `searchopt` -/
def searchopt (st : GoSt) (os : CStr) : Res Nat :=
  searchLoop (st.opts.getD []) os st.opt_default 0 st.nopts

/-- getopt.c:162-163: is this argument a group of one-letter options? -/
def startsGroup (a : CStr) : Res Bool := do
  let c ← strAt a 0
  if c = '-' then do
    let d ← strAt a 1
    .ok (d ≠ '-' ∧ d ≠ '\x00')
  else .ok false

/-- getopt.c:158-166: start a group if we are not in one. -/
def goPack (argv : List CStr) (st : GoSt) : Res GoSt :=
  match st.packedopts with
  | some _ => .ok st
  | none => do
    let a ← rd argv st.optind
    if ← startsGroup a then .ok { st with packedopts := some (a.drop 1) } else .ok st

/-- getopt.c:169-185: take one letter from the group; the option string if there is a group. -/
def goShort (st : GoSt) : Res (Option CStr × GoSt) :=
  match st.packedopts with
  | none => .ok (none, st)
  | some p => do
    let c ← strAt p 0
    let d ← strAt p 1
    if d = '\x00' then .ok (some ['-', c], { st with packedopts := none, optind := st.optind + 1 })
    else .ok (some ['-', c], { st with packedopts := some (p.drop 1) })

/-- getopt.c:188-197: dash-dash. -/
def goLong (argv : List CStr) (os : Option CStr) (st : GoSt) : Res (Option CStr × GoSt) :=
  match os with
  | some s => .ok (some s, st)
  | none => do
    let a ← rd argv st.optind
    let c ← strAt a 0
    if c = '-' then do
      let d ← strAt a 1
      if d = '-' then do
        let e ← strAt a 2
        if e ≠ '\x00' then .ok (some a, { st with optind := st.optind + 1 })
        else .ok (none, { st with optind := st.optind + 1 })
      else .ok (none, st)
    else .ok (none, st)

/-- getopt.c:220-224: the rest of the group is the argument. -/
def argPacked (st : GoSt) : GoSt :=
  match st.packedopts with
  | some p => { st with optarg := some p, packedopts := none, optind := st.optind + 1 }
  | none => st

/-- getopt.c:230-231: the text after '=' is the argument. -/
def argEq (o : Opt) (os : CStr) (st : GoSt) : Res GoSt := do
  if (← strAt os o.olen) = '=' then .ok { st with optarg := some (os.drop (o.olen + 1)) } else .ok st

/-- getopt.c:237-238: the next element of argv is the argument. -/
def argNext (argv : List CStr) (st : GoSt) : Res GoSt :=
  if st.optarg = none ∧ st.optind < argv.length then do
    let a ← rd argv st.optind
    .ok { st with optarg := some a, optind := st.optind + 1 }
  else .ok st

/-- getopt.c:241-245: the argument is missing. -/
def argMissing (o : Opt) (st : GoSt) : GoSt :=
  if st.optarg = none then { goWarn (.needsArg o.os) st with opt_found := st.opt_missing } else st

/-- getopt.c:214-246 -/
def goArg (argv : List CStr) (o : Opt) (os : CStr) (st : GoSt) : Res GoSt :=
  argEq o os (argPacked st) >>= fun st => argNext argv st >>= fun st => .ok (argMissing o st)

/-- getopt.c:248-252 -/
def goNoArg (o : Opt) (os : CStr) (st : GoSt) : Res GoSt := do
  if (← strAt os o.olen) = '=' then .ok { goWarn (.noArg o.os) st with opt_found := st.opt_default } else .ok st

/-- getopt.c:203-257, once there is an option string. -/
def goFound (argv : List CStr) (os : CStr) (st : GoSt) : Res (GoRet × GoSt) := do
  let f ← searchopt st os
  let st := { st with opt_found := f }
  if f = st.opt_default then .ok (.os os, goWarn (.unknown os) st)
  else do
    match ← rd (st.opts.getD []) f with
    | none => .ub
    | some o =>
      if o.hasarg then do
        let st ← goArg argv o os st
        .ok (.os o.os, st)
      else do
        let st ← goNoArg o os st
        .ok (.os o.os, st)

/-- getopt.c:138-257 `getopt` -/
def getopt (argv : List CStr) (st : GoSt) : Res (GoRet × GoSt) :=
  let st := { st with optarg := none }
  let st := if st.optreset then goReset argv st else st
  if st.initialized = false then .ok (.dummy, st)
  else if st.optind ≥ argv.length then .ok (.null, st)
  else
    goPack argv st >>= fun st =>
    goShort st >>= fun (os, st) =>
    goLong argv os st >>= fun (os, st) =>
    match os with
    | none => .ok (.null, st)
    | some os => goFound argv os st

/-- getopt.c:290-292: does the option returned match what was found? -/
def lookupOk (st : GoSt) (os : CStr) : Bool :=
  st.opt_found == st.opt_missing || st.opt_found == st.opt_default ||
    (decide (st.opt_found < st.nopts) &&
      match (st.opts.getD [])[st.opt_found]? with
      | some (some o) => o.os == os
      | _ => false)

/-- getopt.c:259-289 `getopt_lookup` -/
def getopt_lookup (st : GoSt) (os : GoRet) : Res Nat :=
  if st.optreset then .abort
  else do
    cassert st.initialized
    match os with
    | .dummy => .abort
    | .null => .ub
    | .os s => do
      cassert (lookupOk st s)
      .ok st.opt_found

/-- getopt.c:315-318: is this "-X" or "--foo"? -/
def optNameBad (os : CStr) : Res Bool := do
  let a ← strAt os 0
  if a ≠ '-' then .ok true
  else do
    let b ← strAt os 1
    if b = '\x00' then .ok true
    else do
      let c ← strAt os 2
      .ok ((b = '-' ∧ c = '\x00') ∨ (b ≠ '-' ∧ c ≠ '\x00'))

/-- getopt.c:291-322 `getopt_register_opt` -/
def getopt_register_opt (os : CStr) (ln : Nat) (hasarg : Bool) (st : GoSt) : Res GoSt :=
  if st.optreset then .abort
  else do
    cassert (st.initialized = false)
    match st.opts with
    | none => .abort
    | some opts => do
      let slot ← rd opts ln
      cassert slot.isNone
      if ← optNameBad os then .abort
      else do
        let f ← searchopt st os
        if f ≠ st.opt_default then .abort
        else do
          let opts ← wr opts ln (some ⟨os, os.length, hasarg⟩)
          .ok { st with opts := some opts }

/-- getopt.c:324-337 `getopt_register_missing` -/
def getopt_register_missing (ln : Nat) (st : GoSt) : Res GoSt :=
  if st.optreset then .abort
  else do
    cassert (st.initialized = false)
    .ok { st with opt_missing := ln }

/-- getopt.c:340-366 `getopt_setrange`.  `mallocOk`: whether the allocation succeeds. -/
def getopt_setrange (mallocOk : Bool) (maxopts : Nat) (st : GoSt) : Res GoSt :=
  if st.optreset then .abort
  else do
    cassert (st.initialized = false)
    if maxopts > 0 ∧ mallocOk = false then .abort
    else .ok { st with opts := some (List.replicate maxopts none), nopts := maxopts, opt_missing := maxopts + 1, opt_default := maxopts + 1 }

/-! ### getopt.h: the loop -/

/-- A label inside GETOPT_SWITCH. [getopt.h:110-186] -/
inductive GoLbl
  | opt (os : CStr) | optarg (os : CStr) | missing
  deriving DecidableEq

/-- The labels of a GETOPT_SWITCH with their line numbers relative to its own, and the line of GETOPT_DEFAULT. [getopt.h:96-186 as used in main.c:259-326] -/
structure GoTable where
  labels : List (Nat × GoLbl)
  dflt : Nat

/-- The label at a line. [The `case` labels, getopt.h:113, 132, 153, 175] -/
def GoTable.at (t : GoTable) (ln : Nat) : Option GoLbl := t.labels.lookup ln

/-- getopt.h:108-165: the registration done at a label. -/
def registerLbl (l : GoLbl) (ln : Nat) (st : GoSt) : Res GoSt :=
  match l with
  | .opt os => getopt_register_opt os ln false st
  | .optarg os => getopt_register_opt os ln true st
  | .missing => getopt_register_missing ln st

/-- getopt.h:181-191: the `default:` label while registering. -/
def defaultInit (mallocOk : Bool) (t : GoTable) (dm : Bool) (st : GoSt) : Res GoSt :=
  if dm then .ok st else getopt_setrange mallocOk t.dflt st

/-- getopt.h:96-101 `GETOPT_SWITCH`, the first time: the value of the switch is getopt_ln_min - 1 + k. -/
def switchInit (mallocOk : Bool) (t : GoTable) (k : Nat) (dm : Bool) (st : GoSt) : Res GoSt :=
  if k = t.dflt + 1 then .ok { st with initialized := true }
  else if t.dflt + 1 < k then .ub
  else
    match (if k = 0 then none else t.at (k - 1)) with
    | some l => registerLbl l (k - 1) st >>= fun st => switchInit mallocOk t (k + 1) dm st
    | none => defaultInit mallocOk t dm st >>= fun st => switchInit mallocOk t (k + 1) true st
termination_by t.dflt + 1 - k

/-- What the body of the switch sees: the label reached, the option string and the argument. [What getopt.h:96-101 selects] -/
inductive SwEv
  | opt (ch : CStr) | optarg (ch a : CStr) | missing (ch : CStr) | dflt (ch : CStr)
  deriving DecidableEq

/-- getopt.h:96-101 `GETOPT_SWITCH` after registration: the label jumped to (`none`: the `case` of GETOPT_DEFAULT itself, which breaks). -/
def switchJump (t : GoTable) (v : Nat) (ch : CStr) (st : GoSt) : Res (Option SwEv) :=
  if v = t.dflt then .ok none
  else match t.at v with
  | some (.opt _) => .ok (some (.opt ch))
  | some (.optarg _) => match st.optarg with | some a => .ok (some (.optarg ch a)) | none => .abort
  | some .missing => .ok (some (.missing ch))
  | none => .ok (some (.dflt ch))

/-- The string a `GoRet` stands for. [getopt.c:139-257] -/
def GoRet.str : GoRet → CStr
  | .null => []
  | .dummy => "(dummy)".toList
  | .os s => s

/-- The loop `while ((ch = GETOPT(argc, argv)) != NULL) GETOPT_SWITCH(ch) { … }` whose body is `body`: it changes the caller's variables or leaves
the loop for good (`Except.error`, e.g. exit).  `fuel` bounds the number of iterations; `none`: still running. [The loop of main.c:259-326] -/
def getoptLoop {σ ε : Type} (mallocOk : Bool) (t : GoTable) (argv : List CStr) (body : σ → SwEv → Except ε σ) :
    Nat → σ → GoSt → Res (Option (Except ε σ × GoSt))
  | 0, _, _ => .ok none
  | fuel + 1, s, st =>
    getopt argv st >>= fun r =>
    if r.1 = .null then .ok (some (.ok s, r.2))
    else if r.2.initialized then
      getopt_lookup r.2 r.1 >>= fun v =>
      switchJump t v r.1.str r.2 >>= fun e =>
      match e with
      | none => getoptLoop mallocOk t argv body fuel s r.2
      | some e =>
        match body s e with
        | .error x => .ok (some (.error x, r.2))
        | .ok s' => getoptLoop mallocOk t argv body fuel s' r.2
    else
      switchInit mallocOk t 0 false r.2 >>= fun st => getoptLoop mallocOk t argv body fuel s st

/-- getopt.c:11-38: the initial values of the global variables (those without initializer are zero). -/
def goInitial : GoSt :=
  { optarg := none, optind := 1, opterr := true, optreset := true, initialized := false, cmdname := none, opts := none, nopts := 0,
    opt_missing := 0, opt_default := 0, opt_found := 0, packedopts := none, warned := [] }

end Scrypt
