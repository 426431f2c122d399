import Verif.Model.Getopt
/-
getopt.c once more, with the memory behind the pointer `opts`: who allocates the table of options, who frees
it, and the handler that runs at exit. `Model/Getopt.lean` has the contents of the table; here it is a block
of memory with an address (numbered in the order of allocation).
-/
namespace Scrypt

/-- The static pointer `opts` and the flag `atexit_registered` (getopt.c:29, 38), the blocks of the allocator
that are in use, how many were ever handed out, and how often the C library has `getopt_atexit` on its list. -/
structure GoHeap where
  opts : Option Nat
  atexit_registered : Bool
  live : List Nat
  made : Nat
  handlers : Nat
  deriving DecidableEq

/-- getopt.c:29, 38: the initial values. -/
def GoHeap.initial : GoHeap := ⟨none, false, [], 0, 0⟩

/-- `free(opts); opts = NULL;` [getopt.c:67-68, 87-88]: freeing a block that is not in use is undefined. -/
def freeOpts (h : GoHeap) : Res GoHeap :=
  match h.opts with
  | none => .ok h
  | some a => if a ∈ h.live then .ok { h with opts := none, live := h.live.erase a } else .ub

/-- getopt.c:64-70 `getopt_atexit` -/
def getopt_atexit (h : GoHeap) : Res GoHeap := freeOpts h

/-- getopt.c:86-94, the part of `reset` that concerns memory. -/
def resetHeap (h : GoHeap) : Res GoHeap := do
  let h ← freeOpts h
  if h.atexit_registered then .ok h else .ok { h with atexit_registered := true, handlers := h.handlers + 1 }

/-- getopt.c:138-257 `getopt`, the table behind its pointer. -/
def getoptH (argv : List CStr) (s : GoSt × GoHeap) : Res (GoRet × GoSt × GoHeap) := do
  let h ← (if s.1.optreset then resetHeap s.2 else .ok s.2 : Res GoHeap)
  let r ← getopt argv s.1
  return (r.1, r.2, h)

/-- getopt.c:351: `opts = malloc(...)`. malloc(0) may give a null pointer (`mallocOk = false`). -/
def mallocOpts (mallocOk : Bool) (h : GoHeap) : GoHeap :=
  if mallocOk then { h with opts := some h.made, live := h.made :: h.live, made := h.made + 1 } else { h with opts := none }

/-- getopt.c:340-366 `getopt_setrange`, the table behind its pointer. -/
def getopt_setrangeH (mallocOk : Bool) (maxopts : Nat) (s : GoSt × GoHeap) : Res (GoSt × GoHeap) := do
  let st ← getopt_setrange mallocOk maxopts s.1
  return (st, mallocOpts mallocOk s.2)

/-- exit(3): the registered handlers run. [The calls of exit in main.c, the return from main; getopt.c:92] -/
def runHandlers : Nat → GoHeap → Res GoHeap
  | 0, h => .ok h
  | n + 1, h => do
    let h ← getopt_atexit h
    runHandlers n h

/-- exit(3), as above. [getopt.c:92] -/
def exitHeap (h : GoHeap) : Res GoHeap := runHandlers h.handlers h

/-! ### Any sequence of calls -/

/-- What a program can do to getopt: the calls of getopt.h, the flag the macros set, and the two variables a
caller may set. [getopt.h:60-75, 96-101, 181-204] -/
inductive GoCall
  | getopt (argv : List CStr)
  | lookup (os : GoRet)
  | registerOpt (os : CStr) (ln : Nat) (hasarg : Bool)
  | registerMissing (ln : Nat)
  | setrange (mallocOk : Bool) (maxopts : Nat)
  | initialized
  | setReset
  | setOpterr (b : Bool)

/-- One call, contents of the table only. [getopt.c:138-366, getopt.h:181-191] -/
def callSt (c : GoCall) (st : GoSt) : Res GoSt :=
  match c with
  | .getopt argv => do let r ← Scrypt.getopt argv st; return r.2
  | .lookup os => do let _ ← getopt_lookup st os; return st
  | .registerOpt os ln hasarg => getopt_register_opt os ln hasarg st
  | .registerMissing ln => getopt_register_missing ln st
  | .setrange ok n => getopt_setrange ok n st
  | .initialized => .ok { st with initialized := true }
  | .setReset => .ok { st with optreset := true }
  | .setOpterr b => .ok { st with opterr := b }

/-- One call with the memory. [getopt.c:138-366, getopt.h:181-191] -/
def callH (c : GoCall) (s : GoSt × GoHeap) : Res (GoSt × GoHeap) :=
  match c with
  | .getopt argv => do let r ← getoptH argv s; return (r.2.1, r.2.2)
  | .setrange ok n => getopt_setrangeH ok n s
  | c => do let st ← callSt c s.1; return (st, s.2)

/-- A sequence of calls, contents only. [getopt.c:138-366, getopt.h:181-191] -/
def callsSt : List GoCall → GoSt → Res GoSt
  | [], st => .ok st
  | c :: cs, st => do let st ← callSt c st; callsSt cs st

/-- A sequence of calls with the memory. [getopt.c:138-366, getopt.h:181-191] -/
def callsH : List GoCall → GoSt × GoHeap → Res (GoSt × GoHeap)
  | [], s => .ok s
  | c :: cs, s => do let s ← callH c s; callsH cs s

/-! ### The loop of getopt.h -/

/-- getopt.h:96-101, 181-191: registration (`switchInit`), with the memory. -/
def switchInitH (mallocOk : Bool) (t : GoTable) (k : Nat) (dm : Bool) (s : GoSt × GoHeap) : Res (GoSt × GoHeap) :=
  if k = t.dflt + 1 then .ok ({ s.1 with initialized := true }, s.2)
  else if t.dflt + 1 < k then .ub
  else
    match (if k = 0 then none else t.at (k - 1)) with
    | some l => registerLbl l (k - 1) s.1 >>= fun st => switchInitH mallocOk t (k + 1) dm (st, s.2)
    | none => (if dm then .ok s else getopt_setrangeH mallocOk t.dflt s) >>= fun s => switchInitH mallocOk t (k + 1) true s
termination_by t.dflt + 1 - k

/-- The loop over the options (`getoptLoop`), with the memory. [main.c:259-326, getopt.h:96-191] -/
def getoptLoopH {σ ε : Type} (mallocOk : Bool) (t : GoTable) (argv : List CStr) (body : σ → SwEv → Except ε σ) :
    Nat → σ → GoSt × GoHeap → Res (Option (Except ε σ × GoSt) × GoHeap)
  | 0, _, h => .ok (none, h.2)
  | fuel + 1, s, h =>
    getoptH argv h >>= fun r =>
    if r.1 = .null then .ok (some (.ok s, r.2.1), r.2.2)
    else if r.2.1.initialized then
      getopt_lookup r.2.1 r.1 >>= fun v =>
      switchJump t v r.1.str r.2.1 >>= fun e =>
      match e with
      | none => getoptLoopH mallocOk t argv body fuel s r.2
      | some e =>
        match body s e with
        | .error x => .ok (some (.error x, r.2.1), r.2.2)
        | .ok s' => getoptLoopH mallocOk t argv body fuel s' r.2
    else
      switchInitH mallocOk t 0 false r.2 >>= fun st => getoptLoopH mallocOk t argv body fuel s st

/-- One parse of a command line by a program. [What a caller of getopt.h supplies; main.c:259-326] -/
structure ParseJob (σ ε : Type) where
  mallocOk : Bool
  t : GoTable
  argv : List CStr
  body : σ → SwEv → Except ε σ
  start : σ
  fuel : Nat

/-- Parses one after the other, optreset being set before each, each ending at the last option or left in the
middle; contents only. `none`: still running. [getopt.h:64-75] -/
def parses {σ ε : Type} : List (ParseJob σ ε) → GoSt → Res (Option GoSt)
  | [], st => .ok (some st)
  | j :: js, st =>
    getoptLoop j.mallocOk j.t j.argv j.body j.fuel j.start { st with optreset := true } >>= fun r =>
    match r with
    | none => .ok none
    | some (_, st) => parses js st

/-- The same with the memory, which is also reported for a parse still running. [getopt.h:64-75] -/
def parsesH {σ ε : Type} : List (ParseJob σ ε) → GoSt × GoHeap → Res (Option GoSt × GoHeap)
  | [], s => .ok (some s.1, s.2)
  | j :: js, s =>
    getoptLoopH j.mallocOk j.t j.argv j.body j.fuel j.start ({ s.1 with optreset := true }, s.2) >>= fun r =>
    match r.1 with
    | none => .ok (none, r.2)
    | some (_, st) => parsesH js (st, r.2)

end Scrypt
