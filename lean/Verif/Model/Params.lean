import Verif.Model.Cpuperf
import Verif.Model.Humansize
/-
Model of the parameter code of lib/scryptenc/scryptenc.c: display_params, pickparams, checkparams.
-/
namespace Scrypt

/-- What the system contributes to display_params: whether each of the two `asprintf` calls inside
humansize can allocate, and how printf renders a double with `%.1f`. [The calls at scryptenc.c:77-78] -/
structure DispEnv where
  asprintf1 : Bool
  asprintf2 : Bool
  fmt1f : F64 → CStr

/-- `fprintf("%s", s)`: a NULL argument is undefined behaviour. [C library; used at scryptenc.c:85-88] -/
def fmtS (s : Option CStr) : Res CStr :=
  match s with
  | none => .ub
  | some t => .ok t

/-- scryptenc.c:88-89: the "available" part, printed only for `memlimit > 0`. -/
def dispAvail (memlimit : Nat) (human : Option CStr) : Res CStr :=
  if memlimit > 0 then do
    let s ← fmtS human
    .ok (" (".toList ++ s ++ " available)".toList)
  else .ok []

/-- scryptenc.c:92-94: the CPU time part, printed only for `opps > 0`. -/
def dispTime (env : DispEnv) (opps expected maxtime : F64) : CStr :=
  if F64.lt (F64.ofNat 0) opps then
    ",\n    and will take approximately ".toList ++ env.fmt1f expected ++
      " seconds (limit: ".toList ++ env.fmt1f maxtime ++ " seconds)".toList
  else []

/-- scryptenc.c:70-99 `display_params`: the text written to stderr.  `1 << logN` is undefined for
`logN` outside 0..63; `128 * r` is computed in `uint32_t` before being widened. -/
def display_params (env : DispEnv) (logN : Int) (r p : W32) (memlimit : Nat) (opps maxtime : F64) :
    Res CStr :=
  if logN < 0 ∨ 64 ≤ logN then .ub
  else do
    let N : W64 := (1 : W64) <<< logN.toNat
    let memMinimum : W64 := (128 * r).setWidth 64 * N
    let expected := if F64.lt (F64.ofNat 0) opps then
        F64.div (F64.ofNat (4 * N * r.setWidth 64 * p.setWidth 64).toNat) opps else F64.ofNat 0
    let hLimit ← humansize env.asprintf1 (BitVec.ofNat 64 memlimit)
    let hMin ← humansize env.asprintf2 memMinimum
    let sMin ← fmtS hMin
    let sAvail ← dispAvail memlimit hLimit
    .ok ("Parameters used: N = ".toList ++ fmtD N.toNat ++ "; r = ".toList ++ fmtD r.toNat ++
      "; p = ".toList ++ fmtD p.toNat ++ ";\n".toList ++
      "    Decrypting this file requires at least ".toList ++ sMin ++ " of memory".toList ++ sAvail ++
      dispTime env opps expected maxtime ++ ".\n".toList)

/-- The system's answers while parameters are determined: memory queries, the outcome of
scryptenc_cpuperf, and the display environment. [The calls at scryptenc.c:113, 117, 196, 200] -/
structure ParamSys where
  szMax : Nat
  cfg : MemCfg
  mem : MemSys
  perf : Code × F64
  disp : DispEnv

/-- The text printed under `if (verbose)`. [scryptenc.c:168-169, 204-205, 221-222] -/
def verboseText (verbose : Bool) (t : Res CStr) : Res CStr := if verbose then t else .ok []

/-- scryptenc.c:141-150 and 154-158: the loop `for (*logN = 1; *logN < 63; *logN += 1)`, leaving at
the first `logN` with `(double)2^logN > maxN / 2`; `fuel` counts the remaining iterations. -/
def pickLogN (maxN : F64) : Nat → Nat → Nat
  | 0, logN => logN
  | fuel + 1, logN =>
    if F64.lt (F64.div maxN (F64.ofNat 2)) (F64.ofNat (2 ^ logN)) then logN
    else pickLogN maxN fuel (logN + 1)

/-- scryptenc.c:121-123: at least 2^15 salsa20/8 cores. -/
def opsFloor (opslimit : F64) : F64 :=
  if F64.lt opslimit (F64.ofNat 32768) then F64.ofNat 32768 else opslimit

/-- scryptenc.c:163-164: `if (maxrp > 0x3fffffff) maxrp = 0x3fffffff`. -/
def rpCap (maxrp : F64) : F64 :=
  if F64.lt (F64.ofNat 0x3fffffff) maxrp then F64.ofNat 0x3fffffff else maxrp

/-- scryptenc.c:137-166: choose `(logN, p)` for `r = 8`. -/
def pickNP (memlimit : Nat) (opslimit : F64) : Res (Nat × Nat) :=
  if F64.lt opslimit (F64.div (F64.ofNat memlimit) (F64.ofNat 32)) then
    .ok (pickLogN (F64.div opslimit (F64.ofNat (8 * 4))) 62 1, 1)
  else
    let logN := pickLogN (F64.ofNat (memlimit / (8 * 128))) 62 1
    let maxrp := rpCap (F64.div (F64.div opslimit (F64.ofNat 4)) (F64.ofNat (2 ^ logN)))
    do
      let t ← F64.toUnsigned (2 ^ 32 - 1) maxrp
      .ok (logN, t / 8)

/-- Result of pickparams: code, the values stored through the pointers (unless it failed), text
printed. [The results of scryptenc.c:102-173] -/
structure PickOut where
  rc : Code
  val : Option (Nat × Nat × Nat)
  err : CStr

/-- scryptenc.c:101-173 `pickparams` -/
def pickparams (sys : ParamSys) (maxmem : Nat) (maxmemfrac maxtime : F64) (verbose : Bool) :
    Res PickOut := do
  match ← memtouse sys.szMax sys.cfg sys.mem maxmem maxmemfrac with
  | none => .ok ⟨.ELIMIT, none, []⟩
  | some memlimit =>
    if sys.perf.1 ≠ .OK then .ok ⟨sys.perf.1, none, []⟩
    else do
      let opslimit := opsFloor (F64.mul sys.perf.2 maxtime)
      let np ← pickNP memlimit opslimit
      let t ← verboseText verbose (display_params sys.disp np.1 8 (BitVec.ofNat 32 np.2) memlimit
        sys.perf.2 maxtime)
      .ok ⟨.OK, some (np.1, 8, np.2), t⟩

/-- scryptenc.c:207-215: the limit checks, given `memlimit` and `opslimit`. -/
def limitCode (memlimit : Nat) (opslimit : F64) (logN : Nat) (r p : Nat) : Code :=
  let N := 2 ^ logN
  let big := memlimit / N / r < 128
  let slow := F64.lt (F64.div (F64.div (F64.div opslimit (F64.ofNat N)) (F64.ofNat r)) (F64.ofNat p))
    (F64.ofNat 4)
  if big ∧ slow then .EBIGSLOW
  else if big then .ETOOBIG
  else if slow then .ETOOSLOW
  else .OK

/-- scryptenc.c:175-227 `checkparams`: return code and text printed. -/
def checkparams (sys : ParamSys) (maxmem : Nat) (maxmemfrac maxtime : F64) (logN : Int) (r p : W32)
    (verbose force : Bool) : Res (Code × CStr) :=
  if logN < 1 ∨ logN > 63 then .ok (.EINVAL, [])
  else if (r.setWidth 64 * p.setWidth 64 : W64).toNat ≥ 0x40000000 then .ok (.EINVAL, [])
  else if r = 0 ∨ p = 0 then .ok (.EINVAL, [])
  else if force then do
    let t ← verboseText verbose (display_params sys.disp logN r p 0 (F64.ofNat 0) maxtime)
    .ok (.OK, t)
  else do
    match ← memtouse sys.szMax sys.cfg sys.mem maxmem maxmemfrac with
    | none => .ok (.ELIMIT, [])
    | some memlimit =>
      if sys.perf.1 ≠ .OK then .ok (sys.perf.1, [])
      else do
        let t ← verboseText verbose (display_params sys.disp logN r p memlimit sys.perf.2 maxtime)
        .ok (limitCode memlimit (F64.mul sys.perf.2 maxtime) logN.toNat r.toNat p.toNat, t)

end Scrypt
