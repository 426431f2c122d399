import Verif.Spec.Getopt
import Verif.Spec.Number
import Verif.Spec.Humansize
import Verif.Spec.Readpass
/-
The command line of the scrypt utility (scrypt.1, and the usage message): which command lines are accepted and what
they ask for.
-/
namespace Scrypt.Spec
open Scrypt

/-- The three operations. -/
inductive Operation
  | enc | dec | info
  deriving DecidableEq, Repr

/-- Their names on the command line. -/
def Operation.name : Operation → CStr
  | .enc => "enc".toList
  | .dec => "dec".toList
  | .info => "info".toList

/-- The options, and whether they take an argument. -/
def scryptOptions : OptKind := fun o =>
  if o ∈ ["-f".toList, "-v".toList, "-P".toList] then some false
  else if o ∈ ["--logN".toList, "-M".toList, "-m".toList, "-p".toList, "--passphrase".toList, "-r".toList, "-t".toList] then some true
  else none

/-- What is to be done.  `infile = none`: standard input, `outfile = none`: standard output; `logN = r = p = 0`: the parameters are to
be chosen (or taken from the input). -/
structure Request where
  op : Operation
  force : Bool
  verbose : Bool
  maxmem : Nat
  maxmemfrac : F64
  maxtime : F64
  logN : Nat
  r : Nat
  p : Nat
  method : PassEntry
  methodArg : CStr
  infile : Option CStr
  outfile : Option CStr

/-- The arguments given to option `o`, in order. -/
def valuesOf (o : CStr) (evs : List OptEv) : List CStr :=
  evs.filterMap fun e => match e with | .arg o' v => if o' = o then some v else none | _ => none

/-- The option `o` sets `x`: every argument given to it must be valid, the last one counts; without any, the default. -/
def Sets {α : Type} (o : CStr) (evs : List OptEv) (Val : CStr → α → Prop) (dflt x : α) : Prop :=
  (∀ v ∈ valuesOf o evs, ∃ y, Val v y) ∧
    match (valuesOf o evs).getLast? with
    | none => x = dflt
    | some v => Val v x

/-- The argument of --logN: a number from 10 to 40. -/
def LogNText (v : CStr) (n : Nat) : Prop := Numeral 0 v false n ∧ 10 ≤ n ∧ n ≤ 40

/-- The argument of -r and -p: a number from 1 to `hi`.  Finding F4: a negative number is taken modulo 2^64. -/
def CountText (hi : Nat) (v : CStr) (n : Nat) : Prop :=
  1 ≤ n ∧ n ≤ hi ∧ ∃ neg m, Numeral 0 v neg m ∧ m < 2 ^ 64 ∧ n = if neg then (2 ^ 64 - m) % 2 ^ 64 else m

/-- The argument of -M: a size. -/
def MemText (szMax : Nat) (v : CStr) (n : Nat) : Prop := ∃ a k, SizeText v a k ∧ n = a * 1000 ^ k ∧ n ≤ szMax

/-- The argument of -m and -t: strtod takes all of it and reports no range error, and the value is not out of bounds (finding F3: NaN never
is). -/
def FloatText (sd : Strtod) (lo hi : F64) (v : CStr) (x : F64) : Prop :=
  v ≠ [] ∧ sd v = (x, v.length, false) ∧ F64.lt x lo = false ∧ F64.lt hi x = false

/-- The options that choose where the passphrase comes from: `none` for -P, `some v` for --passphrase v. -/
def passOptions (evs : List OptEv) : List (Option CStr) :=
  evs.filterMap fun e => match e with
    | .flag o => if o = "-P".toList then some none else none
    | .arg o v => if o = "--passphrase".toList then some (some v) else none
    | _ => none

/-- Where the passphrase comes from: at most one option may say so; without one, the terminal (or standard input if there is none). -/
inductive PassChoice : List (Option CStr) → PassEntry → CStr → Prop
  | dflt : PassChoice [] .ttyStdin []
  | stdin : PassChoice [none] .stdinOnce []
  | method {v m a} : Method v m a → PassChoice [some v] m a

/-- The default memory fraction and time. -/
def Operation.frac : Operation → F64
  | .enc => .fin false (1 / 8)
  | _ => .fin false (1 / 2)
def Operation.time : Operation → F64
  | .enc => .fin false 5
  | _ => .fin false 300

/-- The options `evs` and operands `ops` after the name of the operation ask for `q`. -/
structure Asks (sd : Strtod) (szMax : Nat) (evs : List OptEv) (ops : List CStr) (q : Request) : Prop where
  /-- no unknown option, no missing argument -/
  known : ∀ e ∈ evs, (∃ o, e = .flag o) ∨ ∃ o v, e = .arg o v
  force : q.force = true ↔ OptEv.flag "-f".toList ∈ evs
  verbose : q.verbose = true ↔ OptEv.flag "-v".toList ∈ evs
  maxmem : Sets "-M".toList evs (MemText szMax) 0 q.maxmem
  maxmemfrac : Sets "-m".toList evs (FloatText sd (.fin false 0) (.fin false (1 / 2))) q.op.frac q.maxmemfrac
  maxtime : Sets "-t".toList evs (FloatText sd (.fin false 0) (.inf false)) q.op.time q.maxtime
  logN : Sets "--logN".toList evs LogNText 0 q.logN
  r : Sets "-r".toList evs (CountText 32) 0 q.r
  p : Sets "-p".toList evs (CountText 2048) 0 q.p
  pass : PassChoice (passOptions evs) q.method q.methodArg
  /-- the explicit parameters: all or none -/
  explicit : (q.logN = 0 ∧ q.r = 0 ∧ q.p = 0) ∨ (q.logN ≠ 0 ∧ q.r ≠ 0 ∧ q.p ≠ 0)
  /-- the memory fraction is not zero -/
  frac : ∀ s, q.maxmemfrac ≠ .fin s 0
  /-- one or two operands -/
  files : ∃ i, (ops = [i] ∧ q.outfile = none ∨ ∃ o, ops = [i, o] ∧ q.outfile = some o) ∧ q.infile = if i = "-".toList then none else some i
  /-- standard input cannot be both -/
  once : ¬ (q.method = .stdinOnce ∧ q.infile = none)

/-- The command line `args` (without the name of the program) asks for `q`. -/
def Requests (sd : Strtod) (szMax : Nat) (args : List CStr) (q : Request) : Prop :=
  ∃ rest evs ops, args = q.op.name :: rest ∧ Parses scryptOptions [] rest evs ops ∧ Asks sd szMax evs ops q

end Scrypt.Spec
