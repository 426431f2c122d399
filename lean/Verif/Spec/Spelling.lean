import Verif.Spec.CommandLine
/-
The ways to write the same options on the command line of the scrypt utility (getopt.h:8-31 and the conventions of POSIX).
-/
namespace Scrypt.Spec
open Scrypt

/-- One option written in the plainest way: `-x`, `-x ARG` or `--foo ARG`. -/
inductive OneOption : CStr → List CStr → Prop
  | flag {c} : scryptOptions ['-', c] = some false → OneOption ['-', c] [['-', c]]
  | arg {o v} : scryptOptions o = some true → OneOption o [o, v]

/-- Two lists of arguments (what follows the name of the operation) that say the same. -/
inductive SameOptions : List CStr → List CStr → Prop
  /-- `-x ARG`, `-xARG` -/
  | joined {c v rest} : scryptOptions ['-', c] = some true → v ≠ [] → SameOptions (['-', c] :: v :: rest) (('-' :: c :: v) :: rest)
  /-- `--foo ARG`, `--foo=ARG` -/
  | equals {n v rest} : scryptOptions ('-' :: '-' :: n) = some true →
      SameOptions (('-' :: '-' :: n) :: v :: rest) (('-' :: '-' :: n ++ '=' :: v) :: rest)
  /-- `-x -yz…`, `-xyz…` -/
  | grouped {c cs rest} : scryptOptions ['-', c] = some false → cs ≠ [] → cs.head? ≠ some '-' →
      SameOptions (['-', c] :: ('-' :: cs) :: rest) (('-' :: c :: cs) :: rest)
  /-- `FILE…`, `-- FILE…` -/
  | ended {a rest} : a.head? ≠ some '-' ∨ a = "-".toList → SameOptions (a :: rest) ("--".toList :: a :: rest)
  /-- Different options in either order -/
  | swap {o o' w w' rest} : OneOption o w → OneOption o' w' → o ≠ o' → SameOptions (w ++ w' ++ rest) (w' ++ w ++ rest)
  /-- `-f` or `-v` once or several times -/
  | twice {o rest} : o = "-f".toList ∨ o = "-v".toList → SameOptions (o :: o :: rest) (o :: rest)
  /-- anywhere after other options -/
  | after {o w rest rest'} : OneOption o w → SameOptions rest rest' → SameOptions (w ++ rest) (w ++ rest')
  | refl {rest} : SameOptions rest rest
  | symm {rest rest'} : SameOptions rest rest' → SameOptions rest' rest
  | trans {a b c} : SameOptions a b → SameOptions b c → SameOptions a c

/-- The argument `v` of the option `o` is one the option accepts. -/
def Accepts (sd : Strtod) (szMax : Nat) (o v : CStr) : Prop :=
  (o = "-M".toList ∧ ∃ n, MemText szMax v n) ∨
  (o = "-m".toList ∧ ∃ x, FloatText sd (.fin false 0) (.fin false (1 / 2)) v x) ∨
  (o = "-t".toList ∧ ∃ x, FloatText sd (.fin false 0) (.inf false) v x) ∨
  (o = "--logN".toList ∧ ∃ n, LogNText v n) ∨
  (o = "-r".toList ∧ ∃ n, CountText 32 v n) ∨
  (o = "-p".toList ∧ ∃ n, CountText 2048 v n)

end Scrypt.Spec
