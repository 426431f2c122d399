import Verif.Model.Getopt
import Verif.Spec.Getopt
/-
What a program may write between GETOPT_SWITCH and GETOPT_DEFAULT, and the messages getopt prints.
-/
namespace Scrypt.Spec
open Scrypt

/-- "-X", X not a dash, or "--foo". -/
def OptShape (o : CStr) : Prop := (∃ c, c ≠ '-' ∧ o = ['-', c]) ∨ ∃ n, n ≠ [] ∧ o = '-' :: '-' :: n

/-- Given on a command line, `new` would be taken for `old`: it is `old`, or `old=` and something. -/
def TakenFor (old new : CStr) : Prop := new = old ∨ ∃ v, new = old ++ '=' :: v

/-- The option a label stands for. -/
def optionOf : GoLbl → Option CStr
  | .opt o => some o
  | .optarg o => some o
  | .missing => none

/-- A usable switch: every option has the right shape, none can be taken for one further up. -/
def GoodSwitch (labels : List (Nat × GoLbl)) : Prop :=
  (∀ p ∈ labels, ∀ o ∈ optionOf p.2, OptShape o) ∧ labels.Pairwise fun p q => ∀ o ∈ optionOf p.2, ∀ o' ∈ optionOf q.2, ¬ TakenFor o o'

/-- What the compiler sees to: labels are on different lines, given in order, all before GETOPT_DEFAULT; string literals contain no NUL. -/
def Compiles (t : GoTable) : Prop :=
  t.labels.Pairwise (fun p q => p.1 < q.1) ∧ (∀ p ∈ t.labels, p.1 < t.dflt) ∧ ∀ p ∈ t.labels, ∀ o ∈ optionOf p.2, '\x00' ∉ o

/-- The name a program is called by, without the directory. -/
def Basename (path name : CStr) : Prop := '/' ∉ name ∧ (path = name ∨ ∃ dir, path = dir ++ '/' :: name)

/-- What getopt says about one item of the command line: `name: option requires an argument -- o`, `name: unknown option -- o` or
`name: option doesn't take an argument -- o`. -/
def getoptSays (kind : OptKind) (name : CStr) : OptEv → List (Option CStr × OptWarn)
  | .missing o => [(some name, .needsArg o)]
  | .bad o => [(some name, if kind o = none then .unknown o else .noArg o)]
  | _ => []

end Scrypt.Spec
