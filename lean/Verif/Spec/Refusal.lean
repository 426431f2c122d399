import Verif.Spec.CommandLine
import Verif.Model.Main
/-
Why a command line is refused: the first thing wrong with it, in the order in which a user reads it, and what is said about it (scrypt.1 names
the options; the texts are those of main.c).
-/
namespace Scrypt.Spec
open Scrypt

/-- A complaint. -/
def complain (t : CStr) : List MMsg := [.diag (.warn0 t)]

/-- A complaint followed by the reason the system gave. -/
def complainErr (t : CStr) : List MMsg := [.diag (.warnp t)]

/-- "Invalid option: -x value" -/
def invalidOption (o v : CStr) : List MMsg := complainErr ("Invalid option: ".toList ++ o ++ " ".toList ++ v)

/-- `v` is not a value (`Val`) for the numeric option `o`: either not a number, or out of range. -/
def BadNumber (o : CStr) (lo hi : CStr) (v : CStr) (Val : Nat → Prop) (m : List MMsg) : Prop :=
  ((¬ ∃ neg n, Numeral 0 v neg n) ∧ m = invalidOption o v) ∨
  ((∃ neg n, Numeral 0 v neg n) ∧ (¬ ∃ n, Val n) ∧
    m = complain (o ++ " must be between ".toList ++ lo ++ " and ".toList ++ hi ++ " (inclusive)".toList))

/-- `v` is not a size, or does not fit. -/
def BadSize (szMax : Nat) (v : CStr) (m : List MMsg) : Prop :=
  ((¬ ∃ a k, SizeText v a k ∧ a * 1000 ^ k < 2 ^ 64) ∧ m = complain "Could not parse the parameter to -M.".toList) ∨
  ((∃ a k, SizeText v a k ∧ a * 1000 ^ k < 2 ^ 64 ∧ szMax < a * 1000 ^ k) ∧ m = complain "The parameter to -M is too large.".toList)

/-- There can be only one source of the passphrase. -/
def onlyOne : List MMsg := complain "You can only enter one --passphrase or -P argument".toList

/-- What is wrong with one option, given the options before it. -/
def Objection (sd : Strtod) (szMax : Nat) (before : List OptEv) : OptEv → List MMsg → Prop
  | .missing o, m => m = complain ("Missing argument to ".toList ++ o) ++ [.usage]
  | .bad o, m => m = complain ("illegal option -- ".toList ++ o) ++ [.usage]
  | .flag o, m => o = "-P".toList ∧ passOptions before ≠ [] ∧ m = onlyOne
  | .arg o v, m =>
    (o = "--logN".toList ∧ BadNumber o "10".toList "40".toList v (LogNText v) m) ∨
    (o = "-M".toList ∧ BadSize szMax v m) ∨
    (o = "-m".toList ∧ (¬ ∃ x, FloatText sd (.fin false 0) (.fin false (1 / 2)) v x) ∧ m = invalidOption o v) ∨
    (o = "-p".toList ∧ BadNumber o "1".toList "2048".toList v (CountText 2048 v) m) ∨
    (o = "--passphrase".toList ∧ ((passOptions before ≠ [] ∧ m = onlyOne) ∨
      (passOptions before = [] ∧ (¬ ∃ e a, Method v e a) ∧ m = complain ("Invalid option: --passphrase ".toList ++ v)))) ∨
    (o = "-r".toList ∧ BadNumber o "1".toList "32".toList v (CountText 32 v) m) ∨
    (o = "-t".toList ∧ (¬ ∃ x, FloatText sd (.fin false 0) (.inf false) v x) ∧ m = invalidOption o v)

/-- No option is objected to. -/
def Unobjected (sd : Strtod) (szMax : Nat) (evs : List OptEv) : Prop :=
  ∀ before e after, evs = before ++ e :: after → ∀ m, ¬ Objection sd szMax before e m

/-- The message of the first condition that does not hold. -/
def FirstOf {α : Type} : List (Prop × α) → α → Prop
  | [], _ => False
  | (ok, m) :: l, x => (¬ ok ∧ x = m) ∨ (ok ∧ FirstOf l x)

/-- The option was given. -/
def Given (evs : List OptEv) (o : CStr) : Prop := valuesOf o evs ≠ []

/-- What is looked at once all options have been read. -/
def lastChecks (sd : Strtod) (evs : List OptEv) (ops : List CStr) : List (Prop × List MMsg) :=
  [(ops.length = 1 ∨ ops.length = 2, [.usage]),
   (Given evs "--logN".toList → Given evs "-r".toList ∧ Given evs "-p".toList, complain "If --logN is set, -r and -p must also be set".toList),
   (Given evs "-r".toList → Given evs "--logN".toList ∧ Given evs "-p".toList, complain "If -r is set, --logN and -p must also be set".toList),
   (Given evs "-p".toList → Given evs "--logN".toList ∧ Given evs "-r".toList, complain "If -p is set, --logN and -r must also be set".toList),
   (¬ ∃ v s, (valuesOf "-m".toList evs).getLast? = some v ∧ sd v = (.fin s 0, v.length, false), complain "-m must be greater than 0".toList),
   (¬ ((∃ a, PassChoice (passOptions evs) .stdinOnce a) ∧ ops.head? = some "-".toList),
     complain "Cannot read both passphrase and input file from standard input".toList)]

/-- `rest`, the command line after the name of the operation, is refused with the messages `m`. -/
def Refusal (sd : Strtod) (szMax : Nat) (rest : List CStr) (m : List MMsg) : Prop :=
  ∃ evs ops, Parses scryptOptions [] rest evs ops ∧
    ((∃ before e after, evs = before ++ e :: after ∧ Unobjected sd szMax before ∧ Objection sd szMax before e m) ∨
     (Unobjected sd szMax evs ∧ FirstOf (lastChecks sd evs ops) m))

end Scrypt.Spec
