import Verif.Model.Humansize
/-
How a command line is split into options and operands (getopt.h:8-31, the documentation of the parser).
-/
namespace Scrypt.Spec
open Scrypt

/-- What the caller of a getopt loop sees, in order. -/
inductive OptEv
  /-- An option that takes no argument. -/
  | flag (o : CStr)
  /-- An option with its argument. -/
  | arg (o v : CStr)
  /-- An option whose argument is missing. -/
  | missing (o : CStr)
  /-- An unknown option, or an option that takes no argument but was given one with '='. -/
  | bad (o : CStr)
  deriving DecidableEq, Repr

/-- The options: `none` unknown, `some false` takes no argument, `some true` takes an argument. -/
abbrev OptKind := CStr → Option Bool

/-- `Parses kind pend args evs ops`: what is left of a group of one-letter options is `pend` (empty: we are at the start of an argument), the
arguments left are `args`; they mean the options `evs` followed by the operands `ops`. -/
inductive Parses (kind : OptKind) : CStr → List CStr → List OptEv → List CStr → Prop
  /- No arguments left. -/
  | done : Parses kind [] [] [] []
  /- "--" ends the options and is dropped. -/
  | dashdash {rest} : Parses kind [] ("--".toList :: rest) [] rest
  /- "-" is an operand. -/
  | dash {rest} : Parses kind [] ("-".toList :: rest) [] ("-".toList :: rest)
  /- So is the empty string and anything not starting with "-". -/
  | operand {a rest} : a.head? ≠ some '-' → Parses kind [] (a :: rest) [] (a :: rest)
  /- --foo, foo taking no argument. -/
  | longFlag {n rest evs ops} : n ≠ [] → kind ('-' :: '-' :: n) = some false → Parses kind [] rest evs ops →
      Parses kind [] (('-' :: '-' :: n) :: rest) (.flag ('-' :: '-' :: n) :: evs) ops
  /- --foo bar -/
  | longArg {n v rest evs ops} : n ≠ [] → kind ('-' :: '-' :: n) = some true → Parses kind [] rest evs ops →
      Parses kind [] (('-' :: '-' :: n) :: v :: rest) (.arg ('-' :: '-' :: n) v :: evs) ops
  /- --foo, the argument missing -/
  | longMissing {n} : n ≠ [] → kind ('-' :: '-' :: n) = some true →
      Parses kind [] [('-' :: '-' :: n)] [.missing ('-' :: '-' :: n)] []
  /- --foo=bar -/
  | longEq {n v rest evs ops} : n ≠ [] → kind ('-' :: '-' :: n) = some true → Parses kind [] rest evs ops →
      Parses kind [] (('-' :: '-' :: n ++ '=' :: v) :: rest) (.arg ('-' :: '-' :: n) v :: evs) ops
  /- --foo=bar, foo taking no argument -/
  | longBadEq {n v rest evs ops} : n ≠ [] → kind ('-' :: '-' :: n) = some false → Parses kind [] rest evs ops →
      Parses kind [] (('-' :: '-' :: n ++ '=' :: v) :: rest) (.bad ('-' :: '-' :: n) :: evs) ops
  /- --foo or --foo=bar, unknown -/
  | longBad {n rest evs ops} : n ≠ [] → kind ('-' :: '-' :: n) = none → (∀ m v, n = m ++ '=' :: v → kind ('-' :: '-' :: m) = none) →
      Parses kind [] rest evs ops → Parses kind [] (('-' :: '-' :: n) :: rest) (.bad ('-' :: '-' :: n) :: evs) ops
  /- A group of one-letter options starts. -/
  | group {c cs rest evs ops} : c ≠ '-' → Parses kind (c :: cs) rest evs ops → Parses kind [] (('-' :: c :: cs) :: rest) evs ops
  /- A letter taking no argument -/
  | shortFlag {c cs rest evs ops} : kind ['-', c] = some false → Parses kind cs rest evs ops →
      Parses kind (c :: cs) rest (.flag ['-', c] :: evs) ops
  /- -xbar -/
  | shortPacked {c d cs rest evs ops} : kind ['-', c] = some true → Parses kind [] rest evs ops →
      Parses kind (c :: d :: cs) rest (.arg ['-', c] (d :: cs) :: evs) ops
  /- -x bar -/
  | shortArg {c v rest evs ops} : kind ['-', c] = some true → Parses kind [] rest evs ops →
      Parses kind [c] (v :: rest) (.arg ['-', c] v :: evs) ops
  /- -x, the argument missing -/
  | shortMissing {c} : kind ['-', c] = some true → Parses kind [c] [] [.missing ['-', c]] []
  /- An unknown letter -/
  | shortBad {c cs rest evs ops} : kind ['-', c] = none → Parses kind cs rest evs ops →
      Parses kind (c :: cs) rest (.bad ['-', c] :: evs) ops

end Scrypt.Spec
