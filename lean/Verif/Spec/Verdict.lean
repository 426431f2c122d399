import Verif.Basic
/-
Decision tables: the result is the code of the first check that fails.
-/
namespace Scrypt.Spec

open scoped Classical in
/-- The code beside the first condition that does not hold, `ok` if all of them hold. -/
noncomputable def firstFail {C : Type} (ok : C) : List (Prop × C) → C
  | [] => ok
  | (c, e) :: rest => if c then firstFail ok rest else e

/-- What happened to one object, in a list of events: never allocated, or allocated, then zeroed, then
freed, and nothing else. -/
def Released {E : Type} (ofObject : List E) (alloc zero free : E) : Prop :=
  ofObject = [] ∨ ofObject = [alloc, zero, free]

end Scrypt.Spec
