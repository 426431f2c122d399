import Verif.Model.Main
/-
Which files the utility opens and closes, and when.
-/
namespace Scrypt.Spec
open Scrypt

/-- Opening and closing files, as opposed to what is done to secrets. -/
def MEvFile : MEv → Bool
  | .openIn _ _ => true
  | .openOut _ _ => true
  | .closeIn _ => true
  | .closeOut _ => true
  | _ => false

/-- The named file, if there is one, is opened for reading; the standard stream is not. -/
def opensIn : Option CStr → List MEv
  | none => []
  | some n => [.openIn n true]

/-- The named file, if there is one, is opened for writing. -/
def opensOut : Option CStr → List MEv
  | none => []
  | some n => [.openOut n true]

/-- The input file, if there is one, is closed; `ok`: fclose's verdict. -/
def closesIn (i : Option CStr) (ok : Bool) : List MEv := if i.isSome then [.closeIn ok] else []

/-- The output file, if there is one, is closed. -/
def closesOut (u : Option CStr) (ok : Bool) : List MEv := if u.isSome then [.closeOut ok] else []

/-- `FileLog canRead canWrite i u l`: `l` is a proper history of files, `i` and `u` the names of input and output (`none`: the standard streams): whatever was opened
is closed once, input before output, nothing is closed which was not opened, nothing is opened twice, no other file is opened; and a file is reported as
opened just if it could be. -/
inductive FileLog (canRead canWrite : CStr → Bool) (i u : Option CStr) : List MEv → Prop
  /- The input cannot be opened. -/
  | noInput {n} : i = some n → canRead n = false → FileLog canRead canWrite i u [.openIn n false]
  /- The output is not needed. -/
  | input {ok} : (∀ n ∈ i, canRead n = true) → FileLog canRead canWrite i u (opensIn i ++ closesIn i ok)
  /- The output cannot be opened. -/
  | noOutput {n ok} : (∀ n ∈ i, canRead n = true) → u = some n → canWrite n = false →
      FileLog canRead canWrite i u (opensIn i ++ [.openOut n false] ++ closesIn i ok)
  /- Both are opened. -/
  | both {ok ok'} : (∀ n ∈ i, canRead n = true) → (∀ n ∈ u, canWrite n = true) →
      FileLog canRead canWrite i u (opensIn i ++ opensOut u ++ closesIn i ok ++ closesOut u ok')

end Scrypt.Spec
