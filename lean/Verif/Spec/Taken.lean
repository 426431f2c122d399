import Verif.Spec.Format
/-
How many bytes reading a header takes from a stream.
-/
namespace Scrypt.Spec

open scoped Classical in
/-- Seven bytes if they are not the beginning of a header of version 0, otherwise 96; all there is if there is less. -/
noncomputable def headTaken (D : Bytes) : Nat := if 7 ≤ D.length ∧ ¬ (HasMagic D ∧ VersionOk D) then 7 else min D.length 96

end Scrypt.Spec
