import Verif.Model.Entropy
import Verif.Spec.Drbg
/-
What the operating system delivered, and which seedings a history of requests used.
-/
namespace Scrypt.Spec

/-- The successive read(2) answers begin with non-empty chunks which, joined in order, are exactly the
`n` bytes `d`. -/
def Delivered (reads : List (Option Bytes)) (n : Nat) (d : Bytes) : Prop :=
  ∃ (chunks : List Bytes) (rest : List (Option Bytes)), reads = chunks.map some ++ rest ∧ (∀ c ∈ chunks, c ≠ []) ∧ d = chunks.flatten ∧ d.length = n

/-- read(2) never delivers more than was asked for, `n` bytes being wanted in total. -/
def ReadContract : List (Option Bytes) → Nat → Prop
  | some d :: rs, n + 1 => d.length ≤ n + 1 ∧ (d ≠ [] → ReadContract rs (n + 1 - d.length))
  | _, _ => True

/-- The device was opened, gave `n` bytes `d`, and was closed without error (possibly after EINTR). -/
def Obtained (os : EntropyOs) (n : Nat) (d : Bytes) : Prop :=
  os.mallocOk = true ∧ os.openOk = true ∧ Delivered os.reads n d ∧
    ∃ k rest, os.closes = List.replicate k .eintr ++ .ok :: rest

/-- RDRAND output mixed in: eight successful steps on a machine that has the instruction. -/
def RdrandSeed (hasRdrand : Bool) (answers : List (Option W32)) : Option Bytes → Prop
  | some x => hasRdrand = true ∧ ∃ (ws : List W32) (rest : _), answers = ws.map some ++ rest ∧ ws.length = 8 ∧
      x = ws.flatMap fun w => leBytes 4 w.toNat
  | none => ¬ (hasRdrand = true ∧ ∃ (ws : List W32) (rest : _), answers = ws.map some ++ rest ∧ ws.length = 8)

open Scrypt.Spec.Drbg in
/-- `Seedings hw inst es ops`: the successful ones among the attempts `es` to obtain entropy are, in order,
the seedings in `ops` (the first is the instantiation unless `inst`). -/
inductive Seedings (hw : Bool) : Bool → List SeedEnv → List Op → Prop
  | done {inst} : Seedings hw inst [] []
  | failed {inst e es ops} : (¬ ∃ d, Obtained e.os (if inst then 32 else 48) d) → Seedings hw inst es ops →
      Seedings hw inst (e :: es) ops
  | first {e es ops d x} : Obtained e.os 48 d → RdrandSeed hw e.rdrand x → Seedings hw true es ops →
      Seedings hw false (e :: es) (.instantiate d x :: ops)
  | again {e es ops d x} : Obtained e.os 32 d → RdrandSeed hw e.rdrand x → Seedings hw true es ops →
      Seedings hw true (e :: es) (.reseed d x :: ops)
  | served {inst es ops n} : Seedings hw inst es ops → Seedings hw inst es (.generate n :: ops)

/-- The answers of read(2) respect its contract during every seeding attempt of `es`, given whether the generator is
already instantiated (48 bytes are wanted until an attempt succeeds, then 32). -/
def FairSeq : Bool → List SeedEnv → Prop
  | _, [] => True
  | true, e :: es => ReadContract e.os.reads 32 ∧ FairSeq true es
  | false, e :: es => ReadContract e.os.reads 48 ∧ ((∃ d, Obtained e.os 48 d) → FairSeq true es) ∧
      ((¬ ∃ d, Obtained e.os 48 d) → FairSeq false es)

end Scrypt.Spec
