import Verif.Props.CommandLine
import Verif.Props.Register
/-
C33: a command line for whose table of options there is no memory.
-/
namespace Scrypt.Props
open Scrypt Spec

theorem withMode_no_memory (env : MainEnv) (h : env.mallocOk = false) (dec info : Bool) (P : EncParams) (args : List CStr) :
    withMode env dec info P args = .abort := by
  unfold withMode
  rw [h, C91_no_memory mainTable (by decide) args _ _ goInitial rfl]
  rfl

/-- **C33, memory.**  If there is no memory for the table of options, the program aborts (killed by a signal, no exit status, no file touched)
as soon as the first argument is "enc", "dec" or "info", whatever follows.  All other command lines do not need the table. -/
theorem C33_no_memory (env : MainEnv) (h : env.mallocOk = false) (a0 : CStr) (args : List CStr) :
    ((∃ m ∈ ["enc".toList, "dec".toList, "info".toList], args.head? = some m) → scryptMain env (a0 :: args) = .abort) ∧
    ((¬ ∃ m ∈ ["enc".toList, "dec".toList, "info".toList], args.head? = some m) →
      scryptMain env (a0 :: args) = scryptMain { env with mallocOk := true } (a0 :: args)) := by
  cases args with
  | nil =>
    refine ⟨?_, fun _ => rfl⟩
    rintro ⟨m, -, hm⟩
    cases hm
  | cons m rest =>
    simp only [List.head?_cons, Option.some.injEq, List.mem_cons, List.not_mem_nil, or_false]
    unfold scryptMain
    dsimp only
    constructor
    · rintro ⟨m', hm, rfl⟩
      rcases hm with rfl | rfl | rfl
      · rw [if_pos rfl, withMode_no_memory env h]
      · rw [if_neg (by decide), if_pos rfl, withMode_no_memory env h]
      · rw [if_neg (by decide), if_neg (by decide), if_pos rfl, withMode_no_memory env h]
    · intro hno
      have h1 : m ≠ "enc".toList := fun h => hno ⟨m, .inl h, rfl⟩
      have h2 : m ≠ "dec".toList := fun h => hno ⟨m, .inr (.inl h), rfl⟩
      have h3 : m ≠ "info".toList := fun h => hno ⟨m, .inr (.inr h), rfl⟩
      rw [if_neg h1, if_neg h2, if_neg h3, if_neg h1, if_neg h2, if_neg h3]

/-- An environment without memory, and one of the command lines. -/
example (env : MainEnv) : scryptMain { env with mallocOk := false } ["scrypt".toList, "dec".toList, "file".toList] = .abort :=
  (C33_no_memory _ rfl _ _).1 ⟨"dec".toList, by decide, rfl⟩

end Scrypt.Props
