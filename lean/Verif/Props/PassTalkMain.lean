import Verif.Props.PassTalk
import Verif.Props.MainEx
/-
C73 for the utility: no passphrase, no operation, and the reason on stderr.
-/
namespace Scrypt.Props
open Scrypt Scrypt.Spec

/-- C73. If the input can be opened but no passphrase is obtained, the utility says why (the complaint of the method, then "passphrase_entry_readpass"), does not touch
the output and exits 1. -/
theorem C73_utility (env : MainEnv) (q : Request) (hq : q.op ≠ .info) (f : Option InFile) (hin : openInput env q.infile = some f) (pe : PeOut)
    (hp : passphrase_entry_readpass env.pe q.method q.methodArg (q.op = .dec) = .ok (some pe)) (hno : pe.passwd = none) :
    (∃ t, MethodTalk env.pe q.method q.methodArg (q.op = .dec) none t ∧ t = pe.said ∧ t ≠ []) ∧
    ∃ o, perform env q = .ok (some o) ∧ o.exit = 1 ∧ o.out = [] ∧ ¬ OpensOut o.ev ∧
      ∃ more, o.msgs = MMsg.diag (.warnp "passphrase_entry_readpass".toList) :: more ∧ ∀ m ∈ more, m = MMsg.diag (.warnp "fclose".toList) := by
  constructor
  · have h1 := C73_method _ _ _ _ _ hp
    rw [hno] at h1
    exact ⟨_, h1, rfl, (C73_reason _ _ _ _ _ hp).1 hno⟩
  have key : ∀ d, (q.op = .dec ↔ d = true) → ∃ o, finish (scrypt_mode_enc_dec env q.params q.method q.methodArg d q.verbose q.force q.infile q.outfile) = .ok (some o) ∧
      o.exit = 1 ∧ o.out = [] ∧ ¬ OpensOut o.ev ∧
      ∃ more, o.msgs = MMsg.diag (.warnp "passphrase_entry_readpass".toList) :: more ∧ ∀ m ∈ more, m = MMsg.diag (.warnp "fclose".toList) := by
    intro d hd
    have hdd : decide (q.op = .dec) = d := by
      cases d with
      | true => exact decide_eq_true (hd.2 rfl)
      | false => exact decide_eq_false (fun h => by cases hd.1 h)
    rw [hdd] at hp
    unfold scrypt_mode_enc_dec
    rw [hin]
    simp only [hp, Res.bind_ok, hno]
    refine ⟨_, rfl, rfl, rfl, ?_, _, rfl, ?_⟩
    · rintro ⟨x, y, hx⟩
      simp only [List.mem_append, openInputEv, closeInput] at hx
      cases hi : q.infile <;> simp [hi] at hx
    · intro m hm
      simp only [closeInput] at hm
      cases hi : q.infile with
      | none => simp [hi] at hm
      | some n => cases hf : env.fcloseIn <;> simp [hi, hf] at hm; exact hm
  unfold perform
  cases hop : q.op with
  | info => exact absurd hop hq
  | enc => exact key false (by rw [hop]; simp)
  | dec => exact key true (by rw [hop]; simp)

/-- Non-vacuity: `scrypt dec --passphrase env:NOPE out back` where the variable is not set. -/
example (sha : ShaHw) (hw : AesHw) (segs : List Bytes) : ∃ o,
    perform (exMain sha hw "out".toList segs) { exRequest2 with methodArg := "NOPE".toList } = .ok (some o) ∧ o.exit = 1 :=
  have h := C73_utility (exMain sha hw "out".toList segs) { exRequest2 with methodArg := "NOPE".toList } (by decide) (some ⟨segs, false⟩) rfl
    ⟨none, exRpQuiet.stdin, .getenv "NOPE".toList, [.warn0 ("Failed to read from ${".toList ++ "NOPE".toList ++ "}".toList)]⟩ rfl rfl
  let ⟨_, o, a, b, _⟩ := h
  ⟨o, a, b⟩

end Scrypt.Props
