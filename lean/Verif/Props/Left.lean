import Verif.Spec.Left
import Verif.Props.Readpass
import Verif.Props.MainEx
/-
C38: what is left of standard input, and what is encrypted if the input is standard input.
-/
namespace Scrypt.Props
open Scrypt Spec

theorem peReadpass_left {env : PeEnv} {confirm : Bool} {d : Nat} {o : PeOut} (h : peReadpass env confirm d = .ok (some o)) {p : Bytes}
    (hp : o.passwd = some p) : ∃ f op rest, Source env.rp d f op ∧ Entered confirm f p rest ∧ o.stdin = if op then env.rp.stdin else rest := by
  unfold peReadpass at h
  obtain ⟨r, hr, h⟩ := (Res.bind_eq_ok ..).1 h
  cases r with
  | waiting s => cases h
  | returned r =>
    cases h
    exact C36_stdin env.rp confirm d r hr p hp

/-- **C38.**  Obtaining a passphrase takes from standard input the lines on which it was typed there, and nothing else. -/
theorem C38_stdin (env : PeEnv) (m : PassEntry) (arg : CStr) (once : Bool) (o : PeOut) (h : passphrase_entry_readpass env m arg once = .ok (some o))
    (p : Bytes) (hp : o.passwd = some p) : LeavesStdin env m once p o.stdin := by
  cases m with
  | unset => cases h; cases hp
  | env =>
    unfold passphrase_entry_readpass at h
    cases hg : env.getenv arg with
    | none => rw [hg] at h; cases h; cases hp
    | some v =>
      rw [hg] at h
      dsimp only at h
      split at h
      · cases h; exact .env
      · cases h; cases hp
  | file =>
    unfold passphrase_entry_readpass at h
    obtain ⟨r, -, h⟩ := (Res.bind_eq_ok ..).1 h
    cases r with
    | none => cases h
    | some r => cases h; exact .file
  | ttyOnce =>
    obtain ⟨f, op, rest, s, -, e⟩ := peReadpass_left h hp
    cases s with
    | ttyOnly ht => rw [e]; exact .ttyOnce
  | ttyStdin =>
    obtain ⟨f, op, rest, s, en, e⟩ := peReadpass_left h hp
    cases s with
    | tty ht => rw [e]; exact .tty ht
    | noTty ht => rw [e]; exact .noTty ht en
  | stdinOnce =>
    obtain ⟨f, op, rest, s, en, e⟩ := peReadpass_left h hp
    cases s with
    | stdin => rw [e]; exact .stdinOnce en

/-- **C38.**  If the utility takes its input from standard input, it works on what is left there. -/
theorem C38_data (env : MainEnv) (q : Request) (passwd : Bytes) (inf : InFile) (h : Session env q passwd inf) (hq : q.infile = none) :
    ∃ left, LeavesStdin env.pe q.method (q.op = .dec) passwd left ∧ inf = ⟨env.cut left.data, left.tail = .err⟩ := by
  obtain ⟨pe, h1, h2, h3⟩ := h
  refine ⟨pe.stdin, C38_stdin _ _ _ _ _ h1 _ h2, ?_⟩
  cases h3 with
  | file a _ => rw [hq] at a; cases a
  | stdin _ _ => rfl

/-- Non-vacuity: no terminal; `scrypt dec - back` takes `hunter2` from standard input and decrypts the byte that follows it. -/
theorem exLeft (sha : ShaHw) (hw : AesHw) : let env := { exMain sha hw "in".toList [] with pe := { (exMain sha hw "in".toList []).pe with rp := exRp } }
    let q := { exRequest2 with method := .ttyStdin, infile := none }
    Session env q [0x68, 0x75, 0x6e, 0x74, 0x65, 0x72, 0x32] ⟨[[0x41]], false⟩ ∧
    ∃ left, LeavesStdin env.pe q.method (q.op = .dec) [0x68, 0x75, 0x6e, 0x74, 0x65, 0x72, 0x32] left ∧ left.data = [0x41] := by
  intro env q
  have hr : (match readpass exRp false 1 with | .ok (.returned o) => some (o.passwd, o.stdin.data, o.stdin.tail) | _ => none) =
      some (some [0x68, 0x75, 0x6e, 0x74, 0x65, 0x72, 0x32], [0x41], .eof) := by decide +kernel
  obtain ⟨r, h1⟩ := C36_defined exRp false 1
  rw [h1] at hr
  cases r with
  | waiting s => cases hr
  | returned o =>
    have e1 : o.passwd = some [0x68, 0x75, 0x6e, 0x74, 0x65, 0x72, 0x32] := congrArg Prod.fst (Option.some.inj hr)
    have e2 : o.stdin.data = [0x41] := congrArg (·.2.1) (Option.some.inj hr)
    have e3 : o.stdin.tail = .eof := congrArg (·.2.2) (Option.some.inj hr)
    have hpe : passphrase_entry_readpass env.pe .ttyStdin q.methodArg true = .ok (some ⟨o.passwd, o.stdin, .readpass false 1, saysOf o.st.tr⟩) := by
      show peReadpass _ false 1 = _
      unfold peReadpass
      rw [show env.pe.rp = exRp from rfl, h1]
      rfl
    have hl := C38_stdin env.pe .ttyStdin q.methodArg true _ hpe _ e1
    refine ⟨⟨_, hpe, e1, ?_⟩, _, hl, e2⟩
    have hin : Input env q o.stdin ⟨env.cut o.stdin.data, o.stdin.tail = .err⟩ := .stdin rfl (by rw [e3]; decide)
    rw [e2, e3] at hin
    exact hin

end Scrypt.Props
