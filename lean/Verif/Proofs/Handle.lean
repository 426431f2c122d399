import Verif.Model.Handle
import Verif.Props.Taken
/-
What a call of scryptdec_file_copy does to the position of the input.
-/
namespace Scrypt
open Spec Props

/-- What a single call leaves. -/
theorem copy_taken {sys : EncSys} {c : Cookie} {outf : OutFile} {q : CopyOut} (h : scryptdec_file_copy sys c outf = .ok q) :
    q.inf.err = c.inf.err ∧ (∃ n, q.inf.data = c.inf.data.drop n) ∧
      (q.rc = .EOPENSSL ∨ q.rc = .ENOMEM → q.inf = c.inf ∧ q.outf = outf) ∧
      (q.rc ≠ .EOPENSSL → q.rc ≠ .ENOMEM → q.rc ≠ .EWRFILE → q.inf.data = []) := by
  unfold scryptdec_file_copy at h
  obtain ⟨k, -, h⟩ := (Res.bind_eq_ok ..).1 h
  obtain ⟨hctx, -, h⟩ := (Res.bind_eq_ok ..).1 h
  obtain ⟨hh, -, h⟩ := (Res.bind_eq_ok ..).1 h
  obtain ⟨hctx1, -, h⟩ := (Res.bind_eq_ok ..).1 h
  obtain ⟨a, ha, h⟩ := (Res.bind_eq_ok ..).1 h
  cases hs : a.1.2 with
  | none =>
    rw [hs] at h
    cases h
    have hne := aesOpen_none ha hs
    refine ⟨rfl, ⟨0, rfl⟩, fun _ => ⟨rfl, rfl⟩, fun e1 e2 _ => ?_⟩
    rcases hne with h | h
    · exact absurd h e1
    · exact absurd h e2
  | some st =>
    rw [hs] at h
    dsimp only at h
    obtain ⟨l, hL, h⟩ := (Res.bind_eq_ok ..).1 h
    obtain ⟨⟨n, n1, n2, n3, n4, n5⟩, hall⟩ := decLoop_taken sys _ _ _ _ _ _ _ _ (by omega) hL
    obtain ⟨q1, q2, q3, q4, q5⟩ := decFileEnd_taken h
    have hqd : q.inf.data = l.inf.flatten := by rw [q1]; rfl
    refine ⟨by rw [q1], ⟨n, ?_⟩, fun h => ?_, fun _ _ h => ?_⟩
    · rw [hqd]; exact n2
    · rcases h with h | h
      · exact absurd h q3
      · exact absurd h q4
    · rw [hqd]; exact hall (q5 h)

/-- The handle of the file `D`, whatever has been read from the input. -/
structure IsHandle (passwd D : Bytes) (c : Cookie) : Prop where
  hdr : c.header = D.take 96
  dk : c.dk = inpKey passwd D
  pos : ∃ n, 96 ≤ n ∧ c.inf.data = D.drop n

/-- The file a call sees when `n` bytes have been taken from the input. -/
abbrev cutFile (D : Bytes) (n : Nat) : Bytes := D.take 96 ++ D.drop n

theorem cutFile_96 (D : Bytes) : cutFile D 96 = D := List.take_append_drop 96 D

theorem inpKey_cut (passwd D : Bytes) (n : Nat) (hD : 96 ≤ D.length) : inpKey passwd (cutFile D n) = inpKey passwd D := by
  rw [← inpKey_take, ← inpKey_take passwd D]
  congr 1
  unfold cutFile
  rw [List.take_append_of_le_length (by rw [List.length_take]; omega), List.take_take, Nat.min_self]

theorem copyVerdict_good {inp : Bytes} {err : Bool} {outf : OutFile} {dk : Bytes} {ac : Code} (h : copyVerdict inp err outf dk ac = .OK) :
    ac = .OK ∧ Fits outf (inp.length - 128) ∧ err = false ∧ 128 ≤ inp.length ∧ TagOk dk inp := by
  unfold copyVerdict at h
  by_cases h1 : ac = .OK
  case neg => rw [if_pos h1] at h; exact absurd h h1
  rw [if_neg (by simp [h1])] at h
  by_cases h2 : Fits outf (inp.length - 128)
  case neg => rw [if_pos h2] at h; cases h
  rw [if_neg (by simp [h2])] at h
  cases err with
  | true => cases h
  | false =>
    rw [if_neg (by simp)] at h
    by_cases h4 : inp.length < 128
    · rw [if_pos h4] at h; cases h
    rw [if_neg h4] at h
    by_cases h5 : TagOk dk inp
    case neg => rw [if_pos h5] at h; cases h
    exact ⟨h1, h2, rfl, by omega, h5⟩

theorem copyVerdict_short {inp : Bytes} {err : Bool} {outf : OutFile} {dk : Bytes} {ac : Code} (h : inp.length < 128) :
    copyVerdict inp err outf dk ac = if ac ≠ .OK then ac else if err then .ERDFILE else .EINVAL := by
  unfold copyVerdict
  have hf : Fits outf (inp.length - 128) := fun k _ => by omega
  rw [if_neg (not_not.2 hf), if_pos h]

/-- A verdict about the file says whether reading failed. -/
theorem copyVerdict_err {inp : Bytes} {err : Bool} {outf : OutFile} {dk : Bytes} {ac : Code} (ha : ac = .OK) (hf : copyVerdict inp err outf dk ac ≠ .EWRFILE) :
    copyVerdict inp err outf dk ac = .ERDFILE ↔ err = true := by
  unfold copyVerdict at hf ⊢
  rw [if_neg (not_not.2 ha)] at hf ⊢
  by_cases h2 : Fits outf (inp.length - 128)
  case neg => rw [if_pos h2] at hf; exact absurd rfl hf
  rw [if_neg (not_not.2 h2)]
  cases err with
  | true => simp
  | false =>
    rw [if_neg (by simp)]
    split
    · simp
    · split <;> simp

/-- What has been written when a call succeeds. -/
theorem copyOut_good {sys : EncSys} {inp dk : Bytes} {outf : OutFile} (ha : aesCode sys = .OK) (hf : Fits outf (inp.length - 128)) :
    (copyOut sys inp outf dk).written = outf.written ++ plaintext dk inp := by
  unfold copyOut
  rw [if_pos ha, fwrite_fits]
  intro k hk
  have := plaintext_length dk inp
  have := hf k hk
  omega

/-- Nothing is written if the file seen has no data. -/
theorem copyOut_short {sys : EncSys} {inp dk : Bytes} {outf : OutFile} (hs : inp.length ≤ 128) : copyOut sys inp outf dk = outf := by
  unfold copyOut
  split
  · rw [List.length_eq_zero_iff.1 (by have := plaintext_length dk inp; omega : (plaintext dk inp).length = 0)]
    obtain ⟨w, r⟩ := outf
    cases r <;> simp [fwrite]
  · rfl

/-- One call in terms of the file it sees. -/
theorem copy_seen {sys : EncSys} (g : sys.Good) {passwd D : Bytes} (hD : D.length < 2 ^ 64) (h96 : 96 ≤ D.length) {c : Cookie}
    (hh : c.header = D.take 96) (hk : c.dk = inpKey passwd D) {n : Nat} (hn : 96 ≤ n) (hp : c.inf.data = D.drop n) (outf : OutFile) :
    ∃ o, scryptdec_file_copy sys c outf = .ok o ∧ o.rc = firstFail .OK (copyChecks sys passwd (cutFile D n) c.inf.err outf) ∧
      o.outf = copyOut sys (cutFile D n) outf (inpKey passwd D) ∧ o.rc = copyVerdict (cutFile D n) c.inf.err outf (inpKey passwd D) (aesCode sys) := by
  have hl : (D.drop n).length = D.length - n := List.length_drop ..
  obtain ⟨o, e, o1, o2, -⟩ := decCopy_ok g c outf (by rw [hh, List.length_take]; omega) (by rw [hk]; exact inpKey_length _ _) (by rw [hp]; omega)
  rw [hh, hk, hp] at o1 o2
  refine ⟨o, e, ?_, o2, o1⟩
  rw [o1, ← copyVerdict_table, inpKey_cut _ _ _ h96]

theorem handle_step {sys : EncSys} {passwd D : Bytes} {c : Cookie} (hc : IsHandle passwd D c) {outf : OutFile} {o : CopyOut}
    (h : scryptdec_file_copy sys c outf = .ok o) : IsHandle passwd D { c with inf := o.inf } := by
  obtain ⟨-, ⟨m, hm⟩, -, -⟩ := copy_taken h
  obtain ⟨n, n1, n2⟩ := hc.pos
  exact ⟨hc.hdr, hc.dk, n + m, by omega, by rw [hm, n2, List.drop_drop]⟩

theorem handle_again {passwd D : Bytes} {c : Cookie} (hc : IsHandle passwd D c) {again : Option InFile} (ha : ∀ f, again = some f → f.data = D.drop 96) :
    IsHandle passwd D { c with inf := again.getD c.inf } := by
  cases again with
  | none => exact hc
  | some f => exact ⟨hc.hdr, hc.dk, 96, le_rfl, ha f rfl⟩

theorem handleCalls_cons (c : Cookie) (k : HandleCall) (ks : List HandleCall) :
    handleCalls c (k :: ks) = scryptdec_file_copy k.sys { c with inf := k.again.getD c.inf } k.outf >>= fun o =>
      handleCalls { c with inf := o.inf } ks >>= fun os => .ok (o :: os) := rfl

/-- Calls one after the other. -/
theorem handleCalls_append (c : Cookie) (a b : List HandleCall) (os : List CopyOut) :
    handleCalls c (a ++ b) = .ok os ↔
      ∃ o1 o2 c', handleCalls c a = .ok o1 ∧ handleCalls c' b = .ok o2 ∧ os = o1 ++ o2 ∧ c'.header = c.header ∧ c'.dk = c.dk ∧
        c'.inf = ((o1.getLast?.map (·.inf)).getD c.inf) := by
  induction a generalizing c os with
  | nil =>
    constructor
    · intro h; exact ⟨[], os, c, rfl, h, rfl, rfl, rfl, rfl⟩
    · rintro ⟨o1, o2, c', h1, h2, rfl, e1, e2, e3⟩
      cases h1
      have : c' = c := by cases c; cases c'; cases e1; cases e2; cases e3; rfl
      rw [this] at h2; exact h2
  | cons k ks ih =>
    rw [List.cons_append, handleCalls_cons c k ks, handleCalls_cons c k (ks ++ b)]
    constructor
    · intro h
      obtain ⟨o, ho, h⟩ := (Res.bind_eq_ok ..).1 h
      obtain ⟨os', hs, h⟩ := (Res.bind_eq_ok ..).1 h
      cases h
      obtain ⟨o1, o2, c', h1, h2, rfl, e1, e2, e3⟩ := (ih _ _).1 hs
      refine ⟨o :: o1, o2, c', ?_, h2, rfl, e1, e2, ?_⟩
      · rw [ho, Res.bind_ok, h1, Res.bind_ok]
      · rw [e3]
        cases o1 using List.reverseRecOn with
        | nil => rfl
        | append_singleton l x => rw [← List.cons_append, List.getLast?_concat, List.getLast?_concat]; rfl
    · rintro ⟨o1, o2, c', h1, h2, rfl, e1, e2, e3⟩
      obtain ⟨o, ho, h1⟩ := (Res.bind_eq_ok ..).1 h1
      obtain ⟨os', hs, h1⟩ := (Res.bind_eq_ok ..).1 h1
      cases h1
      rw [ho, Res.bind_ok, (ih { c with inf := o.inf } (os' ++ o2)).2 ⟨os', o2, c', hs, h2, rfl, e1, e2, ?_⟩, Res.bind_ok]
      · rfl
      · rw [e3]
        cases os' using List.reverseRecOn with
        | nil => rfl
        | append_singleton l x => rw [← List.cons_append, List.getLast?_concat, List.getLast?_concat]; rfl

theorem handleCalls_length {c : Cookie} {ks : List HandleCall} {os : List CopyOut} (h : handleCalls c ks = .ok os) : os.length = ks.length := by
  induction ks generalizing c os with
  | nil => cases h; rfl
  | cons k ks ih =>
    unfold handleCalls at h
    obtain ⟨o, ho, h⟩ := (Res.bind_eq_ok ..).1 h
    obtain ⟨os', hs, h⟩ := (Res.bind_eq_ok ..).1 h
    cases h
    rw [List.length_cons, List.length_cons, ih hs]

theorem handleCalls_handle {passwd D : Bytes} {c : Cookie} (hc : IsHandle passwd D c) {ks : List HandleCall}
    (ha : ∀ k ∈ ks, ∀ f, k.again = some f → f.data = D.drop 96) {os : List CopyOut} (h : handleCalls c ks = .ok os) :
    IsHandle passwd D { c with inf := (os.getLast?.map (·.inf)).getD c.inf } := by
  induction ks generalizing c os with
  | nil => cases h; exact hc
  | cons k ks ih =>
    unfold handleCalls at h
    obtain ⟨o, ho, h⟩ := (Res.bind_eq_ok ..).1 h
    obtain ⟨os', hs, h⟩ := (Res.bind_eq_ok ..).1 h
    cases h
    have := ih (handle_step (handle_again hc (ha k (by simp))) ho) (fun x hx => ha x (by simp [hx])) hs
    cases os' using List.reverseRecOn with
    | nil => exact this
    | append_singleton l x =>
      rw [List.getLast?_concat] at this
      rw [← List.cons_append, List.getLast?_concat]
      exact this

/-- The calls are always defined. -/
theorem handleCalls_total {passwd D : Bytes} (hD : D.length < 2 ^ 64) (h96 : 96 ≤ D.length) {c : Cookie} (hc : IsHandle passwd D c) {ks : List HandleCall}
    (hg : ∀ k ∈ ks, k.sys.Good) (ha : ∀ k ∈ ks, ∀ f, k.again = some f → f.data = D.drop 96) : ∃ os, handleCalls c ks = .ok os := by
  induction ks generalizing c with
  | nil => exact ⟨[], rfl⟩
  | cons k ks ih =>
    have hc' := handle_again hc (ha k (by simp))
    obtain ⟨n, n1, n2⟩ := hc'.pos
    obtain ⟨o, ho, -⟩ := copy_seen (hg k (by simp)) hD h96 hc'.hdr hc'.dk n1 n2 k.outf
    obtain ⟨os, hs⟩ := ih (handle_step hc' ho) (fun x hx => hg x (by simp [hx])) (fun x hx => ha x (by simp [hx]))
    exact ⟨o :: os, by unfold handleCalls; rw [ho, Res.bind_ok]; dsimp only at hs ⊢; rw [hs, Res.bind_ok]⟩

end Scrypt
