import Verif.Model.Warnp
import Mathlib.Tactic.Common
/-
C48, C49, C50: error messages, aligned buffers, program name.
-/
namespace Scrypt.Props
open Scrypt

/-! ### C48 -/

/-- The message the user should see for a code. -/
def expectedMessage (c : Code) (infile outfile : CStr) : CStr :=
  match c with
  | .OK => []
  | .ELIMIT => "Error determining amount of available memory".toList
  | .ECLOCK => "Error reading clocks".toList
  | .EKEY => "Error computing derived key".toList
  | .ESALT => "Error reading salt".toList
  | .EOPENSSL => "OpenSSL error".toList
  | .ENOMEM => "Error allocating memory".toList
  | .EINVAL => "Input is not valid scrypt-encrypted block".toList
  | .EVERSION => "Unrecognized scrypt format version".toList
  | .ETOOBIG => "Decrypting file would require too much memory".toList
  | .ETOOSLOW => "Decrypting file would take too much CPU time".toList
  | .EBIGSLOW => "Decrypting file would require too much memory and CPU time".toList
  | .EPASS => "Passphrase is incorrect".toList
  | .EWRFILE => "Error writing file: ".toList ++ outfile
  | .ERDFILE => "Error reading file: ".toList ++ infile
  | .EPARAM => "Error in explicit parameters".toList

/-- The text of a diagnostic. -/
def diagText : Diag → CStr
  | .warnp t => t
  | .warn0 t => t

/-- **C48.**  The return codes are pairwise distinct numbers; zero is success. -/
theorem C48_distinct (c d : Code) : (c.num = d.num ↔ c = d) ∧ (c.num = 0 ↔ c = .OK) := by
  constructor
  · constructor
    · cases c <;> cases d <;> first | exact fun _ => rfl | exact fun h => absurd h (by decide)
    · rintro rfl; rfl
  · cases c <;> first | exact ⟨fun _ => rfl, fun _ => rfl⟩ | exact ⟨fun h => absurd h (by decide), fun h => absurd h (by decide)⟩

/-- **C48.**  Every code but success is reported with its own text, naming the file concerned. -/
theorem C48_message (c : Code) (hc : c ≠ .OK) (inf outf : Option CStr) :
    ∃ d, scryptenc_print_error c.num inf outf = .ok d ∧
      diagText d = expectedMessage c (inf.getD "standard input".toList) (outf.getD "standard output".toList) := by
  cases c <;> first | exact absurd rfl hc | exact ⟨_, rfl, rfl⟩

/-- All codes. -/
def codes : List Code := [.OK, .ELIMIT, .ECLOCK, .EKEY, .ESALT, .EOPENSSL, .ENOMEM, .EINVAL, .EVERSION, .ETOOBIG, .ETOOSLOW, .EPASS, .EWRFILE, .ERDFILE,
  .EPARAM, .EBIGSLOW]

theorem mem_codes (c : Code) : c ∈ codes := by cases c <;> decide

/-- The first 20 characters of a message do not depend on the file names. -/
theorem message_start (c : Code) (inf outf : CStr) : (expectedMessage c inf outf).take 20 = (expectedMessage c [] []).take 20 := by
  cases c <;> first | rfl | exact List.take_left' rfl

theorem starts_differ : ∀ c ∈ codes, ∀ c' ∈ codes, (expectedMessage c [] []).take 20 = (expectedMessage c' [] []).take 20 →
    c = c' ∨ (c ∈ [Code.ETOOBIG, .ETOOSLOW, .EBIGSLOW] ∧ c' ∈ [Code.ETOOBIG, .ETOOSLOW, .EBIGSLOW] ∧ expectedMessage c [] [] ≠ expectedMessage c' [] []) := by
  decide +kernel

theorem limits_no_file {c : Code} (h : c ∈ [Code.ETOOBIG, .ETOOSLOW, .EBIGSLOW]) (inf outf : CStr) : expectedMessage c inf outf = expectedMessage c [] [] := by
  simp only [List.mem_cons, List.not_mem_nil, or_false] at h
  rcases h with rfl | rfl | rfl <;> rfl

/-- **C48.**  Different codes give different messages. -/
theorem C48_injective (c c' : Code) (inf outf : CStr)
    (h : expectedMessage c inf outf = expectedMessage c' inf outf) : c = c' := by
  have h1 := congrArg (List.take 20) h
  rw [message_start, message_start c'] at h1
  rcases starts_differ c (mem_codes c) c' (mem_codes c') h1 with h2 | ⟨h2, h3, h4⟩
  · exact h2
  · rw [limits_no_file h2, limits_no_file h3] at h
    exact absurd h h4

theorem starts_not_default : ∀ c ∈ codes, (expectedMessage c [] []).take 20 ≠ ("Programmer error: unrecognized scrypt error".toList).take 20 := by
  decide +kernel

/-- **C48.**  None is the message for an unrecognized code. -/
theorem C48_not_default (c : Code) (inf outf : CStr) : expectedMessage c inf outf ≠ "Programmer error: unrecognized scrypt error".toList := by
  intro h
  have h1 := congrArg (List.take 20) h
  rw [message_start] at h1
  exact starts_not_default c (mem_codes c) h1

example : scryptenc_print_error Code.EWRFILE.num none (some "out".toList) = .ok (.warnp "Error writing file: out".toList) ∧
    scryptenc_print_error 99 none none = .ok (.warn0 "Programmer error: unrecognized scrypt error".toList) := by decide

/-! ### C49 -/

/-- **C49.**  For a non-zero alignment: the offset is the least one at which the address is aligned, and the array fits in the buffer
declared for it. -/
theorem C49_aligned (addr alignment : W64) (h0 : alignment ≠ 0) (num size : Nat) :
    ∃ off, align_ptr addr alignment = .ok off ∧
      (addr.toNat + off.toNat) % alignment.toNat = 0 ∧
      (∀ k, k < off.toNat → (addr.toNat + k) % alignment.toNat ≠ 0) ∧
      off.toNat + num * size ≤ alignBufLen num size alignment.toNat := by
  have hpos : 0 < alignment.toNat := by
    rcases Nat.eq_zero_or_pos alignment.toNat with h | h
    · exact absurd (BitVec.eq_of_toNat_eq (by simpa using h)) h0
    · exact h
  have hm : addr.toNat % alignment.toNat < alignment.toNat := Nat.mod_lt _ hpos
  have ha := alignment.isLt
  have hsub : (alignment - addr % alignment).toNat = alignment.toNat - addr.toNat % alignment.toNat := by
    rw [BitVec.toNat_sub, BitVec.toNat_umod]
    rw [show 2 ^ 64 - addr.toNat % alignment.toNat + alignment.toNat = 2 ^ 64 + (alignment.toNat - addr.toNat % alignment.toNat) by omega,
      Nat.add_mod_left, Nat.mod_eq_of_lt (by omega)]
  refine ⟨_, if_neg h0, ?_, ?_, ?_⟩
  · rw [BitVec.toNat_umod, hsub, Nat.add_mod, Nat.mod_mod]
    rcases Nat.eq_zero_or_pos (addr.toNat % alignment.toNat) with h | h
    · rw [h, Nat.sub_zero, Nat.mod_self]; rfl
    · rw [Nat.mod_eq_of_lt (a := alignment.toNat - addr.toNat % alignment.toNat) (by omega),
        show addr.toNat % alignment.toNat + (alignment.toNat - addr.toNat % alignment.toNat) = alignment.toNat by omega, Nat.mod_self]
  · intro k hk
    rw [BitVec.toNat_umod, hsub] at hk
    rcases Nat.eq_zero_or_pos (addr.toNat % alignment.toNat) with h | h
    · rw [h, Nat.sub_zero, Nat.mod_self] at hk; omega
    · rw [Nat.mod_eq_of_lt (by omega)] at hk
      rw [Nat.add_mod, Nat.mod_eq_of_lt (a := k) (by omega), Nat.mod_eq_of_lt (by omega)]
      omega
  · rw [BitVec.toNat_umod]
    have := Nat.mod_lt (alignment - addr % alignment).toNat hpos
    unfold alignBufLen
    omega

example : align_ptr 1001 16 = .ok 7 ∧ align_ptr 1008 16 = .ok 0 ∧ align_ptr 5 0 = .ub := by decide

/-! ### C50 -/

/-- `name` is the last component of `path`. -/
def LastComponent (path name : CStr) : Prop := '/' ∉ name ∧ (path = name ∨ ∃ dir, path = dir ++ '/' :: name)

theorem progLoop_spec (q : CStr) : ∀ p : CStr, (LastComponent q (progLoop p q) ∨ ('/' ∉ q ∧ progLoop p q = p)) := by
  induction q with
  | nil => intro p; exact .inr ⟨by simp, rfl⟩
  | cons c q ih =>
    intro p
    unfold progLoop
    rcases ih (if c = '/' then q else p) with ⟨h1, h2⟩ | ⟨h1, h2⟩
    · by_cases hc : c = '/'
      · subst hc
        refine .inl ⟨h1, .inr ?_⟩
        rcases h2 with h2 | ⟨d, h2⟩
        · exact ⟨[], by rw [List.nil_append]; exact congrArg _ h2⟩
        · exact ⟨'/' :: d, by rw [List.cons_append]; exact congrArg _ h2⟩
      · rw [if_neg hc] at h1 h2 ⊢
        rcases h2 with h2 | ⟨d, h2⟩
        · -- no slash in q at all
          by_cases hs : '/' ∈ q
          · rw [← h2] at h1; exact absurd hs h1
          · rcases ih p with ⟨k1, k2⟩ | ⟨k1, k2⟩
            · rcases progNone q p hs with hp
              exact .inr ⟨by simp [Ne.symm hc, hs], hp⟩
            · exact .inr ⟨by simp [Ne.symm hc, hs], k2⟩
        · exact .inl ⟨h1, .inr ⟨c :: d, by rw [List.cons_append]; exact congrArg _ h2⟩⟩
    · by_cases hc : c = '/'
      · rw [if_pos hc] at h2 ⊢
        subst hc
        rw [h2]
        exact .inl ⟨h1, .inr ⟨[], rfl⟩⟩
      · rw [if_neg hc] at h2 ⊢
        exact .inr ⟨by simp [Ne.symm hc, h1], h2⟩
where
  progNone (q : CStr) : ∀ (p : CStr), '/' ∉ q → progLoop p q = p := by
    induction q with
    | nil => intro p _; rfl
    | cons c q ih =>
      intro p h
      rw [List.mem_cons, not_or] at h
      unfold progLoop
      rw [if_neg (Ne.symm h.1)]
      exact ih p h.2

/-- **C50.**  The program name shown is the part of argv[0] after the last slash. -/
theorem C50_progname (path : CStr) : ∃ name, warnp_setprogname true path = some name ∧ LastComponent path name := by
  refine ⟨_, rfl, ?_⟩
  rcases progLoop_spec path path with h | ⟨h1, h2⟩
  · exact h
  · rw [h2]; exact ⟨h1, .inl rfl⟩

/-- The last component is determined by the path. -/
theorem C50_unique {path a b : CStr} (h : LastComponent path a) (h' : LastComponent path b) : a = b := by
  obtain ⟨h1, h2⟩ := h
  obtain ⟨k1, k2⟩ := h'
  rcases h2 with rfl | ⟨d, rfl⟩
  · rcases k2 with h | ⟨e, h⟩
    · exact h
    · rw [h] at h1; simp at h1
  · rcases k2 with h | ⟨e, h⟩
    · rw [← h] at k1; simp at k1
    · rcases List.append_eq_append_iff.1 h with ⟨x, h3, h4⟩ | ⟨x, h3, h4⟩
      · cases x with
        | nil => simpa using h4
        | cons c x =>
          rw [List.cons_append] at h4
          have := (List.cons.inj h4).2
          rw [this] at h1; simp at h1
      · cases x with
        | nil => simpa using h4.symm
        | cons c x =>
          rw [List.cons_append] at h4
          have := (List.cons.inj h4).2
          rw [this] at k1; simp at k1

/-- **C50.**  Every message is one line that begins with that name. -/
theorem C50_lines (name : CStr) (msg err : CStr) :
    warnText (some name) (some msg) err = name ++ ": ".toList ++ msg ++ ": ".toList ++ err ++ ['\n'] ∧
    warnxText (some name) (some msg) = name ++ ": ".toList ++ msg ++ ['\n'] := by
  constructor <;> simp [warnText, warnxText]

example : warnp_setprogname true "/usr/local/bin/scrypt".toList = some "scrypt".toList ∧ warnp_setprogname true "a/".toList = some [] := by decide

end Scrypt.Props
