import Verif.Proofs.ReadpassTrace
/-
C36, C37, C38, C47: obtaining a passphrase.
-/
namespace Scrypt.Props
open Scrypt Spec

theorem chooseStream_source {env : RpEnv} {d : Nat} {f : Strm} {op : Bool} : chooseStream env d = some (f, op) ↔ Source env d f op := by
  unfold chooseStream
  split
  · exact ⟨fun h => by cases h; exact .stdin, fun h => by cases h; rfl⟩
  · cases ht : env.tty with
    | none => exact ⟨fun h => by cases h; exact .noTty ht, fun h => by
        cases h with
        | tty h => rw [ht] at h; cases h
        | noTty => rfl⟩
    | some g => exact ⟨fun h => by cases h; exact .tty ht, fun h => by
        cases h with
        | tty h => rw [ht] at h; cases h; rfl
        | noTty h => rw [ht] at h; cases h⟩
  · cases ht : env.tty with
    | none => exact ⟨fun h => (by cases h), fun h => by
        cases h with
        | ttyOnly h => rw [ht] at h; cases h⟩
    | some g => exact ⟨fun h => by cases h; exact .ttyOnly ht, fun h => by
        cases h with
        | ttyOnly h => rw [ht] at h; cases h; rfl⟩
  · rename_i h0 h1 h2
    exact ⟨fun h => (by cases h), fun h => by
      cases h with
      | stdin => exact absurd rfl h0
      | tty => exact absurd rfl h1
      | noTty => exact absurd rfl h1
      | ttyOnly => exact absurd rfl h2⟩

theorem passText_good (c : Bytes) : (∀ b ∈ passText c, b ≠ 0 ∧ b ≠ CR ∧ b ≠ LF) ∧ (passText c).length ≤ c.length := by
  constructor
  · intro b hb
    have := takeWhile_imp hb
    simpa using this
  · have := congrArg List.length (List.takeWhile_append_dropWhile (p := fun b => b ≠ 0 ∧ b ≠ CR ∧ b ≠ LF) (l := c))
    rw [List.length_append] at this
    unfold passText
    omega

theorem confirmed_good {f rest : Strm} {p : Bytes} (h : Confirmed f p rest) : (∀ b ∈ p, b ≠ 0 ∧ b ≠ CR ∧ b ≠ LF) ∧ p.length ≤ 2047 := by
  induction h with
  | same h _ _ => exact ⟨(passText_good _).1, Nat.le_trans (passText_good _).2 h.2.2.2.1⟩
  | again _ _ _ _ ih => exact ih

theorem entered_good {confirm : Bool} {f rest : Strm} {p : Bytes} (h : Entered confirm f p rest) : (∀ b ∈ p, b ≠ 0 ∧ b ≠ CR ∧ b ≠ LF) ∧ p.length ≤ 2047 := by
  cases confirm with
  | true => exact confirmed_good h
  | false =>
    obtain ⟨c, h1, rfl⟩ := h
    exact ⟨(passText_good _).1, Nat.le_trans (passText_good _).2 h1.2.2.2.1⟩

theorem entered_unique {confirm : Bool} {f r r' : Strm} {p p' : Bytes} (h : Entered confirm f p r) (h' : Entered confirm f p' r') : p = p' ∧ r = r' := by
  cases confirm with
  | true => exact confirmed_unique h h'
  | false =>
    obtain ⟨c, h1, rfl⟩ := h
    obtain ⟨c', h2, rfl⟩ := h'
    obtain ⟨rfl, rfl⟩ := reads_unique h1 h2
    exact ⟨rfl, rfl⟩

theorem entered_not_ended {confirm : Bool} {f r : Strm} {p : Bytes} (h : Entered confirm f p r) :
    ¬ NotEntered confirm f := by
  cases confirm with
  | true => exact confirmed_not_unconfirmed h
  | false =>
    obtain ⟨c, h1, rfl⟩ := h
    exact reads_not_ends h1

theorem entered_not_awaiting {confirm : Bool} {f r : Strm} {p : Bytes} (h : Entered confirm f p r) : ¬ NotYet confirm f := by
  cases confirm with
  | true => exact confirmed_not_awaiting h
  | false =>
    obtain ⟨c, h1, rfl⟩ := h
    exact reads_not_waits h1

/-- **C36.**  No input makes `readpass` run into undefined behaviour. -/
theorem C36_defined (env : RpEnv) (confirm : Bool) (devtty : Nat) : ∃ r, readpass env confirm devtty = .ok r :=
  let ⟨r, h, _⟩ := readpass_spec env confirm devtty
  ⟨r, h⟩

/-- **C36.**  It keeps waiting only for a stream that has neither ended nor delivered the passphrase (and its confirmation). -/
theorem C36_waits (env : RpEnv) (confirm : Bool) (devtty : Nat) (s : RpSt) (h : readpass env confirm devtty = .ok (.waiting s)) :
    ∃ f op, Source env devtty f op ∧ NotYet confirm f := by
  obtain ⟨r, h1, h2⟩ := readpass_spec env confirm devtty
  rw [h] at h1
  cases h1
  cases h2 with
  | waiting a b => exact ⟨_, _, chooseStream_source.1 a, b⟩

/-- **C36.**  When `readpass` returns, it returns the passphrase `p` exactly if `p` was entered on the selected stream (twice in a row
when confirmation is requested), echo could be turned off if it is a terminal, and memory was available. -/
theorem C36_passphrase (env : RpEnv) (confirm : Bool) (devtty : Nat) (o : RpOut) (h : readpass env confirm devtty = .ok (.returned o)) (p : Bytes) :
    o.passwd = some p ↔ env.strdupOk = true ∧ ∃ f op rest, Source env devtty f op ∧ EchoOk env op ∧ Entered confirm f p rest := by
  obtain ⟨r, h1, h2⟩ := readpass_spec env confirm devtty
  rw [h] at h1
  cases h1
  cases h2 with
  | noSource a b =>
    refine ⟨fun h => (by cases h), fun h => ?_⟩
    obtain ⟨_, f, op, rest, h1, -, -⟩ := h
    rw [← chooseStream_source, a] at h1
    cases h1
  | noEcho a b c d =>
    refine ⟨fun h => (by cases h), fun h => ?_⟩
    obtain ⟨_, f, op, rest, h1, h2, -⟩ := h
    rw [← chooseStream_source, a] at h1
    cases h1
    exact absurd (h2 b) c
  | ended a b c d =>
    refine ⟨fun h => (by cases h), fun h => ?_⟩
    obtain ⟨_, f, op, rest, h1, h2, h3⟩ := h
    rw [← chooseStream_source, a] at h1
    cases h1
    exact absurd c (entered_not_ended h3)
  | @read f op s l rest a b c d =>
    have hc : Entered confirm f (passText l) rest := by
      cases confirm with
      | true => exact c
      | false => exact ⟨l, c, rfl⟩
    show (if env.strdupOk = true then some (passText l) else none) = some p ↔ _
    constructor
    · intro h
      split at h
      · rename_i hs
        cases h
        exact ⟨hs, f, op, rest, chooseStream_source.1 a, b, hc⟩
      · cases h
    · rintro ⟨hs, f', op', rest', h1, h2, h3⟩
      rw [← chooseStream_source, a] at h1
      cases h1
      rw [if_pos hs, (entered_unique hc h3).1]

/-- **C36.**  A returned passphrase has at most 2047 bytes and contains no NUL, CR or LF. -/
theorem C36_wellformed (env : RpEnv) (confirm : Bool) (devtty : Nat) (o : RpOut) (h : readpass env confirm devtty = .ok (.returned o)) (p : Bytes)
    (hp : o.passwd = some p) : p.length ≤ 2047 ∧ ∀ b ∈ p, b ≠ 0 ∧ b ≠ 0x0d ∧ b ≠ 0x0a := by
  obtain ⟨-, f, op, rest, -, -, h3⟩ := (C36_passphrase env confirm devtty o h p).1 hp
  exact ⟨(entered_good h3).2, (entered_good h3).1⟩

/-- **C36.**  What remains of standard input: untouched when the terminal is read, otherwise what follows the lines read. -/
theorem C36_stdin (env : RpEnv) (confirm : Bool) (devtty : Nat) (o : RpOut) (h : readpass env confirm devtty = .ok (.returned o)) (p : Bytes)
    (hp : o.passwd = some p) : ∃ f op rest, Source env devtty f op ∧ Entered confirm f p rest ∧ o.stdin = if op then env.stdin else rest := by
  obtain ⟨r, h1, h2⟩ := readpass_spec env confirm devtty
  rw [h] at h1
  cases h1
  cases h2 with
  | noSource | noEcho | ended => cases hp
  | @read f op s l rest a b c d =>
    have hc : Entered confirm f (passText l) rest := by
      cases confirm with
      | true => exact c
      | false => exact ⟨l, c, rfl⟩
    simp only [] at hp
    split at hp
    · cases hp
      exact ⟨f, op, rest, chooseStream_source.1 a, hc, rfl⟩
    · cases hp

/-- **C36.**  Both stack copies of the passphrase are zero on return, success or failure. -/
theorem C36_zeroed (env : RpEnv) (confirm : Bool) (devtty : Nat) (o : RpOut) (h : readpass env confirm devtty = .ok (.returned o)) :
    o.passbuf = List.replicate 2048 0 ∧ o.confpassbuf = List.replicate 2048 0 := by
  obtain ⟨r, h1, h2⟩ := readpass_spec env confirm devtty
  rw [h] at h1
  cases h1
  cases h2 <;> exact ⟨rfl, rfl⟩

/-- **C36, finding F9.**  A line of more than 2046 characters is not rejected: its first 2047 bytes are the passphrase, the others stay
on standard input (where the data to process, or the next line, is expected). -/
theorem C36_long_line (env : RpEnv) (x y : Bytes) (hx : x.length = 2047) (hg : ∀ b ∈ x, b ≠ 0 ∧ b ≠ 0x0d ∧ b ≠ 0x0a)
    (hin : env.stdin.data = x ++ y) (hd : env.isattyStdin = false) (hm : env.strdupOk = true) :
    ∃ o, readpass env false 0 = .ok (.returned o) ∧ o.passwd = some x ∧ o.stdin = ⟨y, env.stdin.tail⟩ := by
  have hr : Reads env.stdin x ⟨y, env.stdin.tail⟩ :=
    ⟨hin, rfl, by omega, by omega, fun h => (hg _ (List.dropLast_subset _ h)).2.2 rfl, .inl hx⟩
  have hp : passText x = x := takeWhile_self fun b hb => decide_eq_true (hg b hb)
  have he : Entered false env.stdin x ⟨y, env.stdin.tail⟩ := ⟨x, hr, hp.symm⟩
  obtain ⟨r, h1, h2⟩ := readpass_spec env false 0
  cases h2 with
  | noSource a => cases a
  | noEcho a b => cases a; rw [if_neg (by decide), hd] at b; cases b
  | ended a b c => cases a; exact absurd c (entered_not_ended he)
  | waiting a b => cases a; exact absurd b (entered_not_awaiting he)
  | @read f op s l rest a b c d =>
    cases a
    obtain ⟨e1, e2⟩ := entered_unique he ⟨l, c, rfl⟩
    exact ⟨_, h1, by simp only [hm, if_true, ← e1], by simp only [e2]; rfl⟩

/-! Examples: a passphrase from a pipe; two attempts on a terminal, the second pair matching. -/

/-- "hunter2\n" from a pipe. -/
def exRp : RpEnv := ⟨none, ⟨[0x68, 0x75, 0x6e, 0x74, 0x65, 0x72, 0x32, 0x0a, 0x41], .eof⟩, false, false, true, true, true, true, fun n => if n = 3 then [2] else [],
  fun _ => 7, fun _ => 9⟩

/-- A terminal on which "a", "b", then "ok\r", "ok\r" are typed; interrupt (signal 2) during the second read. -/
def exTty : RpEnv := { exRp with
  tty := some ⟨[0x61, 0x0a, 0x62, 0x0a, 0x6f, 0x6b, 0x0d, 0x0a, 0x6f, 0x6b, 0x0d, 0x0a], .wait⟩, isattyTty := true
  arr := fun n => if n = 14 then [2, 2, 5] else if n = 0 then [1] else [] }

/-- Running the model itself. -/
def rpResult (env : RpEnv) (confirm : Bool) (devtty : Nat) : Option (Option Bytes × Bytes × List RpEv) :=
  match readpass env confirm devtty with
  | .ok (.returned o) => some (o.passwd, o.stdin.data, o.st.tr)
  | _ => none

theorem exRp_runs : (rpResult exRp false 0).map (fun r => (r.1, r.2.1)) = some (some [0x68, 0x75, 0x6e, 0x74, 0x65, 0x72, 0x32], [0x41]) := by
  decide +kernel

theorem exTty_runs : rpResult exTty true 1 = some (some [0x6f, 0x6b], exRp.stdin.data,
    [.other 1, .install 0, .install 1, .install 2, .install 3, .install 4, .install 5, .install 6, .install 7, .install 8,
     .tcget true, .echoOff true, .prompt, .read, .confirmPrompt, .caught 2, .caught 2, .caught 5, .read, .mismatch,
     .prompt, .read, .confirmPrompt, .read, .echoOn false,
     .restore 0, .restore 1, .restore 2, .restore 3, .restore 4, .restore 5, .restore 6, .restore 7, .restore 8,
     .raise 2, .raise 5, .close]) := by decide +kernel

/-! ### C47 -/

/-- **C47.**  On return: echo is on again and all original handlers are back; at no moment was echo off while one of the nine signals
was not caught; the signals re-sent are exactly those caught, each re-sent once, after both restorations. -/
theorem C47_restored (env : RpEnv) (confirm : Bool) (devtty : Nat) (o : RpOut) (h : readpass env confirm devtty = .ok (.returned o)) :
    echoIsOff o.st.tr = false ∧ (∀ g, handled g o.st.tr = false) ∧ EchoGuarded o.st.tr ∧ RaisesGood o.st.tr ∧
    ∀ g, RpEv.raise g ∈ o.st.tr ↔ RpEv.caught g ∈ o.st.tr := by
  obtain ⟨r, h1, h2⟩ := readpass_spec env confirm devtty
  rw [h] at h1
  cases h1
  cases h2 with
  | noSource _ d => exact ⟨d.echo, d.handled, d.guarded, d.raises, d.raised⟩
  | noEcho _ _ _ d => exact ⟨d.echo, d.handled, d.guarded, d.raises, d.raised⟩
  | ended _ _ _ d => exact ⟨d.echo, d.handled, d.guarded, d.raises, d.raised⟩
  | read _ _ _ d => exact ⟨d.echo, d.handled, d.guarded, d.raises, d.raised⟩

/-- **C47.**  While waiting for input: all nine signals are caught, nothing has been re-sent, echo is off iff the input is a terminal. -/
theorem C47_waiting (env : RpEnv) (confirm : Bool) (devtty : Nat) (s : RpSt) (h : readpass env confirm devtty = .ok (.waiting s)) :
    (∀ g, handled g s.tr = true) ∧ EchoGuarded s.tr ∧ (∀ g, RpEv.raise g ∉ s.tr) ∧
    ∃ f op, Source env devtty f op ∧ echoIsOff s.tr = if op then env.isattyTty else env.isattyStdin := by
  obtain ⟨r, h1, h2⟩ := readpass_spec env confirm devtty
  rw [h] at h1
  cases h1
  cases h2 with
  | waiting a b c d => exact ⟨d.handled, d.guarded, fun g hg => (d.raised g).1 hg, _, _, chooseStream_source.1 a, d.echo⟩

/-! ### C37 -/

/-- **C37.**  `readpass_file` always returns on a stream that ends, with its buffer zeroed, and returns the passphrase `p` exactly if the file could be
opened and closed, contains one line (see `FileText`) and `p` is the text of that line. -/
theorem C37_file (env : RfEnv) (filename : CStr) : ∃ r, readpass_file env filename = .ok r ∧
    (r = none → ∃ f, env.file = some f ∧ f.tail = .wait) ∧
    (∀ pw buf said, r = some ⟨pw, buf, said⟩ → buf = List.replicate 2048 0 ∧
      ∀ p, pw = some p ↔ ∃ f c, env.file = some f ∧ FileText f c ∧ p = passText c ∧ env.fcloseOk = true ∧ env.strdupOk = true) := by
  obtain ⟨r, h1, h2⟩ := readpass_file_spec env filename
  refine ⟨r, h1, ?_, ?_⟩
  · rintro rfl
    cases h2 with
    | waiting a b => exact ⟨_, a, b⟩
  · rintro pw buf said rfl
    cases h2 with
    | fail a =>
      refine ⟨rfl, fun p => ⟨fun h => (by cases h), ?_⟩⟩
      rintro ⟨f, c, k1, k2, -, k3, k4⟩
      rcases a with a | a | a
      · exact absurd ⟨f, c, k1, k2⟩ a
      · rw [k3] at a; cases a
      · rw [k4] at a; cases a
    | @ok f c a b d e =>
      refine ⟨rfl, fun p => ⟨?_, ?_⟩⟩
      · intro h
        cases h
        exact ⟨f, c, a, b, rfl, d, e⟩
      · rintro ⟨f', c', k1, k2, rfl, -, -⟩
        rw [a] at k1
        cases k1
        rw [← b.1, ← k2.1]

/-- **C37.**  For a readable file the condition is about its bytes only. -/
theorem C37_content (content : Bytes) (c : Bytes) :
    FileText ⟨content, .eof⟩ c ↔ content = c ∧ LF ∉ content.dropLast ∧ content.length ≤ 2047 := by
  constructor
  · rintro ⟨rfl, h2, h3, -⟩; exact ⟨rfl, h2, h3⟩
  · rintro ⟨rfl, h2, h3⟩; exact ⟨rfl, h2, h3, .inl rfl⟩

/-- **C37, finding F8.**  A read error after a complete first line is taken for the end of the file. -/
theorem C37_read_error_accepted (env : RfEnv) (filename : CStr) (l : Bytes) (hl : l.length ≤ 2046) (hg : ∀ b ∈ l, b ≠ 0 ∧ b ≠ CR ∧ b ≠ LF)
    (hf : env.file = some ⟨l ++ [LF], .err⟩) (hc : env.fcloseOk = true) (hs : env.strdupOk = true) :
    ∃ buf said, readpass_file env filename = .ok (some ⟨some l, buf, said⟩) := by
  obtain ⟨r, h1, -, h3⟩ := C37_file env filename
  have hft : FileText ⟨l ++ [LF], .err⟩ (l ++ [LF]) := by
    refine ⟨rfl, ?_, by simp only [List.length_append, List.length_singleton]; omega, .inr ⟨rfl, .inr (by simp)⟩⟩
    rw [List.dropLast_concat]
    exact fun h => (hg _ h).2.2 rfl
  have hp : passText (l ++ [LF]) = l := by
    unfold passText
    rw [List.takeWhile_append_of_pos (fun b hb => decide_eq_true (hg b hb))]
    simp
  cases r with
  | none =>
    obtain ⟨r', k1, k2⟩ := readpass_file_spec env filename
    rw [h1] at k1
    cases k1
    cases k2 with
    | waiting a b => rw [hf] at a; cases a; cases b
  | some v =>
    obtain ⟨pw, buf, said⟩ := v
    have := ((h3 pw buf said rfl).2 l).2 ⟨_, _, hf, hft, hp.symm, hc, hs⟩
    exact ⟨buf, said, by rw [h1, this]⟩

/-- A passphrase file with a CRLF line, and one with two lines. -/
example : (match readpass_file ⟨some ⟨[0x70, 0x77, 0x0d, 0x0a], .eof⟩, true, true, fun _ => 1⟩ "pw.txt".toList with | .ok (some o) => o.passwd | _ => none) = some [0x70, 0x77] ∧
    (match readpass_file ⟨some ⟨[0x70, 0x0a, 0x0a], .eof⟩, true, true, fun _ => 1⟩ "pw.txt".toList with | .ok (some o) => o.passwd.isNone | _ => false) = true := by
  decide +kernel

/-! ### C38 -/

theorem hasPrefix_iff (s p : CStr) : hasPrefix s p = true ↔ ∃ r, s = p ++ r := by
  unfold hasPrefix
  rw [beq_iff_eq]
  constructor
  · intro h; exact ⟨s.drop p.length, by conv_lhs => rw [← List.take_append_drop p.length s, h]⟩
  · rintro ⟨r, rfl⟩; rw [List.take_left]

theorem afterColon (pre r : CStr) (h : ':' ∉ pre) : ((pre ++ ':' :: r).dropWhile (· ≠ ':')).drop 1 = r := by
  induction pre with
  | nil => simp
  | cons a pre ih =>
    rw [List.mem_cons, not_or] at h
    rw [List.cons_append, List.dropWhile_cons_of_pos (by simpa using Ne.symm h.1)]
    exact ih h.2

theorem ac_dev (r : CStr) : (("dev:".toList ++ r).dropWhile (· ≠ ':')).drop 1 = r := afterColon ['d', 'e', 'v'] r (by decide)
theorem ac_env (r : CStr) : (("env:".toList ++ r).dropWhile (· ≠ ':')).drop 1 = r := afterColon ['e', 'n', 'v'] r (by decide)
theorem ac_file (r : CStr) : (("file:".toList ++ r).dropWhile (· ≠ ':')).drop 1 = r := afterColon ['f', 'i', 'l', 'e'] r (by decide)

/-- **C38.**  The accepted arguments of `--passphrase` are exactly the documented ones. -/
theorem C38_parse (arg : CStr) (m : PassEntry) (a : CStr) : passphrase_entry_parse arg = some (m, a) ↔ Method arg m a := by
  constructor
  · intro h
    unfold passphrase_entry_parse at h
    split at h
    · cases h
    · simp only [] at h
      split at h
      · rename_i hc
        obtain ⟨r, rfl⟩ := (hasPrefix_iff _ _).1 hc.1
        rw [ac_dev] at h hc
        cases h
        rw [hc.2]
        exact .ttyStdin
      · split at h
        · rename_i hc
          obtain ⟨r, rfl⟩ := (hasPrefix_iff _ _).1 hc.1
          rw [ac_dev] at h hc
          cases h
          rw [hc.2]
          exact .stdinOnce
        · split at h
          · rename_i hc
            obtain ⟨r, rfl⟩ := (hasPrefix_iff _ _).1 hc.1
            rw [ac_dev] at h hc
            cases h
            rw [hc.2]
            exact .ttyOnce
          · split at h
            · rename_i hc
              obtain ⟨r, rfl⟩ := (hasPrefix_iff _ _).1 hc
              rw [ac_env] at h
              cases h
              exact .env _
            · split at h
              · rename_i hc
                obtain ⟨r, rfl⟩ := (hasPrefix_iff _ _).1 hc
                rw [ac_file] at h
                cases h
                exact .file _
              · cases h
  · intro h
    cases h with
    | ttyStdin => decide
    | stdinOnce => decide
    | ttyOnce => decide
    | env =>
      unfold passphrase_entry_parse
      rw [if_neg (not_not.2 (List.mem_append_left _ (by decide)))]
      simp only [ac_env]
      have hd : hasPrefix ("env:".toList ++ a) "dev:".toList = false := by
        rw [Bool.eq_false_iff]; intro h
        obtain ⟨r, hr⟩ := (hasPrefix_iff _ _).1 h
        exact absurd (List.cons.inj hr).1 (by decide)
      rw [hd, if_neg (by simp), if_neg (by simp), if_neg (by simp), if_pos ((hasPrefix_iff _ _).2 ⟨a, rfl⟩)]
    | file =>
      unfold passphrase_entry_parse
      rw [if_neg (not_not.2 (List.mem_append_left _ (by decide)))]
      simp only [ac_file]
      have hd : hasPrefix ("file:".toList ++ a) "dev:".toList = false := by
        rw [Bool.eq_false_iff]; intro h
        obtain ⟨r, hr⟩ := (hasPrefix_iff _ _).1 h
        exact absurd (List.cons.inj hr).1 (by decide)
      have he : hasPrefix ("file:".toList ++ a) "env:".toList = false := by
        rw [Bool.eq_false_iff]; intro h
        obtain ⟨r, hr⟩ := (hasPrefix_iff _ _).1 h
        exact absurd (List.cons.inj hr).1 (by decide)
      rw [hd, he, if_neg (by simp), if_neg (by simp), if_neg (by simp), if_neg (by simp), if_pos ((hasPrefix_iff _ _).2 ⟨a, rfl⟩)]

/-- **C38.**  Each method obtains the passphrase from its own source; confirmation is asked only for the default method when `once` is
not set (encryption).  `none`: the call is still waiting for input. -/
theorem C38_obtain (env : PeEnv) (m : PassEntry) (arg : CStr) (once : Bool) :
    ∃ r, passphrase_entry_readpass env m arg once = .ok r ∧ ∀ o, r = some o → ∀ p, o.passwd = some p ↔ Obtains env m arg once p := by
  cases m with
  | unset => exact ⟨_, rfl, fun o h p => by cases h; exact ⟨fun h => (by cases h), fun h => by cases h⟩⟩
  | env =>
    unfold passphrase_entry_readpass
    cases hg : env.getenv arg with
    | none =>
      refine ⟨_, rfl, fun o h p => ?_⟩
      cases h
      refine ⟨fun h => (by cases h), fun h => ?_⟩
      cases h with
      | env h => rw [hg] at h; cases h
    | some v =>
      cases hs : env.strdupOk with
      | true =>
        refine ⟨_, rfl, fun o h p => ?_⟩
        cases h
        constructor
        · intro h
          cases h
          exact .env hg hs
        · intro h
          cases h with
          | env h _ => rw [hg] at h; exact h
      | false =>
        refine ⟨_, rfl, fun o h p => ?_⟩
        cases h
        refine ⟨fun h => (by cases h), fun h => ?_⟩
        cases h with
        | env _ h => rw [hs] at h; cases h
  | file =>
    obtain ⟨r, h1, -, h3⟩ := C37_file (env.rf arg) arg
    unfold passphrase_entry_readpass
    rw [h1]
    refine ⟨_, rfl, fun o h p => ?_⟩
    cases r with
    | none => cases h
    | some v =>
      cases h
      show v.passwd = some p ↔ _
      rw [(h3 v.passwd v.passbuf v.said rfl).2 p]
      constructor
      · rintro ⟨f, c, k1, k2, k3, k4, k5⟩; subst k3; exact .file k1 k2 k4 k5
      · intro h
        cases h with
        | file k1 k2 k4 k5 => exact ⟨_, _, k1, k2, rfl, k4, k5⟩
  | ttyStdin =>
    obtain ⟨r, h1⟩ := C36_defined env.rp (!once) 1
    unfold passphrase_entry_readpass peReadpass
    rw [h1, Res.bind_ok]
    cases r with
    | waiting s => exact ⟨_, rfl, fun o h => by cases h⟩
    | returned o =>
      refine ⟨_, rfl, fun o' h p => ?_⟩
      cases h
      show o.passwd = some p ↔ _
      rw [C36_passphrase _ _ _ o h1]
      constructor
      · rintro ⟨hs, f, op, rest, k1, k2, k3⟩; exact .ttyStdin k1 k2 k3 hs
      · intro h
        cases h with
        | ttyStdin k1 k2 k3 hs => exact ⟨hs, _, _, _, k1, k2, k3⟩
  | stdinOnce =>
    obtain ⟨r, h1⟩ := C36_defined env.rp false 0
    unfold passphrase_entry_readpass peReadpass
    rw [h1, Res.bind_ok]
    cases r with
    | waiting s => exact ⟨_, rfl, fun o h => by cases h⟩
    | returned o =>
      refine ⟨_, rfl, fun o' h p => ?_⟩
      cases h
      show o.passwd = some p ↔ _
      rw [C36_passphrase _ _ _ o h1]
      constructor
      · rintro ⟨hs, f, op, rest, k1, k2, k3⟩; exact .stdinOnce k1 k2 k3 hs
      · intro h
        cases h with
        | stdinOnce k1 k2 k3 hs => exact ⟨hs, _, _, _, k1, k2, k3⟩
  | ttyOnce =>
    obtain ⟨r, h1⟩ := C36_defined env.rp false 2
    unfold passphrase_entry_readpass peReadpass
    rw [h1, Res.bind_ok]
    cases r with
    | waiting s => exact ⟨_, rfl, fun o h => by cases h⟩
    | returned o =>
      refine ⟨_, rfl, fun o' h p => ?_⟩
      cases h
      show o.passwd = some p ↔ _
      rw [C36_passphrase _ _ _ o h1]
      constructor
      · rintro ⟨hs, f, op, rest, k1, k2, k3⟩; exact .ttyOnce k1 k2 k3 hs
      · intro h
        cases h with
        | ttyOnce k1 k2 k3 hs => exact ⟨hs, _, _, _, k1, k2, k3⟩

example : Method "file:a:b".toList .file "a:b".toList := .file "a:b".toList
example : passphrase_entry_parse "dev:tty".toList = none ∧ passphrase_entry_parse "env".toList = none := by decide

end Scrypt.Props
