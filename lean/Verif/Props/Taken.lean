import Verif.Proofs.Taken
import Verif.Spec.Taken
import Verif.Props.EncMisc
import Verif.Props.EncEx
import Verif.Props.Picked
/-
C89: how much of the input a call takes.
-/
namespace Scrypt.Props
open Scrypt Spec

theorem loadHeader_taken {f : InFile} {header : Bytes} {c : Code} {h : Bytes} {f' : InFile}
    (hl : scryptdec_file_load_header f header = .ok (c, h, f')) : f'.data = f.data.drop (headTaken f.data) ∧ f'.err = f.err := by
  have hone : ∀ (b : Bytes) (e : Bool), (⟨[b], e⟩ : InFile).data = b := fun b e => by simp [InFile.data]
  unfold scryptdec_file_load_header freadExact at hl
  unfold headTaken
  by_cases h7 : 7 ≤ f.data.length
  case neg =>
    rw [if_neg h7] at hl
    cases hl
    rw [if_neg (fun h => h7 h.1), List.drop_of_length_le (by omega)]
    exact ⟨rfl, rfl⟩
  rw [if_pos h7] at hl
  simp only [] at hl
  obtain ⟨h1, hw, hl⟩ := (Res.bind_eq_ok ..).1 hl
  obtain ⟨m, hm, hl⟩ := (Res.bind_eq_ok ..).1 hl
  have l7 : (f.data.take 7).length = 7 := by rw [List.length_take]; omega
  have hhl : 7 ≤ header.length := by
    unfold wrSlice at hw
    split at hw
    · omega
    · cases hw
  rw [wrSlice_zero header _ (by omega), l7] at hw
  cases hw
  rw [rdSlice_ok (by rw [List.length_append, l7]; omega), List.drop_zero,
    List.take_append_of_le_length (by omega), List.take_take, Nat.min_eq_left (by omega)] at hm
  cases hm
  by_cases hM : HasMagic f.data
  case neg =>
    rw [if_pos (fun h => hM ((hasMagic_iff _).2 h))] at hl
    cases hl
    rw [if_pos ⟨h7, fun h => hM h.1⟩]
    exact ⟨hone _ _, rfl⟩
  rw [if_neg (not_not.2 ((hasMagic_iff _).1 hM))] at hl
  obtain ⟨v, ev, hV⟩ := rd_version f.data h7
  have e6 : rd (f.data.take 7 ++ header.drop 7) 6 = .ok v := by
    rw [rd_ok (by omega)] at ev
    rw [rd_ok (by simp; omega)]
    rw [← ev]
    congr 1
    rw [List.getElem_append_left (by omega), List.getElem_take]
  rw [e6, Res.bind_ok] at hl
  by_cases h0 : v = 0
  case neg =>
    rw [if_pos h0] at hl
    cases hl
    rw [if_pos ⟨h7, fun h => h0 (hV.1 h.2)⟩]
    exact ⟨hone _ _, rfl⟩
  rw [if_neg (not_not.2 h0), hone, List.length_drop] at hl
  rw [if_neg (fun h => h.2 ⟨hM, hV.2 h0⟩)]
  by_cases h96 : 96 ≤ f.data.length
  case neg =>
    rw [if_neg (by omega)] at hl
    cases hl
    rw [List.drop_of_length_le (by omega)]
    exact ⟨rfl, rfl⟩
  rw [if_pos (by omega)] at hl
  simp only [] at hl
  obtain ⟨h2, -, hl⟩ := (Res.bind_eq_ok ..).1 hl
  cases hl
  rw [Nat.min_eq_right h96]
  refine ⟨?_, rfl⟩
  rw [hone, List.drop_drop]

/-- **C89.**  `scryptdec_file_printparams` takes the header and leaves the rest to be read. -/
theorem C89_info (disp : DispEnv) (header0 : Bytes) (inf : InFile) (c : Code) (t : CStr) (f' : InFile)
    (h : scryptdec_file_printparams disp header0 inf = .ok (c, t, f')) : f'.data = inf.data.drop (headTaken inf.data) ∧ f'.err = inf.err := by
  unfold scryptdec_file_printparams at h
  obtain ⟨⟨rc, hd, f1⟩, hl, h⟩ := (Res.bind_eq_ok ..).1 h
  have := loadHeader_taken hl
  dsimp only at h
  by_cases h0 : rc = .OK
  · rw [if_neg (not_not.2 h0)] at h
    obtain ⟨l, -, h⟩ := (Res.bind_eq_ok ..).1 h
    obtain ⟨r, -, h⟩ := (Res.bind_eq_ok ..).1 h
    obtain ⟨p, -, h⟩ := (Res.bind_eq_ok ..).1 h
    obtain ⟨x, -, h⟩ := (Res.bind_eq_ok ..).1 h
    cases h
    exact this
  · rw [if_pos h0] at h
    cases h
    exact this

/-- **C89.**  `scryptdec_file_prep` takes the header and leaves the rest to be read, whether it accepts the passphrase or not. -/
theorem C89_prep (sys : EncSys) (inf : InFile) (passwd : Bytes) (P : EncParams) (verbose force : Bool) (o : PrepOut)
    (h : scryptdec_file_prep sys inf passwd P verbose force = .ok o) :
    o.inf.data = inf.data.drop (if sys.cookieOk then headTaken inf.data else 0) ∧ o.inf.err = inf.err ∧ ∀ c, o.cookie = some c → c.inf = o.inf := by
  unfold scryptdec_file_prep at h
  obtain ⟨-, -, h⟩ := (Res.bind_eq_ok ..).1 h
  by_cases h1 : sys.cookieOk = true
  case neg =>
    rw [if_pos (by simp [h1])] at h
    cases h
    rw [if_neg h1]
    exact ⟨rfl, rfl, fun c hc => by cases hc⟩
  rw [if_neg (by simp [h1])] at h
  rw [if_pos h1]
  obtain ⟨⟨rc, hd, f1⟩, hl, h⟩ := (Res.bind_eq_ok ..).1 h
  obtain ⟨t1, t2⟩ := loadHeader_taken hl
  dsimp only at h
  by_cases h0 : rc = .OK
  · rw [if_neg (not_not.2 h0)] at h
    obtain ⟨s, -, h⟩ := (Res.bind_eq_ok ..).1 h
    by_cases h3 : s.rc = .OK
    · rw [if_neg (not_not.2 h3)] at h
      cases h
      exact ⟨t1, t2, fun c hc => by cases hc; rfl⟩
    · rw [if_pos h3] at h
      cases h
      exact ⟨t1, t2, fun c hc => by cases hc⟩
  · rw [if_pos h0] at h
    cases h
    exact ⟨t1, t2, fun c hc => by cases hc⟩

theorem aesOpen_none {sys : EncSys} {dk : Bytes} {a : (Code × Option CtrStream) × List Ev} (e : aesOpen sys dk = .ok a) (h : a.1.2 = none) :
    a.1.1 = .EOPENSSL ∨ a.1.1 = .ENOMEM := by
  unfold aesOpen at e
  obtain ⟨k, -, e⟩ := (Res.bind_eq_ok ..).1 e
  cases k with
  | none => cases e; exact .inl rfl
  | some k =>
    obtain ⟨s, -, e⟩ := (Res.bind_eq_ok ..).1 e
    cases s with
    | none => cases e; exact .inr rfl
    | some s => cases e; cases h

theorem decFileEnd_taken {sys : EncSys} {err : Bool} {tr : List Ev} {l : LoopEnd} {o : CopyOut} (h : decFileEnd sys err tr l = .ok o) :
    o.inf = ⟨l.inf, err⟩ ∧ o.outf = l.outf ∧ o.rc ≠ .EOPENSSL ∧ o.rc ≠ .ENOMEM ∧ (o.rc ≠ .EWRFILE → l.wfail = false) := by
  unfold decFileEnd at h
  by_cases h1 : l.wfail = true
  · rw [if_pos h1] at h
    cases h
    exact ⟨rfl, rfl, by simp, by simp, fun h => absurd rfl h⟩
  have h1' : l.wfail = false := by simpa using h1
  rw [if_neg h1] at h
  dsimp only at h
  by_cases h2 : err = true
  · rw [if_pos h2] at h
    cases h
    exact ⟨rfl, rfl, by simp, by simp, fun _ => h1'⟩
  rw [if_neg h2] at h
  by_cases h3 : l.buflen < 32
  · rw [if_pos h3] at h
    cases h
    exact ⟨rfl, rfl, by simp, by simp, fun _ => h1'⟩
  rw [if_neg h3] at h
  obtain ⟨⟨t, c⟩, -, h⟩ := (Res.bind_eq_ok ..).1 h
  obtain ⟨v, -, h⟩ := (Res.bind_eq_ok ..).1 h
  cases h
  refine ⟨rfl, rfl, ?_, ?_, fun _ => h1'⟩ <;> (dsimp only; split <;> simp)

/-- **C89.**  `scryptdec_file`.  `n`: the bytes taken from the input, `w`: the bytes added to the output.  Reading is at most a block of 65536 bytes ahead
of what has been written, the header and the signature; what is written has been read, with 32 bytes more; if nothing but the contents of the file or a
read error stands in the way, everything is read; if the header or the passphrase is refused, at most the header. -/
theorem C89_dec (sys : EncSys) (g : sys.Good) (inf : InFile) (outf : OutFile) (passwd : Bytes) (P : EncParams) (verbose force : Bool)
    (hl : LimitsOk sys P verbose force) (o : FileOut) (h : scryptdec_file sys inf outf passwd P verbose force = .ok o) :
    ∃ n w, n ≤ inf.data.length ∧ o.inf.data = inf.data.drop n ∧ o.inf.err = inf.err ∧ o.outf.written.length = outf.written.length + w ∧
      n ≤ 96 + w + 32 + 65536 ∧ (w = 0 ∨ 96 + w + 32 ≤ n) ∧
      (firstFail .OK (prepChecks sys passwd P force inf.data inf.err) ≠ .OK → n = (if sys.cookieOk then headTaken inf.data else 0) ∧ w = 0) ∧
      (firstFail .OK (prepChecks sys passwd P force inf.data inf.err) = .OK → 96 ≤ n ∧ (o.rc = .EOPENSSL ∨ o.rc = .ENOMEM → n = 96 ∧ w = 0) ∧
        (o.rc ≠ .EOPENSSL → o.rc ≠ .ENOMEM → o.rc ≠ .EWRFILE → n = inf.data.length)) := by
  rw [← prepVerdict_table g hl]
  unfold scryptdec_file at h
  obtain ⟨-, -, h⟩ := (Res.bind_eq_ok ..).1 h
  obtain ⟨p, hp, h⟩ := (Res.bind_eq_ok ..).1 h
  obtain ⟨a1, a2, a3⟩ := C89_prep sys inf passwd P verbose force p hp
  obtain ⟨p1, p2, p3, -, -⟩ := decPrep_spec g hp
  have hT : headTaken inf.data ≤ inf.data.length := by unfold headTaken; split <;> omega
  have hT' : headTaken inf.data ≤ 96 := by unfold headTaken; split <;> omega
  by_cases h1 : p.rc = .OK
  case neg =>
    rw [(p3 h1).1] at h
    cases h
    have hv : prepVerdict sys inf passwd P verbose force ≠ .OK := by rw [← p1]; exact h1
    exact ⟨if sys.cookieOk then headTaken inf.data else 0, 0, by split <;> omega, a1, a2, rfl, by split <;> omega, .inl rfl,
      fun _ => ⟨rfl, rfl⟩, fun h => absurd h hv⟩
  obtain ⟨c, c1, c2, c3, c4, c5, c6, c7⟩ := p2 h1
  have hv : prepVerdict sys inf passwd P verbose force = .OK := by rw [← p1, h1]
  have hlen := (prepVerdict_ok.1 hv).2.len
  have hcl : c.inf.data.length = inf.data.length - 96 := by rw [c3, List.length_drop]
  rw [c1] at h
  dsimp only at h
  obtain ⟨q, hq, h⟩ := (Res.bind_eq_ok ..).1 h
  cases h
  dsimp only
  unfold scryptdec_file_copy at hq
  obtain ⟨k, -, hq⟩ := (Res.bind_eq_ok ..).1 hq
  obtain ⟨hctx, -, hq⟩ := (Res.bind_eq_ok ..).1 hq
  obtain ⟨hh, -, hq⟩ := (Res.bind_eq_ok ..).1 hq
  obtain ⟨hctx1, -, hq⟩ := (Res.bind_eq_ok ..).1 hq
  obtain ⟨a, ha, hq⟩ := (Res.bind_eq_ok ..).1 hq
  cases hs : a.1.2 with
  | none =>
    rw [hs] at hq
    cases hq
    have hne := aesOpen_none ha hs
    exact ⟨96, 0, by omega, c3, c4, rfl, by omega, .inl rfl, fun h => absurd hv h, fun _ => ⟨le_rfl, fun _ => ⟨rfl, rfl⟩, fun e1 e2 _ => by
      rcases hne with h | h
      · exact absurd h e1
      · exact absurd h e2⟩⟩
  | some st =>
    rw [hs] at hq
    dsimp only at hq
    obtain ⟨l, hL, hq⟩ := (Res.bind_eq_ok ..).1 hq
    obtain ⟨⟨n, n1, n2, n3, n4, n5⟩, hall⟩ := decLoop_taken sys _ _ _ _ _ _ _ _ (by omega) hL
    obtain ⟨q1, q2, q3, q4, q5⟩ := decFileEnd_taken hq
    have n1' : n ≤ c.inf.data.length := n1
    have n2' : l.inf.flatten = c.inf.data.drop n := n2
    have hqd : q.inf.data = l.inf.flatten := by rw [q1]; rfl
    unfold ENCBLOCK at n4
    rw [q2]
    refine ⟨96 + n, l.outf.written.length - outf.written.length, by omega, ?_, by rw [q1]; exact c4, by omega, by omega, by omega,
      fun h => absurd hv h, fun _ => ⟨by omega, fun h => ?_, fun _ _ h => ?_⟩⟩
    · rw [hqd, n2', c3, List.drop_drop]
    · rcases h with h | h
      · exact absurd h q3
      · exact absurd h q4
    · have := hall (q5 h)
      rw [n2', List.drop_eq_nil_iff] at this
      omega

theorem encFileEnd_taken {sys : EncSys} {inf : InFile} {s : SetupOut} {tr : List Ev} {l : LoopEnd} {o : FileOut} (h : encFileEnd sys inf s tr l = .ok o) :
    o.inf = ⟨l.inf, inf.err⟩ ∧ o.rc ≠ .EOPENSSL ∧ o.rc ≠ .ENOMEM ∧ (o.rc ≠ .EWRFILE → l.wfail = false) ∧
      l.outf.written.length ≤ o.outf.written.length ∧ o.outf.written.length ≤ l.outf.written.length + 32 ∧
      (o.rc = .OK → l.wfail = false ∧ o.outf.written.length = l.outf.written.length + 32) := by
  unfold encFileEnd at h
  by_cases h1 : l.wfail = true
  · rw [if_pos h1] at h
    cases h
    exact ⟨rfl, by simp, by simp, fun h => absurd rfl h, le_rfl, by dsimp only; omega, fun h => by cases h⟩
  have h1' : l.wfail = false := by simpa using h1
  rw [if_neg h1] at h
  by_cases h2 : inf.err = true
  · rw [if_pos h2] at h
    cases h
    exact ⟨rfl, by simp, by simp, fun _ => h1', le_rfl, by dsimp only; omega, fun h => by cases h⟩
  rw [if_neg h2] at h
  obtain ⟨⟨t, c⟩, -, h⟩ := (Res.bind_eq_ok ..).1 h
  dsimp only at h
  obtain ⟨y, hy, h⟩ := (Res.bind_eq_ok ..).1 h
  have yl := rdSlice_length hy
  obtain ⟨w1, w2, w3⟩ := fwrite_grow l.outf y
  cases h
  refine ⟨rfl, ?_, ?_, fun _ => h1', w1, by dsimp only; omega, fun h => ⟨h1', ?_⟩⟩
  · dsimp only; split <;> simp
  · dsimp only; split <;> simp
  · dsimp only at h
    by_cases hk : (fwrite l.outf y).1 < 32
    · rw [if_pos hk] at h; cases h
    · have := w3 (by rw [yl]; exact hk)
      dsimp only; omega

/-- **C89.**  `scryptenc_file`.  `n`: the bytes taken from the input, `w`: the bytes added to the output.  Nothing is read before the header has been
written in full, reading is at most a block of 65536 bytes ahead of writing, and if nothing but a read error stands in the way everything is read. -/
theorem C89_enc (sys : EncSys) (g : sys.Good) (inf : InFile) (outf : OutFile) (passwd : Bytes) (P : EncParams) (verbose force : Bool)
    (hl : P.logN ≠ 0 → LimitsOk sys P verbose force) (o : FileOut) (h : scryptenc_file sys inf outf passwd P verbose force = .ok o) :
    ∃ n w, n ≤ inf.data.length ∧ o.inf.data = inf.data.drop n ∧ o.inf.err = inf.err ∧ o.outf.written.length = outf.written.length + w ∧
      (n = 0 ∨ (96 ≤ w ∧ n ≤ w - 96 + 65536)) ∧ w ≤ 96 + n + 32 ∧ (o.rc = .OK → w = 96 + n + 32) ∧
      (firstFail .OK (encChecks sys P o.P force) ≠ .OK → n = 0 ∧ w = 0) ∧
      (firstFail .OK (encChecks sys P o.P force) = .OK → (o.rc = .EOPENSSL ∨ o.rc = .ENOMEM → n = 0 ∧ w = 96) ∧
        (o.rc ≠ .EOPENSSL → o.rc ≠ .ENOMEM → o.rc ≠ .EWRFILE → n = inf.data.length)) := by
  unfold scryptenc_file at h
  obtain ⟨-, -, h⟩ := (Res.bind_eq_ok ..).1 h
  obtain ⟨s, hs, h⟩ := (Res.bind_eq_ok ..).1 h
  have hc := setup_code g hl hs
  by_cases h0 : s.rc = .OK
  case neg =>
    rw [if_pos h0] at h
    cases h
    exact ⟨0, 0, Nat.zero_le _, rfl, rfl, rfl, .inl rfl, by omega, fun h => absurd h h0, fun _ => ⟨rfl, rfl⟩, fun h => absurd (hc.trans h) h0⟩
  rw [if_neg (not_not.2 h0)] at h
  rw [hc] at h0
  unfold encFileBody at h
  obtain ⟨k, -, h⟩ := (Res.bind_eq_ok ..).1 h
  obtain ⟨hctx, -, h⟩ := (Res.bind_eq_ok ..).1 h
  obtain ⟨hh, hhh, h⟩ := (Res.bind_eq_ok ..).1 h
  obtain ⟨hctx1, -, h⟩ := (Res.bind_eq_ok ..).1 h
  have hhl := rdSlice_length hhh
  obtain ⟨w1, w2, w3⟩ := fwrite_grow outf hh
  generalize hk : (fwrite outf hh).1 = j at *
  generalize hu : (fwrite outf hh).2 = u at *
  dsimp only at h
  by_cases hj : (fwrite outf hh).1 < 96
  · rw [if_pos hj] at h
    cases h
    dsimp only
    exact ⟨0, u.written.length - outf.written.length, Nat.zero_le _, rfl, rfl, by rw [hu]; omega, .inl rfl, by omega, fun h => (by cases h),
      fun h => absurd h0 h, fun _ => ⟨fun h => (by rcases h with h | h <;> cases h), fun _ _ h => absurd rfl h⟩⟩
  rw [if_neg hj, hu] at h
  have hw := w3 (by rw [← hk, hhl]; exact hj)
  obtain ⟨a, ha, h⟩ := (Res.bind_eq_ok ..).1 h
  cases hst : a.1.2 with
  | none =>
    rw [hst] at h
    cases h
    have hne := aesOpen_none ha hst
    refine ⟨0, 96, Nat.zero_le _, rfl, rfl, by dsimp only; omega, .inl rfl, by omega, fun h => ?_, fun h => absurd h0 h, fun _ => ⟨fun _ => ⟨rfl, rfl⟩,
      fun e1 e2 _ => ?_⟩⟩
    · have h : a.1.1 = .OK := h
      rcases hne with x | x <;> (rw [x] at h; cases h)
    · rcases hne with x | x
      · exact absurd x e1
      · exact absurd x e2
  | some st =>
    rw [hst] at h
    dsimp only at h
    obtain ⟨l, hL, h⟩ := (Res.bind_eq_ok ..).1 h
    obtain ⟨⟨n, n1, n2, n3, n4, n5, n6⟩, hall⟩ := encLoop_taken sys _ _ _ _ _ _ _ hL
    have hPP : o.P = s.P := by
      unfold encFileEnd at h
      split at h
      · cases h; rfl
      split at h
      · cases h; rfl
      obtain ⟨t, -, h⟩ := (Res.bind_eq_ok ..).1 h
      obtain ⟨y, -, h⟩ := (Res.bind_eq_ok ..).1 h
      cases h; rfl
    obtain ⟨q1, q3, q4, q5, q6, q7, q8⟩ := encFileEnd_taken h
    have n1' : n ≤ inf.data.length := n1
    have n2' : l.inf.flatten = inf.data.drop n := n2
    have hqd : o.inf.data = l.inf.flatten := by rw [q1]; rfl
    unfold ENCBLOCK at n4
    rw [hPP]
    refine ⟨n, o.outf.written.length - outf.written.length, n1', by rw [hqd, n2'], by rw [q1], by omega, .inr (by omega), by omega, fun h => ?_,
      fun h => absurd h0 h, fun _ => ⟨fun h => ?_, fun _ _ h => ?_⟩⟩
    · obtain ⟨x1, x2⟩ := q8 h
      have := n6 x1
      omega
    · rcases h with h | h
      · exact absurd h q3
      · exact absurd h q4
    · have := hall (q5 h)
      rw [n2', List.drop_eq_nil_iff] at this
      omega

/-- Non-vacuity: the runs of the round trip example leave nothing to be read. -/
example (sha sha' : ShaHw) (hw hw' : AesHw) (passwd : Bytes) :
    ∃ o o2, scryptenc_file (exEnc sha hw exSalt) ⟨[[1], [], [2, 3]], false⟩ ⟨[], some 131⟩ passwd exP true false = .ok o ∧ o.rc = .OK ∧ o.inf.data = [] ∧
      scryptdec_file (exEnc sha' hw' exSalt) ⟨[o.outf.written.take 5, o.outf.written.drop 5], false⟩ ⟨[8], some 3⟩ passwd exP0 true false = .ok o2 ∧
      o2.rc = .OK ∧ o2.inf.data = [] := by
  obtain ⟨o, h, hok, hP⟩ := exEnc_file sha hw exSalt_length ⟨[[1], [], [2, 3]], false⟩ ⟨[], some 131⟩ passwd (by decide) rfl
    (by intro k hk; cases hk; decide) true false
  obtain ⟨o2, h2, r, t, -⟩ := C02_roundtrip (inf2 := ⟨[o.outf.written.take 5, o.outf.written.drop 5], false⟩) (outf2 := ⟨[8], some 3⟩) (P2 := exP0)
    (verbose2 := true) (force2 := false)
    (exEnc_good sha hw exSalt_length) (exEnc_good sha' hw' exSalt_length) (exEnc_ready sha' hw' exSalt)
    (by decide) h hok (by simp [InFile.data]) rfl (by intro k hk; cases hk; decide) (by decide)
    (exLimits _ _ _ _ rfl _ _) (by rw [hP]; exact exPass _ _ _ _ rfl rfl rfl _) (by rw [hP]; exact exEnc_kdf _ _ _) (exEnc_aes _ _ _) rfl
  obtain ⟨n, w, -, a2, -, -, -, -, a7, a8, a9⟩ := C89_enc _ (exEnc_good sha hw exSalt_length) _ _ _ _ _ _ (fun _ => exLimits _ _ _ _ rfl _ _) o h
  obtain ⟨n', w', -, b2, -, b4, -, -, b7, b8⟩ := C89_dec _ (exEnc_good sha' hw' exSalt_length) _ _ _ _ _ _ (exLimits _ _ _ _ rfl _ _) o2 h2
  refine ⟨o, o2, h, hok, ?_, h2, r, ?_⟩
  · by_cases hc : firstFail .OK (encChecks (exEnc sha hw exSalt) exP o.P false) = .OK
    · rw [a2, (a9 hc).2 (by rw [hok]; simp) (by rw [hok]; simp) (by rw [hok]; simp), List.drop_length]
    · obtain ⟨rfl, rfl⟩ := a8 hc
      have := a7 hok
      omega
  · by_cases hc : firstFail .OK (prepChecks (exEnc sha' hw' exSalt) passwd exP0 false
      (⟨[o.outf.written.take 5, o.outf.written.drop 5], false⟩ : InFile).data false) = .OK
    · rw [b2, (b8 hc).2.2 (by rw [r]; simp) (by rw [r]; simp) (by rw [r]; simp), List.drop_length]
    · obtain ⟨-, rfl⟩ := b7 hc
      rw [t] at b4
      simp [InFile.data] at b4

/-- Non-vacuity: what is not a header is refused after seven bytes, and the eighth can still be read. -/
example (sha : ShaHw) (hw : AesHw) (disp : DispEnv) (passwd : Bytes) :
    (∃ c t f', scryptdec_file_printparams disp (List.replicate 96 0) ⟨[[1, 2], [3, 4, 5, 6, 7, 8]], false⟩ = .ok (c, t, f') ∧ f'.data = [8]) ∧
    ∃ o, scryptdec_file_prep (exEnc sha hw exSalt) ⟨[[1, 2], [3, 4, 5, 6, 7, 8]], false⟩ passwd exP0 false false = .ok o ∧ o.inf.data = [8] := by
  have hT : headTaken [1, 2, 3, 4, 5, 6, 7, 8] = 7 := by
    unfold headTaken
    rw [if_pos ⟨by decide, fun h => absurd h.1 (by unfold HasMagic; decide)⟩]
  refine ⟨?_, ?_⟩
  · refine ⟨.EINVAL, [], ⟨[[8]], false⟩, rfl, rfl⟩
  · obtain ⟨o, ho⟩ := decPrep_total (passwd := passwd) (exEnc_good sha hw exSalt_length) (exEnc_ready sha hw exSalt) (inf := ⟨[[1, 2], [3, 4, 5, 6, 7, 8]], false⟩)
      (P := exP0) (verbose := false) (force := false) (by decide) (fun h => absurd h (by decide))
    refine ⟨o, ho, ?_⟩
    rw [(C89_prep _ _ _ _ _ _ _ ho).1]
    rw [show (exEnc sha hw exSalt).cookieOk = true from rfl, if_pos rfl]
    rw [show (⟨[[1, 2], [3, 4, 5, 6, 7, 8]], false⟩ : InFile).data = [1, 2, 3, 4, 5, 6, 7, 8] from rfl, hT]
    rfl

end Scrypt.Props
