import Verif.Props.MainEx
import Verif.Spec.FileLog
/-
C92: which files the utility opens and closes.
-/
namespace Scrypt.Props
open Scrypt Spec

/-- The files the environment lets the utility read and write. -/
def canRead (env : MainEnv) (n : CStr) : Bool := (env.openIn n).isSome

def canWrite (env : MainEnv) (n : CStr) : Bool := (env.openOut n).isSome

abbrev ProperFiles (env : MainEnv) (i u : Option CStr) (ev : List MEv) : Prop := FileLog (canRead env) (canWrite env) i u (ev.filter MEvFile)

theorem files_closeIn (env : MainEnv) (i : Option CStr) : (closeInput env i).1 = closesIn i env.fcloseIn := by
  cases i <;> rfl

theorem files_closeOut (env : MainEnv) (u : Option CStr) : (closeOutput env u.isSome).1 = closesOut u env.fcloseOut := by
  cases u <;> rfl

theorem filter_closesIn (i : Option CStr) (b : Bool) : (closesIn i b).filter MEvFile = closesIn i b := by
  cases i <;> rfl

theorem filter_closesOut (u : Option CStr) (b : Bool) : (closesOut u b).filter MEvFile = closesOut u b := by
  cases u <;> rfl

theorem filter_keys (tr : List Ev) : (tr.map MEv.key).filter MEvFile = [] := by
  rw [List.filter_eq_nil_iff]
  intro a ha
  obtain ⟨e, -, rfl⟩ := List.mem_map.1 ha
  simp [MEvFile]

theorem files_openIn {env : MainEnv} {i : Option CStr} (h : ∀ n ∈ i, canRead env n = true) : openInputEv env i = opensIn i := by
  cases i with
  | none => rfl
  | some n =>
    have := h n rfl
    unfold canRead at this
    unfold openInputEv opensIn
    dsimp only
    rw [this]

theorem filter_opensIn (i : Option CStr) : (opensIn i).filter MEvFile = opensIn i := by
  cases i <;> rfl

theorem filter_opensOut (i : Option CStr) : (opensOut i).filter MEvFile = opensOut i := by
  cases i <;> rfl

/-- The events of the end of an operation. -/
theorem files_cleanup {env : MainEnv} {i u : Option CStr} {ev : List MEv} {msgs : List MMsg} {cookie op : Bool} {rc : Code} {out : Bytes} {m : ModeOut}
    (h : encDecCleanup env i u ev msgs cookie op rc out = .ok m) :
    m.ev.filter MEvFile = ev.filter MEvFile ++ (closesIn i env.fcloseIn ++ (closeOutput env op).1) := by
  have e : m.ev = ev ++ (if cookie then scryptdec_file_cookie_free.map .key else []) ++ [.zeroPass, .freePass] ++ (closeInput env i).1 ++ (closeOutput env op).1 := by
    unfold encDecCleanup at h
    dsimp only at h
    by_cases hc : rc ≠ .OK
    · rw [if_pos hc] at h
      obtain ⟨d, -, h⟩ := (Res.bind_eq_ok ..).1 h
      cases h; rfl
    · rw [if_neg hc] at h; cases h; rfl
  have ek : (if cookie then scryptdec_file_cookie_free.map MEv.key else []).filter MEvFile = [] := by
    cases cookie
    · rfl
    · exact filter_keys _
  have eo : ((closeOutput env op).1).filter MEvFile = (closeOutput env op).1 := by cases op <;> rfl
  rw [e, files_closeIn]
  simp only [List.filter_append, ek, eo, filter_closesIn]
  simp [MEvFile]

theorem files_err2 {env : MainEnv} {i u : Option CStr} {ev : List MEv} {msgs : List MMsg} {cookie : Bool} :
    (encDecErr2 env i u ev msgs cookie).ev.filter MEvFile = ev.filter MEvFile ++ ((openOutputEv env u).filter MEvFile ++ closesIn i env.fcloseIn) := by
  have ek : (if cookie then scryptdec_file_cookie_free.map MEv.key else []).filter MEvFile = [] := by
    cases cookie
    · rfl
    · exact filter_keys _
  unfold encDecErr2
  dsimp only
  rw [files_closeIn]
  simp only [List.filter_append, ek, filter_closesIn]
  simp [MEvFile]

theorem out_cases (env : MainEnv) (u : Option CStr) :
    (∃ n, u = some n ∧ canWrite env n = false ∧ openOutput env u = none ∧ (openOutputEv env u).filter MEvFile = [.openOut n false]) ∨
    (∃ f, (∀ n ∈ u, canWrite env n = true) ∧ openOutput env u = some f ∧ (openOutputEv env u).filter MEvFile = opensOut u) := by
  cases u with
  | none => exact .inr ⟨_, (fun n h => by cases h), rfl, rfl⟩
  | some n =>
    cases h : env.openOut n with
    | none =>
      refine .inl ⟨n, rfl, ?_, ?_, ?_⟩
      · unfold canWrite; rw [h]; rfl
      · unfold openOutput; dsimp only; rw [h]; rfl
      · unfold openOutputEv; dsimp only; rw [h]; rfl
    | some r =>
      refine .inr ⟨⟨[], r⟩, ?_, ?_, ?_⟩
      · intro m hm; cases hm; unfold canWrite; rw [h]; rfl
      · unfold openOutput; dsimp only; rw [h]; rfl
      · unfold openOutputEv; dsimp only; rw [h]; rfl

theorem files_decRun {env : MainEnv} {P : EncParams} {v f : Bool} {i u : Option CStr} {inf : InFile} {pw : Bytes} {m : ModeOut}
    (hi : ∀ n ∈ i, canRead env n = true) (h : decRun env P v f i u inf pw (openInputEv env i ++ [.gotPass]) = .ok m) : ProperFiles env i u m.ev := by
  have e0 : (openInputEv env i ++ [MEv.gotPass]).filter MEvFile = opensIn i := by
    rw [files_openIn hi, List.filter_append, filter_opensIn]; simp [MEvFile]
  unfold decRun at h
  obtain ⟨p, -, h⟩ := (Res.bind_eq_ok ..).1 h
  dsimp only at h
  have e1 : (openInputEv env i ++ [MEv.gotPass] ++ p.tr.map MEv.key).filter MEvFile = opensIn i := by
    rw [List.filter_append, e0, filter_keys, List.append_nil]
  unfold ProperFiles
  by_cases hr : p.rc ≠ .OK
  · rw [if_pos hr] at h
    rw [files_cleanup h, e1]
    show FileLog _ _ _ _ (opensIn i ++ (closesIn i env.fcloseIn ++ []))
    rw [List.append_nil]
    exact .input hi
  · rw [if_neg hr] at h
    rcases out_cases env u with ⟨n, hu, hw, ho, hev⟩ | ⟨of, hw, ho, hev⟩
    · rw [ho] at h
      cases h
      rw [files_err2, e1, hev, ← List.append_assoc]
      exact .noOutput hi hu hw
    · rw [ho] at h
      dsimp only at h
      cases hc : p.cookie with
      | none => rw [hc] at h; cases h
      | some c =>
        rw [hc] at h
        obtain ⟨o, -, h⟩ := (Res.bind_eq_ok ..).1 h
        rw [files_cleanup h, List.filter_append, List.filter_append, e1, filter_keys, List.append_nil, hev, files_closeOut, ← List.append_assoc]
        exact .both hi hw

theorem files_encRun {env : MainEnv} {P : EncParams} {v f : Bool} {i u : Option CStr} {inf : InFile} {pw : Bytes} {m : ModeOut}
    (hi : ∀ n ∈ i, canRead env n = true) (h : encRun env P v f i u inf pw (openInputEv env i ++ [.gotPass]) = .ok m) : ProperFiles env i u m.ev := by
  have e0 : (openInputEv env i ++ [MEv.gotPass]).filter MEvFile = opensIn i := by
    rw [files_openIn hi, List.filter_append, filter_opensIn]; simp [MEvFile]
  unfold encRun at h
  unfold ProperFiles
  rcases out_cases env u with ⟨n, hu, hw, ho, hev⟩ | ⟨of, hw, ho, hev⟩
  · rw [ho] at h
    cases h
    rw [files_err2, e0, hev, ← List.append_assoc]
    exact .noOutput hi hu hw
  · rw [ho] at h
    dsimp only at h
    obtain ⟨o, -, h⟩ := (Res.bind_eq_ok ..).1 h
    rw [files_cleanup h, List.filter_append, List.filter_append, e0, filter_keys, List.append_nil, hev, files_closeOut, ← List.append_assoc]
    exact .both hi hw

theorem openInput_read {env : MainEnv} {i : Option CStr} :
    (∃ n, i = some n ∧ canRead env n = false ∧ openInput env i = none ∧ openInputEv env i = [.openIn n false]) ∨
    (∃ f, (∀ n ∈ i, canRead env n = true) ∧ openInput env i = some f) := by
  cases i with
  | none => exact .inr ⟨none, (fun n h => by cases h), rfl⟩
  | some n =>
    cases h : env.openIn n with
    | none =>
      refine .inl ⟨n, rfl, ?_, ?_, ?_⟩
      · unfold canRead; rw [h]; rfl
      · unfold openInput; dsimp only; rw [h]; rfl
      · unfold openInputEv; dsimp only; rw [h]; rfl
    | some g =>
      refine .inr ⟨some g, ?_, ?_⟩
      · intro m hm; cases hm; unfold canRead; rw [h]; rfl
      · unfold openInput; dsimp only; rw [h]; rfl

/-- **C92.**  Whatever happens (short of a crash or of waiting for ever) the utility has opened its named input, and possibly its named output, once each, and closed exactly what it
opened; the standard streams it neither opens nor closes, and no other file is touched. -/
theorem C92_files (env : MainEnv) (q : Request) (o : MainOut) (h : perform env q = .ok (some o)) : ProperFiles env q.infile q.outfile o.ev := by
  by_cases hq : q.op = .info
  · unfold perform at h
    rw [hq] at h
    obtain ⟨m, h', rfl⟩ := finish_some.1 h
    clear h
    rename' h' => h
    show ProperFiles env q.infile q.outfile m.ev
    unfold scrypt_mode_info at h
    rcases openInput_read (env := env) (i := q.infile) with ⟨n, h1, h2, h3, h4⟩ | ⟨f, h1, h2⟩
    · rw [h3] at h
      cases h
      unfold ProperFiles
      dsimp only
      rw [h4]
      exact .noInput h1 h2
    · rw [h2] at h
      dsimp only at h
      cases hs : (f.orElse fun _ => stdinFile env env.pe.rp.stdin) with
      | none => rw [hs] at h; cases h
      | some inf =>
        rw [hs] at h
        obtain ⟨m', h, h'⟩ := (Res.bind_eq_ok ..).1 h
        cases h'
        have e : m.ev = openInputEv env q.infile ++ (closeInput env q.infile).1 := by
          unfold infoRun at h
          obtain ⟨r, -, h⟩ := (Res.bind_eq_ok ..).1 h
          dsimp only at h
          by_cases hr : r.1 ≠ .OK
          · rw [if_pos hr] at h
            obtain ⟨d, -, h⟩ := (Res.bind_eq_ok ..).1 h
            cases h; rfl
          · rw [if_neg hr] at h; cases h; rfl
        unfold ProperFiles
        rw [e, files_openIn h1, files_closeIn, List.filter_append, filter_opensIn, filter_closesIn]
        exact .input h1
  · rw [perform_ed hq] at h
    obtain ⟨m, h', rfl⟩ := finish_some.1 h
    clear h
    rename' h' => h
    show ProperFiles env q.infile q.outfile m.ev
    unfold scrypt_mode_enc_dec at h
    rcases openInput_read (env := env) (i := q.infile) with ⟨n, h1, h2, h3, h4⟩ | ⟨f, h1, h2⟩
    · rw [h3] at h
      cases h
      unfold ProperFiles
      dsimp only
      rw [h4]
      exact .noInput h1 h2
    · rw [h2] at h
      dsimp only at h
      obtain ⟨r, -, h⟩ := (Res.bind_eq_ok ..).1 h
      cases r with
      | none => cases h
      | some po =>
        dsimp only at h
        cases hp : po.passwd with
        | none =>
          rw [hp] at h
          cases h
          unfold ProperFiles
          dsimp only
          rw [files_openIn h1, files_closeIn, List.filter_append, filter_opensIn, filter_closesIn]
          exact .input h1
        | some pw =>
          rw [hp] at h
          dsimp only at h
          cases hs : (f.orElse fun _ => stdinFile env po.stdin) with
          | none => rw [hs] at h; cases h
          | some inf =>
            rw [hs] at h
            obtain ⟨m', h, h'⟩ := (Res.bind_eq_ok ..).1 h
            cases h'
            by_cases hd : q.op = .dec
            · rw [if_pos (by simpa using hd)] at h
              exact files_decRun h1 h
            · rw [if_neg (by simpa using hd)] at h
              exact files_encRun h1 h

/-- **C92.**  Printing the parameters opens no output. -/
theorem C92_info (env : MainEnv) (q : Request) (hq : q.op = .info) (o : MainOut) (h : perform env q = .ok (some o)) :
    FileLog (canRead env) (canWrite env) q.infile none (o.ev.filter MEvFile) := by
  have h' : perform env { q with outfile := none } = .ok (some o) := by
    rw [← h]; unfold perform; rw [hq]
  exact C92_files env { q with outfile := none } o h'

/-- The whole history: both files are opened, then closed. -/
def wholeHistory (env : MainEnv) (i u : Option CStr) : List MEv := opensIn i ++ opensOut u ++ closesIn i env.fcloseIn ++ closesOut u env.fcloseOut

theorem cleanup_failed {env : MainEnv} {i u : Option CStr} {ev : List MEv} {msgs : List MMsg} {cookie op : Bool} {rc : Code} {out : Bytes} {m : ModeOut}
    (h : encDecCleanup env i u ev msgs cookie op rc out = .ok m) (hr : rc ≠ .OK) : m.ok = false := by
  unfold encDecCleanup at h
  dsimp only at h
  rw [if_pos hr] at h
  obtain ⟨d, -, h⟩ := (Res.bind_eq_ok ..).1 h
  cases h; rfl

theorem whole_decRun {env : MainEnv} {P : EncParams} {v f : Bool} {i u : Option CStr} {inf : InFile} {pw : Bytes} {m : ModeOut}
    (hi : ∀ n ∈ i, canRead env n = true) (h : decRun env P v f i u inf pw (openInputEv env i ++ [.gotPass]) = .ok m) (hm : m.ok = true) :
    m.ev.filter MEvFile = wholeHistory env i u := by
  have e0 : (openInputEv env i ++ [MEv.gotPass]).filter MEvFile = opensIn i := by
    rw [files_openIn hi, List.filter_append, filter_opensIn]; simp [MEvFile]
  unfold decRun at h
  obtain ⟨p, -, h⟩ := (Res.bind_eq_ok ..).1 h
  dsimp only at h
  by_cases hr : p.rc ≠ .OK
  · rw [if_pos hr] at h
    rw [cleanup_failed h hr] at hm; cases hm
  · rw [if_neg hr] at h
    rcases out_cases env u with ⟨n, hu, hw, ho, hev⟩ | ⟨of, hw, ho, hev⟩
    · rw [ho] at h
      cases h; cases hm
    · rw [ho] at h
      dsimp only at h
      cases hc : p.cookie with
      | none => rw [hc] at h; cases h
      | some c =>
        rw [hc] at h
        obtain ⟨o, -, h⟩ := (Res.bind_eq_ok ..).1 h
        rw [files_cleanup h, List.filter_append, List.filter_append, List.filter_append, e0, filter_keys, filter_keys, List.append_nil, List.append_nil, hev, files_closeOut,
          ← List.append_assoc]
        rfl

theorem whole_encRun {env : MainEnv} {P : EncParams} {v f : Bool} {i u : Option CStr} {inf : InFile} {pw : Bytes} {m : ModeOut}
    (hi : ∀ n ∈ i, canRead env n = true) (h : encRun env P v f i u inf pw (openInputEv env i ++ [.gotPass]) = .ok m) (hm : m.ok = true) :
    m.ev.filter MEvFile = wholeHistory env i u := by
  have e0 : (openInputEv env i ++ [MEv.gotPass]).filter MEvFile = opensIn i := by
    rw [files_openIn hi, List.filter_append, filter_opensIn]; simp [MEvFile]
  unfold encRun at h
  rcases out_cases env u with ⟨n, hu, hw, ho, hev⟩ | ⟨of, hw, ho, hev⟩
  · rw [ho] at h
    cases h; cases hm
  · rw [ho] at h
    dsimp only at h
    obtain ⟨o, -, h⟩ := (Res.bind_eq_ok ..).1 h
    rw [files_cleanup h, List.filter_append, List.filter_append, e0, filter_keys, List.append_nil, hev, files_closeOut, ← List.append_assoc]
    rfl

/-- **C92.**  When an encryption or decryption succeeds, both files have been opened and closed. -/
theorem C92_done (env : MainEnv) (q : Request) (hq : q.op ≠ .info) (o : MainOut) (h : perform env q = .ok (some o)) (h0 : o.exit = 0) :
    o.ev.filter MEvFile = wholeHistory env q.infile q.outfile := by
  rw [perform_ed hq] at h
  obtain ⟨m, h', rfl⟩ := finish_some.1 h
  clear h
  rename' h' => h
  have hok : m.ok = true := exit_eq.1 h0
  show m.ev.filter MEvFile = _
  unfold scrypt_mode_enc_dec at h
  rcases openInput_read (env := env) (i := q.infile) with ⟨n, h1, h2, h3, h4⟩ | ⟨f, h1, h2⟩
  · rw [h3] at h
    cases h; cases hok
  · rw [h2] at h
    dsimp only at h
    obtain ⟨r, -, h⟩ := (Res.bind_eq_ok ..).1 h
    cases r with
    | none => cases h
    | some po =>
      dsimp only at h
      cases hp : po.passwd with
      | none => rw [hp] at h; cases h; cases hok
      | some pw =>
        rw [hp] at h
        dsimp only at h
        cases hs : (f.orElse fun _ => stdinFile env po.stdin) with
        | none => rw [hs] at h; cases h
        | some inf =>
          rw [hs] at h
          obtain ⟨m', h, h'⟩ := (Res.bind_eq_ok ..).1 h
          cases h'
          by_cases hd : q.op = .dec
          · rw [if_pos (by simpa using hd)] at h
            exact whole_decRun h1 h hok
          · rw [if_neg (by simpa using hd)] at h
            exact whole_encRun h1 h hok

/-- Non-vacuity: `scrypt enc -f --logN 10 -r8 -p 1 --passphrase=env:PW in out` on an input of any size. -/
theorem exFiles (sha : ShaHw) (hw : AesHw) (segs : List Bytes) (hlen : segs.flatten.length + 128 < 2 ^ 64) :
    ∃ o, scryptMain (exMain sha hw "in".toList segs) ("scrypt".toList :: exArgs) = .ok (some o) ∧
      o.ev.filter MEvFile = opensIn exRequest.infile ++ opensOut exRequest.outfile ++ closesIn exRequest.infile true ++ closesOut exRequest.outfile true := by
  obtain ⟨o, h1, h2, -⟩ := exMain_enc sha hw segs hlen
  refine ⟨o, h1, ?_⟩
  rw [C33_accepted (exMain sha hw "in".toList segs) rfl (by show 2 ^ 64 - 1 < 2 ^ 64; norm_num) "scrypt".toList exArgs (by unfold NoNul; decide) exRequest
    (exRequests _ _)] at h1
  exact C92_done _ _ (by decide) _ h1 h2

end Scrypt.Props
