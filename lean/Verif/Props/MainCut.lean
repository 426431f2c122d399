import Verif.Props.Main
/-
Decryption by the utility, whatever opening the output file does to the input: used by C35 and C41.
-/
namespace Scrypt.Props
open Scrypt Spec

theorem field_head {D : Bytes} (h : 96 ≤ D.length) (R : Bytes) (a b : Nat) (hab : a + b ≤ 96) : field (D.take 96 ++ R) a b = field D a b := by
  unfold field
  rw [List.drop_append_of_le_length (by rw [List.length_take]; omega), List.take_append_of_le_length (by rw [List.length_drop, List.length_take]; omega),
    List.drop_take, List.take_take, Nat.min_eq_left (by omega)]

theorem key_head {D : Bytes} (h : 96 ≤ D.length) (R pw : Bytes) : inpKey pw (D.take 96 ++ R) = inpKey pw D := by
  unfold inpKey hdrSalt hdrLogN hdrR hdrP
  rw [field_head h R 16 32 (by omega), field_head h R 7 1 (by omega), field_head h R 8 4 (by omega), field_head h R 12 4 (by omega)]

/-- What can still be read of the input once the output file has been opened (for writing, so emptied): `inf` is the input, of which the 96 bytes of the
header have been read before. -/
def LeftAfterOpen (env : MainEnv) (q : Request) (inf rest : InFile) : Prop :=
  ∃ f : InFile, f.data = inf.data.drop 96 ∧ f.err = inf.err ∧ rest = truncated env q.outfile f

theorem LeftAfterOpen.short {env : MainEnv} {q : Request} {inf rest : InFile} (h : LeftAfterOpen env q inf rest) (hn : NeverLonger env q) :
    rest.data.length ≤ inf.data.length - 96 := by
  obtain ⟨f, h1, -, rfl⟩ := h
  have := truncated_short hn f
  rw [h1, List.length_drop] at this
  exact this

/-- decRun into a file that can be opened, whatever opening it does to the input. -/
theorem decRun_cut {env : MainEnv} (g : env.sys.Good) {q : Request} (hn : NeverLonger env q) {P : EncParams} {v f : Bool} {i : Option CStr} {inf : InFile}
    {pw : Bytes} {ev0 : List MEv} {m : ModeOut} (hin : inf.data.length < 2 ^ 64) {outf : OutFile} (ho : openOutput env q.outfile = some outf)
    (h : decRun env P v f i q.outfile inf pw ev0 = .ok m) :
    ∃ rest, LeftAfterOpen env q inf rest ∧ ∃ rc : Code,
      rc = (if prepVerdict env.sys inf pw P v f ≠ .OK then prepVerdict env.sys inf pw P v f
        else copyVerdict (inf.data.take 96 ++ rest.data) rest.err outf (inpKey pw inf.data) (aesCode env.sys)) ∧
      m.out = (if prepVerdict env.sys inf pw P v f = .OK then (copyOut env.sys (inf.data.take 96 ++ rest.data) outf (inpKey pw inf.data)).written else []) ∧
      (m.ok = true ↔ rc = .OK) ∧
      keysOf m.ev = keysOf ev0 ++ (if prepVerdict env.sys inf pw P v f = .OK then
        [.alloc .cookie] ++ copyTrace env.sys (inf.data.take 96 ++ rest.data) outf ++ [.zero .cookie, .free .cookie]
        else if env.sys.cookieOk then [.alloc .cookie, .zero .cookie, .free .cookie] else []) ∧
      passOf m.ev = passOf ev0 ++ [.zeroPass, .freePass] ∧
      (rc ≠ .OK → ∃ d, MMsg.diag d ∈ m.msgs ∧
        diagText d = expectedMessage rc (i.getD "standard input".toList) (q.outfile.getD "standard output".toList)) := by
  unfold decRun at h
  rw [Res.bind_eq_ok] at h
  obtain ⟨p, hpr, h⟩ := h
  obtain ⟨p1, p2, p3, -⟩ := decPrep_spec g hpr
  simp only at h
  by_cases hp : p.rc = .OK
  case neg =>
    rw [if_pos hp] at h
    obtain ⟨m', h1, h2, h3, h4, h5⟩ := cleanup_ok (env := env) (i := i) (u := q.outfile) (ev := ev0 ++ p.tr.map .key) (msgs := p.err.map .lib) (ck := false)
      (op := false) (rc := p.rc) (out := [])
    rw [h] at h1
    cases h1
    refine ⟨truncated env q.outfile ⟨[inf.data.drop 96], inf.err⟩, ⟨⟨[inf.data.drop 96], inf.err⟩, by simp [InFile.data], rfl, rfl⟩, p.rc, ?_, ?_, h2, ?_, ?_, h4⟩
    · rw [← p1, if_pos hp]
    · rw [← p1, if_neg hp, h3]
    · rw [← p1, if_neg hp, ← (p3 hp).2, h5]
      simp only [keysOf_append, keysOf_keys, (keys_close env i).1, (keys_closeOut env false).1, keys_end.1, (keys_cookie false).1, List.append_nil]
      simp
    · rw [h5]
      simp only [passOf_append, passOf_keys, (keys_close env i).2, (keys_closeOut env false).2, keys_end.2.1, (keys_cookie false).2, List.append_nil]
  rw [if_neg (not_not.2 hp), ho] at h
  obtain ⟨c, c1, c2, c3, c4, c5, c6, c7⟩ := p2 hp
  rw [c1] at h
  simp only at h
  rw [Res.bind_eq_ok] at h
  obtain ⟨oc, hco, h⟩ := h
  have hv : prepVerdict env.sys inf pw P v f = .OK := by rw [← p1, hp]
  have hU := (prepVerdict_ok.1 hv).2
  have hL : LeftAfterOpen env q inf (truncated env q.outfile c.inf) := ⟨c.inf, c3, c4, rfl⟩
  have hs := hL.short hn
  have hlen := hU.len
  obtain ⟨oc', e, q1, q2, q3⟩ := decCopy_ok g { c with inf := truncated env q.outfile c.inf } outf
    (by rw [show ({ c with inf := truncated env q.outfile c.inf } : Cookie).header = c.header from rfl, c2, List.length_take]; omega)
    (by rw [show ({ c with inf := truncated env q.outfile c.inf } : Cookie).dk = c.dk from rfl, c5]; exact inpKey_length _ _)
    (by rw [show ({ c with inf := truncated env q.outfile c.inf } : Cookie).inf = truncated env q.outfile c.inf from rfl]; omega)
  rw [hco] at e
  cases e
  obtain ⟨m', h1, h2, h3, h4, h5⟩ := cleanup_ok (env := env) (i := i) (u := q.outfile)
    (ev := ev0 ++ p.tr.map .key ++ openOutputEv env q.outfile ++ oc.tr.map .key)
    (msgs := p.err.map .lib) (ck := true) (op := q.outfile.isSome) (rc := oc.rc) (out := oc.outf.written)
  rw [h] at h1
  cases h1
  refine ⟨_, hL, oc.rc, ?_, ?_, h2, ?_, ?_, h4⟩
  · rw [if_neg (not_not.2 hv), q1, c2, c5]
  · rw [if_pos hv, h3, q2, c2, c5]
  · rw [if_pos hv, h5]
    simp only [keysOf_append, keysOf_keys, (keys_close env i).1, (keys_closeOut env q.outfile.isSome).1, keys_end.1, if_true, List.append_nil,
      (keys_openOut env q.outfile).1, List.append_assoc, c6]
    rw [q3, c2]
    rfl
  · rw [h5]
    simp only [passOf_append, passOf_keys, (keys_close env i).2, (keys_closeOut env q.outfile.isSome).2, keys_end.2.1, if_true, List.append_nil,
      (keys_openOut env q.outfile).2]

/-- Everything holding a key is zeroed and freed in the copying phase, unless a write fails. -/
theorem copyTrace_clean (sys : EncSys) (D : Bytes) (outf : OutFile) (hc : ¬ (aesCode sys = .OK ∧ ¬ Fits outf (D.length - 128))) (x : Obj) :
    CleanedUp ([.alloc .cookie] ++ copyTrace sys D outf ++ [.zero .cookie, .free .cookie]) x := by
  unfold copyTrace
  rw [if_neg hc]
  have := openTrace_clean sys x
  unfold CleanedUp eventsOf at this ⊢
  rw [List.filter_append, List.filter_append]
  cases x with
  | cookie =>
    have : List.filter (fun e => decide (Ev.obj e = Obj.cookie)) (openTrace sys) = [] := by
      unfold openTrace fullTrace
      split
      · decide
      split <;> decide
    rw [this]
    exact .inr (by decide)
  | aesKey => simpa [Ev.obj] using this
  | aesCtr => simpa [Ev.obj] using this

end Scrypt.Props
