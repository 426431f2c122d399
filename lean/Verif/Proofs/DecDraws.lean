import Verif.Proofs.Process
/-
Decryptions draw no random bytes: no decryption reports a failure to read a salt, so none asks for one.
-/
namespace Scrypt
open Scrypt.Props

/-- The call does not end with `.ESALT`. -/
def NoSalt {α : Type} (rc : α → Code) (x : Res α) : Prop := ∀ o, x = .ok o → rc o ≠ .ESALT

theorem NoSalt.bind {α β : Type} {rc : β → Code} {x : Res α} {f : α → Res β} (h : ∀ a, x = .ok a → NoSalt rc (f a)) : NoSalt rc (x >>= f) := by
  intro o ho
  obtain ⟨a, h1, h2⟩ := Res.bind_eq_ok.1 ho
  exact h a h1 o h2

theorem NoSalt.ok {α : Type} {rc : α → Code} {o : α} (h : rc o ≠ .ESALT) : NoSalt rc (.ok o) := by
  intro o' ho
  rw [← Res.ok.inj ho]; exact h

theorem limitCode_noSalt (a : Nat) (b : F64) (c d e : Nat) : limitCode a b c d e ≠ .ESALT := by
  unfold limitCode
  simp only []
  split
  · decide
  · split
    · decide
    · split <;> decide

theorem checkparams_noSalt {sys : ParamSys} (hp : sys.perf.1 ≠ .ESALT) (a : Nat) (b c : F64) (l : Int) (r p : W32) (v f : Bool) :
    NoSalt (·.1) (checkparams sys a b c l r p v f) := by
  unfold checkparams
  split
  · exact .ok (by decide)
  · split
    · exact .ok (by decide)
    · split
      · exact .ok (by decide)
      · split
        · exact .bind fun t _ => .ok (by simp)
        · refine .bind fun ml _ => ?_
          cases ml with
          | none => exact .ok (by decide)
          | some ml =>
            simp only []
            split
            · exact .ok hp
            · exact .bind fun t _ => .ok (limitCode_noSalt _ _ _ _ _)

theorem checkSig_noSalt (sys : EncSys) (h : Bytes) (P : EncParams) (err : List Msg) (o : ScOut) (st : Option SmixImpl) :
    NoSalt (·.rc) (checkSig sys h P err o st) := by
  unfold checkSig
  refine .bind fun _ _ => .bind fun _ _ => .bind fun v _ => ?_
  split <;> exact .ok (by simp)

theorem decSetup_noSalt {sys : EncSys} (hp : sys.par.perf.1 ≠ .ESALT) (h pw : Bytes) (P : EncParams) (v f : Bool) :
    NoSalt (·.rc) (scryptdec_setup sys h pw P v f) := by
  unfold scryptdec_setup
  refine .bind fun _ _ => .bind fun _ _ => .bind fun _ _ => ?_
  simp only []
  refine .bind fun _ _ => .bind fun _ _ => .bind fun _ _ => .bind fun _ _ => ?_
  split
  · exact .ok (by simp)
  · refine .bind fun x hx => ?_
    obtain ⟨rc, t⟩ := x
    have := checkparams_noSalt hp _ _ _ _ _ _ _ _ _ hx
    simp only [] at this ⊢
    split
    · exact .ok this
    · refine .bind fun y _ => ?_
      obtain ⟨o, st⟩ := y
      simp only []
      split
      · exact .ok (by simp)
      · exact checkSig_noSalt _ _ _ _ _ _

theorem aesOpen_noSalt (sys : EncSys) (dk : Bytes) : NoSalt (·.1.1) (aesOpen sys dk) := by
  unfold aesOpen
  refine .bind fun k _ => ?_
  cases k with
  | none => exact .ok (by simp)
  | some k =>
    refine .bind fun s _ => ?_
    cases s with
    | none => exact .ok (by simp)
    | some s => exact .ok (by simp)

theorem decBuf_noSalt {sys : EncSys} (hp : sys.par.perf.1 ≠ .ESALT) (i o : Bytes) (n : Nat) (pw : Bytes) (P : EncParams) (v f : Bool) :
    NoSalt (·.rc) (scryptdec_buf sys i o n pw P v f) := by
  unfold scryptdec_buf
  refine .bind fun _ _ => ?_
  split
  · exact .ok (by simp)
  · refine .bind fun _ _ => ?_
    split
    · exact .ok (by simp)
    · split
      · exact .ok (by simp)
      · refine .bind fun s hs => ?_
        have := decSetup_noSalt hp _ _ _ _ _ s hs
        split
        · exact .ok this
        · unfold decBufBody
          refine .bind fun a ha => ?_
          cases h2 : a.1.2 with
          | none => exact .ok (aesOpen_noSalt _ _ a ha)
          | some st =>
            refine .bind fun _ _ => .bind fun x _ => ?_
            obtain ⟨_, c⟩ := x
            refine .bind fun _ _ => .bind fun _ _ => .bind fun _ _ => .bind fun _ _ => .bind fun vv _ => .ok ?_
            simp only []
            split <;> simp

theorem decFileEnd_noSalt (sys : EncSys) (err : Bool) (tr : List Ev) (l : LoopEnd) : NoSalt (·.rc) (decFileEnd sys err tr l) := by
  unfold decFileEnd
  split
  · exact .ok (by simp)
  · simp only []
    split
    · exact .ok (by simp)
    · split
      · exact .ok (by simp)
      · refine .bind fun x _ => ?_
        obtain ⟨t, _⟩ := x
        refine .bind fun v _ => .ok ?_
        simp only []
        split <;> simp

theorem loadHeader_noSalt (f : InFile) (h : Bytes) : NoSalt (·.1) (scryptdec_file_load_header f h) := by
  have short : ∀ f, shortCode f ≠ .ESALT := by intro f; unfold shortCode; split <;> simp
  unfold scryptdec_file_load_header
  split
  · exact .ok (short _)
  · refine .bind fun _ _ => .bind fun _ _ => ?_
    split
    · exact .ok (by simp)
    · refine .bind fun _ _ => ?_
      split
      · exact .ok (by simp)
      · split
        · exact .ok (short _)
        · exact .bind fun _ _ => .ok (by simp)

theorem decFile_noSalt {sys : EncSys} (hp : sys.par.perf.1 ≠ .ESALT) (i : InFile) (o : OutFile) (pw : Bytes) (P : EncParams) (v f : Bool) :
    NoSalt (·.rc) (scryptdec_file sys i o pw P v f) := by
  unfold scryptdec_file
  refine .bind fun _ _ => .bind fun p hpr => ?_
  have hprep : NoSalt (·.rc) (scryptdec_file_prep sys i pw P v f) := by
    unfold scryptdec_file_prep
    refine .bind fun _ _ => ?_
    split
    · exact .ok (by simp)
    · refine .bind fun x hx => ?_
      obtain ⟨rc, h, inf⟩ := x
      have := loadHeader_noSalt _ _ _ hx
      simp only [] at this ⊢
      split
      · exact .ok this
      · refine .bind fun s hs => ?_
        have := decSetup_noSalt hp _ _ _ _ _ s hs
        split
        · exact .ok this
        · exact .ok (by simp)
  cases hc : p.cookie with
  | none => exact .ok (hprep p hpr)
  | some c =>
    refine .bind fun x hx => ?_
    refine .ok ?_
    have : NoSalt (·.rc) (scryptdec_file_copy sys c o) := by
      unfold scryptdec_file_copy
      refine .bind fun _ _ => .bind fun _ _ => .bind fun _ _ => .bind fun _ _ => .bind fun a ha => ?_
      cases h2 : a.1.2 with
      | none => exact .ok (aesOpen_noSalt _ _ a ha)
      | some st => exact .bind fun l _ => decFileEnd_noSalt _ _ _ _
    exact this x hx

/-- A call that never reports `.ESALT` leaves the generator alone. -/
theorem withAnswers_undrawn {α : Type} {m : Machine} (gm : m.Good) {e : CallEnv} (ge : e.Good) {st : Statics} (hi : StInv m st) {f : EncSys → Res α} {rc : α → Code}
    {smix : α → Option SmixImpl} {o : α} {st' : Statics} (hf : ∀ sys, sys.Good → NoSalt rc (f sys)) (h : withAnswers m e st f rc smix = .ok (some (o, st'))) :
    st'.drbg = st.drbg ∧ st'.seeds = st.seeds := by
  unfold withAnswers at h
  obtain ⟨r, h1, h⟩ := Res.bind_eq_ok.1 h
  cases r with
  | none => cases h
  | some x =>
    simp only [] at h
    obtain ⟨o', h2, h⟩ := Res.bind_eq_ok.1 h
    obtain ⟨rfl, rfl⟩ := Prod.mk.inj (Option.some.inj (Res.ok.inj h))
    unfold answers at h1
    rw [hi.sha_init, Res.bind_ok] at h1
    obtain ⟨r, g1, h1⟩ := Res.bind_eq_ok.1 h1
    cases r with
    | none => cases h1
    | some sys =>
      simp only [] at h1
      obtain ⟨a1, a2⟩ := askPerf_answered (baseSys_answered gm ge st.smix) g1
      obtain ⟨r, h3, h1⟩ := Res.bind_eq_ok.1 h1
      cases r with
      | none => cases h1
      | some y =>
        simp only [] at h1
        obtain ⟨z, h4, h1⟩ := Res.bind_eq_ok.1 h1
        have h1 := Option.some.inj (Res.ok.inj h1)
        subst h1
        have hno : reports (f sys >>= fun o => Res.ok (rc o)) .ESALT = false := by
          cases hr : (f sys >>= fun o => Res.ok (rc o)) with
          | ok c =>
            obtain ⟨o1, q1, q2⟩ := Res.bind_eq_ok.1 hr
            have := hf sys a1.good o1 q1
            rw [Res.ok.inj q2] at this
            unfold reports
            simp only [decide_eq_false_iff_not]
            exact this
          | _ => rfl
        unfold askSalt at h3
        rw [hno, if_neg (by simp)] at h3
        have h3 := Option.some.inj (Res.ok.inj h3)
        subst h3
        unfold askAes at h4
        split at h4
        · obtain ⟨hw, -, h4⟩ := Res.bind_eq_ok.1 h4
          have h4 := Res.ok.inj h4
          subst h4
          exact ⟨rfl, rfl⟩
        · have h4 := Res.ok.inj h4
          subst h4
          exact ⟨rfl, rfl⟩

/-- A decryption or a key derivation leaves the random generator and the system's source alone. -/
theorem quiet_undrawn {m : Machine} (gm : m.Good) {e : CallEnv} (ge : e.Good) {st st' : Statics} (hi : StInv m st) {c : LibCall} {o : LibOut}
    (hq : match c with | .encBuf .. | .encFile .. | .random _ => False | _ => True) (h : libCall m e st c = .ok (some (o, st'))) :
    st'.drbg = st.drbg ∧ st'.seeds = st.seeds := by
  have hp : ∀ sys : EncSys, sys.Good → sys.par.perf.1 ≠ .ESALT := by
    intro sys g
    rcases g.perf with h | h | h <;> rw [h] <;> decide
  have wrap : ∀ {α : Type} {f : EncSys → Res α} {rc : α → Code} {smix : α → Option SmixImpl} {k : α → LibOut}, (∀ sys, sys.Good → NoSalt rc (f sys)) →
      (withAnswers m e st f rc smix >>= fun r => Res.ok (r.map fun x => (k x.1, x.2))) = .ok (some (o, st')) → st'.drbg = st.drbg ∧ st'.seeds = st.seeds := by
    intro α f rc smix k hf h
    obtain ⟨r, h1, h⟩ := Res.bind_eq_ok.1 h
    cases r with
    | none => cases h
    | some x =>
      obtain ⟨rfl, rfl⟩ := Prod.mk.inj (Option.some.inj (Res.ok.inj h))
      exact withAnswers_undrawn gm ge hi hf h1
  cases c with
  | encBuf => exact hq.elim
  | encFile => exact hq.elim
  | random => exact hq.elim
  | decBuf a1 a2 a3 a4 a5 a6 a7 => exact wrap (k := .buf) (fun sys g => decBuf_noSalt (hp sys g) _ _ _ _ _ _ _) h
  | decFile a1 a2 a3 a4 a5 a6 => exact wrap (k := .file) (fun sys g => decFile_noSalt (hp sys g) _ _ _ _ _ _) h
  | kdf a1 a2 a3 a4 a5 a6 a7 =>
    unfold libCall at h
    obtain ⟨sha, -, h⟩ := Res.bind_eq_ok.1 h
    obtain ⟨x, -, h⟩ := Res.bind_eq_ok.1 h
    have h := (Prod.mk.inj (Option.some.inj (Res.ok.inj h))).2
    subst h
    exact ⟨rfl, rfl⟩

end Scrypt
