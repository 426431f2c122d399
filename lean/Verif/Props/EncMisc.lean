import Verif.Props.EncAuth
/-
C15, C16, C27, C41, C44, C46, C51: explicit parameters, force, comparison, clean-up, info mode, salt, totality.
-/
namespace Scrypt.Props
open Scrypt Spec F64

set_option exponentiation.threshold 1100

/-! ### C15: explicit parameters -/

/-- The memory warning of scryptenc_setup. -/
def memWarning : Msg := .warn "Warning: Explicit parameters might exceed memory limit".toList

/-- The time warning of scryptenc_setup. -/
def timeWarning : Msg := .warn "Warning: Explicit parameters might exceed time limit".toList

/-- The checks an encryption with explicit parameters makes before any output, in order. -/
def explicitChecks (sys : EncSys) (P : EncParams) (force : Bool) : List (Prop × Code) :=
  [(GoodParams P.logN P.r.toNat P.p.toNat, .EPARAM),
   (force = true ∨ ∃ m, MemLimit sys P m, .ELIMIT),
   (force = true ∨ sys.par.perf.1 = .OK, sys.par.perf.1),
   (sys.salt ≠ none, .ESALT),
   (KdfOk sys (2 ^ P.logN.toNat) P.r.toNat P.p.toNat, .EKEY)]

/-- The resource limits were examined. -/
def Examined (sys : EncSys) (P : EncParams) (force : Bool) : Prop :=
  force = false ∧ GoodParams P.logN P.r.toNat P.p.toNat ∧ (∃ m, MemLimit sys P m) ∧ sys.par.perf.1 = .OK

theorem msgOf_warn (t : CStr) : memWarning ∉ msgOf t ∧ timeWarning ∉ msgOf t := by
  unfold msgOf memWarning timeWarning
  split <;> simp

theorem warnings_ne : memWarning ≠ timeWarning := by unfold memWarning timeWarning; decide

theorem explicitWarn_mem (c : Code) :
    (memWarning ∈ explicitWarn c ↔ c = .ETOOBIG ∨ c = .EBIGSLOW) ∧ (timeWarning ∈ explicitWarn c ↔ c = .ETOOSLOW ∨ c = .EBIGSLOW) := by
  have e : explicitWarn c = (if c = .ETOOBIG ∨ c = .EBIGSLOW then [memWarning] else []) ++
      (if c = .ETOOSLOW ∨ c = .EBIGSLOW then [timeWarning] else []) := rfl
  have h1 := warnings_ne
  rw [e]
  constructor
  · by_cases a : c = .ETOOBIG ∨ c = .EBIGSLOW <;> by_cases b : c = .ETOOSLOW ∨ c = .EBIGSLOW <;> simp [a, b, h1]
  · by_cases a : c = .ETOOBIG ∨ c = .EBIGSLOW <;> by_cases b : c = .ETOOSLOW ∨ c = .EBIGSLOW <;> simp [a, b, h1.symm]

theorem setup_explicit {sys : EncSys} (g : sys.Good) {passwd : Bytes} {P : EncParams} {verbose force : Bool} (hl : LimitsOk sys P verbose force)
    (h0 : P.logN ≠ 0) {s : SetupOut} (h : scryptenc_setup sys passwd P verbose force = .ok s) :
    s.rc = firstFail .OK (explicitChecks sys P force) ∧ s.P = P ∧
    (memWarning ∈ s.err ↔ Examined sys P force ∧ TooBig sys P (2 ^ P.logN.toNat) P.r.toNat) ∧
    (timeWarning ∈ s.err ↔ Examined sys P force ∧ TooSlow sys P (2 ^ P.logN.toNat) P.r.toNat P.p.toNat) := by
  obtain ⟨c, hc, s1, s2⟩ := encSetup_spec g h
  unfold setupParams at hc
  rw [if_pos h0] at hc
  obtain ⟨t, ht⟩ := checkparams_table g hl P.logN P.r P.p
  rw [ht, Res.bind_ok] at hc
  generalize hcode : firstFail .OK ((GoodParams P.logN P.r.toNat P.p.toNat, Code.EINVAL) ::
    limitTable sys P force (2 ^ P.logN.toNat) P.r.toNat P.p.toNat) = code at hc
  simp only [Res.ok.injEq, Prod.mk.injEq] at hc
  obtain ⟨hc1, hc2, hc3⟩ := hc
  rw [← hc2] at s2 ⊢
  rw [← hc3, List.mem_append, List.mem_append]
  obtain ⟨w1, w2⟩ := explicitWarn_mem code
  obtain ⟨m1, m2⟩ := msgOf_warn t
  rw [w1, w2]
  simp only [m1, m2, false_or]
  unfold explicitChecks Examined
  by_cases hg : GoodParams P.logN P.r.toNat P.p.toNat
  case neg =>
    rw [firstFail_stop hg] at hcode
    subst hcode
    rw [firstFail_stop hg, s1 (by rw [← hc1]; simp [explicitCode]), ← hc1]
    simp [hg, explicitCode]
  rw [firstFail_cons hg] at hcode ⊢
  unfold limitTable at hcode
  cases force with
  | true =>
    rw [firstFail_cons (.inl rfl), firstFail_cons (.inl rfl), firstFail_cons (.inl rfl), firstFail_cons (.inl rfl), firstFail_cons (.inl rfl)] at hcode
    rw [firstFail_cons (.inl rfl), firstFail_cons (.inl rfl)]
    subst hcode
    exact ⟨s2 (by rw [← hc1]; simp [explicitCode, firstFail]), trivial, by simp [firstFail], by simp [firstFail]⟩
  | false =>
    by_cases l1 : ∃ m, MemLimit sys P m
    case neg =>
      rw [firstFail_stop (by simpa using l1)] at hcode ⊢
      subst hcode
      rw [s1 (by rw [← hc1]; simp [explicitCode]), ← hc1]
      simp [l1, explicitCode]
    rw [firstFail_cons (.inr l1)] at hcode ⊢
    by_cases l2 : sys.par.perf.1 = .OK
    case neg =>
      rw [firstFail_stop (by simpa using l2)] at hcode ⊢
      subst hcode
      have : explicitCode sys.par.perf.1 = sys.par.perf.1 ∧ sys.par.perf.1 ≠ .ETOOBIG ∧ sys.par.perf.1 ≠ .EBIGSLOW ∧ sys.par.perf.1 ≠ .ETOOSLOW := by
        rcases g.perf with h | h | h <;> rw [h] <;> simp [explicitCode]
      rw [s1 (by rw [← hc1, this.1]; exact l2), ← hc1, this.1]
      simp [l2, this.2]
    rw [firstFail_cons (.inr l2)] at hcode ⊢
    have key : explicitCode code = .OK ∧ ((code = .ETOOBIG ∨ code = .EBIGSLOW) ↔ TooBig sys P (2 ^ P.logN.toNat) P.r.toNat) ∧
        ((code = .ETOOSLOW ∨ code = .EBIGSLOW) ↔ TooSlow sys P (2 ^ P.logN.toNat) P.r.toNat P.p.toNat) := by
      by_cases a : TooBig sys P (2 ^ P.logN.toNat) P.r.toNat <;> by_cases b : TooSlow sys P (2 ^ P.logN.toNat) P.r.toNat P.p.toNat
      · rw [firstFail_stop (by simp [a, b])] at hcode
        subst hcode
        simp [a, b, explicitCode]
      · rw [firstFail_cons (by simp [b]), firstFail_stop (by simp [a])] at hcode
        subst hcode
        simp [a, b, explicitCode]
      · rw [firstFail_cons (by simp [a]), firstFail_cons (by simp [a]), firstFail_stop (by simp [b])] at hcode
        subst hcode
        simp [a, b, explicitCode]
      · rw [firstFail_cons (by simp [a]), firstFail_cons (by simp [a]), firstFail_cons (by simp [b])] at hcode
        subst hcode
        simp [a, b, explicitCode, firstFail]
    refine ⟨s2 (by rw [← hc1]; exact key.1), trivial, ?_, ?_⟩
    · rw [key.2.1]; simp [hg, l1, l2]
    · rw [key.2.2]; simp [hg, l1, l2]

theorem explicit_codes {sys : EncSys} (g : sys.Good) (P : EncParams) (force : Bool) :
    (firstFail .OK (explicitChecks sys P force) = .EPARAM ↔ ¬ GoodParams P.logN P.r.toNat P.p.toNat) ∧
    firstFail .OK (explicitChecks sys P force) ≠ .ETOOBIG ∧ firstFail .OK (explicitChecks sys P force) ≠ .ETOOSLOW ∧
    firstFail .OK (explicitChecks sys P force) ≠ .EBIGSLOW := by
  unfold explicitChecks
  by_cases h1 : GoodParams P.logN P.r.toNat P.p.toNat
  case neg => rw [firstFail_stop h1]; simp [h1]
  rw [firstFail_cons h1]
  by_cases h2 : force = true ∨ ∃ m, MemLimit sys P m
  case neg => rw [firstFail_stop h2]; simp [h1]
  rw [firstFail_cons h2]
  by_cases h3 : force = true ∨ sys.par.perf.1 = .OK
  case neg => rw [firstFail_stop h3]; rcases g.perf with h | h | h <;> rw [h] <;> simp [h1]
  rw [firstFail_cons h3]
  by_cases h4 : sys.salt ≠ none
  case neg => rw [firstFail_stop h4]; simp [h1]
  rw [firstFail_cons h4]
  by_cases h5 : KdfOk sys (2 ^ P.logN.toNat) P.r.toNat P.p.toNat
  case neg => rw [firstFail_stop h5]; simp [h1]
  rw [firstFail_cons h5]
  simp [firstFail, h1]

/-- C15, buffers. With explicit parameters encryption fails with EPARAM exactly when they are invalid, and never for
exceeding a limit; the memory (time) warning is printed exactly when the memory (time) limit was examined and found
exceeded. -/
theorem C15_buf {sys : EncSys} (g : sys.Good) {m outbuf passwd : Bytes} (hm : m.length < 2 ^ 64)
    (hout : m.length + 128 ≤ outbuf.length) {P : EncParams} {verbose force : Bool} (hl : LimitsOk sys P verbose force) (h0 : P.logN ≠ 0)
    {o : BufOut} (h : scryptenc_buf sys m outbuf passwd P verbose force = .ok o) :
    (o.rc = .EPARAM ↔ ¬ GoodParams P.logN P.r.toNat P.p.toNat) ∧
    o.rc ≠ .ETOOBIG ∧ o.rc ≠ .ETOOSLOW ∧ o.rc ≠ .EBIGSLOW ∧
    o.rc = firstFail .OK (explicitChecks sys P force ++ [(aesAvail sys = true, .EOPENSSL), (sys.ctr ≠ none, .ENOMEM)]) ∧
    (memWarning ∈ o.err ↔ Examined sys P force ∧ TooBig sys P (2 ^ P.logN.toNat) P.r.toNat) ∧
    (timeWarning ∈ o.err ↔ Examined sys P force ∧ TooSlow sys P (2 ^ P.logN.toNat) P.r.toNat P.p.toNat) := by
  obtain ⟨s, hs, b1, b2, -, b3, b4⟩ := encBuf_spec g hm hout h
  obtain ⟨s1, s2, s3, s4⟩ := setup_explicit g hl h0 hs
  obtain ⟨c1, c2, c3, c4⟩ := explicit_codes g P force
  obtain ⟨p1, p2⟩ := firstFail_split (ok := Code.OK) (a := explicitChecks sys P force)
    (b := [(aesAvail sys = true, .EOPENSSL), (sys.ctr ≠ none, .ENOMEM)]) (by
      unfold explicitChecks
      simp only [List.mem_cons, List.not_mem_nil, or_false]
      rintro x (rfl | rfl | rfl | rfl | rfl) <;> simp
      intro h; exact .inr h)
  rw [b2]
  rw [← s1] at c1 c2 c3 c4 p1 p2
  by_cases hr : s.rc = .OK
  · have e : aesCode sys = firstFail .OK [(aesAvail sys = true, .EOPENSSL), (sys.ctr ≠ none, .ENOMEM)] := by
      rw [aes_table]
      by_cases ha : aesCode sys = .OK
      · rw [firstFail_cons ha, ha]; rfl
      · rw [firstFail_stop ha]
    have hg : GoodParams P.logN P.r.toNat P.p.toNat := by
      by_contra hc; rw [c1.2 hc] at hr; cases hr
    have ha : aesCode sys = .OK ∨ aesCode sys = .EOPENSSL ∨ aesCode sys = .ENOMEM := by
      unfold aesCode; split
      · simp
      · split <;> simp
    rw [p1 hr, (b4 hr).1]
    refine ⟨?_, ?_, ?_, ?_, e, s3, s4⟩ <;> rcases ha with ha | ha | ha <;> rw [ha] <;> simp [hg]
  · rw [p2 hr, (b3 hr).1]
    exact ⟨c1, c2, c3, c4, rfl, s3, s4⟩

/-- C15, streams. -/
theorem C15_file {sys : EncSys} (g : sys.Good) {inf : InFile} {outf : OutFile} {passwd : Bytes} (hin : inf.data.length < 2 ^ 64)
    {P : EncParams} {verbose force : Bool} (hl : LimitsOk sys P verbose force) (h0 : P.logN ≠ 0) {o : FileOut}
    (h : scryptenc_file sys inf outf passwd P verbose force = .ok o) :
    (o.rc = .EPARAM ↔ ¬ GoodParams P.logN P.r.toNat P.p.toNat) ∧
    o.rc ≠ .ETOOBIG ∧ o.rc ≠ .ETOOSLOW ∧ o.rc ≠ .EBIGSLOW ∧
    (firstFail .OK (explicitChecks sys P force) ≠ .OK → o.rc = firstFail .OK (explicitChecks sys P force) ∧ o.outf = outf) ∧
    (memWarning ∈ o.err ↔ Examined sys P force ∧ TooBig sys P (2 ^ P.logN.toNat) P.r.toNat) ∧
    (timeWarning ∈ o.err ↔ Examined sys P force ∧ TooSlow sys P (2 ^ P.logN.toNat) P.r.toNat P.p.toNat) := by
  classical
  obtain ⟨s, hs, b1, b2, -, b3, b4⟩ := encFile_spec g hin h
  obtain ⟨s1, s2, s3, s4⟩ := setup_explicit g hl h0 hs
  obtain ⟨c1, c2, c3, c4⟩ := explicit_codes g P force
  rw [b2]
  rw [← s1] at c1 c2 c3 c4 ⊢
  by_cases hr : s.rc = .OK
  · have hg : GoodParams P.logN P.r.toNat P.p.toNat := by
      by_contra hc; rw [c1.2 hc] at hr; cases hr
    have ha : aesCode sys = .OK ∨ aesCode sys = .EOPENSSL ∨ aesCode sys = .ENOMEM := by
      unfold aesCode; split
      · simp
      · split <;> simp
    obtain ⟨_, _, -, -, -, -, -, -, -, f5, -⟩ := b4 hr
    have hrc : o.rc = .EWRFILE ∨ o.rc = .ERDFILE ∨ o.rc = .OK ∨ o.rc = .EOPENSSL ∨ o.rc = .ENOMEM := by
      rw [f5]
      split
      · simp
      split
      · rcases ha with ha | ha | ha <;> rw [ha] <;> simp
      split
      · simp
      split
      · simp
      split <;> simp
    refine ⟨?_, ?_, ?_, ?_, fun hc => absurd hr hc, s3, s4⟩ <;> rcases hrc with ha | ha | ha | ha | ha <;> rw [ha] <;> simp [hg]
  · rw [(b3 hr).1]
    exact ⟨c1, c2, c3, c4, fun _ => ⟨rfl, (b3 hr).2.1⟩, s3, s4⟩

/-! ### C16: force -/

theorem ite_P {α : Type} {Q : α → Prop} {c : Prop} [Decidable c] {a b : α} (ha : Q a) (hb : Q b) : Q (if c then a else b) := by
  split
  · exact ha
  · exact hb


theorem paramCode_forced {sys : EncSys} (g : sys.Good) {P : EncParams} {verbose : Bool} (hl : LimitsOk sys P verbose true) (D : Bytes) :
    (paramCode sys P verbose true D = .OK ∧ GoodParams (hdrLogN D) (hdrR D) (hdrP D)) ∨
    (paramCode sys P verbose true D = .EINVAL ∧ ¬ GoodParams (hdrLogN D) (hdrR D) (hdrP D)) := by
  rcases paramCode_cases g hl D with h | h | h
  · exact .inl ⟨h.1, h.2.1⟩
  · exact .inr h
  · exact absurd (.inl rfl) h.2

/-- The codes of the resource checks that `force` suppresses (EKEY can still come from the key derivation). -/
def Suppressed (c : Code) : Prop := c = .ETOOBIG ∨ c = .ETOOSLOW ∨ c = .EBIGSLOW ∨ c = .ELIMIT ∨ c = .ECLOCK

/-- C16, buffers. With force no resource code is returned and invalid parameters are still rejected (success implies
valid ones; with a correct checksum, invalid ones give EINVAL). -/
theorem C16_buf {sys : EncSys} (g : sys.Good) {D outbuf passwd : Bytes} {outlen : Nat} (hD : D.length < 2 ^ 64) (hout : D.length ≤ outbuf.length)
    {P : EncParams} {verbose : Bool} (hl : LimitsOk sys P verbose true) {o : BufOut}
    (h : scryptdec_buf sys D outbuf outlen passwd P verbose true = .ok o) :
    ¬ Suppressed o.rc ∧ (¬ GoodParams (hdrLogN D) (hdrR D) (hdrP D) → o.rc = .EINVAL ∨ o.rc = .EVERSION) ∧
    (o.rc = .OK → GoodParams (hdrLogN D) (hdrR D) (hdrP D)) := by
  classical
  have hrc := (decBuf_spec g hD hout h).rc
  have ha : aesCode sys = .OK ∨ aesCode sys = .EOPENSSL ∨ aesCode sys = .ENOMEM := by
    unfold aesCode; split
    · simp
    · split <;> simp
  unfold bufVerdict at hrc
  rcases paramCode_forced g hl D with ⟨hp, hg⟩ | ⟨hp, hg⟩
  · refine ⟨?_, fun hc => absurd hg hc, fun _ => hg⟩
    rw [hp] at hrc
    have : o.rc ∈ [Code.EINVAL, .EVERSION, .EKEY, .EPASS, .OK, .EOPENSSL, .ENOMEM] := by
      rw [hrc]
      refine ite_P (by simp) (ite_P (by simp) (ite_P (by simp) (ite_P (by simp) (ite_P (by simp) (ite_P (by simp) (ite_P (by simp)
        (ite_P ?_ (ite_P (by simp) (by simp)))))))))
      rcases ha with ha | ha | ha <;> rw [ha] <;> simp
    intro hc
    rcases hc with hc | hc | hc | hc | hc <;> rw [hc] at this <;> simp at this
  · have : o.rc = .EINVAL ∨ o.rc = .EVERSION := by
      rw [hrc, hp]
      split
      · exact .inl rfl
      split
      · exact .inr rfl
      split
      · exact .inl rfl
      split
      · exact .inl rfl
      · exact .inl (if_pos (by simp))
    refine ⟨?_, fun _ => this, fun hc => ?_⟩
    · rintro (hc | hc | hc | hc | hc) <;> rw [hc] at this <;> simp at this
    · rw [hc] at this; simp at this

theorem headVerdict_mem (D : Bytes) (err : Bool) :
    headVerdict D err ∈ [Code.EINVAL, .EVERSION, .OK] ∨ (err = true ∧ headVerdict D err = .ERDFILE) := by
  unfold headVerdict
  cases err with
  | false => exact .inl (ite_P (by simp) (ite_P (by simp) (ite_P (by simp) (ite_P (by simp) (by simp)))))
  | true =>
    by_cases h1 : D.length < 7
    · rw [if_pos h1]; simp
    rw [if_neg h1]
    by_cases h2 : HasMagic D
    case neg => rw [if_pos h2]; simp
    rw [if_neg (not_not.2 h2)]
    by_cases h3 : VersionOk D
    case neg => rw [if_pos h3]; simp
    rw [if_neg (not_not.2 h3)]
    by_cases h4 : D.length < 96
    · rw [if_pos h4]; simp
    · rw [if_neg h4]; simp

/-- C16, streams. -/
theorem C16_file {sys : EncSys} (g : sys.Good) {inf : InFile} {outf : OutFile} {passwd : Bytes} (hin : inf.data.length < 2 ^ 64)
    {P : EncParams} {verbose : Bool} (hl : LimitsOk sys P verbose true) {o : FileOut}
    (h : scryptdec_file sys inf outf passwd P verbose true = .ok o) :
    ¬ Suppressed o.rc ∧
    (¬ GoodParams (hdrLogN inf.data) (hdrR inf.data) (hdrP inf.data) →
      o.rc = .EINVAL ∨ o.rc = .EVERSION ∨ (sys.cookieOk = false ∧ o.rc = .ENOMEM) ∨ (inf.err = true ∧ o.rc = .ERDFILE)) ∧
    (o.rc = .OK → GoodParams (hdrLogN inf.data) (hdrR inf.data) (hdrP inf.data)) := by
  classical
  have hrc := (decFile_spec g hin h).1
  have ha : aesCode sys = .OK ∨ aesCode sys = .EOPENSSL ∨ aesCode sys = .ENOMEM := by
    unfold aesCode; split
    · simp
    · split <;> simp
  have hh := headVerdict_mem inf.data inf.err
  have hcopy : copyVerdict inf.data inf.err outf (inpKey passwd inf.data) (aesCode sys) ∈ [Code.EINVAL, .OK, .EOPENSSL, .ENOMEM, .EWRFILE, .ERDFILE] := by
    unfold copyVerdict
    refine ite_P ?_ (ite_P (by simp) (ite_P (by simp) (ite_P (by simp) (ite_P (by simp) (by simp)))))
    rcases ha with ha | ha | ha <;> rw [ha] <;> simp
  rcases paramCode_forced g hl inf.data with ⟨hp, hg⟩ | ⟨hp, hg⟩
  · refine ⟨?_, fun hc => absurd hg hc, fun _ => hg⟩
    have hset : sysVerdict sys passwd P verbose true inf.data ∈ [Code.EINVAL, .EKEY, .EPASS, .OK] := by
      unfold sysVerdict setupVerdict
      rw [hp]
      exact ite_P (by simp) (ite_P (by simp) (ite_P (by simp) (ite_P (by simp) (by simp))))
    have hpv : prepVerdict sys inf passwd P verbose true ∈ [Code.ENOMEM, .EINVAL, .EVERSION, .OK, .ERDFILE, .EKEY, .EPASS] := by
      unfold prepVerdict
      split
      · simp
      split
      · rcases hh with hh | ⟨-, hh⟩
        · simp only [List.mem_cons, List.not_mem_nil, or_false] at hh ⊢
          rcases hh with hh | hh | hh <;> rw [hh] <;> simp
        · rw [hh]; simp
      · simp only [List.mem_cons, List.not_mem_nil, or_false] at hset ⊢
        rcases hset with hh | hh | hh | hh <;> rw [hh] <;> simp
    have : o.rc ∈ [Code.ENOMEM, .EINVAL, .EVERSION, .OK, .ERDFILE, .EKEY, .EPASS, .EOPENSSL, .EWRFILE] := by
      rw [hrc]
      split
      · simp only [List.mem_cons, List.not_mem_nil, or_false] at hpv ⊢
        rcases hpv with hh | hh | hh | hh | hh | hh | hh <;> rw [hh] <;> simp
      · simp only [List.mem_cons, List.not_mem_nil, or_false] at hcopy ⊢
        rcases hcopy with hh | hh | hh | hh | hh | hh <;> rw [hh] <;> simp
    rintro (hc | hc | hc | hc | hc) <;> rw [hc] at this <;> simp at this
  · have hset : sysVerdict sys passwd P verbose true inf.data = .EINVAL := by
      unfold sysVerdict setupVerdict
      rw [hp]
      split
      · rfl
      · exact if_pos (by simp)
    have : o.rc = .EINVAL ∨ o.rc = .EVERSION ∨ (sys.cookieOk = false ∧ o.rc = .ENOMEM) ∨ (inf.err = true ∧ o.rc = .ERDFILE) := by
      have hne : prepVerdict sys inf passwd P verbose true ≠ .OK := by
        intro hc
        have := (prepVerdict_ok.1 hc).2.params
        rw [hp] at this; cases this
      rw [hrc, if_pos hne]
      unfold prepVerdict
      split
      · rename_i hc; exact .inr (.inr (.inl ⟨hc, rfl⟩))
      split
      · rename_i hc
        rcases hh with hh | hh
        · simp only [List.mem_cons, List.not_mem_nil, or_false] at hh
          rcases hh with hh | hh | hh
          · exact .inl hh
          · exact .inr (.inl hh)
          · exact absurd hh hc
        · exact .inr (.inr (.inr hh))
      · exact .inl hset
    refine ⟨?_, fun _ => this, fun hc => ?_⟩
    · rintro (hc | hc | hc | hc | hc) <;> rw [hc] at this <;> simp at this
    · rw [hc] at this; simp at this

/-- C16. When the limits suffice, a forced and an unforced decryption give the same result (buffers): code, output,
length, parameters. -/
theorem C16_same_buf {sys : EncSys} (g : sys.Good) {D outbuf passwd : Bytes} {outlen : Nat} (hD : D.length < 2 ^ 64) (hout : D.length ≤ outbuf.length)
    {P : EncParams} {v v' : Bool} (hl : LimitsOk sys P v true) (hl' : LimitsOk sys P v' false)
    (hlim : LimitsPass sys P false (2 ^ hdrLogN D) (hdrR D) (hdrP D)) {o o' : BufOut}
    (h : scryptdec_buf sys D outbuf outlen passwd P v true = .ok o) (h' : scryptdec_buf sys D outbuf outlen passwd P v' false = .ok o') :
    o.rc = o'.rc ∧ o.out = o'.out ∧ o.outlen = o'.outlen ∧ o.P = o'.P := by
  classical
  have hs := decBuf_spec g hD hout h
  have hs' := decBuf_spec g hD hout h'
  have hp : paramCode sys P v true D = paramCode sys P v' false D := by
    rcases paramCode_forced g hl D with ⟨a, b⟩ | ⟨a, b⟩
    · rw [a]; exact ((paramCode_ok g hl' D).2 ⟨b, hlim⟩).symm
    · rw [a, paramCode_table g hl', firstFail_stop b]
  have hu : Unlocked sys passwd P v true D 128 ↔ Unlocked sys passwd P v' false D 128 :=
    ⟨fun u => ⟨u.len, u.magic, u.version, u.sum, by rw [← hp]; exact u.params, u.kdf, u.pass⟩,
     fun u => ⟨u.len, u.magic, u.version, u.sum, by rw [hp]; exact u.params, u.kdf, u.pass⟩⟩
  refine ⟨by rw [hs.rc, hs'.rc, hp], ?_, ?_, by rw [hs.par, hs'.par]⟩
  · by_cases hc : Unlocked sys passwd P v true D 128 ∧ aesCode sys = .OK
    · rw [(hs.out_yes hc.1 hc.2).1, (hs'.out_yes (hu.1 hc.1) hc.2).1]
    · rw [(hs.out_no hc).1, (hs'.out_no (fun k => hc ⟨hu.2 k.1, k.2⟩)).1]
  · by_cases hc : Unlocked sys passwd P v true D 128 ∧ aesCode sys = .OK
    · rw [(hs.out_yes hc.1 hc.2).2, (hs'.out_yes (hu.1 hc.1) hc.2).2]
    · rw [(hs.out_no hc).2, (hs'.out_no (fun k => hc ⟨hu.2 k.1, k.2⟩)).2]

/-- C16. ... and so for streams. -/
theorem C16_same_file {sys : EncSys} (g : sys.Good) {inf : InFile} {outf : OutFile} {passwd : Bytes} (hin : inf.data.length < 2 ^ 64)
    {P : EncParams} {v v' : Bool} (hl : LimitsOk sys P v true) (hl' : LimitsOk sys P v' false)
    (hlim : LimitsPass sys P false (2 ^ hdrLogN inf.data) (hdrR inf.data) (hdrP inf.data)) {o o' : FileOut}
    (h : scryptdec_file sys inf outf passwd P v true = .ok o) (h' : scryptdec_file sys inf outf passwd P v' false = .ok o') :
    o.rc = o'.rc ∧ o.outf = o'.outf ∧ o.P = o'.P := by
  classical
  obtain ⟨a1, a2, a3, -⟩ := decFile_spec g hin h
  obtain ⟨b1, b2, b3, -⟩ := decFile_spec g hin h'
  have hp : paramCode sys P v true inf.data = paramCode sys P v' false inf.data := by
    rcases paramCode_forced g hl inf.data with ⟨a, b⟩ | ⟨a, b⟩
    · rw [a]; exact ((paramCode_ok g hl' _).2 ⟨b, hlim⟩).symm
    · rw [a, paramCode_table g hl', firstFail_stop b]
  have hv : prepVerdict sys inf passwd P v true = prepVerdict sys inf passwd P v' false := by
    unfold prepVerdict sysVerdict; rw [hp]
  exact ⟨by rw [a1, b1, hv], by rw [a2, b2, hv], by rw [a3, b3]⟩

/-! ### C27: comparison -/

/-- C27. crypto_verify_bytes returns 0 exactly when the first `len` bytes are equal, and its memory accesses (hence,
the loop condition being its only branch, its branches) depend on `len` alone: for each i in turn, byte i of the
first buffer and byte i of the second. -/
theorem C27_verify (a b : Bytes) (len : Nat) (ha : len ≤ a.length) (hb : len ≤ b.length) :
    ∃ v, crypto_verify_bytes a b len = .ok (v, (List.range len).flatMap fun i => [(false, i), (true, i)]) ∧
      (v = 0 ↔ a.take len = b.take len) := verify_bytes_ok a b len ha hb

/-- Non-vacuity for C27: a difference in the last byte is found. -/
example : ∃ v, crypto_verify_bytes [1, 2, 3] [1, 2, 7] 3 = .ok (v, [(false, 0), (true, 0), (false, 1), (true, 1), (false, 2), (true, 2)]) ∧ v ≠ 0 :=
  ⟨4, by decide, by decide⟩

/-! ### C41: clean-up -/

/-- The object an event is about. -/
def Ev.obj : Ev → Obj
  | .alloc o => o
  | .zero o => o
  | .free o => o

/-- The events about one object. -/
def eventsOf (tr : List Ev) (x : Obj) : List Ev := tr.filter fun e => Ev.obj e = x

/-- In `tr`, object `x` was never allocated, or it was allocated, then zeroed, then freed. -/
def CleanedUp (tr : List Ev) (x : Obj) : Prop := Released (eventsOf tr x) (.alloc x) (.zero x) (.free x)

theorem openTrace_clean (sys : EncSys) : ∀ x, CleanedUp (openTrace sys) x := by
  unfold openTrace CleanedUp Released fullTrace
  intro x
  split
  · cases x <;> decide
  split
  · cases x <;> decide
  · cases x <;> decide

theorem nil_clean : ∀ x, CleanedUp [] x := fun _ => .inl rfl

/-- The events of a write error in a data loop: the expanded AES key is neither zeroed nor freed. -/
def leakTrace : List Ev := [.alloc .aesKey, .alloc .aesCtr, .zero .aesCtr, .free .aesCtr]

/-- C41, buffers: whatever happens, the derived key buffer ends up zeroed or was never written, and the heap objects
are cleaned up. -/
theorem C41_buf {sys : EncSys} (g : sys.Good) {m D outbuf passwd : Bytes} {outlen : Nat} {P : EncParams} {verbose force : Bool} {o : BufOut} :
    (m.length < 2 ^ 64 → m.length + 128 ≤ outbuf.length → scryptenc_buf sys m outbuf passwd P verbose force = .ok o →
      o.dk = List.replicate 64 0 ∧ ∀ x, CleanedUp o.tr x) ∧
    (D.length < 2 ^ 64 → D.length ≤ outbuf.length → scryptdec_buf sys D outbuf outlen passwd P verbose force = .ok o →
      (o.dk = List.replicate 64 0 ∨ (o.dk = sys.dk0 ∧ o.tr = [] ∧ (o.rc = .EINVAL ∨ o.rc = .EVERSION))) ∧ ∀ x, CleanedUp o.tr x) := by
  classical
  constructor
  · intro hm hout h
    obtain ⟨s, hs, -, -, b2, b3, b4⟩ := encBuf_spec g hm hout h
    refine ⟨b2, ?_⟩
    by_cases h0 : s.rc = .OK
    · rw [(b4 h0).2]; exact openTrace_clean sys
    · rw [(b3 h0).2.2]; exact nil_clean
  · intro hD hout h
    have hs := decBuf_spec g hD hout h
    constructor
    · by_cases hc : HasMagic D ∧ VersionOk D ∧ 128 ≤ D.length
      · exact .inl (by rw [hs.dk, if_pos hc]; rfl)
      · refine .inr ⟨by rw [hs.dk, if_neg hc], ?_, ?_⟩
        · rw [hs.tr, if_neg]; exact fun u => hc ⟨u.magic, u.version, u.len⟩
        · rw [hs.rc]
          unfold bufVerdict
          by_cases h1 : D.length < 7 ∨ ¬ HasMagic D
          · exact .inl (if_pos h1)
          by_cases h2 : VersionOk D
          · rw [if_neg h1, if_neg (not_not.2 h2), if_pos]
            · exact .inl rfl
            · by_contra h3; exact hc ⟨by by_contra h4; exact h1 (.inr h4), h2, by omega⟩
          · rw [if_neg h1, if_pos h2]; exact .inr rfl
    · rw [hs.tr]
      split
      · exact openTrace_clean sys
      · exact nil_clean

/-- C41, streams, encryption: the derived key is zeroed and everything is cleaned up, except (finding F2) that when
writing fails in the data loop the expanded AES key is leaked, unzeroed. -/
theorem C41_enc_file {sys : EncSys} (g : sys.Good) {inf : InFile} {outf : OutFile} {passwd : Bytes} (hin : inf.data.length < 2 ^ 64)
    {P : EncParams} {verbose force : Bool} {o : FileOut} (h : scryptenc_file sys inf outf passwd P verbose force = .ok o) :
    o.dk = List.replicate 64 0 ∧
    ((∀ x, CleanedUp o.tr x) ∨ (o.tr = leakTrace ∧ o.rc = .EWRFILE ∧ Fits outf 96 ∧ ¬ Fits outf (96 + inf.data.length))) := by
  classical
  obtain ⟨s, hs, -, -, b2, b3, b4⟩ := encFile_spec g hin h
  refine ⟨b2, ?_⟩
  by_cases h0 : s.rc = .OK
  · obtain ⟨_, _, -, -, -, -, -, -, -, f5, -, f6⟩ := b4 h0
    rw [f6]
    by_cases h1 : Fits outf 96
    case neg => rw [if_pos h1]; exact .inl nil_clean
    rw [if_neg (not_not.2 h1)]
    by_cases h2 : aesCode sys = .OK ∧ ¬ Fits outf (96 + inf.data.length)
    · rw [if_pos h2]
      refine .inr ⟨rfl, ?_, h1, h2.2⟩
      rw [f5, if_neg (not_not.2 h1), if_neg (not_not.2 h2.1), if_pos h2.2]
    · rw [if_neg h2]; exact .inl (openTrace_clean sys)
  · rw [(b3 h0).2.2]; exact .inl nil_clean

/-- C41, streams, decryption. -/
theorem C41_dec_file {sys : EncSys} (g : sys.Good) {inf : InFile} {outf : OutFile} {passwd : Bytes} (hin : inf.data.length < 2 ^ 64)
    {P : EncParams} {verbose force : Bool} {o : FileOut} (h : scryptdec_file sys inf outf passwd P verbose force = .ok o) :
    o.dk = List.replicate 64 0 ∧
    ((∀ x, CleanedUp o.tr x) ∨
      (o.tr = [.alloc .cookie] ++ leakTrace ++ [.zero .cookie, .free .cookie] ∧ o.rc = .EWRFILE ∧ ¬ Fits outf (inf.data.length - 128))) := by
  classical
  obtain ⟨f1, -, -, f4, f5⟩ := decFile_spec g hin h
  refine ⟨f5, ?_⟩
  rw [f4]
  by_cases hp : prepVerdict sys inf passwd P verbose force = .OK
  · rw [if_pos hp]
    unfold copyTrace
    by_cases hc : aesCode sys = .OK ∧ ¬ Fits outf (inf.data.length - 128)
    · rw [if_pos hc]
      refine .inr ⟨rfl, ?_, hc.2⟩
      rw [f1, if_neg (not_not.2 hp)]
      unfold copyVerdict
      rw [if_neg (not_not.2 hc.1), if_pos hc.2]
    · rw [if_neg hc]
      left
      intro x
      have := openTrace_clean sys x
      unfold CleanedUp eventsOf at this ⊢
      rw [List.filter_append, List.filter_append]
      cases x with
      | cookie =>
        have : List.filter (fun e => decide (Ev.obj e = Obj.cookie)) (openTrace sys) = [] := by
          unfold openTrace fullTrace
          split
          · decide
          split <;> decide
        rw [this]
        exact .inr (by decide)
      | aesKey => simpa [Ev.obj] using this
      | aesCtr => simpa [Ev.obj] using this
  · rw [if_neg hp]
    left
    intro x
    split
    · cases x
      · exact .inl (by decide)
      · exact .inl (by decide)
      · exact .inr (by decide)
    · exact nil_clean x

/-- Finding F2: such leaks happen: whenever an encryption reaches its data loop and the output takes the header but not
all of the data, the expanded AES key is not cleaned up. -/
theorem C41_F2_witness {sys : EncSys} (g : sys.Good) {inf : InFile} {outf : OutFile} {passwd : Bytes} (hin : inf.data.length < 2 ^ 64)
    {P : EncParams} {verbose force : Bool} {o : FileOut} {s : SetupOut} (h : scryptenc_file sys inf outf passwd P verbose force = .ok o)
    (hs : scryptenc_setup sys passwd P verbose force = .ok s) (h0 : s.rc = .OK) (ha : aesCode sys = .OK) (h1 : Fits outf 96)
    (h2 : ¬ Fits outf (96 + inf.data.length)) : ¬ CleanedUp o.tr .aesKey := by
  classical
  obtain ⟨s', hs', -, -, -, -, b4⟩ := encFile_spec g hin h
  rw [hs] at hs'
  cases hs'
  obtain ⟨_, _, -, -, -, -, -, -, -, -, -, f6⟩ := b4 h0
  rw [f6, if_neg (not_not.2 h1), if_pos ⟨ha, h2⟩]
  unfold CleanedUp Released eventsOf
  decide

/-! ### C44: info mode -/

/-- C44: the text of info mode, for the displayed size `d` of the memory needed. -/
def infoText (logN r p : Nat) (d : Shown) : List Char :=
  "Parameters used: N = ".toList ++ dec (2 ^ logN) ++ "; r = ".toList ++ dec r ++ "; p = ".toList ++ dec p ++ ";\n".toList ++
  "    Decrypting this file requires at least ".toList ++ d.text ++ " of memory".toList ++ ".\n".toList

theorem field_take96 (D : Bytes) {a b : Nat} (h : a + b ≤ 96) : field (D.take 96) a b = field D a b := by
  unfold field
  rw [List.drop_take, List.take_take, Nat.min_eq_left (by omega)]

theorem printparams_eq (disp : DispEnv) (header0 : Bytes) (hh : header0.length = 96) (inf : InFile) :
    ∃ f', f'.err = inf.err ∧ (∃ n, n ≤ 96 ∧ f'.data = inf.data.drop n) ∧
    scryptdec_file_printparams disp header0 inf =
      if headVerdict inf.data inf.err ≠ .OK then .ok (headVerdict inf.data inf.err, [], f')
      else display_params disp (hdrLogN inf.data) (BitVec.ofNat 32 (hdrR inf.data)) (BitVec.ofNat 32 (hdrP inf.data)) 0 (F64.ofNat 0) (F64.ofNat 0) >>=
        fun t => .ok (.OK, t, f') := by
  obtain ⟨h, f', e, fe, fn, fo⟩ := loadHeader_ok inf header0 hh
  refine ⟨f', fe, fn, ?_⟩
  unfold scryptdec_file_printparams
  rw [e, Res.bind_ok]
  simp only []
  by_cases hv : headVerdict inf.data inf.err = .OK
  case neg => rw [if_pos hv, if_pos hv]
  rw [if_neg (not_not.2 hv), if_neg (not_not.2 hv)]
  obtain ⟨h1, -⟩ := fo hv
  obtain ⟨hl, -⟩ := headVerdict_ok.1 hv
  have hlen : h.length = 96 := by rw [h1, List.length_take]; omega
  obtain ⟨b, eb, hb⟩ := rd_logN h (by omega)
  rw [eb, Res.bind_ok, be32dec_field h 8 (by omega), Res.bind_ok, be32dec_field h 12 (by omega), Res.bind_ok, hb]
  subst h1
  unfold hdrLogN hdrR hdrP
  rw [field_take96 _ (by omega), field_take96 _ (by omega), field_take96 _ (by omega)]

/-- C44: what info mode checks, in order, with the codes (as in decryption, `prepChecks`). -/
def infoChecks (D : Bytes) (err : Bool) : List (Prop × Code) :=
  let short : Code := if err then .ERDFILE else .EINVAL
  [(7 ≤ D.length, short), (HasMagic D, .EINVAL), (VersionOk D, .EVERSION), (96 ≤ D.length, short)]

theorem headVerdict_table (D : Bytes) (err : Bool) : headVerdict D err = firstFail .OK (infoChecks D err) := by
  unfold headVerdict infoChecks
  by_cases h1 : D.length < 7
  · rw [if_pos h1, firstFail_stop (by omega)]
  rw [if_neg h1, firstFail_cons (by omega)]
  by_cases h2 : HasMagic D
  case neg => rw [if_pos h2, firstFail_stop h2]
  rw [if_neg (not_not.2 h2), firstFail_cons h2]
  by_cases h3 : VersionOk D
  case neg => rw [if_pos h3, firstFail_stop h3]
  rw [if_neg (not_not.2 h3), firstFail_cons h3]
  by_cases h4 : D.length < 96
  · rw [if_pos h4, firstFail_stop (by omega)]
  rw [if_neg h4, firstFail_cons (by omega)]
  rfl

/-- What display_params shows in info mode. -/
theorem display_info (disp : DispEnv) (h1 : disp.asprintf1 = true) (h2 : disp.asprintf2 = true) (l r p : Nat) (hl : l ≤ 63) (hr : r < 2 ^ 32)
    (hp : p < 2 ^ 32) :
    ∃ d : Shown, display_params disp l (BitVec.ofNat 32 r) (BitVec.ofNat 32 p) 0 (F64.ofNat 0) (F64.ofNat 0) = .ok (infoText l r p d) ∧
      d.Valid ∧ d.value ≤ 128 * r % 2 ^ 32 * 2 ^ l % 2 ^ 64 ∧
      ∀ d' : Shown, d'.Valid → d'.value ≤ 128 * r % 2 ^ 32 * 2 ^ l % 2 ^ 64 → d'.value ≤ d.value := by
  have hN := one_shl_toNat l hl
  have hm : ((128 * BitVec.ofNat 32 r).setWidth 64 * (1 : W64) <<< l).toNat = 128 * r % 2 ^ 32 * 2 ^ l % 2 ^ 64 := by
    rw [BitVec.toNat_mul, hN, BitVec.toNat_setWidth, BitVec.toNat_mul, BitVec.toNat_ofNat, Nat.mod_eq_of_lt hr]
    have : (128 : W32).toNat = 128 := rfl
    rw [this, Nat.mod_eq_of_lt (show 128 * r % 2 ^ 32 < 2 ^ 64 by omega)]
  obtain ⟨d0, e0, -⟩ := humansize_spec (BitVec.ofNat 64 0)
  obtain ⟨d, e, v1, v2, v3⟩ := humansize_spec ((128 * BitVec.ofNat 32 r).setWidth 64 * (1 : W64) <<< l)
  rw [hm] at v2 v3
  refine ⟨d, ?_, v1, v2, v3⟩
  unfold display_params
  rw [if_neg (by omega)]
  have z : F64.lt (F64.ofNat 0) (F64.ofNat 0) = false := by
    have e1 : F64.ofNat 0 = fin false 0 := by
      have := ofNat_small (n := 0) (by norm_num); exact_mod_cast this
    rw [e1]; simp [F64.lt]
  have av : dispAvail 0 (some d0.text) = .ok [] := rfl
  have ti : ∀ x y, dispTime disp (F64.ofNat 0) x y = [] := fun x y => by
    unfold dispTime; rw [if_neg (by rw [z]; exact Bool.false_ne_true)]
  have fs : fmtS (some d.text) = .ok d.text := rfl
  rw [Int.toNat_natCast, h1, h2, e0, Res.bind_ok, e, Res.bind_ok, fs, Res.bind_ok, av, Res.bind_ok, ti, hN, BitVec.toNat_ofNat, BitVec.toNat_ofNat,
    Nat.mod_eq_of_lt hr, Nat.mod_eq_of_lt hp, List.append_nil, List.append_nil]
  unfold infoText fmtD dec
  rfl

/-- C44. Info mode, given the memory for its text: it needs no passphrase (none is an argument), consumes at most the 96
bytes of the header, reports malformed headers with decryption's codes, and for a log2(N) of up to 63 prints N, r and p
as stored and, as the memory needed, the largest displayable size not above 128 * N * r, provided r < 2^25 and
128 * N * r < 2^64 (without that proviso what is printed is the size reduced modulo 2^32 and 2^64: finding F5). -/
theorem C44_info (disp : DispEnv) (h1 : disp.asprintf1 = true) (h2 : disp.asprintf2 = true) (header0 : Bytes) (hh : header0.length = 96)
    (inf : InFile) :
    ∃ f', (∃ n, n ≤ 96 ∧ f'.data = inf.data.drop n) ∧
    (firstFail .OK (infoChecks inf.data inf.err) ≠ .OK →
      scryptdec_file_printparams disp header0 inf = .ok (firstFail .OK (infoChecks inf.data inf.err), [], f')) ∧
    (firstFail .OK (infoChecks inf.data inf.err) = .OK → hdrLogN inf.data ≤ 63 →
      ∃ d : Shown, scryptdec_file_printparams disp header0 inf =
          .ok (.OK, infoText (hdrLogN inf.data) (hdrR inf.data) (hdrP inf.data) d, f') ∧ d.Valid ∧
        let need := 128 * 2 ^ hdrLogN inf.data * hdrR inf.data
        let shown := 128 * hdrR inf.data % 2 ^ 32 * 2 ^ hdrLogN inf.data % 2 ^ 64
        (hdrR inf.data < 2 ^ 25 → need < 2 ^ 64 → shown = need) ∧
        d.value ≤ shown ∧ ∀ d' : Shown, d'.Valid → d'.value ≤ shown → d'.value ≤ d.value) := by
  obtain ⟨f', -, fn, e⟩ := printparams_eq disp header0 hh inf
  refine ⟨f', fn, ?_, ?_⟩
  · rw [← headVerdict_table]
    intro hv
    rw [e, if_pos hv]
  · rw [← headVerdict_table]
    intro hv hl
    have hr : hdrR inf.data < 2 ^ 32 := by rw [← hdrR_toNat]; exact BitVec.isLt _
    have hp : hdrP inf.data < 2 ^ 32 := by rw [← hdrP_toNat]; exact BitVec.isLt _
    obtain ⟨d, ed, v1, v2, v3⟩ := display_info disp h1 h2 _ _ _ hl hr hp
    rw [e, if_neg (not_not.2 hv), ed, Res.bind_ok]
    refine ⟨d, rfl, v1, fun a b => ?_, v2, v3⟩
    rw [Nat.mod_eq_of_lt (show 128 * hdrR inf.data < 2 ^ 32 by omega)]
    rw [Nat.mod_eq_of_lt (by rw [show 128 * hdrR inf.data * 2 ^ hdrLogN inf.data = 128 * 2 ^ hdrLogN inf.data * hdrR inf.data by ring]; exact b)]
    ring

/-- Finding F5: a header with log2(N) >= 64, which decryption rejects, makes info mode shift by 64 or more: undefined
behaviour. -/
theorem C44_F5_shift (disp : DispEnv) (header0 : Bytes) (hh : header0.length = 96) (inf : InFile)
    (hv : firstFail .OK (infoChecks inf.data inf.err) = .OK) (hl : 64 ≤ hdrLogN inf.data) :
    scryptdec_file_printparams disp header0 inf = .ub := by
  obtain ⟨f', -, -, e⟩ := printparams_eq disp header0 hh inf
  rw [headVerdict_table, if_neg (not_not.2 hv)] at e
  rw [e]
  unfold display_params
  rw [if_pos (.inr (by omega))]
  rfl

/-- Finding F5: a header for r = 2^25, logN = 1 (valid parameters; 8 GiB needed) is displayed as needing 0 B. -/
example : 128 * 2 ^ 25 % 2 ^ 32 * 2 ^ 1 % 2 ^ 64 = 0 ∧ GoodParams 1 (2 ^ 25) 1 := by
  unfold GoodParams; decide

/-- Non-vacuity for C44: a header with logN = 10, r = 8, p = 1. -/
example : firstFail .OK (infoChecks (header64 10 8 1 (List.replicate 32 7) ++ List.replicate 32 0) false) = .OK := by
  have l64 : (header64 10 8 1 (List.replicate 32 7)).length = 64 := by
    unfold header64 header48; simp [magic]
  unfold infoChecks
  rw [firstFail_cons (by rw [List.length_append, l64]; omega), firstFail_cons, firstFail_cons,
    firstFail_cons (by rw [List.length_append, l64, List.length_replicate])]
  · rfl
  · unfold VersionOk field header64 header48 magic; simp
  · unfold HasMagic field header64 header48 magic; simp

/-! ### C46: the salt -/

/-- C46. Given the salt and the parameters used, the output is a function of message and passphrase: two successful
encryptions (through either interface, on any systems) with the same salt and parameters give the same bytes. -/
theorem C46_deterministic {s1 s2 : EncSys} (g1 : s1.Good) (g2 : s2.Good) {m out1 out2 passwd : Bytes} (hm : m.length < 2 ^ 64)
    (ho1 : m.length + 128 ≤ out1.length) (ho2 : m.length + 128 ≤ out2.length) {P1 P2 : EncParams} {v1 f1 v2 f2 : Bool} {o1 o2 : BufOut}
    (h1 : scryptenc_buf s1 m out1 passwd P1 v1 f1 = .ok o1) (h2 : scryptenc_buf s2 m out2 passwd P2 v2 f2 = .ok o2)
    (r1 : o1.rc = .OK) (r2 : o2.rc = .OK) (hs : s1.salt = s2.salt) (hl : o1.P.logN = o2.P.logN) (hr : o1.P.r = o2.P.r) (hp : o1.P.p = o2.P.p) :
    o1.out.take (m.length + 128) = o2.out.take (m.length + 128) := by
  obtain ⟨salt, l, a1, a2, a3, a4, a5, -⟩ := C03_buf g1 hm ho1 h1 r1
  obtain ⟨salt', l', b1, b2, b3, b4, b5, -⟩ := C03_buf g2 hm ho2 h2 r2
  rw [a1, b1] at hs
  cases hs
  have : l = l' := by omega
  subst this
  rw [a4, b4, List.take_append_of_le_length (by omega), List.take_append_of_le_length (by omega), hr, hp]

/-- C46. The salt is in the output, verbatim, at bytes 16 .. 47; so encryptions (of any messages) with different salts
differ. -/
theorem C46_salt {s1 s2 : EncSys} (g1 : s1.Good) (g2 : s2.Good) {m1 m2 out1 out2 pw1 pw2 : Bytes} (hm1 : m1.length < 2 ^ 64)
    (hm2 : m2.length < 2 ^ 64)
    (ho1 : m1.length + 128 ≤ out1.length) (ho2 : m2.length + 128 ≤ out2.length) {P1 P2 : EncParams} {v1 f1 v2 f2 : Bool} {o1 o2 : BufOut}
    (h1 : scryptenc_buf s1 m1 out1 pw1 P1 v1 f1 = .ok o1) (h2 : scryptenc_buf s2 m2 out2 pw2 P2 v2 f2 = .ok o2)
    (r1 : o1.rc = .OK) (r2 : o2.rc = .OK) :
    s1.salt = some (field o1.out 16 32) ∧ (s1.salt ≠ s2.salt → o1.out.take (m1.length + 128) ≠ o2.out.take (m2.length + 128)) := by
  obtain ⟨-, -, -, a, -⟩ := C10_enc_buf g1 hm1 ho1 h1 r1
  obtain ⟨-, -, -, b, -⟩ := C10_enc_buf g2 hm2 ho2 h2 r2
  refine ⟨a, fun hs he => hs ?_⟩
  have t : ∀ (X : Bytes) n, hdrSalt (X.take (n + 128)) = hdrSalt X := fun X n => by
    unfold hdrSalt field
    rw [List.drop_take, List.take_take, Nat.min_eq_left (by omega)]
  have := congrArg hdrSalt he
  rw [t, t] at this
  rw [a, b, this]

/-- C46, streams. -/
theorem C46_salt_file {s1 s2 : EncSys} (g1 : s1.Good) (g2 : s2.Good) {i1 i2 : InFile} {u1 u2 : OutFile} {pw1 pw2 : Bytes}
    (hi1 : i1.data.length < 2 ^ 64) (hi2 : i2.data.length < 2 ^ 64) {P1 P2 : EncParams} {v1 f1 v2 f2 : Bool} {o1 o2 : FileOut}
    (h1 : scryptenc_file s1 i1 u1 pw1 P1 v1 f1 = .ok o1) (h2 : scryptenc_file s2 i2 u2 pw2 P2 v2 f2 = .ok o2)
    (r1 : o1.rc = .OK) (r2 : o2.rc = .OK) :
    ∃ D1 D2, o1.outf.written = u1.written ++ D1 ∧ o2.outf.written = u2.written ++ D2 ∧ s1.salt = some (field D1 16 32) ∧
      (s1.salt ≠ s2.salt → D1 ≠ D2) ∧
      (s1.salt = s2.salt → i1.data = i2.data → pw1 = pw2 → o1.P.logN = o2.P.logN → o1.P.r = o2.P.r → o1.P.p = o2.P.p → D1 = D2) := by
  obtain ⟨salt, l, a1, a2, a3, a4, -⟩ := C03_file g1 hi1 h1 r1
  obtain ⟨salt', l', b1, b2, b3, b4, -⟩ := C03_file g2 hi2 h2 r2
  obtain ⟨D1, c1, -, -, -, c2, -⟩ := C10_enc_file g1 hi1 h1 r1
  obtain ⟨D2, d1, -, -, -, d2, -⟩ := C10_enc_file g2 hi2 h2 r2
  refine ⟨D1, D2, c1, d1, c2, fun hs he => hs (by rw [c2, d2, he]), fun hs hi hpw hl hr hp => ?_⟩
  rw [a1, b1] at hs
  cases hs
  have : l = l' := by omega
  subst this
  rw [a4] at c1
  rw [b4] at d1
  rw [← List.append_cancel_left c1, ← List.append_cancel_left d1, hi, hpw, hr, hp]

/-! ### C51: no input makes the functions misbehave -/

/-- C51. Given sensible limits (`LimitsOk`: what the command line lets through) and the memory for the scrypt self-test,
decryption of ANY byte string, through either interface and with any passphrase, returns: no undefined behaviour, no
failed assertion, no endless loop. -/
theorem C51_dec {sys : EncSys} (g : sys.Good) (ready : SelfTestReady sys) (D outbuf passwd : Bytes) (outlen : Nat) (hD : D.length < 2 ^ 64)
    (hout : D.length ≤ outbuf.length) (inf : InFile) (hin : inf.data.length < 2 ^ 64) (outf : OutFile) {P : EncParams} {verbose force : Bool}
    (hz : P.zero = true) (hl : LimitsOk sys P verbose force) :
    (∃ o, scryptdec_buf sys D outbuf outlen passwd P verbose force = .ok o) ∧
    (∃ o, scryptdec_file sys inf outf passwd P verbose force = .ok o) ∧
    (∃ o, scryptdec_file_prep sys inf passwd P verbose force = .ok o) :=
  ⟨decBuf_total g ready hD hout hz (fun _ => checkDefined g hl _),
   decFile_total g ready hin hz (fun _ => checkDefined g hl _),
   decPrep_total g ready hz (fun _ => checkDefined g hl _)⟩

/-- C51. ... and so does encryption of any byte string. -/
theorem C51_enc {sys : EncSys} (g : sys.Good) (ready : SelfTestReady sys) (m outbuf passwd : Bytes) (hm : m.length < 2 ^ 64)
    (hout : m.length + 128 ≤ outbuf.length) (inf : InFile) (hin : inf.data.length < 2 ^ 64) (outf : OutFile) {P : EncParams} {verbose force : Bool}
    (hP : (P.zero || P.nonzero) = true) (hl : EncLimitsOk sys P verbose force) :
    (∃ o, scryptenc_buf sys m outbuf passwd P verbose force = .ok o) ∧ (∃ o, scryptenc_file sys inf outf passwd P verbose force = .ok o) :=
  ⟨encBuf_total g ready hm hout hP hl, encFile_total g ready hin hP hl⟩

/-- C51: the cookie scryptdec_file_prep delivers is one scryptdec_file_copy can work on, even if the input has been cut short in the meantime. -/
theorem C51_copy {sys sys' : EncSys} (g : sys.Good) (g' : sys'.Good) {inf : InFile} (hin : inf.data.length < 2 ^ 64) {passwd : Bytes}
    {P : EncParams} {verbose force : Bool} {o : PrepOut} (h : scryptdec_file_prep sys inf passwd P verbose force = .ok o) {c : Cookie}
    (hc : o.cookie = some c) (outf : OutFile) (rest : InFile) (hr : rest.data.length ≤ c.inf.data.length) :
    ∃ o', scryptdec_file_copy sys' { c with inf := rest } outf = .ok o' := by
  obtain ⟨-, h2, h3, -⟩ := decPrep_spec g h
  by_cases h0 : o.rc = .OK
  · obtain ⟨c', e, c1, c2, -, c3, -⟩ := h2 h0
    rw [hc] at e
    cases e
    have hl : 96 ≤ inf.data.length := by
      have := (decPrep_spec g h).1
      rw [h0] at this
      exact (prepVerdict_ok.1 this.symm).2.len
    obtain ⟨o', e, -⟩ := decCopy_ok g' { c with inf := rest } outf (by show c.header.length = 96; rw [c1, List.length_take]; omega)
      (by show c.dk.length = 64; rw [c3]; exact inpKey_length _ _)
      (by show rest.data.length + 96 < 2 ^ 64; rw [c2, List.length_drop] at hr; omega)
    exact ⟨o', e⟩
  · rw [(h3 h0).1] at hc; cases hc

end Scrypt.Props
