import Verif.Proofs.EncStream
import Verif.Spec.Verdict
/-
Decision tables for the encryption and decryption functions, and that they always return.
-/
namespace Scrypt
open Spec F64

theorem firstFail_cons {C : Type} {ok : C} {c : Prop} {e : C} {rest : List (Prop × C)} (h : c) : firstFail ok ((c, e) :: rest) = firstFail ok rest := by
  classical exact if_pos h

theorem firstFail_stop {C : Type} {ok : C} {c : Prop} {e : C} {rest : List (Prop × C)} (h : ¬ c) : firstFail ok ((c, e) :: rest) = e := by
  classical exact if_neg h

open scoped Classical in
theorem firstFail_append {C : Type} {ok : C} {a b : List (Prop × C)} (he : ∀ x ∈ a, x.2 ≠ ok) :
    firstFail ok (a ++ b) = if firstFail ok a = ok then firstFail ok b else firstFail ok a := by
  classical
  induction a with
  | nil => simp [firstFail]
  | cons x a ih =>
    obtain ⟨c, e⟩ := x
    by_cases h : c
    · rw [List.cons_append, firstFail_cons h, firstFail_cons h]; exact ih (fun x hx => he x (List.mem_cons_of_mem _ hx))
    · rw [List.cons_append, firstFail_stop h, firstFail_stop h, if_neg (he _ List.mem_cons_self)]

theorem firstFail_eq_ok {C : Type} {ok : C} {a : List (Prop × C)} (he : ∀ x ∈ a, x.2 ≠ ok) : firstFail ok a = ok ↔ ∀ x ∈ a, x.1 := by
  classical
  induction a with
  | nil => simp [firstFail]
  | cons x a ih =>
    obtain ⟨c, e⟩ := x
    by_cases h : c
    · rw [firstFail_cons h, ih (fun x hx => he x (List.mem_cons_of_mem _ hx))]; simp [h]
    · rw [firstFail_stop h]
      exact ⟨fun h => absurd h (he _ List.mem_cons_self), fun hh => absurd (hh _ List.mem_cons_self) h⟩

/-! ### Limits -/

/-- The resource limits make sense: without `force`, `maxmemfrac` is a number in (0, 1/2] (what the command line
lets through); with `verbose`, the memory for the display can be allocated. -/
structure LimitsOk (sys : EncSys) (P : EncParams) (verbose force : Bool) : Prop where
  frac : force = false → ∃ q : ℚ, P.maxmemfrac = fin false q ∧ 0 < q ∧ q ≤ 1 / 2 ∧ Rep q
  disp : verbose = true → sys.par.disp.asprintf1 = true ∧ sys.par.disp.asprintf2 = true

/-- The memory limit in force is `m` (see `C17_bounds` for what it is). -/
def MemLimit (sys : EncSys) (P : EncParams) (m : Nat) : Prop :=
  memtouse sys.par.szMax sys.par.cfg sys.par.mem P.maxmem P.maxmemfrac = .ok (some m)

/-- More memory is needed than the limit allows. -/
def TooBig (sys : EncSys) (P : EncParams) (N r : Nat) : Prop := ∃ m, MemLimit sys P m ∧ memNeed N r > m

/-- More time is needed than the limit allows, by the check's (double precision) reckoning. -/
def TooSlow (sys : EncSys) (P : EncParams) (N r p : Nat) : Prop := Props.Slow sys.par.perf.2 P.maxtime N r p

/-- The resource checks as a table. -/
def limitTable (sys : EncSys) (P : EncParams) (force : Bool) (N r p : Nat) : List (Prop × Code) :=
  [(force = true ∨ ∃ m, MemLimit sys P m, .ELIMIT),
   (force = true ∨ sys.par.perf.1 = .OK, sys.par.perf.1),
   (force = true ∨ ¬ (TooBig sys P N r ∧ TooSlow sys P N r p), .EBIGSLOW),
   (force = true ∨ ¬ TooBig sys P N r, .ETOOBIG),
   (force = true ∨ ¬ TooSlow sys P N r p, .ETOOSLOW)]

theorem checkparams_table {sys : EncSys} (g : sys.Good) {P : EncParams} {verbose force : Bool} (hl : LimitsOk sys P verbose force)
    (logN : Int) (r p : W32) :
    ∃ t, checkparams sys.par P.maxmem P.maxmemfrac P.maxtime logN r p verbose force =
      .ok (firstFail .OK ((GoodParams logN r.toNat p.toNat, Code.EINVAL) :: limitTable sys P force (2 ^ logN.toNat) r.toNat p.toNat), t) := by
  by_cases hg : GoodParams logN r.toNat p.toNat
  case neg => rw [firstFail_stop hg, Props.C13_invalid _ _ _ _ _ _ _ _ _ hg]; exact ⟨_, rfl⟩
  rw [firstFail_cons hg]
  unfold limitTable
  cases force with
  | true =>
    rw [firstFail_cons (.inl rfl), firstFail_cons (.inl rfl), firstFail_cons (.inl rfl), firstFail_cons (.inl rfl), firstFail_cons (.inl rfl)]
    exact Props.C13_forced _ _ _ _ _ _ _ _ hg hl.disp
  | false =>
    obtain ⟨q, hf, q0, q1, hr⟩ := hl.frac rfl
    obtain ⟨m, hm, hn⟩ := Props.C17_defined g.sz sys.par.cfg sys.par.mem P.maxmem q0 q1 hr
    rw [← hf] at hm
    cases m with
    | none =>
      rw [firstFail_stop (by simp [MemLimit, hm]), (Props.C13_errors _ _ _ _ _ _ _ _ hg).1 hm]
      exact ⟨_, rfl⟩
    | some m =>
      rw [firstFail_cons (.inr ⟨m, hm⟩)]
      by_cases hp : sys.par.perf.1 = .OK
      case neg =>
        rw [firstFail_stop (by simp [hp]), (Props.C13_errors _ _ _ _ _ _ _ _ hg).2 m hm hp]
        exact ⟨_, rfl⟩
      rw [firstFail_cons (.inr hp)]
      obtain ⟨t, ht⟩ := Props.C13_verdict sys.par P.maxmem P.maxmemfrac P.maxtime logN r p verbose hg hm hp hl.disp
      rw [ht]
      refine ⟨t, ?_⟩
      have hB : TooBig sys P (2 ^ logN.toNat) r.toNat ↔ memNeed (2 ^ logN.toNat) r.toNat > m := by
        constructor
        · rintro ⟨m', h1, h2⟩
          unfold MemLimit at h1
          rw [hm] at h1
          cases h1
          exact h2
        · exact fun h => ⟨m, hm, h⟩
      unfold Props.refusal
      by_cases a : TooBig sys P (2 ^ logN.toNat) r.toNat <;> by_cases b : TooSlow sys P (2 ^ logN.toNat) r.toNat p.toNat
      · have hb : Props.Slow sys.par.perf.2 P.maxtime (2 ^ logN.toNat) r.toNat p.toNat := b
        rw [if_pos ⟨hB.1 a, hb⟩, firstFail_stop (by simp [a, b])]
      · have hb : ¬ Props.Slow sys.par.perf.2 P.maxtime (2 ^ logN.toNat) r.toNat p.toNat := b
        rw [if_neg (fun h => hb h.2), if_pos (hB.1 a), firstFail_cons (by simp [b]), firstFail_stop (by simp [a])]
      · have hb : Props.Slow sys.par.perf.2 P.maxtime (2 ^ logN.toNat) r.toNat p.toNat := b
        rw [if_neg (fun h => a (hB.2 h.1)), if_neg (fun h => a (hB.2 h)), if_pos hb, firstFail_cons (by simp [a]), firstFail_cons (by simp [a]),
          firstFail_stop (by simp [b])]
      · have hb : ¬ Props.Slow sys.par.perf.2 P.maxtime (2 ^ logN.toNat) r.toNat p.toNat := b
        rw [if_neg (fun h => a (hB.2 h.1)), if_neg (fun h => a (hB.2 h)), if_neg hb, firstFail_cons (by simp [a]), firstFail_cons (by simp [a]),
          firstFail_cons (by simp [b])]
        rfl

theorem checkDefined {sys : EncSys} (g : sys.Good) {P : EncParams} {verbose force : Bool} (hl : LimitsOk sys P verbose force) (inp : Bytes) :
    CheckDefined sys P verbose force inp := by
  obtain ⟨t, h⟩ := checkparams_table g hl (hdrLogN inp) (BitVec.ofNat 32 (hdrR inp)) (BitVec.ofNat 32 (hdrP inp))
  exact ⟨_, h⟩

theorem paramCode_table {sys : EncSys} (g : sys.Good) {P : EncParams} {verbose force : Bool} (hl : LimitsOk sys P verbose force) (inp : Bytes) :
    paramCode sys P verbose force inp = firstFail .OK ((GoodParams (hdrLogN inp) (hdrR inp) (hdrP inp), Code.EINVAL) ::
      limitTable sys P force (2 ^ hdrLogN inp) (hdrR inp) (hdrP inp)) := by
  obtain ⟨t, h⟩ := checkparams_table g hl (hdrLogN inp) (BitVec.ofNat 32 (hdrR inp)) (BitVec.ofNat 32 (hdrP inp))
  unfold paramCode
  rw [h]
  rw [hdrR_toNat, hdrP_toNat]
  rfl

/-- Choosing parameters has a defined outcome. -/
theorem pick_total {sys : EncSys} (g : sys.Good) {P : EncParams} {verbose : Bool} (hl : LimitsOk sys P verbose false)
    (hnn : sys.par.perf.1 = .OK → F64.mul sys.par.perf.2 P.maxtime ≠ nan) : ∃ o, pickparams sys.par P.maxmem P.maxmemfrac P.maxtime verbose = .ok o := by
  obtain ⟨q, hf, q0, q1, hr⟩ := hl.frac rfl
  obtain ⟨m, hm, hn⟩ := Props.C17_defined g.sz sys.par.cfg sys.par.mem P.maxmem q0 q1 hr
  rw [← hf] at hm
  cases m with
  | none => exact ⟨_, (Props.C11_errors _ _ _ _ _).1 hm⟩
  | some m =>
    by_cases hp : sys.par.perf.1 = .OK
    · obtain ⟨o, h, -⟩ := Props.C11_total sys.par g.sz P.maxmem P.maxmemfrac P.maxtime verbose hm hp (hnn hp) hl.disp
      exact ⟨o, h⟩
    · exact ⟨_, (Props.C11_errors _ _ _ _ _).2 m hm hp⟩

/-- The limits make sense for encryption: when the parameters are to be chosen, `maxmemfrac` is a number in
(0, 1/2] whatever `force` says, and the CPU budget is not NaN. -/
structure EncLimitsOk (sys : EncSys) (P : EncParams) (verbose force : Bool) : Prop where
  explicit : P.logN ≠ 0 → LimitsOk sys P verbose force
  pick : P.logN = 0 → LimitsOk sys P verbose false ∧ (sys.par.perf.1 = .OK → F64.mul sys.par.perf.2 P.maxtime ≠ nan)

theorem setupParams_total {sys : EncSys} (g : sys.Good) {P : EncParams} {verbose force : Bool} (hl : EncLimitsOk sys P verbose force) :
    ∃ x, setupParams sys P verbose force = .ok x := by
  unfold setupParams
  by_cases h0 : P.logN = 0
  · obtain ⟨h1, h2⟩ := hl.pick h0
    obtain ⟨o, ho⟩ := pick_total g h1 h2
    rw [if_neg (not_not.2 h0), ho, Res.bind_ok]
    cases o.val with
    | none => exact ⟨_, rfl⟩
    | some v => exact ⟨_, rfl⟩
  · obtain ⟨t, h⟩ := checkparams_table g (hl.explicit h0) P.logN P.r P.p
    rw [if_pos h0, h, Res.bind_ok]
    exact ⟨_, rfl⟩

/-- What scryptenc_setup returns, given what the parameter step delivered. -/
theorem encSetup_spec {sys : EncSys} (g : sys.Good) {passwd : Bytes} {P : EncParams} {verbose force : Bool} {s : SetupOut}
    (h : scryptenc_setup sys passwd P verbose force = .ok s) :
    ∃ c, setupParams sys P verbose force = .ok (c, s.P, s.err) ∧
      (c ≠ .OK → s.rc = c) ∧
      (c = .OK → s.rc = firstFail .OK [(sys.salt ≠ none, Code.ESALT), (KdfOk sys (2 ^ s.P.logN.toNat) s.P.r.toNat s.P.p.toNat, .EKEY)]) := by
  unfold scryptenc_setup at h
  rw [Res.bind_eq_ok] at h
  obtain ⟨⟨rc, P', msgs⟩, hp, h⟩ := h
  simp only [] at h
  by_cases hrc : rc = .OK
  case neg =>
    rw [if_pos hrc] at h
    cases h
    exact ⟨rc, hp, fun _ => rfl, fun h => absurd h hrc⟩
  subst hrc
  rw [if_neg (by simp), Res.bind_eq_ok] at h
  obtain ⟨-, -, h⟩ := h
  obtain ⟨hg, -⟩ := setupParams_good g hp
  cases hs : sys.salt with
  | none =>
    rw [hs] at h; cases h
    exact ⟨.OK, hp, fun h => absurd rfl h, fun _ => (firstFail_stop (by simp)).symm⟩
  | some salt =>
    rw [hs] at h
    simp only [] at h
    rw [Res.bind_eq_ok] at h
    obtain ⟨⟨o, st⟩, hk, h⟩ := h
    simp only [] at h
    obtain ⟨l, hl⟩ : ∃ l : Nat, P'.logN = l := ⟨P'.logN.toNat, by have := hg.1; omega⟩
    have h63 : l ≤ 63 := by have := hg.2.1; omega
    obtain ⟨k1, k2⟩ := deriveKey_spec g hl h63 hk
    have hl' : P'.logN.toNat = l := by omega
    by_cases ho : o.rc = 0
    · rw [if_neg (by simp [ho])] at h
      have hb := k2 ho
      have hlen : o.buf.length = 64 := by rw [hb]; exact scryptCode_length _ _ _ _ _ _
      rw [writeHeader_ok sys g P' l hl salt o.buf (g.salt _ hs) hlen, Res.bind_ok] at h
      cases h
      refine ⟨.OK, hp, fun h => absurd rfl h, fun _ => ?_⟩
      rw [firstFail_cons (by simp), firstFail_cons (by rw [hl']; exact k1.1 ho)]
      rfl
    · rw [if_pos ho] at h
      cases h
      refine ⟨.OK, hp, fun h => absurd rfl h, fun _ => ?_⟩
      rw [firstFail_cons (by simp), firstFail_stop (by rw [hl']; exact fun h => ho (k1.2 h))]

theorem encSetup_total {sys : EncSys} (g : sys.Good) (ready : SelfTestReady sys) (passwd : Bytes) {P : EncParams} {verbose force : Bool}
    (hl : EncLimitsOk sys P verbose force) : ∃ s, scryptenc_setup sys passwd P verbose force = .ok s := by
  unfold scryptenc_setup
  obtain ⟨⟨rc, P', msgs⟩, hp⟩ := setupParams_total g hl
  rw [hp, Res.bind_ok]
  simp only []
  by_cases hrc : rc = .OK
  case neg => rw [if_pos hrc]; exact ⟨_, rfl⟩
  subst hrc
  obtain ⟨hg, -⟩ := setupParams_good g hp
  rw [if_neg (by simp), show (decide (P'.logN > 0) && decide (P'.logN < 64)) = true by
    have h1 := hg.1; have h2 := hg.2.1
    rw [Bool.and_eq_true, decide_eq_true_eq, decide_eq_true_eq]
    omega, cassert_true, Res.bind_ok]
  cases hs : sys.salt with
  | none => exact ⟨_, rfl⟩
  | some salt =>
    simp only []
    obtain ⟨o, st, ho⟩ := deriveKey_total g ready passwd salt P'.logN P'.r P'.p
    rw [ho, Res.bind_ok]
    simp only []
    obtain ⟨l, hl⟩ : ∃ l : Nat, P'.logN = l := ⟨P'.logN.toNat, by have := hg.1; omega⟩
    have h63 : l ≤ 63 := by have := hg.2.1; omega
    obtain ⟨k1, k2⟩ := deriveKey_spec g hl h63 ho
    by_cases h0 : o.rc = 0
    · rw [if_neg (by simp [h0]), writeHeader_ok sys g P' l hl salt o.buf (g.salt _ hs) (by rw [k2 h0]; exact scryptCode_length _ _ _ _ _ _), Res.bind_ok]
      exact ⟨_, rfl⟩
    · rw [if_pos h0]; exact ⟨_, rfl⟩

theorem encBuf_total {sys : EncSys} (g : sys.Good) (ready : SelfTestReady sys) {inbuf outbuf passwd : Bytes} (hin : inbuf.length < 2 ^ 64)
    (hout : inbuf.length + 128 ≤ outbuf.length) {P : EncParams} {verbose force : Bool} (hP : (P.zero || P.nonzero) = true)
    (hl : EncLimitsOk sys P verbose force) : ∃ o, scryptenc_buf sys inbuf outbuf passwd P verbose force = .ok o := by
  unfold scryptenc_buf
  obtain ⟨s, hs⟩ := encSetup_total g ready passwd hl
  rw [hP, cassert_true, Res.bind_ok, hs, Res.bind_ok]
  by_cases h0 : s.rc = .OK
  case neg => rw [if_pos h0]; exact ⟨_, rfl⟩
  obtain ⟨salt, l, i1, i2, i3, i4, i5, i6, i7⟩ := encSetup_inv g hs h0
  rw [if_neg (not_not.2 h0), encBufBody_ok g inbuf outbuf hin hout s l _ _ salt (g.salt _ i1) (by rw [i5]; exact scryptCode_length _ _ _ _ _ _) i7]
  exact ⟨_, rfl⟩

/-- All there is to know about scryptenc_buf. -/
theorem encBuf_spec {sys : EncSys} (g : sys.Good) {inbuf outbuf passwd : Bytes} (hin : inbuf.length < 2 ^ 64)
    (hout : inbuf.length + 128 ≤ outbuf.length) {P : EncParams} {verbose force : Bool} {o : BufOut}
    (h : scryptenc_buf sys inbuf outbuf passwd P verbose force = .ok o) :
    ∃ s, scryptenc_setup sys passwd P verbose force = .ok s ∧ o.P = s.P ∧ o.err = s.err ∧ o.dk = zero64 ∧
      (s.rc ≠ .OK → o.rc = s.rc ∧ o.out = outbuf ∧ o.tr = []) ∧
      (s.rc = .OK → o.rc = aesCode sys ∧ o.tr = openTrace sys) := by
  unfold scryptenc_buf at h
  rw [Res.bind_eq_ok] at h
  obtain ⟨-, -, h⟩ := h
  rw [Res.bind_eq_ok] at h
  obtain ⟨s, hs, h⟩ := h
  refine ⟨s, hs, ?_⟩
  by_cases h0 : s.rc = .OK
  · obtain ⟨salt, l, i1, i2, i3, i4, i5, i6, i7⟩ := encSetup_inv g hs h0
    rw [if_neg (not_not.2 h0), encBufBody_ok g inbuf outbuf hin hout s l _ _ salt (g.salt _ i1) (by rw [i5]; exact scryptCode_length _ _ _ _ _ _) i7] at h
    cases h
    exact ⟨rfl, rfl, rfl, fun h => absurd h0 h, fun _ => ⟨rfl, rfl⟩⟩
  · rw [if_pos h0] at h
    cases h
    exact ⟨rfl, rfl, rfl, fun _ => ⟨rfl, rfl, rfl⟩, fun h => absurd h h0⟩

theorem encFile_total {sys : EncSys} (g : sys.Good) (ready : SelfTestReady sys) {inf : InFile} {outf : OutFile} {passwd : Bytes}
    (hin : inf.data.length < 2 ^ 64) {P : EncParams} {verbose force : Bool} (hP : (P.zero || P.nonzero) = true)
    (hl : EncLimitsOk sys P verbose force) : ∃ o, scryptenc_file sys inf outf passwd P verbose force = .ok o := by
  unfold scryptenc_file
  obtain ⟨s, hs⟩ := encSetup_total g ready passwd hl
  rw [hP, cassert_true, Res.bind_ok, hs, Res.bind_ok]
  by_cases h0 : s.rc = .OK
  case neg => rw [if_pos h0]; exact ⟨_, rfl⟩
  obtain ⟨salt, l, i1, i2, i3, i4, i5, i6, i7⟩ := encSetup_inv g hs h0
  obtain ⟨o, e, -⟩ := encFileBody_ok g inf outf hin s l _ _ salt (g.salt _ i1) (by rw [i5]; exact scryptCode_length _ _ _ _ _ _) i7
  rw [if_neg (not_not.2 h0), e]
  exact ⟨_, rfl⟩

open scoped Classical in
/-- All there is to know about scryptenc_file. -/
theorem encFile_spec {sys : EncSys} (g : sys.Good) {inf : InFile} {outf : OutFile} {passwd : Bytes}
    (hin : inf.data.length < 2 ^ 64) {P : EncParams} {verbose force : Bool} {o : FileOut}
    (h : scryptenc_file sys inf outf passwd P verbose force = .ok o) :
    ∃ s, scryptenc_setup sys passwd P verbose force = .ok s ∧ o.P = s.P ∧ o.err = s.err ∧ o.dk = zero64 ∧
      (s.rc ≠ .OK → o.rc = s.rc ∧ o.outf = outf ∧ o.tr = []) ∧
      (s.rc = .OK → ∃ (salt : Bytes) (l : Nat), sys.salt = some salt ∧ salt.length = 32 ∧ s.P.logN = l ∧
        s.dk = scryptCode passwd salt (2 ^ l) s.P.r.toNat s.P.p.toNat 64 ∧ s.header = header96 s.dk l s.P.r.toNat s.P.p.toNat salt ∧
        GoodParams l s.P.r.toNat s.P.p.toNat ∧ KdfOk sys (2 ^ l) s.P.r.toNat s.P.p.toNat ∧
        o.rc = (if ¬ Fits outf 96 then .EWRFILE else if aesCode sys ≠ .OK then aesCode sys
          else if ¬ Fits outf (96 + inf.data.length) then .EWRFILE
          else if inf.err then .ERDFILE
          else if ¬ Fits outf (inf.data.length + 128) then .EWRFILE else .OK) ∧
        o.outf = (if ¬ Fits outf 96 ∨ aesCode sys ≠ .OK then (fwrite outf s.header).2
          else if ¬ Fits outf (96 + inf.data.length) ∨ inf.err then (fwrite outf (s.header ++ dataCipher s.dk inf.data)).2
          else (fwrite outf (container s.dk l s.P.r.toNat s.P.p.toNat salt inf.data)).2) ∧
        o.tr = (if ¬ Fits outf 96 then [] else if aesCode sys = .OK ∧ ¬ Fits outf (96 + inf.data.length) then
          [.alloc .aesKey, .alloc .aesCtr, .zero .aesCtr, .free .aesCtr] else openTrace sys)) := by
  unfold scryptenc_file at h
  rw [Res.bind_eq_ok] at h
  obtain ⟨-, -, h⟩ := h
  rw [Res.bind_eq_ok] at h
  obtain ⟨s, hs, h⟩ := h
  refine ⟨s, hs, ?_⟩
  by_cases h0 : s.rc = .OK
  · obtain ⟨salt, l, i1, i2, i3, i4, i5, i6, i7⟩ := encSetup_inv g hs h0
    obtain ⟨o', e, j1, j2, j3, j4, j5, j6⟩ := encFileBody_ok g inf outf hin s l _ _ salt (g.salt _ i1) (by rw [i5]; exact scryptCode_length _ _ _ _ _ _) i7
    rw [if_neg (not_not.2 h0), e] at h
    cases h
    exact ⟨j1, j3, j2, fun h => absurd h0 h, fun _ => ⟨salt, l, i1, g.salt _ i1, i2, i5, i7, i3, i6, j4, j5, j6⟩⟩
  · rw [if_pos h0] at h
    cases h
    exact ⟨rfl, rfl, rfl, fun _ => ⟨rfl, rfl, rfl⟩, fun h => absurd h h0⟩

end Scrypt
