import Verif.Props.Enough
import Verif.Props.CpuAccuracy
/-
C67: what an operation says about its parameters when asked to (-v).
-/
namespace Scrypt.Spec
open F64

/-- `d` is the largest displayable size that is not above `n`. -/
def ShownFor (d : Shown) (n : Nat) : Prop := d.Valid ∧ d.value ≤ n ∧ ∀ d' : Shown, d'.Valid → d'.value ≤ n → d'.value ≤ d.value

/-- The report: the parameters, the memory needed, the memory available (if limited), the time it will take and the time allowed (if known).  `fmt` is
printf's `%.1f`. -/
def reportText (fmt : F64 → List Char) (N r p : Nat) (need : Shown) (avail : Option Shown) (time : Option (F64 × F64)) : List Char :=
  "Parameters used: N = ".toList ++ dec N ++ "; r = ".toList ++ dec r ++ "; p = ".toList ++ dec p ++ ";\n".toList ++
  "    Decrypting this file requires at least ".toList ++ need.text ++ " of memory".toList ++
  (match avail with
   | none => []
   | some a => " (".toList ++ a.text ++ " available)".toList) ++
  (match time with
   | none => []
   | some (s, limit) =>
     ",\n    and will take approximately ".toList ++ fmt s ++ " seconds (limit: ".toList ++ fmt limit ++ " seconds)".toList) ++
  ".\n".toList

/-- `s` is `x` seconds, up to the precision of a double. -/
def SecondsNear (s : F64) (x : ℚ) : Prop := (s = inf false ∧ 2 ^ 1022 ≤ x) ∨ ∃ v, s = fin false v ∧ |v - x| ≤ x / 2 ^ 51 + 1 / 2 ^ 59

/-- `t` reports the parameters `N = 2^l`, `r`, `p` for a memory limit (0: none), a speed in operations per second (0: unknown) and a time limit.  The two
provisos are where the code's integer arithmetic wraps (findings F5 and F25). -/
def ReportsOn (fmt : F64 → List Char) (l r p memlimit : Nat) (speed limit : F64) (t : List Char) : Prop :=
  ∃ need avail time, t = reportText fmt (2 ^ l) r p need avail time ∧
    (r < 2 ^ 25 → 128 * 2 ^ l * r < 2 ^ 64 → ShownFor need (128 * 2 ^ l * r)) ∧
    ((memlimit = 0 ∧ avail = none) ∨ (0 < memlimit ∧ ∃ a, avail = some a ∧ ShownFor a memlimit)) ∧
    ((F64.lt (fin false 0) speed = false ∧ time = none) ∨
     (F64.lt (fin false 0) speed = true ∧ ∃ s, time = some (s, limit) ∧
       ∀ q, speed = fin false q → 4 * 2 ^ l * r * p < 2 ^ 64 → SecondsNear s (((4 * 2 ^ l * r * p : Nat) : ℚ) / q)))

/-- The header was read as far as its parameters: `n` is the least length demanded. -/
def Headed (n : Nat) (D : Bytes) : Prop :=
  n ≤ D.length ∧ HasMagic D ∧ VersionOk D ∧ ChecksumOk D ∧ GoodParams (hdrLogN D) (hdrR D) (hdrP D)

/-- What an operation tells its user about the parameters `N = 2^l`, `r`, `p` it is about to use: nothing unless it was asked to; with the limits overridden, a
report without limits; otherwise, once the limits are known, a report with them. -/
def Told (sys : EncSys) (P : EncParams) (verbose force : Bool) (l r p : Nat) (msgs : List Msg) : Prop :=
  (verbose = false → msgs = []) ∧
  (verbose = true → force = true → ∃ t, msgs = [.params t] ∧ ReportsOn sys.par.disp.fmt1f l r p 0 (fin false 0) P.maxtime t) ∧
  (verbose = true → force = false → sys.par.perf.1 = .OK → ∀ m, MemLimit sys P m →
    ∃ t, msgs = [.params t] ∧ ReportsOn sys.par.disp.fmt1f l r p m sys.par.perf.2 P.maxtime t) ∧
  (force = false → sys.par.perf.1 ≠ .OK ∨ ¬ (∃ m, MemLimit sys P m) → msgs = [])

end Scrypt.Spec

namespace Scrypt.Props
open Scrypt Spec F64
set_option exponentiation.threshold 1100

theorem ofNat_zero_fin : F64.ofNat 0 = fin false 0 := by
  have := ofNat_small (n := 0) (by norm_num); exact_mod_cast this

theorem humansize_inv {ok : Bool} {n : W64} {t : CStr} (h : humansize ok n = .ok (some t)) : ∃ d : Shown, t = d.text ∧ ShownFor d n.toNat := by
  obtain ⟨d, e, v⟩ := humansize_spec n
  refine ⟨d, ?_, v⟩
  cases ok with
  | true => rw [e] at h; exact (Option.some.inj (Res.ok.inj h)).symm
  | false =>
    exfalso
    unfold humansize at h
    by_cases hn : n.toNat < 1000
    · rw [if_pos hn, if_neg Bool.false_ne_true] at h
      cases h
    · rw [if_neg hn] at h
      dsimp only [] at h
      rw [Res.bind_eq_ok] at h
      obtain ⟨c, -, h⟩ := h
      rw [if_neg Bool.false_ne_true] at h
      cases h

theorem round_nat_near (n : Nat) : |roundMag n - n| ≤ (n : ℚ) / 2 ^ 53 := by
  rcases Nat.eq_zero_or_pos n with rfl | hn
  · simp [roundMag_zero]
  · refine roundMag_near ?_
    have h1 : (1 : ℚ) ≤ n := by exact_mod_cast hn
    have h2 : (2 : ℚ) ^ (-1022 : ℤ) ≤ 1 := by
      rw [zpow_neg]
      exact inv_le_one_of_one_le₀ (one_le_zpow₀ (by norm_num) (by norm_num))
    linarith

theorem seconds_near {n : Nat} (hn : n < 2 ^ 64) {q : ℚ} (hq : 0 < q) : SecondsNear (F64.div (F64.ofNat n) (fin false q)) ((n : ℚ) / q) := by
  rw [ofNat_lt64 hn]
  have e : F64.div (fin false (roundMag n)) (fin false q) = F64.round false (roundMag n / q) := by
    show (if q = 0 then _ else F64.round (false != false) (roundMag n / q)) = _
    rw [if_neg (ne_of_gt hq)]; rfl
  have hx : (0 : ℚ) ≤ (n : ℚ) / q := div_nonneg (by positivity) hq.le
  have h0 : 0 ≤ roundMag (n : ℚ) / q := div_nonneg (roundMag_nonneg _) hq.le
  have h1 : |roundMag (n : ℚ) / q - n / q| ≤ (n / q) / 2 ^ 53 := by
    rw [← sub_div, abs_div, abs_of_pos hq, div_right_comm, div_le_div_iff_of_pos_right hq]
    exact round_nat_near n
  rw [e]
  unfold F64.round
  generalize roundMag (n : ℚ) / q = y at *
  generalize (n : ℚ) / q = x at *
  obtain ⟨a1, a2⟩ := abs_le.1 h1
  have hy : y ≤ 2 * x := by linarith
  by_cases ho : (2 : ℚ) ^ (1024 : ℕ) ≤ roundMag y
  · rw [if_pos ho]
    refine .inl ⟨rfl, ?_⟩
    by_contra hc
    have hy2 : y ≤ (2 : ℚ) ^ (1023 : ℤ) := by
      have : (2 : ℚ) ^ (1023 : ℤ) = 2 * 2 ^ 1022 := by
        rw [show (1023 : ℤ) = ((1023 : ℕ) : ℤ) from rfl, zpow_natCast, pow_succ]; ring
      rw [this]; linarith
    have h3 := roundMag_le_pow (by norm_num) hy2
    have h4 : (2 : ℚ) ^ (1023 : ℤ) < 2 ^ (1024 : ℕ) := by
      rw [show (1023 : ℤ) = ((1023 : ℕ) : ℤ) from rfl, zpow_natCast]
      exact pow_lt_pow_right₀ (by norm_num) (by norm_num)
    linarith
  · rw [if_neg ho]
    refine .inr ⟨_, rfl, ?_⟩
    have h2 := mag_near h0
    obtain ⟨b1, b2⟩ := abs_le.1 h2
    have i1 : y / 2 ^ 53 ≤ 2 * x / 2 ^ 53 := div_le_div_of_nonneg_right hy (by positivity)
    have i2 : 2 * x / 2 ^ 53 + x / 2 ^ 53 ≤ x / 2 ^ 51 := by
      have : x / 2 ^ 51 = 4 * (x / 2 ^ 53) := by ring
      rw [this, mul_div_assoc]
      have : 0 ≤ x / 2 ^ 53 := by positivity
      linarith
    have i3 : (1 : ℚ) / 2 ^ 60 ≤ 1 / 2 ^ 59 := by norm_num
    rw [abs_le]
    constructor <;> linarith

/-- What display_params prints is a report. -/
theorem display_reports {env : DispEnv} {l : Nat} (hl : l ≤ 63) {r p : W32} {memlimit : Nat} (hm : memlimit < 2 ^ 64) {opps maxtime : F64} {t : CStr}
    (h : display_params env l r p memlimit opps maxtime = .ok t) : ReportsOn env.fmt1f l r.toNat p.toNat memlimit opps maxtime t := by
  have hN := one_shl_toNat l hl
  have h2l : (2 : Nat) ^ l < 2 ^ 64 := Nat.pow_lt_pow_right (by omega) (by omega)
  have hneed : ((128 * r).setWidth 64 * (1 : W64) <<< l).toNat = 128 * r.toNat % 2 ^ 32 * 2 ^ l % 2 ^ 64 := by
    rw [BitVec.toNat_mul, hN, BitVec.toNat_setWidth, BitVec.toNat_mul]
    have : (128 : W32).toNat = 128 := rfl
    rw [this, Nat.mod_eq_of_lt (show 128 * r.toNat % 2 ^ 32 < 2 ^ 64 by omega)]
  have hops : (4 * (1 : W64) <<< l * r.setWidth 64 * p.setWidth 64).toNat = 4 * 2 ^ l * r.toNat * p.toNat % 2 ^ 64 := by
    have hr := r.isLt
    have hp := p.isLt
    have h4 : (4 : W64).toNat = 4 := rfl
    rw [BitVec.toNat_mul, BitVec.toNat_mul, BitVec.toNat_mul, hN, BitVec.toNat_setWidth, BitVec.toNat_setWidth, h4, Nat.mod_eq_of_lt (a := r.toNat) (by omega),
      Nat.mod_eq_of_lt (a := p.toNat) (by omega)]
    simp only [Nat.mod_mul_mod]
  unfold display_params at h
  rw [if_neg (by omega)] at h
  simp only [Int.toNat_natCast] at h
  rw [Res.bind_eq_ok] at h
  obtain ⟨hLimit, e1, h⟩ := h
  rw [Res.bind_eq_ok] at h
  obtain ⟨hMin, e2, h⟩ := h
  rw [Res.bind_eq_ok] at h
  obtain ⟨sMin, e3, h⟩ := h
  rw [Res.bind_eq_ok] at h
  obtain ⟨sAvail, e4, h⟩ := h
  cases hMin with
  | none => cases e3
  | some tMin =>
  obtain rfl : tMin = sMin := Res.ok.inj e3
  obtain ⟨need, rfl, hneed'⟩ := humansize_inv e2
  rw [hneed] at hneed'
  have ha : ∃ avail : Option Shown, ((memlimit = 0 ∧ avail = none) ∨ (0 < memlimit ∧ ∃ a, avail = some a ∧ ShownFor a memlimit)) ∧
      sAvail = (match avail with
        | none => []
        | some a => " (".toList ++ a.text ++ " available)".toList) := by
    unfold dispAvail at e4
    by_cases h0 : memlimit > 0
    · rw [if_pos h0] at e4
      cases hLimit with
      | none => cases e4
      | some tLim =>
        obtain ⟨a, rfl, ha⟩ := humansize_inv e1
        rw [BitVec.toNat_ofNat, Nat.mod_eq_of_lt hm] at ha
        exact ⟨some a, .inr ⟨h0, a, rfl, ha⟩, (Res.ok.inj e4).symm⟩
    · rw [if_neg h0] at e4
      exact ⟨none, .inl ⟨by omega, rfl⟩, (Res.ok.inj e4).symm⟩
  obtain ⟨avail, ha1, ha2⟩ := ha
  have z : F64.lt (F64.ofNat 0) opps = F64.lt (fin false 0) opps := by rw [ofNat_zero_fin]
  have hd : 128 * r.toNat % 2 ^ 32 * 2 ^ l % 2 ^ 64 = 128 * 2 ^ l * r.toNat ∨ ¬ (r.toNat < 2 ^ 25 ∧ 128 * 2 ^ l * r.toNat < 2 ^ 64) := by
    by_cases hc : r.toNat < 2 ^ 25 ∧ 128 * 2 ^ l * r.toNat < 2 ^ 64
    · left
      rw [Nat.mod_eq_of_lt (show 128 * r.toNat < 2 ^ 32 by omega),
        Nat.mod_eq_of_lt (by rw [show 128 * r.toNat * 2 ^ l = 128 * 2 ^ l * r.toNat by ring]; exact hc.2)]
      ring
    · exact .inr hc
  have hs : r.toNat < 2 ^ 25 → 128 * 2 ^ l * r.toNat < 2 ^ 64 → ShownFor need (128 * 2 ^ l * r.toNat) := by
    intro a b
    rcases hd with hd | hd
    · rw [← hd]; exact hneed'
    · exact absurd ⟨a, b⟩ hd
  have ht := (Res.ok.inj h).symm
  rw [hN, hops, ha2] at ht
  unfold dispTime at ht
  by_cases ho : F64.lt (fin false 0) opps = true
  · rw [if_pos (show F64.lt (F64.ofNat 0) opps = true by rw [z]; exact ho), if_pos (show F64.lt (F64.ofNat 0) opps = true by rw [z]; exact ho)] at ht
    refine ⟨need, avail, some (F64.div (F64.ofNat (4 * 2 ^ l * r.toNat * p.toNat % 2 ^ 64)) opps, maxtime), ?_, hs, ha1, .inr ⟨ho, _, rfl, ?_⟩⟩
    · rw [ht]; unfold reportText fmtD dec; rfl
    · rintro q rfl hlt
      rw [Nat.mod_eq_of_lt hlt]
      refine seconds_near hlt ?_
      have : (0 : ℚ) < q := by simpa [F64.lt, F64.val] using ho
      exact this
  · rw [if_neg (show ¬ F64.lt (F64.ofNat 0) opps = true by rw [z]; exact ho)] at ht
    refine ⟨need, avail, none, ?_, hs, ha1, .inl ⟨by simpa using ho, rfl⟩⟩
    rw [ht]; unfold reportText fmtD dec; rfl

theorem report_msg {fmt : F64 → List Char} {l r p m : Nat} {speed limit : F64} {t : CStr} (h : ReportsOn fmt l r p m speed limit t) : msgOf t = [.params t] := by
  obtain ⟨need, avail, time, rfl, -⟩ := h
  unfold msgOf
  rw [if_neg]
  intro hc
  unfold reportText at hc
  exact absurd (List.append_eq_nil_iff.1 hc).2 (by decide)

theorem verbose_some {verbose : Bool} {x : Res CStr} {t : CStr} (h : verboseText verbose x = .ok t) : (verbose = false → t = []) ∧ (verbose = true → x = .ok t) := by
  cases verbose
  · exact ⟨fun _ => (Res.ok.inj h).symm, fun h => absurd h Bool.false_ne_true⟩
  · exact ⟨fun h => absurd h.symm Bool.false_ne_true, fun _ => h⟩

theorem mem_lt {sys : EncSys} (g : sys.Good) {P : EncParams} (hv : P.maxmemfrac.Valid) {m : Nat} (h : MemLimit sys P m) : m < 2 ^ 64 := by
  obtain ⟨_, -, -, -, -, h, -⟩ := C17_bounds g.sz _ _ _ _ hv h
  rcases g.sz with e | e <;> rw [e] at h <;> omega

/-- What checkparams prints. -/
theorem check_told {sys : EncSys} (g : sys.Good) {P : EncParams} (hv : P.maxmemfrac.Valid) {l : Nat} {r p : W32} {verbose force : Bool} {c : Code} {t : CStr}
    (h : checkparams sys.par P.maxmem P.maxmemfrac P.maxtime l r p verbose force = .ok (c, t)) (hg : GoodParams l r.toNat p.toNat) :
    Told sys P verbose force l r.toNat p.toNat (msgOf t) := by
  have hl : l ≤ 63 := by have := hg.2.1; omega
  have hg' := not_not.2 hg
  rw [goodParams_iff] at hg'
  unfold checkparams at h
  rw [if_neg (by tauto), if_neg (by tauto), if_neg (by tauto)] at h
  cases force with
  | true =>
    rw [if_pos rfl, Res.bind_eq_ok] at h
    obtain ⟨t', h1, h2⟩ := h
    obtain rfl : t' = t := (Prod.mk.inj (Res.ok.inj h2)).2
    obtain ⟨v1, v2⟩ := verbose_some h1
    refine ⟨fun hv => by rw [v1 hv]; rfl, fun hv _ => ?_, fun _ h => absurd h.symm Bool.false_ne_true, fun h => absurd h.symm Bool.false_ne_true⟩
    have := display_reports hl (by norm_num) (v2 hv)
    rw [ofNat_zero_fin] at this
    exact ⟨_, report_msg this, this⟩
  | false =>
    rw [if_neg Bool.false_ne_true, Res.bind_eq_ok] at h
    obtain ⟨o, ho, h⟩ := h
    cases o with
    | none =>
      obtain rfl : [] = t := (Prod.mk.inj (Res.ok.inj h)).2
      refine ⟨fun _ => rfl, fun _ h => absurd h Bool.false_ne_true, fun _ _ _ m hm => ?_, fun _ _ => rfl⟩
      unfold MemLimit at hm
      rw [ho] at hm
      cases hm
    | some m =>
      by_cases hp : sys.par.perf.1 = .OK
      · simp only [] at h
        rw [if_neg (not_not.2 hp), Res.bind_eq_ok] at h
        obtain ⟨t', h1, h2⟩ := h
        obtain rfl : t' = t := (Prod.mk.inj (Res.ok.inj h2)).2
        obtain ⟨v1, v2⟩ := verbose_some h1
        refine ⟨fun hv => by rw [v1 hv]; rfl, fun _ h => absurd h Bool.false_ne_true, fun hv' _ _ m' hm' => ?_, fun _ hc => ?_⟩
        · have : m' = m := by
            unfold MemLimit at hm'
            rw [ho] at hm'
            exact (Option.some.inj (Res.ok.inj hm')).symm
          subst this
          have := display_reports hl (mem_lt g hv ho) (v2 hv')
          exact ⟨_, report_msg this, this⟩
        · rcases hc with hc | hc
          · exact absurd hp hc
          · exact absurd ⟨m, ho⟩ hc
      · simp only [] at h
        rw [if_pos hp] at h
        obtain rfl : [] = t := (Prod.mk.inj (Res.ok.inj h)).2
        exact ⟨fun _ => rfl, fun _ h => absurd h Bool.false_ne_true, fun _ _ h => absurd h hp, fun _ _ => rfl⟩

/-- What scryptdec_setup leaves in its messages. -/
theorem dec_setup_told {sys : EncSys} (g : sys.Good) {h passwd : Bytes} (hl : 96 ≤ h.length) {P : EncParams} (hv : P.maxmemfrac.Valid) {verbose force : Bool}
    {s : SetupOut} (hs : scryptdec_setup sys h passwd P verbose force = .ok s) :
    (ChecksumOk h → GoodParams (hdrLogN h) (hdrR h) (hdrP h) → Told sys P verbose force (hdrLogN h) (hdrR h) (hdrP h) s.err) ∧
    (¬ (ChecksumOk h ∧ GoodParams (hdrLogN h) (hdrR h) (hdrP h)) → s.err = []) := by
  rw [decSetup_eq g h passwd hl] at hs
  by_cases h1 : ChecksumOk h
  case neg =>
    rw [if_pos h1] at hs; cases hs
    exact ⟨fun h => absurd h h1, fun _ => rfl⟩
  rw [if_neg (not_not.2 h1), Res.bind_eq_ok] at hs
  obtain ⟨⟨c, t⟩, hc, hs⟩ := hs
  have he : s.err = msgOf t := by
    by_cases h2 : c = .OK
    case neg => rw [if_pos h2] at hs; cases hs; rfl
    rw [if_neg (not_not.2 h2), Res.bind_eq_ok] at hs
    obtain ⟨k, -, hs⟩ := hs
    by_cases h3 : k.1.rc = 0
    · rw [if_neg (not_not.2 h3)] at hs; cases hs; rfl
    · rw [if_pos h3] at hs; cases hs; rfl
  by_cases hg : GoodParams (hdrLogN h) (hdrR h) (hdrP h)
  · refine ⟨fun _ _ => ?_, fun hn => absurd ⟨h1, hg⟩ hn⟩
    have := check_told g hv hc (by rw [hdrR_toNat, hdrP_toNat]; exact hg)
    rw [hdrR_toNat, hdrP_toNat] at this
    rw [he]; exact this
  · refine ⟨fun _ h => absurd h hg, fun _ => ?_⟩
    rw [C13_invalid _ _ _ _ _ _ _ _ _ (by rw [hdrR_toNat, hdrP_toNat]; exact hg)] at hc
    obtain rfl : [] = t := (Prod.mk.inj (Res.ok.inj hc)).2
    rw [he]; rfl

/-- **C67.**  Decrypting a buffer says what it is about to do exactly when it has read intact, valid parameters (and was asked to, and the limits could be
determined), whatever comes of it. -/
theorem C67_dec_buf {sys : EncSys} (g : sys.Good) {D outbuf passwd : Bytes} {outlen : Nat} {P : EncParams} (hv : P.maxmemfrac.Valid) {verbose force : Bool}
    {o : BufOut} (h : scryptdec_buf sys D outbuf outlen passwd P verbose force = .ok o) :
    (Headed 128 D → Told sys P verbose force (hdrLogN D) (hdrR D) (hdrP D) o.err) ∧ (¬ Headed 128 D → o.err = []) := by
  unfold scryptdec_buf at h
  rw [Res.bind_eq_ok] at h
  obtain ⟨-, -, h⟩ := h
  by_cases h7 : D.length < 7 ∨ D.take 6 ≠ [0x73, 0x63, 0x72, 0x79, 0x70, 0x74]
  · rw [if_pos h7] at h
    cases h
    refine ⟨fun hH => ?_, fun _ => rfl⟩
    have := hH.2.1
    rw [hasMagic_iff] at this
    rcases h7 with h7 | h7
    · have := hH.1; omega
    · exact absurd this h7
  rw [if_neg h7] at h
  have hlen7 : 7 ≤ D.length := by by_contra hc; exact h7 (.inl (by omega))
  have hM : HasMagic D := by rw [hasMagic_iff]; by_contra hc; exact h7 (.inr hc)
  obtain ⟨v, ev, hv'⟩ := rd_version D hlen7
  rw [ev, Res.bind_ok] at h
  by_cases hV : v = 0
  case neg =>
    rw [if_pos hV] at h
    cases h
    exact ⟨fun hH => absurd (hv'.1 hH.2.2.1) hV, fun _ => rfl⟩
  have hVO : VersionOk D := hv'.2 hV
  rw [if_neg (not_not.2 hV)] at h
  by_cases h128 : D.length < 128
  · rw [if_pos h128] at h
    cases h
    exact ⟨fun hH => absurd hH.1 (by omega), fun _ => rfl⟩
  rw [if_neg h128, Res.bind_eq_ok] at h
  obtain ⟨s, hs, h⟩ := h
  have he : o.err = s.err := by
    by_cases hrc : s.rc = .OK
    · rw [if_neg (not_not.2 hrc)] at h
      unfold decBufBody at h
      rw [Res.bind_eq_ok] at h
      obtain ⟨⟨⟨c, st⟩, tr⟩, -, h⟩ := h
      cases st with
      | none => rw [← Res.ok.inj h]
      | some st =>
        simp only [Res.bind_eq_ok] at h
        obtain ⟨x, -, y, -, z, -, w, -, t, -, tag, -, v, -, h⟩ := h
        rw [← Res.ok.inj h]
    · rw [if_pos hrc] at h
      rw [← Res.ok.inj h]
  obtain ⟨t1, t2⟩ := dec_setup_told g (by omega) hv hs
  rw [he]
  exact ⟨fun hH => t1 hH.2.2.2.1 hH.2.2.2.2, fun hn => t2 fun hc => hn ⟨by omega, hM, hVO, hc.1, hc.2⟩⟩

/-- What preparing a stream decryption says. -/
theorem prep_told {sys : EncSys} (g : sys.Good) {inf : InFile} {passwd : Bytes} {P : EncParams} (hv : P.maxmemfrac.Valid)
    {verbose force : Bool} {q : PrepOut} (hq : scryptdec_file_prep sys inf passwd P verbose force = .ok q) :
    (Headed 96 inf.data → sys.cookieOk = true → Told sys P verbose force (hdrLogN inf.data) (hdrR inf.data) (hdrP inf.data) q.err) ∧
    (¬ (Headed 96 inf.data ∧ sys.cookieOk = true) → q.err = []) := by
  unfold scryptdec_file_prep at hq
  rw [Res.bind_eq_ok] at hq
  obtain ⟨-, -, hq⟩ := hq
  by_cases h1 : sys.cookieOk = true
  case neg =>
    rw [if_pos (by simp [h1])] at hq
    rw [← Res.ok.inj hq]
    exact ⟨fun _ h => absurd h h1, fun _ => rfl⟩
  rw [if_neg (by simp [h1])] at hq
  obtain ⟨hd, f', e, fe, fn, fo⟩ := loadHeader_ok inf sys.header0 g.header0
  rw [e, Res.bind_ok] at hq
  simp only [] at hq
  by_cases h2 : headVerdict inf.data inf.err = .OK
  case neg =>
    rw [if_pos h2] at hq
    rw [← Res.ok.inj hq]
    exact ⟨fun hH _ => absurd (headVerdict_ok.2 ⟨hH.1, hH.2.1, hH.2.2.1⟩) h2, fun _ => rfl⟩
  rw [if_neg (not_not.2 h2)] at hq
  obtain ⟨rfl, fd⟩ := fo h2
  have hh := headVerdict_ok.1 h2
  have h96 : 96 ≤ (inf.data.take 96).length := by rw [List.length_take]; have := hh.1; omega
  rw [Res.bind_eq_ok] at hq
  obtain ⟨s, hs, hq⟩ := hq
  have hqe : q.err = s.err := by
    by_cases hrc : s.rc = .OK
    · rw [if_neg (not_not.2 hrc)] at hq; rw [← Res.ok.inj hq]
    · rw [if_pos hrc] at hq; rw [← Res.ok.inj hq]
  obtain ⟨t1, t2⟩ := dec_setup_told g h96 hv hs
  rw [hdrLogN_take, hdrR_take, hdrP_take, checksum_take] at t1 t2
  rw [hqe]
  exact ⟨fun hH _ => t1 hH.2.2.2.1 hH.2.2.2.2, fun hn => t2 fun hc => hn ⟨⟨hh.1, hh.2.1, hh.2.2, hc.1, hc.2⟩, h1⟩⟩

/-- **C67.**  Decrypting a file likewise. -/
theorem C67_dec_file {sys : EncSys} (g : sys.Good) {inf : InFile} {outf : OutFile} {passwd : Bytes} {P : EncParams} (hv : P.maxmemfrac.Valid)
    {verbose force : Bool} {o : FileOut} (h : scryptdec_file sys inf outf passwd P verbose force = .ok o) :
    (Headed 96 inf.data → sys.cookieOk = true → Told sys P verbose force (hdrLogN inf.data) (hdrR inf.data) (hdrP inf.data) o.err) ∧
    (¬ (Headed 96 inf.data ∧ sys.cookieOk = true) → o.err = []) := by
  unfold scryptdec_file at h
  rw [Res.bind_eq_ok] at h
  obtain ⟨-, -, h⟩ := h
  rw [Res.bind_eq_ok] at h
  obtain ⟨q, hq, h⟩ := h
  have he : o.err = q.err := by
    cases hk : q.cookie with
    | none => rw [hk] at h; rw [← Res.ok.inj h]
    | some c =>
      rw [hk] at h
      simp only [] at h
      rw [Res.bind_eq_ok] at h
      obtain ⟨o', -, h⟩ := h
      rw [← Res.ok.inj h]
  rw [he]
  exact prep_told g hv hq

/-- What setting up an encryption says, for parameters given by the caller and for parameters it picks. -/
theorem enc_setup_told {sys : EncSys} (g : sys.Good) {P P' : EncParams} (hv : P.maxmemfrac.Valid) {verbose force : Bool} {c : Code} {msgs : List Msg}
    (h : setupParams sys P verbose force = .ok (c, P', msgs)) :
    (P.logN ≠ 0 → ∃ ms ws, msgs = ms ++ ws ∧ ws.Sublist [memWarning, timeWarning] ∧
      (∀ l : Nat, P.logN = l → GoodParams l P.r.toNat P.p.toNat → Told sys P verbose force l P.r.toNat P.p.toNat ms) ∧
      (¬ GoodParams P.logN P.r.toNat P.p.toNat → msgs = [])) ∧
    (P.logN = 0 →
      (∀ m, MemLimit sys P m → sys.par.perf.1 = .OK → ∃ l : Nat, P'.logN = l ∧ Told sys P verbose false l P'.r.toNat P'.p.toNat msgs) ∧
      (¬ ((∃ m, MemLimit sys P m) ∧ sys.par.perf.1 = .OK) → msgs = [])) := by
  unfold setupParams at h
  by_cases h0 : P.logN ≠ 0
  · refine ⟨fun _ => ?_, fun h => absurd h h0⟩
    rw [if_pos h0, Res.bind_eq_ok] at h
    obtain ⟨⟨rc, t⟩, hc, h⟩ := h
    obtain rfl : msgOf t ++ explicitWarn rc = msgs := (Prod.mk.inj (Prod.mk.inj (Res.ok.inj h)).2).2
    refine ⟨_, _, rfl, ?_, ?_, ?_⟩
    · cases rc <;> decide
    · intro l hl hg
      rw [hl] at hc
      exact check_told g hv hc hg
    · intro hg
      rw [C13_invalid _ _ _ _ _ _ _ _ _ hg] at hc
      obtain ⟨rfl, rfl⟩ := Prod.mk.inj (Res.ok.inj hc)
      rfl
  · refine ⟨fun h => absurd h h0, fun _ => ?_⟩
    rw [if_neg h0, Res.bind_eq_ok] at h
    obtain ⟨o, ho, h⟩ := h
    have ho0 := ho
    unfold pickparams at ho
    rw [Res.bind_eq_ok] at ho
    obtain ⟨mo, hm, ho⟩ := ho
    cases mo with
    | none =>
      obtain rfl := Res.ok.inj ho
      obtain rfl : [] = msgs := (Prod.mk.inj (Prod.mk.inj (Res.ok.inj h)).2).2
      refine ⟨fun m hm' => ?_, fun _ => rfl⟩
      unfold MemLimit at hm'
      rw [hm] at hm'
      cases hm'
    | some m =>
      simp only [] at ho
      by_cases hp : sys.par.perf.1 = .OK
      case neg =>
        rw [if_pos hp] at ho
        obtain rfl := Res.ok.inj ho
        obtain rfl : [] = msgs := (Prod.mk.inj (Prod.mk.inj (Res.ok.inj h)).2).2
        exact ⟨fun _ _ h => absurd h hp, fun _ => rfl⟩
      rw [if_neg (not_not.2 hp), Res.bind_eq_ok] at ho
      obtain ⟨⟨l, p⟩, hnp, ho⟩ := ho
      rw [Res.bind_eq_ok] at ho
      obtain ⟨t, ht, ho⟩ := ho
      obtain rfl := Res.ok.inj ho
      have hP := (Prod.mk.inj (Prod.mk.inj (Res.ok.inj h)).2).1
      obtain rfl : msgOf t = msgs := (Prod.mk.inj (Prod.mk.inj (Res.ok.inj h)).2).2
      refine ⟨fun m' hm' _ => ⟨l, by rw [← hP], ?_⟩, fun hn => absurd ⟨⟨m, hm⟩, hp⟩ hn⟩
      have hr : P'.r = 8 := by rw [← hP]; rfl
      have hp' : P'.p = BitVec.ofNat 32 p := by rw [← hP]
      obtain ⟨v1, v2⟩ := verbose_some ht
      have hl : l ≤ 63 := by
        obtain ⟨l', p', _, hval, -, hg, -⟩ := C11_within_limits _ g.sz _ _ _ _ ho0 rfl
        have : l = l' := (Prod.mk.inj (Option.some.inj hval)).1
        have := hg.2.1
        omega
      refine ⟨fun hv => by rw [v1 hv]; rfl, fun _ h => absurd h Bool.false_ne_true, fun hv' _ _ m'' hm'' => ?_, fun _ hc => ?_⟩
      · have : m'' = m := by
          unfold MemLimit at hm''
          rw [hm] at hm''
          exact (Option.some.inj (Res.ok.inj hm'')).symm
        subst this
        have := display_reports hl (mem_lt g hv hm) (v2 hv')
        rw [hr, hp']
        exact ⟨_, report_msg this, this⟩
      · rcases hc with hc | hc
        · exact absurd hp hc
        · exact absurd ⟨m, hm⟩ hc

/-- **C67.**  Encrypting a buffer with parameters given by the caller says what it will use, then warns if the limits are exceeded; nothing is said about
parameters that are refused as invalid. -/
theorem C67_enc_buf {sys : EncSys} (g : sys.Good) {m outbuf passwd : Bytes} (hm : m.length < 2 ^ 64) (hout : m.length + 128 ≤ outbuf.length) {P : EncParams}
    (hv : P.maxmemfrac.Valid) {verbose force : Bool} {o : BufOut} (h : scryptenc_buf sys m outbuf passwd P verbose force = .ok o) (h0 : P.logN ≠ 0) :
    ∃ ms ws, o.err = ms ++ ws ∧ ws.Sublist [memWarning, timeWarning] ∧
      (∀ l : Nat, P.logN = l → GoodParams l P.r.toNat P.p.toNat → Told sys P verbose force l P.r.toNat P.p.toNat ms) ∧
      (¬ GoodParams P.logN P.r.toNat P.p.toNat → o.err = []) := by
  obtain ⟨s, hs, -, e, -⟩ := encBuf_spec g hm hout h
  obtain ⟨c, hc, -⟩ := encSetup_spec g hs
  rw [e]
  exact (enc_setup_told g hv hc).1 h0

/-- **C67.**  Encrypting a file likewise. -/
theorem C67_enc_file {sys : EncSys} (g : sys.Good) {inf : InFile} {outf : OutFile} {passwd : Bytes} (hin : inf.data.length < 2 ^ 64) {P : EncParams}
    (hv : P.maxmemfrac.Valid) {verbose force : Bool} {o : FileOut} (h : scryptenc_file sys inf outf passwd P verbose force = .ok o) (h0 : P.logN ≠ 0) :
    ∃ ms ws, o.err = ms ++ ws ∧ ws.Sublist [memWarning, timeWarning] ∧
      (∀ l : Nat, P.logN = l → GoodParams l P.r.toNat P.p.toNat → Told sys P verbose force l P.r.toNat P.p.toNat ms) ∧
      (¬ GoodParams P.logN P.r.toNat P.p.toNat → o.err = []) := by
  obtain ⟨s, hs, -, e, -⟩ := encFile_spec g hin h
  obtain ⟨c, hc, -⟩ := encSetup_spec g hs
  rw [e]
  exact (enc_setup_told g hv hc).1 h0

/-- **C67.**  Encrypting a buffer with parameters chosen by the code reports the ones it stores (with the limits, which are never overridden here). -/
theorem C67_enc_buf_auto {sys : EncSys} (g : sys.Good) {m outbuf passwd : Bytes} (hm : m.length < 2 ^ 64) (hout : m.length + 128 ≤ outbuf.length) {P : EncParams}
    (hv : P.maxmemfrac.Valid) {verbose force : Bool} {o : BufOut} (h : scryptenc_buf sys m outbuf passwd P verbose force = .ok o) (h0 : P.logN = 0) :
    (∀ m, MemLimit sys P m → sys.par.perf.1 = .OK → ∃ l : Nat, o.P.logN = l ∧ Told sys P verbose false l o.P.r.toNat o.P.p.toNat o.err) ∧
    (¬ ((∃ m, MemLimit sys P m) ∧ sys.par.perf.1 = .OK) → o.err = []) := by
  obtain ⟨s, hs, eP, e, -⟩ := encBuf_spec g hm hout h
  obtain ⟨c, hc, -⟩ := encSetup_spec g hs
  rw [e, eP]
  exact (enc_setup_told g hv hc).2 h0

/-- **C67.**  Encrypting a file likewise. -/
theorem C67_enc_file_auto {sys : EncSys} (g : sys.Good) {inf : InFile} {outf : OutFile} {passwd : Bytes} (hin : inf.data.length < 2 ^ 64) {P : EncParams}
    (hv : P.maxmemfrac.Valid) {verbose force : Bool} {o : FileOut} (h : scryptenc_file sys inf outf passwd P verbose force = .ok o) (h0 : P.logN = 0) :
    (∀ m, MemLimit sys P m → sys.par.perf.1 = .OK → ∃ l : Nat, o.P.logN = l ∧ Told sys P verbose false l o.P.r.toNat o.P.p.toNat o.err) ∧
    (¬ ((∃ m, MemLimit sys P m) ∧ sys.par.perf.1 = .OK) → o.err = []) := by
  obtain ⟨s, hs, eP, e, -⟩ := encFile_spec g hin h
  obtain ⟨c, hc, -⟩ := encSetup_spec g hs
  rw [e, eP]
  exact (enc_setup_told g hv hc).2 h0

/-- **C67 (finding F25).**  The report of the time is wrong when the number of operations does not fit in 64 bits: for `N = 2^62`, `r = p = 1`, whatever the
speed, it is that of zero operations. -/
theorem C67_F25 (env : DispEnv) (h1 : env.asprintf1 = true) (h2 : env.asprintf2 = true) {q : ℚ} (hq : 0 < q) (limit : F64) :
    ∃ need, display_params env 62 1 1 0 (fin false q) limit =
      .ok (reportText env.fmt1f (2 ^ 62) 1 1 need none (some (fin false 0, limit))) ∧ GoodParams 62 1 1 := by
  obtain ⟨d1, e1, -⟩ := humansize_spec (BitVec.ofNat 64 0)
  obtain ⟨d2, e2, -⟩ := humansize_spec ((128 * (1 : W32)).setWidth 64 * (1 : W64) <<< (62 : Int).toNat)
  have z : F64.lt (F64.ofNat 0) (fin false q) = true := by rw [ofNat_zero_fin]; simpa [F64.lt, F64.val] using hq
  have e0 : F64.div (F64.ofNat 0) (fin false q) = fin false 0 := by
    rw [ofNat_zero_fin]
    show (if q = 0 then _ else F64.round (false != false) (0 / q)) = _
    rw [if_neg (ne_of_gt hq), zero_div]
    unfold F64.round
    rw [roundMag_zero, if_neg (not_le.2 (by positivity))]
    rfl
  refine ⟨d2, ?_, by norm_num [GoodParams]⟩
  unfold display_params
  rw [if_neg (by decide), h1, h2]
  simp only []
  rw [e1, Res.bind_ok, e2, Res.bind_ok]
  rw [if_pos z]
  unfold dispTime
  rw [show (4 * (1 : W64) <<< (62 : Int).toNat * (1 : W32).setWidth 64 * (1 : W32).setWidth 64).toNat = 0 from by decide, e0]
  rw [if_pos z]
  rfl

/-- Non-vacuity: encrypting five bytes with explicit parameters and -v, on every processor, says what it uses (1024, 8, 1: one MiB, 32768 operations at a
million per second), and so does decrypting the result. -/
example (sha : ShaHw) (hw : AesHw) : ∃ o o2 m t t2,
    scryptenc_buf (exEnc sha hw exSalt) [1, 2, 3, 4, 5] (List.replicate 133 0) [9] exP true false = .ok o ∧
    scryptdec_buf (exEnc sha hw exSalt) (o.out.take 133) (List.replicate 133 0) 0 [9] exP0 true false = .ok o2 ∧
    Msg.params t ∈ o.err ∧ ReportsOn (fun _ => []) 10 8 1 m (F64.ofNat 1000000) (F64.ofNat 5) t ∧
    o2.err = [.params t2] ∧ ReportsOn (fun _ => []) 10 8 1 m (F64.ofNat 1000000) (F64.ofNat 5) t2 := by
  have g := exEnc_good sha hw exSalt_length
  have hv : (fin false (1 / 8)).Valid := ⟨rep_eighth, by norm_num⟩
  obtain ⟨o, h, hok, hP⟩ := exEnc_buf sha hw exSalt_length [1, 2, 3, 4, 5] (List.replicate 133 0) [9] (by decide) (by rw [List.length_replicate]; decide) true false
  obtain ⟨ml, hml, h1, -⟩ := exMemLimit sha hw exSalt exP rfl rfl
  obtain ⟨ms, ws, e1, -, e3, -⟩ := C67_enc_buf g (by decide) (by rw [List.length_replicate]; decide) hv h (by decide)
  obtain ⟨t, et, rt⟩ := (e3 10 rfl exP_good).2.2.1 rfl rfl rfl ml hml
  have e10 : o.P.logN.toNat = 10 := by rw [hP]; rfl
  have e8 : o.P.r.toNat = 8 := by rw [hP]; rfl
  have e1' : o.P.p.toNat = 1 := by rw [hP]; rfl
  obtain ⟨o2, d1, d2, -⟩ := C01_roundtrip (outlen := 0) g g (exEnc_ready sha hw exSalt) (by decide) (by rw [List.length_replicate]; decide) h hok
    (outbuf2 := List.replicate 133 0) (by rw [List.length_replicate]; decide) (P2 := exP0) (verbose2 := true) (force2 := false) (by decide)
    (exLimits sha hw exSalt exP0 rfl true false) (by rw [e10, e8, e1']; exact exPass sha hw exSalt exP0 rfl rfl rfl false)
    (by rw [e10, e8, e1']; exact exEnc_kdf sha hw exSalt) (exEnc_aes sha hw exSalt)
  obtain ⟨salt, l, i1, i2, i3, -, -, i6⟩ := encBuf_inv g (by decide) (by rw [List.length_replicate]; decide) h hok
  have hl : l = 10 := by rw [hP] at i2; have i2' : (10 : Int) = l := i2; omega
  subst hl
  rw [e8, e1'] at i3 i6
  have hf := container_fields (scryptCode [9] salt (2 ^ 10) 8 1 64) 10 8 1 salt [1, 2, 3, 4, 5] (g.salt _ i1) (by decide) (by decide) (by decide)
  have ht : o.out.take 133 = container (scryptCode [9] salt (2 ^ 10) 8 1 64) 10 8 1 salt [1, 2, 3, 4, 5] := by
    rw [i6, List.take_append_of_le_length (by rw [hf.len]; decide), List.take_of_length_le (by rw [hf.len]; decide)]
  have d1' : scryptdec_buf (exEnc sha hw exSalt) (o.out.take 133) (List.replicate 133 0) 0 [9] exP0 true false = .ok o2 := d1
  have hT := (C67_dec_buf g hv d1').1
  rw [ht] at hT
  unfold Headed at hT
  rw [hf.logN, hf.r, hf.p] at hT
  obtain ⟨t2, et2, rt2⟩ := (hT ⟨by rw [hf.len]; decide, hf.magic, hf.version, hf.sum, i3⟩).2.2.1 rfl rfl rfl ml hml
  exact ⟨o, o2, ml, t, t2, h, d1', by rw [e1, et]; simp, rt, et2, rt2⟩

end Scrypt.Props
