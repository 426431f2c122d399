import Verif.Props.CpuRate
/-
C45, continued: what the clock says, and how close the speed estimate is to the operations actually performed divided by the time that actually passed on that clock.
-/
namespace Scrypt.Props
open Scrypt Spec F64

/-- The clock tells `s` seconds and `u` microseconds: the monotonic clock where it is compiled in and supported; otherwise the real-time clock where that is compiled in, and
gettimeofday (which delivers microseconds) where it is not.  Nanoseconds are truncated. -/
inductive ClockReads (cfg : ClkCfg) (a : ClkPair) : ℤ → ℤ → Prop
  | mono {s n u} : cfg.useMonotonic = true → a.mono = .time s n → u = n.tdiv 1000 → ClockReads cfg a s u
  | realtime {s n u} : (cfg.useMonotonic = true → a.mono = .unsupported) → cfg.useRealtime = true → a.fallback = .time s n → u = n.tdiv 1000 → ClockReads cfg a s u
  | timeofday {s u} : (cfg.useMonotonic = true → a.mono = .unsupported) → cfg.useRealtime = false → a.fallback = .time s u → ClockReads cfg a s u

/-- The resolution of the clock, in seconds. -/
inductive ClockResolution (cfg : ClkCfg) (cps : ℕ) (a : ClkPair) : ℚ → Prop
  | mono {s n : ℤ} : cfg.useMonotonic = true → a.mono = .time s n → ClockResolution cfg cps a (s + n / 10 ^ 9)
  | realtime {s n : ℤ} : (cfg.useMonotonic = true → a.mono = .unsupported) → cfg.useRealtime = true → a.fallback = .time s n → ClockResolution cfg cps a (s + n / 10 ^ 9)
  | timeofday : (cfg.useMonotonic = true → a.mono = .unsupported) → cfg.useRealtime = false → ClockResolution cfg cps a (1 / cps)

/-- Answers as the system interfaces document them: nanoseconds below 10^9 (microseconds below 10^6 for gettimeofday), and below 2^51 seconds. -/
structure _root_.Scrypt.ClkPair.Normal (cfg : ClkCfg) (a : ClkPair) : Prop where
  mono : ∀ s n, a.mono = .time s n → |s| < 2 ^ 51 ∧ 0 ≤ n ∧ n < 10 ^ 9
  fallback : ∀ s n, a.fallback = .time s n → |s| < 2 ^ 51 ∧ 0 ≤ n ∧ n < if cfg.useRealtime then 10 ^ 9 else 10 ^ 6

theorem reads_normal {cfg : ClkCfg} {a : ClkPair} (h : a.Normal cfg) {s u : ℤ} (hr : ClockReads cfg a s u) : |s| < 2 ^ 51 ∧ 0 ≤ u ∧ u < 10 ^ 6 := by
  have key : ∀ n : ℤ, 0 ≤ n → n < 10 ^ 9 → 0 ≤ n.tdiv 1000 ∧ n.tdiv 1000 < 10 ^ 6 := by
    intro n h0 h1
    rw [Int.tdiv_eq_ediv_of_nonneg h0]
    omega
  cases hr with
  | mono _ h2 hu => obtain ⟨a1, a2, a3⟩ := h.mono _ _ h2; rw [hu]; exact ⟨a1, key _ a2 a3⟩
  | realtime _ h1 h2 hu =>
    rw [hu]
    obtain ⟨a1, a2, a3⟩ := h.fallback _ _ h2
    rw [if_pos h1] at a3
    exact ⟨a1, key _ a2 a3⟩
  | timeofday _ h1 h2 =>
    obtain ⟨a1, a2, a3⟩ := h.fallback _ _ h2
    rw [if_neg (by rw [h1]; simp)] at a3
    exact ⟨a1, a2, a3⟩

/-- **C45.**  Reading the clock gives what the clock tells, and fails only if it tells nothing. -/
theorem C45_reading (cfg : ClkCfg) (a : ClkPair) (t : Timeval) : monoclock_get cfg a = some t ↔ ClockReads cfg a t.sec t.usec := by
  have fb : (cfg.useMonotonic = true → a.mono = .unsupported) → (monoFallback cfg a.fallback = some t ↔ ClockReads cfg a t.sec t.usec) := by
    intro hm
    constructor
    · intro h
      unfold monoFallback at h
      cases hf : a.fallback with
      | time s n =>
        rw [hf] at h
        obtain rfl := Option.some.inj h
        by_cases hr : cfg.useRealtime = true
        · simp only [hr, if_true]; exact .realtime hm hr hf rfl
        · simp only [hr, if_false, Bool.false_eq_true]; exact .timeofday hm (by simpa using hr) hf
      | unsupported => rw [hf] at h; cases h
      | fail => rw [hf] at h; cases h
    · intro h
      obtain ⟨s, u⟩ := t
      cases h with
      | mono h1 h2 h4 => rw [hm h1] at h2; cases h2
      | realtime h1 h2 h3 h4 => dsimp only at h3 h4; subst h4; rw [h3]; simp [monoFallback, h2]
      | timeofday h1 h2 h3 => rw [h3]; simp [monoFallback, h2]
  unfold monoclock_get
  by_cases hu : cfg.useMonotonic = true
  · rw [if_pos hu]
    cases hm : a.mono with
    | time s n =>
      constructor
      · intro h; obtain rfl := Option.some.inj h; exact .mono hu hm rfl
      · intro h
        obtain ⟨s', u⟩ := t
        cases h with
        | mono h1 h2 h4 => dsimp only at h2 h4; subst h4; rw [hm] at h2; cases h2; rfl
        | realtime h1 h2 h3 h4 => rw [hm] at h1; cases h1 hu
        | timeofday h1 h2 h3 => rw [hm] at h1; cases h1 hu
    | unsupported => exact fb fun _ => hm
    | fail =>
      constructor
      · intro h; cases h
      · intro h
        cases h with
        | mono h1 h2 h4 => rw [hm] at h2; cases h2
        | realtime h1 h2 h3 h4 => rw [hm] at h1; cases h1 hu
        | timeofday h1 h2 h3 => rw [hm] at h1; cases h1 hu
  · rw [if_neg hu]
    exact fb fun h => absurd h hu

theorem mag_near {q : ℚ} (h : 0 ≤ q) : |roundMag q - q| ≤ q / 2 ^ 53 + 1 / 2 ^ 60 := by
  by_cases h1 : (2 : ℚ) ^ (-1022 : ℤ) ≤ q
  · have := roundMag_near h1
    have : (0 : ℚ) ≤ 1 / 2 ^ 60 := by positivity
    linarith
  · have h2 := roundMag_le_pow (by norm_num) (le_of_lt (not_le.1 h1))
    have h3 := roundMag_nonneg q
    have h4 : (2 : ℚ) ^ (-1022 : ℤ) ≤ 1 / 2 ^ 60 := by
      rw [show (1 : ℚ) / 2 ^ 60 = 2 ^ (-60 : ℤ) by norm_num]
      exact zpow_le_zpow_right₀ (by norm_num) (by norm_num)
    have h5 : 0 ≤ q / 2 ^ 53 := by positivity
    rw [abs_le]
    constructor <;> linarith

theorem val_abs (n : ℤ) : ((n.natAbs : ℕ) : ℚ) = |(n : ℚ)| := by
  rw [Nat.cast_natAbs, Int.cast_abs]

set_option exponentiation.threshold 1100 in
/-- `(double)a + (double)b * (1 / D)` is `a + b / D` up to rounding. -/
theorem secs_near {a b : ℤ} {D : ℕ} (ha : |a| < 2 ^ 53) (hD : 1 < D) (hD2 : D < 2 ^ 53) (hb : |b| < D) :
    ∃ s v, F64.add (F64.ofInt a) (F64.mul (F64.ofInt b) (F64.round false (1 / D))) = fin s v ∧
      |val s v - (a + b / D)| ≤ |(a + b / D : ℚ)| / 2 ^ 52 + 1 / 2 ^ 50 := by
  have Dp : (0 : ℚ) < D := by exact_mod_cast (by omega : 0 < D)
  have D1 : (1 : ℚ) ≤ D := by exact_mod_cast (by omega : 1 ≤ D)
  have D2 : (D : ℚ) ≤ 2 ^ 53 := by exact_mod_cast (by omega : D ≤ 2 ^ 53)
  have i1 : (1 : ℚ) / D ≤ 1 := by rw [div_le_one Dp]; exact D1
  have i0 : (0 : ℚ) < 1 / D := by positivity
  have c1 : roundMag (1 / D) ≤ (2 : ℚ) ^ (0 : ℤ) := roundMag_le_pow (by norm_num) (by rw [zpow_zero]; exact i1)
  rw [zpow_zero] at c1
  have cn : |roundMag (1 / D) - 1 / (D : ℚ)| ≤ (1 / D) / 2 ^ 53 := by
    refine roundMag_near ?_
    rw [le_div_iff₀ Dp]
    have : (2 : ℚ) ^ (-1022 : ℤ) ≤ 2 ^ (-53 : ℤ) := zpow_le_zpow_right₀ (by norm_num) (by norm_num)
    have e : (2 : ℚ) ^ (-53 : ℤ) * 2 ^ 53 = 1 := by norm_num
    nlinarith [show (0 : ℚ) ≤ 2 ^ (-1022 : ℤ) by positivity]
  have ec : F64.round false (1 / D) = fin false (roundMag (1 / D)) := round_small (lt_of_le_of_lt c1 (one_lt_pow₀ (by norm_num) (by norm_num)))
  have c0 := roundMag_nonneg (1 / D)
  rw [ofInt_small ha, ofInt_small (by omega), ec]
  generalize roundMag (1 / (D : ℚ)) = c at *
  have hbq : |(b : ℚ)| ≤ D := by exact_mod_cast le_of_lt hb
  have hb0 : (0 : ℚ) ≤ |(b : ℚ)| := abs_nonneg _
  rw [val_abs b]
  have bc0 : 0 ≤ |(b : ℚ)| * c := mul_nonneg hb0 c0
  -- |b| * c is close to |b| / D
  have e1 : |(|(b : ℚ)|) * c - |(b : ℚ)| / D| ≤ 1 / 2 ^ 53 := by
    rw [show |(b : ℚ)| * c - |(b : ℚ)| / D = |(b : ℚ)| * (c - 1 / D) by ring, abs_mul, abs_abs]
    calc _ ≤ (D : ℚ) * ((1 / D) / 2 ^ 53) := mul_le_mul hbq cn (abs_nonneg _) (le_of_lt Dp)
      _ = 1 / 2 ^ 53 := by field_simp
  have bd1 : |(b : ℚ)| / D ≤ 1 := by rw [div_le_one Dp]; exact hbq
  have bcle : |(b : ℚ)| * c ≤ 1 + 1 / 2 ^ 53 := by rw [abs_le] at e1; linarith [e1.2]
  have e2 := mag_near bc0
  have m0 := roundMag_nonneg (|(b : ℚ)| * c)
  have mle : roundMag (|(b : ℚ)| * c) ≤ 2 := by
    rw [abs_le] at e2
    have : |(b : ℚ)| * c / 2 ^ 53 ≤ (1 + 1 / 2 ^ 53) / 2 ^ 53 := by gcongr
    have k : (1 : ℚ) + 1 / 2 ^ 53 + ((1 + 1 / 2 ^ 53) / 2 ^ 53 + 1 / 2 ^ 60) ≤ 2 := by norm_num
    linarith [e2.2]
  have em : F64.mul (fin (decide (b < 0)) |(b : ℚ)|) (fin false c) = fin (decide (b < 0) != false) (roundMag (|(b : ℚ)| * c)) :=
    round_small (lt_of_le_of_lt mle (by
      calc (2 : ℚ) = 2 ^ 1 := by norm_num
        _ < 2 ^ 1024 := pow_lt_pow_right₀ (by norm_num) (by norm_num)))
  rw [em]
  -- the signed product is close to b / D
  have e3 : |val (decide (b < 0) != false) (roundMag (|(b : ℚ)| * c)) - b / D| ≤ 3 / 2 ^ 53 := by
    have hmag : |roundMag (|(b : ℚ)| * c) - |(b : ℚ)| / D| ≤ 3 / 2 ^ 53 := by
      have k1 : |(b : ℚ)| * c / 2 ^ 53 ≤ (1 + 1 / 2 ^ 53) / 2 ^ 53 := by gcongr
      have k2 : (1 + 1 / 2 ^ 53) / 2 ^ 53 + 1 / 2 ^ 60 + 1 / 2 ^ 53 ≤ (3 : ℚ) / 2 ^ 53 := by norm_num
      have := abs_sub_le (roundMag (|(b : ℚ)| * c)) (|(b : ℚ)| * c) (|(b : ℚ)| / D)
      linarith
    by_cases hn : b < 0
    · have : |(b : ℚ)| = -b := abs_of_neg (by exact_mod_cast hn)
      rw [show (decide (b < 0) != false) = true by simp [hn]]
      simp only [F64.val, if_true]
      rw [this] at hmag ⊢
      rw [← abs_neg]
      convert hmag using 2
      ring
    · have : |(b : ℚ)| = b := abs_of_nonneg (by exact_mod_cast not_lt.1 hn)
      rw [show (decide (b < 0) != false) = false by simp [hn]]
      simp only [F64.val, if_false, Bool.false_eq_true]
      rw [this] at hmag ⊢
      exact hmag
  generalize roundMag (|(b : ℚ)| * c) = m at *
  generalize (decide (b < 0) != false) = sb at *
  show ∃ s v, (if val _ _ + val sb m = 0 then fin _ 0 else F64.round _ |val _ _ + val sb m|) = fin s v ∧ _
  rw [val_natAbs a]
  have aq : |(a : ℚ)| ≤ 2 ^ 53 := by exact_mod_cast le_of_lt ha
  have vm : |val sb m| ≤ 2 := by
    unfold F64.val
    split
    · rw [abs_neg, abs_of_nonneg m0]; exact mle
    · rw [abs_of_nonneg m0]; exact mle
  generalize val sb m = w at *
  have te : |((a : ℚ) + w) - (a + b / D)| ≤ 3 / 2 ^ 53 := by rw [show ((a : ℚ) + w) - (a + b / D) = w - b / D by ring]; exact e3
  have tb : |(a : ℚ) + w| ≤ 2 ^ 54 := by
    have := abs_add_le (a : ℚ) w
    have k : (2 : ℚ) ^ 53 + 2 ≤ 2 ^ 54 := by norm_num
    linarith
  generalize (a : ℚ) + w = t at te tb
  generalize (a : ℚ) + b / D = E at te
  have E0 : 0 ≤ |E| / 2 ^ 52 := by positivity
  have k1 : (3 : ℚ) / 2 ^ 53 ≤ 1 / 2 ^ 50 := by norm_num
  by_cases h0 : t = 0
  · rw [if_pos h0]
    refine ⟨_, _, rfl, ?_⟩
    rw [show val (decide (a < 0) && sb) 0 = 0 by unfold F64.val; split <;> simp, ← h0]
    linarith
  · rw [if_neg h0]
    have r1 : roundMag |t| ≤ (2 : ℚ) ^ (54 : ℤ) := roundMag_le_pow (by norm_num) (by
      rw [show (2 : ℚ) ^ (54 : ℤ) = 2 ^ 54 by norm_cast]; exact tb)
    rw [show (2 : ℚ) ^ (54 : ℤ) = 2 ^ 54 by norm_cast] at r1
    rw [round_small (lt_of_le_of_lt r1 (pow_lt_pow_right₀ (by norm_num) (by norm_num)))]
    refine ⟨_, _, rfl, ?_⟩
    have n1 := mag_near (abs_nonneg t)
    have n2 : |val (decide (t < 0)) (roundMag |t|) - t| ≤ |t| / 2 ^ 53 + 1 / 2 ^ 60 := by
      by_cases hn : t < 0
      · rw [show decide (t < 0) = true by simp [hn]]
        simp only [F64.val, if_true]
        rw [abs_of_neg hn] at n1 ⊢
        rw [← abs_neg]
        convert n1 using 2
        ring
      · rw [show decide (t < 0) = false by simp [hn]]
        simp only [F64.val, if_false, Bool.false_eq_true]
        rw [abs_of_nonneg (not_lt.1 hn)] at n1 ⊢
        exact n1
    have n3 := abs_sub_le (val (decide (t < 0)) (roundMag |t|)) t E
    have n4 : |t| ≤ |E| + 3 / 2 ^ 53 := by
      have := abs_sub_abs_le_abs_sub t E
      linarith
    have n5 : |t| / 2 ^ 53 ≤ (|E| + 3 / 2 ^ 53) / 2 ^ 53 := by gcongr
    have n6 : |E| / 2 ^ 53 ≤ |E| / 2 ^ 52 := by gcongr <;> norm_num
    have k2 : (3 : ℚ) / 2 ^ 53 / 2 ^ 53 + 1 / 2 ^ 60 + 3 / 2 ^ 53 ≤ 1 / 2 ^ 50 := by norm_num
    rw [add_div] at n5
    linarith

/-- **C45.**  The resolution used is the clock's, up to rounding; there is none exactly if the clock has none. -/
theorem C45_resolution {cfg : ClkCfg} {cps : ℕ} (hc : 0 < cps) (hc2 : cps < 2 ^ 53) {a : ClkPair} (ha : a.Normal cfg) :
    (∀ r, monoclock_getres cfg cps a = some r → ∃ R s v, ClockResolution cfg cps a R ∧ r = fin s v ∧ |val s v - R| ≤ |R| / 2 ^ 52 + 1 / 2 ^ 50) ∧
    (monoclock_getres cfg cps a = none → ∀ R, ¬ ClockResolution cfg cps a R) := by
  have dbl : ∀ s n : ℤ, |s| < 2 ^ 51 ∧ 0 ≤ n ∧ n < 10 ^ 9 → ∃ sg v, resDouble s n = fin sg v ∧ |val sg v - (s + n / 10 ^ 9)| ≤ |(s + n / 10 ^ 9 : ℚ)| / 2 ^ 52 + 1 / 2 ^ 50 := by
    rintro s n ⟨h1, h2, h3⟩
    have := secs_near (a := s) (b := n) (D := 10 ^ 9) (by omega) (by norm_num) (by norm_num) (by rw [abs_of_nonneg h2]; exact_mod_cast h3)
    push_cast at this
    exact this
  have rcp : ∃ sg v, F64.div (F64.ofNat 1) (F64.ofNat cps) = fin sg v ∧ |val sg v - 1 / cps| ≤ |(1 / cps : ℚ)| / 2 ^ 52 + 1 / 2 ^ 50 := by
    have cq : (1 : ℚ) ≤ cps := by exact_mod_cast hc
    rw [ofNat_small hc2, ofNat_small (by norm_num)]
    show ∃ sg v, (if (cps : ℚ) = 0 then _ else F64.round _ (((1 : ℕ) : ℚ) / cps)) = fin sg v ∧ _
    rw [if_neg (by positivity), Nat.cast_one]
    have i1 : (1 : ℚ) / cps ≤ (2 : ℚ) ^ (0 : ℤ) := by rw [zpow_zero, div_le_one (by positivity)]; exact cq
    have c1 := roundMag_le_pow (by norm_num) i1
    rw [zpow_zero] at c1
    rw [round_small (lt_of_le_of_lt c1 (one_lt_pow₀ (by norm_num) (by norm_num)))]
    refine ⟨_, _, rfl, ?_⟩
    have i0 : (0 : ℚ) ≤ 1 / cps := by positivity
    have n1 := mag_near i0
    rw [show (false != false) = false from rfl]
    simp only [F64.val, if_false, Bool.false_eq_true]
    rw [abs_of_nonneg i0]
    generalize (1 : ℚ) / cps = q at *
    have : q / 2 ^ 53 ≤ q / 2 ^ 52 := by gcongr <;> norm_num
    have k : (1 : ℚ) / 2 ^ 60 ≤ 1 / 2 ^ 50 := by norm_num
    linarith
  have fb : (cfg.useMonotonic = true → a.mono = .unsupported) →
      (∀ r, resFallback cfg cps a.fallback = some r → ∃ R s v, ClockResolution cfg cps a R ∧ r = fin s v ∧ |val s v - R| ≤ |R| / 2 ^ 52 + 1 / 2 ^ 50) ∧
      (resFallback cfg cps a.fallback = none → ∀ R, ¬ ClockResolution cfg cps a R) := by
    intro hm
    by_cases hr : cfg.useRealtime = true
    · unfold resFallback
      simp only [hr, if_true]
      cases hf : a.fallback with
      | time s n =>
        have hN := ha.fallback _ _ hf
        rw [if_pos hr] at hN
        obtain ⟨sg, v, e1, e2⟩ := dbl s n hN
        refine ⟨fun r h => ⟨_, sg, v, .realtime hm hr hf, (Option.some.inj h).symm.trans e1, e2⟩, fun h => by cases h⟩
      | unsupported =>
        refine ⟨fun r h => (by cases h), fun _ R h => ?_⟩
        cases h with
        | mono h1 h2 => rw [hm h1] at h2; cases h2
        | realtime _ _ h3 => rw [hf] at h3; cases h3
        | timeofday _ h2 => rw [hr] at h2; cases h2
      | fail =>
        refine ⟨fun r h => (by cases h), fun _ R h => ?_⟩
        cases h with
        | mono h1 h2 => rw [hm h1] at h2; cases h2
        | realtime _ _ h3 => rw [hf] at h3; cases h3
        | timeofday _ h2 => rw [hr] at h2; cases h2
    · have hr' : cfg.useRealtime = false := by simpa using hr
      have e : resFallback cfg cps a.fallback = some (F64.div (F64.ofNat 1) (F64.ofNat cps)) := by
        unfold resFallback
        cases a.fallback <;> simp [hr']
      rw [e]
      obtain ⟨sg, v, e1, e2⟩ := rcp
      exact ⟨fun r h => ⟨_, sg, v, .timeofday hm hr', (Option.some.inj h).symm.trans e1, e2⟩, fun h => by cases h⟩
  unfold monoclock_getres
  by_cases hu : cfg.useMonotonic = true
  · rw [if_pos hu]
    cases hm : a.mono with
    | time s n =>
      obtain ⟨sg, v, e1, e2⟩ := dbl s n (ha.mono _ _ hm)
      refine ⟨fun r h => ⟨_, sg, v, .mono hu hm, (Option.some.inj h).symm.trans e1, e2⟩, fun h => by cases h⟩
    | unsupported => exact fb fun _ => hm
    | fail =>
      refine ⟨fun r h => (by cases h), fun _ R h => ?_⟩
      cases h with
      | mono h1 h2 => rw [hm] at h2; cases h2
      | realtime h1 _ h3 => rw [hm] at h1; cases h1 hu
      | timeofday h1 h2 => rw [hm] at h1; cases h1 hu
  · rw [if_neg hu]
    exact fb fun h => absurd h hu

/-- The time that passed on the clock, in seconds. -/
def passed (s0 u0 s1 u1 : ℤ) : ℚ := (s1 - s0 : ℤ) + (u1 - u0 : ℤ) / 10 ^ 6

/-- **C45.**  The interval the program works with is the time that passed on the clock, up to rounding, and has the same sign. -/
theorem C45_interval {s0 u0 s1 u1 : ℤ} (h0 : |s0| < 2 ^ 51 ∧ 0 ≤ u0 ∧ u0 < 10 ^ 6) (h1 : |s1| < 2 ^ 51 ∧ 0 ≤ u1 ∧ u1 < 10 ^ 6) :
    ∃ s v, timeval_diff ⟨s0, u0⟩ ⟨s1, u1⟩ = fin s v ∧ |val s v - passed s0 u0 s1 u1| ≤ |passed s0 u0 s1 u1| / 2 ^ 52 + 1 / 2 ^ 50 ∧
      (0 < val s v ↔ 0 < passed s0 u0 s1 u1) := by
  obtain ⟨a1, a2, a3⟩ := h0
  obtain ⟨b1, b2, b3⟩ := h1
  obtain ⟨s, v, e1, e2⟩ := secs_near (a := s1 - s0) (b := u1 - u0) (D := 10 ^ 6) (by rw [abs_lt] at *; omega) (by norm_num) (by norm_num)
    (by rw [abs_lt]; push_cast; omega)
  push_cast at e1
  rw [show (1 : ℚ) / 1000000 = 1 / 10 ^ 6 by norm_num] at e1
  have e2' : |val s v - passed s0 u0 s1 u1| ≤ |passed s0 u0 s1 u1| / 2 ^ 52 + 1 / 2 ^ 50 := by
    unfold passed
    push_cast at e2 ⊢
    exact e2
  refine ⟨s, v, e1, e2', ?_⟩
  -- the time is a multiple of a microsecond
  obtain ⟨k, hk⟩ : ∃ k : ℤ, passed s0 u0 s1 u1 = k / 10 ^ 6 := ⟨(s1 - s0) * 10 ^ 6 + (u1 - u0), by unfold passed; push_cast; field_simp; norm_num⟩
  rw [hk] at e2' ⊢
  have hz : k = 0 → val s v = 0 := by
    intro hk0
    have hp : passed s0 u0 s1 u1 = 0 := by rw [hk, hk0]; simp
    have : (s1 - s0) * 10 ^ 6 + (u1 - u0) = 0 := by
      unfold passed at hp
      have : (((s1 - s0) * 10 ^ 6 + (u1 - u0) : ℤ) : ℚ) = 0 := by
        field_simp at hp
        push_cast at hp ⊢
        linarith
      exact_mod_cast this
    have q1 : s1 - s0 = 0 := by omega
    have q2 : u1 - u0 = 0 := by omega
    rw [q1, q2] at e1
    have : F64.add (F64.ofInt 0) (F64.mul (F64.ofInt 0) (F64.round false (1 / 10 ^ 6))) = fin false 0 := by
      have z : F64.ofInt 0 = fin false 0 := by rw [ofInt_small (by norm_num)]; simp
      obtain ⟨q, hq⟩ : ∃ q, F64.round false (1 / 10 ^ 6) = fin false q := by
        have c1 : roundMag (1 / 10 ^ 6) ≤ (2 : ℚ) ^ (0 : ℤ) := roundMag_le_pow (by norm_num) (by norm_num)
        rw [zpow_zero] at c1
        exact ⟨_, round_small (lt_of_le_of_lt c1 (one_lt_pow₀ (by norm_num) (by norm_num)))⟩
      rw [z, hq]
      have : F64.mul (fin false 0) (fin false q) = fin false 0 := by
        show F64.round (false != false) (0 * q) = _
        rw [zero_mul, round_small (by rw [roundMag_zero]; positivity), roundMag_zero]
        rfl
      rw [this]
      simp [F64.add, F64.val]
    rw [this] at e1
    obtain ⟨rfl, rfl⟩ := F64.fin.inj e1
    simp [F64.val]
  have kb : k ≤ 0 ∨ 1 ≤ k := by omega
  rcases kb with kb | kb
  · rcases lt_or_eq_of_le kb with kb | kb
    · have k1 : (k : ℚ) / 10 ^ 6 ≤ -1 / 10 ^ 6 := by
        have : (k : ℚ) ≤ -1 := by exact_mod_cast (by omega : k ≤ -1)
        gcongr
      generalize (k : ℚ) / 10 ^ 6 = E at *
      rw [abs_of_neg (a := E) (by linarith)] at e2'
      rw [abs_le] at e2'
      constructor
      · intro h; exfalso; linarith [e2'.2]
      · intro h; exfalso; linarith
    · rw [hz kb, kb]; simp
  · have k1 : (1 : ℚ) / 10 ^ 6 ≤ (k : ℚ) / 10 ^ 6 := by
      have : (1 : ℚ) ≤ k := by exact_mod_cast kb
      gcongr
    generalize (k : ℚ) / 10 ^ 6 = E at *
    rw [abs_of_pos (a := E) (by linarith)] at e2'
    rw [abs_le] at e2'
    constructor
    · intro h; linarith
    · intro h; linarith [e2'.1]

set_option exponentiation.threshold 1100 in
/-- **C45, accuracy.**  When the estimate succeeds, it is the number of Salsa20/8 operations performed (512 per completed key derivation) divided by the time that passed on the
clock while they were performed, to within one part in 2^28; that time is positive and not less than the clock's resolution, and it was not more than the resolution before the last
derivation (both up to rounding). -/
theorem C45_accurate {cfg : ClkCfg} {cps : ℕ} (hc : 0 < cps) (hc2 : cps < 2 ^ 53) {res start1 : ClkPair} (ha : res.Normal cfg) {steps1 : List PerfStep}
    (hnn : res.NonNegTimes) {start2 : ClkPair} {steps2 : List PerfStep} {opps : F64} (h2 : start2.Normal cfg) (hst : ∀ s ∈ steps2, s.clk.Normal cfg) (hn : steps2.length < 2 ^ 53)
    (h : scryptenc_cpuperf cfg cps res start1 steps1 start2 steps2 = some (.OK, opps)) :
    ∃ (R : ℚ) (s0 u0 : ℤ) (n : ℕ) (s1 u1 : ℤ) (last : PerfStep) (v : ℚ),
      ClockResolution cfg cps res R ∧ ClockReads cfg start2 s0 u0 ∧
      1 ≤ n ∧ steps2[n - 1]? = some last ∧ ClockReads cfg last.clk s1 u1 ∧
      (∀ (j : ℕ) (s : PerfStep), j < n → steps2[j]? = some s → s.scryptOk = true) ∧
      0 < passed s0 u0 s1 u1 ∧
      R ≤ passed s0 u0 s1 u1 + (passed s0 u0 s1 u1 + R + 1) / 2 ^ 49 ∧
      (∀ (j : ℕ) (s : PerfStep), j + 1 < n → steps2[j]? = some s → ∃ s' u', ClockReads cfg s.clk s' u' ∧
        passed s0 u0 s' u' ≤ R + (|passed s0 u0 s' u'| + R + 1) / 2 ^ 49) ∧
      opps = fin false v ∧ |v * passed s0 u0 s1 u1 - 512 * n| ≤ 512 * n / 2 ^ 28 := by
  obtain ⟨resd, t0, n, el, hr, ht0, n1, nl, hok, ⟨s, t1, hs, ht1, rfl⟩, hlt, hbefore, rfl⟩ := C45_estimate h
  have r0 := (C45_reading cfg start2 t0).1 ht0
  have r1 := (C45_reading cfg s.clk t1).1 ht1
  have q0 := reads_normal h2 r0
  have q1 := reads_normal (hst s (List.mem_of_getElem? hs)) r1
  obtain ⟨R, rs, rv, hR, rfl, hRn⟩ := (C45_resolution hc hc2 ha).1 _ hr
  have hp := C45_positive hc (by omega) hnn hr hlt
  obtain ⟨sg, w, hw, wn, wp⟩ := C45_interval q0 q1
  obtain ⟨s0, u0⟩ := t0
  obtain ⟨s1, u1⟩ := t1
  dsimp only at *
  have R0 : 0 ≤ R := by
    cases hR with
    | mono h1 h2 =>
      obtain ⟨a1, a2⟩ := hnn.1 _ _ h2
      have b1 : (0 : ℚ) ≤ (_ : ℤ) := Int.cast_nonneg a1
      have b2 : (0 : ℚ) ≤ (_ : ℤ) := Int.cast_nonneg a2
      positivity
    | realtime _ h1 h2 =>
      obtain ⟨a1, a2⟩ := hnn.2 _ _ h2
      have b1 : (0 : ℚ) ≤ (_ : ℤ) := Int.cast_nonneg a1
      have b2 : (0 : ℚ) ≤ (_ : ℤ) := Int.cast_nonneg a2
      positivity
    | timeofday => positivity
  rw [abs_of_nonneg R0] at hRn
  rw [hw] at hp hlt ⊢
  have wpos : 0 < val sg w := by
    rcases hp with hp | ⟨s', v', hp, hp'⟩
    · cases hp
    · obtain ⟨rfl, rfl⟩ := F64.fin.inj hp; exact hp'
  have Epos := wp.1 wpos
  -- a positive time is at least a microsecond
  have Emic : (1 : ℚ) / 10 ^ 6 ≤ passed s0 u0 s1 u1 := by
    have hk : passed s0 u0 s1 u1 = (((s1 - s0) * 10 ^ 6 + (u1 - u0) : ℤ) : ℚ) / 10 ^ 6 := by unfold passed; push_cast; field_simp; norm_num
    rw [hk] at Epos ⊢
    have : (0 : ℚ) < (((s1 - s0) * 10 ^ 6 + (u1 - u0) : ℤ) : ℚ) := by
      by_contra hc
      have := div_nonpos_of_nonpos_of_nonneg (not_lt.1 hc) (by positivity : (0 : ℚ) ≤ 10 ^ 6)
      linarith
    have : (0 : ℤ) < (s1 - s0) * 10 ^ 6 + (u1 - u0) := by exact_mod_cast this
    have : (1 : ℚ) ≤ (((s1 - s0) * 10 ^ 6 + (u1 - u0) : ℤ) : ℚ) := by exact_mod_cast this
    gcongr
  have hbef : ∀ (j : ℕ) (s : PerfStep), j + 1 < n → steps2[j]? = some s → ∃ s' u', ClockReads cfg s.clk s' u' ∧
        passed s0 u0 s' u' ≤ R + (|passed s0 u0 s' u'| + R + 1) / 2 ^ 49 := by
    intro j sj hj hsj
    obtain ⟨⟨s', u'⟩, c1, c2⟩ := hbefore j sj hj hsj
    have c3 := (C45_reading cfg sj.clk _).1 c1
    refine ⟨s', u', c3, ?_⟩
    obtain ⟨sg', w', hw', wn', -⟩ := C45_interval q0 (reads_normal (hst sj (List.mem_of_getElem? hsj)) c3)
    rw [hw'] at c2
    have c4 : ¬ (val rs rv < val sg' w') := by simpa [F64.lt] using c2
    dsimp only at wn'
    generalize passed s0 u0 s' u' = E at *
    rw [abs_le] at hRn wn'
    have := abs_nonneg E
    linarith [hRn.1, hRn.2, wn'.1, wn'.2]
  have hlt' : val rs rv < val sg w := by simpa [F64.lt] using hlt
  have hRE : R ≤ passed s0 u0 s1 u1 + (passed s0 u0 s1 u1 + R + 1) / 2 ^ 49 := by
    rw [abs_of_pos Epos] at wn
    rw [abs_le] at hRn wn
    linarith [hRn.1, hRn.2, wn.1, wn.2]
  have hsg : sg = false := by
    cases sg
    · rfl
    · exfalso
      have hV : (F64.fin true w).Valid := by rw [← hw]; exact valid_add _ _
      have := hV.1.nonneg
      simp only [F64.val, if_true] at wpos
      linarith
  subst hsg
  simp only [F64.val, if_false, Bool.false_eq_true] at wpos wn
  have hm : 512 * n % 2 ^ 64 = 512 * n := Nat.mod_eq_of_lt (by omega)
  have eN : F64.ofNat (512 * n % 2 ^ 64) = fin false (512 * n : ℕ) := by
    rw [hm, ofNat_lt64 (by omega), roundMag_rep ⟨n, 9, by omega, by norm_num, by push_cast; ring⟩]
  have nq : (1 : ℚ) ≤ n := by exact_mod_cast n1
  have nq2 : (n : ℚ) ≤ 2 ^ 53 := by exact_mod_cast (by omega : n ≤ 2 ^ 53)
  rw [abs_of_pos Epos] at wn
  have Eub : passed s0 u0 s1 u1 ≤ 2 ^ 53 := by
    unfold passed
    have a1 : (((s1 - s0 : ℤ)) : ℚ) ≤ 2 ^ 52 := by
      have : s1 - s0 ≤ 2 ^ 52 := by have := q0.1; have := q1.1; rw [abs_lt] at *; omega
      exact_mod_cast this
    have a2 : (((u1 - u0 : ℤ)) : ℚ) ≤ 10 ^ 6 := by
      have : u1 - u0 ≤ 10 ^ 6 := by omega
      exact_mod_cast this
    have a3 : (((u1 - u0 : ℤ)) : ℚ) / 10 ^ 6 ≤ 1 := by rw [div_le_one (by positivity)]; exact a2
    have k : (2 : ℚ) ^ 52 + 1 ≤ 2 ^ 53 := by norm_num
    linarith
  generalize hE : passed s0 u0 s1 u1 = E at *
  have wl : E / 2 ≤ w := by rw [abs_le] at wn; linarith [wn.1]
  have wu : w ≤ 2 ^ 54 := by
    rw [abs_le] at wn
    have k : (2 : ℚ) ^ 53 + (2 ^ 53 / 2 ^ 52 + 1 / 2 ^ 50) ≤ 2 ^ 54 := by norm_num
    have : E / 2 ^ 52 ≤ 2 ^ 53 / 2 ^ 52 := by gcongr
    linarith [wn.2]
  have w0 : 0 < w := wpos
  have qlo : (2 : ℚ) ^ (-1022 : ℤ) ≤ ((512 * n : ℕ) : ℚ) / w := by
    rw [le_div_iff₀ w0]
    have a1 : (2 : ℚ) ^ (-1022 : ℤ) ≤ 2 ^ (-54 : ℤ) := zpow_le_zpow_right₀ (by norm_num) (by norm_num)
    have a2 : (2 : ℚ) ^ (-54 : ℤ) * 2 ^ 54 = 1 := by norm_num
    push_cast
    nlinarith [show (0 : ℚ) ≤ 2 ^ (-1022 : ℤ) by positivity]
  have qhi : ((512 * n : ℕ) : ℚ) / w ≤ 2 ^ (84 : ℕ) := by
    rw [div_le_iff₀ w0]
    push_cast
    have : (512 : ℚ) * 2 ^ 53 ≤ 2 ^ 84 * (1 / 10 ^ 6 / 2) := by norm_num
    nlinarith
  have near := roundMag_near qlo
  have hi := roundMag_le_pow (q := ((512 * n : ℕ) : ℚ) / w) (e := 84) (by norm_num) (by rw [show (2 : ℚ) ^ (84 : ℤ) = 2 ^ 84 by norm_cast]; exact qhi)
  rw [show (2 : ℚ) ^ (84 : ℤ) = 2 ^ 84 by norm_cast] at hi
  refine ⟨R, s0, u0, n, s1, u1, s, roundMag (((512 * n : ℕ) : ℚ) / w), hR, r0, n1, hs, r1, hok, by rw [hE]; exact Epos, by rw [hE]; exact hRE, hbef, ?_, ?_⟩
  · rw [eN]
    show (if w = 0 then _ else F64.round _ _) = _
    rw [if_neg (ne_of_gt w0), round_small (lt_of_le_of_lt hi (pow_lt_pow_right₀ (by norm_num) (by norm_num)))]
    rfl
  · rw [hE]
    push_cast at near ⊢
    generalize roundMag (512 * (n : ℚ) / w) = V at *
    -- V * w is close to 512 n, and w is close to E
    have N0 : (0 : ℚ) < 512 * n := by positivity
    generalize (512 : ℚ) * n = N at *
    have f1 : |V * w - N| ≤ N / 2 ^ 53 := by
      have : V * w - N = (V - N / w) * w := by field_simp
      rw [this, abs_mul, abs_of_pos w0]
      calc _ ≤ N / w / 2 ^ 53 * w := by gcongr
        _ = N / 2 ^ 53 := by field_simp
    have f2 : |w - E| ≤ E / 2 ^ 29 := by
      have : (1 : ℚ) / 2 ^ 50 ≤ E * (1 / 2 ^ 30) := by
        have : (1 : ℚ) / 2 ^ 50 ≤ 1 / 10 ^ 6 * (1 / 2 ^ 30) := by norm_num
        nlinarith
      linarith
    have f3 : E ≤ w * (1 + 1 / 2 ^ 28) := by
      rw [abs_le] at f2
      linarith [f2.1]
    have V0 : 0 ≤ V * w := by
      rw [abs_le] at f1
      have : N / 2 ^ 53 ≤ N := by rw [div_le_iff₀ (by positivity)]; nlinarith
      linarith [f1.1]
    have Vp : 0 ≤ V := by
      by_contra hc
      have := mul_neg_of_neg_of_pos (not_le.1 hc) w0
      linarith
    have f4 : |V * E - V * w| ≤ V * (E / 2 ^ 29) := by
      rw [← mul_sub, abs_mul, abs_of_nonneg Vp, abs_sub_comm]
      exact mul_le_mul_of_nonneg_left f2 Vp
    have f5 : V * (E / 2 ^ 29) ≤ V * w * ((1 + 1 / 2 ^ 28) / 2 ^ 29) := by
      have := mul_le_mul_of_nonneg_left f3 Vp
      calc V * (E / 2 ^ 29) = V * E / 2 ^ 29 := by ring
        _ ≤ V * (w * (1 + 1 / 2 ^ 28)) / 2 ^ 29 := by gcongr
        _ = _ := by ring
    have f6 := abs_sub_le (V * E) (V * w) N
    have f7 : V * w ≤ N * (1 + 1 / 2 ^ 53) := by rw [abs_le] at f1; linarith [f1.2]
    have f8 : V * w * ((1 + 1 / 2 ^ 28) / 2 ^ 29) ≤ N * (1 + 1 / 2 ^ 53) * ((1 + 1 / 2 ^ 28) / 2 ^ 29) := by gcongr
    linarith

theorem exClkNormal (cfg : ClkCfg) (s : ℤ) (hs : |s| < 2 ^ 51) : (⟨.time s 0, .fail⟩ : ClkPair).Normal cfg :=
  ⟨fun _ _ h => (by cases h; exact ⟨hs, le_refl _, by norm_num⟩), fun _ _ h => (by cases h)⟩

/-- Non-vacuity: the example of C45 meets the hypotheses of `C45_accurate`; the time that passed is exactly one second and two derivations were completed. -/
example : ∃ (n : ℕ) (s0 u0 s1 u1 : ℤ), ClockReads ⟨true, true⟩ ⟨.time 8 0, .fail⟩ s0 u0 ∧ 1 ≤ n ∧ 0 < passed s0 u0 s1 u1 ∧
    |1024 * passed s0 u0 s1 u1 - 512 * n| ≤ 512 * n / 2 ^ 28 := by
  obtain ⟨R, s0, u0, n, s1, u1, last, v, -, h1, h2, -, -, -, h3, -, -, h4, h5⟩ := C45_accurate (by norm_num) (by norm_num) (exClkNormal _ 0 (by norm_num))
    ⟨fun _ _ h => (by cases h; exact ⟨le_refl _, le_refl _⟩), fun _ _ h => (by cases h)⟩ (exClkNormal _ 8 (by norm_num)) (fun s hs => by
      simp only [List.mem_cons, List.not_mem_nil, or_false] at hs
      rcases hs with rfl | rfl <;> exact exClkNormal _ _ (by norm_num)) (by norm_num) exPerf_ok
  obtain ⟨-, rfl⟩ := F64.fin.inj h4
  exact ⟨n, s0, u0, s1, u1, h1, h2, h3, h5⟩

end Scrypt.Props
