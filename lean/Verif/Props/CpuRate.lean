import Verif.Props.Params
/-
C45, continued: the speed estimate is a positive finite number.
-/
namespace Scrypt.Props
open Scrypt Spec F64

/-- A clock answer that is a plausible time: the numbers are below 2^51 (71 million years). -/
def _root_.Scrypt.ClkAns.Plausible : ClkAns → Prop
  | .time s n => |s| < 2 ^ 51 ∧ |n| < 2 ^ 51
  | _ => True

def _root_.Scrypt.ClkPair.Plausible (p : ClkPair) : Prop := p.mono.Plausible ∧ p.fallback.Plausible

theorem tdiv_small {n : Int} (h : |n| < 2 ^ 51) : |n.tdiv 1000| < 2 ^ 51 := by
  have h1 : |n.tdiv 1000| ≤ |n| := by
    have := Int.natAbs_tdiv n 1000
    have h2 : (n.tdiv 1000).natAbs ≤ n.natAbs := by rw [this]; exact Nat.div_le_self _ _
    rw [Int.abs_eq_natAbs, Int.abs_eq_natAbs]
    exact_mod_cast h2
  exact lt_of_le_of_lt h1 h

theorem get_plausible {cfg : ClkCfg} {a : ClkPair} (h : a.Plausible) {t : Timeval} (ht : monoclock_get cfg a = some t) :
    |t.sec| < 2 ^ 51 ∧ |t.usec| < 2 ^ 51 := by
  have fb : ∀ {t}, monoFallback cfg a.fallback = some t → |t.sec| < 2 ^ 51 ∧ |t.usec| < 2 ^ 51 := by
    intro t ht
    have h2 := h.2
    unfold monoFallback at ht
    cases hf : a.fallback with
    | time s n =>
      rw [hf] at ht h2
      cases ht
      refine ⟨h2.1, ?_⟩
      split
      · exact tdiv_small h2.2
      · exact h2.2
    | unsupported => rw [hf] at ht; cases ht
    | fail => rw [hf] at ht; cases ht
  unfold monoclock_get at ht
  split at ht
  · have h1 := h.1
    cases hm : a.mono with
    | time s n =>
      rw [hm] at ht h1
      cases ht
      exact ⟨h1.1, tdiv_small h1.2⟩
    | unsupported => rw [hm] at ht; exact fb ht
    | fail => rw [hm] at ht; cases ht
  · exact fb ht

/-- A multiple of 2^-72. -/
def Grid (q : ℚ) : Prop := ∃ k : ℤ, q = k * (2 : ℚ) ^ (-72 : ℤ)

theorem Grid.int (n : ℤ) : Grid (n : ℚ) := ⟨n * 2 ^ 72, by push_cast; rw [mul_assoc]; norm_num⟩

theorem Grid.add {a b : ℚ} (ha : Grid a) (hb : Grid b) : Grid (a + b) := by
  obtain ⟨x, rfl⟩ := ha
  obtain ⟨y, rfl⟩ := hb
  exact ⟨x + y, by push_cast; ring⟩

theorem Grid.val {a : ℚ} (ha : Grid a) (s : Bool) : Grid (val s a) := by
  cases s
  · exact ha
  · obtain ⟨x, rfl⟩ := ha
    exact ⟨-x, by simp [F64.val]⟩

theorem Grid.pos {a : ℚ} (ha : Grid a) (h : 0 < a) : (2 : ℚ) ^ (-72 : ℤ) ≤ a := by
  obtain ⟨x, rfl⟩ := ha
  have : 0 < x := by
    have := pos_of_mul_pos_left h (by positivity)
    exact_mod_cast this
  have : (1 : ℚ) ≤ x := by exact_mod_cast this
  have p : (0 : ℚ) < (2 : ℚ) ^ (-72 : ℤ) := by positivity
  nlinarith

theorem roundMag_grid {q : ℚ} (h : (2 : ℚ) ^ (-20 : ℤ) ≤ q) : Grid (roundMag q) := by
  have hq : 0 < q := lt_of_lt_of_le (by positivity) h
  unfold roundMag
  rw [if_neg (not_le.2 hq)]
  have hl : -20 ≤ Int.log 2 q := by
    have := Int.log_mono_right (b := 2) (by positivity) h
    have e : Int.log 2 ((2 : ℚ) ^ (-20 : ℤ)) = -20 := by exact_mod_cast Int.log_zpow (R := ℚ) (b := 2) (by norm_num) (-20)
    rwa [e] at this
  have hu : -72 ≤ ulpExp q := by unfold ulpExp; omega
  obtain ⟨j, hj⟩ : ∃ j : ℕ, ulpExp q = -72 + j := ⟨(ulpExp q + 72).toNat, by omega⟩
  refine ⟨roundEven (q / 2 ^ ulpExp q) * 2 ^ j, ?_⟩
  rw [hj, zpow_add₀ (by norm_num)]
  push_cast
  rw [zpow_natCast]
  ring

theorem ofInt_small {n : ℤ} (h : |n| < 2 ^ 53) : F64.ofInt n = fin (n < 0) n.natAbs := by
  have : n.natAbs < 2 ^ 53 := by rw [abs_lt] at h; omega
  unfold F64.ofInt
  have e := roundMag_rep (rep_nat this)
  rw [round_small, e]
  rw [e]
  have : (n.natAbs : ℚ) < 2 ^ 53 := by exact_mod_cast this
  exact lt_trans this (pow_lt_pow_right₀ (by norm_num) (by norm_num))

theorem val_natAbs (n : ℤ) : F64.val (n < 0) n.natAbs = n := by
  unfold F64.val
  by_cases h : n < 0
  · simp only [h, decide_true, if_true]
    have : (n.natAbs : ℤ) = -n := by omega
    have : (n.natAbs : ℚ) = -n := by rw [← Int.cast_natCast, this]; push_cast; ring
    rw [this]; ring
  · simp only [h, decide_false, Bool.false_eq_true, if_false]
    have : (n.natAbs : ℤ) = n := by omega
    rw [← Int.cast_natCast, this]

set_option exponentiation.threshold 1100 in
/-- A positive interval between plausible times: at least 2^-72 and at most 2^54 seconds. -/
theorem diff_range {x y : Timeval} (hx : |x.sec| < 2 ^ 51 ∧ |x.usec| < 2 ^ 51) (hy : |y.sec| < 2 ^ 51 ∧ |y.usec| < 2 ^ 51) :
    ∃ s v, timeval_diff x y = fin s v ∧ v ≤ 2 ^ 55 ∧ (0 < val s v → s = false ∧ (2 : ℚ) ^ (-72 : ℤ) ≤ v) := by
  have hs : |y.sec - x.sec| < 2 ^ 53 := by have := abs_sub y.sec x.sec; omega
  have hu : |y.usec - x.usec| < 2 ^ 53 := by have := abs_sub y.usec x.usec; omega
  unfold timeval_diff
  generalize y.sec - x.sec = a at hs
  generalize y.usec - x.usec = b at hu
  have c0 : (2 : ℚ) ^ (-20 : ℤ) ≤ roundMag (1 / 10 ^ 6) := pow_le_roundMag (by norm_num) (by norm_num)
  have c1 : roundMag (1 / 10 ^ 6) ≤ (2 : ℚ) ^ (0 : ℤ) := roundMag_le_pow (by norm_num) (by norm_num)
  rw [zpow_zero] at c1
  have ec : F64.round false (1 / 10 ^ 6) = fin false (roundMag (1 / 10 ^ 6)) := round_small (lt_of_le_of_lt c1 (by exact one_lt_pow₀ (by norm_num) (by norm_num)))
  generalize roundMag (1 / 10 ^ 6) = c at *
  rw [ofInt_small hs, ofInt_small hu, ec]
  have hb : (b.natAbs : ℚ) ≤ 2 ^ 53 := by have : b.natAbs ≤ 2 ^ 53 := by rw [abs_lt] at hu; omega
                                          exact_mod_cast this
  have ha : (a.natAbs : ℚ) ≤ 2 ^ 53 := by have : a.natAbs ≤ 2 ^ 53 := by rw [abs_lt] at hs; omega
                                          exact_mod_cast this
  have hb0 : (0 : ℚ) ≤ b.natAbs := by positivity
  have hcpos : 0 < c := lt_of_lt_of_le (by positivity) c0
  have hbc : (b.natAbs : ℚ) * c ≤ 2 ^ (53 : ℤ) := by
    have : (2 : ℚ) ^ (53 : ℤ) = 2 ^ 53 := by norm_cast
    rw [this]; nlinarith
  have m1 : roundMag (b.natAbs * c) ≤ 2 ^ (53 : ℤ) := roundMag_le_pow (by norm_num) hbc
  have e53 : (2 : ℚ) ^ (53 : ℤ) = 2 ^ 53 := by norm_cast
  rw [e53] at m1
  have m0 := roundMag_nonneg (b.natAbs * c)
  have mg : Grid (roundMag (b.natAbs * c)) := by
    by_cases h0 : b = 0
    · subst h0
      rw [show ((0 : ℤ).natAbs : ℚ) * c = 0 by simp, roundMag_zero]
      exact_mod_cast Grid.int 0
    · refine roundMag_grid (le_trans c0 ?_)
      have : (1 : ℚ) ≤ b.natAbs := by exact_mod_cast Int.natAbs_pos.2 h0
      nlinarith
  have em : F64.mul (fin (decide (b < 0)) b.natAbs) (fin false c) = fin (decide (b < 0) != false) (roundMag (b.natAbs * c)) :=
    round_small (lt_of_le_of_lt m1 (pow_lt_pow_right₀ (by norm_num) (by norm_num)))
  rw [em]
  generalize roundMag (b.natAbs * c) = m at *
  generalize (decide (b < 0) != false) = sb
  show ∃ s v, (if val _ _ + val sb m = 0 then fin _ 0 else F64.round _ |val _ _ + val sb m|) = fin s v ∧ _
  have g1 : Grid (val (decide (a < 0)) a.natAbs) := Grid.val (by rw [← Int.cast_natCast]; exact Grid.int _) _
  have gs := g1.add (mg.val sb)
  have bd : |val (decide (a < 0)) a.natAbs + val sb m| ≤ (2 : ℚ) ^ (54 : ℤ) := by
    have e54 : (2 : ℚ) ^ (54 : ℤ) = 2 ^ 53 + 2 ^ 53 := by norm_num
    have v1 : |val (decide (a < 0)) a.natAbs| ≤ 2 ^ 53 := by
      unfold F64.val
      have : (0 : ℚ) ≤ a.natAbs := by positivity
      split
      · rw [abs_neg, abs_of_nonneg this]; exact ha
      · rw [abs_of_nonneg this]; exact ha
    have v2 : |val sb m| ≤ 2 ^ 53 := by
      unfold F64.val
      split
      · rw [abs_neg, abs_of_nonneg m0]; exact m1
      · rw [abs_of_nonneg m0]; exact m1
    rw [e54]
    exact le_trans (abs_add_le _ _) (add_le_add v1 v2)
  generalize val (decide (a < 0)) a.natAbs + val sb m = t at gs bd
  by_cases h0 : t = 0
  · rw [if_pos h0]
    exact ⟨_, _, rfl, by norm_num, fun h => absurd h (by unfold F64.val; split <;> simp)⟩
  · rw [if_neg h0]
    have r1 := roundMag_le_pow (by norm_num) bd
    have e54 : (2 : ℚ) ^ (54 : ℤ) = 2 ^ 54 := by norm_cast
    rw [e54] at r1
    rw [round_small (lt_of_le_of_lt r1 (pow_lt_pow_right₀ (by norm_num) (by norm_num)))]
    refine ⟨_, _, rfl, by linarith [show (2 : ℚ) ^ 54 ≤ 2 ^ 55 by norm_num], ?_⟩
    intro hv
    by_cases hn : t < 0
    · rw [show decide (t < 0) = true by simp [hn]] at hv
      have := roundMag_nonneg |t|
      simp only [F64.val, if_true] at hv
      linarith
    · have tp : 0 < t := lt_of_le_of_ne (not_lt.1 hn) (Ne.symm h0)
      refine ⟨by simp [hn], ?_⟩
      rw [abs_of_pos tp]
      exact pow_le_roundMag (by norm_num) (gs.pos tp)

set_option exponentiation.threshold 1100 in
/-- **C45.**  When the clock tells plausible times, and fewer than 2^55 measuring steps were needed, the estimate is a positive finite number. -/
theorem C45_rate {cfg : ClkCfg} {cps : Nat} (hc : 0 < cps) (hc2 : cps < 2 ^ 64) {res start1 : ClkPair} (ha : res.NonNegTimes) {steps1 : List PerfStep}
    {start2 : ClkPair} {steps2 : List PerfStep} {opps : F64} (h2 : start2.Plausible) (hst : ∀ s ∈ steps2, s.clk.Plausible) (hn : steps2.length < 2 ^ 55)
    (h : scryptenc_cpuperf cfg cps res start1 steps1 start2 steps2 = some (.OK, opps)) : ∃ v, opps = fin false v ∧ 0 < v := by
  obtain ⟨resd, t0, n, el, hr, ht0, n1, nl, -, ⟨s, t1, hs, ht1, rfl⟩, hlt, -, rfl⟩ := C45_estimate h
  have p0 := get_plausible h2 ht0
  have p1 := get_plausible (hst s (List.mem_of_getElem? hs)) ht1
  obtain ⟨sg, v, hv, vb, hpos⟩ := diff_range p0 p1
  have hp := C45_positive hc hc2 ha hr hlt
  rw [hv] at hp ⊢
  rcases hp with hp | ⟨_, _, hp, hp'⟩
  · cases hp
  cases hp
  obtain ⟨rfl, vl⟩ := hpos hp'
  have v0 : 0 < v := lt_of_lt_of_le (by positivity) vl
  have hm : 512 * n % 2 ^ 64 = 512 * n := Nat.mod_eq_of_lt (by omega)
  rw [hm, ofNat_lt64 (by omega)]
  have q1 : (2 : ℚ) ^ (9 : ℤ) ≤ roundMag ((512 * n : ℕ) : ℚ) := by
    refine pow_le_roundMag (by norm_num) ?_
    have : 512 ≤ 512 * n := by omega
    have : (512 : ℚ) ≤ ((512 * n : ℕ) : ℚ) := by exact_mod_cast this
    norm_num
    norm_num at this
    exact this
  have q2 : roundMag ((512 * n : ℕ) : ℚ) ≤ (2 : ℚ) ^ (64 : ℤ) := by
    refine roundMag_le_pow (by norm_num) ?_
    have : 512 * n ≤ 2 ^ 64 := by omega
    exact_mod_cast this
  generalize roundMag ((512 * n : ℕ) : ℚ) = N at *
  show ∃ w, (if v = 0 then _ else F64.round _ (N / v)) = _ ∧ _
  rw [if_neg (ne_of_gt v0)]
  have r1 : N / v ≤ (2 : ℚ) ^ (136 : ℤ) := by
    rw [div_le_iff₀ v0]
    refine le_trans q2 ?_
    have : (2 : ℚ) ^ (64 : ℤ) = 2 ^ (136 : ℤ) * 2 ^ (-72 : ℤ) := by rw [← zpow_add₀ (by norm_num)]; norm_num
    rw [this]
    exact mul_le_mul_of_nonneg_left vl (by positivity)
  have r2 : (2 : ℚ) ^ (-46 : ℤ) ≤ N / v := by
    rw [le_div_iff₀ v0]
    refine le_trans ?_ q1
    have : (2 : ℚ) ^ (9 : ℤ) = 2 ^ (-46 : ℤ) * 2 ^ (55 : ℕ) := by norm_num
    rw [this]
    exact mul_le_mul_of_nonneg_left vb (by positivity)
  have s1 := roundMag_le_pow (by norm_num) r1
  have s2 := pow_le_roundMag (by norm_num) r2
  have e : (2 : ℚ) ^ (136 : ℤ) = 2 ^ 136 := by norm_cast
  rw [e] at s1
  rw [round_small (lt_of_le_of_lt s1 (pow_lt_pow_right₀ (by norm_num) (by norm_num)))]
  exact ⟨_, rfl, lt_of_lt_of_le (by positivity) s2⟩

/-- Non-vacuity: the example of C45 meets the hypotheses of `C45_rate`. -/
example : ∃ v, fin false 1024 = fin false v ∧ 0 < v := by
  refine C45_rate (by norm_num) (by norm_num) ?_ ?_ ?_ (by simp) exPerf_ok
  · unfold ClkPair.NonNegTimes; simp
  · exact ⟨by constructor <;> decide, trivial⟩
  · intro s hs
    simp only [List.mem_cons, List.not_mem_nil, or_false] at hs
    rcases hs with rfl | rfl <;> exact ⟨by constructor <;> decide, trivial⟩

end Scrypt.Props
