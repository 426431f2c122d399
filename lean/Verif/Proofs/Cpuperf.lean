import Verif.Model.Cpuperf
import Verif.Proofs.Float
/-
The CPU speed estimate.
-/
namespace Scrypt
open F64

theorem perfLoop_done {cfg : ClkCfg} {st : Timeval} {bound : F64} {steps : List PerfStep} {i : Nat}
    {d : F64} {n : Nat} {rest : List PerfStep}
    (h : perfLoop cfg st bound i steps = .done d n rest) :
    ∃ k, n = i + k + 1 ∧ k < steps.length ∧ rest = steps.drop (k + 1) ∧
      (∀ (j : Nat) (s : PerfStep), j ≤ k → steps[j]? = some s → s.scryptOk = true) ∧
      (∀ (j : Nat) (s : PerfStep), j < k → steps[j]? = some s →
        ∃ dj, getclockdiff cfg st s.clk = some dj ∧ F64.lt bound dj = false) ∧
      (∃ s, steps[k]? = some s ∧ getclockdiff cfg st s.clk = some d) ∧ F64.lt bound d = true := by
  induction steps generalizing i with
  | nil => simp [perfLoop] at h
  | cons s tl ih =>
    rw [perfLoop] at h
    split_ifs at h with hok
    cases hg : getclockdiff cfg st s.clk with
    | none => rw [hg] at h; simp at h
    | some d' =>
      rw [hg] at h
      simp only at h
      split_ifs at h with hlt
      · injection h with h1 h2 h3
        subst h1; subst h2; subst h3
        refine ⟨0, by omega, by simp, by simp, ?_, ?_, ⟨s, by simp, hg⟩, hlt⟩
        · intro j s' hj hs'
          have : j = 0 := by omega
          subst this; simp at hs'; subst hs'; exact hok
        · intro j s' hj; omega
      · obtain ⟨k, e1, e2, e3, e4, e5, e6, e7⟩ := ih h
        refine ⟨k + 1, by omega, by simp; omega, by simpa using e3, ?_, ?_, ?_, e7⟩
        · intro j s' hj hs'
          cases j with
          | zero => simp at hs'; subst hs'; exact hok
          | succ j => exact e4 j s' (by omega) (by simpa using hs')
        · intro j s' hj hs'
          cases j with
          | zero => simp at hs'; subst hs'; exact ⟨d', hg, by simpa using hlt⟩
          | succ j => exact e5 j s' (by omega) (by simpa using hs')
        · simpa using e6

theorem perfLoop_err {cfg : ClkCfg} {st : Timeval} {bound : F64} {steps : List PerfStep} {i : Nat}
    {c : Code} (h : perfLoop cfg st bound i steps = .err c) :
    ∃ (k : Nat) (s : PerfStep), steps[k]? = some s ∧
      ((c = .EKEY ∧ s.scryptOk = false) ∨
       (c = .ECLOCK ∧ s.scryptOk = true ∧ getclockdiff cfg st s.clk = none)) ∧
      (∀ (j : Nat) (s : PerfStep), j < k → steps[j]? = some s → s.scryptOk = true ∧
        ∃ dj, getclockdiff cfg st s.clk = some dj ∧ F64.lt bound dj = false) := by
  induction steps generalizing i with
  | nil => simp [perfLoop] at h
  | cons s tl ih =>
    rw [perfLoop] at h
    by_cases hok : s.scryptOk = true
    · rw [if_pos hok] at h
      cases hg : getclockdiff cfg st s.clk with
      | none =>
        rw [hg] at h; simp at h
        exact ⟨0, s, by simp, Or.inr ⟨h.symm, hok, hg⟩, by intro j _ hj; omega⟩
      | some d' =>
        rw [hg] at h
        simp only at h
        split_ifs at h with hlt
        obtain ⟨k, s', h1, h2, h3⟩ := ih h
        refine ⟨k + 1, s', by simpa using h1, h2, ?_⟩
        intro j t hj ht
        cases j with
        | zero => simp at ht; subst ht; exact ⟨hok, d', hg, by simpa using hlt⟩
        | succ j => exact h3 j t (by omega) (by simpa using ht)
    · rw [if_neg hok] at h
      injection h with h
      exact ⟨0, s, by simp, Or.inl ⟨h.symm, by simpa using hok⟩, by intro j _ hj; omega⟩

/-- Conversely: after `k` good iterations without a tick, a failing clock ends the loop. -/
theorem perfLoop_clockfail {cfg : ClkCfg} {st : Timeval} {bound : F64} {steps : List PerfStep} {i k : Nat}
    {s : PerfStep} (hk : steps[k]? = some s) (hs : s.scryptOk = true)
    (hc : getclockdiff cfg st s.clk = none)
    (hbefore : ∀ (j : Nat) (t : PerfStep), j < k → steps[j]? = some t → t.scryptOk = true ∧
        ∃ dj, getclockdiff cfg st t.clk = some dj ∧ F64.lt bound dj = false) :
    perfLoop cfg st bound i steps = .err .ECLOCK := by
  induction steps generalizing i k with
  | nil => simp at hk
  | cons t tl ih =>
    rw [perfLoop]
    cases k with
    | zero => simp at hk; subst hk; rw [if_pos hs, hc]
    | succ k =>
      obtain ⟨h1, d, h2, h3⟩ := hbefore 0 t (by omega) (by simp)
      rw [if_pos h1, h2]
      simp only [h3, Bool.false_eq_true, if_false]
      exact ih (k := k) (by simpa using hk)
        (fun j u hj hu => hbefore (j + 1) u (by omega) (by simpa using hu))

/-- A non-negative double. -/
def NonNeg (x : F64) : Prop := x = inf false ∨ ∃ m, x = fin false m ∧ 0 ≤ m

theorem nonneg_round {q : ℚ} : NonNeg (F64.round false q) := by
  unfold F64.round
  split_ifs
  · exact Or.inl rfl
  · exact Or.inr ⟨_, rfl, roundMag_nonneg q⟩

theorem nonneg_ofInt {n : ℤ} (h : 0 ≤ n) : NonNeg (ofInt n) := by
  unfold ofInt
  have : decide (n < 0) = false := by simpa using h
  rw [this]; exact nonneg_round

theorem nonneg_add {x y : F64} (hx : NonNeg x) (hy : NonNeg y) : NonNeg (add x y) := by
  rcases hx with rfl | ⟨a, rfl, ha⟩ <;> rcases hy with rfl | ⟨b, rfl, hb⟩
  · exact Or.inl rfl
  · exact Or.inl rfl
  · exact Or.inl rfl
  · simp only [add, val, Bool.false_eq_true, if_false]
    split_ifs with h
    · exact Or.inr ⟨0, rfl, le_rfl⟩
    · have : decide (a + b < 0) = false := by simp; linarith
      rw [this]; exact nonneg_round

theorem nonneg_mul_fin {x : F64} {b : ℚ} (hx : NonNeg x) (hb : 0 < b) : NonNeg (mul x (fin false b)) := by
  rcases hx with rfl | ⟨a, rfl, ha⟩
  · simp only [mul, hb.ne', if_false]; exact Or.inl rfl
  · simp only [mul]; exact nonneg_round

theorem round_ninth : ∃ b, F64.round false (1 / 10 ^ 9) = fin false b ∧ 0 < b := by
  have h1 : roundMag (1 / 10 ^ 9 : ℚ) < 2 ^ 1024 :=
    roundMag_lt (e := 0) (by norm_num) (by norm_num)
  refine ⟨_, round_small h1, ?_⟩
  have : (2 : ℚ) ^ (-30 : ℤ) ≤ roundMag (1 / 10 ^ 9) := pow_le_roundMag (by norm_num) (by norm_num)
  exact lt_of_lt_of_le (by positivity) this

theorem resDouble_nonneg {s n : Int} (hs : 0 ≤ s) (hn : 0 ≤ n) : NonNeg (resDouble s n) := by
  unfold resDouble
  obtain ⟨b, hb, h0⟩ := round_ninth
  rw [hb]
  exact nonneg_add (nonneg_ofInt hs) (nonneg_mul_fin (nonneg_ofInt hn) h0)

/-- The resolution answers are non-negative times. -/
def ClkPair.NonNegTimes (a : ClkPair) : Prop :=
  (∀ s n, a.mono = .time s n → 0 ≤ s ∧ 0 ≤ n) ∧ (∀ s n, a.fallback = .time s n → 0 ≤ s ∧ 0 ≤ n)

theorem recip_nonneg (c : Nat) (hc : 0 < c) (h : c < 2 ^ 64) :
    NonNeg (F64.div (F64.ofNat 1) (F64.ofNat c)) := by
  rw [ofNat_lt64 h, ofNat_lt64 (by norm_num)]
  have hpos : roundMag (c : ℚ) ≠ 0 := by
    have h1 : roundMag ((1 : ℕ) : ℚ) ≤ roundMag (c : ℚ) := roundMag_mono (by exact_mod_cast hc)
    rw [roundMag_rep (rep_nat (by norm_num))] at h1
    have : (1 : ℚ) ≤ roundMag c := by exact_mod_cast h1
    linarith
  simp only [F64.div]
  rw [if_neg hpos]
  exact nonneg_round

theorem getres_nonneg {cfg : ClkCfg} {cps : Nat} (hc : 0 < cps) (hc2 : cps < 2 ^ 64) {a : ClkPair}
    (ha : a.NonNegTimes) {r : F64} (h : monoclock_getres cfg cps a = some r) : NonNeg r := by
  have hfb : ∀ r, resFallback cfg cps a.fallback = some r → NonNeg r := by
    intro r h
    unfold resFallback at h
    cases hf : a.fallback with
    | time s n =>
      rw [hf] at h
      simp only [Option.some.injEq] at h
      subst h
      split_ifs
      · exact resDouble_nonneg (ha.2 s n hf).1 (ha.2 s n hf).2
      · exact recip_nonneg cps hc hc2
    | unsupported =>
      rw [hf] at h; simp only at h; split_ifs at h
      injection h with h; subst h; exact recip_nonneg cps hc hc2
    | fail =>
      rw [hf] at h; simp only at h; split_ifs at h
      injection h with h; subst h; exact recip_nonneg cps hc hc2
  unfold monoclock_getres at h
  by_cases hm : cfg.useMonotonic = true
  · rw [if_pos hm] at h
    cases hmo : a.mono with
    | time s n =>
      rw [hmo] at h; simp only [Option.some.injEq] at h; subst h
      exact resDouble_nonneg (ha.1 s n hmo).1 (ha.1 s n hmo).2
    | fail => rw [hmo] at h; simp at h
    | unsupported => rw [hmo] at h; exact hfb r h
  · rw [if_neg hm] at h; exact hfb r h

end Scrypt
