import Verif.Model.Humansize
import Verif.Spec.Humansize
import Mathlib.Tactic.Ring
import Mathlib.Tactic.IntervalCases
/-
humansize shows the largest displayable size; humansize_parse accepts exactly its grammar.
-/
namespace Scrypt
open Spec

theorem humansizeLoop_spec (size cnt : Nat) (h10 : 10 ≤ size) :
    ∃ j, humansizeLoop size cnt = (size / 1000 ^ j, cnt + j) ∧ 10 ≤ size / 1000 ^ j ∧
      size / 1000 ^ j < 10000 ∧ (j = 0 ∨ 10000 ≤ size / 1000 ^ (j - 1)) := by
  induction size using Nat.strong_induction_on generalizing cnt with
  | _ size ih =>
    rw [humansizeLoop]
    by_cases h : size < 10000
    · exact ⟨0, by rw [if_pos h]; simp, by simpa using h10, by simpa using h, Or.inl rfl⟩
    · rw [if_neg h]
      obtain ⟨j, h1, h2, h3, h4⟩ := ih (size / 1000) (Nat.div_lt_self (by omega) (by omega))
        (cnt + 1) (by omega)
      have e : ∀ i, size / 1000 / 1000 ^ i = size / 1000 ^ (i + 1) := by
        intro i; rw [Nat.div_div_eq_div_mul, pow_succ, Nat.mul_comm]
      refine ⟨j + 1, by rw [h1, e]; congr 1; omega, by rw [← e]; exact h2, by rw [← e]; exact h3, ?_⟩
      right
      rcases Nat.eq_zero_or_pos j with rfl | hj
      · simpa using h
      · rcases h4 with h4 | h4
        · omega
        · rw [e] at h4
          have : j - 1 + 1 = j + 1 - 1 := by omega
          rwa [this] at h4

private theorem fmtD_dec (n : Nat) : fmtD n = dec n := rfl

/-- The value shown for scale `j` (prefix number `j + 1`) and scaled size `s` is maximal. -/
private theorem shown_max (n s j : Nat) (hs : 10 ≤ s) (hs2 : s < 10000) (hj : j ≤ 5)
    (h1 : s * (100 * 1000 ^ j) ≤ n) (h2 : n < (s + 1) * (100 * 1000 ^ j)) :
    let d := if s < 100 then Shown.tenths s (j + 1) else Shown.whole (s / 10) (j + 1)
    d.Valid ∧ d.value ≤ n ∧ ∀ d' : Shown, d'.Valid → d'.value ≤ n → d'.value ≤ d.value := by
  intro d
  have ht : ∀ y k, y * 1000 ^ (k + 1) / 10 = y * (100 * 1000 ^ k) := by
    intro y k
    rw [pow_succ, show y * (1000 ^ k * 1000) = y * (100 * 1000 ^ k) * 10 by ring]
    exact Nat.mul_div_cancel _ (by omega)
  have hdv : s / 10 * 10 * (100 * 1000 ^ j) ≤ d.value := by
    simp only [d]
    split_ifs with h
    · simp only [Shown.value]; rw [ht]
      exact Nat.mul_le_mul_right _ (by omega)
    · simp only [Shown.value]; rw [pow_succ]
      exact le_of_eq (by ring)
  refine ⟨?_, ?_, ?_⟩
  · simp only [d]
    split_ifs with h <;> simp only [Shown.Valid] <;> omega
  · simp only [d]
    split_ifs with h
    · simp only [Shown.value]; rw [ht]; exact h1
    · simp only [Shown.value]
      refine le_trans ?_ h1
      rw [pow_succ, show s / 10 * (1000 ^ j * 1000) = (s / 10 * 10) * (100 * 1000 ^ j) by ring]
      exact Nat.mul_le_mul_right _ (by omega)
  · intro d' hv hle
    have hpj : 0 < 1000 ^ j := by positivity
    have hlow : 10 * (100 * 1000 ^ j) ≤ d.value :=
      le_trans (Nat.mul_le_mul_right _ (by omega)) hdv
    have small : ∀ k x, k < j + 1 → x < 1000 → x * 1000 ^ k ≤ d.value := by
      intro k x hk hx
      refine le_trans ?_ hlow
      have h3 : 1000 ^ k ≤ 1000 ^ j := Nat.pow_le_pow_right (by omega) (by omega)
      calc x * 1000 ^ k ≤ 1000 * 1000 ^ j := Nat.mul_le_mul (by omega) h3
        _ = _ := by ring
    have large : ∀ k x, j + 1 < k → 1 ≤ x → n < x * 1000 ^ k := by
      intro k x hk hx
      have h3 : 1000 ^ (j + 2) ≤ 1000 ^ k := Nat.pow_le_pow_right (by omega) (by omega)
      calc n < (s + 1) * (100 * 1000 ^ j) := h2
        _ ≤ 10000 * (100 * 1000 ^ j) := Nat.mul_le_mul_right _ (by omega)
        _ = 1000 ^ (j + 2) := by rw [pow_succ, pow_succ]; ring
        _ ≤ 1 * 1000 ^ k := by rw [Nat.one_mul]; exact h3
        _ ≤ x * 1000 ^ k := Nat.mul_le_mul_right _ hx
    match d', hv with
    | .plain m, hv =>
      have := small 0 m (by omega) (by simp only [Shown.Valid] at hv; omega)
      simpa [Shown.value] using this
    | .whole x k, hv =>
      simp only [Shown.Valid] at hv
      simp only [Shown.value] at hle ⊢
      rcases lt_trichotomy k (j + 1) with hk | hk | hk
      · exact small k x hk (by omega)
      · subst hk
        refine le_trans ?_ hdv
        have e : x * 1000 ^ (j + 1) = x * 10 * (100 * 1000 ^ j) := by rw [pow_succ]; ring
        rw [e] at hle ⊢
        have h4 : x * 10 < s + 1 := lt_of_mul_lt_mul_right (lt_of_le_of_lt hle h2) (Nat.zero_le _)
        exact Nat.mul_le_mul_right _ (by omega)
      · have := large k x hk (by omega); omega
    | .tenths y k, hv =>
      simp only [Shown.Valid] at hv
      simp only [Shown.value] at hle ⊢
      rcases lt_trichotomy k (j + 1) with hk | hk | hk
      · refine le_trans (Nat.div_le_self _ _) (small k y hk (by omega))
      · subst hk
        rw [ht] at hle ⊢
        have h4 : y < s + 1 := lt_of_mul_lt_mul_right (lt_of_le_of_lt hle h2) (Nat.zero_le _)
        by_cases h : s < 100
        · simp only [d, if_pos h]; rw [ht]
          exact Nat.mul_le_mul_right _ (by omega)
        · refine le_trans ?_ hdv
          exact Nat.mul_le_mul_right _ (by omega)
      · obtain ⟨k', rfl⟩ : ∃ k', k = k' + 1 := ⟨k - 1, by omega⟩
        rw [ht] at hle
        have h5 := large k' 1
        by_cases hk' : k' = j + 1
        · subst hk'
          exfalso
          have : (s + 1) * (100 * 1000 ^ j) ≤ y * (100 * 1000 ^ (j + 1)) := by
            calc (s + 1) * (100 * 1000 ^ j) ≤ 10000 * (100 * 1000 ^ j) :=
                  Nat.mul_le_mul_right _ (by omega)
              _ = 10 * (100 * 1000 ^ (j + 1)) := by rw [pow_succ]; ring
              _ ≤ _ := Nat.mul_le_mul_right _ (by omega)
          omega
        · have h6 := h5 (by omega) (by omega)
          exfalso
          have : 1 * 1000 ^ k' ≤ y * (100 * 1000 ^ k') := by
            rw [← Nat.mul_assoc]; exact Nat.mul_le_mul_right _ (by omega)
          omega

theorem humansize_spec (size : W64) :
    ∃ d : Shown, humansize true size = .ok (some d.text) ∧ d.Valid ∧ d.value ≤ size.toNat ∧
      ∀ d' : Shown, d'.Valid → d'.value ≤ size.toNat → d'.value ≤ d.value := by
  unfold humansize
  by_cases h : size.toNat < 1000
  · refine ⟨.plain size.toNat, ?_, ?_, ?_, ?_⟩
    · rw [if_pos h, if_pos rfl]; rfl
    · simp only [Shown.Valid]; omega
    · simp [Shown.value]
    · intro d' _ h'; simpa [Shown.value] using h'
  · rw [if_neg h]
    set n := size.toNat with hn
    have hlt : n < 2 ^ 64 := size.isLt
    obtain ⟨j, h1, h2, h3, h4⟩ := humansizeLoop_spec (n / 100) 1 (by omega)
    have hdd : n / 100 / 1000 ^ j = n / (100 * 1000 ^ j) := Nat.div_div_eq_div_mul _ _ _
    have hj : j ≤ 5 := by
      by_contra hc
      have h5 : 1000 ^ 6 ≤ 1000 ^ j := Nat.pow_le_pow_right (by omega) (by omega)
      have : n / 100 / 1000 ^ j ≤ n / 100 / 1000 ^ 6 := Nat.div_le_div_left h5 (by norm_num)
      omega
    have hpos : 0 < 100 * 1000 ^ j := by positivity
    have hm := shown_max n (n / 100 / 1000 ^ j) j h2 h3 hj
      (by rw [hdd]; exact Nat.div_mul_le_self _ _)
      (by rw [hdd, Nat.mul_comm]; exact Nat.lt_mul_div_succ n hpos)
    refine ⟨_, ?_, hm⟩
    rw [h1]
    have hp : rd (" kMGTPE".toList ++ ['\x00']) (1 + j) = .ok (siPrefix (j + 1)) := by
      interval_cases j <;> rfl
    simp only [hp, Res.bind_ok, if_true]
    split_ifs <;> rfl

/-! ### Parsing -/

/-- `st` runs through `s` without error and ends with `*size = n`, `multiplier = m`. -/
def HpRun (st : HpState) (s : CStr) (n m : Nat) : Prop :=
  (s.foldl hpStep st).state ≠ -1 ∧ (s.foldl hpStep st).size = n ∧ (s.foldl hpStep st).mult = m

theorem hpStep_err (st : HpState) (h : st.state = -1) (c : Char) : hpStep st c = st := by
  simp [hpStep, h]

theorem hpFold_err (s : CStr) (st : HpState) (h : st.state = -1) : s.foldl hpStep st = st := by
  induction s with
  | nil => rfl
  | cons c s ih => rw [List.foldl_cons, hpStep_err st h, ih]

theorem hpRun_err {s : CStr} {st : HpState} (h : st.state = -1) {n m : Nat} : ¬ HpRun st s n m := by
  intro hr; rw [HpRun, hpFold_err s st h] at hr; exact hr.1 h

theorem hpRun_cons {s : CStr} {st : HpState} {c : Char} {n m : Nat} :
    HpRun st (c :: s) n m ↔ HpRun (hpStep st c) s n m := by
  simp [HpRun]

theorem hpRun_nil {st : HpState} {n m : Nat} (h : st.state ≠ -1) :
    HpRun st [] n m ↔ n = st.size ∧ m = st.mult := by
  simp [HpRun, h, eq_comm]

theorem hpLoop_fold (s : CStr) (hs : s ≠ []) (h0 : '\x00' ∉ s) (st : HpState) :
    hpLoop st (s ++ ['\x00']) = .ok (s.foldl hpStep st) := by
  induction s generalizing st with
  | nil => exact absurd rfl hs
  | cons c s ih =>
    rw [List.cons_append, hpLoop.eq_def, List.foldl_cons]
    simp only
    by_cases h : (hpStep st c).state = -1
    · simp only [h, if_true]; rw [hpFold_err s _ h]
    · simp only [h, if_false]
      cases s with
      | nil => simp
      | cons c' s' =>
        have hc : c' ≠ '\x00' := by
          intro he; subst he; simp at h0
        simp only [List.cons_append, hc, if_false]
        exact ih (by simp) (by intro h'; exact h0 (List.mem_cons_of_mem _ h')) _

theorem hpRun5 {s : CStr} {a b n m : Nat} :
    HpRun ⟨5, a, b⟩ s n m ↔ s = [] ∧ n = a ∧ m = b := by
  cases s with
  | nil => rw [hpRun_nil (by simp)]; simp
  | cons c s =>
    rw [hpRun_cons]
    constructor
    · intro h; exact absurd h (hpRun_err (by simp [hpStep]))
    · intro h; simp at h

theorem hpRun4 {s : CStr} {a b n m : Nat} :
    HpRun ⟨4, a, b⟩ s n m ↔ (s = [] ∨ s = ['B']) ∧ n = a ∧ m = b := by
  cases s with
  | nil => rw [hpRun_nil (by simp)]; simp
  | cons c s =>
    rw [hpRun_cons]
    have e : hpStep ⟨4, a, b⟩ c = if c = 'B' then ⟨5, a, b⟩ else ⟨-1, a, b⟩ := by
      simp [hpStep, hpCase4]
    rw [e]
    split_ifs with hc
    · rw [hpRun5]; simp [hc]
    · constructor
      · intro h; exact absurd h (hpRun_err rfl)
      · intro h; simp [hc] at h

/-- Optional prefix. -/
def PfK (pf : CStr) (k : Nat) : Prop :=
  (pf = [] ∧ k = 0) ∨ (1 ≤ k ∧ k ≤ 6 ∧ pf = [siPrefix k])

theorem siMult_cases (c : Char) :
    (siMult c = 1 ∧ ∀ k, 1 ≤ k → k ≤ 6 → c ≠ siPrefix k) ∨
    (∃ k, 1 ≤ k ∧ k ≤ 6 ∧ c = siPrefix k ∧ siMult c = 1000 ^ k) := by
  by_cases hE : c = 'E'
  · right; exact ⟨6, by decide, by decide, hE, by subst hE; rfl⟩
  by_cases hP : c = 'P'
  · right; exact ⟨5, by decide, by decide, hP, by subst hP; rfl⟩
  by_cases hT : c = 'T'
  · right; exact ⟨4, by decide, by decide, hT, by subst hT; rfl⟩
  by_cases hG : c = 'G'
  · right; exact ⟨3, by decide, by decide, hG, by subst hG; rfl⟩
  by_cases hM : c = 'M'
  · right; exact ⟨2, by decide, by decide, hM, by subst hM; rfl⟩
  by_cases hk : c = 'k'
  · right; exact ⟨1, by decide, by decide, hk, by subst hk; rfl⟩
  left
  refine ⟨by simp [siMult, hE, hP, hT, hG, hM, hk], ?_⟩
  intro k h1 h2
  interval_cases k <;> assumption

theorem siPrefix_inj {k l : Nat} (hk : 1 ≤ k) (hk2 : k ≤ 6) (hl : 1 ≤ l) (hl2 : l ≤ 6)
    (h : siPrefix k = siPrefix l) : k = l := by
  interval_cases k <;> interval_cases l <;> first | rfl | (exfalso; revert h; decide)

theorem siPrefix_ne {k : Nat} (hk : 1 ≤ k) (hk2 : k ≤ 6) :
    siPrefix k ≠ 'B' ∧ siPrefix k ≠ ' ' ∧ ¬ ('0' ≤ siPrefix k ∧ siPrefix k ≤ '9') := by
  interval_cases k <;> decide

theorem hpRun3 {s : CStr} {a n m : Nat} :
    HpRun ⟨3, a, 1⟩ s n m ↔
      ∃ pf b k, s = pf ++ b ∧ PfK pf k ∧ (b = [] ∨ b = ['B']) ∧ n = a ∧ m = 1000 ^ k := by
  cases s with
  | nil =>
    rw [hpRun_nil (by simp)]
    constructor
    · rintro ⟨rfl, rfl⟩; exact ⟨[], [], 0, rfl, Or.inl ⟨rfl, rfl⟩, Or.inl rfl, rfl, rfl⟩
    · rintro ⟨pf, b, k, h, hp, -, rfl, rfl⟩
      have : pf = [] := by simp at h; exact h.1
      rcases hp with ⟨-, rfl⟩ | ⟨-, -, h2⟩
      · simp
      · rw [this] at h2; simp at h2
  | cons c s =>
    rw [hpRun_cons]
    rcases siMult_cases c with ⟨h1, hne⟩ | ⟨k, hk1, hk2, rfl, hm⟩
    · have e : hpStep ⟨3, a, 1⟩ c = hpStep ⟨4, a, 1⟩ c := by simp [hpStep, hpCase3, h1]
      rw [e, ← hpRun_cons, hpRun4]
      constructor
      · rintro ⟨hs, rfl, rfl⟩
        exact ⟨[], c :: s, 0, rfl, Or.inl ⟨rfl, rfl⟩, hs, rfl, rfl⟩
      · rintro ⟨pf, b, k, h, hp, hb, rfl, rfl⟩
        rcases hp with ⟨rfl, rfl⟩ | ⟨hk1, hk2, rfl⟩
        · simp only [List.nil_append] at h
          rw [h]; exact ⟨hb, rfl, rfl⟩
        · simp only [List.cons_append, List.cons.injEq] at h
          exact absurd h.1 (hne k hk1 hk2)
    · have h64 : (1000 ^ k) % 2 ^ 64 = 1000 ^ k := by interval_cases k <;> rfl
      have hne1 : 1000 ^ k ≠ 1 := by interval_cases k <;> decide
      have e : hpStep ⟨3, a, 1⟩ (siPrefix k) = ⟨4, a, 1000 ^ k⟩ := by
        have e1 : hpStep ⟨3, a, 1⟩ (siPrefix k) = hpCase3 ⟨3, a, 1⟩ (siPrefix k) := by
          simp [hpStep]
        rw [e1, hpCase3]
        simp only [hm, Nat.one_mul, h64]
        rw [if_pos hne1]
      rw [e, hpRun4]
      constructor
      · rintro ⟨hs, rfl, rfl⟩
        exact ⟨[siPrefix k], s, k, rfl, Or.inr ⟨hk1, hk2, rfl⟩, hs, rfl, rfl⟩
      · rintro ⟨pf, b, l, h, hp, hb, rfl, rfl⟩
        rcases hp with ⟨rfl, rfl⟩ | ⟨hl1, hl2, rfl⟩
        · simp only [List.nil_append] at h
          rcases hb with rfl | rfl
          · simp at h
          · simp only [List.cons.injEq] at h
            exact absurd h.1 (siPrefix_ne hk1 hk2).1
        · simp only [List.cons_append, List.nil_append, List.cons.injEq] at h
          have := siPrefix_inj hk1 hk2 hl1 hl2 h.1
          subst this
          rw [h.2]; exact ⟨hb, rfl, rfl⟩

/-- Decimal accumulation from `a`. -/
def decFrom (a : Nat) (s : CStr) : Nat := s.foldl (fun a c => 10 * a + (c.toNat - '0'.toNat)) a

theorem decFrom_mono (s : CStr) (a : Nat) : a ≤ decFrom a s := by
  induction s generalizing a with
  | nil => exact Nat.le_refl _
  | cons c s ih =>
    have := ih (10 * a + (c.toNat - '0'.toNat))
    show a ≤ decFrom (10 * a + (c.toNat - '0'.toNat)) s
    omega

theorem hpStep1_digit {a : Nat} {c : Char} (hc : '0' ≤ c ∧ c ≤ '9') (ha : a ≤ u64Max) :
    (10 * a + (c.toNat - '0'.toNat) ≤ u64Max ∧
      hpStep ⟨1, a, 1⟩ c = ⟨1, 10 * a + (c.toNat - '0'.toNat), 1⟩) ∨
    (u64Max < 10 * a + (c.toNat - '0'.toNat) ∧ (hpStep ⟨1, a, 1⟩ c).state = -1) := by
  have hd : c.toNat - '0'.toNat ≤ 9 := by
    have h9 : c.toNat ≤ '9'.toNat := hc.2
    have e9 : '9'.toNat = 57 := rfl
    have e0 : '0'.toNat = 48 := rfl
    omega
  have e : hpStep ⟨1, a, 1⟩ c = hpCase1 ⟨1, a, 1⟩ c := by simp [hpStep]
  rw [e, hpCase1, if_pos hc]
  simp only
  generalize c.toNat - '0'.toNat = d at hd ⊢
  unfold u64Max at *
  by_cases h1 : a > (2 ^ 64 - 1) / 10
  · right
    refine ⟨by omega, ?_⟩
    rw [if_pos h1]
    split_ifs <;> rfl
  · rw [if_neg h1]
    simp only
    by_cases h2 : a * 10 > 2 ^ 64 - 1 - d
    · right; rw [if_pos h2]; exact ⟨by omega, rfl⟩
    · left; rw [if_neg h2]; refine ⟨by omega, ?_⟩
      rw [Nat.mul_comm]

theorem hpRun1 {s : CStr} {a n m : Nat} (ha : a ≤ u64Max) :
    HpRun ⟨1, a, 1⟩ s n m ↔
      ∃ ds sp pf b k, s = ds ++ (sp ++ (pf ++ b)) ∧ (∀ c ∈ ds, '0' ≤ c ∧ c ≤ '9') ∧
        (sp = [] ∨ sp = [' ']) ∧ PfK pf k ∧ (b = [] ∨ b = ['B']) ∧
        n = decFrom a ds ∧ n ≤ u64Max ∧ m = 1000 ^ k := by
  induction s generalizing a with
  | nil =>
    rw [hpRun_nil (by simp)]
    constructor
    · rintro ⟨rfl, rfl⟩
      exact ⟨[], [], [], [], 0, rfl, by simp, Or.inl rfl, Or.inl ⟨rfl, rfl⟩, Or.inl rfl, rfl, ha, rfl⟩
    · rintro ⟨ds, sp, pf, b, k, h, -, -, hp, -, rfl, -, rfl⟩
      have h' : ds = [] ∧ pf = [] := by
        have := h.symm; simp only [List.append_eq_nil_iff] at this; exact ⟨this.1, this.2.2.1⟩
      rcases hp with ⟨-, rfl⟩ | ⟨-, -, h2⟩
      · rw [h'.1]; exact ⟨rfl, rfl⟩
      · rw [h'.2] at h2; simp at h2
  | cons c s ih =>
    rw [hpRun_cons]
    by_cases hc : '0' ≤ c ∧ c ≤ '9'
    · -- a digit
      have hsplit : ∀ (n m : Nat), (∃ ds sp pf b k, c :: s = ds ++ (sp ++ (pf ++ b)) ∧
          (∀ c ∈ ds, '0' ≤ c ∧ c ≤ '9') ∧
          (sp = [] ∨ sp = [' ']) ∧ PfK pf k ∧ (b = [] ∨ b = ['B']) ∧
          n = decFrom a ds ∧ n ≤ u64Max ∧ m = 1000 ^ k) ↔
          (∃ ds sp pf b k, s = ds ++ (sp ++ (pf ++ b)) ∧ (∀ c ∈ ds, '0' ≤ c ∧ c ≤ '9') ∧
          (sp = [] ∨ sp = [' ']) ∧ PfK pf k ∧ (b = [] ∨ b = ['B']) ∧
          n = decFrom (10 * a + (c.toNat - '0'.toNat)) ds ∧ n ≤ u64Max ∧ m = 1000 ^ k) := by
        intro n m
        constructor
        · rintro ⟨ds, sp, pf, b, k, h, hds, hsp, hp, hb, hn, hle, hm⟩
          cases ds with
          | nil =>
            exfalso
            rcases hsp with rfl | rfl
            · rcases hp with ⟨rfl, -⟩ | ⟨hk1, hk2, rfl⟩
              · rcases hb with rfl | rfl
                · simp at h
                · simp at h; rw [h.1] at hc; revert hc; decide
              · simp only [List.nil_append, List.cons_append, List.cons.injEq] at h
                rw [h.1] at hc; exact (siPrefix_ne hk1 hk2).2.2 hc
            · simp only [List.nil_append, List.cons_append, List.cons.injEq] at h
              rw [h.1] at hc; revert hc; decide
          | cons d ds =>
            simp only [List.cons_append, List.cons.injEq] at h
            obtain ⟨rfl, h⟩ := h
            exact ⟨ds, sp, pf, b, k, h, fun x hx => hds x (List.mem_cons_of_mem _ hx), hsp, hp, hb,
              hn, hle, hm⟩
        · rintro ⟨ds, sp, pf, b, k, h, hds, hsp, hp, hb, hn, hle, hm⟩
          refine ⟨c :: ds, sp, pf, b, k, by rw [h]; rfl, ?_, hsp, hp, hb, hn, hle, hm⟩
          intro x hx
          rcases List.mem_cons.1 hx with rfl | hx
          · exact hc
          · exact hds x hx
      rw [hsplit]
      rcases hpStep1_digit (a := a) hc ha with ⟨hle, e⟩ | ⟨hgt, e⟩
      · rw [e]; exact ih hle
      · constructor
        · intro h; exact absurd h (hpRun_err e)
        · rintro ⟨ds, sp, pf, b, k, -, -, -, -, -, hn, hle, -⟩
          have := decFrom_mono ds (10 * a + (c.toNat - '0'.toNat))
          omega
    · have hds0 : ∀ ds rest, c :: s = ds ++ rest → (∀ c ∈ ds, '0' ≤ c ∧ c ≤ '9') → ds = [] := by
        intro ds rest h hds
        cases ds with
        | nil => rfl
        | cons d ds =>
          simp only [List.cons_append, List.cons.injEq] at h
          exact absurd (h.1 ▸ hds d (by simp)) hc
      by_cases hsp : c = ' '
      · subst hsp
        have e : hpStep ⟨1, a, 1⟩ ' ' = ⟨3, a, 1⟩ := by
          have h' : ¬ ('0' ≤ ' ' ∧ ' ' ≤ '9') := by decide
          simp [hpStep, hpCase1, hpCase2]
        rw [e, hpRun3]
        constructor
        · rintro ⟨pf, b, k, rfl, hp, hb, rfl, rfl⟩
          exact ⟨[], [' '], pf, b, k, rfl, by simp, Or.inr rfl, hp, hb, rfl, ha, rfl⟩
        · rintro ⟨ds, sp, pf, b, k, h, hds, hsp, hp, hb, hn, hle, hm⟩
          have hd := hds0 ds _ h hds
          subst hd
          rcases hsp with rfl | rfl
          · exfalso
            simp only [List.nil_append] at h
            rcases hp with ⟨rfl, -⟩ | ⟨hk1, hk2, rfl⟩
            · rcases hb with rfl | rfl
              · simp at h
              · simp at h
            · simp only [List.cons_append, List.nil_append, List.cons.injEq] at h
              exact (siPrefix_ne hk1 hk2).2.1 h.1.symm
          · simp only [List.nil_append, List.cons_append, List.cons.injEq, true_and] at h
            exact ⟨pf, b, k, h, hp, hb, hn, hm⟩
      · have e : hpStep ⟨1, a, 1⟩ c = hpStep ⟨3, a, 1⟩ c := by
          simp [hpStep, hpCase1, hpCase2, hc, hsp]
        rw [e, ← hpRun_cons, hpRun3]
        constructor
        · rintro ⟨pf, b, k, h, hp, hb, rfl, rfl⟩
          exact ⟨[], [], pf, b, k, h, by simp, Or.inl rfl, hp, hb, rfl, ha, rfl⟩
        · rintro ⟨ds, sp, pf, b, k, h, hds, hsp', hp, hb, hn, hle, hm⟩
          have hd := hds0 ds _ h hds
          subst hd
          rcases hsp' with rfl | rfl
          · exact ⟨pf, b, k, h, hp, hb, hn, hm⟩
          · simp only [List.nil_append, List.cons_append, List.cons.injEq] at h
            exact absurd h.1 hsp

theorem decFrom_zero (s : CStr) : decFrom 0 s = decVal s := rfl

theorem hpRun0 {s : CStr} {n m : Nat} (hs : s ≠ []) :
    HpRun ⟨0, 0, 1⟩ s n m ↔ ∃ k, SizeText s n k ∧ n ≤ u64Max ∧ m = 1000 ^ k := by
  cases s with
  | nil => exact absurd rfl hs
  | cons c s =>
    rw [hpRun_cons]
    by_cases hc : '0' ≤ c ∧ c ≤ '9'
    · have e : hpStep ⟨0, 0, 1⟩ c = hpStep ⟨1, 0, 1⟩ c := by
        have h1 : ¬ (c < '0' ∨ '9' < c) := by
          rintro (h | h)
          · exact absurd hc.1 (Char.not_le.2 h)
          · exact absurd hc.2 (Char.not_le.2 h)
        simp only [hpStep, hpCase0, h1, if_false, hpCase1, hc, and_self, if_true]
        simp
      rw [e, ← hpRun_cons, hpRun1 (Nat.zero_le _)]
      constructor
      · rintro ⟨ds, sp, pf, b, k, h, hds, hsp, hp, hb, hn, hle, hm⟩
        refine ⟨k, ⟨ds, sp, pf, b, by simp [h, List.append_assoc], ?_, hds, hn, hsp, hp, hb⟩, hle, hm⟩
        rintro rfl
        rcases hsp with rfl | rfl
        · rcases hp with ⟨rfl, -⟩ | ⟨hk1, hk2, rfl⟩
          · rcases hb with rfl | rfl
            · simp at h
            · simp at h; rw [h.1] at hc; revert hc; decide
          · simp only [List.nil_append, List.cons_append, List.cons.injEq] at h
            rw [h.1] at hc; exact (siPrefix_ne hk1 hk2).2.2 hc
        · simp only [List.nil_append, List.cons_append, List.cons.injEq] at h
          rw [h.1] at hc; revert hc; decide
      · rintro ⟨k, ⟨ds, sp, pf, b, h, -, hds, hn, hsp, hp, hb⟩, hle, hm⟩
        exact ⟨ds, sp, pf, b, k, by simp [h, List.append_assoc], hds, hsp, hp, hb, hn, hle, hm⟩
    · have h1 : c < '0' ∨ '9' < c := by
        by_contra hcon
        push Not at hcon
        exact hc ⟨Char.not_lt.1 hcon.1, Char.not_lt.1 hcon.2⟩
      have e : (hpStep ⟨0, 0, 1⟩ c).state = -1 := by
        simp [hpStep, hpCase0, h1]
      constructor
      · intro h; exact absurd h (hpRun_err e)
      · rintro ⟨k, ⟨ds, sp, pf, b, h, hne, hds, -⟩, -⟩
        cases ds with
        | nil => exact absurd rfl hne
        | cons d ds =>
          simp only [List.cons_append, List.cons.injEq] at h
          exact absurd (h.1 ▸ hds d (by simp)) hc

theorem humansize_parse_spec (s : CStr) (h0 : '\x00' ∉ s) :
    ∃ r, humansize_parse s = .ok r ∧
      ∀ v, r = some v ↔ ∃ n k, SizeText s n k ∧ n * 1000 ^ k < 2 ^ 64 ∧ v = n * 1000 ^ k := by
  by_cases hs : s = []
  · subst hs
    refine ⟨none, rfl, ?_⟩
    intro v
    constructor
    · intro h; simp at h
    · rintro ⟨n, k, ⟨ds, sp, pf, b, h, hne, -⟩, -⟩
      have := h.symm; simp at this; exact absurd this.1 hne
  · unfold humansize_parse
    rw [hpLoop_fold s hs h0, Res.bind_ok]
    set st := s.foldl hpStep ⟨0, 0, 1⟩ with hst
    have hrun := fun n m => hpRun0 (s := s) (n := n) (m := m) hs
    by_cases herr : st.state = -1
    · refine ⟨none, ?_, ?_⟩
      · simp only [herr, if_true]; split_ifs <;> rfl
      · intro v
        constructor
        · intro h; simp at h
        · rintro ⟨n, k, ht, hlt, -⟩
          have hp : 0 < 1000 ^ k := by positivity
          have hn : n ≤ u64Max := by
            have : n ≤ n * 1000 ^ k := Nat.le_mul_of_pos_right _ hp
            unfold u64Max; omega
          exact absurd herr ((hrun n (1000 ^ k)).2 ⟨k, ht, hn, rfl⟩).1
    · obtain ⟨k, ht, hn, hm⟩ := (hrun st.size st.mult).1 ⟨herr, rfl, rfl⟩
      have huniq : ∀ n l, SizeText s n l → n ≤ u64Max → n = st.size ∧ 1000 ^ l = st.mult := by
        intro n l h1 h2
        have := (hrun n (1000 ^ l)).2 ⟨l, h1, h2, rfl⟩
        exact ⟨this.2.1.symm, this.2.2.symm⟩
      have hp : 0 < st.mult := by rw [hm]; positivity
      by_cases hbig : st.size > u64Max / st.mult
      · refine ⟨none, by simp [hbig], ?_⟩
        intro v
        constructor
        · intro h; simp at h
        · rintro ⟨n, l, h1, h2, -⟩
          have hpl : 0 < 1000 ^ l := by positivity
          have hn : n ≤ u64Max := by
            have : n ≤ n * 1000 ^ l := Nat.le_mul_of_pos_right _ hpl
            unfold u64Max; omega
          obtain ⟨e1, e2⟩ := huniq n l h1 hn
          rw [e1, e2] at h2
          have h3 : st.size * st.mult ≤ u64Max := by unfold u64Max; omega
          have := (Nat.le_div_iff_mul_le hp).2 h3
          omega
      · refine ⟨some (st.size * st.mult), by simp [hbig, herr], ?_⟩
        have hle : st.size * st.mult ≤ u64Max :=
          (Nat.le_div_iff_mul_le hp).1 (by omega)
        intro v
        constructor
        · intro h
          rw [Option.some.injEq] at h
          refine ⟨st.size, k, ht, ?_, ?_⟩
          · rw [← hm]; unfold u64Max at hle; omega
          · rw [← hm, h]
        · rintro ⟨n, l, h1, h2, rfl⟩
          have hpl : 0 < 1000 ^ l := by positivity
          have hn : n ≤ u64Max := by
            have : n ≤ n * 1000 ^ l := Nat.le_mul_of_pos_right _ hpl
            unfold u64Max; omega
          obtain ⟨e1, e2⟩ := huniq n l h1 hn
          rw [e1, e2]

end Scrypt
