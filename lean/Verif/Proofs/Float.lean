import Verif.Spec.Float
import Mathlib.Algebra.Order.Field.Power
import Mathlib.Tactic.Ring
import Mathlib.Tactic.Linarith
import Mathlib.Tactic.Positivity
import Mathlib.Tactic.FieldSimp
import Mathlib.Tactic.NormNum
/-
Facts about binary64 rounding: nearest, monotone, exact on representable values.
-/
namespace Scrypt
namespace F64

set_option exponentiation.threshold 1100

theorem roundEven_int (n : ℤ) : roundEven (n : ℚ) = n := by
  simp [roundEven]

theorem roundEven_le (q : ℚ) : roundEven q ≤ ⌊q⌋ + 1 := by
  unfold roundEven; split_ifs <;> omega

theorem floor_le_roundEven (q : ℚ) : ⌊q⌋ ≤ roundEven q := by
  unfold roundEven; split_ifs <;> omega

theorem roundEven_mono {a b : ℚ} (h : a ≤ b) : roundEven a ≤ roundEven b := by
  have hf := Int.floor_mono h
  rcases lt_or_eq_of_le hf with hlt | heq
  · calc roundEven a ≤ ⌊a⌋ + 1 := roundEven_le a
      _ ≤ ⌊b⌋ := hlt
      _ ≤ roundEven b := floor_le_roundEven b
  · unfold roundEven
    rw [heq]
    split_ifs <;> first | omega | (exfalso; linarith)

/-- Nearest: the distance is at most one half. -/
theorem roundEven_near (q : ℚ) : |(roundEven q : ℚ) - q| ≤ 1 / 2 := by
  have h1 := Int.floor_le q
  have h2 := Int.lt_floor_add_one q
  unfold roundEven
  rw [abs_le]
  split_ifs <;> push_cast <;> constructor <;> linarith

theorem log_bounds {q : ℚ} (h : 0 < q) :
    (2 : ℚ) ^ Int.log 2 q ≤ q ∧ q < (2 : ℚ) ^ (Int.log 2 q + 1) := by
  constructor
  · exact_mod_cast Int.zpow_log_le_self (by norm_num) h
  · exact_mod_cast Int.lt_zpow_succ_log_self (b := 2) (by norm_num) q

theorem roundMag_zero : roundMag 0 = 0 := by simp [roundMag]

theorem roundMag_nonneg (q : ℚ) : 0 ≤ roundMag q := by
  unfold roundMag
  split_ifs with h
  · exact le_rfl
  · push Not at h
    have h2 : (0 : ℚ) < 2 ^ ulpExp q := by positivity
    have h3 : 0 ≤ ⌊q / 2 ^ ulpExp q⌋ := Int.floor_nonneg.2 (by positivity)
    have h4 : (0 : ℚ) ≤ (roundEven (q / 2 ^ ulpExp q) : ℚ) := by
      exact_mod_cast h3.trans (floor_le_roundEven _)
    positivity

private theorem zpow_split (a b : ℤ) : (2 : ℚ) ^ (a - b) * 2 ^ b = 2 ^ a := by
  rw [← zpow_add₀ (by norm_num)]; congr 1; ring

private theorem zpow_le {a b : ℤ} (h : a ≤ b) : (2 : ℚ) ^ a ≤ 2 ^ b :=
  zpow_le_zpow_right₀ (by norm_num) h

/-- Below the next power of two. -/
theorem roundMag_le_pow {q : ℚ} {e : ℤ} (he : -1074 ≤ e) (h : q ≤ (2 : ℚ) ^ e) :
    roundMag q ≤ (2 : ℚ) ^ e := by
  unfold roundMag
  split_ifs with h0
  · positivity
  push Not at h0
  set u := ulpExp q with hu
  have hlog := log_bounds h0
  have hle : Int.log 2 q ≤ e := by
    by_contra hc
    push Not at hc
    have : (2 : ℚ) ^ (e + 1) ≤ 2 ^ Int.log 2 q := zpow_le (by omega)
    have h3 : (2 : ℚ) ^ e < 2 ^ (e + 1) := zpow_lt_zpow_right₀ (by norm_num) (by omega)
    linarith [hlog.1]
  have hue : u ≤ e := by rw [hu, ulpExp]; omega
  have hpos : (0 : ℚ) < 2 ^ u := by positivity
  have hq : q / 2 ^ u ≤ (2 : ℚ) ^ (e - u) := by
    rw [div_le_iff₀ hpos, zpow_split]; exact h
  have hint : ((2 : ℚ) ^ (e - u)) = (((2 : ℤ) ^ (e - u).toNat : ℤ) : ℚ) := by
    have : ((e - u).toNat : ℤ) = e - u := Int.toNat_of_nonneg (by omega)
    push_cast
    rw [← zpow_natCast, this]
  have h1 : roundEven (q / 2 ^ u) ≤ (2 : ℤ) ^ (e - u).toNat := by
    rw [hint] at hq
    exact (roundEven_mono hq).trans (roundEven_int _).le
  have h2 : (roundEven (q / 2 ^ u) : ℚ) ≤ (2 : ℚ) ^ (e - u) := by
    rw [hint]; exact_mod_cast h1
  calc _ ≤ (2 : ℚ) ^ (e - u) * 2 ^ u := by gcongr
    _ = 2 ^ e := zpow_split _ _

/-- At least the power of two below. -/
theorem pow_le_roundMag {q : ℚ} {e : ℤ} (he : -1074 ≤ e) (h : (2 : ℚ) ^ e ≤ q) :
    (2 : ℚ) ^ e ≤ roundMag q := by
  have h0 : 0 < q := lt_of_lt_of_le (by positivity) h
  unfold roundMag
  rw [if_neg (not_le.2 h0)]
  set u := ulpExp q with hu
  have hlog := log_bounds h0
  have hle : e ≤ Int.log 2 q := by
    by_contra hc
    push Not at hc
    have : (2 : ℚ) ^ (Int.log 2 q + 1) ≤ 2 ^ e := zpow_le (by omega)
    linarith [hlog.2]
  have hpos : (0 : ℚ) < 2 ^ u := by positivity
  set L := Int.log 2 q
  have hul : u ≤ L := by rw [hu, ulpExp]; omega
  have hq : (2 : ℚ) ^ (L - u) ≤ q / 2 ^ u := by
    rw [le_div_iff₀ hpos, zpow_split]; exact hlog.1
  have hint : ((2 : ℚ) ^ (L - u)) = (((2 : ℤ) ^ (L - u).toNat : ℤ) : ℚ) := by
    have : ((L - u).toNat : ℤ) = L - u := Int.toNat_of_nonneg (by omega)
    push_cast
    rw [← zpow_natCast, this]
  have h1 : (2 : ℤ) ^ (L - u).toNat ≤ roundEven (q / 2 ^ u) := by
    rw [hint] at hq
    exact (roundEven_int _).ge.trans (roundEven_mono hq)
  have h2 : (2 : ℚ) ^ (L - u) ≤ (roundEven (q / 2 ^ u) : ℚ) := by
    rw [hint]; exact_mod_cast h1
  calc (2 : ℚ) ^ e ≤ 2 ^ L := zpow_le hle
    _ = 2 ^ (L - u) * 2 ^ u := (zpow_split _ _).symm
    _ ≤ _ := by gcongr

/-- Rounding is monotone. -/
theorem roundMag_mono {a b : ℚ} (h : a ≤ b) : roundMag a ≤ roundMag b := by
  by_cases ha : a ≤ 0
  · have : roundMag a = 0 := by rw [roundMag, if_pos ha]
    rw [this]; exact roundMag_nonneg b
  push Not at ha
  have hb : 0 < b := ha.trans_le h
  have hlog : Int.log 2 a ≤ Int.log 2 b := Int.log_mono_right ha h
  rcases eq_or_ne (ulpExp a) (ulpExp b) with hu | hu
  · unfold roundMag
    rw [if_neg (not_le.2 ha), if_neg (not_le.2 hb), hu]
    have hpos : (0 : ℚ) < 2 ^ ulpExp b := by positivity
    have : roundEven (a / 2 ^ ulpExp b) ≤ roundEven (b / 2 ^ ulpExp b) :=
      roundEven_mono (by gcongr)
    have h2 : (roundEven (a / 2 ^ ulpExp b) : ℚ) ≤ (roundEven (b / 2 ^ ulpExp b) : ℚ) := by
      exact_mod_cast this
    gcongr
  · have hlt : Int.log 2 a + 1 ≤ Int.log 2 b ∧ -1074 ≤ Int.log 2 b - 52 := by
      unfold ulpExp at hu; omega
    have h1 : roundMag a ≤ (2 : ℚ) ^ Int.log 2 b := by
      apply roundMag_le_pow (by omega)
      exact (log_bounds ha).2.le.trans (zpow_le (by omega))
    exact h1.trans (pow_le_roundMag (by omega) (log_bounds hb).1)

/-- Exact on representable magnitudes. -/
theorem roundMag_rep {q : ℚ} (h : Rep q) : roundMag q = q := by
  obtain ⟨n, k, hn, hk, rfl⟩ := h
  unfold roundMag
  split_ifs with h0
  · have : 0 ≤ (n : ℚ) * 2 ^ k := by positivity
    linarith
  push Not at h0
  set q := (n : ℚ) * 2 ^ k with hq
  set u := ulpExp q with hu
  have hlog := log_bounds h0
  have huk : u ≤ k := by
    have hlt : q < (2 : ℚ) ^ (53 + k) := by
      rw [zpow_add₀ (by norm_num)]
      have : (n : ℚ) < 2 ^ (53 : ℤ) := by exact_mod_cast hn
      have hp : (0 : ℚ) < 2 ^ k := by positivity
      rw [hq]; gcongr
    have : Int.log 2 q < 53 + k := by
      by_contra hc
      push Not at hc
      have := zpow_le hc
      linarith [hlog.1]
    rw [hu, ulpExp]; omega
  have hpos : (0 : ℚ) < 2 ^ u := by positivity
  have hint : q / 2 ^ u = (((n : ℤ) * 2 ^ (k - u).toNat : ℤ) : ℚ) := by
    have h1 : ((k - u).toNat : ℤ) = k - u := Int.toNat_of_nonneg (by omega)
    push_cast
    rw [← zpow_natCast, h1, div_eq_iff hpos.ne', mul_assoc, zpow_split]
  rw [hint, roundEven_int, ← hint]
  field_simp

/-- The result of rounding is representable. -/
theorem rep_roundMag (q : ℚ) : Rep (roundMag q) := by
  by_cases h0 : q ≤ 0
  · rw [roundMag, if_pos h0]; exact ⟨0, 0, by norm_num, by norm_num, by simp⟩
  push Not at h0
  have hnn := roundMag_nonneg q
  have hlog := log_bounds h0
  rw [roundMag, if_neg (not_le.2 h0)] at hnn ⊢
  set u := ulpExp q with hu
  have hpos : (0 : ℚ) < 2 ^ u := by positivity
  have hge : (0 : ℚ) ≤ q / 2 ^ u := by positivity
  have hm0 : 0 ≤ roundEven (q / 2 ^ u) :=
    (Int.floor_nonneg.2 hge).trans (floor_le_roundEven _)
  have hlt : q / 2 ^ u < 2 ^ (53 : ℕ) := by
    rw [div_lt_iff₀ hpos]
    calc q < 2 ^ (Int.log 2 q + 1) := hlog.2
      _ ≤ 2 ^ (53 + u) := zpow_le (by rw [hu, ulpExp]; omega)
      _ = _ := by rw [zpow_add₀ (by norm_num)]; norm_num
  have hle : roundEven (q / 2 ^ u) ≤ 2 ^ 53 := by
    have h1 : roundEven (q / 2 ^ u) ≤ roundEven (((2 ^ 53 : ℤ)) : ℚ) :=
      roundEven_mono (by push_cast; exact_mod_cast hlt.le)
    rwa [roundEven_int] at h1
  rcases lt_or_eq_of_le hle with hl | he
  · refine ⟨(roundEven (q / 2 ^ u)).toNat, u, by omega, by rw [hu, ulpExp]; omega, ?_⟩
    have : ((roundEven (q / 2 ^ u)).toNat : ℤ) = roundEven (q / 2 ^ u) := Int.toNat_of_nonneg hm0
    congr 1
    exact_mod_cast this.symm
  · refine ⟨2 ^ 52, u + 1, by norm_num, by rw [hu, ulpExp]; omega, ?_⟩
    rw [he, zpow_add₀ (by norm_num)]
    push_cast
    ring

/-- Relative error at most 2^-53 for magnitudes in the normal range. -/
theorem roundMag_near {q : ℚ} (h : (2 : ℚ) ^ (-1022 : ℤ) ≤ q) :
    |roundMag q - q| ≤ q / 2 ^ 53 := by
  have h0 : 0 < q := lt_of_lt_of_le (by positivity) h
  have hlog := log_bounds h0
  rw [roundMag, if_neg (not_le.2 h0)]
  have hL : -1022 ≤ Int.log 2 q := by
    by_contra hc
    push Not at hc
    have : (2 : ℚ) ^ (Int.log 2 q + 1) ≤ 2 ^ (-1022 : ℤ) := zpow_le (by omega)
    linarith [hlog.2]
  have hu : ulpExp q = Int.log 2 q - 52 := by rw [ulpExp]; omega
  rw [hu]
  set u := Int.log 2 q - 52 with hu'
  have hpos : (0 : ℚ) < 2 ^ u := by positivity
  have e : (roundEven (q / 2 ^ u) : ℚ) * 2 ^ u - q =
      ((roundEven (q / 2 ^ u) : ℚ) - q / 2 ^ u) * 2 ^ u := by
    field_simp
  rw [e, abs_mul, abs_of_pos hpos]
  have h1 : (2 : ℚ) ^ u = 2 ^ Int.log 2 q / 2 ^ 52 := by
    rw [hu', zpow_sub₀ (by norm_num)]; norm_num
  calc _ ≤ 1 / 2 * (2 : ℚ) ^ u := by gcongr; exact roundEven_near _
    _ = 2 ^ Int.log 2 q / 2 ^ 53 := by rw [h1]; ring
    _ ≤ _ := by gcongr; exact hlog.1

theorem Rep.nonneg {q : ℚ} (h : Rep q) : 0 ≤ q := by
  obtain ⟨n, k, -, -, rfl⟩ := h; positivity

/-- Dividing by a power of two is exact as long as the result stays normal. -/
theorem Rep.div_pow {q : ℚ} (h : Rep q) (j : ℕ) (hq : (2 : ℚ) ^ (-900 : ℤ) ≤ q) (hj : j ≤ 70) :
    Rep (q / 2 ^ j) := by
  obtain ⟨n, k, hn, hk, rfl⟩ := h
  refine ⟨n, k - j, hn, ?_, ?_⟩
  · by_contra hc
    push Not at hc
    have h1 : (n : ℚ) * 2 ^ k < 2 ^ (-900 : ℤ) := by
      have h2 : (n : ℚ) < 2 ^ (53 : ℤ) := by exact_mod_cast hn
      calc (n : ℚ) * 2 ^ k < 2 ^ (53 : ℤ) * 2 ^ k := by gcongr
        _ = 2 ^ (53 + k) := by rw [← zpow_add₀ (by norm_num)]
        _ ≤ _ := zpow_le (by omega)
    linarith
  · rw [zpow_sub₀ (by norm_num), zpow_natCast]; ring

theorem rep_nat {n : ℕ} (h : n < 2 ^ 53) : Rep (n : ℚ) := ⟨n, 0, h, by norm_num, by simp⟩

theorem rep_pow {k : ℕ} : Rep ((2 : ℚ) ^ k) := ⟨1, k, by norm_num, by omega, by simp⟩

theorem round_small {s : Bool} {q : ℚ} (h : roundMag q < 2 ^ 1024) :
    round s q = fin s (roundMag q) := by
  rw [round, if_neg (not_le.2 h)]

theorem roundMag_lt {q : ℚ} {e : ℕ} (h : q ≤ (2 : ℚ) ^ e) (he : e < 1024) :
    roundMag q < 2 ^ 1024 := by
  have h1 : roundMag q ≤ (2 : ℚ) ^ (e : ℤ) := roundMag_le_pow (by omega) (by exact_mod_cast h)
  have h2 : (2 : ℚ) ^ e < 2 ^ 1024 := pow_lt_pow_right₀ (by norm_num) he
  rw [zpow_natCast] at h1
  linarith

theorem ofNat_lt64 {n : ℕ} (h : n < 2 ^ 64) : ofNat n = fin false (roundMag n) := by
  rw [ofNat, round_small]
  exact roundMag_lt (e := 64) (by exact_mod_cast h.le) (by norm_num)

theorem ofNat_small {n : ℕ} (h : n < 2 ^ 53) : ofNat n = fin false n := by
  rw [ofNat_lt64 (by omega), roundMag_rep (rep_nat h)]

theorem ofNat_pow {k : ℕ} (h : k < 64) : ofNat (2 ^ k) = fin false (2 ^ k) := by
  rw [ofNat_lt64 (Nat.pow_lt_pow_right (by norm_num) h)]
  push_cast
  rw [roundMag_rep rep_pow]

theorem valid_round (s : Bool) (q : ℚ) : (round s q).Valid := by
  unfold round
  split_ifs with h
  · trivial
  · exact ⟨rep_roundMag q, not_le.1 h⟩

theorem valid_mul (x y : F64) : (mul x y).Valid := by
  cases x <;> cases y <;> simp only [mul] <;> (try split_ifs) <;>
    first | trivial | exact valid_round _ _

theorem valid_zero (s : Bool) : (fin s 0).Valid :=
  ⟨⟨0, 0, by norm_num, by norm_num, by simp⟩, by positivity⟩

theorem valid_div (x y : F64) : (div x y).Valid := by
  cases x <;> cases y <;> simp only [div] <;> (try split_ifs) <;>
    first | trivial | exact valid_round _ _ | exact valid_zero _

theorem valid_add (x y : F64) : (add x y).Valid := by
  cases x <;> cases y <;> simp only [add] <;> (try split_ifs) <;>
    first | trivial | exact valid_round _ _ | exact valid_zero _

end F64
end Scrypt
