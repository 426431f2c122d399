import Verif.Proofs.Parsenum
import Verif.Proofs.Float
/-
C31: numeric option parsing.
-/
namespace Scrypt.Props
open Scrypt Spec

theorem conv_neg_one_unsigned {bits : Nat} : (IntTy.conv ⟨false, bits⟩ (-1)) = 2 ^ bits - 1 := by
  unfold IntTy.conv
  simp only [Bool.false_eq_true, false_and, if_false]
  have hp : (0 : Int) < 2 ^ bits := Int.pow_pos (by decide)
  have h1 : (-1 : Int) % 2 ^ bits = (-1 + 2 ^ bits) % 2 ^ bits := by rw [Int.add_emod_right]
  rw [h1, Int.emod_eq_of_lt (by omega) (by omega)]
  omega

theorem conv_signed {bits : Nat} (hb : 1 ≤ bits) {v : Int} (h1 : -2 ^ (bits - 1) ≤ v) (h2 : v < 2 ^ (bits - 1)) : (IntTy.conv ⟨true, bits⟩ v) = v := by
  unfold IntTy.conv
  obtain ⟨b, rfl⟩ : ∃ b, bits = b + 1 := ⟨bits - 1, by omega⟩
  simp only [Nat.add_sub_cancel] at *
  have hp : (0 : Int) < 2 ^ b := Int.pow_pos (by decide)
  have hd : (2 : Int) ^ (b + 1) = 2 * 2 ^ b := by rw [Int.pow_succ]; omega
  rw [hd]
  generalize (2 : Int) ^ b = P at *
  simp only [true_and]
  rcases Int.lt_or_le v 0 with hv | hv
  · have : v % (2 * P) = v + 2 * P := by
      rw [← Int.add_emod_right, Int.emod_eq_of_lt (by omega) (by omega)]
    rw [this, if_pos (by omega)]
    omega
  · rw [Int.emod_eq_of_lt hv (by omega), if_neg (by omega)]

theorem conv_unsigned {bits : Nat} {v : Int} (h1 : 0 ≤ v) (h2 : v < 2 ^ bits) : (IntTy.conv ⟨false, bits⟩ v) = v := by
  unfold IntTy.conv
  simp only [Bool.false_eq_true, false_and, if_false]
  exact Int.emod_eq_of_lt h1 h2

/-- The value strtoumax assigns to a numeral: a minus sign negates modulo 2^64. -/
def umaxVal (neg : Bool) (m : Nat) : Nat := if neg then (2 ^ 64 - m) % 2 ^ 64 else m

/-- The number a numeral writes. -/
def sVal (neg : Bool) (m : Nat) : Int := if neg then -(m : Int) else m

/-- **C31, signed variables.**  Accepted exactly the numbers within the bounds; otherwise EINVAL for what is no number, ERANGE for a number out of bounds. -/
theorem C31_signed (bits : Nat) (hb : 1 ≤ bits) (hb' : bits ≤ 64) (min max : Int) (hmin : -2 ^ (bits - 1) ≤ min) (hmax : max < 2 ^ (bits - 1)) (s : CStr) :
    (∀ v, PARSENUM_int ⟨true, bits⟩ s min max = .ok v ↔ ∃ neg m, Numeral 0 s neg m ∧ v = sVal neg m ∧ min ≤ v ∧ v ≤ max) ∧
    (PARSENUM_int ⟨true, bits⟩ s min max = .error .EINVAL ↔ ¬ ∃ neg m, Numeral 0 s neg m) ∧
    (PARSENUM_int ⟨true, bits⟩ s min max = .error .ERANGE ↔ ∃ neg m, Numeral 0 s neg m ∧ ¬ (min ≤ sVal neg m ∧ sVal neg m ≤ max)) := by
  obtain ⟨h1, h2⟩ := parsenum_signed_spec s min max 0
  have hx : (IntTy.conv ⟨true, bits⟩ (-1)) = -1 := conv_signed hb (by have : (0 : Int) < 2 ^ (bits - 1) := Int.pow_pos (by decide); omega)
    (by have : (0 : Int) < 2 ^ (bits - 1) := Int.pow_pos (by decide); omega)
  have he : PARSENUM_EX6_int ⟨true, bits⟩ s min max 0 false =
      ((IntTy.conv ⟨true, bits⟩ (parsenum_signed s min max 0 false).1), (parsenum_signed s min max 0 false).2) := by
    unfold PARSENUM_EX6_int
    rw [hx]
    rfl
  have h63 : (2 : Int) ^ (bits - 1) ≤ 2 ^ 63 := by
    exact_mod_cast Nat.pow_le_pow_right (by decide) (show bits - 1 ≤ 63 by omega)
  have hdef : PARSENUM_int ⟨true, bits⟩ s min max =
      match (parsenum_signed s min max 0 false).2 with
      | none => .ok (IntTy.conv ⟨true, bits⟩ (parsenum_signed s min max 0 false).1)
      | some e => .error e := by
    unfold PARSENUM_int
    rw [he]
    cases (parsenum_signed s min max 0 false).2 <;> rfl
  rw [hdef]
  by_cases hn : ∃ neg m, Numeral 0 s neg m
  · obtain ⟨neg, m, hn⟩ := hn
    have h3 := h1 neg m hn
    change _ = if min ≤ sVal neg m ∧ sVal neg m ≤ max ∧ -2 ^ 63 ≤ sVal neg m ∧ sVal neg m ≤ 2 ^ 63 - 1 then (sVal neg m, none) else _ at h3
    by_cases hr : min ≤ sVal neg m ∧ sVal neg m ≤ max
    · rw [if_pos ⟨hr.1, hr.2, by omega, by omega⟩] at h3
      rw [h3]
      simp only []
      rw [conv_signed hb (by omega) (by omega)]
      refine ⟨fun v => ⟨?_, ?_⟩, ⟨fun h => (by cases h), fun h => absurd ⟨neg, m, hn⟩ h⟩, ⟨fun h => (by cases h), ?_⟩⟩
      · intro h
        cases h
        exact ⟨neg, m, hn, rfl, hr.1, hr.2⟩
      · rintro ⟨neg', m', hn', rfl, -⟩
        obtain ⟨rfl, rfl⟩ := numeral_unique hn hn'
        rfl
      · rintro ⟨neg', m', hn', h⟩
        obtain ⟨rfl, rfl⟩ := numeral_unique hn hn'
        exact absurd hr h
    · rw [if_neg (fun h => hr ⟨h.1, h.2.1⟩)] at h3
      rw [h3]
      simp only []
      refine ⟨fun v => ⟨fun h => (by cases h), ?_⟩, ⟨fun h => (by cases h), fun h => absurd ⟨neg, m, hn⟩ h⟩, ⟨fun _ => ⟨neg, m, hn, hr⟩, fun _ => trivial⟩⟩
      rintro ⟨neg', m', hn', rfl, h⟩
      obtain ⟨rfl, rfl⟩ := numeral_unique hn hn'
      exact absurd h hr
  · rw [h2 hn]
    simp only []
    refine ⟨fun v => ⟨fun h => (by cases h), ?_⟩, ⟨fun _ => hn, fun _ => trivial⟩, ⟨fun h => (by cases h), ?_⟩⟩
    · rintro ⟨neg', m', hn', -⟩; exact absurd ⟨neg', m', hn'⟩ hn
    · rintro ⟨neg', m', hn', -⟩; exact absurd ⟨neg', m', hn'⟩ hn

/-- **C31, unsigned variables.**  As for signed ones, except (finding F4) that a minus sign is not an error: the number is negated modulo 2^64
before the bounds are checked. -/
theorem C31_unsigned (bits : Nat) (hb : 1 ≤ bits) (min max : Int) (hmax : max < 2 ^ 64) (s : CStr) :
    (∀ v : Int, PARSENUM_int ⟨false, bits⟩ s min max = .ok v ↔
      ∃ neg m, Numeral 0 s neg m ∧ m < 2 ^ 64 ∧ v = (umaxVal neg m : Int) ∧ min ≤ v ∧ v ≤ max ∧ v < 2 ^ bits) ∧
    (PARSENUM_int ⟨false, bits⟩ s min max = .error .EINVAL ↔ ¬ ∃ neg m, Numeral 0 s neg m) := by
  obtain ⟨h1, h2⟩ := parsenum_unsigned_spec s (if min ≤ 0 then 0 else min.toNat) (max % 2 ^ 64).toNat ((2 : Int) ^ bits - 1).toNat 0
  have hp : (1 : Int) < 2 ^ bits := by
    have : (2 : Int) ^ 1 ≤ 2 ^ bits := by exact_mod_cast Nat.pow_le_pow_right (by decide) hb
    omega
  generalize hpu : parsenum_unsigned s (if min ≤ 0 then 0 else min.toNat) (max % 2 ^ 64).toNat ((2 : Int) ^ bits - 1).toNat 0 false = pu at h1 h2
  have he : PARSENUM_EX6_int ⟨false, bits⟩ s min max 0 false =
      (IntTy.conv ⟨false, bits⟩ pu.1, if max < 0 ∧ pu.2 = none then some .ERANGE else pu.2) := by
    unfold PARSENUM_EX6_int
    rw [conv_neg_one_unsigned]
    simp only []
    rw [if_neg (by omega), hpu]
    obtain ⟨a, b⟩ := pu
    simp only []
    by_cases hm : max ≤ 2 ^ 63 - 1
    · rw [if_pos hm]
    · rw [if_neg hm, if_neg (by omega)]
  have hdef : PARSENUM_int ⟨false, bits⟩ s min max =
      match (if max < 0 ∧ pu.2 = none then some PnErrno.ERANGE else pu.2) with
      | none => .ok (IntTy.conv ⟨false, bits⟩ pu.1)
      | some e => .error e := by
    unfold PARSENUM_int
    rw [he]
    cases (if max < 0 ∧ pu.2 = none then some PnErrno.ERANGE else pu.2) <;> rfl
  rw [hdef]
  by_cases hn : ∃ neg m, Numeral 0 s neg m
  · obtain ⟨neg, m, hn⟩ := hn
    have h3 := h1 neg m hn
    change pu = if m ≤ 2 ^ 64 - 1 ∧ _ ≤ umaxVal neg m ∧ umaxVal neg m ≤ _ ∧ umaxVal neg m ≤ _ then (umaxVal neg m, none) else _ at h3
    by_cases hr : m < 2 ^ 64 ∧ min ≤ (umaxVal neg m : Int) ∧ (umaxVal neg m : Int) ≤ max ∧ (umaxVal neg m : Int) < 2 ^ bits
    · have hmx : max % 2 ^ 64 = max := Int.emod_eq_of_lt (by omega) hmax
      rw [if_pos ⟨by omega, by split <;> omega, by rw [hmx]; omega, by omega⟩] at h3
      rw [h3]
      simp only [and_true]
      rw [if_neg (by omega)]
      simp only []
      rw [conv_unsigned (by omega) hr.2.2.2]
      refine ⟨fun v => ⟨?_, ?_⟩, ⟨fun h => (by cases h), fun h => absurd ⟨neg, m, hn⟩ h⟩⟩
      · intro h
        cases h
        exact ⟨neg, m, hn, hr.1, rfl, hr.2⟩
      · rintro ⟨neg', m', hn', -, rfl, -⟩
        obtain ⟨rfl, rfl⟩ := numeral_unique hn hn'
        rfl
    · have hno : ¬ (max < 0 ∧ pu.2 = none) → pu.2 = some .ERANGE := by
        intro hc
        by_cases hz : m ≤ 2 ^ 64 - 1 ∧ (if min ≤ 0 then 0 else min.toNat) ≤ umaxVal neg m ∧ umaxVal neg m ≤ (max % 2 ^ 64).toNat ∧
            umaxVal neg m ≤ ((2 : Int) ^ bits - 1).toNat
        · rw [if_pos hz] at h3
          rw [h3] at hc
          simp only [and_true] at hc
          have hmx : max % 2 ^ 64 = max := Int.emod_eq_of_lt (by omega) hmax
          rw [hmx] at hz
          refine absurd ⟨by omega, ?_, by omega, by omega⟩ hr
          have := hz.2.1
          split at this <;> omega
        · rw [if_neg hz] at h3
          rw [h3]
      have hlast : (if max < 0 ∧ pu.2 = none then some PnErrno.ERANGE else pu.2) = some .ERANGE := by
        by_cases hc : max < 0 ∧ pu.2 = none
        · rw [if_pos hc]
        · rw [if_neg hc]; exact hno hc
      rw [hlast]
      simp only []
      refine ⟨fun v => ⟨fun h => (by cases h), ?_⟩, ⟨fun h => (by cases h), fun h => absurd ⟨neg, m, hn⟩ h⟩⟩
      rintro ⟨neg', m', hn', h4, rfl, h5⟩
      obtain ⟨rfl, rfl⟩ := numeral_unique hn hn'
      exact absurd ⟨h4, h5⟩ hr
  · rw [h2 hn, if_neg (by rintro ⟨-, h⟩; cases h)]
    simp only []
    refine ⟨fun v => ⟨fun h => (by cases h), ?_⟩, ⟨fun _ => hn, fun _ => trivial⟩⟩
    rintro ⟨neg', m', hn', -⟩; exact absurd ⟨neg', m', hn'⟩ hn

/-- **C31.**  For unsigned variables and text without a minus sign: exactly the numbers within the bounds and the type. -/
theorem C31_unsigned_plain (bits : Nat) (hb : 1 ≤ bits) (hb' : bits ≤ 64) (min max : Int) (hmax : max < 2 ^ 64) (s : CStr) (m : Nat) (h : Numeral 0 s false m) (v : Int) :
    PARSENUM_int ⟨false, bits⟩ s min max = .ok v ↔ v = m ∧ min ≤ (m : Int) ∧ (m : Int) ≤ max ∧ (m : Int) < 2 ^ bits := by
  rw [(C31_unsigned bits hb min max hmax s).1]
  constructor
  · rintro ⟨neg, m', h', h1, rfl, h2⟩
    obtain ⟨rfl, rfl⟩ := numeral_unique h h'
    exact ⟨rfl, h2⟩
  · rintro ⟨rfl, h2⟩
    have : (2 : Int) ^ bits ≤ 2 ^ 64 := by exact_mod_cast Nat.pow_le_pow_right (by decide) hb'
    exact ⟨false, m, h, by omega, rfl, h2⟩

/-- **C31, finding F4.**  "-r -18446744073709551615" is taken for "-r 1". -/
theorem C31_negative_accepted : PARSENUM_int tyU32 "-18446744073709551615".toList 1 32 = .ok 1 := by decide +kernel

example : PARSENUM_int tyInt "  +0x1F".toList 10 40 = .ok 31 ∧ PARSENUM_int tyInt "012".toList 10 40 = .ok 10 ∧
    PARSENUM_int tyInt "08".toList 10 40 = .error .EINVAL ∧ PARSENUM_int tyInt "41".toList 10 40 = .error .ERANGE ∧
    PARSENUM_int tyInt "-20".toList 10 40 = .error .ERANGE ∧ PARSENUM_int tyU32 "33".toList 1 32 = .error .ERANGE ∧
    PARSENUM_int tyU32 "0".toList 1 32 = .error .ERANGE ∧ PARSENUM_int tyU32 "12 ".toList 1 32 = .error .EINVAL ∧
    PARSENUM_int tyU32 "".toList 1 32 = .error .EINVAL ∧ PARSENUM_int tyU32 "99999999999999999999".toList 1 32 = .error .ERANGE := by decide +kernel

/-- A numeral, to show the hypotheses are met. -/
example : Numeral 0 " 2048".toList false 2048 :=
  ⟨[' '], [], "2048".toList, 10, "2048".toList, rfl, by decide, .inl ⟨rfl, rfl⟩, .dec rfl (by decide) (by decide), by decide⟩

/-! ### Floating-point variables -/

theorem floatDenotes_nonempty {s : CStr} {v : FloatVal} (h : FloatDenotes s v) : s ≠ [] := by
  rintro rfl
  have ha : afterSign [] = [] := rfl
  cases h with
  | dec h => cases (show decFloat [] = none from by decide +kernel).symm.trans h
  | hex h => rw [ha] at h; cases h
  | inf h => rw [ha] at h; rcases h with h | h <;> cases h
  | nan h => rw [ha] at h; cases h
  | payload h => rw [ha] at h; have := congrArg List.length h; simp at this

/-- **C31, floating-point.**  A text that denotes a number which neither overflows nor underflows is accepted exactly if the rounded number is within the bounds. -/
theorem C31_float (sd : Strtod) (hsd : GoodStrtod sd) (s : CStr) (neg : Bool) (q : ℚ) (hs : FloatDenotes s (.num neg q))
    (hq : q = 0 ∨ ((2 : ℚ) ^ (-1022 : ℤ) ≤ q ∧ F64.roundMag q < (2 : ℚ) ^ (1024 : ℕ))) (min max : F64) :
    PARSENUM_flt sd s min max =
      if F64.lt (F64.round neg q) min = false ∧ F64.lt max (F64.round neg q) = false then .ok (F64.round neg q) else .error .ERANGE := by
  obtain ⟨e, h1, -, h3⟩ := hsd.num s neg q hs
  have hne := floatDenotes_nonempty hs
  rw [h3 hq] at h1
  unfold PARSENUM_flt parsenum_float
  rw [h1]
  simp only [Bool.false_eq_true, if_false]
  rw [if_neg (by have := List.length_pos_iff.2 hne; omega)]
  cases F64.lt (F64.round neg q) min <;> cases F64.lt max (F64.round neg q) <;> rfl

/-- **C31, floating-point.**  A number that underflows is accepted if the rounded number is within the bounds, or refused with ERANGE (C leaves this to the library). -/
theorem C31_float_underflow (sd : Strtod) (hsd : GoodStrtod sd) (s : CStr) (neg : Bool) (q : ℚ) (hs : FloatDenotes s (.num neg q)) (min max : F64) :
    PARSENUM_flt sd s min max = .error .ERANGE ∨
    (PARSENUM_flt sd s min max = .ok (F64.round neg q) ∧ F64.lt (F64.round neg q) min = false ∧ F64.lt max (F64.round neg q) = false) := by
  obtain ⟨e, h1, -, -⟩ := hsd.num s neg q hs
  have hne := floatDenotes_nonempty hs
  unfold PARSENUM_flt parsenum_float
  rw [h1]
  simp only []
  rw [if_neg (by have := List.length_pos_iff.2 hne; omega)]
  cases e <;> cases F64.lt (F64.round neg q) min <;> cases F64.lt max (F64.round neg q) <;> simp

/-- **C31, floating-point.**  A number that overflows is rejected with ERANGE. -/
theorem C31_float_overflow (sd : Strtod) (hsd : GoodStrtod sd) (s : CStr) (neg : Bool) (q : ℚ) (hs : FloatDenotes s (.num neg q))
    (hq : (2 : ℚ) ^ (1024 : ℕ) ≤ F64.roundMag q) (min max : F64) : PARSENUM_flt sd s min max = .error .ERANGE := by
  obtain ⟨e, h1, h2, -⟩ := hsd.num s neg q hs
  have hne := floatDenotes_nonempty hs
  rw [h2 hq] at h1
  unfold PARSENUM_flt parsenum_float
  rw [h1]
  simp only [if_true]
  rw [if_neg (by have := List.length_pos_iff.2 hne; omega)]
  split
  · rename_i v h; split at h <;> cases h
  · rename_i v e h; split at h <;> cases h <;> rfl

/-- **C31, floating-point.**  An infinity is accepted exactly if it is within the bounds. -/
theorem C31_float_inf (sd : Strtod) (hsd : GoodStrtod sd) (s : CStr) (neg : Bool) (hs : FloatDenotes s (.inf neg)) (min max : F64) :
    PARSENUM_flt sd s min max = if F64.lt (.inf neg) min = false ∧ F64.lt max (.inf neg) = false then .ok (.inf neg) else .error .ERANGE := by
  have hne := floatDenotes_nonempty hs
  unfold PARSENUM_flt parsenum_float
  rw [hsd.inf s neg hs]
  simp only [Bool.false_eq_true, if_false]
  rw [if_neg (by have := List.length_pos_iff.2 hne; omega)]
  cases F64.lt (.inf neg) min <;> cases F64.lt max (.inf neg) <;> rfl

/-- **C31, floating-point.**  What is no number (decimal, hexadecimal, infinity or NaN) is rejected with EINVAL, and nothing else is. -/
theorem C31_float_invalid (sd : Strtod) (hsd : GoodStrtod sd) (s : CStr) (min max : F64) :
    PARSENUM_flt sd s min max = .error .EINVAL ↔ ∀ v, ¬ FloatDenotes s v := by
  constructor
  · intro h v hv
    cases v with
    | num neg q =>
      rcases C31_float_underflow sd hsd s neg q hv min max with e | ⟨e, -⟩ <;> rw [e] at h <;> cases h
    | inf neg =>
      rw [C31_float_inf sd hsd s neg hv] at h
      split at h <;> cases h
    | nan =>
      have hl := List.length_pos_iff.2 (floatDenotes_nonempty hv)
      unfold PARSENUM_flt parsenum_float at h
      rw [hsd.nan s hv] at h
      simp only [] at h
      rw [if_neg (by omega), if_neg (by cases max <;> cases min <;> simp [F64.lt])] at h
      cases h
  · intro h
    have := hsd.other s h
    unfold PARSENUM_flt parsenum_float
    simp only []
    rw [if_pos (by rcases this with h | h
                   · exact .inl h
                   · exact .inr ⟨trivial, h⟩)]

/-- **C31, floating-point.**  Whatever the library's strtod does, an accepted value is not below `min`, not above `max`, was reported without a
range error, and the whole text was used. -/
theorem C31_float_bounds (sd : Strtod) (s : CStr) (min max v : F64) (h : PARSENUM_flt sd s min max = .ok v) :
    F64.lt v min = false ∧ F64.lt max v = false ∧ sd s = (v, s.length, false) ∧ s ≠ [] := by
  unfold PARSENUM_flt parsenum_float at h
  rcases hsd : sd s with ⟨val, eptr, er⟩
  rw [hsd] at h
  simp only [] at h
  split at h
  · rename_i v' h'
    split at h'
    · cases h'
    · rename_i hc
      rw [not_or] at hc
      split at h'
      · cases h'
      · rename_i hc2
        rw [not_or] at hc2
        cases er with
        | true => cases h'
        | false =>
          cases h'
          cases h
          have he : eptr = s.length := by
            by_contra hne
            exact hc.2 ⟨trivial, hne⟩
          refine ⟨by simpa using hc2.1, by simpa using hc2.2, by rw [he], ?_⟩
          rintro rfl
          exact hc.1 (by rw [he]; rfl)
  · cases h

/-- **C31, finding F3.**  NaN passes every bound. -/
theorem C31_nan_accepted (sd : Strtod) (hsd : GoodStrtod sd) (s : CStr) (hs : FloatDenotes s .nan) (min max : F64) :
    PARSENUM_flt sd s min max = .ok .nan := by
  have hne := floatDenotes_nonempty hs
  unfold PARSENUM_flt parsenum_float
  rw [hsd.nan s hs]
  simp only []
  have hl := List.length_pos_iff.2 hne
  rw [if_neg (by omega), if_neg (by cases max <;> cases min <;> simp [F64.lt])]
  rfl

/-! ### The assumption about strtod can be met -/

theorem decFloat_letter {s t : CStr} {c : Char} (h : afterSign s = c :: t) (h1 : isDigitIn 10 c = false) (h2 : c ≠ '.') : decFloat s = none := by
  have ha : (c :: t).takeWhile (isDigitIn 10) = [] := by rw [List.takeWhile_cons]; simp [h1]
  have hb : (c :: t).dropWhile (isDigitIn 10) = c :: t := by rw [List.dropWhile_cons]; simp [h1]
  have hc : fracPart (c :: t) = ([], c :: t) := by rw [fracPart, if_neg h2]
  unfold decFloat
  simp only []
  rw [h, ha, hb, hc, if_pos ⟨rfl, rfl⟩]

theorem decFloat_hex {s r : CStr} {x : Char} (h : afterSign s = '0' :: x :: r) (hx : x = 'x' ∨ x = 'X') : decFloat s = none := by
  have h1 : isDigitIn 10 x = false := by rcases hx with rfl | rfl <;> decide
  have h2 : x ≠ '.' := by rcases hx with rfl | rfl <;> decide
  have h3 : ¬ (x = 'e' ∨ x = 'E') := by rcases hx with rfl | rfl <;> decide
  have h0 : isDigitIn 10 '0' = true := by decide
  have ha : ('0' :: x :: r).takeWhile (isDigitIn 10) = ['0'] := by
    rw [List.takeWhile_cons, if_pos h0, List.takeWhile_cons]; simp [h1]
  have hb : ('0' :: x :: r).dropWhile (isDigitIn 10) = x :: r := by
    rw [List.dropWhile_cons, if_pos h0, List.dropWhile_cons]; simp [h1]
  have hc : fracPart (x :: r) = ([], x :: r) := by rw [fracPart, if_neg h2]
  have hd : expPart (x :: r) = none := by rw [expPart.eq_def]; exact if_neg h3
  unfold decFloat
  simp only []
  rw [h, ha, hb, hc, if_neg (by simp), hd]
  rfl

theorem caseless_head {t w : CStr} {d : Char} (h : Caseless t (d :: w)) : ∃ c u, t = c :: u ∧ (c = d ∨ c = d.toUpper) := by
  cases h with
  | cons h1 h2 => exact ⟨_, _, rfl, h1⟩

/-- The first character (after white space and sign) tells the forms apart. -/
theorem floatDenotes_first {s : CStr} {v : FloatVal} (h : FloatDenotes s v) :
    (∃ neg q, v = .num neg q ∧ ∀ c u, afterSign s = c :: u → isDigitIn 10 c = true ∨ c = '.') ∨
    (v = .inf (minusSign s) ∧ ∃ u, afterSign s = 'i' :: u ∨ afterSign s = 'I' :: u) ∨
    (v = .nan ∧ ∃ u, afterSign s = 'n' :: u ∨ afterSign s = 'N' :: u) := by
  cases h with
  | dec h =>
    refine .inl ⟨_, _, rfl, fun c u e => ?_⟩
    by_contra hc
    rw [not_or] at hc
    rw [decFloat_letter e (by simpa using hc.1) hc.2] at h
    cases h
  | hex h => exact .inl ⟨_, _, rfl, fun c u e => by rw [h] at e; cases e; exact .inl (by decide)⟩
  | inf h =>
    refine .inr (.inl ⟨rfl, ?_⟩)
    have : ∃ c u, afterSign s = c :: u ∧ (c = 'i' ∨ c = Char.toUpper 'i') := by
      rcases h with h | h
      · exact caseless_head h
      · exact caseless_head h
    obtain ⟨c, u, h1, h2⟩ := this
    exact ⟨u, by rcases h2 with rfl | rfl <;> [exact .inl h1; exact .inr h1]⟩
  | nan h =>
    obtain ⟨c, u, h1, h2⟩ := caseless_head h
    exact .inr (.inr ⟨rfl, u, by rcases h2 with rfl | rfl <;> [exact .inl h1; exact .inr h1]⟩)
  | payload h h' =>
    obtain ⟨c, u, h1, h2⟩ := caseless_head h'
    rw [h1] at h
    exact .inr (.inr ⟨rfl, _, by rcases h2 with rfl | rfl <;> [exact .inl h; exact .inr h]⟩)

/-- A text denotes at most one value. -/
theorem floatDenotes_unique {s : CStr} {v w : FloatVal} (hv : FloatDenotes s v) (hw : FloatDenotes s w) : v = w := by
  have sep {c d : Char} {u t : CStr} (h1 : afterSign s = c :: u) (h2 : afterSign s = d :: t) : c = d := by
    rw [h1] at h2; exact (List.cons.inj h2).1
  rcases floatDenotes_first hv with ⟨n1, q1, e1, f1⟩ | ⟨e1, u1, f1⟩ | ⟨e1, u1, f1⟩ <;>
    rcases floatDenotes_first hw with ⟨n2, q2, e2, f2⟩ | ⟨e2, u2, f2⟩ | ⟨e2, u2, f2⟩
  · subst e1 e2
    cases hv with
    | dec a =>
      cases hw with
      | dec b => rw [a] at b; cases b; rfl
      | hex b hx => rw [decFloat_hex b hx] at a; cases a
    | hex a hx a' =>
      cases hw with
      | dec b => rw [decFloat_hex a hx] at b; cases b
      | hex b hy b' => rw [a] at b; cases b; rw [a'] at b'; cases b'; rfl
  · rcases f2 with f2 | f2 <;> exact absurd (f1 _ _ f2) (by decide)
  · rcases f2 with f2 | f2 <;> exact absurd (f1 _ _ f2) (by decide)
  · rcases f1 with f1 | f1 <;> exact absurd (f2 _ _ f1) (by decide)
  · rw [e1, e2]
  · rcases f1 with f1 | f1 <;> rcases f2 with f2 | f2 <;> exact absurd (sep f1 f2) (by decide)
  · rcases f1 with f1 | f1 <;> exact absurd (f2 _ _ f1) (by decide)
  · rcases f1 with f1 | f1 <;> rcases f2 with f2 | f2 <;> exact absurd (sep f1 f2) (by decide)
  · rw [e1, e2]

/-- What strtod stores for a value. -/
noncomputable def exStored : FloatVal → F64 × Bool
  | .num neg q => (F64.round neg q, decide ((2 : ℚ) ^ (1024 : ℕ) ≤ F64.roundMag q))
  | .inf neg => (.inf neg, false)
  | .nan => (.nan, false)

open Classical in
/-- A strtod that does what ISO C says. -/
noncomputable def exStrtod : Strtod := fun s =>
  if h : ∃ v, FloatDenotes s v then ((exStored h.choose).1, s.length, (exStored h.choose).2) else (F64.round false 0, 0, false)

theorem exStrtod_eq {s : CStr} {v : FloatVal} (h : FloatDenotes s v) : exStrtod s = ((exStored v).1, s.length, (exStored v).2) := by
  have he : ∃ v, FloatDenotes s v := ⟨v, h⟩
  unfold exStrtod
  rw [dif_pos he, floatDenotes_unique he.choose_spec h]

/-- `GoodStrtod` is satisfiable. -/
theorem exStrtod_good : GoodStrtod exStrtod := by
  refine ⟨?_, ?_, ?_, ?_⟩
  · intro s neg q h
    refine ⟨decide ((2 : ℚ) ^ (1024 : ℕ) ≤ F64.roundMag q), exStrtod_eq h, fun h1 => decide_eq_true h1, ?_⟩
    rintro (rfl | ⟨-, h1⟩)
    · refine decide_eq_false ?_
      have : F64.roundMag 0 = 0 := by
        simp [F64.roundMag]
      rw [this, not_le]
      positivity
    · exact decide_eq_false (not_le.2 h1)
  · intro s h
    exact exStrtod_eq h
  · intro s neg h
    exact exStrtod_eq h
  · intro s h
    left
    unfold exStrtod
    rw [dif_neg (fun ⟨v, hv⟩ => h v hv)]

set_option exponentiation.threshold 1100 in
/-- "-m 0.25" and "-t 1e3" meet the hypotheses of `C31_float`, and so do hexadecimal constants. -/
example : decFloat "0.25".toList = some (false, 25 / 100) ∧ decFloat " -1e3".toList = some (true, 1000) ∧ decFloat "1.".toList = some (false, 1) ∧
    decFloat ".".toList = none ∧ decFloat "1e".toList = none ∧ decFloat "0.5s".toList = none ∧
    hexConst "1.8p3".toList = some 12 ∧ hexConst ".8P-1".toList = some (1 / 4) ∧ hexConst "1p".toList = none ∧ hexConst "p1".toList = none := by
  refine ⟨?_, ?_, ?_, ?_, ?_, ?_, ?_, ?_, ?_, ?_⟩
  all_goals decide +kernel

example : FloatDenotes "-0x1.8p3".toList (.num true 12) ∧ FloatDenotes "Infinity".toList (.inf false) ∧ FloatDenotes "nan(x_1)".toList .nan := by
  refine ⟨.hex (x := 'x') (r := "1.8p3".toList) rfl (.inl rfl) (by decide +kernel), .inf (.inr ?_), .payload (a := "nan".toList) (r := "x_1".toList) rfl ?_ (by decide)⟩
  · show List.Forall₂ _ "Infinity".toList "infinity".toList
    repeat' first | exact List.Forall₂.nil | refine List.Forall₂.cons (by decide) ?_
  · show List.Forall₂ _ "nan".toList "nan".toList
    repeat' first | exact List.Forall₂.nil | refine List.Forall₂.cons (by decide) ?_

end Scrypt.Props
