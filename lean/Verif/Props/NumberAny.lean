import Verif.Model.ParsenumEx
import Verif.Proofs.NumberPrefix
import Verif.Props.Parsenum
/-
C93: the general number parsing macros.
-/
namespace Scrypt.Props
open Scrypt Spec

theorem minus_one_signed {bits : Nat} (hb : 1 ≤ bits) : (IntTy.conv ⟨true, bits⟩ (-1)) = -1 :=
  conv_signed hb (by have : (0 : Int) < 2 ^ (bits - 1) := Int.pow_pos (by decide); omega)
    (by have : (0 : Int) < 2 ^ (bits - 1) := Int.pow_pos (by decide); omega)

/-- **C93, signed variables.**  In any base: accepted are exactly the texts that give a number within the bounds; EINVAL for a text that gives
none, ERANGE for a number out of bounds. -/
theorem C93_signed (sd : Strtod) (bits : Nat) (hb : 1 ≤ bits) (hb' : bits ≤ 64) (min max : Int) (hmin : -2 ^ (bits - 1) ≤ min)
    (hmax : max < 2 ^ (bits - 1)) (base : Nat) (_hbase : GoodBase base) (tr : Bool) (s : CStr) :
    (∀ v, PARSENUM_EX6 sd (.int ⟨true, bits⟩) s (.int min) (.int max) base tr = .ok (.int v none) ↔
      ∃ neg m, Gives base tr s neg m ∧ v = sVal neg m ∧ min ≤ v ∧ v ≤ max) ∧
    ((∃ w, PARSENUM_EX6 sd (.int ⟨true, bits⟩) s (.int min) (.int max) base tr = .ok (.int w (some .EINVAL))) ↔ ¬ ∃ neg m, Gives base tr s neg m) ∧
    ((∃ w, PARSENUM_EX6 sd (.int ⟨true, bits⟩) s (.int min) (.int max) base tr = .ok (.int w (some .ERANGE))) ↔
      ∃ neg m, Gives base tr s neg m ∧ ¬ (min ≤ sVal neg m ∧ sVal neg m ≤ max)) := by
  obtain ⟨h1, h2⟩ := parsenum_signed_gives s min max base tr
  have h63 : (2 : Int) ^ (bits - 1) ≤ 2 ^ 63 := by
    exact_mod_cast Nat.pow_le_pow_right (by decide) (show bits - 1 ≤ 63 by omega)
  have he : PARSENUM_EX6 sd (.int ⟨true, bits⟩) s (.int min) (.int max) base tr =
      .ok (.int (IntTy.conv ⟨true, bits⟩ (parsenum_signed s min max base tr).1) (parsenum_signed s min max base tr).2) := by
    unfold PARSENUM_EX6 PARSENUM_EX6_int
    dsimp only
    rw [minus_one_signed hb]
    rfl
  rw [he]
  generalize parsenum_signed s min max base tr = pr at *
  obtain ⟨a, e⟩ := pr
  simp only [Res.ok.injEq, NumOut.int.injEq] at *
  by_cases hn : ∃ neg m, Gives base tr s neg m
  · obtain ⟨neg, m, hn⟩ := hn
    have h3 := h1 neg m hn
    change _ = if min ≤ sVal neg m ∧ sVal neg m ≤ max ∧ -2 ^ 63 ≤ sVal neg m ∧ sVal neg m ≤ 2 ^ 63 - 1 then (sVal neg m, none) else _ at h3
    by_cases hr : min ≤ sVal neg m ∧ sVal neg m ≤ max
    · rw [if_pos ⟨hr.1, hr.2, by omega, by omega⟩] at h3
      cases h3
      rw [conv_signed hb (by omega) (by omega)]
      refine ⟨fun v => ⟨?_, ?_⟩, ⟨?_, fun h => absurd ⟨neg, m, hn⟩ h⟩, ⟨?_, ?_⟩⟩
      · rintro ⟨rfl, -⟩
        exact ⟨neg, m, hn, rfl, hr.1, hr.2⟩
      · rintro ⟨neg', m', hn', rfl, -⟩
        obtain ⟨rfl, rfl⟩ := gives_unique hn hn'
        exact ⟨rfl, rfl⟩
      · rintro ⟨w, -, h⟩; cases h
      · rintro ⟨w, -, h⟩; cases h
      · rintro ⟨neg', m', hn', h⟩
        obtain ⟨rfl, rfl⟩ := gives_unique hn hn'
        exact absurd hr h
    · rw [if_neg (fun h => hr ⟨h.1, h.2.1⟩)] at h3
      cases h3
      refine ⟨fun v => ⟨?_, ?_⟩, ⟨?_, fun h => absurd ⟨neg, m, hn⟩ h⟩, ⟨fun _ => ⟨neg, m, hn, hr⟩, fun _ => ⟨_, rfl, rfl⟩⟩⟩
      · rintro ⟨-, h⟩; cases h
      · rintro ⟨neg', m', hn', rfl, h⟩
        obtain ⟨rfl, rfl⟩ := gives_unique hn hn'
        exact absurd h hr
      · rintro ⟨w, -, h⟩; cases h
  · have h3 := h2 hn
    subst h3
    refine ⟨fun v => ⟨?_, ?_⟩, ⟨fun _ => hn, fun _ => ⟨_, rfl, rfl⟩⟩, ⟨?_, ?_⟩⟩
    · rintro ⟨-, h⟩; cases h
    · rintro ⟨neg', m', hn', -⟩; exact absurd ⟨neg', m', hn'⟩ hn
    · rintro ⟨w, -, h⟩; cases h
    · rintro ⟨neg', m', hn', -⟩; exact absurd ⟨neg', m', hn'⟩ hn

/-- An unsigned number that is in a range. -/
def InRange (bits : Nat) (min max : Int) (neg : Bool) (m : Nat) : Prop :=
  m < 2 ^ 64 ∧ min ≤ (umaxVal neg m : Int) ∧ (umaxVal neg m : Int) ≤ max ∧ (umaxVal neg m : Int) < 2 ^ bits

theorem one_lt_two_pow {bits : Nat} (hb : 1 ≤ bits) : (1 : Int) < 2 ^ bits := by
  have : (2 : Int) ^ 1 ≤ 2 ^ bits := by exact_mod_cast Nat.pow_le_pow_right (by decide) hb
  omega

/-- **C93, unsigned variables.**  As for signed ones, except (finding F4) that a minus sign is not an error: the number is negated modulo 2^64. -/
theorem C93_unsigned (sd : Strtod) (bits : Nat) (hb : 1 ≤ bits) (min max : Int) (hmax : max < 2 ^ 64) (base : Nat) (_hbase : GoodBase base)
    (tr : Bool) (s : CStr) :
    (∀ v : Int, PARSENUM_EX6 sd (.int ⟨false, bits⟩) s (.int min) (.int max) base tr = .ok (.int v none) ↔
      ∃ neg m, Gives base tr s neg m ∧ v = (umaxVal neg m : Int) ∧ InRange bits min max neg m) ∧
    ((∃ w, PARSENUM_EX6 sd (.int ⟨false, bits⟩) s (.int min) (.int max) base tr = .ok (.int w (some .EINVAL))) ↔ ¬ ∃ neg m, Gives base tr s neg m) ∧
    ((∃ w, PARSENUM_EX6 sd (.int ⟨false, bits⟩) s (.int min) (.int max) base tr = .ok (.int w (some .ERANGE))) ↔
      ∃ neg m, Gives base tr s neg m ∧ ¬ InRange bits min max neg m) := by
  obtain ⟨h1, h2⟩ := parsenum_unsigned_gives s (if min ≤ 0 then 0 else min.toNat) (max % 2 ^ 64).toNat ((2 : Int) ^ bits - 1).toNat base tr
  have hp := one_lt_two_pow hb
  have he : PARSENUM_EX6 sd (.int ⟨false, bits⟩) s (.int min) (.int max) base tr = .ok (.int
      (IntTy.conv ⟨false, bits⟩ (parsenum_unsigned s (if min ≤ 0 then 0 else min.toNat) (max % 2 ^ 64).toNat ((2 : Int) ^ bits - 1).toNat base tr).1)
      (if max < 0 ∧ (parsenum_unsigned s (if min ≤ 0 then 0 else min.toNat) (max % 2 ^ 64).toNat ((2 : Int) ^ bits - 1).toNat base tr).2 = none
        then some .ERANGE
        else (parsenum_unsigned s (if min ≤ 0 then 0 else min.toNat) (max % 2 ^ 64).toNat ((2 : Int) ^ bits - 1).toNat base tr).2)) := by
    unfold PARSENUM_EX6 PARSENUM_EX6_int
    dsimp only
    rw [conv_neg_one_unsigned]
    rw [if_neg (by omega)]
    generalize parsenum_unsigned s (if min ≤ 0 then 0 else min.toNat) (max % 2 ^ 64).toNat ((2 : Int) ^ bits - 1).toNat base tr = pu
    obtain ⟨a, b⟩ := pu
    dsimp only
    by_cases hm : max ≤ 2 ^ 63 - 1
    · rw [if_pos hm]
    · rw [if_neg hm, if_neg (by omega)]
  rw [he]
  generalize parsenum_unsigned s (if min ≤ 0 then 0 else min.toNat) (max % 2 ^ 64).toNat ((2 : Int) ^ bits - 1).toNat base tr = pu at *
  obtain ⟨a, e⟩ := pu
  simp only [Res.ok.injEq, NumOut.int.injEq] at *
  by_cases hn : ∃ neg m, Gives base tr s neg m
  · obtain ⟨neg, m, hn⟩ := hn
    have h3 := h1 neg m hn
    change _ = if m ≤ 2 ^ 64 - 1 ∧ _ ≤ umaxVal neg m ∧ umaxVal neg m ≤ _ ∧ umaxVal neg m ≤ _ then (umaxVal neg m, none) else _ at h3
    by_cases hr : InRange bits min max neg m
    · have hr' := hr
      obtain ⟨r1, r2, r3, r4⟩ := hr'
      have hmx : max % 2 ^ 64 = max := Int.emod_eq_of_lt (by omega) hmax
      rw [if_pos ⟨by omega, by split <;> omega, by rw [hmx]; omega, by omega⟩] at h3
      cases h3
      rw [if_neg (by omega), conv_unsigned (by omega) r4]
      refine ⟨fun v => ⟨?_, ?_⟩, ⟨?_, fun h => absurd ⟨neg, m, hn⟩ h⟩, ⟨?_, ?_⟩⟩
      · rintro ⟨rfl, -⟩
        exact ⟨neg, m, hn, rfl, hr⟩
      · rintro ⟨neg', m', hn', rfl, -⟩
        obtain ⟨rfl, rfl⟩ := gives_unique hn hn'
        exact ⟨rfl, rfl⟩
      · rintro ⟨w, -, h⟩; cases h
      · rintro ⟨w, -, h⟩; cases h
      · rintro ⟨neg', m', hn', h⟩
        obtain ⟨rfl, rfl⟩ := gives_unique hn hn'
        exact absurd hr h
    · have hlast : (if max < 0 ∧ e = none then some PnErrno.ERANGE else e) = some .ERANGE := by
        by_cases hc : max < 0 ∧ e = none
        · rw [if_pos hc]
        · rw [if_neg hc]
          by_cases hz : m ≤ 2 ^ 64 - 1 ∧ (if min ≤ 0 then 0 else min.toNat) ≤ umaxVal neg m ∧ umaxVal neg m ≤ (max % 2 ^ 64).toNat ∧
              umaxVal neg m ≤ ((2 : Int) ^ bits - 1).toNat
          · rw [if_pos hz] at h3
            cases h3
            simp only [and_true] at hc
            have hmx : max % 2 ^ 64 = max := Int.emod_eq_of_lt (by omega) hmax
            rw [hmx] at hz
            refine absurd ⟨by omega, ?_, by omega, by omega⟩ hr
            have := hz.2.1
            split at this <;> omega
          · rw [if_neg hz] at h3
            exact (Prod.mk.inj h3).2
      rw [hlast]
      refine ⟨fun v => ⟨?_, ?_⟩, ⟨?_, fun h => absurd ⟨neg, m, hn⟩ h⟩, ⟨fun _ => ⟨neg, m, hn, hr⟩, fun _ => ⟨_, rfl, rfl⟩⟩⟩
      · rintro ⟨-, h⟩; cases h
      · rintro ⟨neg', m', hn', rfl, h⟩
        obtain ⟨rfl, rfl⟩ := gives_unique hn hn'
        exact absurd h hr
      · rintro ⟨w, -, h⟩; cases h
  · have h3 := h2 hn
    subst h3
    rw [if_neg (by rintro ⟨-, h⟩; cases h)]
    refine ⟨fun v => ⟨?_, ?_⟩, ⟨fun _ => hn, fun _ => ⟨_, rfl, rfl⟩⟩, ⟨?_, ?_⟩⟩
    · rintro ⟨-, h⟩; cases h
    · rintro ⟨neg', m', hn', -⟩; exact absurd ⟨neg', m', hn'⟩ hn
    · rintro ⟨w, -, h⟩; cases h
    · rintro ⟨neg', m', hn', -⟩; exact absurd ⟨neg', m', hn'⟩ hn

/-- **C93, no bounds.**  For an unsigned variable the bounds are those of its type. -/
theorem C93_no_bounds (sd : Strtod) (bits : Nat) (hb : 1 ≤ bits) (hb' : bits ≤ 64) (base : Nat) (hbase : GoodBase base) (tr : Bool) (s : CStr) :
    PARSENUM_EX4 sd (.int ⟨false, bits⟩) s base tr = PARSENUM_EX6 sd (.int ⟨false, bits⟩) s (.int 0) (.int (2 ^ bits - 1)) base tr ∧
    (∀ v : Int, PARSENUM_EX4 sd (.int ⟨false, bits⟩) s base tr = .ok (.int v none) ↔
      ∃ neg m, Gives base tr s neg m ∧ m < 2 ^ 64 ∧ v = (umaxVal neg m : Int) ∧ v < 2 ^ bits) := by
  have hp := one_lt_two_pow hb
  have h64 : (2 : Int) ^ bits ≤ 2 ^ 64 := by exact_mod_cast Nat.pow_le_pow_right (by decide) hb'
  have he : PARSENUM_EX4 sd (.int ⟨false, bits⟩) s base tr = PARSENUM_EX6 sd (.int ⟨false, bits⟩) s (.int 0) (.int (2 ^ bits - 1)) base tr := by
    unfold PARSENUM_EX4 PARSENUM_EX6 PARSENUM_EX6_int
    dsimp only
    rw [conv_neg_one_unsigned]
    have hmx : ((2 : Int) ^ bits - 1) % 2 ^ 64 = 2 ^ bits - 1 := Int.emod_eq_of_lt (by omega) (by omega)
    rw [if_pos (by omega), if_neg (by omega), hmx, if_pos (Int.le_refl 0)]
    generalize parsenum_unsigned s 0 ((2 : Int) ^ bits - 1).toNat ((2 : Int) ^ bits - 1).toNat base tr = pu
    obtain ⟨a, e⟩ := pu
    dsimp only
    rw [if_neg (show ¬ ((2 : Int) ^ bits - 1 < 0 ∧ e = none) by omega), ite_self]
  refine ⟨he, fun v => ?_⟩
  rw [he, (C93_unsigned sd bits hb 0 (2 ^ bits - 1) (by omega) base hbase tr s).1 v]
  constructor
  · rintro ⟨neg, m, h1, rfl, h2, h3, h4, h5⟩
    exact ⟨neg, m, h1, h2, rfl, h5⟩
  · rintro ⟨neg, m, h1, h2, rfl, h3⟩
    exact ⟨neg, m, h1, rfl, h2, by omega, by omega, h3⟩

/-- **C93, no bounds.**  Without bounds, a double takes every text that denotes a number without overflow or underflow, an infinity or a NaN;
a number that overflows is refused with ERANGE and everything else with EINVAL. -/
theorem C93_no_bounds_double (sd : Strtod) (hsd : GoodStrtod sd) (s : CStr) :
    (∀ neg q, FloatDenotes s (.num neg q) → (q = 0 ∨ ((2 : ℚ) ^ (-1022 : ℤ) ≤ q ∧ F64.roundMag q < (2 : ℚ) ^ (1024 : ℕ))) →
      PARSENUM2 sd .dbl s = .ok (.dbl (F64.round neg q) none)) ∧
    (∀ neg q, FloatDenotes s (.num neg q) → (2 : ℚ) ^ (1024 : ℕ) ≤ F64.roundMag q → PARSENUM2 sd .dbl s = .ok (.dbl (.inf neg) (some .ERANGE))) ∧
    (∀ neg, FloatDenotes s (.inf neg) → PARSENUM2 sd .dbl s = .ok (.dbl (.inf neg) none)) ∧
    (FloatDenotes s .nan → PARSENUM2 sd .dbl s = .ok (.dbl .nan none)) ∧
    ((∃ w, PARSENUM2 sd .dbl s = .ok (.dbl w (some .EINVAL))) ↔ ∀ v, ¬ FloatDenotes s v) := by
  have hb : ∀ v : F64, ¬ (F64.lt v (.inf true) = true ∨ F64.lt (.inf false) v = true) := by
    intro v
    cases v with
    | nan => simp [F64.lt]
    | inf a => cases a <;> simp [F64.lt]
    | fin a x => simp [F64.lt]
  have hstep : ∀ v e, s ≠ [] → sd s = (v, s.length, e) → PARSENUM2 sd .dbl s = .ok (.dbl v (if e then some .ERANGE else none)) := by
    intro v e hne h
    unfold PARSENUM2 PARSENUM_EX4 parsenum_float
    rw [h]
    simp only [if_true]
    rw [if_neg (by have := List.length_pos_iff.2 hne; omega), if_neg (hb v)]
  refine ⟨fun neg q hs hq => ?_, fun neg q hs hq => ?_, fun neg hs => ?_, fun hs => ?_, ?_⟩
  · obtain ⟨e, h1, -, h3⟩ := hsd.num s neg q hs
    rw [hstep _ _ (floatDenotes_nonempty hs) h1, h3 hq]
    rfl
  · obtain ⟨e, h1, h2, -⟩ := hsd.num s neg q hs
    rw [hstep _ _ (floatDenotes_nonempty hs) h1, h2 hq]
    unfold F64.round
    rw [if_pos hq]
    rfl
  · rw [hstep _ _ (floatDenotes_nonempty hs) (hsd.inf s neg hs)]
    rfl
  · rw [hstep _ _ (floatDenotes_nonempty hs) (hsd.nan s hs)]
    rfl
  · constructor
    · rintro ⟨w, h⟩ v hv
      have hne := floatDenotes_nonempty hv
      have : ∃ x e, sd s = (x, s.length, e) := by
        cases v with
        | num neg q => obtain ⟨e, h1, -⟩ := hsd.num s neg q hv; exact ⟨_, e, h1⟩
        | inf neg => exact ⟨_, _, hsd.inf s neg hv⟩
        | nan => exact ⟨_, _, hsd.nan s hv⟩
      obtain ⟨x, e, h1⟩ := this
      rw [hstep _ _ hne h1] at h
      cases e <;> cases h
    · intro h
      have := hsd.other s h
      unfold PARSENUM2 PARSENUM_EX4 parsenum_float
      simp only [if_true]
      rw [if_pos (by rcases this with h | h
                     · exact .inl h
                     · exact .inr ⟨trivial, h⟩)]
      exact ⟨_, rfl⟩

/-- **C93, misuse.**  A signed variable without bounds, and a double with a base, stop the program. -/
theorem C93_misuse (sd : Strtod) (s : CStr) (tr : Bool) :
    (∀ bits base, 1 ≤ bits → PARSENUM_EX4 sd (.int ⟨true, bits⟩) s base tr = .abort) ∧
    (∀ base, base ≠ 0 → PARSENUM_EX4 sd .dbl s base tr = .abort ∧ ∀ min max, PARSENUM_EX6 sd .dbl s min max base tr = .abort) := by
  refine ⟨fun bits base hb => ?_, fun base h => ⟨?_, fun min max => ?_⟩⟩
  · unfold PARSENUM_EX4
    simp only [minus_one_signed hb]
    rw [if_neg (by decide)]
  · unfold PARSENUM_EX4
    simp only [h, if_false]
  · unfold PARSENUM_EX6
    simp only [h, if_false]

/-- **C93, doubles.**  Whatever strtod does: an accepted value is within the bounds, came from at least one character without a range error, and,
unless characters may follow, from the whole text. -/
theorem C93_double (sd : Strtod) (s : CStr) (min max : NumArg) (v : F64) (tr : Bool) (h : PARSENUM_EX6 sd .dbl s min max 0 tr = .ok (.dbl v none)) :
    F64.lt v min.toF64 = false ∧ F64.lt max.toF64 v = false ∧ ∃ n, sd s = (v, n, false) ∧ n ≠ 0 ∧ (tr = false → n = s.length) := by
  unfold PARSENUM_EX6 parsenum_float at h
  rcases hsd : sd s with ⟨val, n, er⟩
  rw [hsd] at h
  simp only [if_true] at h
  by_cases h1 : n = 0 ∨ (tr = false ∧ n ≠ s.length)
  · rw [if_pos h1] at h; cases h
  · rw [if_neg h1] at h
    by_cases h2 : F64.lt val min.toF64 = true ∨ F64.lt max.toF64 val = true
    · rw [if_pos h2] at h; cases h
    · rw [if_neg h2] at h
      cases er with
      | true => cases h
      | false =>
        cases h
        rw [not_or] at h1 h2
        exact ⟨by simpa using h2.1, by simpa using h2.2, n, rfl, h1.1, fun ht => by_contra fun hn => h1.2 ⟨ht, hn⟩⟩

/-- PARSENUM with bounds, as used by the option parser (C31), is the general form in base 0 with nothing after the number. -/
theorem C93_option_form (sd : Strtod) (t : IntTy) (s : CStr) (min max : Int) (v : Int) (fmin fmax : NumArg) (f : F64) :
    (PARSENUM_int t s min max = .ok v ↔ PARSENUM4 sd (.int t) s (.int min) (.int max) = .ok (.int v none)) ∧
    (PARSENUM_flt sd s fmin.toF64 fmax.toF64 = .ok f ↔ PARSENUM4 sd .dbl s fmin fmax = .ok (.dbl f none)) := by
  constructor
  · unfold PARSENUM_int PARSENUM4 PARSENUM_EX6
    dsimp only
    generalize PARSENUM_EX6_int t s min max 0 false = p
    obtain ⟨a, e⟩ := p
    cases e <;> simp
  · unfold PARSENUM_flt PARSENUM4 PARSENUM_EX6
    simp only [if_true]
    generalize parsenum_float sd s fmin.toF64 fmax.toF64 false = p
    obtain ⟨a, e⟩ := p
    cases e <;> simp

/-- Numbers in several bases, with and without characters after them. -/
example (sd : Strtod) :
    PARSENUM_EX6 sd (.int tyU32) "ff".toList (.int 0) (.int 1000) 16 false = .ok (.int 255 none) ∧
    PARSENUM_EX6 sd (.int tyInt) "-zz;".toList (.int (-2000)) (.int 0) 36 true = .ok (.int (-1295) none) ∧
    PARSENUM_EX6 sd (.int tyInt) "0xg".toList (.int 0) (.int 9) 16 true = .ok (.int 0 none) ∧
    PARSENUM_EX6 sd (.int tyInt) "089".toList (.int 0) (.int 9) 0 true = .ok (.int 0 none) ∧
    PARSENUM_EX6 sd (.int tyInt) "089".toList (.int 0) (.int 9) 0 false = .ok (.int 0 (some .EINVAL)) ∧
    PARSENUM_EX6 sd (.int tyInt) "12".toList (.int 0) (.int 9) 10 true = .ok (.int 0 (some .ERANGE)) ∧
    PARSENUM_EX4 sd (.int ⟨false, 8⟩) "255".toList 10 false = .ok (.int 255 none) ∧
    PARSENUM_EX4 sd (.int ⟨false, 8⟩) "256".toList 10 false = .ok (.int 0 (some .ERANGE)) ∧
    PARSENUM2 sd (.int ⟨false, 64⟩) "-1".toList = .ok (.int 18446744073709551615 none) := by
  refine ⟨?_, ?_, ?_, ?_, ?_, ?_, ?_, ?_, ?_⟩ <;> rfl

/-- The integer bound 0 of `-m` and `-t` (main.c:279, 303) as a double, and 1. -/
example : (NumArg.int 0).toF64 = .fin false 0 ∧ (NumArg.int 1).toF64 = .fin false 1 := by
  refine ⟨?_, ?_⟩ <;> decide +kernel

/-- What "0xg" gives in base 16 if characters may follow: the number 0. -/
example : LongestNumeral 16 "0xg".toList false 0 1 := (strtoScan_longest 16 _ false 0 1).1 (by decide +kernel)

end Scrypt.Props
