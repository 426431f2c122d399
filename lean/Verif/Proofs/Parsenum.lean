import Verif.Model.Parsenum
import Mathlib.Tactic.Common
/-
strtoimax / strtoumax and PARSENUM on integers.
-/
namespace Scrypt
open Spec

theorem digit_not_sign {r : Nat} {c : Char} (h : isDigitIn r c = true) : isSpace c = false ∧ c ≠ '-' ∧ c ≠ '+' := by
  refine ⟨?_, ?_, ?_⟩
  · cases hs : isSpace c with
    | false => rfl
    | true =>
      exfalso
      have hn : digitVal c = none := by
        unfold isSpace at hs
        simp only [List.mem_cons, List.not_mem_nil, or_false, decide_eq_true_eq] at hs
        rcases hs with rfl | rfl | rfl | rfl | rfl | rfl <;> decide
      unfold isDigitIn at h
      rw [hn] at h
      cases h
  · rintro rfl
    have : digitVal '-' = none := by decide
    unfold isDigitIn at h
    rw [this] at h
    cases h
  · rintro rfl
    have : digitVal '+' = none := by decide
    unfold isDigitIn at h
    rw [this] at h
    cases h

theorem dropWhile_spaces {ws t : CStr} (h : ∀ c ∈ ws, isSpace c = true) (ht : t = [] ∨ ∃ c r, t = c :: r ∧ isSpace c = false) :
    (ws ++ t).dropWhile isSpace = t := by
  induction ws with
  | nil =>
    rcases ht with rfl | ⟨c, r, rfl, hc⟩
    · rfl
    · rw [List.nil_append, List.dropWhile_cons, if_neg (by rw [hc]; decide)]
  | cons a ws ih =>
    rw [List.cons_append, List.dropWhile_cons, if_pos (h a List.mem_cons_self)]
    exact ih fun c hc => h c (List.mem_cons_of_mem _ hc)

theorem takeWhile_all {p : Char → Bool} : ∀ {l : CStr}, (∀ c ∈ l, p c = true) → l.takeWhile p = l
  | [], _ => rfl
  | a :: l, h => by
    rw [List.takeWhile_cons, if_pos (h a List.mem_cons_self), takeWhile_all fun x hx => h x (List.mem_cons_of_mem _ hx)]

theorem takeWhile_mem {p : Char → Bool} {x : Char} : ∀ {l : CStr}, x ∈ l.takeWhile p → p x = true
  | [], h => by cases h
  | a :: l, h => by
    rw [List.takeWhile_cons] at h
    split at h
    · rename_i ha
      rcases List.mem_cons.1 h with rfl | h
      · exact ha
      · exact takeWhile_mem h
    · cases h

theorem digitScan_full {radix : Nat} {s : CStr} {m : Nat} : digitScan radix s = some (m, 0) ↔ s ≠ [] ∧ (∀ c ∈ s, isDigitIn radix c = true) ∧ m = numVal radix s := by
  unfold digitScan
  have hs := List.takeWhile_append_dropWhile (p := isDigitIn radix) (l := s)
  constructor
  · intro h
    split at h
    · cases h
    · rename_i hne
      simp only [Option.some.injEq, Prod.mk.injEq] at h
      rw [List.length_eq_zero_iff.1 h.2, List.append_nil] at hs
      rw [hs] at h hne
      exact ⟨hne, fun c hc => takeWhile_mem (l := s) (by rw [hs]; exact hc), h.1.symm⟩
  · rintro ⟨h1, h2, rfl⟩
    rw [takeWhile_all h2, if_neg h1]
    have hd : s.dropWhile (isDigitIn radix) = [] := by
      rw [takeWhile_all h2] at hs
      exact List.append_right_eq_self.1 hs
    rw [hd]; rfl

theorem digitScan_rest {radix : Nat} {s : CStr} {v : Nat × Nat} (h : digitScan radix s = some v) : v.2 < s.length := by
  unfold digitScan at h
  split at h
  · cases h
  · rename_i hne
    cases h
    have hs := congrArg List.length (List.takeWhile_append_dropWhile (p := isDigitIn radix) (l := s))
    rw [List.length_append] at hs
    have := List.length_pos_iff.2 hne
    simp only []
    omega

theorem body_head {base radix : Nat} {body ds : CStr} (h : Body base body radix ds) : ∃ c r r', body = c :: r ∧ isDigitIn r' c = true := by
  cases h with
  | hex => exact ⟨_, _, 8, rfl, by decide⟩
  | oct => exact ⟨_, _, 8, rfl, by decide⟩
  | dec _ _ h => exact ⟨_, _, 10, rfl, h _ List.mem_cons_self⟩
  | fixed _ h1 h2 =>
    cases body with
    | nil => exact absurd rfl h1
    | cons a l => exact ⟨_, _, base, rfl, h2 _ List.mem_cons_self⟩

theorem hexPrefix_iff (base : Nat) (s : CStr) : hexPrefix base s = true ↔
    (base = 0 ∨ base = 16) ∧ ∃ x d r, s = '0' :: x :: d :: r ∧ (x = 'x' ∨ x = 'X') ∧ isDigitIn 16 d = true := by
  unfold hexPrefix
  split
  · rename_i z x d r
    simp only [Bool.and_eq_true, Bool.or_eq_true, beq_iff_eq]
    constructor
    · rintro ⟨⟨⟨h1, rfl⟩, h3⟩, h4⟩; exact ⟨h1, x, d, r, rfl, h3, h4⟩
    · rintro ⟨h1, x', d', r', h2, h3, h4⟩
      cases h2
      exact ⟨⟨⟨h1, rfl⟩, h3⟩, h4⟩
  · rename_i hn
    constructor
    · intro h; cases h
    · rintro ⟨-, x, d, r, rfl, -⟩
      exact absurd rfl (hn _ _ _ _)

/-- Everything is read exactly if the text is a number. -/
theorem bodyScan_full (base : Nat) (s2 : CStr) (mag : Nat) :
    bodyScan base s2 = some (mag, 0) ↔ ∃ radix ds, Body base s2 radix ds ∧ mag = numVal radix ds := by
  unfold bodyScan
  constructor
  · intro h
    split at h
    · rename_i hh
      obtain ⟨hb, x, d, r, rfl, hx, -⟩ := (hexPrefix_iff base s2).1 hh
      obtain ⟨h1, h2, h3⟩ := digitScan_full.1 h
      exact ⟨16, _, .hex hb hx h1 h2, h3⟩
    · obtain ⟨h1, h2, h3⟩ := digitScan_full.1 h
      unfold radixOf at h2 h3
      by_cases hb : base = 0
      · rw [if_pos hb] at h2 h3
        cases s2 with
        | nil => exact absurd rfl h1
        | cons a ds =>
          by_cases h0 : a = '0'
          · subst h0
            rw [if_pos (show ('0' :: ds).head? = some '0' from rfl)] at h2 h3
            exact ⟨8, _, .oct hb (fun c hc => h2 c (List.mem_cons_of_mem _ hc)), h3⟩
          · rw [if_neg (by simpa using h0)] at h2 h3
            exact ⟨10, _, .dec hb h0 h2, h3⟩
      · rw [if_neg hb] at h2 h3
        exact ⟨base, _, .fixed hb h1 h2, h3⟩
  · rintro ⟨radix, ds, h, rfl⟩
    cases h with
    | @hex x ds hb hx hne hd =>
      have hh : hexPrefix base ('0' :: x :: ds) = true := by
        cases ds with
        | nil => exact absurd rfl hne
        | cons d ds => exact (hexPrefix_iff _ _).2 ⟨hb, x, d, ds, rfl, hx, hd d List.mem_cons_self⟩
      rw [if_pos hh]
      exact digitScan_full.2 ⟨hne, hd, rfl⟩
    | @oct ds hb hd =>
      have hall : ∀ c ∈ '0' :: ds, isDigitIn 8 c = true := by
        intro c hc
        rcases List.mem_cons.1 hc with rfl | hc
        · decide
        · exact hd c hc
      rw [if_neg]
      · unfold radixOf
        rw [if_pos hb, if_pos (show ('0' :: ds).head? = some '0' from rfl)]
        exact digitScan_full.2 ⟨by simp, hall, rfl⟩
      · intro hh
        obtain ⟨-, x, d, r, h1, hx, -⟩ := (hexPrefix_iff _ _).1 hh
        cases h1
        have := hd x List.mem_cons_self
        rcases hx with rfl | rfl <;> exact absurd this (by decide)
    | @dec d ds hb h0 hd =>
      rw [if_neg]
      · unfold radixOf
        rw [if_pos hb, if_neg (by simpa using h0)]
        exact digitScan_full.2 ⟨by simp, hd, rfl⟩
      · intro hh
        obtain ⟨-, x, d, r, h1, -⟩ := (hexPrefix_iff _ _).1 hh
        cases h1
        exact h0 rfl
    | fixed hb hne hd =>
      rw [if_neg]
      · unfold radixOf
        rw [if_neg hb]
        exact digitScan_full.2 ⟨hne, hd, rfl⟩
      · intro hh
        obtain ⟨h16, x, d, r, h1, hx, -⟩ := (hexPrefix_iff _ _).1 hh
        have h16 : base = 16 := h16.resolve_left hb
        subst h16
        subst h1
        have := hd x (by simp)
        rcases hx with rfl | rfl <;> exact absurd this (by decide)

theorem bodyScan_rest {base : Nat} {s2 : CStr} {v : Nat × Nat} (h : bodyScan base s2 = some v) : v.2 < s2.length := by
  unfold bodyScan at h
  split at h
  · have := digitScan_rest h
    rw [List.length_drop] at this
    omega
  · exact digitScan_rest h

theorem afterSign_len (s : CStr) : (afterSign s).length ≤ s.length := by
  unfold afterSign
  have : (s.dropWhile isSpace).length ≤ s.length := (List.dropWhile_suffix _).length_le
  split
  · simp
  · rename_i c t h
    rw [h, List.length_cons] at this
    split
    · omega
    · rw [List.length_cons]; exact this

theorem afterSign_spec {ws sign body : CStr} {neg : Bool} (h : ∀ c ∈ ws, isSpace c = true)
    (hs : (sign = [] ∧ neg = false) ∨ (sign = ['+'] ∧ neg = false) ∨ (sign = ['-'] ∧ neg = true))
    (hb : ∃ c r r', body = c :: r ∧ isDigitIn r' c = true) :
    afterSign (ws ++ sign ++ body) = body ∧ minusSign (ws ++ sign ++ body) = neg := by
  obtain ⟨c, r, r', rfl, hc⟩ := hb
  obtain ⟨h1, h2, h3⟩ := digit_not_sign hc
  unfold afterSign minusSign
  rw [List.append_assoc]
  rcases hs with ⟨rfl, rfl⟩ | ⟨rfl, rfl⟩ | ⟨rfl, rfl⟩
  · rw [List.nil_append, dropWhile_spaces h (.inr ⟨c, r, rfl, h1⟩)]
    simp [h2, h3]
  · rw [List.singleton_append, dropWhile_spaces h (.inr ⟨'+', c :: r, rfl, by decide⟩)]
    simp
  · rw [List.singleton_append, dropWhile_spaces h (.inr ⟨'-', c :: r, rfl, by decide⟩)]
    simp

theorem afterSign_split (s : CStr) : ∃ sign, s = s.takeWhile isSpace ++ sign ++ afterSign s ∧
    ((sign = [] ∧ minusSign s = false) ∨ (sign = ['+'] ∧ minusSign s = false) ∨ (sign = ['-'] ∧ minusSign s = true)) := by
  have hs : s.takeWhile isSpace ++ s.dropWhile isSpace = s := List.takeWhile_append_dropWhile
  unfold afterSign minusSign
  generalize s.dropWhile isSpace = u at *
  generalize s.takeWhile isSpace = w at *
  cases u with
  | nil => exact ⟨[], by simpa using hs.symm, .inl ⟨rfl, rfl⟩⟩
  | cons c t =>
    simp only []
    by_cases hm : c = '-'
    · subst hm
      exact ⟨['-'], by simpa using hs.symm, .inr (.inr ⟨rfl, by simp⟩)⟩
    · by_cases hp : c = '+'
      · subst hp
        exact ⟨['+'], by simpa using hs.symm, .inr (.inl ⟨rfl, by simp⟩)⟩
      · rw [if_neg (by rintro (h | h) <;> contradiction)]
        exact ⟨[], by simpa using hs.symm, .inl ⟨rfl, by simpa using hm⟩⟩

/-- strtoimax/strtoumax convert the whole string exactly if it is a numeral. -/
theorem strtoScan_full (base : Nat) (s : CStr) (neg : Bool) (mag : Nat) :
    strtoScan base s = some (neg, mag, s.length) ↔ Numeral base s neg mag := by
  unfold strtoScan
  constructor
  · intro h
    cases hb : bodyScan base (afterSign s) with
    | none => rw [hb] at h; cases h
    | some v =>
      rw [hb, Option.map_some, Option.some.injEq, Prod.mk.injEq, Prod.mk.injEq] at h
      obtain ⟨hn, hm, hl⟩ := h
      have hr := bodyScan_rest hb
      have hl2 := afterSign_len s
      have h0 : v.2 = 0 := by omega
      have hv : v = (mag, 0) := Prod.ext hm h0
      rw [hv] at hb
      obtain ⟨radix, ds, k1, k2⟩ := (bodyScan_full base _ mag).1 hb
      obtain ⟨sign, m1, m2⟩ := afterSign_split s
      rw [hn] at m2
      exact ⟨s.takeWhile isSpace, sign, afterSign s, radix, ds, m1, fun c hc => takeWhile_mem hc, m2, k1, k2⟩
  · rintro ⟨ws, sign, body, radix, ds, rfl, h2, h3, h4, rfl⟩
    obtain ⟨a1, a2⟩ := afterSign_spec h2 h3 (body_head h4)
    rw [a1, a2, (bodyScan_full base body _).2 ⟨radix, ds, h4, rfl⟩]
    rfl

theorem strtoScan_pos {base : Nat} {s : CStr} {v : Bool × Nat × Nat} (h : strtoScan base s = some v) : 0 < v.2.2 := by
  unfold strtoScan at h
  cases hb : bodyScan base (afterSign s) with
  | none => rw [hb] at h; cases h
  | some w =>
    rw [hb] at h
    cases h
    have := bodyScan_rest hb
    have := afterSign_len s
    simp only []
    omega

/-- A string writes at most one number. -/
theorem numeral_unique {base : Nat} {s : CStr} {neg neg' : Bool} {m m' : Nat} (h : Numeral base s neg m) (h' : Numeral base s neg' m') :
    neg = neg' ∧ m = m' := by
  rw [← strtoScan_full] at h h'
  rw [h] at h'
  cases h'
  exact ⟨rfl, rfl⟩

/-- No numeral: nothing was converted, or something follows. -/
theorem not_numeral {base : Nat} {s : CStr} (h : ¬ ∃ neg m, Numeral base s neg m) :
    strtoScan base s = none ∨ ∃ neg m n, strtoScan base s = some (neg, m, n) ∧ n ≠ s.length := by
  cases hs : strtoScan base s with
  | none => exact .inl rfl
  | some v =>
    obtain ⟨neg, m, n⟩ := v
    refine .inr ⟨neg, m, n, rfl, ?_⟩
    rintro rfl
    exact h ⟨neg, m, (strtoScan_full base s neg m).1 hs⟩

theorem parsenum_signed_spec (s : CStr) (min max : Int) (base : Nat) :
    (∀ neg m, Numeral base s neg m →
      parsenum_signed s min max base false =
        if min ≤ (if neg then -(m : Int) else m) ∧ (if neg then -(m : Int) else m) ≤ max ∧ -2 ^ 63 ≤ (if neg then -(m : Int) else m) ∧
          (if neg then -(m : Int) else m) ≤ 2 ^ 63 - 1 then ((if neg then -(m : Int) else m), none)
        else ((parsenum_signed s min max base false).1, some .ERANGE)) ∧
    ((¬ ∃ neg m, Numeral base s neg m) → (parsenum_signed s min max base false).2 = some .EINVAL) := by
  constructor
  · intro neg m h
    have hs := (strtoScan_full base s neg m).2 h
    have hp := strtoScan_pos hs
    simp only [] at hp
    unfold parsenum_signed strtoimax
    rw [hs]
    simp only []
    cases neg with
    | true =>
      simp only [if_true]
      by_cases hm : m > 2 ^ 63
      · rw [if_pos hm]
        simp only []
        rw [if_neg (by omega), if_neg (show ¬ (min ≤ -(m : Int) ∧ -(m : Int) ≤ max ∧ -2 ^ 63 ≤ -(m : Int) ∧ -(m : Int) ≤ 2 ^ 63 - 1) by omega)]
        split <;> rfl
      · rw [if_neg hm]
        simp only []
        rw [if_neg (by omega)]
        by_cases hr : min ≤ -(m : Int) ∧ -(m : Int) ≤ max
        · rw [if_neg (by omega), if_pos (by omega)]
        · rw [if_pos (show -(m : Int) < min ∨ -(m : Int) > max by omega), if_neg (by omega)]
    | false =>
      simp only [Bool.false_eq_true, if_false]
      by_cases hm : m > 2 ^ 63 - 1
      · rw [if_pos hm]
        simp only []
        rw [if_neg (by omega), if_neg (show ¬ (min ≤ (m : Int) ∧ (m : Int) ≤ max ∧ -2 ^ 63 ≤ (m : Int) ∧ (m : Int) ≤ 2 ^ 63 - 1) by omega)]
        split <;> rfl
      · rw [if_neg hm]
        simp only []
        rw [if_neg (by omega)]
        by_cases hr : min ≤ (m : Int) ∧ (m : Int) ≤ max
        · rw [if_neg (by omega), if_pos (by omega)]
        · rw [if_pos (show (m : Int) < min ∨ (m : Int) > max by omega), if_neg (by omega)]
  · intro h
    unfold parsenum_signed strtoimax
    rcases not_numeral h with hs | ⟨neg, m, n, hs, hn⟩
    · rw [hs]; simp
    · rw [hs]
      simp only []
      cases neg
      · simp only [Bool.false_eq_true, if_false]
        split <;> simp [hn]
      · simp only [if_true]
        split <;> simp [hn]

theorem parsenum_unsigned_spec (s : CStr) (min max typemax : Nat) (base : Nat) :
    (∀ neg m, Numeral base s neg m →
      parsenum_unsigned s min max typemax base false =
        if m ≤ 2 ^ 64 - 1 ∧ min ≤ (if neg then (2 ^ 64 - m) % 2 ^ 64 else m) ∧ (if neg then (2 ^ 64 - m) % 2 ^ 64 else m) ≤ max ∧
          (if neg then (2 ^ 64 - m) % 2 ^ 64 else m) ≤ typemax then ((if neg then (2 ^ 64 - m) % 2 ^ 64 else m), none)
        else ((parsenum_unsigned s min max typemax base false).1, some .ERANGE)) ∧
    ((¬ ∃ neg m, Numeral base s neg m) → (parsenum_unsigned s min max typemax base false).2 = some .EINVAL) := by
  constructor
  · intro neg m h
    have hs := (strtoScan_full base s neg m).2 h
    have hp := strtoScan_pos hs
    simp only [] at hp
    unfold parsenum_unsigned strtoumax
    rw [hs]
    simp only []
    generalize hv : (if neg then (2 ^ 64 - m) % 2 ^ 64 else m) = v
    by_cases hm : m > 2 ^ 64 - 1
    · rw [if_pos hm]
      simp only []
      rw [if_neg (by omega), if_neg (show ¬ (m ≤ 2 ^ 64 - 1 ∧ min ≤ v ∧ v ≤ max ∧ v ≤ typemax) by omega)]
      split <;> rfl
    · rw [if_neg hm]
      simp only []
      rw [if_neg (by omega)]
      by_cases hr : min ≤ v ∧ v ≤ max ∧ v ≤ typemax
      · rw [if_neg (by omega), if_pos (by omega)]
      · rw [if_pos (show v < min ∨ v > max ∨ v > typemax by omega), if_neg (by omega)]
  · intro h
    unfold parsenum_unsigned strtoumax
    rcases not_numeral h with hs | ⟨neg, m, n, hs, hn⟩
    · rw [hs]; simp
    · rw [hs]
      simp only []
      split <;> simp [hn]

end Scrypt
