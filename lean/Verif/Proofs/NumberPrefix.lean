import Verif.Spec.NumberPrefix
import Verif.Proofs.Parsenum
/-
strtoimax and strtoumax convert the longest initial part that is a number.
-/
namespace Scrypt
open Spec

theorem takeWhile_eq_take {p : Char → Bool} (s : CStr) : s.take (s.length - (s.dropWhile p).length) = s.takeWhile p := by
  have h := List.takeWhile_append_dropWhile (p := p) (l := s)
  have hl := congrArg List.length h
  rw [List.length_append] at hl
  conv_lhs => rw [← h]
  rw [List.take_left' (by rw [h]; omega)]

theorem digitScan_some {radix : Nat} {s : CStr} {m l : Nat} (h : digitScan radix s = some (m, l)) :
    s.takeWhile (isDigitIn radix) ≠ [] ∧ m = numVal radix (s.takeWhile (isDigitIn radix)) ∧ l = (s.dropWhile (isDigitIn radix)).length := by
  unfold digitScan at h
  split at h
  · cases h
  · rename_i hne
    cases h
    exact ⟨hne, rfl, rfl⟩

theorem digitScan_prefix {radix : Nat} {ds r : CStr} (h : ds ≠ []) (hd : ∀ c ∈ ds, isDigitIn radix c = true) :
    ∃ v, digitScan radix (ds ++ r) = some v ∧ v.2 ≤ r.length := by
  have hdrop : (ds ++ r).dropWhile (isDigitIn radix) = r.dropWhile (isDigitIn radix) := by
    rw [List.dropWhile_append_of_pos hd]
  have htake : (ds ++ r).takeWhile (isDigitIn radix) ≠ [] := by
    rw [List.takeWhile_append_of_pos hd]
    intro h0
    exact h (List.append_eq_nil_iff.1 h0).1
  unfold digitScan
  rw [if_neg htake, hdrop]
  exact ⟨_, rfl, (List.dropWhile_suffix _).length_le⟩

/-- What `bodyScan` reads is a number's body. -/
theorem bodyScan_body {base : Nat} {t : CStr} {m l : Nat} (h : bodyScan base t = some (m, l)) :
    l ≤ t.length ∧ ∃ radix ds, Body base (t.take (t.length - l)) radix ds ∧ m = numVal radix ds := by
  have hl := bodyScan_rest h
  refine ⟨Nat.le_of_lt hl, ?_⟩
  unfold bodyScan at h
  split at h
  · rename_i hh
    obtain ⟨hb, x, d, r, rfl, hx, hd⟩ := (hexPrefix_iff base t).1 hh
    obtain ⟨h1, h2, h3⟩ := digitScan_some h
    change List.takeWhile _ (d :: r) ≠ [] at h1
    change m = numVal 16 (List.takeWhile _ (d :: r)) at h2
    change l = (List.dropWhile _ (d :: r)).length at h3
    have ht : ('0' :: x :: d :: r).take (('0' :: x :: d :: r).length - l) = '0' :: x :: (d :: r).takeWhile (isDigitIn 16) := by
      rw [← takeWhile_eq_take, ← h3]
      have : l ≤ (d :: r).length := by rw [h3]; exact (List.dropWhile_suffix _).length_le
      have e : ('0' :: x :: d :: r).length - l = ((d :: r).length - l) + 1 + 1 := by
        simp only [List.length_cons] at *; omega
      rw [e, List.take_succ_cons, List.take_succ_cons]
    rw [ht]
    exact ⟨16, _, .hex hb hx h1 (fun c hc => takeWhile_mem hc), h2⟩
  · obtain ⟨h1, h2, h3⟩ := digitScan_some h
    rw [h3, takeWhile_eq_take]
    unfold radixOf at *
    by_cases hb : base = 0
    · subst hb
      rw [if_pos rfl] at *
      cases t with
      | nil => exact absurd rfl h1
      | cons c t =>
        by_cases hc : c = '0'
        · subst hc
          simp only [List.head?_cons, if_true] at *
          rw [List.takeWhile_cons, if_pos (by decide)] at *
          exact ⟨8, _, .oct rfl (fun c hc => takeWhile_mem hc), h2⟩
        · have hne : ¬ (c :: t).head? = some '0' := by simpa using hc
          rw [if_neg hne] at *
          have hd : isDigitIn 10 c = true := by
            cases hcd : isDigitIn 10 c with
            | true => rfl
            | false => rw [List.takeWhile_cons, hcd] at h1; exact absurd rfl h1
          rw [List.takeWhile_cons, if_pos hd] at *
          exact ⟨10, _, .dec rfl hc (fun e he => by
            rcases List.mem_cons.1 he with rfl | he
            · exact hd
            · exact takeWhile_mem he), h2⟩
    · rw [if_neg hb] at *
      exact ⟨base, _, .fixed hb h1 (fun c hc => takeWhile_mem hc), h2⟩

theorem hexPrefix_short {base : Nat} {t : CStr} (h : hexPrefix base t = true) : ∃ v, bodyScan base t = some v ∧ v.2 + 3 ≤ t.length := by
  unfold bodyScan
  rw [if_pos h]
  obtain ⟨-, x, d, r, rfl, -, hd⟩ := (hexPrefix_iff base t).1 h
  obtain ⟨v, h1, h2⟩ := digitScan_prefix (radix := 16) (ds := [d]) (r := r) (by simp) (by simpa using hd)
  exact ⟨v, h1, by simp only [List.length_cons]; omega⟩

/-- At least a number's body is read where there is one. -/
theorem bodyScan_prefix {base radix : Nat} {body ds : CStr} (r : CStr) (h : Body base body radix ds) :
    ∃ v, bodyScan base (body ++ r) = some v ∧ v.2 ≤ r.length := by
  cases h with
  | @hex x ds hb hx hne hd =>
    cases ds with
    | nil => exact absurd rfl hne
    | cons d t =>
      have hh : hexPrefix base ('0' :: x :: d :: t ++ r) = true :=
        (hexPrefix_iff _ _).2 ⟨hb, x, d, t ++ r, rfl, hx, hd d List.mem_cons_self⟩
      unfold bodyScan
      rw [if_pos hh]
      exact digitScan_prefix hne hd
  | @oct ds hb hd =>
    subst hb
    cases hh : hexPrefix 0 ('0' :: ds ++ r) with
    | true =>
      obtain ⟨-, x, d, u, e, hx, -⟩ := (hexPrefix_iff _ _).1 hh
      cases ds with
      | cons c t =>
        simp only [List.cons_append, List.cons.injEq, true_and] at e
        obtain ⟨rfl, -⟩ := e
        have := hd c List.mem_cons_self
        rcases hx with rfl | rfl <;> exact absurd this (by decide)
      | nil =>
        obtain ⟨v, h1, h2⟩ := hexPrefix_short hh
        refine ⟨v, h1, ?_⟩
        simp only [List.cons_append, List.nil_append, List.length_cons] at h2
        omega
    | false =>
      unfold bodyScan
      rw [if_neg (by rw [hh]; decide)]
      have hr : radixOf 0 ('0' :: ds ++ r) = 8 := rfl
      rw [hr]
      exact digitScan_prefix (by simp) (fun c hc => by
        rcases List.mem_cons.1 hc with rfl | hc
        · decide
        · exact hd c hc)
  | @dec d ds hb hne hd =>
    subst hb
    have hh : hexPrefix 0 (d :: ds ++ r) = false := by
      cases hh : hexPrefix 0 (d :: ds ++ r) with
      | false => rfl
      | true =>
        obtain ⟨-, x, e, u, h1, -⟩ := (hexPrefix_iff _ _).1 hh
        exact absurd (List.cons.inj h1).1 hne
    unfold bodyScan
    rw [if_neg (by rw [hh]; decide)]
    have hr : radixOf 0 (d :: ds ++ r) = 10 := by
      unfold radixOf
      rw [if_pos rfl, if_neg (by simpa using hne)]
    rw [hr]
    exact digitScan_prefix (by simp) hd
  | fixed hb hne hd =>
    cases hh : hexPrefix base (body ++ r) with
    | true =>
      obtain ⟨h16, x, d, u, e, hx, -⟩ := (hexPrefix_iff _ _).1 hh
      have h16 : base = 16 := by omega
      subst h16
      match body, hne, hd, e, hh with
      | a :: b :: t, _, hd, e, _ =>
        simp only [List.cons_append, List.cons.injEq] at e
        obtain ⟨-, rfl, -⟩ := e
        have := hd b (by simp)
        rcases hx with rfl | rfl <;> exact absurd this (by decide)
      | [a], _, _, _, hh =>
        obtain ⟨v, h1, h2⟩ := hexPrefix_short hh
        refine ⟨v, h1, ?_⟩
        simp only [List.cons_append, List.nil_append, List.length_cons] at h2
        omega
    | false =>
      unfold bodyScan
      rw [if_neg (by rw [hh]; decide)]
      have hr : radixOf base (body ++ r) = base := by
        unfold radixOf
        rw [if_neg hb]
      rw [hr]
      exact digitScan_prefix hne hd

/-- What is converted is a number. -/
theorem strtoScan_numeral {base : Nat} {s : CStr} {neg : Bool} {m n : Nat} (h : strtoScan base s = some (neg, m, n)) :
    n ≤ s.length ∧ Numeral base (s.take n) neg m := by
  unfold strtoScan at h
  cases hb : bodyScan base (afterSign s) with
  | none => rw [hb] at h; cases h
  | some v =>
    obtain ⟨m', l⟩ := v
    rw [hb, Option.map_some, Option.some.injEq, Prod.mk.injEq, Prod.mk.injEq] at h
    obtain ⟨hn, hm, hl⟩ := h
    dsimp only at hm hl
    subst hm
    obtain ⟨k1, radix, ds, k2, k3⟩ := bodyScan_body hb
    obtain ⟨sign, m1, m2⟩ := afterSign_split s
    rw [hn] at m2
    refine ⟨by omega, s.takeWhile isSpace, sign, _, radix, ds, ?_, fun c hc => takeWhile_mem hc, m2, k2, k3⟩
    have hlen := congrArg List.length m1
    rw [List.length_append] at hlen
    have e : n = (s.takeWhile isSpace ++ sign).length + ((afterSign s).length - l) := by omega
    conv_lhs => rw [m1]
    rw [e, List.take_length_add_append]

/-- Where there is a number, at least that much is converted. -/
theorem strtoScan_prefix {base : Nat} {p : CStr} (r : CStr) {neg : Bool} {m : Nat} (h : Numeral base p neg m) :
    ∃ neg' m' n', strtoScan base (p ++ r) = some (neg', m', n') ∧ p.length ≤ n' := by
  obtain ⟨ws, sign, body, radix, ds, rfl, h2, h3, h4, rfl⟩ := h
  obtain ⟨c, u, r', hb, hc⟩ := body_head h4
  obtain ⟨a1, a2⟩ := afterSign_spec (body := body ++ r) h2 h3 ⟨c, u ++ r, r', by rw [hb]; rfl, hc⟩
  obtain ⟨v, v1, v2⟩ := bodyScan_prefix r h4
  unfold strtoScan
  rw [List.append_assoc, a1, a2, v1]
  refine ⟨_, _, _, rfl, ?_⟩
  simp only [List.length_append]
  omega

theorem strtoScan_longest (base : Nat) (s : CStr) (neg : Bool) (m n : Nat) :
    strtoScan base s = some (neg, m, n) ↔ LongestNumeral base s neg m n := by
  constructor
  · intro h
    obtain ⟨h1, h2⟩ := strtoScan_numeral h
    refine ⟨h1, h2, fun k neg' m' hk hks hn => ?_⟩
    obtain ⟨a, b, c, e, he⟩ := strtoScan_prefix (s.drop k) hn
    rw [List.take_append_drop, h] at e
    cases e
    rw [List.length_take] at he
    omega
  · rintro ⟨h1, h2, h3⟩
    obtain ⟨a, b, c, e, he⟩ := strtoScan_prefix (s.drop n) h2
    rw [List.take_append_drop] at e
    rw [List.length_take] at he
    obtain ⟨k1, k2⟩ := strtoScan_numeral e
    have hc : c = n := by
      rcases Nat.lt_or_ge n c with h | h
      · exact absurd k2 (h3 c a b h k1)
      · omega
    subst hc
    obtain ⟨rfl, rfl⟩ := numeral_unique h2 k2
    exact e

/-- What the conversion and the check for trailing characters accept. -/
theorem gives_iff (base : Nat) (trailing : Bool) (s : CStr) (neg : Bool) (m : Nat) :
    Gives base trailing s neg m ↔ ∃ n, strtoScan base s = some (neg, m, n) ∧ (trailing = true ∨ n = s.length) := by
  unfold Gives
  cases trailing
  · rw [if_neg (by decide), ← strtoScan_full]
    constructor
    · intro h; exact ⟨_, h, .inr rfl⟩
    · rintro ⟨n, h, h' | rfl⟩
      · cases h'
      · exact h
  · rw [if_pos rfl]
    constructor
    · rintro ⟨n, h⟩; exact ⟨n, (strtoScan_longest _ _ _ _ _).2 h, .inl rfl⟩
    · rintro ⟨n, h, -⟩; exact ⟨n, (strtoScan_longest _ _ _ _ _).1 h⟩

theorem gives_unique {base : Nat} {trailing : Bool} {s : CStr} {neg neg' : Bool} {m m' : Nat}
    (h : Gives base trailing s neg m) (h' : Gives base trailing s neg' m') : neg = neg' ∧ m = m' := by
  rw [gives_iff] at h h'
  obtain ⟨n, h, -⟩ := h
  obtain ⟨n', h', -⟩ := h'
  rw [h] at h'
  cases h'
  exact ⟨rfl, rfl⟩

theorem not_gives {base : Nat} {trailing : Bool} {s : CStr} (h : ¬ ∃ neg m, Gives base trailing s neg m) :
    strtoScan base s = none ∨ ∃ neg m n, strtoScan base s = some (neg, m, n) ∧ trailing = false ∧ n ≠ s.length := by
  cases hs : strtoScan base s with
  | none => exact .inl rfl
  | some v =>
    obtain ⟨neg, m, n⟩ := v
    refine .inr ⟨neg, m, n, rfl, ?_⟩
    by_contra hc
    refine h ⟨neg, m, (gives_iff base trailing s neg m).2 ⟨n, hs, ?_⟩⟩
    cases trailing
    · exact .inr (by_contra fun hn => hc ⟨rfl, hn⟩)
    · exact .inl rfl

theorem parsenum_signed_gives (s : CStr) (min max : Int) (base : Nat) (tr : Bool) :
    (∀ neg m, Gives base tr s neg m →
      parsenum_signed s min max base tr =
        if min ≤ (if neg then -(m : Int) else m) ∧ (if neg then -(m : Int) else m) ≤ max ∧ -2 ^ 63 ≤ (if neg then -(m : Int) else m) ∧
          (if neg then -(m : Int) else m) ≤ 2 ^ 63 - 1 then ((if neg then -(m : Int) else m), none)
        else ((parsenum_signed s min max base tr).1, some .ERANGE)) ∧
    ((¬ ∃ neg m, Gives base tr s neg m) → (parsenum_signed s min max base tr).2 = some .EINVAL) := by
  constructor
  · intro neg m h
    obtain ⟨n, hs, hn⟩ := (gives_iff base tr s neg m).1 h
    have hp := strtoScan_pos hs
    simp only [] at hp
    have hno : ¬ (n = 0 ∨ (tr = false ∧ n ≠ s.length)) := by
      rintro (h | ⟨h, h'⟩)
      · omega
      · rcases hn with hn | hn
        · rw [hn] at h; cases h
        · exact h' hn
    unfold parsenum_signed strtoimax
    rw [hs]
    simp only []
    cases neg with
    | true =>
      simp only [if_true]
      by_cases hm : m > 2 ^ 63
      · rw [if_pos hm]
        simp only []
        rw [if_neg hno, if_neg (show ¬ (min ≤ -(m : Int) ∧ -(m : Int) ≤ max ∧ -2 ^ 63 ≤ -(m : Int) ∧ -(m : Int) ≤ 2 ^ 63 - 1) by omega)]
        split <;> rfl
      · rw [if_neg hm]
        simp only []
        rw [if_neg hno]
        by_cases hr : min ≤ -(m : Int) ∧ -(m : Int) ≤ max
        · rw [if_neg (by omega), if_pos (by omega)]
        · rw [if_pos (show -(m : Int) < min ∨ -(m : Int) > max by omega), if_neg (by omega)]
    | false =>
      simp only [Bool.false_eq_true, if_false]
      by_cases hm : m > 2 ^ 63 - 1
      · rw [if_pos hm]
        simp only []
        rw [if_neg hno, if_neg (show ¬ (min ≤ (m : Int) ∧ (m : Int) ≤ max ∧ -2 ^ 63 ≤ (m : Int) ∧ (m : Int) ≤ 2 ^ 63 - 1) by omega)]
        split <;> rfl
      · rw [if_neg hm]
        simp only []
        rw [if_neg hno]
        by_cases hr : min ≤ (m : Int) ∧ (m : Int) ≤ max
        · rw [if_neg (by omega), if_pos (by omega)]
        · rw [if_pos (show (m : Int) < min ∨ (m : Int) > max by omega), if_neg (by omega)]
  · intro h
    unfold parsenum_signed strtoimax
    rcases not_gives h with hs | ⟨neg, m, n, hs, ht, hn⟩
    · rw [hs]; simp
    · rw [hs]
      simp only []
      cases neg
      · simp only [Bool.false_eq_true, if_false]
        split <;> simp [hn, ht]
      · simp only [if_true]
        split <;> simp [hn, ht]

theorem parsenum_unsigned_gives (s : CStr) (min max typemax : Nat) (base : Nat) (tr : Bool) :
    (∀ neg m, Gives base tr s neg m →
      parsenum_unsigned s min max typemax base tr =
        if m ≤ 2 ^ 64 - 1 ∧ min ≤ (if neg then (2 ^ 64 - m) % 2 ^ 64 else m) ∧ (if neg then (2 ^ 64 - m) % 2 ^ 64 else m) ≤ max ∧
          (if neg then (2 ^ 64 - m) % 2 ^ 64 else m) ≤ typemax then ((if neg then (2 ^ 64 - m) % 2 ^ 64 else m), none)
        else ((parsenum_unsigned s min max typemax base tr).1, some .ERANGE)) ∧
    ((¬ ∃ neg m, Gives base tr s neg m) → (parsenum_unsigned s min max typemax base tr).2 = some .EINVAL) := by
  constructor
  · intro neg m h
    obtain ⟨n, hs, hn⟩ := (gives_iff base tr s neg m).1 h
    have hp := strtoScan_pos hs
    simp only [] at hp
    have hno : ¬ (n = 0 ∨ (tr = false ∧ n ≠ s.length)) := by
      rintro (h | ⟨h, h'⟩)
      · omega
      · rcases hn with hn | hn
        · rw [hn] at h; cases h
        · exact h' hn
    unfold parsenum_unsigned strtoumax
    rw [hs]
    simp only []
    generalize hv : (if neg then (2 ^ 64 - m) % 2 ^ 64 else m) = v
    by_cases hm : m > 2 ^ 64 - 1
    · rw [if_pos hm]
      simp only []
      rw [if_neg hno, if_neg (show ¬ (m ≤ 2 ^ 64 - 1 ∧ min ≤ v ∧ v ≤ max ∧ v ≤ typemax) by omega)]
      split <;> rfl
    · rw [if_neg hm]
      simp only []
      rw [if_neg hno]
      by_cases hr : min ≤ v ∧ v ≤ max ∧ v ≤ typemax
      · rw [if_neg (by omega), if_pos (by omega)]
      · rw [if_pos (show v < min ∨ v > max ∨ v > typemax by omega), if_neg (by omega)]
  · intro h
    unfold parsenum_unsigned strtoumax
    rcases not_gives h with hs | ⟨neg, m, n, hs, ht, hn⟩
    · rw [hs]; simp
    · rw [hs]
      simp only []
      split <;> simp [hn, ht]

end Scrypt
