import Verif.Model.Params
import Verif.Spec.Limits
import Verif.Proofs.Float
import Verif.Proofs.CryptoScrypt
/-
The parameter selection and the resource check.
-/
namespace Scrypt
open F64 Spec

set_option exponentiation.threshold 1100

/-! ### memtouse -/

theorem memMin_le (szMax : Nat) (q) : memMin szMax q ≤ szMax := by
  obtain ⟨a, b, c, d, e⟩ := q
  simp only [memMin]
  split_ifs <;> omega

theorem memClip_bounds (maxmem a : Nat) :
    1048576 ≤ memClip maxmem a ∧ memClip maxmem a ≤ max 1048576 a ∧
      (0 < maxmem → memClip maxmem a ≤ max 1048576 maxmem) ∧
      memClip maxmem a = max 1048576 (if 0 < maxmem then min maxmem a else a) := by
  unfold memClip
  simp only
  split_ifs <;> omega

theorem toUnsigned_ok {mx n : Nat} {x : F64} (h : toUnsigned mx x = .ok n) :
    ∃ s m, x = fin s m ∧ (n : ℤ) ≤ max 0 ⌊m⌋ ∧ n ≤ mx ∧ (s = false → 0 ≤ m → (n : ℤ) = ⌊m⌋) := by
  cases x with
  | nan => simp [toUnsigned] at h
  | inf s => simp [toUnsigned] at h
  | fin s m =>
    simp only [toUnsigned] at h
    split_ifs at h with h1 h2 h3
    · injection h with h; subst h
      exact ⟨s, m, rfl, by omega, by omega, by intro hs; simp [hs] at h3⟩
    · injection h with h; subst h
      refine ⟨s, m, rfl, by omega, by omega, ?_⟩
      intro _ hm
      exact Int.toNat_of_nonneg (Int.floor_nonneg.2 hm)

/-- A double below 2^64 is at most 2^64 - 2048. -/
theorem rep_lt_two64 {q : ℚ} (h : Rep q) (hlt : q < 2 ^ 64) : q ≤ 2 ^ 64 - 2048 := by
  obtain ⟨n, k, hn, hk, rfl⟩ := h
  by_cases h11 : 11 ≤ k
  · obtain ⟨j, rfl⟩ : ∃ j : ℕ, k = j + 11 := ⟨(k - 11).toNat, by omega⟩
    have e : (n : ℚ) * 2 ^ ((j : ℤ) + 11) = ((n * 2 ^ j * 2048 : ℕ) : ℚ) := by
      rw [zpow_add₀ (by norm_num), zpow_natCast]; push_cast; ring
    rw [e] at hlt ⊢
    have h1 : n * 2 ^ j * 2048 < 2 ^ 64 := by exact_mod_cast hlt
    have h2 : n * 2 ^ j * 2048 ≤ 2 ^ 64 - 2048 := by omega
    have h3 : ((n * 2 ^ j * 2048 : ℕ) : ℚ) ≤ ((2 ^ 64 - 2048 : ℕ) : ℚ) := by exact_mod_cast h2
    refine h3.trans ?_
    norm_num
  · have h1 : (n : ℚ) ≤ 2 ^ 53 - 1 := by
      have : n ≤ 2 ^ 53 - 1 := by omega
      have h3 : (n : ℚ) ≤ ((2 ^ 53 - 1 : ℕ) : ℚ) := by exact_mod_cast this
      refine h3.trans ?_; norm_num
    have h2 : (2 : ℚ) ^ k ≤ 2 ^ (10 : ℤ) := zpow_le_zpow_right₀ (by norm_num) (by omega)
    have h3 : (0 : ℚ) < 2 ^ k := by positivity
    calc (n : ℚ) * 2 ^ k ≤ (2 ^ 53 - 1) * 2 ^ (10 : ℤ) := by
          apply mul_le_mul h1 h2 h3.le; norm_num
      _ ≤ _ := by norm_num

/-- Shape of a successful memtouse. -/
theorem memtouse_ok {szMax : Nat} {cfg : MemCfg} {sys : MemSys} {maxmem : Nat} {f : F64} {m : Nat}
    (h : memtouse szMax cfg sys maxmem f = .ok (some m)) :
    ∃ q a, memQueries szMax cfg sys = some q ∧
      toUnsigned szMax (F64.mul f (F64.ofNat (memMin szMax q))) = .ok a ∧ m = memClip maxmem a := by
  unfold memtouse at h
  cases hc : (F64.lt (F64.ofNat 0) f && F64.le f (F64.ofNat 1)) with
  | false => rw [hc] at h; simp at h
  | true =>
    rw [hc] at h
    simp only [cassert_true, Res.bind_ok] at h
    cases hq : memQueries szMax cfg sys with
    | none => rw [hq] at h; simp at h
    | some q =>
      rw [hq] at h
      simp only [Res.bind_eq_ok] at h
      obtain ⟨a, h1, h2⟩ := h
      injection h2 with h2; injection h2 with h2
      exact ⟨q, a, rfl, h1, h2.symm⟩

theorem memtouse_bounds {szMax : Nat} (hsz : IsSizeMax szMax) {cfg : MemCfg} {sys : MemSys}
    {maxmem : Nat} {f : F64} {m : Nat} (h : memtouse szMax cfg sys maxmem f = .ok (some m)) :
    1048576 ≤ m ∧ m ≤ 2 ^ 64 - 2048 ∧ m ≤ max 1048576 szMax := by
  obtain ⟨q, a, -, h1, rfl⟩ := memtouse_ok h
  obtain ⟨s, v, hx, h2, h3, -⟩ := toUnsigned_ok h1
  have hv := valid_mul f (F64.ofNat (memMin szMax q))
  rw [hx] at hv
  have ha64 : a ≤ 2 ^ 64 - 2048 := by
    rcases Nat.lt_or_ge a (2 ^ 64 - 2047) with hlt | hge
    · omega
    exfalso
    have hfl : ((2 ^ 64 - 2047 : ℕ) : ℤ) ≤ ⌊v⌋ := by omega
    have hvge : (((2 ^ 64 - 2047 : ℕ) : ℤ) : ℚ) ≤ v := Int.le_floor.1 hfl
    by_cases hv64 : v < 2 ^ 64
    · have h5 := rep_lt_two64 hv.1 hv64
      have h6 : (((2 ^ 64 - 2047 : ℕ) : ℤ) : ℚ) ≤ 2 ^ 64 - 2048 := hvge.trans h5
      norm_num at h6
    · -- then the conversion would have been undefined
      push Not at hv64
      have hfl2 : ((2 ^ 64 : ℕ) : ℤ) ≤ ⌊v⌋ := Int.le_floor.2 (by push_cast; exact hv64)
      rw [hx] at h1
      simp only [toUnsigned] at h1
      have hsz2 : szMax ≤ 2 ^ 64 - 1 := by rcases hsz with h | h <;> rw [h] <;> norm_num
      split_ifs at h1 <;> omega
  have := memClip_bounds maxmem a
  omega

/-! ### The loop choosing N -/

theorem ofNat_two : ofNat 2 = fin false 2 := by
  have := ofNat_small (n := 2) (by norm_num); exact_mod_cast this

theorem pickLogN_spec (maxN : F64) (fuel l : Nat) (hl : l + fuel = 63) :
    l ≤ pickLogN maxN fuel l ∧ pickLogN maxN fuel l ≤ 63 ∧
      (∀ j, l ≤ j → j < pickLogN maxN fuel l →
        F64.lt (F64.div maxN (F64.ofNat 2)) (F64.ofNat (2 ^ j)) = false) ∧
      (pickLogN maxN fuel l < 63 →
        F64.lt (F64.div maxN (F64.ofNat 2)) (F64.ofNat (2 ^ pickLogN maxN fuel l)) = true) := by
  induction fuel generalizing l with
  | zero => simp only [pickLogN]; exact ⟨by omega, by omega, by intro j; omega, by intro h; omega⟩
  | succ f ih =>
    rw [pickLogN]
    by_cases h : F64.lt (F64.div maxN (F64.ofNat 2)) (F64.ofNat (2 ^ l)) = true
    · rw [if_pos h]
      exact ⟨by omega, by omega, by intro j; omega, fun _ => h⟩
    · rw [if_neg h]
      obtain ⟨h1, h2, h3, h4⟩ := ih (l + 1) (by omega)
      refine ⟨by omega, h2, ?_, h4⟩
      intro j hj hlt
      rcases Nat.eq_or_lt_of_le hj with rfl | hj
      · simpa using h
      · exact h3 j hj hlt

/-- For a representable `maxN >= 2` below 2^63 the loop finds the largest power of two `<= maxN`. -/
theorem pickLogN_pow {q : ℚ} (hrep : Rep q) (h2 : 2 ≤ q) (hlt : q < 2 ^ 63) :
    1 ≤ pickLogN (fin false q) 62 1 ∧ pickLogN (fin false q) 62 1 ≤ 62 ∧
      (2 : ℚ) ^ pickLogN (fin false q) 62 1 ≤ q ∧ q < (2 : ℚ) ^ (pickLogN (fin false q) 62 1 + 1) := by
  obtain ⟨h1, h63, hbelow, habove⟩ := pickLogN_spec (fin false q) 62 1 (by norm_num)
  set l := pickLogN (fin false q) 62 1 with hl
  have hnorm : (2 : ℚ) ^ (-900 : ℤ) ≤ q := by
    refine le_trans ?_ h2
    calc (2 : ℚ) ^ (-900 : ℤ) ≤ 2 ^ (1 : ℤ) := zpow_le_zpow_right₀ (by norm_num) (by norm_num)
      _ = 2 := by norm_num
  have hdiv : F64.div (fin false q) (F64.ofNat 2) = fin false (q / 2) := by
    have hr : roundMag (q / 2) = q / 2 := by
      have := Rep.div_pow hrep 1 hnorm (by norm_num)
      rw [pow_one] at this
      exact roundMag_rep this
    rw [ofNat_two]
    simp only [F64.div]
    rw [if_neg (by norm_num), round_small, hr]
    · rfl
    · exact roundMag_lt (e := 63) (by
        have : q / 2 ≤ q := by linarith
        linarith) (by norm_num)
  have hcmp : ∀ j, j < 64 → (F64.lt (F64.div (fin false q) (F64.ofNat 2)) (F64.ofNat (2 ^ j)) = true ↔
      q / 2 < 2 ^ j) := by
    intro j hj
    rw [hdiv, ofNat_pow hj]
    simp [F64.lt, val]
  have hlow : (2 : ℚ) ^ l ≤ q := by
    rcases Nat.eq_or_lt_of_le h1 with he | hgt
    · rw [← he]; simpa using h2
    · have := hbelow (l - 1) (by omega) (by omega)
      have hn : ¬ (q / 2 < 2 ^ (l - 1)) := by
        rw [← hcmp (l - 1) (by omega)]; simp [this]
      push Not at hn
      have : (2 : ℚ) ^ l = 2 ^ (l - 1) * 2 := by
        rw [← pow_succ]; congr 1; omega
      rw [this]; linarith
  have h62 : l ≤ 62 := by
    by_contra hc
    have : l = 63 := by omega
    rw [this] at hlow
    linarith
  refine ⟨h1, h62, hlow, ?_⟩
  have := (hcmp l (by omega)).1 (habove (by omega))
  rw [pow_succ]; linarith

/-! ### pickparams -/

theorem opsFloor_cases (x : F64) (hx : x.Valid) :
    opsFloor x = nan ∨ opsFloor x = inf false ∨
      ∃ q, opsFloor x = fin false q ∧ Rep q ∧ 32768 ≤ q ∧ q < 2 ^ 1024 := by
  have h32768 : F64.ofNat 32768 = fin false 32768 := by
    have := ofNat_small (n := 32768) (by norm_num); exact_mod_cast this
  have hr : Rep (32768 : ℚ) := by
    have := rep_nat (n := 32768) (by norm_num); exact_mod_cast this
  unfold opsFloor
  rw [h32768]
  cases x with
  | nan => left; rfl
  | inf s =>
    cases s with
    | false => right; left; rfl
    | true =>
      right; right
      exact ⟨32768, rfl, hr, le_rfl, by norm_num⟩
  | fin s m =>
    right; right
    by_cases h : F64.lt (fin s m) (fin false 32768) = true
    · rw [if_pos h]; exact ⟨32768, rfl, hr, le_rfl, by norm_num⟩
    · rw [if_neg h]
      simp only [F64.lt, val] at h
      have hm := Rep.nonneg hx.1
      cases s with
      | true => simp at h; linarith
      | false => simp at h; exact ⟨m, rfl, hx.1, h, hx.2⟩

theorem div_pow_exact {q : ℚ} {k : ℕ} (hq : Rep q) (hlo : 1 ≤ q) (hhi : q < 2 ^ 1024) (hk : k < 64) :
    F64.div (fin false q) (F64.ofNat (2 ^ k)) = fin false (q / 2 ^ k) ∧ Rep (q / 2 ^ k) := by
  have hnorm : (2 : ℚ) ^ (-900 : ℤ) ≤ q := by
    refine le_trans ?_ hlo
    calc (2 : ℚ) ^ (-900 : ℤ) ≤ 2 ^ (0 : ℤ) := zpow_le_zpow_right₀ (by norm_num) (by norm_num)
      _ = 1 := by norm_num
  have hr := Rep.div_pow hq k hnorm (by omega)
  have hp : (0 : ℚ) < 2 ^ k := by positivity
  have h1 : (1 : ℚ) ≤ 2 ^ k := one_le_pow₀ (by norm_num)
  refine ⟨?_, hr⟩
  rw [ofNat_pow hk]
  simp only [F64.div]
  rw [if_neg hp.ne', round_small, roundMag_rep hr]
  · rfl
  · rw [roundMag_rep hr]
    refine lt_of_le_of_lt ?_ hhi
    exact div_le_self (by linarith) h1

/-- What pickNP chooses: the two cases (CPU-bound, memory-bound). -/
theorem pickNP_spec {memlimit : Nat} (hm1 : 1048576 ≤ memlimit) (hm2 : memlimit ≤ 2 ^ 64 - 2048)
    {ops : F64}
    (hops : ops = inf false ∨ ∃ q, ops = fin false q ∧ Rep q ∧ 32768 ≤ q ∧ q < 2 ^ 1024) :
    ∃ l p, pickNP memlimit ops = .ok (l, p) ∧ 1 ≤ l ∧ l ≤ 62 ∧ 1 ≤ p ∧ 8 * p < 2 ^ 30 ∧
      1024 * 2 ^ l ≤ memlimit ∧ LeExact (32 * 2 ^ l * p : ℕ) ops ∧
      ((p = 1 ∧ ¬ LeExact (32 * 2 ^ (l + 1) : ℕ) ops) ∨
       (memlimit < 1024 * 2 ^ (l + 1) ∧
         (2 ^ 30 ≤ 8 * (p + 1) ∨ ¬ LeExact (32 * 2 ^ l * (p + 1) : ℕ) ops))) := by
  have hmlt : memlimit < 2 ^ 64 := by omega
  -- the test "opslimit < memlimit / 32"
  have hR : F64.ofNat memlimit = fin false (roundMag memlimit) := ofNat_lt64 hmlt
  have hRlo : (1048576 : ℚ) ≤ roundMag memlimit := by
    have h1 : roundMag ((1048576 : ℕ) : ℚ) ≤ roundMag (memlimit : ℚ) :=
      roundMag_mono (by exact_mod_cast hm1)
    rwa [roundMag_rep (rep_nat (by norm_num))] at h1
  have hRhi : roundMag (memlimit : ℚ) ≤ 2 ^ 64 := by
    have : roundMag (memlimit : ℚ) ≤ 2 ^ (64 : ℤ) :=
      roundMag_le_pow (by norm_num) (by exact_mod_cast hmlt.le)
    exact_mod_cast this
  have h32 : F64.div (F64.ofNat memlimit) (F64.ofNat 32) = fin false (roundMag memlimit / 32) := by
    rw [hR]
    have := (div_pow_exact (k := 5) (rep_roundMag (memlimit : ℚ)) (by linarith)
      (lt_of_le_of_lt hRhi (by norm_num)) (by norm_num)).1
    norm_num at this
    convert this using 2
  -- memory-bound choice of N
  have hMq : ((memlimit / 1024 : ℕ) : ℚ) < 2 ^ 54 := by
    have : memlimit / 1024 < 2 ^ 54 := by omega
    exact_mod_cast this
  have hMlo : ((1024 : ℕ) : ℚ) ≤ ((memlimit / 1024 : ℕ) : ℚ) := by
    have : 1024 ≤ memlimit / 1024 := by omega
    exact_mod_cast this
  have hMN : F64.ofNat (memlimit / (8 * 128)) = fin false (roundMag ((memlimit / 1024 : ℕ) : ℚ)) :=
    ofNat_lt64 (by omega)
  have hr54 : roundMag ((memlimit / 1024 : ℕ) : ℚ) ≤ 2 ^ 54 := by
    have := roundMag_le_pow (q := ((memlimit / 1024 : ℕ) : ℚ)) (e := 54) (by norm_num)
      (by exact_mod_cast hMq.le)
    exact_mod_cast this
  have hr2 : (1024 : ℚ) ≤ roundMag ((memlimit / 1024 : ℕ) : ℚ) := by
    have h1 := roundMag_mono hMlo
    rw [roundMag_rep (rep_nat (by norm_num))] at h1
    exact_mod_cast h1
  obtain ⟨L1, L2, L3, L4⟩ := pickLogN_pow (q := roundMag ((memlimit / 1024 : ℕ) : ℚ)) (rep_roundMag _)
    (by linarith) (lt_of_le_of_lt hr54 (by norm_num))
  set L := pickLogN (fin false (roundMag ((memlimit / 1024 : ℕ) : ℚ))) 62 1 with hL
  -- 2^L <= memlimit / 1024
  have hLmem : 2 ^ L ≤ memlimit / 1024 := by
    by_contra hc
    push Not at hc
    by_cases h53 : memlimit / 1024 < 2 ^ 53
    · rw [roundMag_rep (rep_nat h53)] at L3
      have : 2 ^ L ≤ memlimit / 1024 := by exact_mod_cast L3
      omega
    · -- memlimit / 1024 is between 2^53 and 2^54 - 2: rounding stays at or below 2^54 - 2
      push Not at h53
      have hle : memlimit / 1024 ≤ 2 ^ 54 - 2 := by omega
      have hrep : Rep ((2 ^ 54 - 2 : ℕ) : ℚ) :=
        ⟨2 ^ 53 - 1, 1, by norm_num, by norm_num, by norm_num⟩
      have h1 : roundMag ((memlimit / 1024 : ℕ) : ℚ) ≤ ((2 ^ 54 - 2 : ℕ) : ℚ) := by
        rw [← roundMag_rep hrep]
        exact roundMag_mono (by exact_mod_cast hle)
      have h2 : (2 : ℚ) ^ L ≤ ((2 ^ 54 - 2 : ℕ) : ℚ) := L3.trans h1
      have h3 : 2 ^ L ≤ 2 ^ 54 - 2 := by exact_mod_cast h2
      have h4 : L < 54 := by
        by_contra h5
        have : 2 ^ 54 ≤ 2 ^ L := Nat.pow_le_pow_right (by norm_num) (by omega)
        omega
      have h5 : 2 ^ L ≤ 2 ^ 53 := Nat.pow_le_pow_right (by norm_num) (by omega)
      omega
  have hLmem2 : memlimit / 1024 < 2 ^ (L + 1) := by
    by_contra hc
    push Not at hc
    have h1 : roundMag (((2 ^ (L + 1) : ℕ)) : ℚ) ≤ roundMag ((memlimit / 1024 : ℕ) : ℚ) :=
      roundMag_mono (by exact_mod_cast hc)
    have h2 : roundMag (((2 ^ (L + 1) : ℕ)) : ℚ) = 2 ^ (L + 1) := by
      push_cast; exact roundMag_rep rep_pow
    rw [h2] at h1
    linarith
  have hmem : 1024 * 2 ^ L ≤ memlimit := by omega
  have hmem2 : memlimit < 1024 * 2 ^ (L + 1) := by omega
  have h4n : F64.ofNat 4 = F64.ofNat (2 ^ 2) := by norm_num
  have h3f : F64.ofNat 0x3fffffff = fin false (1073741823 : ℚ) := by
    have := ofNat_small (n := 0x3fffffff) (by norm_num)
    rw [this]; norm_num
  unfold pickNP
  rcases hops with rfl | ⟨q, rfl, hq, hlo, hhi⟩
  · -- no CPU limit
    rw [h32]
    rw [if_neg (by simp [F64.lt])]
    simp only [hMN, ← hL]
    have e : rpCap (F64.div (F64.div (inf false) (F64.ofNat 4)) (F64.ofNat (2 ^ L))) =
        fin false 1073741823 := by
      rw [h4n, ofNat_pow (by norm_num), ofNat_pow (by omega)]
      simp only [F64.div, rpCap, h3f]
      rfl
    rw [e]
    have et : toUnsigned (2 ^ 32 - 1) (fin false (1073741823 : ℚ)) = .ok 1073741823 := by
      have hf : ⌊(1073741823 : ℚ)⌋ = 1073741823 := by
        exact_mod_cast Int.floor_natCast (R := ℚ) 1073741823
      simp only [toUnsigned, hf]
      norm_num
      rfl
    rw [et, Res.bind_ok]
    refine ⟨L, 1073741823 / 8, rfl, L1, by omega, by norm_num, by norm_num, hmem, rfl, ?_⟩
    right
    exact ⟨hmem2, Or.inl (by norm_num)⟩
  · by_cases hcpu : F64.lt (fin false q) (F64.div (F64.ofNat memlimit) (F64.ofNat 32)) = true
    · -- CPU-bound
      rw [if_pos hcpu]
      rw [h32] at hcpu
      simp [F64.lt, val] at hcpu
      obtain ⟨hd, hrd⟩ := div_pow_exact (k := 5) hq (by linarith) hhi (by norm_num)
      have hd' : F64.div (fin false q) (F64.ofNat (8 * 4)) = fin false (q / 32) := by
        norm_num at hd ⊢
        exact hd
      have hrd' : Rep (q / 32) := by norm_num at hrd; exact hrd
      rw [hd']
      have hq59 : q < 2 ^ 59 := by
        refine lt_of_lt_of_le hcpu ?_
        rw [div_le_iff₀ (by norm_num)]
        refine hRhi.trans ?_
        norm_num
      obtain ⟨l1, l2, l3, l4⟩ := pickLogN_pow hrd' (by linarith) (by
        have : q / 32 ≤ q := div_le_self (by linarith) (by norm_num)
        refine lt_of_le_of_lt this (hq59.trans (by norm_num)))
      set l := pickLogN (fin false (q / 32)) 62 1
      have hA : (32 * 2 ^ l : ℚ) ≤ q := by linarith
      have hB : q < 32 * 2 ^ (l + 1) := by linarith
      refine ⟨l, 1, rfl, l1, l2, le_rfl, by norm_num, ?_, ?_, Or.inl ⟨rfl, ?_⟩⟩
      · -- 32 * 2^l <= q < rnd(memlimit)/32
        have h1 : (1024 * 2 ^ l : ℚ) < roundMag (memlimit : ℚ) := by
          rw [lt_div_iff₀ (by norm_num)] at hcpu
          nlinarith
        by_contra hc
        push Not at hc
        have h2 : roundMag (memlimit : ℚ) ≤ roundMag (((1024 * 2 ^ l : ℕ)) : ℚ) :=
          roundMag_mono (by exact_mod_cast hc.le)
        have h3 : roundMag (((1024 * 2 ^ l : ℕ)) : ℚ) = 1024 * 2 ^ l := by
          have h4 : (((1024 * 2 ^ l : ℕ)) : ℚ) = 2 ^ (10 + l) := by
            push_cast; rw [pow_add]; norm_num
          rw [h4, roundMag_rep rep_pow, pow_add]; norm_num
        rw [h3] at h2
        linarith
      · simp only [LeExact, val]
        push_cast
        simpa using hA
      · simp only [LeExact, val]
        push_cast
        simpa using hB
    · -- memory-bound
      rw [if_neg hcpu]
      simp only [hMN, ← hL]
      rw [h32] at hcpu
      simp [F64.lt, val] at hcpu
      obtain ⟨hd1, hr1⟩ := div_pow_exact (k := 2) hq (by linarith) hhi (by norm_num)
      have hq4 : q / 2 ^ 2 < 2 ^ 1024 := lt_of_le_of_lt (div_le_self (by linarith) (by norm_num)) hhi
      obtain ⟨hd2, hr2'⟩ := div_pow_exact (k := L) hr1
        (by rw [le_div_iff₀ (by norm_num)]; linarith) hq4 (by omega)
      rw [h4n, hd1, hd2]
      set t := q / 2 ^ 2 / 2 ^ L with ht
      have hpL : (0 : ℚ) < 2 ^ L := by positivity
      have ht8 : (8 : ℚ) ≤ t := by
        have h1 : (1024 * 2 ^ L : ℚ) ≤ roundMag (memlimit : ℚ) := by
          have h2 : roundMag (((1024 * 2 ^ L : ℕ)) : ℚ) ≤ roundMag (memlimit : ℚ) :=
            roundMag_mono (by exact_mod_cast hmem)
          have h3 : roundMag (((1024 * 2 ^ L : ℕ)) : ℚ) = 1024 * 2 ^ L := by
            have h4 : (((1024 * 2 ^ L : ℕ)) : ℚ) = 2 ^ (10 + L) := by
              push_cast; rw [pow_add]; norm_num
            rw [h4, roundMag_rep rep_pow, pow_add]; norm_num
          rwa [h3] at h2
        rw [ht, le_div_iff₀ hpL, le_div_iff₀ (by norm_num)]
        have h2 : roundMag (memlimit : ℚ) / 32 ≤ q := hcpu
        rw [div_le_iff₀ (by norm_num)] at h2
        nlinarith
      have htq : t * (4 * 2 ^ L) = q := by rw [ht]; field_simp; norm_num
      -- the cap
      have key : ∃ c : ℚ, rpCap (fin false t) = fin false c ∧ 8 ≤ c ∧ c ≤ 1073741823 ∧ c ≤ t ∧
          (c = t ∨ c = 1073741823) := by
        unfold rpCap
        rw [h3f]
        by_cases hcap : F64.lt (fin false (1073741823 : ℚ)) (fin false t) = true
        · rw [if_pos hcap]
          simp [F64.lt, val] at hcap
          exact ⟨1073741823, rfl, by norm_num, le_rfl, hcap.le, Or.inr rfl⟩
        · rw [if_neg hcap]
          simp [F64.lt, val] at hcap
          exact ⟨t, rfl, ht8, hcap, le_rfl, Or.inl rfl⟩
      obtain ⟨c, hc1, hc2, hc3, hc4, hc5⟩ := key
      rw [hc1]
      have hcn : (0 : ℤ) ≤ ⌊c⌋ := Int.floor_nonneg.2 (by linarith)
      have hcle : ⌊c⌋ ≤ 1073741823 := by
        have : (⌊c⌋ : ℚ) ≤ 1073741823 := (Int.floor_le c).trans hc3
        exact_mod_cast this
      have hc8 : 8 ≤ ⌊c⌋ := Int.le_floor.2 (by exact_mod_cast hc2)
      have et : toUnsigned (2 ^ 32 - 1) (fin false c) = .ok ⌊c⌋.toNat := by
        simp only [toUnsigned]
        rw [if_neg (by simp), if_neg (by push_cast; omega)]
        rfl
      rw [et, Res.bind_ok]
      have hfl1 : ((⌊c⌋.toNat : ℕ) : ℚ) ≤ c := by
        have h1 : ((⌊c⌋.toNat : ℕ) : ℤ) = ⌊c⌋ := Int.toNat_of_nonneg hcn
        have h2 : ((⌊c⌋.toNat : ℕ) : ℚ) = (⌊c⌋ : ℚ) := by exact_mod_cast h1
        rw [h2]; exact Int.floor_le c
      have hfl2 : c < ((⌊c⌋.toNat : ℕ) : ℚ) + 1 := by
        have h1 : ((⌊c⌋.toNat : ℕ) : ℤ) = ⌊c⌋ := Int.toNat_of_nonneg hcn
        have h2 : ((⌊c⌋.toNat : ℕ) : ℚ) = (⌊c⌋ : ℚ) := by exact_mod_cast h1
        rw [h2]; exact Int.lt_floor_add_one c
      set T := ⌊c⌋.toNat with hT
      have hTle : T ≤ 1073741823 := by omega
      have hT8 : 8 ≤ T := by omega
      refine ⟨L, T / 8, rfl, L1, by omega, by omega, by omega, hmem, ?_, Or.inr ⟨hmem2, ?_⟩⟩
      · simp only [LeExact, val]
        have h1 : 8 * (T / 8) ≤ T := Nat.mul_div_le T 8
        have h2 : ((8 * (T / 8) : ℕ) : ℚ) ≤ t := by
          have : ((8 * (T / 8) : ℕ) : ℚ) ≤ (T : ℚ) := by exact_mod_cast h1
          linarith
        have e : ((32 * 2 ^ L * (T / 8) : ℕ) : ℚ) = ((8 * (T / 8) : ℕ) : ℚ) * (4 * 2 ^ L) := by
          rw [show 32 * 2 ^ L * (T / 8) = 8 * (T / 8) * (4 * 2 ^ L) by ring]
          push_cast; ring
        rw [e]
        simp only [Bool.false_eq_true, if_false]
        rw [← htq]
        gcongr
      · rcases hc5 with hct | hcv
        · right
          simp only [LeExact, val, Bool.false_eq_true, if_false, not_le]
          have h1 : T + 1 ≤ 8 * (T / 8 + 1) := by omega
          have h2 : t < ((8 * (T / 8 + 1) : ℕ) : ℚ) := by
            rw [← hct]
            have : ((T + 1 : ℕ) : ℚ) ≤ ((8 * (T / 8 + 1) : ℕ) : ℚ) := by exact_mod_cast h1
            push_cast at this ⊢
            linarith
          have e : ((32 * 2 ^ L * (T / 8 + 1) : ℕ) : ℚ) =
              ((8 * (T / 8 + 1) : ℕ) : ℚ) * (4 * 2 ^ L) := by
            rw [show 32 * 2 ^ L * (T / 8 + 1) = 8 * (T / 8 + 1) * (4 * 2 ^ L) by ring]
            push_cast; ring
          rw [e, ← htq]
          gcongr
        · left
          have : T = 1073741823 := by
            have : ⌊(1073741823 : ℚ)⌋ = 1073741823 := by
              exact_mod_cast Int.floor_natCast (R := ℚ) 1073741823
            rw [hT, hcv, this]; rfl
          omega

/-! ### The limit check -/

theorem big_iff {memlimit l r : Nat} (hr : 0 < r) :
    memlimit / 2 ^ l / r < 128 ↔ memlimit < 128 * 2 ^ l * r := by
  rw [Nat.div_div_eq_div_mul, Nat.div_lt_iff_lt_mul (by positivity)]
  rw [show 128 * (2 ^ l * r) = 128 * 2 ^ l * r by ring]

/-- The expression compared with 4. -/
def opsRatio (ops : F64) (N r p : Nat) : F64 :=
  F64.div (F64.div (F64.div ops (F64.ofNat N)) (F64.ofNat r)) (F64.ofNat p)

theorem div_fin {a b : ℚ} (hb : b ≠ 0) (h : roundMag (a / b) < 2 ^ 1024) :
    F64.div (fin false a) (fin false b) = fin false (roundMag (a / b)) := by
  simp only [F64.div]
  rw [if_neg hb, round_small h]
  rfl

theorem ofNat_four : F64.ofNat 4 = fin false 4 := by
  have := ofNat_small (n := 4) (by norm_num); exact_mod_cast this

/-- Dividing by something at least one does not overflow. -/
theorem div_ge_one_lt {a b : ℚ} (ha : Rep a) (hlt : a < 2 ^ 1024) (hb : 1 ≤ b) :
    roundMag (a / b) < 2 ^ 1024 := by
  have h1 : roundMag (a / b) ≤ roundMag a := roundMag_mono (div_le_self ha.nonneg hb)
  rw [roundMag_rep ha] at h1
  linarith

/-- Enough operations: the time test passes. -/
theorem not_slow_of_le {ops : F64} (hv : ops.Valid) {l r p : Nat} (hl : l < 64) (hr : 0 < r)
    (hp : 0 < p) (hrp : r * p < 2 ^ 30) (h : LeExact (4 * 2 ^ l * r * p : ℕ) ops) :
    F64.lt (opsRatio ops (2 ^ l) r p) (F64.ofNat 4) = false := by
  have hr30 : r < 2 ^ 30 := lt_of_le_of_lt (Nat.le_mul_of_pos_right r hp) hrp
  have hp30 : p < 2 ^ 30 := lt_of_le_of_lt (Nat.le_mul_of_pos_left p hr) hrp
  have er : F64.ofNat r = fin false r := ofNat_small (by omega)
  have ep : F64.ofNat p = fin false p := ofNat_small (by omega)
  have hr0 : (0 : ℚ) < r := by exact_mod_cast hr
  have hp0 : (0 : ℚ) < p := by exact_mod_cast hp
  have hr1 : (1 : ℚ) ≤ r := by exact_mod_cast hr
  have hp1 : (1 : ℚ) ≤ p := by exact_mod_cast hp
  unfold opsRatio
  rw [er, ep, ofNat_four]
  cases ops with
  | nan => simp [LeExact] at h
  | inf s =>
    simp only [LeExact] at h
    subst h
    rw [ofNat_pow hl]
    simp [F64.div, F64.lt]
  | fin s m =>
    have hm0 := hv.1.nonneg
    have hpow : (1 : ℚ) ≤ 2 ^ l := one_le_pow₀ (by norm_num)
    have hge : (1 : ℚ) ≤ ((4 * 2 ^ l * r * p : ℕ) : ℚ) := by
      have : 1 ≤ 4 * 2 ^ l * r * p := Nat.one_le_iff_ne_zero.2 (by positivity)
      exact_mod_cast this
    cases s with
    | true => simp only [LeExact, val, if_true] at h; linarith
    | false =>
      simp only [LeExact, val, Bool.false_eq_true, if_false] at h
      obtain ⟨e1, r1⟩ := div_pow_exact (k := l) hv.1 (by linarith) hv.2 hl
      rw [e1]
      have hp2 : (0 : ℚ) < 2 ^ l := by positivity
      have h1 : ((4 * r * p : ℕ) : ℚ) ≤ m / 2 ^ l := by
        rw [le_div_iff₀ hp2]
        calc ((4 * r * p : ℕ) : ℚ) * 2 ^ l = ((4 * 2 ^ l * r * p : ℕ) : ℚ) := by push_cast; ring
          _ ≤ m := h
      have hlt1 : m / 2 ^ l < 2 ^ 1024 := lt_of_le_of_lt (div_le_self hm0 hpow) hv.2
      rw [div_fin hr0.ne' (div_ge_one_lt r1 hlt1 hr1)]
      have h2 : ((4 * p : ℕ) : ℚ) ≤ roundMag (m / 2 ^ l / r) := by
        have hrep : Rep ((4 * p : ℕ) : ℚ) := rep_nat (by omega)
        rw [← roundMag_rep hrep]
        apply roundMag_mono
        rw [le_div_iff₀ hr0]
        refine le_trans (le_of_eq ?_) h1
        push_cast; ring
      have hlt2 := div_ge_one_lt r1 hlt1 hr1
      rw [div_fin hp0.ne' (div_ge_one_lt (rep_roundMag _) hlt2 hp1)]
      have h3 : (4 : ℚ) ≤ roundMag (roundMag (m / 2 ^ l / r) / p) := by
        have hrep : Rep ((4 : ℕ) : ℚ) := rep_nat (by norm_num)
        have : ((4 : ℕ) : ℚ) ≤ roundMag (roundMag (m / 2 ^ l / r) / p) := by
          rw [← roundMag_rep hrep]
          apply roundMag_mono
          rw [le_div_iff₀ hp0]
          refine le_trans (le_of_eq ?_) h2
          push_cast; ring
        exact_mod_cast this
      simp only [F64.lt, val, Bool.false_eq_true, if_false, decide_eq_false_iff_not, not_lt]
      exact h3

theorem roundMag_up {q : ℚ} (h : (2 : ℚ) ^ (-1022 : ℤ) ≤ q) :
    roundMag q ≤ q * (1 + 1 / 2 ^ 53) := by
  have := (abs_le.1 (roundMag_near h)).2
  linarith

theorem le_of_roundMag_ge {q c : ℚ} (hc : 1 ≤ c) (h : c ≤ roundMag q) :
    c ≤ q * (1 + 1 / 2 ^ 53) ∧ 1 / 2 ≤ q := by
  have hq : (1 / 2 : ℚ) ≤ q := by
    by_contra hcon
    push Not at hcon
    have h1 : roundMag q ≤ (2 : ℚ) ^ (-1 : ℤ) :=
      roundMag_le_pow (by norm_num) (by norm_num; linarith)
    norm_num at h1
    linarith
  refine ⟨h.trans (roundMag_up (le_trans ?_ hq)), hq⟩
  calc (2 : ℚ) ^ (-1022 : ℤ) ≤ 2 ^ (-1 : ℤ) := zpow_le_zpow_right₀ (by norm_num) (by norm_num)
    _ = 1 / 2 := by norm_num

/-- Conversely, when the time test passes the operations fit up to three roundings. -/
theorem le_of_not_slow {ops : F64} (hv : ops.Valid) {l r p : Nat} (hl : l < 64) (hr : 0 < r)
    (hp : 0 < p) (hrp : r * p < 2 ^ 30)
    (hs : F64.lt (opsRatio ops (2 ^ l) r p) (F64.ofNat 4) = false) :
    ops = nan ∨ ops = inf false ∨
      ∃ m, ops = fin false m ∧ ((4 * 2 ^ l * r * p : ℕ) : ℚ) ≤ m * (1 + 1 / 2 ^ 53) ^ 3 := by
  have hr30 : r < 2 ^ 30 := lt_of_le_of_lt (Nat.le_mul_of_pos_right r hp) hrp
  have hp30 : p < 2 ^ 30 := lt_of_le_of_lt (Nat.le_mul_of_pos_left p hr) hrp
  have er : F64.ofNat r = fin false r := ofNat_small (by omega)
  have ep : F64.ofNat p = fin false p := ofNat_small (by omega)
  have hr0 : (0 : ℚ) < r := by exact_mod_cast hr
  have hp0 : (0 : ℚ) < p := by exact_mod_cast hp
  have hr1 : (1 : ℚ) ≤ r := by exact_mod_cast hr
  have hp1 : (1 : ℚ) ≤ p := by exact_mod_cast hp
  unfold opsRatio at hs
  rw [er, ep, ofNat_four, ofNat_pow hl] at hs
  have hp2 : (0 : ℚ) < 2 ^ l := by positivity
  have hpow : (1 : ℚ) ≤ 2 ^ l := one_le_pow₀ (by norm_num)
  cases ops with
  | nan => left; rfl
  | inf s =>
    cases s with
    | false => right; left; rfl
    | true => simp [F64.div, F64.lt] at hs
  | fin s m =>
    right; right
    have hm0 := hv.1.nonneg
    cases s with
    | true =>
      exfalso
      have hA : roundMag (m / 2 ^ l) < 2 ^ 1024 := div_ge_one_lt hv.1 hv.2 hpow
      have hB := div_ge_one_lt (rep_roundMag (m / 2 ^ l)) hA hr1
      have hC := div_ge_one_lt (rep_roundMag (roundMag (m / 2 ^ l) / r)) hB hp1
      have hn := roundMag_nonneg (roundMag (roundMag (m / 2 ^ l) / r) / p)
      simp only [F64.div] at hs
      rw [if_neg hp2.ne', round_small hA] at hs
      simp only at hs
      rw [if_neg hr0.ne', round_small hB] at hs
      simp only at hs
      rw [if_neg hp0.ne', round_small hC] at hs
      simp [F64.lt, val] at hs
      linarith
    | false =>
      refine ⟨m, rfl, ?_⟩
      have hA : roundMag (m / 2 ^ l) < 2 ^ 1024 := div_ge_one_lt hv.1 hv.2 hpow
      have hB := div_ge_one_lt (rep_roundMag (m / 2 ^ l)) hA hr1
      have hC := div_ge_one_lt (rep_roundMag (roundMag (m / 2 ^ l) / r)) hB hp1
      rw [div_fin hp2.ne' hA, div_fin hr0.ne' hB, div_fin hp0.ne' hC] at hs
      simp only [F64.lt, val, Bool.false_eq_true, if_false, decide_eq_false_iff_not, not_lt] at hs
      obtain ⟨h1, -⟩ := le_of_roundMag_ge (by norm_num) hs
      set ε : ℚ := 1 + 1 / 2 ^ 53 with hε
      have hε1 : 1 ≤ ε := by rw [hε]; norm_num
      have hε0 : 0 < ε := by linarith
      have h1' : 4 * p / ε ≤ roundMag (roundMag (m / 2 ^ l) / r) := by
        rw [div_le_iff₀ hε0]
        have : 4 * (p : ℚ) ≤ roundMag (roundMag (m / 2 ^ l) / r) / p * ε * p := by gcongr
        calc 4 * (p : ℚ) ≤ roundMag (roundMag (m / 2 ^ l) / r) / p * ε * p := this
          _ = _ := by field_simp
      have hε2 : ε ≤ 2 := by rw [hε]; norm_num
      have hone : 1 ≤ 4 * (p : ℚ) / ε := by
        rw [le_div_iff₀ hε0]; linarith
      obtain ⟨h2, -⟩ := le_of_roundMag_ge hone h1'
      have h2' : 4 * p * r / ε ^ 2 ≤ roundMag (m / 2 ^ l) := by
        rw [div_le_iff₀ (by positivity)]
        rw [div_le_iff₀ hε0] at h2
        have : 4 * (p : ℚ) * r ≤ roundMag (m / 2 ^ l) / r * ε * ε * r := by gcongr
        calc 4 * (p : ℚ) * r ≤ roundMag (m / 2 ^ l) / r * ε * ε * r := this
          _ = _ := by field_simp
      have hε4 : ε ^ 2 ≤ 4 := by nlinarith
      have hone2 : 1 ≤ 4 * (p : ℚ) * r / ε ^ 2 := by
        rw [le_div_iff₀ (by positivity)]
        nlinarith
      obtain ⟨h3, -⟩ := le_of_roundMag_ge hone2 h2'
      rw [div_le_iff₀ (by positivity)] at h3
      push_cast
      have : 4 * (p : ℚ) * r * 2 ^ l ≤ m / 2 ^ l * ε * ε ^ 2 * 2 ^ l := by gcongr
      calc 4 * (2 : ℚ) ^ l * r * p = 4 * (p : ℚ) * r * 2 ^ l := by ring
        _ ≤ m / 2 ^ l * ε * ε ^ 2 * 2 ^ l := this
        _ = m * ε ^ 3 := by field_simp

end Scrypt
