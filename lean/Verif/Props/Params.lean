import Verif.Proofs.Params
import Verif.Proofs.Memlimit
import Verif.Proofs.Cpuperf
import Verif.Proofs.Humansize
/-
C11 - C14, C17, C45: choosing and checking parameters, the memory limit, the CPU estimate.
-/
namespace Scrypt.Props
open Scrypt Spec F64

set_option exponentiation.threshold 1100

/-! ### C17: the memory limit -/

/-- C17. A value delivered by memtouse is at least 1 MiB, at most max(maxmem, 1 MiB) if a maximum was
given, and at most `maxmemfrac` times every limit the system reports (up to the two roundings of the
double arithmetic) or 1 MiB. -/
theorem C17_bounds {szMax : Nat} (hsz : IsSizeMax szMax) (cfg : MemCfg) (sys : MemSys) (maxmem : Nat)
    (f : F64) (hv : f.Valid) {m : Nat} (h : memtouse szMax cfg sys maxmem f = .ok (some m)) :
    ∃ q, f = fin false q ∧ 0 < q ∧ q ≤ 1 ∧
      1048576 ≤ m ∧ m ≤ szMax ∧ (0 < maxmem → m ≤ max 1048576 maxmem) ∧
      ∀ n, SysLimit szMax cfg sys n → (m : ℚ) ≤ max 1048576 (q * n * (1 + 1 / 2 ^ 53) ^ 2) := by
  have hq : ∃ q, f = fin false q ∧ 0 < q ∧ q ≤ 1 := by
    by_contra hc
    rw [(memtouse_abort_iff hv).2 hc] at h
    simp at h
  obtain ⟨q, rfl, h0, h1⟩ := hq
  have hb := memtouse_bounds hsz h
  have hs20 : 1048576 ≤ szMax := by rcases hsz with h | h <;> rw [h] <;> norm_num
  obtain ⟨qq, a, -, -, hm⟩ := memtouse_ok h
  have hc := memClip_bounds maxmem a
  refine ⟨q, rfl, h0, h1, hb.1, by omega, ?_, fun n hn => memtouse_frac hsz h1 h hn⟩
  intro hpos
  rw [hm]; exact hc.2.2.1 hpos

/-- C17. The value is not needlessly small: it is 1 MiB, `maxmem`, or at least `maxmemfrac` times the
smallest limit the system reports (or `SIZE_MAX` if it reports none), rounded down. -/
theorem C17_not_less {szMax : Nat} (hsz : IsSizeMax szMax) (cfg : MemCfg) (sys : MemSys) (maxmem : Nat)
    {q : ℚ} (hq1 : q ≤ 1) {m : Nat}
    (h : memtouse szMax cfg sys maxmem (fin false q) = .ok (some m)) :
    m = 1048576 ∨ m = maxmem ∨
      ∃ n, (SysLimit szMax cfg sys n ∨ n = szMax) ∧
        (∀ n', SysLimit szMax cfg sys n' → n ≤ n') ∧ (m : ℤ) = ⌊roundMag (q * roundMag n)⌋ := by
  obtain ⟨qq, a, hqq, ha, hm⟩ := memtouse_ok h
  have hs64 : szMax < 2 ^ 64 := by rcases hsz with h | h <;> rw [h] <;> norm_num
  obtain ⟨hk, hle, hlim⟩ := memMin_spec (by omega) hqq
  rw [(mul_frac hq1 (by omega : memMin szMax qq < 2 ^ 64)).1] at ha
  obtain ⟨s, v, hx, -, -, hfl⟩ := toUnsigned_ok ha
  obtain ⟨rfl, rfl⟩ := F64.fin.inj hx
  have hav := hfl rfl (roundMag_nonneg _)
  have hmm : m = 1048576 ∨ m = maxmem ∨ m = a := by
    rw [hm]; unfold memClip; simp only; split_ifs <;> omega
  rcases hmm with h1 | h1 | h1
  · exact .inl h1
  · exact .inr (.inl h1)
  · refine .inr (.inr ⟨memMin szMax qq, ?_, hle, by rw [h1]; exact hav⟩)
    rcases Nat.lt_or_ge (memMin szMax qq) szMax with h2 | h2
    · exact .inl (hlim h2)
    · exact .inr (by omega)

/-- C17. A failing system query gives an error, and nothing else does (for a valid fraction). -/
theorem C17_error_iff (szMax : Nat) (cfg : MemCfg) (sys : MemSys) (maxmem : Nat) {f : F64} (hv : f.Valid)
    (hf : ∃ q, f = fin false q ∧ 0 < q ∧ q ≤ 1) :
    memtouse szMax cfg sys maxmem f = .ok none ↔ QueryFailed cfg sys := by
  rw [← memQueries_none (szMax := szMax)]
  unfold memtouse
  rw [(frac_iff hv).2 hf]
  simp only [cassert_true, Res.bind_ok]
  cases hq : memQueries szMax cfg sys with
  | none => simp
  | some q =>
    simp only [reduceCtorEq, iff_false]
    intro h
    rw [Res.bind_eq_ok] at h
    obtain ⟨a, -, h⟩ := h
    simp at h

/-- C17. For every fraction up to 1/2 (what the command line allows) the computation is defined. -/
theorem C17_defined {szMax : Nat} (hsz : IsSizeMax szMax) (cfg : MemCfg) (sys : MemSys) (maxmem : Nat)
    {q : ℚ} (h0 : 0 < q) (h1 : q ≤ 1 / 2) (hrep : Rep q) :
    ∃ r, memtouse szMax cfg sys maxmem (fin false q) = .ok r ∧ (r = none ↔ QueryFailed cfg sys) := by
  obtain ⟨r, hr⟩ := memtouse_defined hsz (cfg := cfg) (sys := sys) (maxmem := maxmem) h0 h1 hrep
  refine ⟨r, hr, ?_⟩
  rw [← C17_error_iff szMax cfg sys maxmem (f := fin false q) ⟨hrep, lt_of_le_of_lt h1 (by norm_num)⟩
    ⟨q, rfl, h0, by linarith⟩, hr]
  simp

/-- C17. The assertion fails exactly for fractions that are not in (0, 1] (NaN included). -/
theorem C17_abort_iff (szMax : Nat) (cfg : MemCfg) (sys : MemSys) (maxmem : Nat) {f : F64} (hv : f.Valid) :
    memtouse szMax cfg sys maxmem f = .abort ↔ ¬ ∃ q, f = fin false q ∧ 0 < q ∧ q ≤ 1 :=
  memtouse_abort_iff hv

/-- A system on which nothing but the address-space limit is queried. -/
def exCfg : MemCfg :=
  { hwUsermem := false, hwMemsize := false, sysinfo := false, memUnit := false, rlimitAs := true,
    rlimitData := false, rlimitRss := false, physPages := false }

/-- Its answers: the given address-space limit. -/
def exMem (r : Rlim) : MemSys :=
  { sysctlUsermem := none, sysctlMemsize := none, sysinfo := none, rlimAs := r, rlimData := .fail,
    rlimRss := .fail, pageSize := 0, physPages := 0, scErr := .zero }

/-- The fraction 1/8 as a double. -/
theorem rep_eighth : Rep (1 / 8) := ⟨1, -3, by norm_num, by norm_num, by norm_num⟩

theorem exMem_noFail {r : Rlim} (hr : r ≠ .fail) : ¬ QueryFailed exCfg (exMem r) := by
  simp [QueryFailed, exCfg, exMem, hr]

/-- Non-vacuity for C17: with an 8 MiB address-space limit and fraction 1/8, the limit exists and
C17_bounds makes it exactly 1 MiB. -/
example : memtouse (2 ^ 64 - 1) exCfg (exMem (.cur (8 * 1048576))) 0 (fin false (1 / 8)) = .ok (some 1048576) := by
  have hv : (fin false (1 / 8)).Valid := ⟨rep_eighth, by norm_num⟩
  obtain ⟨r, hr, hn⟩ := C17_defined (szMax := 2 ^ 64 - 1) (Or.inr rfl) exCfg (exMem (.cur (8 * 1048576))) 0
    (q := 1 / 8) (by norm_num) (by norm_num) rep_eighth
  cases r with
  | none => exact absurd (hn.1 rfl) (exMem_noFail (by simp))
  | some m =>
    rw [hr]
    obtain ⟨q, hq, -, -, h1, -, -, h2⟩ := C17_bounds (Or.inr rfl) _ _ _ _ hv hr
    obtain ⟨-, rfl⟩ := F64.fin.inj hq
    have h3 := h2 8388608 (Or.inl ⟨rfl, _, rfl, by decide⟩)
    have h4 : (m : ℚ) < 1048577 := by refine lt_of_le_of_lt h3 ?_; norm_num
    have h5 : m < 1048577 := by exact_mod_cast h4
    congr 2; omega

/-- Finding F6: with fraction 1 and no limit at all the conversion to size_t is undefined (the command
line cannot ask for a fraction above 1/2). -/
theorem C17_F6_witness (maxmem : Nat) :
    memtouse (2 ^ 64 - 1) exCfg (exMem .infinity) maxmem (F64.ofNat 1) = .ub := by
  have e1 : F64.ofNat 1 = fin false 1 := by
    have := ofNat_small (n := 1) (by norm_num); exact_mod_cast this
  have hv : (F64.ofNat 1).Valid := valid_round _ _
  have hq : memQueries (2 ^ 64 - 1) exCfg (exMem .infinity) =
      some (2 ^ 64 - 1, 2 ^ 64 - 1, 2 ^ 64 - 1, 2 ^ 64 - 1, 2 ^ 64 - 1) := by decide
  have hmin : memMin (2 ^ 64 - 1) (2 ^ 64 - 1, 2 ^ 64 - 1, 2 ^ 64 - 1, 2 ^ 64 - 1, 2 ^ 64 - 1) = 2 ^ 64 - 1 := by decide
  unfold memtouse
  rw [(frac_iff hv).2 ⟨1, e1, by norm_num, le_rfl⟩]
  simp only [cassert_true, Res.bind_ok, hq, hmin]
  rw [e1, (mul_frac le_rfl (by norm_num)).1]
  have hr : roundMag ((2 ^ 64 - 1 : ℕ) : ℚ) = 2 ^ 64 := by
    have hlog : Int.log 2 ((2 ^ 64 - 1 : ℕ) : ℚ) = 63 := by
      rw [Int.log_natCast]
      have : Nat.log 2 (2 ^ 64 - 1) = 63 := (Nat.log_eq_iff (by norm_num)).2 (by norm_num)
      rw [this]; rfl
    have hu : ulpExp ((2 ^ 64 - 1 : ℕ) : ℚ) = 11 := by unfold ulpExp; rw [hlog]; norm_num
    unfold roundMag
    rw [if_neg (by norm_num), hu]
    have hfl : ⌊((2 ^ 64 - 1 : ℕ) : ℚ) / (2 : ℚ) ^ (11 : ℤ)⌋ = 2 ^ 53 - 1 := by
      rw [Int.floor_eq_iff]; norm_num
    unfold roundEven
    rw [hfl, if_neg (by norm_num), if_pos (by norm_num)]
    norm_num
  have h1 : roundMag (1 * roundMag ((2 ^ 64 - 1 : ℕ) : ℚ)) = 2 ^ 64 := by
    rw [one_mul, hr]; exact roundMag_rep rep_pow
  rw [h1]
  have hfl : ⌊(2 ^ 64 : ℚ)⌋ = 2 ^ 64 := by
    have := Int.floor_natCast (R := ℚ) (2 ^ 64); push_cast at this; exact this
  simp only [toUnsigned, hfl]
  norm_num

/-! ### C11, C12: the parameters chosen -/

theorem leExact_floor (n : ℕ) {x : F64} (hx : x ≠ nan) (hv : x.Valid) :
    LeExact n (opsFloor x) ↔ LeExact n x ∨ n ≤ 32768 := by
  have h32768 : F64.ofNat 32768 = fin false 32768 := by
    have := ofNat_small (n := 32768) (by norm_num); exact_mod_cast this
  have hn : (n : ℚ) ≤ 32768 ↔ n ≤ 32768 := by
    constructor
    · intro h; exact_mod_cast h
    · intro h; exact_mod_cast h
  unfold opsFloor
  rw [h32768]
  cases x with
  | nan => exact absurd rfl hx
  | inf s => cases s <;> simp [F64.lt, LeExact, val, hn]
  | fin s m =>
    by_cases h : F64.lt (fin s m) (fin false 32768) = true
    · rw [if_pos h]
      simp only [F64.lt, val, decide_eq_true_eq, Bool.false_eq_true, if_false] at h
      simp only [LeExact, val, Bool.false_eq_true, if_false]
      rw [hn]
      constructor
      · exact .inr
      · rintro (h' | h')
        · rw [← hn]; linarith
        · exact h'
    · rw [if_neg h]
      simp only [F64.lt, val, decide_eq_true_eq, Bool.false_eq_true, if_false, not_lt] at h
      simp only [LeExact, val]
      constructor
      · exact .inl
      · rintro (h' | h')
        · exact h'
        · have := hn.2 h'; linarith

theorem opsFloor_ne_nan {x : F64} (h : x ≠ nan) : opsFloor x ≠ nan := by
  have h32768 : F64.ofNat 32768 = fin false 32768 := by
    have := ofNat_small (n := 32768) (by norm_num); exact_mod_cast this
  unfold opsFloor
  split_ifs
  · rw [h32768]; simp
  · exact h

theorem lt_nan (x : F64) : F64.lt x nan = false := by cases x <;> rfl

theorem pickNP_nan (m : Nat) : pickNP m nan = .ub := by
  unfold pickNP
  have : F64.lt nan (F64.div (F64.ofNat m) (F64.ofNat 32)) = false := rfl
  rw [if_neg (by rw [this]; simp)]
  have h1 : F64.div nan (F64.ofNat 4) = nan := rfl
  have h2 : ∀ y, F64.div nan y = nan := fun _ => rfl
  have h3 : rpCap nan = nan := by unfold rpCap; rw [lt_nan]; rfl
  simp only [h1, h2, h3, toUnsigned, Res.bind_ub]

/-- The verbose display cannot go wrong when its two allocations succeed. -/
theorem display_ok (env : DispEnv) (h1 : env.asprintf1 = true) (h2 : env.asprintf2 = true) (logN : Int)
    (hl : 1 ≤ logN ∧ logN ≤ 63) (r p : W32) (m : Nat) (opps maxtime : F64) :
    ∃ t, display_params env logN r p m opps maxtime = .ok t := by
  obtain ⟨d1, e1, -⟩ := humansize_spec (BitVec.ofNat 64 m)
  obtain ⟨d2, e2, -⟩ := humansize_spec ((128 * r).setWidth 64 * (1 : W64) <<< logN.toNat)
  unfold display_params
  rw [if_neg (by omega)]
  simp only [h1, h2, e1, e2, Res.bind_ok, fmtS, dispAvail]
  split_ifs <;> exact ⟨_, rfl⟩

theorem pickparams_ok {sys : ParamSys} {maxmem : Nat} {f maxtime : F64} {verbose : Bool} {out : PickOut}
    (h : pickparams sys maxmem f maxtime verbose = .ok out) (hrc : out.rc = .OK) :
    ∃ m l p, memtouse sys.szMax sys.cfg sys.mem maxmem f = .ok (some m) ∧
      sys.perf.1 = .OK ∧ F64.mul sys.perf.2 maxtime ≠ nan ∧
      pickNP m (opsFloor (F64.mul sys.perf.2 maxtime)) = .ok (l, p) ∧ out.val = some (l, 8, p) := by
  unfold pickparams at h
  rw [Res.bind_eq_ok] at h
  obtain ⟨r, hr, h⟩ := h
  cases r with
  | none => injection h with h; subst h; simp at hrc
  | some m =>
    simp only at h
    split_ifs at h with hp
    · injection h with h; subst h; exact absurd hrc hp
    · rw [Res.bind_eq_ok] at h
      obtain ⟨np, hnp, h⟩ := h
      rw [Res.bind_eq_ok] at h
      obtain ⟨t, -, h⟩ := h
      injection h with h; subst h
      refine ⟨m, np.1, np.2, hr, not_not.1 hp, ?_, hnp, rfl⟩
      intro hnan
      rw [hnan] at hnp
      have : opsFloor nan = nan := rfl
      rw [this, pickNP_nan] at hnp
      simp at hnp

/-- C11. Whenever parameters are chosen automatically, they are valid scrypt parameters with r = 8 whose
memory need is within the memory limit and whose CPU need is within the CPU budget. -/
theorem C11_within_limits (sys : ParamSys) (hsz : IsSizeMax sys.szMax) (maxmem : Nat) (f maxtime : F64)
    (verbose : Bool) {out : PickOut} (h : pickparams sys maxmem f maxtime verbose = .ok out)
    (hrc : out.rc = .OK) :
    ∃ logN p memlimit : Nat, out.val = some (logN, 8, p) ∧
      memtouse sys.szMax sys.cfg sys.mem maxmem f = .ok (some memlimit) ∧
      GoodParams logN 8 p ∧ memNeed (2 ^ logN) 8 ≤ memlimit ∧
      WithinBudget sys.perf.2 maxtime (cpuNeed (2 ^ logN) 8 p) := by
  obtain ⟨m, l, p, hm, hp, hnn, hnp, hv⟩ := pickparams_ok h hrc
  obtain ⟨hb1, hb2, -⟩ := memtouse_bounds hsz hm
  have hval := valid_mul sys.perf.2 maxtime
  have hops := (opsFloor_cases _ hval).resolve_left (opsFloor_ne_nan hnn)
  obtain ⟨l', p', e, h1, h2, h3, h4, h5, h6, -⟩ := pickNP_spec hb1 hb2 hops
  rw [e] at hnp; injection hnp with hnp; obtain ⟨rfl, rfl⟩ := Prod.mk.inj hnp
  refine ⟨l', p', m, hv, hm, ⟨by omega, by omega, by norm_num, h3, h4⟩, ?_, ?_⟩
  · unfold memNeed; omega
  · unfold WithinBudget cpuNeed
    rw [← leExact_floor _ hnn hval]
    convert h6 using 2
    ring_nf

/-- C11. Choosing succeeds whenever the memory limit and the CPU estimate are available and the product
of speed and time limit is a number. -/
theorem C11_total (sys : ParamSys) (hsz : IsSizeMax sys.szMax) (maxmem : Nat) (f maxtime : F64)
    (verbose : Bool) {m : Nat} (hm : memtouse sys.szMax sys.cfg sys.mem maxmem f = .ok (some m))
    (hp : sys.perf.1 = .OK) (hnn : F64.mul sys.perf.2 maxtime ≠ nan)
    (hv : verbose = true → sys.disp.asprintf1 = true ∧ sys.disp.asprintf2 = true) :
    ∃ out, pickparams sys maxmem f maxtime verbose = .ok out ∧ out.rc = .OK := by
  obtain ⟨hb1, hb2, -⟩ := memtouse_bounds hsz hm
  have hops := (opsFloor_cases _ (valid_mul sys.perf.2 maxtime)).resolve_left (opsFloor_ne_nan hnn)
  obtain ⟨l', p', e, h1, h2, -⟩ := pickNP_spec hb1 hb2 hops
  have hd : ∃ t, verboseText verbose (display_params sys.disp (l' : ℤ) 8 (BitVec.ofNat 32 p') m
      sys.perf.2 maxtime) = .ok t := by
    cases verbose with
    | false => exact ⟨[], rfl⟩
    | true =>
      obtain ⟨a1, a2⟩ := hv rfl
      exact display_ok _ a1 a2 _ (by omega) _ _ _ _ _
  obtain ⟨t, ht⟩ := hd
  refine ⟨⟨.OK, some (l', 8, p'), t⟩, ?_, rfl⟩
  unfold pickparams
  simp only [hm, Res.bind_ok, hp, ne_eq, not_true_eq_false, if_false, e, ht]

/-- C11. The failure codes: ELIMIT when the memory limit cannot be determined, otherwise the code of the
CPU measurement; nothing is chosen then. -/
theorem C11_errors (sys : ParamSys) (maxmem : Nat) (f maxtime : F64) (verbose : Bool) :
    (memtouse sys.szMax sys.cfg sys.mem maxmem f = .ok none →
      pickparams sys maxmem f maxtime verbose = .ok ⟨.ELIMIT, none, []⟩) ∧
    (∀ m, memtouse sys.szMax sys.cfg sys.mem maxmem f = .ok (some m) → sys.perf.1 ≠ .OK →
      pickparams sys maxmem f maxtime verbose = .ok ⟨sys.perf.1, none, []⟩) := by
  constructor
  · intro h; unfold pickparams; rw [h]; rfl
  · intro m h hp
    unfold pickparams; rw [h, Res.bind_ok]; simp only; rw [if_pos hp]

/-- C12. The chosen parameters are maximal: either p = 1 and doubling N exceeds the CPU budget, or
doubling N exceeds the memory limit and one more p exceeds the CPU budget or the bound r*p < 2^30. -/
theorem C12_maximal (sys : ParamSys) (hsz : IsSizeMax sys.szMax) (maxmem : Nat) (f maxtime : F64)
    (verbose : Bool) {out : PickOut} (h : pickparams sys maxmem f maxtime verbose = .ok out)
    (hrc : out.rc = .OK) :
    ∃ logN p memlimit : Nat, out.val = some (logN, 8, p) ∧
      memtouse sys.szMax sys.cfg sys.mem maxmem f = .ok (some memlimit) ∧
      ((p = 1 ∧ ¬ WithinBudget sys.perf.2 maxtime (cpuNeed (2 * 2 ^ logN) 8 p)) ∨
       (memlimit < memNeed (2 * 2 ^ logN) 8 ∧
         (2 ^ 30 ≤ 8 * (p + 1) ∨
          ¬ WithinBudget sys.perf.2 maxtime (cpuNeed (2 ^ logN) 8 (p + 1))))) := by
  obtain ⟨m, l, p, hm, hp, hnn, hnp, hv⟩ := pickparams_ok h hrc
  obtain ⟨hb1, hb2, -⟩ := memtouse_bounds hsz hm
  have hval := valid_mul sys.perf.2 maxtime
  have hops := (opsFloor_cases _ hval).resolve_left (opsFloor_ne_nan hnn)
  obtain ⟨l', p', e, h1, h2, h3, h4, h5, h6, h7⟩ := pickNP_spec hb1 hb2 hops
  rw [e] at hnp; injection hnp with hnp; obtain ⟨rfl, rfl⟩ := Prod.mk.inj hnp
  refine ⟨l', p', m, hv, hm, ?_⟩
  unfold WithinBudget cpuNeed memNeed
  rw [← leExact_floor _ hnn hval, ← leExact_floor _ hnn hval]
  rcases h7 with ⟨a, b⟩ | ⟨a, b⟩
  · refine .inl ⟨a, ?_⟩
    subst a
    convert b using 3
    ring_nf
  · refine .inr ⟨by rw [pow_succ] at a; omega, b.imp id ?_⟩
    intro hb
    convert hb using 3
    ring_nf

/-- A concrete system: 1 GiB address-space limit, a CPU doing a million operations a second. -/
def exSys : ParamSys :=
  { szMax := 2 ^ 64 - 1, cfg := exCfg, mem := exMem (.cur (2 ^ 30)), perf := (.OK, F64.ofNat 1000000),
    disp := { asprintf1 := true, asprintf2 := true, fmt1f := fun _ => [] } }

theorem exSys_mem : ∃ m, memtouse exSys.szMax exSys.cfg exSys.mem 0 (fin false (1 / 8)) = .ok (some m) := by
  obtain ⟨r, hr, hn⟩ := C17_defined (szMax := exSys.szMax) (Or.inr rfl) exSys.cfg exSys.mem 0
    (q := 1 / 8) (by norm_num) (by norm_num) rep_eighth
  cases r with
  | none => exact absurd (hn.1 rfl) (exMem_noFail (by simp))
  | some m => exact ⟨m, hr⟩

theorem exSys_ops : F64.mul exSys.perf.2 (F64.ofNat 5) = fin false 5000000 := by
  have e1 : F64.ofNat 1000000 = fin false 1000000 := by
    have := ofNat_small (n := 1000000) (by norm_num); exact_mod_cast this
  have e5 : F64.ofNat 5 = fin false 5 := by
    have := ofNat_small (n := 5) (by norm_num); exact_mod_cast this
  show F64.mul (F64.ofNat 1000000) (F64.ofNat 5) = _
  rw [e1, e5]
  have hr : Rep (5000000 : ℚ) := by
    have := rep_nat (n := 5000000) (by norm_num); exact_mod_cast this
  simp only [F64.mul]
  norm_num
  rw [round_small] <;> rw [roundMag_rep hr]
  norm_num

/-- Non-vacuity for C11 and C12: on that system with a 5 second limit parameters are chosen. -/
example : ∃ out, pickparams exSys 0 (fin false (1 / 8)) (F64.ofNat 5) true = .ok out ∧ out.rc = .OK := by
  obtain ⟨m, hm⟩ := exSys_mem
  exact C11_total exSys (Or.inr rfl) 0 _ _ true hm rfl (by rw [exSys_ops]; simp) (fun _ => ⟨rfl, rfl⟩)

/-- Finding F3: a NaN time limit (the command line lets `-t nan` through) makes choosing parameters
undefined. -/
theorem C11_F3_witness (sys : ParamSys) (maxmem : Nat) (f : F64) (verbose : Bool) {m : Nat}
    (hm : memtouse sys.szMax sys.cfg sys.mem maxmem f = .ok (some m)) (hp : sys.perf.1 = .OK) :
    pickparams sys maxmem f nan verbose = .ub := by
  have h1 : F64.mul sys.perf.2 nan = nan := by cases sys.perf.2 <;> rfl
  have h2 : opsFloor nan = nan := rfl
  unfold pickparams
  simp only [hm, Res.bind_ok, hp, ne_eq, not_true_eq_false, if_false, h1, h2, pickNP_nan, Res.bind_ub]

/-! ### C13: the check -/

/-- The refusal for a combination of "needs too much memory" and "takes too long". -/
def refusal (big slow : Prop) [Decidable big] [Decidable slow] : Code :=
  if big ∧ slow then .EBIGSLOW else if big then .ETOOBIG else if slow then .ETOOSLOW else .OK

/-- The time test of the check, `(((opps * maxtime) / N) / r) / p < 4` in doubles. -/
def Slow (opps maxtime : F64) (N r p : Nat) : Prop :=
  F64.lt (F64.div (F64.div (F64.div (F64.mul opps maxtime) (F64.ofNat N)) (F64.ofNat r)) (F64.ofNat p))
    (F64.ofNat 4) = true

instance (opps maxtime : F64) (N r p : Nat) : Decidable (Slow opps maxtime N r p) :=
  inferInstanceAs (Decidable (_ = true))

theorem goodParams_iff (logN : Int) (r p : W32) :
    ¬ GoodParams logN r.toNat p.toNat ↔
      (logN < 1 ∨ logN > 63) ∨ (r.setWidth 64 * p.setWidth 64 : W64).toNat ≥ 0x40000000 ∨ (r = 0 ∨ p = 0) := by
  have hr := r.isLt
  have hp := p.isLt
  have hmul : (r.setWidth 64 * p.setWidth 64 : W64).toNat = r.toNat * p.toNat := by
    rw [BitVec.toNat_mul, BitVec.toNat_setWidth, BitVec.toNat_setWidth]
    have : r.toNat * p.toNat < 2 ^ 64 := by
      calc r.toNat * p.toNat ≤ (2 ^ 32 - 1) * (2 ^ 32 - 1) := Nat.mul_le_mul (by omega) (by omega)
        _ < _ := by norm_num
    rw [Nat.mod_eq_of_lt (by omega : r.toNat < 2 ^ 64), Nat.mod_eq_of_lt (by omega : p.toNat < 2 ^ 64),
      Nat.mod_eq_of_lt this]
  have hr0 : r = 0 ↔ r.toNat = 0 := by
    rw [← BitVec.toNat_inj]; simp
  have hp0 : p = 0 ↔ p.toNat = 0 := by
    rw [← BitVec.toNat_inj]; simp
  rw [hmul, hr0, hp0]
  unfold GoodParams
  generalize r.toNat * p.toNat = x
  omega

/-- C13. Parameters outside 1 <= logN <= 63, r >= 1, p >= 1, r*p < 2^30 (in the integers) are refused with
EINVAL before anything is measured, with or without force. -/
theorem C13_invalid (sys : ParamSys) (maxmem : Nat) (f maxtime : F64) (logN : Int) (r p : W32)
    (verbose force : Bool) (h : ¬ GoodParams logN r.toNat p.toNat) :
    checkparams sys maxmem f maxtime logN r p verbose force = .ok (.EINVAL, []) := by
  rw [goodParams_iff] at h
  unfold checkparams
  split_ifs with h1 h2 h3
  · rfl
  · rfl
  · rfl
  all_goals exact absurd h (by tauto)

/-- C13. With force, valid parameters are always accepted. -/
theorem C13_forced (sys : ParamSys) (maxmem : Nat) (f maxtime : F64) (logN : Int) (r p : W32)
    (verbose : Bool) (h : GoodParams logN r.toNat p.toNat)
    (hv : verbose = true → sys.disp.asprintf1 = true ∧ sys.disp.asprintf2 = true) :
    ∃ t, checkparams sys maxmem f maxtime logN r p verbose true = .ok (.OK, t) := by
  have hng := (not_congr (goodParams_iff logN r p)).1 (not_not.2 h)
  push Not at hng
  have hd : ∃ t, verboseText verbose (display_params sys.disp logN r p 0 (F64.ofNat 0) maxtime) = .ok t := by
    cases verbose with
    | false => exact ⟨[], rfl⟩
    | true =>
      obtain ⟨a1, a2⟩ := hv rfl
      exact display_ok _ a1 a2 _ ⟨h.1, h.2.1⟩ _ _ _ _ _
  obtain ⟨t, ht⟩ := hd
  refine ⟨t, ?_⟩
  unfold checkparams
  rw [if_neg (by omega), if_neg (by omega), if_neg (by tauto), if_pos rfl, ht]
  rfl

/-- C13. Without force, valid parameters get exactly the verdict that the memory limit and the time test
give. -/
theorem C13_verdict (sys : ParamSys) (maxmem : Nat) (f maxtime : F64) (logN : Int) (r p : W32)
    (verbose : Bool) (h : GoodParams logN r.toNat p.toNat) {m : Nat}
    (hm : memtouse sys.szMax sys.cfg sys.mem maxmem f = .ok (some m)) (hp : sys.perf.1 = .OK)
    (hv : verbose = true → sys.disp.asprintf1 = true ∧ sys.disp.asprintf2 = true) :
    ∃ t, checkparams sys maxmem f maxtime logN r p verbose false =
      .ok (refusal (memNeed (2 ^ logN.toNat) r.toNat > m)
        (Slow sys.perf.2 maxtime (2 ^ logN.toNat) r.toNat p.toNat), t) := by
  have hng := (not_congr (goodParams_iff logN r p)).1 (not_not.2 h)
  push Not at hng
  have hd : ∃ t, verboseText verbose (display_params sys.disp logN r p m sys.perf.2 maxtime) = .ok t := by
    cases verbose with
    | false => exact ⟨[], rfl⟩
    | true =>
      obtain ⟨a1, a2⟩ := hv rfl
      exact display_ok _ a1 a2 _ ⟨h.1, h.2.1⟩ _ _ _ _ _
  obtain ⟨t, ht⟩ := hd
  refine ⟨t, ?_⟩
  unfold checkparams
  rw [if_neg (by omega), if_neg (by omega), if_neg (by tauto), if_neg (by simp), hm]
  simp only [Res.bind_ok, hp, ne_eq, not_true_eq_false, if_false, ht]
  congr 2
  have hbig : (m / 2 ^ logN.toNat / r.toNat < 128) ↔ memNeed (2 ^ logN.toNat) r.toNat > m := by
    rw [big_iff h.2.2.1]; rfl
  have hslow : F64.lt (F64.div (F64.div (F64.div (F64.mul sys.perf.2 maxtime) (F64.ofNat (2 ^ logN.toNat)))
      (F64.ofNat r.toNat)) (F64.ofNat p.toNat)) (F64.ofNat 4) = true ↔
      Slow sys.perf.2 maxtime (2 ^ logN.toNat) r.toNat p.toNat := Iff.rfl
  unfold limitCode refusal
  simp only [hbig, hslow]

/-- C13. Without force, valid parameters: ELIMIT if the memory limit cannot be determined, then the code
of a failed CPU measurement. -/
theorem C13_errors (sys : ParamSys) (maxmem : Nat) (f maxtime : F64) (logN : Int) (r p : W32)
    (verbose : Bool) (h : GoodParams logN r.toNat p.toNat) :
    (memtouse sys.szMax sys.cfg sys.mem maxmem f = .ok none →
      checkparams sys maxmem f maxtime logN r p verbose false = .ok (.ELIMIT, [])) ∧
    (∀ m, memtouse sys.szMax sys.cfg sys.mem maxmem f = .ok (some m) → sys.perf.1 ≠ .OK →
      checkparams sys maxmem f maxtime logN r p verbose false = .ok (sys.perf.1, [])) := by
  have hng := (not_congr (goodParams_iff logN r p)).1 (not_not.2 h)
  push Not at hng
  constructor
  · intro hm
    unfold checkparams
    rw [if_neg (by omega), if_neg (by omega), if_neg (by tauto), if_neg (by simp), hm]
    rfl
  · intro m hm hp
    unfold checkparams
    rw [if_neg (by omega), if_neg (by omega), if_neg (by tauto), if_neg (by simp), hm]
    simp only [Res.bind_ok]
    rw [if_pos hp]

/-- C13. What the time test means: if the CPU need is at most the exact value of `opps * maxtime` the
parameters are not too slow; if they are not too slow the CPU need is at most that value times
(1 + 2^-53)^3. -/
theorem C13_time_test (opps maxtime : F64) (logN r p : Nat) (h : GoodParams logN r p) :
    (LeExact (cpuNeed (2 ^ logN) r p) (F64.mul opps maxtime) → ¬ Slow opps maxtime (2 ^ logN) r p) ∧
    (¬ Slow opps maxtime (2 ^ logN) r p →
      F64.mul opps maxtime = nan ∨ F64.mul opps maxtime = inf false ∨
      ∃ m, F64.mul opps maxtime = fin false m ∧ (cpuNeed (2 ^ logN) r p : ℚ) ≤ m * (1 + 1 / 2 ^ 53) ^ 3) := by
  obtain ⟨-, h2, h3, h4, h5⟩ := h
  have hl : logN < 64 := by omega
  constructor
  · intro hle hs
    have := not_slow_of_le (valid_mul opps maxtime) hl h3 h4 h5 hle
    unfold Slow at hs
    unfold opsRatio at this
    rw [hs] at this
    simp at this
  · intro hs
    have hs' : F64.lt (opsRatio (F64.mul opps maxtime) (2 ^ logN) r p) (F64.ofNat 4) = false := by
      unfold Slow at hs
      unfold opsRatio
      simpa using hs
    exact le_of_not_slow (valid_mul opps maxtime) hl h3 h4 h5 hs'

/-- Finding F3: with a NaN time limit nothing is ever too slow. -/
theorem C13_F3_witness (opps : F64) (N r p : Nat) : ¬ Slow opps nan N r p := by
  have h1 : F64.mul opps nan = nan := by cases opps <;> rfl
  unfold Slow
  rw [h1]
  simp [F64.div, F64.lt]

/-- Non-vacuity for C13: on the example system logN = 40, r = 8, p = 1 are refused as too big, and the
parameters logN = 10, r = 8, p = 1 are accepted as to time. -/
example : ∃ t c, checkparams exSys 0 (fin false (1 / 8)) (F64.ofNat 5) 40 8 1 false false = .ok (c, t) ∧
    (c = .EBIGSLOW ∨ c = .ETOOBIG) := by
  obtain ⟨m, hm⟩ := exSys_mem
  obtain ⟨t, ht⟩ := C13_verdict exSys 0 (fin false (1 / 8)) (F64.ofNat 5) 40 8 1 false
    (by unfold GoodParams; decide) hm rfl (by simp)
  have hv : (fin false (1 / 8)).Valid := ⟨rep_eighth, by norm_num⟩
  obtain ⟨q, hq, -, -, -, -, -, h2⟩ := C17_bounds (Or.inr rfl) _ _ _ _ hv hm
  obtain ⟨-, rfl⟩ := F64.fin.inj hq
  have h3 := h2 (2 ^ 30) (Or.inl ⟨rfl, _, rfl, by decide⟩)
  have h4 : (m : ℚ) < 2 ^ 30 := by refine lt_of_le_of_lt h3 ?_; norm_num
  have h5 : m < 2 ^ 30 := by exact_mod_cast h4
  have hbig : memNeed (2 ^ (40 : ℤ).toNat) (8 : W32).toNat > m := by
    have : memNeed (2 ^ (40 : ℤ).toNat) (8 : W32).toNat = 128 * 2 ^ 40 * 8 := by decide
    rw [this]; omega
  refine ⟨t, _, ht, ?_⟩
  unfold refusal
  by_cases hs : Slow exSys.perf.2 (F64.ofNat 5) (2 ^ (40 : ℤ).toNat) (8 : W32).toNat (1 : W32).toNat
  · left; rw [if_pos ⟨hbig, hs⟩]
  · right; rw [if_neg (by tauto), if_pos hbig]

example : ¬ Slow exSys.perf.2 (F64.ofNat 5) (2 ^ 10) 8 1 :=
  (C13_time_test _ _ 10 8 1 (by unfold GoodParams; decide)).1 (by
    rw [exSys_ops]; simp only [LeExact, val, cpuNeed]; norm_num)

/-! ### C14 -/

/-- C14. Parameters chosen automatically are accepted by the decryption check under the same limits,
provided the limits allow at least 2^15 operations. -/
theorem C14_roundtrip (sys : ParamSys) (hsz : IsSizeMax sys.szMax) (maxmem : Nat) (f maxtime : F64)
    (verbose : Bool) {out : PickOut} (h : pickparams sys maxmem f maxtime verbose = .ok out)
    (hrc : out.rc = .OK) (hops : LeExact 32768 (F64.mul sys.perf.2 maxtime)) :
    ∃ logN p : Nat, out.val = some (logN, 8, p) ∧
      checkparams sys maxmem f maxtime logN 8 (BitVec.ofNat 32 p) false false = .ok (.OK, []) := by
  obtain ⟨l, p, m, hv, hm, hg, hmem, hcpu⟩ := C11_within_limits sys hsz maxmem f maxtime verbose h hrc
  obtain ⟨m', l', p', hm', hperf, hnn, -, -⟩ := pickparams_ok h hrc
  have hp32 : (BitVec.ofNat 32 p).toNat = p := by
    have := hg.2.2.2.2
    simp only [BitVec.toNat_ofNat]; omega
  have hg' : GoodParams l (8 : W32).toNat (BitVec.ofNat 32 p).toNat := by rw [hp32]; exact hg
  obtain ⟨t, ht⟩ := C13_verdict sys maxmem f maxtime l 8 (BitVec.ofNat 32 p) false hg' hm hperf (by simp)
  refine ⟨l, p, hv, ?_⟩
  have htnil : t = [] := by
    have := ht
    unfold checkparams at this
    have hng := (not_congr (goodParams_iff l 8 (BitVec.ofNat 32 p))).1 (not_not.2 hg')
    push Not at hng
    rw [if_neg (by omega), if_neg (by omega), if_neg (by tauto), if_neg (by simp), hm] at this
    simp only [Res.bind_ok, hperf, ne_eq, not_true_eq_false, if_false, verboseText] at this
    injection this with this
    exact (Prod.mk.inj this).2.symm
  have hle : LeExact (cpuNeed (2 ^ l) 8 p) (F64.mul sys.perf.2 maxtime) := by
    rcases hcpu with h | h
    · exact h
    · have hq : ((cpuNeed (2 ^ l) 8 p : ℕ) : ℚ) ≤ 32768 := by exact_mod_cast h
      revert hops
      cases F64.mul sys.perf.2 maxtime with
      | nan => exact id
      | inf s => exact id
      | fin s v => simp only [LeExact]; intro h; exact hq.trans h
  have hslow := (C13_time_test sys.perf.2 maxtime l 8 p hg).1 hle
  rw [ht, htnil]
  have e1 : (l : ℤ).toNat = l := by simp
  have e8 : (8 : W32).toNat = 8 := rfl
  rw [e1, e8, hp32]
  unfold refusal
  rw [if_neg (by tauto), if_neg (by omega), if_neg hslow]

/-- Non-vacuity for C14. -/
example : ∃ out, pickparams exSys 0 (fin false (1 / 8)) (F64.ofNat 5) false = .ok out ∧ out.rc = .OK ∧
    LeExact 32768 (F64.mul exSys.perf.2 (F64.ofNat 5)) := by
  obtain ⟨m, hm⟩ := exSys_mem
  obtain ⟨out, h1, h2⟩ := C11_total exSys (Or.inr rfl) 0 _ (F64.ofNat 5) false hm rfl
    (by rw [exSys_ops]; simp) (by simp)
  exact ⟨out, h1, h2, by rw [exSys_ops]; simp only [LeExact, val]; norm_num⟩

/-! ### C45: the CPU estimate -/

/-- C45. Success is reported only after both loops ended: the second one after `n >= 1` derivations
that all succeeded, at the first clock reading more than the clock resolution after its start, and the
estimate is `512 * n / elapsed`. -/
theorem C45_estimate {cfg : ClkCfg} {cps : Nat} {res start1 : ClkPair} {steps1 : List PerfStep}
    {start2 : ClkPair} {steps2 : List PerfStep} {opps : F64}
    (h : scryptenc_cpuperf cfg cps res start1 steps1 start2 steps2 = some (.OK, opps)) :
    ∃ resd t0 n elapsed, monoclock_getres cfg cps res = some resd ∧ monoclock_get cfg start2 = some t0 ∧
      1 ≤ n ∧ n ≤ steps2.length ∧
      (∀ (j : Nat) (s : PerfStep), j < n → steps2[j]? = some s → s.scryptOk = true) ∧
      (∃ s t1, steps2[n - 1]? = some s ∧ monoclock_get cfg s.clk = some t1 ∧ elapsed = timeval_diff t0 t1) ∧
      F64.lt resd elapsed = true ∧
      (∀ (j : Nat) (s : PerfStep), j + 1 < n → steps2[j]? = some s →
        ∃ tj, monoclock_get cfg s.clk = some tj ∧ F64.lt resd (timeval_diff t0 tj) = false) ∧
      opps = F64.div (F64.ofNat (512 * n % 2 ^ 64)) elapsed := by
  have hclk : ∀ (t0 : Timeval) (a : ClkPair) (d : F64), getclockdiff cfg t0 a = some d →
      ∃ t1, monoclock_get cfg a = some t1 ∧ d = timeval_diff t0 t1 := by
    intro t0 a d hd
    unfold getclockdiff at hd
    cases hg : monoclock_get cfg a with
    | none => rw [hg] at hd; simp at hd
    | some t1 => rw [hg] at hd; simp at hd; exact ⟨t1, rfl, hd.symm⟩
  unfold scryptenc_cpuperf at h
  cases hres : monoclock_getres cfg cps res with
  | none => rw [hres] at h; simp at h
  | some resd =>
    rw [hres] at h; simp only at h
    cases hs1 : monoclock_get cfg start1 with
    | none => rw [hs1] at h; simp at h
    | some st =>
      rw [hs1] at h; simp only at h
      cases hl1 : perfLoop cfg st (F64.ofNat 0) 0 steps1 with
      | err c =>
        rw [hl1] at h; simp at h
        obtain ⟨k, s, -, hh, -⟩ := perfLoop_err hl1
        rcases hh with ⟨hc, -⟩ | ⟨hc, -⟩ <;> rw [hc] at h <;> simp at h
      | running => rw [hl1] at h; simp at h
      | done d1 n1 rest =>
        rw [hl1] at h; simp only at h
        unfold perfPhase2 at h
        cases hs2 : monoclock_get cfg start2 with
        | none => rw [hs2] at h; simp at h
        | some t0 =>
          rw [hs2] at h; simp only at h
          cases hl2 : perfLoop cfg t0 resd 0 steps2 with
          | err c =>
            rw [hl2] at h; simp at h
            obtain ⟨k, s, -, hh, -⟩ := perfLoop_err hl2
            rcases hh with ⟨hc, -⟩ | ⟨hc, -⟩ <;> rw [hc] at h <;> simp at h
          | running => rw [hl2] at h; simp at h
          | done d n rest2 =>
            rw [hl2] at h
            have h := (Prod.mk.inj (Option.some.inj h)).2
            obtain ⟨k, e1, e2, -, e4, e5, ⟨s, e6, e6'⟩, e7⟩ := perfLoop_done hl2
            obtain ⟨t1, g1, g2⟩ := hclk _ _ _ e6'
            refine ⟨resd, t0, n, d, rfl, rfl, by omega, by omega, ?_, ⟨s, t1, ?_, g1, g2⟩, e7, ?_, h.symm⟩
            · intro j s' hj hs'; exact e4 j s' (by omega) hs'
            · rw [show n - 1 = k by omega]; exact e6
            · intro j s' hj hs'
              obtain ⟨dj, a1, a2⟩ := e5 j s' (by omega) hs'
              obtain ⟨tj, b1, b2⟩ := hclk _ _ _ a1
              exact ⟨tj, b1, by rw [← b2]; exact a2⟩

/-- C45. A resolution that is a genuine (non-negative) time makes the measured interval positive. -/
theorem C45_positive {cfg : ClkCfg} {cps : Nat} (hc : 0 < cps) (hc2 : cps < 2 ^ 64) {res : ClkPair}
    (ha : res.NonNegTimes) {resd elapsed : F64} (hr : monoclock_getres cfg cps res = some resd)
    (hlt : F64.lt resd elapsed = true) :
    elapsed = inf false ∨ ∃ s v, elapsed = fin s v ∧ 0 < val s v := by
  have hn := getres_nonneg hc hc2 ha hr
  rcases hn with rfl | ⟨m, rfl, hm⟩
  · cases elapsed <;> simp [F64.lt] at hlt
  · cases elapsed with
    | nan => simp [F64.lt] at hlt
    | inf s => cases s <;> simp [F64.lt] at hlt; exact .inl rfl
    | fin s v =>
      right
      simp only [F64.lt, decide_eq_true_eq] at hlt
      simp only [val, Bool.false_eq_true, if_false] at hlt
      exact ⟨s, v, rfl, lt_of_le_of_lt hm hlt⟩

/-- C45. The only outcomes are success, ECLOCK and EKEY (a derivation failed). -/
theorem C45_codes {cfg : ClkCfg} {cps : Nat} {res start1 : ClkPair} {steps1 : List PerfStep}
    {start2 : ClkPair} {steps2 : List PerfStep} {c : Code} {x : F64}
    (h : scryptenc_cpuperf cfg cps res start1 steps1 start2 steps2 = some (c, x)) :
    c = .OK ∨ c = .ECLOCK ∨ (c = .EKEY ∧ ∃ s, (s ∈ steps1 ∨ s ∈ steps2) ∧ s.scryptOk = false) := by
  unfold scryptenc_cpuperf at h
  cases hres : monoclock_getres cfg cps res with
  | none => rw [hres] at h; simp at h; exact .inr (.inl h.1.symm)
  | some resd =>
    rw [hres] at h; simp only at h
    cases hs1 : monoclock_get cfg start1 with
    | none => rw [hs1] at h; simp at h; exact .inr (.inl h.1.symm)
    | some st =>
      rw [hs1] at h; simp only at h
      cases hl1 : perfLoop cfg st (F64.ofNat 0) 0 steps1 with
      | err c' =>
        rw [hl1] at h; simp at h
        obtain ⟨k, s, hk, hh, -⟩ := perfLoop_err hl1
        rcases hh with ⟨hc, hb⟩ | ⟨hc, -⟩
        · exact .inr (.inr ⟨by rw [← h.1, hc], s, .inl (List.mem_of_getElem? hk), hb⟩)
        · exact .inr (.inl (by rw [← h.1, hc]))
      | running => rw [hl1] at h; simp at h
      | done d1 n1 rest =>
        rw [hl1] at h; simp only at h
        unfold perfPhase2 at h
        cases hs2 : monoclock_get cfg start2 with
        | none => rw [hs2] at h; simp at h; exact .inr (.inl h.1.symm)
        | some t0 =>
          rw [hs2] at h; simp only at h
          cases hl2 : perfLoop cfg t0 resd 0 steps2 with
          | err c' =>
            rw [hl2] at h; simp at h
            obtain ⟨k, s, hk, hh, -⟩ := perfLoop_err hl2
            rcases hh with ⟨hc, hb⟩ | ⟨hc, -⟩
            · exact .inr (.inr ⟨by rw [← h.1, hc], s, .inr (List.mem_of_getElem? hk), hb⟩)
            · exact .inr (.inl (by rw [← h.1, hc]))
          | running => rw [hl2] at h; simp at h
          | done d n rest2 => rw [hl2] at h; exact .inl (Prod.mk.inj (Option.some.inj h)).1.symm

/-- C45. Any clock failure gives ECLOCK: the resolution query, either starting time, or a reading in the
middle of the second loop (after derivations that succeeded without the clock ticking). -/
theorem C45_clock_failure (cfg : ClkCfg) (cps : Nat) (res start1 : ClkPair) (steps1 : List PerfStep)
    (start2 : ClkPair) (steps2 : List PerfStep) :
    (monoclock_getres cfg cps res = none →
      scryptenc_cpuperf cfg cps res start1 steps1 start2 steps2 = some (.ECLOCK, nan)) ∧
    (∀ resd, monoclock_getres cfg cps res = some resd → monoclock_get cfg start1 = none →
      scryptenc_cpuperf cfg cps res start1 steps1 start2 steps2 = some (.ECLOCK, nan)) ∧
    (∀ resd t0 k s, monoclock_getres cfg cps res = some resd → monoclock_get cfg start1 = some t0 →
      steps1[k]? = some s → s.scryptOk = true → monoclock_get cfg s.clk = none →
      (∀ (j : Nat) (t : PerfStep), j < k → steps1[j]? = some t → t.scryptOk = true ∧
        ∃ tj, monoclock_get cfg t.clk = some tj ∧ F64.lt (F64.ofNat 0) (timeval_diff t0 tj) = false) →
      scryptenc_cpuperf cfg cps res start1 steps1 start2 steps2 = some (.ECLOCK, nan)) ∧
    (∀ resd t0 d n rest, monoclock_getres cfg cps res = some resd → monoclock_get cfg start1 = some t0 →
      perfLoop cfg t0 (F64.ofNat 0) 0 steps1 = .done d n rest →
      (monoclock_get cfg start2 = none →
        scryptenc_cpuperf cfg cps res start1 steps1 start2 steps2 = some (.ECLOCK, nan)) ∧
      (∀ u0 k s, monoclock_get cfg start2 = some u0 →
        steps2[k]? = some s → s.scryptOk = true → monoclock_get cfg s.clk = none →
        (∀ (j : Nat) (t : PerfStep), j < k → steps2[j]? = some t → t.scryptOk = true ∧
          ∃ tj, monoclock_get cfg t.clk = some tj ∧ F64.lt resd (timeval_diff u0 tj) = false) →
        scryptenc_cpuperf cfg cps res start1 steps1 start2 steps2 = some (.ECLOCK, nan))) := by
  have hdiff : ∀ (t0 : Timeval) (b : F64) (t : PerfStep), (∃ tj, monoclock_get cfg t.clk = some tj ∧
      F64.lt b (timeval_diff t0 tj) = false) →
      ∃ dj, getclockdiff cfg t0 t.clk = some dj ∧ F64.lt b dj = false := by
    rintro t0 b t ⟨tj, h1, h2⟩
    exact ⟨_, by unfold getclockdiff; rw [h1], h2⟩
  have hnone : ∀ (t0 : Timeval) (a : ClkPair), monoclock_get cfg a = none → getclockdiff cfg t0 a = none := by
    intro t0 a h; unfold getclockdiff; rw [h]
  refine ⟨?_, ?_, ?_, ?_⟩
  · intro h; unfold scryptenc_cpuperf; rw [h]
  · intro resd h1 h2; unfold scryptenc_cpuperf; rw [h1, h2]
  · intro resd t0 k s h1 h2 hk hs hc hb
    unfold scryptenc_cpuperf
    rw [h1, h2]
    simp only
    rw [perfLoop_clockfail hk hs (hnone _ _ hc) (fun j t hj ht =>
      ⟨(hb j t hj ht).1, hdiff _ _ _ (hb j t hj ht).2⟩)]
  · intro resd t0 d n rest h1 h2 h3
    refine ⟨?_, ?_⟩
    · intro h4
      unfold scryptenc_cpuperf
      simp only [h1, h2, h3]
      unfold perfPhase2; rw [h4]
    · intro u0 k s h4 hk hs hc hb
      unfold scryptenc_cpuperf
      simp only [h1, h2, h3]
      unfold perfPhase2
      rw [h4]
      simp only
      rw [perfLoop_clockfail hk hs (hnone _ _ hc) (fun j t hj ht =>
        ⟨(hb j t hj ht).1, hdiff _ _ _ (hb j t hj ht).2⟩)]

/-- Non-vacuity for C45: a clock with resolution zero that has advanced by a second after the second
derivation gives the estimate 1024 operations per second. -/
theorem exPerf_ok : scryptenc_cpuperf ⟨true, true⟩ 1000000 ⟨.time 0 0, .fail⟩ ⟨.time 7 0, .fail⟩
    [⟨true, ⟨.time 8 0, .fail⟩⟩] ⟨.time 8 0, .fail⟩ [⟨true, ⟨.time 8 0, .fail⟩⟩, ⟨true, ⟨.time 9 0, .fail⟩⟩] =
    some (.OK, fin false 1024) := by
  have z : F64.ofNat 0 = fin false 0 := by
    have := ofNat_small (n := 0) (by norm_num); exact_mod_cast this
  have zi : F64.ofInt 0 = fin false 0 := z
  have oi : F64.ofInt 1 = fin false 1 := by
    have := ofNat_small (n := 1) (by norm_num); exact_mod_cast this
  have k : F64.ofNat 1024 = fin false 1024 := by
    have := ofNat_small (n := 1024) (by norm_num); exact_mod_cast this
  have r0 : F64.round false 0 = fin false 0 := by
    have : ((0 : ℕ) : ℚ) = 0 := by norm_num
    have h := z; unfold F64.ofNat at h; rwa [this] at h
  have m0 : ∀ q, F64.mul (fin false 0) (F64.round false q) = fin false 0 ∨
      F64.round false q = inf false := by
    intro q
    unfold F64.round
    split_ifs
    · exact .inr rfl
    · left; simp only [F64.mul, zero_mul, bne_self_eq_false]; exact r0
  have mus : F64.mul (fin false 0) (F64.round false (1 / 10 ^ 6)) = fin false 0 := by
    refine (m0 _).resolve_right ?_
    rw [round_small (roundMag_lt (e := 0) (by norm_num) (by norm_num))]; simp
  have mns : F64.mul (fin false 0) (F64.round false (1 / 10 ^ 9)) = fin false 0 := by
    refine (m0 _).resolve_right ?_
    rw [round_small (roundMag_lt (e := 0) (by norm_num) (by norm_num))]; simp
  have a00 : F64.add (fin false 0) (fin false 0) = fin false 0 := by simp [F64.add, val]
  have a10 : F64.add (fin false 1) (fin false 0) = fin false 1 := by
    simp only [F64.add, val]
    norm_num
    have h := oi
    unfold F64.ofInt at h
    norm_num at h
    exact h
  have hres : monoclock_getres ⟨true, true⟩ 1000000 ⟨.time 0 0, .fail⟩ = some (fin false 0) := by
    unfold monoclock_getres resDouble
    rw [if_pos rfl]
    simp only [zi, mns, a00]
  have hg : ∀ s : Int, monoclock_get ⟨true, true⟩ ⟨.time s 0, .fail⟩ = some ⟨s, 0⟩ := fun s => rfl
  have hd : ∀ a b : Int, getclockdiff ⟨true, true⟩ ⟨a, 0⟩ ⟨.time b 0, .fail⟩ =
      some (F64.add (F64.ofInt (b - a)) (fin false 0)) := by
    intro a b
    unfold getclockdiff
    rw [hg]
    simp only [timeval_diff, sub_self, zi, mus]
  have d0 : getclockdiff ⟨true, true⟩ ⟨8, 0⟩ ⟨.time 8 0, .fail⟩ = some (fin false 0) := by
    rw [hd]; simp only [sub_self, zi, a00]
  have d1 : getclockdiff ⟨true, true⟩ ⟨7, 0⟩ ⟨.time 8 0, .fail⟩ = some (fin false 1) := by
    rw [hd]; simp only [show (8 : ℤ) - 7 = 1 by norm_num, oi, a10]
  have d2 : getclockdiff ⟨true, true⟩ ⟨8, 0⟩ ⟨.time 9 0, .fail⟩ = some (fin false 1) := by
    rw [hd]; simp only [show (9 : ℤ) - 8 = 1 by norm_num, oi, a10]
  have l0 : F64.lt (fin false 0) (fin false 0) = false := by simp [F64.lt]
  have l1 : F64.lt (fin false 0) (fin false 1) = true := by simp [F64.lt, val]
  have dv : F64.div (fin false 1024) (fin false 1) = fin false 1024 := by
    simp only [F64.div]
    norm_num
    have h := k; unfold F64.ofNat at h; norm_num at h; exact h
  unfold scryptenc_cpuperf perfPhase2
  simp only [hres, hg, perfLoop, z, d0, d1, d2, l0, l1, if_true, Bool.false_eq_true, if_false]
  norm_num [k, dv]

end Scrypt.Props
