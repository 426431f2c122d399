import Verif.Spec.Memlimit
import Verif.Proofs.Params
/-
memtouse against the answers of the system calls.
-/
namespace Scrypt
open F64 Spec

set_option exponentiation.threshold 1100

theorem sysctl_some {szMax : Nat} {ans : Option (Nat × W64)} {n : Nat}
    (h : memlimit_sysctl_hw szMax ans = some n) :
    (∃ v, ans = some (8, v) ∧ n = min szMax v.toNat) ∨ (∃ v, ans = some (4, v) ∧ n = szMax) := by
  unfold memlimit_sysctl_hw at h
  match ans, h with
  | none, h => simp at h
  | some (len, v), h =>
    simp only [clampSize] at h
    by_cases h8 : len = 8
    · subst h8; simp at h; left; refine ⟨v, rfl, ?_⟩; split_ifs at h <;> omega
    · by_cases h4 : len = 4
      · subst h4; simp at h; right; exact ⟨v, rfl, h.symm⟩
      · simp [h8, h4] at h

theorem sysctl_none {szMax : Nat} {ans : Option (Nat × W64)}
    (h : memlimit_sysctl_hw szMax ans = none) : ∀ v, ans ≠ some (8, v) ∧ ans ≠ some (4, v) := by
  intro v
  constructor <;> rintro rfl <;> simp [memlimit_sysctl_hw] at h

theorem rlimStep_some {c : Bool} {r : Rlim} {m n : Nat} (h : rlimStep c r m = some n) :
    (c = true ∧ ∃ v, r = .cur v ∧ n = min m v.toNat) ∨
    ((c = true → ∀ v, r ≠ .cur v) ∧ n = m) := by
  unfold rlimStep at h
  cases c with
  | false => simp at h; right; exact ⟨by simp, h.symm⟩
  | true =>
    cases r with
    | fail => simp at h
    | infinity => simp at h; right; exact ⟨by simp, h.symm⟩
    | cur v =>
      simp at h; left; refine ⟨rfl, v, rfl, ?_⟩
      split_ifs at h <;> omega

theorem rlimStep_none {c : Bool} {r : Rlim} {m : Nat} :
    rlimStep c r m = none ↔ c = true ∧ r = .fail := by
  cases c <;> cases r <;> simp [rlimStep]

theorem rlimit_none {szMax : Nat} {cfg : MemCfg} {sys : MemSys} :
    memlimit_rlimit szMax cfg sys = none ↔
      (cfg.rlimitAs = true ∧ sys.rlimAs = .fail) ∨ (cfg.rlimitData = true ∧ sys.rlimData = .fail) ∨
      (cfg.rlimitRss = true ∧ sys.rlimRss = .fail) := by
  unfold memlimit_rlimit
  simp only [Option.bind_eq_bind, Option.bind_eq_none_iff]
  constructor
  · intro h
    by_cases h1 : cfg.rlimitAs = true ∧ sys.rlimAs = .fail
    · exact Or.inl h1
    by_cases h2 : cfg.rlimitData = true ∧ sys.rlimData = .fail
    · exact Or.inr (Or.inl h2)
    by_cases h3 : cfg.rlimitRss = true ∧ sys.rlimRss = .fail
    · exact Or.inr (Or.inr h3)
    exfalso
    obtain ⟨a, ha⟩ := Option.ne_none_iff_exists'.1 (mt (rlimStep_none (m := 2 ^ 64 - 1)).1 h1)
    obtain ⟨b, hb⟩ := Option.ne_none_iff_exists'.1 (mt (rlimStep_none (m := a)).1 h2)
    obtain ⟨c, hc⟩ := Option.ne_none_iff_exists'.1 (mt (rlimStep_none (m := b)).1 h3)
    have := h a ha b hb c hc
    simp at this
  · rintro (h | h | h) a ha b hb c hc
    · exact absurd ((rlimStep_none (m := 2 ^ 64 - 1)).2 h) (by rw [ha]; simp)
    · exact absurd ((rlimStep_none (m := a)).2 h) (by rw [hb]; simp)
    · exact absurd ((rlimStep_none (m := b)).2 h) (by rw [hc]; simp)

theorem sysconf_none {szMax : Nat} {sys : MemSys} :
    memlimit_sysconf szMax sys = none ↔
      (sys.pageSize = -1 ∨ sys.physPages = -1) ∧ sys.scErr = .other := by
  unfold memlimit_sysconf
  split_ifs with h1 h2 <;> simp_all

theorem ifCompiled_none {szMax : Nat} {c : Bool} {x : Option Nat} :
    ifCompiled szMax c x = none ↔ c = true ∧ x = none := by
  cases c <;> simp [ifCompiled]

theorem sysctl_none_iff {szMax : Nat} {ans : Option (Nat × W64)} :
    memlimit_sysctl_hw szMax ans = none ↔ ∀ v, ans ≠ some (8, v) ∧ ans ≠ some (4, v) := by
  refine ⟨sysctl_none, fun h => ?_⟩
  by_contra hc
  obtain ⟨n, hn⟩ := Option.ne_none_iff_exists'.1 hc
  rcases sysctl_some hn with ⟨v, e, -⟩ | ⟨v, e, -⟩
  · exact (h v).1 e
  · exact (h v).2 e

theorem sysinfo_none_iff {szMax : Nat} {u : Bool} {ans : Option (W64 × W32)} :
    memlimit_sysinfo szMax u ans = none ↔ ans = none := by
  unfold memlimit_sysinfo
  cases ans with
  | none => simp
  | some x => obtain ⟨t, u⟩ := x; simp

theorem memQueries_none {szMax : Nat} {cfg : MemCfg} {sys : MemSys} :
    memQueries szMax cfg sys = none ↔ QueryFailed cfg sys := by
  have A := ifCompiled_none (szMax := szMax) (c := cfg.hwUsermem)
    (x := memlimit_sysctl_hw szMax sys.sysctlUsermem)
  have B := ifCompiled_none (szMax := szMax) (c := cfg.hwMemsize)
    (x := memlimit_sysctl_hw szMax sys.sysctlMemsize)
  have C := ifCompiled_none (szMax := szMax) (c := cfg.sysinfo)
    (x := memlimit_sysinfo szMax cfg.memUnit sys.sysinfo)
  have D := rlimit_none (szMax := szMax) (cfg := cfg) (sys := sys)
  have E := ifCompiled_none (szMax := szMax) (c := cfg.physPages)
    (x := memlimit_sysconf szMax sys)
  rw [sysctl_none_iff] at A B
  rw [sysinfo_none_iff] at C
  rw [sysconf_none] at E
  unfold memQueries QueryFailed
  rw [← A, ← B, ← C, ← E, ← or_assoc (a := cfg.rlimitAs = true ∧ _),
    ← or_assoc (a := (cfg.rlimitAs = true ∧ _) ∨ _), or_assoc (a := cfg.rlimitAs = true ∧ _), ← D]
  generalize ifCompiled szMax cfg.hwUsermem _ = a
  generalize ifCompiled szMax cfg.hwMemsize _ = b
  generalize ifCompiled szMax cfg.sysinfo _ = c
  generalize ifCompiled szMax cfg.physPages _ = e
  generalize memlimit_rlimit szMax cfg sys = d
  cases a <;> cases b <;> cases c <;> cases d <;> cases e <;> simp

/-- `x` is the clamped minimum of the limits in `P` (SIZE_MAX if there are none). -/
def MinOf (szMax x : Nat) (P : Nat → Prop) : Prop :=
  x ≤ szMax ∧ (∀ n, P n → x ≤ n) ∧ (x < szMax → P x)

theorem MinOf.clamp1 {szMax n x : Nat} {P : Nat → Prop} (hP : ∀ m, P m ↔ m = n)
    (hx : x = min szMax n) : MinOf szMax x P := by
  refine ⟨by omega, fun m hm => ?_, fun h => ?_⟩
  · rw [hP] at hm; omega
  · rw [hP]; omega

theorem MinOf.empty {szMax x : Nat} {P : Nat → Prop} (hP : ∀ m, ¬ P m) (hx : x = szMax) :
    MinOf szMax x P :=
  ⟨by omega, fun m hm => absurd hm (hP m), fun h => by omega⟩

theorem MinOf.or {szMax x y : Nat} {P Q : Nat → Prop} (hp : MinOf szMax x P) (hq : MinOf szMax y Q) :
    MinOf szMax (min x y) (fun n => P n ∨ Q n) := by
  obtain ⟨p1, p2, p3⟩ := hp
  obtain ⟨q1, q2, q3⟩ := hq
  refine ⟨by omega, ?_, ?_⟩
  · rintro n (h | h)
    · have := p2 n h; omega
    · have := q2 n h; omega
  · intro h
    rcases Nat.le_total x y with hxy | hxy
    · rw [Nat.min_eq_left hxy] at h ⊢; exact Or.inl (p3 h)
    · rw [Nat.min_eq_right hxy] at h ⊢; exact Or.inr (q3 h)

theorem MinOf.mono {szMax a b : Nat} {P : Nat → Prop} (h : MinOf b a P) (hle : szMax ≤ b)
    : MinOf szMax (min szMax a) P := by
  obtain ⟨h1, h2, h3⟩ := h
  refine ⟨by omega, fun n hn => by have := h2 n hn; omega, fun hlt => ?_⟩
  have : min szMax a = a := by omega
  rw [this] at hlt ⊢
  exact h3 (by omega)

theorem rlimStep_minOf {c : Bool} {r : Rlim} {m n : Nat} (hm : m ≤ 2 ^ 64 - 1)
    (h : rlimStep c r m = some n) : ∃ x, n = min m x ∧
      MinOf (2 ^ 64 - 1) x (fun n => c = true ∧ ∃ v : W64, r = .cur v ∧ n = v.toNat) := by
  rcases rlimStep_some h with ⟨hc, v, hr, hn⟩ | ⟨hne, hn⟩
  · refine ⟨v.toNat, hn, MinOf.clamp1 (n := v.toNat) ?_ ?_⟩
    · intro k
      constructor
      · rintro ⟨-, w, hw, rfl⟩; rw [hr] at hw; injection hw with hw; rw [hw]
      · rintro rfl; exact ⟨hc, v, hr, rfl⟩
    · have := v.isLt; omega
  · refine ⟨2 ^ 64 - 1, by omega, ?_⟩
    have : ∀ k, ¬ (c = true ∧ ∃ v : W64, r = .cur v ∧ k = v.toNat) := by
      rintro k ⟨hc, v, hv, -⟩; exact hne hc v hv
    exact ⟨by omega, fun k hk => absurd hk (this k), fun h => by omega⟩

theorem rlimit_minOf {szMax : Nat} (hsz : szMax ≤ 2 ^ 64 - 1) {cfg : MemCfg} {sys : MemSys} {n : Nat}
    (h : memlimit_rlimit szMax cfg sys = some n) :
    MinOf szMax n (fun n =>
      ((cfg.rlimitAs = true ∧ ∃ v : W64, sys.rlimAs = .cur v ∧ n = v.toNat) ∨
       (cfg.rlimitData = true ∧ ∃ v : W64, sys.rlimData = .cur v ∧ n = v.toNat)) ∨
       (cfg.rlimitRss = true ∧ ∃ v : W64, sys.rlimRss = .cur v ∧ n = v.toNat)) := by
  unfold memlimit_rlimit at h
  simp only [Option.bind_eq_bind, Option.bind_eq_some_iff] at h
  obtain ⟨a, ha, b, hb, c, hc, hd⟩ := h
  simp only [Option.pure_def, Option.some.injEq, clampSize] at hd
  obtain ⟨x, hx, mx⟩ := rlimStep_minOf (by omega) ha
  have hax : a = x := by have := mx.1; omega
  obtain ⟨y, hy, my⟩ := rlimStep_minOf (by have := mx.1; omega) hb
  obtain ⟨z, hz, mz⟩ := rlimStep_minOf (by have := mx.1; omega) hc
  have hm := MinOf.mono (szMax := szMax) ((mx.or my).or mz) hsz
  have : n = min szMax (min (min x y) z) := by
    rw [← hd]; split_ifs <;> omega
  rw [this]; exact hm

theorem memsize_minOf {szMax : Nat} {c : Bool} {ans : Option (Nat × W64)} {n : Nat}
    (h : ifCompiled szMax c (memlimit_sysctl_hw szMax ans) = some n) :
    MinOf szMax n (fun n => c = true ∧ ∃ v : W64, ans = some (8, v) ∧ n = v.toNat) := by
  cases c with
  | false => simp [ifCompiled] at h; exact MinOf.empty (by simp) h.symm
  | true =>
    simp only [ifCompiled, if_true] at h
    rcases sysctl_some h with ⟨v, rfl, hn⟩ | ⟨v, rfl, hn⟩
    · refine MinOf.clamp1 (n := v.toNat) ?_ hn
      intro k
      constructor
      · rintro ⟨-, w, hw, rfl⟩; injection hw with hw; injection hw with _ hw; rw [hw]
      · rintro rfl; exact ⟨rfl, v, rfl, rfl⟩
    · refine MinOf.empty ?_ hn
      rintro k ⟨-, w, hw, -⟩; injection hw with hw; injection hw with hw _; omega

theorem sysinfo_minOf {szMax : Nat} {cfg : MemCfg} {sys : MemSys} {n : Nat}
    (h : ifCompiled szMax cfg.sysinfo (memlimit_sysinfo szMax cfg.memUnit sys.sysinfo) = some n) :
    MinOf szMax n (fun n => cfg.sysinfo = true ∧ ∃ t u, sys.sysinfo = some (t, u) ∧
      n = (if cfg.memUnit then t * u.setWidth 64 else t).toNat) := by
  cases hc : cfg.sysinfo with
  | false => rw [hc] at h; simp [ifCompiled] at h; exact MinOf.empty (by simp) h.symm
  | true =>
    rw [hc] at h
    simp only [ifCompiled, if_true] at h
    cases ha : sys.sysinfo with
    | none => rw [ha] at h; simp [memlimit_sysinfo] at h
    | some tu =>
      obtain ⟨t, u⟩ := tu
      rw [ha] at h
      simp only [memlimit_sysinfo, Option.some.injEq] at h
      refine MinOf.clamp1 (n := (if cfg.memUnit then t * u.setWidth 64 else t).toNat) ?_ ?_
      · intro k
        constructor
        · rintro ⟨-, t', u', hw, rfl⟩; injection hw with hw; injection hw with h1 h2; rw [h1, h2]
        · rintro rfl; exact ⟨rfl, t, u, rfl, rfl⟩
      · rw [← h, clampSize]
        generalize (if cfg.memUnit then t * u.setWidth 64 else t).toNat = X
        split_ifs <;> omega

theorem sysconf_minOf {szMax : Nat} (hsz : szMax ≤ 2 ^ 64 - 1) {cfg : MemCfg} {sys : MemSys} {n : Nat}
    (h : ifCompiled szMax cfg.physPages (memlimit_sysconf szMax sys) = some n) :
    MinOf szMax n (PhysMem cfg sys) := by
  cases hc : cfg.physPages with
  | false => rw [hc] at h; simp [ifCompiled] at h; exact MinOf.empty (by simp [PhysMem, hc]) h.symm
  | true =>
    rw [hc] at h
    simp only [ifCompiled, if_true, memlimit_sysconf] at h
    by_cases h1 : sys.pageSize = -1 ∨ sys.physPages = -1
    · rw [if_pos h1] at h
      refine MinOf.empty ?_ ?_
      · rintro k ⟨-, h2, h3, -⟩; exact h1.elim h2 h3
      · split_ifs at h
        injection h with h; rw [← h, clampSize]; split_ifs <;> omega
    · rw [if_neg h1] at h
      push Not at h1
      injection h with h
      refine MinOf.clamp1 (n := (sys.pageSize * sys.physPages).toNat) ?_ ?_
      · intro k
        constructor
        · rintro ⟨-, -, -, rfl⟩; rfl
        · rintro rfl; exact ⟨hc, h1.1, h1.2, rfl⟩
      · rw [← h, clampSize]; split_ifs <;> omega

theorem usermem_minOf {szMax : Nat} {cfg : MemCfg} {sys : MemSys} {n sysconf : Nat}
    (h : ifCompiled szMax cfg.hwUsermem (memlimit_sysctl_hw szMax sys.sysctlUsermem) = some n)
    (hsc : MinOf szMax sysconf (PhysMem cfg sys)) :
    MinOf szMax (if sysconf ≠ szMax then (if n < sysconf / 2 then sysconf / 2 else n) else n)
      (fun n => cfg.hwUsermem = true ∧ ∃ v : W64, sys.sysctlUsermem = some (8, v) ∧
        ((∃ ph, PhysMem cfg sys ph ∧ ph < szMax ∧ n = max (min szMax v.toNat) (ph / 2)) ∨
         ((∀ ph, PhysMem cfg sys ph → szMax ≤ ph) ∧ n = v.toNat))) := by
  have huniq : ∀ a b, PhysMem cfg sys a → PhysMem cfg sys b → a = b := by
    rintro a b ⟨-, -, -, rfl⟩ ⟨-, -, -, rfl⟩; rfl
  obtain ⟨s1, s2, s3⟩ := hsc
  have hempty : ∀ (n : Nat), n = szMax →
      (if sysconf ≠ szMax then (if n < sysconf / 2 then sysconf / 2 else n) else n) = szMax := by
    intro n hn; split_ifs <;> omega
  cases hc : cfg.hwUsermem with
  | false =>
    rw [hc] at h; simp [ifCompiled] at h
    exact MinOf.empty (by simp) (hempty n h.symm)
  | true =>
    rw [hc] at h
    simp only [ifCompiled, if_true] at h
    rcases sysctl_some h with ⟨v, hv, hn⟩ | ⟨v, hv, hn⟩
    · by_cases hsx : sysconf = szMax
      · have hall : ∀ ph, PhysMem cfg sys ph → szMax ≤ ph := fun ph hph => by
          have := s2 ph hph; omega
        refine MinOf.clamp1 (n := v.toNat) ?_ ?_
        · intro k
          constructor
          · rintro ⟨-, w, hw, h3⟩
            rw [hv] at hw; injection hw with hw; injection hw with _ hw; subst hw
            rcases h3 with ⟨ph, h4, h5, -⟩ | ⟨-, h4⟩
            · have := hall ph h4; omega
            · exact h4
          · rintro rfl; exact ⟨rfl, v, hv, Or.inr ⟨hall, rfl⟩⟩
        · simp [hsx, hn]
      · have hlt : sysconf < szMax := by omega
        have hph := s3 hlt
        refine MinOf.clamp1 (n := max (min szMax v.toNat) (sysconf / 2)) ?_ ?_
        · intro k
          constructor
          · rintro ⟨-, w, hw, h3⟩
            rw [hv] at hw; injection hw with hw; injection hw with _ hw; subst hw
            rcases h3 with ⟨ph, h4, h5, h6⟩ | ⟨h4, -⟩
            · rw [huniq _ _ h4 hph] at h6; exact h6
            · have := h4 _ hph; omega
          · rintro rfl; exact ⟨rfl, v, hv, Or.inl ⟨sysconf, hph, hlt, rfl⟩⟩
        · rw [if_pos hsx]; split_ifs <;> omega
    · refine MinOf.empty ?_ (hempty n hn)
      rintro k ⟨-, w, hw, -⟩; rw [hv] at hw; injection hw with hw; injection hw with hw _; omega

/-- The minimum is below every limit the system reports, and is one of them unless there are none
below SIZE_MAX. -/
theorem memMin_spec {szMax : Nat} (hsz : szMax ≤ 2 ^ 64 - 1) {cfg : MemCfg} {sys : MemSys} {q}
    (h : memQueries szMax cfg sys = some q) :
    memMin szMax q ≤ szMax ∧ (∀ n, SysLimit szMax cfg sys n → memMin szMax q ≤ n) ∧
    (memMin szMax q < szMax → SysLimit szMax cfg sys (memMin szMax q)) := by
  unfold memQueries at h
  simp only [Option.bind_eq_bind, Option.bind_eq_some_iff] at h
  obtain ⟨usermem, hu, memsize, hms, sysinfo, hsi, rlimit, hrl, sysconf, hsc, hq⟩ := h
  injection hq with hq; subst hq
  have S := sysconf_minOf hsz hsc
  have U := usermem_minOf hu S
  have A := (((U.or (memsize_minOf hms)).or (sysinfo_minOf hsi)).or (rlimit_minOf hsz hrl)).or S
  have e : memMin szMax (usermem, memsize, sysinfo, rlimit, sysconf) =
      min (min (min (min (if sysconf ≠ szMax then (if usermem < sysconf / 2 then sysconf / 2 else usermem)
        else usermem) memsize) sysinfo) rlimit) sysconf := by
    have u1 := U.1
    simp only [memMin]
    generalize (if sysconf ≠ szMax then (if usermem < sysconf / 2 then sysconf / 2 else usermem)
      else usermem) = W at u1 ⊢
    split_ifs <;> omega
  rw [e]
  refine ⟨A.1, fun n hn => A.2.1 n ?_, fun hlt => ?_⟩
  · rcases hn with h | h | h | h | h | h | h
    · exact Or.inl (Or.inr (Or.inl (Or.inl h)))
    · exact Or.inl (Or.inr (Or.inl (Or.inr h)))
    · exact Or.inl (Or.inr (Or.inr h))
    · exact Or.inl (Or.inl (Or.inr h))
    · exact Or.inl (Or.inl (Or.inl (Or.inr h)))
    · exact Or.inr h
    · exact Or.inl (Or.inl (Or.inl (Or.inl h)))
  · rcases A.2.2 hlt with (((h | h) | h) | ((h | h) | h)) | h
    · exact Or.inr (Or.inr (Or.inr (Or.inr (Or.inr (Or.inr h)))))
    · exact Or.inr (Or.inr (Or.inr (Or.inr (Or.inl h))))
    · exact Or.inr (Or.inr (Or.inr (Or.inl h)))
    · exact Or.inl h
    · exact Or.inr (Or.inl h)
    · exact Or.inr (Or.inr (Or.inl h))
    · exact Or.inr (Or.inr (Or.inr (Or.inr (Or.inr (Or.inl h)))))

/-- Shape of a finite positive double at most one. -/
theorem frac_cases {f : F64} (hf : (F64.lt (F64.ofNat 0) f && F64.le f (F64.ofNat 1)) = true) :
    ∃ m, f = fin false m ∧ 0 < m ∧ m ≤ 1 ∨ ∃ m, f = fin true m ∧ m < 0 := by
  have e0 : F64.ofNat 0 = fin false 0 := by
    have := ofNat_small (n := 0) (by norm_num); exact_mod_cast this
  have e1 : F64.ofNat 1 = fin false 1 := by
    have := ofNat_small (n := 1) (by norm_num); exact_mod_cast this
  rw [e0, e1] at hf
  cases f with
  | nan => simp [F64.lt] at hf
  | inf s => cases s <;> simp [F64.lt, F64.le] at hf
  | fin s m =>
    cases s with
    | false => simp [F64.lt, F64.le, val] at hf; exact ⟨m, Or.inl ⟨rfl, hf.1, hf.2⟩⟩
    | true => simp [F64.lt, F64.le, val] at hf; exact ⟨0, Or.inr ⟨m, rfl, hf.1⟩⟩

/-- The assertion at the start of memtouse, for a genuine double. -/
theorem frac_iff {f : F64} (hv : f.Valid) :
    (F64.lt (F64.ofNat 0) f && F64.le f (F64.ofNat 1)) = true ↔ ∃ m, f = fin false m ∧ 0 < m ∧ m ≤ 1 := by
  constructor
  · intro h
    obtain ⟨m, h | ⟨m', h, hneg⟩⟩ := frac_cases h
    · exact ⟨m, h⟩
    · subst h; exact absurd hv.1.nonneg (not_le.2 hneg)
  · rintro ⟨m, rfl, h1, h2⟩
    have e0 : F64.ofNat 0 = fin false 0 := by
      have := ofNat_small (n := 0) (by norm_num); exact_mod_cast this
    have e1 : F64.ofNat 1 = fin false 1 := by
      have := ofNat_small (n := 1) (by norm_num); exact_mod_cast this
    rw [e0, e1]
    simp [F64.lt, F64.le, val, h1, h2]

theorem memtouse_abort_iff {szMax : Nat} {cfg : MemCfg} {sys : MemSys} {maxmem : Nat} {f : F64}
    (hv : f.Valid) :
    memtouse szMax cfg sys maxmem f = .abort ↔ ¬ ∃ m, f = fin false m ∧ 0 < m ∧ m ≤ 1 := by
  rw [← frac_iff hv]
  unfold memtouse
  cases hc : (F64.lt (F64.ofNat 0) f && F64.le f (F64.ofNat 1)) with
  | false => simp
  | true =>
    simp only [cassert_true, Res.bind_ok]
    cases memQueries szMax cfg sys with
    | none => simp
    | some q =>
      simp only [not_true_eq_false, iff_false]
      cases hu : toUnsigned szMax (F64.mul f (F64.ofNat (memMin szMax q))) with
      | ok a => simp
      | ub => simp
      | abort =>
        exfalso; revert hu
        generalize F64.mul f (F64.ofNat (memMin szMax q)) = x
        cases x <;> simp only [toUnsigned] <;> (try split_ifs) <;> simp

/-- `f * min` for `0 < f <= 1`. -/
theorem mul_frac {m : ℚ} {k : Nat} (hm1 : m ≤ 1) (hk : k < 2 ^ 64) :
    F64.mul (fin false m) (F64.ofNat k) = fin false (roundMag (m * roundMag k)) ∧
      roundMag (m * roundMag (k : ℚ)) ≤ roundMag k := by
  have hr := roundMag_nonneg (k : ℚ)
  have hle : m * roundMag (k : ℚ) ≤ roundMag k := by nlinarith
  have h1 : roundMag (m * roundMag (k : ℚ)) ≤ roundMag k := by
    have := roundMag_mono hle
    rwa [roundMag_rep (rep_roundMag _)] at this
  refine ⟨?_, h1⟩
  rw [ofNat_lt64 hk]
  simp only [F64.mul]
  rw [round_small]
  · rfl
  · exact lt_of_le_of_lt h1 (roundMag_lt (e := 64) (by exact_mod_cast hk.le) (by norm_num))

/-- With a fraction of at most one half the conversion back to `size_t` is always defined. -/
theorem memtouse_defined {szMax : Nat} (hsz : IsSizeMax szMax) {cfg : MemCfg} {sys : MemSys}
    {maxmem : Nat} {m : ℚ} (h0 : 0 < m) (h1 : m ≤ 1 / 2) (hrep : Rep m) :
    ∃ r, memtouse szMax cfg sys maxmem (fin false m) = .ok r := by
  have hv : (fin false m).Valid := ⟨hrep, lt_of_le_of_lt h1 (by norm_num)⟩
  unfold memtouse
  rw [(frac_iff hv).2 ⟨m, rfl, h0, by linarith⟩]
  simp only [cassert_true, Res.bind_ok]
  cases memQueries szMax cfg sys with
  | none => exact ⟨none, rfl⟩
  | some q =>
    have hs64 : szMax < 2 ^ 64 := by rcases hsz with h | h <;> omega
    have hk := memMin_le szMax q
    set k := memMin szMax q
    obtain ⟨e, -⟩ := mul_frac (m := m) (k := k) (by linarith) (by omega)
    have hkr : roundMag (k : ℚ) ≤ szMax + 1 := by
      have h3 : roundMag (k : ℚ) ≤ roundMag ((szMax + 1 : ℕ) : ℚ) :=
        roundMag_mono (by exact_mod_cast (by omega : k ≤ szMax + 1))
      have h4 : roundMag ((szMax + 1 : ℕ) : ℚ) = (szMax : ℚ) + 1 := by
        rcases hsz with h | h
        · rw [h]
          have : ((2 ^ 32 - 1 + 1 : ℕ) : ℚ) = 2 ^ 32 := by norm_num
          rw [this, roundMag_rep rep_pow]; norm_num
        · rw [h]
          have : ((2 ^ 64 - 1 + 1 : ℕ) : ℚ) = 2 ^ 64 := by norm_num
          rw [this, roundMag_rep rep_pow]; norm_num
      rwa [h4] at h3
    have hkn := roundMag_nonneg (k : ℚ)
    have hb : roundMag (m * roundMag (k : ℚ)) ≤ ((szMax : ℚ) + 1) / 2 := by
      have h5 : m * roundMag (k : ℚ) ≤ ((szMax : ℚ) + 1) / 2 := by nlinarith
      have h6 := roundMag_mono h5
      have h7 : roundMag (((szMax : ℚ) + 1) / 2) = ((szMax : ℚ) + 1) / 2 := by
        rcases hsz with h | h
        · rw [h]
          have : (((2 ^ 32 - 1 : ℕ) : ℚ) + 1) / 2 = 2 ^ 31 := by norm_num
          rw [this, roundMag_rep rep_pow]
        · rw [h]
          have : (((2 ^ 64 - 1 : ℕ) : ℚ) + 1) / 2 = 2 ^ 63 := by norm_num
          rw [this, roundMag_rep rep_pow]
      rwa [h7] at h6
    have hfl : ⌊roundMag (m * roundMag (k : ℚ))⌋ ≤ (szMax : ℤ) := by
      have h8 : (⌊roundMag (m * roundMag (k : ℚ))⌋ : ℚ) ≤ ((szMax : ℚ) + 1) / 2 :=
        (Int.floor_le _).trans hb
      have hs1 : (1 : ℚ) ≤ szMax := by
        rcases hsz with h | h <;> rw [h] <;> norm_num
      have h9 : (⌊roundMag (m * roundMag (k : ℚ))⌋ : ℚ) ≤ (szMax : ℚ) := by linarith
      exact_mod_cast h9
    have et : toUnsigned szMax (F64.mul (fin false m) (F64.ofNat k)) =
        .ok ⌊roundMag (m * roundMag (k : ℚ))⌋.toNat := by
      rw [e]
      simp only [toUnsigned]
      rw [if_neg (by simp), if_neg (by omega)]
      rfl
    refine ⟨some (memClip maxmem ⌊roundMag (m * roundMag (k : ℚ))⌋.toNat), ?_⟩
    show (toUnsigned szMax (F64.mul (fin false m) (F64.ofNat k)) >>= fun memavail =>
      Res.ok (some (memClip maxmem memavail))) = _
    rw [et, Res.bind_ok]

/-- Upper bound in exact arithmetic. -/
theorem memtouse_frac {szMax : Nat} (hsz : IsSizeMax szMax) {cfg : MemCfg} {sys : MemSys}
    {maxmem : Nat} {m : ℚ} (hm1 : m ≤ 1) {r n : Nat}
    (h : memtouse szMax cfg sys maxmem (fin false m) = .ok (some r)) (hn : SysLimit szMax cfg sys n) :
    (r : ℚ) ≤ max 1048576 (m * n * (1 + 1 / 2 ^ 53) ^ 2) := by
  obtain ⟨q, a, hq, h1, rfl⟩ := memtouse_ok h
  have hs64 : szMax < 2 ^ 64 := by rcases hsz with h | h <;> omega
  obtain ⟨hk, hle, -⟩ := memMin_spec (by omega) hq
  set k := memMin szMax q
  rw [(mul_frac (k := k) hm1 (by omega)).1] at h1
  obtain ⟨s, v, hx, -, -, hfl⟩ := toUnsigned_ok h1
  obtain ⟨hs, hx'⟩ := F64.fin.inj hx
  subst hs
  clear hx
  have hx := hx'
  have hvn : 0 ≤ v := by rw [← hx]; exact roundMag_nonneg _
  have ha : (a : ℤ) = ⌊v⌋ := hfl rfl hvn
  have hav : (a : ℚ) ≤ v := by
    have h2 : ((a : ℤ) : ℚ) ≤ v := by rw [ha]; exact Int.floor_le v
    exact_mod_cast h2
  rcases Nat.lt_or_ge a 1 with ha0 | ha1
  · have h3 : memClip maxmem a = 1048576 := by
      have := memClip_bounds maxmem a; omega
    rw [h3]; exact le_max_left _ _
  · have hv1 : 1 ≤ roundMag (m * roundMag (k : ℚ)) := by
      rw [hx]
      have : (1 : ℚ) ≤ a := by exact_mod_cast ha1
      linarith
    obtain ⟨h3, -⟩ := le_of_roundMag_ge hv1 le_rfl
    have hkn : (k : ℚ) ≤ n := by exact_mod_cast hle n hn
    have hk0 : (0 : ℚ) ≤ k := by positivity
    have hm0 : 0 < m := by
      by_contra hc
      push Not at hc
      have h5 : m * roundMag (k : ℚ) ≤ 0 := mul_nonpos_of_nonpos_of_nonneg hc (roundMag_nonneg _)
      have h4 : roundMag (m * roundMag (k : ℚ)) = 0 := by rw [roundMag, if_pos h5]
      linarith
    have hkr : roundMag (k : ℚ) ≤ k * (1 + 1 / 2 ^ 53) := by
      rcases Nat.eq_zero_or_pos k with h0 | h0
      · rw [h0]; simp [roundMag]
      · apply roundMag_up
        have : (1 : ℚ) ≤ k := by exact_mod_cast h0
        refine le_trans ?_ this
        calc (2 : ℚ) ^ (-1022 : ℤ) ≤ 2 ^ (0 : ℤ) := zpow_le_zpow_right₀ (by norm_num) (by norm_num)
          _ = 1 := by norm_num
    have hav2 : (a : ℚ) ≤ m * n * (1 + 1 / 2 ^ 53) ^ 2 := by
      calc (a : ℚ) ≤ v := hav
        _ = roundMag (m * roundMag (k : ℚ)) := hx.symm
        _ ≤ m * roundMag (k : ℚ) * (1 + 1 / 2 ^ 53) := h3
        _ ≤ m * (k * (1 + 1 / 2 ^ 53)) * (1 + 1 / 2 ^ 53) := by gcongr
        _ ≤ m * (n * (1 + 1 / 2 ^ 53)) * (1 + 1 / 2 ^ 53) := by gcongr
        _ = _ := by ring
    have hcl := (memClip_bounds maxmem a).2.1
    have h6 : ((memClip maxmem a : ℕ) : ℚ) ≤ max 1048576 (a : ℚ) := by exact_mod_cast hcl
    exact h6.trans (max_le_max le_rfl hav2)

end Scrypt
