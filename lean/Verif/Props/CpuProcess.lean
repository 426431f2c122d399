import Verif.Props.CpuAccuracy
import Verif.Props.ProcessTotal
import Verif.Props.ProcessEx
/-
C45, continued: the speed measured inside a process, where the key derivations are the library's own (with the implementation selected on first use).
-/
namespace Scrypt.Props
open Scrypt Spec F64

theorem SameClocks.at {steps : List PerfStep} {l : List PerfEnv} (h : SameClocks steps l) {j : Nat} {s : PerfStep} (hs : steps[j]? = some s) :
    ∃ t, l[j]? = some t ∧ s.clk = t.clk := by
  have := congrArg (·[j]?) h
  simp only [List.getElem?_map, hs, Option.map_some] at this
  cases hl : l[j]? with
  | none => rw [hl] at this; cases this
  | some t => rw [hl] at this; exact ⟨t, rfl, Option.some.inj this⟩

theorem SameClocks.at' {steps : List PerfStep} {l : List PerfEnv} (h : SameClocks steps l) {j : Nat} {t : PerfEnv} (hs : l[j]? = some t) :
    ∃ s, steps[j]? = some s ∧ s.clk = t.clk := by
  have := congrArg (·[j]?) h
  simp only [List.getElem?_map, hs, Option.map_some] at this
  cases hl : steps[j]? with
  | none => rw [hl] at this; cases this
  | some t => rw [hl] at this; exact ⟨t, rfl, Option.some.inj this⟩

/-- **C45 in a process.**  When the measurement made by a call in a process succeeds, the speed it uses is the number of Salsa20/8 operations of the derivations it timed (512 for each
of the first `n` of the second phase; `C55_speed_unit`) divided by the time that passed on the clock between the reading before the first of them and the reading after the last, to
within one part in 2^28.  That time is positive, not less than the clock's resolution, and was not more than the resolution before the last derivation (up to rounding). -/
theorem C45_process {m : Machine} (gm : m.Good) (hc2 : m.clocksPerSec < 2 ^ 53) {e : CallEnv} (ha : e.res.Normal m.clk) (hnn : e.res.NonNegTimes)
    (h2 : e.start2.Normal m.clk) (hst : ∀ s ∈ e.steps2, s.clk.Normal m.clk) (hn : e.steps2.length < 2 ^ 53) {tf : Transform} {st st' : Option SmixImpl} {opps : F64}
    (h : cpuperfL m e tf st = .ok (some (.OK, opps), st')) :
    ∃ (R : ℚ) (s0 u0 : ℤ) (n : ℕ) (s1 u1 : ℤ) (last : PerfEnv) (v : ℚ),
      ClockResolution m.clk m.clocksPerSec e.res R ∧ ClockReads m.clk e.start2 s0 u0 ∧
      1 ≤ n ∧ e.steps2[n - 1]? = some last ∧ ClockReads m.clk last.clk s1 u1 ∧
      0 < passed s0 u0 s1 u1 ∧
      R ≤ passed s0 u0 s1 u1 + (passed s0 u0 s1 u1 + R + 1) / 2 ^ 49 ∧
      (∀ (j : ℕ) (s : PerfEnv), j + 1 < n → e.steps2[j]? = some s → ∃ s' u', ClockReads m.clk s.clk s' u' ∧
        passed s0 u0 s' u' ≤ R + (|passed s0 u0 s' u'| + R + 1) / 2 ^ 49) ∧
      opps = fin false v ∧ |v * passed s0 u0 s1 u1 - 512 * n| ≤ 512 * n / 2 ^ 28 := by
  obtain ⟨t1, t2, l1, l2, c1, c2, hp⟩ := cpuperfL_refines h
  have hst' : ∀ s ∈ t2, s.clk.Normal m.clk := by
    intro s hs
    obtain ⟨t, ht, e⟩ := c2.mem s hs
    rw [e]
    exact hst t ht
  obtain ⟨R, s0, u0, n, s1, u1, last, v, a1, a2, a3, a4, a5, -, a7, a8, a9, a10, a11⟩ :=
    C45_accurate gm.cps hc2 ha hnn h2 hst' (by rw [l2]; exact hn) hp
  obtain ⟨last', b1, b2⟩ := c2.at a4
  refine ⟨R, s0, u0, n, s1, u1, last', v, a1, a2, a3, b1, b2 ▸ a5, a7, a8, ?_, a10, a11⟩
  intro j s hj hs
  obtain ⟨s', d1, d2⟩ := c2.at' hs
  rw [← d2]
  exact a9 j s' hj d1

/-- **C45 in a process.**  If a clock cannot be read where the measurement needs it, the call ends with the code for a clock failure: at the resolution, at the start of either phase. -/
theorem C45_process_clock {m : Machine} {e : CallEnv} {tf : Transform} {st : Option SmixImpl} :
    (monoclock_getres m.clk m.clocksPerSec e.res = none → cpuperfL m e tf st = .ok (some (.ECLOCK, .nan), st)) ∧
    (monoclock_get m.clk e.start1 = none → cpuperfL m e tf st = .ok (some (.ECLOCK, .nan), st)) ∧
    (∀ x, monoclock_get m.clk e.start2 = none → cpuperfL m e tf st = .ok x → (∀ y, x.1 = some y → y.1 ≠ .OK)) := by
  refine ⟨fun h => by unfold cpuperfL; rw [h], fun h => ?_, fun x h hx y hy hok => ?_⟩
  · unfold cpuperfL
    rw [h]
    cases monoclock_getres m.clk m.clocksPerSec e.res <;> rfl
  · obtain ⟨x, sm⟩ := x
    obtain ⟨c, o⟩ := y
    simp only [] at hy hok
    subst hy hok
    obtain ⟨t1, t2, -, -, -, -, hp⟩ := cpuperfL_refines hx
    obtain ⟨resd, t0, n, el, hr, ht0, -⟩ := C45_estimate hp
    rw [h] at ht0
    cases ht0

/-- A process whose clock has resolution zero and advances by a second while the second derivation runs. -/
def exTimed : CallEnv :=
  { exCallEnv with
    res := ⟨.time 0 0, .fail⟩, start1 := ⟨.time 7 0, .fail⟩, steps1 := [⟨okEnv, ⟨.time 8 0, .fail⟩⟩], start2 := ⟨.time 8 0, .fail⟩,
    steps2 := [⟨okEnv, ⟨.time 8 0, .fail⟩⟩, ⟨okEnv, ⟨.time 9 0, .fail⟩⟩] }

theorem exTimed_loop (m : Machine) (hsz : m.szMax = 2 ^ 64 - 1) (hw : ShaHw) (f : SmixImpl) (N : W64) (hN : N = 16 ∨ N = 128) (t0 : Timeval) (bound : F64) :
    ∀ (l : List ClkPair) (i : Nat), perfLoopL m exTimed (shaTransform hw) N t0 bound i (l.map fun c => ⟨okEnv, c⟩) (some f) =
      .ok (match perfLoop m.clk t0 bound i (l.map fun c => ⟨true, c⟩) with
        | .err c => .err c
        | .done d n _ => .done d n
        | .running => .running, some f)
  | [], i => rfl
  | c :: l, i => by
    rw [List.map_cons, List.map_cons]
    unfold perfLoopL perfLoop
    obtain ⟨o, h, h0, -⟩ := C21_returns_zero hw (2 ^ 64 - 1) (.inr rfl) m.sse2 okEnv okEnv okEnv okEnv_sized zeroHctx zeroHctx_ok (List.replicate 64 3) f [] [] N 1 1 [] 0
      (by simp) (by omega) (by
        rcases hN with rfl | rfl
        · exact ⟨by decide, by decide, by decide, ⟨4, by decide, by norm_num, by norm_num⟩, by norm_num, by decide, by decide, by decide⟩
        · exact ⟨by decide, by decide, by decide, ⟨7, by decide, by norm_num, by norm_num⟩, by norm_num, by decide, by decide, by decide⟩) (by simp [okEnv]) (by simp [okEnv]) (by simp [okEnv]) rfl
    rw [hsz]
    rw [show exTimed.kdf1 = okEnv from rfl, show exTimed.kdf2 = okEnv from rfl, show exTimed.junkHmac = zeroHctx from rfl,
      show exTimed.junkTest = List.replicate 64 3 from rfl, h, Res.bind_ok, h0, if_neg (by decide), if_pos rfl]
    simp only []
    cases getclockdiff m.clk t0 c with
    | none => rfl
    | some d =>
      simp only []
      by_cases hlt : F64.lt bound d = true
      · rw [if_pos hlt, if_pos hlt]
      · rw [if_neg hlt, if_neg hlt]
        exact exTimed_loop m hsz hw f N hN t0 bound l (i + 1)

/-- Non-vacuity of `C45_process`: on every processor, once an implementation is selected, that process estimates 1024 operations per second. -/
theorem exTimed_ok (a : ShaHw → Bool) (b : AesHw → Bool) (c : Bool) (hw : ShaHw) (f : SmixImpl) :
    cpuperfL (exMachine a b c) exTimed (shaTransform hw) (some f) = .ok (some (.OK, fin false 1024), some f) := by
  have key := exPerf_ok
  unfold scryptenc_cpuperf at key
  unfold cpuperfL
  rw [show (exMachine a b c).clk = ⟨true, true⟩ from rfl, show (exMachine a b c).clocksPerSec = 1000000 from rfl, show exTimed.res = ⟨.time 0 0, .fail⟩ from rfl,
    show exTimed.start1 = ⟨.time 7 0, .fail⟩ from rfl]
  cases h1 : monoclock_getres ⟨true, true⟩ 1000000 ⟨.time 0 0, .fail⟩ with
  | none => rw [h1] at key; simp at key
  | some resd =>
    rw [h1] at key
    simp only [] at key ⊢
    cases h2 : monoclock_get ⟨true, true⟩ ⟨.time 7 0, .fail⟩ with
    | none => rw [h2] at key; simp at key
    | some t0 =>
      rw [h2] at key
      simp only [] at key ⊢
      have l1 := exTimed_loop (exMachine a b c) rfl hw f 16 (.inl rfl) t0 (F64.ofNat 0) [⟨.time 8 0, .fail⟩] 0
      rw [show exTimed.steps1 = [(⟨.time 8 0, .fail⟩ : ClkPair)].map (fun c => ⟨okEnv, c⟩) from rfl, l1, Res.bind_ok]
      rw [show (exMachine a b c).clk = ⟨true, true⟩ from rfl, show [(⟨.time 8 0, .fail⟩ : ClkPair)].map (fun c => (⟨true, c⟩ : PerfStep)) = [⟨true, ⟨.time 8 0, .fail⟩⟩] from rfl]
      cases h3 : perfLoop ⟨true, true⟩ t0 (F64.ofNat 0) 0 [⟨true, ⟨.time 8 0, .fail⟩⟩] with
      | err c => rw [h3] at key; simp only [] at key ⊢; rw [key]
      | running => rw [h3] at key; simp at key
      | done d n r =>
        rw [h3] at key
        simp only [] at key ⊢
        unfold perfPhase2 at key
        unfold perfPhase2L
        rw [show (exMachine a b c).clk = ⟨true, true⟩ from rfl, show exTimed.start2 = ⟨.time 8 0, .fail⟩ from rfl]
        cases h4 : monoclock_get ⟨true, true⟩ ⟨.time 8 0, .fail⟩ with
        | none => rw [h4] at key; simp at key
        | some t2 =>
          rw [h4] at key
          simp only [] at key ⊢
          have l2 := exTimed_loop (exMachine a b c) rfl hw f 128 (.inr rfl) t2 resd [⟨.time 8 0, .fail⟩, ⟨.time 9 0, .fail⟩] 0
          rw [show exTimed.steps2 = [(⟨.time 8 0, .fail⟩ : ClkPair), ⟨.time 9 0, .fail⟩].map (fun c => ⟨okEnv, c⟩) from rfl, l2, Res.bind_ok]
          rw [show (exMachine a b c).clk = ⟨true, true⟩ from rfl,
            show [(⟨.time 8 0, .fail⟩ : ClkPair), ⟨.time 9 0, .fail⟩].map (fun c => (⟨true, c⟩ : PerfStep)) = [⟨true, ⟨.time 8 0, .fail⟩⟩, ⟨true, ⟨.time 9 0, .fail⟩⟩] from rfl]
          cases h5 : perfLoop ⟨true, true⟩ t2 resd 0 [⟨true, ⟨.time 8 0, .fail⟩⟩, ⟨true, ⟨.time 9 0, .fail⟩⟩] with
          | err c => rw [h5] at key; simp only [] at key ⊢; rw [key]
          | running => rw [h5] at key; simp at key
          | done d' n' r' => rw [h5] at key; simp only [] at key ⊢; rw [key]

/-- The hypotheses of `C45_process` are all met there: 1024 operations per second, to within one part in 2^28. -/
example : ∃ (n : ℕ) (s0 u0 s1 u1 : ℤ), 1 ≤ n ∧ 0 < passed s0 u0 s1 u1 ∧ |1024 * passed s0 u0 s1 u1 - 512 * n| ≤ 512 * n / 2 ^ 28 := by
  obtain ⟨R, s0, u0, n, s1, u1, last, v, -, -, h2, -, -, h3, -, -, h4, h5⟩ := C45_process (exMachine_good (fun _ => false) (fun _ => false) true) (by show 1000000 < _; norm_num)
    (e := exTimed) (exClkNormal _ 0 (by norm_num)) ⟨fun _ _ h => (by cases h; exact ⟨le_refl _, le_refl _⟩), fun _ _ h => (by cases h)⟩ (exClkNormal _ 8 (by norm_num))
    (fun s hs => by
      simp only [exTimed, List.mem_cons, List.not_mem_nil, or_false] at hs
      rcases hs with rfl | rfl <;> exact exClkNormal _ _ (by norm_num)) (by show 2 < _; norm_num) (exTimed_ok _ _ _ .x86_sse2 .generic)
  obtain ⟨-, rfl⟩ := F64.fin.inj h4
  exact ⟨n, s0, u0, s1, u1, h2, h3, h5⟩

end Scrypt.Props
