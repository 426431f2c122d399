import Verif.Model.Services
import Verif.Spec.Services
import Verif.Props.Entropy
import Verif.Props.Asprintf
import Verif.Props.Aes
import Verif.Props.Scrypt
/-
C75: a failing service of the system is named; and the self-tests complain only when memory ran out.
-/
namespace Scrypt.Props
open Scrypt Scrypt.Spec

/-! ### Entropy -/

theorem fillSaid_skip (cs : List Bytes) : ∀ (rest : List (Option Bytes)) (n : Nat), (∀ c ∈ cs, c ≠ []) → cs.flatten.length < n →
    fillSaid (cs.map some ++ rest) n = fillSaid rest (n - cs.flatten.length) := by
  induction cs with
  | nil => intro rest n _ _; simp
  | cons c cs ih =>
    intro rest n h hl
    rw [List.flatten_cons, List.length_append] at hl
    have hc : c.length ≠ 0 := fun h0 => h c (by simp) (List.length_eq_zero_iff.1 h0)
    obtain ⟨m, rfl⟩ : ∃ m, n = m + 1 := ⟨n - 1, by omega⟩
    rw [List.map_cons, List.cons_append, fillSaid, if_neg hc, ih rest _ (fun x hx => h x (by simp [hx])) (by omega), List.flatten_cons, List.length_append,
      Nat.sub_sub]

theorem fillSaid_all (cs : List Bytes) : ∀ (rest : List (Option Bytes)) (n : Nat), (∀ c ∈ cs, c ≠ []) → cs.flatten.length = n →
    fillSaid (cs.map some ++ rest) n = ([], false) := by
  induction cs with
  | nil => intro rest n _ h; cases h; cases rest <;> rfl
  | cons c cs ih =>
    intro rest n h hl
    rw [List.flatten_cons, List.length_append] at hl
    have hc : c.length ≠ 0 := fun h0 => h c (by simp) (List.length_eq_zero_iff.1 h0)
    obtain ⟨m, rfl⟩ : ∃ m, n = m + 1 := ⟨n - 1, by omega⟩
    rw [List.map_cons, List.cons_append, fillSaid, if_neg hc]
    exact ih rest _ (fun x hx => h x (by simp [hx])) (by omega)

theorem fillLoop_said {reads : List (Option Bytes)} {buf buf' : Bytes} {n : Nat} {b : Bool} (hn : n ≤ buf.length)
    (h : fillLoop reads buf 0 n = .ok (some (b, buf'))) :
    (b = true → fillSaid reads n = ([], false) ∧ ∃ x, Delivered reads n x) ∧ (b = false → ∃ d, fillSaid reads n = ([d], true) ∧ ReadFault reads n d) := by
  refine ⟨fun hb => ?_, fun hb => ?_⟩
  · obtain ⟨x, hx⟩ := (fill_iff hn h).1.1 hb
    refine ⟨?_, x, hx⟩
    obtain ⟨cs, rest, rfl, h2, rfl, h4⟩ := hx
    exact fillSaid_all cs rest n h2 h4
  · obtain ⟨cs, rest, h1, h2, h3, -, h5, h6⟩ := fillLoop_spec reads buf 0 n b buf' (by omega) h
    obtain ⟨r, hr⟩ := h6 hb
    have hlt : cs.flatten.length < n := by
      rcases Nat.lt_or_ge cs.flatten.length n with h0 | h0
      · exact h0
      · rw [h5.2 (by omega)] at hb; cases hb
    obtain ⟨m, hm⟩ : ∃ m, n - cs.flatten.length = m + 1 := ⟨n - cs.flatten.length - 1, by omega⟩
    rw [h1, fillSaid_skip cs rest n h2 hlt, hm]
    rcases hr with rfl | rfl
    · exact ⟨_, rfl, .error cs r rfl h2 hlt⟩
    · exact ⟨_, rfl, .eof cs r rfl h2 hlt⟩

theorem closeLoop_said {closes : List CloseAns} {b : Bool} {tr : List EntEv} (h : closeLoop closes = some (b, tr)) :
    (b = true → closeSaid closes = ([], false) ∧ ClosedWith closes .ok) ∧
    (b = false → closeSaid closes = ([.warnp "close(/dev/urandom)".toList], true) ∧ ClosedWith closes .err) := by
  obtain ⟨k, rest, a, h1, h2, h3, -⟩ := closeLoop_spec closes b tr h
  have skip : ∀ (k : Nat) (l : List CloseAns), closeSaid (List.replicate k .eintr ++ l) = closeSaid l := by
    intro k
    induction k with
    | zero => intro l; rfl
    | succ k ih => intro l; rw [List.replicate_succ, List.cons_append, closeSaid, ih]
  refine ⟨fun hb => ?_, fun hb => ?_⟩
  · obtain rfl := h3.1 hb
    rw [h1, skip]
    exact ⟨rfl, by decide, k, rest, rfl⟩
  · obtain rfl : a = .err := by
      cases a with
      | ok => rw [h3.2 rfl] at hb; cases hb
      | eintr => exact absurd rfl h2
      | err => rfl
    rw [h1, skip]
    exact ⟨rfl, by decide, k, rest, rfl⟩

/-- **C75.**  Reading entropy from the system: success is silent; a failure is explained by naming the system call that failed, with the system's reason (or
the unexpected end of the device), and the stage.  (A failing close after a failed read is mentioned too.) -/
theorem C75_entropy {os : EntropyOs} {buf : Bytes} {n : Nat} {o : EntOut} (hn : n ≤ buf.length) (h : entropy_read os buf n = .ok (some o)) :
    (o.ok = true → entropySaid os n = []) ∧ (o.ok = false → EntropyLines os n (entropySaid os n)) := by
  unfold entropy_read at h
  unfold entropySaid
  by_cases hs : SSIZE_MAX < n
  · rw [if_pos hs] at h; cases h
  rw [if_neg hs] at h
  cases hm : os.mallocOk with
  | false =>
    rw [hm] at h
    have h := Option.some.inj (Res.ok.inj h)
    rw [← h]
    exact ⟨(fun h => by cases h), fun _ => .memory hm⟩
  | true =>
    cases ho : os.openOk with
    | false =>
      rw [hm, ho] at h
      have h := Option.some.inj (Res.ok.inj h)
      rw [← h]
      exact ⟨(fun h => by cases h), fun _ => .noDevice hm ho⟩
    | true =>
      rw [hm, ho] at h
      simp only [Bool.not_true, Bool.false_eq_true, if_false] at h ⊢
      unfold entropy_read_fill at h
      rw [if_neg hs, Res.bind_eq_ok] at h
      obtain ⟨f, hf, h⟩ := h
      cases f with
      | none => cases Res.ok.inj h
      | some f =>
        obtain ⟨filled, buf'⟩ := f
        simp only at h
        unfold entropy_read_done at h
        cases hc : closeLoop os.closes with
        | none => rw [hc] at h; cases Res.ok.inj h
        | some c =>
          obtain ⟨closed, tr⟩ := c
          rw [hc] at h
          simp only [Option.map_some] at h
          have h := Option.some.inj (Res.ok.inj h)
          obtain ⟨f1, f2⟩ := fillLoop_said hn hf
          obtain ⟨c1, c2⟩ := closeLoop_said hc
          rw [← h]
          unfold openedSaid
          cases filled with
          | true =>
            obtain ⟨e1, x, hx⟩ := f1 rfl
            rw [e1]
            cases closed with
            | true =>
              rw [(c1 rfl).1]
              exact ⟨fun _ => rfl, (fun h => by cases h)⟩
            | false =>
              rw [(c2 rfl).1]
              exact ⟨(fun h => by cases h), fun _ => .close hm ho hx (c2 rfl).2⟩
          | false =>
            obtain ⟨d, e1, hd⟩ := f2 rfl
            rw [e1]
            cases closed with
            | true =>
              rw [(c1 rfl).1]
              exact ⟨(fun h => by cases h), fun _ => .read hm ho hd (c1 rfl).2⟩
            | false =>
              rw [(c2 rfl).1]
              exact ⟨(fun h => by cases h), fun _ => .readClose hm ho hd (c2 rfl).2⟩

theorem instantiate_said {sys : DrbgSys} {e : SeedEnv} {st st' : Drbg} {b : Bool} (h : instantiate sys e st = .ok (some (b, st'))) :
    (b = true → entropySaid e.os 48 = []) ∧ (b = false → EntropyLines e.os 48 (entropySaid e.os 48)) := by
  unfold instantiate at h
  rw [Res.bind_eq_ok] at h
  obtain ⟨r, hr, h⟩ := h
  cases r with
  | none => cases Res.ok.inj h
  | some r =>
    obtain ⟨k1, k2⟩ := C75_entropy (by simp) hr
    simp only at h
    cases hk : r.ok with
    | false =>
      rw [hk] at h
      have h := (Prod.mk.inj (Option.some.inj (Res.ok.inj h))).1
      rw [← h]
      exact ⟨(fun h => by cases h), fun _ => k2 hk⟩
    | true =>
      rw [hk] at h
      simp only [Bool.not_true, Bool.false_eq_true, if_false] at h
      rw [Res.bind_eq_ok] at h
      obtain ⟨st1, -, h⟩ := h
      rw [Res.bind_eq_ok] at h
      obtain ⟨st2, -, h⟩ := h
      have h := (Prod.mk.inj (Option.some.inj (Res.ok.inj h))).1
      rw [← h]
      exact ⟨fun _ => k1 hk, (fun h => by cases h)⟩

theorem reseed_said {sys : DrbgSys} {e : SeedEnv} {st st' : Drbg} {b : Bool} (h : reseed sys e st = .ok (some (b, st'))) :
    (b = true → entropySaid e.os 32 = []) ∧ (b = false → EntropyLines e.os 32 (entropySaid e.os 32)) := by
  unfold reseed at h
  rw [Res.bind_eq_ok] at h
  obtain ⟨r, hr, h⟩ := h
  cases r with
  | none => cases Res.ok.inj h
  | some r =>
    obtain ⟨k1, k2⟩ := C75_entropy (by simp) hr
    simp only at h
    cases hk : r.ok with
    | false =>
      rw [hk] at h
      have h := (Prod.mk.inj (Option.some.inj (Res.ok.inj h))).1
      rw [← h]
      exact ⟨(fun h => by cases h), fun _ => k2 hk⟩
    | true =>
      rw [hk] at h
      simp only [Bool.not_true, Bool.false_eq_true, if_false] at h
      rw [Res.bind_eq_ok] at h
      obtain ⟨st1, -, h⟩ := h
      rw [Res.bind_eq_ok] at h
      obtain ⟨st2, -, h⟩ := h
      have h := (Prod.mk.inj (Option.some.inj (Res.ok.inj h))).1
      rw [← h]
      exact ⟨fun _ => k1 hk, (fun h => by cases h)⟩

theorem readLoop_said {sys : DrbgSys} (n : Nat) : ∀ {es : List SeedEnv} {st : Drbg} {buf : Bytes} {off : Nat} {r : ReadOut},
    readLoop sys es st buf off n = .ok (some r) → ∃ used, es = used ++ r.rest ∧ (r.ok = true → seedsSaid true used = []) ∧
      (r.ok = false → ∃ pre e, used = pre ++ [e] ∧ EntropyLines e.os 32 (seedsSaid true used)) := by
  induction n using Nat.strongRecOn with
  | ind n ih =>
    intro es st buf off r h
    rw [readLoop] at h
    by_cases hn : n = 0
    · rw [dif_pos hn] at h
      have h := Option.some.inj (Res.ok.inj h)
      rw [← h]
      exact ⟨[], rfl, fun _ => rfl, (fun h => by cases h)⟩
    · rw [dif_neg hn, Res.bind_eq_ok] at h
      obtain ⟨q, hq, h⟩ := h
      cases q with
      | none => cases Res.ok.inj h
      | some q =>
        obtain ⟨go, st1, es1⟩ := q
        have key : ∃ used, es = used ++ es1 ∧ (go = true → seedsSaid true used = [] ∧ ∀ l, seedsSaid true (used ++ l) = seedsSaid true l) ∧
            (go = false → ∃ pre e, used = pre ++ [e] ∧ EntropyLines e.os 32 (seedsSaid true used)) := by
          unfold reseedIfNeeded at hq
          by_cases hc : st.reseed_counter.toNat > RESEED_INTERVAL
          · rw [if_pos hc] at hq
            cases es with
            | nil => cases Res.ok.inj hq
            | cons e es =>
              simp only at hq
              rw [Res.bind_eq_ok] at hq
              obtain ⟨x, hx, hq⟩ := hq
              cases x with
              | none => cases Res.ok.inj hq
              | some x =>
                have hq := Option.some.inj (Res.ok.inj hq)
                simp only [Prod.mk.injEq] at hq
                obtain ⟨rfl, rfl, rfl⟩ := hq
                obtain ⟨a, b⟩ := reseed_said (b := x.1) (st' := x.2) hx
                refine ⟨[e], rfl, fun hg => ⟨?_, fun l => ?_⟩, fun hg => ⟨[], e, rfl, ?_⟩⟩
                · unfold seedsSaid; rw [if_pos rfl, a hg]; rfl
                · rw [List.cons_append, List.nil_append, seedsSaid, if_pos rfl, a hg]; rfl
                · unfold seedsSaid; rw [if_pos rfl]; unfold seedsSaid; rw [List.append_nil]; exact b hg
          · rw [if_neg hc] at hq
            have hq := Option.some.inj (Res.ok.inj hq)
            simp only [Prod.mk.injEq] at hq
            obtain ⟨rfl, rfl, rfl⟩ := hq
            exact ⟨[], rfl, fun _ => ⟨rfl, fun _ => rfl⟩, (fun h => by cases h)⟩
        obtain ⟨used, e1, e2, e3⟩ := key
        cases go with
        | false =>
          simp only at h
          have h := Option.some.inj (Res.ok.inj h)
          rw [← h]
          exact ⟨used, e1, (fun h => by cases h), fun _ => e3 rfl⟩
        | true =>
          simp only at h
          rw [Res.bind_eq_ok] at h
          obtain ⟨g, -, h⟩ := h
          have hlt : n - bytesToProvide n < n := by
            unfold bytesToProvide GENERATE_MAXLEN
            split <;> omega
          obtain ⟨u2, f1, f2, f3⟩ := ih _ hlt h
          refine ⟨used ++ u2, by rw [e1, f1, List.append_assoc], fun hk => ?_, fun hk => ?_⟩
          · rw [(e2 rfl).2, f2 hk]
          · obtain ⟨pre, e, g1, g2⟩ := f3 hk
            exact ⟨used ++ pre, e, by rw [g1, List.append_assoc], by rw [(e2 rfl).2]; exact g2⟩

/-- **C75.**  The random generator prints nothing as long as it delivers; when it fails, what it has printed is the explanation of the attempt to obtain entropy that
failed, the last one made. -/
theorem C75_generator {sys : DrbgSys} {es : List SeedEnv} {st : Drbg} {buf : Bytes} {n : Nat} {r : ReadOut}
    (h : crypto_entropy_read sys es st buf n = .ok (some r)) :
    ∃ used, es = used ++ r.rest ∧ (r.ok = true → seedsSaid st.instantiated used = []) ∧
      (r.ok = false → ∃ pre e k, used = pre ++ [e] ∧ (k = 32 ∨ k = 48) ∧ EntropyLines e.os k (seedsSaid st.instantiated used)) := by
  unfold crypto_entropy_read at h
  cases hi : st.instantiated with
  | true =>
    rw [hi, if_pos rfl] at h
    obtain ⟨used, a, b, c⟩ := readLoop_said n h
    exact ⟨used, a, b, fun hk => let ⟨pre, e, x, y⟩ := c hk; ⟨pre, e, 32, x, .inl rfl, y⟩⟩
  | false =>
    rw [hi, if_neg (by decide)] at h
    cases es with
    | nil => cases Res.ok.inj h
    | cons e es =>
      simp only at h
      rw [Res.bind_eq_ok] at h
      obtain ⟨q, hq, h⟩ := h
      cases q with
      | none => cases Res.ok.inj h
      | some q =>
        obtain ⟨ok, st1⟩ := q
        obtain ⟨k1, k2⟩ := instantiate_said hq
        cases ok with
        | false =>
          simp only at h
          have h := Option.some.inj (Res.ok.inj h)
          rw [← h]
          refine ⟨[e], rfl, (fun h => by cases h), fun _ => ⟨[], e, 48, rfl, .inr rfl, ?_⟩⟩
          unfold seedsSaid
          unfold seedsSaid
          rw [List.append_nil]
          exact k2 rfl
        | true =>
          simp only at h
          obtain ⟨used, a, b, c⟩ := readLoop_said n h
          refine ⟨e :: used, by rw [a]; rfl, fun hk => ?_, fun hk => ?_⟩
          · rw [seedsSaid, b hk, List.append_nil]; exact k1 rfl
          · obtain ⟨pre, e', x, y⟩ := c hk
            refine ⟨e :: pre, e', 32, by rw [x]; rfl, .inl rfl, ?_⟩
            rw [seedsSaid, if_neg (by decide), k1 rfl]
            exact y

/-! ### Clocks -/

/-- **C75.**  Reading the clock fails exactly if something is printed, and that is one line with the name of the clock that failed. -/
theorem C75_clock (cfg : ClkCfg) (a : ClkPair) :
    (monoclock_get cfg a ≠ none → monoclock_get_said cfg a = []) ∧
    (monoclock_get cfg a = none → ∃ t, monoclock_get_said cfg a = [.warnp t] ∧ ClockFault cfg a "clock_gettime".toList t) := by
  have fb : NoMonotonic cfg a → (monoFallback cfg a.fallback ≠ none → monoFallbackSaid cfg a.fallback = []) ∧
      (monoFallback cfg a.fallback = none → ∃ t, monoFallbackSaid cfg a.fallback = [.warnp t] ∧ ClockFault cfg a "clock_gettime".toList t) := by
    intro hm
    cases hf : a.fallback with
    | time s n => exact ⟨fun _ => rfl, (fun h => by cases h)⟩
    | unsupported =>
      refine ⟨fun h => absurd rfl h, fun _ => ?_⟩
      have hn : NoFallback a := fun s n => by rw [hf]; exact fun h => by cases h
      cases hr : cfg.useRealtime with
      | true => exact ⟨_, by unfold monoFallbackSaid; rw [hr, if_pos rfl]; rfl, .realtime hm hr hn⟩
      | false => exact ⟨_, by unfold monoFallbackSaid; rw [hr, if_neg (by decide)], .timeOfDay hm hr hn rfl⟩
    | fail =>
      refine ⟨fun h => absurd rfl h, fun _ => ?_⟩
      have hn : NoFallback a := fun s n => by rw [hf]; exact fun h => by cases h
      cases hr : cfg.useRealtime with
      | true => exact ⟨_, by unfold monoFallbackSaid; rw [hr, if_pos rfl]; rfl, .realtime hm hr hn⟩
      | false => exact ⟨_, by unfold monoFallbackSaid; rw [hr, if_neg (by decide)], .timeOfDay hm hr hn rfl⟩
  unfold monoclock_get monoclock_get_said
  cases hu : cfg.useMonotonic with
  | false => exact fb (.inl hu)
  | true =>
    rw [if_pos rfl, if_pos rfl]
    cases hm : a.mono with
    | time s n => exact ⟨fun _ => rfl, (fun h => by cases h)⟩
    | fail => exact ⟨fun h => absurd rfl h, fun _ => ⟨_, rfl, .monotonic hu hm⟩⟩
    | unsupported => exact fb (.inr hm)

/-- **C75.**  Asking for the resolution of the clock, likewise. -/
theorem C75_resolution (cfg : ClkCfg) (clocksPerSec : Nat) (a : ClkPair) :
    (monoclock_getres cfg clocksPerSec a ≠ none → monoclock_getres_said cfg a = []) ∧
    (monoclock_getres cfg clocksPerSec a = none → ∃ t, monoclock_getres_said cfg a = [.warnp t] ∧ ClockFault cfg a "clock_getres".toList t) := by
  have fb : NoMonotonic cfg a → (resFallback cfg clocksPerSec a.fallback ≠ none → resFallbackSaid cfg a.fallback = []) ∧
      (resFallback cfg clocksPerSec a.fallback = none → ∃ t, resFallbackSaid cfg a.fallback = [.warnp t] ∧ ClockFault cfg a "clock_getres".toList t) := by
    intro hm
    unfold resFallback resFallbackSaid
    cases hr : cfg.useRealtime with
    | true =>
      cases hf : a.fallback with
      | time s n => exact ⟨fun _ => rfl, (fun h => by cases h)⟩
      | unsupported => exact ⟨fun h => absurd rfl h, fun _ => ⟨_, rfl, .realtime hm hr fun s n => by rw [hf]; exact fun h => by cases h⟩⟩
      | fail => exact ⟨fun h => absurd rfl h, fun _ => ⟨_, rfl, .realtime hm hr fun s n => by rw [hf]; exact fun h => by cases h⟩⟩
    | false =>
      cases hf : a.fallback with
      | time s n => exact ⟨fun _ => rfl, (fun h => by cases h)⟩
      | unsupported => exact ⟨fun _ => rfl, (fun h => by cases h)⟩
      | fail => exact ⟨fun _ => rfl, (fun h => by cases h)⟩
  unfold monoclock_getres monoclock_getres_said
  cases hu : cfg.useMonotonic with
  | false => exact fb (.inl hu)
  | true =>
    rw [if_pos rfl, if_pos rfl]
    cases hm : a.mono with
    | time s n => exact ⟨fun _ => rfl, (fun h => by cases h)⟩
    | fail => exact ⟨fun h => absurd rfl h, fun _ => ⟨_, rfl, .monotonic hu hm⟩⟩
    | unsupported => exact fb (.inr hm)

/-- **C75.**  The processor time of the process: from its own clock (in whole microseconds) where the system has it, otherwise from the clock of C45, otherwise
none; and the clock that failed is named. -/
theorem C75_cputime (cfg : ClkCfg) (cpu : Option ClkAns) (a : ClkPair) :
    (∀ s n, 0 ≤ n → cpu = some (.time s n) → monoclock_get_cputime cfg cpu a = some ⟨s, n / 1000⟩ ∧ monoclock_get_cputime_said cfg cpu a = []) ∧
    (cpu = some .fail → monoclock_get_cputime cfg cpu a = none ∧
      monoclock_get_cputime_said cfg cpu a = [.warnp "clock_gettime(CLOCK_PROCESS_CPUTIME_ID)".toList]) ∧
    (cpu = none ∨ cpu = some .unsupported → monoclock_get_cputime cfg cpu a = monoclock_get cfg a ∧
      monoclock_get_cputime_said cfg cpu a = monoclock_get_said cfg a) := by
  refine ⟨?_, ?_, ?_⟩
  · rintro s n hn rfl
    refine ⟨?_, rfl⟩
    unfold monoclock_get_cputime
    simp only [Int.tdiv_eq_ediv_of_nonneg hn]
  · rintro rfl; exact ⟨rfl, rfl⟩
  · rintro (rfl | rfl) <;> exact ⟨rfl, rfl⟩

theorem perfLoop_said (cfg : ClkCfg) (st : Timeval) (bound : F64) (steps : List PerfStep) : ∀ i : Nat,
    (∀ c, perfLoop cfg st bound i steps = .err c → (perfLoopSaid cfg st bound steps).2 = false ∧ (c = .ECLOCK ∨ c = .EKEY) ∧
      (c = .ECLOCK → ∃ t, (perfLoopSaid cfg st bound steps).1 = [.warnp t] ∧ ∃ s ∈ steps, ClockFault cfg s.clk "clock_gettime".toList t) ∧
      (c = .EKEY → (perfLoopSaid cfg st bound steps).1 = [])) ∧
    (∀ d n rest, perfLoop cfg st bound i steps = .done d n rest → perfLoopSaid cfg st bound steps = ([], true)) ∧
    (perfLoop cfg st bound i steps = .running → perfLoopSaid cfg st bound steps = ([], false)) := by
  induction steps with
  | nil => intro i; exact ⟨(fun c h => by cases h), (fun d n r h => by cases h), fun _ => rfl⟩
  | cons s rest ih =>
    intro i
    unfold perfLoop perfLoopSaid
    cases hs : s.scryptOk with
    | false =>
      refine ⟨fun c h => ?_, (fun d n r h => by cases h), (fun h => by cases h)⟩
      have : c = .EKEY := by cases h; rfl
      subst this
      exact ⟨rfl, .inr rfl, (fun h => by cases h), fun _ => rfl⟩
    | true =>
      simp only [if_true]
      obtain ⟨c1, c2⟩ := C75_clock cfg s.clk
      cases hg : getclockdiff cfg st s.clk with
      | none =>
        have hm : monoclock_get cfg s.clk = none := by
          unfold getclockdiff at hg
          cases hm : monoclock_get cfg s.clk with
          | none => rfl
          | some t => rw [hm] at hg; cases hg
        obtain ⟨t, e1, e2⟩ := c2 hm
        refine ⟨fun c h => ?_, (fun d n r h => by cases h), (fun h => by cases h)⟩
        have : c = .ECLOCK := by cases h; rfl
        subst this
        exact ⟨rfl, .inl rfl, fun _ => ⟨t, e1, s, by simp, e2⟩, (fun h => by cases h)⟩
      | some d =>
        have hm : monoclock_get cfg s.clk ≠ none := by
          intro hm
          unfold getclockdiff at hg
          rw [hm] at hg
          cases hg
        rw [c1 hm]
        simp only []
        by_cases hb : F64.lt bound d = true
        · rw [if_pos hb, if_pos hb]
          exact ⟨(fun c h => by cases h), fun _ _ _ _ => rfl, (fun h => by cases h)⟩
        · rw [if_neg hb, if_neg hb]
          obtain ⟨i1, i2, i3⟩ := ih (i + 1)
          rw [List.nil_append]
          refine ⟨fun c h => ?_, fun d n r h => i2 d n r h, fun h => i3 h⟩
          obtain ⟨j1, j2, j3, j4⟩ := i1 c h
          refine ⟨j1, j2, fun hc => ?_, j4⟩
          obtain ⟨t, k1, s', k2, k3⟩ := j3 hc
          exact ⟨t, k1, s', by simp [k2], k3⟩

/-- **C75.**  Measuring the speed of the computer: if it ends with the code for a failed clock, exactly one line is printed, and it names the
clock that failed, with the system's reason; otherwise nothing is printed. -/
theorem C75_cpuperf (cfg : ClkCfg) (clocksPerSec : Nat) (res start1 : ClkPair) (steps1 : List PerfStep) (start2 : ClkPair) (steps2 : List PerfStep) :
    (∀ x, scryptenc_cpuperf cfg clocksPerSec res start1 steps1 start2 steps2 = some (.ECLOCK, x) →
      ∃ t, scryptenc_cpuperf_said cfg clocksPerSec res start1 steps1 start2 steps2 = [.warnp t] ∧
        (ClockFault cfg res "clock_getres".toList t ∨
          ∃ a ∈ start1 :: start2 :: (steps1 ++ steps2).map (·.clk), ClockFault cfg a "clock_gettime".toList t)) ∧
    ((∀ x, scryptenc_cpuperf cfg clocksPerSec res start1 steps1 start2 steps2 ≠ some (.ECLOCK, x)) →
      scryptenc_cpuperf_said cfg clocksPerSec res start1 steps1 start2 steps2 = []) := by
  obtain ⟨r1, r2⟩ := C75_resolution cfg clocksPerSec res
  unfold scryptenc_cpuperf scryptenc_cpuperf_said perfPhase1Said perfPhase2 perfPhase2Said
  cases hr : monoclock_getres cfg clocksPerSec res with
  | none =>
    obtain ⟨t, a, b⟩ := r2 hr
    exact ⟨fun x _ => ⟨t, by rw [a]; rfl, .inl b⟩, fun h => absurd rfl (h _)⟩
  | some resd =>
    rw [r1 (by rw [hr]; exact fun h => by cases h), List.nil_append]
    obtain ⟨g1, g2⟩ := C75_clock cfg start1
    cases hg : monoclock_get cfg start1 with
    | none =>
      obtain ⟨t, a, b⟩ := g2 hg
      exact ⟨fun x _ => ⟨t, by rw [a]; rfl, .inr ⟨start1, by simp, b⟩⟩, fun h => absurd rfl (h _)⟩
    | some st =>
      obtain ⟨l1, l2, l3⟩ := perfLoop_said cfg st (F64.ofNat 0) steps1 0
      rw [g1 (by rw [hg]; exact fun h => by cases h)]
      simp only [List.nil_append]
      cases hl : perfLoop cfg st (F64.ofNat 0) 0 steps1 with
      | running =>
        rw [l3 hl]
        exact ⟨(fun x h => by cases h), fun _ => rfl⟩
      | err c =>
        obtain ⟨k1, k2, k3, k4⟩ := l1 c hl
        rw [k1]
        simp only [Bool.false_eq_true, if_false, List.append_nil]
        rcases k2 with rfl | rfl
        · obtain ⟨t, a, s', b, d⟩ := k3 rfl
          refine ⟨fun x _ => ⟨t, a, .inr ⟨s'.clk, ?_, d⟩⟩, fun h => absurd rfl (h _)⟩
          simp only [List.mem_cons, List.mem_map, List.mem_append]
          exact .inr (.inr ⟨s', .inl b, rfl⟩)
        · exact ⟨(fun x h => by cases h), fun _ => k4 rfl⟩
      | done d n rest =>
        rw [l2 d n rest hl]
        simp only [if_true, List.nil_append]
        obtain ⟨q1, q2⟩ := C75_clock cfg start2
        cases hq : monoclock_get cfg start2 with
        | none =>
          obtain ⟨t, a, b⟩ := q2 hq
          exact ⟨fun x _ => ⟨t, by rw [a]; rfl, .inr ⟨start2, by simp, b⟩⟩, fun h => absurd rfl (h _)⟩
        | some st2 =>
          obtain ⟨m1, m2, m3⟩ := perfLoop_said cfg st2 resd steps2 0
          rw [q1 (by rw [hq]; exact fun h => by cases h)]
          simp only [List.nil_append]
          cases hm : perfLoop cfg st2 resd 0 steps2 with
          | running => rw [m3 hm]; exact ⟨(fun x h => by cases h), fun _ => rfl⟩
          | done d' n' rest' => rw [m2 d' n' rest' hm]; exact ⟨(fun x h => by cases h), fun _ => rfl⟩
          | err c =>
            obtain ⟨k1, k2, k3, k4⟩ := m1 c hm
            rcases k2 with rfl | rfl
            · obtain ⟨t, a, s', b, d⟩ := k3 rfl
              refine ⟨fun x _ => ⟨t, a, .inr ⟨s'.clk, ?_, d⟩⟩, fun h => absurd rfl (h _)⟩
              simp only [List.mem_cons, List.mem_map, List.mem_append]
              exact .inr (.inr ⟨s', .inr b, rfl⟩)
            · exact ⟨(fun x h => by cases h), fun _ => k4 rfl⟩

/-! ### The self-tests of the implementations -/

/-- **C75.**  The self-tests of SHA-256 never complain. -/
theorem C75_sha (feat : ShaHw → Bool) (st : Option ShaHw) : hwaccel_init_said feat shaTransform st = [] := by
  unfold hwaccel_init_said
  cases st with
  | some _ => rfl
  | none =>
    simp only [validateSaid, hwtest_pass _ _ (goodTf .software) (goodTf _)]
    cases feat .x86_shani <;> cases feat .x86_sse2 <;> cases feat .arm_sha256 <;> rfl

/-- **C75.**  The self-tests of AES complain about an implementation only if there was no memory for its round keys, and about OpenSSL only if it is broken. -/
theorem C75_aes (feat : AesHw → Bool) (ossl : Ossl) (st : Option AesHw) :
    (∀ mem : List Bytes, mem.length = 15 → GoodOssl ossl → aes_hwaccel_init_said feat (some mem) true ossl st = []) ∧
    (∀ (mem : Option (List Bytes)) (setOk : Bool), (∀ m, mem = some m → m.length = 15) → ∀ d ∈ aes_hwaccel_init_said feat mem setOk ossl st,
      st = none ∧ ((d = .warn0 "Disabling HW_X86_AESNI due to failed self-test".toList ∧ feat .x86_aesni = true ∧ mem = none) ∨
        (d = .warn0 "Disabling HW_ARM_AES due to failed self-test".toList ∧ feat .arm_aes = true ∧ mem = none) ∨
        (d = .warn0 "OpenSSL gives incorrect AES values.".toList ∧ (setOk = false ∨ ¬ GoodOssl ossl)))) := by
  have pass1 (mem : List Bytes) (hm : mem.length = 15) : functest (x86_aesni_oneshot (some mem)) aesTestcases = .ok true :=
    functest_pass _ (fun key len p h1 h2 h3 => oneshot_aesni mem hm key len h1 h2 p h3)
  have pass2 (mem : List Bytes) (hm : mem.length = 15) : functest (arm_aes_oneshot (some mem)) aesTestcases = .ok true :=
    functest_pass _ (fun key len p h1 h2 h3 => oneshot_arm mem hm key len h1 h2 p h3)
  have pass3 (ho : GoodOssl ossl) : functest (openssl_oneshot true ossl) aesTestcases = .ok true :=
    functest_pass _ (fun key len p h1 h2 h3 => oneshot_ossl ossl ho key len h1 h2 p h3)
  have val (checks : Bool) (check : Res Bool) (name : List Char) (next : List Diag) (d : Diag) (h : d ∈ validateSaid checks check name next) :
      (checks = true ∧ check = .ok false ∧ d = .warn0 ("Disabling ".toList ++ name ++ " due to failed self-test".toList)) ∨ d ∈ next := by
    unfold validateSaid at h
    cases hc : checks with
    | false => rw [hc, if_neg (by decide)] at h; exact .inr h
    | true =>
      rw [hc, if_pos rfl] at h
      cases hk : check with
      | ub => rw [hk] at h; cases h
      | abort => rw [hk] at h; cases h
      | ok b =>
        rw [hk] at h
        cases b with
        | true => cases h
        | false =>
          rcases List.mem_cons.1 h with e | e
          · exact .inl ⟨rfl, rfl, e⟩
          · exact .inr e
  refine ⟨fun mem hm ho => ?_, fun mem setOk hmem d hd => ?_⟩
  · unfold aes_hwaccel_init_said
    cases st with
    | some _ => rfl
    | none =>
      simp only [validateSaid, pass1 mem hm, pass2 mem hm, pass3 ho]
      cases feat .x86_aesni <;> cases feat .arm_aes <;> rfl
  · unfold aes_hwaccel_init_said at hd
    cases st with
    | some _ => cases hd
    | none =>
      refine ⟨rfl, ?_⟩
      have none_of (f : List Bytes → Prop) (h : ∀ m, m.length = 15 → ¬ f m) (k : ∀ m, mem = some m → f m) : mem = none := by
        cases mem with
        | none => rfl
        | some m => exact absurd (k m rfl) (h m (hmem m rfl))
      rcases val _ _ _ _ _ hd with ⟨a, b, c⟩ | hd
      · refine .inl ⟨c, a, ?_⟩
        refine none_of (fun m => functest (x86_aesni_oneshot (some m)) aesTestcases = .ok false) (fun m h e => ?_) (fun m e => by rw [← e]; exact b)
        rw [pass1 m h] at e; cases e
      · rcases val _ _ _ _ _ hd with ⟨a, b, c⟩ | hd
        · refine .inr (.inl ⟨c, a, ?_⟩)
          refine none_of (fun m => functest (arm_aes_oneshot (some m)) aesTestcases = .ok false) (fun m h e => ?_) (fun m e => by rw [← e]; exact b)
          rw [pass2 m h] at e; cases e
        · refine .inr (.inr ?_)
          cases hf : functest (openssl_oneshot setOk ossl) aesTestcases with
          | ub => rw [hf] at hd; cases hd
          | abort => rw [hf] at hd; cases hd
          | ok b =>
            rw [hf] at hd
            cases b with
            | true => cases hd
            | false =>
              refine ⟨List.mem_singleton.1 hd, ?_⟩
              cases setOk with
              | false => exact .inl rfl
              | true =>
                refine .inr (fun ho => ?_)
                rw [pass3 ho] at hf
                cases hf

/-- **C75.**  The self-tests of scrypt complain ("please report bug!") only if the test could not allocate or release its memory. -/
theorem C75_smix (hw : ShaHw) (szMax : Nat) (hs : IsSizeMax szMax) (sse2Ok : Bool) (e1 e2 : ScEnv) (he1 : e1.Sized) (he2 : e2.Sized)
    (junk : HMAC_SHA256_CTX) (hj : junk.Sized) (hbuf : Bytes) (hb : hbuf.length = 64) :
    ∀ d ∈ selectsmix_said szMax sse2Ok e1 e2 (shaTransform hw) junk hbuf smixImpl,
      (d = .warn0 "Disabling broken SSE2 scrypt support - please report bug!".toList ∧ sse2Ok = true ∧ ¬ SelfTestMemory e1) ∨
      (d = .warn0 "Generic scrypt code is broken - please report bug!".toList ∧ ¬ SelfTestMemory e2 ∧ (sse2Ok = true → ¬ SelfTestMemory e1)) := by
  have fails (e : ScEnv) (he : e.Sized) (f : SmixFn) (hf : GoodSmix f) (h : testsmix szMax e (shaTransform hw) junk hbuf f = .ok false) :
      ¬ SelfTestMemory e := by
    intro m
    rw [testsmix_pass szMax hs e he _ (goodTf hw) junk hj hbuf hb f hf m.1 m.2.1 m.2.2.1 m.2.2.2] at h
    cases h
  intro d hd
  unfold selectsmix_said at hd
  simp only [] at hd
  have last (P : Prop) (hp : P)
      (hl : d ∈ (match testsmix szMax e2 (shaTransform hw) junk hbuf (smixImpl .generic) with
        | .ok false => [Diag.warn0 "Generic scrypt code is broken - please report bug!".toList]
        | _ => [])) : d = .warn0 "Generic scrypt code is broken - please report bug!".toList ∧ ¬ SelfTestMemory e2 ∧ P := by
    cases ht : testsmix szMax e2 (shaTransform hw) junk hbuf (smixImpl .generic) with
    | ub => rw [ht] at hl; cases hl
    | abort => rw [ht] at hl; cases hl
    | ok b =>
      rw [ht] at hl
      cases b with
      | true => cases hl
      | false => exact ⟨List.mem_singleton.1 hl, fails e2 he2 _ (goodSmix _) ht, hp⟩
  cases sse2Ok with
  | false =>
    rw [if_neg (by decide)] at hd
    exact .inr (last _ (fun h => by cases h) hd)
  | true =>
    rw [if_pos rfl] at hd
    cases ht : testsmix szMax e1 (shaTransform hw) junk hbuf (smixImpl .sse2) with
    | ub => rw [ht] at hd; cases hd
    | abort => rw [ht] at hd; cases hd
    | ok b =>
      rw [ht] at hd
      cases b with
      | true => cases hd
      | false =>
        have k := fails e1 he1 _ (goodSmix _) ht
        rcases List.mem_cons.1 hd with e | e
        · exact .inl ⟨e, rfl, k⟩
        · exact .inr (last _ (fun _ => k) e)

/-! ### Text -/

/-- **C75.**  Making the text of a size: a line, naming asprintf, is printed exactly if there is no text. -/
theorem C75_humansize (e1 e2 : Bool) (m : Nat → Option CStr) (hm : MallocOk m) (size : W64) :
    ∃ r ev, humansizeMem e1 e2 m size = .ok (r, ev) ∧
      humansize_said e1 e2 m size = .ok (if r = none then [.warnp "asprintf".toList] else []) := by
  obtain ⟨d, r, ev, h, -⟩ := C58_humansize e1 e2 m hm size
  refine ⟨r, ev, h, ?_⟩
  obtain ⟨d', h1, -⟩ := C29_humansize size
  unfold humansizeMem at h
  unfold humansize_said
  rw [h1, Res.bind_ok] at h ⊢
  cases ha : asprintf ⟨if e1 then some d'.text else none, if e2 then some d'.text else none, m⟩ with
  | ub => rw [ha] at h; cases h
  | abort => rw [ha] at h; cases h
  | ok o =>
    rw [ha, Res.bind_ok] at h
    rw [Res.bind_ok]
    obtain ⟨k1, -⟩ := Prod.mk.inj (Res.ok.inj h)
    have f := (C58_failure _ _ _ _ ha).1
    by_cases hr : o.rc = -1
    · rw [if_pos hr] at k1 ⊢; rw [← k1, if_pos rfl]
    · rw [if_neg hr] at k1 ⊢
      rw [← k1, if_neg (fun e => hr (f.2 e))]

/-! ### Instances -/

/-- No memory for the state of the reader. -/
example : ∃ os : EntropyOs, os.mallocOk = false ∧ entropySaid os 48 = [.warnp "malloc".toList, .warn0 "entropy_read_init".toList] :=
  ⟨{ exOs with mallocOk := false }, rfl, rfl⟩

/-- A monotonic clock that fails. -/
example : monoclock_get ⟨true, true⟩ ⟨.fail, .time 0 0⟩ = none ∧
    monoclock_get_said ⟨true, true⟩ ⟨.fail, .time 0 0⟩ = [.warnp "clock_gettime(CLOCK_MONOTONIC)".toList] := ⟨rfl, rfl⟩

/-- Without memory for round keys the AES-NI implementation is disabled, and this is said. -/
theorem C75_aes_memory_reported (feat : AesHw → Bool) (hf : feat .x86_aesni = true) (ossl : Ossl) :
    .warn0 "Disabling HW_X86_AESNI due to failed self-test".toList ∈ aes_hwaccel_init_said feat none true ossl none := by
  unfold aes_hwaccel_init_said
  have e : functest (x86_aesni_oneshot none) aesTestcases = .ok false := rfl
  simp only [validateSaid, e, hf, if_true]
  exact List.mem_cons_self ..

/-- Without memory for its buffer, the self-test reports that the generic code is broken. -/
theorem C75_smix_memory_reported (tf : Transform) (junk : HMAC_SHA256_CTX) (hbuf : Bytes) (e1 e2 : ScEnv) (impl : SmixImpl → SmixFn) (h : e2.allocB 1024 = none) :
    selectsmix_said (2 ^ 64 - 1) false e1 e2 tf junk hbuf impl = [.warn0 "Generic scrypt code is broken - please report bug!".toList] := by
  have hc : scryptCheck (2 ^ 64 - 1) 16 8 1 64 = none := by decide +kernel
  have h1 : crypto_scrypt_internal (2 ^ 64 - 1) e2 tf junk testPasswd testSalt 16 8 1 hbuf 64 (impl .generic) = .ok ⟨-1, some .sys, hbuf, []⟩ := by
    unfold crypto_scrypt_internal
    simp only [hc]
    rw [show 128 * (8 : W32).toNat * (1 : W32).toNat % (2 ^ 64 - 1 + 1) = 1024 from rfl, h]
    rfl
  unfold selectsmix_said testsmix
  rw [h1]
  rfl

end Scrypt.Props
