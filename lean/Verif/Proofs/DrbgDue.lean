import Verif.Proofs.DrbgRun
/-
What the random generator delivers while it is not due for reseeding: a function of its state and of the lengths asked for, and of nothing else.
-/
namespace Scrypt
open Spec.Drbg (State Op run step)

/-- How many generate steps a request takes. -/
def pieces (n : Nat) : Nat := (n + 65535) / 65536

/-- The generate steps of a request for `n` bytes. -/
def drawOps (n : Nat) : List Op :=
  if _h : n = 0 then [] else .generate (bytesToProvide n) :: drawOps (n - bytesToProvide n)
termination_by n
decreasing_by
  have := bytesToProvide_spec n _h
  omega

theorem pieces_zero : pieces 0 = 0 := rfl

theorem pieces_step (n : Nat) (h : n ≠ 0) : pieces n = pieces (n - bytesToProvide n) + 1 := by
  unfold pieces bytesToProvide GENERATE_MAXLEN
  split <;> omega

theorem readLoop_due {sys : DrbgSys} (g : sys.Good) (n : Nat) : ∀ (s : State), s.V.length = 32 → s.served + pieces n ≤ 256 →
    ∃ (w : Bytes) (s' : State), w.length = n ∧ run (some s) (drawOps n) = (some s', w) ∧ s'.served = s.served + pieces n ∧
      ∀ (es : List SeedEnv) (st : Drbg) (buf : Bytes) (off : Nat), Rep st (some s) → off + n ≤ buf.length →
        ∃ st', readLoop sys es st buf off n = .ok (some ⟨true, buf.take off ++ w ++ buf.drop (off + n), st', es⟩) ∧ Rep st' (some s') := by
  induction n using Nat.strongRecOn with
  | ind n ih =>
    intro s hV hc
    by_cases h0 : n = 0
    · subst h0
      refine ⟨[], s, rfl, by unfold drawOps; rfl, rfl, ?_⟩
      intro es st buf off hs hl
      refine ⟨st, ?_, hs⟩
      rw [readLoop, dif_pos rfl]
      rw [List.append_nil, Nat.add_zero, List.take_append_drop]
    · obtain ⟨p1, p2, p3⟩ := bytesToProvide_spec n h0
      have hp := pieces_step n h0
      -- the state after one step
      have hst : (step (some s) (.generate (bytesToProvide n))).1 = some ⟨(Spec.Drbg.update s.K (Spec.Drbg.chain s.K s.V ((bytesToProvide n + 31) / 32)) []).1,
          (Spec.Drbg.update s.K (Spec.Drbg.chain s.K s.V ((bytesToProvide n + 31) / 32)) []).2, s.served + 1⟩ := rfl
      generalize hs1 : (⟨(Spec.Drbg.update s.K (Spec.Drbg.chain s.K s.V ((bytesToProvide n + 31) / 32)) []).1,
          (Spec.Drbg.update s.K (Spec.Drbg.chain s.K s.V ((bytesToProvide n + 31) / 32)) []).2, s.served + 1⟩ : State) = s1 at hst
      have hserved : s1.served = s.served + 1 := by rw [← hs1]
      obtain ⟨w, s', e1, e2, e3, e4⟩ := ih (n - bytesToProvide n) (by omega) s1 (by rw [← hs1]; exact (update_length _ _ _).2) (by omega)
      have hops : run (some s) (drawOps n) = (some s', (step (some s) (.generate (bytesToProvide n))).2 ++ w) := by
        rw [drawOps, dif_neg h0]
        show ((run (step (some s) _).1 _).1, _ ++ (run (step (some s) _).1 _).2) = _
        rw [hst, e2]
      refine ⟨(step (some s) (.generate (bytesToProvide n))).2 ++ w, s', ?_, hops, by omega, ?_⟩
      · have hl : (step (some s) (.generate (bytesToProvide n))).2.length = bytesToProvide n := by
          show (List.take _ _).length = _
          rw [List.length_take, blocks_length _ _ hV]; omega
        rw [List.length_append, hl, e1]; omega
      · intro es st buf off hs hl
        obtain ⟨st1, w1, g1, g2, g3, g4⟩ := generate_spec g hs (by omega) buf off (bytesToProvide n) p2 (by omega)
        rw [hst] at g4
        obtain ⟨st', f1, f2⟩ := e4 es st1 (buf.take off ++ w1 ++ buf.drop (off + bytesToProvide n)) (off + bytesToProvide n) g4 (by
          simp only [List.length_append, List.length_take, List.length_drop, g2]; omega)
        refine ⟨st', ?_, f2⟩
        rw [readLoop, dif_neg h0]
        have hri : reseedIfNeeded sys es st = .ok (some (true, st, es)) := by
          unfold reseedIfNeeded RESEED_INTERVAL
          have := hs.2.2.2.2.1
          rw [if_neg (by omega)]
        rw [hri, Res.bind_ok]
        simp only []
        rw [g1, Res.bind_ok]
        simp only []
        rw [f1, ← g3]
        congr 3
        have ts := take_split buf w1 w off (bytesToProvide n) (n - bytesToProvide n) g2 (by omega) (by omega)
        rw [e1, List.length_append, g2, e1] at ts
        rw [show off + n = off + (bytesToProvide n + (n - bytesToProvide n)) by omega]
        exact ts

/-- A request served by a generator that has been seeded and is not due for reseeding: the bytes are those of the specified operations, no seed is consumed. -/
theorem read_due {sys : DrbgSys} (g : sys.Good) {st : Drbg} {s : State} (hs : Rep st (some s)) (n : Nat) (hc : s.served + pieces n ≤ 256) :
    ∃ (w : Bytes) (s' : State), w.length = n ∧ run (some s) (drawOps n) = (some s', w) ∧ s'.served = s.served + pieces n ∧
      ∀ (es : List SeedEnv) (buf : Bytes), buf.length = n → ∃ st', crypto_entropy_read sys es st buf buf.length = .ok (some ⟨true, w, st', es⟩) ∧ Rep st' (some s') := by
  obtain ⟨w, s', e1, e2, e3, e4⟩ := readLoop_due g n s hs.2.2.2.1 hc
  refine ⟨w, s', e1, e2, e3, ?_⟩
  intro es buf hb
  obtain ⟨st', f1, f2⟩ := e4 es st buf 0 hs (by omega)
  refine ⟨st', ?_, f2⟩
  unfold crypto_entropy_read
  rw [if_pos hs.1, hb, f1, List.take_zero, List.nil_append, List.drop_of_length_le (by omega), List.append_nil]

def servedOf : Option State → Nat
  | none => 0
  | some s => s.served

/-- However a request ends, the generator has not advanced by more steps than the request takes. -/
theorem read_served {sys : DrbgSys} (g : sys.Good) {es : List SeedEnv} {st : Drbg} {s : Option State} (hs : Rep st s) {buf : Bytes}
    {r : ReadOut} (h : crypto_entropy_read sys es st buf buf.length = .ok (some r)) :
    ∃ s', Rep r.st s' ∧ (r.ok = true → s'.isSome = true) ∧ (s.isSome = true → s'.isSome = true) ∧ servedOf s' ≤ servedOf s + pieces buf.length := by
  have uniq : ∀ {st1 : Drbg} {a b : State}, Rep st1 (some a) → Rep st1 (some b) → a.served = b.served := by
    intro st1 a b ha hb
    have := ha.2.2.2.2.1
    have := hb.2.2.2.2.1
    omega
  cases s with
  | some s =>
    have h0 := h
    unfold crypto_entropy_read at h
    rw [if_pos hs.1] at h
    obtain ⟨u, ops, s', w, -, -, h3, -⟩ := readLoop_spec g _ hs (by omega) h
    refine ⟨some s', h3, fun _ => rfl, fun _ => rfl, ?_⟩
    have hle : s'.served ≤ 256 := h3.2.2.2.2.2
    show s'.served ≤ s.served + _
    by_cases hc : s.served + pieces buf.length ≤ 256
    · obtain ⟨w, s1, e1, e2, e3, e4⟩ := read_due g hs buf.length hc
      obtain ⟨st', f1, f2⟩ := e4 es buf rfl
      rw [f1] at h0
      have h0 := Option.some.inj (Res.ok.inj h0)
      subst h0
      rw [uniq h3 f2]; omega
    · omega
  | none =>
    unfold crypto_entropy_read at h
    rw [if_neg (by rw [show st.instantiated = false from hs]; simp)] at h
    cases es with
    | nil => cases h
    | cons e es =>
      simp only [] at h
      rw [Res.bind_eq_ok] at h
      obtain ⟨q, hq, h⟩ := h
      cases q with
      | none => cases h
      | some q =>
        obtain ⟨b, st1⟩ := q
        rcases instantiate_spec g e st hq with ⟨rfl, rfl, hn⟩ | ⟨rfl, d, x, h1, h2, h3, h4⟩
        · simp only [] at h
          cases h
          exact ⟨none, hs, (fun h => by cases h), (fun h => by cases h), Nat.zero_le _⟩
        · simp only [] at h
          have h4 : Rep { st1 with instantiated := true } (some (Spec.Drbg.seeded (List.replicate 32 0x00) (List.replicate 32 0x01) d x)) := h4
          obtain ⟨u, o, s', w, k1, k2, k3, k4, k5, k6⟩ := readLoop_spec g _ h4 (by omega) h
          refine ⟨some s', k3, fun _ => rfl, fun _ => rfl, ?_⟩
          have hle : s'.served ≤ 256 := k3.2.2.2.2.2
          have hz := seeded_served (List.replicate 32 0x00) (List.replicate 32 0x01) d x
          show s'.served ≤ 0 + _
          by_cases hc : pieces buf.length ≤ 256
          · obtain ⟨w, s1, e1, e2, e3, e4⟩ := readLoop_due g buf.length _ h4.2.2.2.1 (by rw [hz]; omega)
            obtain ⟨st', f1, f2⟩ := e4 es _ buf 0 h4 (by omega)
            rw [f1] at h
            have h := Option.some.inj (Res.ok.inj h)
            subst h
            rw [uniq k3 f2]; omega
          · omega

/-- The lengths of a list of requests, in generate steps. -/
def steps (lens : List Nat) : Nat := (lens.map pieces).sum

/-- After some requests, one of which succeeded: the generator has been seeded, and has advanced by at most that many steps. -/
theorem requests_served {sys : DrbgSys} (g : sys.Good) : ∀ (bufs : List Bytes) {es es' : List SeedEnv} {st st' : Drbg} {rs : List ReadOut} {s : Option State}
    (_ : Rep st s) (_ : requests sys es st bufs = .ok (some (rs, st', es'))),
    ∃ s', Rep st' s' ∧ ((s.isSome = true ∨ ∃ r ∈ rs, r.ok = true) → s'.isSome = true) ∧ servedOf s' ≤ servedOf s + steps (bufs.map List.length)
  | [], es, es', st, st', rs, s, hs, h => by
    unfold requests at h
    obtain ⟨rfl, h4⟩ := Prod.mk.inj (Option.some.inj (Res.ok.inj h))
    obtain ⟨rfl, rfl⟩ := Prod.mk.inj h4
    refine ⟨s, hs, ?_, Nat.le_add_right _ _⟩
    rintro (h | ⟨r, hr, -⟩)
    · exact h
    · cases hr
  | b :: bufs, es, es', st, st', rs, s, hs, h => by
    unfold requests at h
    obtain ⟨r, h1, h⟩ := Res.bind_eq_ok.1 h
    cases r with
    | none => cases h
    | some r =>
      simp only [] at h
      obtain ⟨q, h2, h⟩ := Res.bind_eq_ok.1 h
      cases q with
      | none => cases h
      | some q =>
        obtain ⟨qs, qst, qes⟩ := q
        simp only [Option.map_some] at h
        obtain ⟨rfl, h4⟩ := Prod.mk.inj (Option.some.inj (Res.ok.inj h))
        obtain ⟨rfl, rfl⟩ := Prod.mk.inj h4
        obtain ⟨s1, a1, a2, a3, a4⟩ := read_served g hs h1
        obtain ⟨s2, b1, b2, b3⟩ := requests_served g bufs a1 h2
        refine ⟨s2, b1, ?_, ?_⟩
        · rintro (h | ⟨x, hx, hk⟩)
          · exact b2 (.inl (a3 h))
          · rcases List.mem_cons.1 hx with rfl | hx
            · exact b2 (.inl (a2 hk))
            · exact b2 (.inr ⟨x, hx, hk⟩)
        · unfold steps at b3 ⊢
          rw [List.map_cons, List.map_cons, List.sum_cons]
          omega

/-- Requests served by a generator that is not due for reseeding: what they deliver depends on the lengths only. -/
theorem requests_due {sys : DrbgSys} (g : sys.Good) : ∀ (lens : List Nat) {st : Drbg} {s : State} (_ : Rep st (some s)) (_ : s.served + steps lens ≤ 256),
    ∃ ws : List Bytes, ws.map List.length = lens ∧ ∀ (es : List SeedEnv) (bufs : List Bytes), bufs.map List.length = lens →
      ∃ rs st', requests sys es st bufs = .ok (some (rs, st', es)) ∧ (∀ r ∈ rs, r.ok = true) ∧ rs.map (·.buf) = ws
  | [], st, s, hs, hc => by
    refine ⟨[], rfl, ?_⟩
    intro es bufs hb
    rw [List.map_eq_nil_iff.1 hb]
    exact ⟨[], st, rfl, (by intro r hr; cases hr), rfl⟩
  | n :: lens, st, s, hs, hc => by
    unfold steps at hc
    rw [List.map_cons, List.sum_cons] at hc
    obtain ⟨w, s1, e1, e2, e3, e4⟩ := read_due g hs n (by omega)
    -- the state of the program is determined by the state of the specification
    obtain ⟨st1, f1, f2⟩ := e4 [] (List.replicate n 0) (by simp)
    obtain ⟨ws, i1, i2⟩ := requests_due g lens f2 (by unfold steps; omega)
    refine ⟨w :: ws, by rw [List.map_cons, e1, i1], ?_⟩
    intro es bufs hb
    cases bufs with
    | nil => cases hb
    | cons b bufs =>
      rw [List.map_cons] at hb
      obtain ⟨hb1, hb2⟩ := List.cons.inj hb
      obtain ⟨st2, k1, k2⟩ := e4 es b hb1
      have hst : st2 = st1 := by
        obtain ⟨x1, x2, x3, -, x5, -⟩ := k2
        obtain ⟨y1, y2, y3, -, y5, -⟩ := f2
        cases st1; cases st2
        simp only at x1 x2 x3 x5 y1 y2 y3 y5
        have hx := BitVec.eq_of_toNat_eq (x5.trans y5.symm)
        rw [x1, x2, x3, hx, y1, y2, y3]
      rw [hst] at k1
      obtain ⟨rs, st', j1, j2, j3⟩ := i2 es bufs hb2
      refine ⟨⟨true, w, st1, es⟩ :: rs, st', ?_, ?_, by rw [List.map_cons, j3]⟩
      · unfold requests
        rw [k1, Res.bind_ok]
        simp only []
        rw [j1, Res.bind_ok]
        rfl
      · intro r hr
        rcases List.mem_cons.1 hr with rfl | hr
        · rfl
        · exact j2 r hr

end Scrypt
