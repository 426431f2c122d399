import Verif.Proofs.Drbg
/-
Histories of requests to the generator.
-/
namespace Scrypt
open Spec Spec.Drbg

theorem run_append (s : Option State) (a b : List Op) :
    run s (a ++ b) = ((run (run s a).1 b).1, (run s a).2 ++ (run (run s a).1 b).2) := by
  induction a generalizing s with
  | nil => simp [run]
  | cons op a ih => simp [run, ih, List.append_assoc]

theorem legal_append (s : Option State) (a b : List Op) (ha : Legal (s.map (·.served)) a)
    (hb : Legal ((run s a).1.map (·.served)) b) : Legal (s.map (·.served)) (a ++ b) := by
  induction a generalizing s with
  | nil => exact hb
  | cons op a ih =>
    cases s with
    | none =>
      cases op with
      | instantiate d x =>
        refine ⟨ha.1, ?_⟩
        have := ih (some (seeded (List.replicate 32 0x00) (List.replicate 32 0x01) d x))
        simp only [Option.map_some, seeded_served] at this
        exact this ha.2 hb
      | reseed d x => exact ha.elim
      | generate n => exact ha.elim
    | some s =>
      cases op with
      | instantiate d x => exact ha.elim
      | reseed d x =>
        refine ⟨ha.1, ?_⟩
        have := ih (some (seeded s.K s.V d x))
        simp only [Option.map_some, seeded_served] at this
        exact this ha.2 hb
      | generate n =>
        refine ⟨ha.1, ha.2.1, ha.2.2.1, ?_⟩
        exact ih (step (some s) (.generate n)).1 ha.2.2.2 hb

theorem seedings_append {hw : Bool} {s : Option State} {u v : List SeedEnv} {a b : List Op}
    (ha : Seedings hw s.isSome u a) (hl : Legal (s.map (·.served)) a) (hb : Seedings hw (run s a).1.isSome v b) :
    Seedings hw s.isSome (u ++ v) (a ++ b) := by
  generalize hi : s.isSome = i at ha
  induction ha generalizing s with
  | done => subst hi; exact hb
  | failed h _ ih => subst hi; exact .failed h (ih hl hb rfl)
  | @first e es ops d x h1 h2 _ ih =>
    cases s with
    | some s => cases hi
    | none =>
      refine .first h1 h2 ?_
      exact ih (s := some (seeded (List.replicate 32 0x00) (List.replicate 32 0x01) d x))
        (by rw [Option.map_some, seeded_served]; exact hl.2) hb rfl
  | @again e es ops d x h1 h2 _ ih =>
    cases s with
    | none => cases hi
    | some s =>
      refine .again h1 h2 ?_
      exact ih (s := some (seeded s.K s.V d x)) (by rw [Option.map_some, seeded_served]; exact hl.2) hb rfl
  | @served inst es ops n _ ih =>
    cases s with
    | none => exact hl.elim
    | some s =>
      refine .served ?_
      exact ih (s := (step (some s) (.generate n)).1) hl.2.2.2 hb (by rw [← hi]; rfl)

/-- What one request does to the generator: the seeding attempts `used`, the operations, the bytes stored. -/
structure Request (hw : Bool) (s : Option State) (used : List SeedEnv) (ops : List Op) (s' : Option State) (w : Bytes) : Prop where
  seedings : Seedings hw s.isSome used ops
  legal : Legal (s.map (·.served)) ops
  run : run s ops = (s', w)

theorem Request.append {hw : Bool} {s s' s'' : Option State} {u v : List SeedEnv} {a b : List Op} {w w' : Bytes}
    (h : Request hw s u a s' w) (h' : Request hw s' v b s'' w') : Request hw s (u ++ v) (a ++ b) s'' (w ++ w') := by
  have e : s' = (Spec.Drbg.run s a).1 := by rw [h.run]
  refine ⟨seedings_append h.seedings h.legal (e ▸ h'.seedings), legal_append s a b h.legal (e ▸ h'.legal), ?_⟩
  rw [run_append, ← e, h'.run, h.run]

theorem Request.nil (hw : Bool) (s : Option State) : Request hw s [] [] s [] := ⟨.done, by cases s <;> trivial, rfl⟩

/-- An attempt to obtain entropy failed. -/
def Failed (e : SeedEnv) : Prop := ∃ n, (n = 32 ∨ n = 48) ∧ ¬ ∃ d, Obtained e.os n d
def Worked (e : SeedEnv) : Prop := ∃ n d, (n = 32 ∨ n = 48) ∧ Obtained e.os n d

theorem take_split (buf w w' : Bytes) (off c r : Nat) (hw : w.length = c) (hl : off + c + r ≤ buf.length) (hr : w'.length ≤ r) :
    (buf.take off ++ w ++ buf.drop (off + c)).take (off + c) ++ w' ++
      (buf.take off ++ w ++ buf.drop (off + c)).drop (off + c + w'.length) =
    buf.take off ++ (w ++ w') ++ buf.drop (off + (w ++ w').length) := by
  have hp : (buf.take off ++ w).length = off + c := by rw [List.length_append, List.length_take]; omega
  rw [List.take_left' hp, ← List.drop_drop, List.drop_left' hp, List.drop_drop, List.length_append, hw]
  simp only [List.append_assoc, Nat.add_assoc]

theorem bytesToProvide_spec (n : Nat) (h : n ≠ 0) : 1 ≤ bytesToProvide n ∧ bytesToProvide n ≤ 65536 ∧ bytesToProvide n ≤ n := by
  unfold bytesToProvide GENERATE_MAXLEN
  split <;> omega

theorem reseedIfNeeded_spec {sys : DrbgSys} (g : sys.Good) {es : List SeedEnv} {st : Drbg} {s : State} (hs : Rep st (some s))
    {b : Bool} {st' : Drbg} {es' : List SeedEnv} (h : reseedIfNeeded sys es st = .ok (some (b, st', es'))) :
    (b = true ∧ ∃ used ops s', es = used ++ es' ∧ (∀ e ∈ used, Worked e) ∧ Request sys.hasRdrand (some s) used ops (some s') [] ∧
      Rep st' (some s') ∧ s'.served < 256) ∨
    (b = false ∧ st' = st ∧ ∃ e, es = e :: es' ∧ Failed e ∧ Request sys.hasRdrand (some s) [e] [] (some s) []) := by
  unfold reseedIfNeeded RESEED_INTERVAL at h
  obtain ⟨-, -, -, -, i5, i6⟩ := id hs
  by_cases hc : st.reseed_counter.toNat > 256
  · rw [if_pos hc] at h
    cases es with
    | nil => cases h
    | cons e es =>
      simp only [] at h
      rw [Res.bind_eq_ok] at h
      obtain ⟨r, hr, h⟩ := h
      cases r with
      | none => cases h
      | some r =>
        obtain ⟨b', st''⟩ := r
        simp only [Option.map_some, Res.ok.injEq, Option.some.injEq, Prod.mk.injEq] at h
        obtain ⟨rfl, rfl, rfl⟩ := h
        rcases reseed_spec g e hs hr with ⟨rfl, rfl, hn⟩ | ⟨rfl, d, x, h1, h2, h3, h4⟩
        · exact .inr ⟨rfl, rfl, e, rfl, ⟨32, .inl rfl, hn⟩, .failed hn .done, trivial, rfl⟩
        · refine .inl ⟨rfl, [e], [.reseed d x], _, rfl, ?_, ⟨.again h1 h3 .done, ⟨h2, trivial⟩, rfl⟩, h4, ?_⟩
          · intro e' he'
            rw [List.mem_singleton.1 he']
            exact ⟨32, d, .inl rfl, h1⟩
          · rw [seeded_served]; omega
  · rw [if_neg hc] at h
    cases h
    exact .inl ⟨rfl, [], [], s, rfl, by simp, Request.nil _ _, hs, by omega⟩

theorem readLoop_spec {sys : DrbgSys} (g : sys.Good) (n : Nat) : ∀ {es : List SeedEnv} {st : Drbg} {s : State} (_ : Rep st (some s)) {buf : Bytes} {off : Nat}
    (_ : off + n ≤ buf.length) {r : ReadOut} (_ : readLoop sys es st buf off n = .ok (some r)),
    ∃ used ops s' w, es = used ++ r.rest ∧ Request sys.hasRdrand (some s) used ops (some s') w ∧ Rep r.st (some s') ∧
      r.buf = buf.take off ++ w ++ buf.drop (off + w.length) ∧
      (r.ok = true → w.length = n ∧ ∀ e ∈ used, Worked e) ∧
      (r.ok = false → w.length < n ∧ ∃ u e, used = u ++ [e] ∧ Failed e) := by
  induction n using Nat.strongRecOn with
  | ind n ih =>
    intro es st s hs buf off hl r h
    rw [readLoop] at h
    by_cases h0 : n = 0
    · rw [dif_pos h0] at h
      cases h
      subst h0
      exact ⟨[], [], s, [], rfl, Request.nil _ _, hs, by simp, by simp, by simp⟩
    · rw [dif_neg h0, Res.bind_eq_ok] at h
      obtain ⟨q, hq, h⟩ := h
      cases q with
      | none => cases h
      | some q =>
        obtain ⟨b, st1, es1⟩ := q
        rcases reseedIfNeeded_spec g hs hq with ⟨rfl, u1, o1, s1, e1, e2, e3, e4, e5⟩ | ⟨rfl, rfl, e, e1, e2, e3⟩
        · simp only [] at h
          obtain ⟨p1, p2, p3⟩ := bytesToProvide_spec n h0
          obtain ⟨st2, w, g1, g2, g3, g4⟩ := generate_spec g e4 e5 buf off (bytesToProvide n) p2 (by omega)
          rw [g1, Res.bind_ok] at h
          simp only [] at h
          have hlen : (buf.take off ++ w ++ buf.drop (off + bytesToProvide n)).length = buf.length := by
            simp only [List.length_append, List.length_take, List.length_drop, g2]; omega
          obtain ⟨u2, o2, s2, w2, f1, f2, f3, f4, f5, f6⟩ := ih (n - bytesToProvide n) (by omega) g4 (by rw [hlen]; omega) h
          have hreq : Request sys.hasRdrand (some s1) [] [.generate (bytesToProvide n)] (step (some s1) (.generate (bytesToProvide n))).1 w :=
            ⟨.served .done, ⟨p1, p2, e5, trivial⟩, by rw [g3]; simp [run]⟩
          have hw2 : w2.length ≤ n - bytesToProvide n := by
            cases hk : r.ok with
            | true => exact Nat.le_of_eq (f5 hk).1
            | false => exact Nat.le_of_lt (f6 hk).1
          refine ⟨u1 ++ ([] ++ u2), o1 ++ ([.generate (bytesToProvide n)] ++ o2), s2, [] ++ (w ++ w2), ?_, e3.append (hreq.append f2), f3, ?_, ?_, ?_⟩
          · rw [e1, f1]; simp
          · rw [f4, List.nil_append]
            exact take_split buf w w2 off _ _ g2 (by omega) hw2
          · intro hk
            obtain ⟨k1, k2⟩ := f5 hk
            refine ⟨?_, ?_⟩
            · simp only [List.nil_append, List.length_append, g2, k1]; omega
            · intro e he
              rw [List.nil_append, List.mem_append] at he
              exact he.elim (e2 e) (k2 e)
          · intro hk
            obtain ⟨k1, u, e, k2, k3⟩ := f6 hk
            refine ⟨?_, u1 ++ u, e, by rw [k2]; simp, k3⟩
            simp only [List.nil_append, List.length_append, g2]; omega
        · simp only [] at h
          cases h
          exact ⟨[e], [], s, [], e1, e3, hs, by simp, by simp, fun _ => ⟨Nat.pos_of_ne_zero h0, [], e, rfl, e2⟩⟩

/-- One request. -/
theorem crypto_entropy_read_spec {sys : DrbgSys} (g : sys.Good) {es : List SeedEnv} {st : Drbg} {s : Option State} (hs : Rep st s) {buf : Bytes}
    {r : ReadOut} (h : crypto_entropy_read sys es st buf buf.length = .ok (some r)) :
    ∃ used ops s' w, es = used ++ r.rest ∧ Request sys.hasRdrand s used ops s' w ∧ Rep r.st s' ∧
      r.buf = w ++ buf.drop w.length ∧
      (r.ok = true → w.length = buf.length ∧ s'.isSome = true ∧ ∀ e ∈ used, Worked e) ∧
      (r.ok = false → (w.length < buf.length ∨ s = none ∧ s' = none ∧ w = []) ∧ ∃ u e, used = u ++ [e] ∧ Failed e) := by
  unfold crypto_entropy_read at h
  cases s with
  | some s =>
    rw [if_pos hs.1] at h
    obtain ⟨u, o, s', w, h1, h2, h3, h4, h5, h6⟩ := readLoop_spec g _ hs (by omega) h
    exact ⟨u, o, some s', w, h1, h2, h3, by simpa using h4, fun hk => ⟨(h5 hk).1, rfl, (h5 hk).2⟩,
      fun hk => ⟨.inl (h6 hk).1, (h6 hk).2⟩⟩
  | none =>
    rw [if_neg (by rw [show st.instantiated = false from hs]; simp)] at h
    cases es with
    | nil => cases h
    | cons e es =>
      simp only [] at h
      rw [Res.bind_eq_ok] at h
      obtain ⟨q, hq, h⟩ := h
      cases q with
      | none => cases h
      | some q =>
        obtain ⟨b, st1⟩ := q
        rcases instantiate_spec g e st hq with ⟨rfl, rfl, hn⟩ | ⟨rfl, d, x, h1, h2, h3, h4⟩
        · simp only [] at h
          cases h
          exact ⟨[e], [], none, [], rfl, ⟨.failed hn .done, trivial, rfl⟩, hs, by simp, by simp,
            fun _ => ⟨.inr ⟨rfl, rfl, rfl⟩, [], e, rfl, 48, .inr rfl, hn⟩⟩
        · simp only [] at h
          obtain ⟨u, o, s', w, k1, k2, k3, k4, k5, k6⟩ := readLoop_spec g _ h4 (by omega) h
          have hreq : Request sys.hasRdrand none [e] [.instantiate d x] (step none (.instantiate d x)).1 [] :=
            ⟨.first h1 h3 .done, ⟨h2, trivial⟩, rfl⟩
          refine ⟨[e] ++ u, [.instantiate d x] ++ o, some s', [] ++ w, by rw [k1]; rfl, hreq.append k2, k3, by simpa using k4, ?_, ?_⟩
          · intro hk
            refine ⟨(k5 hk).1, rfl, ?_⟩
            intro e' he'
            rcases List.mem_append.1 he' with he' | he'
            · rw [List.mem_singleton.1 he']
              exact ⟨48, d, .inr rfl, h1⟩
            · exact (k5 hk).2 e' he'
          · intro hk
            obtain ⟨j1, u', e', j2, j3⟩ := k6 hk
            exact ⟨.inl j1, [e] ++ u', e', by rw [j2]; simp, j3⟩

/-! ### No undefined behaviour, no failed assertion -/

theorem fairSeq_true {es : List SeedEnv} : FairSeq true es ↔ ∀ e ∈ es, ReadContract e.os.reads 32 := by
  induction es with
  | nil => simp [FairSeq]
  | cons e es ih => simp [FairSeq, ih]

theorem entropy_read_defined {os : EntropyOs} {buf : Bytes} {n : Nat} (hn : n ≤ buf.length) (hs : n ≤ SSIZE_MAX)
    (hc : ReadContract os.reads n) : ∃ r, entropy_read os buf n = .ok r := by
  unfold entropy_read
  rw [if_neg (by omega)]
  split
  · exact ⟨_, rfl⟩
  split
  · exact ⟨_, rfl⟩
  unfold entropy_read_fill
  rw [if_neg (by omega)]
  obtain ⟨r, hr, -⟩ := fillLoop_defined os.reads buf 0 n (by omega) hc
  rw [hr, Res.bind_ok]
  cases r with
  | none => exact ⟨_, rfl⟩
  | some r =>
    simp only []
    split
    · exact ⟨_, rfl⟩
    · exact ⟨_, rfl⟩

theorem instantiate_defined {sys : DrbgSys} (g : sys.Good) (e : SeedEnv) (he : ReadContract e.os.reads 48) (st : Drbg) :
    ∃ r, instantiate sys e st = .ok r := by
  unfold instantiate
  obtain ⟨r, hr⟩ := entropy_read_defined (os := e.os) (buf := (List.range 48).map e.stk) (n := 48) (by simp) (by unfold SSIZE_MAX; omega) he
  rw [hr, Res.bind_ok]
  cases r with
  | none => exact ⟨_, rfl⟩
  | some r =>
    simp only []
    split
    · exact ⟨_, rfl⟩
    · obtain ⟨x, -, hm⟩ := mix_spec g { st with Key := List.replicate 32 0x00, V := List.replicate 32 0x01, reseed_counter := 1 }
        (by simp) (r.buf.take 48) e.rdrand
      rw [← bind_assoc, hm]
      exact ⟨_, rfl⟩

theorem reseed_defined {sys : DrbgSys} (g : sys.Good) (e : SeedEnv) (he : ReadContract e.os.reads 32) {st : Drbg} {s : State} (hs : Rep st (some s)) :
    ∃ r, reseed sys e st = .ok r := by
  unfold reseed
  obtain ⟨r, hr⟩ := entropy_read_defined (os := e.os) (buf := (List.range 32).map e.stk) (n := 32) (by simp) (by unfold SSIZE_MAX; omega) he
  rw [hr, Res.bind_ok]
  cases r with
  | none => exact ⟨_, rfl⟩
  | some r =>
    simp only []
    split
    · exact ⟨_, rfl⟩
    · obtain ⟨-, -, i3, i4, -⟩ := hs
      obtain ⟨x, -, hm⟩ := mix_spec g st (by rw [i3, i4]) (r.buf.take 32) e.rdrand
      rw [← bind_assoc, hm]
      exact ⟨_, rfl⟩

theorem readLoop_defined {sys : DrbgSys} (g : sys.Good) (n : Nat) : ∀ {es : List SeedEnv} (_ : ∀ e ∈ es, ReadContract e.os.reads 32) {st : Drbg} {s : State}
    (_ : Rep st (some s)) {buf : Bytes} {off : Nat} (_ : off + n ≤ buf.length), ∃ r, readLoop sys es st buf off n = .ok r := by
  induction n using Nat.strongRecOn with
  | ind n ih =>
    intro es hes st s hs buf off hl
    rw [readLoop]
    by_cases h0 : n = 0
    · rw [dif_pos h0]; exact ⟨_, rfl⟩
    · rw [dif_neg h0]
      have hri : ∃ q, reseedIfNeeded sys es st = .ok q := by
        unfold reseedIfNeeded
        split
        · cases es with
          | nil => exact ⟨_, rfl⟩
          | cons e es =>
            obtain ⟨r, hr⟩ := reseed_defined g e (hes e (by simp)) hs
            simp only [hr, Res.bind_ok]
            exact ⟨_, rfl⟩
        · exact ⟨_, rfl⟩
      obtain ⟨q, hq⟩ := hri
      rw [hq, Res.bind_ok]
      cases q with
      | none => exact ⟨_, rfl⟩
      | some q =>
        obtain ⟨b, st1, es1⟩ := q
        rcases reseedIfNeeded_spec g hs hq with ⟨rfl, u1, o1, s1, e1, -, -, e4, e5⟩ | ⟨rfl, rfl, e, e1, -⟩
        · simp only []
          obtain ⟨p1, p2, p3⟩ := bytesToProvide_spec n h0
          obtain ⟨st2, w, g1, g2, -, g4⟩ := generate_spec g e4 e5 buf off (bytesToProvide n) p2 (by omega)
          rw [g1, Res.bind_ok]
          refine ih _ (by omega) (fun e he => hes e (by rw [e1]; simp [he])) g4 ?_
          simp only [List.length_append, List.length_take, List.length_drop, g2]; omega
        · exact ⟨_, rfl⟩

theorem crypto_entropy_read_defined {sys : DrbgSys} (g : sys.Good) {es : List SeedEnv} {st : Drbg} {s : Option State} (hes : FairSeq s.isSome es)
    (hs : Rep st s) (buf : Bytes) : ∃ r, crypto_entropy_read sys es st buf buf.length = .ok r ∧
      ∀ r' s', r = some r' → Rep r'.st s' → FairSeq s'.isSome r'.rest := by
  have hflag : ∀ (r' : ReadOut) (s' : Option State), Rep r'.st s' → s'.isSome = r'.st.instantiated := by
    intro r' s' h
    cases s' with
    | none => exact (show r'.st.instantiated = false from h).symm
    | some s' => exact h.1.symm
  unfold crypto_entropy_read
  cases s with
  | some s =>
    rw [if_pos hs.1]
    rw [Option.isSome_some, fairSeq_true] at hes
    obtain ⟨r, hr⟩ := readLoop_defined g buf.length hes hs (buf := buf) (off := 0) (by omega)
    refine ⟨r, hr, ?_⟩
    rintro r' s' rfl h'
    obtain ⟨u, o, s1, w, h1, -, h3, -⟩ := readLoop_spec g _ hs (by omega) hr
    rw [hflag r' s' h', show r'.st.instantiated = true from h3.1, fairSeq_true]
    exact fun e he => hes e (by rw [h1]; simp [he])
  | none =>
    rw [if_neg (by rw [show st.instantiated = false from hs]; simp)]
    cases es with
    | nil => exact ⟨_, rfl, by simp⟩
    | cons e es =>
      obtain ⟨f1, f2, f3⟩ := hes
      obtain ⟨q, hq⟩ := instantiate_defined g e f1 st
      simp only [hq, Res.bind_ok]
      cases q with
      | none => exact ⟨_, rfl, by simp⟩
      | some q =>
        obtain ⟨b, st1⟩ := q
        rcases instantiate_spec g e st hq with ⟨rfl, rfl, hn⟩ | ⟨rfl, d, x, hd, -, -, h4⟩
        · refine ⟨_, rfl, ?_⟩
          rintro r' s' hr' h'
          cases hr'
          rw [hflag _ s' h', show st1.instantiated = false from hs]
          exact f3 hn
        · simp only []
          have hes := fairSeq_true.1 (f2 ⟨d, hd⟩)
          obtain ⟨r, hr⟩ := readLoop_defined g buf.length hes h4 (buf := buf) (off := 0) (by omega)
          refine ⟨r, hr, ?_⟩
          rintro r' s' rfl h'
          obtain ⟨u, o, s1, w, h1, -, h3, -⟩ := readLoop_spec g _ h4 (by omega) hr
          rw [hflag r' s' h', show r'.st.instantiated = true from h3.1, fairSeq_true]
          exact fun e he => hes e (by rw [h1]; simp [he])

end Scrypt
