import Verif.Proofs.DrbgRun
import Verif.Props.Sha256
/-
C39, C40: the salt generator and the operating system entropy reader.
-/
namespace Scrypt.Props
open Spec Spec.Drbg

/-! ### C40 -/

/-- C40: `entropy_read` succeeds iff the cookie could be allocated, the device opened, the reads delivered
exactly the wanted number of bytes in non-empty pieces, and the device was closed without error; and then the
buffer holds the delivered bytes in order.  Bytes after the first `n` are never touched. -/
theorem C40_complete {os : EntropyOs} {buf : Bytes} {n : Nat} {o : EntOut} (hn : n ≤ buf.length)
    (h : entropy_read os buf n = .ok (some o)) :
    (o.ok = true ↔ ∃ d, Obtained os n d) ∧
    (∀ d, o.ok = true → Delivered os.reads n d → o.buf = d ++ buf.drop n) ∧
    o.buf.drop n = buf.drop n ∧ o.buf.length = buf.length := by
  obtain ⟨h1, h2, ⟨d, h3, h4⟩, -⟩ := entropy_read_spec hn h
  refine ⟨h1, h2, ?_, ?_⟩
  · rw [h4, List.drop_append, List.drop_eq_nil_of_le h3, List.nil_append, List.drop_drop]
    congr 1; omega
  · rw [h4, List.length_append, List.length_drop]; omega

/-- C40: at every return, the cookie has been freed if it was allocated, and the device has been closed
(close repeated after EINTR until another answer) if it was opened. -/
theorem C40_released {os : EntropyOs} {buf : Bytes} {n : Nat} {o : EntOut} (hn : n ≤ buf.length)
    (h : entropy_read os buf n = .ok (some o)) :
    o.tr.count .malloc = o.tr.count .free ∧
    (.open ∈ o.tr → ∃ k a, a ≠ .eintr ∧ o.tr = [.malloc, .open] ++ List.replicate k (.close .eintr) ++ [.close a, .free]) := by
  obtain ⟨-, -, -, h4⟩ := entropy_read_spec hn h
  rcases h4 with h4 | h4 | ⟨k, a, ha, h4⟩
  · rw [h4]; simp
  · rw [h4]; exact ⟨by decide, by simp⟩
  · refine ⟨?_, fun _ => ⟨k, a, ha, h4⟩⟩
    rw [h4]
    have e1 : List.count EntEv.malloc (List.replicate k (.close .eintr)) = 0 := by rw [List.count_replicate]; simp
    have e2 : List.count EntEv.free (List.replicate k (.close .eintr)) = 0 := by rw [List.count_replicate]; simp
    rw [List.count_append, List.count_append, List.count_append, List.count_append, e1, e2]
    cases a <;> simp

/-- C40: as long as read(2) keeps its contract there is no undefined behaviour, a request of at most SSIZE_MAX
bytes trips no assertion, and at most `n` reads are made: the function waits only for close(2) returning
something other than EINTR. -/
theorem C40_defined {os : EntropyOs} {buf : Bytes} {n : Nat} (hn : n ≤ buf.length) (hs : n ≤ SSIZE_MAX) (hc : ReadContract os.reads n) :
    (∃ r, entropy_read os buf n = .ok r) ∧
    (n ≤ os.reads.length → (∃ a ∈ os.closes, a ≠ .eintr) → ∃ o, entropy_read os buf n = .ok (some o)) := by
  refine ⟨entropy_read_defined hn hs hc, ?_⟩
  rintro hr ⟨a, ha, hne⟩
  unfold entropy_read
  rw [if_neg (by omega)]
  split
  · exact ⟨_, rfl⟩
  split
  · exact ⟨_, rfl⟩
  unfold entropy_read_fill
  rw [if_neg (by omega)]
  obtain ⟨r, e, hne'⟩ := fillLoop_defined os.reads buf 0 n (by omega) hc
  rw [e, Res.bind_ok]
  have hcl : ∀ cs : List CloseAns, a ∈ cs → ∃ x, closeLoop cs = some x := by
    intro cs
    induction cs with
    | nil => intro h; cases h
    | cons c cs ih =>
      intro h
      cases c with
      | ok => exact ⟨_, rfl⟩
      | err => exact ⟨_, rfl⟩
      | eintr =>
        rcases List.mem_cons.1 h with h | h
        · exact absurd h hne
        · obtain ⟨x, hx⟩ := ih h
          exact ⟨_, by rw [closeLoop, hx]; rfl⟩
  cases r with
  | none => exact absurd rfl (hne' hr)
  | some r =>
    obtain ⟨x, hx⟩ := hcl _ ha
    simp only [entropy_read_done, hx, Option.map_some]
    exact ⟨_, rfl⟩

/-! ### C39 -/

/-- What one request of a history stored: the bytes `w` at the start of its buffer; the whole buffer iff the
request succeeded. -/
def Stored (buf w : Bytes) (r : ReadOut) : Prop :=
  r.buf = w ++ buf.drop w.length ∧ (r.ok = true → w.length = buf.length) ∧
  (r.ok = false → w.length < buf.length ∨ w = [])

/-- C39, from any reachable state of the generator. -/
theorem history {sys : DrbgSys} (g : sys.Good) (bufs : List Bytes) : ∀ {es : List SeedEnv} {st : Scrypt.Drbg} {s : Option State} (_ : Rep st s)
    {outs : List ReadOut} {st' : Scrypt.Drbg} {rest : List SeedEnv} (_ : requests sys es st bufs = .ok (some (outs, st', rest))),
    ∃ (used : List SeedEnv) (ops : List Op) (s' : Option State) (ws : List Bytes), es = used ++ rest ∧
      Request sys.hasRdrand s used ops s' ws.flatten ∧ Rep st' s' ∧
      outs.length = bufs.length ∧ ws.length = bufs.length ∧
      (∀ (i : Nat) b w r, bufs[i]? = some b → ws[i]? = some w → outs[i]? = some r → Stored b w r) := by
  induction bufs with
  | nil =>
    intro es st s hs outs st' rest h
    cases h
    exact ⟨[], [], s, [], rfl, Request.nil _ _, hs, rfl, rfl, by simp⟩
  | cons buf bufs ih =>
    intro es st s hs outs st' rest h
    unfold requests at h
    rw [Res.bind_eq_ok] at h
    obtain ⟨r, hr, h⟩ := h
    cases r with
    | none => cases h
    | some r =>
      simp only [] at h
      rw [Res.bind_eq_ok] at h
      obtain ⟨q, hq, h⟩ := h
      cases q with
      | none => cases h
      | some q =>
        obtain ⟨outs', st'', rest'⟩ := q
        simp only [Option.map_some, Res.ok.injEq, Option.some.injEq, Prod.mk.injEq] at h
        obtain ⟨rfl, rfl, rfl⟩ := h
        obtain ⟨u1, o1, s1, w1, a1, a2, a3, a4, a5, a6⟩ := crypto_entropy_read_spec g hs hr
        obtain ⟨u2, o2, s2, ws, b1, b2, b3, b4, b5, b6⟩ := ih a3 hq
        refine ⟨u1 ++ u2, o1 ++ o2, s2, w1 :: ws, by rw [a1, b1, List.append_assoc], ?_, b3, by simp [b4], by simp [b5], ?_⟩
        · rw [List.flatten_cons]; exact a2.append b2
        · intro i b w r' h1 h2 h3
          cases i with
          | zero =>
            simp only [List.getElem?_cons_zero, Option.some.injEq] at h1 h2 h3
            subst h1 h2 h3
            refine ⟨a4, fun hk => (a5 hk).1, fun hk => ?_⟩
            rcases (a6 hk).1 with h | ⟨-, -, h⟩
            · exact .inl h
            · exact .inr h
          | succ i =>
            simp only [List.getElem?_cons_succ] at h1 h2 h3
            exact b6 i b w r' h1 h2 h3

/-- C39: over any history of requests (buffers of any sizes, any pattern of entropy failures) since program start,
there is a properly used SP 800-90A HMAC_DRBG (instantiated once, every request for 1..65536 bytes, at most 256 requests
between seedings) whose seed material is, in order, what the successful entropy reads obtained, and whose output, cut into
the pieces `ws`, is exactly what was stored into the buffers; a request that returned 0 filled its buffer. -/
theorem C39_history {sys : DrbgSys} (g : sys.Good) {es : List SeedEnv} {bufs : List Bytes} {outs : List ReadOut} {st' : Scrypt.Drbg}
    {rest : List SeedEnv} (h : requests sys es Drbg.initial bufs = .ok (some (outs, st', rest))) :
    ∃ (used : List SeedEnv) (ops : List Op) (ws : List Bytes), es = used ++ rest ∧
      Seedings sys.hasRdrand false used ops ∧ Legal none ops ∧ (run none ops).2 = ws.flatten ∧
      outs.length = bufs.length ∧ ws.length = bufs.length ∧
      (∀ (i : Nat) b w r, bufs[i]? = some b → ws[i]? = some w → outs[i]? = some r → Stored b w r) := by
  obtain ⟨u, o, s, ws, h1, h2, -, h3, h4, h5⟩ := history g bufs (s := none) (show Rep Drbg.initial none from rfl) h
  exact ⟨u, o, ws, h1, h2.seedings, h2.legal, by rw [h2.run], h3, h4, h5⟩

/-- C39: a request succeeds iff none of the entropy reads it made failed; before the first successful instantiation
nothing is stored. -/
theorem C39_success {sys : DrbgSys} (g : sys.Good) {es : List SeedEnv} {bufs : List Bytes} {outs : List ReadOut} {st : Scrypt.Drbg}
    {rest : List SeedEnv} (h : requests sys es Drbg.initial bufs = .ok (some (outs, st, rest))) {buf : Bytes} {r : ReadOut}
    (hr : crypto_entropy_read sys rest st buf buf.length = .ok (some r)) :
    ∃ used, rest = used ++ r.rest ∧
      (r.ok = true → (∀ e ∈ used, Worked e) ∧ r.st.instantiated = true) ∧
      (r.ok = false → ∃ u e, used = u ++ [e] ∧ Failed e) ∧
      (r.st.instantiated = false → r.ok = false ∧ r.buf = buf) := by
  obtain ⟨-, -, s, -, -, -, hs, -⟩ := history g bufs (s := none) (show Rep Drbg.initial none from rfl) h
  obtain ⟨u, o, s', w, a1, a2, a3, a4, a5, a6⟩ := crypto_entropy_read_spec g hs hr
  have hi : s'.isSome = true → r.st.instantiated = true := by
    cases s' with
    | none => intro h; cases h
    | some s' => intro _; exact a3.1
  refine ⟨u, a1, fun hk => ⟨(a5 hk).2.2, hi (a5 hk).2.1⟩, fun hk => (a6 hk).2, ?_⟩
  intro hn
  have hok : r.ok = false := by
    cases hk : r.ok with
    | false => rfl
    | true => rw [hi (a5 hk).2.1] at hn; cases hn
  refine ⟨hok, ?_⟩
  cases s' with
  | some s' => rw [show r.st.instantiated = true from a3.1] at hn; cases hn
  | none =>
    have hrun : ∀ (ops : List Op) (s : Option State), (Spec.Drbg.run s ops).1 = none → (Spec.Drbg.run s ops).2 = [] := by
      intro ops
      induction ops with
      | nil => intro s _; rfl
      | cons op ops ih =>
        intro s hn
        have h1 := ih _ hn
        have hs : s = none ∧ (step s op).2 = [] := by
          cases s with
          | none => cases op <;> exact ⟨rfl, rfl⟩
          | some s =>
            exfalso
            have : ∀ (ops : List Op) (s : Option State), s.isSome = true → (Spec.Drbg.run s ops).1.isSome = true := by
              intro ops
              induction ops with
              | nil => intro s h; exact h
              | cons op ops ih =>
                intro s h
                cases s with
                | none => cases h
                | some s => exact ih _ (by cases op <;> rfl)
            rw [show (Spec.Drbg.run (some s) (op :: ops)).1 = (Spec.Drbg.run (step (some s) op).1 ops).1 from rfl] at hn
            have h2 := this ops (step (some s) op).1 (by cases op <;> rfl)
            rw [hn] at h2
            cases h2
        show (step s op).2 ++ _ = []
        rw [hs.2, h1]; rfl
    have hw : w = [] := by
      have := hrun o s (by rw [a2.run])
      rw [a2.run] at this
      exact this
    rw [a4, hw]; rfl

/-- C39: as long as read(2) keeps its contract, no assertion of the generator fails and nothing is written outside the
buffers, over any history of requests. -/
theorem C39_assertions {sys : DrbgSys} (g : sys.Good) (bufs : List Bytes) : ∀ {es : List SeedEnv} {st : Scrypt.Drbg}
    {s : Option State} (_ : FairSeq s.isSome es) (_ : Rep st s), ∃ r, requests sys es st bufs = .ok r := by
  induction bufs with
  | nil => intros; exact ⟨_, rfl⟩
  | cons buf bufs ih =>
    intro es st s hes hs
    unfold requests
    obtain ⟨r, hr, hf⟩ := crypto_entropy_read_defined g hes hs buf
    rw [hr, Res.bind_ok]
    cases r with
    | none => exact ⟨_, rfl⟩
    | some r =>
      obtain ⟨u1, o1, s1, w1, a1, -, a3, -⟩ := crypto_entropy_read_spec g hs hr
      simp only []
      obtain ⟨q, hq⟩ := ih (es := r.rest) (hf r s1 rfl a3) a3
      rw [hq]
      exact ⟨_, rfl⟩

/-! ### Examples -/

/-- A device that delivers 48 bytes in two pieces and whose close is interrupted once. -/
def exOs : EntropyOs := ⟨true, true, [some (List.replicate 20 0x11), some (List.replicate 28 0x22)], [.eintr, .ok]⟩

/-- Hypotheses of the C40 theorems are met, with success. -/
example : ∃ o, entropy_read exOs (List.replicate 50 0) 48 = .ok (some o) ∧ o.ok = true ∧
    o.buf = List.replicate 20 0x11 ++ List.replicate 28 0x22 ++ [0, 0] ∧ ReadContract exOs.reads 48 := by
  refine ⟨_, rfl, rfl, rfl, ?_⟩
  simp [exOs, ReadContract]

/-- A device that reaches end of file. -/
example : ∃ o, entropy_read ⟨true, true, [some [1, 2], some []], [.err]⟩ [0, 0, 0] 3 = .ok (some o) ∧ o.ok = false ∧
    o.tr = [.malloc, .open, .close .err, .free] := ⟨_, rfl, rfl, rfl⟩

def exSeed : SeedEnv := ⟨fun _ => 0xa5, exOs, []⟩

theorem exSeed_fair : FairSeq false [exSeed] := by
  simp [FairSeq, exSeed, exOs, ReadContract]

theorem exSeed_obtained : Obtained exOs 48 (List.replicate 20 0x11 ++ List.replicate 28 0x22) :=
  ⟨rfl, rfl, ⟨[List.replicate 20 0x11, List.replicate 28 0x22], [], rfl, by simp [List.replicate], rfl, rfl⟩, 1, [], rfl⟩

/-- A request for 32 bytes from the initial state succeeds on the example device, so the hypotheses of the C39 theorems are
met. -/
theorem exSaltRequest (sha : ShaHw) : ∃ r o, requests ⟨shaTransform sha, ⟨.zero, .zero⟩, false⟩ [exSeed] Drbg.initial [List.replicate 32 0] =
    .ok (some r) ∧ r.1 = [o] ∧ o.ok = true ∧ r.2.2 = [] := by
  have g : DrbgSys.Good ⟨shaTransform sha, ⟨.zero, .zero⟩, false⟩ := ⟨goodTf sha, ⟨⟨rfl, rfl⟩, ⟨rfl, rfl⟩⟩⟩
  generalize hsys : (⟨shaTransform sha, ⟨.zero, .zero⟩, false⟩ : DrbgSys) = sys at g ⊢
  have he : ∃ o, entropy_read exSeed.os ((List.range 48).map exSeed.stk) 48 = .ok (some o) ∧ o.ok = true := ⟨_, rfl, rfl⟩
  obtain ⟨o, ho, hk⟩ := he
  have hi : ∃ st, instantiate sys exSeed Drbg.initial = .ok (some (true, st)) := by
    unfold instantiate
    rw [ho, Res.bind_ok]
    simp only [hk]
    obtain ⟨x, -, hm⟩ := mix_spec g { Drbg.initial with Key := List.replicate 32 0x00, V := List.replicate 32 0x01, reseed_counter := 1 }
      (by simp) (o.buf.take 48) exSeed.rdrand
    rw [← bind_assoc, hm]
    exact ⟨_, rfl⟩
  obtain ⟨st, hi⟩ := hi
  rcases instantiate_spec g _ _ hi with ⟨h, -⟩ | ⟨-, d, x, -, -, -, h4⟩
  · cases h
  · have hr : ∃ r, crypto_entropy_read sys [exSeed] Drbg.initial (List.replicate 32 0) 32 = .ok (some r) ∧ r.ok = true ∧ r.rest = [] := by
      unfold crypto_entropy_read
      rw [if_neg (by simp [Drbg.initial])]
      simp only [hi, Res.bind_ok]
      have hc : (seeded (List.replicate 32 0x00) (List.replicate 32 0x01) d x).served = 0 := seeded_served _ _ _ _
      obtain ⟨-, -, -, -, h5, -⟩ := id h4
      obtain ⟨st2, w, g1, -⟩ := generate_spec g h4 (by rw [hc]; omega) (List.replicate 32 0) 0 32 (by omega) (by simp)
      rw [readLoop, dif_neg (by omega)]
      unfold reseedIfNeeded RESEED_INTERVAL
      rw [if_neg (by rw [h5, hc]; omega), Res.bind_ok]
      simp only []
      rw [show bytesToProvide 32 = 32 from rfl, g1, Res.bind_ok, readLoop, dif_pos (by rfl)]
      exact ⟨_, rfl, rfl, rfl⟩
    obtain ⟨r, hr, r1, r2⟩ := hr
    unfold requests
    rw [List.length_replicate, hr, Res.bind_ok]
    simp only [requests, Res.bind_ok, Option.map_some]
    exact ⟨_, r, rfl, rfl, r1, r2⟩

end Scrypt.Props
