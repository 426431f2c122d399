import Verif.Props.Process
/-
C53, continued: every call of every history returns, and the result of a decryption or key derivation does not depend on the history or on the CPU.
-/
namespace Scrypt.Props
open Scrypt Spec F64

/-! ### Every call returns -/

/-- The self-tests have the memory they need, libcrypto and the clock work. -/
structure _root_.Scrypt.CallEnv.Ready (e : CallEnv) : Prop where
  kdf1 : e.kdf1.Sized ∧ e.kdf1.allocB 1024 ≠ none ∧ e.kdf1.allocXY 2112 ≠ none ∧ e.kdf1.allocV 16384 ≠ none ∧ e.kdf1.munmapOk = true
  kdf2 : e.kdf2.Sized ∧ e.kdf2.allocB 1024 ≠ none ∧ e.kdf2.allocXY 2112 ≠ none ∧ e.kdf2.allocV 16384 ≠ none ∧ e.kdf2.munmapOk = true
  junkTest : e.junkTest.length = 64
  aesTest : ∃ mem, e.aesTestMem = some mem ∧ mem.length = 15
  aesSet : e.aesTestSet = true
  res : e.res.NonNegTimes
  start2 : e.start2.Plausible
  clk2 : ∀ s ∈ e.steps2, s.clk.Plausible
  len2 : e.steps2.length < 2 ^ 55

/-- The call is one the interface allows (see `SaneLimits`). -/
def CallSane (m : Machine) (e : CallEnv) : LibCall → Prop
  | .encBuf inbuf outbuf _ P v f => inbuf.length + 128 < 2 ^ 64 ∧ inbuf.length + 128 ≤ outbuf.length ∧ (P.zero || P.nonzero) = true ∧
      (P.logN ≠ 0 → SaneLimits e P v f) ∧ (P.logN = 0 → SaneLimits e P v false ∧ P.maxtime ≠ nan)
  | .encFile i _ _ P v f => i.data.length + 128 < 2 ^ 64 ∧ (P.zero || P.nonzero) = true ∧
      (P.logN ≠ 0 → SaneLimits e P v f) ∧ (P.logN = 0 → SaneLimits e P v false ∧ P.maxtime ≠ nan)
  | .decBuf inbuf outbuf _ _ P v f => inbuf.length < 2 ^ 64 ∧ inbuf.length ≤ outbuf.length ∧ P.zero = true ∧ SaneLimits e P v f
  | .decFile i _ _ P v f => i.data.length < 2 ^ 64 ∧ P.zero = true ∧ SaneLimits e P v f
  | .kdf _ _ _ _ _ buf buflen => buflen ≤ buf.length ∧ buflen ≤ m.szMax
  | .random _ => True

theorem crypto_scrypt_returns {m : Machine} (gm : m.Good) {e : CallEnv} (ge : e.Good) (re : e.Ready) (hw : ShaHw) (env : ScEnv) (he : env.Sized)
    (st : Option SmixImpl) (P S : Bytes) (N : W64) (r p : W32) (buf : Bytes) (buflen : Nat) (h1 : buflen ≤ buf.length) (h2 : buflen ≤ m.szMax) :
    ∃ x, crypto_scrypt m.szMax m.sse2 e.kdf1 e.kdf2 env (shaTransform hw) e.junkHmac e.junkTest smixImpl st P S N r p buf buflen = .ok x := by
  have key : ∀ f : SmixImpl, ∃ o, crypto_scrypt_internal m.szMax env (shaTransform hw) e.junkHmac P S N r p buf buflen (smixImpl f) = .ok o := by
    intro f
    rcases internal_total m.szMax gm.sz env he _ (goodTf hw) e.junkHmac ge.junkHmac (smixImpl f) (goodSmix f) P S N r p buf buflen h1 h2 with
      ⟨-, x, -, he⟩ | ⟨-, ⟨-, he⟩ | ⟨-, he⟩⟩ <;> exact ⟨_, he⟩
  unfold crypto_scrypt
  cases st with
  | some f =>
    obtain ⟨o, ho⟩ := key f
    simp only [Res.pure_eq, Res.bind_ok, ho]
    exact ⟨_, rfl⟩
  | none =>
    have hs := C43_never_aborts hw m.szMax gm.sz m.sse2 e.kdf1 e.kdf2 re.kdf1.1 re.kdf2.1 re.kdf1.2 re.kdf2.2 e.junkHmac ge.junkHmac e.junkTest re.junkTest
    obtain ⟨o, ho⟩ := key (if m.sse2 then .sse2 else .generic)
    simp only [hs, Res.pure_eq, Res.bind_ok, ho]
    exact ⟨_, rfl⟩

theorem perfLoopL_returns {m : Machine} (gm : m.Good) {e : CallEnv} (ge : e.Good) (re : e.Ready) (hw : ShaHw) (N : W64) (t0 : Timeval) (bound : F64) :
    ∀ (steps : List PerfEnv) (_ : ∀ s ∈ steps, s.kdf.Sized) (i : Nat) (st : Option SmixImpl), ∃ x, perfLoopL m e (shaTransform hw) N t0 bound i steps st = .ok x
  | [], _, i, st => ⟨_, rfl⟩
  | s :: rest, hs, i, st => by
    unfold perfLoopL
    obtain ⟨x, hx⟩ := crypto_scrypt_returns gm ge re hw s.kdf (hs s (by simp)) st [] [] N 1 1 [] 0 (by simp) (by omega)
    rw [hx, Res.bind_ok]
    split
    · exact ⟨_, rfl⟩
    · split
      · exact ⟨_, rfl⟩
      · split
        · exact ⟨_, rfl⟩
        · exact perfLoopL_returns gm ge re hw N t0 bound rest (fun s h => hs s (by simp [h])) _ _

theorem cpuperfL_returns {m : Machine} (gm : m.Good) {e : CallEnv} (ge : e.Good) (re : e.Ready) (hw : ShaHw) (st : Option SmixImpl) :
    ∃ x, cpuperfL m e (shaTransform hw) st = .ok x := by
  unfold cpuperfL
  split
  · exact ⟨_, rfl⟩
  split
  · exact ⟨_, rfl⟩
  obtain ⟨x, hx⟩ := perfLoopL_returns gm ge re hw 16 _ (F64.ofNat 0) e.steps1 ge.steps1 0 st
  rw [hx, Res.bind_ok]
  split
  · exact ⟨_, rfl⟩
  · exact ⟨_, rfl⟩
  unfold perfPhase2L
  split
  · exact ⟨_, rfl⟩
  obtain ⟨y, hy⟩ := perfLoopL_returns gm ge re hw 128 _ _ e.steps2 ge.steps2 0 x.2
  rw [hy, Res.bind_ok]
  split <;> exact ⟨_, rfl⟩

/-- The measured speed is a positive number. -/
theorem Answered.rate {m : Machine} (gm : m.Good) {e : CallEnv} (re : e.Ready) {sys : EncSys} (h : Answered m e sys) (hp : sys.par.perf.1 = .OK) :
    ∃ v, sys.par.perf.2 = fin false v ∧ 0 < v := by
  rcases h.perf with h | ⟨sm, sm', h⟩
  · rw [h] at hp; cases hp
  · obtain ⟨s1, s2, -, l2, -, c2, hc⟩ := cpuperfL_refines h
    have hc' : scryptenc_cpuperf m.clk m.clocksPerSec e.res e.start1 s1 e.start2 s2 = some (.OK, sys.par.perf.2) := by rw [hc, ← hp]
    refine C45_rate gm.cps gm.cps64 re.res re.start2 ?_ (by rw [l2]; exact re.len2) hc'
    intro s hs
    obtain ⟨t, ht, e⟩ := c2.mem s hs
    rw [e]
    exact re.clk2 t ht

theorem mul_time {t : F64} (hn : t ≠ nan) {v : ℚ} (hv : 0 < v) : F64.mul (fin false v) t ≠ nan := by
  cases t with
  | nan => exact absurd rfl hn
  | inf s => show (if v = 0 then nan else inf _) ≠ nan; rw [if_neg (ne_of_gt hv)]; simp
  | fin s m => show F64.round _ _ ≠ nan; unfold F64.round; split <;> simp

theorem Answered.encLimits {m : Machine} (gm : m.Good) {e : CallEnv} (re : e.Ready) {sys : EncSys} (h : Answered m e sys) {P : EncParams} {v f : Bool}
    (h1 : P.logN ≠ 0 → SaneLimits e P v f) (h2 : P.logN = 0 → SaneLimits e P v false ∧ P.maxtime ≠ nan) : EncLimitsOk sys P v f :=
  ⟨fun h0 => h.limits (h1 h0), fun h0 => ⟨h.limits (h2 h0).1, fun hp => by
    obtain ⟨w, e1, e2⟩ := h.rate gm re hp
    rw [e1]
    exact mul_time (h2 h0).2 e2⟩⟩

theorem Answered.ready {m : Machine} {e : CallEnv} (re : e.Ready) {sys : EncSys} (h : Answered m e sys) : SelfTestReady sys := by
  intro _
  rw [h.kdf1, h.kdf2, h.junkTest]
  exact ⟨re.kdf1.1, re.kdf2.1, re.junkTest, re.kdf1.2, re.kdf2.2⟩

/-- The entropy source behaves from here on: read(2) never returns more than it was asked for (`FairSeq`). -/
def SeedsFair (st : Statics) : Prop := ∀ s, Scrypt.Rep st.drbg s → FairSeq s.isSome st.seeds

theorem withAnswers_returns {α : Type} {m : Machine} (gm : m.Good) {e : CallEnv} (ge : e.Good) (re : e.Ready) {st : Statics} (hi : StInv m st) (hf : SeedsFair st)
    {f : EncSys → Res α} {rc : α → Code} {smix : α → Option SmixImpl} (ht : ∀ sys, Answered m e sys → ∃ o, f sys = .ok o) :
    ∃ x, withAnswers m e st f rc smix = .ok x ∧ ∀ y, x = some y → SeedsFair y.2 := by
  unfold withAnswers answers
  rw [hi.sha_init, Res.bind_ok]
  generalize (fun sys => f sys >>= fun o => Res.ok (rc o)) = f'
  have hb := baseSys_answered gm ge st.smix
  have p1 : ∃ r, askPerf m e f' (baseSys m e m.bestSha st.smix) = .ok r := by
    unfold askPerf
    split
    · obtain ⟨x, hx⟩ := cpuperfL_returns gm ge re m.bestSha st.smix
      rw [show (baseSys m e m.bestSha st.smix).tf = shaTransform m.bestSha from rfl, show (baseSys m e m.bestSha st.smix).smix = st.smix from rfl, hx, Res.bind_ok]
      split <;> exact ⟨_, rfl⟩
    · exact ⟨_, rfl⟩
  obtain ⟨r, hr⟩ := p1
  rw [hr, Res.bind_ok]
  cases r with
  | none => exact ⟨none, rfl, by simp⟩
  | some sys =>
    simp only []
    obtain ⟨a1, a2⟩ := askPerf_answered hb hr
    have p2 : ∃ r, askSalt m e f' sys { st with sha := some m.bestSha } = .ok r ∧ ∀ x, r = some x → SeedsFair x.2 := by
      unfold askSalt
      split
      · rw [show sys.tf = shaTransform m.bestSha by unfold EncSys.tf; rw [a1.sha]]
        obtain ⟨s, hs⟩ := hi.drbg
        obtain ⟨r, h1, h2⟩ := crypto_entropy_read_defined (drbgSys_good gm) (hf s hs) hs e.salt0
        rw [ge.salt0] at h1
        rw [show (⟨shaTransform m.bestSha, m.drbgJunk, m.rdrand⟩ : DrbgSys) = m.drbgSys from rfl, h1, Res.bind_ok]
        cases r with
        | none => exact ⟨_, rfl, by simp⟩
        | some o =>
          refine ⟨_, rfl, ?_⟩
          intro x hx
          cases hx
          exact fun s' hs' => h2 o s' rfl hs'
      · refine ⟨_, rfl, ?_⟩
        intro x hx
        cases hx
        exact hf
    obtain ⟨r, hr, hf'⟩ := p2
    rw [hr, Res.bind_ok]
    cases r with
    | none => exact ⟨none, rfl, by simp⟩
    | some x =>
      simp only []
      have hf'' := hf' x rfl
      obtain ⟨b1, b2, -⟩ := askSalt_answered gm ge a1 a2 (st := { st with sha := some m.bestSha }) ⟨.inr rfl, hi.drbg⟩ hr
      have p3 : ∃ z, askAes m e f' x.1 x.2 = .ok z := by
        unfold askAes
        split
        · obtain ⟨mem, e1, e2⟩ := re.aesTest
          rw [e1, re.aesSet]
          cases x.2.aes with
          | none => rw [C43_aes_never_aborts m.aesFeat mem e2 m.ossl gm.ossl, Res.bind_ok]; exact ⟨_, rfl⟩
          | some h => exact ⟨_, rfl⟩
        · exact ⟨_, rfl⟩
      obtain ⟨z, hz⟩ := p3
      obtain ⟨c1, -, -, c4, c5, -, -⟩ := askAes_answered gm ge b1 b2 hz
      rw [hz, Res.bind_ok, Res.bind_ok]
      simp only []
      obtain ⟨o, ho⟩ := ht z.1 c1
      rw [ho, Res.bind_ok]
      refine ⟨_, rfl, ?_⟩
      intro y hy
      cases hy
      unfold SeedsFair at hf'' ⊢
      simp only [c4, c5]
      exact hf''

theorem libCall_returns {m : Machine} (gm : m.Good) {e : CallEnv} (ge : e.Good) (re : e.Ready) {st : Statics} (hi : StInv m st) (hf : SeedsFair st) {c : LibCall}
    (hc : CallSane m e c) : ∃ x, libCall m e st c = .ok x ∧ ∀ y, x = some y → SeedsFair y.2 := by
  have wrap : ∀ {α : Type} {f : EncSys → Res α} {rc : α → Code} {smix : α → Option SmixImpl} {k : α → LibOut}, (∀ sys, Answered m e sys → ∃ o, f sys = .ok o) →
      ∃ x, (withAnswers m e st f rc smix >>= fun r => Res.ok (r.map fun x => (k x.1, x.2))) = .ok x ∧ ∀ y, x = some y → SeedsFair y.2 := by
    intro α f rc smix k ht
    obtain ⟨x, h1, h2⟩ := withAnswers_returns gm ge re hi hf (rc := rc) (smix := smix) ht
    rw [h1, Res.bind_ok]
    refine ⟨_, rfl, ?_⟩
    intro y hy
    cases x with
    | none => cases hy
    | some x => cases hy; exact h2 x rfl
  cases c with
  | encBuf inbuf outbuf pw P v f =>
    obtain ⟨h1, h2, h3, h4, h5⟩ := hc
    exact wrap (k := .buf) (fun sys a => encBuf_total a.good (a.ready re) (by omega) h2 h3 (a.encLimits gm re h4 h5))
  | encFile i outf pw P v f =>
    obtain ⟨h1, h3, h4, h5⟩ := hc
    exact wrap (k := .file) (fun sys a => encFile_total a.good (a.ready re) (by omega) h3 (a.encLimits gm re h4 h5))
  | decBuf inbuf outbuf outlen pw P v f =>
    obtain ⟨h1, h2, h3, h4⟩ := hc
    exact wrap (k := .buf) (fun sys a => decBuf_total a.good (a.ready re) h1 h2 h3 (fun _ => checkDefined a.good (a.limits h4) _))
  | decFile i outf pw P v f =>
    obtain ⟨h1, h3, h4⟩ := hc
    exact wrap (k := .file) (fun sys a => decFile_total a.good (a.ready re) h1 h3 (fun _ => checkDefined a.good (a.limits h4) _))
  | kdf passwd salt N r p buf buflen =>
    rw [libCall, hi.sha_init, Res.bind_ok]
    obtain ⟨x, hx⟩ := crypto_scrypt_returns gm ge re m.bestSha e.kdf ge.kdf st.smix passwd salt N r p buf buflen hc.1 hc.2
    rw [hx, Res.bind_ok]
    refine ⟨_, rfl, ?_⟩
    intro y hy
    cases hy
    exact hf
  | random buf =>
    rw [libCall, hi.sha_init, Res.bind_ok]
    obtain ⟨s, hs⟩ := hi.drbg
    obtain ⟨r, h1, h2⟩ := crypto_entropy_read_defined (drbgSys_good gm) (hf s hs) hs buf
    rw [show (⟨shaTransform m.bestSha, m.drbgJunk, m.rdrand⟩ : DrbgSys) = m.drbgSys from rfl, h1, Res.bind_ok]
    cases r with
    | none => exact ⟨_, rfl, by simp⟩
    | some o =>
      refine ⟨_, rfl, ?_⟩
      intro y hy
      cases hy
      exact fun s' hs' => h2 o s' rfl hs'

theorem history_returns {m : Machine} (gm : m.Good) : ∀ (cs : List (CallEnv × LibCall)) (_ : ∀ c ∈ cs, c.1.Good ∧ c.1.Ready ∧ CallSane m c.1 c.2) {st : Statics}
    (_ : StInv m st) (_ : SeedsFair st), ∃ x, libHistory m st cs = .ok x
  | [], _, st, _, _ => ⟨_, rfl⟩
  | c :: cs, hg, st, hi, hf => by
    unfold libHistory
    obtain ⟨g1, g2, g3⟩ := hg c (by simp)
    obtain ⟨x, h1, h2⟩ := libCall_returns gm g1 g2 hi hf g3
    rw [h1, Res.bind_ok]
    cases x with
    | none => exact ⟨_, rfl⟩
    | some x =>
      simp only []
      obtain ⟨-, -, -, a3, -⟩ := libCall_spec gm g1 hi h1
      obtain ⟨y, hy⟩ := history_returns gm cs (fun c hc => hg c (by simp [hc])) a3 (h2 x rfl)
      rw [hy, Res.bind_ok]
      exact ⟨_, rfl⟩

/-- **C53.**  No call of any history aborts or has undefined behaviour, as long as the self-tests can allocate their memory, the clock shows plausible times and
the calls keep to the interface.  (`none` in `.ok none`: the process still waits for the clock or for entropy.) -/
theorem C53_returns {m : Machine} (gm : m.Good) {cs : List (CallEnv × LibCall)} (hc : ∀ c ∈ cs, c.1.Good ∧ c.1.Ready ∧ CallSane m c.1 c.2)
    {seeds : List SeedEnv} (hs : FairSeq false seeds) : ∃ x, libHistory m (Statics.initial seeds) cs = .ok x := by
  refine history_returns gm cs hc (StInv.initial m seeds) ?_
  intro s hs'
  cases s with
  | none => exact hs
  | some s => exact absurd (show false = true from hs'.1) (by decide)

end Scrypt.Props
