import Verif.Model.Process
import Verif.Props.Enc
import Verif.Props.Aes
import Verif.Props.Entropy
import Verif.Props.CpuRate
/-
Lemmas about the process model: how the components answer one call.
-/
namespace Scrypt.Props
open Scrypt Spec F64

/-- The machine is as the C standard and the documentation of libcrypto say. -/
structure _root_.Scrypt.Machine.Good (m : Machine) : Prop where
  sz : IsSizeMax m.szMax
  ossl : GoodOssl m.ossl
  junk : m.drbgJunk.Sized
  cps : 0 < m.clocksPerSec
  cps64 : m.clocksPerSec < 2 ^ 64

/-- Allocations, if they succeed, have the requested size; local arrays have their declared size. -/
structure _root_.Scrypt.CallEnv.Good (e : CallEnv) : Prop where
  kdf : e.kdf.Sized
  steps1 : ∀ s ∈ e.steps1, s.kdf.Sized
  steps2 : ∀ s ∈ e.steps2, s.kdf.Sized
  salt0 : e.salt0.length = 32
  aes : ∀ rk, e.aes.mem = some rk → rk.length = 15
  ctr : ∀ c, e.ctr = some c → c.Sized
  junkSha : e.junkSha.Sized
  junkHmac : e.junkHmac.Sized
  junkHmac2 : e.junkHmac2.Sized
  dk0 : e.dk0.length = 64
  header0 : e.header0.length = 96
  iobuf : e.iobuf.length = 65568

/-- The best SHA-256 code of the machine. -/
def _root_.Scrypt.Machine.bestSha (m : Machine) : ShaHw :=
  if m.shaFeat .x86_shani then .x86_shani else if m.shaFeat .x86_sse2 then .x86_sse2 else if m.shaFeat .arm_sha256 then .arm_sha256 else .software

/-- The random generator as this process runs it. -/
def _root_.Scrypt.Machine.drbgSys (m : Machine) : DrbgSys := ⟨shaTransform m.bestSha, m.drbgJunk, m.rdrand⟩

theorem drbgSys_good {m : Machine} (g : m.Good) : m.drbgSys.Good := ⟨goodTf _, g.junk⟩

/-- What holds of the static variables between calls. -/
structure StInv (m : Machine) (st : Statics) : Prop where
  sha : st.sha = none ∨ st.sha = some m.bestSha
  drbg : ∃ s, Scrypt.Rep st.drbg s

theorem StInv.initial (m : Machine) (seeds : List SeedEnv) : StInv m (Statics.initial seeds) := ⟨.inl rfl, none, rfl⟩

theorem StInv.sha_init {m : Machine} {st : Statics} (h : StInv m st) : hwaccel_init m.shaFeat shaTransform st.sha = .ok m.bestSha := by
  obtain ⟨h1, h2⟩ := C43_sha256_init m.shaFeat
  rcases h.sha with e | e <;> rw [e]
  · exact h1
  · exact h2 _

/-! ### The speed -/

/-- A measuring loop with derivations is the loop of `scryptenc_cpuperf` for some outcomes of the derivations. -/
theorem perfLoopL_refines {m : Machine} {e : CallEnv} {tf : Transform} {N : W64} {t0 : Timeval} {bound : F64} : ∀ (steps : List PerfEnv) (i : Nat)
    (st : Option SmixImpl) (r : PerfEnd) (st' : Option SmixImpl), perfLoopL m e tf N t0 bound i steps st = .ok (r, st') →
    ∃ ok : List Bool, ok.length = steps.length ∧
      match perfLoop m.clk t0 bound i (List.zipWith (fun b s => ⟨b, s.clk⟩) ok steps), r with
      | .err c, .err c' => c = c'
      | .done d n _, .done d' n' => d = d' ∧ n = n'
      | .running, .running => True
      | _, _ => False
  | [], i, st, r, st', h => by
    unfold perfLoopL at h
    obtain ⟨rfl, rfl⟩ := Prod.mk.inj (Res.ok.inj h)
    exact ⟨[], rfl, trivial⟩
  | s :: rest, i, st, r, st', h => by
    unfold perfLoopL at h
    obtain ⟨o, ho, h⟩ := Res.bind_eq_ok.1 h
    by_cases hrc : o.1.rc ≠ 0
    · rw [if_pos hrc] at h
      obtain ⟨rfl, rfl⟩ := Prod.mk.inj (Res.ok.inj h)
      refine ⟨false :: List.replicate rest.length true, by simp, ?_⟩
      rw [List.zipWith_cons_cons]
      unfold perfLoop
      rw [if_neg (show ¬ (false = true) by simp)]
    · rw [if_neg hrc] at h
      cases hd : getclockdiff m.clk t0 s.clk with
      | none =>
        rw [hd] at h
        obtain ⟨rfl, rfl⟩ := Prod.mk.inj (Res.ok.inj h)
        refine ⟨true :: List.replicate rest.length true, by simp, ?_⟩
        rw [List.zipWith_cons_cons]
        unfold perfLoop
        rw [if_pos (show (true = true) from rfl)]
        simp only [hd]
      | some d =>
        rw [hd] at h
        simp only [] at h
        by_cases hlt : F64.lt bound d = true
        · rw [if_pos hlt] at h
          obtain ⟨rfl, rfl⟩ := Prod.mk.inj (Res.ok.inj h)
          refine ⟨true :: List.replicate rest.length true, by simp, ?_⟩
          rw [List.zipWith_cons_cons]
          unfold perfLoop
          rw [if_pos (show (true = true) from rfl)]
          simp only [hd, if_pos hlt, and_self]
        · rw [if_neg hlt] at h
          obtain ⟨ok, h1, h2⟩ := perfLoopL_refines rest _ _ _ _ h
          refine ⟨true :: ok, by simp [h1], ?_⟩
          rw [List.zipWith_cons_cons]
          unfold perfLoop
          rw [if_pos (show (true = true) from rfl)]
          simp only [hd, if_neg hlt]
          exact h2

/-- The derivations measured read the same clocks, in the same order. -/
def SameClocks (steps : List PerfStep) (l : List PerfEnv) : Prop := steps.map (·.clk) = l.map (·.clk)

theorem SameClocks.mem {steps : List PerfStep} {l : List PerfEnv} (h : SameClocks steps l) : ∀ s ∈ steps, ∃ t ∈ l, s.clk = t.clk := by
  intro s hs
  have : s.clk ∈ l.map (·.clk) := by rw [← h]; exact List.mem_map_of_mem hs
  obtain ⟨t, ht, e⟩ := List.mem_map.1 this
  exact ⟨t, ht, e.symm⟩

theorem zip_clk : ∀ {steps : List PerfEnv} {ok : List Bool}, ok.length = steps.length →
    SameClocks (List.zipWith (fun b (s : PerfEnv) => (⟨b, s.clk⟩ : PerfStep)) ok steps) steps
  | [], [], _ => rfl
  | s :: steps, b :: ok, h => by
    have := zip_clk (steps := steps) (ok := ok) (by simpa using h)
    unfold SameClocks at *
    rw [List.zipWith_cons_cons, List.map_cons, List.map_cons, this]
  | [], _ :: _, h => by simp at h
  | _ :: _, [], h => by simp at h

/-- scryptenc_cpuperf with its derivations is scryptenc_cpuperf for some outcomes of the derivations. -/
theorem cpuperfL_refines {m : Machine} {e : CallEnv} {tf : Transform} {st : Option SmixImpl} {perf : Code × F64} {st' : Option SmixImpl}
    (h : cpuperfL m e tf st = .ok (some perf, st')) :
    ∃ steps1 steps2 : List PerfStep, steps1.length = e.steps1.length ∧ steps2.length = e.steps2.length ∧
      SameClocks steps1 e.steps1 ∧ SameClocks steps2 e.steps2 ∧
      scryptenc_cpuperf m.clk m.clocksPerSec e.res e.start1 steps1 e.start2 steps2 = some perf := by
  have dummy : ∀ l : List PerfEnv, ∃ steps : List PerfStep, steps.length = l.length ∧ SameClocks steps l := by
    intro l
    exact ⟨l.map fun s => ⟨true, s.clk⟩, by simp, by unfold SameClocks; rw [List.map_map]; rfl⟩
  obtain ⟨d1, dl1, dc1⟩ := dummy e.steps1
  obtain ⟨d2, dl2, dc2⟩ := dummy e.steps2
  unfold cpuperfL at h
  unfold scryptenc_cpuperf
  cases hr : monoclock_getres m.clk m.clocksPerSec e.res with
  | none =>
    rw [hr] at h
    obtain ⟨h1, -⟩ := Prod.mk.inj (Res.ok.inj h)
    exact ⟨d1, d2, dl1, dl2, dc1, dc2, h1⟩
  | some resd =>
    rw [hr] at h
    simp only [] at h ⊢
    cases hs : monoclock_get m.clk e.start1 with
    | none =>
      rw [hs] at h
      obtain ⟨h1, -⟩ := Prod.mk.inj (Res.ok.inj h)
      exact ⟨d1, d2, dl1, dl2, dc1, dc2, h1⟩
    | some t0 =>
      rw [hs] at h
      simp only [] at h ⊢
      obtain ⟨⟨r, sm⟩, h1, h⟩ := Res.bind_eq_ok.1 h
      obtain ⟨ok, hl, hm⟩ := perfLoopL_refines _ _ _ _ _ h1
      generalize hx : List.zipWith (fun b (s : PerfEnv) => (⟨b, s.clk⟩ : PerfStep)) ok e.steps1 = x1 at hm
      have hx1 : x1.length = e.steps1.length := by rw [← hx, List.length_zipWith, hl, Nat.min_self]
      have hx2 : SameClocks x1 e.steps1 := by rw [← hx]; exact zip_clk hl
      cases r with
      | err c =>
        obtain ⟨h1, -⟩ := Prod.mk.inj (Res.ok.inj h)
        refine ⟨x1, d2, hx1, dl2, hx2, dc2, ?_⟩
        cases hp : perfLoop m.clk t0 (F64.ofNat 0) 0 x1 with
        | err c' => rw [hp] at hm; simp only [] at hm ⊢; rw [hm]; exact h1
        | done => rw [hp] at hm; exact hm.elim
        | running => rw [hp] at hm; exact hm.elim
      | running =>
        obtain ⟨h1, -⟩ := Prod.mk.inj (Res.ok.inj h)
        cases h1
      | done d n =>
        simp only [] at h
        unfold perfPhase2L at h
        cases hs2 : monoclock_get m.clk e.start2 with
        | none =>
          rw [hs2] at h
          obtain ⟨h1, -⟩ := Prod.mk.inj (Res.ok.inj h)
          refine ⟨x1, d2, hx1, dl2, hx2, dc2, ?_⟩
          cases hp : perfLoop m.clk t0 (F64.ofNat 0) 0 x1 with
          | err c' => rw [hp] at hm; exact hm.elim
          | running => rw [hp] at hm; exact hm.elim
          | done => simp only []; unfold perfPhase2; rw [hs2]; exact h1
        | some t2 =>
          rw [hs2] at h
          simp only [] at h
          obtain ⟨⟨r2, sm2⟩, h2, h⟩ := Res.bind_eq_ok.1 h
          obtain ⟨ok2, hl2, hm2⟩ := perfLoopL_refines _ _ _ _ _ h2
          generalize hy : List.zipWith (fun b (s : PerfEnv) => (⟨b, s.clk⟩ : PerfStep)) ok2 e.steps2 = x2 at hm2
          have hy1 : x2.length = e.steps2.length := by rw [← hy, List.length_zipWith, hl2, Nat.min_self]
          have hy2 : SameClocks x2 e.steps2 := by rw [← hy]; exact zip_clk hl2
          refine ⟨x1, x2, hx1, hy1, hx2, hy2, ?_⟩
          cases hp : perfLoop m.clk t0 (F64.ofNat 0) 0 x1 with
          | err c' => rw [hp] at hm; exact hm.elim
          | running => rw [hp] at hm; exact hm.elim
          | done =>
            simp only []
            unfold perfPhase2
            rw [hs2]
            simp only []
            cases hp2 : perfLoop m.clk t2 resd 0 x2 with
            | err c' =>
              rw [hp2] at hm2
              cases r2 with
              | err c => simp only [] at hm2 h ⊢; obtain ⟨h1, -⟩ := Prod.mk.inj (Res.ok.inj h); rw [hm2]; exact h1
              | done => exact hm2.elim
              | running => exact hm2.elim
            | running =>
              rw [hp2] at hm2
              cases r2 with
              | running => obtain ⟨h1, -⟩ := Prod.mk.inj (Res.ok.inj h); cases h1
              | done => exact hm2.elim
              | err => exact hm2.elim
            | done d3 n3 rest =>
              rw [hp2] at hm2
              cases r2 with
              | done d4 n4 =>
                obtain ⟨rfl, rfl⟩ := hm2
                obtain ⟨h1, -⟩ := Prod.mk.inj (Res.ok.inj h)
                exact h1
              | running => exact hm2.elim
              | err => exact hm2.elim

/-! ### The answers -/

/-- The answers agree with the machine and the environment of the call, and the components behave. -/
structure Answered (m : Machine) (e : CallEnv) (sys : EncSys) : Prop where
  good : sys.Good
  szMax : sys.par.szMax = m.szMax
  cfg : sys.par.cfg = m.cfg
  mem : sys.par.mem = e.mem
  disp : sys.par.disp = e.disp
  sha : sys.sha = m.bestSha
  kdf1 : sys.kdf1 = e.kdf1
  kdf2 : sys.kdf2 = e.kdf2
  kdf : sys.kdf = e.kdf
  junkTest : sys.junkTest = e.junkTest
  ossl : sys.ossl = m.ossl
  ctr : sys.ctr = e.ctr
  cookieOk : sys.cookieOk = e.cookieOk
  perf : sys.par.perf = (.ECLOCK, .nan) ∨ ∃ sm sm', cpuperfL m e (shaTransform m.bestSha) sm = .ok (some sys.par.perf, sm')
  aes : sys.aes = ⟨none, false⟩ ∨ sys.aes = e.aes

theorem baseSys_answered {m : Machine} (gm : m.Good) {e : CallEnv} (ge : e.Good) (smix : Option SmixImpl) : Answered m e (baseSys m e m.bestSha smix) where
  good :=
    { sz := gm.sz, perf := .inr (.inl rfl), kdf := ge.kdf, junkSha := ge.junkSha, junkHmac := ge.junkHmac, junkHmac2 := ge.junkHmac2,
      ossl := fun _ => gm.ossl, aesMem := fun _ h => (by cases h), ctr := ge.ctr, salt := fun _ h => (by cases h), dk0 := ge.dk0, header0 := ge.header0,
      iobuf := ge.iobuf }
  szMax := rfl
  cfg := rfl
  mem := rfl
  disp := rfl
  sha := rfl
  kdf1 := rfl
  kdf2 := rfl
  kdf := rfl
  junkTest := rfl
  ossl := rfl
  ctr := rfl
  cookieOk := rfl
  perf := .inl rfl
  aes := .inl rfl

theorem askPerf_answered {m : Machine} {e : CallEnv} {f : EncSys → Res Code} {sys sys' : EncSys} (h : Answered m e sys)
    (hc : askPerf m e f sys = .ok (some sys')) : Answered m e sys' ∧ sys'.salt = sys.salt := by
  unfold askPerf at hc
  split at hc
  · obtain ⟨⟨r, sm⟩, h1, hc⟩ := Res.bind_eq_ok.1 hc
    cases r with
    | none => cases hc
    | some perf =>
      simp only [] at hc
      have hc := Option.some.inj (Res.ok.inj hc)
      subst hc
      have htf : sys.tf = shaTransform m.bestSha := by unfold EncSys.tf; rw [h.sha]
      rw [htf] at h1
      obtain ⟨s1, s2, -, -, -, -, hp⟩ := cpuperfL_refines h1
      refine ⟨{ h with good := { h.good with perf := ?_ }, perf := .inr ⟨_, _, h1⟩ }, rfl⟩
      rcases C45_codes (x := perf.2) hp with e | e | ⟨e, -⟩
      · exact .inl e
      · exact .inr (.inl e)
      · exact .inr (.inr e)
  · have hc := Option.some.inj (Res.ok.inj hc)
    subst hc
    exact ⟨h, rfl⟩

/-- What drawing the salt does to the generator: nothing, or one request for 32 bytes, whose result is the salt. -/
def SaltDrawn (m : Machine) (e : CallEnv) (st : Statics) (salt : Option Bytes) (st' : Statics) : Prop :=
  (st'.drbg = st.drbg ∧ st'.seeds = st.seeds ∧ salt = none) ∨
  ∃ o, crypto_entropy_read m.drbgSys st.seeds st.drbg e.salt0 32 = .ok (some o) ∧ salt = (if o.ok then some o.buf else none) ∧
    st'.drbg = o.st ∧ st'.seeds = o.rest

theorem read_inv {m : Machine} (gm : m.Good) {st : Statics} (hi : StInv m st) {b : Bytes} {o : ReadOut}
    (h : crypto_entropy_read m.drbgSys st.seeds st.drbg b b.length = .ok (some o)) : (∃ s, Scrypt.Rep o.st s) ∧ (o.ok = true → o.buf.length = b.length) := by
  obtain ⟨s, hs⟩ := hi.drbg
  obtain ⟨u, ops, s', w, -, -, hr, hb, hok, -⟩ := crypto_entropy_read_spec (drbgSys_good gm) hs h
  refine ⟨⟨s', hr⟩, fun ht => ?_⟩
  rw [hb, List.length_append, List.length_drop, (hok ht).1]
  omega

theorem askSalt_answered {m : Machine} (gm : m.Good) {e : CallEnv} (ge : e.Good) {f : EncSys → Res Code} {sys : EncSys} {st : Statics} {x : EncSys × Statics}
    (h : Answered m e sys) (hn : sys.salt = none) (hi : StInv m st)
    (hc : askSalt m e f sys st = .ok (some x)) : Answered m e x.1 ∧ StInv m x.2 ∧ SaltDrawn m e st x.1.salt x.2 ∧ x.2.sha = st.sha ∧ x.1.smix = sys.smix := by
  unfold askSalt at hc
  split at hc
  · have htf : sys.tf = shaTransform m.bestSha := by unfold EncSys.tf; rw [h.sha]
    rw [htf] at hc
    obtain ⟨r, h1, hc⟩ := Res.bind_eq_ok.1 hc
    cases r with
    | none => cases hc
    | some o =>
      have hc := Option.some.inj (Res.ok.inj hc)
      subst hc
      have h32 : crypto_entropy_read m.drbgSys st.seeds st.drbg e.salt0 e.salt0.length = .ok (some o) := by rw [ge.salt0]; exact h1
      obtain ⟨r1, r2⟩ := read_inv gm hi h32
      refine ⟨{ h with good := { h.good with salt := ?_ } }, ⟨hi.sha, r1⟩, .inr ⟨o, h1, rfl, rfl, rfl⟩, rfl, rfl⟩
      intro s hs
      simp only [] at hs
      split at hs
      · rename_i ht
        cases hs
        rw [r2 ht, ge.salt0]
      · cases hs
  · have hc := Option.some.inj (Res.ok.inj hc)
    subst hc
    exact ⟨h, hi, .inl ⟨rfl, rfl, hn⟩, rfl, rfl⟩

theorem askAes_answered {m : Machine} (gm : m.Good) {e : CallEnv} (ge : e.Good) {f : EncSys → Res Code} {sys : EncSys} {st : Statics} {x : EncSys × Statics}
    (h : Answered m e sys) (hi : StInv m st)
    (hc : askAes m e f sys st = .ok x) : Answered m e x.1 ∧ StInv m x.2 ∧ x.1.salt = sys.salt ∧ x.2.drbg = st.drbg ∧ x.2.seeds = st.seeds ∧
      x.2.sha = st.sha ∧ x.1.smix = sys.smix := by
  unfold askAes at hc
  split at hc
  · obtain ⟨hw, h1, hc⟩ := Res.bind_eq_ok.1 hc
    have hc := Res.ok.inj hc
    subst hc
    exact ⟨{ h with good := { h.good with ossl := fun _ => (by rw [show ({ sys with aesHw := hw, aes := e.aes } : EncSys).ossl = sys.ossl from rfl, h.ossl]; exact gm.ossl), aesMem := ge.aes }, aes := .inr rfl }, ⟨hi.sha, hi.drbg⟩, rfl, rfl, rfl, rfl, rfl⟩
  · have hc := Res.ok.inj hc
    subst hc
    exact ⟨h, hi, rfl, rfl, rfl, rfl, rfl⟩

/-- The call is made with answers that agree with the machine and the environment. -/
theorem answers_answered {m : Machine} (gm : m.Good) {e : CallEnv} (ge : e.Good) {st : Statics} (hi : StInv m st) {f : EncSys → Res Code} {x : EncSys × Statics}
    (hc : answers m e st f = .ok (some x)) :
    Answered m e x.1 ∧ StInv m x.2 ∧ SaltDrawn m e st x.1.salt x.2 := by
  unfold answers at hc
  rw [hi.sha_init, Res.bind_ok] at hc
  obtain ⟨r, h1, hc⟩ := Res.bind_eq_ok.1 hc
  cases r with
  | none => cases hc
  | some sys =>
    simp only [] at hc
    obtain ⟨a1, a2⟩ := askPerf_answered (baseSys_answered gm ge st.smix) h1
    obtain ⟨r, h2, hc⟩ := Res.bind_eq_ok.1 hc
    cases r with
    | none => cases hc
    | some y =>
      simp only [] at hc
      obtain ⟨z, h3, hc⟩ := Res.bind_eq_ok.1 hc
      have hc := Option.some.inj (Res.ok.inj hc)
      subst hc
      obtain ⟨b1, b2, b3, -, -⟩ := askSalt_answered gm ge a1 a2 (st := { st with sha := some m.bestSha }) ⟨.inr rfl, hi.drbg⟩ h2
      obtain ⟨c1, c2, c3, c4, c5, -, -⟩ := askAes_answered gm ge b1 b2 h3
      refine ⟨c1, c2, ?_⟩
      rw [c3]
      rcases b3 with ⟨d1, d2, d3⟩ | ⟨o, d1, d2, d3, d4⟩
      · exact .inl ⟨c4.trans d1, c5.trans d2, d3⟩
      · exact .inr ⟨o, d1, d2, c4.trans d3, c5.trans d4⟩

/-- One call on buffers or files is the call of Model/Enc.lean with such answers. -/
theorem withAnswers_spec {α : Type} {m : Machine} (gm : m.Good) {e : CallEnv} (ge : e.Good) {st : Statics} (hi : StInv m st) {f : EncSys → Res α} {rc : α → Code}
    {smix : α → Option SmixImpl} {o : α} {st' : Statics} (h : withAnswers m e st f rc smix = .ok (some (o, st'))) :
    ∃ sys, Answered m e sys ∧ f sys = .ok o ∧ StInv m st' ∧ SaltDrawn m e st sys.salt st' := by
  unfold withAnswers at h
  obtain ⟨r, h1, h⟩ := Res.bind_eq_ok.1 h
  cases r with
  | none => cases h
  | some x =>
    simp only [] at h
    obtain ⟨o', h2, h⟩ := Res.bind_eq_ok.1 h
    obtain ⟨rfl, rfl⟩ := Prod.mk.inj (Option.some.inj (Res.ok.inj h))
    obtain ⟨a, b, c⟩ := answers_answered gm ge hi h1
    exact ⟨x.1, a, h2, ⟨b.sha, b.drbg⟩, c⟩

end Scrypt.Props
