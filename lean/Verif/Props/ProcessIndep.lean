import Verif.Props.ProcessTotal
/-
C53, continued: the result of a decryption or key derivation does not depend on the history, nor on the CPU.
-/
namespace Scrypt.Props
open Scrypt Spec F64

/-- Two machines that differ at most in the CPU (which accelerated code is available) and in libcrypto. -/
structure SameButCpu (m1 m2 : Machine) : Prop where
  szMax : m1.szMax = m2.szMax
  cfg : m1.cfg = m2.cfg
  clk : m1.clk = m2.clk
  cps : m1.clocksPerSec = m2.clocksPerSec

theorem perfLoopL_indep {m1 m2 : Machine} (hm : SameButCpu m1 m2) (g1 : m1.Good) {e : CallEnv} (ge : e.Good) {h1 h2 : ShaHw} {N : W64} {t0 : Timeval} {bound : F64} :
    ∀ (steps : List PerfEnv) (_ : ∀ s ∈ steps, s.kdf.Sized) (i : Nat) (s1 s2 s1' s2' : Option SmixImpl) (r1 r2 : PerfEnd)
      (_ : perfLoopL m1 e (shaTransform h1) N t0 bound i steps s1 = .ok (r1, s1')) (_ : perfLoopL m2 e (shaTransform h2) N t0 bound i steps s2 = .ok (r2, s2')),
      r1 = r2
  | [], _, i, s1, s2, s1', s2', r1, r2, a, b => by
    unfold perfLoopL at a b
    rw [← (Prod.mk.inj (Res.ok.inj a)).1, ← (Prod.mk.inj (Res.ok.inj b)).1]
  | s :: rest, hs, i, s1, s2, s1', s2', r1, r2, a, b => by
    unfold perfLoopL at a b
    obtain ⟨⟨o1, u1⟩, a1, a⟩ := Res.bind_eq_ok.1 a
    obtain ⟨⟨o2, u2⟩, b1, b⟩ := Res.bind_eq_ok.1 b
    rw [← hm.szMax] at b1
    have eo := C22_selection_irrelevant h1 h2 m1.szMax g1.sz m1.sse2 m2.sse2 e.kdf1 e.kdf2 e.kdf1 e.kdf2 s.kdf (hs s (by simp)) e.junkHmac e.junkHmac ge.junkHmac
      ge.junkHmac e.junkTest e.junkTest s1 s2 [] [] N 1 1 [] 0 (by simp) (by omega) o1 o2 u1 u2 a1 b1
    subst eo
    simp only [] at a b
    rw [← hm.clk] at b
    split at a
    · rename_i hr
      rw [if_pos hr] at b
      rw [← (Prod.mk.inj (Res.ok.inj a)).1, ← (Prod.mk.inj (Res.ok.inj b)).1]
    · rename_i hr
      rw [if_neg hr] at b
      split at a
      · rename_i hd
        rw [hd] at b
        rw [← (Prod.mk.inj (Res.ok.inj a)).1, ← (Prod.mk.inj (Res.ok.inj b)).1]
      · rename_i d hd
        rw [hd] at b
        simp only [] at b
        split at a
        · rename_i hl
          rw [if_pos hl] at b
          rw [← (Prod.mk.inj (Res.ok.inj a)).1, ← (Prod.mk.inj (Res.ok.inj b)).1]
        · rename_i hl
          rw [if_neg hl] at b
          exact perfLoopL_indep hm g1 ge rest (fun s h => hs s (by simp [h])) _ _ _ _ _ _ _ a b

theorem cpuperfL_indep {m1 m2 : Machine} (hm : SameButCpu m1 m2) (g1 : m1.Good) {e : CallEnv} (ge : e.Good) {h1 h2 : ShaHw} {s1 s2 s1' s2' : Option SmixImpl}
    {r1 r2 : Option (Code × F64)} (a : cpuperfL m1 e (shaTransform h1) s1 = .ok (r1, s1')) (b : cpuperfL m2 e (shaTransform h2) s2 = .ok (r2, s2')) : r1 = r2 := by
  unfold cpuperfL at a b
  rw [← hm.clk, ← hm.cps] at b
  split at a
  · rename_i hr
    rw [hr] at b
    rw [← (Prod.mk.inj (Res.ok.inj a)).1, ← (Prod.mk.inj (Res.ok.inj b)).1]
  rename_i resd hr
  rw [hr] at b
  simp only [] at b
  split at a
  · rename_i hs
    rw [hs] at b
    rw [← (Prod.mk.inj (Res.ok.inj a)).1, ← (Prod.mk.inj (Res.ok.inj b)).1]
  rename_i t0 hs
  rw [hs] at b
  simp only [] at b
  obtain ⟨⟨x, u1⟩, a1, a⟩ := Res.bind_eq_ok.1 a
  obtain ⟨⟨y, u2⟩, b1, b⟩ := Res.bind_eq_ok.1 b
  have exy := perfLoopL_indep hm g1 ge e.steps1 ge.steps1 _ _ _ _ _ _ _ a1 b1
  subst exy
  cases x with
  | err c => rw [← (Prod.mk.inj (Res.ok.inj a)).1, ← (Prod.mk.inj (Res.ok.inj b)).1]
  | running => rw [← (Prod.mk.inj (Res.ok.inj a)).1, ← (Prod.mk.inj (Res.ok.inj b)).1]
  | done d n =>
    simp only [] at a b
    unfold perfPhase2L at a b
    rw [← hm.clk] at b
    split at a
    · rename_i hs
      rw [hs] at b
      rw [← (Prod.mk.inj (Res.ok.inj a)).1, ← (Prod.mk.inj (Res.ok.inj b)).1]
    rename_i t2 hs
    rw [hs] at b
    simp only [] at b
    obtain ⟨⟨x, v1⟩, a1, a⟩ := Res.bind_eq_ok.1 a
    obtain ⟨⟨y, v2⟩, b1, b⟩ := Res.bind_eq_ok.1 b
    have exy := perfLoopL_indep hm g1 ge e.steps2 ge.steps2 _ _ _ _ _ _ _ a1 b1
    subst exy
    cases x with
    | err c => rw [← (Prod.mk.inj (Res.ok.inj a)).1, ← (Prod.mk.inj (Res.ok.inj b)).1]
    | running => rw [← (Prod.mk.inj (Res.ok.inj a)).1, ← (Prod.mk.inj (Res.ok.inj b)).1]
    | done d n => rw [← (Prod.mk.inj (Res.ok.inj a)).1, ← (Prod.mk.inj (Res.ok.inj b)).1]

/-- Two systems on which a decryption cannot behave differently. -/
structure Alike (s1 s2 : EncSys) : Prop where
  par : s1.par = s2.par
  avail : aesAvail s1 = aesAvail s2

/-- One call with the answers it asks for, on two machines and after two histories. -/
theorem withAnswers_indep {α : Type} {m1 m2 : Machine} (hm : SameButCpu m1 m2) (g1 : m1.Good) (g2 : m2.Good) {e : CallEnv} (ge : e.Good)
    (ha : e.aes.mem ≠ none ∧ e.aes.osslOk = true) {st1 st2 : Statics} (i1 : StInv m1 st1) (i2 : StInv m2 st2)
    {f : EncSys → Res α} {rc : α → Code} {smix : α → Option SmixImpl} {V : α → α → Prop}
    (t1 : ∀ sys, Answered m1 e sys → ∃ o, f sys = .ok o) (t2 : ∀ sys, Answered m2 e sys → ∃ o, f sys = .ok o)
    (hV : ∀ s1 s2 a b, Answered m1 e s1 → Answered m2 e s2 → Alike s1 s2 → f s1 = .ok a → f s2 = .ok b → rc a = rc b ∧ V a b)
    {a b : α} {x y : Statics} (h1 : withAnswers m1 e st1 f rc smix = .ok (some (a, x))) (h2 : withAnswers m2 e st2 f rc smix = .ok (some (b, y))) : V a b := by
  unfold withAnswers answers at h1 h2
  rw [i1.sha_init, Res.bind_ok] at h1
  rw [i2.sha_init, Res.bind_ok] at h2
  have rep : ∀ s1 s2 c, Answered m1 e s1 → Answered m2 e s2 → Alike s1 s2 →
      reports (f s1 >>= fun o => Res.ok (rc o)) c = reports (f s2 >>= fun o => Res.ok (rc o)) c := by
    intro s1 s2 c a1 a2 al
    obtain ⟨o1, e1⟩ := t1 s1 a1
    obtain ⟨o2, e2⟩ := t2 s2 a2
    rw [e1, e2, Res.bind_ok, Res.bind_ok, (hV s1 s2 o1 o2 a1 a2 al e1 e2).1]
  have B1 := baseSys_answered g1 ge st1.smix
  have B2 := baseSys_answered g2 ge st2.smix
  have BA : Alike (baseSys m1 e m1.bestSha st1.smix) (baseSys m2 e m2.bestSha st2.smix) := ⟨by unfold baseSys; rw [hm.szMax, hm.cfg], rfl⟩
  obtain ⟨x, h1, h1'⟩ := Res.bind_eq_ok.1 h1
  obtain ⟨y, h2, h2'⟩ := Res.bind_eq_ok.1 h2
  obtain ⟨p1, hp1, h1⟩ := Res.bind_eq_ok.1 h1
  obtain ⟨p2, hp2, h2⟩ := Res.bind_eq_ok.1 h2
  cases p1 with
  | none => cases h1; cases h1'
  | some p1 =>
  cases p2 with
  | none => cases h2; cases h2'
  | some p2 =>
  simp only [] at h1 h2
  have P1 := askPerf_answered B1 hp1
  have P2 := askPerf_answered B2 hp2
  have PA : Alike p1 p2 := by
    unfold askPerf at hp1 hp2
    have hr := rep _ _ .ECLOCK B1 B2 BA
    split at hp1
    · rename_i hq
      rw [hr] at hq
      rw [if_pos hq] at hp2
      obtain ⟨⟨r1, u1⟩, a1, hp1⟩ := Res.bind_eq_ok.1 hp1
      obtain ⟨⟨r2, u2⟩, a2, hp2⟩ := Res.bind_eq_ok.1 hp2
      have er := cpuperfL_indep hm g1 ge a1 a2
      subst er
      cases r1 with
      | none => cases hp1
      | some perf =>
        have e1 := Option.some.inj (Res.ok.inj hp1)
        have e2 := Option.some.inj (Res.ok.inj hp2)
        subst e1
        subst e2
        exact ⟨by simp only []; rw [BA.par], BA.avail⟩
    · rename_i hq
      rw [hr] at hq
      rw [if_neg hq] at hp2
      have e1 := Option.some.inj (Res.ok.inj hp1)
      have e2 := Option.some.inj (Res.ok.inj hp2)
      rw [← e1, ← e2]
      exact BA
  obtain ⟨q1, hq1, h1⟩ := Res.bind_eq_ok.1 h1
  obtain ⟨q2, hq2, h2⟩ := Res.bind_eq_ok.1 h2
  cases q1 with
  | none => cases h1; cases h1'
  | some q1 =>
  cases q2 with
  | none => cases h2; cases h2'
  | some q2 =>
  simp only [] at h1 h2
  have Q1 := askSalt_answered g1 ge P1.1 P1.2 (st := { st1 with sha := some m1.bestSha }) ⟨.inr rfl, i1.drbg⟩ hq1
  have Q2 := askSalt_answered g2 ge P2.1 P2.2 (st := { st2 with sha := some m2.bestSha }) ⟨.inr rfl, i2.drbg⟩ hq2
  have alone : ∀ {m : Machine} {f : EncSys → Res Code} {s : EncSys} {st : Statics} {q : EncSys × Statics}, askSalt m e f s st = .ok (some q) →
      q.1.par = s.par ∧ aesAvail q.1 = aesAvail s := by
    intro m f s st q h
    unfold askSalt at h
    split at h
    · obtain ⟨r, -, h⟩ := Res.bind_eq_ok.1 h
      cases r with
      | none => cases h
      | some o => have := Option.some.inj (Res.ok.inj h); subst this; exact ⟨rfl, rfl⟩
    · have := Option.some.inj (Res.ok.inj h); subst this; exact ⟨rfl, rfl⟩
  have QA : Alike q1.1 q2.1 := ⟨by rw [(alone hq1).1, (alone hq2).1, PA.par], by rw [(alone hq1).2, (alone hq2).2, PA.avail]⟩
  obtain ⟨z1, hz1, h1⟩ := Res.bind_eq_ok.1 h1
  obtain ⟨z2, hz2, h2⟩ := Res.bind_eq_ok.1 h2
  have Z1 := askAes_answered g1 ge Q1.1 Q1.2.1 hz1
  have Z2 := askAes_answered g2 ge Q2.1 Q2.2.1 hz2
  have ZA : Alike z1.1 z2.1 := by
    unfold askAes at hz1 hz2
    have hr := rep _ _ .EOPENSSL Q1.1 Q2.1 QA
    have av : ∀ (s : EncSys) (h : AesHw), aesAvail { s with aesHw := h, aes := e.aes } = true := by
      intro s h
      unfold aesAvail
      cases h with
      | software => exact ha.2
      | x86_aesni => cases hmem : e.aes.mem with
        | none => exact absurd hmem ha.1
        | some _ => simp [hmem]
      | arm_aes => cases hmem : e.aes.mem with
        | none => exact absurd hmem ha.1
        | some _ => simp [hmem]
    split at hz1
    · rename_i hq
      rw [hr] at hq
      rw [if_pos hq] at hz2
      obtain ⟨w1, -, hz1⟩ := Res.bind_eq_ok.1 hz1
      obtain ⟨w2, -, hz2⟩ := Res.bind_eq_ok.1 hz2
      have e1 := Res.ok.inj hz1
      have e2 := Res.ok.inj hz2
      rw [← e1, ← e2]
      exact ⟨QA.par, by rw [av, av]⟩
    · rename_i hq
      rw [hr] at hq
      rw [if_neg hq] at hz2
      have e1 := Res.ok.inj hz1
      have e2 := Res.ok.inj hz2
      rw [← e1, ← e2]
      exact QA
  have e1 := Res.ok.inj h1
  have e2 := Res.ok.inj h2
  subst e1
  subst e2
  simp only [] at h1' h2'
  obtain ⟨o1, f1, h1'⟩ := Res.bind_eq_ok.1 h1'
  obtain ⟨o2, f2, h2'⟩ := Res.bind_eq_ok.1 h2'
  have e1 := (Prod.mk.inj (Option.some.inj (Res.ok.inj h1'))).1
  have e2 := (Prod.mk.inj (Option.some.inj (Res.ok.inj h2'))).1
  subst e1
  subst e2
  exact (hV _ _ _ _ Z1.1 Z2.1 ZA f1 f2).2

/-- The results a caller sees are the same. -/
def SameResult : LibOut → LibOut → Prop
  | .buf a, .buf b => a.rc = b.rc ∧ a.out = b.out ∧ a.outlen = b.outlen ∧ a.P = b.P
  | .file a, .file b => a.rc = b.rc ∧ a.outf = b.outf ∧ a.P = b.P
  | .kdf a, .kdf b => a = b
  | _, _ => False

/-- Calls without randomness. -/
def Deterministic : LibCall → Prop
  | .decBuf .. => True
  | .decFile .. => True
  | .kdf .. => True
  | _ => False

theorem Alike.same {m1 m2 : Machine} {e : CallEnv} {s1 s2 : EncSys} (a1 : Answered m1 e s1) (a2 : Answered m2 e s2) (h : Alike s1 s2) :
    aesCode s1 = aesCode s2 ∧ (∀ N r p, KdfOk s1 N r p ↔ KdfOk s2 N r p) ∧ (∀ P v f D, paramCode s1 P v f D = paramCode s2 P v f D) ∧
      s1.cookieOk = s2.cookieOk ∧ (∀ pw P v f D n, Unlocked s1 pw P v f D n ↔ Unlocked s2 pw P v f D n) := by
  have k : ∀ N r p, KdfOk s1 N r p ↔ KdfOk s2 N r p := by
    intro N r p
    unfold KdfOk
    rw [a1.kdf, a2.kdf, h.par]
  have q : ∀ P v f D, paramCode s1 P v f D = paramCode s2 P v f D := by
    intro P v f D
    unfold paramCode
    rw [h.par]
  refine ⟨by unfold aesCode; rw [h.avail, a1.ctr, a2.ctr], k, q, by rw [a1.cookieOk, a2.cookieOk], ?_⟩
  intro pw P v f D n
  exact ⟨fun u => ⟨u.len, u.magic, u.version, u.sum, by rw [← q]; exact u.params, (k _ _ _).1 u.kdf, u.pass⟩,
    fun u => ⟨u.len, u.magic, u.version, u.sum, by rw [q]; exact u.params, (k _ _ _).2 u.kdf, u.pass⟩⟩

theorem decBuf_alike {m1 m2 : Machine} {e : CallEnv} {s1 s2 : EncSys} (a1 : Answered m1 e s1) (a2 : Answered m2 e s2) (h : Alike s1 s2)
    {inbuf outbuf pw : Bytes} {outlen : Nat} {P : EncParams} {v f : Bool} (hin : inbuf.length < 2 ^ 64) (hout : inbuf.length ≤ outbuf.length) {a b : BufOut}
    (h1 : scryptdec_buf s1 inbuf outbuf outlen pw P v f = .ok a) (h2 : scryptdec_buf s2 inbuf outbuf outlen pw P v f = .ok b) :
    a.rc = b.rc ∧ SameResult (.buf a) (.buf b) := by
  classical
  obtain ⟨e1, e2, e3, -, e5⟩ := h.same a1 a2
  have S1 := decBuf_spec a1.good hin hout h1
  have S2 := decBuf_spec a2.good hin hout h2
  have er : a.rc = b.rc := by
    rw [S1.rc, S2.rc, e1, e3]
    simp only [e2]
  have eo : a.out = b.out ∧ a.outlen = b.outlen := by
    by_cases hu : Unlocked s1 pw P v f inbuf 128 ∧ aesCode s1 = .OK
    · have hu2 : Unlocked s2 pw P v f inbuf 128 ∧ aesCode s2 = .OK := ⟨(e5 _ _ _ _ _ _).1 hu.1, by rw [← e1]; exact hu.2⟩
      obtain ⟨x1, x2⟩ := S1.out_yes hu.1 hu.2
      obtain ⟨y1, y2⟩ := S2.out_yes hu2.1 hu2.2
      rw [x1, x2, y1, y2]
      exact ⟨rfl, rfl⟩
    · have hu2 : ¬ (Unlocked s2 pw P v f inbuf 128 ∧ aesCode s2 = .OK) := fun hc => hu ⟨(e5 _ _ _ _ _ _).2 hc.1, by rw [e1]; exact hc.2⟩
      obtain ⟨x1, x2⟩ := S1.out_no hu
      obtain ⟨y1, y2⟩ := S2.out_no hu2
      rw [x1, x2, y1, y2]
      exact ⟨rfl, rfl⟩
  exact ⟨er, er, eo.1, eo.2, by rw [S1.par, S2.par]⟩

theorem decFile_alike {m1 m2 : Machine} {e : CallEnv} {s1 s2 : EncSys} (a1 : Answered m1 e s1) (a2 : Answered m2 e s2) (h : Alike s1 s2)
    {i : InFile} {outf : OutFile} {pw : Bytes} {P : EncParams} {v f : Bool} (hin : i.data.length < 2 ^ 64) {a b : FileOut}
    (h1 : scryptdec_file s1 i outf pw P v f = .ok a) (h2 : scryptdec_file s2 i outf pw P v f = .ok b) :
    a.rc = b.rc ∧ SameResult (.file a) (.file b) := by
  classical
  obtain ⟨e1, e2, e3, e4, -⟩ := h.same a1 a2
  obtain ⟨x1, x2, x3, -⟩ := decFile_spec a1.good hin h1
  obtain ⟨y1, y2, y3, -⟩ := decFile_spec a2.good hin h2
  have ep : prepVerdict s1 i pw P v f = prepVerdict s2 i pw P v f := by
    unfold prepVerdict sysVerdict
    rw [e4, e3]
    simp only [e2]
  have er : a.rc = b.rc := by rw [x1, y1, ep, e1]
  exact ⟨er, er, by rw [x2, y2, ep]; unfold copyOut; rw [e1], by rw [x3, y3, e4]⟩

/-- **C53.**  A decryption or a key derivation, made at some point in one process and again at some point in another one (or the same), with the same memory
and clock behaviour during the call, gives the same result: neither the calls made before, nor the CPU, nor libcrypto matter. -/
theorem C53_independent {m1 m2 : Machine} (hm : SameButCpu m1 m2) (g1 : m1.Good) (g2 : m2.Good) {cs1 cs2 : List (CallEnv × LibCall)} (h1 : ∀ c ∈ cs1, c.1.Good)
    (h2 : ∀ c ∈ cs2, c.1.Good) {seeds1 seeds2 : List SeedEnv} {outs1 outs2 : List LibOut} {st1 st2 : Statics}
    (run1 : libHistory m1 (Statics.initial seeds1) cs1 = .ok (some (outs1, st1))) (run2 : libHistory m2 (Statics.initial seeds2) cs2 = .ok (some (outs2, st2)))
    {i j : Nat} {e : CallEnv} {c : LibCall} {o1 o2 : LibOut} (hc1 : cs1[i]? = some (e, c)) (ho1 : outs1[i]? = some o1) (hc2 : cs2[j]? = some (e, c))
    (ho2 : outs2[j]? = some o2) (hd : Deterministic c) (hsane : CallSane m1 e c) (re : e.Ready) (ha : e.aes.mem ≠ none ∧ e.aes.osslOk = true) :
    SameResult o1 o2 := by
  obtain ⟨-, -, a⟩ := libHistory_get g1 cs1 h1 (StInv.initial m1 seeds1) run1
  obtain ⟨-, -, b⟩ := libHistory_get g2 cs2 h2 (StInv.initial m2 seeds2) run2
  obtain ⟨s1, t1, i1, ge, a⟩ := a i e c o1 hc1 ho1
  obtain ⟨s2, t2, i2, -, b⟩ := b j e c o2 hc2 ho2
  have wrap : ∀ {α : Type} {f : EncSys → Res α} {rc : α → Code} {smix : α → Option SmixImpl} {k : α → LibOut}
      (_ : ∀ (m : Machine), m.Good → ∀ sys, Answered m e sys → ∃ o, f sys = .ok o)
      (_ : ∀ s1 s2 a b, Answered m1 e s1 → Answered m2 e s2 → Alike s1 s2 → f s1 = .ok a → f s2 = .ok b → rc a = rc b ∧ SameResult (k a) (k b))
      (_ : (withAnswers m1 e s1 f rc smix >>= fun r => Res.ok (r.map fun x => (k x.1, x.2))) = .ok (some (o1, t1)))
      (_ : (withAnswers m2 e s2 f rc smix >>= fun r => Res.ok (r.map fun x => (k x.1, x.2))) = .ok (some (o2, t2))), SameResult o1 o2 := by
    intro α f rc smix k ht hV a b
    obtain ⟨x, x1, a⟩ := Res.bind_eq_ok.1 a
    obtain ⟨y, y1, b⟩ := Res.bind_eq_ok.1 b
    cases x with
    | none => cases a
    | some x =>
    cases y with
    | none => cases b
    | some y =>
    obtain ⟨rfl, rfl⟩ := Prod.mk.inj (Option.some.inj (Res.ok.inj a))
    obtain ⟨rfl, rfl⟩ := Prod.mk.inj (Option.some.inj (Res.ok.inj b))
    exact withAnswers_indep hm g1 g2 ge ha i1 i2 (V := fun a b => SameResult (k a) (k b)) (ht m1 g1) (ht m2 g2) hV x1 y1
  cases c with
  | decBuf inbuf outbuf outlen pw P v f =>
    obtain ⟨h1, h2, h3, h4⟩ := hsane
    exact wrap (k := .buf) (fun m gm sys a => decBuf_total a.good (a.ready re) h1 h2 h3 (fun _ => checkDefined a.good (a.limits h4) _))
      (fun s1 s2 a b x y z u w => decBuf_alike x y z h1 h2 u w) a b
  | decFile i outf pw P v f =>
    obtain ⟨h1, h3, h4⟩ := hsane
    exact wrap (k := .file) (fun m gm sys a => decFile_total a.good (a.ready re) h1 h3 (fun _ => checkDefined a.good (a.limits h4) _))
      (fun s1 s2 a b x y z u w => decFile_alike x y z h1 u w) a b
  | kdf passwd salt N r p buf buflen =>
    rw [libCall, i1.sha_init, Res.bind_ok] at a
    rw [libCall, i2.sha_init, Res.bind_ok, ← hm.szMax] at b
    obtain ⟨⟨x, u⟩, a1, a⟩ := Res.bind_eq_ok.1 a
    obtain ⟨⟨y, w⟩, b1, b⟩ := Res.bind_eq_ok.1 b
    obtain ⟨rfl, rfl⟩ := Prod.mk.inj (Option.some.inj (Res.ok.inj a))
    obtain ⟨rfl, rfl⟩ := Prod.mk.inj (Option.some.inj (Res.ok.inj b))
    exact C22_selection_irrelevant _ _ m1.szMax g1.sz m1.sse2 m2.sse2 e.kdf1 e.kdf2 e.kdf1 e.kdf2 e.kdf ge.kdf e.junkHmac e.junkHmac ge.junkHmac ge.junkHmac
      e.junkTest e.junkTest _ _ passwd salt N r p buf buflen hsane.1 hsane.2 x y u w a1 b1
  | encBuf => exact hd.elim
  | encFile => exact hd.elim
  | random => exact hd.elim

end Scrypt.Props
