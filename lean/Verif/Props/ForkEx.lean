import Verif.Props.Fork
import Verif.Props.ProcessEx
/-
Non-vacuity for C85: a process encrypts, forks, and both processes encrypt.
-/
namespace Scrypt.Props
open Scrypt Spec F64

section
variable (shaFeat : ShaHw → Bool) (aesFeat : AesHw → Bool) (sse2 : Bool)

/-- A call that asks for a salt and for AES, and for nothing else, gets them, in every state from which 32 random bytes can be had. -/
theorem exAnswersAt {m : Machine} (hm : m = exMachine shaFeat aesFeat sse2) {α : Type} (f : EncSys → Res α) (rc : α → Code) (smix : α → Option SmixImpl)
    {st : Statics} (hi : StInv m st) {r : ReadOut} (r1 : crypto_entropy_read m.drbgSys st.seeds st.drbg (List.replicate 32 0) 32 = .ok (some r)) (r2 : r.ok = true)
    (code : ∀ sys, Answered m exCallEnv sys → ∃ o, f sys = .ok o ∧ rc o = if sys.salt = none then .ESALT else if aesAvail sys = true then .OK else .EOPENSSL) :
    ∃ o st' sys, withAnswers m exCallEnv st f rc smix = .ok (some (o, st')) ∧ Answered m exCallEnv sys ∧ f sys = .ok o ∧
      sys.salt ≠ none ∧ aesAvail sys = true := by
  have gm := exMachine_good shaFeat aesFeat sse2
  rw [← hm] at gm
  unfold withAnswers answers
  rw [hi.sha_init, Res.bind_ok]
  have code' : ∀ sys, Answered m exCallEnv sys → (fun sys => f sys >>= fun o => Res.ok (rc o)) sys =
      .ok (if sys.salt = none then .ESALT else if aesAvail sys = true then .OK else .EOPENSSL) := by
    intro sys a
    obtain ⟨o, e1, e2⟩ := code sys a
    simp only [e1, Res.bind_ok, e2]
  generalize (fun sys => f sys >>= fun o => Res.ok (rc o)) = F at code' ⊢
  have hb := baseSys_answered gm exCallEnv_good st.smix
  generalize hsys : baseSys m exCallEnv m.bestSha st.smix = sys at hb ⊢
  have e1 := code' sys hb
  rw [if_pos (by rw [← hsys]; rfl)] at e1
  have f1 : askPerf m exCallEnv F sys = .ok (some sys) := by
    unfold askPerf
    rw [e1]
    rfl
  rw [f1, Res.bind_ok]
  simp only []
  have f2 : askSalt m exCallEnv F sys
      { st with sha := some m.bestSha } =
      .ok (some ({ sys with salt := some r.buf }, { st with sha := some m.bestSha, drbg := r.st, seeds := r.rest })) := by
    unfold askSalt
    rw [e1]
    rw [show sys.tf = shaTransform m.bestSha by rw [← hsys]; rfl]
    rw [if_pos (by decide), show (⟨shaTransform m.bestSha, m.drbgJunk, m.rdrand⟩ : DrbgSys) = m.drbgSys from rfl,
      show exCallEnv.salt0 = List.replicate 32 0 from rfl]
    simp only []
    rw [r1, Res.bind_ok]
    simp only [r2, if_true]
  obtain ⟨b1, b2, -, -, b3⟩ := askSalt_answered gm exCallEnv_good hb (by rw [← hsys]; rfl) (st := { st with sha := some m.bestSha })
    ⟨.inr rfl, hi.drbg⟩ f2
  rw [f2, Res.bind_ok]
  simp only []
  have e1 := code' _ b1
  rw [if_neg (by simp), if_neg (by rw [← hsys]; simp [aesAvail, baseSys])] at e1
  obtain ⟨hw, hhw⟩ : ∃ hw, aes_hwaccel_init m.aesFeat exCallEnv.aesTestMem exCallEnv.aesTestSet m.ossl st.aes = .ok hw := by
    cases st.aes with
    | none => exact ⟨_, C43_aes_never_aborts m.aesFeat _ (by rfl) m.ossl gm.ossl⟩
    | some h => exact ⟨h, rfl⟩
  generalize hst : ({ st with sha := some m.bestSha, drbg := r.st, seeds := r.rest } : Statics) = st2 at b1 b2 b3 ⊢
  generalize hsys2 : { sys with salt := some r.buf } = sys2 at b1 b3 e1 ⊢
  have f3 : askAes m exCallEnv F sys2 st2 =
      .ok ({ sys2 with aesHw := hw, aes := exCallEnv.aes }, { st2 with aes := some hw }) := by
    unfold askAes
    rw [e1, if_pos (by decide), show st2.aes = st.aes by rw [← hst], hhw, Res.bind_ok]
  obtain ⟨c1, -⟩ := askAes_answered gm exCallEnv_good b1 b2 f3
  rw [f3, Res.bind_ok, Res.bind_ok]
  simp only [] at c1 ⊢
  obtain ⟨o, e1, -⟩ := code _ c1
  rw [show f _ = _ from e1, Res.bind_ok]
  exact ⟨o, _, _, rfl, c1, e1, by rw [← hsys2]; simp, by unfold aesAvail; cases hw <;> rfl⟩

/-- An encryption, in every state from which 32 random bytes can be had. -/
theorem exEncryptsAt {m : Machine} (hm : m = exMachine shaFeat aesFeat sse2) (msg passwd : Bytes) (h1 : msg.length + 128 < 2 ^ 64) {st : Statics} (hi : StInv m st)
    {r : ReadOut} (r1 : crypto_entropy_read m.drbgSys st.seeds st.drbg (List.replicate 32 0) 32 = .ok (some r)) (r2 : r.ok = true) :
    ∃ o st', libCall m exCallEnv st (.encBuf msg (List.replicate (msg.length + 200) 0) passwd exP false true) = .ok (some (.buf o, st')) ∧ o.rc = .OK := by
  have hout : msg.length + 128 ≤ (List.replicate (msg.length + 200) (0 : Byte)).length := by rw [List.length_replicate]; omega
  have code := fun sys (a : Answered m exCallEnv sys) => exEnc_code shaFeat aesFeat sse2 hm a msg _ passwd h1 hout
  generalize List.replicate (msg.length + 200) (0 : Byte) = outbuf at hout code ⊢
  obtain ⟨o, st', sys, k1, k2, k3, k4, k5⟩ := exAnswersAt shaFeat aesFeat sse2 hm (fun sys => scryptenc_buf sys msg outbuf passwd exP false true) (·.rc) (·.smix) hi r1 r2 code
  obtain ⟨o', e1, e2⟩ := code sys k2
  rw [show scryptenc_buf sys msg outbuf passwd exP false true = _ from k3] at e1
  rw [← Res.ok.inj e1, if_neg k4, if_pos k5] at e2
  refine ⟨o, st', ?_, e2⟩
  rw [libCall, k1]
  rfl

/-- Non-vacuity for C85: on every machine of the example, a process that has encrypted a message forks; the parent, whose entropy source no longer answers, and the
child, which could have 48 fresh bytes, each encrypt a message; both succeed, with the same salt, and the ciphertexts betray the difference of the messages. -/
theorem exForked (msg0 mP mC passwd : Bytes) (h0 : msg0.length + 128 < 2 ^ 64) (hP : mP.length + 128 < 2 ^ 64) (hC : mC.length + 128 < 2 ^ 64) :
    ∃ outs st oP stP oC stC,
      libHistory (exMachine shaFeat aesFeat sse2) (Statics.initial [exSeed]) [(exCallEnv, .encBuf msg0 (List.replicate (msg0.length + 200) 0) passwd exP false true)] =
        .ok (some (outs, st)) ∧
      libCall (exMachine shaFeat aesFeat sse2) exCallEnv (forked st []) (.encBuf mP (List.replicate (mP.length + 200) 0) passwd exP false true) = .ok (some (.buf oP, stP)) ∧
      libCall (exMachine shaFeat aesFeat sse2) exCallEnv (forked st [exSeed]) (.encBuf mC (List.replicate (mC.length + 200) 0) passwd exP false true) =
        .ok (some (.buf oC, stC)) ∧
      oP.rc = .OK ∧ oC.rc = .OK ∧ hdrSalt (oP.out.take (mP.length + 128)) = hdrSalt (oC.out.take (mC.length + 128)) := by
  have gm := exMachine_good shaFeat aesFeat sse2
  obtain ⟨o0, st, e1, e2⟩ := exEncrypts shaFeat aesFeat sse2 msg0 passwd h0
  generalize hm : exMachine shaFeat aesFeat sse2 = m at gm e1 ⊢
  have hm := hm.symm
  have fits : ∀ msg : Bytes, msg.length + 128 < 2 ^ 64 → BufferFits (.encBuf msg (List.replicate (msg.length + 200) 0) passwd exP false true) := by
    intro msg h
    refine ⟨h, ?_⟩
    rw [List.length_replicate]; omega
  have hb : ∀ c ∈ [(exCallEnv, LibCall.encBuf msg0 (List.replicate (msg0.length + 200) 0) passwd exP false true)], c.1.Good ∧ BufferFits c.2 := by
    intro c hc
    rw [List.mem_singleton.1 hc]
    exact ⟨exCallEnv_good, fits msg0 h0⟩
  have hd : allHandedOut ([(exCallEnv, LibCall.encBuf msg0 (List.replicate (msg0.length + 200) 0) passwd exP false true)].map (·.2)) [.buf o0] =
      [field o0.out 16 32] := by
    rw [List.map_singleton, allHandedOut_cons]
    unfold handedOut
    simp only []
    rw [if_pos e2]
    rfl
  -- the generator after the first encryption
  obtain ⟨hi, bufs, rs, a1, a2, a3, -⟩ := history_drew gm _ hb (StInv.initial m [exSeed]) e1
  obtain ⟨s, b1, b2, b3⟩ := requests_served (drbgSys_good gm) bufs (s := none) (show Scrypt.Rep (Statics.initial [exSeed]).drbg none from rfl) a1
  have hex : ∃ r ∈ rs, r.ok = true := by
    have := a2.subset (show field o0.out 16 32 ∈ _ by rw [hd]; exact List.mem_singleton_self _)
    unfold okBufs at this
    obtain ⟨r, hr, -⟩ := List.mem_map.1 this
    obtain ⟨h1, h2⟩ := List.mem_filter.1 hr
    exact ⟨r, h1, h2⟩
  cases s with
  | none => exact absurd (b2 (.inr hex)) (by simp)
  | some s =>
    have b3 : s.served ≤ 0 + _ := b3
    have a3 : steps (bufs.map List.length) ≤ 1 := a3
    obtain ⟨w, s', -, -, -, k⟩ := read_due (drbgSys_good gm) b1 32 (by unfold pieces; omega)
    obtain ⟨stA, kA, -⟩ := k [] (List.replicate 32 0) (by rw [List.length_replicate])
    obtain ⟨stB, kB, -⟩ := k [exSeed] (List.replicate 32 0) (by rw [List.length_replicate])
    rw [List.length_replicate] at kA kB
    obtain ⟨oP, stP, p1, p2⟩ := exEncryptsAt shaFeat aesFeat sse2 hm mP passwd hP (forked_inv hi []) (r := ⟨true, w, stA, []⟩) kA rfl
    obtain ⟨oC, stC, c1, c2⟩ := exEncryptsAt shaFeat aesFeat sse2 hm mC passwd hC (forked_inv hi [exSeed]) (r := ⟨true, w, stB, [exSeed]⟩) kB rfl
    refine ⟨_, st, oP, stP, oC, stC, e1, p1, c1, p2, c2, ?_⟩
    exact (C85_twopad gm hb e1 (by rw [hd]; simp) (by show 1 + 0 < 256; omega) exCallEnv_good exCallEnv_good (fits mP hP) (fits mC hC) p1 c1 (passwd := passwd)
      (mP := mP) (mC := mC) hP hC ⟨rfl, rfl, (fits mP hP).2, p2, rfl⟩ ⟨rfl, rfl, (fits mC hC).2, c2, rfl⟩).1

end

end Scrypt.Props
