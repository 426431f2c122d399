import Verif.Props.ProcessForced
import Verif.Props.ProcessIndep
import Verif.Props.Salts
import Verif.Props.EncEx
/-
Non-vacuity for C53, C54: two concrete processes, on machines with any CPU features.  The first encrypts (drawing its salt from the random generator, seeded from
the example device); the second derives a key, then decrypts the result with both interfaces.
-/
namespace Scrypt.Props
open Scrypt Spec F64

/-- A 64-bit machine with the given CPU features. -/
def exMachine (shaFeat : ShaHw → Bool) (aesFeat : AesHw → Bool) (sse2 : Bool) : Machine :=
  { szMax := 2 ^ 64 - 1, cfg := exCfg, clk := ⟨true, true⟩, clocksPerSec := 1000000, shaFeat := shaFeat, aesFeat := aesFeat, sse2 := sse2, rdrand := false,
    ossl := Spec.aes, drbgJunk := ⟨.zero, .zero⟩ }

/-- A system that can satisfy all requests. -/
def exCallEnv : CallEnv :=
  { mem := exMem (.cur (2 ^ 30)), disp := { asprintf1 := true, asprintf2 := true, fmt1f := fun _ => [] }, res := ⟨.time 0 1, .time 0 1⟩,
    start1 := ⟨.time 5 0, .time 5 0⟩, steps1 := [⟨okEnv, ⟨.time 5 0, .fail⟩⟩, ⟨okEnv, ⟨.time 5 10000, .fail⟩⟩], start2 := ⟨.time 6 0, .fail⟩,
    steps2 := [⟨okEnv, ⟨.time 7 0, .fail⟩⟩], kdf1 := okEnv, kdf2 := okEnv, kdf := okEnv, salt0 := List.replicate 32 0,
    aesTestMem := some (List.replicate 15 []), aesTestSet := true, aes := ⟨some (List.replicate 15 []), true⟩,
    ctr := some ⟨.ossl [], 7, List.replicate 16 1, List.replicate 16 2⟩, cookieOk := true, junkSha := SHA256_CTX.zero, junkHmac := zeroHctx,
    junkHmac2 := zeroHctx, junkTest := List.replicate 64 3, dk0 := List.replicate 64 4, header0 := List.replicate 96 5, iobuf := List.replicate 65568 6,
    xmm := fun _ => [] }

theorem exMachine_good (a : ShaHw → Bool) (b : AesHw → Bool) (c : Bool) : (exMachine a b c).Good where
  sz := .inr rfl
  ossl := fun k b _ _ => rfl
  junk := ⟨⟨rfl, rfl⟩, ⟨rfl, rfl⟩⟩
  cps := by show 0 < 1000000; decide
  cps64 := by show 1000000 < 2 ^ 64; decide

theorem exCallEnv_good : exCallEnv.Good where
  kdf := okEnv_sized
  steps1 := by intro s h; simp only [exCallEnv, List.mem_cons, List.not_mem_nil, or_false] at h; rcases h with rfl | rfl <;> exact okEnv_sized
  steps2 := by intro s h; simp only [exCallEnv, List.mem_cons, List.not_mem_nil, or_false] at h; subst h; exact okEnv_sized
  salt0 := rfl
  aes := fun rk h => by cases h; rfl
  ctr := fun c h => by cases h; exact ⟨rfl, rfl⟩
  junkSha := zero_sized
  junkHmac := zeroHctx_sized
  junkHmac2 := zeroHctx_sized
  dk0 := rfl
  header0 := rfl
  iobuf := List.length_replicate

theorem exCallEnv_ready : exCallEnv.Ready where
  kdf1 := ⟨okEnv_sized, Option.some_ne_none _, Option.some_ne_none _, Option.some_ne_none _, rfl⟩
  kdf2 := ⟨okEnv_sized, Option.some_ne_none _, Option.some_ne_none _, Option.some_ne_none _, rfl⟩
  junkTest := rfl
  aesTest := ⟨_, rfl, rfl⟩
  aesSet := rfl
  res := ⟨fun s n h => by cases h; decide, fun s n h => by cases h; decide⟩
  start2 := ⟨show |(6 : Int)| < 2 ^ 51 ∧ |(0 : Int)| < 2 ^ 51 by norm_num, trivial⟩
  clk2 := fun s h => by
    rcases List.mem_singleton.1 (show s ∈ [(⟨okEnv, ⟨.time 7 0, .fail⟩⟩ : PerfEnv)] from h) with rfl
    exact ⟨show |(7 : Int)| < 2 ^ 51 ∧ |(0 : Int)| < 2 ^ 51 by norm_num, trivial⟩
  len2 := show 1 < 2 ^ 55 by norm_num

theorem exCallEnv_plenty (c : LibCall) (n : Nat) (h : ∀ i outf pw P v f, c = .decFile i outf pw P v f → i.err = false ∧ Fits outf n) : Plenty exCallEnv c n where
  kdf := fun _ => ⟨Option.some_ne_none _, Option.some_ne_none _, Option.some_ne_none _⟩
  munmap := rfl
  aes := ⟨Option.some_ne_none _, rfl⟩
  ctr := Option.some_ne_none _
  cookie := rfl
  file := h

section
variable (shaFeat : ShaHw → Bool) (aesFeat : AesHw → Bool) (sse2 : Bool)

/-- The salt can be drawn. -/
theorem exRead (m : Machine) (hm : m = exMachine shaFeat aesFeat sse2) : ∃ o, crypto_entropy_read m.drbgSys [exSeed] Drbg.initial (List.replicate 32 0) 32 = .ok (some o) ∧
    o.ok = true ∧ o.buf.length = 32 := by
  subst hm
  obtain ⟨r, o, h1, h2, h3, -⟩ := exSaltRequest (exMachine shaFeat aesFeat sse2).bestSha
  unfold requests at h1
  obtain ⟨x, h4, h1⟩ := Res.bind_eq_ok.1 h1
  cases x with
  | none => cases h1
  | some x =>
    simp only [requests, Res.bind_ok, Option.map_some] at h1
    have h1 := Option.some.inj (Res.ok.inj h1)
    rw [← h1] at h2
    have : x = o := by simpa using h2
    subst this
    rw [List.length_replicate] at h4
    refine ⟨x, h4, h3, ?_⟩
    have := (read_inv (exMachine_good shaFeat aesFeat sse2) (StInv.initial _ [exSeed]) (b := List.replicate 32 0) (o := x) (by rw [List.length_replicate]; exact h4)).2 h3
    rw [this, List.length_replicate]

/-- The code a forced encryption with `exP` returns. -/
theorem exEnc_code {m : Machine} (hm : m = exMachine shaFeat aesFeat sse2) {sys : EncSys} (a : Answered m exCallEnv sys) (msg outbuf passwd : Bytes)
    (h1 : msg.length + 128 < 2 ^ 64) (h2 : msg.length + 128 ≤ outbuf.length) :
    ∃ o, scryptenc_buf sys msg outbuf passwd exP false true = .ok o ∧
      o.rc = if sys.salt = none then .ESALT else if aesAvail sys = true then .OK else .EOPENSSL := by
  have gm := exMachine_good shaFeat aesFeat sse2
  rw [← hm] at gm
  have hl : LimitsOk sys exP false true := a.limits ⟨(by simp), (by simp)⟩
  obtain ⟨o, h⟩ := encBuf_total a.good (a.ready exCallEnv_ready) (passwd := passwd) (by omega) h2 (P := exP) (verbose := false) (force := true) exP_nonzero
    ⟨fun _ => hl, fun h => by cases h⟩
  refine ⟨o, h, ?_⟩
  rw [(C15_buf a.good (by omega) h2 hl (by decide) h).2.2.2.2.1]
  unfold explicitChecks
  simp only [List.cons_append, List.nil_append]
  rw [firstFail_cons exP_good, firstFail_cons (.inl trivial), firstFail_cons (.inl trivial)]
  by_cases hs : sys.salt = none
  · rw [if_pos hs]
    exact firstFail_stop (by simp [hs])
  · rw [if_neg hs, firstFail_cons hs, firstFail_cons (show KdfOk sys (2 ^ exP.logN.toNat) exP.r.toNat exP.p.toNat from by
      unfold KdfOk
      rw [a.szMax, a.kdf, hm]
      exact exEnc_kdf .software .software exSalt)]
    by_cases ha : aesAvail sys = true
    · rw [if_pos ha, firstFail_cons ha, firstFail_cons (by rw [a.ctr]; exact Option.some_ne_none _)]
      rfl
    · rw [if_neg ha]
      exact firstFail_stop ha

/-- A call that asks for a salt and for AES, and for nothing else, gets them. -/
theorem exAnswers {m : Machine} (hm : m = exMachine shaFeat aesFeat sse2) {α : Type} (f : EncSys → Res α) (rc : α → Code) (smix : α → Option SmixImpl)
    (code : ∀ sys, Answered m exCallEnv sys → ∃ o, f sys = .ok o ∧ rc o = if sys.salt = none then .ESALT else if aesAvail sys = true then .OK else .EOPENSSL) :
    ∃ o st' sys, withAnswers m exCallEnv (Statics.initial [exSeed]) f rc smix = .ok (some (o, st')) ∧ Answered m exCallEnv sys ∧ f sys = .ok o ∧
      sys.salt ≠ none ∧ aesAvail sys = true := by
  have gm := exMachine_good shaFeat aesFeat sse2
  rw [← hm] at gm
  have hi := StInv.initial m [exSeed]
  unfold withAnswers answers
  rw [hi.sha_init, Res.bind_ok]
  have code' : ∀ sys, Answered m exCallEnv sys → (fun sys => f sys >>= fun o => Res.ok (rc o)) sys =
      .ok (if sys.salt = none then .ESALT else if aesAvail sys = true then .OK else .EOPENSSL) := by
    intro sys a
    obtain ⟨o, e1, e2⟩ := code sys a
    simp only [e1, Res.bind_ok, e2]
  generalize (fun sys => f sys >>= fun o => Res.ok (rc o)) = F at code' ⊢
  have hb := baseSys_answered gm exCallEnv_good (Statics.initial [exSeed]).smix
  generalize hsys : baseSys m exCallEnv m.bestSha (Statics.initial [exSeed]).smix = sys at hb ⊢
  have e1 := code' sys hb
  rw [if_pos (by rw [← hsys]; rfl)] at e1
  have f1 : askPerf m exCallEnv F sys = .ok (some sys) := by
    unfold askPerf
    rw [e1]
    rfl
  rw [f1, Res.bind_ok]
  simp only []
  obtain ⟨r, r1, r2, r3⟩ := exRead shaFeat aesFeat sse2 m hm
  have f2 : askSalt m exCallEnv F sys
      { Statics.initial [exSeed] with sha := some m.bestSha } =
      .ok (some ({ sys with salt := some r.buf }, { Statics.initial [exSeed] with sha := some m.bestSha, drbg := r.st, seeds := r.rest })) := by
    unfold askSalt
    rw [e1]
    rw [show sys.tf = shaTransform m.bestSha by rw [← hsys]; rfl]
    rw [if_pos (by decide), show (⟨shaTransform m.bestSha, m.drbgJunk, m.rdrand⟩ : DrbgSys) = m.drbgSys from rfl,
      show exCallEnv.salt0 = List.replicate 32 0 from rfl]
    simp only [Statics.initial]
    rw [r1, Res.bind_ok]
    simp only [r2, if_true]
  obtain ⟨b1, b2, -, -, b3⟩ := askSalt_answered gm exCallEnv_good hb (by rw [← hsys]; rfl) (st := { Statics.initial [exSeed] with sha := some m.bestSha })
    ⟨.inr rfl, hi.drbg⟩ f2
  rw [f2, Res.bind_ok]
  simp only []
  have e1 := code' _ b1
  rw [if_neg (by simp), if_neg (by rw [← hsys]; simp [aesAvail, baseSys])] at e1
  obtain ⟨hw, hhw⟩ : ∃ hw, aes_hwaccel_init m.aesFeat exCallEnv.aesTestMem exCallEnv.aesTestSet m.ossl none = .ok hw :=
    ⟨_, C43_aes_never_aborts m.aesFeat _ (by rfl) m.ossl gm.ossl⟩
  generalize hst : ({ Statics.initial [exSeed] with sha := some m.bestSha, drbg := r.st, seeds := r.rest } : Statics) = st2 at b1 b2 b3 ⊢
  generalize hsys2 : { sys with salt := some r.buf } = sys2 at b1 b3 e1 ⊢
  have f3 : askAes m exCallEnv F sys2 st2 =
      .ok ({ sys2 with aesHw := hw, aes := exCallEnv.aes }, { st2 with aes := some hw }) := by
    unfold askAes
    rw [e1, if_pos (by decide), show st2.aes = none by rw [← hst]; rfl, hhw, Res.bind_ok]
  obtain ⟨c1, -⟩ := askAes_answered gm exCallEnv_good b1 b2 f3
  rw [f3, Res.bind_ok, Res.bind_ok]
  simp only [] at c1 ⊢
  obtain ⟨o, e1, -⟩ := code _ c1
  rw [show f _ = _ from e1, Res.bind_ok]
  exact ⟨o, _, _, rfl, c1, e1, by rw [← hsys2]; simp, by unfold aesAvail; cases hw <;> rfl⟩

/-- The first process encrypts. -/
theorem exEncrypts (msg passwd : Bytes) (h1 : msg.length + 128 < 2 ^ 64) :
    ∃ o st, libHistory (exMachine shaFeat aesFeat sse2) (Statics.initial [exSeed]) [(exCallEnv, .encBuf msg (List.replicate (msg.length + 200) 0) passwd exP false true)] =
      .ok (some ([.buf o], st)) ∧ o.rc = .OK := by
  generalize hm : exMachine shaFeat aesFeat sse2 = m
  have hm := hm.symm
  have gm := exMachine_good shaFeat aesFeat sse2
  rw [← hm] at gm
  have hout : msg.length + 128 ≤ (List.replicate (msg.length + 200) (0 : Byte)).length := by rw [List.length_replicate]; omega
  have hi := StInv.initial m [exSeed]
  have code := fun sys (a : Answered m exCallEnv sys) => exEnc_code shaFeat aesFeat sse2 hm a msg _ passwd h1 hout
  generalize List.replicate (msg.length + 200) (0 : Byte) = outbuf at hout code ⊢
  have key : ∃ o st', withAnswers m exCallEnv (Statics.initial [exSeed]) (fun sys => scryptenc_buf sys msg outbuf passwd exP false true) (·.rc) (·.smix) =
      .ok (some (o, st')) ∧ o.rc = .OK := by
    obtain ⟨o, st', sys, k1, k2, k3, k4, k5⟩ := exAnswers shaFeat aesFeat sse2 hm (fun sys => scryptenc_buf sys msg outbuf passwd exP false true) (·.rc) (·.smix) code
    obtain ⟨o', e1, e2⟩ := code sys k2
    rw [show scryptenc_buf sys msg outbuf passwd exP false true = _ from k3] at e1
    rw [← Res.ok.inj e1, if_neg k4, if_pos k5] at e2
    exact ⟨o, st', k1, e2⟩
  obtain ⟨o, st', k1, k2⟩ := key
  refine ⟨o, st', ?_, k2⟩
  have hl : libCall m exCallEnv (Statics.initial [exSeed]) (.encBuf msg outbuf passwd exP false true) = .ok (some (.buf o, st')) := by
    rw [libCall, k1]
    rfl
  unfold libHistory libHistory
  simp only [hl, Res.bind_ok, Option.map_some]

end

/-- A call that asks neither for the speed nor for a salt does not wait. -/
theorem withAnswers_prompt {α : Type} {m : Machine} (gm : m.Good) {e : CallEnv} (ge : e.Good) {st : Statics} (hi : StInv m st)
    {f : EncSys → Res α} {rc : α → Code} {smix : α → Option SmixImpl}
    (ht : ∀ sys, Answered m e sys → ∃ o, f sys = .ok o ∧ rc o ≠ .ECLOCK ∧ rc o ≠ .ESALT) {x : Option (α × Statics)}
    (h : withAnswers m e st f rc smix = .ok x) : x ≠ none := by
  unfold withAnswers answers at h
  rw [hi.sha_init, Res.bind_ok] at h
  have hb := baseSys_answered gm ge st.smix
  have hr : ∀ c, c = Code.ECLOCK ∨ c = Code.ESALT →
      reports ((fun sys => f sys >>= fun o => Res.ok (rc o)) (baseSys m e m.bestSha st.smix)) c = false := by
    intro c hc
    obtain ⟨o, h1, h2, h3⟩ := ht _ hb
    simp only [h1, Res.bind_ok, reports, decide_eq_false_iff_not]
    rcases hc with rfl | rfl
    · exact h2
    · exact h3
  generalize (fun sys => f sys >>= fun o => Res.ok (rc o)) = f' at h hr
  unfold askPerf askSalt at h
  rw [hr _ (.inl rfl), if_neg (by simp), Res.bind_ok] at h
  simp only [] at h
  rw [hr _ (.inr rfl), if_neg (by simp), Res.bind_ok] at h
  simp only [bind_assoc, Res.bind_ok] at h
  obtain ⟨y, -, h⟩ := Res.bind_eq_ok.1 h
  obtain ⟨o, -, h⟩ := Res.bind_eq_ok.1 h
  rw [← Res.ok.inj h]
  exact Option.some_ne_none _

/-- The second process: a key derivation, then the decryption, forced. -/
def exSecond (D passwd : Bytes) : List (CallEnv × LibCall) :=
  [(exCallEnv, .kdf [1] [2] 16 1 1 (List.replicate 64 0) 64), (exCallEnv, .decBuf D (List.replicate D.length 9) 77 passwd exP0 true true)]

/-- The complete example: the message comes back, on any two machines (with any CPU features), through `C53_forced`. -/
example (shaA shaB : ShaHw → Bool) (aesA aesB : AesHw → Bool) (sseA sseB : Bool) (msg passwd : Bytes) (hm : msg.length + 128 < 2 ^ 64) :
    ∃ (oA : BufOut) (stA stB : Statics) (o1 o2 : LibOut),
      libHistory (exMachine shaA aesA sseA) (Statics.initial [exSeed]) [(exCallEnv, .encBuf msg (List.replicate (msg.length + 200) 0) passwd exP false true)] =
        .ok (some ([.buf oA], stA)) ∧ oA.rc = .OK ∧
      libHistory (exMachine shaB aesB sseB) (Statics.initial []) (exSecond (oA.out.take (msg.length + 128)) passwd) = .ok (some ([o1, o2], stB)) ∧
      Recovers (.decBuf (oA.out.take (msg.length + 128)) (List.replicate (msg.length + 128) 9) 77 passwd exP0 true true) o2 msg := by
  obtain ⟨oA, stA, runA, okA⟩ := exEncrypts shaA aesA sseA msg passwd hm
  have gA := exMachine_good shaA aesA sseA
  have gB := exMachine_good shaB aesB sseB
  have gc : ∀ {c : LibCall}, ∀ x ∈ [(exCallEnv, c)], x.1.Good := by
    intro c x hx
    rw [List.mem_singleton.1 hx]
    exact exCallEnv_good
  have henc : Encrypts (.encBuf msg (List.replicate (msg.length + 200) 0) passwd exP false true) (.buf oA) passwd msg (oA.out.take (msg.length + 128)) :=
    ⟨rfl, rfl, by rw [List.length_replicate]; omega, okA, rfl⟩
  obtain ⟨-, -, a⟩ := libHistory_get gA _ gc (StInv.initial _ _) runA
  obtain ⟨_, _, iA, -, a⟩ := a 0 _ _ _ rfl rfl
  obtain ⟨sA, a1, a2, -⟩ := libCall_spec gA exCallEnv_good iA a
  obtain ⟨salt, l, r, p, -, hsalt, hg, hr, hpp, hD, hk⟩ := encrypts_container a1.good a2 hm henc
  generalize hDD : oA.out.take (msg.length + 128) = D at henc hD
  have hC := container_fields (scryptCode passwd salt (2 ^ l) r p 64) l r p salt msg hsalt (by have := hg.2.1; omega) hr hpp
  rw [← hD] at hC
  have hlen := hC.len
  have hsl : SaneLimits exCallEnv exP0 true true := ⟨by simp, fun _ => ⟨rfl, rfl⟩⟩
  have sane : ∀ x ∈ exSecond D passwd, x.1.Good ∧ x.1.Ready ∧ CallSane (exMachine shaB aesB sseB) x.1 x.2 := by
    intro x hx
    unfold exSecond at hx
    rcases List.mem_cons.1 hx with rfl | hx
    · exact ⟨exCallEnv_good, exCallEnv_ready, by rw [List.length_replicate], by show 64 ≤ 2 ^ 64 - 1; norm_num⟩
    · rw [List.mem_singleton.1 hx]
      exact ⟨exCallEnv_good, exCallEnv_ready, by omega, by rw [List.length_replicate], by decide, hsl⟩
  obtain ⟨xB, runB⟩ := C53_returns gB sane (seeds := []) trivial
  have hB : ∃ o1 o2 stB, xB = some ([o1, o2], stB) := by
    unfold exSecond libHistory libHistory libHistory at runB
    obtain ⟨x, r1, runB⟩ := Res.bind_eq_ok.1 runB
    have hx : ∃ o s, x = some (o, s) := by
      rw [libCall] at r1
      obtain ⟨_, -, r1⟩ := Res.bind_eq_ok.1 r1
      obtain ⟨_, -, r1⟩ := Res.bind_eq_ok.1 r1
      exact ⟨_, _, (Res.ok.inj r1).symm⟩
    obtain ⟨o1, s1, rfl⟩ := hx
    obtain ⟨-, -, -, i1, -⟩ := libCall_spec gB exCallEnv_good (StInv.initial _ _) r1
    simp only [] at runB
    obtain ⟨y, r2, runB⟩ := Res.bind_eq_ok.1 runB
    obtain ⟨z, r3, r2⟩ := Res.bind_eq_ok.1 r2
    have hz : ∃ o s, z = some (o, s) := by
      rw [libCall] at r3
      obtain ⟨w, r4, r3⟩ := Res.bind_eq_ok.1 r3
      have hw := withAnswers_prompt gB exCallEnv_good i1 (fun sys c1 => by
        obtain ⟨o, ho⟩ := decBuf_total (passwd := passwd) (outlen := 77) (P := exP0) (verbose := true) (force := true) c1.good (c1.ready exCallEnv_ready)
          (show D.length < 2 ^ 64 by omega) (show D.length ≤ (List.replicate D.length (9 : Byte)).length by rw [List.length_replicate]) (by decide)
          (fun _ => checkDefined c1.good (c1.limits hsl) _)
        refine ⟨o, ho, ?_⟩
        have hs := decBuf_spec c1.good (by omega) (by rw [List.length_replicate]) ho
        have e1 := hs.rc
        unfold bufVerdict at e1
        rw [if_neg (by rintro (h | h); omega; exact h hC.magic), if_neg (not_not.2 hC.version), if_neg (by omega), if_neg (not_not.2 hC.sum)] at e1
        have hlim : LimitsPass sys exP0 true (2 ^ l) r p := .inl rfl
        have hpc : paramCode sys exP0 true true D = .OK := by
          rw [paramCode_ok c1.good (c1.limits hsl), hC.logN, hC.r, hC.p]; exact ⟨hg, hlim⟩
        rw [if_neg (not_not.2 hpc)] at e1
        rw [e1]
        unfold aesCode
        split_ifs <;> simp) r4
      cases w with
      | none => exact absurd rfl hw
      | some w => exact ⟨_, _, (Res.ok.inj r3).symm⟩
    obtain ⟨o2, s2, rfl⟩ := hz
    simp only [Res.bind_ok] at r2
    rw [← Res.ok.inj r2] at runB
    exact ⟨o1, o2, s2, (Res.ok.inj runB).symm⟩
  obtain ⟨o1, o2, stB, rfl⟩ := hB
  refine ⟨oA, stA, stB, o1, o2, runA, okA, by rw [hDD]; exact runB, ?_⟩
  rw [hDD, ← hlen]
  have := C53_forced (j := 1) (i := 0) gA gB (le_refl _) gc (fun c hc => (sane c hc).1) runA runB rfl rfl rfl rfl hm henc
    (show Decrypts exCallEnv (.decBuf D (List.replicate D.length 9) 77 passwd exP0 true true) passwd D from ⟨rfl, rfl, by rw [List.length_replicate], hsl⟩)
    rfl (exCallEnv_plenty _ _ (fun _ _ _ _ _ _ h => by cases h))
  exact this

end Scrypt.Props
