import Verif.Props.Recover
import Verif.Props.UtilityEx
import Verif.Props.Picked
/-
C84: two complete processes with the default options.
-/
namespace Scrypt.Props
open Scrypt Spec F64

/-! ### The clock -/

/-- Sixteen derivations take one second, by a clock that shows seconds: 8192 operations per second. -/
def exFastEnv : CallEnv :=
  { exCallEnv with
    res := ⟨.time 0 0, .fail⟩, start1 := ⟨.time 7 0, .fail⟩, steps1 := [⟨okEnv, ⟨.time 8 0, .fail⟩⟩], start2 := ⟨.time 8 0, .fail⟩,
    steps2 := List.replicate 15 ⟨okEnv, ⟨.time 8 0, .fail⟩⟩ ++ [⟨okEnv, ⟨.time 9 0, .fail⟩⟩] }

theorem exFastEnv_mem {s : PerfEnv} (h : s ∈ exFastEnv.steps2) : s.kdf = okEnv ∧ (s.clk = ⟨.time 8 0, .fail⟩ ∨ s.clk = ⟨.time 9 0, .fail⟩) := by
  rcases List.mem_append.1 h with h | h
  · rw [(List.mem_replicate.1 h).2]; exact ⟨rfl, .inl rfl⟩
  · rw [List.mem_singleton.1 h]; exact ⟨rfl, .inr rfl⟩

theorem exFastEnv_good : exFastEnv.Good :=
  { exCallEnv_good with
    steps1 := fun s h => by rw [List.mem_singleton.1 (show s ∈ [(⟨okEnv, ⟨.time 8 0, .fail⟩⟩ : PerfEnv)] from h)]; exact okEnv_sized
    steps2 := fun s h => by rw [(exFastEnv_mem h).1]; exact okEnv_sized }

theorem exFastEnv_ready : exFastEnv.Ready :=
  { exCallEnv_ready with
    res := ⟨fun s n h => by cases h; decide, fun s n h => by cases h⟩
    start2 := ⟨show |(8 : Int)| < 2 ^ 51 ∧ |(0 : Int)| < 2 ^ 51 by norm_num, trivial⟩
    clk2 := fun s h => by
      rcases (exFastEnv_mem h).2 with h | h <;> rw [h]
      · exact ⟨show |(8 : Int)| < 2 ^ 51 ∧ |(0 : Int)| < 2 ^ 51 by norm_num, trivial⟩
      · exact ⟨show |(9 : Int)| < 2 ^ 51 ∧ |(0 : Int)| < 2 ^ 51 by norm_num, trivial⟩
    len2 := show 16 < 2 ^ 55 by norm_num }

/-- What the clock says, in doubles. -/
theorem exClock : monoclock_getres ⟨true, true⟩ 1000000 ⟨.time 0 0, .fail⟩ = some (fin false 0) ∧
    getclockdiff ⟨true, true⟩ ⟨8, 0⟩ ⟨.time 8 0, .fail⟩ = some (fin false 0) ∧ getclockdiff ⟨true, true⟩ ⟨7, 0⟩ ⟨.time 8 0, .fail⟩ = some (fin false 1) ∧
    getclockdiff ⟨true, true⟩ ⟨8, 0⟩ ⟨.time 9 0, .fail⟩ = some (fin false 1) ∧ F64.div (F64.ofNat 8192) (fin false 1) = fin false 8192 := by
  have z : F64.ofNat 0 = fin false 0 := by
    have := ofNat_small (n := 0) (by norm_num); exact_mod_cast this
  have zi : F64.ofInt 0 = fin false 0 := z
  have oi : F64.ofInt 1 = fin false 1 := by
    have := ofNat_small (n := 1) (by norm_num); exact_mod_cast this
  have k : F64.ofNat 8192 = fin false 8192 := by
    have := ofNat_small (n := 8192) (by norm_num); exact_mod_cast this
  have r0 : F64.round false 0 = fin false 0 := by
    have : ((0 : ℕ) : ℚ) = 0 := by norm_num
    have h := z; unfold F64.ofNat at h; rwa [this] at h
  have m0 : ∀ q, F64.mul (fin false 0) (F64.round false q) = fin false 0 ∨
      F64.round false q = inf false := by
    intro q
    unfold F64.round
    split_ifs
    · exact .inr rfl
    · left; simp only [F64.mul, zero_mul, bne_self_eq_false]; exact r0
  have mus : F64.mul (fin false 0) (F64.round false (1 / 10 ^ 6)) = fin false 0 := by
    refine (m0 _).resolve_right ?_
    rw [round_small (roundMag_lt (e := 0) (by norm_num) (by norm_num))]; simp
  have mns : F64.mul (fin false 0) (F64.round false (1 / 10 ^ 9)) = fin false 0 := by
    refine (m0 _).resolve_right ?_
    rw [round_small (roundMag_lt (e := 0) (by norm_num) (by norm_num))]; simp
  have a00 : F64.add (fin false 0) (fin false 0) = fin false 0 := by simp [F64.add, val]
  have a10 : F64.add (fin false 1) (fin false 0) = fin false 1 := by
    simp only [F64.add, val]
    norm_num
    have h := oi
    unfold F64.ofInt at h
    norm_num at h
    exact h
  have hg : ∀ s : Int, monoclock_get ⟨true, true⟩ ⟨.time s 0, .fail⟩ = some ⟨s, 0⟩ := fun s => rfl
  have hd : ∀ a b : Int, getclockdiff ⟨true, true⟩ ⟨a, 0⟩ ⟨.time b 0, .fail⟩ =
      some (F64.add (F64.ofInt (b - a)) (fin false 0)) := by
    intro a b
    unfold getclockdiff
    rw [hg]
    simp only [timeval_diff, sub_self, zi, mus]
  refine ⟨?_, ?_, ?_, ?_, ?_⟩
  · unfold monoclock_getres resDouble
    rw [if_pos rfl]
    simp only [zi, mns, a00]
  · rw [hd]; simp only [sub_self, zi, a00]
  · rw [hd]; simp only [show (8 : ℤ) - 7 = 1 by norm_num, oi, a10]
  · rw [hd]; simp only [show (9 : ℤ) - 8 = 1 by norm_num, oi, a10]
  · rw [k]
    simp only [F64.div]
    norm_num
    have h := k; unfold F64.ofNat at h; norm_num at h; exact h

section
variable (shaFeat : ShaHw → Bool) (aesFeat : AesHw → Bool) (sse2 : Bool)

/-- A derivation of the measurement succeeds. -/
theorem exDerive {m : Machine} (hm : m = exMachine shaFeat aesFeat sse2) (sm : Option SmixImpl) (N : W64) (hN : N = 16 ∨ N = 128) :
    ∃ r, crypto_scrypt m.szMax m.sse2 exFastEnv.kdf1 exFastEnv.kdf2 okEnv (shaTransform m.bestSha) exFastEnv.junkHmac exFastEnv.junkTest smixImpl sm [] [] N 1 1 [] 0 =
      .ok r ∧ r.1.rc = 0 := by
  have gm := exMachine_good shaFeat aesFeat sse2
  rw [← hm] at gm
  obtain ⟨r, hr⟩ := crypto_scrypt_returns gm exFastEnv_good exFastEnv_ready m.bestSha okEnv okEnv_sized sm [] [] N 1 1 [] 0 (by simp) (by omega)
  refine ⟨r, hr, ?_⟩
  obtain ⟨o, st'⟩ := r
  obtain ⟨f, -, -, hi⟩ := call_inv hr
  have hsz : m.szMax = 2 ^ 64 - 1 := by rw [hm]; rfl
  rcases internal_total m.szMax gm.sz okEnv okEnv_sized _ (goodTf m.bestSha) exFastEnv.junkHmac exFastEnv_good.junkHmac _ (goodSmix f) [] [] N 1 1 [] 0 (by simp) (by omega) with
    ⟨c, _⟩ | ⟨_, ⟨d, _⟩ | ⟨_, h1⟩⟩
  · refine absurd ?_ c
    rw [hsz]
    rcases hN with rfl | rfl
    · exact ⟨by decide, by decide, by decide, ⟨4, by decide, by decide, by decide⟩, by decide, by decide, by decide, by decide⟩
    · exact ⟨by decide, by decide, by decide, ⟨7, by decide, by decide, by decide⟩, by decide, by decide, by decide, by decide⟩
  · rcases d with d | d | d <;> exact absurd d (Option.some_ne_none _)
  · rw [hi] at h1
    cases h1
    rfl

theorem exLoop2 {m : Machine} (hm : m = exMachine shaFeat aesFeat sse2) : ∀ (k i : Nat) (sm : Option SmixImpl),
    ∃ sm', perfLoopL m exFastEnv (shaTransform m.bestSha) 128 ⟨8, 0⟩ (fin false 0) i
      (List.replicate k ⟨okEnv, ⟨.time 8 0, .fail⟩⟩ ++ [⟨okEnv, ⟨.time 9 0, .fail⟩⟩]) sm = .ok (.done (fin false 1) (i + k + 1), sm')
  | 0, i, sm => by
    obtain ⟨r, h1, h2⟩ := exDerive shaFeat aesFeat sse2 hm sm 128 (.inr rfl)
    refine ⟨r.2, ?_⟩
    rw [List.replicate_zero, List.nil_append]
    unfold perfLoopL
    rw [show (⟨okEnv, ⟨.time 9 0, .fail⟩⟩ : PerfEnv).kdf = okEnv from rfl, h1, Res.bind_ok, if_neg (by rw [h2]; simp)]
    have hc : m.clk = ⟨true, true⟩ := by rw [hm]; rfl
    rw [hc, exClock.2.2.2.1]
    simp only []
    rw [if_pos (by simp [F64.lt, val])]
  | k + 1, i, sm => by
    obtain ⟨r, h1, h2⟩ := exDerive shaFeat aesFeat sse2 hm sm 128 (.inr rfl)
    obtain ⟨sm', h3⟩ := exLoop2 hm k (i + 1) r.2
    refine ⟨sm', ?_⟩
    rw [List.replicate_succ, List.cons_append]
    unfold perfLoopL
    rw [show (⟨okEnv, ⟨.time 8 0, .fail⟩⟩ : PerfEnv).kdf = okEnv from rfl, h1, Res.bind_ok, if_neg (by rw [h2]; simp)]
    have hc : m.clk = ⟨true, true⟩ := by rw [hm]; rfl
    rw [hc, exClock.2.1]
    simp only []
    rw [if_neg (by simp [F64.lt]), h3, show i + 1 + k + 1 = i + (k + 1) + 1 by omega]

/-- The speed measured: 8192 operations per second. -/
theorem exSpeed {m : Machine} (hm : m = exMachine shaFeat aesFeat sse2) (sm : Option SmixImpl) :
    ∃ sm', cpuperfL m exFastEnv (shaTransform m.bestSha) sm = .ok (some (.OK, fin false 8192), sm') := by
  obtain ⟨c1, c2, c3, c4, c5⟩ := exClock
  have hc : m.clk = ⟨true, true⟩ := by rw [hm]; rfl
  have hcps : m.clocksPerSec = 1000000 := by rw [hm]; rfl
  obtain ⟨r, h1, h2⟩ := exDerive shaFeat aesFeat sse2 hm sm 16 (.inl rfl)
  obtain ⟨sm', h3⟩ := exLoop2 shaFeat aesFeat sse2 hm 15 0 r.2
  refine ⟨sm', ?_⟩
  have z : F64.ofNat 0 = fin false 0 := by
    have := ofNat_small (n := 0) (by norm_num); exact_mod_cast this
  unfold cpuperfL
  rw [hcps, hc, show exFastEnv.res = ⟨.time 0 0, .fail⟩ from rfl, c1]
  simp only []
  rw [show monoclock_get ⟨true, true⟩ exFastEnv.start1 = some ⟨7, 0⟩ from rfl]
  simp only []
  rw [show exFastEnv.steps1 = [⟨okEnv, ⟨.time 8 0, .fail⟩⟩] from rfl]
  unfold perfLoopL
  rw [show (⟨okEnv, ⟨.time 8 0, .fail⟩⟩ : PerfEnv).kdf = okEnv from rfl, h1, Res.bind_ok, if_neg (by rw [h2]; simp), hc, c3]
  simp only []
  rw [z, if_pos (by simp [F64.lt, val]), Res.bind_ok]
  simp only []
  unfold perfPhase2L
  rw [hc, show monoclock_get ⟨true, true⟩ exFastEnv.start2 = some ⟨8, 0⟩ from rfl]
  simp only []
  rw [show exFastEnv.steps2 = List.replicate 15 ⟨okEnv, ⟨.time 8 0, .fail⟩⟩ ++ [⟨okEnv, ⟨.time 9 0, .fail⟩⟩] from rfl, h3, Res.bind_ok]
  simp only []
  rw [show 512 * (0 + 15 + 1) % 2 ^ 64 = 8192 by norm_num, c5]

theorem exMeasures {c : Code} {x : F64} (h : Measures (exMachine shaFeat aesFeat sse2) exFastEnv c x) : c = .OK ∧ x = fin false 8192 := by
  obtain ⟨sm, sm', h⟩ := h
  obtain ⟨sm2, h2⟩ := exSpeed shaFeat aesFeat sse2 rfl sm
  rw [h2] at h
  obtain ⟨e, -⟩ := Prod.mk.inj (Res.ok.inj h)
  obtain ⟨rfl, rfl⟩ := Prod.mk.inj (Option.some.inj e)
  exact ⟨rfl, rfl⟩


/-- What a call's code depends on. -/
def fastCode (sys : EncSys) : Code :=
  if sys.par.perf.1 = .OK then (if sys.salt = none then .ESALT else if aesAvail sys = true then .OK else .EOPENSSL) else .ECLOCK

/-- A call that asks for the speed, for a salt and for AES, and for nothing else, gets them. -/
theorem exFast {m : Machine} (hm : m = exMachine shaFeat aesFeat sse2) {α : Type} (f : EncSys → Res α) (rc : α → Code) (smix : α → Option SmixImpl)
    (code : ∀ sys, Answered m exFastEnv sys → ∃ o, f sys = .ok o ∧ rc o = fastCode sys) :
    ∃ o st' sys, withAnswers m exFastEnv (Statics.initial [exSeed]) f rc smix = .ok (some (o, st')) ∧ Answered m exFastEnv sys ∧ f sys = .ok o ∧
      sys.par.perf.1 = .OK ∧ sys.salt ≠ none ∧ aesAvail sys = true := by
  have gm := exMachine_good shaFeat aesFeat sse2
  rw [← hm] at gm
  have hi := StInv.initial m [exSeed]
  unfold withAnswers answers
  rw [hi.sha_init, Res.bind_ok]
  have code' : ∀ sys, Answered m exFastEnv sys → (fun sys => f sys >>= fun o => Res.ok (rc o)) sys = .ok (fastCode sys) := by
    intro sys a
    obtain ⟨o, e1, e2⟩ := code sys a
    simp only [e1, Res.bind_ok, e2]
  generalize (fun sys => f sys >>= fun o => Res.ok (rc o)) = F at code' ⊢
  have hb := baseSys_answered gm exFastEnv_good (Statics.initial [exSeed]).smix
  generalize hsys : baseSys m exFastEnv m.bestSha (Statics.initial [exSeed]).smix = sys0 at hb ⊢
  have e0 := code' sys0 hb
  rw [show fastCode sys0 = .ECLOCK by rw [← hsys]; rfl] at e0
  obtain ⟨sm', hsp⟩ := exSpeed shaFeat aesFeat sse2 hm sys0.smix
  have f0 : askPerf m exFastEnv F sys0 = .ok (some { sys0 with par := { sys0.par with perf := (.OK, fin false 8192) }, smix := sm' }) := by
    unfold askPerf
    rw [e0, show sys0.tf = shaTransform m.bestSha by rw [← hsys]; rfl, hsp, Res.bind_ok]
    rfl
  obtain ⟨ha, hsalt⟩ := askPerf_answered hb f0
  rw [f0, Res.bind_ok]
  simp only [] at ha hsalt ⊢
  generalize hsys1 : ({ sys0 with par := { sys0.par with perf := (.OK, fin false 8192) }, smix := sm' } : EncSys) = sys at ha ⊢
  have e1 := code' sys ha
  have hpf : sys.par.perf.1 = .OK := by rw [← hsys1]
  have hsn : sys.salt = none := by rw [← hsys1, ← hsys]; rfl
  rw [show fastCode sys = .ESALT by unfold fastCode; rw [if_pos hpf, if_pos hsn]] at e1
  obtain ⟨r, r1, r2, r3⟩ := exRead shaFeat aesFeat sse2 m hm
  have htf : sys.tf = shaTransform m.bestSha := by rw [← hsys1, ← hsys]; rfl
  have f2 : askSalt m exFastEnv F sys
      { Statics.initial [exSeed] with sha := some m.bestSha } =
      .ok (some ({ sys with salt := some r.buf }, { Statics.initial [exSeed] with sha := some m.bestSha, drbg := r.st, seeds := r.rest })) := by
    unfold askSalt
    rw [e1, htf]
    rw [if_pos (by decide), show (⟨shaTransform m.bestSha, m.drbgJunk, m.rdrand⟩ : DrbgSys) = m.drbgSys from rfl,
      show exFastEnv.salt0 = List.replicate 32 0 from rfl]
    simp only [Statics.initial]
    rw [r1, Res.bind_ok]
    simp only [r2, if_true]
  obtain ⟨b1, b2, -, -, b3⟩ := askSalt_answered gm exFastEnv_good ha hsn (st := { Statics.initial [exSeed] with sha := some m.bestSha })
    ⟨.inr rfl, hi.drbg⟩ f2
  rw [f2, Res.bind_ok]
  simp only []
  have e1 := code' _ b1
  rw [show fastCode { sys with salt := some r.buf } = .EOPENSSL by
    unfold fastCode
    rw [if_pos hpf, if_neg (by simp), if_neg (by rw [← hsys1, ← hsys]; simp [aesAvail, baseSys])]] at e1
  obtain ⟨hw, hhw⟩ : ∃ hw, aes_hwaccel_init m.aesFeat exFastEnv.aesTestMem exFastEnv.aesTestSet m.ossl none = .ok hw :=
    ⟨_, C43_aes_never_aborts m.aesFeat _ (by rfl) m.ossl gm.ossl⟩
  generalize hst : ({ Statics.initial [exSeed] with sha := some m.bestSha, drbg := r.st, seeds := r.rest } : Statics) = st2 at b1 b2 b3 ⊢
  generalize hsys2 : { sys with salt := some r.buf } = sys2 at b1 b3 e1 ⊢
  have f3 : askAes m exFastEnv F sys2 st2 =
      .ok ({ sys2 with aesHw := hw, aes := exFastEnv.aes }, { st2 with aes := some hw }) := by
    unfold askAes
    rw [e1, if_pos (by decide), show st2.aes = none by rw [← hst]; rfl, hhw, Res.bind_ok]
  obtain ⟨c1, -⟩ := askAes_answered gm exFastEnv_good b1 b2 f3
  rw [f3, Res.bind_ok, Res.bind_ok]
  simp only [] at c1 ⊢
  obtain ⟨o, e1, -⟩ := code _ c1
  rw [show f _ = _ from e1, Res.bind_ok]
  refine ⟨o, _, _, rfl, c1, e1, ?_, by rw [← hsys2]; simp, by unfold aesAvail; cases hw <;> rfl⟩
  rw [← hsys2]; exact hpf

/-- A call that does not ask for a salt does not wait. -/
theorem exFast_ends {m : Machine} (hm : m = exMachine shaFeat aesFeat sse2) {α : Type} {f : EncSys → Res α} {rc : α → Code} {smix : α → Option SmixImpl}
    (ht : ∀ sys, Answered m exFastEnv sys → ∃ o, f sys = .ok o ∧ rc o ≠ .ESALT) {x : Option (α × Statics)}
    (h : withAnswers m exFastEnv (Statics.initial [exSeed]) f rc smix = .ok x) : x ≠ none := by
  have gm := exMachine_good shaFeat aesFeat sse2
  rw [← hm] at gm
  have hi := StInv.initial m [exSeed]
  unfold withAnswers answers at h
  rw [hi.sha_init, Res.bind_ok] at h
  have hr : ∀ sys, Answered m exFastEnv sys → reports ((fun sys => f sys >>= fun o => Res.ok (rc o)) sys) .ESALT = false := by
    intro sys a
    obtain ⟨o, h1, h2⟩ := ht _ a
    simp only [h1, Res.bind_ok, reports, decide_eq_false_iff_not]
    exact h2
  generalize (fun sys => f sys >>= fun o => Res.ok (rc o)) = f' at h hr
  have hb := baseSys_answered gm exFastEnv_good (Statics.initial [exSeed]).smix
  obtain ⟨z, hz, h⟩ := Res.bind_eq_ok.1 h
  obtain ⟨y, hy, hz⟩ := Res.bind_eq_ok.1 hz
  cases y with
  | none =>
    unfold askPerf at hy
    split at hy
    · obtain ⟨sm', hsp⟩ := exSpeed shaFeat aesFeat sse2 hm (Statics.initial [exSeed]).smix
      rw [show (baseSys m exFastEnv m.bestSha (Statics.initial [exSeed]).smix).tf = shaTransform m.bestSha from rfl,
        show (baseSys m exFastEnv m.bestSha (Statics.initial [exSeed]).smix).smix = (Statics.initial [exSeed]).smix from rfl, hsp] at hy
      cases hy
    · cases hy
  | some y =>
    obtain ⟨ha, -⟩ := askPerf_answered hb hy
    simp only [] at hz
    unfold askSalt at hz
    rw [hr _ ha, if_neg (by simp), Res.bind_ok] at hz
    simp only [] at hz
    obtain ⟨y, -, hz⟩ := Res.bind_eq_ok.1 hz
    rw [← Res.ok.inj hz] at h
    obtain ⟨o, -, h⟩ := Res.bind_eq_ok.1 h
    rw [← Res.ok.inj h]
    exact Option.some_ne_none _

/-! ### The requests -/

/-- scrypt enc --passphrase env:PW in out -/
def exArgsE : List CStr := ["enc", "--passphrase", "env:PW", "in", "out"].map String.toList
def exRequestE : Spec.Request := ⟨.enc, false, false, 0, .fin false (1 / 8), .fin false 5, 0, 0, 0, .env, "PW".toList, some "in".toList, some "out".toList⟩
/-- scrypt dec --passphrase env:PW out back -/
def exArgsD : List CStr := ["dec", "--passphrase", "env:PW", "out", "back"].map String.toList
def exRequestD : Spec.Request := ⟨.dec, false, false, 0, .fin false (1 / 2), .fin false 300, 0, 0, 0, .env, "PW".toList, some "out".toList, some "back".toList⟩
def exEvsD : List OptEv := [.arg "--passphrase".toList "env:PW".toList]

theorem exRequestsE (sd : Strtod) (szMax : Nat) : Requests sd szMax exArgsE exRequestE := by
  refine ⟨exArgsE.tail, exEvsD, ["in".toList, "out".toList], rfl, ?_, ?_⟩
  · refine .longArg (n := "passphrase".toList) (by decide) (by decide) ?_
    exact .operand (by decide)
  have none : ∀ {α : Type} {o : CStr} {V : CStr → α → Prop} {d : α}, valuesOf o exEvsD = [] → Sets o exEvsD V d d := by
    intro α o V d h
    unfold Sets
    rw [h]
    exact ⟨by simp, rfl⟩
  refine ⟨?_, ?_, ?_, none (by decide), none (by decide), none (by decide), none (by decide), none (by decide), none (by decide), ?_, ?_, ?_, ?_, ?_⟩
  · intro e he
    rw [List.mem_singleton.1 (show e ∈ [OptEv.arg "--passphrase".toList "env:PW".toList] from he)]
    exact .inr ⟨_, _, rfl⟩
  · exact iff_of_false (by decide) (by decide)
  · exact iff_of_false (by decide) (by decide)
  · exact .method (v := "env:PW".toList) (.env "PW".toList)
  · exact .inl ⟨by decide, by decide, by decide⟩
  · intro s h
    have := (F64.fin.inj h).2
    norm_num at this
  · exact ⟨"in".toList, .inr ⟨"out".toList, rfl, rfl⟩, by decide⟩
  · exact fun h => absurd h.1 (by decide)

theorem exRequestsD (sd : Strtod) (szMax : Nat) : Requests sd szMax exArgsD exRequestD := by
  refine ⟨exArgsD.tail, exEvsD, ["out".toList, "back".toList], rfl, ?_, ?_⟩
  · refine .longArg (n := "passphrase".toList) (by decide) (by decide) ?_
    exact .operand (by decide)
  have none : ∀ {α : Type} {o : CStr} {V : CStr → α → Prop} {d : α}, valuesOf o exEvsD = [] → Sets o exEvsD V d d := by
    intro α o V d h
    unfold Sets
    rw [h]
    exact ⟨by simp, rfl⟩
  refine ⟨?_, ?_, ?_, none (by decide), none (by decide), none (by decide), none (by decide), none (by decide), none (by decide), ?_, ?_, ?_, ?_, ?_⟩
  · intro e he
    rw [List.mem_singleton.1 (show e ∈ [OptEv.arg "--passphrase".toList "env:PW".toList] from he)]
    exact .inr ⟨_, _, rfl⟩
  · exact iff_of_false (by decide) (by decide)
  · exact iff_of_false (by decide) (by decide)
  · exact .method (v := "env:PW".toList) (.env "PW".toList)
  · exact .inl ⟨by decide, by decide, by decide⟩
  · intro s h
    have := (F64.fin.inj h).2
    norm_num at this
  · exact ⟨"out".toList, .inr ⟨"back".toList, rfl, rfl⟩, by decide⟩
  · exact fun h => absurd h.1 (by decide)

theorem exArgsE_nonul : NoNul exArgsE := by unfold NoNul; decide
theorem exArgsD_nonul : NoNul exArgsD := by unfold NoNul; decide

theorem exSessionE (segs : List Bytes) : Session (exMain .software .software "in".toList segs) exRequestE [0x68, 0x69] ⟨segs, false⟩ :=
  ⟨_, rfl, rfl, .file (n := "in".toList) rfl (by simp [exMain])⟩
theorem exSessionD (segs : List Bytes) : Session (exMain .software .software "out".toList segs) exRequestD [0x68, 0x69] ⟨segs, false⟩ :=
  ⟨_, rfl, rfl, .file (n := "out".toList) rfl (by simp [exMain])⟩

/-! ### The encryption -/

set_option exponentiation.threshold 1100 in
/-- The code of an encryption with the default limits. -/
theorem exDefault_code {m : Machine} (hm : m = exMachine shaFeat aesFeat sse2) {sys : EncSys} (a : Answered m exFastEnv sys) (segs : List Bytes) (passwd : Bytes)
    (h1 : segs.flatten.length + 128 < 2 ^ 64) :
    ∃ o, scryptenc_file sys ⟨segs, false⟩ ⟨[], none⟩ passwd exRequestE.params false false = .ok o ∧ o.rc = fastCode sys := by
  have gm := exMachine_good shaFeat aesFeat sse2
  rw [← hm] at gm
  have p0 : exRequestE.params.logN = 0 := rfl
  have pt : exRequestE.params.maxtime = fin false 5 := rfl
  have pf : exRequestE.params.maxmemfrac = fin false (1 / 8) := rfl
  have pm : exRequestE.params.maxmem = 0 := rfl
  have pz : (exRequestE.params.zero || exRequestE.params.nonzero) = true := rfl
  generalize exRequestE.params = P at p0 pt pf pm pz ⊢
  have g := a.good
  have hin : (⟨segs, false⟩ : InFile).data.length < 2 ^ 64 := by show segs.flatten.length < 2 ^ 64; omega
  have hlim : EncLimitsOk sys P false false := a.encLimits gm exFastEnv_ready (fun h => absurd p0 h)
    (fun _ => ⟨⟨fun _ => ⟨1 / 8, pf, by norm_num, by norm_num, rep_eighth⟩, by simp⟩, by rw [pt]; simp⟩)
  obtain ⟨o, h⟩ := encFile_total g (a.ready exFastEnv_ready) (inf := ⟨segs, false⟩) (outf := ⟨[], none⟩) (passwd := passwd) hin pz hlim
  refine ⟨o, h, ?_⟩
  obtain ⟨ml, hml⟩ : ∃ ml, memtouse sys.par.szMax sys.par.cfg sys.par.mem P.maxmem P.maxmemfrac = .ok (some ml) := by
    rw [a.szMax, a.cfg, a.mem, hm, pm, pf]; exact exSys_mem
  have hc := (C60_file g hin (fun h => absurd p0 h) h).1
  rw [hc]
  unfold encChecks autoChecks streamChecks aesChecks
  rw [if_neg (not_not.2 p0)]
  simp only [List.cons_append, List.nil_append]
  rw [firstFail_cons ⟨ml, hml⟩]
  unfold fastCode
  by_cases hp : sys.par.perf.1 = .OK
  case neg =>
    rw [if_neg hp, firstFail_stop hp]
    rcases a.perf with e | ⟨sm, sm', e⟩
    · rw [e]
    · refine absurd ?_ hp
      obtain ⟨sm2, e2⟩ := exSpeed shaFeat aesFeat sse2 hm sm
      rw [e] at e2
      rw [Option.some.inj (Prod.mk.inj (Res.ok.inj e2)).1]
  rw [if_pos hp, firstFail_cons hp]
  by_cases hs : sys.salt = none
  · rw [if_pos hs]; exact firstFail_stop (by simp [hs])
  rw [if_neg hs, firstFail_cons hs]
  obtain ⟨s, hset, b1, -⟩ := encFile_spec g hin h
  obtain ⟨c, hcs, -, -⟩ := encSetup_spec g hset
  have hmul : F64.mul sys.par.perf.2 P.maxtime ≠ nan := by
    obtain ⟨v, e1, e2⟩ := a.rate gm exFastEnv_ready hp
    rw [e1]; exact mul_time (by rw [pt]; simp) e2
  have hcok : c = .OK := by
    obtain ⟨out, e1, e2⟩ := C11_total sys.par g.sz P.maxmem P.maxmemfrac P.maxtime false hml hp hmul (by simp)
    unfold setupParams at hcs
    rw [if_neg (not_not.2 p0), e1, Res.bind_ok] at hcs
    cases hv : out.val with
    | none => rw [hv] at hcs; rw [← e2]; exact (Prod.mk.inj (Res.ok.inj hcs)).1.symm
    | some v => rw [hv] at hcs; rw [← e2]; exact (Prod.mk.inj (Res.ok.inj hcs)).1.symm
  subst hcok
  obtain ⟨m', l, a1, a2, a3, a4, a5, -⟩ := setup_picked g p0 hcs
  rw [← b1] at a2 a3 a4
  have hml2 : m' < 2 ^ 28 := by
    rw [a.szMax, a.cfg, a.mem, hm, pm, pf] at a1
    have hv : (fin false (1 / 8)).Valid := ⟨rep_eighth, by norm_num⟩
    obtain ⟨q, hq, -, -, -, -, -, k2⟩ := C17_bounds (Or.inr rfl) _ _ _ _ hv a1
    obtain ⟨-, rfl⟩ := F64.fin.inj hq
    have h3 := k2 (2 ^ 30) (Or.inl ⟨rfl, _, rfl, by decide⟩)
    have h4 : (m' : ℚ) < 2 ^ 28 := by refine lt_of_le_of_lt h3 ?_; norm_num
    exact_mod_cast h4
  have hN : 2 ^ o.P.logN.toNat = 2 ^ l := by rw [a2]; rfl
  have hmem : 128 * 2 ^ l * 8 < 2 ^ 28 := by have := a5; unfold memNeed at this; omega
  have hp := a4
  unfold GoodParams at hp
  have hk : KdfOk sys (2 ^ o.P.logN.toNat) o.P.r.toNat o.P.p.toNat := by
    rw [hN, a3]
    unfold KdfOk
    rw [a.szMax, a.kdf, hm]
    refine ⟨⟨by norm_num, hp.2.2.2.1, by omega, ⟨l, rfl, by omega, by omega⟩, by omega, ?_, ?_, ?_⟩, Option.some_ne_none _, Option.some_ne_none _, Option.some_ne_none _, rfl⟩
    · show 128 * 8 * o.P.p.toNat ≤ 2 ^ 64 - 1; omega
    · show 256 * 8 + 64 ≤ 2 ^ 64 - 1; norm_num
    · show 128 * 8 * 2 ^ l ≤ 2 ^ 64 - 1; omega
  rw [firstFail_cons hk, firstFail_cons (show Fits ⟨[], none⟩ 96 by intro k hk; cases hk)]
  by_cases ha : aesAvail sys = true
  · rw [if_pos ha, firstFail_cons ha, firstFail_cons (by rw [a.ctr]; exact Option.some_ne_none _), firstFail_cons (by intro k hk; cases hk),
      firstFail_cons trivial, firstFail_cons (by intro k hk; cases hk)]
    rfl
  · rw [if_neg ha]
    exact firstFail_stop ha


theorem exFastNormal (a : ShaHw → Bool) (b : AesHw → Bool) (c : Bool) (name : CStr) (segs : List Bytes) (args : List CStr) (h : NoNul args) :
    Normal (exMachine a b c) exFastEnv (exMain .software .software name segs) ("scrypt".toList :: args) where
  machine := exMachine_good a b c
  call := exFastEnv_good
  malloc := rfl
  strtod := fun _ => trivial
  disp := ⟨rfl, rfl⟩
  argv := fun x hx => by
    rcases List.mem_cons.1 hx with rfl | hx
    · decide
    · exact h x hx

/-- The utility, as a process with default options, encrypts any file. -/
theorem exUtilityE (segs : List Bytes) (hlen : segs.flatten.length + 128 < 2 ^ 64) :
    ∃ o, utility (exMachine shaFeat aesFeat sse2) exFastEnv [exSeed] (exMain .software .software "in".toList segs) ("scrypt".toList :: exArgsE) = .ok (some o) ∧
      o.exit = 0 := by
  generalize hm : exMachine shaFeat aesFeat sse2 = m
  have hm := hm.symm
  have run : ∀ sys, Answered m exFastEnv sys → ∃ mo, scryptMain { exMain .software .software "in".toList segs with sys := sys } ("scrypt".toList :: exArgsE) =
      .ok (some (toExit mo)) ∧ ∃ of, (mo.ok = true ↔ of = Code.OK) ∧ codeOf (some (toExit mo)) = askedCode of ∧ of = fastCode sys := by
    intro sys a
    obtain ⟨of, e1, e2⟩ := exDefault_code shaFeat aesFeat sse2 hm a segs [0x68, 0x69] hlen
    generalize henv : ({ exMain .software .software "in".toList segs with sys := sys } : MainEnv) = env
    have hsys : env.sys = sys := by rw [← henv]
    have hs : Session env exRequestE [0x68, 0x69] ⟨segs, false⟩ := by
      rw [← henv]; exact (exSessionE segs).with_sys sys
    have ho : openOutput env exRequestE.outfile = some ⟨[], none⟩ := by rw [← henv]; rfl
    have ht : truncated env exRequestE.outfile ⟨segs, false⟩ = ⟨segs, false⟩ := by rw [← henv]; rfl
    have hacc := C33_accepted env (by rw [← henv]; rfl) (by rw [hsys, a.szMax, hm]; show 2 ^ 64 - 1 < 2 ^ 64; norm_num) "scrypt".toList exArgsE
      exArgsE_nonul exRequestE (exRequestsE _ _)
    obtain ⟨mo, hmo⟩ : ∃ mo, operate env exRequestE ⟨segs, false⟩ [0x68, 0x69] = .ok mo := by
      rw [operate_enc rfl]
      unfold encRun
      rw [ho]
      simp only []
      rw [ht, hsys]
      rw [show exRequestE.verbose = false from rfl, show exRequestE.force = false from rfl, e1, Res.bind_ok]
      obtain ⟨mo, hmo, -⟩ := cleanup_ok (env := env) (i := exRequestE.infile) (u := exRequestE.outfile)
        (ev := openInputEv env exRequestE.infile ++ [.gotPass] ++ openOutputEv env exRequestE.outfile ++ of.tr.map .key) (msgs := of.err.map .lib) (ck := false)
        (op := exRequestE.outfile.isSome) (rc := of.rc) (out := of.outf.written)
      exact ⟨mo, hmo⟩
    have hperf : perform env exRequestE = .ok (some (toExit mo)) := by
      rw [perform_session (by decide) hs, hmo, Res.bind_ok]
    rw [operate_enc rfl] at hmo
    obtain ⟨of', f1, f2⟩ := codeOf_enc ho hmo
    obtain ⟨of'', f3, f4, -⟩ := encRun_file ho hmo
    rw [ht, hsys, show exRequestE.verbose = false from rfl, show exRequestE.force = false from rfl, e1] at f1 f3
    have f1 := Res.ok.inj f1
    have f3 := Res.ok.inj f3
    rw [← f1] at f2
    rw [← f3] at f4
    exact ⟨mo, by rw [hacc, hperf], of.rc, f4, f2, e2⟩
  obtain ⟨o, st', sys, k1, k2, k3, k4, k5, k6⟩ := exFast shaFeat aesFeat sse2 hm
    (fun sys => scryptMain { exMain .software .software "in".toList segs with sys := sys } ("scrypt".toList :: exArgsE)) codeOf (fun _ => none) (by
      intro sys a
      obtain ⟨mo, h1, of, -, h2, h3⟩ := run sys a
      refine ⟨_, h1, ?_⟩
      rw [h2, h3]
      unfold fastCode
      split_ifs <;> decide)
  obtain ⟨mo, h1, of, h2, -, h3⟩ := run sys k2
  unfold fastCode at h3
  rw [if_pos k4, if_neg k5, if_pos k6] at h3
  have k3 : scryptMain { exMain .software .software "in".toList segs with sys := sys } ("scrypt".toList :: exArgsE) = .ok o := k3
  rw [h1] at k3
  have k3 := Res.ok.inj k3
  refine ⟨toExit mo, ?_, exit_eq.2 (h2.2 h3)⟩
  unfold utility
  rw [k1, Res.bind_ok, ← k3]
  rfl

theorem exEncryptedE (segs : List Bytes) (hlen : segs.flatten.length + 128 < 2 ^ 64) :
    ∃ D, Encrypted (exMachine shaFeat aesFeat sse2) exFastEnv [exSeed] (exMain .software .software "in".toList segs) "scrypt".toList exArgsE exRequestE [0x68, 0x69]
      segs.flatten D := by
  obtain ⟨o, h1, h2⟩ := exUtilityE shaFeat aesFeat sse2 segs hlen
  exact ⟨o.out, ⟨exFastNormal _ _ _ _ _ _ exArgsE_nonul, exRequestsE _ _, rfl, fun _ _ _ => rfl, hlen, ⟨segs, false⟩, o, exSessionE segs, rfl, h1, h2, rfl⟩⟩

end

theorem firstFail_mem {C : Type} {ok : C} : ∀ {l : List (Prop × C)}, firstFail ok l = ok ∨ ∃ x ∈ l, firstFail ok l = x.2
  | [] => .inl rfl
  | (c, e) :: l => by
    by_cases hc : c
    · rw [firstFail_cons hc]
      rcases firstFail_mem (ok := ok) (l := l) with h | ⟨x, h1, h2⟩
      · exact .inl h
      · exact .inr ⟨x, List.mem_cons_of_mem _ h1, h2⟩
    · rw [firstFail_stop hc]
      exact .inr ⟨_, List.mem_cons_self, rfl⟩

/-- No decryption reports a failure to read a salt. -/
theorem dec_no_salt {sys : EncSys} (g : sys.Good) (hp : sys.par.perf.1 ≠ .ESALT) {inf : InFile} {outf : OutFile} {passwd : Bytes} (hin : inf.data.length < 2 ^ 64)
    {P : EncParams} {verbose force : Bool} (hl : LimitsOk sys P verbose force) {o : FileOut} (h : scryptdec_file sys inf outf passwd P verbose force = .ok o) :
    o.rc ≠ .ESALT := by
  rw [(decFile_spec g hin h).1]
  have h1 : prepVerdict sys inf passwd P verbose force ≠ .ESALT := by
    rw [prepVerdict_table g hl]
    rcases firstFail_mem (ok := Code.OK) (l := prepChecks sys passwd P force inf.data inf.err) with h | ⟨x, h1, h2⟩
    · rw [h]; decide
    · rw [h2]
      unfold prepChecks limitTable at h1
      simp only [List.cons_append, List.nil_append, List.mem_cons, List.not_mem_nil, or_false] at h1
      rcases h1 with rfl | rfl | rfl | rfl | rfl | rfl | rfl | rfl | rfl | rfl | rfl | rfl | rfl | rfl <;> first | exact hp | exact (by decide : (_ : Code) ≠ .ESALT) | (simp only []; first | decide | (split <;> decide))
  split
  · exact h1
  · unfold copyVerdict aesCode
    split_ifs <;> decide

/-- Non-vacuity for C84: with the default options, `scrypt enc in out` on one machine and `scrypt dec out back` on another, in which the program measures
8192 operations per second and 1 GiB of memory is available, give the file back. -/
theorem exDefaults (shaFeat shaFeat' : ShaHw → Bool) (aesFeat aesFeat' : AesHw → Bool) (sse2 sse2' : Bool) (segs : List Bytes)
    (hlen : segs.flatten.length + 128 < 2 ^ 64) :
    ∃ D o, Encrypted (exMachine shaFeat aesFeat sse2) exFastEnv [exSeed] (exMain .software .software "in".toList segs) "scrypt".toList exArgsE exRequestE [0x68, 0x69]
        segs.flatten D ∧
      Decrypted (exMachine shaFeat' aesFeat' sse2') exFastEnv [exSeed] (exMain .software .software "out".toList [D]) "scrypt".toList exArgsD exRequestD [0x68, 0x69]
        D ⟨[D], false⟩ o ∧ o.exit = 0 ∧ o.out = segs.flatten := by
  obtain ⟨D, hA⟩ := exEncryptedE shaFeat aesFeat sse2 segs hlen
  have n := exFastNormal shaFeat' aesFeat' sse2' "out".toList [D] exArgsD exArgsD_nonul
  have hD : D.length = segs.flatten.length + 128 := by
    obtain ⟨sA, -, salt, l, r, p, aA, -, -, h32, hg, hr, hpp, hD, hk⟩ := hA.container
    have hC := container_fields (scryptCode [0x68, 0x69] salt (2 ^ l) r p 64) l r p salt segs.flatten h32 (by have := hg.2.1; omega) hr hpp
    rw [← hD] at hC
    exact hC.len
  have hD1 : ([D] : List Bytes).flatten = D := by simp
  have hs := exSessionD [D]
  have hp : PlentyU exFastEnv (exMain .software .software "out".toList [D]) exRequestD ⟨[D], false⟩ segs.flatten.length :=
    ⟨fun _ => ⟨Option.some_ne_none _, Option.some_ne_none _, Option.some_ne_none _⟩, rfl, ⟨Option.some_ne_none _, rfl⟩, Option.some_ne_none _, rfl, rfl, ⟨[], none⟩, rfl,
      (by intro k hk; cases hk)⟩
  have hreq := exRequestsD (exMain .software .software "out".toList [D]).sd (exMachine shaFeat' aesFeat' sse2').szMax
  have half : ∃ q : ℚ, exRequestD.params.maxmemfrac = fin false q ∧ 0 < q ∧ q ≤ 1 / 2 ∧ F64.Rep q :=
    ⟨1 / 2, rfl, by norm_num, le_rfl, ⟨1, -1, by norm_num, by norm_num, by norm_num⟩⟩
  have run : ∀ sys, Answered (exMachine shaFeat' aesFeat' sse2') exFastEnv sys →
      ∃ o, scryptMain { exMain .software .software "out".toList [D] with sys := sys } ("scrypt".toList :: exArgsD) = .ok (some o) ∧ codeOf (some o) ≠ .ESALT := by
    intro sys a
    have hl : LimitsOk sys exRequestD.params exRequestD.verbose exRequestD.force := a.limits ⟨fun _ => half, fun _ => n.disp⟩
    have hps : sys.par.perf.1 ≠ .ESALT := by
      rcases a.perf with e | ⟨sm, sm', e⟩
      · rw [e]; decide
      · obtain ⟨sm2, e2⟩ := exSpeed shaFeat' aesFeat' sse2' rfl sm
        rw [e] at e2
        rw [Option.some.inj (Prod.mk.inj (Res.ok.inj e2)).1]; decide
    generalize henv : ({ exMain .software .software "out".toList [D] with sys := sys } : MainEnv) = env
    have hsys : env.sys = sys := by rw [← henv]
    have hs : Session env exRequestD [0x68, 0x69] ⟨[D], false⟩ := by
      rw [← henv]; exact hs.with_sys sys
    have ho : openOutput env exRequestD.outfile = some ⟨[], none⟩ := by rw [← henv]; rfl
    have hsep : Separate env exRequestD := by rw [← henv]; exact fun _ _ _ => rfl
    have hacc := C33_accepted env (by rw [← henv]; rfl) (by rw [hsys, a.szMax]; show 2 ^ 64 - 1 < 2 ^ 64; norm_num) "scrypt".toList exArgsD
      exArgsD_nonul exRequestD (exRequestsD _ _)
    have hin : (⟨[D], false⟩ : InFile).data.length < 2 ^ 64 := by
      show ([D] : List Bytes).flatten.length < 2 ^ 64
      rw [hD1]; omega
    obtain ⟨r, hr⟩ := C35_total env (by rw [hsys]; exact a.good) (by rw [hsys]; exact a.ready exFastEnv_ready) exRequestD (by decide) hsep.neverLonger (by
        intro pw inf h
        rw [(h.unique hs).2]
        exact hin)
      (fun _ => ⟨⟨rfl, rfl, rfl⟩, by rw [hsys]; exact hl⟩) (fun h => by cases h)
    have hr' := hr
    rw [perform_session (by decide) hs] at hr'
    obtain ⟨mo, hm, hr'⟩ := Res.bind_eq_ok.1 hr'
    rw [operate_dec rfl] at hm
    obtain ⟨of, f1, f2⟩ := codeOf_decFile (by rw [hsys]; exact a.good) hsep ho hm
    rw [hsys] at f1
    refine ⟨toExit mo, by rw [hacc, hr, ← hr'], ?_⟩
    rw [f2]
    have := dec_no_salt a.good hps hin hl f1
    unfold askedCode
    split
    · exact this
    · decide
  have hfair : FairSeq false [exSeed] := exSeed_fair
  obtain ⟨r, hr⟩ := C59_no_crash n exFastEnv_ready hfair (by
    intro q hq
    cases C33_unique _ _ (by show 2 ^ 64 - 1 < 2 ^ 64; norm_num) _ _ _ hq hreq
    refine ⟨by unfold exRequestD; simp, by unfold exRequestD; simp, fun _ => rfl, fun h => (by cases h), fun _ _ _ => Nat.le_refl _, fun pw inf h => ?_⟩
    cases (h.unique hs).2
    show ([D] : List Bytes).flatten.length < 2 ^ 64
    rw [hD1]; omega)
  have hr' := hr
  unfold utility at hr'
  obtain ⟨x, hx, hr'⟩ := Res.bind_eq_ok.1 hr'
  have hne := exFast_ends shaFeat' aesFeat' sse2' rfl (fun sys a => by
    obtain ⟨o, h1, h2⟩ := run sys a
    exact ⟨some o, h1, h2⟩) hx
  cases x with
  | none => exact absurd rfl hne
  | some x =>
    obtain ⟨sys, a1, a2, -⟩ := withAnswers_full n.machine n.call (StInv.initial _ _) hx
    obtain ⟨o, h1, -⟩ := run sys a1
    have a2 : scryptMain { exMain .software .software "out".toList [D] with sys := sys } ("scrypt".toList :: exArgsD) = .ok x.1 := a2
    rw [h1] at a2
    have hro : r = some o := by rw [← Res.ok.inj hr', Option.bind_some, ← Res.ok.inj a2]
    rw [hro] at hr
    have hB : Decrypted (exMachine shaFeat' aesFeat' sse2') exFastEnv [exSeed] (exMain .software .software "out".toList [D]) "scrypt".toList exArgsD exRequestD
        [0x68, 0x69] D ⟨[D], false⟩ o := ⟨n, hreq, rfl, fun _ => (by unfold exRequestD; simp), fun _ _ _ => rfl, hs, hD1, hr⟩
    refine ⟨D, o, hA, hB, C84_defaults hA hB ⟨rfl, rfl, rfl, rfl⟩ ⟨rfl, rfl, rfl, rfl⟩ (by exact Nat.le_refl (2 ^ 64 - 1)) (exMem_noFail (by simp)) ?_ ?_ ?_ ?_ hp⟩
    · intro k hk
      exact .inr ⟨k, by omega, hk⟩
    · intro x h
      exact ⟨8192, (exMeasures _ _ _ h).2, by norm_num⟩
    · intro a y h1 h2
      refine ⟨8192, (exMeasures _ _ _ h2).2, ?_⟩
      rw [(F64.fin.inj (exMeasures _ _ _ h1).2).2]; norm_num
    · intro c y h
      exact (exMeasures _ _ _ h).1

end Scrypt.Props
