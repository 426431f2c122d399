import Verif.Props.Services
/-
C75: what the self-tests print, and what they select, on a machine whose instructions may compute anything.
-/
namespace Scrypt.Props
open Scrypt Spec

/-- The accelerated SHA-256 routines in the order of preference, with the names the messages give them. -/
def shaOrder : List (ShaHw × CStr) :=
  [(.x86_shani, "HW_X86_SHANI".toList), (.x86_sse2, "HW_X86_SSE2".toList), (.arm_sha256, "HW_ARM_SHA256".toList)]

/-- The message about an implementation that does not pass its test. -/
def disablingLine (name : CStr) : Diag := .warn0 ("Disabling ".toList ++ name ++ " due to failed self-test".toList)

/-- On the test block, the routine computes what the portable code computes. -/
def AgreesOnTest (impl : ShaHw → Transform) (h : ShaHw) : Prop := impl h initial_state hwTestBlock = impl .software initial_state hwTestBlock

/-- Going through the list `tried`: those before the selected one disagree with the portable code and a line is printed for each, the selected one agrees;
the portable code is selected if none does. -/
def Chosen (impl : ShaHw → Transform) (tried : List (ShaHw × CStr)) (said : List Diag) (r : Res ShaHw) : Prop :=
  ∃ bad rest, tried = bad ++ rest ∧ (∀ x ∈ bad, ¬ AgreesOnTest impl x.1) ∧ said = bad.map (fun x => disablingLine x.2) ∧
    ((rest = [] ∧ r = .ok .software) ∨ ∃ x more, rest = x :: more ∧ AgreesOnTest impl x.1 ∧ r = .ok x.1)

theorem chosen_step (impl : ShaHw → Transform) (hr : ∀ h, ∃ s, impl h initial_state hwTestBlock = .ok s) (on : Bool) (x : ShaHw × CStr)
    {tried : List (ShaHw × CStr)} {said : List Diag} {r : Res ShaHw} (hc : Chosen impl tried said r) :
    Chosen impl ((if on then [x] else []) ++ tried)
      (validateSaid on (hwtest (impl .software) (impl x.1) initial_state hwTestBlock) x.2 said)
      (cpusupportValidate on (hwtest (impl .software) (impl x.1) initial_state hwTestBlock) x.1 r) := by
  obtain ⟨s, hs⟩ := hr .software
  obtain ⟨t, ht⟩ := hr x.1
  have e : hwtest (impl .software) (impl x.1) initial_state hwTestBlock = .ok (s == t) := by
    unfold hwtest
    rw [hs, Res.bind_ok, ht, Res.bind_ok]
    rfl
  rw [e]
  unfold validateSaid cpusupportValidate
  cases on with
  | false => exact hc
  | true =>
    rw [if_pos rfl, if_pos rfl, if_pos rfl, Res.bind_ok]
    by_cases hst : s = t
    · subst hst
      have e2 : (s == s) = true := beq_self_eq_true s
      rw [e2]
      exact ⟨[], x :: tried, rfl, fun y hy => absurd hy List.not_mem_nil, rfl, .inr ⟨x, tried, rfl, by rw [AgreesOnTest, hs, ht], rfl⟩⟩
    · have e2 : (s == t) = false := beq_false_of_ne hst
      rw [e2]
      obtain ⟨bad, rest, h1, h2, h3, h4⟩ := hc
      refine ⟨x :: bad, rest, by rw [h1]; rfl, ?_, by rw [h3]; rfl, h4⟩
      intro y hy
      rcases List.mem_cons.mp hy with rfl | hy
      · intro ha
        rw [AgreesOnTest, hs, ht] at ha
        exact hst (Res.ok.inj ha).symm
      · exact h2 y hy

/-- **C75**, SHA-256, whatever the instructions of the machine compute: the first available routine that agrees with the portable code on the test block is
selected, the portable one if there is none, and exactly the ones tried before it are reported, each by one line with its name. -/
theorem C75_sha_faulty (feat : ShaHw → Bool) (impl : ShaHw → Transform) (hr : ∀ h, ∃ s, impl h initial_state hwTestBlock = .ok s) :
    Chosen impl (shaOrder.filter fun x => feat x.1) (hwaccel_init_said feat impl none) (hwaccel_init feat impl none) := by
  have c0 : Chosen impl [] [] (.ok .software) := ⟨[], [], rfl, fun y hy => absurd hy List.not_mem_nil, rfl, .inl ⟨rfl, rfl⟩⟩
  have c := chosen_step impl hr (feat .x86_shani) (.x86_shani, "HW_X86_SHANI".toList)
    (chosen_step impl hr (feat .x86_sse2) (.x86_sse2, "HW_X86_SSE2".toList)
      (chosen_step impl hr (feat .arm_sha256) (.arm_sha256, "HW_ARM_SHA256".toList) c0))
  have e : (shaOrder.filter fun x => feat x.1) = (if feat .x86_shani then [(ShaHw.x86_shani, "HW_X86_SHANI".toList)] else []) ++
      ((if feat .x86_sse2 then [(ShaHw.x86_sse2, "HW_X86_SSE2".toList)] else []) ++
        ((if feat .arm_sha256 then [(ShaHw.arm_sha256, "HW_ARM_SHA256".toList)] else []) ++ [])) := by
    unfold shaOrder
    cases h1 : feat .x86_shani <;> cases h2 : feat .x86_sse2 <;> cases h3 : feat .arm_sha256 <;>
      simp only [List.filter_cons, h1, h2, h3, List.filter_nil] <;> rfl
  rw [e]
  exact c

/-- Which routine is selected and what is said is determined by `Chosen`. -/
theorem C75_sha_faulty_unique (impl : ShaHw → Transform) {tried : List (ShaHw × CStr)} : ∀ {said said' : List Diag} {r r' : Res ShaHw},
    Chosen impl tried said r → Chosen impl tried said' r' → said = said' ∧ r = r' := by
  induction tried with
  | nil =>
    rintro said said' r r' ⟨bad, rest, h1, h2, h3, h4⟩ ⟨bad', rest', h1', h2', h3', h4'⟩
    obtain ⟨rfl, rfl⟩ := List.append_eq_nil_iff.mp h1.symm
    obtain ⟨rfl, rfl⟩ := List.append_eq_nil_iff.mp h1'.symm
    rcases h4 with ⟨-, rfl⟩ | ⟨x, m, h, -⟩
    · rcases h4' with ⟨-, rfl⟩ | ⟨x, m, h, -⟩
      · exact ⟨by rw [h3, h3'], rfl⟩
      · cases h
    · cases h
  | cons t ts ih =>
    rintro said said' r r' ⟨bad, rest, h1, h2, h3, h4⟩ ⟨bad', rest', h1', h2', h3', h4'⟩
    have key : ∀ (b rs : List (ShaHw × CStr)) (q : Res ShaHw), t :: ts = b ++ rs → (∀ x ∈ b, ¬ AgreesOnTest impl x.1) →
        ((rs = [] ∧ q = .ok .software) ∨ ∃ x more, rs = x :: more ∧ AgreesOnTest impl x.1 ∧ q = .ok x.1) →
        (AgreesOnTest impl t.1 ∧ b = [] ∧ q = .ok t.1) ∨
        (¬ AgreesOnTest impl t.1 ∧ ∃ b', b = t :: b' ∧ Chosen impl ts (b'.map fun x => disablingLine x.2) q) := by
      intro b rs q e hb h
      cases b with
      | nil =>
        rcases h with ⟨rfl, -⟩ | ⟨x, more, rfl, ha, hq⟩
        · cases e
        · obtain ⟨rfl, -⟩ := List.cons.inj e
          exact .inl ⟨ha, rfl, hq⟩
      | cons y b' =>
        obtain ⟨rfl, e'⟩ := List.cons.inj e
        exact .inr ⟨hb _ (List.mem_cons_self ..), b', rfl, b', rs, e', fun x hx => hb x (List.mem_cons_of_mem _ hx), rfl, h⟩
    rcases key bad rest r h1 h2 h4 with ⟨a, rfl, rfl⟩ | ⟨a, b1, rfl, c1⟩
    · rcases key bad' rest' r' h1' h2' h4' with ⟨a', rfl, rfl⟩ | ⟨a', -⟩
      · exact ⟨by rw [h3, h3'], rfl⟩
      · exact absurd a a'
    · rcases key bad' rest' r' h1' h2' h4' with ⟨a', -⟩ | ⟨a', b2, rfl, c2⟩
      · exact absurd a' a
      · obtain ⟨e1, e2⟩ := ih c1 c2
        exact ⟨by rw [h3, h3', List.map_cons, List.map_cons, e1], e2⟩

/-- **C75**, SHA-256: over the rest of the process nothing more is said. -/
theorem C75_sha_once (feat : ShaHw → Bool) (impl : ShaHw → Transform) (h : ShaHw) : hwaccel_init_said feat impl (some h) = [] := rfl

/-- A machine whose SHA-NI instructions return zeros: they are disabled with a message, SSE2 is used. -/
example : ∃ impl : ShaHw → Transform, (∀ h, ∃ s, impl h initial_state hwTestBlock = .ok s) ∧ ¬ AgreesOnTest impl .x86_shani ∧
    hwaccel_init_said (fun _ => true) impl none = [disablingLine "HW_X86_SHANI".toList] ∧ hwaccel_init (fun _ => true) impl none = .ok .x86_sse2 := by
  refine ⟨fun h _ _ => if h = .x86_shani then .ok [] else .ok [1], ?_, ?_, ?_, ?_⟩
  · intro h
    by_cases e : h = .x86_shani
    · exact ⟨[], if_pos e⟩
    · exact ⟨[1], if_neg e⟩
  · intro h
    cases h
  · rfl
  · rfl

/-! ### AES -/

/-- **C75**, AES without memory for the round keys: exactly the implementations the processor has are reported, in this order, and a correct OpenSSL is used silently. -/
theorem C75_aes_no_memory (feat : AesHw → Bool) (ossl : Ossl) (ho : GoodOssl ossl) :
    aes_hwaccel_init_said feat none true ossl none =
      (if feat .x86_aesni then [disablingLine "HW_X86_AESNI".toList] else []) ++ (if feat .arm_aes then [disablingLine "HW_ARM_AES".toList] else []) ∧
    aes_hwaccel_init feat none true ossl none = .ok .software := by
  have e1 : functest (x86_aesni_oneshot none) aesTestcases = .ok false := rfl
  have e2 : functest (arm_aes_oneshot none) aesTestcases = .ok false := rfl
  have e3 : functest (openssl_oneshot true ossl) aesTestcases = .ok true := functest_pass _ (fun key len p h1 h2 h3 => oneshot_ossl ossl ho key len h1 h2 p h3)
  unfold aes_hwaccel_init_said aes_hwaccel_init
  simp only [validateSaid, cpusupportValidate, e1, e2, e3, Res.bind_ok]
  cases feat .x86_aesni <;> cases feat .arm_aes <;> exact ⟨rfl, rfl⟩

/-- **C75**, AES: an OpenSSL that is not set up or computes a wrong value for one of the two test vectors is reported when it is needed, and the process ends. -/
theorem C75_aes_wrong_openssl (mem : Option (List Bytes)) (setOk : Bool) (ossl : Ossl)
    (h : functest (openssl_oneshot setOk ossl) aesTestcases = .ok false) :
    aes_hwaccel_init_said (fun _ => false) mem setOk ossl none = [.warn0 "OpenSSL gives incorrect AES values.".toList] ∧
    aes_hwaccel_init (fun _ => false) mem setOk ossl none = .abort := by
  unfold aes_hwaccel_init_said aes_hwaccel_init
  simp only [validateSaid, cpusupportValidate, h, Bool.false_eq_true, if_false, Res.bind_ok]
  exact ⟨trivial, trivial⟩

/-! ### smix -/

/-- The self-test of crypto_scrypt passes: the derivation succeeds with the known result. -/
def SmixPasses (szMax : Nat) (env : ScEnv) (tf : Transform) (junk : HMAC_SHA256_CTX) (hbuf : Bytes) (smix : SmixFn) : Prop :=
  ∃ o, crypto_scrypt_internal szMax env tf junk testPasswd testSalt 16 8 1 hbuf 64 smix = .ok o ∧ o.rc = 0 ∧ o.buf = testResult

theorem testsmix_iff {szMax : Nat} {env : ScEnv} {tf : Transform} {junk : HMAC_SHA256_CTX} {hbuf : Bytes} {smix : SmixFn}
    (hr : ∃ o, crypto_scrypt_internal szMax env tf junk testPasswd testSalt 16 8 1 hbuf 64 smix = .ok o) :
    ∃ b, testsmix szMax env tf junk hbuf smix = .ok b ∧ (b = true ↔ SmixPasses szMax env tf junk hbuf smix) := by
  obtain ⟨o, h⟩ := hr
  refine ⟨o.rc == 0 && o.buf == testResult, by unfold testsmix; rw [h]; rfl, ?_⟩
  rw [Bool.and_eq_true, beq_iff_eq, beq_iff_eq]
  constructor
  · exact fun ⟨a, b⟩ => ⟨o, h, a, b⟩
  · rintro ⟨o', h', a, b⟩
    rw [h] at h'
    cases h'
    exact ⟨a, b⟩

/-- **C75**, smix, whatever the two routines compute: SSE2 is selected silently if the processor has it and its test passes; otherwise one line says that it is
disabled, if the processor has it; and the portable code is selected, or a second line says that it is broken and the process ends. -/
theorem C75_smix_faulty (szMax : Nat) (sse2Ok : Bool) (e1 e2 : ScEnv) (tf : Transform) (junk : HMAC_SHA256_CTX) (hbuf : Bytes) (impl : SmixImpl → SmixFn)
    (h1 : ∃ o, crypto_scrypt_internal szMax e1 tf junk testPasswd testSalt 16 8 1 hbuf 64 (impl .sse2) = .ok o)
    (h2 : ∃ o, crypto_scrypt_internal szMax e2 tf junk testPasswd testSalt 16 8 1 hbuf 64 (impl .generic) = .ok o) :
    let said := selectsmix_said szMax sse2Ok e1 e2 tf junk hbuf impl
    let r := selectsmix szMax sse2Ok e1 e2 tf junk hbuf impl
    let first := if sse2Ok then [Diag.warn0 "Disabling broken SSE2 scrypt support - please report bug!".toList] else []
    (sse2Ok = true ∧ SmixPasses szMax e1 tf junk hbuf (impl .sse2) → said = [] ∧ r = .ok .sse2) ∧
    (¬ (sse2Ok = true ∧ SmixPasses szMax e1 tf junk hbuf (impl .sse2)) →
      (SmixPasses szMax e2 tf junk hbuf (impl .generic) → said = first ∧ r = .ok .generic) ∧
      (¬ SmixPasses szMax e2 tf junk hbuf (impl .generic) →
        said = first ++ [.warn0 "Generic scrypt code is broken - please report bug!".toList] ∧ r = .abort)) := by
  obtain ⟨b1, t1, i1⟩ := testsmix_iff h1
  obtain ⟨b2, t2, i2⟩ := testsmix_iff h2
  unfold selectsmix_said selectsmix
  simp only [t1, t2]
  rw [← i1, ← i2]
  cases sse2Ok <;> cases b1 <;> cases b2 <;>
    simp only [Res.bind_ok, Res.pure_eq, Bool.false_eq_true, if_true, if_false, and_true, and_false, true_and, not_true, not_false_iff, forall_true_left, false_imp_iff,
      List.nil_append, List.cons_append]

end Scrypt.Props
