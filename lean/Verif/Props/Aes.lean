import Verif.Proofs.AesCtr
import Verif.Proofs.AesVec
/-
C24 - C26 (and the AES part of C43): AES and AES-CTR.
-/
namespace Scrypt.Props
open Scrypt Spec

/-! ### C26: the hardware code is FIPS 197 AES -/

/-- C26. AES-NI: for every key buffer and length 16 or 32, key expansion into any (uninitialised) array of
15 round keys succeeds and encrypting any block gives the FIPS 197 cipher under the first `len` key bytes. -/
theorem C26_aesni (key : Bytes) (len : Nat) (hlen : len = 16 ∨ len = 32) (hk : len ≤ key.length) (mem : List Bytes) (hm : mem.length = 15) :
    ∃ k, crypto_aes_key_expand_aesni (some mem) key len = .ok (some k) ∧
      ∀ block : Bytes, block.length = 16 → crypto_aes_encrypt_block_aesni block k = .ok (Spec.aes (key.take len) block) := by
  obtain ⟨h, e, g⟩ := expand_aesni_ok key len hlen hk mem (by omega)
  refine ⟨h, e, fun block hb => ?_⟩
  show (q_load block 0 >>= fun s => crypto_aes_encrypt_block_aesni_m128i s h) = _
  rw [q_load_16 block hb, Res.bind_ok]
  exact encrypt_aesni_m128i _ h g block hb

/-- C26. ARM. -/
theorem C26_arm (key : Bytes) (len : Nat) (hlen : len = 16 ∨ len = 32) (hk : len ≤ key.length) (mem : List Bytes) (hm : mem.length = 15) :
    ∃ k, crypto_aes_key_expand_arm (some mem) key len = .ok (some k) ∧
      ∀ block : Bytes, block.length = 16 → crypto_aes_encrypt_block_arm block k = .ok (Spec.aes (key.take len) block) := by
  obtain ⟨h, e, g⟩ := expand_arm_ok key len hlen hk mem (by omega)
  refine ⟨h, e, fun block hb => ?_⟩
  show (q_load block 0 >>= fun s => crypto_aes_encrypt_block_arm_u8 s h) = _
  rw [q_load_16 block hb, Res.bind_ok]
  exact encrypt_arm_u8 _ h g block hb

/-- C26. The dispatching interface: whichever implementation is in use (OpenSSL assumed to compute AES),
expansion either returns NULL (allocation or OpenSSL failure) or a key under which every block is
encrypted as FIPS 197 says; no out-of-bounds access, no assertion failure. -/
theorem C26_dispatch (hw : AesHw) (ossl : Ossl) (ho : hw = .software → GoodOssl ossl) (env : AesEnv) (hm : ∀ rk, env.mem = some rk → rk.length = 15)
    (key : Bytes) (len : Nat) (hlen : len = 16 ∨ len = 32) (hk : len ≤ key.length) :
    crypto_aes_key_expand hw env key len = .ok none ∨
    ∃ a, crypto_aes_key_expand hw env key len = .ok (some a) ∧
      ∀ block : Bytes, block.length = 16 → crypto_aes_encrypt_block hw ossl block a = .ok (Spec.aes (key.take len) block) := by
  rcases key_expand_cases hw env (fun rk h => by rw [hm rk h]) key len hlen hk with h | ⟨a, h, g⟩
  · exact .inl h
  · exact .inr ⟨a, h, fun block hb => encrypt_block_ok hw ossl ho _ (by rw [List.length_take]; omega) a g block hb⟩

/-- C26. There is no key exactly if there was no memory for it (or, for OpenSSL, its own key set-up failed). -/
theorem C26_no_key (hw : AesHw) (env : AesEnv) (hm : ∀ rk, env.mem = some rk → rk.length = 15)
    (key : Bytes) (len : Nat) (hlen : len = 16 ∨ len = 32) (hk : len ≤ key.length) :
    crypto_aes_key_expand hw env key len = .ok none ↔ ((hw = .software ∧ env.osslOk = false) ∨ (hw ≠ .software ∧ env.mem = none)) := by
  have hc : (decide (len = 16) || decide (len = 32)) = true := by rcases hlen with h | h <;> simp [h]
  unfold crypto_aes_key_expand
  rw [hc, cassert_true, Res.bind_ok]
  cases hw with
  | software =>
    cases ho : env.osslOk with
    | false => exact ⟨fun _ => .inl ⟨rfl, rfl⟩, fun _ => rfl⟩
    | true =>
      simp only [Bool.not_true, Bool.false_eq_true, if_false]
      rw [rdSlice_ok (by omega), Res.bind_ok]
      exact ⟨(fun h => by cases h), fun h => by rcases h with ⟨_, h⟩ | ⟨h, _⟩ <;> [cases h; exact absurd rfl h]⟩
  | x86_aesni =>
    simp only []
    cases he : env.mem with
    | none => exact ⟨fun _ => .inr ⟨(fun h => by cases h), rfl⟩, fun _ => rfl⟩
    | some rk =>
      obtain ⟨k, e, -⟩ := C26_aesni key len hlen hk rk (hm rk he)
      rw [e, Res.bind_ok]
      exact ⟨(fun h => by cases h), fun h => by rcases h with ⟨h, _⟩ | ⟨_, h⟩ <;> cases h⟩
  | arm_aes =>
    simp only []
    cases he : env.mem with
    | none => exact ⟨fun _ => .inr ⟨(fun h => by cases h), rfl⟩, fun _ => rfl⟩
    | some rk =>
      obtain ⟨k, e, -⟩ := C26_arm key len hlen hk rk (hm rk he)
      rw [e, Res.bind_ok]
      exact ⟨(fun h => by cases h), fun h => by rcases h with ⟨h, _⟩ | ⟨_, h⟩ <;> cases h⟩

/-- C26. Other key lengths are caught by the assertion. -/
theorem C26_bad_length (hw : AesHw) (env : AesEnv) (key : Bytes) (len : Nat) (h : len ≠ 16 ∧ len ≠ 32) :
    crypto_aes_key_expand hw env key len = .abort := by
  have hc : (decide (len = 16) || decide (len = 32)) = false := by simp [h.1, h.2]
  unfold crypto_aes_key_expand
  rw [hc]; rfl

/-- Checks on the specification: the inverse really is one, and the FIPS 197 appendix C vectors. -/
theorem C26_spec_inverse : ∀ b : Byte, b ≠ 0 → gfMul b (gfInv b) = 1 := by decide +kernel
theorem C26_spec_vector_128 : Spec.aes [0x00, 0x01, 0x02, 0x03, 0x04, 0x05, 0x06, 0x07, 0x08, 0x09, 0x0a, 0x0b, 0x0c, 0x0d, 0x0e, 0x0f]
   [0x00, 0x11, 0x22, 0x33, 0x44, 0x55, 0x66, 0x77, 0x88, 0x99, 0xaa, 0xbb, 0xcc, 0xdd, 0xee, 0xff] =
   [0x69, 0xc4, 0xe0, 0xd8, 0x6a, 0x7b, 0x04, 0x30, 0xd8, 0xcd, 0xb7, 0x80, 0x70, 0xb4, 0xc5, 0x5a] := fips197_c1

/-- Non-vacuity: the 256-bit self-test vector through the AES-NI and the ARM code. -/
example : ∃ k, crypto_aes_key_expand_aesni (some (List.replicate 15 [])) ((List.range 32).map (BitVec.ofNat 8)) 32 = .ok (some k) ∧
    crypto_aes_encrypt_block_aesni [0x00, 0x11, 0x22, 0x33, 0x44, 0x55, 0x66, 0x77, 0x88, 0x99, 0xaa, 0xbb, 0xcc, 0xdd, 0xee, 0xff] k =
      .ok [0x8e, 0xa2, 0xb7, 0xca, 0x51, 0x67, 0x45, 0xbf, 0xea, 0xfc, 0x49, 0x90, 0x4b, 0x49, 0x60, 0x89] := by
  obtain ⟨k, e, h⟩ := C26_aesni ((List.range 32).map (BitVec.ofNat 8)) 32 (.inr rfl) (by simp) (List.replicate 15 []) (by simp)
  refine ⟨k, e, ?_⟩
  rw [h _ rfl]
  exact congrArg Res.ok fips197_c3
example : ∃ k, crypto_aes_key_expand_arm (some (List.replicate 15 [])) ((List.range 32).map (BitVec.ofNat 8)) 32 = .ok (some k) ∧
    crypto_aes_encrypt_block_arm [0x00, 0x11, 0x22, 0x33, 0x44, 0x55, 0x66, 0x77, 0x88, 0x99, 0xaa, 0xbb, 0xcc, 0xdd, 0xee, 0xff] k =
      .ok [0x8e, 0xa2, 0xb7, 0xca, 0x51, 0x67, 0x45, 0xbf, 0xea, 0xfc, 0x49, 0x90, 0x4b, 0x49, 0x60, 0x89] := by
  obtain ⟨k, e, h⟩ := C26_arm ((List.range 32).map (BitVec.ofNat 8)) 32 (.inr rfl) (by simp) (List.replicate 15 []) (by simp)
  refine ⟨k, e, ?_⟩
  rw [h _ rfl]
  exact congrArg Res.ok fips197_c3

/-! ### C43, AES part: self-test and selection -/

theorem oneshot_aesni (mem : List Bytes) (hm : mem.length = 15) (key : Bytes) (len : Nat) (hlen : len = 16 ∨ len = 32) (hk : len ≤ key.length) (p : Bytes) (hp : p.length = 16) :
    x86_aesni_oneshot (some mem) key len p = .ok (some (Spec.aes (key.take len) p)) := by
  obtain ⟨k, e, h⟩ := C26_aesni key len hlen hk mem hm
  unfold x86_aesni_oneshot
  rw [e, Res.bind_ok]
  simp only []
  rw [h p hp]; rfl

theorem oneshot_arm (mem : List Bytes) (hm : mem.length = 15) (key : Bytes) (len : Nat) (hlen : len = 16 ∨ len = 32) (hk : len ≤ key.length) (p : Bytes) (hp : p.length = 16) :
    arm_aes_oneshot (some mem) key len p = .ok (some (Spec.aes (key.take len) p)) := by
  obtain ⟨k, e, h⟩ := C26_arm key len hlen hk mem hm
  unfold arm_aes_oneshot
  rw [e, Res.bind_ok]
  simp only []
  rw [h p hp]; rfl

theorem oneshot_ossl (ossl : Ossl) (ho : GoodOssl ossl) (key : Bytes) (len : Nat) (hlen : len = 16 ∨ len = 32) (hk : len ≤ key.length) (p : Bytes) (hp : p.length = 16) :
    openssl_oneshot true ossl key len p = .ok (some (Spec.aes (key.take len) p)) := by
  unfold openssl_oneshot
  simp only [Bool.not_true, Bool.false_eq_true, if_false]
  rw [rdSlice_ok (by omega), Res.bind_ok, List.drop_zero, ho _ _ (by rw [List.length_take]; omega) hp]; rfl

/-- A function that computes AES passes the self-test. -/
theorem functest_pass (f : Bytes → Nat → Bytes → Res (Option Bytes))
    (h : ∀ key len p, (len = 16 ∨ len = 32) → len ≤ key.length → p.length = 16 → f key len p = .ok (some (Spec.aes (key.take len) p))) :
    functest f aesTestcases = .ok true := by
  unfold aesTestcases functest
  simp only [Nat.reduceEqDiff, decide_true, decide_false, Bool.or_false, cassert_true, Res.bind_ok]
  rw [h _ 16 _ (.inl rfl) (by decide) rfl]
  simp only [Res.bind_ok]
  refine (if_pos fips197_c1).trans ?_
  unfold functest
  simp only [Nat.reduceEqDiff, decide_true, decide_false, Bool.or_true, cassert_true, Res.bind_ok]
  rw [h _ 32 _ (.inr rfl) (by decide) rfl]
  simp only [Res.bind_ok]
  refine (if_pos fips197_c3).trans ?_
  rfl

theorem validate_cases {α : Type} {b : Bool} {chk : Res Bool} {x : α} {nx : Res α} {y : α} (h : cpusupportValidate b chk x nx = .ok y) :
    (b = true ∧ chk = .ok true ∧ x = y) ∨ nx = .ok y := by
  unfold cpusupportValidate at h
  cases b with
  | false => exact .inr (by simpa using h)
  | true =>
    simp only [if_pos] at h
    cases hc : chk with
    | ub => rw [hc] at h; cases h
    | abort => rw [hc] at h; cases h
    | ok c =>
      rw [hc] at h
      cases c with
      | true =>
        simp only [Res.bind_ok] at h
        cases h; exact .inl ⟨rfl, rfl, rfl⟩
      | false =>
        simp only [Res.bind_ok, Bool.false_eq_true, if_false] at h
        exact .inr h

/-- C43, AES. Whatever OpenSSL computes and malloc does, an implementation is selected only if it gave
both FIPS 197 test results (and the CPU feature is reported, for the accelerated ones). -/
theorem C43_aes_selected_passed (feat : AesHw → Bool) (mem : Option (List Bytes)) (setOk : Bool) (ossl : Ossl) (h : AesHw)
    (hs : aes_hwaccel_init feat mem setOk ossl none = .ok h) :
    (h = .software ∧ functest (openssl_oneshot setOk ossl) aesTestcases = .ok true) ∨
    (h = .x86_aesni ∧ feat .x86_aesni = true ∧ functest (x86_aesni_oneshot mem) aesTestcases = .ok true) ∨
    (h = .arm_aes ∧ feat .arm_aes = true ∧ functest (arm_aes_oneshot mem) aesTestcases = .ok true) := by
  unfold aes_hwaccel_init at hs
  rcases validate_cases hs with ⟨a, b, c⟩ | hs
  · exact .inr (.inl ⟨c.symm, a, b⟩)
  rcases validate_cases hs with ⟨a, b, c⟩ | hs
  · exact .inr (.inr ⟨c.symm, a, b⟩)
  cases hf : functest (openssl_oneshot setOk ossl) aesTestcases with
  | ub => rw [hf] at hs; cases hs
  | abort => rw [hf] at hs; cases hs
  | ok b =>
    rw [hf] at hs
    cases b with
    | false => cases hs
    | true => cases hs; exact .inl ⟨rfl, rfl⟩

/-- C43, AES. With the code that exists and memory available, the accelerated code is selected whenever
the CPU has it; without it, a correct OpenSSL is selected; it never aborts. -/
theorem C43_aes_never_aborts (feat : AesHw → Bool) (mem : List Bytes) (hm : mem.length = 15) (ossl : Ossl) (ho : GoodOssl ossl) :
    aes_hwaccel_init feat (some mem) true ossl none =
      .ok (if feat .x86_aesni then .x86_aesni else if feat .arm_aes then .arm_aes else .software) := by
  unfold aes_hwaccel_init
  have t1 := functest_pass _ (fun key len p h1 h2 h3 => oneshot_aesni mem hm key len h1 h2 p h3)
  have t2 := functest_pass _ (fun key len p h1 h2 h3 => oneshot_arm mem hm key len h1 h2 p h3)
  have t3 := functest_pass _ (fun key len p h1 h2 h3 => oneshot_ossl ossl ho key len h1 h2 p h3)
  cases feat .x86_aesni <;> cases feat .arm_aes <;> simp [cpusupportValidate, t1, t2, t3]

/-- C43, AES. Once selected, the choice stays. -/
theorem C43_aes_selected_once (feat : AesHw → Bool) (mem : Option (List Bytes)) (setOk : Bool) (ossl : Ossl) (h : AesHw) :
    aes_hwaccel_init feat mem setOk ossl (some h) = .ok h := rfl

/-- C43, AES. A wrong OpenSSL is never used: if its result on a test vector is wrong the program aborts
(when no accelerated code is available). -/
theorem C43_aes_bad_openssl_aborts (mem : Option (List Bytes)) (ossl : Ossl)
    (h : ossl ((List.range 16).map (BitVec.ofNat 8)) ((List.range 16).map (fun i => BitVec.ofNat 8 (17 * i))) ≠
      [0x69, 0xc4, 0xe0, 0xd8, 0x6a, 0x7b, 0x04, 0x30, 0xd8, 0xcd, 0xb7, 0x80, 0x70, 0xb4, 0xc5, 0x5a]) :
    aes_hwaccel_init (fun _ => false) mem true ossl none = .abort := by
  have hf : functest (openssl_oneshot true ossl) aesTestcases = .ok false := by
    unfold aesTestcases functest openssl_oneshot
    simp only [Nat.reduceEqDiff, decide_true, decide_false, Bool.or_false, cassert_true, Res.bind_ok, Bool.not_true, Bool.false_eq_true, if_false]
    rw [rdSlice_ok (by decide)]
    simp only [Res.bind_ok, Res.pure_eq]
    exact if_neg h
  unfold aes_hwaccel_init
  simp [cpusupportValidate, hf]

/-! ### C24: streaming -/

/-- A sequence of calls of `crypto_aesctr_stream`, each on a whole buffer; `junk` are the undefined
register halves each call sees. Returns the concatenated output. -/
def ctrRun (hw : AesHw) (ossl : Ossl) : CtrStream → List (Bytes × Bytes) → Res (CtrStream × Bytes)
  | s, [] => .ok (s, [])
  | s, (junk, d) :: rest => do
    let (s, o) ← crypto_aesctr_stream hw ossl junk s d d.length
    let (s, o') ← ctrRun hw ossl s rest
    return (s, o ++ o')

theorem ctrRun_ok {E : Bytes → Bytes} {nonce : Nat} (hw : AesHw) (ossl : Ossl) (key : AesKey) (hk : KeyFor hw key) (hE : BlockFn hw ossl key E)
    (ds : List (Bytes × Bytes)) : ∀ (s : CtrStream) (pos : Nat), s.key = key → CtrRepr E nonce pos s → pos + (ds.flatMap Prod.snd).length < 2 ^ 64 →
    ∃ s', ctrRun hw ossl s ds = .ok (s', Spec.ctr E nonce pos (ds.flatMap Prod.snd)) ∧ s'.key = key ∧ CtrRepr E nonce (pos + (ds.flatMap Prod.snd).length) s' := by
  induction ds with
  | nil => intro s pos hs h _; exact ⟨s, rfl, hs, h⟩
  | cons jd ds ih =>
    intro s pos hs h hp
    obtain ⟨j, d⟩ := jd
    simp only [List.flatMap_cons, List.length_append] at hp ⊢
    obtain ⟨s1, e1, k1, r1⟩ := crypto_aesctr_stream_ok hw ossl (hs ▸ hk) (hs ▸ hE) j d d.length h (by omega) (Nat.le_refl _)
    obtain ⟨s2, e2, k2, r2⟩ := ih s1 (pos + d.length) (k1.trans hs) r1 (by omega)
    refine ⟨s2, ?_, k2, ?_⟩
    · unfold ctrRun
      rw [e1, Res.bind_ok]
      simp only []
      rw [e2, List.take_of_length_le (Nat.le_refl _), ctr_append]; rfl
    · rwa [← Nat.add_assoc]

/-- C24. Expand any 16- or 32-byte key, initialise a stream (in uninitialised memory) with any nonce, and
process any sequence of buffers: the output is the concatenated input xor the key stream
AES_k(nonce64 ‖ counter64), counter from 0, whatever the division into buffers and whichever
implementation is used. (Total length below 2^64 bytes.) -/
theorem C24_stream (hw : AesHw) (ossl : Ossl) (ho : hw = .software → GoodOssl ossl) (env : AesEnv) (hm : ∀ rk, env.mem = some rk → rk.length = 15)
    (keybuf : Bytes) (len : Nat) (hlen : len = 16 ∨ len = 32) (hk : len ≤ keybuf.length) (key : AesKey)
    (hkey : crypto_aes_key_expand hw env keybuf len = .ok (some key)) (mem : CtrStream) (hmem : mem.Sized) (nonce : W64)
    (bufs : List (Bytes × Bytes)) (htot : (bufs.flatMap Prod.snd).length < 2 ^ 64) :
    ∃ s s', crypto_aesctr_init (some mem) key nonce = .ok (some s) ∧
      ctrRun hw ossl s bufs = .ok (s', Spec.ctr (Spec.aes (keybuf.take len)) nonce.toNat 0 (bufs.flatMap Prod.snd)) := by
  have g : GoodKey hw (keybuf.take len) key := by
    rcases key_expand_cases hw env (fun rk h => by rw [hm rk h]) keybuf len hlen hk with h | ⟨a, h, g⟩
    · rw [h] at hkey; cases hkey
    · rw [h] at hkey; cases hkey; exact g
  have hl : (keybuf.take len).length = 16 ∨ (keybuf.take len).length = 32 := by rw [List.length_take]; omega
  have hE : BlockFn hw ossl key (Spec.aes (keybuf.take len)) := fun b hb =>
    ⟨encrypt_block_ok hw ossl ho _ hl key g b hb, aes_length _ _ hl⟩
  obtain ⟨s, e, ks, rs⟩ := init2_ok (Spec.aes (keybuf.take len)) mem hmem key nonce
  obtain ⟨s', e', -, -⟩ := ctrRun_ok hw ossl key g.keyFor hE bufs s 0 ks rs (by omega)
  refine ⟨s, s', ?_, e'⟩
  unfold crypto_aesctr_init
  simp only [e, Res.bind_ok]; rfl

/-- C24. The one-shot interface. -/
theorem C24_buf (hw : AesHw) (ossl : Ossl) (ho : hw = .software → GoodOssl ossl) (k : Bytes) (hl : k.length = 16 ∨ k.length = 32) (key : AesKey) (g : GoodKey hw k key)
    (junk : Bytes) (stack : CtrStream) (hs : stack.Sized) (nonce : W64) (d : Bytes) (n : Nat) (hn : n ≤ d.length) (htot : n < 2 ^ 64) :
    crypto_aesctr_buf hw ossl junk stack key nonce d n = .ok (Spec.ctr (Spec.aes k) nonce.toNat 0 (d.take n)) := by
  have hE : BlockFn hw ossl key (Spec.aes k) := fun b hb => ⟨encrypt_block_ok hw ossl ho _ hl key g b hb, aes_length _ _ hl⟩
  obtain ⟨s, e, ks, rs⟩ := init2_ok (Spec.aes k) stack hs key nonce
  obtain ⟨s', e', -, -⟩ := crypto_aesctr_stream_ok hw ossl (ks ▸ g.keyFor) (ks ▸ hE) junk d n rs (by omega) hn
  unfold crypto_aesctr_buf
  rw [e, Res.bind_ok, e']; rfl

/-- C24. Applying it twice with the same key and nonce restores the data, whatever the two divisions. -/
theorem C24_involution (hw : AesHw) (ossl : Ossl) (ho : hw = .software → GoodOssl ossl) (env : AesEnv) (hm : ∀ rk, env.mem = some rk → rk.length = 15)
    (keybuf : Bytes) (len : Nat) (hlen : len = 16 ∨ len = 32) (hk : len ≤ keybuf.length) (key : AesKey)
    (hkey : crypto_aes_key_expand hw env keybuf len = .ok (some key)) (mem : CtrStream) (hmem : mem.Sized) (nonce : W64) (s s1 s2 : CtrStream)
    (hs : crypto_aesctr_init (some mem) key nonce = .ok (some s))
    (bufs bufs' : List (Bytes × Bytes)) (o o' : Bytes) (htot : (bufs.flatMap Prod.snd).length < 2 ^ 64)
    (h1 : ctrRun hw ossl s bufs = .ok (s1, o)) (hd : bufs'.flatMap Prod.snd = o) (h2 : ctrRun hw ossl s bufs' = .ok (s2, o')) :
    o' = bufs.flatMap Prod.snd := by
  obtain ⟨t, t1, a1, b1⟩ := C24_stream hw ossl ho env hm keybuf len hlen hk key hkey mem hmem nonce bufs htot
  rw [hs] at a1; cases a1
  rw [h1] at b1; cases b1
  obtain ⟨u, u1, a2, b2⟩ := C24_stream hw ossl ho env hm keybuf len hlen hk key hkey mem hmem nonce bufs' (by rw [hd, ctr_length]; exact htot)
  rw [hs] at a2; cases a2
  rw [h2, hd] at b2; cases b2
  exact ctr_ctr _ _ _ _

/-- Non-vacuity: with OpenSSL computing AES and any allocation, a stream exists and two odd-sized buffers
are encrypted; the hypotheses of `C24_stream` are met. -/
example (d1 d2 : Bytes) (h1 : d1.length = 21) (h2 : d2.length = 300) :
    ∃ key s s', crypto_aes_key_expand .software ⟨none, true⟩ (List.replicate 32 7) 32 = .ok (some key) ∧
      crypto_aesctr_init (some ⟨key, 0, List.replicate 16 0, List.replicate 16 0⟩) key 0 = .ok (some s) ∧
      ctrRun .software Spec.aes s [([], d1), ([], d2)] = .ok (s', Spec.ctr (Spec.aes (List.replicate 32 7)) 0 0 (d1 ++ d2)) := by
  refine ⟨.ossl (List.replicate 32 7), ?_⟩
  have hx : crypto_aes_key_expand .software ⟨none, true⟩ (List.replicate 32 7) 32 = .ok (some (.ossl (List.replicate 32 7))) := rfl
  obtain ⟨s, s', a, b⟩ := C24_stream .software Spec.aes (fun _ k b _ _ => rfl) ⟨none, true⟩ (by simp) (List.replicate 32 7) 32 (.inr rfl) (by simp) _ hx
    ⟨.ossl (List.replicate 32 7), 0, List.replicate 16 0, List.replicate 16 0⟩ ⟨rfl, rfl⟩ 0 [([], d1), ([], d2)] (by simp [h1, h2])
  refine ⟨s, s', hx, a, ?_⟩
  simpa using b

/-! ### C25: any mixture of accelerated and portable calls -/

/-- One call through the accelerated routine of this machine (`acc`) or through the portable code. -/
def pathStep (hw : AesHw) (ossl : Ossl) (junk : Bytes) (acc : Bool) (s : CtrStream) (d : Bytes) : Res (CtrStream × Cursor) :=
  if acc = true ∧ hw = .x86_aesni then aesni_stream hw ossl junk s ⟨d, [], d.length⟩
  else if acc = true ∧ hw = .arm_aes then arm_stream hw ossl s ⟨d, [], d.length⟩
  else portable_stream hw ossl s ⟨d, [], d.length⟩

/-- A sequence of calls where each call is made through the accelerated routine of this machine or
through the portable code, as the Boolean says, whatever the buffer length. -/
def mixRun (hw : AesHw) (ossl : Ossl) (junk : Bytes) : CtrStream → List (Bool × Bytes) → Res (CtrStream × Bytes)
  | s, [] => .ok (s, [])
  | s, (acc, d) :: rest => do
    let (s, c) ← pathStep hw ossl junk acc s d
    let (s, o') ← mixRun hw ossl junk s rest
    return (s, c.out ++ o')

theorem mixRun_ok {E : Bytes → Bytes} {nonce : Nat} (hw : AesHw) (ossl : Ossl) (junk : Bytes) (key : AesKey) (hk : KeyFor hw key) (hE : BlockFn hw ossl key E)
    (ds : List (Bool × Bytes)) : ∀ (s : CtrStream) (pos : Nat), s.key = key → CtrRepr E nonce pos s → pos + (ds.flatMap Prod.snd).length < 2 ^ 64 →
    ∃ s', mixRun hw ossl junk s ds = .ok (s', Spec.ctr E nonce pos (ds.flatMap Prod.snd)) ∧ s'.key = key ∧ CtrRepr E nonce (pos + (ds.flatMap Prod.snd).length) s' := by
  induction ds with
  | nil => intro s pos hs h _; exact ⟨s, rfl, hs, h⟩
  | cons jd ds ih =>
    intro s pos hs h hp
    obtain ⟨acc, d⟩ := jd
    simp only [List.flatMap_cons, List.length_append] at hp ⊢
    have step : ∃ r, pathStep hw ossl junk acc s d = .ok r ∧ Stepped E nonce pos s ⟨d, [], d.length⟩ d.length r := by
      unfold pathStep
      by_cases h1 : acc = true ∧ hw = .x86_aesni
      · rw [if_pos h1]
        obtain ⟨-, rfl⟩ := h1
        cases hkey : key with
        | ossl b => rw [hkey] at hk; cases hk
        | arm b => rw [hkey] at hk; cases hk
        | aesni k => exact aesni_stream_ok ossl k (hs.trans hkey) (hs ▸ hE) junk ⟨d, [], d.length⟩ h (by simp only; omega) (Nat.le_refl _)
      · rw [if_neg h1]
        by_cases h2 : acc = true ∧ hw = .arm_aes
        · rw [if_pos h2]
          obtain ⟨-, rfl⟩ := h2
          cases hkey : key with
          | ossl b => rw [hkey] at hk; cases hk
          | aesni b => rw [hkey] at hk; cases hk
          | arm k => exact arm_stream_ok ossl k (hs.trans hkey) (hs ▸ hE) ⟨d, [], d.length⟩ h (by simp only; omega) (Nat.le_refl _)
        · rw [if_neg h2]
          exact portable_ok hw ossl (hs ▸ hE) ⟨d, [], d.length⟩ h (by simp only; omega) (Nat.le_refl _)
    obtain ⟨⟨s1, c1⟩, e1, st⟩ := step
    obtain ⟨s2, e2, k2, r2⟩ := ih s1 (pos + d.length) (st.key.trans hs) st.repr (by omega)
    refine ⟨s2, ?_, k2, ?_⟩
    · unfold mixRun
      rw [e1, Res.bind_ok]
      simp only []
      rw [e2, show c1 = _ from st.cur, List.take_of_length_le (Nat.le_refl _), ctr_append]; rfl
    · rwa [← Nat.add_assoc]

/-- C25. Two histories of calls on the same initial stream that process the same data, with arbitrary
different divisions and arbitrary choices of accelerated or portable routine per call, give the same
output. -/
theorem C25_paths_agree (hw : AesHw) (ossl : Ossl) (ho : hw = .software → GoodOssl ossl) (k : Bytes) (hl : k.length = 16 ∨ k.length = 32) (key : AesKey) (g : GoodKey hw k key)
    (mem : CtrStream) (hmem : mem.Sized) (nonce : W64) (s : CtrStream) (hs : crypto_aesctr_init2 mem (some key) nonce = .ok s)
    (junk junk' : Bytes) (ds ds' : List (Bool × Bytes)) (hd : ds.flatMap Prod.snd = ds'.flatMap Prod.snd) (htot : (ds.flatMap Prod.snd).length < 2 ^ 64) :
    ∃ t t' o, mixRun hw ossl junk s ds = .ok (t, o) ∧ mixRun hw ossl junk' s ds' = .ok (t', o) ∧ o = Spec.ctr (Spec.aes k) nonce.toNat 0 (ds.flatMap Prod.snd) := by
  have hE : BlockFn hw ossl key (Spec.aes k) := fun b hb => ⟨encrypt_block_ok hw ossl ho _ hl key g b hb, aes_length _ _ hl⟩
  obtain ⟨s0, e, ks, rs⟩ := init2_ok (Spec.aes k) mem hmem key nonce
  rw [hs] at e; cases e
  obtain ⟨t, e1, -, -⟩ := mixRun_ok hw ossl junk key g.keyFor hE ds s 0 ks rs (by omega)
  obtain ⟨t', e2, -, -⟩ := mixRun_ok hw ossl junk' key g.keyFor hE ds' s 0 ks rs (by rw [← hd]; omega)
  exact ⟨t, t', _, e1, by rw [hd]; exact e2, rfl⟩

/-- C25. The states left behind are equivalent: after the same data by different paths, any further
buffers (again by any paths) are encrypted identically. -/
theorem C25_state_equiv (hw : AesHw) (ossl : Ossl) (ho : hw = .software → GoodOssl ossl) (k : Bytes) (hl : k.length = 16 ∨ k.length = 32) (key : AesKey) (g : GoodKey hw k key)
    (mem : CtrStream) (hmem : mem.Sized) (nonce : W64) (s : CtrStream) (hs : crypto_aesctr_init2 mem (some key) nonce = .ok s)
    (junk junk' : Bytes) (ds ds' more more' : List (Bool × Bytes)) (hd : ds.flatMap Prod.snd = ds'.flatMap Prod.snd) (hm : more.flatMap Prod.snd = more'.flatMap Prod.snd)
    (htot : (ds.flatMap Prod.snd).length + (more.flatMap Prod.snd).length < 2 ^ 64) (t t' : CtrStream) (o o' : Bytes)
    (h1 : mixRun hw ossl junk s ds = .ok (t, o)) (h2 : mixRun hw ossl junk' s ds' = .ok (t', o')) :
    ∃ u u' q, mixRun hw ossl junk t more = .ok (u, q) ∧ mixRun hw ossl junk' t' more' = .ok (u', q) := by
  have hE : BlockFn hw ossl key (Spec.aes k) := fun b hb => ⟨encrypt_block_ok hw ossl ho _ hl key g b hb, aes_length _ _ hl⟩
  obtain ⟨s0, e, ks, rs⟩ := init2_ok (Spec.aes k) mem hmem key nonce
  rw [hs] at e; cases e
  obtain ⟨t1, e1, k1, r1⟩ := mixRun_ok hw ossl junk key g.keyFor hE ds s 0 ks rs (by omega)
  obtain ⟨t2, e2, k2, r2⟩ := mixRun_ok hw ossl junk' key g.keyFor hE ds' s 0 ks rs (by rw [← hd]; omega)
  rw [h1] at e1; cases e1
  rw [h2] at e2; cases e2
  rw [← hd] at r2
  obtain ⟨u, e3, -, -⟩ := mixRun_ok hw ossl junk key g.keyFor hE more t _ k1 r1 (by omega)
  obtain ⟨u', e4, -, -⟩ := mixRun_ok hw ossl junk' key g.keyFor hE more' t' _ k2 r2 (by rw [← hm]; omega)
  exact ⟨u, u', _, e3, by rw [hm]; exact e4⟩

/-- Non-vacuity of C25: an expanded AES-NI key. -/
example : ∃ key s, GoodKey .x86_aesni (List.replicate 32 7) key ∧
    crypto_aesctr_init2 ⟨key, 0, List.replicate 16 0, List.replicate 16 0⟩ (some key) 5 = .ok s := by
  obtain ⟨h, -, g⟩ := expand_aesni_ok (List.replicate 32 7) 32 (.inr rfl) (by simp) (List.replicate 15 []) (by simp)
  obtain ⟨s, e, -, -⟩ := init2_ok id ⟨.aesni h, 0, List.replicate 16 0, List.replicate 16 0⟩ ⟨rfl, rfl⟩ (.aesni h) 5
  exact ⟨.aesni h, s, ⟨rfl, g⟩, e⟩

end Scrypt.Props
