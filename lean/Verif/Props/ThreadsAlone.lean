import Verif.Props.ThreadsAes
/-
C70, C71: a thread that is not disturbed computes what the sequential functions compute.
-/
namespace Scrypt.Props
open Scrypt Spec

section
variable {σ τ : Type}

theorem solo_succ (step : σ → τ → σ × τ) (n : Nat) (g : σ) (t : τ) :
    interleave step (List.replicate (n + 1) 0) (g, [t]) = interleave step (List.replicate n 0) ((step g t).1, [(step g t).2]) := rfl

theorem solo_fixed (step : σ → τ → σ × τ) (n : Nat) (g : σ) (t : τ) (h : step g t = (g, t)) :
    interleave step (List.replicate n 0) (g, [t]) = (g, [t]) := by
  induction n with
  | zero => rfl
  | succ n ih => rw [solo_succ, h]; exact ih

end

/-- **C70.**  A feature query that no other thread disturbs is the sequential one: it returns the same answer and leaves the same variables. -/
theorem C70_alone_feature (b : CpuBuild) (c : Cpu) (auxOk : Bool) (f : Ext) (v : FeatVars) (n : Nat) (hn : 5 ≤ n) :
    interleave (featStep (if b.enabled f then detect b c auxOk f else false)) (List.replicate n 0) (v f, [.readPresent]) =
      ((cpusupport b c auxOk f v).2 f, [.done (cpusupport b c auxOk f v).1]) := by
  obtain ⟨k, rfl⟩ : ∃ k, n = k + 5 := ⟨n - 5, by omega⟩
  unfold cpusupport
  generalize (if b.enabled f then detect b c auxOk f else false) = d
  have fix : ∀ k v r, interleave (featStep d) (List.replicate k 0) (v, [FeatPc.done r]) = (v, [.done r]) := fun k v r => solo_fixed _ k v _ rfl
  have s1 := solo_succ (featStep d) (k + 4) (v f) .readPresent
  rw [s1]
  simp only [featStep]
  cases h1 : (v f).present with
  | true => simp only [if_true]; rw [fix]
  | false =>
    simp only [Bool.false_eq_true, if_false]
    rw [solo_succ]
    simp only [featStep]
    cases h2 : (v f).init with
    | true => simp only [if_true]; rw [fix]
    | false =>
      simp only [Bool.false_eq_true, if_false]
      rw [solo_succ, solo_succ, solo_succ]
      simp only [featStep, if_true]
      rw [fix]

/-! ### The choice of an implementation -/

/-- How the selection leaves the variable and the thread, if its result is `r`. -/
def hwLeft {α : Type} (sw : α) : Res α → Option α × List (HwPc α)
  | .ok h => (some h, [.ready])
  | .abort => (some sw, [.stopped .abort])
  | .ub => (some sw, [.stopped .ub])

theorem hw_alone {α : Type} (sw : α) (cands : List (HwCand α)) (last : Res Unit) (cs : List (HwCand α)) (n : Nat) (hn : cs.length + 1 ≤ n) :
    interleave (hwStep sw cands last) (List.replicate n 0) (some sw, [.validate cs]) =
      hwLeft sw (cs.foldr (fun c next => cpusupportValidate c.feat (c.test (some sw)) c.val next) (last >>= fun _ => .ok sw)) := by
  have fixR : ∀ k v, interleave (hwStep sw cands last) (List.replicate k 0) (v, [HwPc.ready]) = (v, [.ready]) := fun k v => solo_fixed _ k v _ rfl
  have fixS : ∀ k v e, interleave (hwStep sw cands last) (List.replicate k 0) (v, [HwPc.stopped e]) = (v, [.stopped e]) :=
    fun k v e => solo_fixed _ k v _ rfl
  induction cs generalizing n with
  | nil =>
    obtain ⟨k, rfl⟩ : ∃ k, n = k + 1 := ⟨n - 1, by simp at hn; omega⟩
    rw [solo_succ]
    simp only [hwStep, List.foldr_nil]
    cases last with
    | ok u => rw [Res.bind_ok]; exact fixR k _
    | abort => exact fixS k _ _
    | ub => exact fixS k _ _
  | cons c cs ih =>
    obtain ⟨k, rfl⟩ : ∃ k, n = k + 1 := ⟨n - 1, by simp at hn; omega⟩
    have hk : cs.length + 1 ≤ k := by simp at hn; omega
    rw [solo_succ]
    simp only [hwStep, List.foldr_cons]
    unfold cpusupportValidate
    cases hf : c.feat with
    | false => simp only [Bool.false_eq_true, if_false]; exact ih k hk
    | true =>
      simp only [if_true]
      cases ht : c.test (some sw) with
      | ok b =>
        rw [Res.bind_ok]
        cases b with
        | false => simp only [Bool.false_eq_true, if_false]; exact ih k hk
        | true =>
          simp only [if_true]
          obtain ⟨j, rfl⟩ : ∃ j, k = j + 1 := ⟨k - 1, by omega⟩
          rw [solo_succ]
          exact fixR j _
      | abort => exact fixS k _ _
      | ub => exact fixS k _ _

/-- **C70.**  The selection of the SHA-256 routine by a thread that no other one disturbs is the sequential one (`hwaccel_init` of sha256.c), for any
implementations, right or wrong. -/
theorem C70_alone_sha (feat : ShaHw → Bool) (impl : ShaHw → Transform) (var : Option ShaHw) (n : Nat) (hn : 6 ≤ n) :
    interleave (hwStep .software (shaCands feat impl) (.ok ())) (List.replicate n 0) (var, [.check]) = hwLeft .software (hwaccel_init feat impl var) := by
  obtain ⟨k, rfl⟩ : ∃ k, n = k + 1 := ⟨n - 1, by omega⟩
  rw [solo_succ]
  cases var with
  | some h => exact solo_fixed _ k _ _ rfl
  | none =>
    simp only [hwStep]
    obtain ⟨j, rfl⟩ : ∃ j, k = j + 1 := ⟨k - 1, by omega⟩
    rw [if_neg (by simp), solo_succ]
    simp only [hwStep]
    exact hw_alone _ _ _ (shaCands feat impl) j (by simp [shaCands]; omega)

/-- **C71.**  So is the selection of the AES implementation (`hwaccel_init` of crypto_aes.c). -/
theorem C71_alone_selection (feat : AesHw → Bool) (mem : Option (List Bytes)) (setOk : Bool) (ossl : Ossl) (var : Option AesHw) (n : Nat) (hn : 5 ≤ n) :
    interleave (hwStep .software (aesCands feat mem) (aesLast setOk ossl)) (List.replicate n 0) (var, [.check]) =
      hwLeft .software (aes_hwaccel_init feat mem setOk ossl var) := by
  obtain ⟨k, rfl⟩ : ∃ k, n = k + 1 := ⟨n - 1, by omega⟩
  rw [solo_succ]
  cases var with
  | some h => exact solo_fixed _ k _ _ rfl
  | none =>
    simp only [hwStep]
    obtain ⟨j, rfl⟩ : ∃ j, k = j + 1 := ⟨k - 1, by omega⟩
    rw [if_neg (by simp), solo_succ]
    simp only [hwStep]
    rw [hw_alone _ _ _ (aesCands feat mem) j (by simp [aesCands]; omega)]
    unfold aesCands aes_hwaccel_init aesLast
    simp only [List.foldr_cons, List.foldr_nil]
    congr 3
    cases functest (openssl_oneshot setOk ossl) aesTestcases with
    | ok b => cases b <;> rfl
    | abort => rfl
    | ub => rfl

/-- **C70.**  A thread that calls crypto_scrypt undisturbed gets what crypto_scrypt gives. -/
theorem C70_alone_kdf (szMax : Nat) (var : Option SmixImpl) (c : KdfCall) (n : Nat) (hn : 4 ≤ n) :
    ((interleave (kdfStep szMax) (List.replicate n 0) (var, [⟨c, .check⟩])).2.map KdfThread.pc) =
      [.done (crypto_scrypt szMax c.sse2Ok c.e1 c.e2 c.env c.tf c.junk c.hbuf smixImpl var c.P c.S c.N c.r c.p c.buf c.buflen >>= fun o => .ok o.1)] := by
  have fix : ∀ k v r, interleave (kdfStep szMax) (List.replicate k 0) (v, [(⟨c, .done r⟩ : KdfThread)]) = (v, [⟨c, .done r⟩]) :=
    fun k v r => solo_fixed _ k v _ rfl
  obtain ⟨k, rfl⟩ : ∃ k, n = k + 4 := ⟨n - 4, by omega⟩
  unfold crypto_scrypt
  rw [solo_succ]
  cases var with
  | some f =>
    rw [show kdfStep szMax (some f) ⟨c, .check⟩ = (some f, ⟨c, .call⟩) from rfl, solo_succ]
    simp only [kdfStep]
    rw [fix]
    simp only [List.map_cons, List.map_nil]
    rw [show (pure f : Res SmixImpl) = .ok f from rfl, Res.bind_ok]
    cases crypto_scrypt_internal szMax c.env c.tf c.junk c.P c.S c.N c.r c.p c.buf c.buflen (smixImpl f) <;> rfl
  | none =>
    rw [show kdfStep szMax none ⟨c, .check⟩ = (none, ⟨c, .select⟩) from rfl, solo_succ]
    simp only [kdfStep]
    cases hs : selectsmix szMax c.sse2Ok c.e1 c.e2 c.tf c.junk c.hbuf smixImpl with
    | ok f =>
      simp only
      rw [solo_succ]
      simp only [kdfStep]
      rw [solo_succ]
      simp only [kdfStep]
      rw [fix]
      simp only [List.map_cons, List.map_nil, Res.bind_ok]
      cases crypto_scrypt_internal szMax c.env c.tf c.junk c.P c.S c.N c.r c.p c.buf c.buflen (smixImpl f) <;> rfl
    | abort => simp only; rw [fix]; rfl
    | ub => simp only; rw [fix]; rfl

theorem aes_lift (ossl : Ossl) (c : AesCall) (n : Nat) (v : Option AesHw) (pc : HwPc AesHw) :
    ∀ v' pc', interleave (hwStep .software (aesCands c.feat c.mem) (aesLast c.setOk ossl)) (List.replicate n 0) (v, [pc]) = (v', [pc']) →
    ∃ m, m ≤ n ∧ ∀ k, interleave (aesStep ossl) (List.replicate (m + k) 0) (v, [⟨c, .init pc⟩]) =
      interleave (aesStep ossl) (List.replicate k 0) (v', [⟨c, .init pc'⟩]) := by
  induction n generalizing v pc with
  | zero =>
    intro v' pc' h
    cases h
    exact ⟨0, Nat.le_refl _, fun k => by rw [Nat.zero_add]⟩
  | succ n ih =>
    intro v' pc' h
    by_cases hr : pc = .ready ∨ ∃ e, pc = .stopped e
    · have hf : hwStep .software (aesCands c.feat c.mem) (aesLast c.setOk ossl) v pc = (v, pc) := by
        rcases hr with rfl | ⟨e, rfl⟩ <;> rfl
      rw [solo_fixed _ _ _ _ hf] at h
      cases h
      exact ⟨0, Nat.zero_le _, fun k => by rw [Nat.zero_add]⟩
    · rw [solo_succ] at h
      obtain ⟨m, h1, h2⟩ := ih _ _ _ _ h
      refine ⟨m + 1, by omega, fun k => ?_⟩
      rw [show m + 1 + k = m + k + 1 by omega, solo_succ, ← h2 k]
      cases pc with
      | ready => exact absurd (.inl rfl) hr
      | stopped e => exact absurd (.inr ⟨e, rfl⟩) hr
      | check => rfl
      | default => rfl
      | validate cs => cases cs <;> rfl
      | assign x => rfl

/-- **C71.**  A thread that expands a key and encrypts a block undisturbed gets what crypto_aes_key_expand and crypto_aes_encrypt_block give with the
implementation selected by `hwaccel_init`. -/
theorem C71_alone (ossl : Ossl) (c : AesCall) (var : Option AesHw) (n : Nat) (hn : 8 ≤ n) :
    ((interleave (aesStep ossl) (List.replicate n 0) (var, [⟨c, .init .check⟩])).2.map AesThread.pc) =
      [.done (aes_hwaccel_init c.feat c.mem c.setOk ossl var >>= fun h => crypto_aes_key_expand h c.env c.key c.len >>= fun k =>
        match k with
        | none => .ok none
        | some k => crypto_aes_encrypt_block h ossl c.inp k >>= fun b => .ok (some b))] := by
  have fix : ∀ k v r, interleave (aesStep ossl) (List.replicate k 0) (v, [(⟨c, .done r⟩ : AesThread)]) = (v, [⟨c, .done r⟩]) :=
    fun k v r => solo_fixed _ k v _ rfl
  have hsel := C71_alone_selection c.feat c.mem c.setOk ossl var 5 (Nat.le_refl _)
  cases hi : aes_hwaccel_init c.feat c.mem c.setOk ossl var with
  | ok h =>
    rw [hi] at hsel
    obtain ⟨m, hm, hk⟩ := aes_lift ossl c 5 var .check _ _ hsel
    obtain ⟨k, rfl⟩ : ∃ k, n = m + (k + 3) := ⟨n - m - 3, by omega⟩
    rw [hk, Res.bind_ok, solo_succ, show aesStep ossl (some h) ⟨c, .init .ready⟩ = (some h, ⟨c, .expand⟩) from rfl, solo_succ]
    simp only [aesStep, Option.getD_some]
    cases he : crypto_aes_key_expand h c.env c.key c.len with
    | ok x =>
      rw [Res.bind_ok]
      cases x with
      | none => simp only; rw [fix]; rfl
      | some key =>
        simp only
        rw [solo_succ]
        simp only [aesStep, Option.getD_some]
        rw [fix]
        rfl
    | abort => simp only; rw [fix]; rfl
    | ub => simp only; rw [fix]; rfl
  | abort =>
    rw [hi] at hsel
    obtain ⟨m, hm, hk⟩ := aes_lift ossl c 5 var .check _ _ hsel
    obtain ⟨k, rfl⟩ : ∃ k, n = m + (k + 1) := ⟨n - m - 1, by omega⟩
    rw [hk, solo_succ]
    simp only [aesStep]
    rw [fix]
    rfl
  | ub =>
    rw [hi] at hsel
    obtain ⟨m, hm, hk⟩ := aes_lift ossl c 5 var .check _ _ hsel
    obtain ⟨k, rfl⟩ : ∃ k, n = m + (k + 1) := ⟨n - m - 1, by omega⟩
    rw [hk, solo_succ]
    simp only [aesStep]
    rw [fix]
    rfl

/-- **C71.**  A thread that asks for 32 random bytes undisturbed gets those that `generate` gives, and leaves the generator as it does. -/
theorem C71_alone_random (sys : DrbgSys) (g : sys.Good) (st : Drbg) (buf : Bytes) (hb : buf.length = 32)
    (out : Bytes) (st' : Drbg) (h : generate sys st buf 0 32 = .ok (out, st')) (n : Nat) (hn : 4 ≤ n) :
    interleave (randStep sys) (List.replicate n 0) (st, [.hash]) = (st', [.done (.ok out)]) := by
  have fix : ∀ k v r, interleave (randStep sys) (List.replicate k 0) (v, [RandPc.done r]) = (v, [.done r]) := fun k v r => solo_fixed _ k v _ rfl
  obtain ⟨k, rfl⟩ : ∃ k, n = k + 4 := ⟨n - 4, by omega⟩
  unfold generate at h
  rw [show (32 + 31) / 32 = 0 + 1 from rfl] at h
  simp only [Res.bind_eq_ok] at h
  obtain ⟨-, -, -, -, ⟨b, V⟩, hl, s2, hu, h⟩ := h
  rw [forLoop_succ, forLoop_zero, Res.bind_ok] at hl
  unfold genStep at hl
  rw [Res.bind_eq_ok] at hl
  obtain ⟨V', hV, hl⟩ := hl
  rw [Res.bind_eq_ok] at hl
  obtain ⟨b', hb', hl⟩ := hl
  obtain ⟨e1, e2⟩ := Prod.mk.inj (Res.ok.inj hl)
  subst e1 e2
  have hu : drbgUpdate sys { st with V := V' } [] = .ok s2 := hu
  have hh := Prod.mk.inj (Res.ok.inj h)
  rw [solo_succ]
  simp only [randStep]
  rw [hV]
  simp only
  rw [solo_succ]
  simp only [randStep]
  rw [solo_succ]
  simp only [randStep]
  rw [solo_succ]
  simp only [randStep]
  rw [hu]
  simp only
  rw [fix, ← hh.1, ← hh.2]
  have hV' : V'.length = 32 := by
    rw [HMAC_SHA256_Buf_spec sys.tf g.tf sys.junk g.junk] at hV
    rw [← Res.ok.inj hV]
    exact hmac_length _ _
  have hb' : wrSlice buf (0 + 32 * 0) (V'.take (if 32 - 32 * 0 ≥ 32 then 32 else 32 - 32 * 0)) = .ok b' := hb'
  have ht : V'.take 32 = V' := List.take_of_length_le (by omega)
  rw [show (if 32 - 32 * 0 ≥ 32 then 32 else 32 - 32 * 0) = 32 from rfl, ht, wrSlice_ok (by omega)] at hb'
  rw [ht, ← Res.ok.inj hb', List.drop_eq_nil_of_le (by omega)]
  simp

/-- `generate` does give 32 bytes, whenever the generator was seeded and no reseeding is due. -/
example (sys : DrbgSys) (g : sys.Good) (st : Drbg) (s : Spec.Drbg.State) (hs : Rep st (some s)) (hc : s.served < 256) :
    ∃ out st', generate sys st (List.replicate 32 0) 0 32 = .ok (out, st') ∧
      interleave (randStep sys) (List.replicate 4 0) (st, [.hash]) = (st', [.done (.ok out)]) := by
  obtain ⟨st', w, h, -⟩ := generate_spec g hs hc (List.replicate 32 0) 0 32 (by omega) (by simp)
  exact ⟨_, _, h, C71_alone_random sys g st _ (by simp) _ _ h 4 (Nat.le_refl _)⟩

end Scrypt.Props
