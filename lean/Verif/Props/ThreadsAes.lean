import Verif.Props.Threads
import Verif.Props.Entropy
import Mathlib.Tactic.ByContra
import Mathlib.Tactic.Common
/-
C71: AES and the random-number generator when they are used from several threads, with findings F27 and F28.
-/
namespace Scrypt.Props
open Scrypt.Spec

/-- A thread about to expand a key and encrypt a block. -/
def aesStart (calls : List AesCall) : List AesThread := calls.map fun c => ⟨c, .init .check⟩

/-- What a caller must provide: a key length the library accepts, the key and block in full, and memory of the right size. -/
structure _root_.Scrypt.AesCall.Good (c : AesCall) : Prop where
  len : c.len = 16 ∨ c.len = 32
  key : c.len ≤ c.key.length
  inp : c.inp.length = 16
  mem : ∀ rk, c.env.mem = some rk → rk.length = 15

/-- The result of a call: the key could not be expanded, or the block has been encrypted as FIPS 197 says. -/
def AesRight (c : AesCall) (r : Res (Option Bytes)) : Prop := r = .ok none ∨ r = .ok (some (Spec.aes (c.key.take c.len) c.inp))

theorem aes_interleave (ossl : Ossl) (h : AesHw) (ho : h = .software → GoodOssl ossl) (calls : List AesCall) (hg : ∀ c ∈ calls, c.Good)
    (P : Option AesHw → Prop) (start : AesPc → Prop)
    (hP : ∀ g, P g → g.getD .software = h) (hs : ∀ c pc g, c ∈ calls → P g → start pc → P (aesStep ossl g ⟨c, pc⟩).1 ∧
      (start (aesStep ossl g ⟨c, pc⟩).2.pc ∨ (aesStep ossl g ⟨c, pc⟩).2.pc = .expand))
    (h0 : start (.init .check)) (hne : ∀ r, ¬ start (.done r))
    (var : Option AesHw) (hv : P var) (sched : List Nat) (i : Nat) (c : AesCall) (hc : calls[i]? = some c) (r : Res (Option Bytes))
    (hr : ((interleave (aesStep ossl) sched (var, aesStart calls)).2[i]?).map AesThread.pc = some (.done r)) : AesRight c r := by
  have hcst : ∀ g t, (aesStep ossl g t).2.c = t.c := by
    rintro g ⟨c, pc⟩
    cases pc with
    | init pc => cases pc <;> rfl
    | _ => rfl
  have main := interleave_inv (step := aesStep ossl) P
    (fun i g t => calls[i]? = some t.c ∧ (start t.pc ∨ t.pc = .expand ∨
      (∃ k, t.pc = .encrypt k ∧ crypto_aes_encrypt_block h ossl t.c.inp k = .ok (Spec.aes (t.c.key.take t.c.len) t.c.inp)) ∨
      (∃ r, t.pc = .done r ∧ AesRight t.c r)))
    (by
      rintro i g ⟨c, pc⟩ hp ⟨h1, h2⟩
      have gc := hg c (List.mem_of_getElem? h1)
      have hgh := hP g hp
      simp only at h1 h2
      rcases h2 with h2 | h2 | ⟨k, h2, h3⟩ | ⟨r, h2, h3⟩
      · obtain ⟨a, b⟩ := hs c pc g (List.mem_of_getElem? h1) hp h2
        refine ⟨a, by rw [hcst]; exact h1, ?_⟩
        rcases b with b | b
        · exact .inl b
        · exact .inr (.inl b)
      · subst h2
        refine ⟨hp, h1, ?_⟩
        rcases C26_dispatch h ossl ho c.env gc.mem c.key c.len gc.len gc.key with e | ⟨a, e, f⟩
        · refine .inr (.inr (.inr ⟨.ok none, ?_, .inl rfl⟩))
          simp only [aesStep, hgh, e]
        · refine .inr (.inr (.inl ⟨a, ?_, f _ gc.inp⟩))
          simp only [aesStep, hgh, e]
      · subst h2
        refine ⟨hp, h1, .inr (.inr (.inr ⟨.ok (some (Spec.aes (c.key.take c.len) c.inp)), ?_, .inr rfl⟩))⟩
        simp only [aesStep, hgh, h3, Res.bind_ok]
      · subst h2
        exact ⟨hp, h1, .inr (.inr (.inr ⟨r, rfl, h3⟩))⟩)
    (by
      rintro i g ⟨c, pc⟩ hp - j u hu
      exact hu)
    sched (var, aesStart calls) hv (by
      intro i t hi
      simp only [aesStart, List.getElem?_map, Option.map_eq_some_iff] at hi
      obtain ⟨c, hc, rfl⟩ := hi
      exact ⟨hc, .inl h0⟩)
  rw [Option.map_eq_some_iff] at hr
  obtain ⟨t, ht, hp⟩ := hr
  obtain ⟨q1, q2⟩ := main.2 i t ht
  rw [hc] at q1
  obtain rfl := Option.some.inj q1
  rw [hp] at q2
  rcases q2 with q | q | ⟨k, q, -⟩ | ⟨r', q, q'⟩
  · exact absurd q (hne r)
  · cases q
  · cases q
  · rw [AesPc.done.inj q]; exact q'

/-- C71. Once an AES implementation has been selected (one earlier call has got past the selection), any number of threads may expand keys and
encrypt in any interleaving: each of them gets the FIPS 197 encryption of its own block under its own key, or the report that the expansion failed. -/
theorem C71_after_first_use (ossl : Ossl) (h : AesHw) (ho : h = .software → GoodOssl ossl) (calls : List AesCall) (hg : ∀ c ∈ calls, c.Good)
    (sched : List Nat) (i : Nat) (c : AesCall) (hc : calls[i]? = some c) (r : Res (Option Bytes))
    (hr : ((interleave (aesStep ossl) sched (some h, aesStart calls)).2[i]?).map AesThread.pc = some (.done r)) : AesRight c r := by
  refine aes_interleave ossl h ho calls hg (fun g => g = some h) (fun pc => pc = .init .check ∨ pc = .init .ready) (fun g hg => by rw [hg]; rfl) ?_ (.inl rfl) (by simp)
    (some h) rfl sched i c hc r hr
  rintro c pc g - rfl (rfl | rfl)
  · exact ⟨rfl, .inl (.inr rfl)⟩
  · exact ⟨rfl, .inr rfl⟩

/-- C71. Where no AES instructions are available the first use is no exception: any number of threads, from the program's start, in any interleaving. -/
theorem C71_without_instructions (ossl : Ossl) (ho : GoodOssl ossl) (calls : List AesCall) (hg : ∀ c ∈ calls, c.Good)
    (hf : ∀ c ∈ calls, c.setOk = true ∧ ∀ h, c.feat h = false)
    (sched : List Nat) (i : Nat) (c : AesCall) (hc : calls[i]? = some c) (r : Res (Option Bytes))
    (hr : ((interleave (aesStep ossl) sched (none, aesStart calls)).2[i]?).map AesThread.pc = some (.done r)) : AesRight c r := by
  have t0 : functest (openssl_oneshot true ossl) aesTestcases = .ok true :=
    functest_pass _ (fun key len p h1 h2 h3 => oneshot_ossl ossl ho key len h1 h2 p h3)
  refine aes_interleave ossl .software (fun _ => ho) calls hg (fun g => g = none ∨ g = some .software)
    (fun pc => ∃ p, pc = .init p ∧ (p = .check ∨ p = .default ∨ p = .ready ∨ ∃ cs, p = .validate cs ∧ ∀ d ∈ cs, d.feat = false))
    (fun g hg => by rcases hg with rfl | rfl <;> rfl) ?_ ⟨_, rfl, .inl rfl⟩ (by rintro r ⟨p, h, -⟩; cases h) none (.inl rfl) sched i c hc r hr
  rintro c pc g hc hv ⟨p, rfl, (rfl | rfl | rfl | ⟨cs, rfl, hcs⟩)⟩
  · refine ⟨hv, .inl ?_⟩
    rcases hv with rfl | rfl
    · exact ⟨_, rfl, .inr (.inl rfl)⟩
    · exact ⟨_, rfl, .inr (.inr (.inl rfl))⟩
  · refine ⟨.inr rfl, .inl ⟨_, rfl, .inr (.inr (.inr ⟨_, rfl, ?_⟩))⟩⟩
    intro d hd
    simp only [aesCands, List.mem_cons, List.not_mem_nil, or_false] at hd
    rcases hd with rfl | rfl <;> exact (hf c hc).2 _
  · exact ⟨hv, .inr rfl⟩
  · cases cs with
    | nil =>
      refine ⟨hv, .inl ⟨.ready, ?_, .inr (.inr (.inl rfl))⟩⟩
      simp only [aesStep, hwStep, aesLast, (hf c hc).1, t0, Res.bind_ok, if_true]
    | cons d cs =>
      refine ⟨hv, .inl ⟨.validate cs, ?_, .inr (.inr (.inr ⟨_, rfl, fun d hd => hcs d (by simp [hd])⟩))⟩⟩
      simp only [aesStep, hwStep, hcs d (by simp), Bool.false_eq_true, if_false]

/-- C71. Every thread finishes after eight of its own steps, whatever the others do. -/
theorem C71_finishes (ossl : Ossl) (var : Option AesHw) (calls : List AesCall) (sched : List Nat) (i : Nat) (hi : i < calls.length)
    (h : 8 ≤ sched.count i) : ∃ r, ((interleave (aesStep ossl) sched (var, aesStart calls)).2[i]?).map AesThread.pc = some (.done r) := by
  obtain ⟨u, hu, hm⟩ := interleave_progress (step := aesStep ossl)
    (fun t => match t.pc with
      | .init .check => 8 | .init .default => 7 | .init (.validate cs) => cs.length + 4 | .init (.assign _) => 4 | .init .ready => 3 | .init (.stopped _) => 1
      | .expand => 2 | .encrypt _ => 1 | .done _ => 0)
    (by
      rintro g ⟨c, pc⟩
      cases pc with
      | init pc =>
        cases pc with
        | check => cases g <;> simp [aesStep, hwStep]
        | default => simp [aesStep, hwStep, aesCands]
        | validate cs =>
          cases cs with
          | nil =>
            simp only [aesStep, hwStep]
            cases aesLast c.setOk ossl <;> simp
          | cons d cs =>
            simp only [aesStep, hwStep]
            cases d.feat with
            | false => simp
            | true =>
              simp only [if_true]
              cases d.test g with
              | ok b => cases b <;> simp
              | ub => simp
              | abort => simp
        | assign v => simp [aesStep, hwStep]
        | ready => simp [aesStep]
        | stopped e => simp [aesStep]
      | expand =>
        simp only [aesStep]
        cases crypto_aes_key_expand (g.getD .software) c.env c.key c.len with
        | ok k => cases k <;> simp
        | ub => simp
        | abort => simp
      | encrypt k => simp [aesStep]
      | done r => simp [aesStep])
    sched (var, aesStart calls) i ⟨calls[i], .init .check⟩ (by simp [aesStart, hi])
  rw [hu]
  obtain ⟨c, pc⟩ := u
  simp only at hm
  cases pc with
  | done r => exact ⟨r, rfl⟩
  | init pc => cases pc <;> simp only at hm <;> omega
  | _ => simp only at hm; omega

/-- A call for the examples: the processor has AES-NI. -/
def exAesCall : AesCall :=
  { feat := fun h => decide (h = .x86_aesni), mem := some (List.replicate 15 []), setOk := true, env := ⟨some (List.replicate 15 []), true⟩,
    key := List.replicate 32 7, len := 32, inp := List.replicate 16 1 }

theorem exAesCall_good : exAesCall.Good where
  len := .inr rfl
  key := by decide
  inp := by decide
  mem := by rintro rk ⟨⟩; decide

/-- Non-vacuity of `C71_after_first_use`: two threads on a processor with AES-NI, interleaved. -/
example (ossl : Ossl) : ∃ r, ((interleave (aesStep ossl) [0, 1, 0, 1, 1, 0, 0, 1, 0, 0, 0, 0] (some .x86_aesni, aesStart [exAesCall, exAesCall])).2[0]?).map AesThread.pc =
    some (.done r) ∧ AesRight exAesCall r := by
  obtain ⟨r, hr⟩ := C71_finishes ossl (some .x86_aesni) [exAesCall, exAesCall] [0, 1, 0, 1, 1, 0, 0, 1, 0, 0, 0, 0] 0 (by decide) (by decide)
  refine ⟨r, hr, C71_after_first_use ossl .x86_aesni nofun _ ?_ _ 0 _ rfl r hr⟩
  intro c hc
  simp only [List.mem_cons, List.not_mem_nil, or_false, or_self] at hc
  subst hc
  exact exAesCall_good

/-- Non-vacuity of `C71_without_instructions`: the schedule of finding F27 is harmless without AES instructions. -/
example : ∃ r, ((interleave (aesStep Spec.aes) [0, 0, 1, 1, 1, 0, 0, 1, 1, 1, 1, 1] (none, aesStart [{ exAesCall with feat := fun _ => false },
      { exAesCall with feat := fun _ => false }])).2[1]?).map AesThread.pc = some (.done r) ∧ AesRight { exAesCall with feat := fun _ => false } r := by
  obtain ⟨r, hr⟩ := C71_finishes Spec.aes none [{ exAesCall with feat := fun _ => false }, { exAesCall with feat := fun _ => false }]
    [0, 0, 1, 1, 1, 0, 0, 1, 1, 1, 1, 1] 1 (by decide) (by decide)
  refine ⟨r, hr, C71_without_instructions Spec.aes (fun _ _ _ _ => rfl) _ ?_ ?_ _ 1 _ rfl r hr⟩ <;> intro c hc <;>
    simp only [List.mem_cons, List.not_mem_nil, or_false, or_self] at hc <;> subst hc
  · exact ⟨.inr rfl, exAesCall_good.key, exAesCall_good.inp, exAesCall_good.mem⟩
  · exact ⟨rfl, fun _ => rfl⟩

/-- Finding F27.  On a processor with AES-NI, two threads whose first uses of AES overlap: the second one arrives while the variable says "software" (which it does
during the first one's self-test), makes an OpenSSL key, and then encrypts with it through the AES-NI code, which takes it for something else: undefined
behaviour (a wild pointer, or a wrong ciphertext). -/
theorem C71_F27_mixed (ossl : Ossl) :
    ((interleave (aesStep ossl) [0, 0, 1, 1, 1, 0, 0, 1] (none, aesStart [exAesCall, exAesCall])).2[1]?).map AesThread.pc = some (.done .ub) := by
  have t1 : functest (x86_aesni_oneshot exAesCall.mem) aesTestcases = .ok true :=
    functest_pass _ (fun key len p h1 h2 h3 => oneshot_aesni (List.replicate 15 []) List.length_replicate key len h1 h2 p h3)
  have e1 : crypto_aes_key_expand .software exAesCall.env exAesCall.key exAesCall.len = .ok (some (.ossl (List.replicate 32 7))) := by decide
  have s1 : aesStep ossl none ⟨exAesCall, .init .check⟩ = (none, ⟨exAesCall, .init .default⟩) := rfl
  have s2 : aesStep ossl none ⟨exAesCall, .init .default⟩ = (some .software, ⟨exAesCall, .init (.validate (aesCands exAesCall.feat exAesCall.mem))⟩) := rfl
  have s3 : aesStep ossl (some .software) ⟨exAesCall, .init .check⟩ = (some .software, ⟨exAesCall, .init .ready⟩) := rfl
  have s4 : aesStep ossl (some .software) ⟨exAesCall, .init .ready⟩ = (some .software, ⟨exAesCall, .expand⟩) := rfl
  have s5 : aesStep ossl (some .software) ⟨exAesCall, .expand⟩ = (some .software, ⟨exAesCall, .encrypt (.ossl (List.replicate 32 7))⟩) := by
    simp only [aesStep, Option.getD_some, e1]
  have s6 : aesStep ossl (some .software) ⟨exAesCall, .init (.validate (aesCands exAesCall.feat exAesCall.mem))⟩ =
      (some .software, ⟨exAesCall, .init (.assign .x86_aesni)⟩) := by
    simp only [aesStep, hwStep, aesCands, show exAesCall.feat .x86_aesni = true from rfl, if_true, t1]
  have s7 : aesStep ossl (some .software) ⟨exAesCall, .init (.assign .x86_aesni)⟩ = (some .x86_aesni, ⟨exAesCall, .init .ready⟩) := rfl
  have s8 : aesStep ossl (some .x86_aesni) ⟨exAesCall, .encrypt (.ossl (List.replicate 32 7))⟩ = (some .x86_aesni, ⟨exAesCall, .done .ub⟩) := rfl
  simp only [aesStart, List.map_cons, List.map_nil, interleave, List.getElem?_cons_zero, List.getElem?_cons_succ, List.set_cons_zero, List.set_cons_succ,
    s1, s2, s3, s4, s5, s6, s7, s8, Option.map_some]

/-- Finding F28.  Two threads that ask the generator for 32 bytes (a salt) at the same time can be given the same bytes: both compute the next block from the same
state before either stores it. -/
theorem C71_F28_same_bytes (sys : DrbgSys) (g : sys.Good) (st : Drbg) :
    ∃ out, (interleave (randStep sys) [0, 1, 0, 1, 0, 1, 0, 1] (st, [.hash, .hash])).2 = [.done (.ok out), .done (.ok out)] := by
  have h1 : HMAC_SHA256_Buf sys.tf sys.junk st.Key st.V = .ok (hmac st.Key st.V) := HMAC_SHA256_Buf_spec sys.tf g.tf sys.junk g.junk _ _
  have hl : (hmac st.Key st.V).length = 32 := hmac_length _ _
  have s1 : randStep sys st .hash = (st, .writeV (hmac st.Key st.V)) := by simp only [randStep, h1]
  generalize hmac st.Key st.V = V at *
  have s2 : randStep sys st (.writeV V) = ({ st with V := V }, .copy) := rfl
  have s3 : randStep sys { st with V := V } (.writeV V) = ({ st with V := V }, .copy) := rfl
  have s4 : randStep sys { st with V := V } .copy = ({ st with V := V }, .update (V.take 32)) := rfl
  obtain ⟨st1, e1, hv1⟩ : ∃ st1, drbgUpdate sys { st with V := V } [] = .ok st1 ∧ st1.V.length = 32 :=
    ⟨_, drbgUpdate_spec g _ hl [], (update_length _ _ _).2⟩
  have e2 := drbgUpdate_spec g { st1 with reseed_counter := st1.reseed_counter + 1 } hv1 []
  have s5 : randStep sys { st with V := V } (.update (V.take 32)) = ({ st1 with reseed_counter := st1.reseed_counter + 1 }, .done (.ok (V.take 32))) := by
    simp only [randStep, e1]
  have s6 : (randStep sys { st1 with reseed_counter := st1.reseed_counter + 1 } (.update (V.take 32))).2 = .done (.ok (V.take 32)) := by
    simp only [randStep, e2]
  refine ⟨V.take 32, ?_⟩
  simp only [interleave, List.getElem?_cons_zero, List.getElem?_cons_succ, List.set_cons_zero, List.set_cons_succ, s1, s2, s3, s4, s5, s6]

end Scrypt.Props
