import Verif.Props.CpuSupport
import Verif.Proofs.Process
/-
C56 for histories of library calls.
-/
namespace Scrypt
open Spec (Ext Cpu CpuidRegs)

/-- The computation, if it returns, returns something with property `Q`. -/
def Post {α : Type} (x : Res α) (Q : α → Prop) : Prop := ∀ a, x = .ok a → Q a

theorem Post.ok {α : Type} {a : α} {Q : α → Prop} (h : Q a) : Post (.ok a) Q := fun _ e => Res.ok.inj e ▸ h

theorem Post.bind {α β : Type} {x : Res α} {f : α → Res β} {Q : β → Prop} (h : ∀ a, Post (f a) Q) : Post (x >>= f) Q := by
  intro b e
  obtain ⟨a, -, h2⟩ := Res.bind_eq_ok.1 e
  exact h a b h2

theorem Post.bind' {α β : Type} {x : Res α} {f : α → Res β} {Q : β → Prop} {R : α → Prop} (hx : Post x R) (h : ∀ a, R a → Post (f a) Q) : Post (x >>= f) Q := by
  intro b e
  obtain ⟨a, h1, h2⟩ := Res.bind_eq_ok.1 e
  exact h a (hx a h1) b h2

theorem none_some {α : Type} {p : Prop} {y : α} (h : none = some y) : p := nomatch h

/-- The smix routine selected, if any, may be used. -/
def SmixAllowed (sse2 : Bool) (s : Option SmixImpl) : Prop := ∀ f, s = some f → f = .sse2 → sse2 = true

theorem scrypt_allowed (szMax : Nat) (sse2Ok : Bool) (e1 e2 env : ScEnv) (tf : Transform) (junk : HMAC_SHA256_CTX) (hbuf : Bytes) (impl : SmixImpl → SmixFn)
    (st : Option SmixImpl) (P S : Bytes) (N : W64) (r p : W32) (buf : Bytes) (buflen : Nat) (h : SmixAllowed sse2Ok st) :
    Post (crypto_scrypt szMax sse2Ok e1 e2 env tf junk hbuf impl st P S N r p buf buflen) fun x => SmixAllowed sse2Ok x.2 := by
  rintro ⟨o, st'⟩ e
  obtain ⟨f, h1, h2, -⟩ := Props.call_inv e
  show SmixAllowed sse2Ok st'
  subst h1
  rintro g e1 rfl
  cases e1
  rcases h2 with h2 | ⟨-, h2⟩
  · exact h _ h2 rfl
  · exact (selectsmix_passed _ _ _ _ _ _ _ _ _ h2).2 rfl

theorem encSetup_allowed (sys : EncSys) (passwd : Bytes) (P : EncParams) (v f : Bool) (h : SmixAllowed sys.sse2Ok sys.smix) :
    Post (scryptenc_setup sys passwd P v f) fun s => SmixAllowed sys.sse2Ok s.smix := by
  unfold scryptenc_setup
  refine Post.bind fun ⟨rc, P', err⟩ => ?_
  dsimp only []
  split
  · exact .ok h
  · refine Post.bind fun _ => ?_
    split
    · exact .ok h
    · refine Post.bind' (scrypt_allowed _ _ _ _ _ _ _ _ _ _ _ _ _ _ _ _ _ h) fun ⟨o, st⟩ hy => ?_
      dsimp only []
      split
      · exact .ok hy
      · exact .bind fun _ => .ok hy

theorem decSetup_allowed (sys : EncSys) (header passwd : Bytes) (P : EncParams) (v f : Bool) (h : SmixAllowed sys.sse2Ok sys.smix) :
    Post (scryptdec_setup sys header passwd P v f) fun s => SmixAllowed sys.sse2Ok s.smix := by
  unfold scryptdec_setup
  refine .bind fun _ => .bind fun _ => .bind fun _ => .bind fun _ => .bind fun _ => .bind fun _ => .bind fun _ => ?_
  split
  · exact .ok h
  · refine .bind fun ⟨rc, t⟩ => ?_
    dsimp only []
    split
    · exact .ok h
    · refine Post.bind' (scrypt_allowed _ _ _ _ _ _ _ _ _ _ _ _ _ _ _ _ _ h) fun ⟨o, st⟩ hy => ?_
      dsimp only []
      split
      · exact .ok hy
      · unfold checkSig
        refine .bind fun _ => .bind fun _ => .bind fun _ => ?_
        split <;> exact .ok hy

theorem encBuf_allowed (sys : EncSys) (inbuf outbuf passwd : Bytes) (P : EncParams) (v f : Bool) (h : SmixAllowed sys.sse2Ok sys.smix) :
    Post (scryptenc_buf sys inbuf outbuf passwd P v f) fun s => SmixAllowed sys.sse2Ok s.smix := by
  unfold scryptenc_buf
  refine .bind fun _ => .bind' (encSetup_allowed _ _ _ _ _ h) fun s hs => ?_
  split
  · exact .ok hs
  · unfold encBufBody
    refine .bind fun _ => .bind fun _ => .bind fun _ => ?_
    split
    · exact .ok hs
    · exact .bind fun _ => .bind fun _ => .bind fun _ => .bind fun _ => .bind fun _ => .bind fun _ => .ok hs

theorem decBuf_allowed (sys : EncSys) (inbuf outbuf : Bytes) (outlen : Nat) (passwd : Bytes) (P : EncParams) (v f : Bool) (h : SmixAllowed sys.sse2Ok sys.smix) :
    Post (scryptdec_buf sys inbuf outbuf outlen passwd P v f) fun s => SmixAllowed sys.sse2Ok s.smix := by
  unfold scryptdec_buf
  refine .bind fun _ => ?_
  split
  · exact .ok h
  · refine .bind fun _ => ?_
    split
    · exact .ok h
    · split
      · exact .ok h
      · refine .bind' (decSetup_allowed _ _ _ _ _ _ h) fun s hs => ?_
        split
        · exact .ok hs
        · unfold decBufBody
          refine .bind fun _ => ?_
          split
          · exact .ok hs
          · exact .bind fun _ => .bind fun _ => .bind fun _ => .bind fun _ => .bind fun _ => .bind fun _ => .bind fun _ => .ok hs

theorem encFile_allowed (sys : EncSys) (inf : InFile) (outf : OutFile) (passwd : Bytes) (P : EncParams) (v f : Bool) (h : SmixAllowed sys.sse2Ok sys.smix) :
    Post (scryptenc_file sys inf outf passwd P v f) fun s => SmixAllowed sys.sse2Ok s.smix := by
  unfold scryptenc_file
  refine .bind fun _ => .bind' (encSetup_allowed _ _ _ _ _ h) fun s hs => ?_
  split
  · exact .ok hs
  · unfold encFileBody
    refine .bind fun _ => .bind fun _ => .bind fun _ => .bind fun _ => ?_
    simp only []
    split
    · exact .ok hs
    · refine .bind fun _ => ?_
      split
      · exact .ok hs
      · refine .bind fun _ => ?_
        unfold encFileEnd
        split
        · exact .ok hs
        · split
          · exact .ok hs
          · exact .bind fun _ => .bind fun _ => .ok hs

theorem decFile_allowed (sys : EncSys) (inf : InFile) (outf : OutFile) (passwd : Bytes) (P : EncParams) (v f : Bool) (h : SmixAllowed sys.sse2Ok sys.smix) :
    Post (scryptdec_file sys inf outf passwd P v f) fun s => SmixAllowed sys.sse2Ok s.smix := by
  unfold scryptdec_file
  refine .bind fun _ => .bind' (R := fun p => SmixAllowed sys.sse2Ok p.smix) ?_ fun p hp => ?_
  · unfold scryptdec_file_prep
    refine .bind fun _ => ?_
    split
    · exact .ok h
    · refine .bind fun _ => ?_
      simp only []
      split
      · exact .ok h
      · refine .bind' (decSetup_allowed _ _ _ _ _ _ h) fun s hs => ?_
        split <;> exact .ok hs
  · split
    · exact .ok hp
    · exact .bind fun _ => .ok hp

theorem perfLoop_allowed (m : Machine) (e : CallEnv) (tf : Transform) (N : W64) (t0 : Timeval) (bound : F64) : ∀ (steps : List PerfEnv) (i : Nat)
    (st : Option SmixImpl), SmixAllowed m.sse2 st → Post (perfLoopL m e tf N t0 bound i steps st) fun x => SmixAllowed m.sse2 x.2
  | [], _, st, h => by rw [perfLoopL]; exact .ok h
  | s :: steps, i, st, h => by
    rw [perfLoopL]
    refine .bind' (scrypt_allowed _ _ _ _ _ _ _ _ _ _ _ _ _ _ _ _ _ h) fun y hy => ?_
    split
    · exact .ok hy
    · split
      · exact .ok hy
      · split
        · exact .ok hy
        · exact perfLoop_allowed m e tf N t0 bound steps (i + 1) _ hy

theorem cpuperf_allowed (m : Machine) (e : CallEnv) (tf : Transform) (st : Option SmixImpl) (h : SmixAllowed m.sse2 st) :
    Post (cpuperfL m e tf st) fun x => SmixAllowed m.sse2 x.2 := by
  unfold cpuperfL
  split
  · exact .ok h
  · split
    · exact .ok h
    · refine .bind' (perfLoop_allowed _ _ _ _ _ _ _ _ _ h) fun y hy => ?_
      split
      · exact .ok hy
      · exact .ok hy
      · unfold perfPhase2L
        split
        · exact .ok hy
        · refine .bind' (perfLoop_allowed _ _ _ _ _ _ _ _ _ hy) fun z hz => ?_
          split <;> exact .ok hz

/-- Only what the machine has is selected. -/
structure SelOk (m : Machine) (st : Statics) : Prop where
  sha : ∀ h, st.sha = some h → h ≠ .software → m.shaFeat h = true
  aes : ∀ h, st.aes = some h → h ≠ .software → m.aesFeat h = true
  smix : SmixAllowed m.sse2 st.smix

theorem sha_allowed (m : Machine) (st : Option ShaHw) (h : ∀ h, st = some h → h ≠ .software → m.shaFeat h = true) :
    Post (hwaccel_init m.shaFeat shaTransform st) fun x => x ≠ .software → m.shaFeat x = true := by
  intro x e
  cases st with
  | some y => cases e; exact h x rfl
  | none =>
    rcases Props.C43_sha256_selected_passed _ _ _ e with h1 | h1
    · exact fun h => absurd h1 h
    · exact fun _ => h1.1

theorem aes_allowed (m : Machine) (mem : Option (List Bytes)) (setOk : Bool) (st : Option AesHw) (h : ∀ h, st = some h → h ≠ .software → m.aesFeat h = true) :
    Post (aes_hwaccel_init m.aesFeat mem setOk m.ossl st) fun x => x ≠ .software → m.aesFeat x = true := by
  intro x e
  cases st with
  | some y => cases e; exact h x rfl
  | none =>
    rcases Props.C43_aes_selected_passed _ _ _ _ _ e with ⟨rfl, -⟩ | ⟨rfl, h1, -⟩ | ⟨rfl, h1, -⟩
    · exact fun h => absurd rfl h
    · exact fun _ => h1
    · exact fun _ => h1

theorem answers_allowed (m : Machine) (e : CallEnv) (st : Statics) (f : EncSys → Res Code) (h : SelOk m st) :
    Post (answers m e st f) fun x => ∀ y, x = some y → SelOk m y.2 ∧ SmixAllowed m.sse2 y.1.smix ∧ y.1.sse2Ok = m.sse2 := by
  unfold answers
  refine .bind' (sha_allowed m st.sha h.sha) fun sha hsha => .bind' (R := fun r => ∀ s, r = some s → SmixAllowed m.sse2 s.smix ∧ s.sse2Ok = m.sse2) ?_ fun r hr => ?_
  · unfold askPerf
    split
    · refine .bind' (cpuperf_allowed _ _ _ _ h.smix) fun y hy => ?_
      split
      · exact .ok fun _ hy => none_some hy
      · exact .ok fun s hs => (by rw [← Option.some.inj hs]; exact ⟨hy, rfl⟩)
    · exact .ok fun s hs => (by rw [← Option.some.inj hs]; exact ⟨h.smix, rfl⟩)
  · split
    · exact .ok fun _ hy => none_some hy
    · rename_i sys
      obtain ⟨hs, ho⟩ := hr sys rfl
      have h0 : SelOk m { st with sha := some sha } := ⟨fun h' e => by rw [← Option.some.inj e]; exact hsha, h.aes, h.smix⟩
      refine .bind' (R := fun r => ∀ y, r = some y → SelOk m y.2 ∧ SmixAllowed m.sse2 y.1.smix ∧ y.1.sse2Ok = m.sse2) ?_ fun r hr => ?_
      · unfold askSalt
        split
        · refine .bind fun _ => ?_
          split
          · exact .ok fun _ hy => none_some hy
          · exact .ok fun y hy => (by rw [← Option.some.inj hy]; exact ⟨⟨h0.sha, h0.aes, h0.smix⟩, hs, ho⟩)
        · exact .ok fun y hy => (by rw [← Option.some.inj hy]; exact ⟨h0, hs, ho⟩)
      · split
        · exact .ok fun _ hy => none_some hy
        · rename_i r
          obtain ⟨h1, h2, h3⟩ := hr r rfl
          refine .bind' (R := fun y => SelOk m y.2 ∧ SmixAllowed m.sse2 y.1.smix ∧ y.1.sse2Ok = m.sse2) ?_ fun y hy => .ok fun z hz => (by rw [← Option.some.inj hz]; exact hy)
          unfold askAes
          split
          · refine .bind' (aes_allowed m _ _ _ h1.aes) fun x hx => .ok ?_
            exact ⟨⟨h1.sha, fun h' e => (by rw [← Option.some.inj e]; exact hx), h1.smix⟩, h2, h3⟩
          · exact .ok ⟨h1, h2, h3⟩

theorem withAnswers_allowed {α : Type} (m : Machine) (e : CallEnv) (st : Statics) (f : EncSys → Res α) (rc : α → Code) (smix : α → Option SmixImpl) (h : SelOk m st)
    (hf : ∀ sys : EncSys, SmixAllowed sys.sse2Ok sys.smix → Post (f sys) fun o => SmixAllowed sys.sse2Ok (smix o)) :
    Post (withAnswers m e st f rc smix) fun x => ∀ y, x = some y → SelOk m y.2 := by
  unfold withAnswers
  refine .bind' (answers_allowed m e st _ h) fun r hr => ?_
  split
  · exact .ok fun _ hy => none_some hy
  · rename_i x
    obtain ⟨h1, h2, h3⟩ := hr x rfl
    have := hf x.1 (by rw [h3]; exact h2)
    rw [h3] at this
    refine .bind' this fun o ho => .ok fun y hy => ?_
    rw [← Option.some.inj hy]
    exact ⟨h1.sha, h1.aes, ho⟩

theorem libCall_allowed (m : Machine) (e : CallEnv) (st : Statics) (c : LibCall) (h : SelOk m st) :
    Post (libCall m e st c) fun x => ∀ y, x = some y → SelOk m y.2 := by
  have map : ∀ {α : Type} {x : Res (Option (α × Statics))} (g : α → LibOut), Post x (fun x => ∀ y, x = some y → SelOk m y.2) →
      Post (x >>= fun r => .ok (r.map fun x => (g x.1, x.2))) fun x => ∀ y, x = some y → SelOk m y.2 := by
    intro α x g hx
    refine .bind' hx fun r hr => .ok fun y hy => ?_
    cases r with
    | none => exact none_some hy
    | some r => rw [← Option.some.inj hy]; exact hr r rfl
  cases c with
  | encBuf inbuf outbuf passwd P v f => exact map _ (withAnswers_allowed m e st _ _ _ h fun sys hs => encBuf_allowed sys _ _ _ _ _ _ hs)
  | decBuf inbuf outbuf outlen passwd P v f => exact map _ (withAnswers_allowed m e st _ _ _ h fun sys hs => decBuf_allowed sys _ _ _ _ _ _ _ hs)
  | encFile inf outf passwd P v f => exact map _ (withAnswers_allowed m e st _ _ _ h fun sys hs => encFile_allowed sys _ _ _ _ _ _ hs)
  | decFile inf outf passwd P v f => exact map _ (withAnswers_allowed m e st _ _ _ h fun sys hs => decFile_allowed sys _ _ _ _ _ _ hs)
  | kdf passwd salt N r p buf buflen =>
    rw [libCall]
    refine .bind' (sha_allowed m st.sha h.sha) fun sha hsha => .bind' (scrypt_allowed _ _ _ _ _ _ _ _ _ _ _ _ _ _ _ _ _ h.smix) fun o ho => .ok fun y hy => ?_
    rw [← Option.some.inj hy]
    exact ⟨fun h' e => (by rw [← Option.some.inj e]; exact hsha), h.aes, ho⟩
  | random buf =>
    rw [libCall]
    refine .bind' (sha_allowed m st.sha h.sha) fun sha hsha => .bind fun r => ?_
    split
    · exact .ok fun _ hy => none_some hy
    · refine .ok fun y hy => ?_
      rw [← Option.some.inj hy]
      exact ⟨fun h' e => (by rw [← Option.some.inj e]; exact hsha), h.aes, h.smix⟩

theorem libHistory_allowed (m : Machine) : ∀ (cs : List (CallEnv × LibCall)) (st : Statics), SelOk m st →
    Post (libHistory m st cs) fun x => ∀ y, x = some y → SelOk m y.2
  | [], st, h => by rw [libHistory]; exact .ok fun y hy => (by rw [← Option.some.inj hy]; exact h)
  | c :: cs, st, h => by
    rw [libHistory]
    refine .bind' (libCall_allowed m c.1 st c.2 h) fun r hr => ?_
    split
    · exact .ok fun _ hy => none_some hy
    · rename_i x
      refine .bind' (libHistory_allowed m cs _ (hr x rfl)) fun q hq => .ok fun y hy => ?_
      cases q with
      | none => exact none_some hy
      | some q => rw [← Option.some.inj hy]; exact hq q rfl

/-- The process never uses instructions that the processor lacks: all routines selected consist of instructions it has. -/
def OnlyHas (c : Cpu) (st : Statics) : Prop :=
  (∀ h, st.sha = some h → ∀ e ∈ h.needs, c.Has e) ∧ (∀ h, st.aes = some h → ∀ e ∈ h.needs, c.Has e) ∧ (∀ f, st.smix = some f → ∀ e ∈ f.needs, c.Has e)

theorem feat_has {b : CpuBuild} {c : Cpu} {e : Ext} (h : (b.enabled e && detect b c true e) = true) : c.Has e := by
  rw [Bool.and_eq_true_iff] at h
  exact ((detect_iff b c e h.1).1 h.2).2

namespace Props

/-- C56, whole processes.  In every history of library calls (with every outcome of every system call), on every processor and with every build, the
routines selected for SHA-256, AES and smix always consist of instructions that the processor has, and RDRAND is used only if it has that. -/
theorem C56_history (m : Machine) (b : CpuBuild) (c : Cpu) (seeds : List SeedEnv) (cs : List (CallEnv × LibCall)) {outs : List LibOut} {st : Statics}
    (h : libHistory (m.onCpu b c) (Statics.initial seeds) cs = .ok (some (outs, st))) :
    OnlyHas c st ∧ ((m.onCpu b c).rdrand = true → c.Has .rdrand) := by
  obtain ⟨h1, h2, h3⟩ := libHistory_allowed (m.onCpu b c) cs _ ⟨fun _ e => none_some e, fun _ e => none_some e, fun _ e => none_some e⟩ _ h _ rfl
  refine ⟨⟨fun x hx e he => ?_, fun x hx e he => ?_, fun x hx e he => ?_⟩, fun h => feat_has h⟩
  · cases x with
    | software => exact absurd he (List.not_mem_nil (a := e))
    | x86_shani =>
      have := h1 _ hx nofun
      have this : (b.shani && b.ssse3 && detect b c true .sha && detect b c true .ssse3) = true := this
      simp only [Bool.and_eq_true_iff] at this
      obtain ⟨⟨⟨t1, t2⟩, t3⟩, t4⟩ := this
      rcases List.mem_cons.1 he with rfl | he
      · exact ((detect_iff b c .sha t1).1 t3).2
      · rw [List.mem_singleton.1 he]; exact ((detect_iff b c .ssse3 t2).1 t4).2
    | x86_sse2 => rw [List.mem_singleton.1 he]; exact feat_has (h1 _ hx nofun)
    | arm_sha256 => rw [List.mem_singleton.1 he]; exact feat_has (h1 _ hx nofun)
  · cases x with
    | software => exact absurd he (List.not_mem_nil (a := e))
    | x86_aesni => rw [List.mem_singleton.1 he]; exact feat_has (h2 _ hx nofun)
    | arm_aes => rw [List.mem_singleton.1 he]; exact feat_has (h2 _ hx nofun)
  · cases x with
    | generic => exact absurd he (List.not_mem_nil (a := e))
    | sse2 => rw [List.mem_singleton.1 he]; exact feat_has (h3 _ hx rfl)

/-! Concrete processors: one with everything, one with SSE2 only, and an ARM without the crypto extensions. -/

def exBuild : CpuBuild := ⟨true, true, true, true, true, true, true, false, false, .neither⟩
def exCpuNew : Cpu := .x86 0x20 ⟨0, 0, 0, 0⟩ ⟨0, 0, 0x7ffafbff, 0xbfebfbff⟩ ⟨0, 0x219c07ab, 0, 0⟩
def exCpuOld : Cpu := .x86 5 ⟨0, 0, 0, 0⟩ ⟨0, 0, 0x0000649d, 0xbfebfbff⟩ ⟨0, 0x219c07ab, 0, 0⟩

example : (queries exBuild exCpuNew [(.sha, true), (.ssse3, true), (.aesni, true), (.sha, true)] .initial).1 = [true, true, true, true] := by decide
example : (queries exBuild exCpuOld [(.sha, true), (.sse2, true), (.aesni, true)] .initial).1 = [false, true, false] := by decide
example : exCpuNew.Has .sha ∧ exCpuNew.Has .ssse3 ∧ ¬ exCpuOld.Has .sha ∧ exCpuOld.Has .sse2 := by
  refine ⟨⟨by decide, by decide⟩, ⟨by decide, by decide⟩, fun h => ?_, ⟨by decide, by decide⟩⟩
  exact absurd h.1 (by decide)
/-- The selection on the two. -/
example : (∃ v, shaInitOn exBuild exCpuNew true (shaOn exCpuNew) none .initial = .ok (.x86_shani, v)) ∧
    ∃ v, shaInitOn exBuild exCpuOld true (shaOn exCpuOld) none .initial = .ok (.x86_sse2, v) := by
  obtain ⟨h1, v1, a1, -, -, -, c1⟩ := C56_sha256 exBuild exCpuNew true _ (sound_initial exBuild exCpuNew)
  obtain ⟨h2, v2, a2, -, -, -, c2⟩ := C56_sha256 exBuild exCpuOld true _ (sound_initial exBuild exCpuOld)
  have e1 := (c1 rfl (exact_initial _ _)).2
  have e2 := (c2 rfl (exact_initial _ _)).2
  rw [firstUsable_yes] at e1
  rw [firstUsable_no, firstUsable_yes] at e2
  · exact ⟨⟨v1, e1 ▸ a1⟩, ⟨v2, e2 ▸ a2⟩⟩
  · intro e he
    rw [List.mem_singleton.1 he]
    exact ⟨⟨rfl, rfl⟩, by decide, by decide⟩
  · intro u
    exact absurd (u .sha (by simp [ShaHw.needs])).2.1 (by decide)
  · intro e he
    rcases List.mem_cons.1 he with rfl | he
    · exact ⟨⟨rfl, rfl⟩, by decide, by decide⟩
    · rw [List.mem_singleton.1 he]
      exact ⟨⟨rfl, rfl⟩, by decide, by decide⟩

end Props
end Scrypt
