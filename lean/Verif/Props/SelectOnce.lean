import Verif.Props.CpuHistory
import Verif.Props.ProcessEx
/-
C43 for histories of library calls: the selections are made once.
-/
namespace Scrypt

/-- The smix routine selected before, if any, still is. -/
def SmixKept (s0 s : Option SmixImpl) : Prop := ∀ f, s0 = some f → s = some f

theorem scrypt_kept {s0 : Option SmixImpl} (szMax : Nat) (sse2Ok : Bool) (e1 e2 env : ScEnv) (tf : Transform) (junk : HMAC_SHA256_CTX) (hbuf : Bytes) (impl : SmixImpl → SmixFn)
    (st : Option SmixImpl) (P S : Bytes) (N : W64) (r p : W32) (buf : Bytes) (buflen : Nat) (h : SmixKept s0 st) :
    Post (crypto_scrypt szMax sse2Ok e1 e2 env tf junk hbuf impl st P S N r p buf buflen) fun x => SmixKept s0 x.2 := by
  rintro ⟨o, st'⟩ e
  obtain ⟨f, h1, h2, -⟩ := Props.call_inv e
  intro g hg
  rcases h2 with h2 | ⟨h2, -⟩
  · rw [h g hg] at h2; cases h2; exact h1
  · rw [h g hg] at h2; cases h2

theorem encSetup_kept (sys : EncSys) (passwd : Bytes) (P : EncParams) (v f : Bool) {s0 : Option SmixImpl} (h : SmixKept s0 sys.smix) :
    Post (scryptenc_setup sys passwd P v f) fun s => SmixKept s0 s.smix := by
  unfold scryptenc_setup
  refine Post.bind fun ⟨rc, P', err⟩ => ?_
  dsimp only []
  split
  · exact .ok h
  · refine Post.bind fun _ => ?_
    split
    · exact .ok h
    · refine Post.bind' (scrypt_kept _ _ _ _ _ _ _ _ _ _ _ _ _ _ _ _ _ h) fun ⟨o, st⟩ hy => ?_
      dsimp only []
      split
      · exact .ok hy
      · exact .bind fun _ => .ok hy

theorem decSetup_kept (sys : EncSys) (header passwd : Bytes) (P : EncParams) (v f : Bool) {s0 : Option SmixImpl} (h : SmixKept s0 sys.smix) :
    Post (scryptdec_setup sys header passwd P v f) fun s => SmixKept s0 s.smix := by
  unfold scryptdec_setup
  refine .bind fun _ => .bind fun _ => .bind fun _ => .bind fun _ => .bind fun _ => .bind fun _ => .bind fun _ => ?_
  split
  · exact .ok h
  · refine .bind fun ⟨rc, t⟩ => ?_
    dsimp only []
    split
    · exact .ok h
    · refine Post.bind' (scrypt_kept _ _ _ _ _ _ _ _ _ _ _ _ _ _ _ _ _ h) fun ⟨o, st⟩ hy => ?_
      dsimp only []
      split
      · exact .ok hy
      · unfold checkSig
        refine .bind fun _ => .bind fun _ => .bind fun _ => ?_
        split <;> exact .ok hy

theorem encBuf_kept (sys : EncSys) (inbuf outbuf passwd : Bytes) (P : EncParams) (v f : Bool) {s0 : Option SmixImpl} (h : SmixKept s0 sys.smix) :
    Post (scryptenc_buf sys inbuf outbuf passwd P v f) fun s => SmixKept s0 s.smix := by
  unfold scryptenc_buf
  refine .bind fun _ => .bind' (encSetup_kept _ _ _ _ _ h) fun s hs => ?_
  split
  · exact .ok hs
  · unfold encBufBody
    refine .bind fun _ => .bind fun _ => .bind fun _ => ?_
    split
    · exact .ok hs
    · exact .bind fun _ => .bind fun _ => .bind fun _ => .bind fun _ => .bind fun _ => .bind fun _ => .ok hs

theorem decBuf_kept (sys : EncSys) (inbuf outbuf : Bytes) (outlen : Nat) (passwd : Bytes) (P : EncParams) (v f : Bool) {s0 : Option SmixImpl} (h : SmixKept s0 sys.smix) :
    Post (scryptdec_buf sys inbuf outbuf outlen passwd P v f) fun s => SmixKept s0 s.smix := by
  unfold scryptdec_buf
  refine .bind fun _ => ?_
  split
  · exact .ok h
  · refine .bind fun _ => ?_
    split
    · exact .ok h
    · split
      · exact .ok h
      · refine .bind' (decSetup_kept _ _ _ _ _ _ h) fun s hs => ?_
        split
        · exact .ok hs
        · unfold decBufBody
          refine .bind fun _ => ?_
          split
          · exact .ok hs
          · exact .bind fun _ => .bind fun _ => .bind fun _ => .bind fun _ => .bind fun _ => .bind fun _ => .bind fun _ => .ok hs

theorem encFile_kept (sys : EncSys) (inf : InFile) (outf : OutFile) (passwd : Bytes) (P : EncParams) (v f : Bool) {s0 : Option SmixImpl} (h : SmixKept s0 sys.smix) :
    Post (scryptenc_file sys inf outf passwd P v f) fun s => SmixKept s0 s.smix := by
  unfold scryptenc_file
  refine .bind fun _ => .bind' (encSetup_kept _ _ _ _ _ h) fun s hs => ?_
  split
  · exact .ok hs
  · unfold encFileBody
    refine .bind fun _ => .bind fun _ => .bind fun _ => .bind fun _ => ?_
    simp only []
    split
    · exact .ok hs
    · refine .bind fun _ => ?_
      split
      · exact .ok hs
      · refine .bind fun _ => ?_
        unfold encFileEnd
        split
        · exact .ok hs
        · split
          · exact .ok hs
          · exact .bind fun _ => .bind fun _ => .ok hs

theorem decFile_kept (sys : EncSys) (inf : InFile) (outf : OutFile) (passwd : Bytes) (P : EncParams) (v f : Bool) {s0 : Option SmixImpl} (h : SmixKept s0 sys.smix) :
    Post (scryptdec_file sys inf outf passwd P v f) fun s => SmixKept s0 s.smix := by
  unfold scryptdec_file
  refine .bind fun _ => .bind' (R := fun p => SmixKept s0 p.smix) ?_ fun p hp => ?_
  · unfold scryptdec_file_prep
    refine .bind fun _ => ?_
    split
    · exact .ok h
    · refine .bind fun _ => ?_
      simp only []
      split
      · exact .ok h
      · refine .bind' (decSetup_kept _ _ _ _ _ _ h) fun s hs => ?_
        split <;> exact .ok hs
  · split
    · exact .ok hp
    · exact .bind fun _ => .ok hp

theorem perfLoop_kept {s0 : Option SmixImpl} (m : Machine) (e : CallEnv) (tf : Transform) (N : W64) (t0 : Timeval) (bound : F64) : ∀ (steps : List PerfEnv) (i : Nat)
    (st : Option SmixImpl), SmixKept s0 st → Post (perfLoopL m e tf N t0 bound i steps st) fun x => SmixKept s0 x.2
  | [], _, st, h => by rw [perfLoopL]; exact .ok h
  | s :: steps, i, st, h => by
    rw [perfLoopL]
    refine .bind' (scrypt_kept _ _ _ _ _ _ _ _ _ _ _ _ _ _ _ _ _ h) fun y hy => ?_
    split
    · exact .ok hy
    · split
      · exact .ok hy
      · split
        · exact .ok hy
        · exact perfLoop_kept m e tf N t0 bound steps (i + 1) _ hy

theorem cpuperf_kept {s0 : Option SmixImpl} (m : Machine) (e : CallEnv) (tf : Transform) (st : Option SmixImpl) (h : SmixKept s0 st) :
    Post (cpuperfL m e tf st) fun x => SmixKept s0 x.2 := by
  unfold cpuperfL
  split
  · exact .ok h
  · split
    · exact .ok h
    · refine .bind' (perfLoop_kept _ _ _ _ _ _ _ _ _ h) fun y hy => ?_
      split
      · exact .ok hy
      · exact .ok hy
      · unfold perfPhase2L
        split
        · exact .ok hy
        · refine .bind' (perfLoop_kept _ _ _ _ _ _ _ _ _ hy) fun z hz => ?_
          split <;> exact .ok hz

/-- What was selected still is. -/
structure SelKept (st0 st : Statics) : Prop where
  sha : ∀ h, st0.sha = some h → st.sha = some h
  aes : ∀ h, st0.aes = some h → st.aes = some h
  smix : SmixKept st0.smix st.smix

theorem sha_kept (m : Machine) {st0 st : Option ShaHw} (h : ∀ h, st0 = some h → st = some h) :
    Post (hwaccel_init m.shaFeat shaTransform st) fun x => ∀ h, st0 = some h → some x = some h := by
  intro x e g hg
  rw [h g hg] at e
  cases e
  rfl

theorem aes_kept (m : Machine) (mem : Option (List Bytes)) (setOk : Bool) {st0 st : Option AesHw} (h : ∀ h, st0 = some h → st = some h) :
    Post (aes_hwaccel_init m.aesFeat mem setOk m.ossl st) fun x => ∀ h, st0 = some h → some x = some h := by
  intro x e g hg
  rw [h g hg] at e
  cases e
  rfl

theorem answers_kept {st0 : Statics} (m : Machine) (e : CallEnv) (st : Statics) (f : EncSys → Res Code) (h : SelKept st0 st) :
    Post (answers m e st f) fun x => ∀ y, x = some y → SelKept st0 y.2 ∧ SmixKept st0.smix y.1.smix := by
  unfold answers
  refine .bind' (sha_kept m h.sha) fun sha hsha => .bind' (R := fun r => ∀ s, r = some s → SmixKept st0.smix s.smix) ?_ fun r hr => ?_
  · unfold askPerf
    split
    · refine .bind' (cpuperf_kept _ _ _ _ h.smix) fun y hy => ?_
      split
      · exact .ok fun _ hy => none_some hy
      · exact .ok fun s hs => (by rw [← Option.some.inj hs]; exact hy)
    · exact .ok fun s hs => (by rw [← Option.some.inj hs]; exact h.smix)
  · split
    · exact .ok fun _ hy => none_some hy
    · rename_i sys
      have hs := hr sys rfl
      have h0 : SelKept st0 { st with sha := some sha } := ⟨hsha, h.aes, h.smix⟩
      refine .bind' (R := fun r => ∀ y, r = some y → SelKept st0 y.2 ∧ SmixKept st0.smix y.1.smix) ?_ fun r hr => ?_
      · unfold askSalt
        split
        · refine .bind fun _ => ?_
          split
          · exact .ok fun _ hy => none_some hy
          · exact .ok fun y hy => (by rw [← Option.some.inj hy]; exact ⟨⟨h0.sha, h0.aes, h0.smix⟩, hs⟩)
        · exact .ok fun y hy => (by rw [← Option.some.inj hy]; exact ⟨h0, hs⟩)
      · split
        · exact .ok fun _ hy => none_some hy
        · rename_i r
          obtain ⟨h1, h2⟩ := hr r rfl
          refine .bind' (R := fun y => SelKept st0 y.2 ∧ SmixKept st0.smix y.1.smix) ?_ fun y hy => .ok fun z hz => (by rw [← Option.some.inj hz]; exact hy)
          unfold askAes
          split
          · refine .bind' (aes_kept m _ _ h1.aes) fun x hx => .ok ?_
            exact ⟨⟨h1.sha, hx, h1.smix⟩, h2⟩
          · exact .ok ⟨h1, h2⟩

theorem withAnswers_kept {α : Type} {st0 : Statics} (m : Machine) (e : CallEnv) (st : Statics) (f : EncSys → Res α) (rc : α → Code) (smix : α → Option SmixImpl) (h : SelKept st0 st)
    (hf : ∀ sys : EncSys, SmixKept st0.smix sys.smix → Post (f sys) fun o => SmixKept st0.smix (smix o)) :
    Post (withAnswers m e st f rc smix) fun x => ∀ y, x = some y → SelKept st0 y.2 := by
  unfold withAnswers
  refine .bind' (answers_kept m e st _ h) fun r hr => ?_
  split
  · exact .ok fun _ hy => none_some hy
  · rename_i x
    obtain ⟨h1, h2⟩ := hr x rfl
    refine .bind' (hf x.1 h2) fun o ho => .ok fun y hy => ?_
    rw [← Option.some.inj hy]
    exact ⟨h1.sha, h1.aes, ho⟩

theorem libCall_kept {st0 : Statics} (m : Machine) (e : CallEnv) (st : Statics) (c : LibCall) (h : SelKept st0 st) :
    Post (libCall m e st c) fun x => ∀ y, x = some y → SelKept st0 y.2 := by
  have map : ∀ {α : Type} {x : Res (Option (α × Statics))} (g : α → LibOut), Post x (fun x => ∀ y, x = some y → SelKept st0 y.2) →
      Post (x >>= fun r => .ok (r.map fun x => (g x.1, x.2))) fun x => ∀ y, x = some y → SelKept st0 y.2 := by
    intro α x g hx
    refine .bind' hx fun r hr => .ok fun y hy => ?_
    cases r with
    | none => exact none_some hy
    | some r => rw [← Option.some.inj hy]; exact hr r rfl
  cases c with
  | encBuf inbuf outbuf passwd P v f => exact map _ (withAnswers_kept m e st _ _ _ h fun sys hs => encBuf_kept sys _ _ _ _ _ _ hs)
  | decBuf inbuf outbuf outlen passwd P v f => exact map _ (withAnswers_kept m e st _ _ _ h fun sys hs => decBuf_kept sys _ _ _ _ _ _ _ hs)
  | encFile inf outf passwd P v f => exact map _ (withAnswers_kept m e st _ _ _ h fun sys hs => encFile_kept sys _ _ _ _ _ _ hs)
  | decFile inf outf passwd P v f => exact map _ (withAnswers_kept m e st _ _ _ h fun sys hs => decFile_kept sys _ _ _ _ _ _ hs)
  | kdf passwd salt N r p buf buflen =>
    rw [libCall]
    refine .bind' (sha_kept m h.sha) fun sha hsha => .bind' (scrypt_kept _ _ _ _ _ _ _ _ _ _ _ _ _ _ _ _ _ h.smix) fun o ho => .ok fun y hy => ?_
    rw [← Option.some.inj hy]
    exact ⟨hsha, h.aes, ho⟩
  | random buf =>
    rw [libCall]
    refine .bind' (sha_kept m h.sha) fun sha hsha => .bind fun r => ?_
    split
    · exact .ok fun _ hy => none_some hy
    · refine .ok fun y hy => ?_
      rw [← Option.some.inj hy]
      exact ⟨hsha, h.aes, h.smix⟩

theorem libHistory_kept {st0 : Statics} (m : Machine) : ∀ (cs : List (CallEnv × LibCall)) (st : Statics), SelKept st0 st →
    Post (libHistory m st cs) fun x => ∀ y, x = some y → SelKept st0 y.2
  | [], st, h => by rw [libHistory]; exact .ok fun y hy => (by rw [← Option.some.inj hy]; exact h)
  | c :: cs, st, h => by
    rw [libHistory]
    refine .bind' (libCall_kept m c.1 st c.2 h) fun r hr => ?_
    split
    · exact .ok fun _ hy => none_some hy
    · rename_i x
      refine .bind' (libHistory_kept m cs _ (hr x rfl)) fun q hq => .ok fun y hy => ?_
      cases q with
      | none => exact none_some hy
      | some q => rw [← Option.some.inj hy]; exact hq q rfl


/-! ### After a success everything is selected -/

/-- AES has not been asked for. -/
def NoAes (sys : EncSys) : Prop := sys.aesHw = .software ∧ sys.aes = ⟨none, false⟩

theorem scrypt_set {szMax : Nat} {sse2Ok : Bool} {e1 e2 env : ScEnv} {tf : Transform} {junk : HMAC_SHA256_CTX} {hbuf : Bytes} {impl : SmixImpl → SmixFn}
    {st : Option SmixImpl} {P S : Bytes} {N : W64} {r p : W32} {buf : Bytes} {buflen : Nat} :
    Post (crypto_scrypt szMax sse2Ok e1 e2 env tf junk hbuf impl st P S N r p buf buflen) fun x => x.2 ≠ none := by
  rintro ⟨o, st'⟩ e
  obtain ⟨f, h1, -⟩ := Props.call_inv e
  show st' ≠ none
  rw [h1]
  simp

theorem encSetup_set (sys : EncSys) (passwd : Bytes) (P : EncParams) (v f : Bool) :
    Post (scryptenc_setup sys passwd P v f) fun s => s.rc = .OK → s.smix ≠ none := by
  unfold scryptenc_setup
  refine Post.bind fun ⟨rc, P', err⟩ => ?_
  dsimp only []
  split
  · rename_i h; exact .ok fun e => absurd e h
  · refine Post.bind fun _ => ?_
    split
    · exact .ok fun e => nomatch e
    · refine Post.bind' (R := fun y => y.2 ≠ none) (by unfold deriveKey; exact scrypt_set) fun ⟨o, st⟩ hy => ?_
      dsimp only []
      split
      · exact .ok fun e => nomatch e
      · exact .bind fun _ => .ok fun _ => hy

theorem decSetup_set (sys : EncSys) (header passwd : Bytes) (P : EncParams) (v f : Bool) :
    Post (scryptdec_setup sys header passwd P v f) fun s => s.rc = .OK → s.smix ≠ none := by
  unfold scryptdec_setup
  refine .bind fun _ => .bind fun _ => .bind fun _ => .bind fun _ => .bind fun _ => .bind fun _ => .bind fun _ => ?_
  split
  · exact .ok fun e => nomatch e
  · refine .bind fun ⟨rc, t⟩ => ?_
    dsimp only []
    split
    · rename_i h; exact .ok fun e => absurd e h
    · refine Post.bind' (R := fun y => y.2 ≠ none) (by unfold deriveKey; exact scrypt_set) fun ⟨o, st⟩ hy => ?_
      dsimp only []
      split
      · exact .ok fun e => nomatch e
      · unfold checkSig
        refine .bind fun _ => .bind fun _ => .bind fun _ => ?_
        split
        · exact .ok fun e => nomatch e
        · exact .ok fun _ => hy

theorem aesOpen_set (sys : EncSys) (dk : Bytes) : Post (aesOpen sys dk) fun a => (a.1.2 = none → a.1.1 ≠ .OK) ∧ (∀ s, a.1.2 = some s → ¬ NoAes sys) := by
  unfold aesOpen
  refine .bind' (R := fun k => k ≠ none → ¬ NoAes sys) ?_ fun k hk => ?_
  · rintro k e hk ⟨h1, h2⟩
    rw [h1, h2] at e
    unfold crypto_aes_key_expand at e
    obtain ⟨_, -, e⟩ := Res.bind_eq_ok.1 e
    exact hk (Res.ok.inj e).symm
  · split
    · exact .ok ⟨fun _ => nofun, (fun _ e => nomatch e)⟩
    · refine .bind fun _ => ?_
      split
      · exact .ok ⟨fun _ => nofun, (fun _ e => nomatch e)⟩
      · exact .ok ⟨(fun e => nomatch e), fun _ _ => hk nofun⟩

/-- A successful call has used smix and AES. -/
def UsedAll (sys : EncSys) (rc : Code) (smix : Option SmixImpl) : Prop := rc = .OK → smix ≠ none ∧ ¬ NoAes sys

theorem encBuf_set (sys : EncSys) (inbuf outbuf passwd : Bytes) (P : EncParams) (v f : Bool) :
    Post (scryptenc_buf sys inbuf outbuf passwd P v f) fun s => UsedAll sys s.rc s.smix := by
  unfold scryptenc_buf
  refine .bind fun _ => .bind' (encSetup_set _ _ _ _ _) fun s hs => ?_
  split
  · rename_i h; exact .ok fun e => absurd e h
  · rename_i h
    unfold encBufBody
    refine .bind fun _ => .bind fun _ => .bind' (aesOpen_set _ _) fun a ha => ?_
    split
    · rename_i e; exact .ok fun e' => absurd e' (ha.1 e)
    · rename_i e
      exact .bind fun _ => .bind fun _ => .bind fun _ => .bind fun _ => .bind fun _ => .bind fun _ => .ok fun _ => ⟨hs (Decidable.not_not.1 h), ha.2 _ e⟩

theorem decBuf_set (sys : EncSys) (inbuf outbuf : Bytes) (outlen : Nat) (passwd : Bytes) (P : EncParams) (v f : Bool) :
    Post (scryptdec_buf sys inbuf outbuf outlen passwd P v f) fun s => UsedAll sys s.rc s.smix := by
  unfold scryptdec_buf
  refine .bind fun _ => ?_
  split
  · exact .ok fun e => nomatch e
  · refine .bind fun _ => ?_
    split
    · exact .ok fun e => nomatch e
    · split
      · exact .ok fun e => nomatch e
      · refine .bind' (decSetup_set _ _ _ _ _ _) fun s hs => ?_
        split
        · rename_i h; exact .ok fun e => absurd e h
        · rename_i h
          unfold decBufBody
          refine .bind' (aesOpen_set _ _) fun a ha => ?_
          split
          · rename_i e; exact .ok fun e' => absurd e' (ha.1 e)
          · rename_i e
            exact .bind fun _ => .bind fun _ => .bind fun _ => .bind fun _ => .bind fun _ => .bind fun _ => .bind fun _ => .ok fun _ => ⟨hs (Decidable.not_not.1 h), ha.2 _ e⟩

theorem encFile_set (sys : EncSys) (inf : InFile) (outf : OutFile) (passwd : Bytes) (P : EncParams) (v f : Bool) :
    Post (scryptenc_file sys inf outf passwd P v f) fun s => UsedAll sys s.rc s.smix := by
  unfold scryptenc_file
  refine .bind fun _ => .bind' (encSetup_set _ _ _ _ _) fun s hs => ?_
  split
  · rename_i h; exact .ok fun e => absurd e h
  · rename_i h
    unfold encFileBody
    refine .bind fun _ => .bind fun _ => .bind fun _ => .bind fun _ => ?_
    simp only []
    split
    · exact .ok fun e => nomatch e
    · refine .bind' (aesOpen_set _ _) fun a ha => ?_
      split
      · rename_i e; exact .ok fun e' => absurd e' (ha.1 e)
      · rename_i e
        refine .bind fun _ => ?_
        unfold encFileEnd
        split
        · exact .ok fun e => nomatch e
        · split
          · exact .ok fun e => nomatch e
          · exact .bind fun _ => .bind fun _ => .ok fun _ => ⟨hs (Decidable.not_not.1 h), ha.2 _ e⟩

theorem decFile_set (sys : EncSys) (inf : InFile) (outf : OutFile) (passwd : Bytes) (P : EncParams) (v f : Bool) :
    Post (scryptdec_file sys inf outf passwd P v f) fun s => UsedAll sys s.rc s.smix := by
  unfold scryptdec_file
  refine .bind fun _ => .bind' (R := fun p => (p.cookie = none → p.rc ≠ .OK) ∧ (∀ c, p.cookie = some c → p.smix ≠ none)) ?_ fun p hp => ?_
  · unfold scryptdec_file_prep
    refine .bind fun _ => ?_
    split
    · exact .ok ⟨fun _ => nofun, (fun _ e => nomatch e)⟩
    · refine .bind fun _ => ?_
      simp only []
      split
      · rename_i h; exact .ok ⟨fun _ => h, (fun _ e => nomatch e)⟩
      · refine .bind' (decSetup_set _ _ _ _ _ _) fun s hs => ?_
        split
        · rename_i h; exact .ok ⟨fun _ => h, (fun _ e => nomatch e)⟩
        · rename_i h; exact .ok ⟨(fun e => nomatch e), fun _ _ => hs (Decidable.not_not.1 h)⟩
  · split
    · rename_i e; exact .ok fun e' => absurd e' (hp.1 e)
    · rename_i c e
      refine .bind' (R := fun o => o.rc = .OK → ¬ NoAes sys) ?_ fun o ho => .ok fun e' => ⟨hp.2 c e, ho e'⟩
      unfold scryptdec_file_copy
      refine .bind fun _ => .bind fun _ => .bind fun _ => .bind fun _ => .bind' (aesOpen_set _ _) fun a ha => ?_
      split
      · rename_i e; exact .ok fun e' => absurd e' (ha.1 e)
      · rename_i e
        exact fun _ _ _ => ha.2 _ e

/-- Either AES was not asked for, or an implementation of it is selected. -/
theorem answers_set (m : Machine) (e : CallEnv) (st : Statics) (f : EncSys → Res Code) :
    Post (answers m e st f) fun x => ∀ y, x = some y → y.2.sha ≠ none ∧ (NoAes y.1 ∨ y.2.aes = some y.1.aesHw) := by
  unfold answers
  refine .bind fun sha => .bind' (R := fun r => ∀ s, r = some s → NoAes s) ?_ fun r hr => ?_
  · unfold askPerf
    split
    · refine .bind fun y => ?_
      split
      · exact .ok fun _ hy => none_some hy
      · exact .ok fun s hs => (by rw [← Option.some.inj hs]; exact ⟨rfl, rfl⟩)
    · exact .ok fun s hs => (by rw [← Option.some.inj hs]; exact ⟨rfl, rfl⟩)
  · split
    · exact .ok fun _ hy => none_some hy
    · rename_i sys
      have hs := hr sys rfl
      refine .bind' (R := fun r => ∀ y, r = some y → y.2.sha ≠ none ∧ NoAes y.1) ?_ fun r hr => ?_
      · unfold askSalt
        split
        · refine .bind fun _ => ?_
          split
          · exact .ok fun _ hy => none_some hy
          · exact .ok fun y hy => (by rw [← Option.some.inj hy]; exact ⟨nofun, hs⟩)
        · exact .ok fun y hy => (by rw [← Option.some.inj hy]; exact ⟨nofun, hs⟩)
      · split
        · exact .ok fun _ hy => none_some hy
        · rename_i r
          obtain ⟨h1, h2⟩ := hr r rfl
          refine .bind' (R := fun y => y.2.sha ≠ none ∧ (NoAes y.1 ∨ y.2.aes = some y.1.aesHw)) ?_ fun y hy => .ok fun z hz => (by rw [← Option.some.inj hz]; exact hy)
          unfold askAes
          split
          · exact .bind fun x => .ok ⟨h1, .inr rfl⟩
          · exact .ok ⟨h1, .inl h2⟩

theorem withAnswers_set {α : Type} (m : Machine) (e : CallEnv) (st : Statics) (f : EncSys → Res α) (rc : α → Code) (smix : α → Option SmixImpl)
    (hf : ∀ sys : EncSys, Post (f sys) fun o => UsedAll sys (rc o) (smix o)) :
    Post (withAnswers m e st f rc smix) fun x => ∀ y, x = some y → y.2.sha ≠ none ∧ (rc y.1 = .OK → y.2.smix ≠ none ∧ y.2.aes ≠ none) := by
  unfold withAnswers
  refine .bind' (answers_set m e st _) fun r hr => ?_
  split
  · exact .ok fun _ hy => none_some hy
  · rename_i x
    obtain ⟨h1, h2⟩ := hr x rfl
    refine .bind' (hf x.1) fun o ho => .ok fun y hy => ?_
    rw [← Option.some.inj hy]
    refine ⟨h1, fun hok => ⟨(ho hok).1, ?_⟩⟩
    rcases h2 with h2 | h2
    · exact absurd h2 (ho hok).2
    · show x.2.aes ≠ none
      rw [h2]
      nofun

namespace Props

/-- **C43, whole processes.**  Over any history of library calls, with any outcome of every system call, the implementations selected for SHA-256, AES and smix stay the ones selected first. -/
theorem C43_once (m : Machine) (st : Statics) (cs : List (CallEnv × LibCall)) {outs : List LibOut} {st' : Statics} (h : libHistory m st cs = .ok (some (outs, st'))) :
    (∀ x, st.sha = some x → st'.sha = some x) ∧ (∀ x, st.aes = some x → st'.aes = some x) ∧ (∀ x, st.smix = some x → st'.smix = some x) := by
  obtain ⟨h1, h2, h3⟩ := libHistory_kept (st0 := st) m cs st ⟨fun _ e => e, fun _ e => e, fun _ e => e⟩ _ h _ rfl
  exact ⟨h1, h2, h3⟩

/-- **C43, whole processes.**  After any library call SHA-256 has been selected; after any key derivation, smix has; and after any successful encryption or decryption, AES and smix have.  Together
with `C43_once`: each selection is made, and tested, once. -/
theorem C43_selected (m : Machine) (e : CallEnv) (st : Statics) (c : LibCall) {o : LibOut} {st' : Statics} (h : libCall m e st c = .ok (some (o, st'))) :
    st'.sha ≠ none ∧ (∀ x, o = .kdf x → st'.smix ≠ none) ∧ (∀ x, o = .buf x ∧ x.rc = .OK → st'.smix ≠ none ∧ st'.aes ≠ none) ∧
      (∀ x, o = .file x ∧ x.rc = .OK → st'.smix ≠ none ∧ st'.aes ≠ none) := by
  cases c with
  | encBuf inbuf outbuf passwd P v f =>
    obtain ⟨r, h1, h⟩ := Res.bind_eq_ok.1 h
    cases r with
    | none => cases h
    | some r =>
      obtain ⟨rfl, rfl⟩ := Prod.mk.inj (Option.some.inj (Res.ok.inj h))
      obtain ⟨a, b⟩ := withAnswers_set m e st _ _ _ (fun sys => encBuf_set sys _ _ _ _ _ _) _ h1 _ rfl
      exact ⟨a, (fun _ e => nomatch e), fun x hx => (by obtain ⟨e1, e2⟩ := hx; cases e1; exact b e2), (fun _ e => nomatch e.1)⟩
  | decBuf inbuf outbuf outlen passwd P v f =>
    obtain ⟨r, h1, h⟩ := Res.bind_eq_ok.1 h
    cases r with
    | none => cases h
    | some r =>
      obtain ⟨rfl, rfl⟩ := Prod.mk.inj (Option.some.inj (Res.ok.inj h))
      obtain ⟨a, b⟩ := withAnswers_set m e st _ _ _ (fun sys => decBuf_set sys _ _ _ _ _ _ _) _ h1 _ rfl
      exact ⟨a, (fun _ e => nomatch e), fun x hx => (by obtain ⟨e1, e2⟩ := hx; cases e1; exact b e2), (fun _ e => nomatch e.1)⟩
  | encFile inf outf passwd P v f =>
    obtain ⟨r, h1, h⟩ := Res.bind_eq_ok.1 h
    cases r with
    | none => cases h
    | some r =>
      obtain ⟨rfl, rfl⟩ := Prod.mk.inj (Option.some.inj (Res.ok.inj h))
      obtain ⟨a, b⟩ := withAnswers_set m e st _ _ _ (fun sys => encFile_set sys _ _ _ _ _ _) _ h1 _ rfl
      exact ⟨a, (fun _ e => nomatch e), (fun _ e => nomatch e.1), fun x hx => (by obtain ⟨e1, e2⟩ := hx; cases e1; exact b e2)⟩
  | decFile inf outf passwd P v f =>
    obtain ⟨r, h1, h⟩ := Res.bind_eq_ok.1 h
    cases r with
    | none => cases h
    | some r =>
      obtain ⟨rfl, rfl⟩ := Prod.mk.inj (Option.some.inj (Res.ok.inj h))
      obtain ⟨a, b⟩ := withAnswers_set m e st _ _ _ (fun sys => decFile_set sys _ _ _ _ _ _) _ h1 _ rfl
      exact ⟨a, (fun _ e => nomatch e), (fun _ e => nomatch e.1), fun x hx => (by obtain ⟨e1, e2⟩ := hx; cases e1; exact b e2)⟩
  | kdf passwd salt N r p buf buflen =>
    rw [libCall] at h
    obtain ⟨sha, -, h⟩ := Res.bind_eq_ok.1 h
    obtain ⟨q, h1, h⟩ := Res.bind_eq_ok.1 h
    obtain ⟨rfl, rfl⟩ := Prod.mk.inj (Option.some.inj (Res.ok.inj h))
    exact ⟨nofun, fun _ _ => scrypt_set _ h1, (fun _ e => nomatch e.1), (fun _ e => nomatch e.1)⟩
  | random buf =>
    rw [libCall] at h
    obtain ⟨sha, -, h⟩ := Res.bind_eq_ok.1 h
    obtain ⟨q, h1, h⟩ := Res.bind_eq_ok.1 h
    cases q with
    | none => cases h
    | some q =>
      obtain ⟨rfl, rfl⟩ := Prod.mk.inj (Option.some.inj (Res.ok.inj h))
      exact ⟨nofun, (fun _ e => nomatch e), (fun _ e => nomatch e.1), (fun _ e => nomatch e.1)⟩

/-- Both apply to an encryption that succeeds on every processor; whatever calls follow it, the routines stay. -/
example (shaFeat : ShaHw → Bool) (aesFeat : AesHw → Bool) (sse2 : Bool) (msg passwd : Bytes) (h1 : msg.length + 128 < 2 ^ 64) (cs : List (CallEnv × LibCall)) :
    ∃ o st, libCall (exMachine shaFeat aesFeat sse2) exCallEnv (Statics.initial [exSeed]) (.encBuf msg (List.replicate (msg.length + 200) 0) passwd exP false true) = .ok (some (o, st)) ∧
      st.smix ≠ none ∧ st.aes ≠ none ∧
      ∀ outs st', libHistory (exMachine shaFeat aesFeat sse2) st cs = .ok (some (outs, st')) → st'.smix = st.smix ∧ st'.aes = st.aes := by
  obtain ⟨o, st, h, hok⟩ := exEncrypts (shaFeat := shaFeat) (aesFeat := aesFeat) (sse2 := sse2) msg passwd h1
  rw [libHistory] at h
  obtain ⟨r, h2, h⟩ := Res.bind_eq_ok.1 h
  cases r with
  | none => cases h
  | some x =>
    simp only [libHistory, Res.bind_ok] at h
    obtain ⟨e1, e2⟩ := Prod.mk.inj (Option.some.inj (Res.ok.inj h))
    obtain ⟨x1, x2⟩ := x
    obtain ⟨rfl, -⟩ := List.cons.inj e1
    obtain ⟨-, -, c, -⟩ := C43_selected _ _ _ _ h2
    obtain ⟨c1, c2⟩ := c o ⟨rfl, hok⟩
    refine ⟨_, x2, h2, c1, c2, fun outs st' h' => ?_⟩
    obtain ⟨-, k2, k3⟩ := C43_once _ _ _ h'
    cases hs : x2.smix with
    | none => exact absurd hs c1
    | some a =>
      cases ha : x2.aes with
      | none => exact absurd ha c2
      | some b => exact ⟨k3 a hs, k2 b ha⟩

end Props
end Scrypt
