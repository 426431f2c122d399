import Verif.Proofs.Process
import Verif.Props.EncAuth
/-
C53: the guarantees of single calls hold for calls in any process, whatever was called before.
-/
namespace Scrypt.Props
open Scrypt Spec F64

/-! ### Decrypting a container: the message, or a complaint about resources -/

/-- The codes that say that resources (limits, clock, memory, libcrypto) are missing. -/
def ResourceCode (c : Code) : Prop :=
  c = .ELIMIT ∨ c = .ECLOCK ∨ c = .EKEY ∨ c = .EBIGSLOW ∨ c = .ETOOBIG ∨ c = .ETOOSLOW ∨ c = .EOPENSSL ∨ c = .ENOMEM

theorem LimitCode.resource {c : Code} (h : LimitCode c) : ResourceCode c := by
  unfold LimitCode at h
  unfold ResourceCode
  tauto

theorem aesCode_resource {sys : EncSys} (h : aesCode sys ≠ .OK) : ResourceCode (aesCode sys) := by
  unfold aesCode at *
  unfold ResourceCode
  split
  · simp
  · split
    · simp
    · rename_i h1 h2; rw [if_neg h1, if_neg h2] at h; exact absurd rfl h

/-- The first obstacle on the way to the data of a container, if any. -/
theorem container_params {sys : EncSys} (g : sys.Good) {passwd salt m D : Bytes} {l r p : Nat}
    (hD : IsContainer (scryptCode passwd salt (2 ^ l) r p 64) l r p salt m D) (hg : GoodParams l r p)
    {P : EncParams} {verbose force : Bool} (hl : LimitsOk sys P verbose force) :
    (paramCode sys P verbose force D ≠ .OK ∧ ResourceCode (paramCode sys P verbose force D)) ∨
    (paramCode sys P verbose force D = .OK ∧ (¬ KdfOk sys (2 ^ hdrLogN D) (hdrR D) (hdrP D) ∨
      (KdfOk sys (2 ^ hdrLogN D) (hdrR D) (hdrP D) ∧ inpKey passwd D = scryptCode passwd salt (2 ^ l) r p 64 ∧
        Unlocked sys passwd P verbose force D 128))) := by
  by_cases hlim : LimitsPass sys P force (2 ^ l) r p
  · have hp : paramCode sys P verbose force D = .OK := by rw [paramCode_ok g hl, hD.logN, hD.r, hD.p]; exact ⟨hg, hlim⟩
    refine .inr ⟨hp, ?_⟩
    rw [hD.logN, hD.r, hD.p]
    by_cases hk : KdfOk sys (2 ^ l) r p
    · exact .inr ⟨hk, container_unlocked g hD hg hl hlim hk⟩
    · exact .inl hk
  · left
    have hp : paramCode sys P verbose force D ≠ .OK := by
      rw [Ne, paramCode_ok g hl, hD.logN, hD.r, hD.p]
      exact fun h => hlim h.2
    refine ⟨hp, ?_⟩
    rw [paramCode_table g hl, firstFail_cons (by rw [hD.logN, hD.r, hD.p]; exact hg), hD.logN, hD.r, hD.p]
    rcases limitTable_cases g P force (2 ^ l) r p with h | h
    · exact absurd h.2 hlim
    · exact h.1.resource

theorem decBuf_container {sys : EncSys} (g : sys.Good) {passwd salt m D : Bytes} {l r p : Nat}
    (hD : IsContainer (scryptCode passwd salt (2 ^ l) r p 64) l r p salt m D) (hg : GoodParams l r p)
    {P : EncParams} {verbose force : Bool} (hl : LimitsOk sys P verbose force) {outbuf : Bytes} {outlen : Nat} (hin : D.length < 2 ^ 64)
    (hout : D.length ≤ outbuf.length) {o : BufOut} (h : scryptdec_buf sys D outbuf outlen passwd P verbose force = .ok o) :
    (o.rc = .OK ∧ o.outlen = m.length ∧ o.out.take o.outlen = m) ∨ (ResourceCode o.rc ∧ o.out = outbuf ∧ o.outlen = outlen) := by
  classical
  have hs := decBuf_spec g hin hout h
  have hlen := hD.len
  have e1 := hs.rc
  unfold bufVerdict at e1
  rw [if_neg (by rintro (h | h); omega; exact h hD.magic), if_neg (not_not.2 hD.version), if_neg (by omega), if_neg (not_not.2 hD.sum)] at e1
  rcases container_params g hD hg hl with ⟨h1, h2⟩ | ⟨h1, h2 | ⟨h2, hkey, hU⟩⟩
  · rw [if_pos h1] at e1
    rw [e1]
    exact .inr ⟨h2, hs.out_no (fun hu => h1 hu.1.params)⟩
  · rw [if_neg (not_not.2 h1), if_pos h2] at e1
    rw [e1]
    exact .inr ⟨by unfold ResourceCode; simp, hs.out_no (fun hu => h2 hu.1.kdf)⟩
  · rw [if_neg (not_not.2 h1), if_neg (not_not.2 h2), if_neg (not_not.2 hU.pass)] at e1
    by_cases ha : aesCode sys = .OK
    · rw [if_neg (not_not.2 ha), if_neg (not_not.2 (by rw [hkey]; exact hD.tag))] at e1
      obtain ⟨o1, o2⟩ := hs.out_yes hU ha
      rw [hkey, hD.text] at o1
      rw [hlen, Nat.add_sub_cancel] at o1 o2
      exact .inl ⟨e1, o2, by rw [o2, o1, List.take_append_of_le_length (by omega), List.take_of_length_le (by omega)]⟩
    · rw [if_pos ha] at e1
      rw [e1]
      exact .inr ⟨aesCode_resource ha, hs.out_no (fun hu => ha hu.2)⟩

theorem decFile_container {sys : EncSys} (g : sys.Good) {passwd salt m : Bytes} {l r p : Nat} {inf : InFile}
    (hD : IsContainer (scryptCode passwd salt (2 ^ l) r p 64) l r p salt m inf.data) (hg : GoodParams l r p)
    {P : EncParams} {verbose force : Bool} (hl : LimitsOk sys P verbose force) {outf : OutFile} (hin : inf.data.length < 2 ^ 64)
    {o : FileOut} (h : scryptdec_file sys inf outf passwd P verbose force = .ok o) :
    (o.rc = .OK ∧ o.outf.written = outf.written ++ m) ∨
    ((ResourceCode o.rc ∨ (o.rc = .EWRFILE ∧ ¬ Fits outf m.length) ∨ (o.rc = .ERDFILE ∧ inf.err = true)) ∧
      ∃ n, o.outf.written = outf.written ++ m.take n) := by
  classical
  obtain ⟨s1, s2, -⟩ := decFile_spec g hin h
  have hlen := hD.len
  have none : ∀ f : OutFile, ∃ n, f.written = f.written ++ m.take n := fun f => ⟨0, by simp⟩
  by_cases hc : sys.cookieOk = true
  case neg =>
    have hc : sys.cookieOk = false := by simpa using hc
    have e : prepVerdict sys inf passwd P verbose force = .ENOMEM := by unfold prepVerdict; rw [if_pos hc]
    rw [e, if_pos (by simp)] at s1
    rw [e, if_neg (by simp)] at s2
    rw [s1, s2]
    exact .inr ⟨.inl (by unfold ResourceCode; simp), none _⟩
  have hpv : prepVerdict sys inf passwd P verbose force = sysVerdict sys passwd P verbose force inf.data := by
    unfold prepVerdict
    rw [if_neg (by simp [hc]), if_neg (not_not.2 (headVerdict_ok.2 ⟨by omega, hD.magic, hD.version⟩))]
  have hsv := hpv
  unfold sysVerdict setupVerdict at hsv
  rw [if_neg (not_not.2 hD.sum)] at hsv
  rcases container_params g hD hg hl with ⟨h1, h2⟩ | ⟨h1, h2 | ⟨h2, hkey, hU⟩⟩
  · rw [if_pos h1] at hsv
    rw [hsv, if_pos h1] at s1
    rw [hsv, if_neg h1] at s2
    rw [s1, s2]
    exact .inr ⟨.inl h2, none _⟩
  · rw [if_neg (not_not.2 h1), if_pos h2] at hsv
    rw [hsv, if_pos (by simp)] at s1
    rw [hsv, if_neg (by simp)] at s2
    rw [s1, s2]
    exact .inr ⟨.inl (by unfold ResourceCode; simp), none _⟩
  · have hp : prepVerdict sys inf passwd P verbose force = .OK :=
      prepVerdict_ok.2 ⟨hc, ⟨by omega, hU.magic, hU.version, hU.sum, hU.params, hU.kdf, hU.pass⟩⟩
    rw [hp, if_neg (by simp)] at s1
    rw [hp, if_pos rfl, copyOut] at s2
    unfold copyVerdict at s1
    by_cases ha : aesCode sys = .OK
    case neg =>
      rw [if_pos ha] at s1
      rw [if_neg ha] at s2
      rw [s1, s2]
      exact .inr ⟨.inl (aesCode_resource ha), none _⟩
    rw [if_neg (not_not.2 ha), hlen, Nat.add_sub_cancel] at s1
    rw [if_pos ha, hkey, hD.text] at s2
    by_cases hF : Fits outf m.length
    case neg =>
      rw [if_pos hF] at s1
      rw [s1, s2]
      exact .inr ⟨.inr (.inl ⟨rfl, hF⟩), Scrypt.fwrite_prefix _ _⟩
    rw [if_neg (not_not.2 hF)] at s1
    by_cases he : inf.err = true
    · rw [if_pos he] at s1
      rw [s1, s2]
      exact .inr ⟨.inr (.inr ⟨rfl, he⟩), Scrypt.fwrite_prefix _ _⟩
    · rw [if_neg he, if_neg (by omega), if_neg (not_not.2 (by rw [hkey]; exact hD.tag))] at s1
      exact .inl ⟨s1, by rw [s2]; exact fwrite_fits hF⟩

/-! ### Calls in a process -/

/-- The call, made on `sys`, comes out as `o`. -/
def Performs (m : Machine) (e : CallEnv) (st : Statics) (sys : EncSys) : LibCall → LibOut → Prop
  | .encBuf inbuf outbuf passwd P v f, .buf o => scryptenc_buf sys inbuf outbuf passwd P v f = .ok o
  | .decBuf inbuf outbuf outlen passwd P v f, .buf o => scryptdec_buf sys inbuf outbuf outlen passwd P v f = .ok o
  | .encFile i outf passwd P v f, .file o => scryptenc_file sys i outf passwd P v f = .ok o
  | .decFile i outf passwd P v f, .file o => scryptdec_file sys i outf passwd P v f = .ok o
  | .kdf passwd salt N r p buf buflen, .kdf o =>
    ∃ sm', crypto_scrypt m.szMax m.sse2 e.kdf1 e.kdf2 e.kdf (shaTransform m.bestSha) e.junkHmac e.junkTest smixImpl st.smix passwd salt N r p buf buflen =
      .ok (o, sm')
  | .random buf, .random o => crypto_entropy_read m.drbgSys st.seeds st.drbg buf buf.length = .ok (some o)
  | _, _ => False

/-- How the call leaves the random generator. -/
def Draws (m : Machine) (e : CallEnv) (st : Statics) (sys : EncSys) (st' : Statics) : LibCall → Prop
  | .random buf => ∃ o, crypto_entropy_read m.drbgSys st.seeds st.drbg buf buf.length = .ok (some o) ∧ st'.drbg = o.st ∧ st'.seeds = o.rest
  | .kdf .. => st'.drbg = st.drbg ∧ st'.seeds = st.seeds
  | _ => SaltDrawn m e st sys.salt st'

theorem libCall_spec {m : Machine} (gm : m.Good) {e : CallEnv} (ge : e.Good) {st st' : Statics} (hi : StInv m st) {c : LibCall} {o : LibOut}
    (h : libCall m e st c = .ok (some (o, st'))) :
    ∃ sys, Answered m e sys ∧ Performs m e st sys c o ∧ StInv m st' ∧ Draws m e st sys st' c := by
  have wrap : ∀ {α : Type} {f : EncSys → Res α} {rc : α → Code} {smix : α → Option SmixImpl} {k : α → LibOut},
      (withAnswers m e st f rc smix >>= fun r => Res.ok (r.map fun x => (k x.1, x.2))) = .ok (some (o, st')) →
      ∃ x sys, o = k x ∧ Answered m e sys ∧ f sys = .ok x ∧ StInv m st' ∧ SaltDrawn m e st sys.salt st' := by
    intro α f rc smix k h
    obtain ⟨r, h1, h⟩ := Res.bind_eq_ok.1 h
    cases r with
    | none => cases h
    | some x =>
      obtain ⟨rfl, rfl⟩ := Prod.mk.inj (Option.some.inj (Res.ok.inj h))
      obtain ⟨sys, a, b, c, d⟩ := withAnswers_spec gm ge hi h1
      exact ⟨x.1, sys, rfl, a, b, c, d⟩
  cases c with
  | encBuf a1 a2 a3 a4 a5 a6 =>
    obtain ⟨x, sys, rfl, a, b, c, d⟩ := wrap (k := .buf) h
    exact ⟨sys, a, b, c, d⟩
  | decBuf a1 a2 a3 a4 a5 a6 a7 =>
    obtain ⟨x, sys, rfl, a, b, c, d⟩ := wrap (k := .buf) h
    exact ⟨sys, a, b, c, d⟩
  | encFile a1 a2 a3 a4 a5 a6 =>
    obtain ⟨x, sys, rfl, a, b, c, d⟩ := wrap (k := .file) h
    exact ⟨sys, a, b, c, d⟩
  | decFile a1 a2 a3 a4 a5 a6 =>
    obtain ⟨x, sys, rfl, a, b, c, d⟩ := wrap (k := .file) h
    exact ⟨sys, a, b, c, d⟩
  | kdf a1 a2 a3 a4 a5 a6 a7 =>
    rw [libCall] at h
    rw [hi.sha_init, Res.bind_ok] at h
    obtain ⟨r, h1, h⟩ := Res.bind_eq_ok.1 h
    obtain ⟨rfl, rfl⟩ := Prod.mk.inj (Option.some.inj (Res.ok.inj h))
    exact ⟨_, baseSys_answered gm ge st.smix, ⟨_, h1⟩, ⟨.inr rfl, hi.drbg⟩, rfl, rfl⟩
  | random b =>
    rw [libCall] at h
    rw [hi.sha_init, Res.bind_ok] at h
    obtain ⟨r, h1, h⟩ := Res.bind_eq_ok.1 h
    cases r with
    | none => cases h
    | some r =>
      obtain ⟨rfl, rfl⟩ := Prod.mk.inj (Option.some.inj (Res.ok.inj h))
      obtain ⟨r1, -⟩ := read_inv gm hi h1
      exact ⟨_, baseSys_answered gm ge st.smix, h1, ⟨.inr rfl, r1⟩, r, h1, rfl, rfl⟩

/-- Every call of a history is a call from some reachable state. -/
theorem libHistory_get {m : Machine} (gm : m.Good) : ∀ (cs : List (CallEnv × LibCall)) (_ : ∀ c ∈ cs, c.1.Good) {st st' : Statics} (_ : StInv m st) {outs : List LibOut}
    (_ : libHistory m st cs = .ok (some (outs, st'))), StInv m st' ∧ outs.length = cs.length ∧
      ∀ (i : Nat) (e : CallEnv) (c : LibCall) (o : LibOut), cs[i]? = some (e, c) → outs[i]? = some o →
        ∃ s s', StInv m s ∧ e.Good ∧ libCall m e s c = .ok (some (o, s'))
  | [], _, st, st', hi, outs, h => by
    unfold libHistory at h
    obtain ⟨rfl, rfl⟩ := Prod.mk.inj (Option.some.inj (Res.ok.inj h))
    exact ⟨hi, rfl, fun i e c o h => by simp at h⟩
  | c :: cs, hg, st, st', hi, outs, h => by
    unfold libHistory at h
    obtain ⟨r, h1, h⟩ := Res.bind_eq_ok.1 h
    cases r with
    | none => cases h
    | some x =>
      simp only [] at h
      obtain ⟨q, h2, h⟩ := Res.bind_eq_ok.1 h
      cases q with
      | none => cases h
      | some q =>
        obtain ⟨rfl, rfl⟩ := Prod.mk.inj (Option.some.inj (Res.ok.inj h))
        obtain ⟨-, -, -, a3, -⟩ := libCall_spec gm (hg c (by simp)) hi h1
        obtain ⟨b1, b2, b3⟩ := libHistory_get gm cs (fun c hc => hg c (by simp [hc])) a3 h2
        refine ⟨b1, by simp [b2], ?_⟩
        intro i e k o hc ho
        cases i with
        | zero =>
          simp only [List.getElem?_cons_zero, Option.some.injEq] at hc ho
          subst ho
          rw [hc] at h1
          exact ⟨st, x.2, hi, by have := hg c (by simp); rwa [hc] at this, h1⟩
        | succ i => exact b3 i e k o (by simpa using hc) (by simpa using ho)

/-! ### C53 -/

/-- The call encrypted `msg` under `passwd`; `D` is the result. -/
def Encrypts (c : LibCall) (o : LibOut) (passwd msg D : Bytes) : Prop :=
  match c, o with
  | .encBuf inbuf outbuf pw _ _ _, .buf o =>
    inbuf = msg ∧ pw = passwd ∧ msg.length + 128 ≤ outbuf.length ∧ o.rc = .OK ∧ D = o.out.take (msg.length + 128)
  | .encFile i outf pw _ _ _, .file o => i.data = msg ∧ pw = passwd ∧ o.rc = .OK ∧ o.outf.written = outf.written ++ D
  | _, _ => False

/-- The limits given to a call are sensible: the memory fraction is a double in (0, 1/2] (the utility sees to it); asprintf works if it is used. -/
def SaneLimits (e : CallEnv) (P : EncParams) (verbose force : Bool) : Prop :=
  (force = false → ∃ q : ℚ, P.maxmemfrac = fin false q ∧ 0 < q ∧ q ≤ 1 / 2 ∧ F64.Rep q) ∧
  (verbose = true → e.disp.asprintf1 = true ∧ e.disp.asprintf2 = true)

theorem Answered.limits {m : Machine} {e : CallEnv} {sys : EncSys} (h : Answered m e sys) {P : EncParams} {verbose force : Bool}
    (hs : SaneLimits e P verbose force) : LimitsOk sys P verbose force :=
  ⟨hs.1, fun hv => by rw [h.disp]; exact hs.2 hv⟩

/-- The call asks for the decryption of `D` with `passwd`. -/
def Decrypts (e : CallEnv) (c : LibCall) (passwd D : Bytes) : Prop :=
  match c with
  | .decBuf inbuf outbuf _ pw P v f => inbuf = D ∧ pw = passwd ∧ D.length ≤ outbuf.length ∧ SaneLimits e P v f
  | .decFile i _ pw P v f => i.data = D ∧ pw = passwd ∧ SaneLimits e P v f
  | _ => False

/-- It gave `msg`, and reported success. -/
def Recovers (c : LibCall) (o : LibOut) (msg : Bytes) : Prop :=
  match c, o with
  | .decBuf .., .buf o => o.rc = .OK ∧ o.outlen = msg.length ∧ o.out.take o.outlen = msg
  | .decFile _ outf .., .file o => o.rc = .OK ∧ o.outf.written = outf.written ++ msg
  | _, _ => False

/-- It reported that resources are missing or (for files) that reading or writing failed; and gave nothing but, to a file, the beginning of `msg`. -/
def LacksResources (c : LibCall) (o : LibOut) (msg : Bytes) : Prop :=
  match c, o with
  | .decBuf _ outbuf outlen .., .buf o => ResourceCode o.rc ∧ o.out = outbuf ∧ o.outlen = outlen
  | .decFile i outf .., .file o =>
    (ResourceCode o.rc ∨ (o.rc = .EWRFILE ∧ ¬ Fits outf msg.length) ∨ (o.rc = .ERDFILE ∧ i.err = true)) ∧
    ∃ n, o.outf.written = outf.written ++ msg.take n
  | _, _ => False

/-- The result of an encryption is a container. -/
theorem encrypts_container {m : Machine} {e : CallEnv} {st : Statics} {sys : EncSys} (g : sys.Good) {c : LibCall} {o : LibOut} (h : Performs m e st sys c o)
    {passwd msg D : Bytes} (hm : msg.length + 128 < 2 ^ 64) (hc : Encrypts c o passwd msg D) :
    ∃ (salt : Bytes) (l r p : Nat), sys.salt = some salt ∧ salt.length = 32 ∧ GoodParams l r p ∧ r < 2 ^ 32 ∧ p < 2 ^ 32 ∧
      D = container (scryptCode passwd salt (2 ^ l) r p 64) l r p salt msg ∧ KdfOk sys (2 ^ l) r p := by
  unfold Encrypts at hc
  split at hc
  · obtain ⟨rfl, rfl, h1, h2, h3⟩ := hc
    obtain ⟨salt, l, i1, i2, i3, i4, i5, i6⟩ := encBuf_inv g (by omega) h1 h h2
    have hsalt := g.salt _ i1
    refine ⟨salt, l, _, _, i1, hsalt, i3, BitVec.isLt _, BitVec.isLt _, ?_, i5⟩
    rw [h3, i6, List.take_append_of_le_length (by rw [container_length _ _ _ _ _ _ hsalt]), List.take_of_length_le (by rw [container_length _ _ _ _ _ _ hsalt])]
  · obtain ⟨rfl, rfl, h1, h2⟩ := hc
    obtain ⟨salt, l, i1, hsalt, i2, i3, i4, -, -, -, -, i6⟩ := encFile_inv g (by omega) h h1
    refine ⟨salt, l, _, _, i1, hsalt, i3, BitVec.isLt _, BitVec.isLt _, ?_, i4⟩
    rw [i6] at h2
    exact (List.append_cancel_left h2).symm
  · exact hc.elim

/-- **C53.**  Encrypt in one process (any machine, after and before any other calls), decrypt the result in another process (any machine, any other
calls), with the same passphrase: the second process reports success and gives back the message, or it says that it lacks resources, in which case it gives
nothing but (to a file) a beginning of the message.  Buffers and files in all combinations. -/
theorem C53_roundtrip {mA mB : Machine} (gA : mA.Good) (gB : mB.Good) {csA csB : List (CallEnv × LibCall)} (hA : ∀ c ∈ csA, c.1.Good)
    (hB : ∀ c ∈ csB, c.1.Good) {seedsA seedsB : List SeedEnv} {outsA outsB : List LibOut} {stA stB : Statics}
    (runA : libHistory mA (Statics.initial seedsA) csA = .ok (some (outsA, stA)))
    (runB : libHistory mB (Statics.initial seedsB) csB = .ok (some (outsB, stB)))
    {i j : Nat} {eA eB : CallEnv} {cA cB : LibCall} {oA oB : LibOut} (hcA : csA[i]? = some (eA, cA)) (hoA : outsA[i]? = some oA)
    (hcB : csB[j]? = some (eB, cB)) (hoB : outsB[j]? = some oB)
    {passwd msg D : Bytes} (hm : msg.length + 128 < 2 ^ 64) (henc : Encrypts cA oA passwd msg D) (hdec : Decrypts eB cB passwd D) :
    Recovers cB oB msg ∨ LacksResources cB oB msg := by
  obtain ⟨-, -, a⟩ := libHistory_get gA csA hA (StInv.initial mA seedsA) runA
  obtain ⟨-, -, b⟩ := libHistory_get gB csB hB (StInv.initial mB seedsB) runB
  obtain ⟨_, _, iA, fA, a⟩ := a i eA cA oA hcA hoA
  obtain ⟨_, _, iB, fB, b⟩ := b j eB cB oB hcB hoB
  obtain ⟨sA, a1, a2, -⟩ := libCall_spec gA fA iA a
  obtain ⟨sB, b1, b2, -⟩ := libCall_spec gB fB iB b
  obtain ⟨salt, l, r, p, -, hsalt, hg, hr, hp, hD, -⟩ := encrypts_container a1.good a2 hm henc
  have hC := container_fields (scryptCode passwd salt (2 ^ l) r p 64) l r p salt msg hsalt (by have := hg.2.1; omega) hr hp
  rw [← hD] at hC
  have hlen := hC.len
  unfold Decrypts at hdec
  split at hdec
  · obtain ⟨rfl, rfl, h1, h2⟩ := hdec
    cases oB with
    | buf oB => exact decBuf_container b1.good hC hg (b1.limits h2) (by omega) h1 b2
    | file => exact b2.elim
    | kdf => exact b2.elim
    | random => exact b2.elim
  · obtain ⟨rfl, rfl, h2⟩ := hdec
    cases oB with
    | file oB => exact decFile_container b1.good hC hg (b1.limits h2) (by omega) b2
    | buf => exact b2.elim
    | kdf => exact b2.elim
    | random => exact b2.elim
  · exact hdec.elim

end Scrypt.Props
