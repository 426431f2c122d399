import Verif.Props.ProcessTotal
/-
C53, continued: the decryption succeeds if it is forced (no limits) and the resources are there.
-/
namespace Scrypt.Props
open Scrypt Spec F64

/-- AES was asked for, unless the call did not get that far. -/
theorem answers_aes {m : Machine} {e : CallEnv} {st : Statics} {f : EncSys → Res Code} {x : EncSys × Statics}
    (hc : answers m e st f = .ok (some x)) : x.1.aes = e.aes ∨ reports (f x.1) .EOPENSSL = false := by
  unfold answers at hc
  obtain ⟨sha, -, hc⟩ := Res.bind_eq_ok.1 hc
  obtain ⟨r, -, hc⟩ := Res.bind_eq_ok.1 hc
  cases r with
  | none => cases hc
  | some sys =>
    simp only [] at hc
    obtain ⟨r, -, hc⟩ := Res.bind_eq_ok.1 hc
    cases r with
    | none => cases hc
    | some y =>
      simp only [] at hc
      obtain ⟨z, h3, hc⟩ := Res.bind_eq_ok.1 hc
      have hc := Option.some.inj (Res.ok.inj hc)
      subst hc
      unfold askAes at h3
      split at h3
      · obtain ⟨hw, -, h3⟩ := Res.bind_eq_ok.1 h3
        rw [← Res.ok.inj h3]
        exact .inl rfl
      · rename_i h4
        rw [← Res.ok.inj h3]
        exact .inr (by simpa using h4)

theorem withAnswers_aes {α : Type} {m : Machine} (gm : m.Good) {e : CallEnv} (ge : e.Good) {st : Statics} (hi : StInv m st) {f : EncSys → Res α} {rc : α → Code}
    {smix : α → Option SmixImpl} {o : α} {st' : Statics} (h : withAnswers m e st f rc smix = .ok (some (o, st'))) :
    ∃ sys, Answered m e sys ∧ f sys = .ok o ∧ (sys.aes = e.aes ∨ rc o ≠ .EOPENSSL) := by
  unfold withAnswers at h
  obtain ⟨r, h1, h⟩ := Res.bind_eq_ok.1 h
  cases r with
  | none => cases h
  | some x =>
    simp only [] at h
    obtain ⟨o', h2, h⟩ := Res.bind_eq_ok.1 h
    obtain ⟨rfl, rfl⟩ := Prod.mk.inj (Option.some.inj (Res.ok.inj h))
    obtain ⟨a, -, -⟩ := answers_answered gm ge hi h1
    refine ⟨x.1, a, h2, (answers_aes h1).imp id ?_⟩
    intro h3
    rw [h2, Res.bind_ok] at h3
    simpa [reports] using h3

/-- Whatever memory is asked for can be allocated and released, libcrypto works, and (for files) the input can be read and the output holds `n` more bytes. -/
structure Plenty (e : CallEnv) (c : LibCall) (n : Nat) : Prop where
  kdf : ∀ k, e.kdf.allocB k ≠ none ∧ e.kdf.allocXY k ≠ none ∧ e.kdf.allocV k ≠ none
  munmap : e.kdf.munmapOk = true
  aes : e.aes.mem ≠ none ∧ e.aes.osslOk = true
  ctr : e.ctr ≠ none
  cookie : e.cookieOk = true
  file : ∀ i outf pw P v f, c = .decFile i outf pw P v f → i.err = false ∧ Fits outf n

/-- The call was asked to ignore the resource limits. -/
def Forced : LibCall → Prop
  | .decBuf _ _ _ _ _ _ f => f = true
  | .decFile _ _ _ _ _ f => f = true
  | _ => False

theorem aesCode_avail {sys : EncSys} (h : aesAvail sys = true) (hc : sys.ctr ≠ none) : aesCode sys = .OK := by
  unfold aesCode
  rw [h]
  cases hx : sys.ctr with
  | none => exact absurd hx hc
  | some _ => rfl

/-- **C53**, continued: if the decryption is forced and there is enough memory (and the second machine is not one with a smaller `size_t`), it succeeds, whatever
was called before and whatever the clock does. -/
theorem C53_forced {mA mB : Machine} (gA : mA.Good) (gB : mB.Good) (hsz : mA.szMax ≤ mB.szMax) {csA csB : List (CallEnv × LibCall)} (hA : ∀ c ∈ csA, c.1.Good)
    (hB : ∀ c ∈ csB, c.1.Good) {seedsA seedsB : List SeedEnv} {outsA outsB : List LibOut} {stA stB : Statics}
    (runA : libHistory mA (Statics.initial seedsA) csA = .ok (some (outsA, stA)))
    (runB : libHistory mB (Statics.initial seedsB) csB = .ok (some (outsB, stB)))
    {i j : Nat} {eA eB : CallEnv} {cA cB : LibCall} {oA oB : LibOut} (hcA : csA[i]? = some (eA, cA)) (hoA : outsA[i]? = some oA)
    (hcB : csB[j]? = some (eB, cB)) (hoB : outsB[j]? = some oB)
    {passwd msg D : Bytes} (hm : msg.length + 128 < 2 ^ 64) (henc : Encrypts cA oA passwd msg D) (hdec : Decrypts eB cB passwd D)
    (hforce : Forced cB) (hp : Plenty eB cB msg.length) : Recovers cB oB msg := by
  classical
  obtain ⟨-, -, a⟩ := libHistory_get gA csA hA (StInv.initial mA seedsA) runA
  obtain ⟨-, -, b⟩ := libHistory_get gB csB hB (StInv.initial mB seedsB) runB
  obtain ⟨_, _, iA, fA, a⟩ := a i eA cA oA hcA hoA
  obtain ⟨_, _, iB, fB, b⟩ := b j eB cB oB hcB hoB
  obtain ⟨sA, a1, a2, -⟩ := libCall_spec gA fA iA a
  obtain ⟨salt, l, r, p, -, hsalt, hg, hr, hpp, hD, hk⟩ := encrypts_container a1.good a2 hm henc
  have hC := container_fields (scryptCode passwd salt (2 ^ l) r p 64) l r p salt msg hsalt (by have := hg.2.1; omega) hr hpp
  rw [← hD] at hC
  have hlen := hC.len
  have kdf : ∀ sys, Answered mB eB sys → KdfOk sys (2 ^ l) r p := by
    intro sys h
    obtain ⟨⟨q1, q2, q3, q4, q5, q6, q7, q8⟩, -⟩ := hk
    rw [a1.szMax] at q6 q7 q8
    unfold KdfOk
    rw [h.szMax, h.kdf]
    exact ⟨⟨q1, q2, q3, q4, q5, by omega, by omega, le_trans q8 hsz⟩, (hp.kdf _).1, (hp.kdf _).2.1, (hp.kdf _).2.2, hp.munmap⟩
  have avail : ∀ sys : EncSys, sys.aes = eB.aes → aesAvail sys = true := by
    intro sys h
    unfold aesAvail
    rw [h]
    obtain ⟨q1, q2⟩ := hp.aes
    cases hx : eB.aes.mem with
    | none => exact absurd hx q1
    | some _ => cases sys.aesHw <;> simp [q2]
  have code : ∀ sys, Answered mB eB sys → ∀ c, (sys.aes = eB.aes ∨ c ≠ .EOPENSSL) → (aesCode sys ≠ .OK → c = aesCode sys) → aesCode sys = .OK := by
    intro sys h c h1 h2
    have hctr : sys.ctr ≠ none := by rw [h.ctr]; exact hp.ctr
    by_cases hav : aesAvail sys = true
    · exact aesCode_avail hav hctr
    · exfalso
      have he : aesCode sys = .EOPENSSL := by unfold aesCode; simp [hav]
      rcases h1 with h1 | h1
      · exact hav (avail _ h1)
      · exact h1 ((h2 (by rw [he]; decide)).trans he)
  unfold Decrypts at hdec
  split at hdec
  · rename_i inbuf outbuf outlen pw P v f
    obtain ⟨rfl, rfl, h1, h2⟩ := hdec
    rw [libCall] at b
    obtain ⟨x, b1, b⟩ := Res.bind_eq_ok.1 b
    cases x with
    | none => cases b
    | some x =>
    obtain ⟨rfl, rfl⟩ := Prod.mk.inj (Option.some.inj (Res.ok.inj b))
    obtain ⟨sys, c1, c2, c3⟩ := withAnswers_aes gB fB iB b1
    have hs := decBuf_spec c1.good (by omega) h1 c2
    have e1 := hs.rc
    unfold bufVerdict at e1
    rw [if_neg (by rintro (h | h); omega; exact h hC.magic), if_neg (not_not.2 hC.version), if_neg (by omega), if_neg (not_not.2 hC.sum)] at e1
    have hlim : LimitsPass sys P f (2 ^ l) r p := .inl hforce
    have hpc : paramCode sys P v f inbuf = .OK := by
      rw [paramCode_ok c1.good (c1.limits h2), hC.logN, hC.r, hC.p]; exact ⟨hg, hlim⟩
    have hU := (container_unlocked c1.good hC hg (c1.limits h2) hlim (kdf _ c1))
    have hkd := kdf _ c1
    rw [← hC.logN, ← hC.r, ← hC.p] at hkd
    rw [if_neg (not_not.2 hpc), if_neg (not_not.2 hkd), if_neg (not_not.2 hU.2.pass)] at e1
    have ha := code sys c1 _ c3 (fun h => by rw [e1, if_pos h])
    rcases decBuf_container c1.good hC hg (c1.limits h2) (by omega) h1 c2 with h | h
    · exact h
    · exfalso
      rw [if_neg (not_not.2 ha), if_neg (not_not.2 (by rw [hU.1]; exact hC.tag))] at e1
      rw [e1] at h
      exact absurd h.1 (by unfold ResourceCode; decide)
  · rename_i inf outf pw P v f
    obtain ⟨rfl, rfl, h2⟩ := hdec
    rw [libCall] at b
    obtain ⟨x, b1, b⟩ := Res.bind_eq_ok.1 b
    cases x with
    | none => cases b
    | some x =>
    obtain ⟨rfl, rfl⟩ := Prod.mk.inj (Option.some.inj (Res.ok.inj b))
    obtain ⟨sys, c1, c2, c3⟩ := withAnswers_aes gB fB iB b1
    obtain ⟨q1, q2⟩ := hp.file _ _ _ _ _ _ rfl
    have hlim : LimitsPass sys P f (2 ^ l) r p := .inl hforce
    have hU := (container_unlocked c1.good hC hg (c1.limits h2) hlim (kdf _ c1))
    obtain ⟨s1, s2, -⟩ := decFile_spec c1.good (by omega) c2
    have hpv : prepVerdict sys inf pw P v f = .OK :=
      prepVerdict_ok.2 ⟨by rw [c1.cookieOk]; exact hp.cookie, ⟨by omega, hU.2.magic, hU.2.version, hU.2.sum, hU.2.params, hU.2.kdf, hU.2.pass⟩⟩
    rw [hpv, if_neg (by simp)] at s1
    unfold copyVerdict at s1
    have ha := code sys c1 _ c3 (fun h => by rw [s1, if_pos h])
    rw [if_neg (not_not.2 ha), hlen, Nat.add_sub_cancel, if_neg (not_not.2 q2), if_neg (by simp [q1]), if_neg (by omega),
      if_neg (not_not.2 (by rw [hU.1]; exact hC.tag))] at s1
    rcases decFile_container c1.good hC hg (c1.limits h2) (by omega) c2 with h | h
    · exact h
    · exfalso
      rw [s1] at h
      exact absurd h.1 (by simp [ResourceCode])
  · exact hdec.elim

end Scrypt.Props
