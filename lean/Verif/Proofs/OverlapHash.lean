import Verif.Model.OverlapHash
import Verif.Proofs.Overlap
import Verif.Proofs.Hmac
import Verif.Proofs.Slice
import Verif.Proofs.Scratch
import Verif.Proofs.AccessOps
import Mathlib.Tactic.Common
/- Hashing with buffers that are regions of one memory: every function reads all it reads before it stores. -/
namespace Scrypt
open Spec

theorem be32enc_vectM_eq {src : List W32} (hs : src.length = 8) {d : Bytes} (h : be32enc_vect src 32 = .ok d) (mem : Bytes) (dp : Nat)
    (hd : dp + 32 ≤ mem.length) : be32enc_vectM mem dp src 32 = .ok (ow mem dp d) ∧ d.length = 32 := by
  match src, hs with
  | [a, b, c, e, f, g, i, j], _ =>
    simp [be32enc_vect, forLoop, rd, be32enc_eq] at h
    have := loop_groups dp 4 8 mem (fun k => be32enc ([a, b, c, e, f, g, i, j].getD k 0)) (fun m k => do
      let x ← rd [a, b, c, e, f, g, i, j] k
      wrSlice m (dp + 4 * k) (be32enc x))
    constructor
    · unfold be32enc_vectM
      rw [show (32 % 4 == 0) = true from rfl, cassert_true, Res.bind_ok, show 32 / 4 = 8 from rfl, this (by omega) (fun k _ => by simp [be32enc_eq]) ?_]
      · rw [← h]
        simp [List.range, List.range.loop, be32enc_eq]
      · intro k m' hk hm _
        have e : rd [a, b, c, e, f, g, i, j] k = .ok ([a, b, c, e, f, g, i, j].getD k 0) := by
          unfold rd
          match k, hk with
          | 0, _ | 1, _ | 2, _ | 3, _ | 4, _ | 5, _ | 6, _ | 7, _ => rfl
        rw [e, Res.bind_ok, wrSlice_ow (by simp [be32enc_eq]; omega)]
    · rw [← h]; simp

theorem updLoopM_rel (tf : Transform) (mem : Bytes) : ∀ (fuel : Nat) (state : List W32) (p len : Nat), p + len ≤ mem.length →
    Res.Rel (fun a b => a.1 = b.1 ∧ a.2.1 + a.2.2 ≤ mem.length ∧ b.2 = sl mem a.2.1 a.2.2) (updLoopM tf mem fuel state p len)
      (updLoop tf fuel state (sl mem p len)) := by
  intro fuel
  induction fuel with
  | zero => intro state p len h; exact ⟨rfl, h, rfl⟩
  | succ fuel ih =>
    intro state p len h
    unfold updLoopM updLoop
    rw [sl_length _ _ _ h]
    by_cases h64 : len ≥ 64
    · rw [if_pos h64, if_pos h64, rdSlice_sl (by omega), Res.bind_ok]
      have e1 : (sl mem p len).take 64 = sl mem p 64 := by
        have := sl_sl mem p len 0 64 (by omega)
        simpa [sl] using this
      have e2 : (sl mem p len).drop 64 = sl mem (p + 64) (len - 64) := by
        simp only [sl, List.drop_take, List.drop_drop]
      rw [e1, e2]
      exact Res.Rel.same fun st => ih st _ _ (by omega)
    · rw [if_neg h64, if_neg h64]
      exact ⟨rfl, h, rfl⟩

theorem Res.Rel.toEq {α : Type} {x y : Res α} (h : Res.Rel (fun a b => a = b) x y) : x = y := by
  cases x <;> cases y <;> first | exact h.elim | rfl | exact congrArg Res.ok h

theorem Res.Rel.rfl' {α : Type} (x : Res α) : Res.Rel (fun a b => a = b) x x := by
  cases x <;> first | trivial | exact rfl

theorem SHA256_UpdateM_eq (tf : Transform) (ctx : SHA256_CTX) (mem : Bytes) (p len : Nat) (h : p + len ≤ mem.length) :
    SHA256_UpdateM tf ctx mem p len = SHA256_Update tf ctx (sl mem p len) := by
  unfold SHA256_UpdateM SHA256_Update
  simp only [sl_length _ _ _ h]
  by_cases h0 : (len == 0) = true
  · rw [if_pos h0, if_pos h0]
  rw [if_neg h0, if_neg h0]
  have hr : (ctx.r) < 64 := SHA256_CTX.r_lt ctx
  by_cases h1 : len < 64 - ctx.r
  · rw [if_pos h1, if_pos h1, rdSlice_sl h, Res.bind_ok]
  rw [if_neg h1, if_neg h1, rdSlice_sl (by omega), Res.bind_ok]
  have e1 : (sl mem p len).take (64 - ctx.r) = sl mem p (64 - ctx.r) := by
    have := sl_sl mem p len 0 (64 - ctx.r) (by omega)
    simpa [sl] using this
  have e2 : (sl mem p len).drop (64 - ctx.r) = sl mem (p + (64 - ctx.r)) (len - (64 - ctx.r)) := by
    simp only [sl, List.drop_take, List.drop_drop]
  rw [e1, e2]
  congr 1; funext buf; congr 1; funext st
  refine Res.Rel.toEq (Res.Rel.bind (updLoopM_rel tf mem len st _ _ (by omega)) ?_)
  rintro ⟨a1, a2, a3⟩ ⟨b1, b2⟩ ⟨rfl, ha, rfl⟩
  simp only
  rw [rdSlice_sl ha, Res.bind_ok]
  cases wrSlice buf 0 (sl mem a2 a3) <;> first | trivial | exact rfl

theorem SHA256_Final_internalM_eq {tf : Transform} {ctx ctx' : SHA256_CTX} {d : Bytes} (h : SHA256_Final_internal tf ctx = .ok (d, ctx'))
    (hs : ctx'.Sized) (mem : Bytes) (dp : Nat) (hd : dp + 32 ≤ mem.length) :
    SHA256_Final_internalM tf ctx mem dp = .ok (ow mem dp d, ctx') ∧ d.length = 32 := by
  obtain ⟨c, e1, h2⟩ := Res.bind_eq_ok.mp h
  obtain ⟨d', e2, h3⟩ := Res.bind_eq_ok.mp h2
  obtain ⟨rfl, rfl⟩ := Prod.mk.inj (Res.ok.inj h3)
  obtain ⟨e3, hl⟩ := be32enc_vectM_eq hs.1 e2 mem dp hd
  refine ⟨?_, hl⟩
  unfold SHA256_Final_internalM
  rw [e1, Res.bind_ok, e3, Res.bind_ok]; rfl

theorem SHA256_BufM_eq (tf : Transform) (ht : GoodTf tf) (ctx : SHA256_CTX) (hc : ctx.Sized) (mem : Bytes) (p len dp : Nat)
    (h : p + len ≤ mem.length) (hd : dp + 32 ≤ mem.length) :
    SHA256_BufM tf ctx mem p len dp = .ok (ow mem dp (sha256 (sl mem p len))) := by
  obtain ⟨c1, e1, h1⟩ := SHA256_Update_spec tf ht _ _ (sl mem p len) (repr_init ctx hc)
  obtain ⟨c2, e2, h2⟩ := SHA256_Final_spec tf ht _ _ h1
  unfold SHA256_BufM
  simp only [SHA256_UpdateM_eq _ _ _ _ _ h, e1, Res.bind_ok, (SHA256_Final_internalM_eq e2 h2 mem dp hd).1]
  rfl

theorem hmacPadM_eq (v : Byte) (arr : Bytes) (kp klen : Nat) (h : kp + klen ≤ arr.length) : hmacPadM v arr kp klen = hmacPad v (sl arr kp klen) := by
  unfold hmacPadM hmacPad
  rw [sl_length _ _ _ h]
  refine Res.Rel.toEq (Res.Rel.forLoop (R := fun _ a b => a = b) rfl ?_)
  rintro i s _ hi rfl
  have : rd arr (kp + i) = rd (sl arr kp klen) i := by
    unfold rd
    rw [sl_getElem?, if_pos hi]
  rw [this]
  exact Res.Rel.same fun _ => Res.Rel.same fun _ => Res.Rel.rfl' _

theorem HMAC_SHA256_InitM_eq (tf : Transform) (ht : GoodTf tf) (ctx : HMAC_SHA256_CTX) (hc : ctx.Sized) (mem : Bytes) (kp klen : Nat)
    (h : kp + klen ≤ mem.length) : HMAC_SHA256_InitM tf ctx mem kp klen = HMAC_SHA256_Init tf ctx (sl mem kp klen) := by
  unfold HMAC_SHA256_InitM HMAC_SHA256_Init
  rw [sl_length _ _ _ h]
  by_cases hk : klen > 64
  · simp only [if_pos hk, SHA256_UpdateM_eq _ _ _ _ _ h]
    obtain ⟨c1, e1, h1⟩ := SHA256_Update_spec tf ht _ _ (sl mem kp klen) (repr_init ctx.ictx hc.1)
    obtain ⟨c2, e2, h2⟩ := SHA256_Final_spec tf ht _ _ h1
    have hl := (SHA256_Final_internalM_eq e2 h2 (List.replicate 32 0) 0 (by simp)).2
    simp only [e1, e2, Res.bind_ok, Res.pure_eq]
    rw [hmacPadM_eq _ _ _ _ (by omega), hmacPadM_eq _ _ _ _ (by omega), sl_full _ _ hl]
  · simp only [if_neg hk, Res.bind_ok, Res.pure_eq]
    rw [hmacPadM_eq _ _ _ _ h, hmacPadM_eq _ _ _ _ h]

theorem HMAC_SHA256_UpdateM_eq (tf : Transform) (ctx : HMAC_SHA256_CTX) (mem : Bytes) (p len : Nat) (h : p + len ≤ mem.length) :
    HMAC_SHA256_UpdateM tf ctx mem p len = HMAC_SHA256_Update tf ctx (sl mem p len) := by
  unfold HMAC_SHA256_UpdateM HMAC_SHA256_Update
  rw [SHA256_UpdateM_eq _ _ _ _ _ h]

theorem HMAC_SHA256_Final_internalM_eq (tf : Transform) (ht : GoodTf tf) (ctx : HMAC_SHA256_CTX) (K msg : Bytes) (h : HRepr ctx K msg)
    (mem : Bytes) (dp : Nat) (hd : dp + 32 ≤ mem.length) :
    ∃ c, HMAC_SHA256_Final_internal tf ctx = .ok (hmac K msg, c) ∧ c.Sized ∧ HMAC_SHA256_Final_internalM tf ctx mem dp = .ok (ow mem dp (hmac K msg), c) := by
  obtain ⟨c1, e1, s1⟩ := SHA256_Final_spec tf ht _ _ h.i
  obtain ⟨c2, e2, h2⟩ := SHA256_Update_spec tf ht _ _ (sha256 ((hmacKey K).map (· ^^^ 0x36) ++ msg)) h.o
  obtain ⟨c3, e3, s3⟩ := SHA256_Final_spec tf ht _ _ h2
  refine ⟨⟨c1, c3⟩, by simp only [HMAC_SHA256_Final_internal, e1, e2, e3, Res.bind_ok, hmac, Res.pure_eq], ⟨s1, s3⟩, ?_⟩
  simp only [HMAC_SHA256_Final_internalM, e1, e2, (SHA256_Final_internalM_eq e3 s3 mem dp hd).1, Res.bind_ok, hmac, Res.pure_eq]

theorem HMAC_SHA256_BufM_eq (tf : Transform) (ht : GoodTf tf) (ctx : HMAC_SHA256_CTX) (hc : ctx.Sized) (mem : Bytes) (kp klen p len dp : Nat)
    (hk : kp + klen ≤ mem.length) (h : p + len ≤ mem.length) (hd : dp + 32 ≤ mem.length) :
    HMAC_SHA256_BufM tf ctx mem kp klen p len dp = .ok (ow mem dp (hmac (sl mem kp klen) (sl mem p len))) := by
  obtain ⟨c1, e1, h1⟩ := HMAC_SHA256_Init_spec tf ht ctx hc (sl mem kp klen)
  obtain ⟨c2, e2, h2⟩ := HMAC_SHA256_Update_spec tf ht _ _ _ (sl mem p len) h1
  obtain ⟨c3, -, -, e3⟩ := HMAC_SHA256_Final_internalM_eq tf ht _ _ _ h2 mem dp hd
  simp only [HMAC_SHA256_BufM, HMAC_SHA256_InitM_eq tf ht ctx hc _ _ _ hk, HMAC_SHA256_UpdateM_eq _ _ _ _ _ h, e1, e2, e3, Res.bind_ok,
    List.nil_append, Res.pure_eq]

theorem ow_ow_inside (m b : Bytes) (bp o : Nat) (s : Bytes) (h : bp + b.length ≤ m.length) (ho : o + s.length ≤ b.length) :
    ow (ow m bp b) (bp + o) s = ow m bp (ow b o s) := by
  have l1 := ow_length m bp b h
  have l2 := ow_length b o s ho
  refine List.ext_getElem? fun i => ?_
  rw [ow_getElem? _ _ _ (by omega), ow_getElem? _ _ _ h, ow_getElem? _ _ _ (by omega), ow_getElem? _ _ _ ho, l2]
  by_cases h1 : bp ≤ i ∧ i < bp + b.length
  · rw [if_pos h1, if_pos h1]
    by_cases h3 : o ≤ i - bp ∧ i - bp < o + s.length
    · rw [if_pos (by omega), if_pos h3]; congr 1; omega
    · rw [if_neg (by omega), if_neg h3]
  · rw [if_neg (by omega), if_neg h1, if_neg h1]

/-- The blocks stored into a region of a larger array. -/
theorem pbkdf2BlocksM_rel (tf : Transform) (Ph PS : HMAC_SHA256_CTX) (c dkLen : Nat) (mem : Bytes) (bp : Nat) (h : bp + dkLen ≤ mem.length) :
    Res.Rel (fun m b => b.length = dkLen ∧ m = ow mem bp b) (pbkdf2BlocksM tf Ph PS c dkLen mem bp)
      (pbkdf2BlocksM tf Ph PS c dkLen (sl mem bp dkLen) 0) := by
  unfold pbkdf2BlocksM
  refine Res.Rel.forLoop (R := fun _ m b => b.length = dkLen ∧ m = ow mem bp b) ⟨sl_length _ _ _ h, ?_⟩ ?_
  · refine List.ext_getElem? fun i => ?_
    rw [ow_getElem? _ _ _ (by rw [sl_length _ _ _ h]; exact h), sl_length _ _ _ h]
    by_cases h1 : bp ≤ i ∧ i < bp + dkLen
    · rw [if_pos h1, sl_getElem?, if_pos (by omega), show bp + (i - bp) = i by omega]
    · rw [if_neg h1]
  · rintro i m b hi ⟨hb, rfl⟩
    refine Res.Rel.same fun hctx => ?_
    refine Res.Rel.same fun U => ?_
    refine Res.Rel.same fun ⟨_, T⟩ => ?_
    simp only
    generalize hcl : (if dkLen - i * 32 > 32 then 32 else dkLen - i * 32) = clen
    have hc : i * 32 + clen ≤ dkLen := by rw [← hcl]; split <;> omega
    cases hr : rdSlice T 0 clen with
    | ub => trivial
    | abort => trivial
    | ok src =>
      have hsl := rdSlice_length hr
      rw [Res.bind_ok, Res.bind_ok, wrSlice_ow (by rw [ow_length _ _ _ (by omega)]; omega), wrSlice_ow (by omega)]
      rw [Nat.zero_add]
      exact ⟨by rw [ow_length _ _ _ (by omega)]; exact hb, ow_ow_inside _ _ _ _ _ (by omega) (by omega)⟩

/-- What the loop over blocks leaves in a separate array. -/
theorem pbkdf2BlocksM_sep (tf : Transform) (Ph PS : HMAC_SHA256_CTX) (c dkLen : Nat) (buf : Bytes) (junk : HMAC_SHA256_CTX) (P S : Bytes)
    (hd : dkLen ≤ 32 * (2 ^ 32 - 1)) (e1 : HMAC_SHA256_Init tf junk P = .ok Ph) (e2 : HMAC_SHA256_Update tf Ph S = .ok PS) :
    pbkdf2BlocksM tf Ph PS c dkLen buf 0 = PBKDF2_SHA256 tf junk P S c buf dkLen := by
  unfold PBKDF2_SHA256 pbkdf2BlocksM
  rw [show decide (dkLen ≤ 32 * (2 ^ 32 - 1)) = true by simpa using hd]
  simp only [cassert_true, Res.bind_ok, e1, e2, Nat.zero_add]

/-- Into a region of a larger array, the inputs being the same. -/
theorem pbkdf2BlocksM_eq (tf : Transform) (ht : GoodTf tf) (Ph PS : HMAC_SHA256_CTX) (c : Nat) (hc : 1 ≤ c) (dkLen : Nat) (junk : HMAC_SHA256_CTX) (hj : junk.Sized) (P S : Bytes)
    (hd : dkLen ≤ 32 * (2 ^ 32 - 1)) (e1 : HMAC_SHA256_Init tf junk P = .ok Ph) (e2 : HMAC_SHA256_Update tf Ph S = .ok PS)
    (mem : Bytes) (bp : Nat) (h : bp + dkLen ≤ mem.length) :
    pbkdf2BlocksM tf Ph PS c dkLen mem bp = .ok (ow mem bp (pbkdf2 P S c dkLen)) := by
  have r := pbkdf2BlocksM_rel tf Ph PS c dkLen mem bp h
  have hl := sl_length mem bp dkLen h
  rw [pbkdf2BlocksM_sep tf Ph PS c dkLen _ junk P S hd e1 e2, PBKDF2_SHA256_spec tf ht junk hj P S c hc _ _ hd (by omega),
    List.drop_eq_nil_of_le (by omega), List.append_nil] at r
  cases hx : pbkdf2BlocksM tf Ph PS c dkLen mem bp with
  | ok m => rw [hx] at r; rw [r.2]
  | ub => rw [hx] at r; exact r.elim
  | abort => rw [hx] at r; exact r.elim

theorem PBKDF2_SHA256M_eq (tf : Transform) (ht : GoodTf tf) (junk : HMAC_SHA256_CTX) (hj : junk.Sized) (mem : Bytes) (pp plen sp slen c bp dkLen : Nat)
    (hc : 1 ≤ c) (hd : dkLen ≤ 32 * (2 ^ 32 - 1)) (hp : pp + plen ≤ mem.length) (hs : sp + slen ≤ mem.length) (h : bp + dkLen ≤ mem.length) :
    PBKDF2_SHA256M tf junk mem pp plen sp slen c bp dkLen = .ok (ow mem bp (pbkdf2 (sl mem pp plen) (sl mem sp slen) c dkLen)) := by
  obtain ⟨Ph, e1, h1⟩ := HMAC_SHA256_Init_spec tf ht junk hj (sl mem pp plen)
  obtain ⟨PS, e2, h2⟩ := HMAC_SHA256_Update_spec tf ht _ _ _ (sl mem sp slen) h1
  unfold PBKDF2_SHA256M
  rw [show decide (dkLen ≤ 32 * (2 ^ 32 - 1)) = true by simpa using hd]
  simp only [cassert_true, Res.bind_ok, HMAC_SHA256_InitM_eq tf ht junk hj _ _ _ hp, HMAC_SHA256_UpdateM_eq _ _ _ _ _ hs, e1, e2]
  exact pbkdf2BlocksM_eq tf ht Ph PS c hc dkLen junk hj _ _ hd e1 e2 mem bp h

theorem PBKDF2_SHA256_to_eq (tf : Transform) (ht : GoodTf tf) (junk : HMAC_SHA256_CTX) (hj : junk.Sized) (mem : Bytes) (pp plen sp slen c : Nat) (B : Bytes) (dkLen : Nat)
    (hp : pp + plen ≤ mem.length) (hs : sp + slen ≤ mem.length) :
    PBKDF2_SHA256_to tf junk mem pp plen sp slen c B dkLen = PBKDF2_SHA256 tf junk (sl mem pp plen) (sl mem sp slen) c B dkLen := by
  unfold PBKDF2_SHA256_to PBKDF2_SHA256 pbkdf2BlocksM
  simp only [HMAC_SHA256_InitM_eq tf ht junk hj _ _ _ hp, HMAC_SHA256_UpdateM_eq _ _ _ _ _ hs, Nat.zero_add]

theorem PBKDF2_SHA256_from_eq (tf : Transform) (ht : GoodTf tf) (junk : HMAC_SHA256_CTX) (hj : junk.Sized) (mem : Bytes) (pp plen : Nat) (S : Bytes) (c bp dkLen : Nat)
    (hc : 1 ≤ c) (hd : dkLen ≤ 32 * (2 ^ 32 - 1)) (hp : pp + plen ≤ mem.length) (h : bp + dkLen ≤ mem.length) :
    PBKDF2_SHA256_from tf junk mem pp plen S c bp dkLen = .ok (ow mem bp (pbkdf2 (sl mem pp plen) S c dkLen)) := by
  obtain ⟨Ph, e1, h1⟩ := HMAC_SHA256_Init_spec tf ht junk hj (sl mem pp plen)
  obtain ⟨PS, e2, h2⟩ := HMAC_SHA256_Update_spec tf ht _ _ _ S h1
  unfold PBKDF2_SHA256_from
  rw [show decide (dkLen ≤ 32 * (2 ^ 32 - 1)) = true by simpa using hd]
  simp only [cassert_true, Res.bind_ok, HMAC_SHA256_InitM_eq tf ht junk hj _ _ _ hp, e1, e2]
  exact pbkdf2BlocksM_eq tf ht Ph PS c hc dkLen junk hj _ _ hd e1 e2 mem bp h

end Scrypt
