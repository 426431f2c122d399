import Verif.Proofs.Sha256
namespace Scrypt
open Spec

theorem zipWith_replicate_left {α β γ : Type} (f : α → β → γ) (v : α) (l : List β) :
    List.zipWith f (List.replicate l.length v) l = l.map (f v) := by
  induction l with
  | nil => rfl
  | cons x xs ih => simp [List.replicate_succ, ih]

theorem hmacPad_spec (v : Byte) (K : Bytes) (h : K.length ≤ 64) :
    hmacPad v K = .ok ((K ++ List.replicate (64 - K.length) 0).map (· ^^^ v)) := by
  unfold hmacPad
  rw [forLoop_zipWith (fun (x y : Byte) => x ^^^ y) _ _ _ (by simpa using h) (by omega)]
  rw [List.take_replicate, Nat.min_eq_left h, List.take_length, zipWith_replicate_left,
    List.drop_replicate]
  simp [BitVec.xor_comm]

/-- `ctx` is the HMAC state with key `K` after feeding `msg`. -/
structure HRepr (ctx : HMAC_SHA256_CTX) (K msg : Bytes) : Prop where
  i : Repr ctx.ictx ((hmacKey K).map (· ^^^ 0x36) ++ msg)
  o : Repr ctx.octx ((hmacKey K).map (· ^^^ 0x5c))

theorem HMAC_SHA256_Init_spec (tf : Transform) (ht : GoodTf tf) (ctx : HMAC_SHA256_CTX)
    (hc : ctx.Sized) (K : Bytes) :
    ∃ ctx', HMAC_SHA256_Init tf ctx K = .ok ctx' ∧ HRepr ctx' K [] := by
  -- the key, hashed if necessary
  have hkey : ∃ ic K', (if K.length > 64 then do
      let ictx := SHA256_Init ctx.ictx
      let ictx ← SHA256_Update tf ictx K
      let (khash, ictx) ← SHA256_Final_internal tf ictx
      return (ictx, khash)
    else return (ctx.ictx, K) : Res (SHA256_CTX × Bytes)) = .ok (ic, K') ∧ ic.Sized ∧
      K'.length ≤ 64 ∧ hmacKey K = K' ++ List.replicate (64 - K'.length) 0 := by
    by_cases h : K.length > 64
    · obtain ⟨c1, e1, h1⟩ := SHA256_Update_spec tf ht _ _ K (repr_init ctx.ictx hc.1)
      obtain ⟨c2, e2, h2⟩ := SHA256_Final_spec tf ht _ _ h1
      refine ⟨c2, sha256 K, by simp [h, e1, e2], h2, by simp, by simp [hmacKey, h]⟩
    · exact ⟨ctx.ictx, K, by simp [h], hc.1, by omega, by simp [hmacKey, h]⟩
  obtain ⟨ic, K', e0, hic, hK', hk⟩ := hkey
  obtain ⟨c1, e1, h1⟩ := SHA256_Update_spec tf ht _ _ ((hmacKey K).map (· ^^^ 0x36)) (repr_init ic hic)
  obtain ⟨c2, e2, h2⟩ := SHA256_Update_spec tf ht _ _ ((hmacKey K).map (· ^^^ 0x5c)) (repr_init ctx.octx hc.2)
  refine ⟨⟨c1, c2⟩, ?_, ?_, ?_⟩
  · unfold HMAC_SHA256_Init
    rw [e0]
    simp only [Res.bind_ok, hmacPad_spec _ _ hK', ← hk, e1, e2, Res.pure_eq]
  · simpa using h1
  · simpa using h2

theorem HMAC_SHA256_Update_spec (tf : Transform) (ht : GoodTf tf) (ctx : HMAC_SHA256_CTX)
    (K msg src : Bytes) (h : HRepr ctx K msg) :
    ∃ ctx', HMAC_SHA256_Update tf ctx src = .ok ctx' ∧ HRepr ctx' K (msg ++ src) := by
  obtain ⟨c, e, hc⟩ := SHA256_Update_spec tf ht _ _ src h.i
  exact ⟨⟨c, ctx.octx⟩, by simp [HMAC_SHA256_Update, e], by simpa using hc, h.o⟩

theorem HMAC_SHA256_Final_spec (tf : Transform) (ht : GoodTf tf) (ctx : HMAC_SHA256_CTX)
    (K msg : Bytes) (h : HRepr ctx K msg) :
    ∃ ctx', HMAC_SHA256_Final_internal tf ctx = .ok (hmac K msg, ctx') ∧ ctx'.Sized := by
  obtain ⟨c1, e1, s1⟩ := SHA256_Final_spec tf ht _ _ h.i
  obtain ⟨c2, e2, h2⟩ := SHA256_Update_spec tf ht _ _ (sha256 ((hmacKey K).map (· ^^^ 0x36) ++ msg)) h.o
  obtain ⟨c3, e3, s3⟩ := SHA256_Final_spec tf ht _ _ h2
  exact ⟨⟨c1, c3⟩, by simp only [HMAC_SHA256_Final_internal, e1, e2, e3, Res.bind_ok, hmac, Res.pure_eq], s1, s3⟩

@[simp] theorem hmac_length (K msg : Bytes) : (hmac K msg).length = 32 := by simp [hmac]

theorem HMAC_SHA256_Buf_spec (tf : Transform) (ht : GoodTf tf) (ctx : HMAC_SHA256_CTX)
    (hc : ctx.Sized) (K msg : Bytes) : HMAC_SHA256_Buf tf ctx K msg = .ok (hmac K msg) := by
  obtain ⟨c1, e1, h1⟩ := HMAC_SHA256_Init_spec tf ht ctx hc K
  obtain ⟨c2, e2, h2⟩ := HMAC_SHA256_Update_spec tf ht _ _ _ msg h1
  obtain ⟨c3, e3, -⟩ := HMAC_SHA256_Final_spec tf ht _ _ _ h2
  simp only [HMAC_SHA256_Buf, e1, e2, e3, Res.bind_ok, List.nil_append, Res.pure_eq]

/-! ### PBKDF2 -/

@[simp] theorem pbkdf2U_length (P S : Bytes) (i j : Nat) : (pbkdf2U P S i j).length = 32 := by
  cases j <;> simp [pbkdf2U]

theorem foldl_range_succ {α : Type} (f : α → Nat → α) (a : α) (n : Nat) :
    (List.range (n + 1)).foldl f a = f ((List.range n).foldl f a) n := by
  rw [List.range_succ, List.foldl_append]; rfl

theorem pbkdf2T_length (P S : Bytes) (c i : Nat) : (pbkdf2T P S c i).length = 32 := by
  unfold pbkdf2T
  generalize c - 1 = n
  induction n with
  | zero => simp
  | succ n ih => rw [foldl_range_succ, xorBytes, List.length_zipWith, ih]; simp

theorem pbkdf2Inner_spec (tf : Transform) (ht : GoodTf tf) (Ph : HMAC_SHA256_CTX) (P S : Bytes)
    (hP : HRepr Ph P []) (i n : Nat) :
    pbkdf2Inner tf Ph n (pbkdf2U P S i 0) (pbkdf2U P S i 0)
      = .ok (pbkdf2U P S i n, pbkdf2T P S (n + 1) i) := by
  unfold pbkdf2Inner
  induction n with
  | zero => simp [pbkdf2T]
  | succ n ih =>
    rw [forLoop_succ, ih, Res.bind_ok]
    obtain ⟨c2, e2, h2⟩ := HMAC_SHA256_Update_spec tf ht _ _ _ (pbkdf2U P S i n) hP
    obtain ⟨c3, e3, -⟩ := HMAC_SHA256_Final_spec tf ht _ _ _ h2
    simp only [e2, e3, Res.bind_ok, List.nil_append]
    rw [forLoop_zipWith (fun (x y : Byte) => x ^^^ y) _ _ _ (by simp [pbkdf2T_length]) (by simp)]
    simp only [Res.bind_ok, Res.pure_eq, Res.ok.injEq, Prod.mk.injEq]
    refine ⟨rfl, ?_⟩
    rw [List.take_of_length_le (by simp [pbkdf2T_length]), List.take_of_length_le (by simp),
      List.drop_eq_nil_of_le (by simp [pbkdf2T_length]), List.append_nil]
    simp only [pbkdf2T, Nat.add_sub_cancel, foldl_range_succ]
    rfl

theorem flatMap_length_const {β : Type} (f : Nat → List β) (k n : Nat) (h : ∀ i, (f i).length = k) :
    ((List.range n).flatMap f).length = k * n := by
  induction n with
  | zero => simp
  | succ n ih => rw [List.range_succ, List.flatMap_append, List.length_append, ih]; simp [h, Nat.mul_succ]

/-- `PBKDF2_SHA256` writes exactly `dkLen` bytes, those of RFC 8018. -/
theorem PBKDF2_SHA256_spec (tf : Transform) (ht : GoodTf tf) (junk : HMAC_SHA256_CTX)
    (hj : junk.Sized) (P S : Bytes) (c : Nat) (hc : 1 ≤ c) (buf : Bytes) (dkLen : Nat)
    (hd : dkLen ≤ 32 * (2 ^ 32 - 1)) (hb : dkLen ≤ buf.length) :
    PBKDF2_SHA256 tf junk P S c buf dkLen = .ok (pbkdf2 P S c dkLen ++ buf.drop dkLen) := by
  obtain ⟨Ph, e1, h1⟩ := HMAC_SHA256_Init_spec tf ht junk hj P
  obtain ⟨PS, e2, h2⟩ := HMAC_SHA256_Update_spec tf ht _ _ _ S h1
  rw [List.nil_append] at h2
  unfold PBKDF2_SHA256
  rw [show decide (dkLen ≤ 32 * (2 ^ 32 - 1)) = true by simpa using hd]
  simp only [cassert_true, Res.bind_ok, e1, e2]
  let T := fun i => pbkdf2T P S c (i + 1)
  have hTl : ∀ i, (T i).length = 32 := fun i => pbkdf2T_length ..
  obtain ⟨b', eb, hb'⟩ := forLoop_inv (n := (dkLen + 31) / 32) (s := buf)
    (f := fun buf i => do
      let ivec := be32enc (BitVec.ofNat 32 (i + 1))
      let hctx ← HMAC_SHA256_Update tf PS ivec
      let (U, _) ← HMAC_SHA256_Final_internal tf hctx
      let T := U
      let (_, T) ← pbkdf2Inner tf Ph (c - 1) U T
      let clen := dkLen - i * 32
      let clen := if clen > 32 then 32 else clen
      let src ← rdSlice T 0 clen
      wrSlice buf (i * 32) src)
    (fun n b => b = ((List.range n).flatMap T).take dkLen ++ buf.drop (min (32 * n) dkLen))
    (by simp) (by
      intro i b hi hbb
      obtain ⟨c2, f2, g2⟩ := HMAC_SHA256_Update_spec tf ht _ _ _ (be32enc (BitVec.ofNat 32 (i + 1))) h2
      obtain ⟨c3, f3, -⟩ := HMAC_SHA256_Final_spec tf ht _ _ _ g2
      have hU : hmac P (S ++ be32enc (BitVec.ofNat 32 (i + 1))) = pbkdf2U P S (i + 1) 0 := by
        rw [pbkdf2U, be32enc_eq, BitVec.toNat_ofNat, Nat.mod_eq_of_lt (by omega)]
      rw [hU] at f3
      have hin := pbkdf2Inner_spec tf ht Ph P S h1 (i + 1) (c - 1)
      rw [Nat.sub_add_cancel hc] at hin
      simp only [f2, f3, Res.bind_ok, hin]
      rw [rdSlice_ok (by rw [pbkdf2T_length]; split <;> omega)]
      simp only [Res.bind_ok, List.drop_zero]
      have hFl := flatMap_length_const T 32 i hTl
      have hcl : (if dkLen - i * 32 > 32 then 32 else dkLen - i * 32) = min 32 (dkLen - i * 32) := by
        split <;> omega
      rw [hcl]
      have hTi : (pbkdf2T P S c (i + 1)).length = 32 := pbkdf2T_length ..
      have hbl : b.length = buf.length := by
        rw [hbb]; simp only [List.length_append, List.length_take, List.length_drop, hFl]; omega
      rw [wrSlice_ok (by simp only [List.length_take, hTi, hbl]; omega)]
      refine ⟨_, rfl, ?_⟩
      have hflen : (List.take dkLen ((List.range i).flatMap T)).length = i * 32 := by
        rw [List.length_take, hFl]; omega
      rw [hbb, List.take_append_of_le_length (by omega), List.take_of_length_le (by omega),
        List.range_succ, List.flatMap_append, List.take_append, hFl]
      simp only [List.flatMap_cons, List.flatMap_nil, List.append_nil]
      rw [List.drop_append, hflen, List.drop_eq_nil_of_le (by omega), List.nil_append, List.drop_drop]
      congr 2
      · show List.take _ (T i) = _
        rw [← List.take_length (l := T i), List.take_take, List.take_take, hTl]
        congr 1; omega
      · rw [List.length_take, hTi]; congr 1; omega)
  rw [eb, hb', Nat.min_eq_right (by omega)]
  rfl

theorem pbkdf2_length (P S : Bytes) (c dkLen : Nat) : (pbkdf2 P S c dkLen).length = dkLen := by
  unfold pbkdf2
  rw [List.length_take, flatMap_length_const _ 32 _ (fun i => pbkdf2T_length ..)]
  omega

end Scrypt
