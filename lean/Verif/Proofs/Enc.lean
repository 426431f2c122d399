import Verif.Model.Enc
import Verif.Spec.Format
import Verif.Proofs.Params
import Verif.Props.Scrypt
import Verif.Proofs.AesCtr
/-
Proofs about the container code (lib/scryptenc/scryptenc.c).
-/
namespace Scrypt
open Spec

/-! ### crypto_verify_bytes -/

/-- The accesses made by a comparison of `len` bytes. -/
def verifyTrace (len : Nat) : List Access := (List.range len).flatMap fun i => [(false, i), (true, i)]

theorem or_xor_zero (v a b : Byte) : v ||| (a ^^^ b) = 0 ↔ v = 0 ∧ a = b := by
  constructor
  · intro h
    have h' : v ||| (a ^^^ b) = 0#8 := h
    have := BitVec.or_eq_zero_iff.mp h'
    exact ⟨this.1, by simpa using (BitVec.xor_eq_zero_iff.mp this.2)⟩
  · rintro ⟨rfl, rfl⟩; simp

theorem verify_bytes_ok (a b : Bytes) (len : Nat) (ha : len ≤ a.length) (hb : len ≤ b.length) :
    ∃ v, crypto_verify_bytes a b len = .ok (v, verifyTrace len) ∧ (v = 0 ↔ a.take len = b.take len) := by
  unfold crypto_verify_bytes
  induction len with
  | zero => exact ⟨0, rfl, by simp⟩
  | succ n ih =>
    obtain ⟨v, e, hv⟩ := ih (by omega) (by omega)
    rw [forLoop_succ, e, Res.bind_ok, rd_ok (show n < a.length by omega), rd_ok (show n < b.length by omega)]
    refine ⟨v ||| (a[n] ^^^ b[n]), ?_, ?_⟩
    · simp [verifyTrace, List.range_succ]
    · rw [or_xor_zero, hv, List.take_succ_eq_append_getElem (show n < a.length by omega),
        List.take_succ_eq_append_getElem (show n < b.length by omega)]
      constructor
      · rintro ⟨h1, h2⟩; rw [h1, h2]
      · intro h
        have := List.append_inj' h rfl
        exact ⟨this.1, by simpa using this.2⟩

/-! ### Hypotheses on the environment -/

/-- What the C environment guarantees: `size_t` is 32 or 64 bits, memory blocks and arrays have the sizes
asked for, the entropy source fills the buffer, scryptenc_cpuperf gives one of its codes (`C45_codes`),
and OpenSSL's AES (if that is what is used) is AES. -/
structure EncSys.Good (sys : EncSys) : Prop where
  sz : Spec.IsSizeMax sys.par.szMax
  perf : sys.par.perf.1 = .OK ∨ sys.par.perf.1 = .ECLOCK ∨ sys.par.perf.1 = .EKEY
  kdf : sys.kdf.Sized
  junkSha : sys.junkSha.Sized
  junkHmac : sys.junkHmac.Sized
  junkHmac2 : sys.junkHmac2.Sized
  ossl : sys.aesHw = .software → GoodOssl sys.ossl
  aesMem : ∀ rk, sys.aes.mem = some rk → rk.length = 15
  ctr : ∀ c, sys.ctr = some c → c.Sized
  salt : ∀ s, sys.salt = some s → s.length = 32
  dk0 : sys.dk0.length = 64
  header0 : sys.header0.length = 96
  iobuf : sys.iobuf.length = 65568

theorem EncSys.Good.tf {sys : EncSys} (_ : sys.Good) : GoodTf sys.tf := goodTf sys.sha

/-! ### Header pieces -/

theorem SHA256_Final_ok (tf : Transform) (ht : GoodTf tf) (ctx : SHA256_CTX) (msg : Bytes) (h : Repr ctx msg) :
    ∃ c, SHA256_Final tf ctx = .ok (sha256 msg, c) := by
  obtain ⟨c, e, -⟩ := SHA256_Final_spec tf ht ctx msg h
  simp only [SHA256_Final, e, Res.bind_ok]
  exact ⟨_, rfl⟩

theorem HMAC_Final_ok (tf : Transform) (ht : GoodTf tf) (ctx : HMAC_SHA256_CTX) (K msg : Bytes) (h : HRepr ctx K msg) :
    ∃ c, HMAC_SHA256_Final tf ctx = .ok (hmac K msg, c) := by
  obtain ⟨c, e, -⟩ := HMAC_SHA256_Final_spec tf ht ctx K msg h
  simp only [HMAC_SHA256_Final, e, Res.bind_ok]
  exact ⟨_, rfl⟩

theorem headerSum_ok (sys : EncSys) (g : sys.Good) (h : Bytes) (hl : 48 ≤ h.length) :
    headerSum sys h = .ok (sha256 (h.take 48)) := by
  obtain ⟨c1, e1, r1⟩ := SHA256_Update_spec sys.tf g.tf _ _ (h.take 48) (repr_init sys.junkSha g.junkSha)
  rw [List.nil_append] at r1
  obtain ⟨c2, e2⟩ := SHA256_Final_ok sys.tf g.tf _ _ r1
  unfold headerSum
  rw [rdSlice_ok (by omega), Res.bind_ok, List.drop_zero, e1, Res.bind_ok, e2, Res.bind_ok]

theorem headerSig_ok (sys : EncSys) (g : sys.Good) (h dk : Bytes) (hl : 64 ≤ h.length) (hd : 64 ≤ dk.length) :
    headerSig sys h dk = .ok (hmac (keyHmac dk) (h.take 64)) := by
  obtain ⟨c0, e0, r0⟩ := HMAC_SHA256_Init_spec sys.tf g.tf sys.junkHmac g.junkHmac (keyHmac dk)
  obtain ⟨c1, e1, r1⟩ := HMAC_SHA256_Update_spec sys.tf g.tf _ _ _ (h.take 64) r0
  rw [List.nil_append] at r1
  obtain ⟨c2, e2⟩ := HMAC_Final_ok sys.tf g.tf _ _ _ r1
  unfold headerSig
  rw [rdSlice_ok (by omega), Res.bind_ok, show (dk.drop 32).take 32 = keyHmac dk from rfl, e0, Res.bind_ok,
    rdSlice_ok (by omega), Res.bind_ok, List.drop_zero, e1, Res.bind_ok, e2, Res.bind_ok]

theorem bufTag_ok (sys : EncSys) (g : sys.Good) (x dk : Bytes) (hd : 64 ≤ dk.length) :
    bufTag sys dk x = .ok (hmac (keyHmac dk) x) := by
  obtain ⟨c0, e0, r0⟩ := HMAC_SHA256_Init_spec sys.tf g.tf sys.junkHmac2 g.junkHmac2 (keyHmac dk)
  obtain ⟨c1, e1, r1⟩ := HMAC_SHA256_Update_spec sys.tf g.tf _ _ _ x r0
  rw [List.nil_append] at r1
  obtain ⟨c2, e2⟩ := HMAC_Final_ok sys.tf g.tf _ _ _ r1
  unfold bufTag
  rw [rdSlice_ok (by omega), Res.bind_ok, show (dk.drop 32).take 32 = keyHmac dk from rfl, e0, Res.bind_ok,
    e1, Res.bind_ok, e2, Res.bind_ok]

theorem header48_length (logN r p : Nat) (salt : Bytes) (h : salt.length = 32) : (header48 logN r p salt).length = 48 := by
  simp [header48, magic, h]
theorem header64_length (logN r p : Nat) (salt : Bytes) (h : salt.length = 32) : (header64 logN r p salt).length = 64 := by
  simp [header64, header48_length _ _ _ _ h]
theorem header96_length (dk : Bytes) (logN r p : Nat) (salt : Bytes) (h : salt.length = 32) :
    (header96 dk logN r p salt).length = 96 := by
  simp [header96, header64_length _ _ _ _ h]

theorem wrSlice_append {α : Type} (a t x : List α) (off : Nat) (h : a.length = off) (hx : x.length ≤ t.length) :
    wrSlice (a ++ t) off x = .ok (a ++ x ++ t.drop x.length) := by
  rw [wrSlice_ok (by simp; omega), List.take_append_of_le_length (by omega), List.take_of_length_le (by omega),
    List.drop_append, List.drop_eq_nil_of_le (by omega), List.nil_append, show off + x.length - a.length = x.length by omega]

theorem wr_append {α : Type} (a t : List α) (off : Nat) (x : α) (h : a.length = off) (hx : 1 ≤ t.length) :
    wr (a ++ t) off x = .ok (a ++ [x] ++ t.drop 1) := by
  rw [wr_ok _ (by simp; omega)]
  match t, hx with
  | y :: t, _ => rw [List.set_append_right _ _ (by omega), h, Nat.sub_self]; simp

theorem rdSlice_append {α : Type} (a x : List α) (off len : Nat) (t : List α) (h : a.length = off) (hx : x.length = len) :
    rdSlice (a ++ x ++ t) off len = .ok x := by
  rw [rdSlice_ok (by simp; omega), List.append_assoc, List.drop_append_of_le_length (by omega), List.drop_eq_nil_of_le (by omega),
    List.nil_append, List.take_append_of_le_length (by omega), List.take_of_length_le (by omega)]

theorem writeHeader48_ok (h : Bytes) (hl : h.length = 96) (P : EncParams) (l : Nat) (hP : P.logN = l) (salt : Bytes)
    (hs : salt.length = 32) :
    writeHeader48 h P salt = .ok (header48 l P.r.toNat P.p.toNat salt ++ h.drop 48) := by
  unfold writeHeader48
  have e1 : BitVec.ofInt 8 P.logN = BitVec.ofNat 8 l := by rw [hP]; rfl
  have hb : ∀ x : W32, be32enc x = beBytes 4 x.toNat := fun x => be32enc_eq x
  rw [e1, hb, hb, ← List.nil_append h, wrSlice_append [] h _ 0 rfl (by simp; omega), Res.bind_ok,
    wr_append _ _ 6 _ (by simp) (by simp; omega), Res.bind_ok,
    wr_append _ _ 7 _ (by simp) (by simp; omega), Res.bind_ok,
    wrSlice_append _ _ _ 8 (by simp) (by simp; omega), Res.bind_ok,
    wrSlice_append _ _ _ 12 (by simp) (by simp; omega), Res.bind_ok,
    rdSlice_ok (by omega), Res.bind_ok, List.drop_zero, List.take_of_length_le (by omega),
    wrSlice_append _ _ _ 16 (by simp) (by simp; omega)]
  simp [header48, magic, hs]

theorem writeHeader_ok (sys : EncSys) (g : sys.Good) (P : EncParams) (l : Nat) (hP : P.logN = l) (salt dk : Bytes)
    (hs : salt.length = 32) (hd : dk.length = 64) :
    writeHeader sys P salt dk = .ok (header96 dk l P.r.toNat P.p.toNat salt) := by
  have l48 := header48_length l P.r.toNat P.p.toNat salt hs
  have l64 := header64_length l P.r.toNat P.p.toNat salt hs
  have h0 := g.header0
  unfold writeHeader
  rw [writeHeader48_ok _ g.header0 P l hP salt hs, Res.bind_ok, headerSum_ok sys g _ (by simp [l48]), Res.bind_ok,
    rdSlice_ok (by simp), Res.bind_ok, List.drop_zero, List.take_append_of_le_length (by omega),
    List.take_of_length_le (show (header48 l P.r.toNat P.p.toNat salt).length ≤ 48 by omega),
    wrSlice_append _ _ _ 48 l48 (by simp; omega), Res.bind_ok]
  rw [show header48 l P.r.toNat P.p.toNat salt ++ List.take 16 (sha256 (header48 l P.r.toNat P.p.toNat salt)) =
    header64 l P.r.toNat P.p.toNat salt from rfl]
  rw [headerSig_ok sys g _ dk (by simp [l64]) (by omega), Res.bind_ok,
    rdSlice_ok (by simp), Res.bind_ok, List.drop_zero, List.take_append_of_le_length (by omega),
    List.take_of_length_le (show (header64 l P.r.toNat P.p.toNat salt).length ≤ 64 by omega),
    wrSlice_append _ _ _ 64 l64 (by simp; omega), List.take_of_length_le (by simp), List.drop_eq_nil_of_le (by simp; omega)]
  rw [List.append_nil]
  rfl

end Scrypt
