import Verif.Proofs.Hmac
import Verif.Proofs.Sha256Hw
/-
C18, C19, C20, C42: SHA-256, HMAC-SHA256, PBKDF2-HMAC-SHA256 (specification: Spec/Sha256.lean).
`hw` ranges over the block functions the library can select at run time.
-/
namespace Scrypt.Props
open Spec

/-- Any context the caller may hand to `SHA256_Init`: its arrays have their C sizes. -/
def garbageCtx : SHA256_CTX := ⟨List.replicate 8 0xdeadbeef, 0x123456789, List.replicate 64 0x5a⟩

/-! ### C18 -/

/-- C18. `SHA256_Init`, any sequence of `SHA256_Update`s, `SHA256_Final`: the digest is the FIPS 180-4
digest of the concatenation, without undefined behaviour (in particular no write outside `buf`), for
every block function, every previous content of the context, every list of pieces; and the context
is left zeroed. -/
theorem C18_streaming (hw : ShaHw) (ctx : SHA256_CTX) (hc : ctx.Sized) (pieces : List Bytes) :
    (do let c ← pieces.foldlM (SHA256_Update (shaTransform hw)) (SHA256_Init ctx)
        SHA256_Final (shaTransform hw) c)
      = .ok (sha256 pieces.flatten, ⟨List.replicate 8 0, 0, List.replicate 64 0⟩) := by
  have key : ∀ (c : SHA256_CTX) (msg : Bytes), Repr c msg →
      ∃ c', pieces.foldlM (SHA256_Update (shaTransform hw)) c = .ok c' ∧ Repr c' (msg ++ pieces.flatten) := by
    induction pieces with
    | nil => intro c msg h; exact ⟨c, rfl, by simpa using h⟩
    | cons p ps ih =>
      intro c msg h
      obtain ⟨c1, e1, h1⟩ := SHA256_Update_spec _ (goodTf hw) c msg p h
      obtain ⟨c2, e2, h2⟩ := ih c1 _ h1
      exact ⟨c2, by simp [List.foldlM_cons, e1, e2], by simpa using h2⟩
  obtain ⟨c, e, h⟩ := key _ _ (repr_init ctx hc)
  obtain ⟨c', e', -⟩ := SHA256_Final_spec _ (goodTf hw) _ _ h
  simp only [e, Res.bind_ok, SHA256_Final, e', List.nil_append, Res.pure_eq, SHA256_CTX.zero]

/-- C18, one-shot interface. -/
theorem C18_buf (hw : ShaHw) (ctx : SHA256_CTX) (hc : ctx.Sized) (msg : Bytes) :
    SHA256_Buf (shaTransform hw) ctx msg = .ok (sha256 msg) :=
  SHA256_Buf_spec _ (goodTf hw) ctx hc msg

/-- C18: how the data is split does not matter. -/
theorem C18_split_irrelevant (hw hw' : ShaHw) (ctx ctx' : SHA256_CTX) (hc : ctx.Sized) (hc' : ctx'.Sized)
    (ps qs : List Bytes) (h : ps.flatten = qs.flatten) :
    (do let c ← ps.foldlM (SHA256_Update (shaTransform hw)) (SHA256_Init ctx)
        SHA256_Final (shaTransform hw) c)
    = (do let c ← qs.foldlM (SHA256_Update (shaTransform hw')) (SHA256_Init ctx')
          SHA256_Final (shaTransform hw') c) := by
  rw [C18_streaming hw ctx hc, C18_streaming hw' ctx' hc', h]

/-- C18: the portable block function, whatever the scratch arrays `W`, `S` contained. -/
theorem C18_transform (s : Regs) (block : Bytes) (W S : List W32) (hb : block.length = 64)
    (hW : W.length = 64) (hS : S.length = 8) :
    ∃ W' S', SHA256_Transform_sw s.toList block W S = .ok ((compress s block).toList, W', S') :=
  SHA256_Transform_sw_spec s block W S hb hW hS

/-- The first 64 primes. -/
def primes64 : List Nat :=
  (List.range 312).filter fun n => 2 ≤ n && (List.range n).all fun d => d < 2 || n % d != 0

/-- C18: the specification's constants are what FIPS 180-4 says they are: `K_t` is the first 32 bits
of the fractional part of the cube root of the t-th prime, the initial hash value the same for the
square roots of the first eight. -/
theorem C18_constants :
    primes64.length = 64 ∧
    (∀ t < 64, ∃ q < 7, (q * 2 ^ 32 + (K t).toNat) ^ 3 ≤ primes64.getD t 0 * 2 ^ 96 ∧
      primes64.getD t 0 * 2 ^ 96 < (q * 2 ^ 32 + (K t).toNat + 1) ^ 3) ∧
    (∀ t < 8, ∃ q < 7, (q * 2 ^ 32 + (H0.toList.getD t 0).toNat) ^ 2 ≤ primes64.getD t 0 * 2 ^ 64 ∧
      primes64.getD t 0 * 2 ^ 64 < (q * 2 ^ 32 + (H0.toList.getD t 0).toNat + 1) ^ 2) := by
  decide +kernel

/-- Non-vacuity: a context with arbitrary contents satisfies the hypothesis. -/
example : garbageCtx.Sized := ⟨by simp [garbageCtx], by simp [garbageCtx]⟩

/-- Known answer (FIPS 180-4 example "abc") of the *model*, computed by the kernel. -/
example : SHA256_Buf swTransform garbageCtx [0x61, 0x62, 0x63] = .ok
    [0xba, 0x78, 0x16, 0xbf, 0x8f, 0x01, 0xcf, 0xea, 0x41, 0x41, 0x40, 0xde, 0x5d, 0xae, 0x22, 0x23,
     0xb0, 0x03, 0x61, 0xa3, 0x96, 0x17, 0x7a, 0x9c, 0xb4, 0x10, 0xff, 0x61, 0xf2, 0x00, 0x15, 0xad] := by
  decide +kernel

/-- Hence the specification gives the published digest, too. -/
example : sha256 [0x61, 0x62, 0x63] =
    [0xba, 0x78, 0x16, 0xbf, 0x8f, 0x01, 0xcf, 0xea, 0x41, 0x41, 0x40, 0xde, 0x5d, 0xae, 0x22, 0x23,
     0xb0, 0x03, 0x61, 0xa3, 0x96, 0x17, 0x7a, 0x9c, 0xb4, 0x10, 0xff, 0x61, 0xf2, 0x00, 0x15, 0xad] := by
  have h := C18_buf .software garbageCtx ⟨by simp [garbageCtx], by simp [garbageCtx]⟩ [0x61, 0x62, 0x63]
  have k : SHA256_Buf (shaTransform .software) garbageCtx [0x61, 0x62, 0x63] = .ok
    [0xba, 0x78, 0x16, 0xbf, 0x8f, 0x01, 0xcf, 0xea, 0x41, 0x41, 0x40, 0xde, 0x5d, 0xae, 0x22, 0x23,
     0xb0, 0x03, 0x61, 0xa3, 0x96, 0x17, 0x7a, 0x9c, 0xb4, 0x10, 0xff, 0x61, 0xf2, 0x00, 0x15, 0xad] := by
    decide +kernel
  rw [h] at k; exact Res.ok.inj k

/-! ### C42 -/

/-- C42. Every selectable block function is the FIPS 180-4 compression function. -/
theorem C42_transforms (s : Regs) (block : Bytes) (hb : block.length = 64) :
    SHA256_Transform_shani s.toList block = .ok (compress s block).toList ∧
    SHA256_Transform_arm s.toList block = .ok (compress s block).toList ∧
    (∀ W S : List W32, W.length = 64 → S.length = 8 →
      ∃ W' S', SHA256_Transform_sse2 s.toList block W S = .ok ((compress s block).toList, W', S')) ∧
    (∀ hw, shaTransform hw s.toList block = .ok (compress s block).toList) :=
  ⟨SHA256_Transform_shani_spec s block hb, SHA256_Transform_arm_spec s block hb,
   fun W S hW hS => SHA256_Transform_sse2_spec s block W S hb hW hS, fun hw => goodTf hw s block hb⟩

/-! ### C19 -/

/-- C19. `HMAC_SHA256_Init` with any key, any sequence of updates, `HMAC_SHA256_Final`. -/
theorem C19_streaming (hw : ShaHw) (ctx : HMAC_SHA256_CTX) (hc : ctx.Sized) (key : Bytes)
    (pieces : List Bytes) :
    (do let c ← HMAC_SHA256_Init (shaTransform hw) ctx key
        let c ← pieces.foldlM (HMAC_SHA256_Update (shaTransform hw)) c
        HMAC_SHA256_Final (shaTransform hw) c)
      = .ok (hmac key pieces.flatten, ⟨SHA256_CTX.zero, SHA256_CTX.zero⟩) := by
  have step : ∀ (c : HMAC_SHA256_CTX) (msg : Bytes), HRepr c key msg →
      ∃ c', pieces.foldlM (HMAC_SHA256_Update (shaTransform hw)) c = .ok c' ∧
        HRepr c' key (msg ++ pieces.flatten) := by
    induction pieces with
    | nil => intro c msg h; exact ⟨c, rfl, by simpa using h⟩
    | cons p ps ih =>
      intro c msg h
      obtain ⟨c1, e1, h1⟩ := HMAC_SHA256_Update_spec _ (goodTf hw) c key msg p h
      obtain ⟨c2, e2, h2⟩ := ih c1 _ h1
      exact ⟨c2, by simp [List.foldlM_cons, e1, e2], by simpa using h2⟩
  obtain ⟨c0, e0, h0⟩ := HMAC_SHA256_Init_spec _ (goodTf hw) ctx hc key
  obtain ⟨c, e, h⟩ := step _ _ h0
  obtain ⟨c', e', -⟩ := HMAC_SHA256_Final_spec _ (goodTf hw) _ _ _ h
  simp only [e0, e, Res.bind_ok, HMAC_SHA256_Final, e', List.nil_append, Res.pure_eq]

/-- C19, one-shot interface. -/
theorem C19_buf (hw : ShaHw) (ctx : HMAC_SHA256_CTX) (hc : ctx.Sized) (key msg : Bytes) :
    HMAC_SHA256_Buf (shaTransform hw) ctx key msg = .ok (hmac key msg) :=
  HMAC_SHA256_Buf_spec _ (goodTf hw) ctx hc key msg

/-- RFC 4231 test case 2 ("Jefe", "what do ya want for nothing?"), model evaluated by the kernel. -/
example : HMAC_SHA256_Buf swTransform ⟨garbageCtx, garbageCtx⟩ [0x4a, 0x65, 0x66, 0x65]
    [0x77, 0x68, 0x61, 0x74, 0x20, 0x64, 0x6f, 0x20, 0x79, 0x61, 0x20, 0x77, 0x61, 0x6e,
     0x74, 0x20, 0x66, 0x6f, 0x72, 0x20, 0x6e, 0x6f, 0x74, 0x68, 0x69, 0x6e, 0x67, 0x3f] = .ok
    [0x5b, 0xdc, 0xc1, 0x46, 0xbf, 0x60, 0x75, 0x4e, 0x6a, 0x04, 0x24, 0x26, 0x08, 0x95, 0x75, 0xc7,
     0x5a, 0x00, 0x3f, 0x08, 0x9d, 0x27, 0x39, 0x83, 0x9d, 0xec, 0x58, 0xb9, 0x64, 0xec, 0x38, 0x43] := by
  decide +kernel

/-! ### C20 -/

/-- C20. The first `dkLen` bytes of the buffer become the RFC 8018 output; the rest is untouched; no
access is out of bounds. (`c = 2^64 - 1`: see `pbkdf2Inner` and DESIGN.md, finding F10.) -/
theorem C20_pbkdf2 (hw : ShaHw) (junk : HMAC_SHA256_CTX) (hj : junk.Sized) (passwd salt : Bytes)
    (c : Nat) (hc : 1 ≤ c) (hc' : c < 2 ^ 64 - 1) (buf : Bytes) (dkLen : Nat)
    (hd : dkLen ≤ 32 * (2 ^ 32 - 1)) (hb : dkLen ≤ buf.length) :
    PBKDF2_SHA256 (shaTransform hw) junk passwd salt c buf dkLen
      = .ok (pbkdf2 passwd salt c dkLen ++ buf.drop dkLen) ∧
    (pbkdf2 passwd salt c dkLen).length = dkLen :=
  ⟨PBKDF2_SHA256_spec _ (goodTf hw) junk hj passwd salt c hc buf dkLen hd hb, pbkdf2_length ..⟩

/-- C20: a longer request is stopped by the assertion before anything is written. -/
theorem C20_too_long (hw : ShaHw) (junk : HMAC_SHA256_CTX) (passwd salt : Bytes) (c : Nat)
    (buf : Bytes) (dkLen : Nat) (hd : 32 * (2 ^ 32 - 1) < dkLen) :
    PBKDF2_SHA256 (shaTransform hw) junk passwd salt c buf dkLen = .abort := by
  unfold PBKDF2_SHA256
  rw [show decide (dkLen ≤ 32 * (2 ^ 32 - 1)) = false by simp; omega]
  rfl

/-- RFC 7914 section 11, first PBKDF2 vector (P="passwd", S="salt", c=1, first 40 bytes), into a
42-byte buffer: the two bytes after the requested length are untouched. -/
example : PBKDF2_SHA256 swTransform ⟨garbageCtx, garbageCtx⟩ [0x70, 0x61, 0x73, 0x73, 0x77, 0x64]
    [0x73, 0x61, 0x6c, 0x74] 1 (List.replicate 42 0xee) 40 = .ok
    [0x55, 0xac, 0x04, 0x6e, 0x56, 0xe3, 0x08, 0x9f, 0xec, 0x16, 0x91, 0xc2, 0x25, 0x44, 0xb6, 0x05,
     0xf9, 0x41, 0x85, 0x21, 0x6d, 0xde, 0x04, 0x65, 0xe6, 0x8b, 0x9d, 0x57, 0xc2, 0x0d, 0xac, 0xbc,
     0x49, 0xca, 0x9c, 0xcc, 0xf1, 0x79, 0xb6, 0x45, 0xee, 0xee] := by
  decide +kernel

end Scrypt.Props
