import Verif.Proofs.Aes
import Verif.Proofs.AesCtr
import Mathlib.Tactic.Common
/-
AES with a fixed key is injective on blocks; so the blocks of a CTR key stream are pairwise different.
-/
namespace Scrypt
open Spec

theorem gfMulAux_xor : ∀ (n : Nat) (a x y : Byte), gfMulAux n a (x ^^^ y) = gfMulAux n a x ^^^ gfMulAux n a y
  | 0, a, x, y => by unfold gfMulAux; decide
  | n + 1, a, x, y => by
    unfold gfMulAux
    rw [BitVec.ushiftRight_xor_distrib, gfMulAux_xor n, BitVec.getLsbD_xor]
    generalize gfMulAux n (xtime a) (x >>> 1) = u
    generalize gfMulAux n (xtime a) (y >>> 1) = v
    cases x.getLsbD 0 <;> cases y.getLsbD 0 <;> simp
    · ac_rfl
    · ac_rfl
    · rw [show a ^^^ u ^^^ (a ^^^ v) = (a ^^^ a) ^^^ (u ^^^ v) by ac_rfl]; simp

theorem gfMul_xor (a x y : Byte) : gfMul a (x ^^^ y) = gfMul a x ^^^ gfMul a y := gfMulAux_xor 8 a x y

/-- Inverse of the S-box: the position of a byte in it. -/
def unsbox (b : Byte) : Byte := BitVec.ofNat 8 (((List.range 256).map fun i => sbox (BitVec.ofNat 8 i)).idxOf b)

theorem unsbox_sbox : ∀ b : Byte, unsbox (sbox b) = b := by decide +kernel

theorem sbox_inj {a b : Byte} (h : sbox a = sbox b) : a = b := by rw [← unsbox_sbox a, h, unsbox_sbox]

theorem unmix1 : ∀ a : Byte, gfMul 14 (gfMul 2 a) ^^^ gfMul 11 a ^^^ gfMul 13 a ^^^ gfMul 9 (gfMul 3 a) = a := by decide +kernel
theorem unmix2 : ∀ a : Byte, gfMul 14 (gfMul 3 a) ^^^ gfMul 11 (gfMul 2 a) ^^^ gfMul 13 a ^^^ gfMul 9 a = 0 := by decide +kernel
theorem unmix3 : ∀ a : Byte, gfMul 14 a ^^^ gfMul 11 (gfMul 3 a) ^^^ gfMul 13 (gfMul 2 a) ^^^ gfMul 9 a = 0 := by decide +kernel
theorem unmix4 : ∀ a : Byte, gfMul 14 a ^^^ gfMul 11 a ^^^ gfMul 13 (gfMul 3 a) ^^^ gfMul 9 (gfMul 2 a) = 0 := by decide +kernel

theorem unmix (a b c d : Byte) :
    gfMul 14 (gfMul 2 a ^^^ gfMul 3 b ^^^ c ^^^ d) ^^^ gfMul 11 (gfMul 2 b ^^^ gfMul 3 c ^^^ d ^^^ a) ^^^ gfMul 13 (gfMul 2 c ^^^ gfMul 3 d ^^^ a ^^^ b) ^^^
      gfMul 9 (gfMul 2 d ^^^ gfMul 3 a ^^^ b ^^^ c) = a := by
  simp only [gfMul_xor]
  have h1 := unmix1 a
  have h2 := unmix2 b
  have h3 := unmix3 c
  have h4 := unmix4 d
  generalize gfMul 14 (gfMul 2 a) = a1 at *
  generalize gfMul 11 a = a2 at *
  generalize gfMul 13 a = a3 at *
  generalize gfMul 9 (gfMul 3 a) = a4 at *
  generalize gfMul 14 (gfMul 3 b) = b1 at *
  generalize gfMul 11 (gfMul 2 b) = b2 at *
  generalize gfMul 13 b = b3 at *
  generalize gfMul 9 b = b4 at *
  generalize gfMul 14 c = c1 at *
  generalize gfMul 11 (gfMul 3 c) = c2 at *
  generalize gfMul 13 (gfMul 2 c) = c3 at *
  generalize gfMul 9 c = c4 at *
  generalize gfMul 14 d = d1 at *
  generalize gfMul 11 d = d2 at *
  generalize gfMul 13 (gfMul 3 d) = d3 at *
  generalize gfMul 9 (gfMul 2 d) = d4 at *
  have e : a1 ^^^ b1 ^^^ c1 ^^^ d1 ^^^ (b2 ^^^ c2 ^^^ d2 ^^^ a2) ^^^ (c3 ^^^ d3 ^^^ a3 ^^^ b3) ^^^ (d4 ^^^ a4 ^^^ b4 ^^^ c4) =
    (a1 ^^^ a2 ^^^ a3 ^^^ a4) ^^^ (b1 ^^^ b2 ^^^ b3 ^^^ b4) ^^^ (c1 ^^^ c2 ^^^ c3 ^^^ c4) ^^^ (d1 ^^^ d2 ^^^ d3 ^^^ d4) := by ac_rfl
  rw [e, h1, h2, h3, h4]
  simp

/-- The inverse of mixColumns. -/
def unmixColumns (t : Bytes) : Bytes :=
  (List.range 16).map fun k =>
    let g (j : Nat) : Byte := t.getD ((k % 4 + j) % 4 + 4 * (k / 4)) 0
    gfMul 14 (g 0) ^^^ gfMul 11 (g 1) ^^^ gfMul 13 (g 2) ^^^ gfMul 9 (g 3)

theorem mapRange_getD {f : Nat → Byte} {k : Nat} (hk : k < 16) : ((List.range 16).map f).getD k 0 = f k := by
  rw [List.getD_eq_getElem?_getD, List.getElem?_map, List.getElem?_range hk]; rfl

theorem ext16 {a b : Bytes} (ha : a.length = 16) (hb : b.length = 16) (h : ∀ k, k < 16 → a.getD k 0 = b.getD k 0) : a = b := by
  apply List.ext_getElem (by omega)
  intro k h1 h2
  have e := h k (by omega)
  rw [List.getD_eq_getElem?_getD, List.getD_eq_getElem?_getD, List.getElem?_eq_getElem h1, List.getElem?_eq_getElem h2] at e
  exact e

theorem unmix_mix (s : Bytes) (hs : s.length = 16) : unmixColumns (mixColumns s) = s := by
  apply ext16 (by rw [unmixColumns, List.length_map, List.length_range]) hs
  intro k hk
  unfold unmixColumns
  rw [mapRange_getD hk]
  unfold mixColumns
  have hq : 4 * (k / 4) ≤ 12 := by omega
  dsimp only []
  rw [mapRange_getD (by omega), mapRange_getD (by omega), mapRange_getD (by omega), mapRange_getD (by omega)]
  have hmod : ∀ i j, (((k % 4 + i) % 4 + 4 * (k / 4)) % 4 + j) % 4 = (k % 4 + (i + j)) % 4 := by intro i j; omega
  have hdiv : ∀ i, ((k % 4 + i) % 4 + 4 * (k / 4)) / 4 = k / 4 := by intro i; omega
  simp only [hmod, hdiv]
  have w0 : (k % 4 + 0) % 4 + 4 * (k / 4) = k := by omega
  have w4 : (k % 4 + 4) % 4 = (k % 4 + 0) % 4 := by omega
  have w5 : (k % 4 + 5) % 4 = (k % 4 + 1) % 4 := by omega
  have w6 : (k % 4 + 6) % 4 = (k % 4 + 2) % 4 := by omega
  simp only [Nat.zero_add, Nat.reduceAdd, w4, w5, w6, w0]
  exact unmix _ _ _ _

/-- The inverse of shiftRows. -/
def unshiftRows (s : Bytes) : Bytes :=
  (List.range 16).map fun k => s.getD (k % 4 + 4 * ((k / 4 + 4 - k % 4) % 4)) 0

theorem unshift_shift (s : Bytes) (hs : s.length = 16) : unshiftRows (shiftRows s) = s := by
  apply ext16 (by rw [unshiftRows, List.length_map, List.length_range]) hs
  intro k hk
  unfold unshiftRows
  rw [mapRange_getD hk]
  unfold shiftRows
  rw [mapRange_getD (by omega)]
  congr 1
  omega

theorem xorBytes_inj {a b k : Bytes} (ha : a.length = k.length) (hb : b.length = k.length) (h : xorBytes a k = xorBytes b k) : a = b := by
  apply List.ext_getElem (by omega)
  intro i h1 h2
  have e : (xorBytes a k)[i]? = (xorBytes b k)[i]? := by rw [h]
  unfold xorBytes at e
  rw [List.getElem?_zipWith, List.getElem?_zipWith, List.getElem?_eq_getElem h1, List.getElem?_eq_getElem h2, List.getElem?_eq_getElem (by omega)] at e
  have e := Option.some.inj e
  simpa using e

theorem map_sbox_inj : ∀ {a b : Bytes}, a.map sbox = b.map sbox → a = b
  | [], [], _ => rfl
  | [], _ :: _, h => by cases h
  | _ :: _, [], h => by cases h
  | x :: a, y :: b, h => by
    rw [List.map_cons, List.map_cons, List.cons.injEq] at h
    rw [sbox_inj h.1, map_sbox_inj h.2]

theorem subShift_inj {a b : Bytes} (ha : a.length = 16) (hb : b.length = 16) (h : shiftRows (subBytes sbox a) = shiftRows (subBytes sbox b)) : a = b := by
  have e := congrArg unshiftRows h
  rw [unshift_shift _ (by rw [subBytes, List.length_map]; exact ha), unshift_shift _ (by rw [subBytes, List.length_map]; exact hb)] at e
  exact map_sbox_inj e

theorem shiftRows_len (s : Bytes) : (shiftRows s).length = 16 := by rw [shiftRows, List.length_map, List.length_range]
theorem mixColumns_len (s : Bytes) : (mixColumns s).length = 16 := by rw [mixColumns, List.length_map, List.length_range]

theorem rounds_inj (w : List Bytes) : ∀ (n : Nat), (∀ i, i ≤ n → (roundKey w i).length = 16) → ∀ {a b : Bytes}, a.length = 16 → b.length = 16 →
    ((List.range n).foldl (fun s i => xorBytes (mixColumns (shiftRows (subBytes sbox s))) (roundKey w (i + 1))) a).length = 16 ∧
    ((List.range n).foldl (fun s i => xorBytes (mixColumns (shiftRows (subBytes sbox s))) (roundKey w (i + 1))) a =
      (List.range n).foldl (fun s i => xorBytes (mixColumns (shiftRows (subBytes sbox s))) (roundKey w (i + 1))) b → a = b)
  | 0, _, a, b, ha, _ => ⟨ha, fun h => h⟩
  | n + 1, hw, a, b, ha, hb => by
    obtain ⟨l1, i1⟩ := rounds_inj w n (fun i hi => hw i (by omega)) ha hb
    obtain ⟨l2, -⟩ := rounds_inj w n (fun i hi => hw i (by omega)) hb ha
    have hk := hw (n + 1) (Nat.le_refl _)
    rw [List.range_succ, List.foldl_append, List.foldl_append, List.foldl_cons, List.foldl_cons, List.foldl_nil, List.foldl_nil]
    refine ⟨xorBytes_length16 _ _ (mixColumns_len _) hk, fun h => i1 ?_⟩
    have h := xorBytes_inj (by rw [mixColumns_len, hk]) (by rw [mixColumns_len, hk]) h
    have h := congrArg unmixColumns h
    rw [unmix_mix _ (shiftRows_len _), unmix_mix _ (shiftRows_len _)] at h
    exact subShift_inj l1 l2 h

theorem cipher_inj (Nr : Nat) (w : List Bytes) (hw : ∀ i, i ≤ Nr → (roundKey w i).length = 16) {a b : Bytes} (ha : a.length = 16) (hb : b.length = 16)
    (h : cipher sbox Nr w a = cipher sbox Nr w b) : a = b := by
  unfold cipher at h
  dsimp only [] at h
  have h0 := hw 0 (Nat.zero_le _)
  have hN := hw Nr (Nat.le_refl _)
  have la : (xorBytes a (roundKey w 0)).length = 16 := xorBytes_length16 _ _ ha h0
  have lb : (xorBytes b (roundKey w 0)).length = 16 := xorBytes_length16 _ _ hb h0
  have h := xorBytes_inj (by rw [shiftRows_len, hN]) (by rw [shiftRows_len, hN]) h
  obtain ⟨r1, r2⟩ := rounds_inj w (Nr - 1) (fun i hi => hw i (by omega)) la lb
  obtain ⟨r3, -⟩ := rounds_inj w (Nr - 1) (fun i hi => hw i (by omega)) lb la
  exact xorBytes_inj (by rw [ha, h0]) (by rw [hb, h0]) (r2 (subShift_inj r1 r3 h))

/-- AES with a key of 16 or 32 bytes maps different blocks to different blocks. -/
theorem aes_inj {k : Bytes} (hk : k.length = 16 ∨ k.length = 32) {a b : Bytes} (ha : a.length = 16) (hb : b.length = 16) (h : aes k a = aes k b) : a = b := by
  rcases hk with hk | hk
  · rw [aes_16 _ _ hk, aes_16 _ _ hk] at h
    exact cipher_inj _ _ (fun i hi => roundKey_length 4 k 40 (.inl rfl) hk i (by omega)) ha hb h
  · rw [aes_32 _ _ hk, aes_32 _ _ hk] at h
    exact cipher_inj _ _ (fun i hi => roundKey_length 8 k 52 (.inr rfl) hk i (by omega)) ha hb h

end Scrypt
