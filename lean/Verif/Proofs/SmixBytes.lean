import Verif.Proofs.SmixLoops
import Verif.Proofs.Endian
import Mathlib.Tactic.Ring
namespace Scrypt
open Spec

theorem leVal_append (a b : Bytes) : leVal (a ++ b) = leVal a + 256 ^ a.length * leVal b := by
  induction a with
  | nil => simp [leVal]
  | cons x a ih => simp only [List.cons_append, leVal, ih, List.length_cons, Nat.pow_succ]; ring

theorem ofNat_div256_xor (a b : Nat) : (a ^^^ b) / 256 = (a / 256) ^^^ (b / 256) := by
  have h : ∀ n : Nat, n / 256 = n >>> 8 := fun n => by rw [Nat.shiftRight_eq_div_pow]
  rw [h, h, h, Nat.shiftRight_xor_distrib]

theorem leBytes_xor (n a b : Nat) : leBytes n (a ^^^ b) = xorL (leBytes n a) (leBytes n b) := by
  induction n generalizing a b with
  | zero => rfl
  | succ n ih =>
    simp only [leBytes, xorL, List.zipWith_cons_cons, ofNat_div256_xor]
    rw [ih]
    congr 1
    apply BitVec.eq_of_toNat_eq
    rw [BitVec.toNat_xor, BitVec.toNat_ofNat, BitVec.toNat_ofNat, BitVec.toNat_ofNat, Nat.xor_mod_two_pow]

theorem leWordBytes_cons (x : W32) (w : List W32) : leWordBytes (x :: w) = leBytes 4 x.toNat ++ leWordBytes w := by
  simp [leWordBytes]

theorem leWordBytes_length (w : List W32) : (leWordBytes w).length = 4 * w.length := by
  induction w with
  | nil => rfl
  | cons x w ih => rw [leWordBytes_cons, List.length_append, leBytes_length, ih, List.length_cons]; omega

theorem leWordBytes_append (a b : List W32) : leWordBytes (a ++ b) = leWordBytes a ++ leWordBytes b := by
  simp [leWordBytes]

theorem leWordBytes_flatMap (n : Nat) (f : Nat → List W32) :
    leWordBytes ((List.range n).flatMap f) = (List.range n).flatMap fun k => leWordBytes (f k) := by
  induction n with
  | zero => rfl
  | succ n ih => rw [flatMap_range_succ, flatMap_range_succ, leWordBytes_append, ih]

theorem leWordBytes_sl (w : List W32) (o n : Nat) : leWordBytes (sl w o n) = sl (leWordBytes w) (4 * o) (4 * n) := by
  have hd : ∀ (o : Nat) (w : List W32), leWordBytes (w.drop o) = (leWordBytes w).drop (4 * o) := by
    intro o
    induction o with
    | zero => intro w; simp
    | succ o ih =>
      intro w
      cases w with
      | nil => simp [leWordBytes]
      | cons x w =>
        rw [List.drop_succ_cons, ih, leWordBytes_cons, show 4 * (o + 1) = (leBytes 4 x.toNat).length + 4 * o by rw [leBytes_length]; omega,
          List.drop_append]
        simp
  have ht : ∀ (n : Nat) (w : List W32), leWordBytes (w.take n) = (leWordBytes w).take (4 * n) := by
    intro n
    induction n with
    | zero => intro w; simp [leWordBytes]
    | succ n ih =>
      intro w
      cases w with
      | nil => simp [leWordBytes]
      | cons x w =>
        rw [List.take_succ_cons, leWordBytes_cons, ih, leWordBytes_cons, show 4 * (n + 1) = (leBytes 4 x.toNat).length + 4 * n by rw [leBytes_length]; omega,
          List.take_append]
        simp
        rw [List.take_of_length_le (by simp)]
  rw [sl, sl, ht, hd]

theorem leWordBytes_xor (a b : List W32) (h : a.length = b.length) : leWordBytes (xorL a b) = xorL (leWordBytes a) (leWordBytes b) := by
  induction a generalizing b with
  | nil => cases b <;> simp_all [xorL, leWordBytes]
  | cons x a ih =>
    cases b with
    | nil => simp at h
    | cons y b =>
      have hx : xorL (x :: a) (y :: b) = (x ^^^ y) :: xorL a b := rfl
      rw [hx, leWordBytes_cons, leWordBytes_cons, leWordBytes_cons, ih b (by simpa using h), BitVec.toNat_xor, leBytes_xor]
      simp only [xorL]
      rw [List.zipWith_append (by simp)]

theorem leWords_length (n : Nat) (B : Bytes) : (leWords n B).length = n := by simp [leWords]

theorem leWords_leWordBytes (n : Nat) (w : List W32) (h : w.length = n) : leWords n (leWordBytes w) = w := by
  apply List.ext_getElem?
  intro i
  rcases Nat.lt_or_ge i n with hi | hi
  · rw [leWords, List.getElem?_map, List.getElem?_range hi, Option.map_some]
    have e : ((leWordBytes w).drop (4 * i)).take 4 = leWordBytes (sl w i 1) := by rw [leWordBytes_sl]; rfl
    rw [e, sl_one w i (by omega), List.getElem?_eq_getElem (by omega)]
    congr 1
    rw [leWordBytes_cons, show leWordBytes [] = [] from rfl, List.append_nil, leVal_leBytes]
    apply BitVec.eq_of_toNat_eq
    rw [BitVec.toNat_ofNat]
    have := (w[i]).isLt
    omega
  · rw [List.getElem?_eq_none (by rw [leWords_length]; omega), List.getElem?_eq_none (by omega)]

theorem leWordBytes_leWords (n : Nat) (B : Bytes) (h : B.length = 4 * n) : leWordBytes (leWords n B) = B := by
  have e : leWordBytes (leWords n B) = (List.range n).flatMap fun i => leBytes 4 (BitVec.ofNat 32 (leVal (sl B (4 * i) 4))).toNat := by
    simp only [leWordBytes, leWords, List.flatMap_map]; rfl
  rw [e]
  conv => rhs; rw [← flatMap_sl B 4 n h]
  apply flatMap_congr'
  intro i hi
  have l := sl_length B (4 * i) 4 (by omega)
  have := leVal_lt (sl B (4 * i) 4)
  rw [l] at this
  rw [BitVec.toNat_ofNat, Nat.mod_eq_of_lt (by omega)]
  have q := leBytes_leVal (sl B (4 * i) 4)
  rwa [l] at q

theorem le32dec_ok (B : Bytes) (o : Nat) (h : o + 4 ≤ B.length) :
    le32dec (B.drop o) = .ok (BitVec.ofNat 32 (leVal ((B.drop o).take 4))) := by
  have hl : 4 ≤ (B.drop o).length := by rw [List.length_drop]; omega
  match hB : B.drop o, hl with
  | a :: b :: c :: d :: t, _ => rw [le32dec_eq]; rfl

/-! ### salsa20/8 on bytes -/

theorem salsa_hom : Hom 16 64 salsa20_8_words salsa20_8 leWordBytes where
  lenσ := fun x h => salsa20_8_words_length x h
  lenτ := fun x _ => by rw [salsa20_8, leWordBytes_length, salsa20_8_words_length _ (leWords_length _ _)]
  lenφ := fun x h => by rw [leWordBytes_length, h]
  hσ := fun x h => by rw [salsa20_8, leWords_leWordBytes 16 x h]
  hxor := fun x y hx hy => leWordBytes_xor x y (by omega)

theorem perm_hom : Hom 16 16 salsa20_8_words salsaP perm where
  lenσ := fun x h => salsa20_8_words_length x h
  lenτ := fun x _ => salsaP_length x
  lenφ := fun x _ => perm_length x
  hσ := fun x h => (salsaP_perm x h).symm
  hxor := fun x y hx hy => perm_zipWith _ x y hx hy

theorem gmap_leWordBytes (n : Nat) (W : List W32) (h : W.length = 16 * n) : gmap 16 leWordBytes n W = leWordBytes W := by
  rw [gmap, ← leWordBytes_flatMap, flatMap_sl W 16 n h]

/-! ### The specification in the generic form -/

theorem blockMixY_eq (r : Nat) (B : Bytes) (i : Nat) : blockMixY r B i = gX 64 salsa20_8 r B (i + 1) := by
  induction i with
  | zero => rfl
  | succ i ih => rw [blockMixY, ih]; rfl

theorem blockMix_eq (r : Nat) (B : Bytes) : blockMix r B = gBM 64 salsa20_8 r B := by
  rw [blockMix, gBM]
  congr 1
  · exact flatMap_congr' _ _ _ (fun i _ => blockMixY_eq r B _)
  · exact flatMap_congr' _ _ _ (fun i _ => blockMixY_eq r B _)

theorem roMixV_eq (r : Nat) (B : Bytes) (i : Nat) : roMixV r B i = gV 64 salsa20_8 r B i := by
  induction i with
  | zero => rfl
  | succ i ih => rw [roMixV, ih, blockMix_eq, gV]

theorem roMixX_eq (r N : Nat) (B : Bytes) (i : Nat) :
    roMixX r N B i = gRO 64 salsa20_8 r N (fun X => Spec.integerify r X % N) B i := by
  induction i with
  | zero => exact roMixV_eq r B N
  | succ i ih =>
    rw [roMixX, ih, roMixV_eq, blockMix_eq, gRO]; rfl

theorem roMix_eq (r N : Nat) (B : Bytes) :
    roMix r N B = gRO 64 salsa20_8 r N (fun X => Spec.integerify r X % N) B N := roMixX_eq r N B N

/-! ### integerify -/

theorem itf_toNat (a b : W32) : ((a.setWidth 64 <<< 32) + b.setWidth 64 : W64).toNat = b.toNat + 2 ^ 32 * a.toNat := by
  have := a.isLt; have := b.isLt
  rw [BitVec.toNat_add, BitVec.toNat_shiftLeft, BitVec.toNat_setWidth, BitVec.toNat_setWidth, Nat.shiftLeft_eq]
  omega

theorem integerify_words (r k : Nat) (hr : 0 < r) (hk : k ≤ 63) (W : List W32) (h : W.length = 16 * (2 * r)) :
    Spec.integerify r (leWordBytes W) % 2 ^ k = (itfW 1 r W).toNat % 2 ^ k := by
  have e : blk64 (leWordBytes W) (2 * r - 1) = leWordBytes (sl W (16 * (2 * r - 1)) 16) := by
    rw [leWordBytes_sl, blk64, sl, show 4 * (16 * (2 * r - 1)) = 64 * (2 * r - 1) by omega]
  have g : ∀ c, c < 16 → W.getD (16 * (2 * r - 1) + c) 0 = (sl W (16 * (2 * r - 1)) 16).getD c 0 := by
    intro c hc
    rw [List.getD_eq_getElem?_getD, List.getD_eq_getElem?_getD, sl_getElem?, if_pos hc]
  have hl := sl_grp_length W 16 (2 * r) (2 * r - 1) h (by omega)
  rw [Spec.integerify, e, itfW, itf_toNat, g 1 (by omega)]
  have g0 := g 0 (by omega)
  rw [Nat.add_zero] at g0
  rw [g0]
  generalize sl W (16 * (2 * r - 1)) 16 = w at hl
  match w, hl with
  | x0 :: x1 :: t, _ =>
    rw [leWordBytes_cons, leWordBytes_cons, leVal_append, leVal_append, leVal_leBytes, leVal_leBytes, leBytes_length, leBytes_length]
    simp only [List.getD_cons_zero, List.getD_cons_succ]
    have h0 := x0.isLt
    have h1 := x1.isLt
    rw [Nat.mod_eq_of_lt (show x0.toNat < 256 ^ 4 by omega), Nat.mod_eq_of_lt (show x1.toNat < 256 ^ 4 by omega)]
    have : x0.toNat + 256 ^ 4 * (x1.toNat + 256 ^ 4 * leVal (leWordBytes t)) =
        x0.toNat + 2 ^ 32 * x1.toNat + 2 ^ k * (2 ^ (64 - k) * leVal (leWordBytes t)) := by
      have p : 2 ^ k * 2 ^ (64 - k) = 2 ^ 64 := by rw [← Nat.pow_add]; congr 1; omega
      rw [← Nat.mul_assoc (2 ^ k), p]; ring
    rw [this, Nat.add_mul_mod_self_left]

theorem itf_perm (r : Nat) (hr : 0 < r) (W : List W32) (h : W.length = 16 * (2 * r)) :
    itfW 13 r (gmap 16 perm (2 * r) W) = itfW 1 r W := by
  have g : ∀ (W : List W32) c, c < 16 → W.getD (16 * (2 * r - 1) + c) 0 = (sl W (16 * (2 * r - 1)) 16).getD c 0 := by
    intro W c hc
    rw [List.getD_eq_getElem?_getD, List.getD_eq_getElem?_getD, sl_getElem?, if_pos hc]
  have g0 : ∀ W : List W32, W.getD (16 * (2 * r - 1)) 0 = (sl W (16 * (2 * r - 1)) 16).getD 0 0 := by
    intro W; have := g W 0 (by omega); rwa [Nat.add_zero] at this
  have hl := sl_grp_length W 16 (2 * r) (2 * r - 1) h (by omega)
  unfold itfW
  rw [g _ 13 (by omega), g _ 1 (by omega), g0, g0, gmap_sl perm_hom _ W h _ (by omega)]
  generalize sl W (16 * (2 * r - 1)) 16 = w at hl
  match w, hl with
  | [x0, x1, x2, x3, x4, x5, x6, x7, x8, x9, x10, x11, x12, x13, x14, x15], _ => rfl

/-- ROMix on words is ROMix on bytes. -/
theorem gRO_bytes (r k : Nat) (hr : 0 < r) (hk : k ≤ 63) (W : List W32) (h : W.length = 16 * (2 * r)) :
    leWordBytes (gRO 16 salsa20_8_words r (2 ^ k) (fun S => (itfW 1 r S).toNat % 2 ^ k) W (2 ^ k)) = roMix r (2 ^ k) (leWordBytes W) := by
  have l := gRO_length salsa_hom.lenσ r (2 ^ k) (fun S => (itfW 1 r S).toNat % 2 ^ k) W hr h (2 ^ k)
  rw [roMix_eq, ← gmap_leWordBytes _ W h, gRO_map salsa_hom r (2 ^ k) hr (fun S => (itfW 1 r S).toNat % 2 ^ k) _ _ W h, gmap_leWordBytes _ _ l]
  intro x hx
  rw [gmap_leWordBytes _ _ hx]
  exact integerify_words r k hr hk x hx

/-! ### Loading and storing -/

theorem load_loop (B : Bytes) (n : Nat) (XY : List W32) (hB : B.length = 4 * n) (hn : n ≤ XY.length) :
    forLoop n (fun XY k => do
      let w ← le32dec (B.drop (4 * k))
      wr XY k w) XY = .ok (ow XY 0 (leWords n B)) := by
  rw [loop_cells 0 n XY (fun i => BitVec.ofNat 32 (leVal ((B.drop (4 * i)).take 4))) _ (by omega)]
  · rfl
  · intro k m' hk hm _ _
    rw [le32dec_ok B _ (by omega), Res.bind_ok, wr_ok _ (by omega), Nat.zero_add]

theorem store_loop (XY : List W32) (n : Nat) (B : Bytes) (hB : B.length = 4 * n) (hn : n ≤ XY.length) :
    forLoop n (fun B k => do
      let w ← rd XY k
      wrSlice B (4 * k) (le32enc w)) B = .ok (leWordBytes (sl XY 0 n)) := by
  have e : leWordBytes (sl XY 0 n) = (List.range n).flatMap fun k => leBytes 4 (XY.getD k 0).toNat := by
    have : sl XY 0 n = (List.range n).flatMap fun k => [XY.getD k 0] := by
      have hl := sl_length XY 0 n (by omega)
      rw [← flatMap_singleton n (sl XY 0 n) hl]
      apply flatMap_congr'
      intro i hi
      rw [sl_one _ _ (by omega)]
      congr 1
      have : (sl XY 0 n)[i]? = some (sl XY 0 n)[i] := List.getElem?_eq_getElem _
      rw [sl_getElem?, if_pos hi, Nat.zero_add] at this
      rw [List.getD_eq_getElem?_getD, this]; rfl
    rw [this, leWordBytes_flatMap]
    apply flatMap_congr'
    intro i _
    rw [leWordBytes_cons]; simp [leWordBytes]
  rw [loop_groups 0 4 n B (fun k => leBytes 4 (XY.getD k 0).toNat) _ (by omega) (fun k _ => leBytes_length _ _), e]
  · rw [ow_full]
    rw [flatMap_range_length _ 4 n (fun i _ => leBytes_length _ _), hB]
  · intro k m' hk hm _
    have : XY[k]? = some (XY.getD k 0) := by rw [List.getD_eq_getElem?_getD, List.getElem?_eq_getElem (by omega)]; rfl
    rw [rd_some this, Res.bind_ok, le32enc_eq, wrSlice_ow (by rw [leBytes_length]; omega), Nat.zero_add]

/-- `crypto_scrypt_smix` computes scryptROMix in place. -/
theorem smix_gen_spec (B : Bytes) (r N k : Nat) (hr : 0 < r) (hN : N = 2 ^ k) (hk1 : 1 ≤ k) (hk2 : k ≤ 63) (V XY : List W32)
    (hB : B.length = 128 * r) (hV : V.length = 32 * r * N) (hXY : XY.length = 64 * r + 16) :
    ∃ V' XY', crypto_scrypt_smix B r N V XY = .ok (roMix r N B, V', XY') ∧ V'.length = 32 * r * N ∧ XY'.length = 64 * r + 16 := by
  have hW := leWords_length (32 * r) B
  have l0 := ow_length XY 0 (leWords (32 * r) B) (by omega)
  obtain ⟨V', XY', e, h1, h2, h3⟩ := loops_spec gen_ops_spec r N k hr hN hk1 hk2 V (ow XY 0 (leWords (32 * r) B)) hV (by omega)
  refine ⟨V', XY', ?_, h1, h2⟩
  unfold crypto_scrypt_smix
  rw [load_loop B (32 * r) XY (by omega) (by omega), Res.bind_ok, e, Res.bind_ok]
  simp only []
  rw [store_loop XY' (32 * r) B (by omega) (by omega), Res.bind_ok, h3, sl_ow_same' _ _ _ _ hW (by omega), hN,
    gRO_bytes r k hr hk2 _ (by omega), leWordBytes_leWords _ _ (by omega)]
  rfl

theorem sse_load_loop (B : Bytes) (n : Nat) (XY : List W32) (hB : B.length = 64 * n) (hn : 16 * n ≤ XY.length) :
    forLoop n (fun XY k =>
      forLoop 16 (fun XY i => do
        let w ← le32dec (B.drop ((k * 16 + i * 5 % 16) * 4))
        wr XY (k * 16 + i) w) XY) XY = .ok (ow XY 0 (gmap 16 perm n (leWords (16 * n) B))) := by
  rw [loop_groups 0 16 n XY (fun k => perm (sl (leWords (16 * n) B) (16 * k) 16)) _ (by omega) (fun k _ => perm_length _)]
  · rfl
  · intro k m' hk hm _
    rw [loop_cells (16 * k) 16 m' (fun i => BitVec.ofNat 32 (leVal ((B.drop (4 * (16 * k + i * 5 % 16))).take 4))) _ (by omega)]
    · rw [Nat.zero_add]
      congr 2
      rw [perm]
      apply List.map_congr_left
      intro i hi
      have hi : i < 16 := by simpa using hi
      rw [List.getD_eq_getElem?_getD, sl_getElem?, if_pos (by omega), leWords, List.getElem?_map, List.getElem?_range (by omega)]
      rfl
    · intro i m'' hi hm' _ _
      rw [le32dec_ok B _ (by omega), Res.bind_ok, wr_ok _ (by omega)]
      rw [show (k * 16 + i * 5 % 16) * 4 = 4 * (16 * k + i * 5 % 16) by omega, show k * 16 + i = 16 * k + i by omega]

theorem iperm_getD (y : List W32) (t : Nat) (ht : t < 16) : (iperm y).getD t 0 = y.getD (t * 13 % 16) 0 := by
  rw [List.getD_eq_getElem?_getD, iperm, List.getElem?_map, List.getElem?_range ht]; rfl

theorem sse_store_inner (XY : List W32) (k n : Nat) (hk : k < n) (B : Bytes) (hB : B.length = 64 * n) (hn : 16 * n ≤ XY.length) :
    forLoop 16 (fun B i => do
      let w ← rd XY (k * 16 + i)
      wrSlice B ((k * 16 + i * 5 % 16) * 4) (le32enc w)) B = .ok (ow B (64 * k) (leWordBytes (iperm (sl XY (16 * k) 16)))) := by
  obtain ⟨B', e, h1, h2, h3⟩ := forLoop_inv (n := 16) (s := B) (f := fun B i => do
      let w ← rd XY (k * 16 + i)
      wrSlice B ((k * 16 + i * 5 % 16) * 4) (le32enc w))
    (fun i B' => B'.length = B.length ∧ (∀ j, j < i → sl B' (64 * k + 4 * (j * 5 % 16)) 4 = leBytes 4 (XY.getD (16 * k + j) 0).toNat) ∧
      (∀ x, (x < 64 * k ∨ 64 * k + 64 ≤ x) → B'[x]? = B[x]?))
    ⟨rfl, by intro j hj; omega, fun _ _ => rfl⟩ (by
      rintro i B' hi ⟨h1, h2, h3⟩
      have : XY[k * 16 + i]? = some (XY.getD (16 * k + i) 0) := by
        rw [show k * 16 + i = 16 * k + i by omega, List.getD_eq_getElem?_getD, List.getElem?_eq_getElem (by omega)]; rfl
      have ll := leBytes_length 4 (XY.getD (16 * k + i) 0).toNat
      rw [rd_some this, Res.bind_ok, le32enc_eq, wrSlice_ow (by rw [leBytes_length]; omega),
        show (k * 16 + i * 5 % 16) * 4 = 64 * k + 4 * (i * 5 % 16) by omega]
      refine ⟨_, rfl, ?_, ?_, ?_⟩
      · rw [ow_length _ _ _ (by rw [leBytes_length]; omega), h1]
      · intro j hj
        rcases Nat.lt_or_ge j i with hji | hji
        · rw [sl_ow_disj _ _ _ (by omega) _ _ (by omega), h2 j hji]
        · have : j = i := by omega
          subst this
          rw [sl_ow_same' _ _ _ _ ll (by omega)]
      · intro x hx
        rw [ow_getElem? _ _ _ (by omega), if_neg (by omega), h3 x hx])
  rw [e]; congr 1
  have lw : (leWordBytes (iperm (sl XY (16 * k) 16))).length = 64 := by rw [leWordBytes_length, iperm_length]
  have key : sl B' (64 * k) 64 = leWordBytes (iperm (sl XY (16 * k) 16)) := by
    apply ext_groups _ _ 4 16 (sl_length _ _ _ (by omega)) lw
    intro t ht
    rw [sl_sl _ _ _ _ _ (by omega), show 4 * t = 4 * t from rfl]
    have := h2 (t * 13 % 16) (by omega)
    rw [show t * 13 % 16 * 5 % 16 = t by omega] at this
    rw [this]
    have e2 := leWordBytes_sl (iperm (sl XY (16 * k) 16)) t 1
    rw [show 4 * 1 = 4 from rfl] at e2
    rw [← e2, sl_one _ _ (by rw [iperm_length]; omega), leWordBytes_cons]
    have e3 : (iperm (sl XY (16 * k) 16))[t]'(by rw [iperm_length]; omega) = (iperm (sl XY (16 * k) 16)).getD t 0 := by
      rw [List.getD_eq_getElem?_getD, List.getElem?_eq_getElem]; rfl
    rw [e3, iperm_getD _ _ ht]
    have e4 : (sl XY (16 * k) 16).getD (t * 13 % 16) 0 = XY.getD (16 * k + t * 13 % 16) 0 := by
      rw [List.getD_eq_getElem?_getD, sl_getElem?, if_pos (by omega), List.getD_eq_getElem?_getD]
    rw [e4]; simp [leWordBytes]
  apply List.ext_getElem?
  intro x
  rw [ow_getElem? _ _ _ (by omega), lw]
  split
  · next hx =>
    have := getElem?_of_sl key (x - 64 * k) (by omega)
    rwa [show 64 * k + (x - 64 * k) = x by omega] at this
  · next hx => exact h3 x (by omega)

theorem gmap_iperm (n : Nat) (W : List W32) (h : W.length = 16 * n) : gmap 16 iperm n (gmap 16 perm n W) = W := by
  conv => rhs; rw [← flatMap_sl W 16 n h]
  apply flatMap_congr'
  intro k hk
  rw [gmap_sl perm_hom n W h k hk, iperm_perm _ (sl_grp_length W 16 n k h hk)]

theorem sse_store_loop (XY : List W32) (n : Nat) (B : Bytes) (hB : B.length = 64 * n) (hn : 16 * n ≤ XY.length) :
    forLoop n (fun B k =>
      forLoop 16 (fun B i => do
        let w ← rd XY (k * 16 + i)
        wrSlice B ((k * 16 + i * 5 % 16) * 4) (le32enc w)) B) B = .ok (leWordBytes (gmap 16 iperm n (sl XY 0 (16 * n)))) := by
  have lw : ∀ k, (leWordBytes (iperm (sl XY (16 * k) 16))).length = 64 := fun k => by rw [leWordBytes_length, iperm_length]
  rw [loop_groups 0 64 n B (fun k => leWordBytes (iperm (sl XY (16 * k) 16))) _ (by omega) (fun k _ => lw k)]
  · rw [ow_full]
    · congr 1
      rw [gmap, leWordBytes_flatMap]
      apply flatMap_congr'
      intro k hk
      rw [sl_sl _ _ _ _ _ (by omega), Nat.zero_add]
    · rw [flatMap_range_length _ 64 n (fun i _ => lw i), hB]
  · intro k m' hk hm _
    rw [sse_store_inner XY k n hk m' (by omega) hn, Nat.zero_add]

/-- `crypto_scrypt_smix_sse2` computes scryptROMix in place. -/
theorem smix_sse2_spec (B : Bytes) (r N k : Nat) (hr : 0 < r) (hN : N = 2 ^ k) (hk1 : 1 ≤ k) (hk2 : k ≤ 63) (V XY : List W32)
    (hB : B.length = 128 * r) (hV : V.length = 32 * r * N) (hXY : XY.length = 64 * r + 16) :
    ∃ V' XY', crypto_scrypt_smix_sse2 B r N V XY = .ok (roMix r N B, V', XY') ∧ V'.length = 32 * r * N ∧ XY'.length = 64 * r + 16 := by
  have hW := leWords_length (16 * (2 * r)) B
  have hP := gmap_length perm_hom (2 * r) _ hW
  have l0 := ow_length XY 0 (gmap 16 perm (2 * r) (leWords (16 * (2 * r)) B)) (by omega)
  obtain ⟨V', XY', e, h1, h2, h3⟩ := loops_spec sse_ops_spec r N k hr hN hk1 hk2 V
    (ow XY 0 (gmap 16 perm (2 * r) (leWords (16 * (2 * r)) B))) hV (by omega)
  refine ⟨V', XY', ?_, h1, h2⟩
  unfold crypto_scrypt_smix_sse2
  rw [sse_load_loop B (2 * r) XY (by omega) (by omega), Res.bind_ok, e, Res.bind_ok]
  simp only []
  rw [sse_store_loop XY' (2 * r) B (by omega) (by omega), Res.bind_ok, show 16 * (2 * r) = 32 * r by omega, h3,
    sl_ow_same' _ _ _ _ (by rw [← show 16 * (2 * r) = 32 * r by omega]; exact hP) (by omega)]
  have hW' : (leWords (32 * r) B).length = 16 * (2 * r) := by rw [leWords_length]; omega
  rw [show 16 * (2 * r) = 32 * r by omega] 
  rw [gRO_map perm_hom r N hr (fun S => (itfW 1 r S).toNat % N) _ (fun x hx => by rw [itf_perm r hr x hx]) _ hW']
  rw [gmap_iperm _ _ (gRO_length salsa_hom.lenσ r N _ _ hr hW' N), hN, gRO_bytes r k hr hk2 _ hW', leWordBytes_leWords _ _ (by omega)]
  rfl

end Scrypt
