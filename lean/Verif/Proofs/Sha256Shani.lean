import Verif.Proofs.Sha256Msg
namespace Scrypt
open Spec

/-! ### SHA-NI -/

/-- The register pair `(S0145, S2367)` = `(ABEF, CDGH)`. -/
def shaniPack (s : Regs) : V4 × V4 := (⟨s.f, s.e, s.b, s.a⟩, ⟨s.h, s.g, s.d, s.c⟩)

theorem round_a' (k w : W32) (s : Regs) :
    Ch s.e s.f s.g + Sig1 s.e + (w + k) + s.h + Maj s.a s.b s.c + Sig0 s.a = (round k w s).a := by
  simp only [round]; ac_rfl

theorem round_e' (k w : W32) (s : Regs) :
    Ch s.e s.f s.g + Sig1 s.e + (w + k) + s.h + s.d = (round k w s).e := by
  simp only [round]; ac_rfl

/-- `SHA256RNDS2` is two rounds. -/
theorem rnds2 (s : Regs) (w0 w1 k0 k1 x y : W32) :
    mm_sha256rnds2_epu32 (shaniPack s).2 (shaniPack s).1 ⟨w0 + k0, w1 + k1, x, y⟩
      = (shaniPack (round k1 w1 (round k0 w0 s))).1 := by
  have hA := round_a' k0 w0 s
  have hE := round_e' k0 w0 s
  have hA2 := round_a' k1 w1 (round k0 w0 s)
  have hE2 := round_e' k1 w1 (round k0 w0 s)
  have f1 : (round k0 w0 s).b = s.a := rfl
  have f2 : (round k0 w0 s).c = s.b := rfl
  have f3 : (round k0 w0 s).d = s.c := rfl
  have f4 : (round k0 w0 s).f = s.e := rfl
  have f5 : (round k0 w0 s).g = s.f := rfl
  have f6 : (round k0 w0 s).h = s.g := rfl
  have g1 : (round k1 w1 (round k0 w0 s)).b = (round k0 w0 s).a := rfl
  have g4 : (round k1 w1 (round k0 w0 s)).f = (round k0 w0 s).e := rfl
  rw [f1, f2, f4, f5, f6] at hA2
  rw [f4, f5, f6, f3] at hE2
  simp only [mm_sha256rnds2_epu32, shaniPack, hA, hE, hA2, hE2, g1, g4]

theorem shaniPack_2 (k0 k1 w0 w1 : W32) (s : Regs) :
    (shaniPack (round k1 w1 (round k0 w0 s))).2 = (shaniPack s).1 := rfl

theorem RND4_shani (s : Regs) (w : V4) (K0 K1 K2 K3 : W32) :
    Shani.RND4 (shaniPack s) w K0 K1 K2 K3
      = shaniPack (round K3 w.l3 (round K2 w.l2 (round K1 w.l1 (round K0 w.l0 s)))) := by
  have h1 := rnds2 s w.l0 w.l1 K0 K1 (w.l2 + K2) (w.l3 + K3)
  have h2 := rnds2 (round K1 w.l1 (round K0 w.l0 s)) w.l2 w.l3 K2 K3 0 0
  rw [shaniPack_2] at h2
  simp only [Shani.RND4, srli_si128_8, mm_add_epi32, mm_set_epi32, V4.zip, h1, h2]
  rfl

/-- The message update of `MSG4`. -/
def shaniF (a b c d : V4) : V4 :=
  mm_sha256msg2_epu32 (mm_add_epi32 (mm_sha256msg1_epu32 a b) (mm_alignr_epi8 d c 4)) d

theorem RNDMSG_0 (i : Nat) (hi : i < 12) (h : i % 4 = 0) (u : V4 × V4) (a b c d : V4) (k0 k1 k2 k3 : W32) :
    Shani.RNDMSG (u, [a, b, c, d]) i k0 k1 k2 k3 = .ok (Shani.RND4 u a k0 k1 k2 k3, [shaniF a b c d, b, c, d]) := by
  simp only [Shani.RNDMSG, Shani.MSG4, show (i + 4 + 0) % 4 = 0 by omega, show (i + 4 + 1) % 4 = 1 by omega,
    show (i + 4 + 2) % 4 = 2 by omega, show (i + 4 + 3) % 4 = 3 by omega, h, hi, if_true]
  rfl

theorem RNDMSG_0' (i : Nat) (hi : ¬ i < 12) (h : i % 4 = 0) (u : V4 × V4) (a b c d : V4) (k0 k1 k2 k3 : W32) :
    Shani.RNDMSG (u, [a, b, c, d]) i k0 k1 k2 k3 = .ok (Shani.RND4 u a k0 k1 k2 k3, [a, b, c, d]) := by
  simp only [Shani.RNDMSG, h, hi, if_false]
  rfl

theorem RNDMSG_1 (i : Nat) (hi : i < 12) (h : i % 4 = 1) (u : V4 × V4) (a b c d : V4) (k0 k1 k2 k3 : W32) :
    Shani.RNDMSG (u, [a, b, c, d]) i k0 k1 k2 k3 = .ok (Shani.RND4 u b k0 k1 k2 k3, [a, shaniF b c d a, c, d]) := by
  simp only [Shani.RNDMSG, Shani.MSG4, show (i + 4 + 0) % 4 = 1 by omega, show (i + 4 + 1) % 4 = 2 by omega,
    show (i + 4 + 2) % 4 = 3 by omega, show (i + 4 + 3) % 4 = 0 by omega, h, hi, if_true]
  rfl

theorem RNDMSG_1' (i : Nat) (hi : ¬ i < 12) (h : i % 4 = 1) (u : V4 × V4) (a b c d : V4) (k0 k1 k2 k3 : W32) :
    Shani.RNDMSG (u, [a, b, c, d]) i k0 k1 k2 k3 = .ok (Shani.RND4 u b k0 k1 k2 k3, [a, b, c, d]) := by
  simp only [Shani.RNDMSG, h, hi, if_false]
  rfl

theorem RNDMSG_2 (i : Nat) (hi : i < 12) (h : i % 4 = 2) (u : V4 × V4) (a b c d : V4) (k0 k1 k2 k3 : W32) :
    Shani.RNDMSG (u, [a, b, c, d]) i k0 k1 k2 k3 = .ok (Shani.RND4 u c k0 k1 k2 k3, [a, b, shaniF c d a b, d]) := by
  simp only [Shani.RNDMSG, Shani.MSG4, show (i + 4 + 0) % 4 = 2 by omega, show (i + 4 + 1) % 4 = 3 by omega,
    show (i + 4 + 2) % 4 = 0 by omega, show (i + 4 + 3) % 4 = 1 by omega, h, hi, if_true]
  rfl

theorem RNDMSG_2' (i : Nat) (hi : ¬ i < 12) (h : i % 4 = 2) (u : V4 × V4) (a b c d : V4) (k0 k1 k2 k3 : W32) :
    Shani.RNDMSG (u, [a, b, c, d]) i k0 k1 k2 k3 = .ok (Shani.RND4 u c k0 k1 k2 k3, [a, b, c, d]) := by
  simp only [Shani.RNDMSG, h, hi, if_false]
  rfl

theorem RNDMSG_3 (i : Nat) (hi : i < 12) (h : i % 4 = 3) (u : V4 × V4) (a b c d : V4) (k0 k1 k2 k3 : W32) :
    Shani.RNDMSG (u, [a, b, c, d]) i k0 k1 k2 k3 = .ok (Shani.RND4 u d k0 k1 k2 k3, [a, b, c, shaniF d a b c]) := by
  simp only [Shani.RNDMSG, Shani.MSG4, show (i + 4 + 0) % 4 = 3 by omega, show (i + 4 + 1) % 4 = 0 by omega,
    show (i + 4 + 2) % 4 = 1 by omega, show (i + 4 + 3) % 4 = 2 by omega, h, hi, if_true]
  rfl

theorem RNDMSG_3' (i : Nat) (hi : ¬ i < 12) (h : i % 4 = 3) (u : V4 × V4) (a b c d : V4) (k0 k1 k2 k3 : W32) :
    Shani.RNDMSG (u, [a, b, c, d]) i k0 k1 k2 k3 = .ok (Shani.RND4 u d k0 k1 k2 k3, [a, b, c, d]) := by
  simp only [Shani.RNDMSG, h, hi, if_false]
  rfl

/-- The array `W[4]` before the `i`-th call of `RNDMSG`: position `p` holds the newest quadruple with
index congruent to `p`. -/
def shaniW (V : Nat → V4) (j : Nat) : List V4 :=
  [V (4 * (j + (12 - j) % 4)), V (4 * (j + (13 - j) % 4)), V (4 * (j + (14 - j) % 4)), V (4 * (j + (15 - j) % 4))]

theorem RNDMSG_gen (V : Nat → V4) (i : Nat) (hi : i < 16) (u t : V4 × V4) (k0 k1 k2 k3 : W32)
    (h4 : Shani.RND4 u (V (4 * i)) k0 k1 k2 k3 = t)
    (hm : shaniF (V (4 * i)) (V (4 * i + 4)) (V (4 * i + 8)) (V (4 * i + 12)) = V (4 * i + 16)) :
    Shani.RNDMSG (u, shaniW V (min i 12)) i k0 k1 k2 k3 = .ok (t, shaniW V (min (i + 1) 12)) := by
  have hV : ∀ m n : Nat, m = n → V m = V n := fun m n h => congrArg V h
  unfold shaniW
  by_cases h12 : i < 12
  · rw [Nat.min_eq_left (by omega), Nat.min_eq_left (by omega)]
    rcases (by omega : i % 4 = 0 ∨ i % 4 = 1 ∨ i % 4 = 2 ∨ i % 4 = 3) with h | h | h | h
    · rw [hV (4 * (i + (12 - i) % 4)) (4 * i + 0) (by omega), hV (4 * (i + (13 - i) % 4)) (4 * i + 4) (by omega), hV (4 * (i + (14 - i) % 4)) (4 * i + 8) (by omega), hV (4 * (i + (15 - i) % 4)) (4 * i + 12) (by omega),
        hV (4 * (i + 1 + (12 - (i + 1)) % 4)) (4 * i + 16) (by omega), hV (4 * (i + 1 + (13 - (i + 1)) % 4)) (4 * i + 4) (by omega), hV (4 * (i + 1 + (14 - (i + 1)) % 4)) (4 * i + 8) (by omega), hV (4 * (i + 1 + (15 - (i + 1)) % 4)) (4 * i + 12) (by omega),
        RNDMSG_0 i h12 h, Nat.add_zero, h4, hm]
    · rw [hV (4 * (i + (12 - i) % 4)) (4 * i + 12) (by omega), hV (4 * (i + (13 - i) % 4)) (4 * i + 0) (by omega), hV (4 * (i + (14 - i) % 4)) (4 * i + 4) (by omega), hV (4 * (i + (15 - i) % 4)) (4 * i + 8) (by omega),
        hV (4 * (i + 1 + (12 - (i + 1)) % 4)) (4 * i + 12) (by omega), hV (4 * (i + 1 + (13 - (i + 1)) % 4)) (4 * i + 16) (by omega), hV (4 * (i + 1 + (14 - (i + 1)) % 4)) (4 * i + 4) (by omega), hV (4 * (i + 1 + (15 - (i + 1)) % 4)) (4 * i + 8) (by omega),
        RNDMSG_1 i h12 h, Nat.add_zero, h4, hm]
    · rw [hV (4 * (i + (12 - i) % 4)) (4 * i + 8) (by omega), hV (4 * (i + (13 - i) % 4)) (4 * i + 12) (by omega), hV (4 * (i + (14 - i) % 4)) (4 * i + 0) (by omega), hV (4 * (i + (15 - i) % 4)) (4 * i + 4) (by omega),
        hV (4 * (i + 1 + (12 - (i + 1)) % 4)) (4 * i + 8) (by omega), hV (4 * (i + 1 + (13 - (i + 1)) % 4)) (4 * i + 12) (by omega), hV (4 * (i + 1 + (14 - (i + 1)) % 4)) (4 * i + 16) (by omega), hV (4 * (i + 1 + (15 - (i + 1)) % 4)) (4 * i + 4) (by omega),
        RNDMSG_2 i h12 h, Nat.add_zero, h4, hm]
    · rw [hV (4 * (i + (12 - i) % 4)) (4 * i + 4) (by omega), hV (4 * (i + (13 - i) % 4)) (4 * i + 8) (by omega), hV (4 * (i + (14 - i) % 4)) (4 * i + 12) (by omega), hV (4 * (i + (15 - i) % 4)) (4 * i + 0) (by omega),
        hV (4 * (i + 1 + (12 - (i + 1)) % 4)) (4 * i + 4) (by omega), hV (4 * (i + 1 + (13 - (i + 1)) % 4)) (4 * i + 8) (by omega), hV (4 * (i + 1 + (14 - (i + 1)) % 4)) (4 * i + 12) (by omega), hV (4 * (i + 1 + (15 - (i + 1)) % 4)) (4 * i + 16) (by omega),
        RNDMSG_3 i h12 h, Nat.add_zero, h4, hm]
  · rw [Nat.min_eq_right (by omega), Nat.min_eq_right (by omega)]
    rcases (by omega : i = 12 ∨ i = 13 ∨ i = 14 ∨ i = 15) with h | h | h | h
    · subst h
      rw [RNDMSG_0' _ h12 rfl]
      rw [← h4]
    · subst h
      rw [RNDMSG_1' _ h12 rfl]
      rw [← h4]
    · subst h
      rw [RNDMSG_2' _ h12 rfl]
      rw [← h4]
    · subst h
      rw [RNDMSG_3' _ h12 rfl]
      rw [← h4]

theorem RNDMSG_shani (M : Nat → W32) (s : Regs) (i : Nat) (hi : i < 16) :
    Shani.RNDMSG (shaniPack (rounds M (4 * i) s), shaniW (V4w M) (min i 12)) i (K (4 * i)) (K (4 * i + 1))
      (K (4 * i + 2)) (K (4 * i + 3))
      = .ok (shaniPack (rounds M (4 * (i + 1)) s), shaniW (V4w M) (min (i + 1) 12)) := by
  rw [Nat.mul_add 4 i 1, Nat.mul_one, rounds_add4]
  exact RNDMSG_gen (V4w M) i hi _ _ _ _ _ _ (RND4_shani _ _ _ _ _ _) (MSG4_shani M (4 * i))

open Shani in
theorem shani_rounds (R : Nat → V4 × V4) (W : Nat → List V4)
    (h : ∀ i, i < 16 → RNDMSG (R i, W i) i (K (4 * i)) (K (4 * i + 1)) (K (4 * i + 2)) (K (4 * i + 3))
      = .ok (R (i + 1), W (i + 1))) :
    rounds16 (R 0, W 0) = .ok (R 16, W 16) := by
  unfold rounds16
  have g0 := h 0 (by omega)
  have g1 := h 1 (by omega)
  have g2 := h 2 (by omega)
  have g3 := h 3 (by omega)
  have g4 := h 4 (by omega)
  have g5 := h 5 (by omega)
  have g6 := h 6 (by omega)
  have g7 := h 7 (by omega)
  have g8 := h 8 (by omega)
  have g9 := h 9 (by omega)
  have g10 := h 10 (by omega)
  have g11 := h 11 (by omega)
  have g12 := h 12 (by omega)
  have g13 := h 13 (by omega)
  have g14 := h 14 (by omega)
  have g15 := h 15 (by omega)
  simp only [K, Ktab, List.getD_cons_zero, List.getD_cons_succ, Nat.reduceMul, Nat.reduceAdd] at g0 g1 g2 g3 g4 g5 g6 g7 g8 g9 g10 g11 g12 g13 g14 g15
  simp only [g0, g1, g2, g3, g4, g5, g6, g7, g8, g9, g10, g11, g12, g13, g14, g15, Res.bind_ok]

theorem shaniW_0 (V : Nat → V4) : shaniW V (min 0 12) = [V 0, V 4, V 8, V 12] := rfl

open Shani in
theorem shaniAll (M : Nat → W32) (s : Regs) :
    rounds16 ((⟨s.f, s.e, s.b, s.a⟩, ⟨s.h, s.g, s.d, s.c⟩), [V4w M 0, V4w M 4, V4w M 8, V4w M 12])
      = .ok (shaniPack (rounds M 64 s), shaniW (V4w M) 12) := by
  obtain ⟨R, hR⟩ : ∃ R : Nat → V4 × V4, ∀ n, R n = shaniPack (rounds M (4 * n) s) := ⟨fun _ => _, fun _ => rfl⟩
  obtain ⟨W, hW⟩ : ∃ W : Nat → List V4, ∀ n, W n = shaniW (V4w M) (min n 12) := ⟨fun _ => _, fun _ => rfl⟩
  have h := shani_rounds R W (fun i hi => by rw [hR, hW, hR, hW]; exact RNDMSG_shani M s i hi)
  have i0 : R 0 = (⟨s.f, s.e, s.b, s.a⟩, ⟨s.h, s.g, s.d, s.c⟩) := by rw [hR]; rfl
  have iW : W 0 = [V4w M 0, V4w M 4, V4w M 8, V4w M 12] := by rw [hW, shaniW_0]
  have j0 : R 16 = shaniPack (rounds M 64 s) := by rw [hR]
  have jW : W 16 = shaniW (V4w M) 12 := hW 16
  rw [i0, iW, j0, jW] at h
  exact h

theorem SHA256_Transform_shani_spec (s : Regs) (block : Bytes) (hb : block.length = 64) :
    SHA256_Transform_shani s.toList block = .ok (compress s block).toList := by
  obtain ⟨x0, l0, b0⟩ := load_block block hb 0 (by omega)
  obtain ⟨x1, l1, b1⟩ := load_block block hb 1 (by omega)
  obtain ⟨x2, l2, b2⟩ := load_block block hb 2 (by omega)
  obtain ⟨x3, l3, b3⟩ := load_block block hb 3 (by omega)
  simp only [Nat.mul_zero, Nat.reduceMul] at l0 l1 l2 l3 b0 b1 b2 b3
  have h := shaniAll (wordBE block) s
  have hc : compress s block = (rounds (wordBE block) 64 s).add s := rfl
  rw [hc]
  generalize rounds (wordBE block) 64 s = R at h
  have ld0 : mm_loadu_words s.toList 0 = .ok ⟨s.a, s.b, s.c, s.d⟩ := rfl
  have ld4 : mm_loadu_words s.toList 4 = .ok ⟨s.e, s.f, s.g, s.h⟩ := rfl
  have sh : ∀ v : V4, mm_shuffle_epi32 v 0x1B = ⟨v.l3, v.l2, v.l1, v.l0⟩ := fun _ => rfl
  simp only [SHA256_Transform_shani, Shani.be32dec_128, l0, l1, l2, l3, bswap_shani, b0, b1, b2, b3, Res.bind_ok,
    Res.pure_eq, ld0, ld4, sh, mm_unpackhi_epi64, mm_unpacklo_epi64]
  rw [h]
  simp [shaniPack, mm_add_epi32, V4.zip, mm_storeu_words, wr, Regs.toList, Regs.add, BitVec.add_comm]

end Scrypt
