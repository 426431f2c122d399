import Verif.Proofs.Sha256Sse2
namespace Scrypt
open Spec

/-! ### Arm -/

def armPack (s : Regs) : V4 × V4 := (⟨s.a, s.b, s.c, s.d⟩, ⟨s.e, s.f, s.g, s.h⟩)

theorem armHashStep_spec (k w : W32) (s : Regs) :
    armHashStep (armPack s) (w + k) = armPack (round k w s) := by
  have hA : s.h + Sig1 s.e + Ch s.e s.f s.g + (w + k) + Sig0 s.a + Maj s.a s.b s.c = (round k w s).a := by
    simp only [round]; ac_rfl
  have hE : s.h + Sig1 s.e + Ch s.e s.f s.g + (w + k) + s.d = (round k w s).e := by
    simp only [round]; ac_rfl
  simp only [armHashStep, armPack, hA, hE]
  rfl

theorem RND4_arm (M : Nat → W32) (s : Regs) (i : Nat) (hi : i < 16) :
    Arm.RND4 (armPack s) (V4w M (4 * i)) (4 * i)
      = .ok (armPack (round (K (4 * i + 3)) (Wt M (4 * i + 3)) (round (K (4 * i + 2)) (Wt M (4 * i + 2))
          (round (K (4 * i + 1)) (Wt M (4 * i + 1)) (round (K (4 * i)) (Wt M (4 * i)) s))))) := by
  have hk : mm_loadu_words Arm.Krnd (4 * i) = .ok ⟨K (4 * i), K (4 * i + 1), K (4 * i + 2), K (4 * i + 3)⟩ := by
    have h := fun t ht => rd_Krnd t ht
    rw [show Krnd = Arm.Krnd from rfl] at h
    simp only [mm_loadu_words, h _ (show 4 * i < 64 by omega), h _ (show 4 * i + 1 < 64 by omega),
      h _ (show 4 * i + 2 < 64 by omega), h _ (show 4 * i + 3 < 64 by omega), Res.bind_ok, Res.pure_eq]
  simp only [Arm.RND4, hk, Res.bind_ok, vsha256hq_u32, vsha256h2q_u32, armHash, List.foldl,
    vaddq_u32, V4.zip, V4w, Res.pure_eq]
  rw [show ((armPack s).1, (armPack s).2) = armPack s from rfl]
  simp only [armHashStep_spec]

theorem RND4_arm' (M : Nat → W32) (s : Regs) (i : Nat) (hi : i < 16) :
    Arm.RND4 (armPack (rounds M (4 * i) s)) (V4w M (4 * i)) (4 * i)
      = .ok (armPack (rounds M (4 * i + 4) s)) := by
  rw [rounds_add4, RND4_arm M (rounds M (4 * i) s) i hi]

theorem arm_mixStep_gen (V : Nat → V4) (R : Nat → V4 × V4) (Y : Sse2.Y4) (i : Nat)
    (hr : ∀ k, k < 4 → Arm.RND4 (R (i + 4 * k)) (V (i + 4 * k)) (i + 4 * k) = .ok (R (i + 4 * k + 4)))
    (hm : ∀ t, Arm.MSG4 (V t) (V (t + 4)) (V (t + 8)) (V (t + 12)) = V (t + 16))
    (q : Nat) (hi : i = 16 * q)
    (y0 : Y.y0 = V i) (y1 : Y.y1 = V (i + 4)) (y2 : Y.y2 = V (i + 8)) (y3 : Y.y3 = V (i + 12)) :
    Arm.mixStep (R i, Y) q = .ok (R (i + 16),
      if i = 48 then Y else ⟨V (i + 16), V (i + 20), V (i + 24), V (i + 28)⟩) := by
  have r0 := hr 0 (by omega)
  have r1 := hr 1 (by omega)
  have r2 := hr 2 (by omega)
  have r3 := hr 3 (by omega)
  have n0 := hm i
  have n1 := hm (i + 4)
  have n2 := hm (i + 8)
  have n3 := hm (i + 12)
  simp only [Nat.add_assoc, Nat.reduceAdd, Nat.reduceMul, Nat.add_zero] at r0 r1 r2 r3 n0 n1 n2 n3
  simp only [Arm.mixStep, ← hi, y0, y1, y2, y3, r0, r1, r2, r3, Res.bind_ok, Nat.add_zero, beq_iff_eq,
    n0, n1, n2, n3, Res.pure_eq]
  split <;> rfl

theorem arm_mixStep_spec (M : Nat → W32) (s : Regs) (Y : Sse2.Y4) (q : Nat) (hq : q < 4)
    (hY : Y4Ok M (16 * q) Y) :
    ∃ Y', Arm.mixStep (armPack (rounds M (16 * q) s), Y) q = .ok (armPack (rounds M (16 * (q + 1)) s), Y') ∧
      (q < 3 → Y4Ok M (16 * (q + 1)) Y') := by
  obtain ⟨y0, y1, y2, y3⟩ := hY
  have h := arm_mixStep_gen (V4w M) (fun n => armPack (rounds M n s)) Y (16 * q) (by
    intro k hk
    have := RND4_arm' M s (4 * q + k) (by omega)
    rwa [show 4 * (4 * q + k) = 16 * q + 4 * k by omega] at this) (MSG4_arm M) q rfl y0 y1 y2 y3
  refine ⟨_, by rw [Nat.mul_add 16 q 1]; exact h, fun hq3 => ?_⟩
  rw [if_neg (by omega)]
  refine ⟨?_, ?_, ?_, ?_⟩ <;> exact congrArg (V4w M) (by omega)

theorem SHA256_Transform_arm_spec (s : Regs) (block : Bytes) (hb : block.length = 64) :
    SHA256_Transform_arm s.toList block = .ok (compress s block).toList := by
  obtain ⟨x0, l0, b0⟩ := load_block block hb 0 (by omega)
  obtain ⟨x1, l1, b1⟩ := load_block block hb 1 (by omega)
  obtain ⟨x2, l2, b2⟩ := load_block block hb 2 (by omega)
  obtain ⟨x3, l3, b3⟩ := load_block block hb 3 (by omega)
  simp only [Nat.mul_zero, Nat.reduceMul] at l0 l1 l2 l3 b0 b1 b2 b3
  have ld0 : mm_loadu_words s.toList 0 = .ok (armPack s).1 := rfl
  have ld4 : mm_loadu_words s.toList 4 = .ok (armPack s).2 := rfl
  obtain ⟨⟨S, Y⟩, e, h, -⟩ := forLoop_inv (n := 4) (f := Arm.mixStep)
    (s := (armPack s, ⟨V4w (wordBE block) 0, V4w (wordBE block) 4, V4w (wordBE block) 8, V4w (wordBE block) 12⟩))
    (fun q st => st.1 = armPack (rounds (wordBE block) (16 * q) s) ∧ (q < 4 → Y4Ok (wordBE block) (16 * q) st.2))
    ⟨rfl, fun _ => ⟨rfl, rfl, rfl, rfl⟩⟩ (by
      rintro q ⟨S, Y⟩ hq ⟨h1, h2⟩
      obtain ⟨Y', e, h⟩ := arm_mixStep_spec (wordBE block) s Y q hq (h2 hq)
      dsimp only at h1
      exact ⟨_, by rw [h1, e], rfl, fun hh => h (by omega)⟩)
  dsimp only at h
  subst h
  simp only [SHA256_Transform_arm, l0, l1, l2, l3, bswap_arm, b0, b1, b2, b3, Res.bind_ok, ld0, ld4, e]
  simp [armPack, vaddq_u32, V4.zip, mm_storeu_words, wr, Regs.toList, compress, Regs.add, BitVec.add_comm]

end Scrypt
