import Verif.Proofs.EncStream
import Verif.Proofs.AccessOps
/-
How far the file functions read, and how far reading is ahead of writing.
-/
namespace Scrypt
open Spec

theorem fwrite_grow (f : OutFile) (x : Bytes) :
    f.written.length ≤ (fwrite f x).2.written.length ∧ (fwrite f x).2.written.length ≤ f.written.length + x.length ∧
      (¬ (fwrite f x).1 < x.length → (fwrite f x).2.written.length = f.written.length + x.length) := by
  unfold fwrite
  cases f.room with
  | none => simp
  | some k =>
    dsimp only
    by_cases h : x.length ≤ k
    · rw [if_pos h]; simp
    · rw [if_neg h]
      simp only [List.length_append, List.length_take]
      refine ⟨by omega, by omega, fun h' => by omega⟩

theorem encLoop_taken (sys : EncSys) (fuel : Nat) : ∀ (s : CtrStream) (hctx : HMAC_SHA256_CTX) (buf : Bytes) (inf : List Bytes) (outf : OutFile)
    (l : LoopEnd), encLoop sys fuel s hctx buf inf outf = .ok l →
    (∃ n, n ≤ inf.flatten.length ∧ l.inf.flatten = inf.flatten.drop n ∧ outf.written.length ≤ l.outf.written.length ∧
      n ≤ l.outf.written.length - outf.written.length + ENCBLOCK ∧ l.outf.written.length ≤ outf.written.length + n ∧
      (l.wfail = false → l.outf.written.length = outf.written.length + n)) ∧
    (l.wfail = false → l.inf.flatten = []) := by
  induction fuel with
  | zero => intro s hctx buf inf outf l h; cases h
  | succ fuel ih =>
    intro s hctx buf inf outf l h
    obtain ⟨f1, f2, f3⟩ := freadSome_spec ENCBLOCK (by unfold ENCBLOCK; omega) inf
    unfold encLoop at h
    generalize hd : (freadSome ENCBLOCK inf).1 = d at *
    generalize hr : (freadSome ENCBLOCK inf).2 = rest at *
    have hpair : freadSome ENCBLOCK inf = (d, rest) := by rw [← hd, ← hr]
    rw [hpair] at h
    simp only [] at h
    by_cases h0 : d = []
    · rw [if_pos h0] at h
      cases h
      obtain ⟨h1, h2⟩ := f3 h0
      refine ⟨⟨0, Nat.zero_le _, ?_, le_rfl, Nat.zero_le _, le_rfl, fun _ => rfl⟩, fun _ => ?_⟩
      · dsimp only; rw [h1, h2]; rfl
      · dsimp only; rw [h2]; rfl
    rw [if_neg h0] at h
    obtain ⟨buf1, -, h⟩ := (Res.bind_eq_ok ..).1 h
    obtain ⟨x, -, h⟩ := (Res.bind_eq_ok ..).1 h
    obtain ⟨⟨s1, c⟩, -, h⟩ := (Res.bind_eq_ok ..).1 h
    dsimp only at h
    obtain ⟨buf2, -, h⟩ := (Res.bind_eq_ok ..).1 h
    obtain ⟨y, hy, h⟩ := (Res.bind_eq_ok ..).1 h
    obtain ⟨hctx1, -, h⟩ := (Res.bind_eq_ok ..).1 h
    have yl := rdSlice_length hy
    obtain ⟨w1, w2, w3⟩ := fwrite_grow outf y
    generalize hk : (fwrite outf y).1 = k at *
    generalize hu : (fwrite outf y).2 = u at *
    have hfl : inf.flatten.length = d.length + rest.flatten.length := by rw [f1, List.length_append]
    by_cases hkd : k < d.length
    · rw [if_pos hkd] at h
      cases h
      refine ⟨⟨d.length, by omega, ?_, w1, by dsimp only; omega, by dsimp only; omega, fun h => by cases h⟩, fun h => by cases h⟩
      dsimp only; rw [f1, List.drop_left]
    · rw [if_neg hkd] at h
      have := w3 (by rw [yl]; exact hkd)
      obtain ⟨⟨n, n1, n2, n3, n4, n5, n6⟩, hall⟩ := ih _ _ _ _ _ _ h
      refine ⟨⟨d.length + n, by omega, ?_, by omega, by omega, by omega, fun h => by have := n6 h; omega⟩, hall⟩
      have hdrop : inf.flatten.drop (d.length + n) = rest.flatten.drop n := by
        rw [f1, List.drop_append, List.drop_of_length_le (by omega), List.nil_append, Nat.add_sub_cancel_left]
      rw [n2, hdrop]

/-- `b`: the bytes held back when the loop begins. -/
theorem decLoop_taken (sys : EncSys) (fuel : Nat) : ∀ (s : CtrStream) (hctx : HMAC_SHA256_CTX) (buf : Bytes) (b : Nat) (inf : List Bytes) (outf : OutFile)
    (l : LoopEnd), b ≤ 32 → decLoop sys fuel s hctx buf b inf outf = .ok l →
    (∃ n, n ≤ inf.flatten.length ∧ l.inf.flatten = inf.flatten.drop n ∧ outf.written.length ≤ l.outf.written.length ∧
      n + b ≤ l.outf.written.length - outf.written.length + 32 + ENCBLOCK ∧
      (l.outf.written.length = outf.written.length ∨ l.outf.written.length + 32 ≤ outf.written.length + n + b)) ∧
    (l.wfail = false → l.inf.flatten = []) := by
  induction fuel with
  | zero => intro s hctx buf b inf outf l hb h; cases h
  | succ fuel ih =>
    intro s hctx buf b inf outf l hb h
    obtain ⟨f1, f2, f3⟩ := freadSome_spec (ENCBLOCK + 32 - b) (by unfold ENCBLOCK; omega) inf
    unfold decLoop at h
    generalize hd : (freadSome (ENCBLOCK + 32 - b) inf).1 = d at *
    generalize hr : (freadSome (ENCBLOCK + 32 - b) inf).2 = rest at *
    have hpair : freadSome (ENCBLOCK + 32 - b) inf = (d, rest) := by rw [← hd, ← hr]
    rw [hpair] at h
    simp only [] at h
    have hfl : inf.flatten.length = d.length + rest.flatten.length := by rw [f1, List.length_append]
    have hdrop : ∀ n, inf.flatten.drop (d.length + n) = rest.flatten.drop n := fun n => by
      rw [f1, List.drop_append, List.drop_of_length_le (by omega), List.nil_append, Nat.add_sub_cancel_left]
    by_cases h0 : d = []
    · rw [if_pos h0] at h
      cases h
      obtain ⟨h1, h2⟩ := f3 h0
      refine ⟨⟨0, Nat.zero_le _, ?_, le_rfl, by omega, .inl rfl⟩, fun _ => ?_⟩
      · dsimp only; rw [h1, h2]; rfl
      · dsimp only; rw [h2]; rfl
    rw [if_neg h0] at h
    obtain ⟨buf1, -, h⟩ := (Res.bind_eq_ok ..).1 h
    by_cases h32 : b + d.length ≤ 32
    · rw [if_pos h32] at h
      obtain ⟨⟨n, n1, n2, n3, n4, n5⟩, hall⟩ := ih _ _ _ _ _ _ _ h32 h
      exact ⟨⟨d.length + n, by omega, by rw [n2, hdrop], n3, by omega, by omega⟩, hall⟩
    rw [if_neg h32] at h
    obtain ⟨x, -, h⟩ := (Res.bind_eq_ok ..).1 h
    obtain ⟨hctx1, -, h⟩ := (Res.bind_eq_ok ..).1 h
    obtain ⟨⟨s1, c⟩, -, h⟩ := (Res.bind_eq_ok ..).1 h
    dsimp only at h
    obtain ⟨buf2, -, h⟩ := (Res.bind_eq_ok ..).1 h
    obtain ⟨y, hy, h⟩ := (Res.bind_eq_ok ..).1 h
    have yl := rdSlice_length hy
    obtain ⟨w1, w2, w3⟩ := fwrite_grow outf y
    generalize hk : (fwrite outf y).1 = k at *
    generalize hu : (fwrite outf y).2 = u at *
    by_cases hkd : k < b + d.length - 32
    · rw [if_pos hkd] at h
      cases h
      refine ⟨⟨d.length, by omega, ?_, w1, by dsimp only; omega, by dsimp only; omega⟩, fun h => by cases h⟩
      dsimp only; rw [f1, List.drop_left]
    · rw [if_neg hkd] at h
      obtain ⟨t, -, h⟩ := (Res.bind_eq_ok ..).1 h
      obtain ⟨buf3, -, h⟩ := (Res.bind_eq_ok ..).1 h
      have := w3 (by rw [yl]; exact hkd)
      obtain ⟨⟨n, n1, n2, n3, n4, n5⟩, hall⟩ := ih _ _ _ _ _ _ _ (le_refl 32) h
      exact ⟨⟨d.length + n, by omega, by rw [n2, hdrop], by omega, by omega, by omega⟩, hall⟩

end Scrypt
