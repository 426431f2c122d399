import Verif.Proofs.EncSetup
/-
The copying loops of scryptenc_file and scryptdec_file_copy.
-/
namespace Scrypt
open Spec

/-! ### Files -/

/-- `n` more bytes can be written. -/
def Fits (f : OutFile) (n : Nat) : Prop := ∀ k, f.room = some k → n ≤ k

theorem fwrite_lt (f : OutFile) (x : Bytes) : (fwrite f x).1 < x.length ↔ ¬ Fits f x.length := by
  unfold fwrite Fits
  cases f.room with
  | none => simp
  | some k =>
    simp only [Option.some.injEq, forall_eq']
    split_ifs with h
    · simp [h]
    · simp

theorem fwrite_fits {f : OutFile} {x : Bytes} (h : Fits f x.length) :
    (fwrite f x).2.written = f.written ++ x := by
  unfold fwrite
  unfold Fits at h
  cases hr : f.room with
  | none => rfl
  | some k =>
    simp only []
    rw [if_pos (h k hr)]

theorem fits_append {f : OutFile} {a : Bytes} (h : Fits f a.length) (n : Nat) :
    Fits (fwrite f a).2 n ↔ Fits f (a.length + n) := by
  unfold fwrite
  unfold Fits at *
  cases hr : f.room with
  | none => simp
  | some k =>
    have := h k hr
    simp only []
    rw [if_pos this]
    simp only [Option.some.injEq, forall_eq']
    omega

theorem fwrite_seq {f : OutFile} {a : Bytes} (h : Fits f a.length) (b : Bytes) :
    (fwrite (fwrite f a).2 b).2 = (fwrite f (a ++ b)).2 := by
  unfold fwrite
  unfold Fits at h
  cases hr : f.room with
  | none => simp
  | some k =>
    have := h k hr
    simp only []
    rw [if_pos this]
    simp only [List.length_append]
    by_cases h2 : a.length + b.length ≤ k
    · rw [if_pos (by omega), if_pos h2]
      simp [Nat.sub_sub]
    · rw [if_neg (by omega), if_neg h2]
      simp [List.take_append, List.take_of_length_le this]

theorem fwrite_short {f : OutFile} {a : Bytes} (h : ¬ Fits f a.length) (b : Bytes) :
    (fwrite f (a ++ b)).2 = (fwrite f a).2 := by
  unfold fwrite
  unfold Fits at h
  cases hr : f.room with
  | none => exact absurd (fun k hk => by simp [hr] at hk) h
  | some k =>
    rw [hr] at h
    simp only [Option.some.injEq, forall_eq'] at h
    simp only [List.length_append]
    rw [if_neg (by omega), if_neg h, List.take_append_of_le_length (by omega)]

theorem not_fits_mono {f : OutFile} {n m : Nat} (h : ¬ Fits f n) (hm : n ≤ m) : ¬ Fits f m :=
  fun h' => h fun k hk => hm.trans (h' k hk)

theorem fwrite_nil (f : OutFile) : (fwrite f []).2 = f := by
  unfold fwrite
  cases f with
  | mk w r => cases r <;> simp

/-- Whatever happens, the file grows by a prefix of the data. -/
theorem fwrite_prefix (f : OutFile) (x : Bytes) : ∃ n, (fwrite f x).2.written = f.written ++ x.take n := by
  unfold fwrite
  cases f.room with
  | none => exact ⟨x.length, by simp⟩
  | some k =>
    simp only []
    split_ifs with h
    · exact ⟨x.length, by simp⟩
    · exact ⟨k, rfl⟩

theorem freadSome_spec (n : Nat) (hn : 0 < n) (segs : List Bytes) :
    segs.flatten = (freadSome n segs).1 ++ (freadSome n segs).2.flatten ∧ (freadSome n segs).1.length ≤ n ∧
      ((freadSome n segs).1 = [] → segs.flatten = [] ∧ (freadSome n segs).2 = []) := by
  induction segs with
  | nil => simp [freadSome]
  | cons s t ih =>
    rw [freadSome]
    by_cases h : s = []
    · subst h; rw [if_pos rfl]; simpa using ih
    · rw [if_neg h]
      by_cases h2 : s.length ≤ n
      · rw [if_pos h2]
        exact ⟨by simp, h2, fun h' => absurd h' h⟩
      · rw [if_neg h2]
        refine ⟨by simp [← List.append_assoc], by simp, fun h' => ?_⟩
        have : (s.take n).length = 0 := by rw [show s.take n = [] from h']; rfl
        rw [List.length_take] at this
        omega

/-! ### Encryption loop -/

theorem encLoop_ok {sys : EncSys} (g : sys.Good) (dk K : Bytes) (fuel : Nat) :
    ∀ (s : CtrStream) (pos : Nat) (hctx : HMAC_SHA256_CTX) (msg buf : Bytes) (inf : List Bytes) (outf : OutFile),
      CtrReady sys dk s pos → HRepr hctx K msg → buf.length = ENCBLOCK → inf.flatten.length < fuel →
      pos + inf.flatten.length < 2 ^ 64 →
      ∃ l, encLoop sys fuel s hctx buf inf outf = .ok l ∧
        l.outf = (fwrite outf (Spec.ctr (Spec.aes (keyEnc dk)) 0 pos inf.flatten)).2 ∧
        (l.wfail = true ↔ ¬ Fits outf inf.flatten.length) ∧
        (l.wfail = false → HRepr l.hctx K (msg ++ Spec.ctr (Spec.aes (keyEnc dk)) 0 pos inf.flatten) ∧ l.inf = []) := by
  induction fuel with
  | zero => intros; omega
  | succ fuel ih =>
    intro s pos hctx msg buf inf outf hs hh hb hf hp
    obtain ⟨f1, f2, f3⟩ := freadSome_spec ENCBLOCK (by unfold ENCBLOCK; omega) inf
    unfold encLoop
    generalize hd : (freadSome ENCBLOCK inf).1 = d at *
    generalize hr : (freadSome ENCBLOCK inf).2 = rest at *
    have hpair : freadSome ENCBLOCK inf = (d, rest) := by rw [← hd, ← hr]
    rw [hpair]
    simp only []
    by_cases h0 : d = []
    · rw [if_pos h0]
      obtain ⟨h1, h2⟩ := f3 h0
      refine ⟨_, rfl, ?_, ?_, ?_⟩
      · rw [h1]
        simp only [ctr_nil]
        exact (fwrite_nil outf).symm
      · simp only [Bool.false_eq_true, false_iff, not_not]
        intro k _; rw [h1]; simp
      · intro _
        rw [h1, ctr_nil, List.append_nil]
        exact ⟨hh, h2⟩
    · rw [if_neg h0]
      have hdl : 0 < d.length := List.length_pos_of_ne_nil h0
      have hlen : inf.flatten.length = d.length + rest.flatten.length := by rw [f1, List.length_append]
      rw [wrSlice_ok (by omega), Res.bind_ok, List.take_zero, List.nil_append, Nat.zero_add,
        rdSlice_ok (by simp), Res.bind_ok, List.drop_zero, List.take_append_of_le_length le_rfl, List.take_length]
      obtain ⟨s', es, hs'⟩ := hs.stream (sys.xmm fuel) d d.length rfl (by omega)
      rw [es, Res.bind_ok]
      simp only []
      generalize hc : Spec.ctr (Spec.aes (keyEnc dk)) 0 pos d = c
      have hcl : c.length = d.length := by rw [← hc]; exact ctr_length _ _ _ _
      have hbl : (d ++ List.drop d.length buf).length = ENCBLOCK := by simp; omega
      rw [wrSlice_ok (by omega), Res.bind_ok, List.take_zero, List.nil_append, Nat.zero_add,
        rdSlice_ok (by simp; omega), Res.bind_ok, List.drop_zero, List.take_append_of_le_length (by omega), List.take_of_length_le (by omega)]
      obtain ⟨h1, e1, r1⟩ := HMAC_SHA256_Update_spec sys.tf g.tf _ _ _ c hh
      rw [e1, Res.bind_ok]
      have hsplit : Spec.ctr (Spec.aes (keyEnc dk)) 0 pos inf.flatten =
          c ++ Spec.ctr (Spec.aes (keyEnc dk)) 0 (pos + d.length) rest.flatten := by
        rw [f1, ctr_append, hc]
      rw [hsplit]
      by_cases hfit : Fits outf c.length
      · rw [if_neg (by rw [← hcl, fwrite_lt]; simpa using hfit)]
        obtain ⟨l, el, l1, l2, l3⟩ := ih s' (pos + d.length) h1 (msg ++ c) (c ++ List.drop c.length (d ++ List.drop d.length buf)) rest
          (fwrite outf c).2 hs' r1 (by simp; omega) (by omega) (by omega)
        refine ⟨l, el, ?_, ?_, ?_⟩
        · rw [l1, fwrite_seq hfit]
        · rw [l2, fits_append hfit, hlen, hcl]
        · intro h
          rw [← List.append_assoc]
          exact l3 h
      · rw [if_pos (by rw [← hcl, fwrite_lt]; exact hfit)]
        refine ⟨_, rfl, ?_, ?_, ?_⟩
        · rw [fwrite_short hfit]
        · simp only [true_iff]
          exact not_fits_mono hfit (by omega)
        · intro h; simp at h

/-! ### Decryption loop -/

theorem decLoop_ok {sys : EncSys} (g : sys.Good) (dk K : Bytes) (fuel : Nat) :
    ∀ (s : CtrStream) (pos : Nat) (hctx : HMAC_SHA256_CTX) (msg buf pend : Bytes) (inf : List Bytes) (outf : OutFile),
      CtrReady sys dk s pos → HRepr hctx K msg → buf.length = 65568 → pend.length ≤ 32 → buf.take pend.length = pend →
      inf.flatten.length < fuel →
      pos + inf.flatten.length + 32 < 2 ^ 64 →
      ∃ l, decLoop sys fuel s hctx buf pend.length inf outf = .ok l ∧
        l.outf = (fwrite outf (Spec.ctr (Spec.aes (keyEnc dk)) 0 pos ((pend ++ inf.flatten).take ((pend ++ inf.flatten).length - 32)))).2 ∧
        (l.wfail = true ↔ ¬ Fits outf ((pend ++ inf.flatten).length - 32)) ∧
        (l.wfail = false → HRepr l.hctx K (msg ++ (pend ++ inf.flatten).take ((pend ++ inf.flatten).length - 32)) ∧ l.inf = [] ∧
          l.buflen = min 32 (pend ++ inf.flatten).length ∧ l.buf.length = 65568 ∧
          l.buf.take l.buflen = (pend ++ inf.flatten).drop ((pend ++ inf.flatten).length - 32)) := by
  induction fuel with
  | zero => intros; omega
  | succ fuel ih =>
    intro s pos hctx msg buf pend inf outf hs hh hb hpl hpb hf hp
    have hn : 0 < ENCBLOCK + 32 - pend.length := by unfold ENCBLOCK; omega
    obtain ⟨f1, f2, f3⟩ := freadSome_spec (ENCBLOCK + 32 - pend.length) hn inf
    unfold decLoop
    generalize hd : (freadSome (ENCBLOCK + 32 - pend.length) inf).1 = d at *
    generalize hr : (freadSome (ENCBLOCK + 32 - pend.length) inf).2 = rest at *
    have hpair : freadSome (ENCBLOCK + 32 - pend.length) inf = (d, rest) := by rw [← hd, ← hr]
    rw [hpair]
    simp only []
    by_cases h0 : d = []
    · rw [if_pos h0]
      obtain ⟨h1, h2⟩ := f3 h0
      refine ⟨_, rfl, ?_, ?_, ?_⟩
      · rw [h1, List.append_nil, show pend.length - 32 = 0 by omega, List.take_zero, ctr_nil]
        exact (fwrite_nil outf).symm
      · simp only [Bool.false_eq_true, false_iff, not_not]
        intro k _; rw [h1, List.append_nil]; omega
      · intro _
        rw [h1, List.append_nil, show pend.length - 32 = 0 by omega, List.take_zero, List.append_nil, List.drop_zero]
        exact ⟨hh, h2, (Nat.min_eq_right hpl).symm, hb, hpb⟩
    · rw [if_neg h0]
      have hdl : 0 < d.length := List.length_pos_of_ne_nil h0
      have hlen : inf.flatten.length = d.length + rest.flatten.length := by rw [f1, List.length_append]
      have hfl : pend ++ inf.flatten = (pend ++ d) ++ rest.flatten := by rw [f1, List.append_assoc]
      have hENC : ENCBLOCK = 65536 := rfl
      have hbuf : buf = pend ++ buf.drop pend.length := by
        conv_lhs => rw [← List.take_append_drop pend.length buf, hpb]
      have hw : wrSlice buf pend.length d = .ok (pend ++ d ++ (buf.drop pend.length).drop d.length) := by
        conv_lhs => rw [hbuf]
        exact wrSlice_append _ _ _ _ rfl (by simp; omega)
      rw [hw, Res.bind_ok]
      generalize hX : (buf.drop pend.length).drop d.length = tl
      have htl : tl.length = 65568 - (pend.length + d.length) := by rw [← hX]; simp; omega
      by_cases h32 : pend.length + d.length ≤ 32
      · rw [if_pos h32]
        obtain ⟨l, el, l1, l2, l3⟩ := ih s pos hctx msg (pend ++ d ++ tl) (pend ++ d) rest outf hs hh (by simp; omega) (by simp; omega)
          (by rw [List.take_append_of_le_length le_rfl, List.take_length]) (by omega) (by omega)
        rw [List.length_append] at el
        rw [hfl]
        exact ⟨l, el, l1, l2, l3⟩
      · rw [if_neg h32]
        obtain ⟨a, t, hat, htl32⟩ : ∃ a t, pend ++ d = a ++ t ∧ t.length = 32 :=
          ⟨(pend ++ d).take (pend.length + d.length - 32), (pend ++ d).drop (pend.length + d.length - 32), by simp, by simp; omega⟩
        have hal : a.length = pend.length + d.length - 32 := by
          have := congrArg List.length hat
          simp only [List.length_append] at this
          omega
        rw [hat, ← hal, List.append_assoc]
        have hrd : rdSlice (a ++ (t ++ tl)) 0 a.length = .ok a := by
          rw [rdSlice_ok (by simp), List.drop_zero, List.take_append_of_le_length le_rfl, List.take_length]
        rw [hrd, Res.bind_ok]
        obtain ⟨h1, e1, r1⟩ := HMAC_SHA256_Update_spec sys.tf g.tf _ _ _ a hh
        rw [e1, Res.bind_ok]
        obtain ⟨s', es, hs'⟩ := hs.stream (sys.xmm fuel) a a.length rfl (by omega)
        rw [es, Res.bind_ok]
        simp only []
        generalize hc : Spec.ctr (Spec.aes (keyEnc dk)) 0 pos a = c
        have hcl : c.length = a.length := by rw [← hc]; exact ctr_length _ _ _ _
        have hw2 : wrSlice (a ++ (t ++ tl)) 0 c = .ok (c ++ (t ++ tl)) := by
          rw [wrSlice_ok (by simp; omega), List.take_zero, List.nil_append, Nat.zero_add, hcl, List.drop_append_of_le_length le_rfl, List.drop_length, List.nil_append]
        rw [hw2, Res.bind_ok]
        have hrd2 : rdSlice (c ++ (t ++ tl)) 0 a.length = .ok c := by
          rw [← hcl, rdSlice_ok (by simp), List.drop_zero, List.take_append_of_le_length le_rfl, List.take_length]
        rw [hrd2, Res.bind_ok]
        have hTl : (pend ++ inf.flatten).length - 32 = a.length + rest.flatten.length := by
          rw [hfl, List.length_append, List.length_append]; omega
        have htk : (pend ++ inf.flatten).take ((pend ++ inf.flatten).length - 32) =
            a ++ (t ++ rest.flatten).take ((t ++ rest.flatten).length - 32) := by
          rw [hTl, hfl, hat, List.append_assoc, List.take_append, List.take_of_length_le (by omega), List.length_append]
          congr 2; omega
        have hdr : (pend ++ inf.flatten).drop ((pend ++ inf.flatten).length - 32) =
            (t ++ rest.flatten).drop ((t ++ rest.flatten).length - 32) := by
          rw [hTl, hfl, hat, List.append_assoc, List.drop_append, List.drop_eq_nil_of_le (by omega), List.nil_append, List.length_append]
          congr 1; omega
        rw [htk, hdr, ctr_append, hc]
        by_cases hfit : Fits outf c.length
        · rw [if_neg (by rw [← hcl, fwrite_lt]; simpa using hfit)]
          have hrd3 : rdSlice (c ++ (t ++ tl)) a.length 32 = .ok t := by
            rw [← List.append_assoc]
            exact rdSlice_append c t a.length 32 tl hcl htl32
          rw [hrd3, Res.bind_ok, wrSlice_ok (by simp; omega), Res.bind_ok, List.take_zero, List.nil_append]
          obtain ⟨l, el, l1, l2, l3⟩ := ih s' (pos + a.length) h1 (msg ++ a) (t ++ List.drop (0 + t.length) (c ++ (t ++ tl))) t rest
            (fwrite outf c).2 hs' r1 (by simp; omega) (by omega) (by rw [List.take_append_of_le_length le_rfl, List.take_length]) (by omega) (by omega)
          rw [htl32] at el
          refine ⟨l, by rw [htl32]; exact el, ?_, ?_, ?_⟩
          · rw [l1, fwrite_seq hfit]
          · rw [l2, fits_append hfit, hTl, hcl, List.length_append, show a.length + (t.length + rest.flatten.length - 32) = a.length + rest.flatten.length by omega]
          · intro h
            obtain ⟨m1, m2, m3, m4, m5⟩ := l3 h
            rw [← List.append_assoc]
            refine ⟨m1, m2, ?_, m4, m5⟩
            rw [m3, hfl, List.length_append, List.length_append, List.length_append]
            omega
        · rw [if_pos (by rw [← hcl, fwrite_lt]; exact hfit)]
          refine ⟨_, rfl, ?_, ?_, ?_⟩
          · rw [fwrite_short hfit]
          · simp only [true_iff]
            exact not_fits_mono hfit (by omega)
          · intro h; simp at h

end Scrypt
