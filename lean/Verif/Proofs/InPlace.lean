import Verif.Model.InPlace
import Verif.Proofs.EncStream
import Verif.Proofs.AccessOps
/-
Both streams over one file: the program sees exactly what had been read ahead (decryption), or nothing (encryption).
-/
namespace Scrypt
open Spec

/-- The system with the register contents of later steps. -/
abbrev EncSys.shift (sys : EncSys) (e : Nat) : EncSys := { sys with xmm := fun i => sys.xmm (i + e) }

theorem EncSys.Good.shift {sys : EncSys} (g : sys.Good) (e : Nat) : (sys.shift e).Good :=
  ⟨g.sz, g.perf, g.kdf, g.junkSha, g.junkHmac, g.junkHmac2, g.ossl, g.aesMem, g.ctr, g.salt, g.dk0, g.header0, g.iobuf⟩

theorem fwrite_written_le (f : OutFile) (x : Bytes) : (fwrite f x).2.written.length ≤ f.written.length + x.length := by
  unfold fwrite
  cases f.room with
  | none => simp
  | some k =>
    simp only
    by_cases h : x.length ≤ k
    · rw [if_pos h]; simp
    · rw [if_neg h]; simp

/-- While the output lags behind the input, reading the file gives nothing new. -/
theorem freadS_lag {n ask : Nat} {w : OneFile} {outf : OutFile} (h : outf.written.length ≤ w.ipos) :
    (freadS n ask w outf).1 = w.ibuf.take n ∧ (freadS n ask w outf).2.ibuf = w.ibuf.drop n ∧ (freadS n ask w outf).2.ipos = w.ipos := by
  unfold freadS
  by_cases hb : w.ibuf = []
  · rw [if_pos hb]
    have e : (outf.written.take w.flushed).drop w.ipos = [] := List.drop_of_length_le (by rw [List.length_take]; omega)
    simp only [e, hb, List.take_nil, List.drop_nil, List.length_nil, Nat.add_zero, and_self]
  · rw [if_neg hb]
    exact ⟨rfl, rfl, rfl⟩

theorem freadSome_one (n : Nat) (hn : 0 < n) (segs : List Bytes) (h1 : segs.length ≤ 1) :
    (freadSome n segs).1 = segs.flatten.take n ∧ (freadSome n segs).2.flatten = segs.flatten.drop n ∧ (freadSome n segs).2.length ≤ 1 := by
  match segs, h1 with
  | [], _ => simp [freadSome]
  | [s], _ =>
    rw [freadSome]
    by_cases h : s = []
    · subst h; simp [freadSome]
    · rw [if_neg h]
      by_cases h2 : s.length ≤ n
      · rw [if_pos h2]; simp [List.take_of_length_le h2, List.drop_of_length_le h2]
      · rw [if_neg h2]; simp

theorem flushS_pos (B k : Nat) (w : OneFile) (outf : OutFile) : (flushS B k w outf).ibuf = w.ibuf ∧ (flushS B k w outf).ipos = w.ipos := by
  unfold flushS
  by_cases h : outf.written.length ≤ w.flushed + B
  · rw [if_pos h]; exact ⟨rfl, rfl⟩
  · rw [if_neg h]; exact ⟨rfl, rfl⟩

/-- The decryption loop over one file is the loop over what had been read ahead. -/
theorem decLoopS_sim (sys : EncSys) (c : Stdio) (e : Nat) (fuel : Nat) :
    ∀ (s : CtrStream) (hctx : HMAC_SHA256_CTX) (buf : Bytes) (buflen : Nat) (segs : List Bytes) (w : OneFile) (outf : OutFile) (l : LoopEnd),
      segs.flatten = w.ibuf → segs.length ≤ 1 → buflen ≤ 32 → outf.written.length + buflen + w.ibuf.length ≤ w.ipos →
      decLoop (sys.shift e) fuel s hctx buf buflen segs outf = .ok l →
      ∃ i, decLoopS sys c (fuel + e) s hctx buf buflen w outf = .ok (some { l with inf := i }) := by
  induction fuel with
  | zero => intro s hctx buf buflen segs w outf l _ _ _ _ h; cases h
  | succ fuel ih =>
    intro s hctx buf buflen segs w outf l hs h1 hb hp h
    have hn : 0 < ENCBLOCK + 32 - buflen := by unfold ENCBLOCK; omega
    obtain ⟨a1, a2, a3⟩ := freadSome_one _ hn segs h1
    obtain ⟨b1, b2, b3⟩ := freadS_lag (n := ENCBLOCK + 32 - buflen) (ask := c.ask (fuel + e)) (w := w) (outf := outf) (by omega)
    rw [show fuel + 1 + e = (fuel + e) + 1 by omega]
    unfold decLoop at h
    unfold decLoopS
    generalize freadSome (ENCBLOCK + 32 - buflen) segs = F at *
    generalize freadS (ENCBLOCK + 32 - buflen) (c.ask (fuel + e)) w outf = G at *
    obtain ⟨d, rest⟩ := F
    obtain ⟨d', w'⟩ := G
    dsimp only at a1 a2 a3 b1 b2 b3 h ⊢
    rw [hs] at a1 a2
    obtain rfl : d' = d := by rw [a1, b1]
    have hlen : d'.length + w'.ibuf.length = w.ibuf.length := by
      rw [a1, b2, ← List.length_append, List.take_append_drop]
    by_cases hd : d' = []
    · rw [if_pos hd] at h ⊢
      cases h
      exact ⟨_, rfl⟩
    · rw [if_neg hd] at h ⊢
      rw [Res.bind_eq_ok] at h
      obtain ⟨buf1, e1, h⟩ := h
      rw [e1, Res.bind_ok]
      by_cases h32 : buflen + d'.length ≤ 32
      · rw [if_pos h32] at h ⊢
        exact ih _ _ _ _ _ _ _ _ (by rw [a2, b2]) a3 h32 (by rw [b3]; omega) h
      · rw [if_neg h32] at h ⊢
        rw [Res.bind_eq_ok] at h
        obtain ⟨x, e2, h⟩ := h
        rw [e2, Res.bind_ok]
        rw [Res.bind_eq_ok] at h
        obtain ⟨hc, e3, h⟩ := h
        rw [show sys.tf = (sys.shift e).tf from rfl, e3, Res.bind_ok]
        rw [Res.bind_eq_ok] at h
        obtain ⟨⟨s2, ct⟩, e4, h⟩ := h
        rw [show crypto_aesctr_stream sys.aesHw sys.ossl (sys.xmm (fuel + e)) s x (buflen + d'.length - 32) = .ok (s2, ct) from e4, Res.bind_ok]
        dsimp only at h ⊢
        rw [Res.bind_eq_ok] at h
        obtain ⟨buf2, e5, h⟩ := h
        rw [e5, Res.bind_ok]
        rw [Res.bind_eq_ok] at h
        obtain ⟨y, e6, h⟩ := h
        rw [e6, Res.bind_ok]
        have hy : y.length = buflen + d'.length - 32 := rdSlice_length e6
        have hw := fwrite_written_le outf y
        generalize fwrite outf y = W at *
        obtain ⟨k, outf'⟩ := W
        dsimp only at h hw ⊢
        by_cases hk : k < buflen + d'.length - 32
        · rw [if_pos hk] at h ⊢
          cases h
          exact ⟨_, rfl⟩
        · rw [if_neg hk] at h ⊢
          rw [Res.bind_eq_ok] at h
          obtain ⟨t, e7, h⟩ := h
          rw [e7, Res.bind_ok]
          rw [Res.bind_eq_ok] at h
          obtain ⟨buf3, e8, h⟩ := h
          rw [e8, Res.bind_ok]
          obtain ⟨f1, f2⟩ := flushS_pos c.B (c.flush (fuel + e)) w' outf'
          exact ih _ _ _ _ _ _ _ _ (by rw [a2, f1, b2]) a3 (by omega) (by rw [f1, f2, b3]; omega) h

/-- scryptdec_file_copy over one file is scryptdec_file_copy of what had been read ahead. -/
theorem decCopyS_sim {sys : EncSys} (g : sys.Good) (c : Stdio) (w : OneFile) (header dk : Bytes) (outf : OutFile) (hh : header.length = 96)
    (hdk : dk.length = 64) (hD : w.ibuf.length + 96 < 2 ^ 64) (hp : outf.written.length + w.ibuf.length ≤ w.ipos) (hst : w.ibuf.length < c.steps) :
    ∃ e o o', scryptdec_file_copy (sys.shift e) ⟨⟨[w.ibuf], false⟩, header, dk⟩ outf = .ok o ∧ scryptdec_file_copyS sys c w header dk outf = .ok (some o') ∧
      o'.rc = o.rc ∧ o'.outf = o.outf ∧ o'.tr = o.tr := by
  have hib : (⟨[w.ibuf], false⟩ : InFile).data.length = w.ibuf.length := by simp [InFile.data]
  obtain ⟨o, ho, -⟩ := decCopy_ok (g.shift (c.steps - (w.ibuf.length + 1))) ⟨⟨[w.ibuf], false⟩, header, dk⟩ outf hh hdk (by rw [hib]; exact hD)
  refine ⟨c.steps - (w.ibuf.length + 1), o, ?_⟩
  generalize he : c.steps - (w.ibuf.length + 1) = e at *
  have ho' := ho
  unfold scryptdec_file_copy at ho
  unfold scryptdec_file_copyS
  rw [Res.bind_eq_ok] at ho
  obtain ⟨k, e1, ho⟩ := ho
  rw [e1, Res.bind_ok]
  rw [Res.bind_eq_ok] at ho
  obtain ⟨h1, e2, ho⟩ := ho
  rw [show HMAC_SHA256_Init sys.tf sys.junkHmac2 k = .ok h1 from e2, Res.bind_ok]
  rw [Res.bind_eq_ok] at ho
  obtain ⟨h, e3, ho⟩ := ho
  rw [show rdSlice header 0 96 = .ok h from e3, Res.bind_ok]
  rw [Res.bind_eq_ok] at ho
  obtain ⟨h2, e4, ho⟩ := ho
  rw [show HMAC_SHA256_Update sys.tf h1 h = .ok h2 from e4, Res.bind_ok]
  rw [Res.bind_eq_ok] at ho
  obtain ⟨a, e5, ho⟩ := ho
  rw [show aesOpen sys dk = .ok a from e5, Res.bind_ok]
  cases ha : a.1.2 with
  | none =>
    rw [ha] at ho
    dsimp only at ho ⊢
    cases ho
    exact ⟨_, ho', rfl, rfl, rfl, rfl⟩
  | some st =>
    rw [ha] at ho
    dsimp only at ho ⊢
    rw [Res.bind_eq_ok] at ho
    obtain ⟨l, e6, ho⟩ := ho
    obtain ⟨i, hi⟩ := decLoopS_sim sys c e _ st h2 sys.iobuf 0 [w.ibuf] w outf l (by simp) (by simp) (by omega) (by omega) e6
    rw [show c.steps = (⟨[w.ibuf], false⟩ : InFile).data.length + 1 + e by rw [hib]; omega, hi, Res.bind_ok]
    dsimp only
    unfold decFileEnd at ho ⊢
    by_cases hw : l.wfail = true
    · rw [if_pos hw] at ho
      dsimp only at ho ⊢
      rw [if_pos hw, Res.bind_ok]
      cases ho
      exact ⟨_, ho', rfl, rfl, rfl, rfl⟩
    · rw [if_neg hw] at ho
      dsimp only at ho ⊢
      rw [if_neg hw]
      simp only [Bool.false_eq_true, if_false] at ho ⊢
      by_cases hb : l.buflen < 32
      · rw [if_pos hb] at ho ⊢
        rw [Res.bind_ok]
        cases ho
        exact ⟨_, ho', rfl, rfl, rfl, rfl⟩
      · rw [if_neg hb] at ho ⊢
        rw [Res.bind_eq_ok] at ho
        obtain ⟨t, e7, ho⟩ := ho
        rw [Res.bind_eq_ok] at ho
        obtain ⟨v, e8, ho⟩ := ho
        rw [show HMAC_SHA256_Final sys.tf l.hctx = .ok t from e7, Res.bind_ok, e8, Res.bind_ok, Res.bind_ok]
        cases ho
        exact ⟨_, ho', rfl, rfl, rfl, rfl⟩

/-- As long as the header stays in the output buffer, the encryption loop reads nothing. -/
theorem encLoopS_empty (sys : EncSys) (c : Stdio) (s : CtrStream) (hctx : HMAC_SHA256_CTX) (buf : Bytes) (w : OneFile) (outf : OutFile) (n : Nat)
    (hi : w.ibuf = []) (hf : w.flushed ≤ w.ipos) : encLoopS sys c (n + 1) s hctx buf w outf = .ok (some ⟨false, hctx, buf, 0, [[]], outf⟩) := by
  have e : (outf.written.take w.flushed).drop w.ipos = [] := List.drop_of_length_le (by rw [List.length_take]; omega)
  have hr : freadS ENCBLOCK (c.ask n) w outf = ([], ⟨w.ipos, [], w.flushed⟩) := by
    unfold freadS
    rw [if_pos hi, e]
    simp
  unfold encLoopS
  rw [hr]
  exact if_pos rfl

/-- scryptenc_file over one file is scryptenc_file of nothing. -/
theorem encFileS_sim (sys : EncSys) (c : Stdio) (hB : 96 ≤ c.B) (hst : 0 < c.steps) (outf : OutFile) (ho : outf.written = []) (passwd : Bytes) (P : EncParams)
    (verbose force : Bool) (o : FileOut) (h : scryptenc_file sys ⟨[], false⟩ outf passwd P verbose force = .ok o) :
    ∃ i, scryptenc_fileS sys c ⟨0, [], 0⟩ outf passwd P verbose force = .ok (some { o with inf := i }) := by
  unfold scryptenc_file at h
  unfold scryptenc_fileS
  rw [Res.bind_eq_ok] at h
  obtain ⟨u, e1, h⟩ := h
  rw [e1, Res.bind_ok]
  rw [Res.bind_eq_ok] at h
  obtain ⟨s, e2, h⟩ := h
  rw [e2, Res.bind_ok]
  by_cases hs : s.rc = .OK
  case neg =>
    rw [if_pos hs] at h ⊢
    cases h
    exact ⟨_, rfl⟩
  rw [if_neg (not_not.2 hs)] at h ⊢
  unfold encFileBody at h
  unfold encFileBodyS
  rw [Res.bind_eq_ok] at h
  obtain ⟨k, e3, h⟩ := h
  rw [e3, Res.bind_ok]
  rw [Res.bind_eq_ok] at h
  obtain ⟨h1, e4, h⟩ := h
  rw [e4, Res.bind_ok]
  rw [Res.bind_eq_ok] at h
  obtain ⟨hd, e5, h⟩ := h
  rw [e5, Res.bind_ok]
  rw [Res.bind_eq_ok] at h
  obtain ⟨h2, e6, h⟩ := h
  rw [e6, Res.bind_ok]
  have hl : hd.length = 96 := rdSlice_length e5
  have hw := fwrite_written_le outf hd
  generalize fwrite outf hd = W at *
  obtain ⟨n, outf'⟩ := W
  dsimp only at h hw ⊢
  by_cases hn : n < 96
  · rw [if_pos hn] at h ⊢
    cases h
    exact ⟨_, rfl⟩
  rw [if_neg hn] at h ⊢
  rw [Res.bind_eq_ok] at h
  obtain ⟨a, e7, h⟩ := h
  rw [e7, Res.bind_ok]
  cases ha : a.1.2 with
  | none =>
    rw [ha] at h
    dsimp only at h ⊢
    cases h
    exact ⟨_, rfl⟩
  | some st =>
    rw [ha] at h
    dsimp only at h ⊢
    rw [Res.bind_eq_ok] at h
    obtain ⟨l, e8, h⟩ := h
    have hfl : flushS c.B (c.flush c.steps) ⟨0, [], 0⟩ outf' = ⟨0, [], 0⟩ := by
      unfold flushS
      rw [ho] at hw
      rw [if_pos (by dsimp only; simp only [List.length_nil] at hw; omega)]
    obtain ⟨m, hm⟩ : ∃ m, c.steps = m + 1 := ⟨c.steps - 1, by omega⟩
    have e8' : encLoop sys 1 st h2 (sys.iobuf.take ENCBLOCK) [] outf' = .ok l := e8
    unfold encLoop at e8'
    rw [show freadSome ENCBLOCK [] = ([], []) from rfl] at e8'
    dsimp only at e8'
    rw [if_pos rfl] at e8'
    cases e8'
    rw [hfl, hm, encLoopS_empty sys c st h2 _ ⟨0, [], 0⟩ outf' m rfl (Nat.le_refl _), Res.bind_ok]
    dsimp only
    unfold encFileEnd at h ⊢
    simp only [Bool.false_eq_true, if_false] at h ⊢
    rw [Res.bind_eq_ok] at h
    obtain ⟨t, e9, h⟩ := h
    obtain ⟨t1, t2⟩ := t
    rw [e9, Res.bind_ok]
    dsimp only at h ⊢
    rw [Res.bind_eq_ok] at h
    obtain ⟨t3, e10, h⟩ := h
    rw [e10, Res.bind_ok]
    generalize fwrite outf' t3 = W at *
    obtain ⟨n', outf''⟩ := W
    dsimp only at h ⊢
    rw [Res.bind_ok]
    cases h
    exact ⟨_, rfl⟩

end Scrypt
