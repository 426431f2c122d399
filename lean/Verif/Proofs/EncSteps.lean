import Verif.Model.EncSteps
import Verif.Proofs.EncStream
/-
Operations of the stream functions: erasure, and what has been read and written at every point.
-/
namespace Scrypt
open Spec

/-- Forget the operations. -/
def er {α β : Type} (x : Res (α × β)) : Res α := x >>= fun r => .ok r.1

theorem er_bind {α β γ : Type} (x : Res γ) (f : γ → Res (α × β)) : er (x >>= f) = (x >>= fun a => er (f a)) := by cases x <;> rfl

theorem er_ok {α β : Type} (a : α × β) : er (.ok a) = .ok a.1 := rfl

theorem er_ite {α β : Type} (c : Prop) [Decidable c] (x y : Res (α × β)) : er (if c then x else y) = if c then er x else er y := by split <;> rfl

theorem er_more {α β γ : Type} (x : Res (α × β)) (f : β → γ) : (x >>= fun r => er (.ok (r.1, f r.2))) = er x := by cases x <;> rfl

theorem erase_encLoop (sys : EncSys) (fuel : Nat) : ∀ s hctx buf inf outf, er (encLoopT sys fuel s hctx buf inf outf) = encLoop sys fuel s hctx buf inf outf := by
  induction fuel with
  | zero => intros; rfl
  | succ fuel ih =>
    intro s hctx buf inf outf
    unfold encLoopT encLoop
    rw [er_ite]
    refine if_congr Iff.rfl rfl ?_
    rw [er_bind]; congr 1; funext buf'
    rw [er_bind]; congr 1; funext x
    rw [er_bind]; congr 1; funext p
    obtain ⟨s', c⟩ := p
    dsimp only []
    rw [er_bind]; congr 1; funext buf2
    rw [er_bind]; congr 1; funext y
    rw [er_bind]; congr 1; funext h2
    rw [er_ite]
    refine if_congr Iff.rfl rfl ?_
    rw [er_bind, er_more, ih]

theorem erase_decLoop (sys : EncSys) (fuel : Nat) : ∀ s hctx buf n inf outf, er (decLoopT sys fuel s hctx buf n inf outf) = decLoop sys fuel s hctx buf n inf outf := by
  induction fuel with
  | zero => intros; rfl
  | succ fuel ih =>
    intro s hctx buf n inf outf
    unfold decLoopT decLoop
    rw [er_ite]
    refine if_congr Iff.rfl rfl ?_
    rw [er_bind]; congr 1; funext buf'
    rw [er_ite]
    refine if_congr Iff.rfl ?_ ?_
    · rw [er_bind, er_more, ih]
    rw [er_bind]; congr 1; funext x
    rw [er_bind]; congr 1; funext h2
    rw [er_bind]; congr 1; funext p
    obtain ⟨s', c⟩ := p
    dsimp only []
    rw [er_bind]; congr 1; funext buf2
    rw [er_bind]; congr 1; funext y
    rw [er_ite]
    refine if_congr Iff.rfl rfl ?_
    rw [er_bind]; congr 1; funext t
    rw [er_bind]; congr 1; funext buf3
    rw [er_bind, er_more, ih]

theorem erase_encEnd (sys : EncSys) (inf : InFile) (s : SetupOut) (tr : List Ev) (l : LoopEnd) : er (encFileEndT sys inf s tr l) = encFileEnd sys inf s tr l := by
  unfold encFileEndT encFileEnd
  rw [er_ite, er_ite]
  refine if_congr Iff.rfl rfl (if_congr Iff.rfl rfl ?_)
  rw [er_bind]; congr 1; funext p
  obtain ⟨t, q⟩ := p
  dsimp only []
  rw [er_bind]; congr 1

theorem erase_encBody (sys : EncSys) (inf : InFile) (outf : OutFile) (s : SetupOut) : er (encFileBodyT sys inf outf s) = encFileBody sys inf outf s := by
  unfold encFileBodyT encFileBody
  rw [er_bind]; congr 1; funext k
  rw [er_bind]; congr 1; funext h1
  rw [er_bind]; congr 1; funext h
  rw [er_bind]; congr 1; funext h2
  generalize fwrite outf h = w
  obtain ⟨n, outf'⟩ := w
  dsimp only []
  rw [er_ite]
  refine if_congr Iff.rfl rfl ?_
  rw [er_bind]; congr 1; funext a
  cases a.1.2 with
  | none => rfl
  | some st =>
    dsimp only []
    rw [er_bind, ← erase_encLoop]
    cases encLoopT sys (inf.data.length + 1) st h2 (sys.iobuf.take ENCBLOCK) inf.segs outf' with
    | ok l =>
      show er (_ >>= _) = encFileEnd sys inf s a.2 l.1
      rw [er_bind, ← erase_encEnd]
      cases encFileEndT sys inf s a.2 l.1 <;> rfl
    | ub => rfl
    | abort => rfl

/-- Forgetting the operations of `scryptenc_fileT` gives `scryptenc_file`. -/
theorem erase_encFile (sys : EncSys) (inf : InFile) (outf : OutFile) (passwd : Bytes) (P : EncParams) (verbose force : Bool) :
    er (scryptenc_fileT sys inf outf passwd P verbose force) = scryptenc_file sys inf outf passwd P verbose force := by
  unfold scryptenc_fileT scryptenc_file
  rw [er_bind]; congr 1; funext _
  rw [er_bind]; congr 1; funext s
  rw [er_ite]
  refine if_congr Iff.rfl rfl ?_
  exact erase_encBody sys inf outf s

theorem erase_decCopy (sys : EncSys) (c : Cookie) (outf : OutFile) : er (scryptdec_file_copyT sys c outf) = scryptdec_file_copy sys c outf := by
  unfold scryptdec_file_copyT scryptdec_file_copy
  rw [er_bind]; congr 1; funext k
  rw [er_bind]; congr 1; funext h1
  rw [er_bind]; congr 1; funext h
  rw [er_bind]; congr 1; funext h2
  rw [er_bind]; congr 1; funext a
  cases a.1.2 with
  | none => rfl
  | some st =>
    dsimp only []
    rw [er_bind, ← erase_decLoop]
    cases decLoopT sys (c.inf.data.length + 1) st h2 sys.iobuf 0 c.inf.segs outf with
    | ok l =>
      show er (_ >>= _) = decFileEnd sys c.inf.err a.2 l.1
      rw [er_bind]
      cases decFileEnd sys c.inf.err a.2 l.1 <;> rfl
    | ub => rfl
    | abort => rfl

/-- Forgetting the operations of `scryptdec_fileT` gives `scryptdec_file`. -/
theorem erase_decFile (sys : EncSys) (inf : InFile) (outf : OutFile) (passwd : Bytes) (P : EncParams) (verbose force : Bool) :
    er (scryptdec_fileT sys inf outf passwd P verbose force) = scryptdec_file sys inf outf passwd P verbose force := by
  unfold scryptdec_fileT scryptdec_file
  rw [er_bind]; congr 1; funext _
  rw [er_bind]; congr 1; funext p
  cases p.cookie with
  | none => rfl
  | some c =>
    dsimp only []
    rw [er_bind, ← erase_decCopy]
    cases scryptdec_file_copyT sys c outf <;> rfl

/-! ### What has been read and written at every point -/

/-- All bytes read so far. -/
def taken : List IoEv → Bytes
  | [] => []
  | .rd d :: es => d ++ taken es
  | .wr _ :: es => taken es

/-- All bytes written so far. -/
def put : List IoEv → Bytes
  | [] => []
  | .rd _ :: es => put es
  | .wr x :: es => x ++ put es

theorem put_append (a b : List IoEv) : put (a ++ b) = put a ++ put b := by
  induction a with
  | nil => rfl
  | cons e a ih => cases e <;> simp [put, ih]

theorem taken_append (a b : List IoEv) : taken (a ++ b) = taken a ++ taken b := by
  induction a with
  | nil => rfl
  | cons e a ih => cases e <;> simp [taken, ih]

theorem prefix_cons {α : Type} {pre : List α} {a : α} {l : List α} (h : pre <+: a :: l) : pre = [] ∨ ∃ p, pre = a :: p ∧ p <+: l := by
  cases pre with
  | nil => exact .inl rfl
  | cons b p => obtain ⟨rfl, h2⟩ := List.cons_prefix_cons.1 h; exact .inr ⟨p, rfl, h2⟩

theorem take_more {α : Type} (c y : List α) (n : Nat) : (c ++ y).take (c.length + n) = c ++ y.take n := by
  rw [List.take_append, List.take_of_length_le (by omega), Nat.add_sub_cancel_left]

/-- The bytes `fwrite` accepts. -/
theorem fwrite_room (f : OutFile) (x : Bytes) :
    (Fits f x.length ∧ (fwrite f x).1 = x.length ∧ (fwrite f x).2.room = f.room.map (· - x.length)) ∨
    (∃ k, f.room = some k ∧ k < x.length ∧ (fwrite f x).1 = k) := by
  unfold fwrite Fits
  cases h : f.room with
  | none => left; simp
  | some k =>
    by_cases hx : x.length ≤ k
    · left; simp [hx]
    · right; exact ⟨k, rfl, by omega, by simp [hx]⟩

theorem fwrite_written (f : OutFile) (x : Bytes) : (fwrite f x).2.written = f.written ++ x.take (fwrite f x).1 := by
  unfold fwrite
  cases h : f.room with
  | none => simp
  | some k =>
    by_cases hx : x.length ≤ k
    · simp [hx]
    · simp [hx]

/-- At this point, `x` being what is to be written for what has been read so far: a beginning of it has been written, at most `lag` bytes less than all of it
unless there is no more room. -/
def Keeps (lag : Nat) (room : Option Nat) (x out : Bytes) : Prop :=
  ∃ n, out = x.take n ∧ n ≤ x.length ∧ (x.length ≤ n + lag ∨ room = some n)

theorem encLoopT_ok {sys : EncSys} (g : sys.Good) (dk K : Bytes) (fuel : Nat) :
    ∀ (s : CtrStream) (pos : Nat) (hctx : HMAC_SHA256_CTX) (msg buf : Bytes) (inf : List Bytes) (outf : OutFile),
      CtrReady sys dk s pos → HRepr hctx K msg → buf.length = ENCBLOCK → inf.flatten.length < fuel →
      pos + inf.flatten.length < 2 ^ 64 →
      ∃ l es, encLoopT sys fuel s hctx buf inf outf = .ok (l, es) ∧ l.outf.written = outf.written ++ put es ∧
        (∀ pre, pre <+: es → taken pre <+: inf.flatten ∧ Keeps ENCBLOCK outf.room (Spec.ctr (Spec.aes (keyEnc dk)) 0 pos (taken pre)) (put pre)) ∧
        (l.wfail = false → taken es = inf.flatten ∧ put es = Spec.ctr (Spec.aes (keyEnc dk)) 0 pos inf.flatten) := by
  induction fuel with
  | zero => intros; omega
  | succ fuel ih =>
    intro s pos hctx msg buf inf outf hs hh hb hf hp
    obtain ⟨f1, f2, f3⟩ := freadSome_spec ENCBLOCK (by unfold ENCBLOCK; omega) inf
    unfold encLoopT
    generalize hd : (freadSome ENCBLOCK inf).1 = d at *
    generalize hr : (freadSome ENCBLOCK inf).2 = rest at *
    have hpair : freadSome ENCBLOCK inf = (d, rest) := by rw [← hd, ← hr]
    rw [hpair]
    simp only []
    have hnil : Keeps ENCBLOCK outf.room (Spec.ctr (Spec.aes (keyEnc dk)) 0 pos []) [] := by
      rw [ctr_nil]; exact ⟨0, by simp, by simp, .inl (by simp)⟩
    by_cases h0 : d = []
    · rw [if_pos h0]
      refine ⟨_, _, rfl, by simp [put], ?_, fun _ => by rw [(f3 h0).1, ctr_nil]; exact ⟨rfl, rfl⟩⟩
      intro pre hpre
      obtain rfl := List.prefix_nil.1 hpre
      exact ⟨List.nil_prefix, hnil⟩
    · rw [if_neg h0]
      have hdl : 0 < d.length := List.length_pos_of_ne_nil h0
      have hlen : inf.flatten.length = d.length + rest.flatten.length := by rw [f1, List.length_append]
      rw [wrSlice_ok (by omega), Res.bind_ok, List.take_zero, List.nil_append, Nat.zero_add,
        rdSlice_ok (by simp), Res.bind_ok, List.drop_zero, List.take_append_of_le_length le_rfl, List.take_length]
      obtain ⟨s', es, hs'⟩ := hs.stream (sys.xmm fuel) d d.length rfl (by omega)
      rw [es, Res.bind_ok]
      simp only []
      generalize hc : Spec.ctr (Spec.aes (keyEnc dk)) 0 pos d = c
      have hcl : c.length = d.length := by rw [← hc]; exact ctr_length _ _ _ _
      have hbl : (d ++ List.drop d.length buf).length = ENCBLOCK := by simp; omega
      rw [wrSlice_ok (by omega), Res.bind_ok, List.take_zero, List.nil_append, Nat.zero_add,
        rdSlice_ok (by simp; omega), Res.bind_ok, List.drop_zero, List.take_append_of_le_length (by omega), List.take_of_length_le (by omega)]
      obtain ⟨h1, e1, r1⟩ := HMAC_SHA256_Update_spec sys.tf g.tf _ _ _ c hh
      rw [e1, Res.bind_ok]
      have hwr := fwrite_written outf c
      have hone : taken [IoEv.rd d] <+: inf.flatten ∧ Keeps ENCBLOCK outf.room (Spec.ctr (Spec.aes (keyEnc dk)) 0 pos (taken [IoEv.rd d])) (put [IoEv.rd d]) := by
        simp only [taken, put, List.append_nil]
        rw [hc]
        exact ⟨⟨_, f1.symm⟩, 0, by simp, by omega, .inl (by omega)⟩
      rcases fwrite_room outf c with ⟨hfit, hn, hroom⟩ | ⟨k, hroom, hk, hn⟩
      · rw [if_neg (by omega)]
        obtain ⟨l, es', el, l1, l2, l3⟩ := ih s' (pos + d.length) h1 (msg ++ c) (c ++ List.drop c.length (d ++ List.drop d.length buf)) rest
          (fwrite outf c).2 hs' r1 (by simp; omega) (by omega) (by omega)
        rw [el, Res.bind_ok]
        rw [hn, List.take_length] at hwr ⊢
        refine ⟨_, _, rfl, by rw [l1, hwr]; simp [put], ?_, fun hw => ?_⟩
        rotate_left
        · obtain ⟨x1, x2⟩ := l3 hw
          simp only [List.cons_append, List.nil_append, taken, put]
          rw [x1, x2, f1, ctr_append, hc]
          exact ⟨rfl, rfl⟩
        intro pre hpre
        rcases prefix_cons hpre with rfl | ⟨p1, rfl, hp1⟩
        · exact ⟨List.nil_prefix, hnil⟩
        rcases prefix_cons hp1 with rfl | ⟨p2, rfl, hp2⟩
        · exact hone
        obtain ⟨q1, n, q2, q3, q4⟩ := l2 p2 hp2
        simp only [taken, put]
        refine ⟨by rw [f1]; exact (List.prefix_append_right_inj d).2 q1, c.length + n, ?_, ?_, ?_⟩
        · rw [ctr_append, hc, q2, take_more]
        · rw [ctr_append, hc, List.length_append]; omega
        · rw [ctr_append, hc, List.length_append]
          rcases q4 with q4 | q4
          · left; omega
          · right
            rw [hroom] at q4
            cases hr : outf.room with
            | none => rw [hr] at q4; cases q4
            | some k =>
              rw [hr] at q4
              have q4 : k - c.length = n := Option.some.inj q4
              have := hfit k hr
              congr 1; omega
      · rw [if_pos (by omega)]
        rw [hn] at hwr ⊢
        refine ⟨_, _, rfl, by rw [hwr]; simp [put], ?_, fun hw => by cases hw⟩
        intro pre hpre
        rcases prefix_cons hpre with rfl | ⟨p1, rfl, hp1⟩
        · exact ⟨List.nil_prefix, hnil⟩
        rcases prefix_cons hp1 with rfl | ⟨p2, rfl, hp2⟩
        · exact hone
        obtain rfl := List.prefix_nil.1 hp2
        simp only [taken, put, List.append_nil]
        rw [hc]
        exact ⟨⟨_, f1.symm⟩, k, rfl, by omega, .inr hroom⟩

theorem decLoopT_ok {sys : EncSys} (g : sys.Good) (dk K : Bytes) (fuel : Nat) :
    ∀ (s : CtrStream) (pos : Nat) (hctx : HMAC_SHA256_CTX) (msg buf pend : Bytes) (inf : List Bytes) (outf : OutFile),
      CtrReady sys dk s pos → HRepr hctx K msg → buf.length = 65568 → pend.length ≤ 32 → buf.take pend.length = pend →
      inf.flatten.length < fuel →
      pos + inf.flatten.length + 32 < 2 ^ 64 →
      ∃ l es, decLoopT sys fuel s hctx buf pend.length inf outf = .ok (l, es) ∧ l.outf.written = outf.written ++ put es ∧
        (∀ pre, pre <+: es → taken pre <+: inf.flatten ∧ Keeps ENCBLOCK outf.room
          (Spec.ctr (Spec.aes (keyEnc dk)) 0 pos ((pend ++ taken pre).take ((pend ++ taken pre).length - 32))) (put pre)) := by
  induction fuel with
  | zero => intros; omega
  | succ fuel ih =>
    intro s pos hctx msg buf pend inf outf hs hh hb hpl hpb hf hp
    have hn : 0 < ENCBLOCK + 32 - pend.length := by unfold ENCBLOCK; omega
    obtain ⟨f1, f2, f3⟩ := freadSome_spec (ENCBLOCK + 32 - pend.length) hn inf
    unfold decLoopT
    generalize hd : (freadSome (ENCBLOCK + 32 - pend.length) inf).1 = d at *
    generalize hr : (freadSome (ENCBLOCK + 32 - pend.length) inf).2 = rest at *
    have hpair : freadSome (ENCBLOCK + 32 - pend.length) inf = (d, rest) := by rw [← hd, ← hr]
    rw [hpair]
    simp only []
    have hnil : Keeps ENCBLOCK outf.room (Spec.ctr (Spec.aes (keyEnc dk)) 0 pos ((pend ++ []).take ((pend ++ []).length - 32))) [] := by
      rw [List.append_nil, show pend.length - 32 = 0 by omega, List.take_zero, ctr_nil]; exact ⟨0, by simp, by simp, .inl (by simp)⟩
    by_cases h0 : d = []
    · rw [if_pos h0]
      refine ⟨_, _, rfl, by simp [put], ?_⟩
      intro pre hpre
      obtain rfl := List.prefix_nil.1 hpre
      exact ⟨List.nil_prefix, hnil⟩
    · rw [if_neg h0]
      have hdl : 0 < d.length := List.length_pos_of_ne_nil h0
      have hlen : inf.flatten.length = d.length + rest.flatten.length := by rw [f1, List.length_append]
      have hENC : ENCBLOCK = 65536 := rfl
      have hbuf : buf = pend ++ buf.drop pend.length := by
        conv_lhs => rw [← List.take_append_drop pend.length buf, hpb]
      have hw : wrSlice buf pend.length d = .ok (pend ++ d ++ (buf.drop pend.length).drop d.length) := by
        conv_lhs => rw [hbuf]
        exact wrSlice_append _ _ _ _ rfl (by simp; omega)
      rw [hw, Res.bind_ok]
      generalize hX : (buf.drop pend.length).drop d.length = tl
      have htl : tl.length = 65568 - (pend.length + d.length) := by rw [← hX]; simp; omega
      have hone : taken [IoEv.rd d] <+: inf.flatten ∧ Keeps ENCBLOCK outf.room
          (Spec.ctr (Spec.aes (keyEnc dk)) 0 pos ((pend ++ taken [IoEv.rd d]).take ((pend ++ taken [IoEv.rd d]).length - 32))) (put [IoEv.rd d]) := by
        simp only [taken, put, List.append_nil]
        refine ⟨⟨_, f1.symm⟩, 0, by simp, by omega, .inl ?_⟩
        rw [ctr_length, List.length_take, List.length_append]
        omega
      by_cases h32 : pend.length + d.length ≤ 32
      · rw [if_pos h32]
        obtain ⟨l, es, el, l1, l2⟩ := ih s pos hctx msg (pend ++ d ++ tl) (pend ++ d) rest outf hs hh (by simp; omega) (by simp; omega)
          (by rw [List.take_append_of_le_length le_rfl, List.take_length]) (by omega) (by omega)
        rw [List.length_append] at el
        rw [el, Res.bind_ok]
        refine ⟨_, _, rfl, l1, ?_⟩
        intro pre hpre
        rcases prefix_cons hpre with rfl | ⟨p1, rfl, hp1⟩
        · exact ⟨List.nil_prefix, hnil⟩
        obtain ⟨q1, q2⟩ := l2 p1 hp1
        simp only [taken, put]
        refine ⟨by rw [f1]; exact (List.prefix_append_right_inj d).2 q1, ?_⟩
        rw [← List.append_assoc]
        exact q2
      · rw [if_neg h32]
        obtain ⟨a, t, hat, htl32⟩ : ∃ a t, pend ++ d = a ++ t ∧ t.length = 32 :=
          ⟨(pend ++ d).take (pend.length + d.length - 32), (pend ++ d).drop (pend.length + d.length - 32), by simp, by simp; omega⟩
        have hal : a.length = pend.length + d.length - 32 := by
          have := congrArg List.length hat
          simp only [List.length_append] at this
          omega
        rw [hat, ← hal, List.append_assoc]
        have hrd : rdSlice (a ++ (t ++ tl)) 0 a.length = .ok a := by
          rw [rdSlice_ok (by simp), List.drop_zero, List.take_append_of_le_length le_rfl, List.take_length]
        rw [hrd, Res.bind_ok]
        obtain ⟨h1, e1, r1⟩ := HMAC_SHA256_Update_spec sys.tf g.tf _ _ _ a hh
        rw [e1, Res.bind_ok]
        obtain ⟨s', es, hs'⟩ := hs.stream (sys.xmm fuel) a a.length rfl (by omega)
        rw [es, Res.bind_ok]
        simp only []
        generalize hc : Spec.ctr (Spec.aes (keyEnc dk)) 0 pos a = c
        have hcl : c.length = a.length := by rw [← hc]; exact ctr_length _ _ _ _
        have hw2 : wrSlice (a ++ (t ++ tl)) 0 c = .ok (c ++ (t ++ tl)) := by
          rw [wrSlice_ok (by simp; omega), List.take_zero, List.nil_append, Nat.zero_add, hcl, List.drop_append_of_le_length le_rfl, List.drop_length, List.nil_append]
        rw [hw2, Res.bind_ok]
        have hrd2 : rdSlice (c ++ (t ++ tl)) 0 a.length = .ok c := by
          rw [← hcl, rdSlice_ok (by simp), List.drop_zero, List.take_append_of_le_length le_rfl, List.take_length]
        rw [hrd2, Res.bind_ok]
        have hwr := fwrite_written outf c
        have hsplit : ∀ x : Bytes, Spec.ctr (Spec.aes (keyEnc dk)) 0 pos ((pend ++ (d ++ x)).take ((pend ++ (d ++ x)).length - 32)) =
            c ++ Spec.ctr (Spec.aes (keyEnc dk)) 0 (pos + a.length) ((t ++ x).take ((t ++ x).length - 32)) := by
          intro x
          have : (pend ++ (d ++ x)).take ((pend ++ (d ++ x)).length - 32) = a ++ (t ++ x).take ((t ++ x).length - 32) := by
            rw [← List.append_assoc, hat, List.append_assoc, List.take_append, List.take_of_length_le (by simp; omega)]
            congr 2
            simp only [List.length_append]
            omega
          rw [this, ctr_append, hc]
        rcases fwrite_room outf c with ⟨hfit, hn, hroom⟩ | ⟨k, hroom, hk, hn⟩
        · rw [if_neg (by omega)]
          have hrd3 : rdSlice (c ++ (t ++ tl)) a.length 32 = .ok t := by
            rw [← List.append_assoc]
            exact rdSlice_append c t a.length 32 tl hcl htl32
          rw [hrd3, Res.bind_ok, wrSlice_ok (by simp; omega), Res.bind_ok, List.take_zero, List.nil_append]
          obtain ⟨l, es', el, l1, l2⟩ := ih s' (pos + a.length) h1 (msg ++ a) (t ++ List.drop (0 + t.length) (c ++ (t ++ tl))) t rest
            (fwrite outf c).2 hs' r1 (by simp; omega) (by omega) (by rw [List.take_append_of_le_length le_rfl, List.take_length]) (by omega) (by omega)
          rw [htl32] at el
          rw [show 0 + t.length = 0 + 32 by rw [htl32]] at *
          rw [el, Res.bind_ok]
          rw [hn, List.take_length] at hwr ⊢
          refine ⟨_, _, rfl, by rw [l1, hwr]; simp [put], ?_⟩
          intro pre hpre
          rcases prefix_cons hpre with rfl | ⟨p1, rfl, hp1⟩
          · exact ⟨List.nil_prefix, hnil⟩
          rcases prefix_cons hp1 with rfl | ⟨p2, rfl, hp2⟩
          · exact hone
          obtain ⟨q1, n, q2, q3, q4⟩ := l2 p2 hp2
          simp only [taken, put]
          rw [hsplit]
          refine ⟨by rw [f1]; exact (List.prefix_append_right_inj d).2 q1, c.length + n, ?_, ?_, ?_⟩
          · rw [q2, take_more]
          · rw [List.length_append]; omega
          · rw [List.length_append]
            rcases q4 with q4 | q4
            · left; omega
            · right
              rw [hroom] at q4
              cases hr : outf.room with
              | none => rw [hr] at q4; cases q4
              | some k =>
                rw [hr] at q4
                have q4 : k - c.length = n := Option.some.inj q4
                have := hfit k hr
                congr 1; omega
        · rw [if_pos (by omega)]
          rw [hn] at hwr ⊢
          refine ⟨_, _, rfl, by rw [hwr]; simp [put], ?_⟩
          intro pre hpre
          rcases prefix_cons hpre with rfl | ⟨p1, rfl, hp1⟩
          · exact ⟨List.nil_prefix, hnil⟩
          rcases prefix_cons hp1 with rfl | ⟨p2, rfl, hp2⟩
          · exact hone
          obtain rfl := List.prefix_nil.1 hp2
          have := hsplit []
          simp only [taken, put, List.append_nil] at this ⊢
          rw [this, htl32, Nat.sub_self, List.take_zero, ctr_nil, List.append_nil]
          exact ⟨⟨_, f1.symm⟩, k, rfl, by omega, .inr hroom⟩

theorem prefix_append_cases {α : Type} {pre a b : List α} (h : pre <+: a ++ b) : pre <+: a ∨ ∃ q, pre = a ++ q ∧ q <+: b := by
  rcases Nat.le_total pre.length a.length with hl | hl
  · left; exact List.prefix_of_prefix_length_le h (List.prefix_append a b) hl
  · right
    obtain ⟨q, rfl⟩ := List.prefix_of_prefix_length_le (List.prefix_append a b) h hl
    exact ⟨q, rfl, (List.prefix_append_right_inj a).1 h⟩

theorem take_prefix_le {α : Type} (x y : List α) (n : Nat) : x.take n <+: x ++ y := (List.take_prefix n x).trans (List.prefix_append x y)

theorem ctr_prefix (k : Bytes) {a b : Bytes} (h : a <+: b) : dataCipher k a <+: dataCipher k b := by
  obtain ⟨t, rfl⟩ := h
  unfold dataCipher
  rw [ctr_append]
  exact List.prefix_append _ _

/-- What scryptenc_file has done at every point, once the parameters, salt and key are settled. -/
structure EncPoint (dk : Bytes) (l r p : Nat) (salt m : Bytes) (room : Option Nat) (pre : List IoEv) : Prop where
  /-- it has read a beginning of the input, -/
  rd : taken pre <+: m
  /-- written a beginning of the result, -/
  wr : put pre <+: container dk l r p salt m
  /-- which (unless all has been read) depends only on what was read, -/
  causal : taken pre = m ∨ put pre <+: header96 dk l r p salt ++ dataCipher dk (taken pre)
  /-- and holds back at most one block. -/
  lag : pre = [] ∨ 96 + (taken pre).length ≤ (put pre).length + 65536 ∨ room = some (put pre).length

theorem encBodyT_ok {sys : EncSys} (g : sys.Good) (inf : InFile) (outf : OutFile) {s : SetupOut} {salt : Bytes} {l r p : Nat} (hsalt : salt.length = 32)
    (hh : s.header = header96 s.dk l r p salt) (hdk : s.dk.length = 64) (hD : inf.data.length < 2 ^ 64) :
    ∃ o es, encFileBodyT sys inf outf s = .ok (o, es) ∧ o.outf.written = outf.written ++ put es ∧ ∀ pre, pre <+: es → EncPoint s.dk l r p salt inf.data outf.room pre := by
  have l96 := header96_length s.dk l r p salt hsalt
  rw [← hh] at l96
  have hp0 : EncPoint s.dk l r p salt inf.data outf.room [] := ⟨List.nil_prefix, List.nil_prefix, .inr List.nil_prefix, .inl rfl⟩
  have hcon : container s.dk l r p salt inf.data = s.header ++ (dataCipher s.dk inf.data ++ hmac (keyHmac s.dk) (s.header ++ dataCipher s.dk inf.data)) := by
    unfold container; rw [← hh, List.append_assoc]
  unfold encFileBodyT
  rw [rdSlice_ok (by omega), Res.bind_ok]
  obtain ⟨hctx, e1, r1⟩ := HMAC_SHA256_Init_spec sys.tf g.tf sys.junkHmac2 g.junkHmac2 (keyHmac s.dk)
  rw [show List.take 32 (List.drop 32 s.dk) = keyHmac s.dk from rfl, e1, Res.bind_ok, rdSlice_ok (by omega), Res.bind_ok, List.drop_zero,
    List.take_of_length_le (by omega)]
  obtain ⟨hctx2, e2, r2⟩ := HMAC_SHA256_Update_spec sys.tf g.tf hctx (keyHmac s.dk) [] s.header r1
  rw [e2, Res.bind_ok]
  rw [List.nil_append] at r2
  have hwr := fwrite_written outf s.header
  simp only []
  rcases fwrite_room outf s.header with ⟨hfit, hn, hroom⟩ | ⟨k, hroom, hk, hn⟩
  case inr =>
    rw [if_pos (by omega), hn]
    rw [hn] at hwr
    refine ⟨_, _, rfl, by rw [hwr]; simp [put], ?_⟩
    intro pre hpre
    rcases prefix_cons hpre with rfl | ⟨p1, rfl, hp1⟩
    · exact hp0
    obtain rfl := List.prefix_nil.1 hp1
    have hput : put [IoEv.wr (s.header.take k)] = s.header.take k := by simp [put]
    refine ⟨List.nil_prefix, ?_, .inr ?_, .inr (.inr ?_)⟩
    · rw [hput, hcon]; exact take_prefix_le _ _ _
    · rw [hput, ← hh]; exact take_prefix_le _ _ _
    · rw [hput, List.length_take, Nat.min_eq_left (by omega)]; exact hroom
  rw [hn] at hwr ⊢
  rw [List.take_length] at hwr ⊢
  rw [if_neg (by omega)]
  have hp1 : EncPoint s.dk l r p salt inf.data outf.room [IoEv.wr s.header] := by
    have hput : put [IoEv.wr s.header] = s.header := by simp [put]
    refine ⟨List.nil_prefix, ?_, .inr ?_, .inr (.inl ?_)⟩
    · rw [hput, hcon]; exact List.prefix_append _ _
    · rw [hput, ← hh]; exact List.prefix_append _ _
    · rw [hput, l96]; simp [taken]
  rcases aesOpen_cases g s.dk hdk with ⟨h, hc⟩ | ⟨h, hc⟩ | ⟨st, h, hc, hr⟩
  · rw [h, Res.bind_ok]
    refine ⟨_, _, rfl, by rw [hwr]; simp [put], ?_⟩
    intro pre hpre
    rcases prefix_cons hpre with rfl | ⟨q, rfl, hq⟩
    · exact hp0
    · obtain rfl := List.prefix_nil.1 hq; exact hp1
  · rw [h, Res.bind_ok]
    refine ⟨_, _, rfl, by rw [hwr]; simp [put], ?_⟩
    intro pre hpre
    rcases prefix_cons hpre with rfl | ⟨q, rfl, hq⟩
    · exact hp0
    · obtain rfl := List.prefix_nil.1 hq; exact hp1
  rw [h, Res.bind_ok]
  simp only []
  have A1 : (sys.iobuf.take ENCBLOCK).length = ENCBLOCK := by rw [List.length_take, g.iobuf]; rfl
  have A2 : inf.segs.flatten.length < inf.data.length + 1 := by simp [InFile.data]
  have A3 : 0 + inf.segs.flatten.length < 2 ^ 64 := by rw [show inf.segs.flatten = inf.data from rfl]; omega
  obtain ⟨q, el, lo, lw, lf⟩ := encLoop_ok g s.dk (keyHmac s.dk) (inf.data.length + 1) st 0 hctx2 s.header (sys.iobuf.take ENCBLOCK) inf.segs
    (fwrite outf s.header).2 hr r2 A1 A2 A3
  obtain ⟨q', es, tl, t1, t2, t3⟩ := encLoopT_ok g s.dk (keyHmac s.dk) (inf.data.length + 1) st 0 hctx2 s.header (sys.iobuf.take ENCBLOCK) inf.segs
    (fwrite outf s.header).2 hr r2 A1 A2 A3
  obtain rfl : q' = q := by
    have := erase_encLoop sys (inf.data.length + 1) st hctx2 (sys.iobuf.take ENCBLOCK) inf.segs (fwrite outf s.header).2
    rw [tl, el, er_ok] at this
    exact Res.ok.inj this
  rw [show inf.segs.flatten = inf.data from rfl] at t2 t3 lf
  rw [tl, Res.bind_ok]
  -- points in the loop
  have hloop : ∀ pre, pre <+: es → EncPoint s.dk l r p salt inf.data outf.room (IoEv.wr s.header :: pre) := by
    intro pre hpre
    obtain ⟨a1, n, a2, a3, a4⟩ := t2 pre hpre
    have a2' : put pre = (dataCipher s.dk (taken pre)).take n := a2
    have hlen : (dataCipher s.dk (taken pre)).length = (taken pre).length := dataCipher_length _ _
    have a3' : n ≤ (dataCipher s.dk (taken pre)).length := a3
    have a4' : (dataCipher s.dk (taken pre)).length ≤ n + ENCBLOCK ∨ (fwrite outf s.header).2.room = some n := a4
    have hpl : (put pre).length = n := by rw [a2', List.length_take]; omega
    refine ⟨a1, ?_, .inr ?_, .inr ?_⟩
    · show s.header ++ put pre <+: _
      rw [hcon, a2']
      refine (List.prefix_append_right_inj _).2 ?_
      exact (List.take_prefix _ _).trans ((ctr_prefix s.dk a1).trans (List.prefix_append _ _))
    · show s.header ++ put pre <+: _ ++ dataCipher s.dk (taken pre)
      rw [← hh, a2']
      exact (List.prefix_append_right_inj _).2 (List.take_prefix _ _)
    · show 96 + (taken pre).length ≤ (s.header ++ put pre).length + 65536 ∨ outf.room = some (s.header ++ put pre).length
      rw [List.length_append, l96, hpl]
      rcases a4' with a4 | a4
      · left; rw [hlen] at a4; unfold ENCBLOCK at a4; omega
      · right
        rw [hroom] at a4
        cases hr : outf.room with
        | none => rw [hr] at a4; cases a4
        | some k =>
          rw [hr] at a4
          have a4 : k - s.header.length = n := Option.some.inj a4
          have := hfit k hr
          congr 1; omega
  -- the runs that end with the loop
  have hstop : ∀ o : FileOut, o.outf = q'.outf → o.outf.written = outf.written ++ put (IoEv.wr s.header :: (es ++ [])) ∧
      ∀ pre, pre <+: IoEv.wr s.header :: (es ++ []) → EncPoint s.dk l r p salt inf.data outf.room pre := by
    intro o ho
    rw [List.append_nil, ho, t1, hwr]
    refine ⟨by simp [put], ?_⟩
    intro pre hpre
    rcases prefix_cons hpre with rfl | ⟨p1, rfl, hq⟩
    · exact hp0
    · exact hloop p1 hq
  unfold encFileEndT
  by_cases hw : q'.wfail = true
  · rw [if_pos hw, Res.bind_ok]
    exact ⟨_, _, rfl, hstop _ rfl⟩
  rw [if_neg hw]
  by_cases he : inf.err = true
  · rw [if_pos he, Res.bind_ok]
    exact ⟨_, _, rfl, hstop _ rfl⟩
  rw [if_neg he]
  obtain ⟨f1, f2⟩ := lf (by simpa using hw)
  obtain ⟨b1, b2⟩ := t3 (by simpa using hw)
  obtain ⟨hd, eh⟩ := HMAC_Final_ok sys.tf g.tf q'.hctx (keyHmac s.dk) _ f1
  rw [eh, Res.bind_ok]
  simp only []
  rw [rdSlice_ok (by rw [hmac_length]), Res.bind_ok, Res.bind_ok, List.drop_zero, List.take_of_length_le (by rw [hmac_length])]
  have hcon' : container s.dk l r p salt inf.data = s.header ++ (put es ++ hmac (keyHmac s.dk) (s.header ++ ctr (aes (keyEnc s.dk)) 0 0 inf.data)) := by
    rw [hcon, b2]; rfl
  have htl : (hmac (keyHmac s.dk) (s.header ++ ctr (aes (keyEnc s.dk)) 0 0 inf.data)).length = 32 := hmac_length _ _
  generalize hmac (keyHmac s.dk) (s.header ++ ctr (aes (keyEnc s.dk)) 0 0 inf.data) = tag at hcon' htl ⊢
  have hw2 := fwrite_written q'.outf tag
  refine ⟨_, _, rfl, ?_, ?_⟩
  · show (fwrite q'.outf tag).2.written = _
    rw [hw2, t1, hwr]
    simp [put, put_append]
  intro pre hpre
  rcases prefix_cons hpre with rfl | ⟨p1, rfl, hq⟩
  · exact hp0
  rcases prefix_append_cases hq with hq1 | ⟨p2, rfl, hq2⟩
  · exact hloop p1 hq1
  rcases prefix_cons hq2 with rfl | ⟨p3, rfl, hq3⟩
  · rw [List.append_nil]; exact hloop es List.prefix_rfl
  obtain rfl := List.prefix_nil.1 hq3
  have hput : put (IoEv.wr s.header :: (es ++ [IoEv.wr (tag.take (fwrite q'.outf tag).1)])) = s.header ++ (put es ++ tag.take (fwrite q'.outf tag).1) := by
    simp [put, put_append]
  have htk : taken (IoEv.wr s.header :: (es ++ [IoEv.wr (tag.take (fwrite q'.outf tag).1)])) = inf.data := by
    simp [taken, taken_append, b1]
  have hpl : (put es).length = inf.data.length := by rw [b2]; exact ctr_length _ _ _ _
  refine ⟨by rw [htk], ?_, .inl htk, .inr (.inl ?_)⟩
  · rw [hput, hcon']
    exact (List.prefix_append_right_inj _).2 ((List.prefix_append_right_inj _).2 (List.take_prefix _ _))
  · rw [htk, hput, List.length_append, List.length_append]
    omega

/-- What scryptdec_file has done at every point, once the passphrase has been verified; `body` is the input after the header. -/
structure DecPoint (dk body : Bytes) (room : Option Nat) (pre : List IoEv) : Prop where
  /-- it has read a beginning of the input, -/
  rd : taken pre <+: body
  /-- written a beginning of what the input read so far, without its last 32 bytes, decrypts to, -/
  wr : put pre <+: dataCipher dk ((taken pre).take ((taken pre).length - 32))
  /-- and holds back at most one block. -/
  lag : (taken pre).length - 32 ≤ (put pre).length + 65536 ∨ room = some (put pre).length

theorem decCopyT_ok {sys : EncSys} (g : sys.Good) (c : Cookie) (outf : OutFile) (hh : c.header.length = 96) (hdk : c.dk.length = 64)
    (hD : c.inf.data.length + 96 < 2 ^ 64) :
    ∃ o es, scryptdec_file_copyT sys c outf = .ok (o, es) ∧ o.outf.written = outf.written ++ put es ∧ ∀ pre, pre <+: es → DecPoint c.dk c.inf.data outf.room pre := by
  obtain ⟨o0, ho0, -⟩ := decCopy_ok g c outf hh hdk hD
  rw [← erase_decCopy] at ho0
  have hp0 : DecPoint c.dk c.inf.data outf.room [] := ⟨List.nil_prefix, List.nil_prefix, .inl (by simp [taken])⟩
  unfold scryptdec_file_copyT at ho0 ⊢
  rw [rdSlice_ok (by omega), Res.bind_ok] at ho0 ⊢
  obtain ⟨hctx, e1, r1⟩ := HMAC_SHA256_Init_spec sys.tf g.tf sys.junkHmac2 g.junkHmac2 (keyHmac c.dk)
  rw [show List.take 32 (List.drop 32 c.dk) = keyHmac c.dk from rfl, e1, Res.bind_ok, rdSlice_ok (by omega), Res.bind_ok, List.drop_zero,
    List.take_of_length_le (by omega)] at ho0 ⊢
  obtain ⟨hctx2, e2, r2⟩ := HMAC_SHA256_Update_spec sys.tf g.tf hctx (keyHmac c.dk) [] c.header r1
  rw [e2, Res.bind_ok] at ho0 ⊢
  rw [List.nil_append] at r2
  have hnil : ∀ o : CopyOut, o.outf = outf → o.outf.written = outf.written ++ put [] ∧ ∀ pre, pre <+: [] → DecPoint c.dk c.inf.data outf.room pre := by
    intro o ho
    refine ⟨by rw [ho]; simp [put], fun pre hpre => ?_⟩
    obtain rfl := List.prefix_nil.1 hpre
    exact hp0
  rcases aesOpen_cases g c.dk hdk with ⟨h, hc⟩ | ⟨h, hc⟩ | ⟨st, h, hc, hr⟩
  · rw [h, Res.bind_ok]
    exact ⟨_, _, rfl, hnil _ rfl⟩
  · rw [h, Res.bind_ok]
    exact ⟨_, _, rfl, hnil _ rfl⟩
  rw [h, Res.bind_ok] at ho0 ⊢
  simp only [] at ho0 ⊢
  obtain ⟨q, es, tl, t1, t2⟩ := decLoopT_ok g c.dk (keyHmac c.dk) (c.inf.data.length + 1) st 0 hctx2 c.header sys.iobuf [] c.inf.segs outf hr r2
    g.iobuf (by simp) (by simp) (by simp [InFile.data]) (by rw [show c.inf.segs.flatten = c.inf.data from rfl]; omega)
  rw [show ([] : Bytes).length = 0 from rfl] at tl
  rw [tl, Res.bind_ok] at ho0 ⊢
  rw [er_bind, Res.bind_eq_ok] at ho0
  obtain ⟨e, he, -⟩ := ho0
  rw [he, Res.bind_ok]
  have hout : e.outf = q.outf := by
    unfold decFileEnd at he
    split at he
    · rw [← Res.ok.inj he]
    · simp only [] at he
      split at he
      · rw [← Res.ok.inj he]
      split at he
      · rw [← Res.ok.inj he]
      obtain ⟨a, -, he⟩ := Res.bind_eq_ok.1 he
      obtain ⟨b, -, he⟩ := Res.bind_eq_ok.1 he
      rw [← Res.ok.inj he]
  refine ⟨_, _, rfl, by rw [hout, t1], ?_⟩
  intro pre hpre
  obtain ⟨a1, n, a2, a3, a4⟩ := t2 pre hpre
  simp only [List.nil_append] at a2 a3 a4
  have hlen : (ctr (aes (keyEnc c.dk)) 0 0 (List.take ((taken pre).length - 32) (taken pre))).length = (taken pre).length - 32 := by
    rw [ctr_length, List.length_take]; omega
  have hpl : (put pre).length = n := by rw [a2, List.length_take]; omega
  refine ⟨a1, ?_, ?_⟩
  · rw [a2]; exact List.take_prefix _ _
  · rw [hpl]
    rcases a4 with a4 | a4
    · left; rw [hlen] at a4; exact a4
    · exact .inr a4

end Scrypt
