import Verif.Proofs.AccessEnc
import Verif.Proofs.AccessReads
import Mathlib.Tactic.SplitIfs

/-! Which bytes of the caller's buffers AES-CTR and the MAC read and write (C81). -/

namespace Scrypt

open Logged

/-- The computation does not touch `A`. -/
abbrev Quiet {α : Type} (A : Arr) (x : Logged α) : Prop := AllTr (fun c => c.arr ≠ A) x

/-- If the computation returns, it has read exactly the elements `R` of `A` and written exactly the elements `W`. -/
def Acts {α : Type} (A : Arr) (R W : Nat → Prop) (x : Logged α) : Prop :=
  ∀ v u, x = Res.ok (v, u) → ∀ i, ((⟨A, i, false⟩ : Acc) ∈ u ↔ R i) ∧ ((⟨A, i, true⟩ : Acc) ∈ u ↔ W i)

theorem Quiet.acts {α : Type} {A : Arr} {x : Logged α} (h : Quiet A x) : Acts A (fun _ => False) (fun _ => False) x :=
  fun v u e _ => ⟨⟨fun m => h v u e _ m rfl, False.elim⟩, ⟨fun m => h v u e _ m rfl, False.elim⟩⟩

theorem acts_bind {α β : Type} {A : Arr} {R W R' W' : Nat → Prop} {x : Logged α} {f : α → Logged β} (hx : Acts A R W x)
    (hf : ∀ v, erase x = .ok v → Acts A R' W' (f v)) : Acts A (fun i => R i ∨ R' i) (fun i => W i ∨ W' i) (x >>= f) := by
  intro v u e i
  obtain ⟨a, t, t', h1, h2, rfl⟩ := tr_bind_inv e
  have p := hx a t h1 i
  have q := hf a (by rw [h1]; rfl) v t' h2 i
  rw [List.mem_append, List.mem_append, p.1, p.2, q.1, q.2]
  exact ⟨Iff.rfl, Iff.rfl⟩

/-- After a step that does not touch the array. -/
theorem acts_after {α β : Type} {A : Arr} {R W : Nat → Prop} {x : Logged α} {f : α → Logged β} (hx : Quiet A x)
    (hf : ∀ v, erase x = .ok v → Acts A R W (f v)) : Acts A R W (x >>= f) := by
  intro v u e i
  have h := acts_bind hx.acts hf v u e i
  simpa only [false_or] using h

theorem acts_log {α : Type} {A : Arr} {R W : Nat → Prop} {t : List Acc} {x : Res α}
    (h : ∀ i, ((⟨A, i, false⟩ : Acc) ∈ t ↔ R i) ∧ ((⟨A, i, true⟩ : Acc) ∈ t ↔ W i)) : Acts A R W (log t x) := by
  intro v u e
  rw [hasTr_log _ _ _ _ e]
  exact h

theorem Acts.iff {α : Type} {A : Arr} {R W R' W' : Nat → Prop} {x : Logged α} (h : Acts A R W x) (hR : ∀ i, R i ↔ R' i) (hW : ∀ i, W i ↔ W' i) : Acts A R' W' x :=
  fun v u e i => ⟨(h v u e i).1.trans (hR i), (h v u e i).2.trans (hW i)⟩

theorem accs_read (A : Arr) (o n i : Nat) : ((⟨A, i, false⟩ : Acc) ∈ accs A false o n ↔ o ≤ i ∧ i < o + n) ∧ ((⟨A, i, true⟩ : Acc) ∈ accs A false o n ↔ False) := by
  simp [mem_accs]

theorem accs_write (A : Arr) (o n i : Nat) : ((⟨A, i, false⟩ : Acc) ∈ accs A true o n ↔ False) ∧ ((⟨A, i, true⟩ : Acc) ∈ accs A true o n ↔ o ≤ i ∧ i < o + n) := by
  simp [mem_accs]

theorem acts_rdSliceT {α : Type} (A : Arr) (m : List α) (o n : Nat) : Acts A (fun i => o ≤ i ∧ i < o + n) (fun _ => False) (rdSliceT A m o n) :=
  acts_log fun i => accs_read A o n i

theorem acts_wrSliceT {α : Type} (A : Arr) (m : List α) (o : Nat) (s : List α) : Acts A (fun _ => False) (fun i => o ≤ i ∧ i < o + s.length) (wrSliceT A m o s) :=
  acts_log fun i => accs_write A o s.length i

theorem acts_wrSliceN {α : Type} (A : Arr) (m : List α) (o : Nat) (s : List α) (n : Nat) (h : s.length = n) :
    Acts A (fun _ => False) (fun i => o ≤ i ∧ i < o + n) (wrSliceT A m o s) := by
  subst h
  exact acts_wrSliceT A m o s

theorem quiet_accs {A a : Arr} {w : Bool} {o n : Nat} (h : a ≠ A) : ∀ c ∈ accs a w o n, c.arr ≠ A := by
  intro c hc e
  exact h ((mem_accs.1 hc).1.symm.trans e)

theorem quiet_append {A : Arr} {t u : List Acc} (h : ∀ c ∈ t, c.arr ≠ A) (h' : ∀ c ∈ u, c.arr ≠ A) : ∀ c ∈ t ++ u, c.arr ≠ A := by
  intro c hc
  rcases List.mem_append.1 hc with h1 | h1
  · exact h c h1
  · exact h' c h1

/-- The buffers data is encrypted in. -/
inductive Data : Arr → Prop
  | mem : Data (.c .mem)
  | iobuf : Data (.c .iobuf)

theorem Data.ne {A : Arr} (h : Data A) : Arr.c .rkeys ≠ A ∧ Arr.c .dk ≠ A ∧ Arr.c .bytectr ≠ A ∧ Arr.c .kblk ≠ A ∧ Arr.c .pblk ≠ A ∧ Arr.c .cblk ≠ A ∧
    Arr.c .hbuf ≠ A ∧ Arr.c .header ≠ A := by
  cases h <;> simp

theorem Data.input {A : Arr} (h : Data A) : isInput A = true := by cases h <;> rfl

section
variable {A : Arr}

theorem quiet_nil {α : Type} {x : Res α} : Quiet A (log [] x) := allTr_log fun _ h => by cases h
theorem quiet_rdT {α : Type} {a : Arr} {m : List α} {i : Nat} (h : a ≠ A) : Quiet A (rdT a m i) :=
  allTr_log fun c hc => by obtain rfl := List.mem_singleton.1 hc; exact h
theorem quiet_wrT {α : Type} {a : Arr} {m : List α} {i : Nat} {v : α} (h : a ≠ A) : Quiet A (wrT a m i v) :=
  allTr_log fun c hc => by obtain rfl := List.mem_singleton.1 hc; exact h
theorem quiet_rdSliceT {α : Type} {a : Arr} {m : List α} {o n : Nat} (h : a ≠ A) : Quiet A (rdSliceT a m o n) := allTr_log (quiet_accs h)
theorem quiet_wrSliceT {α : Type} {a : Arr} {m : List α} {o : Nat} {s : List α} (h : a ≠ A) : Quiet A (wrSliceT a m o s) := allTr_log (quiet_accs h)
theorem quiet_q_loadT {a : Arr} {m : Bytes} {o : Nat} (h : a ≠ A) : Quiet A (q_loadT a m o) := allTr_log (quiet_accs h)
theorem quiet_log1 {α : Type} {a : Arr} {w : Bool} {o n : Nat} {x : Res α} (h : a ≠ A) : Quiet A (log (accs a w o n) x) := allTr_log (quiet_accs h)

macro "quiet_op" h:ident : tactic => `(tactic| first | exact allTr_pure | exact quiet_nil | exact quiet_rdT ($h).1 | exact quiet_wrT ($h).1 | exact quiet_q_loadT ($h).2.1 | exact quiet_rdSliceT ($h).2.1)
macro "quiet_ops" h:ident : tactic => `(tactic| repeat' first | quiet_op $h | refine allTr_bind ?_ fun _ _ => ?_)

variable (h : Data A)
include h

theorem quiet_bytectrT {w : Bool} : Quiet A (bytectrT w) := allTr_log fun c hc => by obtain rfl := List.mem_singleton.1 hc; exact h.ne.2.2.1

theorem quiet_mk128_aesniT {r : List Bytes} {i : Nat} {c : Byte} : Quiet A (MKRKEY128_aesniT r i c) := by
  have q := h.ne
  unfold MKRKEY128_aesniT
  quiet_ops q
theorem quiet_mk256_aesniT {r : List Bytes} {i s : Nat} {c : Byte} : Quiet A (MKRKEY256_aesniT r i s c) := by
  have q := h.ne
  unfold MKRKEY256_aesniT
  quiet_ops q
theorem quiet_mk128_armT {r : List Bytes} {i : Nat} {c : W32} : Quiet A (MKRKEY128_armT r i c) := by
  have q := h.ne
  unfold MKRKEY128_armT
  quiet_ops q
theorem quiet_mk256_armT {r : List Bytes} {i : Nat} {c : W32} : Quiet A (MKRKEY256_armT r i c) := by
  have q := h.ne
  unfold MKRKEY256_armT
  quiet_ops q

theorem quiet_expand_aesniT {mem : Option (List Bytes)} {k : Bytes} {len : Nat} : Quiet A (crypto_aes_key_expand_aesniT mem k len) := by
  have q := h.ne
  unfold crypto_aes_key_expand_aesniT
  split
  · exact allTr_pure
  split
  · unfold crypto_aes_key_expand_128_aesniT
    repeat' first | exact quiet_mk128_aesniT h | quiet_op q | refine allTr_bind ?_ fun _ _ => ?_
  split
  · unfold crypto_aes_key_expand_256_aesniT
    repeat' first | exact quiet_mk256_aesniT h | quiet_op q | refine allTr_bind ?_ fun _ _ => ?_
  exact allTr_pure

theorem quiet_expand_armT {mem : Option (List Bytes)} {k : Bytes} {len : Nat} : Quiet A (crypto_aes_key_expand_armT mem k len) := by
  have q := h.ne
  unfold crypto_aes_key_expand_armT
  split
  · exact allTr_pure
  split
  · unfold crypto_aes_key_expand_128_armT
    repeat' first | exact quiet_mk128_armT h | quiet_op q | refine allTr_bind ?_ fun _ _ => ?_
  split
  · unfold crypto_aes_key_expand_256_armT
    repeat' first | exact quiet_mk256_armT h | quiet_op q | refine allTr_bind ?_ fun _ _ => ?_
  exact allTr_pure

theorem quiet_expandT {hw : AesHw} {env : AesEnv} {k : Bytes} {len : Nat} : Quiet A (crypto_aes_key_expandT hw env k len) := by
  have q := h.ne
  unfold crypto_aes_key_expandT
  refine allTr_bind quiet_nil fun _ _ => ?_
  cases hw with
  | x86_aesni => exact allTr_bind (quiet_expand_aesniT h) fun _ _ => allTr_pure
  | arm_aes => exact allTr_bind (quiet_expand_armT h) fun _ _ => allTr_pure
  | software =>
    dsimp only
    split
    · exact allTr_pure
    · exact allTr_bind (quiet_rdSliceT q.2.1) fun _ _ => allTr_pure

theorem quiet_block_aesniT {x : Bytes} {k : HwKey} : Quiet A (crypto_aes_encrypt_block_aesni_m128iT x k) := by
  have q := h.ne
  unfold crypto_aes_encrypt_block_aesni_m128iT
  dsimp only
  repeat' first | quiet_op q | refine allTr_bind ?_ fun _ _ => ?_ | split
theorem quiet_block_armT {x : Bytes} {k : HwKey} : Quiet A (crypto_aes_encrypt_block_arm_u8T x k) := by
  have q := h.ne
  unfold crypto_aes_encrypt_block_arm_u8T
  dsimp only
  repeat' first | quiet_op q | refine allTr_bind ?_ fun _ _ => ?_ | split

theorem quiet_encrypt_blockT {a b : Arr} (ha : a ≠ A) (hb : b ≠ A) {hw : AesHw} {ossl : Ossl} {x : Bytes} {k : AesKey} : Quiet A (crypto_aes_encrypt_blockT a b hw ossl x k) := by
  unfold crypto_aes_encrypt_blockT
  split
  · unfold crypto_aes_encrypt_block_aesniT
    exact allTr_bind (quiet_q_loadT ha) fun _ _ => allTr_bind (quiet_block_aesniT h) fun _ _ => quiet_log1 hb
  · unfold crypto_aes_encrypt_block_armT
    exact allTr_bind (quiet_q_loadT ha) fun _ _ => allTr_bind (quiet_block_armT h) fun _ _ => quiet_log1 hb
  · exact allTr_log (quiet_append (quiet_accs ha) (quiet_accs hb))
  · exact quiet_nil

theorem quiet_generateT {hw : AesHw} {ossl : Ossl} {s : CtrStream} : Quiet A (cipherblock_generateT hw ossl s) := by
  obtain ⟨-, -, -, q1, q2, -⟩ := h.ne
  unfold cipherblock_generateT
  refine allTr_bind (quiet_bytectrT h) fun _ _ => allTr_bind quiet_nil fun _ _ => allTr_bind (quiet_rdT q2) fun _ _ => ?_
  refine allTr_bind (quiet_wrT q2) fun _ _ => allTr_bind (quiet_rdT q2) fun _ _ => allTr_bind ?_ fun _ _ => ?_
  · split
    · exact allTr_bind (quiet_bytectrT h) fun _ _ => quiet_wrSliceT q2
    · exact allTr_pure
  · exact allTr_bind (quiet_encrypt_blockT h q2 q1) fun _ _ => allTr_pure

theorem quiet_initT {mem : Option CtrStream} {key : AesKey} {nonce : W64} : Quiet A (crypto_aesctr_initT mem key nonce) := by
  obtain ⟨-, -, -, -, q2, -⟩ := h.ne
  unfold crypto_aesctr_initT
  split
  · exact allTr_pure
  · unfold crypto_aesctr_init2T
    refine allTr_bind (allTr_bind (quiet_wrSliceT q2) fun _ _ => allTr_bind (quiet_bytectrT h) fun _ _ => allTr_bind (quiet_wrT q2) fun _ _ => allTr_pure) fun _ _ => allTr_pure

theorem quiet_keyWiped {hw : AesHw} : ∀ c ∈ keyWiped hw, c.arr ≠ A := by
  unfold keyWiped
  split
  · intro c hc; cases hc
  · exact quiet_accs h.ne.1

theorem quiet_streamWiped : ∀ c ∈ streamWiped, c.arr ≠ A := by
  obtain ⟨-, -, q0, q1, q2, -⟩ := h.ne
  exact quiet_append (quiet_append (quiet_accs q0) (quiet_accs q1)) (quiet_accs q2)

theorem quiet_aesOpenT {sys : EncSys} {dk : Bytes} : Quiet A (aesOpenT sys dk) := by
  unfold aesOpenT
  refine allTr_bind (quiet_expandT h) fun k _ => ?_
  split
  · exact allTr_pure
  refine allTr_bind (quiet_initT h) fun k _ => ?_
  split
  · exact allTr_log (quiet_keyWiped h)
  · exact allTr_pure

end

/-! ### Moving through the data -/

/-- From the cursor `c`, the computation moves on by some `k` bytes, and has then read exactly these bytes of the input and written exactly these of the output. -/
def Moves {α : Type} (A : Arr) (f : α → MCursor) (c : MCursor) (x : Logged α) : Prop :=
  ∀ r u, x = Res.ok (r, u) → ∃ k, (f r).inp = c.inp + k ∧ (f r).outp = c.outp + k ∧ (f r).buflen + k = c.buflen ∧
    ∀ i, ((⟨A, i, false⟩ : Acc) ∈ u ↔ c.inp ≤ i ∧ i < c.inp + k) ∧ ((⟨A, i, true⟩ : Acc) ∈ u ↔ c.outp ≤ i ∧ i < c.outp + k)

theorem moves_pure {α : Type} {A : Arr} {f : α → MCursor} {r : α} : Moves A f (f r) (pure r : Logged α) := by
  intro v u e
  obtain ⟨h1, h2⟩ := Prod.mk.inj (Res.ok.inj e)
  subst h1 h2
  refine ⟨0, rfl, rfl, rfl, fun i => ⟨⟨(fun m => by cases m), fun _ => by omega⟩, ⟨(fun m => by cases m), fun _ => by omega⟩⟩⟩

theorem moves_bind {α β : Type} {A : Arr} {f : α → MCursor} {g : β → MCursor} {c : MCursor} {x : Logged α} {y : α → Logged β} (hx : Moves A f c x)
    (hy : ∀ r, Moves A g (f r) (y r)) : Moves A g c (x >>= y) := by
  intro v u e
  obtain ⟨a, t, t', h1, h2, rfl⟩ := tr_bind_inv e
  obtain ⟨k, p1, p2, p3, p4⟩ := hx a t h1
  obtain ⟨l, q1, q2, q3, q4⟩ := hy a v t' h2
  refine ⟨k + l, by omega, by omega, by omega, fun i => ?_⟩
  rw [List.mem_append, List.mem_append, (p4 i).1, (p4 i).2, (q4 i).1, (q4 i).2]
  constructor <;> omega

theorem moves_after {α β : Type} {A : Arr} {g : β → MCursor} {c : MCursor} {x : Logged α} {y : α → Logged β} (hx : Quiet A x)
    (hy : ∀ r, Moves A g c (y r)) : Moves A g c (x >>= y) := by
  intro v u e
  obtain ⟨a, t, t', h1, h2, rfl⟩ := tr_bind_inv e
  obtain ⟨l, q1, q2, q3, q4⟩ := hy a v t' h2
  refine ⟨l, q1, q2, q3, fun i => ?_⟩
  have n1 : (⟨A, i, false⟩ : Acc) ∉ t := fun m => hx a t h1 _ m rfl
  have n2 : (⟨A, i, true⟩ : Acc) ∉ t := fun m => hx a t h1 _ m rfl
  rw [List.mem_append, List.mem_append, (q4 i).1, (q4 i).2]
  simp only [n1, n2, false_or, iff_self, and_self]

theorem moves_ub {α : Type} {A : Arr} {f : α → MCursor} {c : MCursor} {t : List Acc} : Moves A f c (log t (.ub : Res α)) := by
  intro v u e
  cases e

/-- The byte loop. -/
theorem acts_useLoopT {A : Arr} (h : Data A) (b : Bytes) (i0 o0 bm : Nat) : ∀ (n : Nat) (m : Bytes),
    Acts A (fun i => i0 ≤ i ∧ i < i0 + n) (fun i => o0 ≤ i ∧ i < o0 + n) (forLoopT n (fun m i => do
      let x ← rdT A m (i0 + i)
      let b ← rdT (.c .kblk) b (bm + i)
      wrT A m (o0 + i) (x ^^^ b)) m)
  | 0, m => by
    intro v u e i
    obtain ⟨h1, h2⟩ := Prod.mk.inj (Res.ok.inj e)
    subst h1 h2
    exact ⟨⟨(fun m => by cases m), fun _ => by omega⟩, ⟨(fun m => by cases m), fun _ => by omega⟩⟩
  | n + 1, m => by
    refine Acts.iff (acts_bind (acts_useLoopT h b i0 o0 bm n m) fun v _ =>
      acts_bind (R := fun i => i = i0 + n) (W := fun _ => False) (acts_log fun i => ?_) fun _ _ => acts_after (quiet_rdT h.ne.2.2.2.1) fun _ _ =>
        (acts_log (R := fun _ => False) (W := fun i => i = o0 + n) fun i => ?_)) (fun i => ?_) (fun i => ?_)
    · simp
    · simp
    · simp only [or_false]; omega
    · simp only [false_or]; omega

theorem moves_useT {A : Arr} (h : Data A) (s : CtrStream) (c : MCursor) (n bm : Nat) (hn : n ≤ c.buflen) :
    Moves A (fun r => r.2) c (cipherblock_useT A s c n bm) := by
  intro r u e
  have ha : Acts A (fun i => c.inp ≤ i ∧ i < c.inp + n) (fun i => c.outp ≤ i ∧ i < c.outp + n) (cipherblock_useT A s c n bm) := by
    unfold cipherblock_useT
    refine Acts.iff (acts_bind (acts_useLoopT h s.buf c.inp c.outp bm n c.mem) fun v _ => acts_after (quiet_bytectrT h) fun _ _ =>
      acts_after (quiet_bytectrT h) fun _ _ => Quiet.acts allTr_pure) (fun i => ?_) (fun i => ?_)
    · simp
    · simp
  refine ⟨n, ?_, ?_, ?_, ha r u e⟩
  all_goals
    unfold cipherblock_useT at e
    obtain ⟨m, t, t', -, e, -⟩ := tr_bind_inv e
    obtain ⟨_, _, _, -, e, -⟩ := tr_bind_inv e
    obtain ⟨_, _, _, -, e, -⟩ := tr_bind_inv e
    obtain ⟨h1, -⟩ := Prod.mk.inj (Res.ok.inj e)
    subst h1
    simp only
    try omega

theorem moves_preT {A : Arr} (h : Data A) (s : CtrStream) (c : MCursor) : Moves A (fun r => r.2.2) c (pre_wholeblockT A s c) := by
  unfold pre_wholeblockT
  refine moves_after (quiet_bytectrT h) fun _ => ?_
  dsimp only
  split
  · split
    · exact moves_bind (moves_useT h s c _ _ (by omega)) fun r => moves_pure (f := fun r : Bool × CtrStream × MCursor => r.2.2) (r := (true, r.1, r.2))
    · exact moves_bind (moves_useT h s c _ _ (by omega)) fun r => moves_pure (f := fun r : Bool × CtrStream × MCursor => r.2.2) (r := (false, r.1, r.2))
  · exact moves_pure (f := fun r : Bool × CtrStream × MCursor => r.2.2) (r := (false, s, c))

theorem moves_postT {A : Arr} (h : Data A) (hw : AesHw) (ossl : Ossl) (s : CtrStream) (c : MCursor) : Moves A (fun r => r.2) c (post_wholeblockT A hw ossl s c) := by
  unfold post_wholeblockT
  split
  · exact moves_after (quiet_generateT h) fun s => moves_useT h s c _ _ (Nat.le_refl _)
  · exact moves_pure (f := fun r : CtrStream × MCursor => r.2) (r := (s, c))

theorem moves_loopT {A : Arr} (h : Data A) (hw : AesHw) (ossl : Ossl) : ∀ (fuel : Nat) (s : CtrStream) (c : MCursor),
    Moves A (fun r => r.2) c (portable_loopT A hw ossl fuel s c)
  | 0, s, c => by
    unfold portable_loopT
    split
    · exact moves_ub
    · exact moves_pure (f := fun r : CtrStream × MCursor => r.2) (r := (s, c))
  | fuel + 1, s, c => by
    unfold portable_loopT
    split
    next hb => exact moves_after (quiet_generateT h) fun s => moves_bind (moves_useT h s c 16 0 hb) fun r => moves_loopT h hw ossl fuel r.1 r.2
    · exact moves_pure (f := fun r : CtrStream × MCursor => r.2) (r := (s, c))

theorem moves_portableT {A : Arr} (h : Data A) (hw : AesHw) (ossl : Ossl) (s : CtrStream) (c : MCursor) : Moves A (fun r => r.2) c (portable_streamT A hw ossl s c) := by
  unfold portable_streamT
  refine moves_bind (moves_preT h s c) fun r => ?_
  obtain ⟨d, s, c⟩ := r
  dsimp only
  split
  · exact moves_pure (f := fun r : CtrStream × MCursor => r.2) (r := (s, c))
  · exact moves_bind (moves_loopT h hw ossl _ s c) fun r => moves_postT h hw ossl r.1 r.2

/-- A step of a whole-block loop: 16 bytes are read, then 16 bytes written. -/
def Steps16 (A : Arr) (f : W64 × Bytes × Bytes × Nat × Nat → Logged (W64 × Bytes × Bytes × Nat × Nat)) : Prop :=
  ∀ st r u, f st = Res.ok (r, u) → r.2.2.2.1 = st.2.2.2.1 + 16 ∧ r.2.2.2.2 = st.2.2.2.2 + 16 ∧
    ∀ i, ((⟨A, i, false⟩ : Acc) ∈ u ↔ st.2.2.2.1 ≤ i ∧ i < st.2.2.2.1 + 16) ∧ ((⟨A, i, true⟩ : Acc) ∈ u ↔ st.2.2.2.2 ≤ i ∧ i < st.2.2.2.2 + 16)

theorem steps16_loop {A : Arr} {f : W64 × Bytes × Bytes × Nat × Nat → Logged (W64 × Bytes × Bytes × Nat × Nat)} (h : Steps16 A f) (st : W64 × Bytes × Bytes × Nat × Nat) :
    ∀ (n : Nat) (r : W64 × Bytes × Bytes × Nat × Nat) (u : List Acc), forLoopT n (fun st _ => f st) st = Res.ok (r, u) →
    r.2.2.2.1 = st.2.2.2.1 + 16 * n ∧ r.2.2.2.2 = st.2.2.2.2 + 16 * n ∧
    ∀ i, ((⟨A, i, false⟩ : Acc) ∈ u ↔ st.2.2.2.1 ≤ i ∧ i < st.2.2.2.1 + 16 * n) ∧ ((⟨A, i, true⟩ : Acc) ∈ u ↔ st.2.2.2.2 ≤ i ∧ i < st.2.2.2.2 + 16 * n)
  | 0, r, u, e => by
    obtain ⟨h1, h2⟩ := Prod.mk.inj (Res.ok.inj e)
    subst h1 h2
    exact ⟨rfl, rfl, fun i => ⟨⟨(fun m => by cases m), fun _ => by omega⟩, ⟨(fun m => by cases m), fun _ => by omega⟩⟩⟩
  | n + 1, r, u, e => by
    obtain ⟨x, t, t', h1, h2, rfl⟩ := tr_bind_inv e
    obtain ⟨p1, p2, p3⟩ := steps16_loop h st n x t h1
    obtain ⟨q1, q2, q3⟩ := h x r t' h2
    refine ⟨by omega, by omega, fun i => ?_⟩
    rw [List.mem_append, List.mem_append, (p3 i).1, (p3 i).2, (q3 i).1, (q3 i).2, p1, p2]
    constructor <;> omega

theorem acts_q_loadT (A : Arr) (m : Bytes) (o : Nat) : Acts A (fun i => o ≤ i ∧ i < o + 16) (fun _ => False) (q_loadT A m o) :=
  acts_log fun i => accs_read A o 16 i

theorem steps16_aesniT {A : Arr} (h : Data A) (junk nb : Bytes) (k : HwKey) : Steps16 A (aesni_stepT A junk nb k) := by
  intro st r u e
  have ha : Acts A (fun i => st.2.2.2.1 ≤ i ∧ i < st.2.2.2.1 + 16) (fun i => st.2.2.2.2 ≤ i ∧ i < st.2.2.2.2 + 16) (aesni_stepT A junk nb k st) := by
    unfold aesni_stepT
    refine acts_after (quiet_log1 h.ne.2.2.2.2.2.1) fun _ _ => acts_after (quiet_log1 h.ne.2.2.2.2.2.1) fun _ _ => acts_after (quiet_block_aesniT h) fun b _ => ?_
    refine Acts.iff (acts_bind (acts_q_loadT A _ _) fun x _ => acts_bind (acts_wrSliceN A _ _ _ 16 (q_xor_length _ _)) fun _ _ => Quiet.acts allTr_pure) (fun i => ?_) (fun i => ?_)
    · simp only [or_false]
    · simp only [or_false, false_or]
  refine ⟨?_, ?_, ha r u e⟩
  all_goals
    unfold aesni_stepT at e
    obtain ⟨_, _, _, -, e, -⟩ := tr_bind_inv e
    obtain ⟨_, _, _, -, e, -⟩ := tr_bind_inv e
    obtain ⟨_, _, _, -, e, -⟩ := tr_bind_inv e
    obtain ⟨_, _, _, -, e, -⟩ := tr_bind_inv e
    obtain ⟨_, _, _, -, e, -⟩ := tr_bind_inv e
    obtain ⟨h1, -⟩ := Prod.mk.inj (Res.ok.inj e)
    subst h1
    rfl

theorem steps16_armT {A : Arr} (h : Data A) (nb : Bytes) (k : HwKey) : Steps16 A (arm_stepT A nb k) := by
  intro st r u e
  have ha : Acts A (fun i => st.2.2.2.1 ≤ i ∧ i < st.2.2.2.1 + 16) (fun i => st.2.2.2.2 ≤ i ∧ i < st.2.2.2.2 + 16) (arm_stepT A nb k st) := by
    unfold arm_stepT
    refine acts_after (quiet_log1 h.ne.2.2.2.2.2.1) fun _ _ => acts_after (quiet_log1 h.ne.2.2.2.2.2.1) fun _ _ => acts_after (quiet_block_armT h) fun b _ => ?_
    refine Acts.iff (acts_bind (acts_q_loadT A _ _) fun x _ => acts_bind (acts_wrSliceN A _ _ _ 16 (q_xor_length _ _)) fun _ _ => Quiet.acts allTr_pure) (fun i => ?_) (fun i => ?_)
    · simp only [or_false]
    · simp only [or_false, false_or]
  refine ⟨?_, ?_, ha r u e⟩
  all_goals
    unfold arm_stepT at e
    obtain ⟨_, _, _, -, e, -⟩ := tr_bind_inv e
    obtain ⟨_, _, _, -, e, -⟩ := tr_bind_inv e
    obtain ⟨_, _, _, -, e, -⟩ := tr_bind_inv e
    obtain ⟨_, _, _, -, e, -⟩ := tr_bind_inv e
    obtain ⟨_, _, _, -, e, -⟩ := tr_bind_inv e
    obtain ⟨h1, -⟩ := Prod.mk.inj (Res.ok.inj e)
    subst h1
    rfl

theorem moves_aesni_wholeT {A : Arr} (h : Data A) (junk : Bytes) (s : CtrStream) (c : MCursor) : Moves A (fun r => r.2) c (aesni_wholeblocksT A junk s c) := by
  obtain ⟨-, -, -, -, q2, q3, -⟩ := h.ne
  unfold aesni_wholeblocksT
  split
  next key _ =>
    refine moves_after (quiet_log1 q2) fun nb => moves_after (quiet_bytectrT h) fun _ => ?_
    split
    · exact moves_ub
    next hb =>
      intro r u e
      obtain ⟨st, t, t', h1, e2, rfl⟩ := tr_bind_inv e
      clear e
      rename' e2 => e
      obtain ⟨p1, p2, p3⟩ := steps16_loop (steps16_aesniT h junk nb key) _ _ _ _ h1
      have hacc : ∀ c ∈ t', c.arr ≠ A := by
        refine (?_ : Quiet A _) r t' e
        exact allTr_bind (quiet_rdSliceT q3) fun _ _ => allTr_bind (quiet_wrSliceT q2) fun _ _ => allTr_bind (quiet_bytectrT h) fun _ _ => allTr_bind (quiet_bytectrT h) fun _ _ => allTr_pure
      obtain ⟨_, _, _, -, e, -⟩ := tr_bind_inv e
      obtain ⟨_, _, _, -, e, -⟩ := tr_bind_inv e
      obtain ⟨_, _, _, -, e, -⟩ := tr_bind_inv e
      obtain ⟨_, _, _, -, e, -⟩ := tr_bind_inv e
      obtain ⟨hr, -⟩ := Prod.mk.inj (Res.ok.inj e)
      subst hr
      refine ⟨16 * (c.buflen / 16), p1, p2, ?_, fun i => ?_⟩
      · show c.buflen - 16 * (c.buflen / 16) + 16 * (c.buflen / 16) = c.buflen
        omega
      have n1 : (⟨A, i, false⟩ : Acc) ∉ t' := fun m => hacc _ m rfl
      have n2 : (⟨A, i, true⟩ : Acc) ∉ t' := fun m => hacc _ m rfl
      rw [List.mem_append, List.mem_append]
      simp only [n1, n2, or_false]
      exact p3 i
  · exact moves_ub

theorem moves_aesni_streamT {A : Arr} (h : Data A) (hw : AesHw) (ossl : Ossl) (junk : Bytes) (s : CtrStream) (c : MCursor) :
    Moves A (fun r => r.2) c (aesni_streamT A hw ossl junk s c) := by
  unfold aesni_streamT
  refine moves_bind (moves_preT h s c) fun r => ?_
  obtain ⟨d, s, c⟩ := r
  dsimp only
  split
  · exact moves_pure (f := fun r : CtrStream × MCursor => r.2) (r := (s, c))
  · refine moves_bind (f := fun r => r.2) ?_ fun r => moves_postT h hw ossl r.1 r.2
    unfold aesni_whole_if16T
    split
    · exact moves_aesni_wholeT h junk s c
    · exact moves_pure (f := fun r : CtrStream × MCursor => r.2) (r := (s, c))

theorem moves_arm_wholeT {A : Arr} (h : Data A) (s : CtrStream) (c : MCursor) : Moves A (fun r => r.2) c (arm_wholeblocksT A s c) := by
  obtain ⟨-, -, -, -, q2, q3, -⟩ := h.ne
  unfold arm_wholeblocksT
  split
  next key _ =>
    refine moves_after (quiet_log1 q2) fun nb => moves_after (quiet_bytectrT h) fun _ => ?_
    split
    · exact moves_ub
    next hb =>
      intro r u e
      obtain ⟨st, t, t', h1, e2, rfl⟩ := tr_bind_inv e
      clear e
      rename' e2 => e
      obtain ⟨p1, p2, p3⟩ := steps16_loop (steps16_armT h nb key) _ _ _ _ h1
      have hacc : ∀ c ∈ t', c.arr ≠ A := by
        refine (?_ : Quiet A _) r t' e
        exact allTr_bind (quiet_rdSliceT q3) fun _ _ => allTr_bind (quiet_wrSliceT q2) fun _ _ => allTr_bind (quiet_bytectrT h) fun _ _ => allTr_bind (quiet_bytectrT h) fun _ _ => allTr_pure
      obtain ⟨_, _, _, -, e, -⟩ := tr_bind_inv e
      obtain ⟨_, _, _, -, e, -⟩ := tr_bind_inv e
      obtain ⟨_, _, _, -, e, -⟩ := tr_bind_inv e
      obtain ⟨_, _, _, -, e, -⟩ := tr_bind_inv e
      obtain ⟨hr, -⟩ := Prod.mk.inj (Res.ok.inj e)
      subst hr
      refine ⟨16 * (c.buflen / 16), p1, p2, ?_, fun i => ?_⟩
      · show c.buflen - 16 * (c.buflen / 16) + 16 * (c.buflen / 16) = c.buflen
        omega
      have n1 : (⟨A, i, false⟩ : Acc) ∉ t' := fun m => hacc _ m rfl
      have n2 : (⟨A, i, true⟩ : Acc) ∉ t' := fun m => hacc _ m rfl
      rw [List.mem_append, List.mem_append]
      simp only [n1, n2, or_false]
      exact p3 i
  · exact moves_ub

theorem moves_arm_streamT {A : Arr} (h : Data A) (hw : AesHw) (ossl : Ossl) (s : CtrStream) (c : MCursor) :
    Moves A (fun r => r.2) c (arm_streamT A hw ossl s c) := by
  unfold arm_streamT
  refine moves_bind (moves_preT h s c) fun r => ?_
  obtain ⟨d, s, c⟩ := r
  dsimp only
  split
  · exact moves_pure (f := fun r : CtrStream × MCursor => r.2) (r := (s, c))
  · refine moves_bind (f := fun r => r.2) ?_ fun r => moves_postT h hw ossl r.1 r.2
    unfold arm_whole_if16T
    split
    · exact moves_arm_wholeT h s c
    · exact moves_pure (f := fun r : CtrStream × MCursor => r.2) (r := (s, c))

/-! ### All of the data -/

theorem end_useT {A : Arr} {s : CtrStream} {c : MCursor} {n bm : Nat} {r : CtrStream × MCursor} {u : List Acc} (e : cipherblock_useT A s c n bm = Res.ok (r, u)) :
    r.2.buflen = c.buflen - n := by
  unfold cipherblock_useT at e
  obtain ⟨_, _, _, -, e, -⟩ := tr_bind_inv e
  obtain ⟨_, _, _, -, e, -⟩ := tr_bind_inv e
  obtain ⟨_, _, _, -, e, -⟩ := tr_bind_inv e
  obtain ⟨hr, -⟩ := Prod.mk.inj (Res.ok.inj e)
  subst hr
  rfl

theorem end_postT {A : Arr} {hw : AesHw} {ossl : Ossl} {s : CtrStream} {c : MCursor} {r : CtrStream × MCursor} {u : List Acc}
    (e : post_wholeblockT A hw ossl s c = Res.ok (r, u)) : r.2.buflen = 0 := by
  unfold post_wholeblockT at e
  split at e
  · obtain ⟨_, _, _, -, e, -⟩ := tr_bind_inv e
    rw [end_useT e]
    omega
  · obtain ⟨hr, -⟩ := Prod.mk.inj (Res.ok.inj e)
    subst hr
    simp only
    omega

theorem end_preT {A : Arr} {s : CtrStream} {c : MCursor} {r : Bool × CtrStream × MCursor} {u : List Acc}
    (e : pre_wholeblockT A s c = Res.ok (r, u)) (hd : r.1 = true) : r.2.2.buflen = 0 := by
  unfold pre_wholeblockT at e
  obtain ⟨_, _, _, -, e, -⟩ := tr_bind_inv e
  dsimp only at e
  split at e
  · split at e
    · obtain ⟨x, _, _, e', e, -⟩ := tr_bind_inv e
      obtain ⟨hr, -⟩ := Prod.mk.inj (Res.ok.inj e)
      subst hr
      simp only
      rw [end_useT e']
      omega
    · obtain ⟨x, _, _, e', e, -⟩ := tr_bind_inv e
      obtain ⟨hr, -⟩ := Prod.mk.inj (Res.ok.inj e)
      subst hr
      cases hd
  · obtain ⟨hr, -⟩ := Prod.mk.inj (Res.ok.inj e)
    subst hr
    cases hd

theorem end_streamsT {A : Arr} {hw : AesHw} {ossl : Ossl} {junk : Bytes} {s : CtrStream} {c : MCursor} {r : CtrStream × MCursor} {u : List Acc}
    (e : portable_streamT A hw ossl s c = Res.ok (r, u) ∨ aesni_streamT A hw ossl junk s c = Res.ok (r, u) ∨ arm_streamT A hw ossl s c = Res.ok (r, u)) : r.2.buflen = 0 := by
  rcases e with e | e | e
  · unfold portable_streamT at e
    obtain ⟨⟨d, s, c⟩, _, _, e', e, -⟩ := tr_bind_inv e
    dsimp only at e
    split at e
    next hd =>
      obtain ⟨hr, -⟩ := Prod.mk.inj (Res.ok.inj e)
      subst hr
      exact end_preT e' hd
    · obtain ⟨_, _, _, -, e, -⟩ := tr_bind_inv e
      exact end_postT e
  · unfold aesni_streamT at e
    obtain ⟨⟨d, s, c⟩, _, _, e', e, -⟩ := tr_bind_inv e
    dsimp only at e
    split at e
    next hd =>
      obtain ⟨hr, -⟩ := Prod.mk.inj (Res.ok.inj e)
      subst hr
      exact end_preT e' hd
    · obtain ⟨_, _, _, -, e, -⟩ := tr_bind_inv e
      exact end_postT e
  · unfold arm_streamT at e
    obtain ⟨⟨d, s, c⟩, _, _, e', e, -⟩ := tr_bind_inv e
    dsimp only at e
    split at e
    next hd =>
      obtain ⟨hr, -⟩ := Prod.mk.inj (Res.ok.inj e)
      subst hr
      exact end_preT e' hd
    · obtain ⟨_, _, _, -, e, -⟩ := tr_bind_inv e
      exact end_postT e

theorem acts_streamT {A : Arr} (h : Data A) (hw : AesHw) (ossl : Ossl) (junk : Bytes) (s : CtrStream) (mem : Bytes) (inp outp n : Nat) :
    Acts A (fun i => inp ≤ i ∧ i < inp + n) (fun i => outp ≤ i ∧ i < outp + n) (crypto_aesctr_streamT A hw ossl junk s mem inp outp n) := by
  intro v u e
  unfold crypto_aesctr_streamT at e
  obtain ⟨r, t, t', e1, e2, rfl⟩ := tr_bind_inv e
  obtain ⟨-, rfl⟩ := Prod.mk.inj (Res.ok.inj e2)
  rw [List.append_nil]
  have key : r.2.buflen = 0 ∧ ∃ k, r.2.inp = inp + k ∧ r.2.outp = outp + k ∧ r.2.buflen + k = n ∧
      ∀ i, ((⟨A, i, false⟩ : Acc) ∈ t ↔ inp ≤ i ∧ i < inp + k) ∧ ((⟨A, i, true⟩ : Acc) ∈ t ↔ outp ≤ i ∧ i < outp + k) := by
    split at e1
    · exact ⟨end_streamsT (.inr (.inl e1)), moves_aesni_streamT h hw ossl junk s _ r t e1⟩
    · split at e1
      · exact ⟨end_streamsT (junk := junk) (.inr (.inr e1)), moves_arm_streamT h hw ossl s _ r t e1⟩
      · exact ⟨end_streamsT (junk := junk) (.inl e1), moves_portableT h hw ossl s _ r t e1⟩
  obtain ⟨h0, k, -, -, h3, h4⟩ := key
  obtain rfl : k = n := by omega
  exact h4

theorem tr_move_inv {α : Type} {a : Arr} {off : Nat} {x : Logged α} {v : α} {u : List Acc} (e : Logged.move a off x = Res.ok (v, u)) :
    ∃ t, x = Res.ok (v, t) ∧ u = t.map (Acc.moved a off) := by
  cases x with
  | ok c =>
    obtain ⟨h1, h2⟩ := Prod.mk.inj (Res.ok.inj e)
    subst h1 h2
    exact ⟨c.2, rfl, rfl⟩
  | ub => cases e
  | abort => cases e

theorem mem_moved {A a : Arr} {off : Nat} {t : List Acc} {i : Nat} {w : Bool} :
    (⟨A, i, w⟩ : Acc) ∈ t.map (Acc.moved a off) ↔ if A = a then off ≤ i ∧ (⟨A, i - off, w⟩ : Acc) ∈ t else (⟨A, i, w⟩ : Acc) ∈ t := by
  rw [List.mem_map]
  constructor
  · rintro ⟨⟨b, j, w'⟩, hm, he⟩
    unfold Acc.moved at he
    simp only at he
    split at he
    next hb =>
      obtain ⟨rfl, rfl, rfl⟩ := Acc.mk.inj he
      rw [if_pos hb]
      refine ⟨by omega, ?_⟩
      rw [Nat.add_sub_cancel_left]
      exact hm
    next hb =>
      obtain ⟨rfl, rfl, rfl⟩ := Acc.mk.inj he
      rw [if_neg hb]
      exact hm
  · intro h
    split at h
    next hA =>
      subst hA
      refine ⟨_, h.2, ?_⟩
      unfold Acc.moved
      simp only [if_true]
      congr 1
      omega
    next hA =>
      refine ⟨_, h, ?_⟩
      unfold Acc.moved
      rw [if_neg hA]

theorem quiet_move {α : Type} {A a : Arr} {off : Nat} {x : Logged α} (h : Quiet A x) : Quiet A (Logged.move a off x) := by
  intro v u e c hc
  obtain ⟨t, e', rfl⟩ := tr_move_inv e
  obtain ⟨b, hb, rfl⟩ := List.mem_map.1 hc
  unfold Acc.moved
  split
  · exact h v t e' b hb
  · exact h v t e' b hb

/-- What reads none of an array, up to 0, does not touch it. -/
theorem quiet_of_upto {α : Type} {A : Arr} {x : Logged α} (h : AllTr (Upto A 0) x) : Quiet A x :=
  AllTr.mono h fun _ hc e => Nat.not_lt_zero _ (hc e).2

theorem quiet_macInitT {A : Arr} (h : Data A) {hw : ShaHw} {j : HMAC_SHA256_CTX} {dk : Bytes} : Quiet A (macInitT hw j dk) := by
  unfold macInitT
  exact allTr_bind quiet_nil fun _ _ => quiet_move (quiet_of_upto (upto_HInitT (shaTransformT_reads hw) h.input fun e => absurd e h.ne.2.1))

theorem quiet_macFinalT {A : Arr} (h : Data A) {hw : ShaHw} {c : HMAC_SHA256_CTX} : Quiet A (macFinalT hw c) := by
  unfold macFinalT
  refine allTr_bind (quiet_of_upto (upto_HFinalT (shaTransformT_reads hw) h.input h.ne.2.2.2.2.2.2.1)) fun _ _ => ?_
  refine allTr_log fun c hc e => ?_
  exact Nat.not_lt_zero _ (upto_wholeCtx (A := A) (n := 0) h.input _ _ c hc e).2

theorem acts_macUpdateT {A : Arr} (h : Data A) (hw : ShaHw) (off : Nat) (c : HMAC_SHA256_CTX) (x : Bytes) :
    Acts A (fun i => off ≤ i ∧ i < off + x.length) (fun _ => False) (macUpdateT hw A off c x) := by
  intro v u e i
  unfold macUpdateT at e
  obtain ⟨t, e', rfl⟩ := tr_move_inv e
  have hu := upto_HUpdateT (shaTransformT_reads hw) (n := x.length) h.input (o := .mac) (ia := A) (c := c) (b := x) (fun _ => Nat.le_refl _) v t e'
  rw [mem_moved, mem_moved, if_pos rfl, if_pos rfl]
  constructor
  · constructor
    · rintro ⟨h1, h2⟩
      have := (hu _ h2 rfl).2
      simp only at this
      omega
    · rintro ⟨h1, h2⟩
      refine ⟨h1, ?_⟩
      unfold HMAC_SHA256_UpdateT at e'
      exact someTr_left (some_UpdateT (shaTransformT_reads hw) (i := i - off) (by omega)) v t e'
  · constructor
    · rintro ⟨h1, h2⟩
      exact absurd (hu _ h2 rfl).1 (by simp)
    · exact False.elim

theorem acts_bufTagT {A : Arr} (h : Data A) (hw : ShaHw) (j : HMAC_SHA256_CTX) (dk : Bytes) (off : Nat) (x : Bytes) :
    Acts A (fun i => off ≤ i ∧ i < off + x.length) (fun _ => False) (bufTagT hw j dk A off x) := by
  unfold bufTagT
  refine Acts.iff (acts_after (quiet_macInitT h) fun _ _ => acts_bind (acts_macUpdateT h hw off _ x) fun _ _ => (quiet_macFinalT h).acts) (fun i => ?_) (fun i => ?_)
  · simp only [or_false]
  · simp only [or_false]

theorem acts_verifyT {A a : Arr} (ha : a ≠ A) (ao bo : Nat) (x y : Bytes) : ∀ (n : Nat),
    Acts A (fun i => bo ≤ i ∧ i < bo + n) (fun _ => False) (crypto_verify_bytesT a ao A bo x y n) := by
  unfold crypto_verify_bytesT
  intro n
  induction n with
  | zero =>
    intro v u e i
    obtain ⟨h1, h2⟩ := Prod.mk.inj (Res.ok.inj e)
    subst h1 h2
    exact ⟨⟨(fun m => by cases m), fun _ => by omega⟩, ⟨(fun m => by cases m), False.elim⟩⟩
  | succ n ih =>
    refine Acts.iff (acts_bind ih fun v _ => acts_after (allTr_log fun c hc => by obtain rfl := List.mem_singleton.1 hc; exact ha) fun _ _ =>
      acts_bind (R := fun i => i = bo + n) (W := fun _ => False) (acts_log fun i => ?_) fun _ _ => Quiet.acts allTr_pure) (fun i => ?_) (fun i => ?_)
    · simp
    · simp only [or_false]; omega
    · simp only [or_false]

theorem aesOpenT_none {sys : EncSys} {dk : Bytes} {a : (Code × Option CtrStream) × List Ev} {u : List Acc} (e : aesOpenT sys dk = Res.ok (a, u)) (h : a.1.2 = none) :
    a.1.1 = .EOPENSSL ∨ a.1.1 = .ENOMEM := by
  unfold aesOpenT at e
  obtain ⟨k, _, _, -, e, -⟩ := tr_bind_inv e
  split at e
  · obtain ⟨hr, -⟩ := Prod.mk.inj (Res.ok.inj e)
    subst hr
    exact .inl rfl
  obtain ⟨st, _, _, -, e, -⟩ := tr_bind_inv e
  split at e
  · obtain ⟨hr, -⟩ := Prod.mk.inj (Res.ok.inj e)
    subst hr
    exact .inr rfl
  · obtain ⟨hr, -⟩ := Prod.mk.inj (Res.ok.inj e)
    subst hr
    cases h

theorem erase_slice_length {m : Bytes} {o n : Nat} {x : Bytes} (e : erase (log [] (rdSlice m o n)) = .ok x) : x.length = n := by
  rw [erase_log] at e
  exact rdSlice_length e

theorem acts_bufTagN {A : Arr} (h : Data A) (hw : ShaHw) (j : HMAC_SHA256_CTX) (dk : Bytes) (off : Nat) (x : Bytes) (n : Nat) (hn : x.length = n) :
    Acts A (fun i => off ≤ i ∧ i < off + n) (fun _ => False) (bufTagT hw j dk A off x) := by
  subst hn
  exact acts_bufTagT h hw j dk off x

theorem encBufT_bytes {sys : EncSys} {hw : ShaHw} {mem : Bytes} {inp n outp : Nat} {s : SetupOut} {o : BufOut} {u : List Acc}
    (e : encBufBodyT sys hw mem inp n outp s = Res.ok (o, u)) (hok : o.rc = .OK) :
    ∀ i, ((⟨.c .mem, i, false⟩ : Acc) ∈ u ↔ inp ≤ i ∧ i < inp + n ∨ outp ≤ i ∧ i < outp + (96 + n)) ∧
      ((⟨.c .mem, i, true⟩ : Acc) ∈ u ↔ outp ≤ i ∧ i < outp + (n + 128)) := by
  have D : Data (.c .mem) := .mem
  unfold encBufBodyT at e
  obtain ⟨h, t1, u1, e1, f1, rfl⟩ := tr_bind_inv e
  have hl : h.length = 96 := by
    have : erase (rdSliceT (.c .header) s.header 0 96) = .ok h := by rw [e1]; rfl
    unfold rdSliceT at this
    rw [erase_log] at this
    exact rdSlice_length this
  have q1 := quiet_rdSliceT (A := .c .mem) (by simp) _ _ e1
  obtain ⟨m, t2, u2, e2, f2, rfl⟩ := tr_bind_inv f1
  have q2 := acts_wrSliceN (.c .mem) mem outp h 96 hl _ _ e2
  obtain ⟨a, t3, u3, e3, f3, rfl⟩ := tr_bind_inv f2
  have q3 := quiet_aesOpenT D _ _ e3
  have q4 : ∀ i, ((⟨.c .mem, i, false⟩ : Acc) ∈ u3 ↔ inp ≤ i ∧ i < inp + n ∨ outp ≤ i ∧ i < outp + (96 + n)) ∧
      ((⟨.c .mem, i, true⟩ : Acc) ∈ u3 ↔ outp + 96 ≤ i ∧ i < outp + (n + 128)) := by
    cases hst : a.1.2 with
    | none =>
      rw [hst] at f3
      obtain ⟨hr, -⟩ := Prod.mk.inj (Res.ok.inj f3)
      subst hr
      simp only at hok
      rcases aesOpenT_none e3 hst with h | h <;> rw [h] at hok <;> cases hok
    | some st =>
      rw [hst] at f3
      simp only at f3
      have ha : Acts (.c .mem) (fun i => inp ≤ i ∧ i < inp + n ∨ outp ≤ i ∧ i < outp + (96 + n)) (fun i => outp + 96 ≤ i ∧ i < outp + (n + 128)) (do
          let r ← crypto_aesctr_streamT (.c .mem) sys.aesHw sys.ossl (sys.xmm 0) st m inp (outp + 96) n
          Logged.log (streamWiped ++ keyWiped sys.aesHw) (.ok ())
          let x ← Logged.log [] (rdSlice r.2 outp (96 + n))
          let t ← bufTagT hw sys.junkHmac2 s.dk (.c .mem) outp x
          let t ← rdSliceT (.c .hbuf) t 0 32
          let mem ← wrSliceT (.c .mem) r.2 (outp + (96 + n)) t
          Logged.log (accs (.c .dk) true 0 64)
            (.ok (⟨.OK, s.P, mem, 0, zero64, a.2 ++ crypto_aesctr_free ++ crypto_aes_key_free, s.err, s.smix⟩ : BufOut))) := by
        refine Acts.iff (acts_bind (R' := fun i => outp ≤ i ∧ i < outp + (96 + n)) (W' := fun i => outp + (96 + n) ≤ i ∧ i < outp + (96 + n) + 32) (acts_streamT D _ _ _ _ _ _ _ _) fun r _ => acts_after (allTr_log (quiet_append (quiet_streamWiped D) (quiet_keyWiped D))) fun _ _ =>
          acts_after quiet_nil fun x hx => ?_) (fun i => ?_) (fun i => ?_)
        · refine Acts.iff (acts_bind (acts_bufTagN D _ _ _ outp x (96 + n) (erase_slice_length hx)) fun t _ => acts_after (quiet_rdSliceT (by simp)) fun t ht =>
            acts_bind (acts_wrSliceN (.c .mem) _ _ _ 32 ?_) fun _ _ => (quiet_log1 (by simp)).acts) (fun i => by simp only [or_false]) (fun i => by simp only [or_false, false_or])
          unfold rdSliceT at ht
          rw [erase_log] at ht
          exact rdSlice_length ht
        · omega
        · omega
      exact ha _ _ f3
  intro i
  have n1 : ∀ w, (⟨.c .mem, i, w⟩ : Acc) ∉ t1 := fun w m => q1 _ m rfl
  have n3 : ∀ w, (⟨.c .mem, i, w⟩ : Acc) ∉ t3 := fun w m => q3 _ m rfl
  obtain ⟨w1, w2⟩ := q2 i
  simp only at w1 w2
  simp only [List.mem_append, n1, n3, false_or, w1, w2, (q4 i).1, (q4 i).2]
  exact ⟨by simp, by omega⟩

theorem decBufT_bytes {sys : EncSys} {hw : ShaHw} {mem : Bytes} {inp n outp ol : Nat} {s : SetupOut} {o : BufOut} {u : List Acc} (hn : 128 ≤ n)
    (e : decBufBodyT sys hw mem inp n outp ol s = Res.ok (o, u)) (hok : o.rc = .OK ∨ o.rc = .EINVAL) :
    ∀ i, ((⟨.c .mem, i, false⟩ : Acc) ∈ u ↔ inp ≤ i ∧ i < inp + n) ∧
      ((⟨.c .mem, i, true⟩ : Acc) ∈ u ↔ outp ≤ i ∧ i < outp + (n - 128)) := by
  have D : Data (.c .mem) := .mem
  unfold decBufBodyT at e
  obtain ⟨a, t3, u3, e3, f3, rfl⟩ := tr_bind_inv e
  have q3 := quiet_aesOpenT D _ _ e3
  have q4 : ∀ i, ((⟨.c .mem, i, false⟩ : Acc) ∈ u3 ↔ inp ≤ i ∧ i < inp + n) ∧
      ((⟨.c .mem, i, true⟩ : Acc) ∈ u3 ↔ outp ≤ i ∧ i < outp + (n - 128)) := by
    cases hst : a.1.2 with
    | none =>
      rw [hst] at f3
      obtain ⟨hr, -⟩ := Prod.mk.inj (Res.ok.inj f3)
      subst hr
      simp only at hok
      rcases aesOpenT_none e3 hst with h | h <;> rw [h] at hok <;> rcases hok with h | h <;> cases h
    | some st =>
      rw [hst] at f3
      simp only at f3
      have ha : Acts (.c .mem) (fun i => inp ≤ i ∧ i < inp + n) (fun i => outp ≤ i ∧ i < outp + (n - 128)) (do
          let r ← crypto_aesctr_streamT (.c .mem) sys.aesHw sys.ossl (sys.xmm 0) st mem (inp + 96) outp (n - 128)
          Logged.log (streamWiped ++ keyWiped sys.aesHw) (.ok ())
          let y ← Logged.log [] (rdSlice r.2 inp (n - 32))
          let t ← bufTagT hw sys.junkHmac2 s.dk (.c .mem) inp y
          let tag ← Logged.log [] (rdSlice r.2 (inp + (n - 32)) 32)
          let v ← crypto_verify_bytesT (.c .hbuf) 0 (.c .mem) (inp + (n - 32)) t tag 32
          Logged.log (accs (.c .dk) true 0 64) (.ok (⟨if v ≠ 0 then .EINVAL else .OK, s.P, r.2, n - 128, zero64,
            a.2 ++ crypto_aesctr_free ++ crypto_aes_key_free, s.err, s.smix⟩ : BufOut))) := by
        refine Acts.iff (acts_bind (R' := fun i => inp ≤ i ∧ i < inp + (n - 32) ∨ inp + (n - 32) ≤ i ∧ i < inp + (n - 32) + 32) (W' := fun _ => False) (acts_streamT D _ _ _ _ _ _ _ _) fun r _ => acts_after (allTr_log (quiet_append (quiet_streamWiped D) (quiet_keyWiped D))) fun _ _ =>
          acts_after quiet_nil fun x hx => ?_) (fun i => ?_) (fun i => ?_)
        · exact Acts.iff (acts_bind (acts_bufTagN D _ _ _ inp x (n - 32) (erase_slice_length hx)) fun t _ => acts_after quiet_nil fun _ _ =>
            acts_bind (acts_verifyT (by simp) _ _ _ _ 32) fun _ _ => (quiet_log1 (by simp)).acts) (fun i => by simp only [or_false]) (fun i => by simp only [or_false])
        · omega
        · simp only [or_false]
      exact ha _ _ f3
  intro i
  have n3 : ∀ w, (⟨.c .mem, i, w⟩ : Acc) ∉ t3 := fun w m => q3 _ m rfl
  simp only [List.mem_append, n3, false_or, (q4 i).1, (q4 i).2, and_self]

end Scrypt
