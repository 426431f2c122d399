import Verif.Proofs.AccessHash
import Verif.Proofs.AccessSmix
/-
Which elements of the password and of the salt the logged computations access: they are read, never written, up to their lengths and not beyond, and all of them.
-/
namespace Scrypt
open Spec Logged

/-- If the computation returns, every access satisfies `P`. -/
def AllTr {α : Type} (P : Acc → Prop) (x : Logged α) : Prop := ∀ a u, x = Res.ok (a, u) → ∀ c ∈ u, P c

/-- If the computation returns, it has made the access `c`. -/
def SomeTr {α : Type} (c : Acc) (x : Logged α) : Prop := ∀ a u, x = Res.ok (a, u) → c ∈ u

theorem allTr_pure {α : Type} {P : Acc → Prop} {a : α} : AllTr P (pure a : Logged α) := by
  intro b u e c hc
  rw [← (Prod.mk.inj (Res.ok.inj e)).2] at hc
  cases hc

theorem allTr_log {α : Type} {P : Acc → Prop} {t : List Acc} {x : Res α} (h : ∀ c ∈ t, P c) : AllTr P (log t x) := by
  intro b u e
  rw [hasTr_log _ _ _ _ e]
  exact h

theorem allTr_bind {α β : Type} {P : Acc → Prop} {x : Logged α} {f : α → Logged β} (hx : AllTr P x) (hf : ∀ a, erase x = .ok a → AllTr P (f a)) :
    AllTr P (x >>= f) := by
  intro b u e c hc
  obtain ⟨a, i, j, h1, h2, rfl⟩ := tr_bind_inv e
  rcases List.mem_append.1 hc with h | h
  · exact hx a i h1 c h
  · exact hf a (by rw [h1]; rfl) b j h2 c h

theorem allTr_forLoop {σ : Type} {P : Acc → Prop} {f : σ → Nat → Logged σ} : ∀ (n : Nat) (s : σ), (∀ s i, i < n → AllTr P (f s i)) → AllTr P (forLoopT n f s)
  | 0, s, _ => allTr_pure
  | n + 1, s, h => allTr_bind (allTr_forLoop n s fun s i hi => h s i (by omega)) fun a _ => h a n (by omega)

theorem AllTr.mono {α : Type} {P Q : Acc → Prop} {x : Logged α} (h : AllTr P x) (m : ∀ c, P c → Q c) : AllTr Q x := fun a u e c hc => m c (h a u e c hc)

theorem someTr_log {α : Type} {c : Acc} {t : List Acc} {x : Res α} (h : c ∈ t) : SomeTr c (log t x) := by
  intro b u e
  rw [hasTr_log _ _ _ _ e]
  exact h

theorem someTr_left {α β : Type} {c : Acc} {x : Logged α} {f : α → Logged β} (h : SomeTr c x) : SomeTr c (x >>= f) := by
  intro b u e
  obtain ⟨a, i, j, h1, h2, rfl⟩ := tr_bind_inv e
  exact List.mem_append_left _ (h a i h1)

theorem someTr_right {α β : Type} {c : Acc} {x : Logged α} {f : α → Logged β} (h : ∀ a, erase x = .ok a → SomeTr c (f a)) : SomeTr c (x >>= f) := by
  intro b u e
  obtain ⟨a, i, j, h1, h2, rfl⟩ := tr_bind_inv e
  exact List.mem_append_right _ (h a (by rw [h1]; rfl) b j h2)

theorem someTr_forLoop {σ : Type} {c : Acc} {f : σ → Nat → Logged σ} {i : Nat} (h : ∀ s, SomeTr c (f s i)) : ∀ (n : Nat) (s : σ), i < n → SomeTr c (forLoopT n f s)
  | 0, _, hi => absurd hi (by omega)
  | n + 1, s, hi => by
    rcases Nat.lt_or_ge i n with h1 | h1
    · exact someTr_left (someTr_forLoop h n s h1)
    · obtain rfl : i = n := by omega
      exact someTr_right fun a _ => h a

theorem mem_accs {c : Acc} {a : Arr} {w : Bool} {o n : Nat} : c ∈ accs a w o n ↔ c.arr = a ∧ c.write = w ∧ o ≤ c.idx ∧ c.idx < o + n := by
  unfold accs
  rw [List.mem_map]
  constructor
  · rintro ⟨k, hk, rfl⟩
    have := List.mem_range.1 hk
    exact ⟨rfl, rfl, by simp, by simpa using this⟩
  · rintro ⟨h1, h2, h3, h4⟩
    refine ⟨c.idx - o, List.mem_range.2 (by omega), ?_⟩
    obtain ⟨x, i, v⟩ := c
    simp only at h1 h2 h3 h4 ⊢
    subst h1 h2
    congr 1
    omega

/-! ### The accesses to an input -/

/-- The arrays of the caller, B, and those of the layers above the hashing. -/
def isInput : Arr → Bool
  | .B | .h .passwd | .h .salt | .h .out | .c _ => true
  | _ => false

/-- An access to `A` is a read of one of its first `n` elements. -/
def Upto (A : Arr) (n : Nat) (c : Acc) : Prop := c.arr = A → c.write = false ∧ c.idx < n

section
variable {A : Arr} {n : Nat}

theorem upto_rdT {α : Type} {a : Arr} {m : List α} {i : Nat} (h : a = A → i < n) : AllTr (Upto A n) (rdT a m i) :=
  allTr_log fun c hc => by
    obtain rfl := List.mem_singleton.1 hc
    exact fun e => ⟨rfl, h e⟩

theorem upto_wrT {α : Type} {a : Arr} {m : List α} {i : Nat} {v : α} (h : a ≠ A) : AllTr (Upto A n) (wrT a m i v) :=
  allTr_log fun c hc => by
    obtain rfl := List.mem_singleton.1 hc
    exact fun e => absurd e h

theorem upto_read {a : Arr} {o k : Nat} (h : a = A → o + k ≤ n) : ∀ c ∈ accs a false o k, Upto A n c := by
  intro c hc e
  obtain ⟨h1, h2, h3, h4⟩ := mem_accs.1 hc
  exact ⟨h2, by have := h (h1.symm.trans e); omega⟩

theorem upto_other {a : Arr} {w : Bool} {o k : Nat} (h : a ≠ A) : ∀ c ∈ accs a w o k, Upto A n c := by
  intro c hc e
  exact absurd ((mem_accs.1 hc).1.symm.trans e) h

theorem upto_append {t u : List Acc} (h : ∀ c ∈ t, Upto A n c) (h' : ∀ c ∈ u, Upto A n c) : ∀ c ∈ t ++ u, Upto A n c := by
  intro c hc
  rcases List.mem_append.1 hc with h1 | h1
  · exact h c h1
  · exact h' c h1

theorem upto_rdSliceT {α : Type} {a : Arr} {m : List α} {o k : Nat} (h : a = A → o + k ≤ n) : AllTr (Upto A n) (rdSliceT a m o k) := allTr_log (upto_read h)
theorem upto_wrSliceT {α : Type} {a : Arr} {m : List α} {o : Nat} {s : List α} (h : a ≠ A) : AllTr (Upto A n) (wrSliceT a m o s) := allTr_log (upto_other h)
theorem upto_ldWordsT {a : Arr} {m : List W32} {o : Nat} (h : a ≠ A) : AllTr (Upto A n) (ldWordsT a m o) := allTr_log (upto_other h)
theorem upto_stWordsT {a : Arr} {m : List W32} {o : Nat} {v : V4} (h : a ≠ A) : AllTr (Upto A n) (stWordsT a m o v) := allTr_log (upto_other h)
theorem upto_ldBlockT {a : Arr} {bo : Nat} {b : Bytes} {o : Nat} (h : a = A → bo + o + 16 ≤ n) : AllTr (Upto A n) (ldBlockT a bo b o) := allTr_log (upto_read h)
theorem upto_countT {cx : HCtx} {w : Bool} (hA : isInput A = true) : AllTr (Upto A n) (countT cx w) :=
  allTr_log fun c hc => by
    obtain rfl := List.mem_singleton.1 hc
    intro e
    rw [← e] at hA
    exact Bool.noConfusion hA
theorem upto_log_nil {α : Type} {x : Res α} : AllTr (Upto A n) (log [] x) := allTr_log fun _ h => by cases h
theorem upto_copyInT {ia : Arr} {off : Nat} {a : Arr} {m : Bytes} {o : Nat} {s : Bytes} (h : ia = A → off + s.length ≤ n) (ha : a ≠ A) :
    AllTr (Upto A n) (copyInT ia off a m o s) := allTr_log (upto_append (upto_read h) (upto_other ha))

/-- An array of the hashing itself is not an input. -/
theorem not_input {a : Arr} (hA : isInput A = true) (ha : isInput a = false) : a ≠ A := by
  rintro rfl
  rw [hA] at ha
  exact Bool.noConfusion ha

macro "upto_op" hA:ident : tactic => `(tactic| first
  | exact allTr_pure
  | exact upto_log_nil
  | exact upto_countT $hA
  | exact upto_rdT fun e => absurd e (not_input $hA rfl) | exact upto_wrT (not_input $hA rfl)
  | exact upto_rdSliceT fun e => absurd e (not_input $hA rfl) | exact upto_wrSliceT (not_input $hA rfl)
  | exact upto_ldWordsT (not_input $hA rfl) | exact upto_stWordsT (not_input $hA rfl)
  | exact upto_ldBlockT fun e => by simp_all
  | exact upto_rdT fun e => absurd e ‹_› | exact upto_wrT ‹_›
  | exact upto_rdSliceT fun e => absurd e ‹_› | exact upto_wrSliceT ‹_›
  | exact upto_ldWordsT ‹_› | exact upto_stWordsT ‹_›)
macro "upto_ops" hA:ident : tactic => `(tactic| repeat' first | upto_op $hA | refine allTr_bind ?_ fun _ _ => ?_)

variable (hA : isInput A = true)
include hA

theorem upto_be32enc_vectT {da sa : Arr} {s : List W32} {len : Nat} (hd : da ≠ A) (hs : sa ≠ A) : AllTr (Upto A n) (be32enc_vectT da sa s len) := by
  unfold be32enc_vectT
  refine allTr_bind upto_log_nil fun _ _ => ?_
  refine allTr_forLoop _ _ fun _ i _ => ?_
  exact allTr_bind (upto_rdT fun e => absurd e hs) fun _ _ => allTr_log (upto_other hd)

theorem upto_be32dec_vectT {da sa : Arr} {so : Nat} {d : List W32} {s : Bytes} (hd : da ≠ A) (h : sa = A → so + 64 ≤ n) :
    AllTr (Upto A n) (be32dec_vectT da sa so d s 64) := by
  unfold be32dec_vectT
  refine allTr_bind upto_log_nil fun _ _ => ?_
  refine allTr_forLoop _ _ fun _ i hi => ?_
  refine allTr_bind (allTr_log (upto_read fun e => ?_)) fun _ _ => upto_wrT hd
  have := h e
  omega

theorem upto_RNDrT {Kt S W : List W32} {i ii : Nat} : AllTr (Upto A n) (CSha.RNDrT Kt S W i ii) := by
  unfold CSha.RNDrT
  upto_ops hA

theorem upto_mixStepT {st : List W32 × List W32} {q : Nat} : AllTr (Upto A n) (CSha.mixStepT st q) := by
  unfold CSha.mixStepT
  refine allTr_bind (allTr_forLoop _ _ fun _ _ _ => upto_RNDrT hA) fun _ _ => ?_
  split
  · exact allTr_pure
  · refine allTr_bind (allTr_forLoop _ _ fun _ _ _ => ?_) fun _ _ => allTr_pure
    unfold CSha.MSCHT
    upto_ops hA

theorem upto_addStateT {sa : Arr} {S s : List W32} (hs : sa ≠ A) : AllTr (Upto A n) (addStateT sa S s) := by
  unfold addStateT
  refine allTr_forLoop _ _ fun _ _ _ => ?_
  upto_ops hA

theorem upto_swT {sa ba : Arr} {bo : Nat} {s : List W32} {b : Bytes} {W S : List W32} (hs : sa ≠ A) (h : ba = A → bo + 64 ≤ n) :
    AllTr (Upto A n) (SHA256_Transform_swT sa ba bo s b W S) := by
  unfold SHA256_Transform_swT
  refine allTr_bind (upto_be32dec_vectT hA (not_input hA rfl) h) fun _ _ => ?_
  refine allTr_bind (upto_rdSliceT fun e => absurd e hs) fun _ _ => ?_
  refine allTr_bind (upto_wrSliceT (not_input hA rfl)) fun _ _ => ?_
  refine allTr_bind (allTr_forLoop _ _ fun _ _ _ => upto_mixStepT hA) fun _ _ => ?_
  exact allTr_bind (upto_addStateT hA hs) fun _ _ => allTr_pure

theorem upto_sse2_mixStepT {st : List W32 × List W32 × Sse2.Y4} {q : Nat} : AllTr (Upto A n) (Sse2.mixStepT st q) := by
  unfold Sse2.mixStepT
  refine allTr_bind (allTr_forLoop _ _ fun _ _ _ => upto_RNDrT hA) fun _ _ => ?_
  split
  · exact allTr_pure
  · upto_ops hA

theorem upto_sse2T {sa ba : Arr} {bo : Nat} {s : List W32} {b : Bytes} {W S : List W32} (hs : sa ≠ A) (h : ba = A → bo + 64 ≤ n) :
    AllTr (Upto A n) (SHA256_Transform_sse2T sa ba bo s b W S) := by
  unfold SHA256_Transform_sse2T
  refine allTr_bind (upto_ldBlockT fun e => by have := h e; omega) fun _ _ => ?_
  refine allTr_bind (upto_stWordsT (not_input hA rfl)) fun _ _ => ?_
  refine allTr_bind (upto_ldBlockT fun e => by have := h e; omega) fun _ _ => ?_
  refine allTr_bind (upto_stWordsT (not_input hA rfl)) fun _ _ => ?_
  refine allTr_bind (upto_ldBlockT fun e => by have := h e; omega) fun _ _ => ?_
  refine allTr_bind (upto_stWordsT (not_input hA rfl)) fun _ _ => ?_
  refine allTr_bind (upto_ldBlockT fun e => by have := h e; omega) fun _ _ => ?_
  refine allTr_bind (upto_stWordsT (not_input hA rfl)) fun _ _ => ?_
  refine allTr_bind (upto_rdSliceT fun e => absurd e hs) fun _ _ => ?_
  refine allTr_bind (upto_wrSliceT (not_input hA rfl)) fun _ _ => ?_
  refine allTr_bind (allTr_forLoop _ _ fun _ _ _ => upto_sse2_mixStepT hA) fun _ _ => ?_
  exact allTr_bind (upto_addStateT hA hs) fun _ _ => allTr_pure

theorem upto_RNDMSGT {st : (V4 × V4) × List V4} {i : Nat} {K0 K1 K2 K3 : W32} : AllTr (Upto A n) (Shani.RNDMSGT st i K0 K1 K2 K3) := by
  unfold Shani.RNDMSGT
  refine allTr_bind (upto_rdT fun e => absurd e (not_input hA rfl)) fun _ _ => ?_
  split
  · refine allTr_bind ?_ fun _ _ => allTr_pure
    unfold Shani.MSG4T
    upto_ops hA
  · exact allTr_pure

theorem upto_shaniT {sa ba : Arr} {bo : Nat} {s : List W32} {b : Bytes} (hs : sa ≠ A) (h : ba = A → bo + 64 ≤ n) :
    AllTr (Upto A n) (SHA256_Transform_shaniT sa ba bo s b) := by
  unfold SHA256_Transform_shaniT Shani.be32dec_128T
  refine allTr_bind (upto_ldWordsT hs) fun _ _ => ?_
  refine allTr_bind (upto_ldWordsT hs) fun _ _ => ?_
  iterate 4 refine allTr_bind (allTr_bind (upto_ldBlockT fun e => by have := h e; omega) fun _ _ => allTr_pure) fun _ _ => ?_
  refine allTr_bind (allTr_log (upto_other (not_input hA rfl))) fun _ _ => ?_
  refine allTr_bind ?_ fun _ _ => ?_
  · unfold Shani.rounds16T
    iterate 15 refine allTr_bind (upto_RNDMSGT hA) fun _ _ => ?_
    exact upto_RNDMSGT hA
  · exact allTr_bind (upto_stWordsT hs) fun _ _ => upto_stWordsT hs

theorem upto_armT {sa ba : Arr} {bo : Nat} {s : List W32} {b : Bytes} (hs : sa ≠ A) (h : ba = A → bo + 64 ≤ n) :
    AllTr (Upto A n) (SHA256_Transform_armT sa ba bo s b) := by
  unfold SHA256_Transform_armT
  iterate 4 refine allTr_bind (upto_ldBlockT fun e => by have := h e; omega) fun _ _ => ?_
  refine allTr_bind (upto_ldWordsT hs) fun _ _ => ?_
  refine allTr_bind (upto_ldWordsT hs) fun _ _ => ?_
  refine allTr_bind (allTr_forLoop _ _ fun st q _ => ?_) fun _ _ => ?_
  · unfold Arm.mixStepT Arm.RND4T
    iterate 4 refine allTr_bind (allTr_bind (upto_ldWordsT (not_input hA rfl)) fun _ _ => allTr_pure) fun _ _ => ?_
    split
    · exact allTr_pure
    · exact allTr_pure
  · exact allTr_bind (upto_stWordsT hs) fun _ _ => upto_stWordsT hs

end

/-- A block function reads the block, nothing beyond it, and does not write it; and it reads all of it. -/
structure TfReads (tf : TransformT) : Prop where
  upto : ∀ (A : Arr) (n : Nat), isInput A = true → ∀ (sa ba : Arr) (bo : Nat) (s : List W32) (b : Bytes), sa ≠ A → (ba = A → bo + 64 ≤ n) →
    AllTr (Upto A n) (tf sa ba bo s b)
  all : ∀ (sa ba : Arr) (bo : Nat) (s : List W32) (b : Bytes) (i : Nat), i < 64 → SomeTr ⟨ba, bo + i, false⟩ (tf sa ba bo s b)

theorem some_ldBlockT {ba : Arr} {bo : Nat} {b : Bytes} {o i : Nat} (h1 : o ≤ i) (h2 : i < o + 16) : SomeTr ⟨ba, bo + i, false⟩ (ldBlockT ba bo b o) :=
  someTr_log (mem_accs.2 ⟨rfl, rfl, by simp only; omega, by simp only; omega⟩)

theorem quarter (i : Nat) (h : i < 64) : (0 ≤ i ∧ i < 0 + 16) ∨ (16 ≤ i ∧ i < 16 + 16) ∨ (32 ≤ i ∧ i < 32 + 16) ∨ (48 ≤ i ∧ i < 48 + 16) := by omega

theorem shaTransformT_reads (hw : ShaHw) : TfReads (shaTransformT hw) := by
  constructor
  · intro A n hA sa ba bo s b hs h
    cases hw with
    | software => exact allTr_bind (upto_swT hA hs h) fun _ _ => allTr_pure
    | x86_shani => exact upto_shaniT hA hs h
    | x86_sse2 => exact allTr_bind (upto_sse2T hA hs h) fun _ _ => allTr_pure
    | arm_sha256 => exact upto_armT hA hs h
  · intro sa ba bo s b i hi
    cases hw with
    | software =>
      refine someTr_left ?_
      unfold SHA256_Transform_swT
      refine someTr_left ?_
      unfold be32dec_vectT
      refine someTr_right fun _ _ => ?_
      refine someTr_forLoop (i := i / 4) (fun d => ?_) _ _ (by omega)
      exact someTr_left (someTr_log (mem_accs.2 ⟨rfl, rfl, by simp only; omega, by simp only; omega⟩))
    | x86_shani =>
      show SomeTr _ (SHA256_Transform_shaniT _ _ _ _ _)
      unfold SHA256_Transform_shaniT Shani.be32dec_128T
      refine someTr_right fun _ _ => someTr_right fun _ _ => ?_
      rcases quarter i hi with h | h | h | h
      · exact someTr_left (someTr_left (some_ldBlockT h.1 h.2))
      · exact someTr_right fun _ _ => someTr_left (someTr_left (some_ldBlockT h.1 h.2))
      · exact someTr_right fun _ _ => someTr_right fun _ _ => someTr_left (someTr_left (some_ldBlockT h.1 h.2))
      · exact someTr_right fun _ _ => someTr_right fun _ _ => someTr_right fun _ _ => someTr_left (someTr_left (some_ldBlockT h.1 h.2))
    | x86_sse2 =>
      refine someTr_left ?_
      unfold SHA256_Transform_sse2T
      rcases quarter i hi with h | h | h | h
      · exact someTr_left (some_ldBlockT h.1 h.2)
      · exact someTr_right fun _ _ => someTr_right fun _ _ => someTr_left (some_ldBlockT h.1 h.2)
      · exact someTr_right fun _ _ => someTr_right fun _ _ => someTr_right fun _ _ => someTr_right fun _ _ => someTr_left (some_ldBlockT h.1 h.2)
      · exact someTr_right fun _ _ => someTr_right fun _ _ => someTr_right fun _ _ => someTr_right fun _ _ => someTr_right fun _ _ => someTr_right fun _ _ =>
          someTr_left (some_ldBlockT h.1 h.2)
    | arm_sha256 =>
      show SomeTr _ (SHA256_Transform_armT _ _ _ _ _)
      unfold SHA256_Transform_armT
      rcases quarter i hi with h | h | h | h
      · exact someTr_left (some_ldBlockT h.1 h.2)
      · exact someTr_right fun _ _ => someTr_left (some_ldBlockT h.1 h.2)
      · exact someTr_right fun _ _ => someTr_right fun _ _ => someTr_left (some_ldBlockT h.1 h.2)
      · exact someTr_right fun _ _ => someTr_right fun _ _ => someTr_right fun _ _ => someTr_left (some_ldBlockT h.1 h.2)

section
variable {A : Arr} {n : Nat} {tf : TransformT} (htf : TfReads tf) (hA : isInput A = true)
include htf hA

theorem upto_PadT {cx : HCtx} {c : SHA256_CTX} : AllTr (Upto A n) (SHA256_PadT tf cx c) := by
  unfold SHA256_PadT
  refine allTr_bind (upto_countT hA) fun _ _ => ?_
  have ht : ∀ s b, AllTr (Upto A n) (tf (.h (.state cx)) (.h (.buf cx)) 0 s b) := fun s b =>
    htf.upto A n hA _ _ _ _ _ (not_input hA rfl) fun e => absurd e (not_input hA rfl)
  refine allTr_bind ?_ fun d _ => ?_
  · split
    · upto_ops hA
    · refine allTr_bind (by upto_op hA) fun _ _ => ?_
      refine allTr_bind (by upto_op hA) fun _ _ => ?_
      refine allTr_bind (ht _ _) fun _ _ => ?_
      refine allTr_bind (by upto_op hA) fun _ _ => ?_
      exact allTr_pure
  · refine allTr_bind (upto_countT hA) fun _ _ => ?_
    refine allTr_bind (by upto_op hA) fun _ _ => ?_
    refine allTr_bind (ht _ _) fun _ _ => ?_
    exact allTr_pure

theorem upto_updLoopT {cx : HCtx} {ia : Arr} : ∀ (fuel off : Nat) (s : List W32) (b : Bytes), (ia = A → off + b.length ≤ n) →
    AllTr (Upto A n) (updLoopT tf cx ia fuel off s b)
  | 0, off, s, b, h => allTr_pure
  | fuel + 1, off, s, b, h => by
    unfold updLoopT
    split
    · rename_i hl
      refine allTr_bind (htf.upto A n hA _ _ _ _ _ (not_input hA rfl) fun e => ?_) fun _ _ => ?_
      · have := h e; omega
      · refine upto_updLoopT fuel _ _ _ fun e => ?_
        have := h e
        rw [List.length_drop]
        omega
    · exact allTr_pure

omit hA htf in
theorem updLoopT_end {cx : HCtx} {ia : Arr} : ∀ (fuel off : Nat) (s : List W32) (b : Bytes) (x : List W32 × Bytes × Nat),
    erase (updLoopT tf cx ia fuel off s b) = .ok x → x.2.2 + x.2.1.length = off + b.length ∧ off ≤ x.2.2
  | 0, off, s, b, x, h => by
    have h : (Res.ok (s, b, off) : Res _) = .ok x := h
    rw [← Res.ok.inj h]
    exact ⟨rfl, Nat.le_refl _⟩
  | fuel + 1, off, s, b, x, h => by
    unfold updLoopT at h
    split at h
    · rename_i hl
      rw [erase_bind] at h
      obtain ⟨s1, -, h⟩ := Res.bind_eq_ok.1 h
      have := updLoopT_end fuel _ _ _ x h
      rw [List.length_drop] at this
      omega
    · have h : (Res.ok (s, b, off) : Res _) = .ok x := h
      rw [← Res.ok.inj h]
      exact ⟨rfl, Nat.le_refl _⟩

omit hA in
theorem updLoopT_reads {cx : HCtx} {ia : Arr} : ∀ (fuel off : Nat) (s : List W32) (b : Bytes) (x : List W32 × Bytes × Nat) (u : List Acc),
    updLoopT tf cx ia fuel off s b = Res.ok (x, u) → ∀ i, off ≤ i → i < x.2.2 → (⟨ia, i, false⟩ : Acc) ∈ u
  | 0, off, s, b, x, u, h, i, h1, h2 => by
    have h : (Res.ok ((s, b, off), []) : Res _) = .ok (x, u) := h
    rw [← (Prod.mk.inj (Res.ok.inj h)).1] at h2
    simp only at h2
    omega
  | fuel + 1, off, s, b, x, u, h, i, h1, h2 => by
    unfold updLoopT at h
    split at h
    · obtain ⟨s1, t1, t2, e1, e2, rfl⟩ := tr_bind_inv h
      rcases Nat.lt_or_ge i (off + 64) with h3 | h3
      · have := htf.all (.h (.state cx)) ia off s (b.take 64) (i - off) (by omega) _ _ e1
        rw [show off + (i - off) = i by omega] at this
        exact List.mem_append_left _ this
      · exact List.mem_append_right _ (updLoopT_reads fuel _ _ _ x t2 e2 i h3 h2)
    · have h : (Res.ok ((s, b, off), []) : Res _) = .ok (x, u) := h
      rw [← (Prod.mk.inj (Res.ok.inj h)).1] at h2
      simp only at h2
      omega

theorem upto_UpdateT {cx : HCtx} {ia : Arr} {c : SHA256_CTX} {b : Bytes} (h : ia = A → b.length ≤ n) : AllTr (Upto A n) (SHA256_UpdateT tf cx ia c b) := by
  unfold SHA256_UpdateT
  have hl : c.r < 64 := by
    unfold SHA256_CTX.r
    have : ((c.count >>> 3) &&& 0x3f#64).toNat ≤ 63 := by
      rw [BitVec.toNat_and]
      exact Nat.and_le_right
    omega
  simp only
  split
  · exact allTr_pure
  refine allTr_bind (upto_countT hA) fun _ _ => ?_
  refine allTr_bind (upto_countT hA) fun _ _ => ?_
  split
  · refine allTr_bind (upto_copyInT (fun e => ?_) (not_input hA rfl)) fun _ _ => allTr_pure
    rw [Nat.zero_add]; exact h e
  · rename_i hlt
    refine allTr_bind (upto_copyInT (fun e => ?_) (not_input hA rfl)) fun _ _ => ?_
    · rw [List.length_take]
      have := h e
      omega
    refine allTr_bind (htf.upto A n hA _ _ _ _ _ (not_input hA rfl) fun e => absurd e (not_input hA rfl)) fun _ _ => ?_
    refine allTr_bind (upto_updLoopT htf hA _ _ _ _ fun e => ?_) fun x hx => ?_
    · rw [List.length_drop]
      have := h e
      omega
    · obtain ⟨st, rest, off⟩ := x
      refine allTr_bind (upto_copyInT (fun e => ?_) (not_input hA rfl)) fun _ _ => allTr_pure
      have h2 : off + rest.length = _ ∧ _ := updLoopT_end _ _ _ _ _ hx
      rw [List.length_drop] at h2
      have h3 := h e
      show off + rest.length ≤ n
      omega

omit hA in
theorem some_UpdateT {cx : HCtx} {ia : Arr} {c : SHA256_CTX} {b : Bytes} {i : Nat} (hi : i < b.length) : SomeTr ⟨ia, i, false⟩ (SHA256_UpdateT tf cx ia c b) := by
  unfold SHA256_UpdateT
  simp only
  rw [if_neg (by simp; rintro rfl; simp at hi)]
  refine someTr_right fun _ _ => someTr_right fun _ _ => ?_
  split
  · exact someTr_left (someTr_log (List.mem_append_left _ (mem_accs.2 ⟨rfl, rfl, by simp, by simpa using hi⟩)))
  · rename_i hlt
    rcases Nat.lt_or_ge i (64 - c.r) with h1 | h1
    · refine someTr_left (someTr_log (List.mem_append_left _ (mem_accs.2 ⟨rfl, rfl, by simp, ?_⟩)))
      rw [List.length_take]
      simp only
      omega
    · refine someTr_right fun _ _ => someTr_right fun _ _ => ?_
      intro y u e
      obtain ⟨⟨st, rest, off⟩, t1, t2, e1, e2, rfl⟩ := tr_bind_inv e
      rcases Nat.lt_or_ge i off with h2 | h2
      · exact List.mem_append_left _ (updLoopT_reads htf _ _ _ _ _ t1 e1 i h1 h2)
      · have h3 : off + rest.length = _ ∧ _ := updLoopT_end (tf := tf) (cx := cx) (ia := ia) _ _ _ _ (st, rest, off) (by rw [e1]; rfl)
        rw [List.length_drop] at h3
        refine List.mem_append_right _ ?_
        refine someTr_left (someTr_log (List.mem_append_left _ (mem_accs.2 ⟨rfl, rfl, h2, ?_⟩))) _ _ e2
        show i < off + rest.length
        omega

theorem upto_FinalT {cx : HCtx} {da : Arr} {c : SHA256_CTX} (hd : da ≠ A) : AllTr (Upto A n) (SHA256_Final_internalT tf cx da c) := by
  unfold SHA256_Final_internalT
  refine allTr_bind (upto_PadT htf hA) fun _ _ => ?_
  exact allTr_bind (upto_be32enc_vectT hA hd (not_input hA rfl)) fun _ _ => allTr_pure

omit htf in
theorem upto_InitT {cx : HCtx} {c : SHA256_CTX} : AllTr (Upto A n) (SHA256_InitT cx c) := by
  unfold SHA256_InitT
  refine allTr_bind (upto_countT hA) fun _ _ => ?_
  exact allTr_log (upto_append (upto_other (not_input hA rfl)) (upto_other (not_input hA rfl)))

omit htf in
theorem upto_hmacPadT {ka : Arr} {v : Byte} {K : Bytes} (h : ka = A → K.length ≤ n) : AllTr (Upto A n) (hmacPadT ka v K) := by
  unfold hmacPadT
  refine allTr_bind (by upto_op hA) fun _ _ => ?_
  refine allTr_forLoop _ _ fun _ i hi => ?_
  refine allTr_bind (by upto_op hA) fun _ _ => ?_
  refine allTr_bind (upto_rdT fun e => by have := h e; omega) fun _ _ => ?_
  upto_op hA

omit htf hA in
theorem some_hmacPadT {ka : Arr} {v : Byte} {K : Bytes} {i : Nat} (hi : i < K.length) : SomeTr ⟨ka, i, false⟩ (hmacPadT ka v K) := by
  unfold hmacPadT
  refine someTr_right fun _ _ => someTr_forLoop (i := i) (fun _ => ?_) _ _ hi
  exact someTr_right fun _ _ => someTr_left (someTr_log (List.mem_singleton.2 rfl))

theorem upto_HInitT {o : HOwner} {ka : Arr} {c : HMAC_SHA256_CTX} {K : Bytes} (h : ka = A → K.length ≤ n) : AllTr (Upto A n) (HMAC_SHA256_InitT tf o ka c K) := by
  unfold HMAC_SHA256_InitT
  have part : ∀ (ic oc : SHA256_CTX) (K : Bytes) (ka : Arr), (ka = A → K.length ≤ n) → AllTr (Upto A n) (do
      let ictx ← SHA256_InitT (.inner o) ic
      let pad ← hmacPadT ka 0x36 K
      let ictx ← SHA256_UpdateT tf (.inner o) (.h .pad) ictx pad
      let octx ← SHA256_InitT (.outer o) oc
      let pad ← hmacPadT ka 0x5c K
      let octx ← SHA256_UpdateT tf (.outer o) (.h .pad) octx pad
      return (⟨ictx, octx⟩ : HMAC_SHA256_CTX)) := by
    intro ic oc K ka h
    refine allTr_bind (upto_InitT hA) fun _ _ => ?_
    refine allTr_bind (upto_hmacPadT hA h) fun _ _ => ?_
    refine allTr_bind (upto_UpdateT htf hA fun e => absurd e (not_input hA rfl)) fun _ _ => ?_
    refine allTr_bind (upto_InitT hA) fun _ _ => ?_
    refine allTr_bind (upto_hmacPadT hA h) fun _ _ => ?_
    refine allTr_bind (upto_UpdateT htf hA fun e => absurd e (not_input hA rfl)) fun _ _ => ?_
    exact allTr_pure
  refine allTr_bind ?_ fun x hx => ?_
  · split
    · refine allTr_bind (upto_InitT hA) fun _ _ => ?_
      refine allTr_bind (upto_UpdateT htf hA h) fun _ _ => ?_
      refine allTr_bind (upto_FinalT htf hA (not_input hA rfl)) fun _ _ => ?_
      exact allTr_pure
    · exact allTr_pure
  · refine part _ _ _ _ fun e => ?_
    split at hx
    · rw [erase_bind] at hx
      obtain ⟨_, -, hx⟩ := Res.bind_eq_ok.1 hx
      rw [erase_bind] at hx
      obtain ⟨_, -, hx⟩ := Res.bind_eq_ok.1 hx
      rw [erase_bind] at hx
      obtain ⟨_, -, hx⟩ := Res.bind_eq_ok.1 hx
      rw [← Res.ok.inj hx] at e
      exact absurd e (not_input hA rfl)
    · rw [← Res.ok.inj hx] at e ⊢
      exact h e

omit hA in
theorem some_HInitT {o : HOwner} {ka : Arr} {c : HMAC_SHA256_CTX} {K : Bytes} {i : Nat} (hi : i < K.length) :
    SomeTr ⟨ka, i, false⟩ (HMAC_SHA256_InitT tf o ka c K) := by
  unfold HMAC_SHA256_InitT
  by_cases h1 : K.length > 64
  · rw [if_pos h1]
    exact someTr_left (someTr_right fun _ _ => someTr_left (some_UpdateT htf hi))
  · rw [if_neg h1]
    refine someTr_right fun x hx => ?_
    rw [← Res.ok.inj hx]
    exact someTr_right fun _ _ => someTr_left (some_hmacPadT hi)

theorem upto_HUpdateT {o : HOwner} {ia : Arr} {c : HMAC_SHA256_CTX} {b : Bytes} (h : ia = A → b.length ≤ n) :
    AllTr (Upto A n) (HMAC_SHA256_UpdateT tf o ia c b) := by
  unfold HMAC_SHA256_UpdateT
  exact allTr_bind (upto_UpdateT htf hA h) fun _ _ => allTr_pure

theorem upto_HFinalT {o : HOwner} {da : Arr} {c : HMAC_SHA256_CTX} (hd : da ≠ A) : AllTr (Upto A n) (HMAC_SHA256_Final_internalT tf o da c) := by
  unfold HMAC_SHA256_Final_internalT
  refine allTr_bind (upto_FinalT htf hA (not_input hA rfl)) fun _ _ => ?_
  refine allTr_bind (upto_UpdateT htf hA fun e => absurd e (not_input hA rfl)) fun _ _ => ?_
  refine allTr_bind (upto_FinalT htf hA hd) fun _ _ => ?_
  exact allTr_pure

omit htf in
theorem upto_wholeCtx (o : HOwner) (w : Bool) : ∀ c ∈ wholeCtx o w, Upto A n c := by
  unfold wholeCtx wholeShaCtx
  refine upto_append (upto_append (upto_append ?_ ?_) ?_) (upto_append (upto_append ?_ ?_) ?_) <;> exact upto_other (not_input hA rfl)

omit htf in
theorem upto_copyCtxT {d s : HOwner} {c : HMAC_SHA256_CTX} : AllTr (Upto A n) (copyCtxT d s c) :=
  allTr_log (upto_append (upto_wholeCtx hA _ _) (upto_wholeCtx hA _ _))

theorem upto_InnerT {c : HMAC_SHA256_CTX} {k : Nat} {U T : Bytes} : AllTr (Upto A n) (pbkdf2InnerT tf c k U T) := by
  unfold pbkdf2InnerT
  refine allTr_forLoop _ _ fun _ _ _ => ?_
  refine allTr_bind (upto_copyCtxT hA) fun _ _ => ?_
  refine allTr_bind (upto_HUpdateT htf hA fun e => absurd e (not_input hA rfl)) fun _ _ => ?_
  refine allTr_bind (upto_HFinalT htf hA (not_input hA rfl)) fun _ _ => ?_
  refine allTr_bind (allTr_forLoop _ _ fun _ _ _ => ?_) fun _ _ => allTr_pure
  upto_ops hA

/-- PBKDF2 reads the password and the salt, nothing beyond them, and does not write them. -/
theorem upto_PBKDF2T {pa sa oa : Arr} {j : HMAC_SHA256_CTX} {P S : Bytes} {k : Nat} {buf : Bytes} {dkLen : Nat} (hP : pa = A → P.length ≤ n)
    (hS : sa = A → S.length ≤ n) (ho : oa ≠ A) : AllTr (Upto A n) (PBKDF2_SHA256T tf pa sa oa j P S k buf dkLen) := by
  unfold PBKDF2_SHA256T
  refine allTr_bind upto_log_nil fun _ _ => ?_
  refine allTr_bind (upto_HInitT htf hA hP) fun _ _ => ?_
  refine allTr_bind (upto_copyCtxT hA) fun _ _ => ?_
  refine allTr_bind (upto_HUpdateT htf hA hS) fun _ _ => ?_
  refine allTr_bind (allTr_forLoop _ _ fun _ _ _ => ?_) fun _ _ => ?_
  · refine allTr_bind (by upto_op hA) fun _ _ => ?_
    refine allTr_bind (upto_copyCtxT hA) fun _ _ => ?_
    refine allTr_bind (upto_HUpdateT htf hA fun e => absurd e (not_input hA rfl)) fun _ _ => ?_
    refine allTr_bind (upto_HFinalT htf hA (not_input hA rfl)) fun _ _ => ?_
    refine allTr_bind (allTr_log (upto_append (upto_other (not_input hA rfl)) (upto_other (not_input hA rfl)))) fun _ _ => ?_
    refine allTr_bind (upto_InnerT htf hA) fun _ _ => ?_
    refine allTr_bind (by upto_op hA) fun _ _ => ?_
    exact upto_wrSliceT ho
  · refine allTr_log ?_
    unfold pbkdf2Clean
    refine upto_append (upto_append (upto_append (upto_append (upto_append (upto_append (upto_append (upto_append ?_ ?_) ?_) ?_) ?_) ?_) ?_) ?_) ?_
    iterate 3 exact upto_wholeCtx hA _ _
    all_goals exact upto_other (not_input hA rfl)

omit hA in
/-- PBKDF2 reads every byte of the password, and of the salt. -/
theorem some_PBKDF2T {pa sa oa : Arr} {j : HMAC_SHA256_CTX} {P S : Bytes} {k : Nat} {buf : Bytes} {dkLen : Nat} :
    (∀ i, i < P.length → SomeTr ⟨pa, i, false⟩ (PBKDF2_SHA256T tf pa sa oa j P S k buf dkLen)) ∧
    ∀ i, i < S.length → SomeTr ⟨sa, i, false⟩ (PBKDF2_SHA256T tf pa sa oa j P S k buf dkLen) := by
  unfold PBKDF2_SHA256T
  refine ⟨fun i hi => ?_, fun i hi => ?_⟩
  · exact someTr_right fun _ _ => someTr_left (some_HInitT htf hi)
  · refine someTr_right fun _ _ => someTr_right fun _ _ => someTr_right fun _ _ => someTr_left ?_
    unfold HMAC_SHA256_UpdateT
    exact someTr_left (some_UpdateT htf hi)

end

/-! ### The mixing phase does not access the arrays of the hashing -/

section
variable {o : HObj} {n : Nat}

theorem h_ne {a : Arr} (ha : ∀ o, a ≠ .h o) : a ≠ .h o := ha o
theorem V_ne : Arr.V ≠ .h o := fun e => nomatch e
theorem XY_ne : Arr.XY ≠ .h o := fun e => nomatch e
theorem B_ne : Arr.B ≠ .h o := fun e => nomatch e
theorem x_ne : Arr.x ≠ .h o := fun e => nomatch e

theorem upto_ldT {a : Arr} {m : List W32} {f i : Nat} (h : a ≠ .h o) : AllTr (Upto (.h o) n) (SseSmix.ldT a m f i) := allTr_log (upto_other h)
theorem upto_stT {a : Arr} {m : List W32} {f i : Nat} {v : V4} (h : a ≠ .h o) : AllTr (Upto (.h o) n) (SseSmix.stT a m f i v) := allTr_log (upto_other h)
theorem upto_le32decT {B : Bytes} {i : Nat} : AllTr (Upto (.h o) n) (le32decT B i) := allTr_log (upto_other B_ne)
theorem upto_rdT' {α : Type} {a : Arr} {m : List α} {i : Nat} (h : a ≠ .h o) : AllTr (Upto (.h o) n) (rdT a m i) := upto_rdT fun e => absurd e h
theorem upto_rdSliceT' {α : Type} {a : Arr} {m : List α} {i k : Nat} (h : a ≠ .h o) : AllTr (Upto (.h o) n) (rdSliceT a m i k) := upto_rdSliceT fun e => absurd e h

macro "mix_ne" : tactic => `(tactic| first | exact V_ne | exact XY_ne | exact B_ne | exact x_ne | assumption)
macro "mix_op" : tactic => `(tactic| first
  | exact allTr_pure
  | exact upto_rdT' (by mix_ne) | exact upto_wrT (by mix_ne) | exact upto_rdSliceT' (by mix_ne) | exact upto_wrSliceT (by mix_ne)
  | exact upto_ldT (by mix_ne) | exact upto_stT (by mix_ne) | exact upto_le32decT)
macro "mix_ops" : tactic => `(tactic| repeat' first | mix_op | refine allTr_bind ?_ fun _ _ => ?_ | refine allTr_forLoop _ _ fun _ _ _ => ?_)

theorem upto_xorFromT {da sa : Arr} (hd : da ≠ .h o) (hs : sa ≠ .h o) {d s : List W32} {a b k : Nat} : AllTr (Upto (.h o) n) (xorFromT da sa d a s b k) := by
  unfold xorFromT
  mix_ops
theorem upto_cpyFromT {da sa : Arr} (hd : da ≠ .h o) (hs : sa ≠ .h o) {d s : List W32} {a b k : Nat} : AllTr (Upto (.h o) n) (cpyFromT da sa d a s b k) := by
  unfold cpyFromT
  mix_ops
theorem upto_qstepT {x : List W32} {d a b k : Nat} : AllTr (Upto (.h o) n) (Smix.qstepT x d a b k) := by
  unfold Smix.qstepT
  mix_ops
theorem upto_gen_salsaT {m : List W32} {f : Nat} : AllTr (Upto (.h o) n) (Gen.salsa20_8T m f) := by
  unfold Gen.salsa20_8T Smix.rounds8T
  refine allTr_bind (by mix_op) fun _ _ => ?_
  refine allTr_bind (by mix_op) fun _ _ => ?_
  refine allTr_bind (allTr_forLoop _ _ fun _ _ _ => ?_) fun _ _ => by mix_ops
  refine allTr_bind ?_ fun _ _ => ?_
  · unfold Smix.colStepT
    iterate 15 refine allTr_bind upto_qstepT fun _ _ => ?_
    exact upto_qstepT
  · unfold Smix.rowStepT
    iterate 15 refine allTr_bind upto_qstepT fun _ _ => ?_
    exact upto_qstepT
theorem upto_gen_blockmixT {m : List W32} {a b z r : Nat} : AllTr (Upto (.h o) n) (Gen.blockmixT m a b z r) := by
  unfold Gen.blockmixT xorWithinT cpyWithinT
  refine allTr_bind (by mix_ops) fun _ _ => allTr_forLoop _ _ fun _ _ _ => ?_
  refine allTr_bind (by mix_ops) fun _ _ => ?_
  refine allTr_bind upto_gen_salsaT fun _ _ => ?_
  refine allTr_bind (by mix_ops) fun _ _ => ?_
  refine allTr_bind (by mix_ops) fun _ _ => ?_
  refine allTr_bind upto_gen_salsaT fun _ _ => ?_
  mix_ops
theorem upto_sse_salsaT {m : List W32} {f : Nat} : AllTr (Upto (.h o) n) (SseSmix.salsa20_8T m f) := by
  unfold SseSmix.salsa20_8T
  mix_ops
theorem upto_sse_blockmixT {m : List W32} {a b z r : Nat} : AllTr (Upto (.h o) n) (SseSmix.blockmixT m a b z r) := by
  unfold SseSmix.blockmixT SseSmix.blkcpyWithinT SseSmix.blkxorWithinT
  refine allTr_bind (by mix_ops) fun _ _ => allTr_forLoop _ _ fun _ _ _ => ?_
  refine allTr_bind (by mix_ops) fun _ _ => ?_
  refine allTr_bind upto_sse_salsaT fun _ _ => ?_
  refine allTr_bind (by mix_ops) fun _ _ => ?_
  refine allTr_bind (by mix_ops) fun _ _ => ?_
  refine allTr_bind upto_sse_salsaT fun _ _ => ?_
  mix_ops

/-- The helpers do not access the arrays of the hashing. -/
structure OpsUpto (ops : Smix.OpsT) (o : HObj) (n : Nat) : Prop where
  cpyToV : ∀ V a XY b k, AllTr (Upto (.h o) n) (ops.cpyToV V a XY b k)
  xorV : ∀ XY a V b k, AllTr (Upto (.h o) n) (ops.xorV XY a V b k)
  blockmix : ∀ XY a b z r, AllTr (Upto (.h o) n) (ops.blockmix XY a b z r)
  integerify : ∀ XY a r, AllTr (Upto (.h o) n) (ops.integerify XY a r)

theorem upto_loopsT {ops : Smix.OpsT} (h : OpsUpto ops o n) {r N : Nat} {V XY : List W32} : AllTr (Upto (.h o) n) (Smix.loopsT ops r N V XY) := by
  unfold Smix.loopsT
  refine allTr_bind (allTr_forLoop _ _ fun _ _ _ => ?_) fun _ _ => ?_
  · refine allTr_bind (h.cpyToV _ _ _ _ _) fun _ _ => ?_
    refine allTr_bind (h.blockmix _ _ _ _ _) fun _ _ => ?_
    refine allTr_bind (h.cpyToV _ _ _ _ _) fun _ _ => ?_
    refine allTr_bind (h.blockmix _ _ _ _ _) fun _ _ => ?_
    exact allTr_pure
  · refine allTr_bind (allTr_forLoop _ _ fun _ _ _ => ?_) fun _ _ => allTr_pure
    refine allTr_bind (h.integerify _ _ _) fun _ _ => ?_
    refine allTr_bind (h.xorV _ _ _ _ _) fun _ _ => ?_
    refine allTr_bind (h.blockmix _ _ _ _ _) fun _ _ => ?_
    refine allTr_bind (h.integerify _ _ _) fun _ _ => ?_
    refine allTr_bind (h.xorV _ _ _ _ _) fun _ _ => ?_
    exact h.blockmix _ _ _ _ _

theorem gen_opsUpto : OpsUpto Gen.opsT o n where
  cpyToV _ _ _ _ _ := upto_cpyFromT V_ne XY_ne
  xorV _ _ _ _ _ := upto_xorFromT XY_ne V_ne
  blockmix _ _ _ _ _ := upto_gen_blockmixT
  integerify _ _ _ := by
    show AllTr _ (Gen.integerifyT _ _ _)
    unfold Gen.integerifyT
    mix_ops

theorem sse_opsUpto : OpsUpto SseSmix.opsT o n where
  cpyToV _ _ _ _ _ := by
    show AllTr _ (SseSmix.blkcpyFromT _ _ _ _ _ _ _)
    unfold SseSmix.blkcpyFromT
    mix_ops
  xorV _ _ _ _ _ := by
    show AllTr _ (SseSmix.blkxorFromT _ _ _ _ _ _ _)
    unfold SseSmix.blkxorFromT
    mix_ops
  blockmix _ _ _ _ _ := upto_sse_blockmixT
  integerify _ _ _ := by
    show AllTr _ (SseSmix.integerifyT _ _ _)
    unfold SseSmix.integerifyT
    mix_ops

theorem upto_smixImplT (f : SmixImpl) {B : Bytes} {r N : Nat} {V XY : List W32} : AllTr (Upto (.h o) n) (smixImplT f B r N V XY) := by
  cases f with
  | generic =>
    show AllTr _ (crypto_scrypt_smixT _ _ _ _ _)
    unfold crypto_scrypt_smixT
    refine allTr_bind (by mix_ops) fun _ _ => ?_
    refine allTr_bind (upto_loopsT gen_opsUpto) fun _ _ => ?_
    mix_ops
  | sse2 =>
    show AllTr _ (crypto_scrypt_smix_sse2T _ _ _ _ _)
    unfold crypto_scrypt_smix_sse2T
    refine allTr_bind (by mix_ops) fun _ _ => ?_
    refine allTr_bind (upto_loopsT sse_opsUpto) fun _ _ => ?_
    mix_ops

theorem upto_shift {α : Type} {k : Nat} {x : Logged α} (h : AllTr (Upto (.h o) n) x) : AllTr (Upto (.h o) n) (shift k x) := by
  intro a u e c hc
  cases x with
  | ok p =>
    obtain ⟨b, v⟩ := p
    have e2 : v.map (Acc.inBlock k) = u := (Prod.mk.inj (Res.ok.inj e)).2
    rw [← e2] at hc
    obtain ⟨d, hd, rfl⟩ := List.mem_map.1 hc
    have := h b v rfl d hd
    intro e3
    unfold Acc.inBlock at e3 ⊢
    split
    · rename_i hB
      rw [if_pos hB] at e3
      have e3 : d.arr = .h o := e3
      rw [hB] at e3
      cases e3
    · rename_i hB
      rw [if_neg hB] at e3
      exact this e3
  | ub => cases e
  | abort => cases e

theorem upto_mixBlocksT (szMax : Nat) (f : SmixImpl) {r p N : Nat} {B : Bytes} {V XY : List W32} : AllTr (Upto (.h o) n) (mixBlocksT szMax f r p N B V XY) := by
  unfold mixBlocksT
  refine allTr_forLoop _ _ fun _ _ _ => ?_
  refine allTr_bind upto_log_nil fun _ _ => ?_
  refine allTr_bind (upto_shift (upto_smixImplT f)) fun _ _ => ?_
  exact allTr_bind upto_log_nil fun _ _ => allTr_pure

end

end Scrypt
