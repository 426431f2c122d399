/-
Basic vocabulary shared by specifications and models: machine words, byte strings, the result
type that makes undefined behaviour and `abort()` explicit outcomes, and bounds-checked memory.
-/
namespace Scrypt

/-- `uint8_t` -/
abbrev Byte := BitVec 8
/-- `uint32_t` -/
abbrev W32 := BitVec 32
/-- `uint64_t` -/
abbrev W64 := BitVec 64
/-- A byte string / the contents of a `uint8_t` array. -/
abbrev Bytes := List Byte

/-- Outcome of running a piece of C: a value, undefined behaviour (out-of-bounds access, bad shift,
out-of-range float conversion), or process abort (`assert` failure, `abort()`). -/
inductive Res (α : Type) where
  | ok (a : α)
  | ub
  | abort
  deriving Repr, DecidableEq

namespace Res

/-- Sequencing: the first `ub`/`abort` wins. -/
@[inline] def bind {α β : Type} (x : Res α) (f : α → Res β) : Res β :=
  match x with
  | .ok a => f a
  | .ub => .ub
  | .abort => .abort

instance : Monad Res where
  pure := .ok
  bind := Res.bind

@[simp] theorem pure_eq {α : Type} (a : α) : (pure a : Res α) = .ok a := rfl
@[simp] theorem bind_ok {α β : Type} (a : α) (f : α → Res β) : ((Res.ok a) >>= f) = f a := rfl
@[simp] theorem bind_ub {α β : Type} (f : α → Res β) : ((Res.ub : Res α) >>= f) = .ub := rfl
@[simp] theorem bind_abort {α β : Type} (f : α → Res β) : ((Res.abort : Res α) >>= f) = .abort := rfl
@[simp] theorem map_ok {α β : Type} (a : α) (f : α → β) : (f <$> (Res.ok a)) = .ok (f a) := rfl
@[simp] theorem map_ub {α β : Type} (f : α → β) : (f <$> (Res.ub : Res α)) = .ub := rfl
@[simp] theorem map_abort {α β : Type} (f : α → β) : (f <$> (Res.abort : Res α)) = .abort := rfl

instance : LawfulMonad Res :=
  LawfulMonad.mk'
    (id_map := by intro α x; cases x <;> rfl)
    (pure_bind := by intros; rfl)
    (bind_assoc := by intro α β γ x f g; cases x <;> rfl)

theorem bind_eq_ok {α β : Type} {x : Res α} {f : α → Res β} {b : β} :
    (x >>= f) = .ok b ↔ ∃ a, x = .ok a ∧ f a = .ok b := by
  cases x <;> simp

end Res

/-- C `assert(c)`. -/
def cassert (c : Bool) : Res Unit := if c then .ok () else .abort

@[simp] theorem cassert_true : cassert true = .ok () := rfl
@[simp] theorem cassert_false : cassert false = .abort := rfl

/-! ### Bounds-checked memory -/

/-- Read `m[i]`. -/
def rd {α : Type} (m : List α) (i : Nat) : Res α :=
  match m[i]? with
  | some a => .ok a
  | none => .ub

/-- Write `m[i] = x`. -/
def wr {α : Type} (m : List α) (i : Nat) (x : α) : Res (List α) :=
  if i < m.length then .ok (m.set i x) else .ub

/-- Read `len` elements starting at `&m[off]`. -/
def rdSlice {α : Type} (m : List α) (off len : Nat) : Res (List α) :=
  if off + len ≤ m.length then .ok ((m.drop off).take len) else .ub

/-- `memcpy(&m[off], src, |src|)`. -/
def wrSlice {α : Type} (m : List α) (off : Nat) (src : List α) : Res (List α) :=
  if off + src.length ≤ m.length then .ok (m.take off ++ src ++ m.drop (off + src.length)) else .ub

theorem rd_ok {α : Type} {m : List α} {i : Nat} (h : i < m.length) : rd m i = .ok m[i] := by
  simp [rd, List.getElem?_eq_getElem h]

theorem rd_some {α : Type} {m : List α} {i : Nat} {a : α} (h : m[i]? = some a) : rd m i = .ok a := by
  simp [rd, h]

theorem wr_ok {α : Type} {m : List α} {i : Nat} (x : α) (h : i < m.length) :
    wr m i x = .ok (m.set i x) := by simp [wr, h]

theorem rdSlice_ok {α : Type} {m : List α} {off len : Nat} (h : off + len ≤ m.length) :
    rdSlice m off len = .ok ((m.drop off).take len) := by simp [rdSlice, h]

theorem wrSlice_ok {α : Type} {m : List α} {off : Nat} {src : List α}
    (h : off + src.length ≤ m.length) :
    wrSlice m off src = .ok (m.take off ++ src ++ m.drop (off + src.length)) := by
  simp [wrSlice, h]

/-! ### Loops -/

/-- `for (i = 0; i < n; i++) s = f(s, i);` -/
def forLoop {σ : Type} (n : Nat) (f : σ → Nat → Res σ) (s : σ) : Res σ :=
  match n with
  | 0 => .ok s
  | n + 1 => forLoop n f s >>= fun s' => f s' n

@[simp] theorem forLoop_zero {σ : Type} (f : σ → Nat → Res σ) (s : σ) : forLoop 0 f s = .ok s := rfl
theorem forLoop_succ {σ : Type} (n : Nat) (f : σ → Nat → Res σ) (s : σ) :
    forLoop (n + 1) f s = (forLoop n f s >>= fun s' => f s' n) := rfl

/-- The loop-invariant rule. -/
theorem forLoop_inv {σ : Type} {n : Nat} {f : σ → Nat → Res σ} {s : σ} (P : Nat → σ → Prop)
    (h0 : P 0 s) (hstep : ∀ i s, i < n → P i s → ∃ s', f s i = .ok s' ∧ P (i + 1) s') :
    ∃ s', forLoop n f s = .ok s' ∧ P n s' := by
  induction n with
  | zero => exact ⟨s, rfl, h0⟩
  | succ n ih =>
    obtain ⟨s', hs', hp⟩ := ih (fun i s hi hp => hstep i s (by omega) hp)
    obtain ⟨s'', hs'', hp'⟩ := hstep n s' (by omega) hp
    exact ⟨s'', by simp [forLoop_succ, hs', hs''], hp'⟩

/-- `for (k = 0; k < n; k++) T[k] = f(T[k], U[k]);` -/
theorem forLoop_zipWith {α β : Type} (f : α → β → α) (T : List α) (U : List β) (n : Nat)
    (hT : n ≤ T.length) (hU : n ≤ U.length) :
    forLoop n (fun T k => do
      let t ← rd T k
      let u ← rd U k
      wr T k (f t u)) T = .ok (List.zipWith f (T.take n) (U.take n) ++ T.drop n) := by
  induction n with
  | zero => simp
  | succ n ih =>
    rw [forLoop_succ, ih (by omega) (by omega), Res.bind_ok]
    have hz : (List.zipWith f (T.take n) (U.take n)).length = n := by simp; omega
    have h1 : (List.zipWith f (T.take n) (U.take n) ++ T.drop n)[n]? = some T[n] := by
      rw [List.getElem?_append_right (by omega), hz, Nat.sub_self, List.getElem?_drop,
        Nat.add_zero, List.getElem?_eq_getElem]
    rw [rd_some h1, rd_ok (show n < U.length by omega)]
    simp only [Res.bind_ok]
    rw [wr_ok _ (by simp; omega), List.set_append_right _ _ (by omega), hz, Nat.sub_self]
    rw [List.drop_eq_getElem_cons (show n < T.length by omega), List.set_cons_zero,
      List.take_succ_eq_append_getElem (show n < T.length by omega),
      List.take_succ_eq_append_getElem (show n < U.length by omega),
      List.zipWith_append (by simp; omega)]
    simp

/-- A loop whose body never fails is an iteration of the pure body. -/
def iter {σ : Type} (n : Nat) (f : σ → Nat → σ) (s : σ) : σ :=
  match n with
  | 0 => s
  | n + 1 => f (iter n f s) n

/-! ### Splitting a list into blocks -/

/-- Consecutive blocks of `n` elements (the last one may be short). -/
def blocks {α : Type} (n : Nat) (l : List α) : List (List α) :=
  (List.range ((l.length + n - 1) / n)).map fun i => (l.drop (n * i)).take n

theorem blocks_nil {α : Type} (n : Nat) (hn : 0 < n) : blocks n ([] : List α) = [] := by
  simp only [blocks, List.length_nil, Nat.zero_add, Nat.div_eq_of_lt (show n - 1 < n by omega),
    List.range_zero, List.map_nil]

theorem blocks_cons {α : Type} (n : Nat) (hn : 0 < n) (l : List α) (h : 0 < l.length) :
    blocks n l = l.take n :: blocks n (l.drop n) := by
  have e : (l.length + n - 1) / n = (l.length - n + n - 1) / n + 1 := by
    rcases Nat.lt_or_ge l.length n with h1 | h1
    · have : l.length - n = 0 := by omega
      rw [this, Nat.zero_add, Nat.div_eq_of_lt (show n - 1 < n by omega),
        show l.length + n - 1 = l.length - 1 + n by omega, Nat.add_div_right _ hn,
        Nat.div_eq_of_lt (by omega)]
    · rw [show l.length + n - 1 = (l.length - n + n - 1) + n by omega, Nat.add_div_right _ hn]
  simp only [blocks, e, List.range_succ_eq_map, List.map_cons, List.map_map, List.length_drop,
    Nat.mul_zero, List.drop_zero, List.cons.injEq, true_and]
  apply List.map_congr_left
  intro i _
  simp only [Function.comp_apply, List.drop_drop, Nat.mul_succ, Nat.add_comm]

/-- Byte-wise exclusive or (to the shorter length). -/
def xorBytes (a b : Bytes) : Bytes := List.zipWith (· ^^^ ·) a b

end Scrypt
