import Verif.Model.GetoptHeap
import Verif.Proofs.Getopt
import Verif.Props.Getopt
import Mathlib.Tactic.Common
/-
C83: the memory of the option parser.
-/
namespace Scrypt.Props
open Spec

theorem goWarn_frame (w : OptWarn) (st : GoSt) : (goWarn w st).optreset = st.optreset ∧ (goWarn w st).opts = st.opts ∧ (goWarn w st).initialized = st.initialized := by
  unfold goWarn; split <;> (try split) <;> exact ⟨rfl, rfl, rfl⟩

/-- What a call of `getopt` leaves: no reset pending, the table untouched unless a reset was. -/
structure GoFrame (st st' : GoSt) : Prop where
  rst : st'.optreset = st.optreset
  opts : st'.opts = st.opts
  ini : st'.initialized = st.initialized

theorem GoFrame.refl (st : GoSt) : GoFrame st st := ⟨rfl, rfl, rfl⟩
theorem GoFrame.trans {a b c : GoSt} (h : GoFrame a b) (k : GoFrame b c) : GoFrame a c := ⟨k.1.trans h.1, k.2.trans h.2, k.3.trans h.3⟩

theorem goPack_frame {argv : List CStr} {st st' : GoSt} (h : goPack argv st = .ok st') : GoFrame st st' := by
  unfold goPack at h
  split at h
  · cases h; exact .refl _
  · obtain ⟨a, -, h⟩ := Res.bind_eq_ok.mp h
    obtain ⟨b, -, h⟩ := Res.bind_eq_ok.mp h
    split at h <;> cases h <;> exact ⟨rfl, rfl, rfl⟩

theorem goShort_frame {st : GoSt} {r : Option CStr × GoSt} (h : goShort st = .ok r) : GoFrame st r.2 := by
  unfold goShort at h
  split at h
  · cases h; exact .refl _
  · obtain ⟨a, -, h⟩ := Res.bind_eq_ok.mp h
    obtain ⟨b, -, h⟩ := Res.bind_eq_ok.mp h
    split at h <;> cases h <;> exact ⟨rfl, rfl, rfl⟩

theorem goLong_frame {argv : List CStr} {os : Option CStr} {st : GoSt} {r : Option CStr × GoSt} (h : goLong argv os st = .ok r) : GoFrame st r.2 := by
  unfold goLong at h
  split at h
  · cases h; exact .refl _
  · obtain ⟨a, -, h⟩ := Res.bind_eq_ok.mp h
    obtain ⟨c, -, h⟩ := Res.bind_eq_ok.mp h
    split at h
    · obtain ⟨d, -, h⟩ := Res.bind_eq_ok.mp h
      split at h
      · obtain ⟨e, -, h⟩ := Res.bind_eq_ok.mp h
        split at h <;> cases h <;> exact ⟨rfl, rfl, rfl⟩
      · cases h; exact .refl _
    · cases h; exact .refl _

theorem goWarn_frame' (w : OptWarn) (st : GoSt) (f : Nat) : GoFrame st { goWarn w st with opt_found := f } :=
  ⟨(goWarn_frame w st).1, (goWarn_frame w st).2.1, (goWarn_frame w st).2.2⟩

theorem argPacked_frame (st : GoSt) : GoFrame st (argPacked st) := by
  unfold argPacked; split <;> exact ⟨rfl, rfl, rfl⟩

theorem goArg_frame {argv : List CStr} {o : Opt} {os : CStr} {st st' : GoSt} (h : goArg argv o os st = .ok st') : GoFrame st st' := by
  obtain ⟨s1, h1, h⟩ := Res.bind_eq_ok.mp h
  obtain ⟨s2, h2, h⟩ := Res.bind_eq_ok.mp h
  have f1 : GoFrame (argPacked st) s1 := by
    obtain ⟨c, -, h1⟩ := Res.bind_eq_ok.mp h1
    split at h1 <;> cases h1 <;> exact ⟨rfl, rfl, rfl⟩
  have f2 : GoFrame s1 s2 := by
    unfold argNext at h2
    split at h2
    · obtain ⟨c, -, h2⟩ := Res.bind_eq_ok.mp h2
      cases h2; exact ⟨rfl, rfl, rfl⟩
    · cases h2; exact .refl _
  have f3 : GoFrame s2 st' := by
    cases h
    unfold argMissing
    split
    · exact goWarn_frame' _ _ _
    · exact .refl _
  exact (argPacked_frame st).trans (f1.trans (f2.trans f3))

theorem goFound_frame {argv : List CStr} {os : CStr} {st : GoSt} {r : GoRet × GoSt} (h : goFound argv os st = .ok r) : GoFrame st r.2 := by
  obtain ⟨f, -, h⟩ := Res.bind_eq_ok.mp h
  simp only at h
  split at h
  · cases h
    exact ⟨(goWarn_frame _ _).1, (goWarn_frame _ _).2.1, (goWarn_frame _ _).2.2⟩
  · obtain ⟨x, -, h⟩ := Res.bind_eq_ok.mp h
    cases x with
    | none => cases h
    | some o =>
      simp only at h
      split at h
      · obtain ⟨s1, h1, h⟩ := Res.bind_eq_ok.mp h
        cases h
        have := goArg_frame h1
        exact ⟨this.1, this.2, this.3⟩
      · obtain ⟨s1, h1, h⟩ := Res.bind_eq_ok.mp h
        cases h
        obtain ⟨c, -, h1⟩ := Res.bind_eq_ok.mp h1
        split at h1
        · cases h1
          exact ⟨(goWarn_frame _ _).1, (goWarn_frame _ _).2.1, (goWarn_frame _ _).2.2⟩
        · cases h1; exact ⟨rfl, rfl, rfl⟩

/-- After `getopt`: no reset pending; the table is as before, or gone if a reset was pending. -/
theorem getopt_frame {argv : List CStr} {st : GoSt} {r : GoRet × GoSt} (h : getopt argv st = .ok r) :
    r.2.optreset = false ∧ r.2.opts = (if st.optreset then none else st.opts) ∧ r.2.initialized = (if st.optreset then false else st.initialized) := by
  unfold getopt at h
  simp only at h
  generalize hs : (if st.optreset = true then goReset argv { st with optarg := none } else { st with optarg := none }) = s0 at h
  have f0 : s0.optreset = false ∧ s0.opts = (if st.optreset then none else st.opts) ∧ s0.initialized = (if st.optreset then false else st.initialized) := by
    rw [← hs]
    cases hr : st.optreset with
    | true => exact ⟨rfl, rfl, rfl⟩
    | false => exact ⟨rfl, rfl, rfl⟩
  have key : GoFrame s0 r.2 := by
    split at h
    · cases h; exact .refl _
    · split at h
      · cases h; exact .refl _
      · obtain ⟨s1, h1, h⟩ := Res.bind_eq_ok.mp h
        obtain ⟨⟨o2, s2⟩, h2, h⟩ := Res.bind_eq_ok.mp h
        obtain ⟨⟨o3, s3⟩, h3, h⟩ := Res.bind_eq_ok.mp h
        have f1 := goPack_frame h1
        have f2 := goShort_frame h2
        have f3 := goLong_frame h3
        have f := f1.trans (f2.trans f3)
        cases o3 with
        | none => cases h; exact f
        | some os => exact f.trans (goFound_frame h)
  exact ⟨key.1.trans f0.1, key.2.trans f0.2.1, key.3.trans f0.2.2⟩

/-- The memory is in order: the pointer is null or points to a block in use; no block is in use twice; the
handler is registered at most once, and if there is a table it is registered. -/
structure InOrder (h : GoHeap) : Prop where
  ptr : ∀ a, h.opts = some a → a ∈ h.live
  nodup : h.live.Nodup
  old : ∀ a ∈ h.live, a < h.made
  once : h.handlers = h.atexit_registered.toNat

/-- The pointer and the contents agree: while there is room for options the block is in use; no reset pending
means the handler is registered. -/
structure HeapAgrees (st : GoSt) (h : GoHeap) : Prop where
  order : InOrder h
  table : ∀ l, st.opts = some l → l ≠ [] → h.opts ≠ none
  reg : st.optreset = false ∨ h.opts ≠ none → h.atexit_registered = true

theorem freeOpts_ok {h : GoHeap} (i : InOrder h) : ∃ h', freeOpts h = .ok h' ∧ InOrder h' ∧ h'.opts = none ∧
    h'.live = (match h.opts with | none => h.live | some a => h.live.erase a) ∧ h'.atexit_registered = h.atexit_registered ∧ h'.handlers = h.handlers := by
  unfold freeOpts
  cases ho : h.opts with
  | none => exact ⟨h, rfl, i, ho, rfl, rfl, rfl⟩
  | some a =>
    simp only
    rw [if_pos (i.ptr a ho)]
    exact ⟨_, rfl, ⟨(fun b hb => by cases hb), i.nodup.erase a, fun b hb => i.old b (List.mem_of_mem_erase hb), i.once⟩, rfl, rfl, rfl, rfl⟩

theorem resetHeap_ok {h : GoHeap} (i : InOrder h) : ∃ h', resetHeap h = .ok h' ∧ InOrder h' ∧ h'.opts = none ∧
    h'.live = (match h.opts with | none => h.live | some a => h.live.erase a) ∧ h'.atexit_registered = true := by
  obtain ⟨h1, e1, i1, o1, l1, r1, n1⟩ := freeOpts_ok i
  unfold resetHeap
  rw [e1, Res.bind_ok]
  cases hr : h1.atexit_registered with
  | true => exact ⟨h1, rfl, i1, o1, l1, hr⟩
  | false =>
    refine ⟨_, rfl, ⟨i1.ptr, i1.nodup, i1.old, ?_⟩, o1, l1, rfl⟩
    have := i1.once
    rw [hr] at this
    simp only [Bool.toNat_false] at this
    simp [this]

theorem mallocOpts_ok {h : GoHeap} (i : InOrder h) (ok : Bool) : InOrder (mallocOpts ok h) := by
  unfold mallocOpts
  cases ok with
  | false => exact ⟨(fun a ha => by cases ha), i.nodup, i.old, i.once⟩
  | true =>
    refine ⟨fun a ha => ?_, ?_, ?_, i.once⟩
    · cases ha; exact List.mem_cons_self
    · exact List.nodup_cons.mpr ⟨fun hm => Nat.lt_irrefl _ (i.old _ hm), i.nodup⟩
    · intro a ha
      rcases List.mem_cons.mp ha with rfl | ha
      · exact Nat.lt_succ_self _
      · exact Nat.lt_succ_of_lt (i.old a ha)

theorem setrange_inv {ok : Bool} {n : Nat} {st st' : GoSt} (h : getopt_setrange ok n st = .ok st') :
    st.optreset = false ∧ st'.optreset = false ∧ st'.initialized = false ∧ st'.opts = some (List.replicate n none) ∧ (0 < n → ok = true) := by
  unfold getopt_setrange at h
  split at h
  · cases h
  rename_i hr
  obtain ⟨u, hc, h⟩ := Res.bind_eq_ok.mp h
  split at h
  · cases h
  rename_i hm
  cases h
  have hi : st.initialized = false := by
    cases hx : st.initialized with
    | false => rfl
    | true => rw [hx] at hc; cases hc
  have hr' : st.optreset = false := by simpa using hr
  refine ⟨hr', hr', hi, rfl, fun hn => ?_⟩
  cases ok with
  | true => rfl
  | false => exact absurd ⟨hn, rfl⟩ hm

theorem register_inv {os : CStr} {ln : Nat} {b : Bool} {st st' : GoSt} (h : getopt_register_opt os ln b st = .ok st') :
    st.optreset = false ∧ st'.optreset = false ∧ st'.initialized = st.initialized ∧ st.initialized = false ∧ ∃ l l', st.opts = some l ∧ l ≠ [] ∧ st'.opts = some l' := by
  unfold getopt_register_opt at h
  split at h
  · cases h
  rename_i hr
  have hr' : st.optreset = false := by simpa using hr
  obtain ⟨u, hc, h⟩ := Res.bind_eq_ok.mp h
  have hi : st.initialized = false := by
    cases hx : st.initialized with
    | false => rfl
    | true => rw [hx] at hc; cases hc
  cases ho : st.opts with
  | none => rw [ho] at h; cases h
  | some l =>
    rw [ho] at h
    simp only at h
    obtain ⟨slot, hs, h⟩ := Res.bind_eq_ok.mp h
    obtain ⟨_, -, h⟩ := Res.bind_eq_ok.mp h
    obtain ⟨bad, -, h⟩ := Res.bind_eq_ok.mp h
    cases bad with
    | true => cases h
    | false =>
      simp only [Bool.false_eq_true, if_false] at h
      obtain ⟨f, -, h⟩ := Res.bind_eq_ok.mp h
      split at h
      · cases h
      obtain ⟨l', -, h⟩ := Res.bind_eq_ok.mp h
      cases h
      refine ⟨hr', hr', rfl, hi, l, l', rfl, ?_, rfl⟩
      rintro rfl
      cases hs

theorem missing_inv {ln : Nat} {st st' : GoSt} (h : getopt_register_missing ln st = .ok st') :
    st.optreset = false ∧ st'.optreset = false ∧ st'.initialized = st.initialized ∧ st'.opts = st.opts := by
  unfold getopt_register_missing at h
  split at h
  · cases h
  rename_i hr
  have hr' : st.optreset = false := by simpa using hr
  obtain ⟨u, hc, h⟩ := Res.bind_eq_ok.mp h
  cases h
  exact ⟨hr', hr', rfl, rfl⟩

theorem heapAgrees_initial : HeapAgrees goInitial .initial :=
  ⟨⟨(fun a h => by cases h), List.nodup_nil, (fun a h => by cases h), rfl⟩, (fun l h => by cases h), (fun h => by
    rcases h with h | h
    · cases h
    · exact absurd rfl h)⟩

theorem getoptH_ok {argv : List CStr} {st : GoSt} {h : GoHeap} (g : HeapAgrees st h) {r : GoRet × GoSt} (e : getopt argv st = .ok r) :
    ∃ h', getoptH argv (st, h) = .ok (r.1, r.2, h') ∧ HeapAgrees r.2 h' ∧ (st.optreset = true → h'.opts = none ∧
      h'.live = (match h.opts with | none => h.live | some a => h.live.erase a)) ∧ (st.optreset = false → h' = h) := by
  obtain ⟨f1, f2, f3⟩ := getopt_frame e
  unfold getoptH
  cases hr : st.optreset with
  | true =>
    obtain ⟨h1, e1, i1, o1, l1, r1⟩ := resetHeap_ok g.order
    simp only [hr, if_true, e1, Res.bind_ok, e]
    refine ⟨h1, rfl, ⟨i1, fun l hl => ?_, fun _ => r1⟩, fun _ => ⟨o1, l1⟩, (fun h => by cases h)⟩
    rw [f2, hr, if_pos rfl] at hl
    cases hl
  | false =>
    simp only [hr, Bool.false_eq_true, if_false, Res.bind_ok, e]
    refine ⟨h, rfl, ⟨g.order, fun l hl => ?_, fun _ => g.reg (.inl hr)⟩, (fun h => by cases h), fun _ => rfl⟩
    rw [f2, hr, if_neg (by decide)] at hl
    exact g.table l hl

theorem setrangeH_ok {ok : Bool} {n : Nat} {st : GoSt} {h : GoHeap} (g : HeapAgrees st h) {st' : GoSt} (e : getopt_setrange ok n st = .ok st') :
    getopt_setrangeH ok n (st, h) = .ok (st', mallocOpts ok h) ∧ HeapAgrees st' (mallocOpts ok h) := by
  obtain ⟨r0, r1, -, o, hm⟩ := setrange_inv e
  refine ⟨by unfold getopt_setrangeH; simp only [e, Res.bind_ok, Res.pure_eq], mallocOpts_ok g.order ok, fun l hl hne => ?_, fun _ => ?_⟩
  · rw [o] at hl
    cases hl
    have : ok = true := hm (by cases n with | zero => exact absurd rfl hne | succ n => omega)
    subst this
    simp [mallocOpts]
  · have := g.reg (.inl r0)
    unfold mallocOpts
    split <;> exact this

theorem callH_ok {c : GoCall} {st : GoSt} {h : GoHeap} (g : HeapAgrees st h) {st' : GoSt} (e : callSt c st = .ok st') :
    ∃ h', callH c (st, h) = .ok (st', h') ∧ HeapAgrees st' h' := by
  cases c with
  | getopt argv =>
    obtain ⟨r, e1, e2⟩ := Res.bind_eq_ok.mp e
    cases e2
    obtain ⟨h', e3, g', -⟩ := getoptH_ok g e1
    exact ⟨h', by simp only [callH, e3, Res.bind_ok, Res.pure_eq], g'⟩
  | lookup os =>
    obtain ⟨v, e1, e2⟩ := Res.bind_eq_ok.mp e
    cases e2
    exact ⟨h, by simp only [callH, callSt, e1, Res.bind_ok, Res.pure_eq], g⟩
  | registerOpt os ln b =>
    obtain ⟨r0, r1, -, -, l, l', o, ne, o'⟩ := register_inv e
    refine ⟨h, by simp only [callH, e, Res.bind_ok, Res.pure_eq], ⟨g.order, fun _ _ _ => g.table l o ne, fun _ => g.reg (.inl r0)⟩⟩
  | registerMissing ln =>
    obtain ⟨r0, r1, -, o⟩ := missing_inv e
    exact ⟨h, by simp only [callH, e, Res.bind_ok, Res.pure_eq], ⟨g.order, fun l hl => g.table l (o ▸ hl), fun _ => g.reg (.inl r0)⟩⟩
  | setrange ok n =>
    obtain ⟨e1, g1⟩ := setrangeH_ok g e
    exact ⟨_, e1, g1⟩
  | initialized => cases e; exact ⟨h, rfl, ⟨g.order, g.table, g.reg⟩⟩
  | setReset => cases e; exact ⟨h, rfl, ⟨g.order, g.table, fun hx => by rcases hx with hx | hx; cases hx; exact g.reg (.inr hx)⟩⟩
  | setOpterr b => cases e; exact ⟨h, rfl, ⟨g.order, g.table, g.reg⟩⟩

theorem callsH_ok (cs : List GoCall) : ∀ {st : GoSt} {h : GoHeap} (_ : HeapAgrees st h) {st' : GoSt} (_ : callsSt cs st = .ok st'),
    ∃ h', callsH cs (st, h) = .ok (st', h') ∧ HeapAgrees st' h' := by
  induction cs with
  | nil => intro st h g st' e; cases e; exact ⟨h, rfl, g⟩
  | cons c cs ih =>
    intro st h g st' e
    obtain ⟨s1, e1, e2⟩ := Res.bind_eq_ok.mp e
    obtain ⟨h1, f1, g1⟩ := callH_ok g e1
    obtain ⟨h2, f2, g2⟩ := ih g1 e2
    exact ⟨h2, by rw [callsH, f1, Res.bind_ok, f2], g2⟩

theorem exitHeap_ok {st : GoSt} {h : GoHeap} (g : HeapAgrees st h) : ∃ h', exitHeap h = .ok h' ∧ h'.opts = none ∧
    h'.live = (match h.opts with | none => h.live | some a => h.live.erase a) := by
  unfold exitHeap
  rw [g.order.once]
  cases hr : h.atexit_registered with
  | true =>
    obtain ⟨h1, e1, -, o1, l1, -⟩ := freeOpts_ok g.order
    refine ⟨h1, ?_, o1, l1⟩
    simp only [Bool.toNat_true, runHandlers, getopt_atexit, e1, Res.bind_ok]
  | false =>
    have : h.opts = none := by
      cases ho : h.opts with
      | none => rfl
      | some a =>
        have := g.reg (.inr (by rw [ho]; exact Option.some_ne_none a))
        rw [hr] at this; cases this
    exact ⟨h, rfl, this, by rw [this]⟩

/-- C83: after every sequence of calls to getopt, its registration functions and the variables a caller may
set, in any order, as long as each call returns: no block was freed twice or freed without being allocated
(that would be undefined in `callsH`), the pointer to the table is null or points to a block in use - always
the latter when the table has room for options, so that every access to it hits allocated memory - no
address is in use twice, and the exit handler is registered at most once and whenever there is something to
free. At exit the handlers run without fault and the table is freed. -/
theorem C83_calls (cs : List GoCall) (st : GoSt) (hr : callsSt cs goInitial = .ok st) :
    ∃ h h', callsH cs (goInitial, .initial) = .ok (st, h) ∧ (∀ a, h.opts = some a → a ∈ h.live) ∧
      (∀ l, st.opts = some l → l ≠ [] → ∃ a, h.opts = some a ∧ a ∈ h.live) ∧ h.live.Nodup ∧ h.handlers ≤ 1 ∧
      exitHeap h = .ok h' ∧ h'.opts = none ∧ ∀ a, a ∈ h'.live ↔ a ∈ h.live ∧ h.opts ≠ some a := by
  obtain ⟨h, e, g⟩ := callsH_ok cs heapAgrees_initial hr
  obtain ⟨h', e', o', l'⟩ := exitHeap_ok g
  refine ⟨h, h', e, g.order.ptr, fun l hl hne => ?_, g.order.nodup, ?_, e', o', fun a => ?_⟩
  · cases ho : h.opts with
    | none => exact absurd ho (g.table l hl hne)
    | some a => exact ⟨a, rfl, g.order.ptr a ho⟩
  · rw [g.order.once]; cases h.atexit_registered <;> decide
  · rw [l']
    cases ho : h.opts with
    | none => exact ⟨fun hm => ⟨hm, (fun h => by cases h)⟩, fun hm => hm.1⟩
    | some b =>
      simp only
      rw [g.order.nodup.mem_erase_iff]
      exact ⟨fun ⟨x, y⟩ => ⟨y, fun hx => x (Option.some.inj hx).symm⟩, fun ⟨x, y⟩ => ⟨fun hx => y (by rw [hx]), x⟩⟩

/-! ### The loop -/

/-- Nothing but the table is in use. -/
def Tidy (h : GoHeap) : Prop := h.live = h.opts.toList

theorem tidy_erase {h : GoHeap} (t : Tidy h) : (match h.opts with | none => h.live | some a => h.live.erase a) = [] := by
  unfold Tidy at t
  rw [t]
  cases h.opts with
  | none => rfl
  | some a => simp

theorem registerLbl_inv {l : GoLbl} {ln : Nat} {st st' : GoSt} {h : GoHeap} (g : HeapAgrees st h) (e : registerLbl l ln st = .ok st') :
    HeapAgrees st' h ∧ st'.optreset = false := by
  cases l with
  | opt os =>
    obtain ⟨r0, r1, -, -, l, l', o, ne, o'⟩ := register_inv e
    exact ⟨⟨g.order, fun _ _ _ => g.table l o ne, fun _ => g.reg (.inl r0)⟩, r1⟩
  | optarg os =>
    obtain ⟨r0, r1, -, -, l, l', o, ne, o'⟩ := register_inv e
    exact ⟨⟨g.order, fun _ _ _ => g.table l o ne, fun _ => g.reg (.inl r0)⟩, r1⟩
  | missing =>
    obtain ⟨r0, r1, -, o⟩ := missing_inv e
    exact ⟨⟨g.order, fun l hl => g.table l (o ▸ hl), fun _ => g.reg (.inl r0)⟩, r1⟩

theorem switchInitH_ok {ok : Bool} {t : GoTable} : ∀ (n k : Nat), t.dflt + 1 - k = n → ∀ {dm : Bool} {st st' : GoSt} {h : GoHeap}, HeapAgrees st h → st.optreset = false → Tidy h →
    (dm = false → h.opts = none) → switchInit ok t k dm st = .ok st' →
    ∃ h', switchInitH ok t k dm (st, h) = .ok (st', h') ∧ HeapAgrees st' h' ∧ st'.optreset = false ∧ st'.initialized = true ∧ Tidy h' := by
  intro n
  induction n with
  | zero =>
    intro k hk dm st st' h g r td hd e
    rw [switchInit] at e
    rw [switchInitH]
    by_cases h1 : k = t.dflt + 1
    · rw [if_pos h1] at e ⊢
      cases e
      exact ⟨h, rfl, ⟨g.order, g.table, g.reg⟩, r, rfl, td⟩
    · rw [if_neg h1, if_pos (by omega)] at e
      cases e
  | succ n ih =>
    intro k hk dm st st' h g r td hd e
    rw [switchInit, if_neg (by omega), if_neg (by omega)] at e
    rw [switchInitH, if_neg (by omega), if_neg (by omega)]
    cases hl : (if k = 0 then none else t.at (k - 1)) with
    | some l =>
      rw [hl] at e
      simp only at e ⊢
      obtain ⟨s1, e1, e2⟩ := Res.bind_eq_ok.mp e
      rw [e1, Res.bind_ok]
      obtain ⟨g1, r1⟩ := registerLbl_inv g e1
      exact ih (k + 1) (by omega) g1 r1 td hd e2
    | none =>
      rw [hl] at e
      simp only at e ⊢
      obtain ⟨s1, e1, e2⟩ := Res.bind_eq_ok.mp e
      cases dm with
      | true =>
        cases e1
        rw [if_pos rfl, Res.bind_ok]
        exact ih (k + 1) (by omega) g r td (fun h => by cases h) e2
      | false =>
        simp only [defaultInit, Bool.false_eq_true, if_false] at e1 ⊢
        obtain ⟨f1, g1⟩ := setrangeH_ok g e1
        rw [f1, Res.bind_ok]
        refine ih (k + 1) (by omega) g1 (setrange_inv e1).2.1 ?_ (fun h => by cases h) e2
        have h0 := hd rfl
        unfold Tidy at td ⊢
        rw [h0] at td
        unfold mallocOpts
        cases ok
        · simp [td]
        · simp [td]

/-- The loop with the memory does what the loop does, and never has more than the table in use. -/
theorem getoptLoopH_ok {σ ε : Type} {ok : Bool} {t : GoTable} {argv : List CStr} {body : σ → SwEv → Except ε σ} : ∀ (fuel : Nat) {s : σ} {st : GoSt} {h : GoHeap},
    HeapAgrees st h → Tidy h → (st.optreset = true ∨ st.initialized = true) → ∀ {r : Option (Except ε σ × GoSt)}, getoptLoop ok t argv body fuel s st = .ok r →
    ∃ h', getoptLoopH ok t argv body fuel s (st, h) = .ok (r, h') ∧ Tidy h' ∧ (∃ st', HeapAgrees st' h') ∧ ∀ x st', r = some (x, st') → HeapAgrees st' h' := by
  intro fuel
  induction fuel with
  | zero =>
    intro s st h g td _ r e
    cases e
    exact ⟨h, rfl, td, ⟨st, g⟩, (fun x st' h => by cases h)⟩
  | succ fuel ih =>
    intro s st h g td hrun r e
    rw [getoptLoop] at e
    rw [getoptLoopH]
    obtain ⟨⟨ch, s1⟩, e1, e2⟩ := Res.bind_eq_ok.mp e
    obtain ⟨h1, f1, g1, k1, k2⟩ := getoptH_ok g e1
    obtain ⟨q1, q2, q3⟩ := getopt_frame e1
    have td1 : Tidy h1 := by
      cases hr : st.optreset with
      | true =>
        obtain ⟨o, l⟩ := k1 hr
        rw [tidy_erase td] at l
        unfold Tidy
        rw [l, o]; rfl
      | false => rw [k2 hr]; exact td
    rw [f1, Res.bind_ok]
    simp only at e2 q1 q2 q3 g1 ⊢
    by_cases hn : ch = .null
    · rw [if_pos hn] at e2 ⊢
      cases e2
      refine ⟨h1, rfl, td1, ⟨s1, g1⟩, fun x st' hx => ?_⟩
      cases hx
      exact g1
    rw [if_neg hn] at e2 ⊢
    by_cases hi : s1.initialized = true
    · rw [if_pos hi] at e2 ⊢
      obtain ⟨v, e3, e4⟩ := Res.bind_eq_ok.mp e2
      obtain ⟨ev, e5, e6⟩ := Res.bind_eq_ok.mp e4
      rw [e3, Res.bind_ok, e5, Res.bind_ok]
      cases ev with
      | none => exact ih g1 td1 (.inr hi) e6
      | some ev =>
        simp only at e6 ⊢
        cases hb : body s ev with
        | error x =>
          rw [hb] at e6
          cases e6
          refine ⟨h1, rfl, td1, ⟨s1, g1⟩, fun x st' hx => ?_⟩
          cases hx
          exact g1
        | ok s' =>
          rw [hb] at e6
          exact ih g1 td1 (.inr hi) e6
    · rw [if_neg hi] at e2 ⊢
      obtain ⟨s2, e3, e4⟩ := Res.bind_eq_ok.mp e2
      have hr : st.optreset = true := by
        rcases hrun with h | h
        · exact h
        · cases hr : st.optreset with
          | true => rfl
          | false =>
            rw [hr, if_neg (by decide)] at q3
            exact absurd (q3.trans h) hi
      obtain ⟨h2, f2, g2, r2, i2, td2⟩ := switchInitH_ok _ 0 rfl g1 q1 td1 (fun _ => (k1 hr).1) e3
      rw [f2, Res.bind_ok]
      exact ih g2 td2 (.inr i2) e4

theorem parsesH_ok {σ ε : Type} (js : List (ParseJob σ ε)) : ∀ {st : GoSt} {h : GoHeap}, HeapAgrees st h → Tidy h → ∀ {r : Option GoSt}, parses js st = .ok r →
    ∃ h' st', parsesH js (st, h) = .ok (r, h') ∧ Tidy h' ∧ HeapAgrees st' h' := by
  induction js with
  | nil => intro st h g td r e; cases e; exact ⟨h, st, rfl, td, g⟩
  | cons j js ih =>
    intro st h g td r e
    obtain ⟨x, e1, e2⟩ := Res.bind_eq_ok.mp e
    have g0 : HeapAgrees { st with optreset := true } h := ⟨g.order, g.table, fun hx => by rcases hx with hx | hx; cases hx; exact g.reg (.inr hx)⟩
    obtain ⟨h1, f1, td1, ⟨s1, g1⟩, hk⟩ := getoptLoopH_ok j.fuel g0 td (.inl rfl) e1
    rw [parsesH]
    simp only
    rw [f1, Res.bind_ok]
    cases x with
    | none => cases e2; exact ⟨h1, s1, rfl, td1, g1⟩
    | some p =>
      obtain ⟨x, s2⟩ := p
      exact ih (hk x s2 rfl) td1 e2

/-- C83: a program that parses any number of command lines with GETOPT loops, with any tables, leaving each
loop at its end or in the middle, with optreset set before each, and then exits at any time - also in the
middle of a parse - has at every moment at most one block in use, the table, and none after exit. -/
theorem C83_parses {σ ε : Type} (js : List (ParseJob σ ε)) (r : Option GoSt) (hr : parses js goInitial = .ok r) :
    ∃ h h', parsesH js (goInitial, .initial) = .ok (r, h) ∧ h.live = h.opts.toList ∧ h.live.length ≤ 1 ∧ exitHeap h = .ok h' ∧ h'.live = [] := by
  obtain ⟨h, st, e, td, g⟩ := parsesH_ok js heapAgrees_initial rfl hr
  obtain ⟨h', e', -, l'⟩ := exitHeap_ok g
  rw [tidy_erase td] at l'
  refine ⟨h, h', e, td, ?_, e', l'⟩
  rw [show h.live = h.opts.toList from td]
  cases h.opts <;> simp

/-- C83, the premise is met: C32 says that a loop over a usable table does not abort and is not undefined; here
two of them, one after the other, each allocating its table. -/
theorem C83_two {t t' : GoTable} (hw : t.WF) (hw' : t'.WF) {a a' : List CStr} (ha : a ≠ []) (ha' : a' ≠ []) (hz : NoNul a) (hz' : NoNul a') :
    ∃ n, ∀ fuel, n ≤ fuel → ∃ st h h', parsesH [ParseJob.mk true t a collect [] fuel, ParseJob.mk true t' a' collect [] fuel] (goInitial, .initial) = .ok (some st, h) ∧
      h.live.length ≤ 1 ∧ exitHeap h = .ok h' ∧ h'.live = [] := by
  obtain ⟨evs, ops, -, -, H⟩ := C32_getopt t hw a ha hz { goInitial with optreset := true } rfl
  have H2 := fun (st : GoSt) => C32_getopt t' hw' a' ha' hz' { st with optreset := true } rfl
  obtain ⟨evs2, ops2, hP2, -, -⟩ := H2 goInitial
  refine ⟨evs.length + evs2.length + 2, fun fuel hf => ?_⟩
  obtain ⟨s1, e1, -, -⟩ := H fuel (by omega)
  obtain ⟨evs3, ops3, -, hu, H3⟩ := H2 s1
  obtain ⟨rfl, rfl⟩ := hu _ _ hP2
  obtain ⟨s2, e2, -, -⟩ := H3 fuel (by omega)
  have hp : parses [ParseJob.mk true t a collect [] fuel, ParseJob.mk true t' a' collect [] fuel] goInitial = .ok (some s2) := by
    simp only [parses, e1, Res.bind_ok, e2]
  obtain ⟨h, h', f, -, n, x, y⟩ := C83_parses _ _ hp
  exact ⟨s2, h, h', f, n, x, y⟩

/-- The premise of C83_calls is met by a run that allocates, registers, is reset and allocates again: one block
is in use, the second. -/
example : ∃ st, callsSt [.getopt [['x']], .setrange true 3, .registerOpt ['-', 'a'] 1 true, .initialized, .getopt [['x']], .setReset,
      .getopt [['y']], .setrange true 2] goInitial = .ok st ∧
    callsH [.getopt [['x']], .setrange true 3, .registerOpt ['-', 'a'] 1 true, .initialized, .getopt [['x']], .setReset,
      .getopt [['y']], .setrange true 2] (goInitial, .initial) = .ok (st, ⟨some 1, true, [1], 2, 1⟩) :=
  ⟨_, rfl, rfl⟩

end Scrypt.Props
