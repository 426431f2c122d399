import Verif.Spec.Diagnostics
import Verif.Proofs.Threads
import Verif.Props.Misc
import Mathlib.Tactic.ByContra
import Mathlib.Tactic.Common
/-
C72: diagnostics.  For every history of calls of warnp.h: where a message goes, what it consists of, what happens to errno and to the module's memory; and
messages of several threads.
-/
namespace Scrypt.Props
open Scrypt.Spec

/-- The name that messages carry after these calls: the last component of the path set last, or "(unknown)" if there is none or it could not be stored. -/
def ShownName (ops : List WarnOp) (nm : CStr) : Prop :=
  match (names ops).getLast? with
  | some (true, path) => LastComponent path nm
  | _ => nm = "(unknown)".toList

/-- The state agrees with the history. -/
structure Agrees (ops : List WarnOp) (s : WarnSt) : Prop where
  init : s.initialized = !(names ops).isEmpty
  name : s.name = (names ops).getLast?.bind fun x => warnp_setprogname x.1 x.2
  dest : s.use_syslog = toSyslog ops
  prio : s.syslog_priority = prioritySet ops
  errno : s.errno = errnoNow ops

theorem warnWarn_st (strerror : Int → CStr) (s : WarnSt) (m : Option CStr) (c : Int) : (warnWarn strerror s m c).1 = s := rfl
theorem warnWarnx_st (s : WarnSt) (m : Option CStr) (c : Int) : (warnWarnx s m c).1 = s := rfl

theorem agrees_step (strerror : Int → CStr) {ops : List WarnOp} {s : WarnSt} (h : Agrees ops s) (o : WarnOp) :
    Agrees (ops ++ [o]) (warnStep strerror s o).1 := by
  obtain ⟨h1, h2, h3, h4, h5⟩ := h
  cases o with
  | setprogname ok p =>
    have e : (warnStep strerror s (.setprogname ok p)).1 = { s with name := warnp_setprogname ok p, initialized := true } := by
      show (warnSetprogname s ok p).1 = _
      unfold warnSetprogname
      cases s with
      | mk i n u q e => cases i <;> rfl
    rw [e]
    constructor
    · simp [names]
    · simp [names]
    · simpa [toSyslog] using h3
    · simpa [prioritySet] using h4
    · simpa [errnoNow] using h5
  | warn m c =>
    rw [show (warnStep strerror s (.warn m c)).1 = s from rfl]
    constructor
    · simpa [names] using h1
    · simpa [names] using h2
    · simpa [toSyslog] using h3
    · simpa [prioritySet] using h4
    · simpa [errnoNow] using h5
  | warnx m c =>
    rw [show (warnStep strerror s (.warnx m c)).1 = s from rfl]
    constructor
    · simpa [names] using h1
    · simpa [names] using h2
    · simpa [toSyslog] using h3
    · simpa [prioritySet] using h4
    · simpa [errnoNow] using h5
  | warnp m c =>
    have e : (warnStep strerror s (.warnp m c)).1 = { s with errno := 0 } := by
      unfold warnStep
      by_cases hz : s.errno = 0
      · simp only [hz, ne_eq, not_true_eq_false, if_false, warnWarnx_st]
        cases s; simp_all
      · simp only [ne_eq, hz, not_false_eq_true, if_true, warnWarn_st]
    rw [e]
    constructor
    · simpa [names] using h1
    · simpa [names] using h2
    · simpa [toSyslog] using h3
    · simpa [prioritySet] using h4
    · simp [errnoNow]
  | warn0 m c =>
    rw [show (warnStep strerror s (.warn0 m c)).1 = { s with errno := 0 } from rfl]
    constructor
    · simpa [names] using h1
    · simpa [names] using h2
    · simpa [toSyslog] using h3
    · simpa [prioritySet] using h4
    · simp [errnoNow]
  | syslog e =>
    rw [show (warnStep strerror s (.syslog e)).1 = { s with use_syslog := e } from rfl]
    constructor
    · simpa [names] using h1
    · simpa [names] using h2
    · simp [toSyslog]
    · simpa [prioritySet] using h4
    · simpa [errnoNow] using h5
  | priority p =>
    rw [show (warnStep strerror s (.priority p)).1 = { s with syslog_priority := p } from rfl]
    constructor
    · simpa [names] using h1
    · simpa [names] using h2
    · simpa [toSyslog] using h3
    · simp [prioritySet]
    · simpa [errnoNow] using h5
  | setErrno e =>
    rw [show (warnStep strerror s (.setErrno e)).1 = { s with errno := e } from rfl]
    constructor
    · simpa [names] using h1
    · simpa [names] using h2
    · simpa [toSyslog] using h3
    · simpa [prioritySet] using h4
    · simp [errnoNow]

theorem agrees_initial : Agrees [] WarnSt.initial := ⟨rfl, rfl, rfl, rfl, rfl⟩

theorem agrees_run (strerror : Int → CStr) (ops : List WarnOp) : ∀ (pre : List WarnOp) (s : WarnSt), Agrees pre s →
    Agrees (pre ++ ops) (warnRun strerror s ops).1 := by
  induction ops with
  | nil => intro pre s h; simpa [warnRun] using h
  | cons o ops ih =>
    intro pre s h
    have := ih (pre ++ [o]) _ (agrees_step strerror h o)
    simpa [warnRun] using this

theorem shownName_of {ops : List WarnOp} {s : WarnSt} (h : Agrees ops s) : ShownName ops (s.name.getD "(unknown)".toList) := by
  unfold ShownName
  rw [h.name]
  cases hl : (names ops).getLast? with
  | none => rfl
  | some x =>
    obtain ⟨ok, p⟩ := x
    cases ok with
    | false => rfl
    | true =>
      obtain ⟨nm, e, hc⟩ := C50_progname p
      simp only [Option.bind_some, e, Option.getD_some]
      exact hc

/-- The effects of a message: one line on stderr, written with the stream locked, or one entry in the log. -/
def Delivered (ops : List WarnOp) (ev : List WarnEv) (msg err : Option CStr) : Prop :=
  if toSyslog ops then ev = [.syslog (prioritySet ops) (entry msg err)]
  else ∃ (nm : CStr) (pieces : List CStr), ShownName ops nm ∧ ev = .flockfile :: pieces.map WarnEv.stderr ++ [.funlockfile] ∧ pieces.flatten = line nm msg err

theorem delivered_warn (strerror : Int → CStr) {ops : List WarnOp} {s : WarnSt} (h : Agrees ops s) (m : Option CStr) (c : Int) :
    Delivered ops (warnWarn strerror s m c).2 m (some (strerror (errnoNow ops))) := by
  have hn := shownName_of h
  unfold Delivered warnWarn
  rw [← h.dest, ← h.prio, ← h.errno]
  cases s.use_syslog with
  | true => cases m <;> simp [entry, WARNP_SYSLOG_MAX_LINE]
  | false =>
    refine ⟨_, s.name.getD "(unknown)".toList :: ((match m with | some m => [": ".toList, m] | none => []) ++ [": ".toList ++ strerror s.errno ++ ['\n']]), hn, ?_, ?_⟩
    · cases m <;> simp [msgEv]
    · cases m <;> simp [line]

theorem delivered_warnx {ops : List WarnOp} {s : WarnSt} (h : Agrees ops s) (m : Option CStr) (c : Int) :
    Delivered ops (warnWarnx s m c).2 m none := by
  have hn := shownName_of h
  unfold Delivered warnWarnx
  rw [← h.dest, ← h.prio]
  cases s.use_syslog with
  | true => cases m <;> simp [entry, WARNP_SYSLOG_MAX_LINE]
  | false =>
    refine ⟨_, s.name.getD "(unknown)".toList :: ((match m with | some m => [": ".toList, m] | none => []) ++ [['\n']]), hn, ?_, ?_⟩
    · cases m <;> simp [msgEv]
    · cases m <;> simp [line]

/-- C72. After any history of calls, a message goes to the place asked for last and consists of exactly the name set last (stderr only), the caller's text, and
the text of errno where the function reports errno: always for `warn`, if errno is not 0 for `warnp`, never for `warnx` and `warn0`. -/
theorem C72_message (strerror : Int → CStr) (ops : List WarnOp) (o : WarnOp) (m : Option CStr) (b : Bool)
    (hm : messageOf (errnoNow ops) o = some (m, b)) :
    Delivered ops (warnStep strerror (warnRun strerror .initial ops).1 o).2 m (if b then some (strerror (errnoNow ops)) else none) := by
  have h := agrees_run strerror ops [] _ agrees_initial
  rw [List.nil_append] at h
  generalize (warnRun strerror .initial ops).1 = s at *
  cases o with
  | warn m' c =>
    obtain ⟨rfl, rfl⟩ := Prod.mk.inj (Option.some.inj hm)
    exact delivered_warn strerror h _ c
  | warnx m' c =>
    obtain ⟨rfl, rfl⟩ := Prod.mk.inj (Option.some.inj hm)
    exact delivered_warnx h _ c
  | warn0 m' c =>
    obtain ⟨rfl, rfl⟩ := Prod.mk.inj (Option.some.inj hm)
    exact delivered_warnx h _ c
  | warnp m' c =>
    obtain ⟨rfl, rfl⟩ := Prod.mk.inj (Option.some.inj hm)
    have he := h.errno
    have hs : (warnStep strerror s (.warnp m' c)).2 = if s.errno ≠ 0 then (warnWarn strerror s m' c).2 else (warnWarnx s m' c).2 := by
      unfold warnStep
      by_cases hz : s.errno = 0 <;> simp [hz]
    rw [hs, he]
    by_cases hz : errnoNow ops = 0
    · rw [if_neg (fun x => x hz), if_neg (by simp [hz])]
      exact delivered_warnx h m' c
    · rw [if_pos hz, if_pos (by simp [hz])]
      exact delivered_warn strerror h m' c
  | _ => cases hm

/-- C72. errno: `warn` and `warnx` leave it as it was whatever printing does to it, `warnp` and `warn0` clear it, nothing else touches it. -/
theorem C72_errno (strerror : Int → CStr) (ops : List WarnOp) : (warnRun strerror .initial ops).1.errno = errnoNow ops := by
  have h := agrees_run strerror ops [] _ agrees_initial
  rw [List.nil_append] at h
  exact h.errno

/-- C72. Calls that are not messages print nothing. -/
theorem C72_silent (strerror : Int → CStr) (ops : List WarnOp) (o : WarnOp) (hm : messageOf (errnoNow ops) o = none) :
    ∀ e ∈ (warnStep strerror (warnRun strerror .initial ops).1 o).2, e = .closelog ∨ e = .strdup ∨ e = .free ∨ e = .atexit := by
  generalize (warnRun strerror .initial ops).1 = s
  cases o with
  | setprogname ok p =>
    intro e he
    simp only [warnStep, warnSetprogname, freeName] at he
    cases s with
    | mk i n u q er => cases i <;> cases n <;> cases ok <;> simp [warnp_setprogname] at he <;> (try simp_all) <;> (try tauto)
  | syslog e =>
    intro x hx
    simp only [warnStep] at hx
    split at hx <;> simp_all
  | priority p => intro e he; simp [warnStep] at he
  | setErrno x => intro e he; simp [warnStep] at he
  | _ => cases hm

theorem warnRun_append (strerror : Int → CStr) (a b : List WarnOp) : ∀ s, (warnRun strerror s (a ++ b)).2.flatten =
    (warnRun strerror s a).2.flatten ++ (warnRun strerror (warnRun strerror s a).1 b).2.flatten := by
  induction a with
  | nil => intro s; rfl
  | cons o a ih => intro s; simp [warnRun, ih]

theorem warn_counts (strerror : Int → CStr) (ops : List WarnOp) : ∀ s : WarnSt,
    s.name.isSome.toNat + (warnRun strerror s ops).2.flatten.count .strdup =
      (warnRun strerror s ops).2.flatten.count .free + (warnRun strerror s ops).1.name.isSome.toNat ∧
    s.initialized.toNat + (warnRun strerror s ops).2.flatten.count .atexit = (warnRun strerror s ops).1.initialized.toNat := by
  induction ops with
  | nil => intro s; simp [warnRun]
  | cons o ops ih =>
    intro s
    have key : s.name.isSome.toNat + (warnStep strerror s o).2.count .strdup =
          (warnStep strerror s o).2.count .free + (warnStep strerror s o).1.name.isSome.toNat ∧
        s.initialized.toNat + (warnStep strerror s o).2.count .atexit = (warnStep strerror s o).1.initialized.toNat := by
      have hw : ∀ m c, (warnWarn strerror s m c).2.count .strdup = 0 ∧ (warnWarn strerror s m c).2.count .free = 0 ∧ (warnWarn strerror s m c).2.count .atexit = 0 := by
        intro m c
        unfold warnWarn
        cases s.use_syslog <;> cases m <;> simp [msgEv]
      have hx : ∀ m c, (warnWarnx s m c).2.count .strdup = 0 ∧ (warnWarnx s m c).2.count .free = 0 ∧ (warnWarnx s m c).2.count .atexit = 0 := by
        intro m c
        unfold warnWarnx
        cases s.use_syslog <;> cases m <;> simp [msgEv]
      cases o with
      | setprogname ok p =>
        simp only [warnStep, warnSetprogname, freeName]
        cases s with
        | mk i n u q er => cases i <;> cases n <;> cases ok <;> simp [warnp_setprogname]
      | warn m c =>
        obtain ⟨a, b, d⟩ := hw m c
        simp only [warnStep, a, b, d, warnWarn_st]; simp
      | warnx m c =>
        obtain ⟨a, b, d⟩ := hx m c
        simp only [warnStep, a, b, d, warnWarnx_st]; simp
      | warn0 m c =>
        obtain ⟨a, b, d⟩ := hx m c
        simp only [warnStep, a, b, d, warnWarnx_st]; simp
      | warnp m c =>
        obtain ⟨a, b, d⟩ := hx m c
        obtain ⟨a', b', d'⟩ := hw m c
        unfold warnStep
        by_cases hz : s.errno = 0
        · simp only [hz, ne_eq, not_true_eq_false, if_false, a, b, d, warnWarnx_st]; simp
        · simp only [ne_eq, hz, not_false_eq_true, if_true, a', b', d', warnWarn_st]; simp
      | syslog e => simp only [warnStep]; split <;> simp
      | priority p => simp [warnStep]
      | setErrno e => simp [warnStep]
    obtain ⟨k1, k2⟩ := key
    obtain ⟨i1, i2⟩ := ih (warnStep strerror s o).1
    simp only [warnRun, List.flatten_cons, List.count_append]
    omega

/-- C72. The memory for names: at every moment at most one is allocated (none is freed twice, none is lost), the exit handler is registered once if a name was ever
set, and after exit() nothing is left. -/
theorem C72_memory (strerror : Int → CStr) (ops : List WarnOp) :
    let r := warnRun strerror .initial ops
    let ev := r.2.flatten
    ev.count .free ≤ ev.count .strdup ∧ ev.count .strdup ≤ ev.count .free + 1 ∧
    ev.count .atexit = (if names ops = [] then 0 else 1) ∧
    (ev ++ (warnExit r.1).2).count .strdup = (ev ++ (warnExit r.1).2).count .free ∧
    ((warnExit r.1).2.count .closelog = if toSyslog ops = true ∧ names ops ≠ [] then 1 else 0) := by
  have h := agrees_run strerror ops [] _ agrees_initial
  rw [List.nil_append] at h
  obtain ⟨c1, c2⟩ := warn_counts strerror ops .initial
  simp only [WarnSt.initial, Option.isSome_none, Bool.toNat_false, Nat.zero_add] at c1 c2
  intro r ev
  have c1' : ev.count .strdup = ev.count .free + r.1.name.isSome.toNat := c1
  have c2' : ev.count .atexit = r.1.initialized.toNat := c2
  have hi : r.1.initialized = !(names ops).isEmpty := h.init
  have hd : r.1.use_syslog = toSyslog ops := h.dest
  have hnm : r.1.name.isSome = true → r.1.initialized = true := by
    intro hs
    have hn : r.1.name = _ := h.name
    rw [hi]
    cases hz : names ops with
    | nil => rw [hn, hz] at hs; simp at hs
    | cons a b => rfl
  refine ⟨?_, ?_, ?_, ?_, ?_⟩
  · rw [c1']; omega
  · rw [c1']; have := Bool.toNat_le r.1.name.isSome; omega
  · rw [c2', hi]
    cases names ops <;> simp
  · unfold warnExit
    cases hb : r.1.initialized with
    | false =>
      have : r.1.name.isSome = false := by
        cases hq : r.1.name.isSome with
        | false => rfl
        | true => rw [hnm hq] at hb; cases hb
      simp only [Bool.false_eq_true, if_false, List.append_nil, c1', this]
      simp
    | true =>
      simp only [if_true, warnAtexit, freeName, List.count_append, c1']
      cases r.1.use_syslog <;> cases r.1.name.isSome <;> simp
  · unfold warnExit
    rw [hi]
    cases hz : names ops with
    | nil => simp
    | cons a b =>
      simp only [List.isEmpty_cons, Bool.not_false, if_true, warnAtexit, freeName, hd]
      cases toSyslog ops <;> cases r.1.name.isSome <;> simp

/-- Non-vacuity: name set, an error reported with errno, then syslog, with an overlong message. -/
example (strerror : Int → CStr) : Delivered [.setprogname true "/usr/bin/scrypt".toList, .setErrno 2]
    (warnStep strerror (warnRun strerror .initial [.setprogname true "/usr/bin/scrypt".toList, .setErrno 2]).1 (.warnp (some "fopen(x)".toList) 25)).2
    (some "fopen(x)".toList) (some (strerror 2)) :=
  C72_message strerror [.setprogname true "/usr/bin/scrypt".toList, .setErrno 2] (.warnp (some "fopen(x)".toList) 25) (some "fopen(x)".toList) true rfl

/-! ### Several threads -/

/-- C72. Threads print messages at once: whatever the schedule, what is on stderr is a sequence of whole messages of distinct threads, followed, if a thread is in the
middle of its message, by a beginning of that one; no two messages are mixed. -/
theorem C72_threads (msgs : List (List CStr)) (sched : List Nat) :
    let s := interleave printStep sched (⟨none, []⟩, msgs.zipIdx.map fun x => (x.2, PrintPc.lock x.1))
    ∃ whole : List Nat, whole.Nodup ∧ (∀ i ∈ whole, s.2[i]? = some (i, .done)) ∧
      ∃ part : List CStr, s.1.written = (whole.map fun i => (msgs[i]?.getD []).flatten).flatten ++ part.flatten ∧
        ((s.1.owner = none ∧ part = []) ∨
          ∃ i rest, s.1.owner = some i ∧ i ∉ whole ∧ s.2[i]? = some (i, .print rest) ∧ msgs[i]? = some (part ++ rest)) := by
  -- an invariant over the whole configuration
  let Inv : ErrFile × List (Nat × PrintPc) → Prop := fun s =>
    (∀ i t, s.2[i]? = some t → t.1 = i ∧ (∀ ps, t.2 = .lock ps → msgs[i]? = some ps) ∧ (∀ ps, t.2 = .print ps → s.1.owner = some i)) ∧
    ∃ whole : List Nat, whole.Nodup ∧ (∀ i ∈ whole, s.2[i]? = some (i, .done)) ∧
      ∃ part : List CStr, s.1.written = (whole.map fun i => (msgs[i]?.getD []).flatten).flatten ++ part.flatten ∧
        ((s.1.owner = none ∧ part = []) ∨
          ∃ i rest, s.1.owner = some i ∧ i ∉ whole ∧ s.2[i]? = some (i, .print rest) ∧ msgs[i]? = some (part ++ rest))
  suffices h : ∀ s, Inv s → Inv (interleave printStep sched s) by
    refine (h _ ⟨?_, [], List.nodup_nil, by simp, [], rfl, .inl ⟨rfl, rfl⟩⟩).2
    intro i t ht
    simp only [List.getElem?_map, Option.map_eq_some_iff] at ht
    obtain ⟨x, hx, rfl⟩ := ht
    rw [List.getElem?_zipIdx] at hx
    simp only [Option.map_eq_some_iff] at hx
    obtain ⟨m, hm, rfl⟩ := hx
    exact ⟨by simp, (fun ps h => by cases h; exact hm), (fun ps h => by cases h)⟩
  induction sched with
  | nil => exact fun s h => h
  | cons k ks ih =>
    rintro ⟨e, ts⟩ ⟨h1, whole, hnd, hw, part, hwr, ho⟩
    unfold interleave
    cases hk : ts[k]? with
    | none => simp only [hk]; exact ih _ ⟨h1, whole, hnd, hw, part, hwr, ho⟩
    | some t =>
      simp only [hk]
      apply ih
      obtain ⟨id, pc⟩ := t
      obtain ⟨hid, hl, hp⟩ := h1 k _ hk
      simp only at hid hl hp
      subst hid
      have hlt : id < ts.length := by
        by_contra hx
        rw [List.getElem?_eq_none (by omega)] at hk; cases hk
      have hsame : ts.set id (id, pc) = ts := by
        apply List.ext_getElem?
        intro j
        rw [List.getElem?_set]
        by_cases hj : id = j
        · subst hj; rw [if_pos rfl, if_pos hlt, hk]
        · rw [if_neg hj]
      have hset : ∀ (x : Nat × PrintPc) j, (ts.set id x)[j]? = if id = j then some x else ts[j]? := by
        intro x j
        rw [List.getElem?_set]
        by_cases hj : id = j
        · subst hj; rw [if_pos rfl, if_pos rfl, if_pos hlt]
        · rw [if_neg hj, if_neg hj]
      cases pc with
      | lock ps =>
        cases hown : e.owner with
        | some o =>
          have e1 : printStep e (id, .lock ps) = (e, (id, .lock ps)) := by simp [printStep, hown]
          rw [e1, hsame]
          exact ⟨h1, whole, hnd, hw, part, hwr, ho⟩
        | none =>
          have e1 : printStep e (id, .lock ps) = ({ e with owner := some id }, (id, .print ps)) := by simp [printStep, hown]
          rw [e1]
          have hpart : part = [] := by
            rcases ho with ⟨-, h⟩ | ⟨i, rest, h, -⟩
            · exact h
            · simp only [hown] at h; cases h
          have hnw : id ∉ whole := by
            intro hin
            have hd : ts[id]? = _ := hw id hin
            rw [hk] at hd; cases hd
          refine ⟨?_, whole, hnd, ?_, part, hwr, .inr ⟨id, ps, rfl, hnw, ?_, ?_⟩⟩
          · intro j t hj
            simp only [hset] at hj
            by_cases hij : id = j
            · subst hij
              rw [if_pos rfl] at hj; cases hj
              exact ⟨rfl, (fun ps h => by cases h), (fun ps h => rfl)⟩
            · rw [if_neg hij] at hj
              obtain ⟨a, b, c⟩ := h1 j t hj
              refine ⟨a, b, fun ps h => ?_⟩
              have := c ps h
              simp only [hown] at this; cases this
          · intro j hj
            simp only [hset]
            rw [if_neg (by rintro rfl; exact hnw hj)]
            exact hw j hj
          · simp only [hset, if_true]
          · rw [hpart, List.nil_append]; exact hl ps rfl
      | print ps =>
        have hown : e.owner = some id := hp ps rfl
        obtain ⟨rest, hin, hti, hmsg⟩ : ∃ rest, id ∉ whole ∧ ts[id]? = some (id, .print rest) ∧ msgs[id]? = some (part ++ rest) := by
          rcases ho with ⟨h, -⟩ | ⟨i, rest, h, ha, hb, hc⟩
          · simp only [hown] at h; cases h
          · simp only [hown] at h
            obtain rfl := Option.some.inj h
            exact ⟨rest, ha, hb, hc⟩
        rw [hk] at hti
        have hr : ps = rest := by cases hti; rfl
        subst hr
        have others : ∀ j t, id ≠ j → ts[j]? = some t → ∀ ps, t.2 ≠ .print ps := by
          intro j t hij hj ps hps
          obtain ⟨-, -, c⟩ := h1 j t hj
          have := c ps hps
          simp only [hown] at this
          exact hij (Option.some.inj this)
        cases ps with
        | cons p ps =>
          have e1 : printStep e (id, .print (p :: ps)) = ({ e with written := e.written ++ p }, (id, .print ps)) := rfl
          rw [e1]
          refine ⟨?_, whole, hnd, ?_, part ++ [p], ?_, .inr ⟨id, ps, hown, hin, ?_, ?_⟩⟩
          · intro j t hj
            simp only [hset] at hj
            by_cases hij : id = j
            · subst hij
              rw [if_pos rfl] at hj; cases hj
              exact ⟨rfl, (fun ps h => by cases h), (fun ps h => hown)⟩
            · rw [if_neg hij] at hj
              obtain ⟨a, b, c⟩ := h1 j t hj
              exact ⟨a, b, c⟩
          · intro j hj
            simp only [hset]
            rw [if_neg (by rintro rfl; exact hin hj)]
            exact hw j hj
          · simp only at hwr ⊢
            rw [hwr]; simp
          · simp only [hset, if_true]
          · rw [List.append_assoc]; exact hmsg
        | nil =>
          have e1 : printStep e (id, .print []) = ({ e with owner := none }, (id, .done)) := rfl
          rw [e1]
          refine ⟨?_, whole ++ [id], ?_, ?_, [], ?_, .inl ⟨rfl, rfl⟩⟩
          · intro j t hj
            simp only [hset] at hj
            by_cases hij : id = j
            · subst hij
              rw [if_pos rfl] at hj; cases hj
              exact ⟨rfl, (fun ps h => by cases h), (fun ps h => by cases h)⟩
            · rw [if_neg hij] at hj
              obtain ⟨a, b, c⟩ := h1 j t hj
              exact ⟨a, b, fun ps h => absurd h (others j t hij hj ps)⟩
          · rw [List.nodup_append]
            refine ⟨hnd, by simp, ?_⟩
            intro a ha b hb
            simp only [List.mem_singleton] at hb
            subst hb
            rintro rfl
            exact hin ha
          · intro j hj
            simp only [hset]
            by_cases hij : id = j
            · subst hij; rw [if_pos rfl]
            · rw [if_neg hij]
              rcases List.mem_append.1 hj with h | h
              · exact hw j h
              · simp only [List.mem_singleton] at h
                exact absurd h.symm hij
          · simp only at hwr ⊢
            rw [hwr, List.append_nil] at *
            simp [hmsg]
      | done =>
        have e1 : printStep e (id, .done) = (e, (id, .done)) := rfl
        rw [e1, hsame]
        exact ⟨h1, whole, hnd, hw, part, hwr, ho⟩

theorem interleave_append {σ τ : Type} (step : σ → τ → σ × τ) (a b : List Nat) : ∀ s : σ × List τ,
    interleave step (a ++ b) s = interleave step b (interleave step a s) := by
  induction a with
  | nil => intro s; rfl
  | cons i a ih =>
    intro s
    simp only [List.cons_append, interleave]
    cases s.2[i]? with
    | none => exact ih s
    | some t => exact ih _

theorem sum_set_lt {τ : Type} (μ : τ → Nat) {x t : τ} (hx : μ x < μ t) : ∀ (l : List τ) (i : Nat), l[i]? = some t → ((l.set i x).map μ).sum < (l.map μ).sum
  | [], i, h => by simp at h
  | a :: l, 0, h => by
    simp only [List.getElem?_cons_zero, Option.some.injEq] at h
    subst h
    simp only [List.set_cons_zero, List.map_cons, List.sum_cons]
    omega
  | a :: l, i + 1, h => by
    simp only [List.getElem?_cons_succ] at h
    have := sum_set_lt μ hx l i h
    simp only [List.set_cons_succ, List.map_cons, List.sum_cons]
    omega

/-- What a printing thread still has to do. -/
def printWork (t : Nat × PrintPc) : Nat :=
  match t.2 with
  | .lock ps => ps.length + 2
  | .print ps => ps.length + 1
  | .done => 0

/-- C72. Nobody waits for ever: from every moment of every schedule the threads can go on until all messages are printed. -/
theorem C72_no_deadlock (msgs : List (List CStr)) (sched : List Nat) :
    ∃ more, ∀ t ∈ (interleave printStep (sched ++ more) (⟨none, []⟩, msgs.zipIdx.map fun x => (x.2, PrintPc.lock x.1))).2, t.2 = .done := by
  generalize hn : ((interleave printStep sched (⟨none, []⟩, msgs.zipIdx.map fun x => (x.2, PrintPc.lock x.1))).2.map printWork).sum = n
  induction n using Nat.strongRecOn generalizing sched with
  | _ n ih =>
    by_cases hall : ∀ t ∈ (interleave printStep sched (⟨none, []⟩, msgs.zipIdx.map fun x => (x.2, PrintPc.lock x.1))).2, t.2 = .done
    · exact ⟨[], by rw [List.append_nil]; exact hall⟩
    have key : ∃ (k : Nat) (t : Nat × PrintPc), (interleave printStep sched (⟨none, []⟩, msgs.zipIdx.map fun x => (x.2, PrintPc.lock x.1))).2[k]? = some t ∧
        printWork (printStep (interleave printStep sched (⟨none, []⟩, msgs.zipIdx.map fun x => (x.2, PrintPc.lock x.1))).1 t).2 < printWork t := by
      obtain ⟨whole, -, -, part, -, ho⟩ := C72_threads msgs sched
      generalize interleave printStep sched (⟨none, []⟩, msgs.zipIdx.map fun x => (x.2, PrintPc.lock x.1)) = s at hall ho ⊢
      rcases ho with ⟨hown, -⟩ | ⟨i, rest, -, -, hi, -⟩
      · push Not at hall
        obtain ⟨t, ht, hd⟩ := hall
        obtain ⟨k, hk⟩ := List.mem_iff_getElem?.1 ht
        refine ⟨k, t, hk, ?_⟩
        obtain ⟨id, pc⟩ := t
        cases pc with
        | lock ps => simp [printStep, hown, printWork]
        | print ps => cases ps <;> simp [printStep, printWork]
        | done => exact absurd rfl hd
      · refine ⟨i, _, hi, ?_⟩
        cases rest <;> simp [printStep, printWork]
    obtain ⟨k, t, hk, hlt⟩ := key
    have hstep : interleave printStep (sched ++ [k]) (⟨none, []⟩, msgs.zipIdx.map fun x => (x.2, PrintPc.lock x.1)) =
        ((printStep (interleave printStep sched (⟨none, []⟩, msgs.zipIdx.map fun x => (x.2, PrintPc.lock x.1))).1 t).1,
          (interleave printStep sched (⟨none, []⟩, msgs.zipIdx.map fun x => (x.2, PrintPc.lock x.1))).2.set k
            (printStep (interleave printStep sched (⟨none, []⟩, msgs.zipIdx.map fun x => (x.2, PrintPc.lock x.1))).1 t).2) := by
      rw [interleave_append]
      generalize interleave printStep sched (⟨none, []⟩, msgs.zipIdx.map fun x => (x.2, PrintPc.lock x.1)) = s at hk ⊢
      simp only [interleave, hk]
    obtain ⟨more, hm⟩ := ih _ (by rw [← hn, hstep]; exact sum_set_lt printWork hlt (interleave printStep sched (⟨none, []⟩, msgs.zipIdx.map fun x => (x.2, PrintPc.lock x.1))).2 k hk) (sched ++ [k]) rfl
    exact ⟨k :: more, by rw [← List.singleton_append, ← List.append_assoc]; exact hm⟩

/-- C72. The connection to syslog is closed exactly when messages stop going there. -/
theorem C72_closelog (strerror : Int → CStr) (ops : List WarnOp) (o : WarnOp) :
    (warnStep strerror (warnRun strerror .initial ops).1 o).2.count .closelog = if toSyslog ops && !toSyslog (ops ++ [o]) then 1 else 0 := by
  have h := agrees_run strerror ops [] _ agrees_initial
  rw [List.nil_append] at h
  generalize (warnRun strerror .initial ops).1 = s at *
  have h' := agrees_step strerror h o
  rw [← h.dest, ← h'.dest]
  have hw : ∀ m c, (warnWarn strerror s m c).2.count .closelog = 0 := by
    intro m c
    unfold warnWarn
    cases s.use_syslog <;> cases m <;> simp [msgEv]
  have hx : ∀ m c, (warnWarnx s m c).2.count .closelog = 0 := by
    intro m c
    unfold warnWarnx
    cases s.use_syslog <;> cases m <;> simp [msgEv]
  clear h h'
  cases o with
  | setprogname ok p =>
    simp only [warnStep, warnSetprogname, freeName]
    cases s with
    | mk i n u q er => cases i <;> cases n <;> cases ok <;> cases u <;> simp [warnp_setprogname]
  | warn m c => simp only [warnStep, hw, warnWarn_st]; simp
  | warnx m c => simp only [warnStep, hx, warnWarnx_st]; simp
  | warn0 m c => simp only [warnStep, hx, warnWarnx_st]; simp
  | warnp m c =>
    unfold warnStep
    by_cases hz : s.errno = 0
    · simp only [hz, ne_eq, not_true_eq_false, if_false, hx, warnWarnx_st]; simp
    · simp only [ne_eq, hz, not_false_eq_true, if_true, hw, warnWarn_st]; simp
  | syslog e => simp only [warnStep]; cases s.use_syslog <;> cases e <;> simp
  | priority p => simp [warnStep]
  | setErrno e => simp [warnStep]

/-- Non-vacuity: two threads, interleaved; the second one waits for the first. -/
example : (interleave printStep [0, 1, 0, 1, 0, 0, 1, 1, 1, 1, 1] (⟨none, []⟩,
    [["a".toList, "b\n".toList], ["c".toList, "d\n".toList]].zipIdx.map fun x => (x.2, PrintPc.lock x.1))).1.written = "ab\ncd\n".toList := by decide

end Scrypt.Props
