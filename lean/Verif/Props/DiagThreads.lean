import Verif.Props.Diagnostics
/-
C72, continued: the calls of the message functions themselves, made by several threads at once.
-/
namespace Scrypt.Props
open Scrypt Spec

/-! ### The calls themselves, from several threads -/

/-- The effects a printing thread still has to have. -/
def _root_.Scrypt.PrintPc.effects : PrintPc → List WarnEv
  | .lock ps => .flockfile :: ps.map WarnEv.stderr ++ [.funlockfile]
  | .print ps => ps.map WarnEv.stderr ++ [.funlockfile]
  | .done => []

theorem evStep_print (e : ErrFile) (t : Nat × PrintPc) (h : ∀ ps, t.2 = .print ps → e.owner = some t.1) :
    evStep e (t.1, t.2.effects) = ((printStep e t).1, ((printStep e t).2.1, (printStep e t).2.2.effects)) := by
  obtain ⟨i, pc⟩ := t
  cases pc with
  | lock ps =>
    show (if e.owner.isNone then _ else _) = _
    unfold printStep
    by_cases ho : e.owner.isNone = true
    · simp only [ho, if_true]; rfl
    · simp only [ho]; rfl
  | print ps =>
    have ho := h ps rfl
    cases ps with
    | nil => rfl
    | cons p ps =>
      show (if e.owner.isNone || e.owner == some i then _ else _) = _
      rw [if_pos (by rw [ho]; simp)]
      rfl
  | done => rfl

theorem printStep_owner (s : ErrFile × List (Nat × PrintPc)) (hs : ∀ i t, s.2[i]? = some t → t.1 = i ∧ ∀ ps, t.2 = .print ps → s.1.owner = some i) {k : Nat}
    {t : Nat × PrintPc} (hk : s.2[k]? = some t) :
    ∀ i u, (s.2.set k (printStep s.1 t).2)[i]? = some u → u.1 = i ∧ ∀ ps, u.2 = .print ps → (printStep s.1 t).1.owner = some i := by
  intro i u hu
  obtain ⟨ht, ho⟩ := hs k t hk
  have hlt : k < s.2.length := (List.getElem?_eq_some_iff.1 hk).1
  obtain ⟨n, pc⟩ := t
  have ht : n = k := ht
  subst ht
  by_cases hik : n = i
  · subst hik
    rw [List.getElem?_set_self hlt] at hu
    obtain rfl := Option.some.inj hu
    cases pc with
    | lock qs =>
      unfold printStep
      by_cases hn : s.1.owner.isNone = true
      · simp only [hn, if_true]; exact ⟨trivial, fun _ _ => trivial⟩
      · simp only [hn]; exact ⟨rfl, fun _ e => nomatch e⟩
    | print qs =>
      cases qs with
      | nil => exact ⟨rfl, fun _ e => nomatch e⟩
      | cons q qs => exact ⟨rfl, fun _ _ => ho _ rfl⟩
    | done => exact ⟨rfl, fun _ e => nomatch e⟩
  · rw [List.getElem?_set_ne hik] at hu
    obtain ⟨h1, h2⟩ := hs i u hu
    refine ⟨h1, fun ps hp => ?_⟩
    have hown := h2 ps hp
    cases pc with
    | lock qs => unfold printStep; simp only [hown]; exact hown
    | print qs => exact absurd (Option.some.inj ((ho qs rfl).symm.trans hown)) hik
    | done => exact hown

theorem interleave_effects (sched : List Nat) : ∀ s : ErrFile × List (Nat × PrintPc), (∀ i t, s.2[i]? = some t → t.1 = i ∧ ∀ ps, t.2 = .print ps → s.1.owner = some i) →
    interleave evStep sched (s.1, s.2.map fun t => (t.1, t.2.effects)) =
      ((interleave printStep sched s).1, (interleave printStep sched s).2.map fun t => (t.1, t.2.effects)) := by
  induction sched with
  | nil => intro s _; rfl
  | cons k sched ih =>
    intro s hs
    cases hk : s.2[k]? with
    | none => simp only [interleave, List.getElem?_map, hk, Option.map_none]; exact ih s hs
    | some t =>
      simp only [interleave, List.getElem?_map, hk, Option.map_some]
      obtain ⟨h1, h2⟩ := hs k t hk
      rw [evStep_print s.1 t (by rw [h1]; exact h2)]
      have := ih ((printStep s.1 t).1, s.2.set k (printStep s.1 t).2) (printStep_owner s hs hk)
      rw [← this, List.map_set]

/-- The line that a call of a message function gives on stderr when errno is `c.1`. -/
def LineOf (strerror : Int → CStr) (ops : List WarnOp) (c : Int × WarnOp) (l : CStr) : Prop :=
  ∃ nm m b, ShownName ops nm ∧ messageOf c.1 c.2 = some (m, b) ∧ l = line nm m (if b then some (strerror c.1) else none)

/-- What a call of a message function does in a thread whose errno is `c.1`, after the calls `ops` have been made. -/
def callEffects (strerror : Int → CStr) (ops : List WarnOp) (c : Int × WarnOp) : List WarnEv :=
  (warnStep strerror (warnRun strerror .initial (ops ++ [.setErrno c.1])).1 c.2).2

theorem callEffects_line (strerror : Int → CStr) (ops : List WarnOp) (hd : toSyslog ops = false) (c : Int × WarnOp) (hc : messageOf c.1 c.2 ≠ none) :
    ∃ ps : List CStr, callEffects strerror ops c = (PrintPc.lock ps).effects ∧ LineOf strerror ops c ps.flatten := by
  obtain ⟨⟨m, b⟩, hmb⟩ := Option.ne_none_iff_exists'.1 hc
  have he : errnoNow (ops ++ [.setErrno c.1]) = c.1 := by unfold errnoNow; rw [List.filterMap_append]; simp
  have ht : toSyslog (ops ++ [.setErrno c.1]) = false := by rw [← hd]; unfold toSyslog; rw [List.filterMap_append]; simp
  have h := C72_message strerror (ops ++ [.setErrno c.1]) c.2 m b (by rw [he]; exact hmb)
  rw [he] at h
  unfold Delivered at h
  rw [ht, if_neg (by decide)] at h
  obtain ⟨nm, ps, h1, h2, h3⟩ := h
  refine ⟨ps, h2, nm, m, b, ?_, hmb, h3⟩
  unfold ShownName names at *
  rw [List.filterMap_append] at h1
  simpa using h1

theorem lines_exist (strerror : Int → CStr) (ops : List WarnOp) (hd : toSyslog ops = false) : ∀ calls : List (Int × WarnOp), (∀ c ∈ calls, messageOf c.1 c.2 ≠ none) →
    ∃ msgs : List (List CStr), msgs.length = calls.length ∧
      ∀ (i : Nat) (c : Int × WarnOp), calls[i]? = some c → ∃ ps, msgs[i]? = some ps ∧ callEffects strerror ops c = (PrintPc.lock ps).effects ∧ LineOf strerror ops c ps.flatten
  | [], _ => ⟨[], rfl, fun _ _ h => by simp at h⟩
  | c :: calls, h => by
    obtain ⟨ps, h1, h2⟩ := callEffects_line strerror ops hd c (h c (by simp))
    obtain ⟨msgs, l, h3⟩ := lines_exist strerror ops hd calls (fun c hc => h c (by simp [hc]))
    refine ⟨ps :: msgs, by simp [l], fun i c' hi => ?_⟩
    cases i with
    | zero => obtain rfl := Option.some.inj hi; exact ⟨ps, rfl, h1, h2⟩
    | succ i => exact h3 i c' hi

/-- The threads at the start: thread `i` is about to make the call `calls[i]`. -/
def callers (strerror : Int → CStr) (ops : List WarnOp) (calls : List (Int × WarnOp)) : List (Nat × List WarnEv) :=
  calls.zipIdx.map fun x => (x.2, callEffects strerror ops x.1)

theorem callers_eq {strerror : Int → CStr} {ops : List WarnOp} {calls : List (Int × WarnOp)} {msgs : List (List CStr)} (l : msgs.length = calls.length)
    (h : ∀ (i : Nat) (c : Int × WarnOp), calls[i]? = some c → ∃ ps, msgs[i]? = some ps ∧ callEffects strerror ops c = (PrintPc.lock ps).effects ∧ LineOf strerror ops c ps.flatten) :
    callers strerror ops calls = (msgs.zipIdx.map fun x => (x.2, PrintPc.lock x.1)).map fun t => (t.1, t.2.effects) := by
  refine List.ext_getElem? fun i => ?_
  unfold callers
  rw [List.map_map, List.getElem?_map, List.getElem?_map, List.getElem?_zipIdx, List.getElem?_zipIdx]
  cases hc : calls[i]? with
  | none =>
    have : msgs[i]? = none := by rw [List.getElem?_eq_none_iff] at hc ⊢; omega
    rw [this]
    rfl
  | some c =>
    obtain ⟨ps, h1, h2, -⟩ := h i c hc
    rw [h1]
    simp only [Option.map_some, Function.comp]
    rw [h2]

theorem callers_inv (msgs : List (List CStr)) : ∀ (i : Nat) (t : Nat × PrintPc), (msgs.zipIdx.map fun x => (x.2, PrintPc.lock x.1))[i]? = some t →
    t.1 = i ∧ ∀ ps, t.2 = .print ps → (none : Option Nat) = some i := by
  intro i t h
  rw [List.getElem?_map, List.getElem?_zipIdx] at h
  cases hm : msgs[i]? with
  | none => rw [hm] at h; cases h
  | some p =>
    rw [hm] at h
    obtain rfl := Option.some.inj h
    exact ⟨Nat.zero_add i, fun _ e => nomatch e⟩

/-- C72, the functions themselves.  While messages go to stderr, any number of threads (each with its own errno) call any of the message functions at the same time: whatever the schedule, what is
on stderr is a sequence of the whole lines of distinct calls that have returned, followed by a beginning of the line of at most one other. -/
theorem C72_calls (strerror : Int → CStr) (ops : List WarnOp) (hd : toSyslog ops = false) (calls : List (Int × WarnOp)) (hc : ∀ c ∈ calls, messageOf c.1 c.2 ≠ none) (sched : List Nat) :
    let s := interleave evStep sched (⟨none, []⟩, callers strerror ops calls)
    ∃ lines : List CStr, lines.length = calls.length ∧ (∀ (i : Nat) (c : Int × WarnOp), calls[i]? = some c → ∃ l, lines[i]? = some l ∧ LineOf strerror ops c l) ∧
      ∃ whole : List Nat, whole.Nodup ∧ (∀ i ∈ whole, s.2[i]? = some (i, [])) ∧
        ∃ part, s.1.written = (whole.map fun i => lines[i]?.getD []).flatten ++ part ∧
          (part = [] ∨ ∃ (i : Nat) (l : CStr), i ∉ whole ∧ lines[i]? = some l ∧ part <+: l) := by
  intro s
  obtain ⟨msgs, l, h⟩ := lines_exist strerror ops hd calls hc
  have hs : s = ((interleave printStep sched (⟨none, []⟩, msgs.zipIdx.map fun x => (x.2, PrintPc.lock x.1))).1,
      (interleave printStep sched (⟨none, []⟩, msgs.zipIdx.map fun x => (x.2, PrintPc.lock x.1))).2.map fun t => (t.1, t.2.effects)) := by
    show interleave evStep sched (⟨none, []⟩, callers strerror ops calls) = _
    rw [callers_eq l h]
    exact interleave_effects sched (⟨none, []⟩, msgs.zipIdx.map fun x => (x.2, PrintPc.lock x.1)) (callers_inv msgs)
  obtain ⟨whole, w1, w2, part, w3, w4⟩ := C72_threads msgs sched
  generalize interleave printStep sched (⟨none, []⟩, msgs.zipIdx.map fun x => (x.2, PrintPc.lock x.1)) = q at hs w2 w3 w4
  refine ⟨msgs.map List.flatten, by rw [List.length_map, l], fun i c hi => ?_, whole, w1, fun i hi => ?_, part.flatten, ?_, ?_⟩
  · obtain ⟨ps, a, -, b⟩ := h i c hi
    exact ⟨ps.flatten, by rw [List.getElem?_map, a]; rfl, b⟩
  · rw [hs, List.getElem?_map, w2 i hi]; rfl
  · rw [hs]
    show q.1.written = _
    rw [w3]
    congr 3
    funext i
    rw [List.getElem?_map]
    cases msgs[i]? <;> rfl
  · rcases w4 with ⟨-, e⟩ | ⟨i, rest, -, hi, -, hm⟩
    · exact .inl (by rw [e]; rfl)
    · refine .inr ⟨i, (part ++ rest).flatten, hi, by rw [List.getElem?_map, hm]; rfl, ?_⟩
      rw [List.flatten_append]
      exact List.prefix_append _ _

/-- C72, the functions themselves.  No call waits for ever: from every moment of every schedule the threads can go on until all calls have returned. -/
theorem C72_calls_return (strerror : Int → CStr) (ops : List WarnOp) (hd : toSyslog ops = false) (calls : List (Int × WarnOp)) (hc : ∀ c ∈ calls, messageOf c.1 c.2 ≠ none)
    (sched : List Nat) :
    ∃ more, ∀ t ∈ (interleave evStep (sched ++ more) (⟨none, []⟩, callers strerror ops calls)).2, t.2 = [] := by
  obtain ⟨msgs, l, h⟩ := lines_exist strerror ops hd calls hc
  obtain ⟨more, hm⟩ := C72_no_deadlock msgs sched
  refine ⟨more, ?_⟩
  rw [callers_eq l h]
  rw [show interleave evStep (sched ++ more) (⟨none, []⟩, (msgs.zipIdx.map fun x => (x.2, PrintPc.lock x.1)).map fun t => (t.1, t.2.effects)) = _ from
    interleave_effects (sched ++ more) (⟨none, []⟩, msgs.zipIdx.map fun x => (x.2, PrintPc.lock x.1)) (callers_inv msgs)]
  intro t ht
  obtain ⟨u, hu, rfl⟩ := List.mem_map.1 ht
  show u.2.effects = []
  rw [hm u hu]
  rfl

/-- Two threads: one reports errno 2, the other a text of its own; when both have returned, both lines are there. -/
example (strerror : Int → CStr) : ∃ sched l1 l2, LineOf strerror [.setprogname true "/usr/bin/scrypt".toList] (2, .warnp (some "fopen".toList) 0) l1 ∧
    LineOf strerror [.setprogname true "/usr/bin/scrypt".toList] (0, .warn0 (some "no".toList) 0) l2 ∧
    ∀ t ∈ (interleave evStep sched (⟨none, []⟩, callers strerror [.setprogname true "/usr/bin/scrypt".toList]
      [(2, .warnp (some "fopen".toList) 0), (0, .warn0 (some "no".toList) 0)])).2, t.2 = [] := by
  have hc : ∀ c ∈ ([(2, .warnp (some "fopen".toList) 0), (0, .warn0 (some "no".toList) 0)] : List (Int × WarnOp)), messageOf c.1 c.2 ≠ none := by
    intro c hc
    rcases List.mem_cons.1 hc with rfl | hc
    · exact nofun
    · rw [List.mem_singleton.1 hc]; exact nofun
  obtain ⟨more, hm⟩ := C72_calls_return strerror [.setprogname true "/usr/bin/scrypt".toList] rfl _ hc [0, 1, 0]
  obtain ⟨lines, -, hl, -⟩ := C72_calls strerror [.setprogname true "/usr/bin/scrypt".toList] rfl _ hc ([0, 1, 0] ++ more)
  obtain ⟨l1, -, h1⟩ := hl 0 _ rfl
  obtain ⟨l2, -, h2⟩ := hl 1 _ rfl
  exact ⟨_, l1, l2, h1, h2, hm⟩

end Scrypt.Props
