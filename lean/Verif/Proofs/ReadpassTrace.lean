import Verif.Proofs.Readpass
/-
Terminal echo and signals during `readpass`.
-/
namespace Scrypt
open Spec

theorem echo_snoc (tr : List RpEv) (e : RpEv) : echoIsOff (tr ++ [e]) =
    match e with | .echoOff true => true | .echoOn _ => false | _ => echoIsOff tr := by
  unfold echoIsOff; rw [List.foldl_append]; rfl

theorem handled_snoc (g : Sig) (tr : List RpEv) (e : RpEv) : handled g (tr ++ [e]) =
    match e with
    | .install h => if h = g then true else handled g tr
    | .restore h => if h = g then false else handled g tr
    | _ => handled g tr := by
  unfold handled; rw [List.foldl_append]; rfl

theorem guarded_snoc {tr : List RpEv} {e : RpEv} (h : EchoGuarded tr)
    (h' : echoIsOff (tr ++ [e]) = true → ∀ g, handled g (tr ++ [e]) = true) : EchoGuarded (tr ++ [e]) := by
  intro X hX
  rcases List.prefix_concat_iff.1 hX with rfl | hX
  · exact h'
  · exact h X hX

theorem raises_snoc {tr : List RpEv} {e : RpEv} (h : RaisesGood tr)
    (h' : ∀ g, e = .raise g → RpEv.caught g ∈ tr ∧ RpEv.raise g ∉ tr ∧ echoIsOff tr = false ∧ ∀ h, handled h tr = false) :
    RaisesGood (tr ++ [e]) := by
  intro X g Y hXY
  rcases List.eq_nil_or_concat Y with rfl | ⟨Z, z, rfl⟩
  · obtain ⟨rfl, h2⟩ := List.append_inj' hXY rfl
    exact h' g (by simpa using h2)
  · rw [List.concat_eq_append, ← List.cons_append, ← List.append_assoc] at hXY
    obtain ⟨h1, -⟩ := List.append_inj' hXY rfl
    exact h X g Z h1

/-- The state of the machine agrees with the trace: echo is `e`, the handlers in place are `H`, the signals re-sent are `R`. -/
structure Tr (e : Bool) (H : Sig → Bool) (R : Sig → Prop) (s : RpSt) : Prop where
  inst : s.inst = H
  handled : ∀ g, handled g s.tr = H g
  echo : echoIsOff s.tr = e
  got : ∀ g, s.got g = true ↔ RpEv.caught g ∈ s.tr
  guarded : EchoGuarded s.tr
  raises : RaisesGood s.tr
  raised : ∀ g, RpEv.raise g ∈ s.tr ↔ R g

theorem Tr.deliver1 {e H R s} (h : Tr e H R s) (g : Sig) : Tr e H R (deliver1 s g) := by
  unfold Scrypt.deliver1
  split
  · refine ⟨h.inst, fun x => ?_, ?_, fun x => ?_, guarded_snoc h.guarded ?_, raises_snoc h.raises (fun _ h => by cases h), fun x => ?_⟩
    · rw [handled_snoc]; exact h.handled x
    · rw [echo_snoc]; exact h.echo
    · by_cases hx : x = g
      · simp [hx]
      · simp only [hx, if_false, List.mem_append, List.mem_singleton, RpEv.caught.injEq, or_false]; exact h.got x
    · rw [echo_snoc]
      intro he x
      rw [handled_snoc]
      exact h.guarded s.tr (List.prefix_refl _) he x
    · simp only [List.mem_append, List.mem_singleton, reduceCtorEq, or_false]; exact h.raised x
  · refine ⟨h.inst, fun x => ?_, ?_, fun x => ?_, guarded_snoc h.guarded ?_, raises_snoc h.raises (fun _ h => by cases h), fun x => ?_⟩
    · rw [handled_snoc]; exact h.handled x
    · rw [echo_snoc]; exact h.echo
    · simp only [List.mem_append, List.mem_singleton, reduceCtorEq, or_false]; exact h.got x
    · rw [echo_snoc]
      intro he x
      rw [handled_snoc]
      exact h.guarded s.tr (List.prefix_refl _) he x
    · simp only [List.mem_append, List.mem_singleton, reduceCtorEq, or_false]; exact h.raised x

theorem Tr.deliver {e H R} (l : List Sig) : ∀ {s}, Tr e H R s → Tr e H R (l.foldl Scrypt.deliver1 s) := by
  induction l with
  | nil => exact fun h => h
  | cons g l ih => exact fun h => ih (h.deliver1 g)

/-- Signals arriving while no handler is in place change nothing we remember. -/
theorem got_deliver {l : List Sig} : ∀ {s : RpSt}, s.inst = (fun _ => false) → (l.foldl Scrypt.deliver1 s).got = s.got ∧
    (l.foldl Scrypt.deliver1 s).inst = s.inst := by
  induction l with
  | nil => exact fun _ => ⟨rfl, rfl⟩
  | cons g l ih =>
    intro s h
    have e : Scrypt.deliver1 s g = { s with tr := s.tr ++ [.other g] } := by
      unfold Scrypt.deliver1
      rw [h]; rfl
    rw [List.foldl_cons, e]
    exact ih h

/-- Adding an event to the trace. -/
theorem Tr.push {e H R s e' H'} (h : Tr e H R s) (t : Nat) (ev : RpEv) (hne : ∀ g, ev ≠ .caught g) (hnr : ∀ g, ev ≠ .raise g)
    (hH : applyEv H ev = H') (hh : ∀ g, Spec.handled g (s.tr ++ [ev]) = H' g)
    (he : echoIsOff (s.tr ++ [ev]) = e') (hg : e' = true → ∀ g, H' g = true) :
    Tr e' H' R { s with t := t, tr := s.tr ++ [ev], inst := applyEv s.inst ev } := by
  refine ⟨by rw [h.inst]; exact hH, hh, he, fun x => ?_, guarded_snoc h.guarded ?_, raises_snoc h.raises (fun g hh => absurd hh (hnr g)), fun x => ?_⟩
  · show s.got x = true ↔ _ ∈ s.tr ++ [ev]
    rw [List.mem_append, List.mem_singleton, h.got x]
    exact ⟨.inl, fun hx => hx.elim id fun hx => absurd hx.symm (hne x)⟩
  · intro h1 g
    rw [hh g]
    exact hg (by rw [← he]; exact h1) g
  · show _ ∈ s.tr ++ [ev] ↔ _
    rw [List.mem_append, List.mem_singleton, ← h.raised x]
    exact ⟨fun hx => hx.elim id fun hx => absurd hx.symm (hnr x), .inl⟩

/-- Events that concern neither the handlers nor the echo. -/
def Plain : RpEv → Bool
  | .tcget _ | .echoOff false | .prompt | .confirmPrompt | .read | .mismatch | .close | .say _ => true
  | _ => false

theorem Tr.plain {arr e H R s} (h : Tr e H R s) (ev : RpEv) (hp : Plain ev = true) : Tr e H R (act arr s ev) := by
  have h1 := h.deliver (arr s.t)
  unfold act
  generalize (arr s.t).foldl Scrypt.deliver1 s = s' at h1 ⊢
  have hg : e = true → ∀ g, H g = true := fun he g => by
    rw [← h1.handled g]; exact h1.guarded _ (List.prefix_refl _) (by rw [h1.echo, he]) g
  cases ev with
  | echoOff b =>
    cases b with
    | true => cases hp
    | false =>
      refine h1.push _ _ (fun _ h => by cases h) (fun _ h => by cases h) rfl (fun g => ?_) ?_ hg
      · rw [handled_snoc]; exact h1.handled g
      · rw [echo_snoc]; exact h1.echo
  | tcget b | say b | prompt | confirmPrompt | read | mismatch | close =>
    refine h1.push _ _ (fun _ h => by cases h) (fun _ h => by cases h) rfl (fun g => ?_) ?_ hg
    · rw [handled_snoc]; exact h1.handled g
    · rw [echo_snoc]; exact h1.echo
  | _ => cases hp

theorem Tr.install {arr H R s} (h : Tr false H R s) (g : Sig) :
    Tr false (fun x => if x = g then true else H x) R (act arr s (.install g)) := by
  have h1 := h.deliver (arr s.t)
  unfold act
  generalize (arr s.t).foldl Scrypt.deliver1 s = s' at h1 ⊢
  refine h1.push _ _ (fun _ h => by cases h) (fun _ h => by cases h) rfl (fun x => ?_) ?_ (fun h => by cases h)
  · rw [handled_snoc]
    by_cases hx : x = g
    · simp [hx]
    · simp only [hx, Ne.symm hx, if_false]; exact h1.handled x
  · rw [echo_snoc]; exact h1.echo

theorem Tr.restore {arr H R s} (h : Tr false H R s) (g : Sig) :
    Tr false (fun x => if x = g then false else H x) R (act arr s (.restore g)) := by
  have h1 := h.deliver (arr s.t)
  unfold act
  generalize (arr s.t).foldl Scrypt.deliver1 s = s' at h1 ⊢
  refine h1.push _ _ (fun _ h => by cases h) (fun _ h => by cases h) rfl (fun x => ?_) ?_ (fun h => by cases h)
  · rw [handled_snoc]
    by_cases hx : x = g
    · simp [hx]
    · simp only [hx, Ne.symm hx, if_false]; exact h1.handled x
  · rw [echo_snoc]; exact h1.echo

theorem Tr.echoOff {arr e R s} (h : Tr e (fun _ => true) R s) : Tr true (fun _ => true) R (act arr s (.echoOff true)) := by
  have h1 := h.deliver (arr s.t)
  unfold act
  generalize (arr s.t).foldl Scrypt.deliver1 s = s' at h1 ⊢
  refine h1.push _ _ (fun _ h => by cases h) (fun _ h => by cases h) rfl (fun x => ?_) ?_ (fun _ _ => rfl)
  · rw [handled_snoc]; exact h1.handled x
  · rw [echo_snoc]

theorem Tr.echoOn {arr e H R s} (h : Tr e H R s) (b : Bool) : Tr false H R (act arr s (.echoOn b)) := by
  have h1 := h.deliver (arr s.t)
  unfold act
  generalize (arr s.t).foldl Scrypt.deliver1 s = s' at h1 ⊢
  refine h1.push _ _ (fun _ h => by cases h) (fun _ h => by cases h) rfl (fun x => ?_) ?_ (fun h => by cases h)
  · rw [handled_snoc]; exact h1.handled x
  · rw [echo_snoc]

theorem fin9 (P : Sig → Prop) : (∀ g, P g) ↔ P 0 ∧ P 1 ∧ P 2 ∧ P 3 ∧ P 4 ∧ P 5 ∧ P 6 ∧ P 7 ∧ P 8 := by
  constructor
  · intro h; exact ⟨h _, h _, h _, h _, h _, h _, h _, h _, h _⟩
  · rintro ⟨h0, h1, h2, h3, h4, h5, h6, h7, h8⟩ g
    match g with
    | 0 => exact h0
    | 1 => exact h1
    | 2 => exact h2
    | 3 => exact h3
    | 4 => exact h4
    | 5 => exact h5
    | 6 => exact h6
    | 7 => exact h7
    | 8 => exact h8

/-- All nine handlers are installed. -/
theorem Tr.installAll {arr R s} (h : Tr false (fun _ => false) R s) : Tr false (fun _ => true) R (acts arr s (badsigs.map .install)) := by
  have := ((((((((h.install (arr := arr) 0).install (arr := arr) 1).install (arr := arr) 2).install (arr := arr) 3).install (arr := arr) 4).install
    (arr := arr) 5).install (arr := arr) 6).install (arr := arr) 7).install (arr := arr) 8
  refine Eq.mp (congrArg (fun H => Tr false H R _) (funext fun g => ?_)) this
  match g with
  | 0 | 1 | 2 | 3 | 4 | 5 | 6 | 7 | 8 => rfl

theorem Tr.restoreAll {arr R H s} (h : Tr false H R s) : Tr false (fun _ => false) R (acts arr s (badsigs.map .restore)) := by
  have := ((((((((h.restore (arr := arr) 0).restore (arr := arr) 1).restore (arr := arr) 2).restore (arr := arr) 3).restore (arr := arr) 4).restore
    (arr := arr) 5).restore (arr := arr) 6).restore (arr := arr) 7).restore (arr := arr) 8
  refine Eq.mp (congrArg (fun H => Tr false H R _) (funext fun g => ?_)) this
  match g with
  | 0 | 1 | 2 | 3 | 4 | 5 | 6 | 7 | 8 => rfl

theorem Tr.raise {arr R s} (h : Tr false (fun _ => false) R s) (g : Sig) (hg : s.got g = true) (hr : ¬ R g) :
    Tr false (fun _ => false) (fun x => R x ∨ x = g) (act arr s (.raise g)) ∧ (act arr s (.raise g)).got = s.got := by
  have h1 := h.deliver (arr s.t)
  obtain ⟨k1, k2⟩ := got_deliver (l := arr s.t) h.inst
  unfold act
  generalize (arr s.t).foldl Scrypt.deliver1 s = s' at h1 k1 k2 ⊢
  refine ⟨⟨h1.inst, fun x => ?_, ?_, fun x => ?_, guarded_snoc h1.guarded ?_, raises_snoc h1.raises ?_, fun x => ?_⟩, k1⟩
  · show Spec.handled x (s'.tr ++ [.raise g]) = _
    rw [handled_snoc]; exact h1.handled x
  · show echoIsOff (s'.tr ++ [.raise g]) = _
    rw [echo_snoc]; exact h1.echo
  · show s'.got x = true ↔ _ ∈ s'.tr ++ [RpEv.raise g]
    simp only [List.mem_append, List.mem_singleton, reduceCtorEq, or_false]; exact h1.got x
  · rw [echo_snoc]
    intro he
    rw [h1.echo] at he
    cases he
  · intro x hx
    cases hx
    exact ⟨(h1.got g).1 (by rw [k1]; exact hg), fun hc => hr ((h1.raised g).1 hc), h1.echo, h1.handled⟩
  · show _ ∈ s'.tr ++ [RpEv.raise g] ↔ _
    simp only [List.mem_append, List.mem_singleton, RpEv.raise.injEq, h1.raised x]

theorem Tr.congrR {e H R R' s} (h : Tr e H R s) (hR : ∀ g, R g ↔ R' g) : Tr e H R' s :=
  ⟨h.inst, h.handled, h.echo, h.got, h.guarded, h.raises, fun g => (h.raised g).trans (hR g)⟩

theorem Tr.raiseLoop {arr} (gs : List Sig) : ∀ {R s}, Tr false (fun _ => false) R s → gs.Nodup → (∀ g ∈ gs, ¬ R g) →
    Tr false (fun _ => false) (fun x => R x ∨ (x ∈ gs ∧ s.got x = true)) (Scrypt.raiseLoop arr gs s) ∧ (Scrypt.raiseLoop arr gs s).got = s.got := by
  induction gs with
  | nil => intro R s h _ _; exact ⟨h.congrR (by simp), rfl⟩
  | cons g gs ih =>
    intro R s h hn hr
    rw [List.nodup_cons] at hn
    unfold Scrypt.raiseLoop
    split
    · rename_i hg
      obtain ⟨a, b⟩ := h.raise (arr := arr) g hg (hr g List.mem_cons_self)
      obtain ⟨c, d⟩ := ih a hn.2 (fun x hx => by
        rintro (h1 | rfl)
        · exact hr x (List.mem_cons_of_mem _ hx) h1
        · exact hn.1 hx)
      refine ⟨c.congrR (fun x => ?_), by rw [d, b]⟩
      rw [b, List.mem_cons]
      constructor
      · rintro ((h1 | rfl) | ⟨h1, h2⟩)
        · exact .inl h1
        · exact .inr ⟨.inl rfl, hg⟩
        · exact .inr ⟨.inr h1, h2⟩
      · rintro (h1 | ⟨rfl | h1, h2⟩)
        · exact .inl (.inl h1)
        · exact .inl (.inr rfl)
        · exact .inr ⟨h1, h2⟩
    · rename_i hg
      obtain ⟨c, d⟩ := ih h hn.2 (fun x hx => hr x (List.mem_cons_of_mem _ hx))
      refine ⟨c.congrR (fun x => ?_), d⟩
      rw [List.mem_cons]
      constructor
      · rintro (h1 | ⟨h1, h2⟩)
        · exact .inl h1
        · exact .inr ⟨.inr h1, h2⟩
      · rintro (h1 | ⟨rfl | h1, h2⟩)
        · exact .inl h1
        · exact absurd h2 hg
        · exact .inr ⟨h1, h2⟩

/-- The final state: echo on, original handlers, every caught signal re-sent, once, after that. -/
structure TrEnd (s : RpSt) : Prop where
  inst : s.inst = fun _ => false
  handled : ∀ g, handled g s.tr = false
  echo : echoIsOff s.tr = false
  guarded : EchoGuarded s.tr
  raises : RaisesGood s.tr
  raised : ∀ g, RpEv.raise g ∈ s.tr ↔ RpEv.caught g ∈ s.tr

theorem Tr.resetsigs {arr H s} (h : Tr false H (fun _ => False) s) :
    ∃ R, Tr false (fun _ => false) R (Scrypt.resetsigs arr s) ∧ (∀ g, R g ↔ (Scrypt.resetsigs arr s).got g = true) := by
  unfold Scrypt.resetsigs
  obtain ⟨a, b⟩ := (h.restoreAll (arr := arr)).raiseLoop (arr := arr) badsigs (by decide) (fun _ _ h => h)
  refine ⟨_, a, fun g => ?_⟩
  rw [b]
  constructor
  · rintro (h1 | ⟨-, h1⟩)
    · exact h1.elim
    · exact h1
  · exact fun h1 => .inr ⟨(fin9 (· ∈ badsigs)).2 (by decide) g, h1⟩

theorem Tr.fin {R s} (h : Tr false (fun _ => false) R s) (hR : ∀ g, R g ↔ s.got g = true) : TrEnd s :=
  ⟨h.inst, h.handled, h.echo, h.guarded, h.raises, fun g => by rw [h.raised, hR, h.got]⟩

/-- A plain event after `resetsigs` (closing /dev/tty). -/
theorem Tr.plainEnd {arr R s} (h : Tr false (fun _ => false) R s) (hR : ∀ g, R g ↔ s.got g = true) (ev : RpEv) (hp : Plain ev = true) :
    TrEnd (act arr s ev) := by
  refine (h.plain (arr := arr) ev hp).fin (fun g => ?_)
  rw [hR]
  unfold act
  rw [(got_deliver (l := arr s.t) h.inst).1]

theorem tr_init : Tr false (fun _ => false) (fun _ => False) ⟨0, [], fun _ => false, fun _ => false⟩ := by
  refine ⟨rfl, fun _ => rfl, rfl, fun g => by simp, ?_, ?_, fun g => by simp⟩
  · intro X hX
    rw [List.prefix_nil.1 hX]
    intro h; cases h
  · intro X g Y h
    cases X <;> cases h

/-- The state a reading outcome carries. -/
def RpRead.st : RpRead → RpSt
  | .done _ _ _ s => s
  | .failed _ _ s => s
  | .waiting s => s

theorem Tr.ifPlain {arr e H R s} (h : Tr e H R s) (b : Bool) (ev : RpEv) (hp : Plain ev = true) :
    Tr e H R (if b then act arr s ev else s) := by
  cases b
  · exact h
  · exact h.plain ev hp

theorem retryLoop_trace (arr : Nat → List Sig) (usingtty confirm : Bool) {e H R} (n : Nat) : ∀ (f : Strm) (_ : f.data.length ≤ n) (p c : Bytes)
    (s : RpSt) (_ : Tr e H R s) (r : RpRead), retryLoop arr usingtty confirm p c f s = .ok r → Tr e H R r.st := by
  induction n using Nat.strongRecOn with
  | ind n ih =>
    intro f hn p c s hs r hr
    rw [retryLoop] at hr
    have h1 := (hs.ifPlain (arr := arr) usingtty .prompt rfl).plain (arr := arr) .read rfl
    simp only [] at hr
    generalize act arr (if usingtty = true then act arr s .prompt else s) .read = s1 at hr h1
    have hf := fgets_spec f
    generalize fgets MAXPASSLEN f = g at hr hf
    cases hf with
    | wait h => cases hr; exact h1
    | eof h h' => cases hr; exact h1.plain _ rfl
    | err => cases hr; exact h1.plain _ rfl
    | @line l f1 hl =>
      simp only [] at hr
      cases hst : storeLine p l with
      | ok p' =>
        rw [hst, Res.bind_ok] at hr
        cases confirm with
        | false => cases hr; exact h1
        | true =>
          rw [if_neg (by simp)] at hr
          have h2 := (h1.ifPlain (arr := arr) usingtty .confirmPrompt rfl).plain (arr := arr) .read rfl
          generalize act arr (if usingtty = true then act arr s1 .confirmPrompt else s1) .read = s2 at hr h2
          have hf2 := fgets_spec f1
          generalize fgets MAXPASSLEN f1 = g at hr hf2
          cases hf2 with
          | wait h => cases hr; exact h2
          | eof h h' => cases hr; exact h2.plain _ rfl
          | err => cases hr; exact h2.plain _ rfl
          | @line l2 f2 hl2 =>
            simp only [] at hr
            cases hst2 : storeLine c l2 with
            | ok c' =>
              rw [hst2, Res.bind_ok] at hr
              cases ha : cstr p' with
              | ok a =>
                rw [ha, Res.bind_ok] at hr
                cases hb : cstr c' with
                | ok b =>
                  rw [hb, Res.bind_ok] at hr
                  by_cases hab : a = b
                  · rw [if_neg (not_not.2 hab)] at hr
                    cases hr; exact h2
                  · have hs1 := reads_shrinks hl
                    have hs2 := reads_shrinks hl2
                    rw [if_pos hab, dif_pos (by omega)] at hr
                    exact ih f2.data.length (by omega) f2 (Nat.le_refl _) _ _ _ (h2.plain .mismatch rfl) r hr
                | _ => rw [hb] at hr; cases hr
              | _ => rw [ha] at hr; cases hr
            | _ => rw [hst2] at hr; cases hr
      | _ => rw [hst] at hr; cases hr

/-- The five ways a call can go; `f` is the stream read from, `op` tells whether it is /dev/tty. -/
inductive RpSpec (env : RpEnv) (confirm : Bool) (devtty : Nat) : RpRes → Prop
  | noSource {s : RpSt} : chooseStream env devtty = none → TrEnd s →
      RpSpec env confirm devtty (.returned ⟨none, env.stdin, s, List.replicate 2048 0, List.replicate 2048 0⟩)
  | noEcho {f op s} : chooseStream env devtty = some (f, op) → (if op then env.isattyTty else env.isattyStdin) = true →
      ¬ (env.tcgetOk = true ∧ env.tcsetOk = true) → TrEnd s →
      RpSpec env confirm devtty (.returned ⟨none, env.stdin, s, List.replicate 2048 0, List.replicate 2048 0⟩)
  | ended {f op s} : chooseStream env devtty = some (f, op) →
      ((if op then env.isattyTty else env.isattyStdin) = true → env.tcgetOk = true ∧ env.tcsetOk = true) →
      NotEntered confirm f → TrEnd s →
      RpSpec env confirm devtty (.returned ⟨none, if op then env.stdin else ⟨[], env.stdin.tail⟩, s, List.replicate 2048 0, List.replicate 2048 0⟩)
  | read {f op s l rest} : chooseStream env devtty = some (f, op) →
      ((if op then env.isattyTty else env.isattyStdin) = true → env.tcgetOk = true ∧ env.tcsetOk = true) →
      (if confirm then Confirmed f (passText l) rest else Reads f l rest) → TrEnd s →
      RpSpec env confirm devtty (.returned ⟨if env.strdupOk then some (passText l) else none, if op then env.stdin else rest, s,
        List.replicate 2048 0, List.replicate 2048 0⟩)
  | waiting {f op s} : chooseStream env devtty = some (f, op) → NotYet confirm f →
      ((if op then env.isattyTty else env.isattyStdin) = true → env.tcgetOk = true ∧ env.tcsetOk = true) →
      Tr (if op then env.isattyTty else env.isattyStdin) (fun _ => true) (fun _ => False) s → RpSpec env confirm devtty (.waiting s)

theorem Tr.closeTty {env : RpEnv} {e H R s} (h : Tr e H R s) (opened : Bool) : Tr e H R (Scrypt.closeTty env opened s) := by
  unfold Scrypt.closeTty
  cases opened with
  | false => exact h
  | true =>
    cases env.fcloseOk with
    | true => exact h.plain .close rfl
    | false => exact (h.plain .close rfl).plain _ rfl

/-- While no handler is in place an action does not change what is remembered of the signals. -/
theorem got_act {arr : Nat → List Sig} {s : RpSt} (h : s.inst = fun _ => false) (ev : RpEv) : (act arr s ev).got = s.got := by
  unfold act
  exact (got_deliver (l := arr s.t) h).1

theorem got_closeTty {env : RpEnv} {s : RpSt} (h : s.inst = fun _ => false) (opened : Bool) : (Scrypt.closeTty env opened s).got = s.got := by
  unfold Scrypt.closeTty
  cases opened with
  | false => rfl
  | true =>
    have h2 : (act env.arr s .close).inst = fun _ => false := by
      unfold act
      exact (got_deliver (l := env.arr s.t) h).2.trans h
    cases env.fcloseOk with
    | true => exact got_act h _
    | false => exact (got_act h2 _).trans (got_act h _)

theorem rpErr1_ok {stdin s p c} (hp : p.length = 2048) (hc : c.length = 2048) :
    rpErr1 stdin s p c = .ok (.returned ⟨none, stdin, s, List.replicate 2048 0, List.replicate 2048 0⟩) := by
  unfold rpErr1
  rw [zeroBuf_ok hp, Res.bind_ok, zeroBuf_ok hc, Res.bind_ok]

theorem rpErr2_ok {env : RpEnv} {opened : Bool} {stdin s p c H} (hp : p.length = 2048) (hc : c.length = 2048) (h : Tr false H (fun _ => False) s) :
    ∃ s', rpErr2 env opened stdin s p c = .ok (.returned ⟨none, stdin, s', List.replicate 2048 0, List.replicate 2048 0⟩) ∧ TrEnd s' := by
  unfold rpErr2
  rw [rpErr1_ok hp hc]
  obtain ⟨R, h1, h2⟩ := (h.closeTty (env := env) opened).resetsigs (arr := env.arr)
  exact ⟨_, rfl, h1.fin h2⟩

theorem rpFinish_ok {env : RpEnv} {usingtty opened : Bool} {stdin s l r c e H} (hp : (l ++ [0] ++ r : Bytes).length = 2048) (hc : c.length = 2048)
    (hu : usingtty = false → e = false) (h : Tr e H (fun _ => False) s) :
    ∃ s', rpFinish env usingtty opened stdin s (l ++ [0] ++ r) c =
      .ok (.returned ⟨if env.strdupOk then some (passText l) else none, stdin, s', List.replicate 2048 0, List.replicate 2048 0⟩) ∧ TrEnd s' := by
  unfold rpFinish
  obtain ⟨b, b1, b2, b3⟩ := truncate_spec l r
  simp only [b1, Res.bind_ok, b3]
  have h1 : Tr false H (fun _ => False) (if usingtty = true then act env.arr s (.echoOn false) else s) := by
    cases usingtty
    · rw [hu rfl] at h; exact h
    · exact h.echoOn false
  obtain ⟨R, h2, h3⟩ := h1.resetsigs (arr := env.arr)
  generalize Scrypt.resetsigs env.arr (if usingtty = true then act env.arr s (.echoOn false) else s) = s2 at h2 h3 ⊢
  have h4 := h2.closeTty (env := env) opened
  have h5 : ∀ g, R g ↔ (Scrypt.closeTty env opened s2).got g = true := by rw [got_closeTty h2.inst]; exact h3
  rw [zeroBuf_ok (by omega), Res.bind_ok, zeroBuf_ok hc, Res.bind_ok, rpErr1_ok (by omega) hc]
  cases env.strdupOk
  · exact ⟨_, rfl, h4.plainEnd h5 _ rfl⟩
  · exact ⟨_, rfl, h4.fin h5⟩

theorem disableEcho_spec (env : RpEnv) (usingtty : Bool) {s} (h : Tr false (fun _ => true) (fun _ => False) s) :
    (∃ s', disableEcho env usingtty s = (s', true) ∧ (usingtty = true → env.tcgetOk = true ∧ env.tcsetOk = true) ∧
        Tr usingtty (fun _ => true) (fun _ => False) s') ∨
    (∃ s', disableEcho env usingtty s = (s', false) ∧ usingtty = true ∧ ¬ (env.tcgetOk = true ∧ env.tcsetOk = true) ∧
        Tr false (fun _ => true) (fun _ => False) s') := by
  unfold disableEcho
  cases usingtty with
  | false => exact .inl ⟨_, rfl, (fun h => by cases h), h⟩
  | true =>
    have h1 := h.plain (arr := env.arr) (.tcget env.tcgetOk) rfl
    cases hg : env.tcgetOk with
    | false =>
      rw [hg] at h1
      exact .inr ⟨_, rfl, rfl, by simp, h1.plain _ rfl⟩
    | true =>
      rw [hg] at h1
      cases hs : env.tcsetOk with
      | false => exact .inr ⟨_, rfl, rfl, by simp, (h1.plain (.echoOff false) rfl).plain _ rfl⟩
      | true => exact .inl ⟨_, rfl, fun _ => ⟨rfl, rfl⟩, h1.echoOff⟩

theorem readpass_spec (env : RpEnv) (confirm : Bool) (devtty : Nat) : ∃ r, readpass env confirm devtty = .ok r ∧ RpSpec env confirm devtty r := by
  unfold readpass
  have hp : ((List.range MAXPASSLEN).map env.stk1).length = 2048 := by rw [List.length_map, List.length_range]; rfl
  have hc : ((List.range MAXPASSLEN).map env.stk2).length = 2048 := by rw [List.length_map, List.length_range]; rfl
  generalize (List.range MAXPASSLEN).map env.stk1 = p at hp ⊢
  generalize (List.range MAXPASSLEN).map env.stk2 = c at hc ⊢
  cases hcs : chooseStream env devtty with
  | none => exact ⟨_, rpErr1_ok hp hc, .noSource hcs (tr_init.plainEnd (fun _ => ⟨False.elim, fun h => by cases h⟩) _ rfl)⟩
  | some v =>
    obtain ⟨f, op⟩ := v
    simp only []
    have hi := tr_init.installAll (arr := env.arr)
    generalize acts env.arr ⟨0, [], fun _ => false, fun _ => false⟩ (badsigs.map .install) = s1 at hi ⊢
    rcases disableEcho_spec env (if op then env.isattyTty else env.isattyStdin) hi with ⟨s2, e1, e2, e3⟩ | ⟨s2, e1, e2, e3, e4⟩
    · rw [e1]
      simp only []
      generalize hu : (if op = true then env.isattyTty else env.isattyStdin) = u at *
      obtain ⟨r, k1, k2⟩ := retryLoop_spec env.arr u confirm f.data.length f (Nat.le_refl _) p c hp hc s2
      have k3 := retryLoop_trace env.arr u confirm f.data.length f (Nat.le_refl _) p c s2 e3 r k1
      rw [k1, Res.bind_ok]
      cases k2 with
      | waiting h => exact ⟨_, rfl, .waiting hcs h (hu ▸ e2) (hu ▸ k3)⟩
      | @failed p' c' s' h1 h2 h3 =>
        simp only []
        have k4 : Tr false (fun _ => true) (fun _ => False) (if u = true then act env.arr s' (.echoOn true) else s') := by
          cases u
          · exact k3
          · exact k3.echoOn true
        obtain ⟨s3, m1, m2⟩ := rpErr2_ok (env := env) (opened := op) (stdin := if op then env.stdin else ⟨[], env.stdin.tail⟩) h1 h2 k4
        exact ⟨_, m1, .ended hcs (hu ▸ e2) h3 m2⟩
      | @done l r' c' rest s' h1 h2 h3 =>
        simp only []
        obtain ⟨s3, m1, m2⟩ := rpFinish_ok (env := env) (opened := op) (stdin := if op then env.stdin else rest) h1 h2 (fun h => h) k3
        exact ⟨_, m1, .read hcs (hu ▸ e2) h3 m2⟩
    · rw [e1]
      simp only []
      obtain ⟨s3, m1, m2⟩ := rpErr2_ok (env := env) (opened := op) (stdin := env.stdin) hp hc e4
      exact ⟨_, m1, .noEcho hcs e2 e3 m2⟩

/-! ### The file method -/

/-- The content of a file accepted as a passphrase file: at most one line, of at most 2047 bytes; `err`: the file may also end
with a read error after a complete line. -/
inductive RfSpec (env : RfEnv) : Option RfOut → Prop
  | waiting {f} : env.file = some f → f.tail = .wait → RfSpec env none
  | fail {said} : (¬ ∃ f c, env.file = some f ∧ FileText f c) ∨ env.fcloseOk = false ∨ env.strdupOk = false →
      RfSpec env (some ⟨none, List.replicate 2048 0, said⟩)
  | ok {f c} : env.file = some f → FileText f c → env.fcloseOk = true → env.strdupOk = true →
      RfSpec env (some ⟨some (passText c), List.replicate 2048 0, []⟩)

theorem rfFail_ok {said : List RpMsg} {p : Bytes} (hp : p.length = 2048) : rfFail said p = .ok (some ⟨none, List.replicate 2048 0, said⟩) := by
  unfold rfFail
  rw [zeroBuf_ok hp, Res.bind_ok]

/-- What is said of a file whose text was read completely. -/
def rfSaid (env : RfEnv) (filename : CStr) : List RpMsg :=
  if env.fcloseOk = false then [.warnp ("fclose(".toList ++ filename ++ ")".toList)]
  else if env.strdupOk = false then [.warnp "Cannot allocate memory".toList] else []

/-- After the first line, when the stream has really come to its end. -/
theorem rfRest_ok {env : RfEnv} {filename : CStr} {l r : Bytes} {rest : Strm} (hp : (l ++ [0] ++ r).length = 2048) (hd : rest.data = []) (ht : rest.tail ≠ .wait) :
    rfRest env filename (l ++ [0] ++ r) rest = .ok (some ⟨if env.fcloseOk = true ∧ env.strdupOk = true then some (passText l) else none, List.replicate 2048 0, rfSaid env filename⟩) := by
  unfold rfRest rfSaid
  rw [if_neg (not_not.2 hd), if_neg ht]
  cases hf : env.fcloseOk with
  | false => rw [if_pos (show (!false) = true from rfl), rfFail_ok hp, if_neg (by simp), if_pos rfl]
  | true =>
    rw [if_neg (by simp)]
    obtain ⟨b, b1, b2, b3⟩ := truncate_spec l r
    rw [b1, Res.bind_ok, b3, Res.bind_ok, zeroBuf_ok (by omega), Res.bind_ok, rfFail_ok (by omega)]
    cases env.strdupOk
    · rw [if_neg (by decide), if_neg (by decide), if_neg (by decide), if_pos rfl]
    · rw [if_pos rfl, if_pos (by decide), if_neg (by decide), if_neg (by decide)]

theorem fileText_reads {f rest : Strm} {l : Bytes} (h : Reads f l rest) :
    (∃ c, FileText f c) ↔ rest.data = [] ∧ rest.tail ≠ .wait := by
  obtain ⟨h1, h2, h3, h4, h5, h6⟩ := h
  constructor
  · rintro ⟨c, k1, k2, k3, k4⟩
    have hc : c = l ++ rest.data := by rw [← k1, h1]
    constructor
    · rcases h6 with h6 | h6 | ⟨h6, -⟩
      · have := congrArg List.length hc
        rw [List.length_append] at this
        exact List.length_eq_zero_iff.1 (by omega)
      · by_contra hne
        apply k2
        rw [hc, List.dropLast_append_of_ne_nil hne]
        exact List.mem_append_left _ (last_mem h6)
      · exact h6
    · rw [h2]
      rcases k4 with k4 | ⟨k4, -⟩ <;> rw [k4] <;> decide
  · rintro ⟨k1, k2⟩
    refine ⟨f.data, rfl, ?_, ?_, ?_⟩
    · rw [h1, k1, List.append_nil]; exact h5
    · rw [h1, k1, List.append_nil]; exact h4
    · rw [h2] at k2
      cases ht : f.tail with
      | eof => exact .inl rfl
      | wait => exact absurd ht k2
      | err =>
        refine .inr ⟨rfl, ?_⟩
        rw [h1, k1, List.append_nil]
        rcases h6 with h6 | h6 | ⟨-, h6⟩
        · exact .inl h6
        · exact .inr h6
        · rw [ht] at h6; cases h6

theorem readpass_file_spec (env : RfEnv) (filename : CStr) : ∃ r, readpass_file env filename = .ok r ∧ RfSpec env r := by
  unfold readpass_file
  have hp : ((List.range MAXPASSLEN).map env.stk).length = 2048 := by rw [List.length_map, List.length_range]; rfl
  generalize (List.range MAXPASSLEN).map env.stk = p at hp ⊢
  cases hf : env.file with
  | none => exact ⟨_, rfFail_ok hp, .fail (.inl (by rintro ⟨f, c, h, -⟩; rw [hf] at h; cases h))⟩
  | some f =>
    simp only []
    have hg := fgets_spec f
    generalize fgets MAXPASSLEN f = g at hg ⊢
    cases hg with
    | wait h => exact ⟨_, rfl, .waiting hf h.2.2⟩
    | err h1 h2 h3 =>
      refine ⟨_, rfFail_ok hp, .fail (.inl ?_)⟩
      rintro ⟨f', c, h, k1, k2, k3, k4⟩
      rw [hf] at h
      cases h
      rcases k4 with k4 | ⟨-, k4 | k4⟩
      · rw [h3] at k4; cases k4
      · rw [k1] at h2; omega
      · rw [k1] at h1; exact h1 (last_mem k4)
    | eof h1 h2 =>
      simp only []
      rw [wr_ok _ (by omega), Res.bind_ok]
      have e : p.set 0 0 = [] ++ [0] ++ p.drop 1 := by
        cases p with
        | nil => simp at hp
        | cons a p => rfl
      rw [e, rfRest_ok (rest := ⟨[], .eof⟩) (by simp only [List.length_append, List.length_drop, List.length_nil, List.length_singleton]; omega) rfl (by decide)]
      have ht : FileText f [] := ⟨h1, by simp, by simp, .inl h2⟩
      by_cases hok : env.fcloseOk = true ∧ env.strdupOk = true
      · rw [if_pos hok]
        rw [show rfSaid env filename = [] by simp [rfSaid, hok]]
        exact ⟨_, rfl, .ok hf ht hok.1 hok.2⟩
      · rw [if_neg hok]
        refine ⟨_, rfl, .fail (.inr ?_)⟩
        cases h : env.fcloseOk with
        | false => exact .inl rfl
        | true =>
          right
          cases h' : env.strdupOk with
          | false => rfl
          | true => exact absurd ⟨h, h'⟩ hok
    | @line l rest hr =>
      simp only []
      obtain ⟨e1, e2⟩ := storeLine_ok hp hr.2.2.2.1
      rw [e1, Res.bind_ok]
      by_cases hend : rest.data = [] ∧ rest.tail ≠ .wait
      · have hft := (fileText_reads hr).2 hend
        rw [rfRest_ok e2 hend.1 hend.2]
        obtain ⟨c, hc⟩ := hft
        have hcl : c = l := by
          have := hc.1
          rw [hr.1, hend.1, List.append_nil] at this
          exact this.symm
        subst hcl
        by_cases hok : env.fcloseOk = true ∧ env.strdupOk = true
        · rw [if_pos hok]
          rw [show rfSaid env filename = [] by simp [rfSaid, hok]]
          exact ⟨_, rfl, .ok hf hc hok.1 hok.2⟩
        · rw [if_neg hok]
          refine ⟨_, rfl, .fail (.inr ?_)⟩
          cases h : env.fcloseOk with
          | false => exact .inl rfl
          | true =>
            right
            cases h' : env.strdupOk with
            | false => rfl
            | true => exact absurd ⟨h, h'⟩ hok
      · have hno : ¬ ∃ f c, env.file = some f ∧ FileText f c := by
          rintro ⟨f', c, h, hc⟩
          rw [hf] at h
          cases h
          exact hend ((fileText_reads hr).1 ⟨c, hc⟩)
        unfold rfRest rfErr2
        by_cases hd : rest.data = []
        · have hw : rest.tail = .wait := by
            by_contra hw
            exact hend ⟨hd, hw⟩
          rw [if_neg (not_not.2 hd), if_pos hw]
          exact ⟨_, rfl, .waiting hf (by rw [← hr.2.1]; exact hw)⟩
        · rw [if_pos hd, rfFail_ok e2]
          exact ⟨_, rfl, .fail (.inl hno)⟩

end Scrypt
