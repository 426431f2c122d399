import Verif.Spec.PassTalk
import Verif.Props.Readpass
import Mathlib.Tactic.Common
import Mathlib.Tactic.ByContra
/-
C73: whoever is not given a passphrase is told why.
-/
namespace Scrypt.Props
open Scrypt Scrypt.Spec

theorem talkOf_append (a b : List RpEv) : talkOf (a ++ b) = talkOf a ++ talkOf b := by unfold talkOf; rw [List.filter_append]

theorem talkOf_deliver (l : List Sig) : ∀ s : RpSt, talkOf (l.foldl deliver1 s).tr = talkOf s.tr := by
  induction l with
  | nil => intro s; rfl
  | cons g l ih =>
    intro s
    rw [List.foldl_cons, ih]
    unfold deliver1
    split <;> simp [talkOf]

theorem talkOf_act (arr : Nat → List Sig) (s : RpSt) (e : RpEv) : talkOf (act arr s e).tr = talkOf s.tr ++ talkOf [e] := by
  unfold act
  simp only [talkOf_append, talkOf_deliver]

theorem talkOf_acts (arr : Nat → List Sig) (l : List RpEv) : ∀ s : RpSt, talkOf (acts arr s l).tr = talkOf s.tr ++ talkOf l := by
  induction l with
  | nil => intro s; simp [acts, talkOf]
  | cons e l ih =>
    intro s
    have h : acts arr s (e :: l) = acts arr (act arr s e) l := rfl
    rw [h, ih, talkOf_act, show e :: l = [e] ++ l from rfl, talkOf_append, List.append_assoc]

theorem talkOf_raiseLoop (arr : Nat → List Sig) (l : List Sig) : ∀ s : RpSt, talkOf (raiseLoop arr l s).tr = talkOf s.tr := by
  induction l with
  | nil => intro s; rfl
  | cons g l ih =>
    intro s
    unfold raiseLoop
    rw [ih]
    split
    · rw [talkOf_act]; simp [talkOf]
    · rfl

theorem talkOf_resetsigs (arr : Nat → List Sig) (s : RpSt) : talkOf (resetsigs arr s).tr = talkOf s.tr := by
  unfold resetsigs
  rw [talkOf_raiseLoop, talkOf_acts]
  simp [talkOf, badsigs]

theorem talkOf_install (arr : Nat → List Sig) (s : RpSt) : talkOf (acts arr s (badsigs.map .install)).tr = talkOf s.tr := by
  rw [talkOf_acts]
  simp [talkOf, badsigs]

theorem talkOf_ask (arr : Nat → List Sig) (b : Bool) (s : RpSt) (e : RpEv) (he : talkOf [e] = [e]) :
    talkOf (act arr (if b = true then act arr s e else s) .read).tr = talkOf s.tr ++ ask b e := by
  rw [talkOf_act]
  cases b with
  | true => rw [if_pos rfl, talkOf_act, he]; simp [ask, talkOf]
  | false => rw [if_neg (by simp)]; simp [ask, talkOf]

theorem talkOf_close (env : RpEnv) (op : Bool) (s : RpSt) : talkOf (closeTty env op s).tr = talkOf s.tr ++ closing env op := by
  unfold closeTty closing
  cases op with
  | false => simp
  | true =>
    cases env.fcloseOk with
    | true =>
      simp only [if_true, talkOf_act, Bool.true_eq_false, and_false, if_false]
      rfl
    | false =>
      simp only [if_true, talkOf_act, Bool.false_eq_true, and_self, if_false, List.append_assoc]
      rfl

/-- What the reading loop says: the dialogue, and the complaint at the end. -/
inductive LoopTalk (terminal confirm : Bool) (f : Strm) (s0 : RpSt) : RpRead → Prop
  | waiting {s d} : Dialogue terminal confirm f d → talkOf s.tr = talkOf s0.tr ++ d → LoopTalk terminal confirm f s0 (.waiting s)
  | failed {p c s d} : Dialogue terminal confirm f d → talkOf s.tr = talkOf s0.tr ++ d ++ [.say (endMsg f)] → LoopTalk terminal confirm f s0 (.failed p c s)
  | done {p c rest s d} : Dialogue terminal confirm f d → talkOf s.tr = talkOf s0.tr ++ d → LoopTalk terminal confirm f s0 (.done p c rest s)

theorem retryLoop_talk (arr : Nat → List Sig) (usingtty confirm : Bool) (n : Nat) : ∀ (f : Strm) (_ : f.data.length ≤ n) (p c : Bytes)
    (_ : p.length = 2048) (_ : c.length = 2048) (s : RpSt) (r : RpRead), retryLoop arr usingtty confirm p c f s = .ok r → LoopTalk usingtty confirm f s r := by
  induction n using Nat.strongRecOn with
  | ind n ih =>
    intro f hn p c hp hc s r hr
    rw [retryLoop] at hr
    have t1 := talkOf_ask arr usingtty s .prompt rfl
    simp only [] at hr
    generalize act arr (if usingtty = true then act arr s .prompt else s) .read = s1 at hr t1
    have h1 := fgets_spec f
    generalize fgets MAXPASSLEN f = g at h1 hr
    have one : Ends f ∨ Waits f → Dialogue usingtty confirm f (ask usingtty .prompt) := by
      intro h
      cases confirm
      · exact .once
      · exact .first h
    cases h1 with
    | wait h =>
      cases hr
      exact .waiting (one (.inr h)) t1
    | eof h h' =>
      cases hr
      refine .failed (one (.inl (.inl ⟨h, h'⟩))) ?_
      rw [talkOf_act, t1, endMsg, if_pos h']; rfl
    | err h h' h'' =>
      cases hr
      refine .failed (one (.inl (.inr ⟨h, h', h''⟩))) ?_
      rw [talkOf_act, t1, endMsg, if_neg (by rw [h'']; decide)]; rfl
    | @line l f1 hl =>
      obtain ⟨e1, e2⟩ := storeLine_ok hp hl.2.2.2.1
      simp only [e1, Res.bind_ok] at hr
      cases confirm with
      | false => cases hr; exact .done .once t1
      | true =>
        rw [if_neg (by simp)] at hr
        have t2 := talkOf_ask arr usingtty s1 .confirmPrompt rfl
        generalize act arr (if usingtty = true then act arr s1 .confirmPrompt else s1) .read = s2 at hr t2
        rw [t1, List.append_assoc] at t2
        have hf2 := fgets_spec f1
        generalize fgets MAXPASSLEN f1 = g at hr hf2
        cases hf2 with
        | wait h => cases hr; exact .waiting (.second hl (.inr h)) t2
        | eof h h' =>
          cases hr
          refine .failed (.second hl (.inl (.inl ⟨h, h'⟩))) ?_
          rw [talkOf_act, t2, endMsg, if_pos (by rw [← hl.2.1]; exact h')]; rfl
        | err h h' h'' =>
          cases hr
          refine .failed (.second hl (.inl (.inr ⟨h, h', h''⟩))) ?_
          rw [talkOf_act, t2, endMsg, if_neg (by rw [← hl.2.1, h'']; decide)]; rfl
        | @line l2 f2 hl2 =>
          obtain ⟨e3, e4⟩ := storeLine_ok hc hl2.2.2.2.1
          simp only [e3, Res.bind_ok, cstr_line] at hr
          have hs1 := reads_shrinks hl
          have hs2 := reads_shrinks hl2
          by_cases hsame : l.takeWhile (· ≠ 0) = l2.takeWhile (· ≠ 0)
          · rw [if_neg (not_not.2 hsame)] at hr
            cases hr
            exact .done (.same hl hl2 hsame) t2
          · rw [if_pos hsame, dif_pos (by omega)] at hr
            have k := ih f2.data.length (by omega) f2 (Nat.le_refl _) _ _ e2 e4 _ r hr
            have t3 : talkOf (act arr s2 .mismatch).tr = talkOf s.tr ++ (ask usingtty .prompt ++ ask usingtty .confirmPrompt ++ [.mismatch]) := by
              rw [talkOf_act, t2]; simp [talkOf]
            have hend : endMsg f2 = endMsg f := by unfold endMsg; rw [hl2.2.1, hl.2.1]
            cases k with
            | waiting a b => exact .waiting (.again hl hl2 hsame a) (by rw [b, t3]; simp)
            | failed a b => exact .failed (.again hl hl2 hsame a) (by rw [b, t3, hend]; simp)
            | done a b => exact .done (.again hl hl2 hsame a) (by rw [b, t3]; simp)

/-- What a call has said so far. -/
inductive CallTalk (env : RpEnv) (confirm : Bool) (devtty : Nat) : RpRes → Prop
  | waiting {s f op} : Source env devtty f op → EchoOk env op → NotYet confirm f → Dialogue (isTerminal env op) confirm f (talkOf s.tr) →
      CallTalk env confirm devtty (.waiting s)
  | returned {o} : Talk env confirm devtty o.passwd (talkOf o.st.tr) → CallTalk env confirm devtty (.returned o)

theorem readpass_talk (env : RpEnv) (confirm : Bool) (devtty : Nat) (r : RpRes) (hr : readpass env confirm devtty = .ok r) : CallTalk env confirm devtty r := by
  unfold readpass at hr
  have hp : ((List.range MAXPASSLEN).map env.stk1).length = 2048 := by rw [List.length_map, List.length_range]; rfl
  have hc : ((List.range MAXPASSLEN).map env.stk2).length = 2048 := by rw [List.length_map, List.length_range]; rfl
  generalize (List.range MAXPASSLEN).map env.stk1 = p at hp hr
  generalize (List.range MAXPASSLEN).map env.stk2 = c at hc hr
  cases hcs : chooseStream env devtty with
  | none =>
    rw [hcs] at hr
    simp only [rpErr1_ok hp hc] at hr
    obtain rfl := Res.ok.inj hr
    refine .returned ?_
    show Talk _ _ _ none (talkOf (act env.arr _ _).tr)
    rw [talkOf_act]
    match devtty, hcs with
    | 0, h => cases h
    | 1, h =>
      unfold chooseStream at h
      cases htty : env.tty with
      | none => simp [htty] at h
      | some f => simp [htty] at h
    | 2, h =>
      have htty : env.tty = none := by
        unfold chooseStream at h
        cases htty : env.tty with
        | none => rfl
        | some f => simp [htty] at h
      exact .noTty rfl htty
    | n + 3, _ =>
      have hn : noStreamMsg (n + 3) = .warn0 ("readpass does not support devtty=".toList ++ (toString (n + 3)).toList) := if_neg (by omega)
      rw [hn]
      exact .unsupported (by omega)
  | some v =>
    obtain ⟨f, op⟩ := v
    have hsrc := chooseStream_source.1 hcs
    rw [hcs] at hr
    simp only [] at hr
    have ti := talkOf_install env.arr ⟨0, [], fun _ => false, fun _ => false⟩
    generalize acts env.arr ⟨0, [], fun _ => false, fun _ => false⟩ (badsigs.map .install) = s1 at hr ti
    have ti : talkOf s1.tr = [] := ti
    have hu0 : (if op = true then env.isattyTty else env.isattyStdin) = isTerminal env op := rfl
    rw [hu0] at hr
    -- disabling echo
    cases hd : disableEcho env (isTerminal env op) s1 with
    | mk s2 ok =>
    rw [hd] at hr
    unfold disableEcho at hd
    cases ok with
    | false =>
      simp only [rpErr2, rpErr1_ok hp hc] at hr
      obtain rfl := Res.ok.inj hr
      refine .returned ?_
      show Talk _ _ _ none (talkOf (resetsigs env.arr (closeTty env op s2)).tr)
      rw [talkOf_resetsigs, talkOf_close]
      cases hu : isTerminal env op with
      | false => rw [hu] at hd; cases hd
      | true =>
        rw [hu, if_pos rfl] at hd
        cases hg : env.tcgetOk with
        | false =>
          rw [hg] at hd
          obtain ⟨rfl, -⟩ := Prod.mk.inj hd
          rw [talkOf_act, talkOf_act, ti]
          exact .settings hsrc hu hg
        | true =>
          rw [hg] at hd
          simp only [if_true] at hd
          obtain ⟨hd1, hd2⟩ := Prod.mk.inj hd
          rw [hd2] at hd1
          obtain rfl := hd1
          rw [if_neg (by simp), talkOf_act, talkOf_act, talkOf_act, ti]
          exact .setting hsrc hu hg hd2
    | true =>
      have hecho : EchoOk env op := by
        intro hu
        have hu : isTerminal env op = true := hu
        rw [hu, if_pos rfl] at hd
        cases hg : env.tcgetOk with
        | false => rw [hg] at hd; cases (Prod.mk.inj hd).2
        | true =>
          rw [hg] at hd
          simp only [if_true] at hd
          exact ⟨rfl, (Prod.mk.inj hd).2⟩
      have t2 : talkOf s2.tr = [] := by
        cases hu : isTerminal env op with
        | false => rw [hu] at hd; obtain ⟨rfl, -⟩ := Prod.mk.inj hd; exact ti
        | true =>
          obtain ⟨hg, hs⟩ := hecho hu
          rw [hu, if_pos rfl, hg, hs] at hd
          obtain ⟨rfl, -⟩ := Prod.mk.inj hd
          rw [if_pos rfl, talkOf_act, talkOf_act, ti]; rfl
      simp only [] at hr
      obtain ⟨r', k1, k2⟩ := retryLoop_spec env.arr (isTerminal env op) confirm f.data.length f (Nat.le_refl _) p c hp hc s2
      have k3 := retryLoop_talk env.arr (isTerminal env op) confirm f.data.length f (Nat.le_refl _) p c hp hc s2 r' k1
      rw [k1, Res.bind_ok] at hr
      cases k2 with
      | waiting h =>
        obtain rfl := Res.ok.inj hr
        cases k3 with
        | waiting a b => rw [t2, List.nil_append] at b; exact .waiting hsrc hecho h (by rw [b]; exact a)
      | @failed p' c' s' h1 h2 h3 =>
        simp only [rpErr2, rpErr1_ok h1 h2] at hr
        obtain rfl := Res.ok.inj hr
        refine .returned ?_
        show Talk _ _ _ none (talkOf (resetsigs env.arr (closeTty env op _)).tr)
        have t3 : talkOf (if isTerminal env op = true then act env.arr s' (.echoOn true) else s').tr = talkOf s'.tr := by
          cases isTerminal env op
          · rfl
          · rw [if_pos rfl, talkOf_act]; simp [talkOf]
        rw [talkOf_resetsigs, talkOf_close, t3]
        cases k3 with
        | failed a b =>
          rw [t2, List.nil_append] at b
          rw [b]
          exact .ended hsrc hecho h3 a
      | @done l r'' c' rest s' h1 h2 h3 =>
        cases k3 with
        | @done _ _ _ _ d a b =>
        rw [t2, List.nil_append] at b
        have hent : Entered confirm f (passText l) rest := by
          unfold Entered
          cases confirm
          · exact ⟨l, h3, rfl⟩
          · exact h3
        have t3 : talkOf (if isTerminal env op = true then act env.arr s' (.echoOn false) else s').tr = d := by
          rw [← b]
          cases isTerminal env op
          · rfl
          · rw [if_pos rfl, talkOf_act]; simp [talkOf]
        obtain ⟨bf, b1, b2, b3⟩ := truncate_spec l r''
        simp only [rpFinish, b1, Res.bind_ok, b3] at hr
        generalize (if isTerminal env op = true then act env.arr s' (.echoOn false) else s') = s3 at t3 hr
        have t4 : talkOf (closeTty env op (resetsigs env.arr s3)).tr = d ++ closing env op := by rw [talkOf_close, talkOf_resetsigs, t3]
        cases hs : env.strdupOk with
        | true =>
          rw [hs, if_pos rfl, zeroBuf_ok (by omega), Res.bind_ok, zeroBuf_ok h2, Res.bind_ok] at hr
          obtain rfl := Res.ok.inj hr
          refine .returned ?_
          show Talk _ _ _ (some _) (talkOf (closeTty env op (resetsigs env.arr s3)).tr)
          rw [t4]
          exact .ok hsrc hecho hent hs a
        | false =>
          rw [hs, if_neg (by simp), rpErr1_ok (by omega) h2] at hr
          obtain rfl := Res.ok.inj hr
          refine .returned ?_
          show Talk _ _ _ none (talkOf (act env.arr (closeTty env op (resetsigs env.arr s3)) _).tr)
          rw [talkOf_act, t4]
          exact .memory hsrc hecho hent hs a

/-- C73. A call that has returned: the passphrase or its absence goes with exactly the prompts, notices and complaints of `Talk`, in order, whatever signals arrive. -/
theorem C73_talk (env : RpEnv) (confirm : Bool) (devtty : Nat) (o : RpOut) (h : readpass env confirm devtty = .ok (.returned o)) :
    Talk env confirm devtty o.passwd (talkOf o.st.tr) := by
  cases readpass_talk env confirm devtty _ h with
  | returned a => exact a

/-- C73. A call that waits for input has said exactly what belongs to the lines read so far. -/
theorem C73_waiting (env : RpEnv) (confirm : Bool) (devtty : Nat) (s : RpSt) (h : readpass env confirm devtty = .ok (.waiting s)) :
    ∃ f op, Source env devtty f op ∧ EchoOk env op ∧ NotYet confirm f ∧ Dialogue (isTerminal env op) confirm f (talkOf s.tr) := by
  cases readpass_talk env confirm devtty _ h with
  | waiting a b c d => exact ⟨_, _, a, b, c, d⟩

theorem dialogue_unique {t : Bool} {confirm : Bool} {f : Strm} {d d' : List RpEv} (h : Dialogue t confirm f d) (h' : Dialogue t confirm f d') : d = d' := by
  have no : ∀ {f c f1}, Reads f c f1 → ¬ (Ends f ∨ Waits f) := by
    rintro f c f1 h (h' | h')
    · exact reads_not_ends h h'
    · exact reads_not_waits h h'
  induction h generalizing d' with
  | once => cases h'; rfl
  | first h =>
    cases h' with
    | first _ => rfl
    | second a _ => exact absurd h (no a)
    | same a _ _ => exact absurd h (no a)
    | again a _ _ _ => exact absurd h (no a)
  | second a b =>
    cases h' with
    | first h => exact absurd h (no a)
    | second _ _ => rfl
    | same _ _ _ => rfl
    | again a' b' _ _ =>
      obtain ⟨rfl, rfl⟩ := reads_unique a a'
      exact absurd b (no b')
  | same a b e =>
    cases h' with
    | first h => exact absurd h (no a)
    | second _ _ => rfl
    | same _ _ _ => rfl
    | again a' b' e' _ =>
      obtain ⟨rfl, rfl⟩ := reads_unique a a'
      obtain ⟨rfl, rfl⟩ := reads_unique b b'
      exact absurd e e'
  | again a b e _ ih =>
    cases h' with
    | first h => exact absurd h (no a)
    | second a' h =>
      obtain ⟨rfl, rfl⟩ := reads_unique a a'
      exact absurd h (no b)
    | same a' b' e' =>
      obtain ⟨rfl, rfl⟩ := reads_unique a a'
      obtain ⟨rfl, rfl⟩ := reads_unique b b'
      exact absurd e' e
    | again a' b' _ i =>
      obtain ⟨rfl, rfl⟩ := reads_unique a a'
      obtain ⟨rfl, rfl⟩ := reads_unique b b'
      rw [ih i]

theorem source_unique {env : RpEnv} {n : Nat} {f f' : Strm} {op op' : Bool} (h : Source env n f op) (h' : Source env n f' op') : f = f' ∧ op = op' := by
  have := (chooseStream_source.2 h).symm.trans (chooseStream_source.2 h')
  exact Prod.mk.inj (Option.some.inj this)

/-- C73. `Talk` leaves no choice: the circumstances determine the passphrase and every word. -/
theorem C73_unique {env : RpEnv} {confirm : Bool} {devtty : Nat} {pw pw' : Option Bytes} {t t' : List RpEv}
    (h : Talk env confirm devtty pw t) (h' : Talk env confirm devtty pw' t') : pw = pw' ∧ t = t' := by
  have nosrc : ∀ {f op}, Source env devtty f op → ¬ 2 < devtty := by
    intro f op hs hn
    cases hs <;> omega
  have notty : ∀ {f op}, Source env devtty f op → devtty = 2 → env.tty ≠ none := by
    intro f op hs hn hx
    cases hs with
    | ttyOnly h => rw [hx] at h; cases h
    | _ => cases hn
  cases h with
  | unsupported a =>
    cases h' with
    | unsupported _ => exact ⟨rfl, rfl⟩
    | noTty b _ => omega
    | _ hs => exact absurd a (nosrc hs)
  | noTty a b =>
    cases h' with
    | unsupported _ => omega
    | noTty _ _ => exact ⟨rfl, rfl⟩
    | _ hs => exact absurd b (notty hs a)
  | settings s1 a b =>
    cases h' with
    | unsupported x => exact absurd x (nosrc s1)
    | noTty x y => exact absurd y (notty s1 x)
    | settings s2 _ _ => obtain ⟨rfl, rfl⟩ := source_unique s1 s2; exact ⟨rfl, rfl⟩
    | setting s2 _ c _ => rw [b] at c; cases c
    | ended s2 e _ _ => obtain ⟨rfl, rfl⟩ := source_unique s1 s2; have := (e a).1; rw [b] at this; cases this
    | ok s2 e _ _ _ => obtain ⟨rfl, rfl⟩ := source_unique s1 s2; have := (e a).1; rw [b] at this; cases this
    | memory s2 e _ _ _ => obtain ⟨rfl, rfl⟩ := source_unique s1 s2; have := (e a).1; rw [b] at this; cases this
  | setting s1 a b c =>
    cases h' with
    | unsupported x => exact absurd x (nosrc s1)
    | noTty x y => exact absurd y (notty s1 x)
    | settings s2 _ d => rw [b] at d; cases d
    | setting s2 _ _ _ => obtain ⟨rfl, rfl⟩ := source_unique s1 s2; exact ⟨rfl, rfl⟩
    | ended s2 e _ _ => obtain ⟨rfl, rfl⟩ := source_unique s1 s2; have := (e a).2; rw [c] at this; cases this
    | ok s2 e _ _ _ => obtain ⟨rfl, rfl⟩ := source_unique s1 s2; have := (e a).2; rw [c] at this; cases this
    | memory s2 e _ _ _ => obtain ⟨rfl, rfl⟩ := source_unique s1 s2; have := (e a).2; rw [c] at this; cases this
  | ended s1 e n d =>
    cases h' with
    | unsupported x => exact absurd x (nosrc s1)
    | noTty x y => exact absurd y (notty s1 x)
    | settings s2 a b => obtain ⟨rfl, rfl⟩ := source_unique s1 s2; have := (e a).1; rw [b] at this; cases this
    | setting s2 a _ c => obtain ⟨rfl, rfl⟩ := source_unique s1 s2; have := (e a).2; rw [c] at this; cases this
    | ended s2 _ _ d2 => obtain ⟨rfl, rfl⟩ := source_unique s1 s2; rw [dialogue_unique d d2]; exact ⟨rfl, rfl⟩
    | ok s2 _ n2 _ _ => obtain ⟨rfl, rfl⟩ := source_unique s1 s2; exact absurd n (entered_not_ended n2)
    | memory s2 _ n2 _ _ => obtain ⟨rfl, rfl⟩ := source_unique s1 s2; exact absurd n (entered_not_ended n2)
  | ok s1 e n m d =>
    cases h' with
    | unsupported x => exact absurd x (nosrc s1)
    | noTty x y => exact absurd y (notty s1 x)
    | settings s2 a b => obtain ⟨rfl, rfl⟩ := source_unique s1 s2; have := (e a).1; rw [b] at this; cases this
    | setting s2 a _ c => obtain ⟨rfl, rfl⟩ := source_unique s1 s2; have := (e a).2; rw [c] at this; cases this
    | ended s2 _ n2 _ => obtain ⟨rfl, rfl⟩ := source_unique s1 s2; exact absurd n2 (entered_not_ended n)
    | ok s2 _ n2 _ d2 => obtain ⟨rfl, rfl⟩ := source_unique s1 s2; rw [dialogue_unique d d2, (entered_unique n n2).1]; exact ⟨rfl, rfl⟩
    | memory s2 _ _ m2 _ => rw [m] at m2; cases m2
  | memory s1 e n m d =>
    cases h' with
    | unsupported x => exact absurd x (nosrc s1)
    | noTty x y => exact absurd y (notty s1 x)
    | settings s2 a b => obtain ⟨rfl, rfl⟩ := source_unique s1 s2; have := (e a).1; rw [b] at this; cases this
    | setting s2 a _ c => obtain ⟨rfl, rfl⟩ := source_unique s1 s2; have := (e a).2; rw [c] at this; cases this
    | ended s2 _ n2 _ => obtain ⟨rfl, rfl⟩ := source_unique s1 s2; exact absurd n2 (entered_not_ended n)
    | ok s2 _ _ m2 _ => rw [m] at m2; cases m2
    | memory s2 _ n2 _ d2 => obtain ⟨rfl, rfl⟩ := source_unique s1 s2; rw [dialogue_unique d d2]; exact ⟨rfl, rfl⟩

/-- C73. A passphrase file. -/
theorem C73_file (env : RfEnv) (name : CStr) (o : RfOut) (h : readpass_file env name = .ok (some o)) : FileTalk env name o.passwd o.said := by
  unfold readpass_file at h
  have hp : ((List.range MAXPASSLEN).map env.stk).length = 2048 := by rw [List.length_map, List.length_range]; rfl
  generalize (List.range MAXPASSLEN).map env.stk = p at hp h
  have finish : ∀ f c, env.file = some f → FileText f c →
      FileTalk env name (if env.fcloseOk = true ∧ env.strdupOk = true then some (passText c) else none) (rfSaid env name) := by
    intro f c hf ht
    unfold rfSaid
    cases hc : env.fcloseOk with
    | false => simp only [Bool.false_eq_true, false_and, if_false, if_true]; exact .close hf ht hc
    | true =>
      cases hs : env.strdupOk with
      | false => simp only [Bool.false_eq_true, and_false, if_false, if_true, Bool.true_eq_false]; exact .memory hf ht hc hs
      | true => simp only [and_self, if_true, Bool.true_eq_false, if_false]; exact .ok hf ht hc hs
  cases hf : env.file with
  | none =>
    rw [hf] at h
    simp only [rfFail_ok hp] at h
    obtain rfl := Option.some.inj (Res.ok.inj h)
    exact .noFile hf
  | some f =>
    rw [hf] at h
    simp only [] at h
    have hg := fgets_spec f
    generalize fgets MAXPASSLEN f = g at hg h
    cases hg with
    | wait _ => cases h
    | err h1 h2 h3 =>
      simp only [rfErr2, rfFail_ok hp] at h
      obtain rfl := Option.some.inj (Res.ok.inj h)
      exact .unreadable hf h3 h1 h2
    | eof h1 h2 =>
      simp only [] at h
      rw [wr_ok _ (by omega), Res.bind_ok] at h
      have e : p.set 0 0 = [] ++ [0] ++ p.drop 1 := by
        cases p with
        | nil => simp at hp
        | cons a p => rfl
      rw [e, rfRest_ok (rest := ⟨[], .eof⟩) (by simp only [List.length_append, List.length_drop, List.length_nil, List.length_singleton]; omega) rfl (by decide)] at h
      obtain rfl := Option.some.inj (Res.ok.inj h)
      exact finish f [] hf ⟨h1, by simp, by simp, .inl h2⟩
    | @line l rest hr =>
      simp only [] at h
      obtain ⟨e1, e2⟩ := storeLine_ok hp hr.2.2.2.1
      rw [e1, Res.bind_ok] at h
      by_cases hend : rest.data = [] ∧ rest.tail ≠ .wait
      · obtain ⟨c, hc⟩ := (fileText_reads hr).2 hend
        rw [rfRest_ok e2 hend.1 hend.2] at h
        have hcl : c = l := by
          have := hc.1
          rw [hr.1, hend.1, List.append_nil] at this
          exact this.symm
        subst hcl
        obtain rfl := Option.some.inj (Res.ok.inj h)
        exact finish f c hf hc
      · unfold rfRest rfErr2 at h
        by_cases hd : rest.data = []
        · have hw : rest.tail = .wait := by
            by_contra hw
            exact hend ⟨hd, hw⟩
          rw [if_neg (not_not.2 hd), if_pos hw] at h
          cases h
        · rw [if_pos hd, rfFail_ok e2] at h
          obtain rfl := Option.some.inj (Res.ok.inj h)
          exact .tooLong hf hr hd

theorem saysOf_talkOf (tr : List RpEv) : saysOf (talkOf tr) = saysOf tr := by
  induction tr with
  | nil => rfl
  | cons e tr ih =>
    unfold talkOf saysOf at *
    cases e <;> simp_all

/-- C73. Every method of obtaining a passphrase: the passphrase or its absence goes with exactly the complaints of `MethodTalk`. -/
theorem C73_method (env : PeEnv) (m : PassEntry) (arg : CStr) (once : Bool) (o : PeOut) (h : passphrase_entry_readpass env m arg once = .ok (some o)) :
    MethodTalk env m arg once o.passwd o.said := by
  have rp : ∀ confirm devtty, peReadpass env confirm devtty = .ok (some o) → ∃ t, Talk env.rp confirm devtty o.passwd t ∧ o.said = saysOf t := by
    intro confirm devtty h
    unfold peReadpass at h
    obtain ⟨r, h1, h2⟩ := Res.bind_eq_ok.1 h
    cases r with
    | waiting s => cases h2
    | returned q =>
      obtain rfl := Option.some.inj (Res.ok.inj h2)
      exact ⟨_, C73_talk env.rp confirm devtty q h1, (saysOf_talkOf _).symm⟩
  unfold passphrase_entry_readpass at h
  cases m with
  | unset => obtain rfl := Option.some.inj (Res.ok.inj h); exact .unset
  | ttyStdin => obtain ⟨t, a, b⟩ := rp _ _ h; rw [b]; exact .ttyStdin a
  | stdinOnce => obtain ⟨t, a, b⟩ := rp _ _ h; rw [b]; exact .stdinOnce a
  | ttyOnce => obtain ⟨t, a, b⟩ := rp _ _ h; rw [b]; exact .ttyOnce a
  | env =>
    cases hg : env.getenv arg with
    | none =>
      simp only [hg] at h
      obtain rfl := Option.some.inj (Res.ok.inj h)
      exact .noVariable hg
    | some v =>
      cases hs : env.strdupOk with
      | true =>
        simp only [hg, hs, if_true] at h
        obtain rfl := Option.some.inj (Res.ok.inj h)
        exact .fromVariable hg hs
      | false =>
        simp only [hg, hs, Bool.false_eq_true, if_false] at h
        obtain rfl := Option.some.inj (Res.ok.inj h)
        exact .noMemory hg hs
  | file =>
    obtain ⟨r, h1, h2⟩ := Res.bind_eq_ok.1 h
    cases r with
    | none => cases h2
    | some q =>
      obtain rfl := Option.some.inj (Res.ok.inj h2)
      exact .file (C73_file _ _ q h1)

/-- C73. In short: who gets no passphrase is told a reason; who gets one hears no complaint except that the terminal device could not be closed. -/
theorem C73_reason (env : PeEnv) (m : PassEntry) (arg : CStr) (once : Bool) (o : PeOut) (h : passphrase_entry_readpass env m arg once = .ok (some o)) :
    (o.passwd = none → o.said ≠ []) ∧ (o.passwd ≠ none → ∀ x ∈ o.said, x = .warnp "fclose".toList ∧ env.rp.fcloseOk = false) := by
  have sa : ∀ a b, saysOf (a ++ b) = saysOf a ++ saysOf b := by intro a b; unfold saysOf; rw [List.filterMap_append]
  have sd : ∀ {t c f d}, Dialogue t c f d → saysOf d = [] := by
    intro t c f d hd
    have hask : ∀ e, e = .prompt ∨ e = .confirmPrompt → saysOf (ask t e) = [] := by
      rintro e (rfl | rfl) <;> cases t <;> rfl
    induction hd with
    | once => exact hask _ (.inl rfl)
    | first _ => exact hask _ (.inl rfl)
    | second _ _ => rw [sa, hask _ (.inl rfl), hask _ (.inr rfl)]; rfl
    | same _ _ _ => rw [sa, hask _ (.inl rfl), hask _ (.inr rfl)]; rfl
    | again _ _ _ _ ih => rw [sa, sa, sa, hask _ (.inl rfl), hask _ (.inr rfl), ih]; rfl
  have talk : ∀ {c n pw t}, Talk env.rp c n pw t → (pw = none → saysOf t ≠ []) ∧ (pw ≠ none → ∀ x ∈ saysOf t, x = .warnp "fclose".toList ∧ env.rp.fcloseOk = false) := by
    intro c n pw t ht
    cases ht with
    | unsupported _ => exact ⟨fun _ h => by simp [saysOf] at h, fun h => absurd rfl h⟩
    | noTty _ _ => exact ⟨fun _ h => by simp [saysOf] at h, fun h => absurd rfl h⟩
    | settings _ _ _ => exact ⟨fun _ h => by simp [saysOf] at h, fun h => absurd rfl h⟩
    | setting _ _ _ _ => exact ⟨fun _ h => by simp [saysOf] at h, fun h => absurd rfl h⟩
    | ended _ _ _ _ => exact ⟨fun _ h => by rw [sa, sa] at h; simp [saysOf] at h, fun h => absurd rfl h⟩
    | memory _ _ _ _ _ => exact ⟨fun _ h => by rw [sa, sa] at h; simp [saysOf] at h, fun h => absurd rfl h⟩
    | ok _ _ _ _ hd =>
      refine ⟨(fun h => by cases h), fun _ x hx => ?_⟩
      rw [sa, sd hd, List.nil_append] at hx
      unfold closing at hx
      split at hx
      · rename_i hc
        simp only [saysOf, List.filterMap_cons, List.filterMap_nil, List.mem_singleton] at hx
        exact ⟨hx, hc.2⟩
      · cases hx
  have hm := C73_method env m arg once o h
  generalize o.passwd = pw at hm ⊢
  generalize o.said = sd' at hm ⊢
  cases hm with
  | ttyStdin a => exact talk a
  | stdinOnce a => exact talk a
  | ttyOnce a => exact talk a
  | noVariable _ => exact ⟨fun _ h => by simp at h, fun h => absurd rfl h⟩
  | noMemory _ _ => exact ⟨fun _ h => by simp at h, fun h => absurd rfl h⟩
  | fromVariable _ _ => exact ⟨(fun h => by cases h), fun _ x hx => by cases hx⟩
  | unset => exact ⟨fun _ h => by simp at h, fun h => absurd rfl h⟩
  | file a =>
    cases a with
    | ok _ _ _ _ => exact ⟨(fun h => by cases h), fun _ x hx => by cases hx⟩
    | _ => exact ⟨fun _ h => by simp at h, fun h => absurd rfl h⟩

/-- Non-vacuity: the terminal session of `exTty` (a pair that differs, then an equal pair), and standard input that ends at once. -/
example : ∃ o, readpass exTty true 1 = .ok (.returned o) ∧ o.passwd = some [0x6f, 0x6b] ∧
    talkOf o.st.tr = [.prompt, .read, .confirmPrompt, .read, .mismatch, .prompt, .read, .confirmPrompt, .read] := by
  have h := exTty_runs
  unfold rpResult at h
  cases hr : readpass exTty true 1 with
  | ok r =>
    rw [hr] at h
    cases r with
    | waiting s => cases h
    | returned o =>
      obtain ⟨h1, h2⟩ := Prod.mk.inj (Option.some.inj h)
      obtain ⟨-, h3⟩ := Prod.mk.inj h2
      exact ⟨o, rfl, h1, by rw [h3]; decide⟩
  | ub => rw [hr] at h; cases h
  | abort => rw [hr] at h; cases h

example : (rpResult { exRp with stdin := ⟨[], .eof⟩ } false 0).map (fun r => (r.1, talkOf r.2.2)) =
    some (none, [.read, .say (.warn0 "EOF reading password".toList)]) := by decide +kernel

end Scrypt.Props
