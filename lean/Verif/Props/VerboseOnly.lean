import Verif.Props.Params
import Verif.Props.Refusal
import Verif.Props.Verbose
import Verif.Props.MainEx
import Mathlib.Tactic.Common
/-
**C77.**  The verbose option changes nothing but the report: the same run without it gives the same outcome - return code, parameters, output,
files, passphrase buffers, messages - except that the report of the parameters is missing from what was printed.  In the other direction, the only
thing the report can add is undefined behaviour when there is no memory to print it (finding F15).
-/
namespace Scrypt.Props
set_option exponentiation.threshold 1100
open Scrypt Scrypt.Spec

/-- A line of output that is not the report of the parameters. -/
def notReport : Msg → Bool
  | .params _ => false
  | .warn _ => true

/-- The outcomes without the report of the parameters. -/
def _root_.Scrypt.SetupOut.quiet (o : SetupOut) : SetupOut := { o with err := o.err.filter notReport }
def _root_.Scrypt.BufOut.quiet (o : BufOut) : BufOut := { o with err := o.err.filter notReport }
def _root_.Scrypt.FileOut.quiet (o : FileOut) : FileOut := { o with err := o.err.filter notReport }
def _root_.Scrypt.PrepOut.quiet (o : PrepOut) : PrepOut := { o with err := o.err.filter notReport }

/-- A line of the utility's output that is not the report of the parameters. -/
def notReportM : MMsg → Bool
  | .lib (.params _) => false
  | _ => true

def _root_.Scrypt.ModeOut.quiet (o : ModeOut) : ModeOut := { o with msgs := o.msgs.filter notReportM }
def _root_.Scrypt.MainOut.quiet (o : MainOut) : MainOut := { o with msgs := o.msgs.filter notReportM }

/-- The memory for printing the report is there. -/
def Printable (sys : ParamSys) : Prop := sys.disp.asprintf1 = true ∧ sys.disp.asprintf2 = true

/-- `b` is `a` without the report, unless (`¬ p`) printing the report went wrong. -/
def Quieter {α : Type} (p : Prop) (φ : α → α) (a b : Res α) : Prop := b = (a >>= fun o => .ok (φ o)) ∨ (¬ p ∧ a = .ub)

theorem Quieter.refl {α : Type} {p : Prop} {φ : α → α} {a : Res α} (h : ∀ o, a = .ok o → φ o = o) : Quieter p φ a a := by
  left
  cases a with
  | ok o => rw [Res.bind_ok, h o rfl]
  | ub => rfl
  | abort => rfl

theorem Quieter.ok {α : Type} {p : Prop} {φ : α → α} {o o' : α} (h : o' = φ o) : Quieter p φ (.ok o) (.ok o') := by
  left; rw [Res.bind_ok, h]

theorem Quieter.ite {α : Type} {p : Prop} {φ : α → α} {c : Prop} [Decidable c] {a a' b b' : Res α} (h : c → Quieter p φ a b)
    (h' : ¬ c → Quieter p φ a' b') : Quieter p φ (if c then a else a') (if c then b else b') := by
  by_cases hc : c
  · rw [if_pos hc, if_pos hc]; exact h hc
  · rw [if_neg hc, if_neg hc]; exact h' hc

/-- The same first step. -/
theorem Quieter.same {α β : Type} {p : Prop} {φ : β → β} {a : Res α} {f g : α → Res β} (h : ∀ o, a = .ok o → Quieter p φ (f o) (g o)) :
    Quieter p φ (a >>= f) (a >>= g) := by
  cases a with
  | ok o => exact h o rfl
  | ub => exact .inl rfl
  | abort => exact .inl rfl

/-- A first step that prints the report. -/
theorem Quieter.bind {α β : Type} {p : Prop} {ψ : α → α} {φ : β → β} {a b : Res α} {f g : α → Res β} (h : Quieter p ψ a b)
    (hf : ∀ o, Quieter p φ (f o) (g (ψ o))) : Quieter p φ (a >>= f) (b >>= g) := by
  rcases h with h | ⟨hp, h⟩
  · subst h
    cases a with
    | ok o => exact hf o
    | ub => exact .inl rfl
    | abort => exact .inl rfl
  · subst h
    exact .inr ⟨hp, rfl⟩

/-! ### Parameters -/

theorem humansize_total (b : Bool) (x : W64) : ∃ d, humansize b x = .ok d := by
  obtain ⟨d, e, -⟩ := humansize_spec x
  cases b with
  | true => exact ⟨_, e⟩
  | false =>
    refine ⟨none, ?_⟩
    unfold humansize at e ⊢
    by_cases h : x.toNat < 1000
    · rw [if_pos h]; rfl
    · rw [if_neg h] at e ⊢
      rw [Res.bind_eq_ok] at e
      obtain ⟨c, hc, -⟩ := e
      simp only [hc, Res.bind_ok]
      rfl

theorem display_quieter (sys : ParamSys) (l : Int) (hl : 1 ≤ l ∧ l ≤ 63) (r p : W32) (m : Nat) (x y : F64) :
    Quieter (Printable sys) (fun _ => []) (verboseText true (display_params sys.disp l r p m x y))
      (verboseText false (display_params sys.disp l r p m x y)) := by
  show Quieter _ _ (display_params sys.disp l r p m x y) (.ok [])
  by_cases hp : Printable sys
  · obtain ⟨t, ht⟩ := display_ok sys.disp hp.1 hp.2 l hl r p m x y
    rw [ht]
    exact .ok rfl
  · cases h : display_params sys.disp l r p m x y with
    | ok t => exact .ok rfl
    | ub => exact .inr ⟨hp, rfl⟩
    | abort =>
      exfalso
      unfold display_params at h
      rw [if_neg (by omega)] at h
      obtain ⟨d1, e1⟩ := humansize_total sys.disp.asprintf1 (BitVec.ofNat 64 m)
      obtain ⟨d2, e2⟩ := humansize_total sys.disp.asprintf2 ((128 * r).setWidth 64 * (1 : W64) <<< l.toNat)
      revert h
      simp only [e1, e2, Res.bind_ok]
      cases d2 with
      | none => intro h; exact nomatch h
      | some t2 =>
        unfold dispAvail
        by_cases hm : m > 0
        · simp only [if_pos hm]
          cases d1 with
          | none => intro h; exact nomatch h
          | some t1 => intro h; exact nomatch h
        · simp only [if_neg hm]; intro h; exact nomatch h

theorem pickLogN_range {m : Nat} {x : F64} {np : Nat × Nat} (h : pickNP m x = .ok np) : 1 ≤ (np.1 : Int) ∧ (np.1 : Int) ≤ 63 := by
  unfold pickNP at h
  split_ifs at h
  · cases h
    have := pickLogN_spec (F64.div x (F64.ofNat (8 * 4))) 62 1 rfl
    exact ⟨by exact_mod_cast this.1, by exact_mod_cast this.2.1⟩
  · rw [Res.bind_eq_ok] at h
    obtain ⟨t, -, h⟩ := h
    cases h
    have := pickLogN_spec (F64.ofNat (m / (8 * 128))) 62 1 rfl
    exact ⟨by exact_mod_cast this.1, by exact_mod_cast this.2.1⟩

theorem pick_quieter (sys : ParamSys) (maxmem : Nat) (f t : F64) :
    Quieter (Printable sys) (fun o => { o with err := [] }) (pickparams sys maxmem f t true) (pickparams sys maxmem f t false) := by
  unfold pickparams
  refine .same fun m hm => ?_
  cases m with
  | none => exact .ok rfl
  | some m =>
    simp only []
    refine .ite (fun _ => ?_) (fun _ => ?_)
    · exact .ok rfl
    · refine .same fun np hnp => ?_
      exact .bind (display_quieter sys np.1 (pickLogN_range hnp) _ _ _ _ _) fun s => .ok rfl

theorem check_quieter (sys : ParamSys) (maxmem : Nat) (f t : F64) (l : Int) (r p : W32) (force : Bool) :
    Quieter (Printable sys) (fun o => (o.1, [])) (checkparams sys maxmem f t l r p true force) (checkparams sys maxmem f t l r p false force) := by
  unfold checkparams
  by_cases hl : l < 1 ∨ l > 63
  · rw [if_pos hl, if_pos hl]; exact .ok rfl
  rw [if_neg hl, if_neg hl]
  refine .ite (fun _ => .ok rfl) (fun _ => .ite (fun _ => .ok rfl) (fun _ => .ite (fun _ => ?_) (fun _ => ?_)))
  · exact .bind (display_quieter sys l (by omega) _ _ _ _ _) fun s => .ok rfl
  · refine .same fun m hm => ?_
    cases m with
    | none => exact .ok rfl
    | some m =>
      simp only []
      refine .ite (fun _ => ?_) (fun _ => ?_)
      · exact .ok rfl
      · exact .bind (display_quieter sys l (by omega) _ _ _ _ _) fun s => .ok rfl

theorem msgOf_quiet (t : CStr) : (msgOf t).filter notReport = [] := by
  unfold msgOf
  split_ifs
  · rfl
  · rfl

theorem explicitWarn_quiet (rc : Code) : (explicitWarn rc).filter notReport = explicitWarn rc := by
  unfold explicitWarn
  split_ifs <;> rfl

theorem setup_quieter (sys : EncSys) (P : EncParams) (force : Bool) :
    Quieter (Printable sys.par) (fun o => (o.1, o.2.1, o.2.2.filter notReport)) (setupParams sys P true force) (setupParams sys P false force) := by
  unfold setupParams
  refine .ite (fun _ => ?_) (fun _ => ?_)
  · refine .bind (check_quieter sys.par _ _ _ _ _ _ force) fun o => .ok ?_
    simp only [List.filter_append, msgOf_quiet, explicitWarn_quiet]
    rfl
  · refine .bind (pick_quieter sys.par _ _ _) fun o => ?_
    cases o.val with
    | none => exact .ok (by simp only [msgOf_quiet]; rfl)
    | some v => exact .ok (by simp only [msgOf_quiet]; rfl)

theorem encSetup_quieter (sys : EncSys) (passwd : Bytes) (P : EncParams) (force : Bool) :
    Quieter (Printable sys.par) SetupOut.quiet (scryptenc_setup sys passwd P true force) (scryptenc_setup sys passwd P false force) := by
  unfold scryptenc_setup
  refine .bind (setup_quieter sys P force) fun o => ?_
  obtain ⟨rc, P', err⟩ := o
  simp only []
  refine .ite (fun _ => ?_) (fun _ => ?_)
  · exact .ok rfl
  · refine .same fun _ _ => ?_
    cases sys.salt with
    | none => exact .ok rfl
    | some salt =>
      refine .same fun d _ => ?_
      obtain ⟨o, st⟩ := d
      simp only []
      refine .ite (fun _ => ?_) (fun _ => ?_)
      · exact .ok rfl
      · exact .same fun h _ => .ok rfl

theorem decSetup_quieter (sys : EncSys) (header passwd : Bytes) (P : EncParams) (force : Bool) :
    Quieter (Printable sys.par) SetupOut.quiet (scryptdec_setup sys header passwd P true force) (scryptdec_setup sys header passwd P false force) := by
  unfold scryptdec_setup
  refine .same fun l _ => .same fun r _ => .same fun p _ => .same fun salt _ => .same fun d _ => .same fun sum _ => .same fun v _ => ?_
  refine .ite (fun _ => ?_) (fun _ => ?_)
  · exact .ok rfl
  · refine .bind (check_quieter sys.par _ _ _ _ _ _ force) fun o => ?_
    obtain ⟨rc, t⟩ := o
    simp only []
    have h0 : msgOf [] = (msgOf t).filter notReport := by rw [msgOf_quiet]; rfl
    refine .ite (fun _ => ?_) (fun _ => ?_)
    · exact .ok (by unfold SetupOut.quiet; rw [h0])
    · refine .same fun d _ => ?_
      obtain ⟨o, st⟩ := d
      simp only []
      refine .ite (fun _ => ?_) (fun _ => ?_)
      · exact .ok (by unfold SetupOut.quiet; rw [h0])
      · unfold checkSig
        refine .same fun _ _ => .same fun _ _ => .same fun _ _ => ?_
        exact .ite (fun _ => .ok (by unfold SetupOut.quiet; rw [h0])) (fun _ => .ok (by unfold SetupOut.quiet; rw [h0]))

/-! ### The library -/

theorem encBuf_quieter (sys : EncSys) (inbuf outbuf passwd : Bytes) (P : EncParams) (force : Bool) :
    Quieter (Printable sys.par) BufOut.quiet (scryptenc_buf sys inbuf outbuf passwd P true force) (scryptenc_buf sys inbuf outbuf passwd P false force) := by
  unfold scryptenc_buf
  refine .same fun _ _ => .bind (encSetup_quieter sys passwd P force) fun s => ?_
  have h : ∀ s : SetupOut, s.quiet.rc = s.rc := fun _ => rfl
  simp only [h]
  refine .ite (fun _ => ?_) (fun _ => ?_)
  · exact .ok rfl
  · unfold encBufBody
    refine .same fun _ _ => .same fun _ _ => .same fun a _ => ?_
    cases a.1.2 with
    | none => exact .ok rfl
    | some st => exact .same fun _ _ => .same fun _ _ => .same fun _ _ => .same fun _ _ => .same fun _ _ => .same fun _ _ => .ok rfl

theorem decBuf_quieter (sys : EncSys) (inbuf outbuf : Bytes) (outlen : Nat) (passwd : Bytes) (P : EncParams) (force : Bool) :
    Quieter (Printable sys.par) BufOut.quiet (scryptdec_buf sys inbuf outbuf outlen passwd P true force)
      (scryptdec_buf sys inbuf outbuf outlen passwd P false force) := by
  unfold scryptdec_buf
  refine .same fun _ _ => ?_
  refine .ite (fun _ => ?_) (fun _ => ?_)
  · exact .ok rfl
  · refine .same fun _ _ => ?_
    refine .ite (fun _ => .ok rfl) (fun _ => .ite (fun _ => .ok rfl) (fun _ => ?_))
    · refine .bind (decSetup_quieter sys inbuf passwd P force) fun s => ?_
      have h : ∀ s : SetupOut, s.quiet.rc = s.rc := fun _ => rfl
      simp only [h]
      refine .ite (fun _ => ?_) (fun _ => ?_)
      · exact .ok rfl
      · unfold decBufBody
        refine .same fun a _ => ?_
        cases a.1.2 with
        | none => exact .ok rfl
        | some st =>
          exact .same fun _ _ => .same fun _ _ => .same fun _ _ => .same fun _ _ => .same fun _ _ => .same fun _ _ => .same fun _ _ => .ok rfl

theorem encFile_quieter (sys : EncSys) (inf : InFile) (outf : OutFile) (passwd : Bytes) (P : EncParams) (force : Bool) :
    Quieter (Printable sys.par) FileOut.quiet (scryptenc_file sys inf outf passwd P true force) (scryptenc_file sys inf outf passwd P false force) := by
  unfold scryptenc_file
  refine .same fun _ _ => .bind (encSetup_quieter sys passwd P force) fun s => ?_
  have h : ∀ s : SetupOut, s.quiet.rc = s.rc := fun _ => rfl
  simp only [h]
  refine .ite (fun _ => ?_) (fun _ => ?_)
  · exact .ok rfl
  · unfold encFileBody
    refine .same fun _ _ => .same fun _ _ => .same fun _ _ => .same fun _ _ => ?_
    refine .ite (fun _ => ?_) (fun _ => ?_)
    · exact .ok rfl
    · refine .same fun a _ => ?_
      cases a.1.2 with
      | none => exact .ok rfl
      | some st =>
        refine .same fun l _ => ?_
        unfold encFileEnd
        refine .ite (fun _ => .ok rfl) (fun _ => .ite (fun _ => .ok rfl) (fun _ => ?_))
        · exact .same fun _ _ => .same fun _ _ => .ok rfl

theorem decPrep_quieter (sys : EncSys) (inf : InFile) (passwd : Bytes) (P : EncParams) (force : Bool) :
    Quieter (Printable sys.par) PrepOut.quiet (scryptdec_file_prep sys inf passwd P true force) (scryptdec_file_prep sys inf passwd P false force) := by
  unfold scryptdec_file_prep
  refine .same fun _ _ => ?_
  refine .ite (fun _ => ?_) (fun _ => ?_)
  · exact .ok rfl
  · refine .same fun h _ => ?_
    obtain ⟨rc, header, inf'⟩ := h
    simp only []
    refine .ite (fun _ => ?_) (fun _ => ?_)
    · exact .ok rfl
    · refine .bind (decSetup_quieter sys header passwd P force) fun s => ?_
      have h : ∀ s : SetupOut, s.quiet.rc = s.rc := fun _ => rfl
      simp only [h]
      exact .ite (fun _ => .ok rfl) (fun _ => .ok rfl)

theorem decFile_quieter (sys : EncSys) (inf : InFile) (outf : OutFile) (passwd : Bytes) (P : EncParams) (force : Bool) :
    Quieter (Printable sys.par) FileOut.quiet (scryptdec_file sys inf outf passwd P true force) (scryptdec_file sys inf outf passwd P false force) := by
  unfold scryptdec_file
  refine .same fun _ _ => .bind (decPrep_quieter sys inf passwd P force) fun p => ?_
  have h : ∀ s : PrepOut, s.quiet.cookie = s.cookie := fun _ => rfl
  simp only [h]
  cases p.cookie with
  | none => exact .ok rfl
  | some c => exact .same fun o _ => .ok rfl

/-! ### The utility -/

theorem lib_quiet (l : List Msg) : (l.map MMsg.lib).filter notReportM = (l.filter notReport).map MMsg.lib := by
  induction l with
  | nil => rfl
  | cons a l ih =>
    cases a with
    | params t => exact ih
    | warn t => exact congrArg (MMsg.lib (.warn t) :: ·) ih

theorem close_quiet (env : MainEnv) (i : Option CStr) (b : Bool) :
    (closeInput env i).2.filter notReportM = (closeInput env i).2 ∧ (closeOutput env b).2.filter notReportM = (closeOutput env b).2 := by
  constructor
  · unfold closeInput; repeat' split
    all_goals rfl
  · unfold closeOutput; repeat' split
    all_goals rfl

theorem cleanup_quieter (env : MainEnv) (i o : Option CStr) (ev : List MEv) (l : List Msg) (c b : Bool) (rc : Code) (out : Bytes) (p : Prop) :
    Quieter p ModeOut.quiet (encDecCleanup env i o ev (l.map .lib) c b rc out) (encDecCleanup env i o ev ((l.filter notReport).map .lib) c b rc out) := by
  unfold encDecCleanup
  simp only []
  refine .ite (fun _ => ?_) (fun _ => ?_)
  · refine .same fun m _ => .ok ?_
    simp only [ModeOut.quiet, List.filter_append, lib_quiet, (close_quiet env i b).1, (close_quiet env i b).2]
    rfl
  · refine .ok ?_
    simp only [ModeOut.quiet, List.filter_append, lib_quiet, (close_quiet env i b).1, (close_quiet env i b).2]

theorem err2_quiet (env : MainEnv) (i o : Option CStr) (ev : List MEv) (l : List Msg) (c : Bool) :
    encDecErr2 env i o ev ((l.filter notReport).map .lib) c = (encDecErr2 env i o ev (l.map .lib) c).quiet := by
  simp only [encDecErr2, ModeOut.quiet, List.filter_append, lib_quiet, (close_quiet env i true).1]
  rfl

theorem decRun_quieter (env : MainEnv) (P : EncParams) (force : Bool) (i o : Option CStr) (inf : InFile) (passwd : Bytes) (ev : List MEv) :
    Quieter (Printable env.sys.par) ModeOut.quiet (decRun env P true force i o inf passwd ev) (decRun env P false force i o inf passwd ev) := by
  unfold decRun
  refine .bind (decPrep_quieter env.sys inf passwd P force) fun p => ?_
  have h : ∀ s : PrepOut, s.quiet.cookie = s.cookie ∧ s.quiet.rc = s.rc ∧ s.quiet.tr = s.tr ∧ s.quiet.err = s.err.filter notReport :=
    fun _ => ⟨rfl, rfl, rfl, rfl⟩
  simp only [(h p).1, (h p).2.1, (h p).2.2.1, (h p).2.2.2]
  refine .ite (fun _ => ?_) (fun _ => ?_)
  · exact cleanup_quieter ..
  · cases openOutput env o with
    | none => exact .ok (err2_quiet ..)
    | some outf =>
      cases p.cookie with
      | none => exact .inl rfl
      | some c => exact .same fun x _ => cleanup_quieter ..

theorem encRun_quieter (env : MainEnv) (P : EncParams) (force : Bool) (i o : Option CStr) (inf : InFile) (passwd : Bytes) (ev : List MEv) :
    Quieter (Printable env.sys.par) ModeOut.quiet (encRun env P true force i o inf passwd ev) (encRun env P false force i o inf passwd ev) := by
  unfold encRun
  cases openOutput env o with
  | none => exact .ok (err2_quiet env i o ev [] false)
  | some outf =>
    refine .bind (encFile_quieter env.sys _ outf passwd P force) fun x => ?_
    exact cleanup_quieter ..

theorem mode_quieter (env : MainEnv) (P : EncParams) (entry : PassEntry) (arg : CStr) (dec force : Bool) (i o : Option CStr) :
    Quieter (Printable env.sys.par) (Option.map ModeOut.quiet) (scrypt_mode_enc_dec env P entry arg dec true force i o)
      (scrypt_mode_enc_dec env P entry arg dec false force i o) := by
  unfold scrypt_mode_enc_dec
  cases openInput env i with
  | none =>
    refine .ok ?_
    cases i <;> rfl
  | some f =>
    refine .same fun r _ => ?_
    cases r with
    | none => exact .ok rfl
    | some x =>
      simp only []
      cases x.passwd with
      | none =>
        refine .ok ?_
        simp only [Option.map, ModeOut.quiet]
        rw [List.filter_cons_of_pos rfl, (close_quiet env i true).1]
      | some pw =>
        simp only []
        cases (f.orElse fun _ => stdinFile env x.stdin) with
        | none => exact .ok rfl
        | some inf =>
          simp only []
          cases dec with
          | true => exact .bind (decRun_quieter ..) fun y => .ok rfl
          | false => exact .bind (encRun_quieter ..) fun y => .ok rfl

theorem perform_quieter (env : MainEnv) (q : Request) (hop : q.op ≠ .info) :
    Quieter (Printable env.sys.par) (Option.map MainOut.quiet) (perform env { q with verbose := true }) (perform env { q with verbose := false }) := by
  unfold perform finish
  cases hq : q.op with
  | info => exact absurd hq hop
  | enc =>
    refine .bind (mode_quieter env q.params q.method q.methodArg false q.force q.infile q.outfile) fun o => .ok ?_
    cases o <;> rfl
  | dec =>
    refine .bind (mode_quieter env q.params q.method q.methodArg true q.force q.infile q.outfile) fun o => .ok ?_
    cases o <;> rfl

/-! ### The statements -/

/-- With the memory to print it, the report is the only difference: also crashes are the same. -/
theorem Quieter.eq {α : Type} {p : Prop} {φ : α → α} {a b : Res α} (h : Quieter p φ a b) (hp : p) : b = (a >>= fun o => .ok (φ o)) := by
  rcases h with h | ⟨h, -⟩
  · exact h
  · exact absurd hp h

/-- Whenever the verbose run ends, the other one ends the same way. -/
theorem Quieter.ends {α : Type} {p : Prop} {φ : α → α} {a b : Res α} (h : Quieter p φ a b) {o : α} (ha : a = .ok o) : b = .ok (φ o) := by
  rcases h with h | ⟨-, h⟩
  · rw [h, ha, Res.bind_ok]
  · rw [ha] at h; exact nomatch h

/-- Whenever the quiet run ends and the report can be printed, the verbose one ends the same way, with a report or without. -/
theorem Quieter.back {α : Type} {p : Prop} {φ : α → α} {a b : Res α} (h : Quieter p φ a b) (hp : p) {o : α} (hb : b = .ok o) :
    ∃ o', a = .ok o' ∧ o = φ o' := by
  have := h.eq hp
  rw [hb] at this
  cases a with
  | ok o' => exact ⟨o', rfl, Res.ok.inj this⟩
  | ub => exact nomatch this
  | abort => exact nomatch this

/-- **C77.**  Encrypting a buffer: `verbose` changes nothing but the report. -/
theorem C77_enc_buf (sys : EncSys) (inbuf outbuf passwd : Bytes) (P : EncParams) (force : Bool) :
    (∀ o, scryptenc_buf sys inbuf outbuf passwd P true force = .ok o → scryptenc_buf sys inbuf outbuf passwd P false force = .ok o.quiet) ∧
    (Printable sys.par → ∀ o, scryptenc_buf sys inbuf outbuf passwd P false force = .ok o →
      ∃ o', scryptenc_buf sys inbuf outbuf passwd P true force = .ok o' ∧ o = o'.quiet) :=
  ⟨fun _ h => (encBuf_quieter sys inbuf outbuf passwd P force).ends h, fun hp _ h => (encBuf_quieter sys inbuf outbuf passwd P force).back hp h⟩

/-- **C77.**  Decrypting a buffer. -/
theorem C77_dec_buf (sys : EncSys) (inbuf outbuf : Bytes) (outlen : Nat) (passwd : Bytes) (P : EncParams) (force : Bool) :
    (∀ o, scryptdec_buf sys inbuf outbuf outlen passwd P true force = .ok o →
      scryptdec_buf sys inbuf outbuf outlen passwd P false force = .ok o.quiet) ∧
    (Printable sys.par → ∀ o, scryptdec_buf sys inbuf outbuf outlen passwd P false force = .ok o →
      ∃ o', scryptdec_buf sys inbuf outbuf outlen passwd P true force = .ok o' ∧ o = o'.quiet) :=
  ⟨fun _ h => (decBuf_quieter sys inbuf outbuf outlen passwd P force).ends h,
    fun hp _ h => (decBuf_quieter sys inbuf outbuf outlen passwd P force).back hp h⟩

/-- **C77.**  Encrypting a stream. -/
theorem C77_enc_file (sys : EncSys) (inf : InFile) (outf : OutFile) (passwd : Bytes) (P : EncParams) (force : Bool) :
    (∀ o, scryptenc_file sys inf outf passwd P true force = .ok o → scryptenc_file sys inf outf passwd P false force = .ok o.quiet) ∧
    (Printable sys.par → ∀ o, scryptenc_file sys inf outf passwd P false force = .ok o →
      ∃ o', scryptenc_file sys inf outf passwd P true force = .ok o' ∧ o = o'.quiet) :=
  ⟨fun _ h => (encFile_quieter sys inf outf passwd P force).ends h, fun hp _ h => (encFile_quieter sys inf outf passwd P force).back hp h⟩

/-- **C77.**  Decrypting a stream. -/
theorem C77_dec_file (sys : EncSys) (inf : InFile) (outf : OutFile) (passwd : Bytes) (P : EncParams) (force : Bool) :
    (∀ o, scryptdec_file sys inf outf passwd P true force = .ok o → scryptdec_file sys inf outf passwd P false force = .ok o.quiet) ∧
    (Printable sys.par → ∀ o, scryptdec_file sys inf outf passwd P false force = .ok o →
      ∃ o', scryptdec_file sys inf outf passwd P true force = .ok o' ∧ o = o'.quiet) :=
  ⟨fun _ h => (decFile_quieter sys inf outf passwd P force).ends h, fun hp _ h => (decFile_quieter sys inf outf passwd P force).back hp h⟩

/-- **C77.**  The two phases of decrypting a stream: the first. -/
theorem C77_dec_prep (sys : EncSys) (inf : InFile) (passwd : Bytes) (P : EncParams) (force : Bool) :
    (∀ o, scryptdec_file_prep sys inf passwd P true force = .ok o → scryptdec_file_prep sys inf passwd P false force = .ok o.quiet) ∧
    (Printable sys.par → ∀ o, scryptdec_file_prep sys inf passwd P false force = .ok o →
      ∃ o', scryptdec_file_prep sys inf passwd P true force = .ok o' ∧ o = o'.quiet) :=
  ⟨fun _ h => (decPrep_quieter sys inf passwd P force).ends h, fun hp _ h => (decPrep_quieter sys inf passwd P force).back hp h⟩

/-! ### Adding -v to a command line -/

/-- -v in front of the other options is one more option. -/
theorem parses_v {rest : List CStr} {evs : List OptEv} {ops : List CStr} (h : Parses scryptOptions [] rest evs ops) :
    Parses scryptOptions [] ("-v".toList :: rest) (.flag "-v".toList :: evs) ops :=
  .group (by decide) (.shortFlag (by decide) h)

theorem passOptions_v (evs : List OptEv) : passOptions (.flag "-v".toList :: evs) = passOptions evs := rfl

theorem valuesOf_v (o : CStr) (evs : List OptEv) : valuesOf o (.flag "-v".toList :: evs) = valuesOf o evs := rfl

theorem sets_v {α : Type} {o : CStr} {evs : List OptEv} {V : CStr → α → Prop} {d x : α} (h : Sets o evs V d x) :
    Sets o (.flag "-v".toList :: evs) V d x := h

theorem asks_v {sd : Strtod} {szMax : Nat} {evs : List OptEv} {ops : List CStr} {q : Request} (h : Asks sd szMax evs ops q) :
    Asks sd szMax (.flag "-v".toList :: evs) ops { q with verbose := true } where
  known e he := by
    rcases List.mem_cons.1 he with rfl | he
    · exact .inl ⟨_, rfl⟩
    · exact h.known e he
  force := by
    show q.force = true ↔ _
    rw [h.force, List.mem_cons, or_iff_right (by decide)]
  verbose := ⟨fun _ => List.mem_cons_self, fun _ => rfl⟩
  maxmem := h.maxmem
  maxmemfrac := h.maxmemfrac
  maxtime := h.maxtime
  logN := h.logN
  r := h.r
  p := h.p
  pass := h.pass
  explicit := h.explicit
  frac := h.frac
  files := h.files
  once := h.once

theorem objection_v (sd : Strtod) (szMax : Nat) (before : List OptEv) (e : OptEv) (m : List MMsg) :
    Objection sd szMax (.flag "-v".toList :: before) e m ↔ Objection sd szMax before e m := by
  cases e <;> exact Iff.rfl

theorem unobjected_v {sd : Strtod} {szMax : Nat} {evs : List OptEv} (h : Unobjected sd szMax evs) :
    Unobjected sd szMax (.flag "-v".toList :: evs) := by
  intro before e after he m ho
  cases before with
  | nil =>
    obtain ⟨h1, -⟩ := List.cons.inj he
    subst h1
    exact absurd ho.1 (by decide)
  | cons b before =>
    obtain ⟨h1, h2⟩ := List.cons.inj he
    subst h1
    exact h before e after h2 m ((objection_v sd szMax before e m).1 ho)

theorem refusal_v {sd : Strtod} {szMax : Nat} {rest : List CStr} {m : List MMsg} (h : Refusal sd szMax rest m) :
    Refusal sd szMax ("-v".toList :: rest) m := by
  obtain ⟨evs, ops, hp, hr⟩ := h
  refine ⟨_, ops, parses_v hp, ?_⟩
  rcases hr with ⟨b, e, a, h1, h2, h3⟩ | ⟨h1, h2⟩
  · exact .inl ⟨.flag "-v".toList :: b, e, a, by rw [h1]; rfl, unobjected_v h2, (objection_v sd szMax b e m).2 h3⟩
  · exact .inr ⟨unobjected_v h1, h2⟩

theorem requests_v {sd : Strtod} {szMax : Nat} {op : Operation} {rest : List CStr} {q : Request} (h : Requests sd szMax (op.name :: rest) q) :
    Requests sd szMax (op.name :: "-v".toList :: rest) { q with verbose := true } := by
  obtain ⟨rest', evs, ops, he, hp, ha⟩ := h
  obtain ⟨h1, rfl⟩ := List.cons.inj he
  exact ⟨_, _, ops, by rw [h1], parses_v hp, asks_v ha⟩

theorem nonul_v {op : Operation} {rest : List CStr} (hz : NoNul rest) : NoNul (op.name :: rest) ∧ NoNul (op.name :: "-v".toList :: rest) := by
  have h1 : NoNul [op.name] := by intro a ha; cases List.mem_singleton.1 ha; cases op <;> decide
  have h2 : NoNul ["-v".toList] := by intro a ha; cases List.mem_singleton.1 ha; decide
  constructor
  · intro a ha
    rcases List.mem_cons.1 ha with rfl | ha
    · exact h1 _ List.mem_cons_self
    · exact hz a ha
  · intro a ha
    rcases List.mem_cons.1 ha with rfl | ha
    · exact h1 _ List.mem_cons_self
    · rcases List.mem_cons.1 ha with rfl | ha
      · exact h2 _ List.mem_cons_self
      · exact hz a ha

/-- **C77.**  Adding -v to a command line that asks for an encryption or decryption without a report: the run ends with the same exit code,
having opened, read, wiped and written the same and having said the same, except for the report of the parameters. -/
theorem C77_command (env : MainEnv) (hmal : env.mallocOk = true) (hsz : env.sys.par.szMax < 2 ^ 64) (a0 : CStr) (op : Operation)
    (rest : List CStr) (hz : NoNul rest) (q : Request) (hq : Requests env.sd env.sys.par.szMax (op.name :: rest) q) (hv : q.verbose = false)
    (hop : q.op ≠ .info) :
    (∀ o, scryptMain env (a0 :: op.name :: "-v".toList :: rest) = .ok o → scryptMain env (a0 :: op.name :: rest) = .ok (o.map MainOut.quiet)) ∧
    (Printable env.sys.par → ∀ o, scryptMain env (a0 :: op.name :: rest) = .ok o →
      ∃ o', scryptMain env (a0 :: op.name :: "-v".toList :: rest) = .ok o' ∧ o = o'.map MainOut.quiet) := by
  rw [C33_accepted env hmal hsz a0 _ (nonul_v hz).1 q hq, C33_accepted env hmal hsz a0 _ (nonul_v hz).2 _ (requests_v hq)]
  have h := perform_quieter env q hop
  have e : { q with verbose := false } = q := by cases q; cases hv; rfl
  rw [e] at h
  exact ⟨fun _ ho => h.ends ho, fun hp _ ho => h.back hp ho⟩

/-- **C77.**  In all other cases - the command line is refused, or asks for `info`, or has the option already - adding -v changes nothing at all. -/
theorem C77_otherwise (env : MainEnv) (hmal : env.mallocOk = true) (hsz : env.sys.par.szMax < 2 ^ 64) (a0 : CStr) (op : Operation)
    (rest : List CStr) (hz : NoNul rest)
    (hno : ¬ ∃ q, Requests env.sd env.sys.par.szMax (op.name :: rest) q ∧ q.verbose = false ∧ q.op ≠ .info) :
    scryptMain env (a0 :: op.name :: "-v".toList :: rest) = scryptMain env (a0 :: op.name :: rest) := by
  by_cases hq : ∃ q, q.op = op ∧ Requests env.sd env.sys.par.szMax (op.name :: rest) q
  · obtain ⟨q, -, hq⟩ := hq
    rw [C33_accepted env hmal hsz a0 _ (nonul_v hz).1 q hq, C33_accepted env hmal hsz a0 _ (nonul_v hz).2 _ (requests_v hq)]
    cases hv : q.verbose with
    | true =>
      have e : { q with verbose := true } = q := by cases q; cases hv; rfl
      rw [e]
    | false =>
      have hi : q.op = .info := by
        by_contra h
        exact hno ⟨q, hq, hv, h⟩
      unfold perform
      simp only [hi]
  · obtain ⟨m, hm⟩ := (C69_reason env hmal hsz op rest hz).1.2 hq
    rw [C69_told env hmal hsz a0 op rest hz hm]
    have hz2 : NoNul ("-v".toList :: rest) := fun a ha => (nonul_v (op := op) hz).2 a (List.mem_cons_of_mem _ ha)
    rw [C69_told env hmal hsz a0 op _ hz2 (refusal_v hm)]

/-! ### Non-vacuity -/

/-- Encrypting five bytes on every processor: with `verbose` there is a report, without it everything else is the same. -/
example (sha : ShaHw) (hw : AesHw) : ∃ o o' t,
    scryptenc_buf (exEnc sha hw exSalt) [1, 2, 3, 4, 5] (List.replicate 133 0) [9] exP true false = .ok o ∧ Msg.params t ∈ o.err ∧
    scryptenc_buf (exEnc sha hw exSalt) [1, 2, 3, 4, 5] (List.replicate 133 0) [9] exP false false = .ok o' ∧ o'.out = o.out ∧ o'.rc = .OK ∧
    Msg.params t ∉ o'.err := by
  have g := exEnc_good sha hw exSalt_length
  have hv : (F64.fin false (1 / 8)).Valid := ⟨rep_eighth, by norm_num⟩
  obtain ⟨o, h, hok, hP⟩ := exEnc_buf sha hw exSalt_length [1, 2, 3, 4, 5] (List.replicate 133 0) [9] (by decide) (by rw [List.length_replicate]; decide) true false
  obtain ⟨ml, hml, h1, -⟩ := exMemLimit sha hw exSalt exP rfl rfl
  obtain ⟨ms, ws, e1, -, e3, -⟩ := C67_enc_buf g (by decide) (by rw [List.length_replicate]; decide) hv h (by decide)
  obtain ⟨t, et, -⟩ := (e3 10 rfl exP_good).2.2.1 rfl rfl rfl ml hml
  refine ⟨o, o.quiet, t, h, by rw [e1, et]; simp, (C77_enc_buf ..).1 o h, rfl, hok, ?_⟩
  intro hm
  exact absurd (List.mem_filter.1 hm).2 (by simp [notReport])

/-- `scrypt enc -v -f --logN 10 -r8 -p 1 --passphrase=env:PW in out` writes what it writes without -v. -/
example (sha : ShaHw) (hw : AesHw) (segs : List Bytes) (hlen : segs.flatten.length + 128 < 2 ^ 64) :
    ∃ o, scryptMain (exMain sha hw "in".toList segs) ("scrypt".toList :: "enc".toList :: "-v".toList :: exArgs.tail) = .ok (some o) ∧ o.exit = 0 ∧
      o.out = container (scryptCode [0x68, 0x69] exSalt (2 ^ 10) 8 1 64) 10 8 1 exSalt segs.flatten := by
  obtain ⟨o, h1, h2, h3⟩ := exMain_enc sha hw segs hlen
  obtain ⟨o', h4, h5⟩ := (C77_command (exMain sha hw "in".toList segs) rfl (by show 2 ^ 64 - 1 < 2 ^ 64; norm_num) "scrypt".toList .enc exArgs.tail
    (by unfold NoNul; decide) exRequest (exRequests _ _) rfl (by decide)).2 ⟨rfl, rfl⟩ _ h1
  cases o' with
  | none => exact nomatch h5
  | some o' =>
    cases Option.some.inj h5
    exact ⟨o', h4, h2, h3⟩

/-- A command line with the option already: nothing changes. -/
example (env : MainEnv) (hmal : env.mallocOk = true) (hsz : env.sys.par.szMax < 2 ^ 64) :
    scryptMain env ("scrypt".toList :: "dec".toList :: "-v".toList :: exArgs2.tail) = scryptMain env ("scrypt".toList :: exArgs2) := by
  refine C77_otherwise env hmal hsz "scrypt".toList .dec exArgs2.tail (by unfold NoNul; decide) ?_
  rintro ⟨q, hq, hv, -⟩
  cases C33_unique _ _ hsz _ _ _ hq (exRequests2 _ _)
  exact nomatch hv

end Scrypt.Props
