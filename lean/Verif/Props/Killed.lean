import Verif.Model.MainSteps
import Verif.Props.Interrupted
import Verif.Props.MainEx
/-
C68: what is in the output file when the utility is killed.
-/
namespace Scrypt.Spec

/-- The data operations among the effects. -/
def ios (ds : List DiskEv) : List IoEv := ds.filterMap fun | .create _ => none | .io e => some e

/-- What the output file `n` may contain when the process dies after `pre`: what it contained before (`none`: it did not exist), unless it has been created; then
some beginning of what has been written, as stdio may have kept the rest in memory. -/
def Possible (n : CStr) (old : Option Bytes) (pre : List DiskEv) (now : Option Bytes) : Prop :=
  (DiskEv.create n ∉ pre ∧ now = old) ∨ (DiskEv.create n ∈ pre ∧ ∃ D, D <+: put (ios pre) ∧ now = some D)

end Scrypt.Spec

namespace Scrypt.Props
open Scrypt Spec

/-- The utility's operation with its effects (`perform` without them). -/
def performT (env : MainEnv) (q : Request) : Res (Option (MainOut × List DiskEv)) :=
  scrypt_mode_enc_decT env q.params q.method q.methodArg (q.op = .dec) q.verbose q.force q.infile q.outfile >>= fun r =>
    .ok (r.map fun m => (toExit m.1, m.2))

/-- The operation on an input, with a passphrase, with its effects. -/
def operateT (env : MainEnv) (q : Request) (inf : InFile) (pw : Bytes) : Res (ModeOut × List DiskEv) :=
  if q.op = .dec then decRunT env q.params q.verbose q.force q.infile q.outfile inf pw (openInputEv env q.infile ++ [.gotPass])
  else encRunT env q.params q.verbose q.force q.infile q.outfile inf pw (openInputEv env q.infile ++ [.gotPass])

theorem er_eq {α β : Type} {x : Res (α × β)} {y : Res α} (h : er x = y) (a : α) : y = .ok a ↔ ∃ b, x = .ok (a, b) := by
  subst h
  cases x with
  | ub => exact ⟨fun h => (by cases h), fun ⟨_, h⟩ => (by cases h)⟩
  | abort => exact ⟨fun h => (by cases h), fun ⟨_, h⟩ => (by cases h)⟩
  | ok p =>
    obtain ⟨a', b⟩ := p
    constructor
    · intro h; cases h; exact ⟨b, rfl⟩
    · rintro ⟨b', h⟩; cases h; rfl

theorem erase_decRun (env : MainEnv) (P : EncParams) (v f : Bool) (i u : Option CStr) (inf : InFile) (pw : Bytes) (ev : List MEv) :
    er (decRunT env P v f i u inf pw ev) = decRun env P v f i u inf pw ev := by
  unfold decRunT decRun
  rw [er_bind]; congr 1; funext p
  dsimp only []
  rw [er_ite]
  refine if_congr Iff.rfl ?_ ?_
  · rw [er_bind]
    generalize encDecCleanup _ _ _ _ _ _ _ _ _ = X
    cases X <;> rfl
  · cases openOutput env u with
    | none => rfl
    | some outf =>
      dsimp only []
      cases p.cookie with
      | none => rfl
      | some c =>
        dsimp only []
        rw [← erase_decCopy, er_bind]
        generalize scryptdec_file_copyT _ _ _ = X
        cases X with
        | ub => rfl
        | abort => rfl
        | ok o =>
          rw [Res.bind_ok]
          show _ = (Res.ok o.1 >>= _)
          rw [Res.bind_ok, er_bind]
          generalize encDecCleanup _ _ _ _ _ _ _ _ _ = X
          cases X <;> rfl

theorem erase_encRun (env : MainEnv) (P : EncParams) (v f : Bool) (i u : Option CStr) (inf : InFile) (pw : Bytes) (ev : List MEv) :
    er (encRunT env P v f i u inf pw ev) = encRun env P v f i u inf pw ev := by
  unfold encRunT encRun
  cases openOutput env u with
  | none => rfl
  | some outf =>
    dsimp only []
    rw [← erase_encFile, er_bind]
    generalize scryptenc_fileT _ _ _ _ _ _ _ = X
    cases X with
    | ub => rfl
    | abort => rfl
    | ok o =>
      rw [Res.bind_ok]
      show _ = (Res.ok o.1 >>= _)
      rw [Res.bind_ok, er_bind]
      generalize encDecCleanup _ _ _ _ _ _ _ _ _ = X
      cases X <;> rfl

theorem erase_operate (env : MainEnv) (q : Request) (inf : InFile) (pw : Bytes) : er (operateT env q inf pw) = operate env q inf pw := by
  unfold operateT operate
  rw [er_ite, erase_decRun, erase_encRun]

/-- Forgetting the effects. -/
theorem erase_perform {env : MainEnv} {q : Request} (hq : q.op ≠ .info) (o : MainOut) :
    perform env q = .ok (some o) ↔ ∃ ds, performT env q = .ok (some (o, ds)) := by
  rw [perform_ed hq]
  unfold performT scrypt_mode_enc_dec scrypt_mode_enc_decT
  cases openInput env q.infile with
  | none =>
    constructor
    · intro h; cases h; exact ⟨[], rfl⟩
    · rintro ⟨ds, h⟩; cases h; rfl
  | some f =>
    dsimp only []
    generalize passphrase_entry_readpass env.pe q.method q.methodArg (decide (q.op = .dec)) = R
    cases R with
    | ub => exact ⟨fun h => (by cases h), fun ⟨_, h⟩ => (by cases h)⟩
    | abort => exact ⟨fun h => (by cases h), fun ⟨_, h⟩ => (by cases h)⟩
    | ok r =>
      rw [Res.bind_ok, Res.bind_ok]
      cases r with
      | none => exact ⟨fun h => (by cases h), fun ⟨_, h⟩ => (by cases h)⟩
      | some pe =>
        dsimp only []
        cases pe.passwd with
        | none =>
          constructor
          · intro h; cases h; exact ⟨[], rfl⟩
          · rintro ⟨ds, h⟩; cases h; rfl
        | some pw =>
          dsimp only []
          cases f.orElse fun _ => stdinFile env pe.stdin with
          | none => exact ⟨fun h => (by cases h), fun ⟨_, h⟩ => (by cases h)⟩
          | some inf =>
            dsimp only []
            have e := erase_operate env q inf pw
            unfold operateT operate at e
            have e1 : ∀ {α : Type} (x y : α), (if decide (q.op = .dec) = true then x else y) = if q.op = .dec then x else y := by
              intro α x y; exact if_congr (by simp) rfl rfl
            rw [e1, e1, ← e]
            generalize (if q.op = .dec then decRunT _ _ _ _ _ _ _ _ _ else encRunT _ _ _ _ _ _ _ _ _ : Res (ModeOut × List DiskEv)) = X
            cases X with
            | ub => exact ⟨fun h => (by cases h), fun ⟨_, h⟩ => (by cases h)⟩
            | abort => exact ⟨fun h => (by cases h), fun ⟨_, h⟩ => (by cases h)⟩
            | ok m =>
              constructor
              · intro h; cases h; exact ⟨m.2, rfl⟩
              · rintro ⟨ds, h⟩; cases h; rfl

/-- There are effects only if there is a passphrase and an input; they are those of the operation. -/
theorem effects_session {env : MainEnv} {q : Request} {o : MainOut} {ds : List DiskEv} (h : performT env q = .ok (some (o, ds))) :
    (ds = [] ∧ o.out = [] ∧ o.exit = 1) ∨ ∃ pw inf m, Session env q pw inf ∧ operateT env q inf pw = .ok (m, ds) ∧ o = toExit m := by
  unfold performT scrypt_mode_enc_decT at h
  cases ho : openInput env q.infile with
  | none => rw [ho] at h; cases h; exact .inl ⟨rfl, rfl, rfl⟩
  | some f =>
    rw [ho] at h
    dsimp only [] at h
    cases hr : passphrase_entry_readpass env.pe q.method q.methodArg (decide (q.op = .dec)) with
    | ub => rw [hr] at h; cases h
    | abort => rw [hr] at h; cases h
    | ok r =>
      rw [hr, Res.bind_ok] at h
      cases r with
      | none => cases h
      | some pe =>
        dsimp only [] at h
        cases hp : pe.passwd with
        | none => rw [hp] at h; cases h; exact .inl ⟨rfl, rfl, rfl⟩
        | some pw =>
          rw [hp] at h
          dsimp only [] at h
          cases hf : f.orElse fun _ => stdinFile env pe.stdin with
          | none => rw [hf] at h; cases h
          | some inf =>
            rw [hf] at h
            dsimp only [] at h
            have e1 : ∀ {α : Type} (x y : α), (if decide (q.op = .dec) = true then x else y) = if q.op = .dec then x else y := by
              intro α x y; exact if_congr (by simp) rfl rfl
            rw [e1] at h
            have hs : Session env q pw inf := by
              refine ⟨pe, hr, hp, ?_⟩
              rcases openInput_some ho with ⟨rfl, h2⟩ | ⟨n, g, rfl, h2, h3⟩
              · have h4 : stdinFile env pe.stdin = some inf := hf
                unfold stdinFile at h4
                by_cases hw : pe.stdin.tail = .wait
                · rw [if_pos hw] at h4; cases h4
                · rw [if_neg hw] at h4; cases h4; exact .stdin h2 hw
              · cases hf; exact .file h2 h3
            refine .inr ⟨pw, inf, ?_⟩
            unfold operateT
            generalize (if q.op = .dec then decRunT _ _ _ _ _ _ _ _ _ else encRunT _ _ _ _ _ _ _ _ _ : Res (ModeOut × List DiskEv)) = X at h ⊢
            cases X with
            | ub => cases h
            | abort => cases h
            | ok m => cases h; exact ⟨m.1, hs, rfl, rfl⟩

theorem ios_io (es : List IoEv) : ios (es.map DiskEv.io) = es := by
  unfold ios
  rw [List.filterMap_map]
  exact List.filterMap_some

/-- The beginnings of the effects of an operation on a file. -/
theorem effect_prefix {u : Option CStr} {es : List IoEv} {pre : List DiskEv} (h : pre <+: createEv u ++ es.map .io) :
    (pre = [] ∨ ∃ es', es' <+: es ∧ pre = createEv u ++ es'.map .io) := by
  rcases List.prefix_or_prefix_of_prefix h (List.prefix_append _ _) with h | ⟨t, rfl⟩
  · cases u with
    | none => exact .inl (List.prefix_nil.1 h)
    | some n =>
      unfold createEv at h
      rcases pre with _ | ⟨a, pre⟩
      · exact .inl rfl
      · right
        refine ⟨[], List.nil_prefix, ?_⟩
        obtain ⟨rfl, h'⟩ := List.cons_prefix_cons.1 h
        rw [List.prefix_nil.1 h']
        rfl
  · right
    obtain ⟨es', h1, rfl⟩ := List.prefix_map_iff.1 ((List.prefix_append_right_inj _).1 h)
    exact ⟨es', h1, rfl⟩

theorem ios_effects (u : Option CStr) (es : List IoEv) : ios (createEv u ++ es.map .io) = es := by
  have : ios (createEv u ++ es.map .io) = ios (createEv u) ++ ios (es.map .io) := by unfold ios; rw [List.filterMap_append]
  rw [this, ios_io]
  cases u <;> rfl

/-- What may be in the file. -/
theorem possible_cases {n : CStr} {es : List IoEv} {pre : List DiskEv} (h : pre <+: createEv (some n) ++ es.map .io) {old now : Option Bytes}
    (hp : Possible n old pre now) : now = old ∨ ∃ es' D, es' <+: es ∧ D <+: put es' ∧ now = some D := by
  rcases hp with ⟨-, h1⟩ | ⟨-, D, h1, h2⟩
  · exact .inl h1
  · right
    rcases effect_prefix h with rfl | ⟨es', h3, rfl⟩
    · refine ⟨[], D, List.nil_prefix, h1, h2⟩
    · rw [ios_effects] at h1
      exact ⟨es', D, h3, h1, h2⟩

theorem encRunT_inv {env : MainEnv} {P : EncParams} {v f : Bool} {i u : Option CStr} {inf : InFile} {pw : Bytes} {ev : List MEv} {m : ModeOut} {ds : List DiskEv}
    (h : encRunT env P v f i u inf pw ev = .ok (m, ds)) :
    (openOutput env u = none ∧ ds = [] ∧ m.out = [] ∧ m.ok = false) ∨ ∃ outf o es, openOutput env u = some outf ∧
      scryptenc_fileT env.sys (truncated env u inf) outf pw P v f = .ok (o, es) ∧ ds = createEv u ++ es.map .io ∧ m.out = o.outf.written ∧ (m.ok = true ↔ o.rc = .OK) := by
  unfold encRunT at h
  cases ho : openOutput env u with
  | none => rw [ho] at h; cases h; exact .inl ⟨rfl, rfl, rfl, rfl⟩
  | some outf =>
    rw [ho] at h
    dsimp only [] at h
    rw [Res.bind_eq_ok] at h
    obtain ⟨⟨o, es⟩, h1, h⟩ := h
    rw [Res.bind_eq_ok] at h
    obtain ⟨m', h2, h⟩ := h
    obtain ⟨rfl, rfl⟩ := Prod.mk.inj (Res.ok.inj h)
    obtain ⟨m'', e1, e2, e3, -⟩ := cleanup_ok (env := env) (i := i) (u := u) (ev := ev ++ openOutputEv env u ++ o.tr.map .key) (msgs := o.err.map .lib)
      (ck := false) (op := u.isSome) (rc := o.rc) (out := o.outf.written)
    rw [h2] at e1
    cases e1
    exact .inr ⟨outf, o, es, rfl, h1, rfl, e3, e2⟩

theorem decRunT_inv {env : MainEnv} (g : env.sys.Good) {P : EncParams} {v f : Bool} {i u : Option CStr} {inf : InFile} {pw : Bytes} {ev : List MEv} {m : ModeOut}
    {ds : List DiskEv} (sep : ∀ n, u = some n → ∀ f, env.trunc n f = f) (h : decRunT env P v f i u inf pw ev = .ok (m, ds)) :
    (ds = [] ∧ m.out = [] ∧ m.ok = false) ∨ ∃ outf o es, openOutput env u = some outf ∧ prepVerdict env.sys inf pw P v f = .OK ∧
      scryptdec_fileT env.sys inf outf pw P v f = .ok (o, es) ∧ ds = createEv u ++ es.map .io ∧ m.out = o.outf.written ∧ (m.ok = true ↔ o.rc = .OK) := by
  unfold decRunT at h
  rw [Res.bind_eq_ok] at h
  obtain ⟨p, hpr, h⟩ := h
  have hz : P.zero = true := by
    have h' := hpr
    unfold scryptdec_file_prep at h'
    rw [Res.bind_eq_ok] at h'
    obtain ⟨_, h1, _⟩ := h'
    by_contra hc
    rw [show P.zero = false by simpa using hc] at h1
    cases h1
  obtain ⟨p1, p2, p3, -⟩ := decPrep_spec g hpr
  dsimp only [] at h
  by_cases hp : p.rc = .OK
  case neg =>
    rw [if_pos hp, Res.bind_eq_ok] at h
    obtain ⟨m', h1, h⟩ := h
    obtain ⟨rfl, rfl⟩ := Prod.mk.inj (Res.ok.inj h)
    obtain ⟨m'', e1, e2, e3, -⟩ := cleanup_ok (env := env) (i := i) (u := u) (ev := ev ++ p.tr.map .key) (msgs := p.err.map .lib) (ck := false) (op := false)
      (rc := p.rc) (out := [])
    rw [h1] at e1
    cases e1
    exact .inl ⟨rfl, e3, by cases hb : m'.ok with | false => rfl | true => exact absurd (e2.1 hb) hp⟩
  rw [if_neg (not_not.2 hp)] at h
  cases ho : openOutput env u with
  | none => rw [ho] at h; cases h; exact .inl ⟨rfl, rfl, rfl⟩
  | some outf =>
    rw [ho] at h
    dsimp only [] at h
    obtain ⟨c, hc, -⟩ := p2 hp
    rw [hc] at h
    dsimp only [] at h
    rw [truncated_sep sep, Res.bind_eq_ok] at h
    obtain ⟨⟨o, es⟩, h1, h⟩ := h
    rw [Res.bind_eq_ok] at h
    obtain ⟨m', h2, h⟩ := h
    obtain ⟨rfl, rfl⟩ := Prod.mk.inj (Res.ok.inj h)
    obtain ⟨m'', e1, e2, e3, -⟩ := cleanup_ok (env := env) (i := i) (u := u) (ev := ev ++ p.tr.map .key ++ openOutputEv env u ++ o.tr.map .key) (msgs := p.err.map .lib)
      (ck := true) (op := u.isSome) (rc := o.rc) (out := o.outf.written)
    rw [h2] at e1
    cases e1
    refine .inr ⟨outf, ⟨o.rc, p.P, o.inf, o.outf, zero64, p.tr ++ o.tr ++ scryptdec_file_cookie_free, p.err, p.smix⟩, es, rfl, by rw [← p1]; exact hp, ?_, rfl, e3, e2⟩
    unfold scryptdec_fileT
    rw [hz, cassert_true, Res.bind_ok, hpr, Res.bind_ok, hc]
    dsimp only []
    rw [h1, Res.bind_ok]

/-- **C68.**  A run of the utility has a sequence of effects; it is empty unless there is one passphrase and one input. -/
theorem C68_trace {env : MainEnv} (hmal : env.mallocOk = true) (hsz : env.sys.par.szMax < 2 ^ 64) {a0 : CStr} {args : List CStr} (hz : NoNul args) {q : Request}
    (hq : Requests env.sd env.sys.par.szMax args q) (hop : q.op ≠ .info) (o : MainOut) :
    scryptMain env (a0 :: args) = .ok (some o) ↔ ∃ ds, performT env q = .ok (some (o, ds)) := by
  rw [C33_accepted env hmal hsz a0 args hz q hq]
  exact erase_perform hop o

/-- **C68.**  A decryption killed at any point has left the output file as it was, or the header, parameters and passphrase were right and the file contains a
beginning of what the data decrypts to. -/
theorem C68_dec {env : MainEnv} (g : env.sys.Good) {q : Request} (hq : q.op = .dec) (hl : LimitsOk env.sys q.params q.verbose q.force) (hsep : Separate env q)
    (hlen : ∀ pw inf, Session env q pw inf → inf.data.length < 2 ^ 64) {o : MainOut} {ds : List DiskEv} (h : performT env q = .ok (some (o, ds)))
    {n : CStr} (hn : q.outfile = some n) {pre : List DiskEv} (hpre : pre <+: ds) {old now : Option Bytes} (hp : Possible n old pre now) :
    now = old ∨ ∃ pw inf D, Session env q pw inf ∧ (∀ x ∈ prepChecks env.sys pw q.params q.force inf.data inf.err, x.1) ∧ now = some D ∧
      D <+: plaintext (scryptCode pw (hdrSalt inf.data) (2 ^ hdrLogN inf.data) (hdrR inf.data) (hdrP inf.data) 64) inf.data := by
  rcases effects_session h with ⟨rfl, -⟩ | ⟨pw, inf, m, hs, hm, -⟩
  · left
    rw [List.prefix_nil.1 hpre] at hp
    rcases hp with ⟨-, h1⟩ | ⟨h1, -⟩
    · exact h1
    · cases h1
  unfold operateT at hm
  rw [if_pos hq, hn] at hm
  rcases decRunT_inv g (fun n' h' => hsep n' (by rw [hn, h'])) hm with ⟨rfl, -⟩ | ⟨outf, of, es, h1, h2, h3, rfl, -⟩
  · left
    rw [List.prefix_nil.1 hpre] at hp
    rcases hp with ⟨-, h1⟩ | ⟨h1, -⟩
    · exact h1
    · cases h1
  rcases possible_cases hpre hp with h4 | ⟨es', D, h4, h5, h6⟩
  · exact .inl h4
  refine .inr ⟨pw, inf, D, hs, ?_, h6, ?_⟩
  · rw [prepVerdict_table g hl] at h2
    exact firstFail_ok_all (prepChecks_codes _ _ _ _ _ _) h2
  · exact h5.trans ((C62_dec g (hlen pw inf hs) h3).2.2 es' h4).2

/-- **C68.**  An encryption killed at any point has left the output file as it was, or the file is empty or contains a beginning of the container of the input
under the passphrase; nothing accepts an incomplete one unless 32 bytes of ciphertext happen to be the right HMAC. -/
theorem C68_enc {env : MainEnv} (g : env.sys.Good) {q : Request} (hq : q.op = .enc) (hsep : Separate env q)
    (hlen : ∀ pw inf, Session env q pw inf → inf.data.length + 128 < 2 ^ 64) {o : MainOut} {ds : List DiskEv} (h : performT env q = .ok (some (o, ds)))
    {n : CStr} (hn : q.outfile = some n) {pre : List DiskEv} (hpre : pre <+: ds) {old now : Option Bytes} (hp : Possible n old pre now) :
    now = old ∨ ∃ pw inf D, Session env q pw inf ∧ now = some D ∧ (D = [] ∨ ∃ (salt : Bytes) (l r p : Nat), env.sys.salt = some salt ∧
      let K := scryptCode pw salt (2 ^ l) r p 64
      let C := container K l r p salt inf.data
      D <+: C ∧
      (D ≠ C → ∀ sys' : EncSys, sys'.Good → Accepted sys' pw D →
        128 ≤ D.length ∧ D.length < C.length ∧ field C (D.length - 32) 32 = hmac (keyHmac K) (C.take (D.length - 32)))) := by
  rcases effects_session h with ⟨rfl, -⟩ | ⟨pw, inf, m, hs, hm, -⟩
  · left
    rw [List.prefix_nil.1 hpre] at hp
    rcases hp with ⟨-, h1⟩ | ⟨h1, -⟩
    · exact h1
    · cases h1
  unfold operateT at hm
  rw [if_neg (by rw [hq]; decide), hn] at hm
  rcases encRunT_inv hm with ⟨-, rfl, -⟩ | ⟨outf, of, es, h1, h3, rfl, -⟩
  · left
    rw [List.prefix_nil.1 hpre] at hp
    rcases hp with ⟨-, h1⟩ | ⟨h1, -⟩
    · exact h1
    · cases h1
  rw [truncated_sep (fun n' h' => hsep n' (by rw [hn, h']))] at h3
  rcases possible_cases hpre hp with h4 | ⟨es', D, h4, h5, h6⟩
  · exact .inl h4
  exact .inr ⟨pw, inf, D, hs, h6, C62_enc_killed g (hlen pw inf hs) h3 h4 h5⟩

/-- **C68.**  A run that is not killed has written its output: all of it, and only to a file it created. -/
theorem C68_complete {env : MainEnv} (g : env.sys.Good) {q : Request} (hsep : Separate env q)
    (hlen : ∀ pw inf, Session env q pw inf → inf.data.length < 2 ^ 64) {o : MainOut} {ds : List DiskEv} (h : performT env q = .ok (some (o, ds))) :
    (ds = [] → o.out = []) ∧ (ds ≠ [] → o.out = put (ios ds) ∧ ∀ n, q.outfile = some n → ds.head? = some (.create n)) ∧
    (o.exit = 0 → ∀ n, q.outfile = some n → ds ≠ []) := by
  have nil : put (ios []) = [] := rfl
  rcases effects_session h with ⟨rfl, h1, h2⟩ | ⟨pw, inf, m, hs, hm, rfl⟩
  · exact ⟨fun _ => h1, fun hc => absurd rfl hc, fun h0 => by rw [h2] at h0; cases h0⟩
  have key : (ds = [] ∧ m.out = [] ∧ m.ok = false) ∨ ∃ es, ds = createEv q.outfile ++ es.map .io ∧ m.out = put es := by
    unfold operateT at hm
    by_cases hd : q.op = .dec
    · rw [if_pos hd] at hm
      rcases decRunT_inv g hsep hm with h1 | ⟨outf, of, es, h1, -, h3, rfl, h5, -⟩
      · exact .inl h1
      · refine .inr ⟨es, rfl, ?_⟩
        rw [h5, (C62_dec g (hlen pw inf hs) h3).1, openOutput_empty h1, List.nil_append]
    · rw [if_neg hd] at hm
      rcases encRunT_inv hm with ⟨-, h1⟩ | ⟨outf, of, es, h1, h3, rfl, h5, -⟩
      · exact .inl h1
      · refine .inr ⟨es, rfl, ?_⟩
        rw [truncated_sep hsep] at h3
        rw [h5, (C62_enc g (hlen pw inf hs) h3).1, openOutput_empty h1, List.nil_append]
  rcases key with ⟨rfl, h1, h2⟩ | ⟨es, rfl, h1⟩
  · refine ⟨fun _ => h1, fun hc => absurd rfl hc, fun h0 => ?_⟩
    have : m.ok = true := exit_eq.1 h0
    rw [h2] at this
    cases this
  · refine ⟨fun h0 => ?_, fun _ => ⟨?_, fun n hn => by rw [hn]; rfl⟩, fun _ n hn => by rw [hn]; simp [createEv]⟩
    · show m.out = []
      have := ios_effects q.outfile es
      rw [h0] at this
      rw [h1, ← this]
      rfl
    · rw [ios_effects]
      exact h1

theorem performT_session {env : MainEnv} {q : Request} {pw : Bytes} {inf : InFile} (hs : Session env q pw inf) {o : MainOut} {ds : List DiskEv}
    (h : performT env q = .ok (some (o, ds))) : ∃ m, operateT env q inf pw = .ok (m, ds) ∧ o = toExit m := by
  obtain ⟨pe, h1, h2, h3⟩ := hs
  have hopen : ∃ f, openInput env q.infile = some f ∧ (f.orElse fun _ => stdinFile env pe.stdin) = some inf := by
    cases h3 with
    | file a b => refine ⟨some inf, ?_, rfl⟩; unfold openInput; rw [a]; simp only [b, Option.map_some]
    | stdin a b =>
      refine ⟨none, ?_, ?_⟩
      · unfold openInput; rw [a]
      · show stdinFile env pe.stdin = _
        unfold stdinFile; rw [if_neg b]
  obtain ⟨f, e1, e2⟩ := hopen
  have e3 : ∀ {α : Type} (x y : α), (if decide (q.op = .dec) = true then x else y) = if q.op = .dec then x else y := by
    intro α x y; exact if_congr (by simp) rfl rfl
  unfold performT scrypt_mode_enc_decT at h
  rw [e1] at h
  dsimp only [] at h
  rw [h1, Res.bind_ok] at h
  dsimp only [] at h
  rw [h2] at h
  dsimp only [] at h
  rw [e2] at h
  dsimp only [] at h
  rw [e3] at h
  unfold operateT
  generalize (if q.op = .dec then decRunT _ _ _ _ _ _ _ _ _ else encRunT _ _ _ _ _ _ _ _ _ : Res (ModeOut × List DiskEv)) = X at h ⊢
  cases X with
  | ub => cases h
  | abort => cases h
  | ok m => cases h; exact ⟨m.1, rfl, rfl⟩

/-- **C68 (finding F26).**  An encryption creates (and empties) its output file before it looks at parameters, limits, salt or key: when one of these fails, the
exit status is 1 and whatever the file contained is gone. -/
theorem C68_F26 {env : MainEnv} (g : env.sys.Good) {q : Request} (hq : q.op = .enc) {pw : Bytes} {inf : InFile} (hs : Session env q pw inf)
    (hl : LimitsOk env.sys q.params q.verbose q.force) (h0 : q.params.logN ≠ 0)
    (hc : firstFail .OK (explicitChecks env.sys q.params q.force) ≠ .OK) {n : CStr} (hn : q.outfile = some n) (hopen : (env.openOut n).isSome = true)
    {o : MainOut} {ds : List DiskEv} (h : performT env q = .ok (some (o, ds))) :
    ds = [.create n] ∧ o.exit = 1 ∧ o.out = [] ∧ ∀ old now, Possible n old ds now ↔ now = some [] := by
  obtain ⟨m, hm, rfl⟩ := performT_session hs h
  unfold operateT at hm
  rw [if_neg (by rw [hq]; decide), hn] at hm
  have key : ds = [.create n] ∧ m.ok = false ∧ m.out = [] := by
    rcases encRunT_inv hm with ⟨h1, -⟩ | ⟨outf, of, es, h1, h3, rfl, h5, h6⟩
    · unfold openOutput at h1
      dsimp only [] at h1
      rw [Option.map_eq_none_iff] at h1
      rw [h1] at hopen
      cases hopen
    · unfold scryptenc_fileT at h3
      rw [Res.bind_eq_ok] at h3
      obtain ⟨-, -, h3⟩ := h3
      rw [Res.bind_eq_ok] at h3
      obtain ⟨s, hs', h3⟩ := h3
      have hrc := (setup_explicit g hl h0 hs').1
      have hne : s.rc ≠ .OK := by rw [hrc]; exact hc
      rw [if_pos hne] at h3
      obtain ⟨e1, rfl⟩ := Prod.mk.inj (Res.ok.inj h3)
      refine ⟨rfl, ?_, ?_⟩
      · cases hb : m.ok with
        | false => rfl
        | true =>
          have := h6.1 hb
          rw [← e1] at this
          exact absurd this hne
      · rw [h5, ← e1]
        exact openOutput_empty h1
  obtain ⟨rfl, k2, k3⟩ := key
  refine ⟨rfl, by unfold toExit; rw [k2]; rfl, k3, fun old now => ?_⟩
  constructor
  · rintro (⟨h1, -⟩ | ⟨-, D, h1, h2⟩)
    · exact absurd (List.mem_singleton.2 rfl) h1
    · rw [h2, List.prefix_nil.1 h1]
  · rintro rfl
    exact .inr ⟨List.mem_singleton.2 rfl, [], List.nil_prefix, rfl⟩

/-- Non-vacuity: a run of the utility, from its command line, that creates its output file; killed right after that it leaves an empty file, and at the end the
container is there. -/
example (sha : ShaHw) (hw : AesHw) : ∃ o ds, scryptMain (exMain sha hw "in".toList [[1, 2], [3]]) ("scrypt".toList :: exArgs) = .ok (some o) ∧
    performT (exMain sha hw "in".toList [[1, 2], [3]]) exRequest = .ok (some (o, ds)) ∧
    [DiskEv.create "out".toList] <+: ds ∧ Possible "out".toList (some [7]) [.create "out".toList] (some []) ∧
    Possible "out".toList (some [7]) ds (some (container (scryptCode [0x68, 0x69] exSalt (2 ^ 10) 8 1 64) 10 8 1 exSalt [1, 2, 3])) := by
  have g := exEnc_good sha hw exSalt_length
  obtain ⟨o, h1, h2, h3⟩ := exMain_enc sha hw [[1, 2], [3]] (by decide)
  obtain ⟨ds, h4⟩ := (C68_trace (env := exMain sha hw "in".toList [[1, 2], [3]]) rfl (by show 2 ^ 64 - 1 < 2 ^ 64; norm_num) (by unfold NoNul; decide)
    (exRequests _ _) (by decide) o).1 h1
  obtain ⟨-, c2, c3⟩ := C68_complete (env := exMain sha hw "in".toList [[1, 2], [3]]) g (fun _ _ _ => rfl)
    (fun pw inf hs => by rw [((exSession sha hw [[1, 2], [3]]).unique hs).2.symm]; decide) h4
  obtain ⟨c4, c5⟩ := c2 (c3 h2 _ rfl)
  have c6 := c5 _ rfl
  obtain ⟨t, rfl⟩ : ∃ t, ds = .create "out".toList :: t := by
    cases ds with
    | nil => cases c6
    | cons a t => exact ⟨t, by rw [Option.some.inj c6]⟩
  refine ⟨o, _, h1, h4, ⟨t, rfl⟩, .inr ⟨List.mem_singleton.2 rfl, [], List.nil_prefix, rfl⟩, .inr ⟨List.mem_cons_self, _, ?_, rfl⟩⟩
  rw [← c4, h3]
  exact List.prefix_rfl

/-- The example's world, except that no random salt can be had. -/
def exNoSalt (sha : ShaHw) (hw : AesHw) : MainEnv := { exMain sha hw "in".toList [[1]] with sys := { exEnc sha hw exSalt with salt := none } }

/-- Non-vacuity of the finding: there, `scrypt enc ... in out` empties `out` and exits 1. -/
example (sha : ShaHw) (hw : AesHw) : ∃ o ds, scryptMain (exNoSalt sha hw) ("scrypt".toList :: exArgs) = .ok (some o) ∧ o.exit = 1 ∧
    performT (exNoSalt sha hw) exRequest = .ok (some (o, ds)) ∧ ∀ old now, Possible "out".toList old ds now ↔ now = some [] := by
  have g : (exNoSalt sha hw).sys.Good := { exEnc_good sha hw exSalt_length with salt := fun s h => by cases h }
  have hs : Session (exNoSalt sha hw) exRequest [0x68, 0x69] ⟨[[1]], false⟩ := ⟨_, rfl, rfl, .file (n := "in".toList) rfl (by simp [exNoSalt, exMain])⟩
  have hl : LimitsOk (exNoSalt sha hw).sys exRequest.params exRequest.verbose exRequest.force := ⟨fun h => (by cases h), fun h => (by cases h)⟩
  obtain ⟨r, hr⟩ := C35_total (exNoSalt sha hw) g (exEnc_ready sha hw exSalt) exRequest (by decide) (fun _ _ _ => Nat.le_refl _)
    (fun pw inf h => by rw [(hs.unique h).2.symm]; decide) (fun h => by cases h)
    (fun _ => ⟨by rw [exParams]; decide, ⟨fun _ => hl, fun h => by rw [exParams] at h; cases h⟩⟩)
  cases r with
  | none =>
    exfalso
    rw [perform_session (by decide) hs, Res.bind_eq_ok] at hr
    obtain ⟨m, -, hm⟩ := hr
    cases hm
  | some o =>
    obtain ⟨ds, hd⟩ := (erase_perform (by decide) o).1 hr
    have hf := C68_F26 g rfl hs hl (by rw [exParams]; decide) (by
      unfold explicitChecks
      rw [exParams, firstFail_cons (show GoodParams exP.logN exP.r.toNat exP.p.toNat from exP_good), firstFail_cons (show exRequest.force = true ∨ ∃ m, MemLimit (exNoSalt sha hw).sys exP m from .inl rfl),
        firstFail_cons (show exRequest.force = true ∨ (exNoSalt sha hw).sys.par.perf.1 = .OK from .inl rfl),
        firstFail_stop (show ¬ (exNoSalt sha hw).sys.salt ≠ none from fun h => h rfl)]
      decide) (n := "out".toList) rfl rfl hd
    refine ⟨o, ds, ?_, hf.2.1, hd, hf.2.2.2⟩
    rw [C33_accepted (exNoSalt sha hw) rfl (by show 2 ^ 64 - 1 < 2 ^ 64; norm_num) "scrypt".toList exArgs (by unfold NoNul; decide) exRequest (exRequests _ _)]
    exact hr

/-- Non-vacuity for decryption: decrypting what the first example wrote creates `back` and ends with the plaintext in it. -/
example (sha : ShaHw) (hw : AesHw) : ∃ segs o ds, performT (exMain sha hw "out".toList segs) exRequest2 = .ok (some (o, ds)) ∧ o.exit = 0 ∧
    DiskEv.create "back".toList ∈ ds ∧ Possible "back".toList none ds (some [1, 2, 3]) := by
  have g := exEnc_good sha hw exSalt_length
  obtain ⟨o, o', k1, -, h1, h2, h3⟩ := exMain_roundtrip sha sha hw hw [[1, 2], [3]] (by decide)
  obtain ⟨oe, k2, -, k3⟩ := exMain_enc sha hw [[1, 2], [3]] (by decide)
  have hl : o.out.length = 131 := by
    rw [k1] at k2
    rw [Option.some.inj (Res.ok.inj k2), k3, container_length _ _ _ _ _ _ exSalt_length]
    rfl
  obtain ⟨ds, h4⟩ := (C68_trace (env := exMain sha hw "out".toList [o.out]) rfl (by show 2 ^ 64 - 1 < 2 ^ 64; norm_num) (by unfold NoNul; decide)
    (exRequests2 _ _) (by decide) o').1 h1
  obtain ⟨-, c2, c3⟩ := C68_complete (env := exMain sha hw "out".toList [o.out]) g (fun _ _ _ => rfl)
    (fun pw inf hs => by
      rw [((exSession2 sha hw [o.out]).unique hs).2.symm, show (⟨[o.out], false⟩ : InFile).data = o.out from List.append_nil _, hl]; norm_num) h4
  obtain ⟨c4, c5⟩ := c2 (c3 h2 _ rfl)
  have hm : DiskEv.create "back".toList ∈ ds := List.mem_of_mem_head? (c5 _ rfl)
  refine ⟨_, o', ds, h4, h2, hm, .inr ⟨hm, _, ?_, rfl⟩⟩
  rw [← c4, h3]
  exact List.prefix_rfl

end Scrypt.Props
