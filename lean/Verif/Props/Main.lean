import Verif.Props.CommandLine
import Verif.Props.EncEx
import Verif.Props.Misc
/-
C34, C35: what a run of the utility does to the output file, and what its exit code means.
-/
namespace Scrypt.Props
open Scrypt Spec

/-! ### Where passphrase and data come from -/

/-- The input of an operation, once passphrase entry has left `left` of standard input. -/
inductive Input (env : MainEnv) (q : Request) (left : Strm) : InFile → Prop
  | file {n : CStr} {f : InFile} : q.infile = some n → env.openIn n = some f → Input env q left f
  | stdin : q.infile = none → left.tail ≠ .wait → Input env q left ⟨env.cut left.data, left.tail = .err⟩

/-- The run gets as far as having a passphrase and an input: these. -/
def Session (env : MainEnv) (q : Request) (passwd : Bytes) (inf : InFile) : Prop :=
  ∃ pe, passphrase_entry_readpass env.pe q.method q.methodArg (q.op = .dec) = .ok (some pe) ∧ pe.passwd = some passwd ∧ Input env q pe.stdin inf

/-- The passphrase is the one the chosen method yields. -/
theorem Session.obtains {env : MainEnv} {q : Request} {passwd : Bytes} {inf : InFile} (h : Session env q passwd inf) :
    Obtains env.pe q.method q.methodArg (q.op = .dec) passwd := by
  obtain ⟨pe, h1, h2, -⟩ := h
  obtain ⟨r, hr, hP⟩ := C38_obtain env.pe q.method q.methodArg (q.op = .dec)
  rw [h1] at hr
  cases hr
  exact (hP pe rfl passwd).1 h2

theorem Session.unique {env : MainEnv} {q : Request} {passwd passwd' : Bytes} {inf inf' : InFile} (h : Session env q passwd inf)
    (h' : Session env q passwd' inf') : passwd = passwd' ∧ inf = inf' := by
  obtain ⟨pe, h1, h2, h3⟩ := h
  obtain ⟨pe', h1', h2', h3'⟩ := h'
  rw [h1] at h1'
  cases h1'
  rw [h2] at h2'
  cases h2'
  refine ⟨rfl, ?_⟩
  cases h3 with
  | file a b =>
    cases h3' with
    | file a' b' => rw [a] at a'; cases a'; rw [b] at b'; cases b'; rfl
    | stdin a' _ => rw [a] at a'; cases a'
  | stdin a b =>
    cases h3' with
    | file a' b' => rw [a] at a'; cases a'
    | stdin _ _ => rfl

/-- The output file is not the input file. -/
def Separate (env : MainEnv) (q : Request) : Prop := ∀ n, q.outfile = some n → ∀ f, env.trunc n f = f

/-- Opening the output file may cut the input file short (if they are the same), but does not make it longer. -/
def NeverLonger (env : MainEnv) (q : Request) : Prop := ∀ n, q.outfile = some n → ∀ f, (env.trunc n f).data.length ≤ f.data.length

theorem Separate.neverLonger {env : MainEnv} {q : Request} (h : Separate env q) : NeverLonger env q := fun n hn f => by rw [h n hn f]

/-- The run opens a file for writing, or tries to. -/
def OpensOut (ev : List MEv) : Prop := ∃ n ok, MEv.openOut n ok ∈ ev

/-- The message for code `c` is printed. -/
def Reports (msgs : List MMsg) (q : Request) (c : Code) : Prop :=
  ∃ d, MMsg.diag d ∈ msgs ∧ diagText d = expectedMessage c (q.infile.getD "standard input".toList) (q.outfile.getD "standard output".toList)

/-- The result of an operation as a result of the program. -/
def toExit (m : ModeOut) : MainOut := ⟨if m.ok then 0 else 1, m.msgs, [], m.ev, m.out⟩

/-- The operation on an input, with a passphrase. -/
def operate (env : MainEnv) (q : Request) (inf : InFile) (pw : Bytes) : Res ModeOut :=
  if q.op = .dec then decRun env q.params q.verbose q.force q.infile q.outfile inf pw (openInputEv env q.infile ++ [.gotPass])
  else encRun env q.params q.verbose q.force q.infile q.outfile inf pw (openInputEv env q.infile ++ [.gotPass])

theorem finish_some {r : Res (Option ModeOut)} {o : MainOut} : finish r = .ok (some o) ↔ ∃ m, r = .ok (some m) ∧ o = toExit m := by
  unfold finish
  constructor
  · intro h
    rw [Res.bind_eq_ok] at h
    obtain ⟨x, h1, h2⟩ := h
    cases x with
    | none => cases h2
    | some m => cases h2; exact ⟨m, h1, rfl⟩
  · rintro ⟨m, rfl, rfl⟩
    rfl

theorem perform_ed {env : MainEnv} {q : Request} (hq : q.op ≠ .info) :
    perform env q = finish (scrypt_mode_enc_dec env q.params q.method q.methodArg (q.op = .dec) q.verbose q.force q.infile q.outfile) := by
  unfold perform
  cases h : q.op with
  | info => exact absurd h hq
  | enc => rfl
  | dec => rfl

theorem openInput_some {env : MainEnv} {q : Request} {f : Option InFile} (h : openInput env q.infile = some f) :
    (f = none ∧ q.infile = none) ∨ ∃ n g, f = some g ∧ q.infile = some n ∧ env.openIn n = some g := by
  unfold openInput at h
  cases hi : q.infile with
  | none => rw [hi] at h; cases h; exact .inl ⟨rfl, rfl⟩
  | some n =>
    rw [hi] at h
    simp only at h
    cases ho : env.openIn n with
    | none => rw [ho] at h; cases h
    | some g => rw [ho] at h; cases h; exact .inr ⟨n, g, rfl, rfl, ho⟩

/-- With a session the operation runs; the result of the program is the result of the operation. -/
theorem perform_session {env : MainEnv} {q : Request} (hq : q.op ≠ .info) {pw : Bytes} {inf : InFile} (hs : Session env q pw inf) :
    perform env q = operate env q inf pw >>= fun m => .ok (some (toExit m)) := by
  obtain ⟨pe, h1, h2, h3⟩ := hs
  have hopen : ∃ f, openInput env q.infile = some f ∧ (f.orElse fun _ => stdinFile env pe.stdin) = some inf := by
    cases h3 with
    | file a b => refine ⟨some inf, ?_, rfl⟩; unfold openInput; rw [a]; simp only [b, Option.map_some]
    | stdin a b =>
      refine ⟨none, ?_, ?_⟩
      · unfold openInput; rw [a]
      · show stdinFile env pe.stdin = _
        unfold stdinFile; rw [if_neg b]
  obtain ⟨f, e1, e2⟩ := hopen
  rw [perform_ed hq]
  unfold scrypt_mode_enc_dec
  rw [e1]
  simp only []
  rw [h1, Res.bind_ok]
  simp only [h2, e2]
  unfold operate
  by_cases hd : q.op = .dec
  · rw [if_pos (by simpa using hd), if_pos hd]
    generalize decRun env q.params q.verbose q.force q.infile q.outfile inf pw (openInputEv env q.infile ++ [.gotPass]) = X
    cases X <;> rfl
  · rw [if_neg (by simpa using hd), if_neg hd]
    generalize encRun env q.params q.verbose q.force q.infile q.outfile inf pw (openInputEv env q.infile ++ [.gotPass]) = X
    cases X <;> rfl

theorem openInputEv_no (env : MainEnv) (i : Option CStr) (n : CStr) (ok : Bool) : MEv.openOut n ok ∉ openInputEv env i := by
  unfold openInputEv
  cases i <;> simp

theorem closeInput_no (env : MainEnv) (i : Option CStr) (n : CStr) (ok : Bool) : MEv.openOut n ok ∉ (closeInput env i).1 := by
  unfold closeInput
  cases i <;> simp

/-- Without a session nothing is done: exit 1 with a message, or the program is still waiting for standard input. -/
theorem perform_no_session {env : MainEnv} {q : Request} (hq : q.op ≠ .info) (hs : ¬ ∃ pw inf, Session env q pw inf) :
    perform env q = .ok none ∨ ∃ o, perform env q = .ok (some o) ∧ o.exit = 1 ∧ o.msgs ≠ [] ∧ o.out = [] ∧ ¬ OpensOut o.ev ∧ MEv.gotPass ∉ o.ev := by
  rw [perform_ed hq]
  unfold scrypt_mode_enc_dec
  cases ho : openInput env q.infile with
  | none =>
    right
    refine ⟨_, rfl, rfl, by simp, rfl, ?_, ?_⟩
    · rintro ⟨n, ok, h⟩; exact openInputEv_no _ _ _ _ h
    · show MEv.gotPass ∉ openInputEv env q.infile
      unfold openInputEv; cases q.infile <;> simp
  | some f =>
    simp only []
    obtain ⟨r, hr, -⟩ := C38_obtain env.pe q.method q.methodArg (q.op = .dec)
    rw [hr, Res.bind_ok]
    cases r with
    | none => exact .inl rfl
    | some pe =>
      simp only []
      cases hp : pe.passwd with
      | none =>
        right
        refine ⟨_, rfl, rfl, by simp, rfl, ?_, ?_⟩
        · rintro ⟨n, ok, h⟩
          rcases List.mem_append.1 h with h | h
          · exact openInputEv_no _ _ _ _ h
          · exact closeInput_no _ _ _ _ h
        · show MEv.gotPass ∉ openInputEv env q.infile ++ (closeInput env q.infile).1
          unfold openInputEv closeInput; cases q.infile <;> simp
      | some pw =>
        simp only []
        cases hf : f.orElse fun _ => stdinFile env pe.stdin with
        | none => exact .inl rfl
        | some inf =>
          refine absurd ⟨pw, inf, pe, hr, hp, ?_⟩ hs
          rcases openInput_some ho with ⟨rfl, h2⟩ | ⟨n, g, rfl, h2, h3⟩
          · have h4 : stdinFile env pe.stdin = some inf := hf
            unfold stdinFile at h4
            by_cases hw : pe.stdin.tail = .wait
            · rw [if_pos hw] at h4; cases h4
            · rw [if_neg hw] at h4; cases h4; exact .stdin h2 hw
          · cases hf; exact .file h2 h3

/-! ### The end of an operation -/

theorem cleanup_ok {env : MainEnv} {i u : Option CStr} {ev : List MEv} {msgs : List MMsg} {ck op : Bool} {rc : Code} {out : Bytes} :
    ∃ m, encDecCleanup env i u ev msgs ck op rc out = .ok m ∧ (m.ok = true ↔ rc = .OK) ∧ m.out = out ∧
      (rc ≠ .OK → ∃ d, MMsg.diag d ∈ m.msgs ∧ diagText d = expectedMessage rc (i.getD "standard input".toList) (u.getD "standard output".toList)) ∧
      m.ev = ev ++ (if ck then scryptdec_file_cookie_free.map .key else []) ++ [.zeroPass, .freePass] ++ (closeInput env i).1 ++ (closeOutput env op).1 := by
  unfold encDecCleanup
  by_cases h : rc = .OK
  · simp only []
    rw [if_neg (not_not.2 h)]
    exact ⟨_, rfl, by simp [h], rfl, fun h' => absurd h h', rfl⟩
  · obtain ⟨d, hd, ht⟩ := C48_message rc h i u
    simp only []
    rw [if_pos h, hd, Res.bind_ok]
    exact ⟨_, rfl, by simp [h], rfl, fun _ => ⟨d, by simp, ht⟩, rfl⟩

/-- The key material events. -/
def keysOf (ev : List MEv) : List Ev := ev.filterMap fun e => match e with | .key k => some k | _ => none

/-- The passphrase events. -/
def passOf (ev : List MEv) : List MEv := ev.filter fun e => e ∈ [MEv.gotPass, .zeroPass, .freePass]

theorem keysOf_append (a b : List MEv) : keysOf (a ++ b) = keysOf a ++ keysOf b := List.filterMap_append

theorem keysOf_keys (l : List Ev) : keysOf (l.map .key) = l := by
  unfold keysOf
  rw [List.filterMap_map]
  exact List.filterMap_some

theorem passOf_append (a b : List MEv) : passOf (a ++ b) = passOf a ++ passOf b := List.filter_append ..

theorem passOf_keys (l : List Ev) : passOf (l.map .key) = [] := by
  unfold passOf
  rw [List.filter_eq_nil_iff]
  intro e he
  obtain ⟨k, -, rfl⟩ := List.mem_map.1 he
  simp

theorem keys_close (env : MainEnv) (i : Option CStr) : keysOf (closeInput env i).1 = [] ∧ passOf (closeInput env i).1 = [] := by
  unfold closeInput; cases i <;> exact ⟨rfl, rfl⟩

theorem keys_closeOut (env : MainEnv) (b : Bool) : keysOf (closeOutput env b).1 = [] ∧ passOf (closeOutput env b).1 = [] := by
  unfold closeOutput; cases b <;> exact ⟨rfl, rfl⟩

theorem keys_openIn (env : MainEnv) (i : Option CStr) : keysOf (openInputEv env i) = [] ∧ passOf (openInputEv env i) = [] := by
  unfold openInputEv; cases i <;> exact ⟨rfl, rfl⟩

theorem keys_openOut (env : MainEnv) (i : Option CStr) : keysOf (openOutputEv env i) = [] ∧ passOf (openOutputEv env i) = [] := by
  unfold openOutputEv; cases i <;> exact ⟨rfl, rfl⟩

theorem keys_end : keysOf [.zeroPass, .freePass] = [] ∧ passOf [.zeroPass, .freePass] = [.zeroPass, .freePass] ∧ keysOf [.gotPass] = [] ∧
    passOf [.gotPass] = [.gotPass] := ⟨rfl, rfl, rfl, rfl⟩

theorem keys_cookie (b : Bool) : keysOf (if b then scryptdec_file_cookie_free.map MEv.key else []) = (if b then scryptdec_file_cookie_free else []) ∧
    passOf (if b then scryptdec_file_cookie_free.map MEv.key else []) = [] := by
  cases b <;> exact ⟨rfl, rfl⟩

theorem openOutput_empty {env : MainEnv} {u : Option CStr} {outf : OutFile} (h : openOutput env u = some outf) : outf.written = [] := by
  unfold openOutput at h
  cases u with
  | none => cases h; rfl
  | some n =>
    simp only at h
    cases ho : env.openOut n with
    | none => rw [ho] at h; cases h
    | some r => rw [ho] at h; cases h; rfl

theorem truncated_short {env : MainEnv} {q : Request} (h : NeverLonger env q) (inf : InFile) :
    (truncated env q.outfile inf).data.length ≤ inf.data.length := by
  unfold truncated
  cases hq : q.outfile with
  | none => exact Nat.le_refl _
  | some n => exact h n hq inf

theorem truncated_sep {env : MainEnv} {u : Option CStr} (h : ∀ n, u = some n → ∀ f, env.trunc n f = f) (f : InFile) : truncated env u f = f := by
  unfold truncated
  cases u with
  | none => rfl
  | some n => exact h n rfl f

theorem keyEv_no (l : List Ev) (n : CStr) (ok : Bool) : MEv.openOut n ok ∉ l.map MEv.key := by
  intro h
  obtain ⟨k, -, h⟩ := List.mem_map.1 h
  cases h

theorem cookieEv_no (b : Bool) (n : CStr) (ok : Bool) : MEv.openOut n ok ∉ (if b then scryptdec_file_cookie_free.map MEv.key else []) := by
  cases b with
  | true => exact keyEv_no _ _ _
  | false => exact List.not_mem_nil

/-- Decryption up to the point where the output file is opened: if preparing fails, it is not. -/
theorem decRun_prep {env : MainEnv} (g : env.sys.Good) {P : EncParams} {v f : Bool} {i u : Option CStr} {inf : InFile} {pw : Bytes} {ev0 : List MEv}
    {m : ModeOut} (hev : ¬ OpensOut ev0) (h : decRun env P v f i u inf pw ev0 = .ok m) (hp : prepVerdict env.sys inf pw P v f ≠ .OK) :
    m.ok = false ∧ m.out = [] ∧ ¬ OpensOut m.ev ∧
      ∃ d, MMsg.diag d ∈ m.msgs ∧ diagText d = expectedMessage (prepVerdict env.sys inf pw P v f) (i.getD "standard input".toList) (u.getD "standard output".toList) := by
  unfold decRun at h
  rw [Res.bind_eq_ok] at h
  obtain ⟨p, hpr, h⟩ := h
  have p1 := (decPrep_spec g hpr).1
  rw [← p1] at hp ⊢
  simp only at h
  rw [if_pos hp] at h
  obtain ⟨m', h1, h2, h3, h4, h5⟩ := cleanup_ok (env := env) (i := i) (u := u) (ev := ev0 ++ p.tr.map .key) (msgs := p.err.map .lib) (ck := false) (op := false)
    (rc := p.rc) (out := [])
  rw [h] at h1
  cases h1
  refine ⟨?_, h3, ?_, h4 hp⟩
  · by_contra hc
    exact hp (h2.1 (by simpa using hc))
  · rintro ⟨n, ok, hm⟩
    rw [h5] at hm
    simp only [List.mem_append] at hm
    rcases hm with (((((hm | hm) | hm) | hm) | hm)) | hm
    · exact hev ⟨n, ok, hm⟩
    · exact keyEv_no _ _ _ hm
    · exact cookieEv_no _ _ _ hm
    · simp at hm
    · exact closeInput_no _ _ _ _ hm
    · simp [closeOutput] at hm

/-- Decryption into a file that can be opened is scryptdec_file. -/
theorem decRun_file {env : MainEnv} (g : env.sys.Good) {P : EncParams} {v f : Bool} {i u : Option CStr} {inf : InFile} {pw : Bytes} {ev0 : List MEv}
    {m : ModeOut} (sep : ∀ n, u = some n → ∀ f, env.trunc n f = f) {outf : OutFile} (ho : openOutput env u = some outf)
    (h : decRun env P v f i u inf pw ev0 = .ok m) :
    ∃ o, scryptdec_file env.sys inf outf pw P v f = .ok o ∧ (m.ok = true ↔ o.rc = .OK) ∧ m.out = o.outf.written ∧
      keysOf m.ev = keysOf ev0 ++ o.tr ∧ passOf m.ev = passOf ev0 ++ [.zeroPass, .freePass] ∧
      (o.rc ≠ .OK → ∃ d, MMsg.diag d ∈ m.msgs ∧ diagText d = expectedMessage o.rc (i.getD "standard input".toList) (u.getD "standard output".toList)) := by
  unfold decRun at h
  rw [Res.bind_eq_ok] at h
  obtain ⟨p, hpr, h⟩ := h
  have hz : P.zero = true := by
    have h' := hpr
    unfold scryptdec_file_prep at h'
    rw [Res.bind_eq_ok] at h'
    obtain ⟨_, h1, _⟩ := h'
    by_contra hc
    rw [show P.zero = false by simpa using hc] at h1
    cases h1
  obtain ⟨-, p2, p3, -⟩ := decPrep_spec g hpr
  unfold scryptdec_file
  rw [hz, cassert_true, Res.bind_ok, hpr, Res.bind_ok]
  simp only at h
  by_cases hp : p.rc = .OK
  case neg =>
    rw [if_pos hp] at h
    obtain ⟨m', h1, h2, h3, h4, h5⟩ := cleanup_ok (env := env) (i := i) (u := u) (ev := ev0 ++ p.tr.map .key) (msgs := p.err.map .lib) (ck := false) (op := false)
      (rc := p.rc) (out := [])
    rw [h] at h1
    cases h1
    rw [(p3 hp).1]
    refine ⟨_, rfl, h2, by rw [h3]; exact (openOutput_empty ho).symm, ?_, ?_, h4⟩
    · rw [h5]
      simp only [keysOf_append, keysOf_keys, (keys_close env i).1, (keys_closeOut env false).1, keys_end.1, (keys_cookie false).1, List.append_nil]
      simp
    · rw [h5]
      simp only [passOf_append, passOf_keys, (keys_close env i).2, (keys_closeOut env false).2, keys_end.2.1, (keys_cookie false).2, List.append_nil]
  rw [if_neg (not_not.2 hp), ho] at h
  obtain ⟨c, hc, -⟩ := p2 hp
  rw [hc] at h ⊢
  simp only at h ⊢
  rw [Res.bind_eq_ok] at h
  obtain ⟨oc, hco, h⟩ := h
  rw [truncated_sep sep] at hco
  have hco : scryptdec_file_copy env.sys c outf = .ok oc := hco
  rw [hco, Res.bind_ok]
  obtain ⟨m', h1, h2, h3, h4, h5⟩ := cleanup_ok (env := env) (i := i) (u := u) (ev := ev0 ++ p.tr.map .key ++ openOutputEv env u ++ oc.tr.map .key)
    (msgs := p.err.map .lib) (ck := true) (op := u.isSome) (rc := oc.rc) (out := oc.outf.written)
  rw [h] at h1
  cases h1
  refine ⟨_, rfl, h2, h3, ?_, ?_, h4⟩
  · rw [h5]
    simp only [keysOf_append, keysOf_keys, (keys_close env i).1, (keys_closeOut env u.isSome).1, keys_end.1, if_true, List.append_nil,
      (keys_openOut env u).1, List.append_assoc, List.nil_append]
  · rw [h5]
    simp only [passOf_append, passOf_keys, (keys_close env i).2, (keys_closeOut env u.isSome).2, keys_end.2.1, if_true, List.append_nil,
      (keys_openOut env u).2]

theorem decRun_zero {env : MainEnv} {P : EncParams} {v f : Bool} {i u : Option CStr} {inf : InFile} {pw : Bytes} {ev0 : List MEv}
    {m : ModeOut} (h : decRun env P v f i u inf pw ev0 = .ok m) : P.zero = true := by
  unfold decRun at h
  rw [Res.bind_eq_ok] at h
  obtain ⟨p, h', h⟩ := h
  unfold scryptdec_file_prep at h'
  rw [Res.bind_eq_ok] at h'
  obtain ⟨_, h1, _⟩ := h'
  by_contra hc
  rw [show P.zero = false by simpa using hc] at h1
  cases h1

/-- Decryption when the output file cannot be opened. -/
theorem decRun_noout {env : MainEnv} (g : env.sys.Good) {P : EncParams} {v f : Bool} {i u : Option CStr} {inf : InFile} {pw : Bytes} {ev0 : List MEv}
    {m : ModeOut} (ho : openOutput env u = none) (h : decRun env P v f i u inf pw ev0 = .ok m) :
    m.ok = false ∧ m.out = [] ∧ m.msgs ≠ [] ∧ (∀ x, CleanedUp (keysOf ev0) x → keysOf ev0 = [] → CleanedUp (keysOf m.ev) x) ∧
      passOf m.ev = passOf ev0 ++ [.zeroPass, .freePass] := by
  unfold decRun at h
  rw [Res.bind_eq_ok] at h
  obtain ⟨p, hpr, h⟩ := h
  obtain ⟨-, p2, p3, -⟩ := decPrep_spec g hpr
  simp only at h
  by_cases hp : p.rc = .OK
  case neg =>
    rw [if_pos hp] at h
    obtain ⟨m', h1, h2, h3, h4, h5⟩ := cleanup_ok (env := env) (i := i) (u := u) (ev := ev0 ++ p.tr.map .key) (msgs := p.err.map .lib) (ck := false) (op := false)
      (rc := p.rc) (out := [])
    rw [h] at h1
    cases h1
    refine ⟨by by_contra hc; exact hp (h2.1 (by simpa using hc)), h3, ?_, ?_, ?_⟩
    · obtain ⟨d, hd, -⟩ := h4 hp
      exact List.ne_nil_of_mem hd
    · intro x _ hk
      rw [h5]
      simp only [keysOf_append, keysOf_keys, (keys_close env i).1, (keys_closeOut env false).1, keys_end.1, (keys_cookie false).1, List.append_nil, hk,
        (p3 hp).2, List.nil_append]
      cases env.sys.cookieOk with
      | true => unfold CleanedUp Released eventsOf; cases x <;> decide
      | false => exact .inl rfl
    · rw [h5]
      simp only [passOf_append, passOf_keys, (keys_close env i).2, (keys_closeOut env false).2, keys_end.2.1, (keys_cookie false).2, List.append_nil]
  rw [if_neg (not_not.2 hp), ho] at h
  obtain ⟨c, hc, -, -, -, -, htr, -⟩ := p2 hp
  cases h
  unfold encDecErr2
  refine ⟨rfl, rfl, by simp, ?_, ?_⟩
  · intro x _ hk
    simp only [keysOf_append, keysOf_keys, (keys_close env i).1, (keys_openOut env u).1, keys_end.1, if_true, List.append_nil, hk, htr,
      List.nil_append]
    unfold CleanedUp Released eventsOf; cases x <;> decide
  · simp only [passOf_append, passOf_keys, (keys_close env i).2, (keys_openOut env u).2, keys_end.2.1, if_true, List.append_nil]

/-- Encryption into a file that can be opened is scryptenc_file. -/
theorem encRun_file {env : MainEnv} {P : EncParams} {v f : Bool} {i u : Option CStr} {inf : InFile} {pw : Bytes} {ev0 : List MEv}
    {m : ModeOut} {outf : OutFile} (ho : openOutput env u = some outf)
    (h : encRun env P v f i u inf pw ev0 = .ok m) :
    ∃ o, scryptenc_file env.sys (truncated env u inf) outf pw P v f = .ok o ∧ (m.ok = true ↔ o.rc = .OK) ∧ m.out = o.outf.written ∧
      keysOf m.ev = keysOf ev0 ++ o.tr ∧ passOf m.ev = passOf ev0 ++ [.zeroPass, .freePass] ∧
      (o.rc ≠ .OK → ∃ d, MMsg.diag d ∈ m.msgs ∧ diagText d = expectedMessage o.rc (i.getD "standard input".toList) (u.getD "standard output".toList)) := by
  unfold encRun at h
  rw [ho] at h
  simp only at h
  rw [Res.bind_eq_ok] at h
  obtain ⟨o, h0, h⟩ := h
  obtain ⟨m', h1, h2, h3, h4, h5⟩ := cleanup_ok (env := env) (i := i) (u := u) (ev := ev0 ++ openOutputEv env u ++ o.tr.map .key)
    (msgs := o.err.map .lib) (ck := false) (op := u.isSome) (rc := o.rc) (out := o.outf.written)
  rw [h] at h1
  cases h1
  refine ⟨o, h0, h2, h3, ?_, ?_, h4⟩
  · rw [h5]
    simp only [keysOf_append, keysOf_keys, (keys_close env i).1, (keys_closeOut env u.isSome).1, keys_end.1, (keys_cookie false).1, List.append_nil,
      (keys_openOut env u).1]
    simp
  · rw [h5]
    simp only [passOf_append, passOf_keys, (keys_close env i).2, (keys_closeOut env u.isSome).2, keys_end.2.1, (keys_cookie false).2, List.append_nil,
      (keys_openOut env u).2]

/-! ### C34 -/

theorem firstFail_ok_all {C : Type} {ok : C} {a : List (Prop × C)} (he : ∀ x ∈ a, x.2 = ok → x.1) (h : firstFail ok a = ok) : ∀ x ∈ a, x.1 := by
  induction a with
  | nil => simp
  | cons x a ih =>
    have hx : x.1 := by
      by_contra hx
      rw [show x = (x.1, x.2) from rfl, firstFail_stop hx] at h
      exact hx (he x List.mem_cons_self h)
    rw [show x = (x.1, x.2) from rfl, firstFail_cons hx] at h
    intro y hy
    rcases List.mem_cons.1 hy with rfl | hy
    · exact hx
    · exact ih (fun z hz => he z (List.mem_cons_of_mem _ hz)) h y hy

theorem ev0_no (env : MainEnv) (q : Request) : ¬ OpensOut (openInputEv env q.infile ++ [.gotPass]) := by
  rintro ⟨n, ok, h⟩
  rcases List.mem_append.1 h with h | h
  · exact openInputEv_no _ _ _ _ h
  · simp at h

theorem operate_dec {env : MainEnv} {q : Request} (hq : q.op = .dec) (inf : InFile) (pw : Bytes) :
    operate env q inf pw = decRun env q.params q.verbose q.force q.infile q.outfile inf pw (openInputEv env q.infile ++ [.gotPass]) := if_pos hq

theorem operate_enc {env : MainEnv} {q : Request} (hq : q.op = .enc) (inf : InFile) (pw : Bytes) :
    operate env q inf pw = encRun env q.params q.verbose q.force q.infile q.outfile inf pw (openInputEv env q.infile ++ [.gotPass]) :=
  if_neg (by rw [hq]; decide)

theorem session_run {env : MainEnv} {q : Request} (hq : q.op ≠ .info) {o : MainOut} (h : perform env q = .ok (some o)) {pw : Bytes} {inf : InFile}
    (hs : Session env q pw inf) : ∃ m, operate env q inf pw = .ok m ∧ o = toExit m := by
  rw [perform_session hq hs, Res.bind_eq_ok] at h
  obtain ⟨m, h1, h2⟩ := h
  cases h2
  exact ⟨m, h1, rfl⟩

/-- **C34.**  A decryption opens (creates, truncates) an output file or writes anything only if it has a passphrase and an input whose header, parameters and
passphrase are all right. -/
theorem C34_untouched (env : MainEnv) (g : env.sys.Good) (q : Request) (hq : q.op = .dec) (hl : LimitsOk env.sys q.params q.verbose q.force)
    (o : MainOut) (h : perform env q = .ok (some o)) (ht : OpensOut o.ev ∨ o.out ≠ []) :
    ∃ pw inf, Session env q pw inf ∧ ∀ x ∈ prepChecks env.sys pw q.params q.force inf.data inf.err, x.1 := by
  have hq' : q.op ≠ .info := by rw [hq]; decide
  by_cases hs : ∃ pw inf, Session env q pw inf
  case neg =>
    exfalso
    rcases perform_no_session hq' hs with h1 | ⟨o', h1, -, -, h2, h3, -⟩
    · rw [h] at h1; cases h1
    · rw [h] at h1
      cases h1
      exact ht.elim h3 (fun h => h h2)
  obtain ⟨pw, inf, hs⟩ := hs
  refine ⟨pw, inf, hs, ?_⟩
  obtain ⟨m, hm, rfl⟩ := session_run hq' h hs
  rw [operate_dec hq] at hm
  by_contra hc
  have hp : prepVerdict env.sys inf pw q.params q.verbose q.force ≠ .OK := by
    rw [prepVerdict_table g hl]
    exact fun h0 => hc (firstFail_ok_all (prepChecks_codes _ _ _ _ _ _) h0)
  obtain ⟨-, h2, h3, -⟩ := decRun_prep g (ev0_no env q) hm hp
  exact ht.elim h3 (fun h => h h2)

/-- **C34.**  If the header, the parameters or the passphrase are not right, the output file is not touched, nothing is written, the exit status is 1 and the
message for the first failing check is printed. -/
theorem C34_failed (env : MainEnv) (g : env.sys.Good) (q : Request) (hq : q.op = .dec) (hl : LimitsOk env.sys q.params q.verbose q.force)
    (o : MainOut) (h : perform env q = .ok (some o)) (pw : Bytes) (inf : InFile) (hs : Session env q pw inf)
    (hc : firstFail .OK (prepChecks env.sys pw q.params q.force inf.data inf.err) ≠ .OK) :
    o.exit = 1 ∧ ¬ OpensOut o.ev ∧ o.out = [] ∧ Reports o.msgs q (firstFail .OK (prepChecks env.sys pw q.params q.force inf.data inf.err)) := by
  obtain ⟨m, hm, rfl⟩ := session_run (by rw [hq]; decide) h hs
  rw [operate_dec hq] at hm
  rw [← prepVerdict_table (verbose := q.verbose) g hl] at hc ⊢
  obtain ⟨h1, h2, h3, h4⟩ := decRun_prep g (ev0_no env q) hm hc
  exact ⟨by show (if m.ok = true then 0 else 1) = 1; rw [h1]; rfl, h3, h2, h4⟩

/-- **C34.**  Without a passphrase or an input, nothing is touched either, for encryption as for decryption. -/
theorem C34_no_session (env : MainEnv) (q : Request) (hq : q.op ≠ .info) (o : MainOut) (h : perform env q = .ok (some o))
    (hs : ¬ ∃ pw inf, Session env q pw inf) : o.exit = 1 ∧ ¬ OpensOut o.ev ∧ o.out = [] ∧ o.msgs ≠ [] := by
  rcases perform_no_session hq hs with h1 | ⟨o', h1, h2, h3, h4, h5, -⟩
  · rw [h] at h1; cases h1
  · rw [h] at h1
    cases h1
    exact ⟨h2, h5, h4, h3⟩

/-! ### C35 -/

theorem exit_eq {m : ModeOut} : (toExit m).exit = 0 ↔ m.ok = true := by
  unfold toExit
  cases m.ok <;> simp

theorem exit_one {m : ModeOut} : (toExit m).exit = 0 ∨ (toExit m).exit = 1 := by
  unfold toExit
  cases m.ok <;> simp

/-- **C35**, decryption into an output (`outf`: a file that can be opened, or standard output).  The exit status is 0 exactly if every check passes and every
byte is accepted by the output.  Otherwise it is 1 and the message for the first failing check is printed.  With exit status 0 the output is the message of
which the input is the encryption; otherwise it is at most a beginning of what the input decrypts to. -/
theorem C35_dec (env : MainEnv) (g : env.sys.Good) (q : Request) (hq : q.op = .dec) (hl : LimitsOk env.sys q.params q.verbose q.force) (hsep : Separate env q)
    (o : MainOut) (h : perform env q = .ok (some o)) (pw : Bytes) (inf : InFile) (hs : Session env q pw inf) (hin : inf.data.length < 2 ^ 64)
    (outf : OutFile) (ho : openOutput env q.outfile = some outf) :
    let c := firstFail .OK (prepChecks env.sys pw q.params q.force inf.data inf.err ++ copyChecks env.sys pw inf.data inf.err outf)
    (o.exit = 0 ↔ c = .OK) ∧ (c ≠ .OK → o.exit = 1 ∧ Reports o.msgs q c) ∧
    (o.exit = 0 → o.out.length + 128 = inf.data.length ∧ inf.err = false ∧
      inf.data = container (scryptCode pw (hdrSalt inf.data) (2 ^ hdrLogN inf.data) (hdrR inf.data) (hdrP inf.data) 64)
        (hdrLogN inf.data) (hdrR inf.data) (hdrP inf.data) (hdrSalt inf.data) o.out) ∧
    (∃ n, o.out = (plaintext (scryptCode pw (hdrSalt inf.data) (2 ^ hdrLogN inf.data) (hdrR inf.data) (hdrP inf.data) 64) inf.data).take n) := by
  intro c
  obtain ⟨m, hm, rfl⟩ := session_run (by rw [hq]; decide) h hs
  rw [operate_dec hq] at hm
  obtain ⟨of, h1, h2, h3, -, -, h4⟩ := decRun_file g hsep ho hm
  have hc : of.rc = c := C08_file g hin hl h1
  have hw := openOutput_empty ho
  rw [exit_eq, h2, hc]
  refine ⟨Iff.rfl, fun hne => ⟨?_, ?_⟩, fun hok => ?_, ?_⟩
  · rcases exit_one (m := m) with h0 | h0
    · exact absurd (hc ▸ h2.1 (exit_eq.1 h0)) hne
    · exact h0
  · have := h4 (by rw [hc]; exact hne)
    rw [hc] at this
    exact this
  · obtain ⟨x, e1, e2, e3, e4, -⟩ := C05_file g hin h1 (by rw [hc]; exact hok)
    rw [hw, List.nil_append] at e1
    show m.out.length + 128 = _ ∧ _ ∧ _ = container _ _ _ _ _ m.out
    rw [h3, e1]
    exact ⟨e2, e3, e4⟩
  · obtain ⟨⟨n, hn⟩, -⟩ := C09_written g hin hl h1
    refine ⟨n, ?_⟩
    show m.out = _
    rw [h3, hn, hw, List.nil_append]

/-- **C35.**  If the output file cannot be opened, the exit status is 1, there is a message and nothing is written. -/
theorem C35_cannot_open (env : MainEnv) (g : env.sys.Good) (q : Request) (hq : q.op ≠ .info) (o : MainOut) (h : perform env q = .ok (some o))
    (ho : openOutput env q.outfile = none) : o.exit = 1 ∧ o.msgs ≠ [] ∧ o.out = [] := by
  by_cases hs : ∃ pw inf, Session env q pw inf
  case neg =>
    obtain ⟨h1, -, h2, h3⟩ := C34_no_session env q hq o h hs
    exact ⟨h1, h3, h2⟩
  obtain ⟨pw, inf, hs⟩ := hs
  obtain ⟨m, hm, rfl⟩ := session_run hq h hs
  have fin : m.ok = false → (toExit m).exit = 1 := fun h => by unfold toExit; rw [h]; rfl
  cases hop : q.op with
  | info => exact absurd hop hq
  | dec =>
    rw [operate_dec hop] at hm
    obtain ⟨h1, h2, h3, -⟩ := decRun_noout g ho hm
    exact ⟨fin h1, h3, h2⟩
  | enc =>
    rw [operate_enc hop] at hm
    unfold encRun at hm
    rw [ho] at hm
    cases hm
    exact ⟨rfl, by simp [toExit, encDecErr2], rfl⟩

/-- **C35**, encryption.  With exit status 0 the output is, in the documented format, the encryption of everything in the input, whose end was reached without
a read error.  Any other exit status is 1, with a message. -/
theorem C35_enc (env : MainEnv) (g : env.sys.Good) (q : Request) (hq : q.op = .enc) (hsep : Separate env q)
    (o : MainOut) (h : perform env q = .ok (some o)) (pw : Bytes) (inf : InFile) (hs : Session env q pw inf) (hin : inf.data.length < 2 ^ 64) :
    (o.exit = 0 → inf.err = false ∧ ∃ (salt : Bytes) (logN r p : Nat), env.sys.salt = some salt ∧ salt.length = 32 ∧ GoodParams logN r p ∧
      (q.logN ≠ 0 → q.r < 2 ^ 32 → q.p < 2 ^ 32 → logN = q.logN ∧ r = q.r ∧ p = q.p) ∧
      (∃ outf, openOutput env q.outfile = some outf ∧ Fits outf (inf.data.length + 128)) ∧
      o.out = container (scryptCode pw salt (2 ^ logN) r p 64) logN r p salt inf.data) ∧
    (o.exit = 0 ∨ (o.exit = 1 ∧ o.msgs ≠ [])) := by
  obtain ⟨m, hm, rfl⟩ := session_run (by rw [hq]; decide) h hs
  rw [operate_enc hq] at hm
  cases ho : openOutput env q.outfile with
  | none =>
    have := C35_cannot_open env g q (by rw [hq]; decide) _ h ho
    exact ⟨fun h0 => (by rw [this.1] at h0; cases h0), .inr ⟨this.1, this.2.1⟩⟩
  | some outf =>
    obtain ⟨of, h1, h2, h3, -, -, h4⟩ := encRun_file ho hm
    rw [truncated_sep hsep] at h1
    have hw := openOutput_empty ho
    constructor
    · intro h0
      have hok := h2.1 (exit_eq.1 h0)
      obtain ⟨salt, l, i1, i2, i3, i4, -, -, i5, i6, i7, i8⟩ := encFile_inv g hin h1 hok
      refine ⟨i5, salt, l, of.P.r.toNat, of.P.p.toNat, i1, i2, i4, fun hne hr hp => ?_, ⟨outf, rfl, i6⟩, ?_⟩
      · unfold setupParams at i7
        have hne' : q.params.logN ≠ 0 := by
          show (q.logN : Int) ≠ 0
          omega
        rw [if_pos hne'] at i7
        rw [Res.bind_eq_ok] at i7
        obtain ⟨⟨rc, t⟩, -, i7⟩ := i7
        have hP : q.params = of.P := (Prod.mk.inj (Prod.mk.inj (Res.ok.inj i7)).2).1
        rw [← hP] at i3 ⊢
        have i3 : (q.logN : Int) = l := i3
        exact ⟨by omega, by show (BitVec.ofNat 32 q.r).toNat = _; rw [BitVec.toNat_ofNat, Nat.mod_eq_of_lt hr],
          by show (BitVec.ofNat 32 q.p).toNat = _; rw [BitVec.toNat_ofNat, Nat.mod_eq_of_lt hp]⟩
      · show m.out = _
        rw [h3, i8, hw, List.nil_append]
    · rcases exit_one (m := m) with h0 | h0
      · exact .inl h0
      · refine .inr ⟨h0, ?_⟩
        have hne : of.rc ≠ .OK := fun h => by
          have := exit_eq.2 (h2.2 h)
          rw [this] at h0
          cases h0
        obtain ⟨d, hd, -⟩ := h4 hne
        exact List.ne_nil_of_mem hd

theorem cleanup_msgs {env : MainEnv} {i u : Option CStr} {ev : List MEv} {msgs : List MMsg} {ck op : Bool} {rc : Code} {out : Bytes} {m : ModeOut}
    (h : encDecCleanup env i u ev msgs ck op rc out = .ok m) : m.ok = true ∨ m.msgs ≠ [] := by
  obtain ⟨m', h1, h2, -, h4, -⟩ := cleanup_ok (env := env) (i := i) (u := u) (ev := ev) (msgs := msgs) (ck := ck) (op := op) (rc := rc) (out := out)
  rw [h] at h1
  cases h1
  by_cases hr : rc = .OK
  · exact .inl (h2.2 hr)
  · obtain ⟨d, hd, -⟩ := h4 hr
    exact .inr (List.ne_nil_of_mem hd)

theorem operate_msgs {env : MainEnv} {q : Request} {inf : InFile} {pw : Bytes} {m : ModeOut} (h : operate env q inf pw = .ok m) : m.ok = true ∨ m.msgs ≠ [] := by
  unfold operate at h
  split at h
  · unfold decRun at h
    rw [Res.bind_eq_ok] at h
    obtain ⟨p, -, h⟩ := h
    simp only at h
    split at h
    · exact cleanup_msgs h
    · split at h
      · cases h; exact .inr (by simp [encDecErr2])
      · split at h
        · cases h
        · rw [Res.bind_eq_ok] at h
          obtain ⟨oc, -, h⟩ := h
          exact cleanup_msgs h
  · unfold encRun at h
    split at h
    · cases h; exact .inr (by simp [encDecErr2])
    · rw [Res.bind_eq_ok] at h
      obtain ⟨oc, -, h⟩ := h
      exact cleanup_msgs h

theorem perform_exit {env : MainEnv} {q : Request} {o : MainOut} (h : perform env q = .ok (some o)) : o.exit = 0 ∨ (o.exit = 1 ∧ o.msgs ≠ []) := by
  have fin : ∀ m : ModeOut, (m.ok = true ∨ m.msgs ≠ []) → (toExit m).exit = 0 ∨ ((toExit m).exit = 1 ∧ (toExit m).msgs ≠ []) := by
    intro m hm
    rcases hm with h | h
    · exact .inl (exit_eq.2 h)
    · rcases exit_one (m := m) with h0 | h0
      · exact .inl h0
      · exact .inr ⟨h0, h⟩
  by_cases hq : q.op = .info
  · unfold perform at h
    rw [hq] at h
    simp only at h
    rw [finish_some] at h
    obtain ⟨m, h, rfl⟩ := h
    apply fin
    unfold scrypt_mode_info at h
    split at h
    · cases h; exact .inr (by simp)
    · split at h
      · cases h
      · rw [Res.bind_eq_ok] at h
        obtain ⟨m', h, h'⟩ := h
        cases h'
        unfold infoRun at h
        rw [Res.bind_eq_ok] at h
        obtain ⟨r, -, h⟩ := h
        simp only at h
        split at h
        · rw [Res.bind_eq_ok] at h
          obtain ⟨d, -, h⟩ := h
          cases h
          exact .inr (by simp)
        · cases h; exact .inl rfl
  · by_cases hs : ∃ pw inf, Session env q pw inf
    · obtain ⟨pw, inf, hs⟩ := hs
      obtain ⟨m, hm, rfl⟩ := session_run hq h hs
      exact fin m (operate_msgs hm)
    · obtain ⟨h1, -, -, h2⟩ := C34_no_session env q hq o h hs
      exact .inr ⟨h1, h2⟩

/-- **C35**, the whole program, every command line and environment: the exit status is 0, or it is 1 and there is a message. -/
theorem C35_exit (env : MainEnv) (hmal : env.mallocOk = true) (hsz : env.sys.par.szMax < 2 ^ 64) (a0 : CStr) (args : List CStr) (hz : NoNul args)
    (o : MainOut) (h : scryptMain env (a0 :: args) = .ok (some o)) : o.exit = 0 ∨ (o.exit = 1 ∧ o.msgs ≠ []) := by
  by_cases hq : ∃ q, Requests env.sd env.sys.par.szMax args q
  · obtain ⟨q, hq⟩ := hq
    rw [C33_accepted env hmal hsz a0 args hz q hq] at h
    exact perform_exit h
  · by_cases hv : args.head? = some "--version".toList
    · cases args with
      | nil => cases hv
      | cons a rest =>
        cases hv
        rw [C33_version] at h
        cases h
        exact .inl rfl
    · obtain ⟨m, hm, h1⟩ := C33_refused env hmal hsz a0 args hz hq hv
      rw [h] at h1
      cases h1
      exact .inr ⟨rfl, hm⟩

/-- **C35**, info: exit status 0 exactly if the input starts with a valid header, whose parameters are then shown; 1 and the message for the first failing check
otherwise.  No file is opened for writing, no passphrase is read. -/
theorem C35_info (env : MainEnv) (hd : env.sys.par.disp.asprintf1 = true ∧ env.sys.par.disp.asprintf2 = true) (hh : env.sys.header0.length = 96) (q : Request)
    (hq : q.op = .info) (o : MainOut) (h : perform env q = .ok (some o)) (inf : InFile) (hi : Input env q env.pe.rp.stdin inf) :
    let c := firstFail .OK (infoChecks inf.data inf.err)
    (o.exit = 0 ↔ c = .OK) ∧ (c ≠ .OK → o.exit = 1 ∧ Reports o.msgs { q with outfile := none } c) ∧ o.out = [] ∧ ¬ OpensOut o.ev ∧ passOf o.ev = [] ∧
    (c = .OK → ∃ d : Shown, MMsg.lib (.params (infoText (hdrLogN inf.data) (hdrR inf.data) (hdrP inf.data) d)) ∈ o.msgs ∧ d.Valid) := by
  intro c
  unfold perform at h
  rw [hq] at h
  simp only at h
  rw [finish_some] at h
  obtain ⟨m, h, rfl⟩ := h
  have hopen : ∃ f, openInput env q.infile = some f ∧ (f.orElse fun _ => stdinFile env env.pe.rp.stdin) = some inf := by
    cases hi with
    | file a b => refine ⟨some inf, ?_, rfl⟩; unfold openInput; rw [a]; simp only [b, Option.map_some]
    | stdin a b =>
      refine ⟨none, ?_, ?_⟩
      · unfold openInput; rw [a]
      · show stdinFile env env.pe.rp.stdin = _
        unfold stdinFile; rw [if_neg b]
  obtain ⟨f, e1, e2⟩ := hopen
  unfold scrypt_mode_info at h
  rw [e1] at h
  simp only [e2] at h
  rw [Res.bind_eq_ok] at h
  obtain ⟨m', h, h'⟩ := h
  cases h'
  obtain ⟨f', -, g1, g2⟩ := C44_info env.sys.par.disp hd.1 hd.2 env.sys.header0 hh inf
  unfold infoRun at h
  have noOpen : ¬ OpensOut (openInputEv env q.infile ++ (closeInput env q.infile).1) := by
    rintro ⟨n, ok, h⟩
    rcases List.mem_append.1 h with h | h
    · exact openInputEv_no _ _ _ _ h
    · exact closeInput_no _ _ _ _ h
  have noPass : passOf (openInputEv env q.infile ++ (closeInput env q.infile).1) = [] := by
    rw [passOf_append, (keys_openIn env q.infile).2, (keys_close env q.infile).2]; rfl
  by_cases hc : c = .OK
  case neg =>
    rw [g1 hc, Res.bind_ok] at h
    obtain ⟨d, hd, ht⟩ := C48_message c hc q.infile none
    simp only at h
    rw [if_pos hc, hd, Res.bind_ok] at h
    cases h
    exact ⟨⟨fun h => (by cases h), fun h => absurd h hc⟩, fun _ => ⟨rfl, d, by simp [toExit], ht⟩, rfl, noOpen, noPass, fun h => absurd h hc⟩
  by_cases hl : hdrLogN inf.data ≤ 63
  case neg =>
    rw [C44_F5_shift env.sys.par.disp env.sys.header0 hh inf hc (by omega)] at h
    cases h
  obtain ⟨d, hp, hv, -⟩ := g2 hc hl
  rw [hp, Res.bind_ok] at h
  simp only at h
  rw [if_neg (by simp)] at h
  cases h
  refine ⟨⟨fun _ => hc, fun _ => rfl⟩, fun h => absurd hc h, rfl, noOpen, noPass, fun _ => ⟨d, ?_, hv⟩⟩
  show _ ∈ List.map MMsg.lib (msgOf (infoText _ _ _ d)) ++ _
  rw [List.mem_append]
  left
  unfold msgOf
  rw [if_neg (show infoText (hdrLogN inf.data) (hdrR inf.data) (hdrP inf.data) d ≠ [] from fun h => by
    unfold infoText at h
    simp only [List.append_eq_nil_iff] at h
    exact absurd h.2 (by decide))]
  simp

/-- **C35.**  No run of an encryption or decryption is undefined or aborts, provided the limits are sensible numbers, a decryption is not given explicit
parameters (finding F1).  This includes the case of an output file that is the input file. -/
theorem C35_total (env : MainEnv) (g : env.sys.Good) (ready : SelfTestReady env.sys) (q : Request) (hq : q.op ≠ .info) (hsep : NeverLonger env q)
    (hlen : ∀ pw inf, Session env q pw inf → inf.data.length < 2 ^ 64)
    (hd : q.op = .dec → (q.logN = 0 ∧ q.params.r = 0 ∧ q.params.p = 0) ∧ LimitsOk env.sys q.params q.verbose q.force)
    (he : q.op = .enc → (q.params.zero || q.params.nonzero) = true ∧ EncLimitsOk env.sys q.params q.verbose q.force) :
    ∃ r, perform env q = .ok r := by
  by_cases hs : ∃ pw inf, Session env q pw inf
  case neg =>
    rcases perform_no_session hq hs with h | ⟨o, h, -⟩
    · exact ⟨_, h⟩
    · exact ⟨_, h⟩
  obtain ⟨pw, inf, hs⟩ := hs
  have hin := hlen _ _ hs
  have main : ∃ m, operate env q inf pw = .ok m := by
    cases hop : q.op with
    | info => exact absurd hop hq
    | dec =>
      rw [operate_dec hop]
      obtain ⟨⟨z1, z2, z3⟩, hl⟩ := hd hop
      have hz : q.params.zero = true := by
        unfold EncParams.zero
        rw [z2, z3, show q.params.logN = 0 from by show (q.logN : Int) = 0; omega]
        rfl
      obtain ⟨p, hp⟩ := decPrep_total (passwd := pw) g ready (inf := inf) hz (fun _ => checkDefined g hl _)
      unfold decRun
      rw [hp, Res.bind_ok]
      simp only []
      by_cases h0 : p.rc = .OK
      case neg =>
        rw [if_pos h0]
        obtain ⟨m, hm, -⟩ := cleanup_ok (env := env) (i := q.infile) (u := q.outfile) (ev := openInputEv env q.infile ++ [.gotPass] ++ p.tr.map .key)
          (msgs := p.err.map .lib) (ck := false) (op := false) (rc := p.rc) (out := [])
        exact ⟨m, hm⟩
      rw [if_neg (not_not.2 h0)]
      cases ho : openOutput env q.outfile with
      | none => exact ⟨_, rfl⟩
      | some outf =>
        obtain ⟨c, hc, -⟩ := (decPrep_spec g hp).2.1 h0
        simp only [hc]
        obtain ⟨oc, hoc⟩ := C51_copy g g hin hp hc outf (truncated env q.outfile c.inf) (truncated_short hsep _)
        rw [hoc, Res.bind_ok]
        obtain ⟨m, hm, -⟩ := cleanup_ok (env := env) (i := q.infile) (u := q.outfile)
          (ev := openInputEv env q.infile ++ [.gotPass] ++ p.tr.map .key ++ openOutputEv env q.outfile ++ oc.tr.map .key)
          (msgs := p.err.map .lib) (ck := true) (op := q.outfile.isSome) (rc := oc.rc) (out := oc.outf.written)
        exact ⟨m, hm⟩
    | enc =>
      rw [operate_enc hop]
      obtain ⟨hz, hl⟩ := he hop
      unfold encRun
      cases ho : openOutput env q.outfile with
      | none => exact ⟨_, rfl⟩
      | some outf =>
        simp only []
        obtain ⟨oc, hoc⟩ := encFile_total (passwd := pw) g ready (inf := truncated env q.outfile inf) (outf := outf)
          (Nat.lt_of_le_of_lt (truncated_short hsep inf) hin) hz hl
        rw [hoc, Res.bind_ok]
        obtain ⟨m, hm, -⟩ := cleanup_ok (env := env) (i := q.infile) (u := q.outfile)
          (ev := openInputEv env q.infile ++ [.gotPass] ++ openOutputEv env q.outfile ++ oc.tr.map .key)
          (msgs := oc.err.map .lib) (ck := false) (op := q.outfile.isSome) (rc := oc.rc) (out := oc.outf.written)
        exact ⟨m, hm⟩
  obtain ⟨m, hm⟩ := main
  exact ⟨_, by rw [perform_session hq hs, hm, Res.bind_ok]⟩

end Scrypt.Props
