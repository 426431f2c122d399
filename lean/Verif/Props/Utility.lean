import Verif.Model.Utility
import Verif.Props.NoCrash
import Verif.Props.ProcessForced
import Verif.Props.Salts
/-
C59: the utility from end to end.  Two processes, each started with a command line on a machine; nothing is assumed about what the library's components
answer, only about the operating system.
-/
namespace Scrypt.Props
open Scrypt Spec F64

/-- What is assumed about a process and its machine: the C library and libcrypto behave as documented, allocations have the requested size, strings are C strings. -/
structure Normal (m : Machine) (e : CallEnv) (env : MainEnv) (argv : List CStr) : Prop where
  machine : m.Good
  call : e.Good
  malloc : env.mallocOk = true
  strtod : ∀ s, (env.sd s).1.Valid
  disp : e.disp.asprintf1 = true ∧ e.disp.asprintf2 = true
  argv : NoNul argv

theorem withAnswers_full {α : Type} {m : Machine} (gm : m.Good) {e : CallEnv} (ge : e.Good) {st : Statics} (hi : StInv m st) {f : EncSys → Res α} {rc : α → Code}
    {smix : α → Option SmixImpl} {o : α} {st' : Statics} (h : withAnswers m e st f rc smix = .ok (some (o, st'))) :
    ∃ sys, Answered m e sys ∧ f sys = .ok o ∧ SaltDrawn m e st sys.salt st' ∧ (sys.aes = e.aes ∨ rc o ≠ .EOPENSSL) := by
  unfold withAnswers at h
  obtain ⟨r, h1, h⟩ := Res.bind_eq_ok.1 h
  cases r with
  | none => cases h
  | some x =>
    simp only [] at h
    obtain ⟨o', h2, h⟩ := Res.bind_eq_ok.1 h
    obtain ⟨rfl, rfl⟩ := Prod.mk.inj (Option.some.inj (Res.ok.inj h))
    obtain ⟨a, -, c⟩ := answers_answered gm ge hi h1
    refine ⟨x.1, a, h2, c, (answers_aes h1).imp id ?_⟩
    intro h3
    rw [h2, Res.bind_ok] at h3
    simpa [reports] using h3

/-- A finished run of the process is a run of `main` with answers that agree with the machine. -/
theorem utility_run {m : Machine} {e : CallEnv} {seeds : List SeedEnv} {env : MainEnv} {argv : List CStr} (gm : m.Good) (ge : e.Good) {o : MainOut}
    (h : utility m e seeds env argv = .ok (some o)) :
    ∃ sys st', Answered m e sys ∧ scryptMain { env with sys := sys } argv = .ok (some o) ∧ SaltDrawn m e (Statics.initial seeds) sys.salt st' ∧
      (sys.aes = e.aes ∨ codeOf (some o) ≠ .EOPENSSL) := by
  unfold utility at h
  obtain ⟨r, h1, h⟩ := Res.bind_eq_ok.1 h
  cases r with
  | none => cases h
  | some x =>
    obtain ⟨x, st'⟩ := x
    have h := Res.ok.inj h
    simp only [Option.bind_some] at h
    subst h
    obtain ⟨sys, a1, a2, a3, a4⟩ := withAnswers_full gm ge (StInv.initial m seeds) h1
    exact ⟨sys, st', a1, a2, a3, a4⟩

/-- **C59.**  Whatever the command line, the files, standard input and the terminal contain, on every machine: the utility ends with an exit status or keeps
waiting (for input, for the clock, for entropy); the exceptions are those of C52. -/
theorem C59_no_crash {m : Machine} {e : CallEnv} {env : MainEnv} {argv : List CStr} (n : Normal m e env argv) (re : e.Ready) {seeds : List SeedEnv}
    (hs : FairSeq false seeds) (ho : ∀ q, Requests env.sd m.szMax argv.tail q → Ordinary env q) : ∃ r, utility m e seeds env argv = .ok r := by
  have hf : SeedsFair (Statics.initial seeds) := by
    intro s h
    cases s with
    | none => exact hs
    | some s => exact absurd h.1 (by simp [Statics.initial, Drbg.initial])
  obtain ⟨x, hx, -⟩ := withAnswers_returns n.machine n.call re (StInv.initial m seeds) hf (f := fun sys => scryptMain { env with sys := sys } argv) (rc := codeOf)
    (smix := fun _ => none) (by
      intro sys a
      refine C52_no_crash { env with sys := sys } ⟨a.good, a.ready re, n.malloc, ?_, n.strtod, fun hp => a.rate n.machine re hp⟩ argv n.argv ?_
      · show sys.par.disp.asprintf1 = true ∧ sys.par.disp.asprintf2 = true
        rw [a.disp]; exact n.disp
      · intro q hq
        have := ho q (by have := hq; simp only [] at this; rwa [a.szMax] at this)
        exact ⟨this.frac, this.time, this.dec, fun h1 inf h2 => this.info h1 inf (by cases h2 with | file a b => exact .file a b | stdin a b => exact .stdin a b),
          this.cut, fun pw inf h => this.len pw inf (by
            obtain ⟨pe, h1, h2, h3⟩ := h
            exact ⟨pe, h1, h2, by cases h3 with | file a b => exact .file a b | stdin a b => exact .stdin a b⟩)⟩)
  unfold utility
  rw [hx, Res.bind_ok]
  exact ⟨_, rfl⟩

theorem Session.with_sys {env : MainEnv} {q : Spec.Request} {pw : Bytes} {inf : InFile} (h : Session env q pw inf) (sys : EncSys) :
    Session { env with sys := sys } q pw inf := by
  obtain ⟨pe, h1, h2, h3⟩ := h
  exact ⟨pe, h1, h2, by cases h3 with | file a b => exact .file a b | stdin a b => exact .stdin a b⟩

/-- The run performs the request. -/
theorem utility_performs {m : Machine} {e : CallEnv} {seeds : List SeedEnv} {env : MainEnv} {a0 : CStr} {args : List CStr} (n : Normal m e env (a0 :: args))
    {q : Spec.Request} (hq : Requests env.sd m.szMax args q) {o : MainOut} (h : utility m e seeds env (a0 :: args) = .ok (some o)) :
    ∃ sys st', Answered m e sys ∧ perform { env with sys := sys } q = .ok (some o) ∧ SaltDrawn m e (Statics.initial seeds) sys.salt st' ∧
      (sys.aes = e.aes ∨ codeOf (some o) ≠ .EOPENSSL) := by
  obtain ⟨sys, st', a1, a2, a3, a4⟩ := utility_run n.machine n.call h
  refine ⟨sys, st', a1, ?_, a3, a4⟩
  have hsz : sys.par.szMax < 2 ^ 64 := by rw [a1.szMax]; rcases n.machine.sz with h | h <;> omega
  rw [← C33_accepted { env with sys := sys } n.malloc hsz a0 args (fun a h => n.argv a (List.mem_cons_of_mem _ h)) q (by
    show Requests env.sd sys.par.szMax args q
    rw [a1.szMax]; exact hq)]
  exact a2

/-- The process that encrypted. -/
structure Encrypted (m : Machine) (e : CallEnv) (seeds : List SeedEnv) (env : MainEnv) (a0 : CStr) (args : List CStr) (q : Spec.Request) (pw msg D : Bytes) : Prop where
  normal : Normal m e env (a0 :: args)
  request : Requests env.sd m.szMax args q
  op : q.op = .enc
  sep : Separate env q
  len : msg.length + 128 < 2 ^ 64
  run : ∃ inf o, Session env q pw inf ∧ inf.data = msg ∧ utility m e seeds env (a0 :: args) = .ok (some o) ∧ o.exit = 0 ∧ o.out = D

/-- It has written a container. -/
theorem Encrypted.container {m : Machine} {e : CallEnv} {seeds : List SeedEnv} {env : MainEnv} {a0 : CStr} {args : List CStr} {q : Spec.Request} {pw msg D : Bytes}
    (h : Encrypted m e seeds env a0 args q pw msg D) :
    ∃ (sys : EncSys) (st' : Statics) (salt : Bytes) (l r p : Nat), Answered m e sys ∧ SaltDrawn m e (Statics.initial seeds) sys.salt st' ∧ sys.salt = some salt ∧
      salt.length = 32 ∧ GoodParams l r p ∧ r < 2 ^ 32 ∧ p < 2 ^ 32 ∧
      D = Spec.container (scryptCode pw salt (2 ^ l) r p 64) l r p salt msg ∧ KdfOk sys (2 ^ l) r p := by
  obtain ⟨inf, o, hs, rfl, hr, h0, rfl⟩ := h.run
  obtain ⟨sys, st', a1, a2, a3, -⟩ := utility_performs h.normal h.request hr
  obtain ⟨mo, hm, rfl⟩ := session_run (by rw [h.op]; decide) a2 (hs.with_sys sys)
  rw [operate_enc h.op] at hm
  cases hoe : openOutput env q.outfile with
  | none =>
    have := C35_cannot_open { env with sys := sys } a1.good q (by rw [h.op]; decide) _ a2 hoe
    rw [this.1] at h0
    cases h0
  | some outf =>
    obtain ⟨of, h1, h2, h3, -⟩ := encRun_file (env := { env with sys := sys }) hoe hm
    rw [truncated_sep (env := { env with sys := sys }) h.sep] at h1
    have hok := h2.1 (exit_eq.1 h0)
    obtain ⟨salt, l, i1, i2, i3, i4, i5, -, -, -, -, i8⟩ := encFile_inv a1.good (by have := h.len; omega) h1 hok
    have hout : (toExit mo).out = of.outf.written := h3
    rw [openOutput_empty (env := { env with sys := sys }) hoe, List.nil_append] at i8
    exact ⟨sys, st', salt, l, of.P.r.toNat, of.P.p.toNat, a1, a3, i1, i2, i4, of.P.r.isLt, of.P.p.isLt, by rw [hout, i8], i5⟩

/-- The process that decrypts `D`: how it ends. -/
structure Decrypted (m : Machine) (e : CallEnv) (seeds : List SeedEnv) (env : MainEnv) (a0 : CStr) (args : List CStr) (q : Spec.Request) (pw D : Bytes) (inf : InFile)
    (o : MainOut) : Prop where
  normal : Normal m e env (a0 :: args)
  request : Requests env.sd m.szMax args q
  op : q.op = .dec
  frac : q.force = false → q.maxmemfrac ≠ nan
  sep : Separate env q
  session : Session env q pw inf
  input : inf.data = D
  run : utility m e seeds env (a0 :: args) = .ok (some o)

theorem Decrypted.limits {m : Machine} {e : CallEnv} {seeds : List SeedEnv} {env : MainEnv} {a0 : CStr} {args : List CStr} {q : Spec.Request} {pw D : Bytes} {inf : InFile}
    {o : MainOut} (h : Decrypted m e seeds env a0 args q pw D inf o) {sys : EncSys} (a : Answered m e sys) : LimitsOk sys q.params q.verbose q.force := by
  obtain ⟨_, evs, ops, -, -, ha⟩ := h.request
  refine a.limits ⟨fun hf => asks_frac h.normal.strtod ha (h.frac hf), fun _ => h.normal.disp⟩

/-- **C59.**  `scrypt enc`, with any options, ended with exit status 0; `scrypt dec`, with any options, on any machine, is run on what was written, with the same
passphrase.  Then it exits with 0 and its output is the original data; or it exits with 1 and a message saying which resource was missing, and its output is
a beginning of the data. -/
theorem C59_roundtrip {mA mB : Machine} {eA eB : CallEnv} {seedsA seedsB : List SeedEnv} {envA envB : MainEnv} {a0 b0 : CStr} {argsA argsB : List CStr}
    {qA qB : Spec.Request} {pw msg D : Bytes} {infB : InFile} {o : MainOut} (hA : Encrypted mA eA seedsA envA a0 argsA qA pw msg D)
    (hB : Decrypted mB eB seedsB envB b0 argsB qB pw D infB o) :
    (o.exit = 0 ∧ o.out = msg) ∨
    (o.exit = 1 ∧ (∃ n, o.out = msg.take n) ∧
      ((∃ c, ResourceCode c ∧ Reports o.msgs qB c) ∨ (openOutput envB qB.outfile = none ∧ o.msgs ≠ []) ∨
        (Reports o.msgs qB .EWRFILE ∧ ∀ outf, openOutput envB qB.outfile = some outf → ¬ Fits outf msg.length) ∨
        (Reports o.msgs qB .ERDFILE ∧ infB.err = true))) := by
  obtain ⟨sA, -, salt, l, r, p, -, -, -, h32, hg, hr, hp, hD, -⟩ := hA.container
  have hC := container_fields (scryptCode pw salt (2 ^ l) r p 64) l r p salt msg h32 (by have := hg.2.1; omega) hr hp
  rw [← hD, ← hB.input] at hC
  have hlen := hC.len
  obtain ⟨sys, st', a1, a2, -, -⟩ := utility_performs hB.normal hB.request hB.run
  have hne : qB.op ≠ .info := by rw [hB.op]; decide
  cases hoe : openOutput envB qB.outfile with
  | none =>
    obtain ⟨h1, h2, h3⟩ := C35_cannot_open { envB with sys := sys } a1.good qB hne _ a2 hoe
    exact .inr ⟨h1, ⟨0, by rw [h3, List.take_zero]⟩, .inr (.inl ⟨rfl, h2⟩)⟩
  | some outf =>
    obtain ⟨mo, hm, rfl⟩ := session_run hne a2 (hB.session.with_sys sys)
    rw [operate_dec hB.op] at hm
    obtain ⟨of, h1, h2, h3, -, -, h4⟩ := decRun_file (env := { envB with sys := sys }) a1.good hB.sep hoe hm
    have hw : outf.written = [] := openOutput_empty (env := { envB with sys := sys }) hoe
    have hout : (toExit mo).out = of.outf.written := h3
    have rep : ∀ c, of.rc = c → c ≠ .OK → Reports (toExit mo).msgs qB c := by
      intro c hc hn
      have := h4 (by rw [hc]; exact hn)
      rwa [hc] at this
    have one : of.rc ≠ .OK → (toExit mo).exit = 1 := fun hn => by
      rcases exit_one (m := mo) with h0 | h0
      · exact absurd (h2.1 (exit_eq.1 h0)) hn
      · exact h0
    rcases decFile_container a1.good hC hg (hB.limits a1) (by have := hA.len; omega) h1 with ⟨c1, c2⟩ | ⟨c1, n, c2⟩
    · exact .inl ⟨exit_eq.2 (h2.2 c1), by rw [hout, c2, hw, List.nil_append]⟩
    · rw [hw, List.nil_append] at c2
      refine .inr ?_
      rcases c1 with c1 | ⟨c1, c3⟩ | ⟨c1, c3⟩
      · have hn : of.rc ≠ .OK := by intro h0; rw [h0] at c1; unfold ResourceCode at c1; simp at c1
        exact ⟨one hn, ⟨n, hout.trans c2⟩, .inl ⟨_, c1, rep _ rfl hn⟩⟩
      · exact ⟨one (by rw [c1]; simp), ⟨n, hout.trans c2⟩, .inr (.inr (.inl ⟨rep _ c1 (by simp), fun f hf => by
          cases hf; exact c3⟩))⟩
      · exact ⟨one (by rw [c1]; simp), ⟨n, hout.trans c2⟩, .inr (.inr (.inr ⟨rep _ c1 (by simp), c3⟩))⟩

/-- **C59.**  The salt in what was written is output of the HMAC_DRBG of SP 800-90A, seeded by entropy that the operating system delivered to this process. -/
theorem C59_salt {m : Machine} {e : CallEnv} {seeds : List SeedEnv} {env : MainEnv} {a0 : CStr} {args : List CStr} {q : Spec.Request} {pw msg D : Bytes}
    (h : Encrypted m e seeds env a0 args q pw msg D) :
    ∃ (used rest : List SeedEnv) (ops : List Spec.Drbg.Op), seeds = used ++ rest ∧ Seedings m.rdrand false used ops ∧ Spec.Drbg.Legal none ops ∧
      (Spec.Drbg.run none ops).2 = field D 16 32 := by
  obtain ⟨sys, st', salt, l, r, p, -, hdr, hs, h32, hg, hr, hp, hD, -⟩ := h.container
  have hC := container_fields (scryptCode pw salt (2 ^ l) r p 64) l r p salt msg h32 (by have := hg.2.1; omega) hr hp
  rw [← hD] at hC
  have hf : field D 16 32 = salt := hC.salt
  rw [hf]
  rcases hdr with ⟨-, -, e3⟩ | ⟨o, e1, e2, -, -⟩
  · rw [hs] at e3; cases e3
  · rw [hs] at e2
    split at e2
    · rename_i hok
      have e1' : crypto_entropy_read m.drbgSys seeds Scrypt.Drbg.initial e.salt0 e.salt0.length = .ok (some o) := by rw [h.normal.call.salt0]; exact e1
      obtain ⟨used, ops, ws, a1, a2, a3, a4, a5, a6, a7⟩ := C39_history (drbgSys_good h.normal.machine) (requests_one e1')
      refine ⟨used, o.rest, ops, a1, a2, a3, ?_⟩
      have := okBufs_sublist [o] [e.salt0] ws a5 a6 a7
      cases ws with
      | nil => cases a6
      | cons w ws =>
        have hw : ws = [] := by cases ws with | nil => rfl | cons _ _ => simp at a6
        subst hw
        obtain ⟨s1, s2⟩ := a7 0 e.salt0 w o rfl rfl rfl
        rw [a4, Option.some.inj e2, s1]
        have := s2.1 hok
        simp
        omega
    · cases e2

/-- Whatever memory is asked for can be allocated, libcrypto works, the input can be read and the output holds `n` bytes. -/
structure PlentyU (e : CallEnv) (env : MainEnv) (q : Spec.Request) (inf : InFile) (n : Nat) : Prop where
  kdf : ∀ k, e.kdf.allocB k ≠ none ∧ e.kdf.allocXY k ≠ none ∧ e.kdf.allocV k ≠ none
  munmap : e.kdf.munmapOk = true
  aes : e.aes.mem ≠ none ∧ e.aes.osslOk = true
  ctr : e.ctr ≠ none
  cookie : e.cookieOk = true
  input : inf.err = false
  output : ∃ outf, openOutput env q.outfile = some outf ∧ Fits outf n

/-- The code of the forced decryption of what was written: success, unless AES is missing. -/
theorem forced_code {mA mB : Machine} {eA eB : CallEnv} {seedsA : List SeedEnv} {envA envB : MainEnv} {a0 : CStr} {argsA : List CStr}
    {qA qB : Spec.Request} {pw msg D : Bytes} {infB : InFile} (hsz : mA.szMax ≤ mB.szMax) (hA : Encrypted mA eA seedsA envA a0 argsA qA pw msg D) (hin : infB.data = D)
    (hforce : qB.force = true) (hp : PlentyU eB envB qB infB msg.length) {sys : EncSys} (a1 : Answered mB eB sys) (hl : LimitsOk sys qB.params qB.verbose qB.force)
    {outf : OutFile} (hfit : Fits outf msg.length) {of : FileOut} (h1 : scryptdec_file sys infB outf pw qB.params qB.verbose qB.force = .ok of) :
    (of.rc = .OK ∧ of.outf.written = outf.written ++ msg) ∨ (of.rc = .EOPENSSL ∧ ¬ aesAvail sys = true) := by
  obtain ⟨sA, -, salt, l, r, p, aA, -, -, h32, hg, hr, hpp, hD, hk⟩ := hA.container
  have hC := container_fields (scryptCode pw salt (2 ^ l) r p 64) l r p salt msg h32 (by have := hg.2.1; omega) hr hpp
  rw [← hD, ← hin] at hC
  have hlen := hC.len
  have kdf : KdfOk sys (2 ^ l) r p := by
    obtain ⟨⟨q1, q2, q3, q4, q5, q6, q7, q8⟩, -⟩ := hk
    rw [aA.szMax] at q6 q7 q8
    unfold KdfOk
    rw [a1.szMax, a1.kdf]
    exact ⟨⟨q1, q2, q3, q4, q5, by omega, by omega, le_trans q8 hsz⟩, (hp.kdf _).1, (hp.kdf _).2.1, (hp.kdf _).2.2, hp.munmap⟩
  have hlim : LimitsPass sys qB.params qB.force (2 ^ l) r p := .inl hforce
  have hU := container_unlocked a1.good hC hg hl hlim kdf
  have hin : infB.data.length < 2 ^ 64 := by have := hA.len; omega
  obtain ⟨s1, s2, -⟩ := decFile_spec a1.good hin h1
  have hpv : prepVerdict sys infB pw qB.params qB.verbose qB.force = .OK :=
    prepVerdict_ok.2 ⟨by rw [a1.cookieOk]; exact hp.cookie, ⟨by omega, hU.2.magic, hU.2.version, hU.2.sum, hU.2.params, hU.2.kdf, hU.2.pass⟩⟩
  rw [hpv, if_neg (by simp)] at s1
  unfold copyVerdict at s1
  by_cases hav : aesAvail sys = true
  · have ha : aesCode sys = .OK := aesCode_avail hav (by rw [a1.ctr]; exact hp.ctr)
    rw [if_neg (not_not.2 ha), hlen, Nat.add_sub_cancel, if_neg (not_not.2 hfit), if_neg (by simp [hp.input]), if_neg (by omega),
      if_neg (not_not.2 (by rw [hU.1]; exact hC.tag))] at s1
    refine .inl ⟨s1, ?_⟩
    rcases decFile_container a1.good hC hg hl hin h1 with ⟨c1, c2⟩ | ⟨c1, n, c2⟩
    · exact c2
    · rw [s1] at c1
      exact absurd c1 (by simp [ResourceCode])
  · have he : aesCode sys = .EOPENSSL := by unfold aesCode; simp [hav]
    rw [he, if_pos (by simp)] at s1
    exact .inr ⟨s1, hav⟩

/-- **C59.**  With -f and enough memory and space, the decryption exits with 0 and gives the original data, whatever the clock does. -/
theorem C59_forced {mA mB : Machine} {eA eB : CallEnv} {seedsA seedsB : List SeedEnv} {envA envB : MainEnv} {a0 b0 : CStr} {argsA argsB : List CStr}
    {qA qB : Spec.Request} {pw msg D : Bytes} {infB : InFile} {o : MainOut} (hsz : mA.szMax ≤ mB.szMax) (hA : Encrypted mA eA seedsA envA a0 argsA qA pw msg D)
    (hB : Decrypted mB eB seedsB envB b0 argsB qB pw D infB o) (hforce : qB.force = true) (hp : PlentyU eB envB qB infB msg.length) :
    o.exit = 0 ∧ o.out = msg := by
  obtain ⟨sys, st', a1, a2, -, a4⟩ := utility_performs hB.normal hB.request hB.run
  have hne : qB.op ≠ .info := by rw [hB.op]; decide
  obtain ⟨outf, hoe, hfit⟩ := hp.output
  obtain ⟨mo, hm, rfl⟩ := session_run hne a2 (hB.session.with_sys sys)
  rw [operate_dec hB.op] at hm
  obtain ⟨of, h1, h2, h3, -, -, h4⟩ := decRun_file (env := { envB with sys := sys }) a1.good hB.sep hoe hm
  have hw : outf.written = [] := openOutput_empty (env := { envB with sys := sys }) hoe
  have hout : (toExit mo).out = of.outf.written := h3
  rcases forced_code hsz hA hB.input hforce hp a1 (hB.limits a1) hfit h1 with ⟨c1, c2⟩ | ⟨c1, c2⟩
  · exact ⟨exit_eq.2 (h2.2 c1), by rw [hout, c2, hw, List.nil_append]⟩
  · exfalso
    rcases a4 with a4 | a4
    · refine c2 ?_
      unfold aesAvail
      rw [a4]
      obtain ⟨q1, q2⟩ := hp.aes
      cases hx : eB.aes.mem with
      | none => exact absurd hx q1
      | some _ => cases sys.aesHw <;> simp [q2]
    · obtain ⟨d, d1, d2⟩ := h4 (by rw [c1]; simp)
      rw [c1] at d2
      refine a4 ?_
      unfold codeOf
      simp only []
      refine if_pos ?_
      unfold saysText
      rw [List.any_eq_true]
      refine ⟨_, d1, ?_⟩
      cases d <;> exact decide_eq_true d2

/-- **C59.**  `scrypt dec` on any file at all: exit status 0, or 1 and a message; 0 only if the file is a complete container made with this passphrase, and then
the output is what it contains; and no output file is opened and nothing is written unless the header is intact and authenticated by the passphrase. -/
theorem C59_authentic {m : Machine} {e : CallEnv} {seeds : List SeedEnv} {env : MainEnv} {a0 : CStr} {args : List CStr} {q : Spec.Request} {pw D : Bytes} {inf : InFile}
    {o : MainOut} (h : Decrypted m e seeds env a0 args q pw D inf o) (hlen : D.length < 2 ^ 64) :
    (o.exit = 0 ∨ (o.exit = 1 ∧ o.msgs ≠ [])) ∧
    (o.exit = 0 → inf.err = false ∧ GoodParams (hdrLogN D) (hdrR D) (hdrP D) ∧
      D = container (scryptCode pw (hdrSalt D) (2 ^ hdrLogN D) (hdrR D) (hdrP D) 64) (hdrLogN D) (hdrR D) (hdrP D) (hdrSalt D) o.out) ∧
    (OpensOut o.ev ∨ o.out ≠ [] → 96 ≤ D.length ∧ HasMagic D ∧ VersionOk D ∧ ChecksumOk D ∧ GoodParams (hdrLogN D) (hdrR D) (hdrP D) ∧
      PasswordOk (scryptCode pw (hdrSalt D) (2 ^ hdrLogN D) (hdrR D) (hdrP D) 64) D) := by
  obtain ⟨sys, st', a1, a2, -, -⟩ := utility_performs h.normal h.request h.run
  have hne : q.op ≠ .info := by rw [h.op]; decide
  have hs := h.session.with_sys sys
  have hsep : Separate { env with sys := sys } q := h.sep
  have hl := h.limits a1
  have hin : inf.data.length < 2 ^ 64 := by rw [h.input]; exact hlen
  have untouched : OpensOut o.ev ∨ o.out ≠ [] → 96 ≤ D.length ∧ HasMagic D ∧ VersionOk D ∧ ChecksumOk D ∧ GoodParams (hdrLogN D) (hdrR D) (hdrP D) ∧
      PasswordOk (scryptCode pw (hdrSalt D) (2 ^ hdrLogN D) (hdrR D) (hdrP D) 64) D := by
    intro ht
    obtain ⟨pw', inf', hs', hc⟩ := C34_untouched { env with sys := sys } a1.good q h.op hl o a2 ht
    obtain ⟨e1, e2⟩ := hs'.unique hs
    subst e1; subst e2
    rw [h.input] at hc
    unfold prepChecks at hc
    refine ⟨hc (_, _) (List.mem_append_left _ (List.mem_append_left _ (.tail _ (.tail _ (.tail _ (.tail _ (.head _))))))),
      hc (_, _) (List.mem_append_left _ (List.mem_append_left _ (.tail _ (.tail _ (.head _))))),
      hc (_, _) (List.mem_append_left _ (List.mem_append_left _ (.tail _ (.tail _ (.tail _ (.head _)))))),
      hc (_, _) (List.mem_append_left _ (List.mem_append_left _ (.tail _ (.tail _ (.tail _ (.tail _ (.tail _ (.head _)))))))),
      hc (_, _) (List.mem_append_left _ (List.mem_append_left _ (.tail _ (.tail _ (.tail _ (.tail _ (.tail _ (.tail _ (.head _))))))))),
      hc (_, _) (List.mem_append_right _ (.tail _ (.head _)))⟩
  refine ⟨perform_exit a2, fun h0 => ?_, untouched⟩
  cases hoe : openOutput env q.outfile with
  | none =>
    have := (C35_cannot_open { env with sys := sys } a1.good q hne _ a2 hoe).1
    rw [h0] at this
    cases this
  | some outf =>
    obtain ⟨c1, -, c2, -⟩ := C35_dec { env with sys := sys } a1.good q h.op hl hsep o a2 pw inf hs hin outf hoe
    obtain ⟨-, c3, c4⟩ := c2 h0
    rw [h.input] at c4
    refine ⟨c3, ?_, c4⟩
    have hok : firstFail .OK (prepChecks sys pw q.params q.force inf.data inf.err) = .OK := by
      by_contra hc
      have := (C34_failed { env with sys := sys } a1.good q h.op hl o a2 pw inf hs hc).1
      rw [h0] at this
      cases this
    have := firstFail_ok_all (prepChecks_codes _ _ _ _ _ _) hok (_, _)
      (List.mem_append_left _ (List.mem_append_left _ (.tail _ (.tail _ (.tail _ (.tail _ (.tail _ (.tail _ (.head _)))))))))
    rwa [h.input] at this

end Scrypt.Props
