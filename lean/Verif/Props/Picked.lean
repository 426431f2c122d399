import Verif.Props.EncAuth
import Verif.Props.Params
import Verif.Props.EncMisc
import Verif.Props.EncEx
/-
C11, C12 through the interface: what an encryption without explicit parameters puts into the header.
-/
namespace Scrypt.Props
open Scrypt Spec F64

/-- The parameters are within the limits and maximal for them: `logN`, `r`, `p` for a memory limit, a speed and a time. -/
def PickedFor (memlimit : Nat) (opps maxtime : F64) (logN r p : Nat) : Prop :=
  r = 8 ∧ GoodParams logN 8 p ∧ memNeed (2 ^ logN) 8 ≤ memlimit ∧ WithinBudget opps maxtime (cpuNeed (2 ^ logN) 8 p) ∧
  ((p = 1 ∧ ¬ WithinBudget opps maxtime (cpuNeed (2 * 2 ^ logN) 8 p)) ∨
   (memlimit < memNeed (2 * 2 ^ logN) 8 ∧ (2 ^ 30 ≤ 8 * (p + 1) ∨ ¬ WithinBudget opps maxtime (cpuNeed (2 ^ logN) 8 (p + 1)))))

theorem setup_picked {sys : EncSys} (g : sys.Good) {P P' : EncParams} {verbose force : Bool} {msgs : List Msg} (h0 : P.logN = 0)
    (h : setupParams sys P verbose force = .ok (.OK, P', msgs)) :
    ∃ memlimit l : Nat, memtouse sys.par.szMax sys.par.cfg sys.par.mem P.maxmem P.maxmemfrac = .ok (some memlimit) ∧ P'.logN = l ∧
      PickedFor memlimit sys.par.perf.2 P.maxtime l P'.r.toNat P'.p.toNat := by
  unfold setupParams at h
  rw [if_neg (not_not.2 h0), Res.bind_eq_ok] at h
  obtain ⟨o, ho, h⟩ := h
  cases hv : o.val with
  | none =>
    rw [hv] at h
    simp only [Res.ok.injEq, Prod.mk.injEq] at h
    obtain ⟨m, l, p, -, -, -, -, hval⟩ := pickparams_ok ho h.1
    rw [hv] at hval
    cases hval
  | some v =>
    obtain ⟨l, r, p⟩ := v
    rw [hv] at h
    simp only [Res.ok.injEq, Prod.mk.injEq] at h
    obtain ⟨h1, h2, -⟩ := h
    obtain ⟨l', p', m, e1, e2, e3, e4, e5⟩ := C11_within_limits sys.par g.sz P.maxmem P.maxmemfrac P.maxtime verbose ho h1
    obtain ⟨l2, p2, m2, f1, f2, f3⟩ := C12_maximal sys.par g.sz P.maxmem P.maxmemfrac P.maxtime verbose ho h1
    rw [hv] at e1 f1
    obtain ⟨rfl, e6⟩ := Prod.mk.inj (Option.some.inj e1)
    obtain ⟨rfl, rfl⟩ := Prod.mk.inj e6
    obtain ⟨rfl, f6⟩ := Prod.mk.inj (Option.some.inj f1)
    obtain ⟨-, rfl⟩ := Prod.mk.inj f6
    rw [e2] at f2
    obtain rfl := Option.some.inj (Res.ok.inj f2)
    have hp : p < 2 ^ 32 := by have := e3; unfold GoodParams at this; omega
    subst h2
    refine ⟨m, l, e2, rfl, ?_⟩
    show PickedFor m sys.par.perf.2 P.maxtime l (BitVec.ofNat 32 8).toNat (BitVec.ofNat 32 p).toNat
    rw [show (BitVec.ofNat 32 8).toNat = 8 from rfl, show (BitVec.ofNat 32 p).toNat = p by rw [BitVec.toNat_ofNat, Nat.mod_eq_of_lt hp]]
    exact ⟨rfl, e3, e4, e5, f3⟩

/-- **C11, C12.**  scryptenc_buf without explicit parameters: those in the header of what it writes respect the limits and are maximal. -/
theorem C11_enc_buf {sys : EncSys} (g : sys.Good) {m outbuf passwd : Bytes} (hm : m.length < 2 ^ 64) (hout : m.length + 128 ≤ outbuf.length) {P : EncParams}
    {verbose force : Bool} {o : BufOut} (h : scryptenc_buf sys m outbuf passwd P verbose force = .ok o) (hok : o.rc = .OK) (h0 : P.logN = 0) :
    ∃ memlimit : Nat, memtouse sys.par.szMax sys.par.cfg sys.par.mem P.maxmem P.maxmemfrac = .ok (some memlimit) ∧
      PickedFor memlimit sys.par.perf.2 P.maxtime (hdrLogN o.out) (hdrR o.out) (hdrP o.out) := by
  obtain ⟨e1, e2, e3, -⟩ := C10_enc_buf g hm hout h hok
  obtain ⟨salt, l, -, -, -, i4, -⟩ := encBuf_inv g hm hout h hok
  obtain ⟨ml, l', a1, a2, a3⟩ := setup_picked g h0 i4
  rw [a2] at e1
  rw [e2, e3, show hdrLogN o.out = l' by exact_mod_cast e1]
  exact ⟨ml, a1, a3⟩

/-- **C11, C12.**  The same for scryptenc_file. -/
theorem C11_enc_file {sys : EncSys} (g : sys.Good) {inf : InFile} {outf : OutFile} {passwd : Bytes} (hin : inf.data.length < 2 ^ 64) {P : EncParams}
    {verbose force : Bool} {o : FileOut} (h : scryptenc_file sys inf outf passwd P verbose force = .ok o) (hok : o.rc = .OK) (h0 : P.logN = 0) :
    ∃ (D : Bytes) (memlimit : Nat), o.outf.written = outf.written ++ D ∧
      memtouse sys.par.szMax sys.par.cfg sys.par.mem P.maxmem P.maxmemfrac = .ok (some memlimit) ∧
      PickedFor memlimit sys.par.perf.2 P.maxtime (hdrLogN D) (hdrR D) (hdrP D) := by
  obtain ⟨D, e0, e1, e2, e3, -⟩ := C10_enc_file g hin h hok
  obtain ⟨salt, l, -, -, -, -, -, -, -, -, i4, -⟩ := encFile_inv g hin h hok
  obtain ⟨ml, l', a1, a2, a3⟩ := setup_picked g h0 i4
  refine ⟨D, ml, e0, a1, ?_⟩
  rw [a2] at e1
  rw [e2, e3, show hdrLogN D = l' by exact_mod_cast e1]
  exact a3

/-! ### C60: the return code of an encryption -/

/-- The checks an encryption makes before any output when it chooses the parameters itself; `N`, `r`, `p`: the ones chosen. -/
def autoChecks (sys : EncSys) (P : EncParams) (N r p : Nat) : List (Prop × Code) :=
  [(∃ m, MemLimit sys P m, .ELIMIT),
   (sys.par.perf.1 = .OK, sys.par.perf.1),
   (sys.salt ≠ none, .ESALT),
   (KdfOk sys N r p, .EKEY)]

/-- The checks before any output.  `P`: the caller's parameters; `P'`: those in force. -/
def encChecks (sys : EncSys) (P P' : EncParams) (force : Bool) : List (Prop × Code) :=
  if P.logN ≠ 0 then explicitChecks sys P force else autoChecks sys P (2 ^ P'.logN.toNat) P'.r.toNat P'.p.toNat

/-- What remains for the buffer interface: AES and its stream. -/
def aesChecks (sys : EncSys) : List (Prop × Code) := [(aesAvail sys = true, .EOPENSSL), (sys.ctr ≠ none, .ENOMEM)]

/-- What remains for the stream interface: the header is written, the data is copied, the MAC is written. -/
def streamChecks (sys : EncSys) (inf : InFile) (outf : OutFile) : List (Prop × Code) :=
  [(Fits outf 96, .EWRFILE)] ++ aesChecks sys ++
  [(Fits outf (96 + inf.data.length), .EWRFILE), (inf.err = false, .ERDFILE), (Fits outf (inf.data.length + 128), .EWRFILE)]

theorem setup_code {sys : EncSys} (g : sys.Good) {passwd : Bytes} {P : EncParams} {verbose force : Bool} (hl : P.logN ≠ 0 → LimitsOk sys P verbose force)
    {s : SetupOut} (h : scryptenc_setup sys passwd P verbose force = .ok s) : s.rc = firstFail .OK (encChecks sys P s.P force) := by
  unfold encChecks
  by_cases h0 : P.logN = 0
  case neg => rw [if_pos h0]; exact (setup_explicit g (hl h0) h0 h).1
  rw [if_neg (not_not.2 h0)]
  obtain ⟨c, hc, s1, s2⟩ := encSetup_spec g h
  unfold setupParams at hc
  rw [if_neg (not_not.2 h0)] at hc
  obtain ⟨o, ho, hc⟩ := Res.bind_eq_ok.1 hc
  unfold autoChecks
  have hoc : o.rc = c := by
    cases hv : o.val with
    | none => rw [hv] at hc; exact (Prod.mk.inj (Res.ok.inj hc)).1
    | some v => rw [hv] at hc; exact (Prod.mk.inj (Res.ok.inj hc)).1
  have ho' := ho
  unfold pickparams at ho'
  obtain ⟨r, hr, ho'⟩ := Res.bind_eq_ok.1 ho'
  cases r with
  | none =>
    have e1 : o.rc = .ELIMIT := by rw [← Res.ok.inj ho']
    rw [firstFail_stop (by rintro ⟨m, hm⟩; unfold MemLimit at hm; rw [hr] at hm; cases hm), s1 (by rw [← hoc, e1]; simp), ← hoc, e1]
  | some m =>
    rw [firstFail_cons ⟨m, hr⟩]
    by_cases hp : sys.par.perf.1 = .OK
    case neg =>
      simp only [] at ho'
      rw [if_pos hp] at ho'
      have e1 : o.rc = sys.par.perf.1 := by rw [← Res.ok.inj ho']
      rw [firstFail_stop hp, s1 (by rw [← hoc, e1]; exact hp), ← hoc, e1]
    · rw [firstFail_cons hp]
      simp only [] at ho'
      rw [if_neg (not_not.2 hp)] at ho'
      obtain ⟨np, -, ho'⟩ := Res.bind_eq_ok.1 ho'
      obtain ⟨t, -, ho'⟩ := Res.bind_eq_ok.1 ho'
      exact s2 (by rw [← hoc, ← Res.ok.inj ho'])

theorem encChecks_codes {sys : EncSys} (P P' : EncParams) (force : Bool) : ∀ x ∈ encChecks sys P P' force, x.2 = Code.OK → x.1 := by
  intro x hx hc
  unfold encChecks at hx
  by_cases h0 : P.logN = 0
  · rw [if_neg (not_not.2 h0)] at hx
    unfold autoChecks at hx
    simp only [List.mem_cons, List.not_mem_nil, or_false] at hx
    rcases hx with rfl | rfl | rfl | rfl
    · cases hc
    · exact hc
    · cases hc
    · cases hc
  · rw [if_pos h0] at hx
    unfold explicitChecks at hx
    simp only [List.mem_cons, List.not_mem_nil, or_false] at hx
    rcases hx with rfl | rfl | rfl | rfl | rfl
    · cases hc
    · cases hc
    · exact .inr hc
    · cases hc
    · cases hc

theorem aesCode_table (sys : EncSys) : aesCode sys = firstFail .OK (aesChecks sys) := by
  unfold aesCode aesChecks
  by_cases h1 : aesAvail sys = true
  · rw [firstFail_cons h1]
    by_cases h2 : sys.ctr = none
    · rw [firstFail_stop (not_not.2 h2)]; simp [h1, h2]
    · rw [firstFail_cons h2]; simp [h1, h2, firstFail]
  · rw [firstFail_stop h1]; simp [h1]

/-- **C60.**  The return code of scryptenc_buf is the code of the first failing check; without a failing check it is success.  On failure before AES is set up,
the output buffer is untouched. -/
theorem C60_buf {sys : EncSys} (g : sys.Good) {m outbuf passwd : Bytes} (hm : m.length < 2 ^ 64) (hout : m.length + 128 ≤ outbuf.length) {P : EncParams}
    {verbose force : Bool} (hl : P.logN ≠ 0 → LimitsOk sys P verbose force) {o : BufOut} (h : scryptenc_buf sys m outbuf passwd P verbose force = .ok o) :
    o.rc = firstFail .OK (encChecks sys P o.P force ++ aesChecks sys) ∧
    (firstFail .OK (encChecks sys P o.P force) ≠ .OK → o.out = outbuf) := by
  obtain ⟨s, hs, b1, -, -, b3, b4⟩ := encBuf_spec g hm hout h
  have hc := setup_code g hl hs
  obtain ⟨p1, p2⟩ := firstFail_split (ok := Code.OK) (b := aesChecks sys) (encChecks_codes (sys := sys) P s.P force)
  rw [b1]
  by_cases hr : s.rc = .OK
  · rw [(b4 hr).1, p1 (by rw [← hc]; exact hr), aesCode_table]
    exact ⟨rfl, fun h => absurd (by rw [← hc]; exact hr) h⟩
  · rw [(b3 hr).1, p2 (by rw [← hc]; exact hr), hc]
    exact ⟨rfl, fun _ => (b3 hr).2.1⟩

/-- **C60.**  The same for scryptenc_file; on failure before the header is written, nothing is written. -/
theorem C60_file {sys : EncSys} (g : sys.Good) {inf : InFile} {outf : OutFile} {passwd : Bytes} (hin : inf.data.length < 2 ^ 64) {P : EncParams}
    {verbose force : Bool} (hl : P.logN ≠ 0 → LimitsOk sys P verbose force) {o : FileOut} (h : scryptenc_file sys inf outf passwd P verbose force = .ok o) :
    o.rc = firstFail .OK (encChecks sys P o.P force ++ streamChecks sys inf outf) ∧
    (firstFail .OK (encChecks sys P o.P force) ≠ .OK → o.outf = outf) := by
  classical
  obtain ⟨s, hs, b1, -, -, b3, b4⟩ := encFile_spec g hin h
  have hc := setup_code g hl hs
  obtain ⟨p1, p2⟩ := firstFail_split (ok := Code.OK) (b := streamChecks sys inf outf) (encChecks_codes (sys := sys) P s.P force)
  rw [b1]
  by_cases hr : s.rc = .OK
  · obtain ⟨_, _, -, -, -, -, -, -, -, f5, -⟩ := b4 hr
    refine ⟨?_, fun h => absurd (by rw [← hc]; exact hr) h⟩
    rw [f5, p1 (by rw [← hc]; exact hr)]
    unfold streamChecks
    simp only [List.cons_append, List.nil_append]
    by_cases h1 : Fits outf 96
    case neg => rw [if_pos h1, firstFail_stop h1]
    rw [if_neg (not_not.2 h1), firstFail_cons h1]
    have ac : ∀ x ∈ aesChecks sys, x.2 = Code.OK → x.1 := by
      intro x hx hc
      unfold aesChecks at hx
      simp only [List.mem_cons, List.not_mem_nil, or_false] at hx
      rcases hx with rfl | rfl <;> cases hc
    obtain ⟨q1, q2⟩ := firstFail_split (ok := Code.OK)
      (b := [(Fits outf (96 + inf.data.length), Code.EWRFILE), (inf.err = false, .ERDFILE), (Fits outf (inf.data.length + 128), .EWRFILE)]) ac
    by_cases h2 : aesCode sys = .OK
    case neg => rw [if_pos h2, q2 (by rw [← aesCode_table]; exact h2), aesCode_table]
    rw [if_neg (not_not.2 h2), q1 (by rw [← aesCode_table]; exact h2)]
    by_cases h3 : Fits outf (96 + inf.data.length)
    case neg => rw [if_pos h3, firstFail_stop h3]
    rw [if_neg (not_not.2 h3), firstFail_cons h3]
    by_cases h4 : inf.err = false
    case neg => rw [if_pos (by simpa using h4), firstFail_stop h4]
    rw [if_neg (by simp [h4]), firstFail_cons h4]
    by_cases h5 : Fits outf (inf.data.length + 128)
    case neg => rw [if_pos h5, firstFail_stop h5]
    rw [if_neg (not_not.2 h5), firstFail_cons h5]
    rfl
  · rw [(b3 hr).1, p2 (by rw [← hc]; exact hr), hc]
    exact ⟨rfl, fun _ => (b3 hr).2.1⟩

/-- Non-vacuity for C11, C12 and C60: an encryption that chooses its parameters, on any hardware, succeeds. -/
theorem exAuto (sha : ShaHw) (hw : AesHw) (m outbuf passwd : Bytes) (hm : m.length < 2 ^ 64) (hout : m.length + 128 ≤ outbuf.length) (verbose force : Bool) :
    ∃ o, scryptenc_buf (exEnc sha hw exSalt) m outbuf passwd exP0 verbose force = .ok o ∧ o.rc = .OK ∧ hdrR o.out = 8 ∧ memNeed (2 ^ hdrLogN o.out) 8 < 2 ^ 28 := by
  have g := exEnc_good sha hw exSalt_length
  have hmul : F64.mul (exEnc sha hw exSalt).par.perf.2 exP0.maxtime ≠ nan := by
    show F64.mul exSys.perf.2 (F64.ofNat 5) ≠ nan
    rw [exSys_ops]; simp
  obtain ⟨o, h⟩ := encBuf_total (passwd := passwd) g (exEnc_ready sha hw exSalt) hm hout (P := exP0) (verbose := verbose) (force := force) (by decide)
    ⟨fun h => absurd rfl h, fun _ => ⟨exLimits sha hw exSalt exP0 rfl verbose false, fun _ => hmul⟩⟩
  obtain ⟨ml, hml, -, hml2⟩ := exMemLimit sha hw exSalt exP0 rfl rfl
  obtain ⟨s, hs, b1, -⟩ := encBuf_spec g hm hout h
  obtain ⟨c, hc, -, -⟩ := encSetup_spec g hs
  have hcok : c = .OK := by
    obtain ⟨out, e1, e2⟩ := C11_total (exEnc sha hw exSalt).par g.sz exP0.maxmem exP0.maxmemfrac exP0.maxtime verbose hml rfl hmul (fun _ => ⟨rfl, rfl⟩)
    unfold setupParams at hc
    rw [if_neg (not_not.2 (show exP0.logN = 0 from rfl)), e1, Res.bind_ok] at hc
    cases hv : out.val with
    | none => rw [hv] at hc; rw [← e2]; exact (Prod.mk.inj (Res.ok.inj hc)).1.symm
    | some v => rw [hv] at hc; rw [← e2]; exact (Prod.mk.inj (Res.ok.inj hc)).1.symm
  subst hcok
  obtain ⟨m', l, a1, a2, a3, a4, a5, -⟩ := setup_picked g rfl hc
  unfold MemLimit at hml
  rw [a1] at hml
  obtain rfl := Option.some.inj (Res.ok.inj hml)
  rw [← b1] at a2 a3 a4
  have hN : 2 ^ o.P.logN.toNat = 2 ^ l := by rw [a2]; rfl
  have hmem : 128 * 2 ^ l * 8 < 2 ^ 28 := by have := a5; unfold memNeed at this; omega
  have hp := a4
  unfold GoodParams at hp
  have hk : KdfOk (exEnc sha hw exSalt) (2 ^ o.P.logN.toNat) o.P.r.toNat o.P.p.toNat := by
    rw [hN, a3]
    refine ⟨⟨by norm_num, hp.2.2.2.1, by omega, ⟨l, rfl, by omega, by omega⟩, by omega, ?_, ?_, ?_⟩, Option.some_ne_none _, Option.some_ne_none _, Option.some_ne_none _, rfl⟩
    · show 128 * 8 * o.P.p.toNat ≤ 2 ^ 64 - 1; omega
    · show 256 * 8 + 64 ≤ 2 ^ 64 - 1; norm_num
    · show 128 * 8 * 2 ^ l ≤ 2 ^ 64 - 1; omega
  have hok : o.rc = .OK := by
    rw [(C60_buf g hm hout (fun h => absurd rfl h) h).1]
    unfold encChecks autoChecks aesChecks
    rw [if_neg (not_not.2 (show exP0.logN = 0 from rfl))]
    simp only [List.cons_append, List.nil_append]
    rw [firstFail_cons ⟨_, a1⟩, firstFail_cons (show (exEnc sha hw exSalt).par.perf.1 = .OK from rfl),
      firstFail_cons (show (exEnc sha hw exSalt).salt ≠ none from Option.some_ne_none _), firstFail_cons hk]
    rw [firstFail_cons (show aesAvail (exEnc sha hw exSalt) = true by cases hw <;> rfl), firstFail_cons (show (exEnc sha hw exSalt).ctr ≠ none from Option.some_ne_none _)]
    rfl
  refine ⟨o, h, hok, ?_⟩
  obtain ⟨m2, f1, f2, -, f3, -⟩ := C11_enc_buf g hm hout h hok rfl
  rw [a1] at f1
  obtain rfl := Option.some.inj (Res.ok.inj f1)
  exact ⟨f2, by omega⟩

end Scrypt.Props
