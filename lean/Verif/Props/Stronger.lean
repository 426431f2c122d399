import Verif.Props.Enough
/-
C96: more resources never make the parameters chosen for an encryption smaller.
-/
namespace Scrypt.Props
open Scrypt Spec F64
set_option exponentiation.threshold 1100

theorem withinBudget_down {x t : F64} {n n' : Nat} (h : n' ≤ n) (hw : WithinBudget x t n) : WithinBudget x t n' := by
  rcases hw with hw | hw
  · exact .inl (leExact_mono (by exact_mod_cast h) hw)
  · exact .inr (le_trans h hw)

/-- Parameters picked for more memory and a larger budget. -/
theorem picked_mono {m m' : Nat} {x t y u : F64} (hm : m ≤ m') (hB : ∀ n, WithinBudget x t n → WithinBudget y u n) {l r p l' r' p' : Nat}
    (h : PickedFor m x t l r p) (h' : PickedFor m' y u l' r' p') :
    l ≤ l' ∧ (l = l' → p ≤ p') ∧ 2 ^ l * p < 2 ^ l' * (p' + 1) ∧ (m = m' → 2 ^ l * p ≤ 2 ^ l' * p') := by
  obtain ⟨-, ⟨g1, g2, g3, g4, g5⟩, hmem, hcpu, hmax⟩ := h
  obtain ⟨-, ⟨k1, k2, k3, k4, k5⟩, hmem', hcpu', hmax'⟩ := h'
  unfold memNeed at *
  unfold cpuNeed at *
  have two : ∀ {i j : Nat}, i < j → 2 * 2 ^ i ≤ 2 ^ j := by
    intro i j hij
    rw [← Nat.pow_succ']
    exact Nat.pow_le_pow_right (by omega) hij
  have hl : l ≤ l' := by
    by_contra hc
    have h2 := two (show l' < l by omega)
    rcases hmax' with ⟨rfl, hb⟩ | ⟨hb, -⟩
    · refine hb (hB _ (withinBudget_down ?_ hcpu))
      have : 2 ^ l ≤ 2 ^ l * p := Nat.le_mul_of_pos_right _ g4
      nlinarith
    · omega
  -- what is below the cost chosen by the first is in the budget of the second
  have key : 2 ^ l * p < 2 ^ l' * (p' + 1) := by
    by_contra hc
    push Not at hc
    have hin : WithinBudget y u (4 * 2 ^ l' * 8 * (p' + 1)) := by
      refine hB _ (withinBudget_down ?_ hcpu)
      nlinarith
    rcases hmax' with ⟨rfl, hb⟩ | ⟨-, hb | hb⟩
    · refine hb (withinBudget_down ?_ hin)
      omega
    · have h1 : 2 ^ l * p ≤ 2 ^ l' * p := Nat.mul_le_mul_right _ (Nat.pow_le_pow_right (by omega) hl)
      have h2 : 2 ^ l' * p < 2 ^ l' * (p' + 1) := Nat.mul_lt_mul_of_pos_left (by omega) (by positivity)
      omega
    · exact hb hin
  have same : l = l' → p ≤ p' := by
    rintro rfl
    have := Nat.lt_of_mul_lt_mul_left key
    omega
  refine ⟨hl, same, key, ?_⟩
  rintro rfl
  rcases Nat.lt_or_ge l l' with hlt | hge
  · have h2 := two hlt
    rcases hmax with ⟨rfl, -⟩ | ⟨hb, -⟩
    · have : 2 ^ l' ≤ 2 ^ l' * p' := Nat.le_mul_of_pos_right _ k4
      omega
    · omega
  · obtain rfl : l = l' := by omega
    exact Nat.mul_le_mul_left _ (same rfl)

/-- **C96.**  The memory limit, the speed and the time determine the parameters chosen. -/
theorem C96_unique {m : Nat} {x t : F64} {l r p l' r' p' : Nat} (h : PickedFor m x t l r p) (h' : PickedFor m x t l' r' p') :
    l = l' ∧ r = r' ∧ p = p' := by
  obtain ⟨a1, a2, -⟩ := picked_mono (le_refl m) (fun _ h => h) h h'
  obtain ⟨b1, b2, -⟩ := picked_mono (le_refl m) (fun _ h => h) h' h
  have e : l = l' := by omega
  exact ⟨e, by rw [h.1, h'.1], Nat.le_antisymm (a2 e) (b2 e.symm)⟩

theorem setup_not_nan {sys : EncSys} {P P' : EncParams} {verbose force : Bool} {msgs : List Msg} (h0 : P.logN = 0)
    (h : setupParams sys P verbose force = .ok (.OK, P', msgs)) : F64.mul sys.par.perf.2 P.maxtime ≠ nan := by
  unfold setupParams at h
  rw [if_neg (not_not.2 h0), Res.bind_eq_ok] at h
  obtain ⟨o, ho, h⟩ := h
  have hrc : o.rc = .OK := by
    cases hv : o.val with
    | none => rw [hv] at h; exact (Prod.mk.inj (Res.ok.inj h)).1
    | some v => rw [hv] at h; exact (Prod.mk.inj (Res.ok.inj h)).1
  obtain ⟨-, -, -, -, -, e, -⟩ := pickparams_ok ho hrc
  exact e

/-- A faster machine, or more time: what was within the budget still is. -/
theorem budget_mono {a b : EncSys} {Pa Pb : EncParams} (h : AtLeast a b Pa Pb) (hn : F64.mul b.par.perf.2 Pb.maxtime ≠ nan) (n : Nat)
    (hw : WithinBudget a.par.perf.2 Pa.maxtime n) : WithinBudget b.par.perf.2 Pb.maxtime n := by
  rcases hw with hw | hw
  · refine .inl ?_
    have hb := mul_below h.valid.1 h.valid.2.1 h.valid.2.2.1 h.valid.2.2.2 h.speed.1 h.speed.2 h.time.1 h.time.2
    rcases hb with (hb | hb) | ⟨m, m', ⟨s, e, h0, hs⟩, ⟨s', e', h0', hs'⟩, hle⟩
    · exact absurd hb hn
    · rw [hb]; rfl
    · rw [e] at hw
      rw [e']
      have hv : F64.val s m = m := by cases s with | false => rfl | true => rw [hs rfl]; simp [F64.val]
      have hv' : F64.val s' m' = m' := by cases s' with | false => rfl | true => rw [hs' rfl]; simp [F64.val]
      simp only [LeExact, hv, hv'] at hw ⊢
      linarith
  · exact .inr hw

/-- What is said about the parameters of two files: those of the second need at least as much memory, more than half
as much computation (with equal memory cost, at least as much), and, if the memory limit was the same, at least as much
computation in any case. -/
def NotWeaker (sameMemory : Prop) (l p l' p' : Nat) : Prop :=
  memNeed (2 ^ l) 8 ≤ memNeed (2 ^ l') 8 ∧ cpuNeed (2 ^ l) 8 p < 2 * cpuNeed (2 ^ l') 8 p' ∧
  (l = l' ∨ sameMemory → cpuNeed (2 ^ l) 8 p ≤ cpuNeed (2 ^ l') 8 p')

theorem notWeaker_of {a b : EncSys} (ga : a.Good) (gb : b.Good) {Pa Pb Pa' Pb' : EncParams} (h : AtLeast a b Pa Pb) {va fa vb fb : Bool} {ma mb : List Msg}
    (h0a : Pa.logN = 0) (h0b : Pb.logN = 0) (sa : setupParams a Pa va fa = .ok (.OK, Pa', ma)) (sb : setupParams b Pb vb fb = .ok (.OK, Pb', mb)) :
    ∃ l l' : Nat, Pa'.logN = l ∧ Pb'.logN = l' ∧ Pa'.r.toNat = 8 ∧ Pb'.r.toNat = 8 ∧
      NotWeaker (∀ m, MemLimit a Pa m ↔ MemLimit b Pb m) l Pa'.p.toNat l' Pb'.p.toNat := by
  obtain ⟨ma, l, a1, a2, a3⟩ := setup_picked ga h0a sa
  obtain ⟨mb, l', b1, b2, b3⟩ := setup_picked gb h0b sb
  obtain ⟨m', hm', hle⟩ := memtouse_mono ga gb h (show MemLimit a Pa ma from a1)
  obtain rfl : m' = mb := by
    unfold MemLimit at hm'; rw [b1] at hm'; exact (Option.some.inj (Res.ok.inj hm')).symm
  obtain ⟨c1, c2, c3, c4⟩ := picked_mono hle (budget_mono h (setup_not_nan h0b sb)) a3 b3
  refine ⟨l, l', a2, b2, a3.1, b3.1, ?_, ?_, ?_⟩
  · unfold memNeed
    have := Nat.pow_le_pow_right (show 0 < 2 by omega) c1
    omega
  · obtain ⟨-, ⟨-, -, -, k4, -⟩, -⟩ := b3
    unfold cpuNeed
    have : 2 ^ l' * (Pb'.p.toNat + 1) ≤ 2 * (2 ^ l' * Pb'.p.toNat) := by
      have := Nat.mul_le_mul_left (2 ^ l') (show Pb'.p.toNat + 1 ≤ 2 * Pb'.p.toNat by omega)
      nlinarith
    nlinarith
  · unfold cpuNeed
    rintro (rfl | hs)
    · have := Nat.mul_le_mul_left (2 ^ l) (c2 rfl)
      nlinarith
    · have hm2 := (hs ma).1 a1
      unfold MemLimit at hm2
      rw [b1] at hm2
      have := c4 (Option.some.inj (Res.ok.inj hm2)).symm
      nlinarith

/-- **C96.**  Two encryptions with parameters chosen automatically, the second with at least the resources of the first (a larger share of the memory,
a faster machine, more time): the file of the second is not weaker. -/
theorem C96_buf {a b : EncSys} (ga : a.Good) (gb : b.Good) {m outa pa m' outb pb : Bytes} (hm : m.length < 2 ^ 64) (hout : m.length + 128 ≤ outa.length)
    (hm' : m'.length < 2 ^ 64) (hout' : m'.length + 128 ≤ outb.length) {Pa Pb : EncParams} {va fa vb fb : Bool} (h0a : Pa.logN = 0) (h0b : Pb.logN = 0)
    (h : AtLeast a b Pa Pb) {oa ob : BufOut} (ea : scryptenc_buf a m outa pa Pa va fa = .ok oa) (eb : scryptenc_buf b m' outb pb Pb vb fb = .ok ob)
    (oka : oa.rc = .OK) (okb : ob.rc = .OK) :
    hdrR oa.out = 8 ∧ hdrR ob.out = 8 ∧
      NotWeaker (∀ m, MemLimit a Pa m ↔ MemLimit b Pb m) (hdrLogN oa.out) (hdrP oa.out) (hdrLogN ob.out) (hdrP ob.out) := by
  obtain ⟨e1, e2, e3, -⟩ := C10_enc_buf ga hm hout ea oka
  obtain ⟨f1, f2, f3, -⟩ := C10_enc_buf gb hm' hout' eb okb
  obtain ⟨_, _, -, -, -, sa, -⟩ := encBuf_inv ga hm hout ea oka
  obtain ⟨_, _, -, -, -, sb, -⟩ := encBuf_inv gb hm' hout' eb okb
  obtain ⟨l, l', g1, g2, g3, g4, g5⟩ := notWeaker_of ga gb h h0a h0b sa sb
  rw [e2, e3, f2, f3, show hdrLogN oa.out = l by rw [g1] at e1; exact_mod_cast e1, show hdrLogN ob.out = l' by rw [g2] at f1; exact_mod_cast f1]
  exact ⟨g3, g4, g5⟩

/-- **C96.**  The same for files. -/
theorem C96_file {a b : EncSys} (ga : a.Good) (gb : b.Good) {infa infb : InFile} {outa outb : OutFile} {pa pb : Bytes} (hm : infa.data.length < 2 ^ 64)
    (hm' : infb.data.length < 2 ^ 64) {Pa Pb : EncParams} {va fa vb fb : Bool} (h0a : Pa.logN = 0) (h0b : Pb.logN = 0)
    (h : AtLeast a b Pa Pb) {oa ob : FileOut} (ea : scryptenc_file a infa outa pa Pa va fa = .ok oa) (eb : scryptenc_file b infb outb pb Pb vb fb = .ok ob)
    (oka : oa.rc = .OK) (okb : ob.rc = .OK) :
    ∃ A B : Bytes, oa.outf.written = outa.written ++ A ∧ ob.outf.written = outb.written ++ B ∧ hdrR A = 8 ∧ hdrR B = 8 ∧
      NotWeaker (∀ m, MemLimit a Pa m ↔ MemLimit b Pb m) (hdrLogN A) (hdrP A) (hdrLogN B) (hdrP B) := by
  obtain ⟨A, e0, e1, e2, e3, -⟩ := C10_enc_file ga hm ea oka
  obtain ⟨B, f0, f1, f2, f3, -⟩ := C10_enc_file gb hm' eb okb
  obtain ⟨_, _, -, -, -, -, -, -, -, -, sa, -⟩ := encFile_inv ga hm ea oka
  obtain ⟨_, _, -, -, -, -, -, -, -, -, sb, -⟩ := encFile_inv gb hm' eb okb
  obtain ⟨l, l', g1, g2, g3, g4, g5⟩ := notWeaker_of ga gb h h0a h0b sa sb
  refine ⟨A, B, e0, f0, ?_⟩
  rw [e2, e3, f2, f3, show hdrLogN A = l by rw [g1] at e1; exact_mod_cast e1, show hdrLogN B = l' by rw [g2] at f1; exact_mod_cast f1]
  exact ⟨g3, g4, g5⟩

/-- **C96.**  Finding F35: the reserve of "more than half" is needed.  With a budget of 98304 operations, twice the memory limit gives twice the memory cost
but a third less computation. -/
theorem C96_F35 {x t : F64} (h : F64.mul x t = fin false 98304) :
    PickedFor (2 ^ 20) x t 10 8 3 ∧ PickedFor (2 ^ 21) x t 11 8 1 ∧ cpuNeed (2 ^ 11) 8 1 < cpuNeed (2 ^ 10) 8 3 := by
  unfold PickedFor GoodParams memNeed cpuNeed WithinBudget
  simp only [h, LeExact, F64.val]
  norm_num

/-- The limits of `exP0`, but ten times the time. -/
def exPT : EncParams := ⟨0, fin false (1 / 8), F64.ofNat 50, 0, 0, 0⟩

theorem exLonger (sha sha' : ShaHw) (hw hw' : AesHw) (salt salt' : Bytes) : AtLeast (exEnc sha hw salt) (exEnc sha' hw' salt') exP0 exPT where
  sz := le_refl _
  answered := exMem_noFail (by simp)
  limits := fun n h => .inr ⟨n, le_refl _, h⟩
  frac := ⟨1 / 8, 1 / 8, rfl, rfl, by norm_num, by norm_num, by norm_num, rep_eighth⟩
  maxmem := .inl rfl
  measured := rfl
  speed := ⟨ofNat_le (by norm_num) (by norm_num), ofNat_le (by norm_num) (by norm_num)⟩
  time := ⟨ofNat_le (by norm_num) (by norm_num), ofNat_le (by norm_num) (by norm_num)⟩
  valid := ⟨(ofNat_exact (by norm_num)).2, (ofNat_exact (by norm_num)).2, (ofNat_exact (by norm_num)).2, (ofNat_exact (by norm_num)).2⟩

theorem exAutoT (sha : ShaHw) (hw : AesHw) (m outbuf passwd : Bytes) (hm : m.length < 2 ^ 64) (hout : m.length + 128 ≤ outbuf.length) (verbose force : Bool) :
    ∃ o, scryptenc_buf (exEnc sha hw exSalt) m outbuf passwd exPT verbose force = .ok o ∧ o.rc = .OK ∧ hdrR o.out = 8 ∧ memNeed (2 ^ hdrLogN o.out) 8 < 2 ^ 28 := by
  have g := exEnc_good sha hw exSalt_length
  have hmul : F64.mul (exEnc sha hw exSalt).par.perf.2 exPT.maxtime ≠ nan := by
    show F64.mul exSys.perf.2 (F64.ofNat 50) ≠ nan
    show F64.mul (F64.ofNat 1000000) (F64.ofNat 50) ≠ nan
    rw [(ofNat_exact (by norm_num)).1, (ofNat_exact (by norm_num)).1]
    simp only [F64.mul, F64.round]
    split_ifs <;> simp
  obtain ⟨o, h⟩ := encBuf_total (passwd := passwd) g (exEnc_ready sha hw exSalt) hm hout (P := exPT) (verbose := verbose) (force := force) (by decide)
    ⟨fun h => absurd rfl h, fun _ => ⟨exLimits sha hw exSalt exPT rfl verbose false, fun _ => hmul⟩⟩
  obtain ⟨ml, hml, -, hml2⟩ := exMemLimit sha hw exSalt exPT rfl rfl
  obtain ⟨s, hs, b1, -⟩ := encBuf_spec g hm hout h
  obtain ⟨c, hc, -, -⟩ := encSetup_spec g hs
  have hcok : c = .OK := by
    obtain ⟨out, e1, e2⟩ := C11_total (exEnc sha hw exSalt).par g.sz exPT.maxmem exPT.maxmemfrac exPT.maxtime verbose hml rfl hmul (fun _ => ⟨rfl, rfl⟩)
    unfold setupParams at hc
    rw [if_neg (not_not.2 (show exPT.logN = 0 from rfl)), e1, Res.bind_ok] at hc
    cases hv : out.val with
    | none => rw [hv] at hc; rw [← e2]; exact (Prod.mk.inj (Res.ok.inj hc)).1.symm
    | some v => rw [hv] at hc; rw [← e2]; exact (Prod.mk.inj (Res.ok.inj hc)).1.symm
  subst hcok
  obtain ⟨m', l, a1, a2, a3, a4, a5, -⟩ := setup_picked g rfl hc
  unfold MemLimit at hml
  rw [a1] at hml
  obtain rfl := Option.some.inj (Res.ok.inj hml)
  rw [← b1] at a2 a3 a4
  have hN : 2 ^ o.P.logN.toNat = 2 ^ l := by rw [a2]; rfl
  have hmem : 128 * 2 ^ l * 8 < 2 ^ 28 := by have := a5; unfold memNeed at this; omega
  have hp := a4
  unfold GoodParams at hp
  have hk : KdfOk (exEnc sha hw exSalt) (2 ^ o.P.logN.toNat) o.P.r.toNat o.P.p.toNat := by
    rw [hN, a3]
    refine ⟨⟨by norm_num, hp.2.2.2.1, by omega, ⟨l, rfl, by omega, by omega⟩, by omega, ?_, ?_, ?_⟩, Option.some_ne_none _, Option.some_ne_none _, Option.some_ne_none _, rfl⟩
    · show 128 * 8 * o.P.p.toNat ≤ 2 ^ 64 - 1; omega
    · show 256 * 8 + 64 ≤ 2 ^ 64 - 1; norm_num
    · show 128 * 8 * 2 ^ l ≤ 2 ^ 64 - 1; omega
  have hok : o.rc = .OK := by
    rw [(C60_buf g hm hout (fun h => absurd rfl h) h).1]
    unfold encChecks autoChecks aesChecks
    rw [if_neg (not_not.2 (show exPT.logN = 0 from rfl))]
    simp only [List.cons_append, List.nil_append]
    rw [firstFail_cons ⟨_, a1⟩, firstFail_cons (show (exEnc sha hw exSalt).par.perf.1 = .OK from rfl),
      firstFail_cons (show (exEnc sha hw exSalt).salt ≠ none from Option.some_ne_none _), firstFail_cons hk]
    rw [firstFail_cons (show aesAvail (exEnc sha hw exSalt) = true by cases hw <;> rfl), firstFail_cons (show (exEnc sha hw exSalt).ctr ≠ none from Option.some_ne_none _)]
    rfl
  refine ⟨o, h, hok, ?_⟩
  obtain ⟨m2, f1, f2, -, f3, -⟩ := C11_enc_buf g hm hout h hok rfl
  rw [a1] at f1
  obtain rfl := Option.some.inj (Res.ok.inj f1)
  exact ⟨f2, by omega⟩

/-- Non-vacuity for C96: two encryptions on machines that differ in hardware only, with five and with fifty seconds. -/
example (sha sha' : ShaHw) (hw hw' : AesHw) (m m' pa pb : Bytes) (hm : m.length + 128 < 2 ^ 64) (hm' : m'.length + 128 < 2 ^ 64) :
    ∃ oa ob, scryptenc_buf (exEnc sha hw exSalt) m (List.replicate (m.length + 128) 0) pa exP0 false false = .ok oa ∧ oa.rc = .OK ∧
      scryptenc_buf (exEnc sha' hw' exSalt) m' (List.replicate (m'.length + 128) 0) pb exPT false false = .ok ob ∧ ob.rc = .OK ∧
      NotWeaker True (hdrLogN oa.out) (hdrP oa.out) (hdrLogN ob.out) (hdrP ob.out) := by
  obtain ⟨oa, h, hok, -⟩ := exAuto sha hw m (List.replicate (m.length + 128) 0) pa (by omega) (by rw [List.length_replicate]) false false
  obtain ⟨ob, h', hok', -⟩ := exAutoT sha' hw' m' (List.replicate (m'.length + 128) 0) pb (by omega) (by rw [List.length_replicate]) false false
  obtain ⟨-, -, a, b, c⟩ := C96_buf (exEnc_good sha hw exSalt_length) (exEnc_good sha' hw' exSalt_length) (by omega) (by rw [List.length_replicate])
    (by omega) (by rw [List.length_replicate]) rfl rfl (exLonger sha sha' hw hw' exSalt exSalt) h h' hok hok'
  exact ⟨oa, ob, h, hok, h', hok', a, b, fun _ => c (.inr fun _ => Iff.rfl)⟩

/-- ... and the finding's budget exists: 98304 operations per second for a second. -/
example : F64.mul (F64.ofNat 98304) (F64.ofNat 1) = fin false 98304 := by
  rw [(ofNat_exact (by norm_num)).1, (ofNat_exact (by norm_num)).1]
  have hr : Rep (98304 : ℚ) := by
    have := rep_nat (n := 98304) (by norm_num); exact_mod_cast this
  simp only [F64.mul]
  norm_num
  rw [F64.round, roundMag_rep hr]
  norm_num

end Scrypt.Props
