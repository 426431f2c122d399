import Verif.Props.Picked
/-
C61: more resources never turn acceptance into refusal.
-/
namespace Scrypt.Props
open Scrypt Spec F64
set_option exponentiation.threshold 1100

/-- The second machine (and what its user allows) offers at least what the first does. -/
structure AtLeast (a b : EncSys) (Pa Pb : EncParams) : Prop where
  /-- addresses are at least as wide -/
  sz : a.par.szMax ≤ b.par.szMax
  /-- the system tells how much memory there is ... -/
  answered : ¬ QueryFailed b.par.cfg b.par.mem
  /-- ... and each limit it reports is at least one the first machine reports (or as large as the first machine can address) -/
  limits : ∀ n, SysLimit b.par.szMax b.par.cfg b.par.mem n → a.par.szMax ≤ n ∨ ∃ n', n' ≤ n ∧ SysLimit a.par.szMax a.par.cfg a.par.mem n'
  /-- the user allows at least the same fraction of it (at most one half) ... -/
  frac : ∃ q q' : ℚ, Pa.maxmemfrac = fin false q ∧ Pb.maxmemfrac = fin false q' ∧ 0 < q ∧ q ≤ q' ∧ q' ≤ 1 / 2 ∧ Rep q'
  /-- ... and sets no maximum, or not a smaller one -/
  maxmem : Pb.maxmem = 0 ∨ (0 < Pa.maxmem ∧ Pa.maxmem ≤ Pb.maxmem)
  /-- the speed could be measured, and is not less -/
  measured : b.par.perf.1 = .OK
  speed : F64.le (F64.ofNat 0) a.par.perf.2 = true ∧ F64.le a.par.perf.2 b.par.perf.2 = true
  /-- the user does not allow less time -/
  time : F64.le (F64.ofNat 0) Pa.maxtime = true ∧ F64.le Pa.maxtime Pb.maxtime = true
  /-- doubles are doubles -/
  valid : a.par.perf.2.Valid ∧ b.par.perf.2.Valid ∧ Pa.maxtime.Valid ∧ Pb.maxtime.Valid

theorem memtouse_mono {a b : EncSys} (ga : a.Good) (gb : b.Good) {Pa Pb : EncParams} (h : AtLeast a b Pa Pb) {m : Nat} (hm : MemLimit a Pa m) :
    ∃ m', MemLimit b Pb m' ∧ m ≤ m' := by
  obtain ⟨q, q', e1, e2, h0, h1, h2, h3⟩ := h.frac
  obtain ⟨r, hr, hn⟩ := C17_defined gb.sz b.par.cfg b.par.mem Pb.maxmem (lt_of_lt_of_le h0 h1) h2 h3
  cases r with
  | none => exact absurd (hn.1 rfl) h.answered
  | some m' =>
    have hr' := hr
    rw [← e2] at hr
    refine ⟨m', hr, ?_⟩
    unfold MemLimit at hm
    rw [e1] at hm
    have hsa : a.par.szMax < 2 ^ 64 := by rcases ga.sz with h | h <;> rw [h] <;> norm_num
    have hsb : b.par.szMax < 2 ^ 64 := by rcases gb.sz with h | h <;> rw [h] <;> norm_num
    obtain ⟨qa, x, a1, a2, a3⟩ := memtouse_ok hm
    obtain ⟨qb, y, b1, b2, b3⟩ := memtouse_ok hr'
    obtain ⟨c1, c2, c3⟩ := memMin_spec (by omega) a1
    obtain ⟨d1, d2, d3⟩ := memMin_spec (by omega) b1
    have hmin : memMin a.par.szMax qa ≤ memMin b.par.szMax qb := by
      by_cases hlt : memMin b.par.szMax qb < b.par.szMax
      · rcases h.limits _ (d3 hlt) with hx | ⟨n', hx, hs⟩
        · omega
        · have := c2 _ hs; omega
      · have := h.sz; omega
    rw [(mul_frac (by linarith) (by omega : memMin a.par.szMax qa < 2 ^ 64)).1] at a2
    rw [(mul_frac (by linarith) (by omega : memMin b.par.szMax qb < 2 ^ 64)).1] at b2
    obtain ⟨s, v, hx, -, -, hfl⟩ := toUnsigned_ok a2
    obtain ⟨rfl, rfl⟩ := F64.fin.inj hx
    obtain ⟨s', v', hx', -, -, hfl'⟩ := toUnsigned_ok b2
    obtain ⟨rfl, rfl⟩ := F64.fin.inj hx'
    have hxa := hfl rfl (roundMag_nonneg _)
    have hyb := hfl' rfl (roundMag_nonneg _)
    have hle : roundMag (q * roundMag (memMin a.par.szMax qa : ℚ)) ≤ roundMag (q' * roundMag (memMin b.par.szMax qb : ℚ)) := by
      refine roundMag_mono (mul_le_mul h1 (roundMag_mono (by exact_mod_cast hmin)) (roundMag_nonneg _) (by linarith))
    have hxy : (x : ℤ) ≤ y := by rw [hxa, hyb]; exact Int.floor_mono hle
    have hxy : x ≤ y := by exact_mod_cast hxy
    rw [a3, b3, (memClip_bounds Pa.maxmem x).2.2.2, (memClip_bounds Pb.maxmem y).2.2.2]
    rcases h.maxmem with h4 | ⟨h4, h5⟩
    · rw [h4]
      split_ifs <;> omega
    · rw [if_pos h4, if_pos (by omega)]
      omega

/-! ### Time -/

/-- Not a reason for refusal: NaN compares false, infinity is large. -/
def Big (x : F64) : Prop := x = nan ∨ x = inf false

/-- A non-negative finite number (−0 included) of magnitude `m`. -/
def NonNegFin (x : F64) (m : ℚ) : Prop := ∃ s, x = fin s m ∧ 0 ≤ m ∧ (s = true → m = 0)

/-- `y` is a reason for refusal only if `x` is. -/
def Below (x y : F64) : Prop := Big y ∨ ∃ m m', NonNegFin x m ∧ NonNegFin y m' ∧ m ≤ m'

theorem nonneg_cases {x : F64} (hv : x.Valid) (h : F64.le (F64.ofNat 0) x = true) : x = inf false ∨ ∃ m, NonNegFin x m := by
  have e0 : F64.ofNat 0 = fin false 0 := by
    have := ofNat_small (n := 0) (by norm_num); exact_mod_cast this
  rw [e0] at h
  cases x with
  | nan => simp [F64.le] at h
  | inf s => cases s <;> simp [F64.le] at h ⊢
  | fin s m =>
    refine .inr ⟨m, s, rfl, hv.1.nonneg, fun hs => ?_⟩
    subst hs
    have h0 := hv.1.nonneg
    simp [F64.le, val] at h
    linarith

theorem le_below {x y : F64} (hx : x.Valid) (hy : y.Valid) (h0 : F64.le (F64.ofNat 0) x = true) (h : F64.le x y = true) :
    (x = inf false ∧ y = inf false) ∨ (∃ m, NonNegFin x m) ∧ (y = inf false ∨ ∃ m m', NonNegFin x m ∧ NonNegFin y m' ∧ m ≤ m') := by
  rcases nonneg_cases hx h0 with rfl | ⟨m, s, rfl, hm, hs⟩
  · left
    refine ⟨rfl, ?_⟩
    cases y with
    | nan => simp [F64.le] at h
    | inf s => cases s <;> simp [F64.le] at h ⊢
    | fin s m => simp [F64.le] at h
  · right
    refine ⟨⟨m, s, rfl, hm, hs⟩, ?_⟩
    cases y with
    | nan => simp [F64.le] at h
    | inf s' => cases s' <;> simp [F64.le] at h ⊢
    | fin s' m' =>
      right
      have hm' := hy.1.nonneg
      simp only [F64.le, decide_eq_true_eq] at h
      have hv : val s m = m := by cases s with | false => rfl | true => rw [hs rfl]; simp [val]
      rw [hv] at h
      have hs' : s' = true → m' = 0 := by
        rintro rfl
        simp only [val, if_true] at h
        linarith
      refine ⟨m, m', ⟨s, rfl, hm, hs⟩, ⟨s', rfl, hm', hs'⟩, ?_⟩
      have hv' : val s' m' = m' := by cases s' with | false => rfl | true => rw [hs' rfl]; simp [val]
      rwa [hv'] at h

theorem round_nonneg {s : Bool} {q : ℚ} (hq : 0 ≤ q) (hs : s = true → q = 0) : Big (F64.round s q) ∨ ∃ m, NonNegFin (F64.round s q) m ∧ m = roundMag q := by
  unfold F64.round
  by_cases h : (2 : ℚ) ^ (1024 : ℕ) ≤ roundMag q
  · rw [if_pos h]
    left; right
    cases s with
    | false => rfl
    | true =>
      rw [hs rfl, roundMag_zero] at h
      exact absurd h (by norm_num)
  · rw [if_neg h]
    refine .inr ⟨_, ⟨s, rfl, roundMag_nonneg _, fun e => by rw [hs e, roundMag_zero]⟩, rfl⟩

theorem round_below {s s' : Bool} {q q' : ℚ} (hq : 0 ≤ q) (h : q ≤ q') (hs : s = true → q = 0) (hs' : s' = true → q' = 0) : Below (F64.round s q) (F64.round s' q') := by
  rcases round_nonneg (le_trans hq h) hs' with h1 | ⟨m', h1, rfl⟩
  · exact .inl h1
  · rcases round_nonneg hq hs with h2 | ⟨m, h2, rfl⟩
    · exfalso
      obtain ⟨_, e, -⟩ := h1
      unfold F64.round at e h2
      have : ¬ (2 : ℚ) ^ (1024 : ℕ) ≤ roundMag q' := by intro hc; rw [if_pos hc] at e; cases e
      have h3 : roundMag q ≤ roundMag q' := roundMag_mono h
      rw [if_neg (by intro hc; exact this (le_trans hc h3))] at h2
      rcases h2 with h2 | h2 <;> cases h2
    · exact .inr ⟨_, _, h2, h1, roundMag_mono h⟩

theorem mul_below {x x' y y' : F64} (hx : x.Valid) (hx' : x'.Valid) (hy : y.Valid) (hy' : y'.Valid) (h0 : F64.le (F64.ofNat 0) x = true)
    (h1 : F64.le x x' = true) (h2 : F64.le (F64.ofNat 0) y = true) (h3 : F64.le y y' = true) : Below (F64.mul x y) (F64.mul x' y') := by
  have infmul : ∀ z, F64.le (F64.ofNat 0) z = true → z.Valid → Big (F64.mul (inf false) z) ∧ Big (F64.mul z (inf false)) := by
    intro z hz hv
    rcases nonneg_cases hv hz with rfl | ⟨m, s, rfl, hm, hs⟩
    · exact ⟨.inr rfl, .inr rfl⟩
    · by_cases h : m = 0
      · exact ⟨.inl (by simp [F64.mul, h]), .inl (by simp [F64.mul, h])⟩
      · have : s = false := by cases s with | false => rfl | true => exact absurd (hs rfl) h
        subst this
        exact ⟨.inr (by simp [F64.mul, h]), .inr (by simp [F64.mul, h])⟩
  have letrans : ∀ u v : F64, u.Valid → v.Valid → F64.le (F64.ofNat 0) u = true → F64.le u v = true → F64.le (F64.ofNat 0) v = true := by
    intro u v hu hv e1 e2
    have e0 : F64.ofNat 0 = fin false 0 := by
      have := ofNat_small (n := 0) (by norm_num); exact_mod_cast this
    rcases le_below hu hv e1 e2 with ⟨-, rfl⟩ | ⟨-, rfl | ⟨m, m', -, ⟨s, rfl, hm, hs⟩, -⟩⟩
    · rw [e0]; rfl
    · rw [e0]; rfl
    · rw [e0]
      simp only [F64.le, decide_eq_true_eq, val]
      cases s with
      | false => simpa using hm
      | true => simp [hs rfl]
  have h4 := letrans _ _ hx hx' h0 h1
  have h5 := letrans _ _ hy hy' h2 h3
  rcases le_below hx hx' h0 h1 with ⟨-, rfl⟩ | ⟨-, rfl | ⟨m, m', ⟨s, rfl, hm, hs⟩, ⟨s', rfl, hm', hs'⟩, hmm⟩⟩
  · exact .inl (infmul _ h5 hy').1
  · exact .inl (infmul _ h5 hy').1
  · rcases le_below hy hy' h2 h3 with ⟨-, rfl⟩ | ⟨-, rfl | ⟨n, n', ⟨t, rfl, hn, ht⟩, ⟨t', rfl, hn', ht'⟩, hnn⟩⟩
    · exact .inl (infmul _ h4 hx').2
    · exact .inl (infmul _ h4 hx').2
    · show Below (F64.round (s != t) (m * n)) (F64.round (s' != t') (m' * n'))
      refine round_below (mul_nonneg hm hn) (mul_le_mul hmm hnn hn hm') ?_ ?_
      · intro e
        cases s with
        | true => rw [hs rfl, zero_mul]
        | false => cases t with
          | true => rw [ht rfl, mul_zero]
          | false => cases e
      · intro e
        cases s' with
        | true => rw [hs' rfl, zero_mul]
        | false => cases t' with
          | true => rw [ht' rfl, mul_zero]
          | false => cases e

theorem div_below {x y : F64} {k : ℚ} (hk : 0 < k) (h : Below x y) : Below (F64.div x (fin false k)) (F64.div y (fin false k)) := by
  rcases h with h | ⟨m, m', ⟨s, rfl, hm, hs⟩, ⟨s', rfl, hm', hs'⟩, hmm⟩
  · rcases h with rfl | rfl
    · exact .inl (.inl rfl)
    · exact .inl (.inr rfl)
  · simp only [F64.div, ne_of_gt hk, if_false]
    refine round_below (div_nonneg hm hk.le) (div_le_div_of_nonneg_right hmm hk.le) ?_ ?_
    · intro e; cases s with
      | true => rw [hs rfl, zero_div]
      | false => cases e
    · intro e; cases s' with
      | true => rw [hs' rfl, zero_div]
      | false => cases e

theorem below_lt {x y : F64} {k : ℚ} (h : Below x y) (hlt : F64.lt y (fin false k) = true) : F64.lt x (fin false k) = true := by
  rcases h with h | ⟨m, m', ⟨s, rfl, hm, hs⟩, ⟨s', rfl, hm', hs'⟩, hmm⟩
  · rcases h with rfl | rfl <;> simp [F64.lt] at hlt
  · have hv : val s m = m := by cases s with | false => rfl | true => rw [hs rfl]; simp [val]
    have hv' : val s' m' = m' := by cases s' with | false => rfl | true => rw [hs' rfl]; simp [val]
    simp only [F64.lt, decide_eq_true_eq, hv, hv'] at hlt ⊢
    linarith

theorem slow_mono {a b : EncSys} {Pa Pb : EncParams} (h : AtLeast a b Pa Pb) {l r p : Nat} (hg : GoodParams l r p) (hs : TooSlow b Pb (2 ^ l) r p) :
    TooSlow a Pa (2 ^ l) r p := by
  obtain ⟨-, g2, g3, g4, g5⟩ := hg
  have hr30 : r < 2 ^ 30 := lt_of_le_of_lt (Nat.le_mul_of_pos_right r g4) g5
  have hp30 : p < 2 ^ 30 := lt_of_le_of_lt (Nat.le_mul_of_pos_left p g3) g5
  unfold TooSlow Slow at hs ⊢
  rw [ofNat_pow (by omega : l < 64), ofNat_small (by omega : r < 2 ^ 53), ofNat_small (by omega : p < 2 ^ 53), ofNat_small (by norm_num : 4 < 2 ^ 53)] at hs ⊢
  refine below_lt (div_below (by exact_mod_cast g4) (div_below (by exact_mod_cast g3) (div_below (by positivity) ?_))) hs
  exact mul_below h.valid.1 h.valid.2.1 h.valid.2.2.1 h.valid.2.2.2 h.speed.1 h.speed.2 h.time.1 h.time.2

/-- **C61.**  Parameters that pass the resource check pass it wherever there are at least these resources. -/
theorem C61_limits {a b : EncSys} (ga : a.Good) (gb : b.Good) {Pa Pb : EncParams} (h : AtLeast a b Pa Pb) {l r p : Nat} (hg : GoodParams l r p) {force : Bool}
    (hp : LimitsPass a Pa false (2 ^ l) r p) : LimitsPass b Pb force (2 ^ l) r p := by
  rcases hp with hp | ⟨⟨m, hm⟩, h2, h3, h4⟩
  · cases hp
  · obtain ⟨m', hm', hle⟩ := memtouse_mono ga gb h hm
    refine .inr ⟨⟨m', hm'⟩, h.measured, ?_, fun hs => h4 (slow_mono h hg hs)⟩
    rintro ⟨m2, hm2, hb⟩
    unfold MemLimit at hm' hm2
    rw [hm'] at hm2
    obtain rfl := Option.some.inj (Res.ok.inj hm2)
    exact h3 ⟨m, hm, by omega⟩


/-! ### Decryption on both machines -/

theorem aesCode_cases (sys : EncSys) : aesCode sys = .OK ∨ aesCode sys = .EOPENSSL ∨ aesCode sys = .ENOMEM := by
  unfold aesCode
  split_ifs <;> simp

theorem paramCode_ekey {sys : EncSys} (g : sys.Good) {P : EncParams} {v : Bool} (hl : LimitsOk sys P v false) {D : Bytes} (h : paramCode sys P v false D = .EKEY) :
    sys.par.perf.1 = .EKEY := by
  rw [paramCode_table g hl] at h
  by_cases c0 : GoodParams (hdrLogN D) (hdrR D) (hdrP D)
  case neg => rw [firstFail_stop c0] at h; cases h
  rw [firstFail_cons c0] at h
  unfold limitTable at h
  by_cases c1 : ∃ m, MemLimit sys P m
  case neg => rw [firstFail_stop (by simpa using c1)] at h; cases h
  rw [firstFail_cons (.inr c1)] at h
  by_cases c2 : sys.par.perf.1 = .OK
  case neg => rw [firstFail_stop (by simp [c2])] at h; exact h
  rw [firstFail_cons (.inr c2)] at h
  by_cases c3 : TooBig sys P (2 ^ hdrLogN D) (hdrR D) ∧ TooSlow sys P (2 ^ hdrLogN D) (hdrR D) (hdrP D)
  · rw [firstFail_stop (by simp [c3])] at h; cases h
  rw [firstFail_cons (.inr c3)] at h
  by_cases c4 : TooBig sys P (2 ^ hdrLogN D) (hdrR D)
  · rw [firstFail_stop (by simp [c4])] at h; cases h
  rw [firstFail_cons (.inr c4)] at h
  by_cases c5 : TooSlow sys P (2 ^ hdrLogN D) (hdrR D) (hdrP D)
  · rw [firstFail_stop (by simp [c5])] at h; cases h
  rw [firstFail_cons (.inr c5)] at h
  cases h

theorem paramCode_mono {a b : EncSys} (ga : a.Good) (gb : b.Good) {Pa Pb : EncParams} (h : AtLeast a b Pa Pb) {va vb fb : Bool} (la : LimitsOk a Pa va false)
    (lb : LimitsOk b Pb vb fb) (D : Bytes) (hc : ¬ LimitCode (paramCode a Pa va false D)) : paramCode b Pb vb fb D = paramCode a Pa va false D := by
  rcases paramCode_cases ga la D with ⟨e, g, p⟩ | ⟨e, g⟩ | ⟨e, -⟩
  · rw [e]
    exact (paramCode_ok gb lb D).2 ⟨g, C61_limits ga gb h g p⟩
  · rw [e, paramCode_table gb lb, firstFail_stop g]
  · exact absurd e hc

/-- **C61.**  What one machine decrypts within its limits (buffers), a machine with at least these resources decrypts as well, forced or not, to the same bytes
- provided its memory allocations and its cipher setup succeed. -/
theorem C61_dec_buf {a b : EncSys} (ga : a.Good) (gb : b.Good) (ready : SelfTestReady b) {D outa outb passwd : Bytes} {na nb : Nat} (hD : D.length < 2 ^ 64)
    (ha : D.length ≤ outa.length) (hb : D.length ≤ outb.length) {Pa Pb : EncParams} {va vb fb : Bool} (la : LimitsOk a Pa va false) (lb : LimitsOk b Pb vb fb)
    (hz : Pb.zero = true) (h : AtLeast a b Pa Pb) {oa : BufOut} (hr : scryptdec_buf a D outa na passwd Pa va false = .ok oa) (hok : oa.rc = .OK)
    (hk : KdfOk b (2 ^ hdrLogN D) (hdrR D) (hdrP D)) (hae : aesCode b = .OK) :
    ∃ ob, scryptdec_buf b D outb nb passwd Pb vb fb = .ok ob ∧ ob.rc = .OK ∧ ob.outlen = oa.outlen ∧ ob.out.take ob.outlen = oa.out.take oa.outlen := by
  classical
  have hs := decBuf_spec ga hD ha hr
  have hv := hs.rc.symm.trans hok
  rw [bufVerdict_ok] at hv
  obtain ⟨v1, v2, v3, v4, v5, v6, v7, v8, v9⟩ := hv
  have hp : paramCode b Pb vb fb D = .OK := by
    rw [paramCode_mono ga gb h la lb D (by rw [v5]; simp [LimitCode]), v5]
  obtain ⟨ob, e⟩ := decBuf_total gb ready (inbuf := D) (outbuf := outb) (outlen := nb) (passwd := passwd) hD hb hz (fun _ => checkDefined gb lb D)
  have hs' := decBuf_spec gb hD hb e
  obtain ⟨x1, x2⟩ := hs.out_yes ⟨v1, v2, v3, v4, v5, v6, v7⟩ v8
  obtain ⟨y1, y2⟩ := hs'.out_yes ⟨v1, v2, v3, v4, hp, hk, v7⟩ hae
  have hpl : (plaintext (inpKey passwd D) D).length = D.length - 128 := plaintext_length _ _
  refine ⟨ob, e, ?_, by rw [y2, x2], ?_⟩
  · rw [hs'.rc, bufVerdict_ok]
    exact ⟨v1, v2, v3, v4, hp, hk, v7, hae, v9⟩
  · rw [y1, y2, x1, x2, List.take_append_of_le_length (by omega), List.take_append_of_le_length (by omega)]

/-- **C61.**  The same for streams: whatever the reads of the second machine, and if there is room for the output. -/
theorem C61_dec_file {a b : EncSys} (ga : a.Good) (gb : b.Good) (ready : SelfTestReady b) {infa infb : InFile} {outa outb : OutFile} {passwd : Bytes}
    (hD : infa.data.length < 2 ^ 64) (hsame : infb.data = infa.data) (herr : infb.err = false) (hroom : Fits outb (infa.data.length - 128))
    {Pa Pb : EncParams} {va vb fb : Bool} (la : LimitsOk a Pa va false) (lb : LimitsOk b Pb vb fb)
    (hz : Pb.zero = true) (h : AtLeast a b Pa Pb) {oa : FileOut} (hr : scryptdec_file a infa outa passwd Pa va false = .ok oa) (hok : oa.rc = .OK)
    (hk : KdfOk b (2 ^ hdrLogN infa.data) (hdrR infa.data) (hdrP infa.data)) (hae : aesCode b = .OK) (hck : b.cookieOk = true) :
    ∃ (ob : FileOut) (m : Bytes), scryptdec_file b infb outb passwd Pb vb fb = .ok ob ∧ ob.rc = .OK ∧
      oa.outf.written = outa.written ++ m ∧ ob.outf.written = outb.written ++ m := by
  classical
  obtain ⟨s1, s2, -⟩ := decFile_spec ga hD hr
  have hpa : prepVerdict a infa passwd Pa va false = .OK := by
    by_contra hc
    rw [if_pos hc, hok] at s1
    exact hc s1.symm
  rw [if_neg (not_not.2 hpa), hok] at s1
  obtain ⟨-, u⟩ := prepVerdict_ok.1 hpa
  have hp : paramCode b Pb vb fb infa.data = .OK := by
    rw [paramCode_mono ga gb h la lb _ (by rw [u.params]; simp [LimitCode]), u.params]
  have hpb : prepVerdict b infb passwd Pb vb fb = .OK :=
    prepVerdict_ok.2 ⟨hck, by rw [hsame]; exact ⟨u.len, u.magic, u.version, u.sum, hp, hk, u.pass⟩⟩
  obtain ⟨ob, e⟩ := decFile_total gb ready (inf := infb) (outf := outb) (passwd := passwd) (by rw [hsame]; exact hD) hz (fun _ => checkDefined gb lb _)
  obtain ⟨t1, t2, -⟩ := decFile_spec gb (by rw [hsame]; exact hD) e
  rw [if_neg (not_not.2 hpb), hsame] at t1
  rw [if_pos hpb, copyOut, if_pos hae, hsame] at t2
  unfold copyVerdict at s1
  by_cases c1 : aesCode a = .OK
  case neg => rw [if_pos c1] at s1; exact absurd s1.symm c1
  rw [if_neg (not_not.2 c1)] at s1
  by_cases c2 : Fits outa (infa.data.length - 128)
  case neg => rw [if_pos c2] at s1; cases s1
  rw [if_neg (not_not.2 c2)] at s1
  by_cases c3 : infa.err = true
  case pos => rw [if_pos c3] at s1; cases s1
  rw [if_neg c3] at s1
  by_cases c4 : infa.data.length < 128
  case pos => rw [if_pos c4] at s1; cases s1
  rw [if_neg c4] at s1
  by_cases c5 : TagOk (inpKey passwd infa.data) infa.data
  case neg => rw [if_pos c5] at s1; cases s1
  rw [if_pos hpa, copyOut, if_pos c1] at s2
  refine ⟨ob, plaintext (inpKey passwd infa.data) infa.data, e, ?_, ?_, ?_⟩
  · rw [t1]
    unfold copyVerdict
    rw [if_neg (not_not.2 hae), if_neg (not_not.2 hroom), if_neg (by simp [herr]), if_neg c4, if_neg (not_not.2 c5)]
  · rw [s2]; exact fwrite_fits (by rw [plaintext_length]; exact c2)
  · rw [t2]; exact fwrite_fits (by rw [plaintext_length]; exact hroom)

/-- **C61.**  No resource refusal appears where there was none: if one machine's answer is not a resource refusal, neither is the other's
(for a header whose speed measurement did not fail outright on the first machine). -/
theorem C61_no_refusal {a b : EncSys} (ga : a.Good) (gb : b.Good) {D outa outb passwd : Bytes} {na nb : Nat} (hD : D.length < 2 ^ 64)
    (ha : D.length ≤ outa.length) (hb : D.length ≤ outb.length) {Pa Pb : EncParams} {va vb fb : Bool} (la : LimitsOk a Pa va false) (lb : LimitsOk b Pb vb fb)
    (h : AtLeast a b Pa Pb) (hm : a.par.perf.1 ≠ .EKEY) {oa ob : BufOut} (hra : scryptdec_buf a D outa na passwd Pa va false = .ok oa)
    (hrb : scryptdec_buf b D outb nb passwd Pb vb fb = .ok ob) (hok : ¬ Suppressed oa.rc) : ¬ Suppressed ob.rc := by
  classical
  have hs := (decBuf_spec ga hD ha hra).rc
  have hs' := (decBuf_spec gb hD hb hrb).rc
  have hac : aesCode b = .OK ∨ aesCode b = .EOPENSSL ∨ aesCode b = .ENOMEM := aesCode_cases b
  unfold bufVerdict at hs hs'
  by_cases c1 : D.length < 7 ∨ ¬ HasMagic D
  · rw [hs', if_pos c1]; simp [Suppressed]
  rw [if_neg c1] at hs hs'
  by_cases c2 : VersionOk D
  case neg => rw [hs', if_pos c2]; simp [Suppressed]
  rw [if_neg (not_not.2 c2)] at hs hs'
  by_cases c3 : D.length < 128
  · rw [hs', if_pos c3]; simp [Suppressed]
  rw [if_neg c3] at hs hs'
  by_cases c4 : ChecksumOk D
  case neg => rw [hs', if_pos c4]; simp [Suppressed]
  rw [if_neg (not_not.2 c4)] at hs hs'
  have hnl : ¬ LimitCode (paramCode a Pa va false D) := by
    intro hc
    have hne : paramCode a Pa va false D ≠ .OK := by intro h; rw [h] at hc; simp [LimitCode] at hc
    rw [if_pos hne] at hs
    rw [hs] at hok
    rcases hc with hc | hc | hc | hc | hc | hc
    · exact hok (by rw [hc]; simp [Suppressed])
    · exact hok (by rw [hc]; simp [Suppressed])
    · exact hm (paramCode_ekey ga la hc)
    · exact hok (by rw [hc]; simp [Suppressed])
    · exact hok (by rw [hc]; simp [Suppressed])
    · exact hok (by rw [hc]; simp [Suppressed])
  rw [paramCode_mono ga gb h la lb D hnl] at hs'
  by_cases c5 : paramCode a Pa va false D = .OK
  case neg => rw [if_pos c5] at hs hs'; rw [hs', ← hs]; exact hok
  rw [if_neg (not_not.2 c5)] at hs'
  rw [hs']
  split_ifs <;> first | (rcases hac with e | e | e <;> rw [e] <;> simp [Suppressed]) | simp [Suppressed]

/-! ### Files encrypted with automatically chosen parameters -/

theorem leExact_mono {x : F64} {q q' : ℚ} (h : q' ≤ q) (hx : LeExact q x) : LeExact q' x := by
  cases x with
  | nan => exact hx
  | inf s => exact hx
  | fin s m => exact le_trans h hx

theorem setup_measured {sys : EncSys} {P P' : EncParams} {verbose force : Bool} {msgs : List Msg} (h0 : P.logN = 0)
    (h : setupParams sys P verbose force = .ok (.OK, P', msgs)) : sys.par.perf.1 = .OK := by
  unfold setupParams at h
  rw [if_neg (not_not.2 h0), Res.bind_eq_ok] at h
  obtain ⟨o, ho, h⟩ := h
  have hrc : o.rc = .OK := by
    cases hv : o.val with
    | none => rw [hv] at h; exact (Prod.mk.inj (Res.ok.inj h)).1
    | some v => rw [hv] at h; exact (Prod.mk.inj (Res.ok.inj h)).1
  obtain ⟨-, -, -, -, e, -⟩ := pickparams_ok ho hrc
  exact e

/-- Parameters picked for a machine pass its own check, when its time allows the minimal 32768 operations. -/
theorem picked_pass {a : EncSys} {P P' : EncParams} (ga : a.Good) {v f : Bool} {msgs : List Msg} (h0 : P.logN = 0)
    (hmin : LeExact 32768 (F64.mul a.par.perf.2 P.maxtime)) (hs : setupParams a P v f = .ok (.OK, P', msgs)) :
    ∃ l : Nat, P'.logN = l ∧ GoodParams l P'.r.toNat P'.p.toNat ∧ LimitsPass a P false (2 ^ l) P'.r.toNat P'.p.toNat := by
  obtain ⟨ml, l, a1, a2, a3, a4, a5, a6, -⟩ := setup_picked ga h0 hs
  have hperf : a.par.perf.1 = .OK := setup_measured h0 hs
  refine ⟨l, a2, by rw [a3]; exact a4, ?_⟩
  rw [a3]
  have hle : LeExact (cpuNeed (2 ^ l) 8 P'.p.toNat) (F64.mul a.par.perf.2 P.maxtime) := by
    rcases a6 with a6 | a6
    · exact a6
    · exact leExact_mono (by exact_mod_cast a6) hmin
  refine .inr ⟨⟨ml, a1⟩, hperf, ?_, (C13_time_test _ _ l _ _ a4).1 hle⟩
  rintro ⟨m2, hm2, hb⟩
  unfold MemLimit at hm2
  rw [a1] at hm2
  obtain rfl := Option.some.inj (Res.ok.inj hm2)
  omega

/-- **C61.**  Encryption with automatically chosen parameters, in a time that allows the minimal 32768 operations: the result decrypts without force
wherever there are at least these resources. -/
theorem C61_auto {a b : EncSys} (ga : a.Good) (gb : b.Good) (ready : SelfTestReady b) {m outbuf passwd : Bytes} (hm : m.length + 128 < 2 ^ 64)
    (hout : m.length + 128 ≤ outbuf.length) {Pa Pb : EncParams} {va fa vb : Bool} (h0 : Pa.logN = 0) (hmin : LeExact 32768 (F64.mul a.par.perf.2 Pa.maxtime))
    {o : BufOut} (henc : scryptenc_buf a m outbuf passwd Pa va fa = .ok o) (hok : o.rc = .OK) (h : AtLeast a b Pa Pb)
    {outbuf2 : Bytes} {n2 : Nat} (hout2 : m.length + 128 ≤ outbuf2.length) (hz : Pb.zero = true) (lb : LimitsOk b Pb vb false)
    (hk : KdfOk b (2 ^ o.P.logN.toNat) o.P.r.toNat o.P.p.toNat) (hae : aesCode b = .OK) :
    ∃ o2, scryptdec_buf b (o.out.take (m.length + 128)) outbuf2 n2 passwd Pb vb false = .ok o2 ∧ o2.rc = .OK ∧ o2.outlen = m.length ∧ o2.out.take o2.outlen = m := by
  obtain ⟨salt, l, i1, i2, i3, i4, -⟩ := encBuf_inv ga (by omega) hout henc hok
  obtain ⟨l', a2, a3, a4⟩ := picked_pass ga h0 hmin i4
  have hlN : o.P.logN.toNat = l' := by omega
  obtain ⟨o2, e1, e2, e3, e4, -⟩ := C01_roundtrip (outlen := n2) ga gb ready hm hout henc hok hout2 hz lb
    (by rw [hlN]; exact C61_limits ga gb h a3 a4) hk hae
  exact ⟨o2, e1, e2, e3, e4⟩

/-- **C61.**  The same for streams. -/
theorem C61_auto_file {a b : EncSys} (ga : a.Good) (gb : b.Good) (ready : SelfTestReady b) {inf inf2 : InFile} {outf outf2 : OutFile} {passwd : Bytes}
    (hm : inf.data.length + 128 < 2 ^ 64) {Pa Pb : EncParams} {va fa vb : Bool} (h0 : Pa.logN = 0) (hmin : LeExact 32768 (F64.mul a.par.perf.2 Pa.maxtime))
    {o : FileOut} (henc : scryptenc_file a inf outf passwd Pa va fa = .ok o) (hok : o.rc = .OK) (h : AtLeast a b Pa Pb)
    (hin2 : outf.written ++ inf2.data = o.outf.written) (herr : inf2.err = false) (hroom : Fits outf2 inf.data.length) (hz : Pb.zero = true)
    (lb : LimitsOk b Pb vb false) (hk : KdfOk b (2 ^ o.P.logN.toNat) o.P.r.toNat o.P.p.toNat) (hae : aesCode b = .OK) (hck : b.cookieOk = true) :
    ∃ o2, scryptdec_file b inf2 outf2 passwd Pb vb false = .ok o2 ∧ o2.rc = .OK ∧ o2.outf.written = outf2.written ++ inf.data := by
  obtain ⟨salt, l, -, -, i2, -, -, -, -, -, i4, -⟩ := encFile_inv ga (by omega) henc hok
  obtain ⟨l', a2, a3, a4⟩ := picked_pass ga h0 hmin i4
  have hlN : o.P.logN.toNat = l' := by omega
  obtain ⟨o2, e1, e2, e3, -⟩ := C02_roundtrip ga gb ready hm henc hok hin2 herr hroom hz lb
    (by rw [hlN]; exact C61_limits ga gb h a3 a4) hk hae hck
  exact ⟨o2, e1, e2, e3⟩

/-- **C61.**  The condition on the minimum is needed: where the time allows fewer than 32767 operations, what is encrypted with automatically chosen
parameters always takes 32768 (logN = 10, r = 8, p = 1), and the same machine with the same limits then refuses to decrypt it without force. -/
theorem C61_corner {a : EncSys} (ga : a.Good) {P P' : EncParams} {v f : Bool} {msgs : List Msg} (hfrac : P.maxmemfrac.Valid) (h0 : P.logN = 0)
    {s : Bool} {q : ℚ} (hmul : F64.mul a.par.perf.2 P.maxtime = fin s q) (hq : F64.val s q < 32767) (hs : setupParams a P v f = .ok (.OK, P', msgs)) :
    P'.logN = 10 ∧ P'.r = 8 ∧ P'.p = 1 ∧ ¬ LimitsPass a P false (2 ^ 10) 8 1 := by
  obtain ⟨ml, l, a1, a2, a3, a4, a5, a6, a7⟩ := setup_picked ga h0 hs
  obtain ⟨-, -, -, -, b1, -⟩ := C17_bounds ga.sz _ _ _ _ hfrac a1
  have hno : ∀ n : Nat, 32768 < n → ¬ WithinBudget a.par.perf.2 P.maxtime n := by
    rintro n hn (hw | hw)
    · rw [hmul] at hw
      have hw : (n : ℚ) ≤ F64.val s q := hw
      have : (32768 : ℚ) < n := by exact_mod_cast hn
      linarith
    · omega
  have h6 : cpuNeed (2 ^ l) 8 P'.p.toNat ≤ 32768 := by
    by_contra hc
    exact hno _ (by omega) a6
  obtain ⟨g1, g2, g3, g4, g5⟩ := a4
  have hl9 : 9 < l := by
    by_contra hc
    have hN : 2 ^ l ≤ 2 ^ 9 := Nat.pow_le_pow_right (by norm_num) (by omega)
    rcases a7 with ⟨p1, a7⟩ | ⟨a7, -⟩
    · refine a7 (.inr ?_)
      rw [p1]; unfold cpuNeed; omega
    · unfold memNeed at a7; omega
  have hl10 : l < 11 := by
    by_contra hc
    have hN : 2 ^ 11 ≤ 2 ^ l := Nat.pow_le_pow_right (by norm_num) (by omega)
    unfold cpuNeed at h6
    have : 4 * 2 ^ 11 * 8 * 1 ≤ 4 * 2 ^ l * 8 * P'.p.toNat := Nat.mul_le_mul (by omega) g4
    omega
  obtain rfl : l = 10 := by omega
  have hp : P'.p.toNat = 1 := by unfold cpuNeed at h6; omega
  refine ⟨a2, BitVec.eq_of_toNat_eq a3, BitVec.eq_of_toNat_eq hp, ?_⟩
  rintro (hc | ⟨-, -, -, hslow⟩)
  · cases hc
  · rcases (C13_time_test a.par.perf.2 P.maxtime 10 8 1 ⟨by norm_num, by norm_num, by norm_num, by norm_num, by norm_num⟩).2 hslow with e | e | ⟨m, e, hm⟩
    · rw [hmul] at e; cases e
    · rw [hmul] at e; cases e
    · rw [hmul] at e
      obtain ⟨rfl, rfl⟩ := F64.fin.inj e
      have hv : F64.val false q = q := rfl
      rw [hv] at hq
      have hn : ((cpuNeed (2 ^ 10) 8 1 : ℕ) : ℚ) = 32768 := by norm_num [cpuNeed]
      rw [hn] at hm
      have : q * (1 + 1 / 2 ^ 53) ^ 3 < 32767 * (1 + 1 / 2 ^ 53) ^ 3 := mul_lt_mul_of_pos_right hq (by norm_num)
      have h3 : (32767 : ℚ) * (1 + 1 / 2 ^ 53) ^ 3 < 32768 := by norm_num
      linarith

/-- **C61.**  In that case: what scryptenc_buf produced, scryptdec_buf on the same machine with the same limits refuses as too slow. -/
theorem C61_corner_buf {a : EncSys} (ga : a.Good) {m outbuf passwd passwd2 : Bytes} (hm : m.length + 128 < 2 ^ 64) (hout : m.length + 128 ≤ outbuf.length)
    {P P2 : EncParams} {v f v2 : Bool} {o : BufOut} (h0 : P.logN = 0) {s : Bool} {q : ℚ} (hmul : F64.mul a.par.perf.2 P.maxtime = fin s q)
    (hq : F64.val s q < 32767) (henc : scryptenc_buf a m outbuf passwd P v f = .ok o) (hok : o.rc = .OK)
    (hP2 : P2.maxmem = P.maxmem ∧ P2.maxmemfrac = P.maxmemfrac ∧ P2.maxtime = P.maxtime) (hl : LimitsOk a P2 v2 false)
    {out2 : Bytes} {n2 : Nat} (hout2 : m.length + 128 ≤ out2.length) {o2 : BufOut}
    (hdec : scryptdec_buf a (o.out.take (m.length + 128)) out2 n2 passwd2 P2 v2 false = .ok o2) :
    o2.rc = .ETOOSLOW ∧ o2.out = out2 := by
  classical
  obtain ⟨salt, l, i1, i2, i3, i4, i5, i6⟩ := encBuf_inv ga (by omega) hout henc hok
  have hfrac : P.maxmemfrac.Valid := by
    obtain ⟨q, e, h1, h2, h3⟩ := hl.frac rfl
    rw [← hP2.2.1, e]
    refine ⟨h3, ?_⟩
    have : (1 / 2 : ℚ) < 2 ^ 1024 := by norm_num
    linarith
  obtain ⟨c1, c2, c3, c4⟩ := C61_corner ga hfrac h0 hmul hq i4
  obtain ⟨ml, l', a1, a2, a3, a4, a5, -⟩ := setup_picked ga h0 i4
  obtain rfl : l = 10 := by rw [i2] at c1; exact_mod_cast c1
  obtain rfl : l' = 10 := by rw [i2] at a2; exact_mod_cast a2.symm
  have hsalt := ga.salt _ i1
  have hD := container_fields (scryptCode passwd salt (2 ^ 10) o.P.r.toNat o.P.p.toNat 64) 10 o.P.r.toNat o.P.p.toNat salt m hsalt
    (by norm_num) o.P.r.isLt o.P.p.isLt
  have e : o.out.take (m.length + 128) = container (scryptCode passwd salt (2 ^ 10) o.P.r.toNat o.P.p.toNat 64) 10 o.P.r.toNat o.P.p.toNat salt m := by
    rw [i6, List.take_append_of_le_length (by rw [container_length _ _ _ _ _ _ hsalt]), List.take_of_length_le (by rw [container_length _ _ _ _ _ _ hsalt])]
  rw [e] at hdec
  generalize container (scryptCode passwd salt (2 ^ 10) o.P.r.toNat o.P.p.toNat 64) 10 o.P.r.toNat o.P.p.toNat salt m = D at hD hdec
  have hlen := hD.len
  have hs := decBuf_spec ga (by omega) (by omega) hdec
  rw [c2, c3] at hD
  have hr : hdrR D = 8 := hD.r
  have hp : hdrP D = 1 := hD.p
  have hL : hdrLogN D = 10 := hD.logN
  have hmem : ∀ x, MemLimit a P2 x ↔ MemLimit a P x := by intro x; unfold MemLimit; rw [hP2.1, hP2.2.1]
  have hslow : TooSlow a P2 (2 ^ 10) 8 1 := by
    by_contra hc
    refine c4 (.inr ⟨⟨ml, a1⟩, setup_measured h0 i4, ?_, ?_⟩)
    · rintro ⟨m2, hm2, hb⟩
      unfold MemLimit at hm2
      rw [a1] at hm2
      obtain rfl := Option.some.inj (Res.ok.inj hm2)
      omega
    · unfold TooSlow at hc ⊢; rwa [hP2.2.2] at hc
  have hbig : ¬ TooBig a P2 (2 ^ 10) 8 := by
    rintro ⟨m2, hm2, hb⟩
    rw [hmem] at hm2
    unfold MemLimit at hm2
    rw [a1] at hm2
    obtain rfl := Option.some.inj (Res.ok.inj hm2)
    omega
  have hpc : paramCode a P2 v2 false D = .ETOOSLOW := by
    rw [paramCode_table ga hl, hr, hp, hL, firstFail_cons (show GoodParams ((10 : Nat) : Int) 8 1 by unfold GoodParams; norm_num)]
    unfold limitTable
    rw [firstFail_cons (.inr ⟨ml, (hmem ml).2 a1⟩), firstFail_cons (.inr (setup_measured h0 i4)), firstFail_cons (.inr (fun h => hbig h.1)),
      firstFail_cons (.inr hbig), firstFail_stop (by simpa using hslow)]
  have hU : ¬ Unlocked a passwd2 P2 v2 false D 128 := fun u => by have := u.params; rw [hpc] at this; cases this
  refine ⟨?_, (hs.out_no (fun h => hU h.1)).1⟩
  rw [hs.rc, hpc]
  unfold bufVerdict
  rw [if_neg (by rintro (h | h); · omega
                 · exact h hD.magic), if_neg (not_not.2 hD.version), if_neg (by omega), if_neg (not_not.2 hD.sum), if_pos (by simp)]

/-! ### Non-vacuity -/

/-- A machine with twice the memory and twice the speed of the example machine. -/
def exBig (sha : ShaHw) (hw : AesHw) (salt : Bytes) : EncSys :=
  { exEnc sha hw salt with par := { exSys with mem := exMem (.cur (2 ^ 31)), perf := (.OK, F64.ofNat 2000000) } }

/-- Its user allows half of the memory and 300 seconds. -/
def exPBig : EncParams := ⟨0, fin false (1 / 2), F64.ofNat 300, 0, 0, 0⟩

theorem exBig_good (sha : ShaHw) (hw : AesHw) {salt : Bytes} (hs : salt.length = 32) : (exBig sha hw salt).Good :=
  { exEnc_good sha hw hs with sz := .inr rfl, perf := .inl rfl }

theorem rep_half : Rep (1 / 2) := ⟨1, -1, by norm_num, by norm_num, by norm_num⟩

theorem ofNat_exact {n : Nat} (h : n < 2 ^ 53) : F64.ofNat n = fin false n ∧ (F64.ofNat n).Valid := by
  have e := ofNat_small h
  refine ⟨e, ?_⟩
  rw [e]
  refine ⟨rep_nat (by omega), ?_⟩
  have : (n : ℚ) < 2 ^ 53 := by exact_mod_cast h
  exact lt_trans this (pow_lt_pow_right₀ (by norm_num) (by norm_num))

theorem ofNat_le {m n : Nat} (h : m ≤ n) (hn : n < 2 ^ 53) : F64.le (F64.ofNat m) (F64.ofNat n) = true := by
  rw [(ofNat_exact (lt_of_le_of_lt h hn)).1, (ofNat_exact hn).1]
  simp only [F64.le, F64.val]
  have : (m : ℚ) ≤ n := by exact_mod_cast h
  simpa using this

theorem exAtLeast (sha sha' : ShaHw) (hw hw' : AesHw) (salt : Bytes) : AtLeast (exEnc sha hw salt) (exBig sha' hw' salt) exP0 exPBig where
  sz := le_refl _
  answered := exMem_noFail (by simp)
  limits := by
    rintro n (⟨-, v, hv, rfl⟩ | ⟨h, -⟩ | ⟨h, -⟩ | ⟨h, -⟩ | ⟨h, -⟩ | h | ⟨h, -⟩)
    · refine .inr ⟨2 ^ 30, ?_, .inl ⟨rfl, 2 ^ 30, rfl, rfl⟩⟩
      have hv : Rlim.cur (2 ^ 31) = Rlim.cur v := hv
      obtain rfl := Rlim.cur.inj hv
      decide
    · cases h
    · cases h
    · cases h
    · cases h
    · exfalso; unfold PhysMem at h; exact absurd h.1 (by simp [exBig, exSys, exCfg])
    · cases h
  frac := ⟨1 / 8, 1 / 2, rfl, rfl, by norm_num, by norm_num, by norm_num, rep_half⟩
  maxmem := .inl rfl
  measured := rfl
  speed := ⟨ofNat_le (by norm_num) (by norm_num), ofNat_le (by norm_num) (by norm_num)⟩
  time := ⟨ofNat_le (by norm_num) (by norm_num), ofNat_le (by norm_num) (by norm_num)⟩
  valid := ⟨(ofNat_exact (by norm_num)).2, (ofNat_exact (by norm_num)).2, (ofNat_exact (by norm_num)).2, (ofNat_exact (by norm_num)).2⟩

/-- Non-vacuity for C61: what the example machine encrypts with automatically chosen parameters, the bigger one decrypts without force. -/
example (sha sha' : ShaHw) (hw hw' : AesHw) (m passwd : Bytes) (hm : m.length + 128 < 2 ^ 64) :
    ∃ o o2, scryptenc_buf (exEnc sha hw exSalt) m (List.replicate (m.length + 128) 0) passwd exP0 false false = .ok o ∧ o.rc = .OK ∧
      scryptdec_buf (exBig sha' hw' exSalt) (o.out.take (m.length + 128)) (List.replicate (m.length + 128) 1) 0 passwd exPBig false false = .ok o2 ∧
      o2.rc = .OK ∧ o2.out.take o2.outlen = m := by
  have g := exEnc_good sha hw exSalt_length
  obtain ⟨o, h, hok, hR, hmem⟩ := exAuto sha hw m (List.replicate (m.length + 128) 0) passwd (by omega) (by rw [List.length_replicate]) false false
  obtain ⟨salt, l, i1, i2, i3, i4, i5, i6⟩ := encBuf_inv g (by omega) (by rw [List.length_replicate]) h hok
  obtain ⟨e1, e2, e3, -⟩ := C10_enc_buf g (by omega) (by rw [List.length_replicate]) h hok
  obtain ⟨o2, d1, d2, d3, d4⟩ := C61_auto (n2 := 0) (outbuf2 := List.replicate (m.length + 128) 1) (vb := false) g (exBig_good sha' hw' exSalt_length)
    (fun _ => ⟨okEnv_sized, okEnv_sized, rfl, ⟨Option.some_ne_none _, Option.some_ne_none _, Option.some_ne_none _, rfl⟩,
      ⟨Option.some_ne_none _, Option.some_ne_none _, Option.some_ne_none _, rfl⟩⟩)
    hm (by rw [List.length_replicate]) rfl
    (by show LeExact 32768 (F64.mul exSys.perf.2 (F64.ofNat 5)); rw [exSys_ops]; show (32768 : ℚ) ≤ F64.val false 5000000; norm_num [F64.val])
    h hok (exAtLeast sha sha' hw hw' exSalt) (by rw [List.length_replicate]) rfl
    ⟨fun _ => ⟨1 / 2, rfl, by norm_num, by norm_num, rep_half⟩, fun h => by cases h⟩
    (by
      have hlN : o.P.logN.toNat = l := by omega
      rw [hlN]
      exact ⟨i5.1, Option.some_ne_none _, Option.some_ne_none _, Option.some_ne_none _, rfl⟩)
    (by cases hw' <;> rfl)
  exact ⟨o, o2, h, hok, d1, d2, d4⟩

/-- Non-vacuity for the corner: on a machine doing 1000 operations per second, 5 seconds allow less than the minimum. -/
example (sha : ShaHw) (hw : AesHw) :
    ∃ msgs P', setupParams { exEnc sha hw exSalt with par := { exSys with perf := (.OK, F64.ofNat 1000) } } exP0 false false = .ok (.OK, P', msgs) ∧
    P'.logN = 10 ∧ P'.r = 8 ∧ P'.p = 1 := by
  have e1 : F64.ofNat 1000 = fin false 1000 := by exact_mod_cast (ofNat_exact (n := 1000) (by norm_num)).1
  have e5 : F64.ofNat 5 = fin false 5 := by exact_mod_cast (ofNat_exact (n := 5) (by norm_num)).1
  have hr : Rep (5000 : ℚ) := by have := rep_nat (n := 5000) (by norm_num); exact_mod_cast this
  have hmul : F64.mul (F64.ofNat 1000) (F64.ofNat 5) = fin false 5000 := by
    rw [e1, e5]
    simp only [F64.mul]
    norm_num
    rw [round_small] <;> rw [roundMag_rep hr]
    norm_num
  obtain ⟨ml, hml⟩ := exSys_mem
  have g : ({ exEnc sha hw exSalt with par := { exSys with perf := (.OK, F64.ofNat 1000) } } : EncSys).Good :=
    { exEnc_good sha hw exSalt_length with sz := .inr rfl, perf := .inl rfl }
  obtain ⟨out, o1, o2⟩ := C11_total { exSys with perf := (.OK, F64.ofNat 1000) } (.inr rfl) 0 (fin false (1 / 8)) (F64.ofNat 5) false hml rfl
    (by show F64.mul (F64.ofNat 1000) (F64.ofNat 5) ≠ nan; rw [hmul]; simp) (fun h => by cases h)
  obtain ⟨-, l, p, -, -, -, -, hval⟩ := pickparams_ok o1 o2
  have hs : ∃ msgs P', setupParams { exEnc sha hw exSalt with par := { exSys with perf := (.OK, F64.ofNat 1000) } } exP0 false false = .ok (.OK, P', msgs) := by
    unfold setupParams
    rw [if_neg (not_not.2 (show exP0.logN = 0 from rfl))]
    have o1' : pickparams ({ exEnc sha hw exSalt with par := { exSys with perf := (.OK, F64.ofNat 1000) } } : EncSys).par exP0.maxmem exP0.maxmemfrac exP0.maxtime false = .ok out := o1
    rw [o1', Res.bind_ok, hval, o2]
    exact ⟨_, _, rfl⟩
  obtain ⟨msgs, P', hs⟩ := hs
  obtain ⟨c1, c2, c3, -⟩ := C61_corner g (P := exP0) ⟨rep_eighth, by norm_num⟩ rfl hmul (by norm_num [F64.val]) hs
  exact ⟨msgs, P', hs, c1, c2, c3⟩

end Scrypt.Props
