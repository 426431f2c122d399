import Verif.Props.Util
import Verif.Props.EncMisc
import Verif.Props.EncEx
import Mathlib.Tactic.IntervalCases
/-
C95: what a printed size says when it is given back to -M.
-/
namespace Scrypt.Props
open Scrypt Spec

/-- Decimal numerals consist of digits. -/
theorem dec_digits (n : Nat) : ∀ c ∈ dec n, '0' ≤ c ∧ c ≤ '9' := by
  intro c hc
  have h : c.isDigit = true := by
    apply Nat.isDigit_of_mem_toDigits (b := 10) (n := n) (by omega) (by omega)
    have : (toString n) = n.repr := rfl
    simpa [dec, this, Nat.toList_repr] using hc
  simp only [Char.isDigit, Bool.and_eq_true, decide_eq_true_eq] at h
  exact h

/-- Decimal numerals are not empty. -/
theorem dec_ne_nil (n : Nat) : dec n ≠ [] := by
  have : (toString n) = n.repr := rfl
  simp [dec, this, Nat.toList_repr]

/-- A decimal numeral denotes its number. -/
theorem decVal_dec (n : Nat) : decVal (dec n) = n := by
  have h1 : (toString n) = n.repr := rfl
  have h := Nat.ofDigitChars_ten_toDigits (n := n)
  simpa [dec, h1, Nat.toList_repr, decVal, Nat.ofDigitChars] using h

/-- The prefix letters are letters. -/
theorem siPrefix_ne (k : Nat) : siPrefix k ≠ '.' ∧ siPrefix k ≠ '\x00' := by
  unfold siPrefix; constructor <;> split <;> decide

theorem dec_not_dot (n : Nat) : '.' ∉ dec n ∧ '\x00' ∉ dec n :=
  ⟨fun h => absurd (dec_digits n _ h) (by decide), fun h => absurd (dec_digits n _ h) (by decide)⟩

/-- A display has a decimal point exactly if it is one with tenths. -/
theorem dot_iff (d : Shown) : '.' ∈ d.text ↔ ∃ y k, d = .tenths y k := by
  cases d with
  | plain n => simp [Shown.text, (dec_not_dot n).1]
  | whole x k => simp [Shown.text, (dec_not_dot x).1, Ne.symm (siPrefix_ne k).1]
  | tenths y k => simp [Shown.text]

theorem text_no_nul (d : Shown) : '\x00' ∉ d.text := by
  cases d <;> simp [Shown.text, (dec_not_dot _).2, Ne.symm (siPrefix_ne _).2]

/-- No accepted size has a decimal point. -/
theorem sizeText_no_dot {s : List Char} {n k : Nat} (h : SizeText s n k) : '.' ∉ s := by
  obtain ⟨ds, sp, pf, b, rfl, -, hd, -, hs, hp, hb⟩ := h
  have h1 : '.' ∉ ds := fun hc => absurd (hd _ hc) (by decide)
  have h2 : '.' ∉ sp := by rcases hs with rfl | rfl <;> simp
  have h3 : '.' ∉ pf := by
    rcases hp with ⟨rfl, -⟩ | ⟨-, -, rfl⟩
    · simp
    · simpa using Ne.symm (siPrefix_ne k).1
  have h4 : '.' ∉ b := by rcases hb with rfl | rfl <;> simp
  simp [h1, h2, h3, h4]

/-- The displays without tenths are accepted sizes. -/
theorem sizeText_plain (n : Nat) : SizeText (Shown.plain n).text n 0 :=
  ⟨dec n, [' '], [], ['B'], by simp [Shown.text], dec_ne_nil n, dec_digits n, (decVal_dec n).symm, .inr rfl,
    .inl ⟨rfl, rfl⟩, .inr rfl⟩

theorem sizeText_whole (x : Nat) {k : Nat} (h1 : 1 ≤ k) (h6 : k ≤ 6) : SizeText (Shown.whole x k).text x k :=
  ⟨dec x, [' '], [siPrefix k], ['B'], by simp [Shown.text], dec_ne_nil x, dec_digits x, (decVal_dec x).symm, .inr rfl,
    .inr ⟨h1, h6, rfl⟩, .inr rfl⟩

/-- Displays of equal value are the same display. -/
theorem shown_injective {d d' : Shown} (h : d.Valid) (h' : d'.Valid) (e : d.value = d'.value) : d = d' := by
  cases d with
  | plain n =>
    cases d' with
    | plain n' => simp only [Shown.value] at e; rw [e]
    | whole x k =>
      obtain ⟨a, b, c, f⟩ := h'
      simp only [Shown.Valid] at h; simp only [Shown.value] at e
      interval_cases k <;> omega
    | tenths y k =>
      obtain ⟨a, b, c, f⟩ := h'
      simp only [Shown.Valid] at h; simp only [Shown.value] at e
      interval_cases k <;> omega
  | whole x k =>
    obtain ⟨a, b, c, f⟩ := h
    cases d' with
    | plain n =>
      simp only [Shown.Valid] at h'; simp only [Shown.value] at e
      interval_cases k <;> omega
    | whole x' k' =>
      obtain ⟨a', b', c', f'⟩ := h'
      simp only [Shown.value] at e
      have : x = x' ∧ k = k' := by interval_cases k <;> interval_cases k' <;> omega
      rw [this.1, this.2]
    | tenths y k' =>
      obtain ⟨a', b', c', f'⟩ := h'
      simp only [Shown.value] at e
      exfalso
      interval_cases k <;> interval_cases k' <;> omega
  | tenths y k =>
    obtain ⟨a, b, c, f⟩ := h
    cases d' with
    | plain n =>
      simp only [Shown.Valid] at h'; simp only [Shown.value] at e
      interval_cases k <;> omega
    | whole x' k' =>
      obtain ⟨a', b', c', f'⟩ := h'
      simp only [Shown.value] at e
      exfalso
      interval_cases k <;> interval_cases k' <;> omega
    | tenths y' k' =>
      obtain ⟨a', b', c', f'⟩ := h'
      simp only [Shown.value] at e
      have : y = y' ∧ k = k' := by interval_cases k <;> interval_cases k' <;> omega
      rw [this.1, this.2]

/-- C95. The text printed for a size, when given back to the parser (as the argument of -M), is either refused —
exactly if it has a decimal point — or read as a size that is at most the one printed, below it by at most a tenth of
it, equal to it up to 999 bytes, and printed the same. -/
theorem C95_back (size : W64) :
    ∃ t r, humansize true size = .ok (some t) ∧ humansize_parse t = .ok r ∧
      (('.' ∈ t ∧ r = none) ∨
        ('.' ∉ t ∧ ∃ v, r = some v ∧ v ≤ size.toNat ∧ 10 * (size.toNat - v) ≤ size.toNat ∧
          (size.toNat ≤ 999 → v = size.toNat) ∧ humansize true (BitVec.ofNat 64 v) = .ok (some t))) := by
  obtain ⟨d, h1, h2, h3, h4⟩ := C29_humansize size
  obtain ⟨r, hr, hv⟩ := C30_parse d.text (text_no_nul d)
  refine ⟨d.text, r, h1, hr, ?_⟩
  have hlt := size.isLt
  -- reading back a display without tenths
  have key : ∀ n k, SizeText d.text n k → n * 1000 ^ k = d.value → ('.' ∉ d.text) →
      10 * (size.toNat - d.value) ≤ size.toNat → (size.toNat ≤ 999 → d.value = size.toNat) →
      ('.' ∈ d.text ∧ r = none) ∨
        ('.' ∉ d.text ∧ ∃ v, r = some v ∧ v ≤ size.toNat ∧ 10 * (size.toNat - v) ≤ size.toNat ∧
          (size.toNat ≤ 999 → v = size.toNat) ∧ humansize true (BitVec.ofNat 64 v) = .ok (some d.text)) := by
    intro n k hs he hdot hten hsm
    refine .inr ⟨hdot, d.value, ?_, h3, hten, hsm, ?_⟩
    · exact (hv _).2 ⟨n, k, hs, by rw [he]; omega, he.symm⟩
    · have hb : (BitVec.ofNat 64 d.value).toNat = d.value := by rw [BitVec.toNat_ofNat]; omega
      obtain ⟨d', g1, g2, g3, g4⟩ := C29_humansize (BitVec.ofNat 64 d.value)
      rw [hb] at g3 g4
      rw [g1, shown_injective g2 h2 (Nat.le_antisymm g3 (g4 d h2 (le_refl _)))]
  cases d with
  | plain n =>
    refine key n 0 (sizeText_plain n) (by simp [Shown.value]) (by simp [dot_iff]) ?_ ?_
    · simp only [Shown.Valid] at h2
      by_cases hn : size.toNat ≤ 999
      · have := h4 (.plain size.toNat) hn (by simp [Shown.value])
        simp only [Shown.value] at this h3 ⊢; omega
      · have := h4 (.tenths 10 1) (by simp [Shown.Valid]) (by simp [Shown.value]; omega)
        simp [Shown.value] at this; omega
    · intro hn
      have := h4 (.plain size.toNat) hn (by simp [Shown.value])
      simp only [Shown.value] at this h3 ⊢; omega
  | whole x k =>
    obtain ⟨a, b, c, f⟩ := h2
    refine key x k (sizeText_whole x c f) (by simp [Shown.value]) (by simp [dot_iff]) ?_ ?_
    · simp only [Shown.value] at h3 h4 ⊢
      have hnext : size.toNat < (x + 1) * 1000 ^ k := by
        by_contra hc
        push Not at hc
        by_cases hx : x < 999
        · have := h4 (.whole (x + 1) k) ⟨by omega, by omega, c, f⟩ hc
          simp only [Shown.value] at this
          have hp : 0 < 1000 ^ k := by positivity
          nlinarith
        · obtain rfl : x = 999 := by omega
          by_cases hk : k < 6
          · have := h4 (.tenths 10 (k + 1)) ⟨by omega, by omega, by omega, by omega⟩
              (by simp only [Shown.value]; rw [Nat.pow_succ]; omega)
            simp only [Shown.value] at this
            interval_cases k <;> omega
          · obtain rfl : k = 6 := by omega
            omega
      have hp : 0 < 1000 ^ k := by positivity
      have : 10 * 1000 ^ k ≤ x * 1000 ^ k := Nat.mul_le_mul_right _ a
      have : (x + 1) * 1000 ^ k = x * 1000 ^ k + 1000 ^ k := by ring
      omega
    · intro hn
      simp only [Shown.value] at h3
      interval_cases k <;> omega
  | tenths y k =>
    refine .inl ⟨(dot_iff _).2 ⟨y, k, rfl⟩, ?_⟩
    cases hr' : r with
    | none => rfl
    | some v =>
      obtain ⟨n, k', hs, -⟩ := (hv v).1 hr'
      exact absurd ((dot_iff _).2 ⟨y, k, rfl⟩) (sizeText_no_dot hs)

/-- C95. The sizes whose text is refused: those whose leading figure is a single digit, with a prefix. -/
theorem C95_which (size : W64) {t : List Char} (h : humansize true size = .ok (some t)) :
    '.' ∈ t ↔ ∃ k, 1 ≤ k ∧ k ≤ 6 ∧ 1000 ^ k ≤ size.toNat ∧ size.toNat < 10 * 1000 ^ k := by
  obtain ⟨d, h1, h2, h3, h4⟩ := C29_humansize size
  obtain rfl : t = d.text := by rw [h1] at h; exact (Option.some.inj (Res.ok.inj h)).symm
  rw [dot_iff]
  constructor
  · rintro ⟨y, k, rfl⟩
    obtain ⟨a, b, c, f⟩ := h2
    simp only [Shown.value] at h3 h4
    refine ⟨k, c, f, by interval_cases k <;> omega, ?_⟩
    by_contra hc
    have := h4 (.whole 10 k) ⟨by omega, by omega, c, f⟩ (by simp only [Shown.value]; omega)
    simp only [Shown.value] at this
    interval_cases k <;> omega
  · rintro ⟨k, c, f, hl, hu⟩
    have hm := h4 (.tenths 10 k) ⟨by omega, by omega, c, f⟩ (by simp only [Shown.value]; omega)
    cases d with
    | tenths y k' => exact ⟨y, k', rfl⟩
    | plain n =>
      exfalso
      simp only [Shown.value, Shown.Valid] at hm h2
      interval_cases k <;> omega
    | whole x k' =>
      exfalso
      obtain ⟨a', b', c', f'⟩ := h2
      simp only [Shown.value] at hm h3
      interval_cases k <;> interval_cases k' <;> omega

/-- The stream or buffer starts with a genuine header: everything decryption checks before it looks at the machine's
resources is in order. -/
def GenuineHeader (D : Bytes) : Prop :=
  HasMagic D ∧ VersionOk D ∧ 96 ≤ D.length ∧ ChecksumOk D ∧ GoodParams (hdrLogN D) (hdrR D) (hdrP D)

/-- A memory limit below what is needed (and below need only: the floor of a mebibyte never refuses less) fails. -/
theorem limits_fail {sys : EncSys} (g : sys.Good) {P : EncParams} {verbose : Bool} (hl : LimitsOk sys P verbose false) {N r p : Nat}
    (h0 : 0 < P.maxmem) (h1 : P.maxmem < memNeed N r) (h2 : 1048576 < memNeed N r) :
    LimitCode (firstFail .OK (limitTable sys P false N r p)) ∧
      ((∃ m, MemLimit sys P m) → sys.par.perf.1 = .OK →
        firstFail .OK (limitTable sys P false N r p) = .EBIGSLOW ∨ firstFail .OK (limitTable sys P false N r p) = .ETOOBIG) := by
  obtain ⟨q, hq, -, hhalf, hrep⟩ := hl.frac rfl
  have hv : P.maxmemfrac.Valid := by
    rw [hq]
    exact ⟨hrep, lt_of_lt_of_le (lt_of_le_of_lt hhalf (by norm_num)) (one_le_pow₀ (by norm_num : (1 : ℚ) ≤ 2) : (1 : ℚ) ≤ 2 ^ 1024)⟩
  have big : (∃ m, MemLimit sys P m) → TooBig sys P N r := by
    rintro ⟨m, hm⟩
    obtain ⟨-, -, -, -, -, -, hb, -⟩ := C17_bounds g.sz sys.par.cfg sys.par.mem P.maxmem P.maxmemfrac hv hm
    have := hb h0
    exact ⟨m, hm, by omega⟩
  constructor
  · rcases limitTable_cases g P false N r p with ⟨-, h⟩ | ⟨h, -⟩
    · rcases h with h | ⟨a, -, b, -⟩
      · cases h
      · exact absurd (big a) b
    · exact h
  · intro hm hp
    unfold limitTable
    rw [firstFail_cons (.inr hm), firstFail_cons (.inr hp)]
    by_cases hs : TooSlow sys P N r p
    · rw [firstFail_stop (by rintro (h | h); cases h; exact h ⟨big hm, hs⟩)]; exact .inl rfl
    · rw [firstFail_cons (.inr fun h => hs h.2), firstFail_stop (by rintro (h | h); cases h; exact h (big hm))]
      exact .inr rfl

theorem limitCode_ne_ok {c : Code} (h : LimitCode c) : c ≠ .OK := by
  rcases h with rfl | rfl | rfl | rfl | rfl | rfl <;> simp

/-- C95. Finding F34: given the memory that information mode prints as required at least, decryption is refused unless
the figure happens to be exact.  `t` is the size printed for the memory the header needs, `maxmem` what -M makes of
`t`; files. -/
theorem C95_required_file {sys : EncSys} (g : sys.Good) {inf : InFile} {outf : OutFile} {passwd : Bytes} (hin : inf.data.length < 2 ^ 64)
    (hk : sys.cookieOk = true) (hg : GenuineHeader inf.data) {P : EncParams} {verbose : Bool} (hl : LimitsOk sys P verbose false)
    (hfit : memNeed (2 ^ hdrLogN inf.data) (hdrR inf.data) < 2 ^ 64) (hmeb : 1048576 < memNeed (2 ^ hdrLogN inf.data) (hdrR inf.data))
    {t : CStr} (ht : humansize true (BitVec.ofNat 64 (memNeed (2 ^ hdrLogN inf.data) (hdrR inf.data))) = .ok (some t))
    (hM : humansize_parse t = .ok (some P.maxmem)) (hne : P.maxmem ≠ memNeed (2 ^ hdrLogN inf.data) (hdrR inf.data))
    {o : FileOut} (h : scryptdec_file sys inf outf passwd P verbose false = .ok o) :
    o.rc ≠ .OK ∧ LimitCode o.rc ∧ o.outf = outf ∧
      ((∃ m, MemLimit sys P m) → sys.par.perf.1 = .OK → o.rc = .EBIGSLOW ∨ o.rc = .ETOOBIG) := by
  obtain ⟨t', r, e1, e2, hb⟩ := C95_back (BitVec.ofNat 64 (memNeed (2 ^ hdrLogN inf.data) (hdrR inf.data)))
  rw [BitVec.toNat_ofNat, Nat.mod_eq_of_lt hfit] at hb
  rw [ht] at e1
  obtain rfl := Option.some.inj (Res.ok.inj e1)
  rw [hM] at e2
  obtain rfl := Res.ok.inj e2
  rcases hb with ⟨-, hb⟩ | ⟨-, v, hv, hle, hten, -, -⟩
  · cases hb
  obtain rfl := Option.some.inj hv
  obtain ⟨l1, l2⟩ := limits_fail g hl (p := hdrP inf.data) (by omega) (by omega) hmeb
  have hc := C08_file g hin hl h
  have hp : firstFail .OK (prepChecks sys passwd P false inf.data inf.err) =
      firstFail .OK (limitTable sys P false (2 ^ hdrLogN inf.data) (hdrR inf.data) (hdrP inf.data)) := by
    unfold prepChecks
    rw [List.append_assoc, firstFail_all]
    · exact firstFail_pull rfl (limitCode_ne_ok l1)
    · obtain ⟨a, b, c, d, e⟩ := hg
      simp only [List.mem_cons, List.not_mem_nil, or_false]
      rintro x (rfl | rfl | rfl | rfl | rfl | rfl | rfl)
      · exact hk
      · exact (by omega : 7 ≤ inf.data.length)
      · exact a
      · exact b
      · exact c
      · exact d
      · exact e
  have hpn : firstFail .OK (prepChecks sys passwd P false inf.data inf.err) ≠ .OK := by rw [hp]; exact limitCode_ne_ok l1
  rw [firstFail_pull rfl hpn, hp] at hc
  obtain ⟨-, ho, -⟩ := decFile_spec g hin h
  rw [if_neg (by rw [prepVerdict_table g hl]; exact hpn)] at ho
  rw [hc]
  exact ⟨limitCode_ne_ok l1, l1, ho, l2⟩

/-- C95. The same for buffers. -/
theorem C95_required_buf {sys : EncSys} (g : sys.Good) {inbuf outbuf : Bytes} {outlen : Nat} {passwd : Bytes} (hin : inbuf.length < 2 ^ 64)
    (hout : inbuf.length ≤ outbuf.length) (h128 : 128 ≤ inbuf.length) (hg : GenuineHeader inbuf) {P : EncParams} {verbose : Bool} (hl : LimitsOk sys P verbose false)
    (hfit : memNeed (2 ^ hdrLogN inbuf) (hdrR inbuf) < 2 ^ 64) (hmeb : 1048576 < memNeed (2 ^ hdrLogN inbuf) (hdrR inbuf))
    {t : CStr} (ht : humansize true (BitVec.ofNat 64 (memNeed (2 ^ hdrLogN inbuf) (hdrR inbuf))) = .ok (some t))
    (hM : humansize_parse t = .ok (some P.maxmem)) (hne : P.maxmem ≠ memNeed (2 ^ hdrLogN inbuf) (hdrR inbuf))
    {o : BufOut} (h : scryptdec_buf sys inbuf outbuf outlen passwd P verbose false = .ok o) :
    o.rc ≠ .OK ∧ LimitCode o.rc ∧
      ((∃ m, MemLimit sys P m) → sys.par.perf.1 = .OK → o.rc = .EBIGSLOW ∨ o.rc = .ETOOBIG) := by
  obtain ⟨t', r, e1, e2, hb⟩ := C95_back (BitVec.ofNat 64 (memNeed (2 ^ hdrLogN inbuf) (hdrR inbuf)))
  rw [BitVec.toNat_ofNat, Nat.mod_eq_of_lt hfit] at hb
  rw [ht] at e1
  obtain rfl := Option.some.inj (Res.ok.inj e1)
  rw [hM] at e2
  obtain rfl := Res.ok.inj e2
  rcases hb with ⟨-, hb⟩ | ⟨-, v, hv, hle, hten, -, -⟩
  · cases hb
  obtain rfl := Option.some.inj hv
  obtain ⟨l1, l2⟩ := limits_fail g hl (p := hdrP inbuf) (by omega) (by omega) hmeb
  have hc := C08_buf g hin hout hl h
  have hp : firstFail .OK (bufChecks sys passwd P false inbuf) =
      firstFail .OK (limitTable sys P false (2 ^ hdrLogN inbuf) (hdrR inbuf) (hdrP inbuf)) := by
    unfold bufChecks
    rw [List.append_assoc, firstFail_all]
    · exact firstFail_pull rfl (limitCode_ne_ok l1)
    · obtain ⟨a, b, c, d, e⟩ := hg
      simp only [List.mem_cons, List.not_mem_nil, or_false]
      rintro x (rfl | rfl | rfl | rfl | rfl)
      · exact ⟨by omega, a⟩
      · exact b
      · exact h128
      · exact d
      · exact e
  rw [hp] at hc
  rw [hc]
  exact ⟨limitCode_ne_ok l1, l1, l2⟩

/-- The sizes of the parameters scrypt itself picks (`r = 8`): 1024 * 2^logN bytes.  What information mode prints for
logN = 14 is accepted by -M and lies below the need; for logN = 20 it is refused by -M. -/
example : humansize true (BitVec.ofNat 64 (memNeed (2 ^ 14) 8)) = .ok (some "16 MB".toList) ∧
    humansize_parse "16 MB".toList = .ok (some 16000000) ∧ 16000000 ≠ memNeed (2 ^ 14) 8 ∧
    humansize true (BitVec.ofNat 64 (memNeed (2 ^ 20) 8)) = .ok (some "1.0 GB".toList) ∧
    humansize_parse "1.0 GB".toList = .ok none := by decide +kernel

/-- Finding F34 happens: any file encrypted with logN = 14, r = 8 (16777216 bytes needed; "requires at least 16 MB"),
decrypted with `-M 16MB` where nothing else is wrong. -/
theorem exRequired (sha : ShaHw) (hw : AesHw) {salt : Bytes} (hs : salt.length = 32) (dk m passwd : Bytes) (hm : m.length + 128 < 2 ^ 64) (outf : OutFile) :
    ∃ o, scryptdec_file (exEnc sha hw salt) ⟨[container dk 14 8 1 salt m], false⟩ outf passwd
        ⟨16000000, F64.fin false (1 / 8), F64.ofNat 5, 0, 0, 0⟩ true false = .ok o ∧ o.rc ≠ .OK ∧ LimitCode o.rc := by
  have hc := container_fields dk 14 8 1 salt m hs (by decide) (by decide) (by decide)
  have hD : (InFile.mk [container dk 14 8 1 salt m] false).data = container dk 14 8 1 salt m := by simp [InFile.data]
  have hlen : (InFile.mk [container dk 14 8 1 salt m] false).data.length < 2 ^ 64 := by rw [hD, hc.len]; exact hm
  have hl := exLimits sha hw salt ⟨16000000, F64.fin false (1 / 8), F64.ofNat 5, 0, 0, 0⟩ rfl true false
  have g := exEnc_good sha hw hs
  obtain ⟨o, ho⟩ := decFile_total (passwd := passwd) g (exEnc_ready sha hw salt) (outf := outf) hlen
    (P := ⟨16000000, F64.fin false (1 / 8), F64.ofNat 5, 0, 0, 0⟩) (verbose := true) (force := false) rfl (fun _ => checkDefined g hl _)
  refine ⟨o, ho, ?_⟩
  have hg : GenuineHeader (InFile.mk [container dk 14 8 1 salt m] false).data := by
    rw [hD]
    refine ⟨hc.magic, hc.version, by rw [hc.len]; omega, hc.sum, ?_⟩
    rw [hc.logN, hc.r, hc.p]; unfold GoodParams; decide
  have hn : memNeed (2 ^ hdrLogN (InFile.mk [container dk 14 8 1 salt m] false).data) (hdrR (InFile.mk [container dk 14 8 1 salt m] false).data) = 16777216 := by
    rw [hD, hc.logN, hc.r]; rfl
  obtain ⟨a, b, -⟩ := C95_required_file g hlen rfl hg hl (by rw [hn]; omega) (by rw [hn]; omega) (t := "16 MB".toList)
    (by rw [hn]; decide +kernel) (show humansize_parse "16 MB".toList = .ok (some 16000000) by decide +kernel) (by rw [hn]; decide) ho
  exact ⟨a, b⟩

end Scrypt.Props
