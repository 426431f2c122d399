import Verif.Proofs.EncTotal
import Verif.Props.Scrypt
/-
C01 - C10: the encrypted container.

`Spec/Format.lean` says what a container is; `EncSys` is everything the code depends on besides its
arguments (one for the encrypting, one for the decrypting side).
-/
namespace Scrypt.Props
open Scrypt Spec F64

set_option exponentiation.threshold 1100

/-! ### Resource checks -/

/-- The resource checks pass (or are switched off): the memory limit and the CPU speed could be determined, and
neither limit is exceeded. -/
def LimitsPass (sys : EncSys) (P : EncParams) (force : Bool) (N r p : Nat) : Prop :=
  force = true ∨ (∃ m, MemLimit sys P m) ∧ sys.par.perf.1 = .OK ∧ ¬ TooBig sys P N r ∧ ¬ TooSlow sys P N r p

/-- The codes of the resource checks. -/
def LimitCode (c : Code) : Prop :=
  c = .ELIMIT ∨ c = .ECLOCK ∨ c = .EKEY ∨ c = .EBIGSLOW ∨ c = .ETOOBIG ∨ c = .ETOOSLOW

theorem limitTable_cases {sys : EncSys} (g : sys.Good) (P : EncParams) (force : Bool) (N r p : Nat) :
    (firstFail .OK (limitTable sys P force N r p) = .OK ∧ LimitsPass sys P force N r p) ∨
    (LimitCode (firstFail .OK (limitTable sys P force N r p)) ∧ ¬ LimitsPass sys P force N r p) := by
  unfold limitTable LimitsPass
  cases force with
  | true =>
    rw [firstFail_cons (.inl rfl), firstFail_cons (.inl rfl), firstFail_cons (.inl rfl), firstFail_cons (.inl rfl), firstFail_cons (.inl rfl)]
    exact .inl ⟨rfl, .inl rfl⟩
  | false =>
    by_cases h1 : ∃ m, MemLimit sys P m
    case neg => rw [firstFail_stop (by simpa using h1)]; exact .inr ⟨.inl rfl, by simp [h1]⟩
    rw [firstFail_cons (.inr h1)]
    by_cases h2 : sys.par.perf.1 = .OK
    case neg =>
      rw [firstFail_stop (by simp [h2])]
      rcases g.perf with h | h | h
      · exact absurd h h2
      · rw [h]; exact .inr ⟨.inr (.inl rfl), by simp⟩
      · rw [h]; exact .inr ⟨.inr (.inr (.inl rfl)), by simp⟩
    rw [firstFail_cons (.inr h2)]
    by_cases h3 : TooBig sys P N r ∧ TooSlow sys P N r p
    · rw [firstFail_stop (by simp [h3])]; exact .inr ⟨by simp [LimitCode], by simp [h3]⟩
    rw [firstFail_cons (.inr h3)]
    by_cases h4 : TooBig sys P N r
    · rw [firstFail_stop (by simp [h4])]; exact .inr ⟨by simp [LimitCode], by simp [h4]⟩
    rw [firstFail_cons (.inr h4)]
    by_cases h5 : TooSlow sys P N r p
    · rw [firstFail_stop (by simp [h5])]; exact .inr ⟨by simp [LimitCode], by simp [h5]⟩
    rw [firstFail_cons (.inr h5)]
    exact .inl ⟨rfl, .inr ⟨h1, h2, h4, h5⟩⟩

theorem paramCode_cases {sys : EncSys} (g : sys.Good) {P : EncParams} {verbose force : Bool} (hl : LimitsOk sys P verbose force) (inp : Bytes) :
    (paramCode sys P verbose force inp = .OK ∧ GoodParams (hdrLogN inp) (hdrR inp) (hdrP inp) ∧
      LimitsPass sys P force (2 ^ hdrLogN inp) (hdrR inp) (hdrP inp)) ∨
    (paramCode sys P verbose force inp = .EINVAL ∧ ¬ GoodParams (hdrLogN inp) (hdrR inp) (hdrP inp)) ∨
    (LimitCode (paramCode sys P verbose force inp) ∧ ¬ LimitsPass sys P force (2 ^ hdrLogN inp) (hdrR inp) (hdrP inp)) := by
  rw [paramCode_table g hl]
  by_cases h : GoodParams (hdrLogN inp) (hdrR inp) (hdrP inp)
  · rw [firstFail_cons h]
    rcases limitTable_cases g P force (2 ^ hdrLogN inp) (hdrR inp) (hdrP inp) with ⟨a, b⟩ | ⟨a, b⟩
    · exact .inl ⟨a, h, b⟩
    · exact .inr (.inr ⟨a, b⟩)
  · rw [firstFail_stop h]; exact .inr (.inl ⟨rfl, h⟩)

theorem paramCode_ok {sys : EncSys} (g : sys.Good) {P : EncParams} {verbose force : Bool} (hl : LimitsOk sys P verbose force) (inp : Bytes) :
    paramCode sys P verbose force inp = .OK ↔ GoodParams (hdrLogN inp) (hdrR inp) (hdrP inp) ∧
      LimitsPass sys P force (2 ^ hdrLogN inp) (hdrR inp) (hdrP inp) := by
  rcases paramCode_cases g hl inp with h | h | h
  · simp [h]
  · simp [h]
  · refine ⟨fun h2 => ?_, fun h2 => absurd h2.2 h.2⟩
    rw [h2] at h
    simp [LimitCode] at h

/-! ### C08: which code is returned -/

/-- C08: the checks scryptdec_buf makes, in order, with the code for each. -/
def bufChecks (sys : EncSys) (passwd : Bytes) (P : EncParams) (force : Bool) (D : Bytes) : List (Prop × Code) :=
  let N := 2 ^ hdrLogN D
  let dk := scryptCode passwd (hdrSalt D) N (hdrR D) (hdrP D) 64
  [(7 ≤ D.length ∧ HasMagic D, .EINVAL),
   (VersionOk D, .EVERSION),
   (128 ≤ D.length, .EINVAL),
   (ChecksumOk D, .EINVAL),
   (GoodParams (hdrLogN D) (hdrR D) (hdrP D), .EINVAL)] ++
  limitTable sys P force N (hdrR D) (hdrP D) ++
  [(KdfOk sys N (hdrR D) (hdrP D), .EKEY),
   (PasswordOk dk D, .EPASS),
   (aesAvail sys = true, .EOPENSSL),
   (sys.ctr ≠ none, .ENOMEM),
   (TagOk dk D, .EINVAL)]

/-- C08: the checks scryptdec_file_prep makes on a stream containing `D` (`err`: reading ends with an error). -/
def prepChecks (sys : EncSys) (passwd : Bytes) (P : EncParams) (force : Bool) (D : Bytes) (err : Bool) : List (Prop × Code) :=
  let N := 2 ^ hdrLogN D
  let dk := scryptCode passwd (hdrSalt D) N (hdrR D) (hdrP D) 64
  let short : Code := if err then .ERDFILE else .EINVAL
  [(sys.cookieOk = true, .ENOMEM),
   (7 ≤ D.length, short),
   (HasMagic D, .EINVAL),
   (VersionOk D, .EVERSION),
   (96 ≤ D.length, short),
   (ChecksumOk D, .EINVAL),
   (GoodParams (hdrLogN D) (hdrR D) (hdrP D), .EINVAL)] ++
  limitTable sys P force N (hdrR D) (hdrP D) ++
  [(KdfOk sys N (hdrR D) (hdrP D), .EKEY),
   (PasswordOk dk D, .EPASS)]

/-- C08: the checks scryptdec_file_copy makes after that. -/
def copyChecks (sys : EncSys) (passwd : Bytes) (D : Bytes) (err : Bool) (outf : OutFile) : List (Prop × Code) :=
  let dk := scryptCode passwd (hdrSalt D) (2 ^ hdrLogN D) (hdrR D) (hdrP D) 64
  [(aesAvail sys = true, .EOPENSSL),
   (sys.ctr ≠ none, .ENOMEM),
   (Fits outf (D.length - 128), .EWRFILE),
   (err = false, .ERDFILE),
   (128 ≤ D.length, .EINVAL),
   (TagOk dk D, .EINVAL)]

theorem firstFail_pull {C : Type} {ok : C} {a b : List (Prop × C)} {c : C} (h : firstFail ok a = c) (hc : c ≠ ok) : firstFail ok (a ++ b) = c := by
  induction a with
  | nil => exact absurd h.symm hc
  | cons x a ih =>
    obtain ⟨p, e⟩ := x
    by_cases hp : p
    · rw [List.cons_append, firstFail_cons hp]; rw [firstFail_cons hp] at h; exact ih h
    · rw [List.cons_append, firstFail_stop hp]; rwa [firstFail_stop hp] at h

theorem firstFail_all {C : Type} {ok : C} {a b : List (Prop × C)} (h : ∀ x ∈ a, x.1) : firstFail ok (a ++ b) = firstFail ok b := by
  induction a with
  | nil => rfl
  | cons x a ih =>
    obtain ⟨p, e⟩ := x
    rw [List.cons_append, firstFail_cons (h _ List.mem_cons_self)]
    exact ih (fun x hx => h x (List.mem_cons_of_mem _ hx))

theorem limitTable_all {sys : EncSys} {P : EncParams} {force : Bool} {N r p : Nat} (h : LimitsPass sys P force N r p) :
    ∀ x ∈ limitTable sys P force N r p, x.1 := by
  unfold limitTable
  rcases h with h | ⟨h1, h2, h3, h4⟩
  · subst h
    simp
  · simp only [List.mem_cons, List.not_mem_nil, or_false]
    rintro x (rfl | rfl | rfl | rfl | rfl)
    · exact .inr h1
    · exact .inr h2
    · exact .inr (fun h => h3 h.1)
    · exact .inr h3
    · exact .inr h4

theorem aes_table (sys : EncSys) (rest : List (Prop × Code)) :
    firstFail .OK ((aesAvail sys = true, .EOPENSSL) :: (sys.ctr ≠ none, .ENOMEM) :: rest) =
      firstFail .OK ((aesCode sys = .OK, aesCode sys) :: rest) := by
  unfold aesCode
  by_cases h1 : aesAvail sys = true
  · rw [firstFail_cons h1]
    by_cases h2 : sys.ctr = none
    · rw [firstFail_stop (by simp [h2])]
      simp only [h1, h2, Bool.not_true, Bool.false_eq_true, if_false, Option.isNone_none, if_true]
      rw [firstFail_stop (by simp)]
    · rw [firstFail_cons h2]
      have : sys.ctr.isNone = false := by cases h : sys.ctr <;> simp_all
      simp only [h1, this, Bool.not_true, Bool.false_eq_true, if_false]
      exact (firstFail_cons (by simp)).symm
  · rw [firstFail_stop h1]
    have : aesAvail sys = false := by simpa using h1
    simp only [this, Bool.not_false, if_true]
    rw [firstFail_stop (by simp)]

/-- The middle of both tables: parameter checks. -/
theorem middle {sys : EncSys} (g : sys.Good) {P : EncParams} {verbose force : Bool} (hl : LimitsOk sys P verbose force) (D : Bytes)
    (rest : List (Prop × Code)) :
    firstFail .OK ((GoodParams (hdrLogN D) (hdrR D) (hdrP D), Code.EINVAL) ::
      (limitTable sys P force (2 ^ hdrLogN D) (hdrR D) (hdrP D) ++ rest)) =
    if paramCode sys P verbose force D ≠ .OK then paramCode sys P verbose force D else firstFail .OK rest := by
  by_cases hp : paramCode sys P verbose force D = .OK
  · rw [if_neg (not_not.2 hp)]
    obtain ⟨h1, h2⟩ := (paramCode_ok g hl D).1 hp
    rw [firstFail_cons h1, firstFail_all (limitTable_all h2)]
  · rw [if_pos hp]
    have := paramCode_table g hl D
    rw [← List.cons_append]
    exact firstFail_pull this.symm hp

theorem firstFail_split {C : Type} {ok : C} {a b : List (Prop × C)} (he : ∀ x ∈ a, x.2 = ok → x.1) :
    (firstFail ok a = ok → firstFail ok (a ++ b) = firstFail ok b) ∧ (firstFail ok a ≠ ok → firstFail ok (a ++ b) = firstFail ok a) := by
  refine ⟨fun h => firstFail_all ?_, fun h => firstFail_pull rfl h⟩
  induction a with
  | nil => simp
  | cons x a ih =>
    obtain ⟨c, e⟩ := x
    by_cases hc : c
    · rw [firstFail_cons hc] at h
      intro x hx
      rcases List.mem_cons.1 hx with rfl | hx
      · exact hc
      · exact ih (fun x hx => he x (List.mem_cons_of_mem _ hx)) h x hx
    · rw [firstFail_stop hc] at h
      exact absurd (he _ List.mem_cons_self h) hc

/-- C08, buffers: the return code is the code of the first failing check. -/
theorem C08_buf {sys : EncSys} (g : sys.Good) {inbuf outbuf : Bytes} {outlen : Nat} {passwd : Bytes} (hin : inbuf.length < 2 ^ 64)
    (hout : inbuf.length ≤ outbuf.length) {P : EncParams} {verbose force : Bool} (hl : LimitsOk sys P verbose force) {o : BufOut}
    (h : scryptdec_buf sys inbuf outbuf outlen passwd P verbose force = .ok o) :
    o.rc = firstFail .OK (bufChecks sys passwd P force inbuf) := by
  rw [(decBuf_spec g hin hout h).rc]
  unfold bufVerdict bufChecks
  simp only [List.cons_append, List.nil_append]
  by_cases h1 : inbuf.length < 7 ∨ ¬ HasMagic inbuf
  · rw [if_pos h1, firstFail_stop (by rintro ⟨a, b⟩; rcases h1 with h1 | h1; omega; exact h1 b)]
  have hM : HasMagic inbuf := by by_contra hc; exact h1 (.inr hc)
  rw [if_neg h1, firstFail_cons ⟨by by_contra hc; exact h1 (.inl (by omega)), hM⟩]
  by_cases h2 : VersionOk inbuf
  case neg => rw [if_pos h2, firstFail_stop h2]
  rw [if_neg (not_not.2 h2), firstFail_cons h2]
  by_cases h3 : inbuf.length < 128
  · rw [if_pos h3, firstFail_stop (by omega)]
  rw [if_neg h3, firstFail_cons (by omega)]
  by_cases h4 : ChecksumOk inbuf
  case neg => rw [if_pos h4, firstFail_stop h4]
  rw [if_neg (not_not.2 h4), firstFail_cons h4, middle g hl inbuf]
  by_cases hp : paramCode sys P verbose force inbuf = .OK
  case neg => rw [if_pos hp, if_pos hp]
  rw [if_neg (not_not.2 hp), if_neg (not_not.2 hp)]
  by_cases h6 : KdfOk sys (2 ^ hdrLogN inbuf) (hdrR inbuf) (hdrP inbuf)
  case neg => rw [if_pos h6, firstFail_stop h6]
  rw [if_neg (not_not.2 h6), firstFail_cons h6]
  by_cases h7 : PasswordOk (inpKey passwd inbuf) inbuf
  case neg => rw [if_pos h7]; exact (firstFail_stop h7).symm
  rw [if_neg (not_not.2 h7)]
  refine Eq.trans ?_ (firstFail_cons (ok := Code.OK) h7).symm
  rw [aes_table]
  by_cases h8 : aesCode sys = .OK
  case neg => rw [if_pos h8, firstFail_stop h8]
  rw [if_neg (not_not.2 h8), firstFail_cons h8]
  by_cases h9 : TagOk (inpKey passwd inbuf) inbuf
  case neg => rw [if_pos h9]; exact (firstFail_stop h9).symm
  rw [if_neg (not_not.2 h9)]
  refine Eq.trans ?_ (firstFail_cons (ok := Code.OK) h9).symm
  rfl

theorem prepVerdict_table {sys : EncSys} (g : sys.Good) {inf : InFile} {passwd : Bytes}
    {P : EncParams} {verbose force : Bool} (hl : LimitsOk sys P verbose force) :
    prepVerdict sys inf passwd P verbose force = firstFail .OK (prepChecks sys passwd P force inf.data inf.err) := by
  unfold prepChecks prepVerdict
  simp only [List.cons_append, List.nil_append]
  by_cases h0 : sys.cookieOk = true
  case neg =>
    have h0' : sys.cookieOk = false := by simpa using h0
    rw [if_pos h0', firstFail_stop h0]
  rw [if_neg (by simp [h0]), firstFail_cons h0]
  unfold headVerdict
  by_cases h1 : inf.data.length < 7
  · have hs : (if inf.err = true then Code.ERDFILE else .EINVAL) ≠ .OK := by split <;> simp
    rw [if_pos h1, if_pos hs, firstFail_stop (by omega)]
  rw [if_neg h1, firstFail_cons (by omega)]
  by_cases h2 : HasMagic inf.data
  case neg => rw [if_pos h2, if_pos (by simp), firstFail_stop h2]
  rw [if_neg (not_not.2 h2), firstFail_cons h2]
  by_cases h3 : VersionOk inf.data
  case neg => rw [if_pos h3, if_pos (by simp), firstFail_stop h3]
  rw [if_neg (not_not.2 h3), firstFail_cons h3]
  by_cases h96 : inf.data.length < 96
  · have hs : (if inf.err = true then Code.ERDFILE else .EINVAL) ≠ .OK := by split <;> simp
    rw [if_pos h96, if_pos hs, firstFail_stop (by omega)]
  rw [if_neg h96, firstFail_cons (by omega), if_neg (show ¬ (Code.OK ≠ Code.OK) by simp)]
  unfold sysVerdict setupVerdict
  by_cases h4 : ChecksumOk inf.data
  case neg => rw [if_pos h4, firstFail_stop h4]
  rw [if_neg (not_not.2 h4), firstFail_cons h4, middle g hl inf.data]
  by_cases hp : paramCode sys P verbose force inf.data = .OK
  case neg => rw [if_pos hp, if_pos hp]
  rw [if_neg (not_not.2 hp), if_neg (not_not.2 hp)]
  by_cases h6 : KdfOk sys (2 ^ hdrLogN inf.data) (hdrR inf.data) (hdrP inf.data)
  case neg => rw [if_pos h6, firstFail_stop h6]
  rw [if_neg (not_not.2 h6), firstFail_cons h6]
  by_cases h7 : PasswordOk (inpKey passwd inf.data) inf.data
  case neg => rw [if_pos h7]; exact (firstFail_stop h7).symm
  rw [if_neg (not_not.2 h7)]
  refine Eq.trans ?_ (firstFail_cons (ok := Code.OK) h7).symm
  rfl

theorem copyVerdict_table (sys : EncSys) (D : Bytes) (err : Bool) (outf : OutFile) (passwd : Bytes) :
    copyVerdict D err outf (inpKey passwd D) (aesCode sys) = firstFail .OK (copyChecks sys passwd D err outf) := by
  unfold copyChecks copyVerdict
  simp only []
  rw [aes_table]
  by_cases h8 : aesCode sys = .OK
  case neg => rw [if_pos h8, firstFail_stop h8]
  rw [if_neg (not_not.2 h8), firstFail_cons h8]
  by_cases hF : Fits outf (D.length - 128)
  case neg => rw [if_pos hF, firstFail_stop hF]
  rw [if_neg (not_not.2 hF), firstFail_cons hF]
  by_cases he : err = true
  · rw [if_pos he, firstFail_stop (by simp [he])]
  rw [if_neg he, firstFail_cons (by simpa using he)]
  by_cases h128 : D.length < 128
  · rw [if_pos h128, firstFail_stop (by omega)]
  rw [if_neg h128, firstFail_cons (by omega)]
  by_cases h9 : TagOk (inpKey passwd D) D
  case neg => rw [if_pos h9]; exact (firstFail_stop h9).symm
  rw [if_neg (not_not.2 h9)]
  refine Eq.trans ?_ (firstFail_cons (ok := Code.OK) h9).symm
  rfl

theorem prepChecks_codes (sys : EncSys) (passwd : Bytes) (P : EncParams) (force : Bool) (D : Bytes) (err : Bool) :
    ∀ x ∈ prepChecks sys passwd P force D err, x.2 = .OK → x.1 := by
  have hs : (if err = true then Code.ERDFILE else .EINVAL) ≠ .OK := by split <;> simp
  intro x hx h
  unfold prepChecks limitTable at hx
  simp only [List.cons_append, List.nil_append, List.mem_cons, List.not_mem_nil, or_false] at hx
  rcases hx with rfl | rfl | rfl | rfl | rfl | rfl | rfl | rfl | rfl | rfl | rfl | rfl | rfl | rfl
  all_goals first
    | exact absurd h hs
    | exact .inr h
    | exact absurd h (by simp)

/-- C08, streams: the return code of scryptdec_file is the code of the first failing check. -/
theorem C08_file {sys : EncSys} (g : sys.Good) {inf : InFile} {outf : OutFile} {passwd : Bytes} (hin : inf.data.length < 2 ^ 64)
    {P : EncParams} {verbose force : Bool} (hl : LimitsOk sys P verbose force) {o : FileOut}
    (h : scryptdec_file sys inf outf passwd P verbose force = .ok o) :
    o.rc = firstFail .OK (prepChecks sys passwd P force inf.data inf.err ++ copyChecks sys passwd inf.data inf.err outf) := by
  rw [(decFile_spec g hin h).1, prepVerdict_table g hl, copyVerdict_table]
  obtain ⟨h1, h2⟩ := firstFail_split (b := copyChecks sys passwd inf.data inf.err outf) (prepChecks_codes sys passwd P force inf.data inf.err)
  by_cases hp : firstFail .OK (prepChecks sys passwd P force inf.data inf.err) = .OK
  · rw [if_neg (not_not.2 hp), h1 hp]
  · rw [if_pos hp, h2 hp]

/-- C08, streams: the return code of scryptdec_file_prep is the code of the first failing check, and it delivers a
cookie exactly on success. -/
theorem C08_prep {sys : EncSys} (g : sys.Good) {inf : InFile} {passwd : Bytes} {P : EncParams} {verbose force : Bool}
    (hl : LimitsOk sys P verbose force) {o : PrepOut} (h : scryptdec_file_prep sys inf passwd P verbose force = .ok o) :
    o.rc = firstFail .OK (prepChecks sys passwd P force inf.data inf.err) ∧ (o.rc = .OK ↔ o.cookie ≠ none) := by
  obtain ⟨h1, h2, h3, -⟩ := decPrep_spec g h
  refine ⟨by rw [h1, prepVerdict_table g hl], fun h0 => ?_, fun h0 => ?_⟩
  · obtain ⟨c, hc, -⟩ := h2 h0
    rw [hc]; exact Option.some_ne_none c
  · by_contra hc
    exact h0 (h3 hc).1

/-- C08. A non-zero version byte after the magic gives EVERSION, whatever follows. -/
theorem C08_version {sys : EncSys} (g : sys.Good) {D outbuf : Bytes} {outlen : Nat} {inf : InFile} {outf : OutFile} {passwd : Bytes}
    (hin : D.length < 2 ^ 64) (hout : D.length ≤ outbuf.length) {P : EncParams} {verbose force : Bool} {o : BufOut} {o' : FileOut}
    (hD : inf.data = D) (h7 : 7 ≤ D.length) (hm : HasMagic D) (hv : ¬ VersionOk D) :
    (scryptdec_buf sys D outbuf outlen passwd P verbose force = .ok o → o.rc = .EVERSION) ∧
    (scryptdec_file sys inf outf passwd P verbose force = .ok o' → sys.cookieOk = true → o'.rc = .EVERSION) := by
  constructor
  · intro h
    rw [(decBuf_spec g hin hout h).rc]
    unfold bufVerdict
    rw [if_neg (by simp only [hm, not_true_eq_false, or_false]; omega), if_pos hv]
  · intro h hc
    have he : headVerdict inf.data inf.err = .EVERSION := by
      unfold headVerdict
      rw [hD, if_neg (by omega), if_neg (not_not.2 hm), if_pos hv]
    have hp : prepVerdict sys inf passwd P verbose force = .EVERSION := by
      unfold prepVerdict
      rw [if_neg (by simp [hc]), if_pos (by simp [he]), he]
    rw [(decFile_spec g (by rw [hD]; exact hin) h).1, hp, if_pos (by simp)]

/-! ### C01, C02: round trips -/

/-- Decrypting a container with the right passphrase. -/
theorem container_unlocked {sys : EncSys} (g : sys.Good) {passwd salt m D : Bytes} {l r p : Nat}
    (hD : IsContainer (scryptCode passwd salt (2 ^ l) r p 64) l r p salt m D) (hg : GoodParams l r p)
    {P : EncParams} {verbose force : Bool} (hl : LimitsOk sys P verbose force) (hlim : LimitsPass sys P force (2 ^ l) r p)
    (hk : KdfOk sys (2 ^ l) r p) :
    inpKey passwd D = scryptCode passwd salt (2 ^ l) r p 64 ∧ Unlocked sys passwd P verbose force D 128 := by
  have hkey : inpKey passwd D = scryptCode passwd salt (2 ^ l) r p 64 := by
    unfold inpKey; rw [hD.salt, hD.logN, hD.r, hD.p]
  refine ⟨hkey, ⟨by rw [hD.len]; omega, hD.magic, hD.version, hD.sum, ?_, ?_, ?_⟩⟩
  · rw [paramCode_ok g hl, hD.logN, hD.r, hD.p]
    exact ⟨hg, hlim⟩
  · rw [hD.logN, hD.r, hD.p]; exact hk
  · rw [hkey]; exact hD.pass

/-- C01. What scryptenc_buf produced, scryptdec_buf turns back into the message, on any other system whose
resource checks pass (or with `force`) and which has the memory: return code OK, the message, its length, and the
same logN, r, p. -/
theorem C01_roundtrip {se sd : EncSys} (ge : se.Good) (gd : sd.Good) (ready : SelfTestReady sd)
    {m outbuf passwd : Bytes} (hm : m.length + 128 < 2 ^ 64) (hout : m.length + 128 ≤ outbuf.length)
    {P : EncParams} {verbose force : Bool} {o : BufOut}
    (henc : scryptenc_buf se m outbuf passwd P verbose force = .ok o) (hok : o.rc = .OK)
    {outbuf2 : Bytes} {outlen : Nat} (hout2 : m.length + 128 ≤ outbuf2.length)
    {P2 : EncParams} {verbose2 force2 : Bool} (hz : P2.zero = true) (hl : LimitsOk sd P2 verbose2 force2)
    (hlim : LimitsPass sd P2 force2 (2 ^ o.P.logN.toNat) o.P.r.toNat o.P.p.toNat)
    (hk : KdfOk sd (2 ^ o.P.logN.toNat) o.P.r.toNat o.P.p.toNat) (ha : aesCode sd = .OK) :
    ∃ o2, scryptdec_buf sd (o.out.take (m.length + 128)) outbuf2 outlen passwd P2 verbose2 force2 = .ok o2 ∧
      o2.rc = .OK ∧ o2.outlen = m.length ∧ o2.out.take o2.outlen = m ∧
      o2.P.logN = o.P.logN ∧ o2.P.r = o.P.r ∧ o2.P.p = o.P.p := by
  classical
  obtain ⟨salt, l, i1, i2, i3, i4, i5, i6⟩ := encBuf_inv ge (by omega) hout henc hok
  have hsalt := ge.salt _ i1
  have hlN : o.P.logN.toNat = l := by omega
  rw [hlN] at hlim hk
  have hD := container_fields (scryptCode passwd salt (2 ^ l) o.P.r.toNat o.P.p.toNat 64) l o.P.r.toNat o.P.p.toNat salt m hsalt
    (by have := i3.2.1; omega) o.P.r.isLt o.P.p.isLt
  have e : o.out.take (m.length + 128) = container (scryptCode passwd salt (2 ^ l) o.P.r.toNat o.P.p.toNat 64) l o.P.r.toNat o.P.p.toNat salt m := by
    rw [i6, List.take_append_of_le_length (by rw [container_length _ _ _ _ _ _ hsalt]), List.take_of_length_le (by rw [container_length _ _ _ _ _ _ hsalt])]
  rw [e]
  generalize container (scryptCode passwd salt (2 ^ l) o.P.r.toNat o.P.p.toNat 64) l o.P.r.toNat o.P.p.toNat salt m = D at hD
  obtain ⟨hkey, hU⟩ := container_unlocked gd hD i3 hl hlim hk
  have hlen := hD.len
  obtain ⟨o2, h2⟩ := decBuf_total gd ready (inbuf := D) (outbuf := outbuf2) (outlen := outlen) (passwd := passwd) (by omega) (by omega) hz
    (fun _ => checkDefined gd hl D)
  have hs := decBuf_spec gd (by omega) (by omega) h2
  obtain ⟨out1, out2⟩ := hs.out_yes hU ha
  rw [hkey, hD.text] at out1
  rw [hlen, Nat.add_sub_cancel] at out1 out2
  have hP : o2.P = hdrParams P2 D := by
    rw [hs.par]
    exact if_pos ⟨hU.magic, hU.version, hU.len⟩
  refine ⟨o2, h2, ?_, out2, ?_, ?_⟩
  · rw [hs.rc, bufVerdict_ok]
    exact ⟨hU.len, hU.magic, hU.version, hU.sum, hU.params, hU.kdf, hU.pass, ha, by rw [hkey]; exact hD.tag⟩
  · rw [out2, out1, List.take_append_of_le_length (by omega), List.take_of_length_le (by omega)]
  · rw [hP]
    unfold hdrParams
    rw [hD.logN, hD.r, hD.p]
    exact ⟨i2.symm, BitVec.eq_of_toNat_eq (by simp), BitVec.eq_of_toNat_eq (by simp)⟩

/-- C01 with `force`: no condition on resources other than that the memory can be allocated. -/
theorem C01_roundtrip_forced {se sd : EncSys} (ge : se.Good) (gd : sd.Good) (ready : SelfTestReady sd)
    {m outbuf passwd : Bytes} (hm : m.length + 128 < 2 ^ 64) (hout : m.length + 128 ≤ outbuf.length)
    {P : EncParams} {verbose force : Bool} {o : BufOut}
    (henc : scryptenc_buf se m outbuf passwd P verbose force = .ok o) (hok : o.rc = .OK)
    {outbuf2 : Bytes} {outlen : Nat} (hout2 : m.length + 128 ≤ outbuf2.length)
    {P2 : EncParams} (hz : P2.zero = true)
    (hk : KdfOk sd (2 ^ o.P.logN.toNat) o.P.r.toNat o.P.p.toNat) (ha : aesCode sd = .OK) :
    ∃ o2, scryptdec_buf sd (o.out.take (m.length + 128)) outbuf2 outlen passwd P2 false true = .ok o2 ∧
      o2.rc = .OK ∧ o2.outlen = m.length ∧ o2.out.take o2.outlen = m := by
  obtain ⟨o2, h1, h2, h3, h4, -⟩ := C01_roundtrip (outlen := outlen) ge gd ready hm hout henc hok hout2 (P2 := P2) (verbose2 := false) (force2 := true) hz
    ⟨by simp, by simp⟩ (.inl rfl) hk ha
  exact ⟨o2, h1, h2, h3, h4⟩

/-- A successful scryptenc_file has written exactly one container. -/
theorem encFile_inv {sys : EncSys} (g : sys.Good) {inf : InFile} {outf : OutFile} {passwd : Bytes} (hin : inf.data.length < 2 ^ 64)
    {P : EncParams} {verbose force : Bool} {o : FileOut}
    (h : scryptenc_file sys inf outf passwd P verbose force = .ok o) (hok : o.rc = .OK) :
    ∃ (salt : Bytes) (l : Nat), sys.salt = some salt ∧ salt.length = 32 ∧ o.P.logN = l ∧ GoodParams l o.P.r.toNat o.P.p.toNat ∧
      KdfOk sys (2 ^ l) o.P.r.toNat o.P.p.toNat ∧ aesCode sys = .OK ∧ inf.err = false ∧ Fits outf (inf.data.length + 128) ∧
      setupParams sys P verbose force = .ok (.OK, o.P, o.err) ∧
      o.outf.written = outf.written ++
        container (scryptCode passwd salt (2 ^ l) o.P.r.toNat o.P.p.toNat 64) l o.P.r.toNat o.P.p.toNat salt inf.data := by
  classical
  obtain ⟨s, hs, hP, hE, -, h1, h2⟩ := encFile_spec g hin h
  by_cases h0 : s.rc = .OK
  case neg => rw [(h1 h0).1] at hok; exact absurd hok h0
  obtain ⟨salt, l, i1, i2, i3, i4, i5, i6, i7, i8, i9, -⟩ := h2 h0
  obtain ⟨_, _, _, _, _, hset, _⟩ := encSetup_inv g hs h0
  rw [hok] at i8
  by_cases a1 : Fits outf 96
  case neg => rw [if_pos a1] at i8; cases i8
  rw [if_neg (not_not.2 a1)] at i8
  by_cases a2 : aesCode sys = .OK
  case neg => rw [if_pos a2] at i8; exact absurd i8.symm a2
  rw [if_neg (not_not.2 a2)] at i8
  by_cases a3 : Fits outf (96 + inf.data.length)
  case neg => rw [if_pos a3] at i8; cases i8
  rw [if_neg (not_not.2 a3)] at i8
  by_cases a4 : inf.err = true
  · rw [if_pos a4] at i8; cases i8
  rw [if_neg a4] at i8
  by_cases a5 : Fits outf (inf.data.length + 128)
  case neg => rw [if_pos a5] at i8; cases i8
  rw [if_neg (show ¬ (¬ Fits outf 96 ∨ aesCode sys ≠ .OK) by simp [a1, a2]),
    if_neg (show ¬ (¬ Fits outf (96 + inf.data.length) ∨ inf.err = true) by simp [a3, a4])] at i9
  rw [hP, hE]
  refine ⟨salt, l, i1, i2, i3, i6, i7, a2, by simpa using a4, a5, hset, ?_⟩
  rw [i9, fwrite_fits (by rw [container_length _ _ _ _ _ _ i2]; exact a5), i4]

/-- C02. What scryptenc_file wrote, scryptdec_file turns back into the original stream, however either input
is cut into successive reads (`segs`), on any system whose resource checks pass. -/
theorem C02_roundtrip {se sd : EncSys} (ge : se.Good) (gd : sd.Good) (ready : SelfTestReady sd)
    {inf : InFile} {outf : OutFile} {passwd : Bytes} (hm : inf.data.length + 128 < 2 ^ 64)
    {P : EncParams} {verbose force : Bool} {o : FileOut}
    (henc : scryptenc_file se inf outf passwd P verbose force = .ok o) (hok : o.rc = .OK)
    {inf2 : InFile} {outf2 : OutFile} (hin2 : outf.written ++ inf2.data = o.outf.written) (herr : inf2.err = false)
    (hroom : Fits outf2 inf.data.length)
    {P2 : EncParams} {verbose2 force2 : Bool} (hz : P2.zero = true) (hl : LimitsOk sd P2 verbose2 force2)
    (hlim : LimitsPass sd P2 force2 (2 ^ o.P.logN.toNat) o.P.r.toNat o.P.p.toNat)
    (hk : KdfOk sd (2 ^ o.P.logN.toNat) o.P.r.toNat o.P.p.toNat) (ha : aesCode sd = .OK) (hc : sd.cookieOk = true) :
    ∃ o2, scryptdec_file sd inf2 outf2 passwd P2 verbose2 force2 = .ok o2 ∧
      o2.rc = .OK ∧ o2.outf.written = outf2.written ++ inf.data ∧
      o2.P.logN = o.P.logN ∧ o2.P.r = o.P.r ∧ o2.P.p = o.P.p := by
  classical
  obtain ⟨salt, l, -, hsalt, i2, i3, -, -, -, -, -, i6⟩ := encFile_inv ge (by omega) henc hok
  have hlN : o.P.logN.toNat = l := by omega
  rw [hlN] at hlim hk
  have hD := container_fields (scryptCode passwd salt (2 ^ l) o.P.r.toNat o.P.p.toNat 64) l o.P.r.toNat o.P.p.toNat salt inf.data hsalt
    (by have := i3.2.1; omega) o.P.r.isLt o.P.p.isLt
  have e : inf2.data = container (scryptCode passwd salt (2 ^ l) o.P.r.toNat o.P.p.toNat 64) l o.P.r.toNat o.P.p.toNat salt inf.data := by
    rw [i6] at hin2
    exact List.append_cancel_left hin2
  rw [← e] at hD
  obtain ⟨hkey, hU⟩ := container_unlocked gd hD i3 hl hlim hk
  have hlen := hD.len
  obtain ⟨o2, h2⟩ := decFile_total gd ready (inf := inf2) (outf := outf2) (passwd := passwd) (by omega) hz (fun _ => checkDefined gd hl _)
  obtain ⟨s1, s2, s3, -⟩ := decFile_spec gd (by omega) h2
  have hp : prepVerdict sd inf2 passwd P2 verbose2 force2 = .OK :=
    prepVerdict_ok.2 ⟨hc, ⟨by omega, hU.magic, hU.version, hU.sum, hU.params, hU.kdf, hU.pass⟩⟩
  rw [if_neg (not_not.2 hp)] at s1
  rw [if_pos hp, copyOut, if_pos ha, hkey, hD.text] at s2
  rw [if_pos ⟨hc, headVerdict_ok.2 ⟨by omega, hU.magic, hU.version⟩⟩] at s3
  have hF : Fits outf2 (inf2.data.length - 128) := by rw [hlen, Nat.add_sub_cancel]; exact hroom
  refine ⟨o2, h2, ?_, by rw [s2]; exact fwrite_fits hroom, ?_⟩
  · rw [s1]
    unfold copyVerdict
    rw [if_neg (not_not.2 ha), if_neg (not_not.2 hF), if_neg (by simp [herr]), if_neg (by omega), if_neg (not_not.2 (by rw [hkey]; exact hD.tag))]
  · rw [s3]
    unfold hdrParams
    rw [hD.logN, hD.r, hD.p]
    exact ⟨i2.symm, BitVec.eq_of_toNat_eq (by simp), BitVec.eq_of_toNat_eq (by simp)⟩

/-! ### C03: the format -/

theorem goodParams_p {l r p : Nat} (h : GoodParams l r p) : r * p < 2 ^ 30 := h.2.2.2.2

/-- C03, buffers. A successful encryption puts a container of `m.length + 128` bytes (and nothing else) into the
output buffer: the format of `Spec.container`, under the key the code derives; that is `Spec.encrypted` for every
p up to 2^25 (beyond that the derived key is not RFC 7914 scrypt's: finding F13). -/
theorem C03_buf {sys : EncSys} (g : sys.Good) {m outbuf passwd : Bytes} (hm : m.length < 2 ^ 64)
    (hout : m.length + 128 ≤ outbuf.length) {P : EncParams} {verbose force : Bool} {o : BufOut}
    (h : scryptenc_buf sys m outbuf passwd P verbose force = .ok o) (hok : o.rc = .OK) :
    ∃ salt l, sys.salt = some salt ∧ salt.length = 32 ∧ o.P.logN = (l : Nat) ∧
      o.out = container (scryptCode passwd salt (2 ^ l) o.P.r.toNat o.P.p.toNat 64) l o.P.r.toNat o.P.p.toNat salt m ++
        outbuf.drop (m.length + 128) ∧
      (container (scryptCode passwd salt (2 ^ l) o.P.r.toNat o.P.p.toNat 64) l o.P.r.toNat o.P.p.toNat salt m).length = m.length + 128 ∧
      (o.P.p.toNat ≤ 2 ^ 25 → o.out = encrypted passwd l o.P.r.toNat o.P.p.toNat salt m ++ outbuf.drop (m.length + 128)) := by
  obtain ⟨salt, l, i1, i2, i3, i4, i5, i6⟩ := encBuf_inv g hm hout h hok
  refine ⟨salt, l, i1, g.salt _ i1, i2, i6, container_length _ _ _ _ _ _ (g.salt _ i1), fun hp => ?_⟩
  rw [i6, encrypted, scryptCode_eq _ _ _ _ _ _ hp]

/-- C03, streams. -/
theorem C03_file {sys : EncSys} (g : sys.Good) {inf : InFile} {outf : OutFile} {passwd : Bytes} (hin : inf.data.length < 2 ^ 64)
    {P : EncParams} {verbose force : Bool} {o : FileOut}
    (h : scryptenc_file sys inf outf passwd P verbose force = .ok o) (hok : o.rc = .OK) :
    ∃ salt l, sys.salt = some salt ∧ salt.length = 32 ∧ o.P.logN = (l : Nat) ∧
      o.outf.written = outf.written ++
        container (scryptCode passwd salt (2 ^ l) o.P.r.toNat o.P.p.toNat 64) l o.P.r.toNat o.P.p.toNat salt inf.data ∧
      (o.P.p.toNat ≤ 2 ^ 25 → o.outf.written = outf.written ++ encrypted passwd l o.P.r.toNat o.P.p.toNat salt inf.data) := by
  obtain ⟨salt, l, i1, i2, i3, -, -, -, -, -, -, i4⟩ := encFile_inv g hin h hok
  refine ⟨salt, l, i1, i2, i3, i4, fun hp => ?_⟩
  rw [i4, encrypted, scryptCode_eq _ _ _ _ _ _ hp]

end Scrypt.Props
