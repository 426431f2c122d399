import Verif.Proofs.Handle
/-
C90: one decryption handle, several calls of scryptdec_file_copy.
-/
namespace Scrypt.Props
open Scrypt Spec

/-- The input as it stands after the calls with results `os`. -/
abbrev lastInf (c : Cookie) (os : List CopyOut) : InFile := (os.getLast?.map (·.inf)).getD c.inf

theorem handleCalls_split {c : Cookie} {pre post : List HandleCall} {k : HandleCall} {os : List CopyOut} (h : handleCalls c (pre ++ k :: post) = .ok os) :
    ∃ o1 o o2, os = o1 ++ o :: o2 ∧ o1.length = pre.length ∧ handleCalls c pre = .ok o1 ∧
      scryptdec_file_copy k.sys { c with inf := k.again.getD (lastInf c o1) } k.outf = .ok o ∧ handleCalls { c with inf := o.inf } post = .ok o2 := by
  obtain ⟨o1, o2, c', h1, h2, rfl, e1, e2, e3⟩ := (handleCalls_append _ _ _ _).1 h
  have hc' : c' = { c with inf := lastInf c o1 } := by cases c; cases c'; cases e1; cases e2; cases e3; rfl
  rw [hc', handleCalls_cons] at h2
  obtain ⟨o, ho, h2⟩ := (Res.bind_eq_ok ..).1 h2
  obtain ⟨os', hs, h2⟩ := (Res.bind_eq_ok ..).1 h2
  cases h2
  exact ⟨o1, o, os', rfl, handleCalls_length h1, h1, ho, hs⟩

/-- What preparing leaves is a handle of the file. -/
theorem prep_handle {sys : EncSys} (g : sys.Good) {inf : InFile} {passwd : Bytes} {P : EncParams} {verbose force : Bool} {p : PrepOut} {c : Cookie}
    (h : scryptdec_file_prep sys inf passwd P verbose force = .ok p) (hc : p.cookie = some c) :
    IsHandle passwd inf.data c ∧ 96 ≤ inf.data.length ∧ c.inf.err = inf.err ∧ c.inf.data = inf.data.drop 96 := by
  obtain ⟨p1, p2, p3, -, -⟩ := decPrep_spec g h
  have h1 : p.rc = .OK := by
    by_contra hne
    rw [(p3 hne).1] at hc
    cases hc
  obtain ⟨c', c1, c2, c3, c4, c5, c6, c7⟩ := p2 h1
  rw [c1] at hc
  cases hc
  have hv : prepVerdict sys inf passwd P verbose force = .OK := by rw [← p1, h1]
  exact ⟨⟨c2, c5, 96, le_rfl, c3⟩, (prepVerdict_ok.1 hv).2.len, c4, c3⟩

/-- **C90.**  Every sequence of calls with one handle is defined, whatever the earlier calls returned. -/
theorem C90_defined (sys : EncSys) (g : sys.Good) (inf : InFile) (hD : inf.data.length < 2 ^ 64) (passwd : Bytes) (P : EncParams) (verbose force : Bool)
    (p : PrepOut) (c : Cookie) (h : scryptdec_file_prep sys inf passwd P verbose force = .ok p) (hc : p.cookie = some c) (ks : List HandleCall)
    (hg : ∀ k ∈ ks, k.sys.Good) (ha : ∀ k ∈ ks, ∀ f, k.again = some f → f.data = inf.data.drop 96) :
    ∃ os, handleCalls c ks = .ok os ∧ os.length = ks.length := by
  obtain ⟨hH, h96, -, -⟩ := prep_handle g h hc
  obtain ⟨os, hs⟩ := handleCalls_total hD h96 hH hg ha
  exact ⟨os, hs, handleCalls_length hs⟩

theorem unread_of_failed {c : Cookie} {ks : List HandleCall} {os : List CopyOut} (h : handleCalls c ks = .ok os) (hn : ∀ x ∈ ks, x.again = none)
    (hf : ∀ o ∈ os, o.rc = .EOPENSSL ∨ o.rc = .ENOMEM) : lastInf c os = c.inf := by
  induction ks generalizing c os with
  | nil => cases h; rfl
  | cons k ks ih =>
    rw [handleCalls_cons] at h
    obtain ⟨o, ho, h⟩ := (Res.bind_eq_ok ..).1 h
    obtain ⟨os', hs, h⟩ := (Res.bind_eq_ok ..).1 h
    cases h
    obtain ⟨-, -, t, -⟩ := copy_taken ho
    have hi := (t (hf o (by simp))).1
    rw [hn k (by simp)] at hi
    have := ih hs (fun x hx => hn x (by simp [hx])) (fun x hx => hf x (by simp [hx]))
    cases os' using List.reverseRecOn with
    | nil => exact hi
    | append_singleton l x =>
      unfold lastInf at this ⊢
      rw [List.getLast?_concat] at this
      rw [← List.cons_append, List.getLast?_concat]
      exact this.trans hi

/-- The key of the file `D` under a passphrase. -/
abbrev fileKey (passwd D : Bytes) : Bytes := scryptCode passwd (hdrSalt D) (2 ^ hdrLogN D) (hdrR D) (hdrP D) 64

/-- **C90.**  A call that begins behind the header, because every earlier call failed for want of a service, or because the caller has put the input back
there, is as good as the first: its code is that of the table of C08 for the whole file, and if it succeeds it has written the whole plaintext. -/
theorem C90_fresh (sys : EncSys) (g : sys.Good) (inf : InFile) (hD : inf.data.length < 2 ^ 64) (passwd : Bytes) (P : EncParams) (verbose force : Bool)
    (p : PrepOut) (c : Cookie) (h : scryptdec_file_prep sys inf passwd P verbose force = .ok p) (hc : p.cookie = some c) (pre post : List HandleCall)
    (k : HandleCall) (hg : k.sys.Good) (ha : ∀ f, k.again = some f → f.data = inf.data.drop 96) (os : List CopyOut)
    (hs : handleCalls c (pre ++ k :: post) = .ok os) :
    ∃ o1 o o2, os = o1 ++ o :: o2 ∧ o1.length = pre.length ∧
      ((k.again ≠ none ∨ ((∀ x ∈ pre, x.again = none) ∧ ∀ x ∈ o1, x.rc = .EOPENSSL ∨ x.rc = .ENOMEM)) →
        o.rc = firstFail .OK (copyChecks k.sys passwd inf.data (k.again.getD inf).err k.outf) ∧
        (o.rc = .OK → o.outf.written = k.outf.written ++ plaintext (fileKey passwd inf.data) inf.data) ∧
        (o.rc = .EOPENSSL ∨ o.rc = .ENOMEM → o.outf = k.outf)) := by
  obtain ⟨hH, h96, herr, hdat⟩ := prep_handle g h hc
  obtain ⟨o1, o, o2, e, e1, e2, e3, e4⟩ := handleCalls_split hs
  refine ⟨o1, o, o2, e, e1, fun hf => ?_⟩
  have hpos : (k.again.getD (lastInf c o1)).data = inf.data.drop 96 ∧ (k.again.getD (lastInf c o1)).err = (k.again.getD inf).err := by
    cases hk : k.again with
    | some f => exact ⟨ha f hk, rfl⟩
    | none =>
      rcases hf with hf | ⟨f1, f2⟩
      · exact absurd hk hf
      · rw [unread_of_failed e2 f1 f2]
        exact ⟨hdat, herr⟩
  obtain ⟨o', q, q1, q2, q3⟩ := copy_seen hg hD h96 (c := { c with inf := k.again.getD (lastInf c o1) }) hH.hdr hH.dk (le_refl 96) hpos.1 k.outf
  rw [q] at e3
  cases e3
  rw [cutFile_96] at q1 q2 q3
  have hp2 : (k.again.getD (lastInf c o1)).err = (k.again.getD inf).err := hpos.2
  refine ⟨by rw [q1]; dsimp only; rw [hp2], fun hok => ?_, fun hf => ((copy_taken q).2.2.1 hf).2⟩
  rw [hok] at q3
  obtain ⟨a1, a2, -, -, -⟩ := copyVerdict_good q3.symm
  rw [q2, copyOut_good a1 a2]
  rfl

/-- The input has been read to its end, and nothing puts it back. -/
theorem spent_of_spent {c : Cookie} {ks : List HandleCall} {os : List CopyOut} (h : handleCalls c ks = .ok os) (hn : ∀ x ∈ ks, x.again = none)
    (h0 : c.inf.data = []) : (lastInf c os).data = [] ∧ (lastInf c os).err = c.inf.err := by
  induction ks generalizing c os with
  | nil => cases h; exact ⟨h0, rfl⟩
  | cons k ks ih =>
    rw [handleCalls_cons] at h
    obtain ⟨o, ho, h⟩ := (Res.bind_eq_ok ..).1 h
    obtain ⟨os', hs, h⟩ := (Res.bind_eq_ok ..).1 h
    cases h
    obtain ⟨t1, ⟨n, t2⟩, -, -⟩ := copy_taken ho
    rw [hn k (by simp)] at t1 t2
    dsimp only [Option.getD] at t1 t2
    rw [h0, List.drop_nil] at t2
    have := ih hs (fun x hx => hn x (by simp [hx])) t2
    cases os' using List.reverseRecOn with
    | nil => exact ⟨t2, t1⟩
    | append_singleton l x =>
      unfold lastInf at this ⊢
      rw [List.getLast?_concat] at this
      rw [← List.cons_append, List.getLast?_concat]
      exact ⟨this.1, this.2.trans t1⟩

/-- **C90.**  Once a call has come to a verdict about the file (it succeeded, or found the file invalid or unreadable), later calls write nothing and report
`SCRYPT_EINVAL` (`SCRYPT_ERDFILE` if the input could not be read), until the caller puts the input back. -/
theorem C90_spent (sys : EncSys) (g : sys.Good) (inf : InFile) (hD : inf.data.length < 2 ^ 64) (passwd : Bytes) (P : EncParams) (verbose force : Bool)
    (p : PrepOut) (c : Cookie) (h : scryptdec_file_prep sys inf passwd P verbose force = .ok p) (hc : p.cookie = some c) (pre mid post : List HandleCall)
    (k j : HandleCall) (hg : ∀ x ∈ pre ++ k :: (mid ++ j :: post), x.sys.Good)
    (ha : ∀ x ∈ pre ++ k :: (mid ++ j :: post), ∀ f, x.again = some f → f.data = inf.data.drop 96) (hn : ∀ x ∈ mid, x.again = none) (hj : j.again = none)
    (os : List CopyOut) (hs : handleCalls c (pre ++ k :: (mid ++ j :: post)) = .ok os) :
    ∃ o1 o o2 o' o3, os = o1 ++ o :: (o2 ++ o' :: o3) ∧ o1.length = pre.length ∧ o2.length = mid.length ∧
      (o.rc ≠ .EOPENSSL → o.rc ≠ .ENOMEM → o.rc ≠ .EWRFILE →
        o'.outf = j.outf ∧ o'.rc ≠ .OK ∧ o'.rc ≠ .EWRFILE ∧
        (aesAvail j.sys = true → j.sys.ctr ≠ none → o'.rc = if o.rc = .ERDFILE then .ERDFILE else .EINVAL)) := by
  obtain ⟨hH, h96, herr, hdat⟩ := prep_handle g h hc
  obtain ⟨o1, o, os2, rfl, e1, e2, e3, e4⟩ := handleCalls_split hs
  obtain ⟨o2, o', o3, rfl, f1, f2, f3, -⟩ := handleCalls_split e4
  refine ⟨o1, o, o2, o', o3, rfl, e1, f1, fun r1 r2 r3 => ?_⟩
  have hH1 := handle_again (handleCalls_handle hH (fun x hx => ha x (by simp [hx])) e2) (again := k.again) (ha k (by simp))
  dsimp only at hH1
  obtain ⟨n, n1, n2⟩ := hH1.pos
  obtain ⟨oo, q, -, -, q3⟩ := copy_seen (hg k (by simp)) hD h96 hH1.hdr hH1.dk n1 n2 k.outf
  rw [e3] at q
  cases q
  obtain ⟨t1, -, -, t4⟩ := copy_taken e3
  have hend := t4 r1 r2 r3
  obtain ⟨s1, s2⟩ := spent_of_spent f2 hn hend
  rw [hj] at f3
  dsimp only [Option.getD_none] at f3
  have hnil : inf.data.drop (inf.data.length + 96) = [] := List.drop_eq_nil_of_le (by omega)
  obtain ⟨oo, q', -, b2, b3⟩ := copy_seen (hg j (by simp)) hD h96 (c := { c with inf := lastInf { c with inf := o.inf } o2 }) hH.hdr hH.dk
    (n := inf.data.length + 96) (by omega) (by rw [hnil]; exact s1) j.outf
  rw [f3] at q'
  cases q'
  have hl : (cutFile inf.data (inf.data.length + 96)).length = 96 := by
    unfold cutFile; rw [hnil, List.append_nil, List.length_take]; omega
  refine ⟨by rw [b2, copyOut_short (by omega)], fun hok => ?_, ?_, fun a1 a2 => ?_⟩
  · rw [hok] at b3
    have := (copyVerdict_good b3.symm).2.2.2.1
    omega
  · rw [b3, copyVerdict_short (by omega)]
    unfold aesCode
    cases aesAvail j.sys <;> cases j.sys.ctr <;> cases (lastInf { c with inf := o.inf } o2).err <;> simp
  · have hac : aesCode j.sys = .OK := by
      unfold aesCode
      cases hct : j.sys.ctr with
      | none => exact absurd hct a2
      | some s => simp [a1]
    rw [b3, copyVerdict_short (by omega), if_neg (not_not.2 hac)]
    have hk : aesCode k.sys = .OK := by
      by_contra hne
      unfold copyVerdict at q3
      rw [if_pos hne] at q3
      unfold aesCode at q3 hne
      cases hA : aesAvail k.sys with
      | false => rw [hA] at q3; exact r1 q3
      | true =>
        cases hB : k.sys.ctr with
        | none => rw [hA, hB] at q3; exact r2 q3
        | some s => rw [hA, hB] at hne; exact hne rfl
    have hE := copyVerdict_err (outf := k.outf) (dk := inpKey passwd inf.data) (err := (k.again.getD (lastInf c o1)).err) hk (by rw [← q3]; exact r3)
    rw [← q3] at hE
    dsimp only at s2
    rw [t1] at s2
    dsimp only at s2
    rw [s2]
    by_cases hd : o.rc = .ERDFILE
    · rw [if_pos (hE.1 hd), if_pos hd]
    · rw [if_neg (fun e => hd (hE.2 e)), if_neg hd]

/-- **C90.**  Between two calls that succeed the caller has put the input back. -/
theorem C90_once (sys : EncSys) (g : sys.Good) (inf : InFile) (hD : inf.data.length < 2 ^ 64) (passwd : Bytes) (P : EncParams) (verbose force : Bool)
    (p : PrepOut) (c : Cookie) (h : scryptdec_file_prep sys inf passwd P verbose force = .ok p) (hc : p.cookie = some c) (ks : List HandleCall)
    (hg : ∀ k ∈ ks, k.sys.Good) (ha : ∀ k ∈ ks, ∀ f, k.again = some f → f.data = inf.data.drop 96) (os : List CopyOut)
    (hs : handleCalls c ks = .ok os) (i j : Nat) (hij : i < j) (hi : os[i]?.map (·.rc) = some .OK) (hj : os[j]?.map (·.rc) = some .OK) :
    ∃ l k, i < l ∧ l ≤ j ∧ ks[l]? = some k ∧ k.again ≠ none := by
  by_contra hno
  push Not at hno
  have hlen := handleCalls_length hs
  have hjl : j < ks.length := by
    rw [← hlen]
    by_contra hge
    rw [List.getElem?_eq_none (by omega)] at hj
    cases hj
  have hsplit : ks = ks.take i ++ ks[i] :: ((ks.drop (i + 1)).take (j - (i + 1)) ++ ks[j] :: ks.drop (j + 1)) := by
    conv_lhs => rw [← List.take_append_drop i ks, List.drop_eq_getElem_cons (by omega : i < ks.length)]
    congr 2
    conv_lhs => rw [← List.take_append_drop (j - (i + 1)) (ks.drop (i + 1)), List.drop_drop, show i + 1 + (j - (i + 1)) = j by omega,
      List.drop_eq_getElem_cons hjl]
  rw [hsplit] at hs hg ha
  have hmid : ∀ x ∈ (ks.drop (i + 1)).take (j - (i + 1)), x.again = none := by
    intro x hx
    obtain ⟨l, hl, rfl⟩ := List.getElem_of_mem hx
    rw [List.length_take, List.length_drop] at hl
    refine hno (i + 1 + l) _ (by omega) (by omega) ?_
    rw [List.getElem_take, List.getElem_drop, List.getElem?_eq_getElem (by omega)]
  obtain ⟨o1, o, o2, o', o3, rfl, l1, l2, H⟩ := C90_spent sys g inf hD passwd P verbose force p c h hc _ _ _ _ _ hg ha
    hmid (hno j ks[j] hij le_rfl (List.getElem?_eq_getElem hjl)) os hs
  rw [List.length_take, Nat.min_eq_left (by omega)] at l1
  rw [List.length_take, List.length_drop, Nat.min_eq_left (by omega)] at l2
  rw [List.getElem?_append_right (by omega), l1, Nat.sub_self] at hi
  rw [List.getElem?_append_right (by omega), l1, show j - i = (j - (i + 1)) + 1 by omega, List.getElem?_cons_succ,
    List.getElem?_append_right (by omega), l2, Nat.sub_self] at hj
  have hi' : o.rc = .OK := by simpa using hi
  have hj' : o'.rc = .OK := by simpa using hj
  exact (H (by rw [hi']; simp) (by rw [hi']; simp) (by rw [hi']; simp)).2.1 hj'

/-- Where the input stands: behind the header, at its end, or somewhere in between because writing failed. -/
theorem where_stands {D : Bytes} {c : Cookie} {ks : List HandleCall} {os : List CopyOut} (h : handleCalls c ks = .ok os)
    (ha : ∀ k ∈ ks, ∀ f, k.again = some f → f.data = D.drop 96) (h0 : c.inf.data = D.drop 96 ∨ c.inf.data = []) :
    ((lastInf c os).data = D.drop 96 ∨ (lastInf c os).data = []) ∨ ∃ o ∈ os, o.rc = .EWRFILE := by
  induction ks generalizing c os with
  | nil => cases h; exact .inl h0
  | cons k ks ih =>
    rw [handleCalls_cons] at h
    obtain ⟨o, ho, h⟩ := (Res.bind_eq_ok ..).1 h
    obtain ⟨os', hs, h⟩ := (Res.bind_eq_ok ..).1 h
    cases h
    obtain ⟨-, -, t3, t4⟩ := copy_taken ho
    by_cases hw : o.rc = .EWRFILE
    · exact .inr ⟨o, by simp, hw⟩
    have hnext : o.inf.data = D.drop 96 ∨ o.inf.data = [] := by
      by_cases hf : o.rc = .EOPENSSL ∨ o.rc = .ENOMEM
      · rw [(t3 hf).1]
        dsimp only
        cases hk : k.again with
        | none => exact h0
        | some f => exact .inl (ha k (by simp) f hk)
      · push Not at hf
        exact .inr (t4 hf.1 hf.2 hw)
    rcases ih hs (fun x hx => ha x (by simp [hx])) hnext with H | ⟨x, hx, hr⟩
    · refine .inl ?_
      cases os' using List.reverseRecOn with
      | nil => exact hnext
      | append_singleton l x =>
        unfold lastInf at H ⊢
        rw [List.getLast?_concat] at H
        rw [← List.cons_append, List.getLast?_concat]
        exact H
    · exact .inr ⟨x, by simp [hx], hr⟩

theorem cutFile_tail (D : Bytes) (n : Nat) (h96 : 96 ≤ D.length) (hn : n + 32 ≤ D.length) :
    (cutFile D n).drop ((cutFile D n).length - 32) = D.drop (D.length - 32) := by
  have ht : (D.take 96).length = 96 := by rw [List.length_take]; omega
  have hl : (cutFile D n).length = 96 + (D.length - n) := by unfold cutFile; rw [List.length_append, ht, List.length_drop]
  rw [hl]
  unfold cutFile
  have e : n + (96 + (D.length - n) - 32 - 96) = D.length - 32 := by omega
  rw [List.drop_append, List.drop_eq_nil_of_le (by omega), List.nil_append, ht, List.drop_drop, e]

/-- **C90.**  Whatever happened before, a call that succeeds has written the whole plaintext of the file; or an earlier call failed to write, and then it has
written the decryption of the file with a piece cut out behind the header, and the signature of the file is a correct signature of that as well: if the
file itself is signed correctly, two different texts with the same HMAC under its key. -/
theorem C90_whole (sys : EncSys) (g : sys.Good) (inf : InFile) (hD : inf.data.length < 2 ^ 64) (passwd : Bytes) (P : EncParams) (verbose force : Bool)
    (p : PrepOut) (c : Cookie) (h : scryptdec_file_prep sys inf passwd P verbose force = .ok p) (hc : p.cookie = some c) (pre post : List HandleCall)
    (k : HandleCall) (hg : k.sys.Good) (ha : ∀ x ∈ pre ++ [k], ∀ f, x.again = some f → f.data = inf.data.drop 96) (os : List CopyOut)
    (hs : handleCalls c (pre ++ k :: post) = .ok os) :
    ∃ o1 o o2, os = o1 ++ o :: o2 ∧ o1.length = pre.length ∧
      (o.rc = .OK →
        o.outf.written = k.outf.written ++ plaintext (fileKey passwd inf.data) inf.data ∨
        (∃ x ∈ o1, x.rc = .EWRFILE) ∧ k.again = none ∧ ∃ n, 96 < n ∧ n + 32 ≤ inf.data.length ∧
          let D' := inf.data.take 96 ++ inf.data.drop n
          o.outf.written = k.outf.written ++ plaintext (fileKey passwd inf.data) D' ∧ TagOk (fileKey passwd inf.data) D' ∧
          (TagOk (fileKey passwd inf.data) inf.data →
            inf.data.take (inf.data.length - 32) ≠ D'.take (D'.length - 32) ∧
            hmac (keyHmac (fileKey passwd inf.data)) (inf.data.take (inf.data.length - 32)) =
              hmac (keyHmac (fileKey passwd inf.data)) (D'.take (D'.length - 32)))) := by
  obtain ⟨hH, h96, herr, hdat⟩ := prep_handle g h hc
  obtain ⟨o1, o, o2, e, e1, e2, e3, e4⟩ := handleCalls_split hs
  refine ⟨o1, o, o2, e, e1, fun hok => ?_⟩
  have hH1 := handle_again (handleCalls_handle hH (fun x hx => ha x (by simp [hx])) e2) (again := k.again) (ha k (by simp))
  dsimp only at hH1
  obtain ⟨n, n1, n2⟩ := hH1.pos
  obtain ⟨oo, q, -, q2, q3⟩ := copy_seen hg hD h96 hH1.hdr hH1.dk n1 n2 k.outf
  rw [e3] at q
  cases q
  rw [hok] at q3
  obtain ⟨a1, a2, -, a4, a5⟩ := copyVerdict_good q3.symm
  have hw : o.outf.written = k.outf.written ++ plaintext (fileKey passwd inf.data) (cutFile inf.data n) := by rw [q2, copyOut_good a1 a2]; rfl
  have hfull : inf.data.drop n = inf.data.drop 96 → o.outf.written = k.outf.written ++ plaintext (fileKey passwd inf.data) inf.data := by
    intro hd
    rw [hw]
    unfold cutFile
    rw [hd, List.take_append_drop]
  have hlen : (cutFile inf.data n).length = 96 + (inf.data.length - n) := by
    unfold cutFile
    rw [List.length_append, List.length_take, List.length_drop, Nat.min_eq_left h96]
  have n2' : (k.again.getD (lastInf c o1)).data = inf.data.drop n := n2
  cases hk : k.again with
  | some f =>
    rw [hk] at n2'
    exact .inl (hfull (n2'.symm.trans (ha k (by simp) f hk)))
  | none =>
    rw [hk] at n2'
    dsimp only [Option.getD_none] at n2'
    rcases where_stands e2 (fun x hx => ha x (by simp [hx])) (.inl hdat) with (H | H) | H
    · exact .inl (hfull (n2'.symm.trans H))
    · rw [H] at n2'
      have := congrArg List.length n2'
      rw [List.length_drop, List.length_nil] at this
      omega
    · by_cases h9 : n = 96
      · exact .inl (hfull (by rw [h9]))
      · refine .inr ⟨H, rfl, n, by omega, by omega, hw, a5, fun hT => ⟨fun he => ?_, ?_⟩⟩
        · have := congrArg List.length he
          rw [List.length_take, List.length_take, hlen] at this
          omega
        · unfold TagOk at hT a5
          rw [← hT]
          refine Eq.trans ?_ a5
          exact (cutFile_tail _ n h96 (by omega)).symm

theorem aesCode_ok {sys : EncSys} : aesCode sys = .OK ↔ aesAvail sys = true ∧ sys.ctr ≠ none := by
  unfold aesCode
  cases aesAvail sys <;> cases sys.ctr <;> simp

/-- Four calls: without memory, with a full disk, after putting the input back, and once more. -/
theorem handle_story {sys : EncSys} (g : sys.Good) {inf : InFile} (hD : inf.data.length < 2 ^ 64) {passwd : Bytes} {P : EncParams} {verbose force : Bool}
    {p : PrepOut} {c : Cookie} (h : scryptdec_file_prep sys inf passwd P verbose force = .ok p) (hc : p.cookie = some c) {k1 k2 k3 k4 : HandleCall}
    (g1 : k1.sys.Good) (g2 : k2.sys.Good) (g3 : k3.sys.Good) (g4 : k4.sys.Good) (a1 : k1.again = none) (a2 : k2.again = none) (a4 : k4.again = none)
    {f : InFile} (a3 : k3.again = some f) (hf : f.data = inf.data.drop 96) (he : f.err = false) (c1 : aesCode k1.sys = .ENOMEM) (c2 : aesCode k2.sys = .OK)
    (c3 : aesCode k3.sys = .OK) (c4 : aesAvail k4.sys = true ∧ k4.sys.ctr ≠ none) (r2 : ¬ Fits k2.outf (inf.data.length - 128))
    (r3 : Fits k3.outf (inf.data.length - 128)) (h128 : 128 ≤ inf.data.length) (hT : TagOk (inpKey passwd inf.data) inf.data) :
    ∃ os, handleCalls c [k1, k2, k3, k4] = .ok os ∧ os.map (·.rc) = [.ENOMEM, .EWRFILE, .OK, .EINVAL] ∧
      os[2]?.map (·.outf.written) = some (k3.outf.written ++ plaintext (fileKey passwd inf.data) inf.data) := by
  have hg : ∀ k ∈ [k1, k2, k3, k4], k.sys.Good := by simp [g1, g2, g3, g4]
  have ha : ∀ k ∈ [k1, k2, k3, k4], ∀ f, k.again = some f → f.data = inf.data.drop 96 := by
    intro k hk f' hf'
    simp only [List.mem_cons, List.not_mem_nil, or_false] at hk
    rcases hk with rfl | rfl | rfl | rfl
    · rw [a1] at hf'; cases hf'
    · rw [a2] at hf'; cases hf'
    · rw [a3] at hf'; cases hf'; exact hf
    · rw [a4] at hf'; cases hf'
  obtain ⟨os, hs, hlen⟩ := C90_defined _ g inf hD passwd P verbose force p c h hc _ hg ha
  refine ⟨os, hs, ?_⟩
  obtain ⟨v1, v2, v3, v4, rfl⟩ : ∃ v1 v2 v3 v4, os = [v1, v2, v3, v4] := by
    match os, hlen with
    | [v1, v2, v3, v4], _ => exact ⟨v1, v2, v3, v4, rfl⟩
  obtain ⟨u, v, w, x, z, F1⟩ := C90_fresh _ g inf hD passwd P verbose force p c h hc [] [k2, k3, k4] k1 g1 (ha k1 (by simp)) _ hs
  obtain rfl := List.length_eq_zero_iff.1 z
  obtain ⟨rfl, -⟩ := List.cons.inj x
  have q1 : v1.rc = .ENOMEM := by
    have F := (F1 (.inr ⟨fun x hx => absurd hx List.not_mem_nil, fun x hx => absurd hx List.not_mem_nil⟩)).1
    rw [← copyVerdict_table] at F
    unfold copyVerdict at F
    rw [c1, if_pos (by simp)] at F
    exact F
  obtain ⟨u, v, w, x, z, F2⟩ := C90_fresh _ g inf hD passwd P verbose force p c h hc [k1] [k3, k4] k2 g2 (ha k2 (by simp)) _ hs
  obtain ⟨y, rfl⟩ := List.length_eq_one_iff.1 z
  obtain ⟨rfl, x1⟩ := List.cons.inj x
  obtain ⟨rfl, -⟩ := List.cons.inj x1
  have q2 : v2.rc = .EWRFILE := by
    have F := (F2 (.inr ⟨fun x hx => by rw [List.mem_singleton.1 hx]; exact a1, fun x hx => by rw [List.mem_singleton.1 hx]; exact .inr q1⟩)).1
    rw [← copyVerdict_table] at F
    unfold copyVerdict at F
    rw [c2, if_neg (by simp), if_pos r2] at F
    exact F
  obtain ⟨u, v, w, x, z, F3⟩ := C90_fresh _ g inf hD passwd P verbose force p c h hc [k1, k2] [k4] k3 g3 (ha k3 (by simp)) _ hs
  obtain ⟨y, y', rfl⟩ := List.length_eq_two.1 z
  obtain ⟨rfl, x1⟩ := List.cons.inj x
  obtain ⟨rfl, x2⟩ := List.cons.inj x1
  obtain ⟨rfl, -⟩ := List.cons.inj x2
  have F3' := F3 (.inl (by rw [a3]; simp))
  have q3 : v3.rc = .OK := by
    rw [F3'.1, ← copyVerdict_table]
    unfold copyVerdict
    rw [c3, if_neg (by simp), if_neg (not_not.2 r3), a3, Option.getD_some, if_neg (by simp [he]), if_neg (by omega), if_neg (not_not.2 hT)]
  obtain ⟨u, v, w, v', w', x, z, z', F4⟩ := C90_spent _ g inf hD passwd P verbose force p c h hc [k1, k2] [] [] k3 k4 hg ha (fun x hx => absurd hx List.not_mem_nil) a4 _ hs
  obtain ⟨y, y', rfl⟩ := List.length_eq_two.1 z
  obtain rfl := List.length_eq_zero_iff.1 z'
  obtain ⟨rfl, x1⟩ := List.cons.inj x
  obtain ⟨rfl, x2⟩ := List.cons.inj x1
  obtain ⟨rfl, x3⟩ := List.cons.inj x2
  obtain ⟨rfl, -⟩ := List.cons.inj x3
  have q4 : v4.rc = .EINVAL := by
    rw [(F4 (by simp [q3]) (by simp [q3]) (by simp [q3])).2.2.2 c4.1 c4.2, q3, if_neg (by simp)]
  refine ⟨by simp [q1, q2, q3, q4], ?_⟩
  exact congrArg some (F3'.2.1 q3)

/-- Non-vacuity: a file of three bytes encrypted and prepared for decryption; the first call is told that memory has run out, the second finds the disk full
after two bytes; the input is put back, and the third succeeds; the fourth finds nothing. -/
theorem exHandle (sha : ShaHw) (hw : AesHw) (passwd : Bytes) :
    ∃ inf p c os, scryptdec_file_prep (exEnc sha hw exSalt) inf passwd exP0 true false = .ok p ∧ p.cookie = some c ∧
      handleCalls c [⟨{ exEnc sha hw exSalt with ctr := none }, ⟨[], none⟩, none⟩, ⟨exEnc sha hw exSalt, ⟨[8], some 2⟩, none⟩,
        ⟨exEnc sha hw exSalt, ⟨[8], none⟩, some ⟨[inf.data.drop 96], false⟩⟩, ⟨exEnc sha hw exSalt, ⟨[9], none⟩, none⟩] = .ok os ∧
      os.map (·.rc) = [.ENOMEM, .EWRFILE, .OK, .EINVAL] ∧ os[2]?.map (·.outf.written) = some [8, 1, 2, 3] := by
  have g := exEnc_good sha hw exSalt_length
  have g' : ({ exEnc sha hw exSalt with ctr := none } : EncSys).Good :=
    ⟨g.sz, g.perf, g.kdf, g.junkSha, g.junkHmac, g.junkHmac2, g.ossl, g.aesMem, nofun, g.salt, g.dk0, g.header0, g.iobuf⟩
  obtain ⟨o, h, hok, hP⟩ := exEnc_file sha hw exSalt_length ⟨[[1], [], [2, 3]], false⟩ ⟨[], some 131⟩ passwd (by decide) rfl
    (by intro k hk; cases hk; decide) true false
  obtain ⟨o2, h2, r, t, -⟩ := C02_roundtrip (inf2 := ⟨[o.outf.written], false⟩) (outf2 := ⟨[8], none⟩) (P2 := exP0)
    (verbose2 := true) (force2 := false) g g (exEnc_ready sha hw exSalt)
    (by decide) h hok (by simp [InFile.data]) rfl (by intro k hk; cases hk) (by decide)
    (exLimits _ _ _ _ rfl _ _) (by rw [hP]; exact exPass _ _ _ _ rfl rfl rfl _) (by rw [hP]; exact exEnc_kdf _ _ _) (exEnc_aes _ _ _) rfl
  have hone : (⟨[o.outf.written], false⟩ : InFile).data = o.outf.written := by simp [InFile.data]
  generalize hinf : (⟨[o.outf.written], false⟩ : InFile) = inf at *
  have herr0 : inf.err = false := by rw [← hinf]
  have hdl : inf.data.length < 2 ^ 64 := by
    obtain ⟨salt, l, -, hsalt, -, -, -, -, -, -, -, i6⟩ := encFile_inv g (by decide) h hok
    rw [hone, i6, List.nil_append, container_length _ _ _ _ _ _ hsalt]
    decide
  unfold scryptdec_file at h2
  obtain ⟨-, -, h2⟩ := (Res.bind_eq_ok ..).1 h2
  obtain ⟨p, hp, h2⟩ := (Res.bind_eq_ok ..).1 h2
  cases hcc : p.cookie with
  | none =>
    rw [hcc] at h2
    cases h2
    obtain ⟨-, p2, -⟩ := decPrep_spec g hp
    obtain ⟨c, c1, -⟩ := p2 r
    rw [hcc] at c1
    cases c1
  | some c =>
    rw [hcc] at h2
    dsimp only at h2
    obtain ⟨q, hq, h2⟩ := (Res.bind_eq_ok ..).1 h2
    cases h2
    dsimp only at r t
    obtain ⟨hH, h96, herr, hdat⟩ := prep_handle g hp hcc
    obtain ⟨q', e1, -, e2, e3⟩ := copy_seen g hdl h96 hH.hdr hH.dk (le_refl 96) hdat ⟨[8], none⟩
    rw [hq] at e1
    cases e1
    rw [cutFile_96] at e2 e3
    rw [r] at e3
    obtain ⟨hA, -, -, h128, hT⟩ := copyVerdict_good e3.symm
    rw [e2, copyOut_good hA (by intro k hk; cases hk)] at t
    have ht : plaintext (inpKey passwd inf.data) inf.data = [1, 2, 3] := List.append_cancel_left t
    have hl : inf.data.length - 128 = 3 := by rw [← plaintext_length (inpKey passwd inf.data) inf.data, ht]; rfl
    have hA' : aesCode ({ exEnc sha hw exSalt with ctr := none } : EncSys) = .ENOMEM := by
      unfold aesCode at hA ⊢
      rw [show aesAvail ({ exEnc sha hw exSalt with ctr := none } : EncSys) = aesAvail (exEnc sha hw exSalt) from rfl]
      cases hv : aesAvail (exEnc sha hw exSalt) with
      | false => rw [hv] at hA; cases hA
      | true => rfl
    obtain ⟨os, hs, f1, f2⟩ := handle_story g hdl hp hcc (k1 := ⟨{ exEnc sha hw exSalt with ctr := none }, ⟨[], none⟩, none⟩)
      (k2 := ⟨exEnc sha hw exSalt, ⟨[8], some 2⟩, none⟩) (k3 := ⟨exEnc sha hw exSalt, ⟨[8], none⟩, some ⟨[inf.data.drop 96], false⟩⟩)
      (k4 := ⟨exEnc sha hw exSalt, ⟨[9], none⟩, none⟩) g' g g g rfl rfl rfl (f := ⟨[inf.data.drop 96], false⟩) rfl (by simp [InFile.data]) rfl hA' hA hA
      (by rw [← aesCode_ok]; exact hA) (fun hf => by have := hf 2 rfl; omega) (fun k hk => by cases hk) h128 hT
    refine ⟨inf, p, c, os, hp, hcc, hs, f1, ?_⟩
    rw [f2]
    exact congrArg some (by rw [show fileKey passwd inf.data = inpKey passwd inf.data from rfl, ht]; rfl)

end Scrypt.Props
