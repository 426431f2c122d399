import Verif.Proofs.AccessReads
import Verif.Props.Access
/-
C79: the hashing of a key derivation (PBKDF2-HMAC-SHA256, with each of the four block functions) accesses memory in a way that depends on the lengths of its inputs,
not on their contents; so of all the memory a derivation accesses, only the entries of V looked up while mixing depend on the bytes of the password and the salt.
-/
namespace Scrypt.Props
open Scrypt Spec Logged

/-- **C79.**  Forgetting the log gives the code: PBKDF2 with every block function, and the whole derivation. -/
theorem C79_erase_pbkdf2 (hw : ShaHw) (pa sa oa : Arr) (junk : HMAC_SHA256_CTX) (passwd salt : Bytes) (c : Nat) (buf : Bytes) (dkLen : Nat) :
    erase (PBKDF2_SHA256T (shaTransformT hw) pa sa oa junk passwd salt c buf dkLen) = PBKDF2_SHA256 (shaTransform hw) junk passwd salt c buf dkLen :=
  PBKDF2T_erase (shaTransformT_erase hw) pa sa oa junk passwd salt c buf dkLen

theorem C79_erase (szMax : Nat) (env : ScEnv) (hw : ShaHw) (junk : HMAC_SHA256_CTX) (passwd salt : Bytes) (N : W64) (r p : W32) (buf : Bytes) (buflen : Nat)
    (f : SmixImpl) : erase (crypto_scrypt_internalTT szMax env hw junk passwd salt N r p buf buflen f) =
      crypto_scrypt_internal szMax env (shaTransform hw) junk passwd salt N r p buf buflen (smixImpl f) := by
  unfold crypto_scrypt_internalTT crypto_scrypt_internal
  simp only []
  cases scryptCheck szMax N r p buflen with
  | some e => rfl
  | none =>
  simp only []
  cases env.allocB (128 * r.toNat * p.toNat % (szMax + 1)) with
  | none => rfl
  | some B =>
  simp only []
  cases env.allocXY ((256 * r.toNat + 64) % (szMax + 1)) with
  | none => rfl
  | some XY =>
  simp only []
  cases env.allocV (128 * r.toNat * N.toNat % (szMax + 1)) with
  | none => rfl
  | some V =>
  simp only [erase_bind, erase_log, erase_pure, Res.pure_eq, mixBlocksT_erase, erase_iteT, C79_erase_pbkdf2]

/-- **C79.**  PBKDF2: for every block function, every password length, salt length, number of iterations and output length there is one list of accesses that every
computation with these lengths makes, whatever the password, the salt and the previous contents of the output. -/
theorem C79_pbkdf2 (hw : ShaHw) (pa sa oa : Arr) (lp ls c dkLen : Nat) (hc : 1 ≤ c) (hd : dkLen ≤ 32 * (2 ^ 32 - 1)) : ∃ tr : List Acc,
    ∀ (junk : HMAC_SHA256_CTX), junk.Sized → ∀ (passwd salt buf : Bytes), passwd.length = lp → salt.length = ls → dkLen ≤ buf.length →
      PBKDF2_SHA256T (shaTransformT hw) pa sa oa junk passwd salt c buf dkLen = Res.ok (pbkdf2 passwd salt c dkLen ++ buf.drop dkLen, tr) := by
  have run : ∀ (junk : HMAC_SHA256_CTX), junk.Sized → ∀ (passwd salt buf : Bytes), dkLen ≤ buf.length → ∃ tr : List Acc,
      PBKDF2_SHA256T (shaTransformT hw) pa sa oa junk passwd salt c buf dkLen = Res.ok (pbkdf2 passwd salt c dkLen ++ buf.drop dkLen, tr) := by
    intro junk hj passwd salt buf hb
    have h := C79_erase_pbkdf2 hw pa sa oa junk passwd salt c buf dkLen
    rw [PBKDF2_SHA256_spec _ (goodTf hw) junk hj passwd salt c (by omega) buf dkLen hd hb] at h
    obtain ⟨x, h1, h2⟩ := Res.bind_eq_ok.1 (show (_ >>= _ : Res _) = _ from h)
    exact ⟨x.2, by rw [h1, ← Res.ok.inj h2]⟩
  obtain ⟨tr, h0⟩ := run zeroHctx zeroHctx_sized (List.replicate lp 0) (List.replicate ls 0) (List.replicate dkLen 0) (by rw [List.length_replicate])
  refine ⟨tr, fun junk hj passwd salt buf hp hs hb => ?_⟩
  obtain ⟨tr', h1⟩ := run junk hj passwd salt buf hb
  have e := (same_PBKDF2T (shaTransformT_same hw) pa sa oa _ _ _ _ _ _ (by unfold SameLen; rw [List.length_replicate, hp])
    (by unfold SameLen; rw [List.length_replicate, hs]) c _ buf dkLen _ _ _ _ h0 h1).1
  rw [h1, e]

/-- **C79.**  All the memory a successful derivation accesses: first what hashing the password and the salt accesses, which is fixed by their lengths; then the `p`
mixings (C78); then what hashing the password and the mixed blocks into the output accesses, which is fixed by the lengths of the password and of the output. -/
theorem C79_kdf (f : SmixImpl) (hw : ShaHw) (r p : W32) (hr : r ≠ 0) (hp25 : p.toNat ≤ 2 ^ 25) (lp : Nat) : ∃ F : Footprint, F.Proper r.toNat ∧
    ∀ ls : Nat, ∃ first : List Acc, ∀ buflen : Nat, buflen ≤ 32 * (2 ^ 32 - 1) → ∃ last : List Acc,
    ∀ (szMax : Nat), IsSizeMax szMax → ∀ (env : ScEnv), env.Sized → ∀ (junk : HMAC_SHA256_CTX), junk.Sized → ∀ (passwd salt : Bytes), passwd.length = lp →
      salt.length = ls → ∀ (N : W64) (buf : Bytes), buflen ≤ buf.length → buflen ≤ szMax → ∀ (o : ScOut) (tr : List Acc),
      crypto_scrypt_internalTT szMax env hw junk passwd salt N r p buf buflen f = Res.ok (o, tr) → o.rc = 0 →
      tr = first ++ phase F N.toNat r.toNat p.toNat (fun b => visit r.toNat N.toNat (mixed passwd salt r.toNat p.toNat b)) ++ last := by
  have hr0 : 0 < r.toNat := by
    rcases Nat.eq_zero_or_pos r.toNat with h | h
    · exact absurd (BitVec.eq_of_toNat_eq h) hr
    · exact h
  obtain ⟨F, hF, hS⟩ := C78_smix f r.toNat hr0
  refine ⟨F, hF, fun ls => ?_⟩
  by_cases hsmall : 128 * r.toNat * p.toNat ≤ 32 * (2 ^ 32 - 1)
  swap
  · refine ⟨[], fun buflen _ => ⟨[], fun szMax hs env he junk hj passwd salt hpl hsl N buf hbl hbs o tr h h0 => ?_⟩⟩
    unfold crypto_scrypt_internalTT at h
    simp only [] at h
    cases hc : scryptCheck szMax N r p buflen with
    | some e =>
      rw [hc] at h
      rw [← (Prod.mk.inj (Res.ok.inj h)).1] at h0
      exact absurd h0 (by show ¬ (-1 : Int) = 0; decide)
    | none =>
      obtain ⟨-, p0, rp, -⟩ := (scryptCheck_none_iff szMax hs N r p buflen hbs).1 hc
      rw [Nat.mul_assoc] at hsmall
      omega
  obtain ⟨first, h1st⟩ := C79_pbkdf2 hw (.h .passwd) (.h .salt) .B lp ls 1 (128 * r.toNat * p.toNat) (Nat.le_refl _) hsmall
  refine ⟨first, fun buflen hbl32 => ?_⟩
  obtain ⟨last, hlst⟩ := C79_pbkdf2 hw (.h .passwd) .B (.h .out) lp (128 * r.toNat * p.toNat) 1 buflen (Nat.le_refl _) hbl32
  refine ⟨last, fun szMax hs env he junk hj passwd salt hpl hsl N buf hbl hbs o tr h h0 => ?_⟩
  unfold crypto_scrypt_internalTT at h
  simp only [] at h
  cases hc : scryptCheck szMax N r p buflen with
  | some e =>
    rw [hc] at h
    rw [← (Prod.mk.inj (Res.ok.inj h)).1] at h0
    exact absurd h0 (by show ¬ (-1 : Int) = 0; decide)
  | none =>
    rw [hc] at h
    simp only [] at h
    obtain ⟨-, p0, rp, ⟨k, hk, k1, k2⟩, len, szB, szXY, szV⟩ := (scryptCheck_none_iff szMax hs N r p buflen hbs).1 hc
    rw [Nat.mod_eq_of_lt (show 128 * r.toNat * p.toNat < szMax + 1 by omega), Nat.mod_eq_of_lt (show 256 * r.toNat + 64 < szMax + 1 by omega),
      Nat.mod_eq_of_lt (show 128 * r.toNat * N.toNat < szMax + 1 by omega)] at h
    have eB : p.toNat * 128 * r.toNat = 128 * r.toNat * p.toNat := by ring
    cases hB : env.allocB (128 * r.toNat * p.toNat) with
    | none =>
      rw [hB] at h
      rw [← (Prod.mk.inj (Res.ok.inj h)).1] at h0
      exact absurd h0 (by show ¬ (-1 : Int) = 0; decide)
    | some B =>
    rw [hB] at h
    simp only [] at h
    cases hX : env.allocXY (256 * r.toNat + 64) with
    | none =>
      rw [hX] at h
      rw [← (Prod.mk.inj (Res.ok.inj h)).1] at h0
      exact absurd h0 (by show ¬ (-1 : Int) = 0; decide)
    | some XY =>
    rw [hX] at h
    simp only [] at h
    cases hV : env.allocV (128 * r.toNat * N.toNat) with
    | none =>
      rw [hV] at h
      rw [← (Prod.mk.inj (Res.ok.inj h)).1] at h0
      exact absurd h0 (by show ¬ (-1 : Int) = 0; decide)
    | some V =>
    rw [hV] at h
    simp only [eB, Nat.mod_eq_of_lt (show 128 * r.toNat * p.toNat < szMax + 1 by omega)] at h
    have lB := he.B _ _ hB
    have lXY := he.XY _ _ hX
    have lV := he.V _ _ hV
    obtain ⟨B1, i1, j1, a1, h, e1⟩ := tr_bind_inv h
    obtain ⟨s1, i2, j2, a2, h, e2⟩ := tr_bind_inv h
    obtain ⟨Bs, i3, j3, a3, h, e3⟩ := tr_bind_inv h
    obtain ⟨bf, i4, j4, a4, h, e4⟩ := tr_bind_inv h
    have t3 := hasTr_log _ _ _ _ a3
    have t5 : j4 = [] := by
      split at h <;> exact (Prod.mk.inj (Res.ok.inj h)).2.symm
    rw [h1st junk hj passwd salt B hpl hsl (by omega), List.drop_of_length_le (by omega), List.append_nil] at a1
    obtain ⟨v1, t1⟩ := Prod.mk.inj (Res.ok.inj a1)
    have v1 : pbkdf2 passwd salt 1 (128 * r.toNat * p.toNat) = B1 := v1
    have t1 : first = i1 := t1
    obtain ⟨s, e⟩ := mixBlocksT_tr szMax hs f r.toNat p.toNat N.toNat k hr0 hk k1 k2 hp25 szB F (fun B V XY => hS N.toNat k hk k1 k2 B V XY) B1 V XY
      (by rw [← v1]; exact pbkdf2_length _ _ _ _) (by
        rw [lV, show 128 * r.toNat * N.toNat = 4 * (32 * r.toNat * N.toNat) by ring]; exact Nat.mul_div_cancel_left _ (by omega)) (by omega)
    rw [a2] at e
    have t2 : i2 = _ := (Prod.mk.inj (Res.ok.inj e)).2
    have lBs : Bs.length = 128 * r.toNat * p.toNat := by
      have := congrArg erase a3
      rw [erase_log] at this
      exact rdSlice_length this
    rw [hlst junk hj passwd Bs buf hpl lBs hbl] at a4
    have t4 : last = i4 := (Prod.mk.inj (Res.ok.inj a4)).2
    rw [e1, e2, e3, e4, t3, t5, ← t1, ← t4, t2, ← v1, ← eB]
    simp only [List.nil_append, List.append_nil, List.append_assoc]
    rfl

/-- **C79.**  The password and the salt: whatever the derivation returns it has at most read them, within their lengths; and a successful derivation has read every byte
of both.  So an observer of the addresses learns the two lengths. -/
theorem C79_inputs (f : SmixImpl) (hw : ShaHw) (szMax : Nat) (env : ScEnv) (junk : HMAC_SHA256_CTX) (passwd salt : Bytes) (N : W64) (r p : W32) (buf : Bytes)
    (buflen : Nat) (o : ScOut) (tr : List Acc) (h : crypto_scrypt_internalTT szMax env hw junk passwd salt N r p buf buflen f = Res.ok (o, tr)) :
    (∀ i w, ⟨.h .passwd, i, w⟩ ∈ tr → w = false ∧ i < passwd.length) ∧ (∀ i w, ⟨.h .salt, i, w⟩ ∈ tr → w = false ∧ i < salt.length) ∧
    (o.rc = 0 → (∀ i, i < passwd.length → ⟨.h .passwd, i, false⟩ ∈ tr) ∧ ∀ i, i < salt.length → ⟨.h .salt, i, false⟩ ∈ tr) := by
  have htf := shaTransformT_reads hw
  have main : ∀ B V XY, crypto_scrypt_internalTT szMax env hw junk passwd salt N r p buf buflen f = (do
      let B ← PBKDF2_SHA256T (shaTransformT hw) (.h .passwd) (.h .salt) .B junk passwd salt 1 B (p.toNat * 128 * r.toNat % (szMax + 1))
      let x ← mixBlocksT szMax f r.toNat p.toNat N.toNat B V XY
      let Bs ← Logged.log [] (rdSlice x.1 0 (p.toNat * 128 * r.toNat % (szMax + 1)))
      let buf ← PBKDF2_SHA256T (shaTransformT hw) (.h .passwd) .B (.h .out) junk passwd Bs 1 buf buflen
      if !env.munmapOk then
        return scErr2 .sys buf [ScObj.B, .XY, .V]
      return ⟨0, none, buf, (([ScObj.B, .XY, .V].erase .V).erase .XY).erase .B⟩) →
      (∀ i w, ⟨.h .passwd, i, w⟩ ∈ tr → w = false ∧ i < passwd.length) ∧ (∀ i w, ⟨.h .salt, i, w⟩ ∈ tr → w = false ∧ i < salt.length) ∧
      (∀ i, i < passwd.length → ⟨.h .passwd, i, false⟩ ∈ tr) ∧ ∀ i, i < salt.length → ⟨.h .salt, i, false⟩ ∈ tr := by
    intro B V XY e
    rw [e] at h
    have up : ∀ (A : Arr) (n : Nat) (q : HObj), isInput A = true → A = .h q → q ≠ .out → (Arr.h .passwd = A → passwd.length ≤ n) → (Arr.h .salt = A → salt.length ≤ n) →
        ∀ c ∈ tr, Upto A n c := by
      intro A n q hA hq hout h1 h2
      refine (?_ : AllTr (Upto A n) _) _ _ h
      refine allTr_bind (upto_PBKDF2T htf hA h1 h2 (by rw [hq]; exact B_ne)) fun _ _ => ?_
      refine allTr_bind (by rw [hq]; exact upto_mixBlocksT _ _) fun _ _ => ?_
      refine allTr_bind upto_log_nil fun _ _ => ?_
      refine allTr_bind (upto_PBKDF2T htf hA h1 (fun e => by rw [hq] at e; cases e) (by rw [hq]; intro e; cases e; exact hout rfl)) fun _ _ => ?_
      split
      · exact allTr_pure
      · exact allTr_pure
    have so : ∀ c : Acc, SomeTr c (PBKDF2_SHA256T (shaTransformT hw) (.h .passwd) (.h .salt) .B junk passwd salt 1 B (p.toNat * 128 * r.toNat % (szMax + 1))) →
        c ∈ tr := fun c hc => (someTr_left hc) _ _ h
    refine ⟨fun i w hm => ?_, fun i w hm => ?_, fun i hi => so _ ((some_PBKDF2T htf).1 i hi), fun i hi => so _ ((some_PBKDF2T htf).2 i hi)⟩
    · exact up _ _ .passwd rfl rfl (by decide) (fun _ => Nat.le_refl _) (fun e => by cases e) _ hm rfl
    · exact up _ _ .salt rfl rfl (by decide) (fun e => by cases e) (fun _ => Nat.le_refl _) _ hm rfl
  have none : ∀ (z : ScOut), z.rc ≠ 0 → crypto_scrypt_internalTT szMax env hw junk passwd salt N r p buf buflen f = Logged.log [] (.ok z) →
      (∀ i w, ⟨.h .passwd, i, w⟩ ∈ tr → w = false ∧ i < passwd.length) ∧ (∀ i w, ⟨.h .salt, i, w⟩ ∈ tr → w = false ∧ i < salt.length) ∧
      (o.rc = 0 → (∀ i, i < passwd.length → ⟨.h .passwd, i, false⟩ ∈ tr) ∧ ∀ i, i < salt.length → ⟨.h .salt, i, false⟩ ∈ tr) := by
    intro z hz e
    rw [e] at h
    obtain ⟨e1, e2⟩ := Prod.mk.inj (Res.ok.inj h)
    subst e1 e2
    exact ⟨(fun _ _ hm => by cases hm), (fun _ _ hm => by cases hm), fun e => absurd e hz⟩
  have bad : ¬ (-1 : Int) = 0 := by decide
  unfold crypto_scrypt_internalTT at none main
  simp only [] at none main
  cases hc : scryptCheck szMax N r p buflen with
  | some e => exact none _ bad (by rw [hc])
  | none =>
    rw [hc] at none main
    simp only [] at none main
    cases hB : env.allocB (128 * r.toNat * p.toNat % (szMax + 1)) with
    | none => exact none _ bad (by rw [hB])
    | some B =>
    rw [hB] at none main
    simp only [] at none main
    cases hX : env.allocXY ((256 * r.toNat + 64) % (szMax + 1)) with
    | none => exact none _ bad (by rw [hX])
    | some XY =>
    rw [hX] at none main
    simp only [] at none main
    cases hV : env.allocV (128 * r.toNat * N.toNat % (szMax + 1)) with
    | none => exact none _ bad (by rw [hV])
    | some V =>
    rw [hV] at none main
    simp only [] at none main
    obtain ⟨m1, m2, m3, m4⟩ := main B V XY rfl
    exact ⟨m1, m2, fun _ => ⟨m3, m4⟩⟩

theorem len_of_reads {t : List Acc} {a : Arr} {n m : Nat} (h1 : ∀ i w, ⟨a, i, w⟩ ∈ t → w = false ∧ i < n) (h2 : ∀ i, i < m → (⟨a, i, false⟩ : Acc) ∈ t) : m ≤ n := by
  rcases Nat.eq_zero_or_pos m with h | h
  · omega
  · have := (h1 (m - 1) false (h2 (m - 1) (by omega))).2
    omega

/-- Two successful derivations with the same lengths make the same accesses if and only if they look up the same entries of V. -/
theorem exactly_of_lengths (f : SmixImpl) (hw : ShaHw) (szMax szMax' : Nat) (hs : IsSizeMax szMax) (hs' : IsSizeMax szMax') (env env' : ScEnv) (he : env.Sized)
    (he' : env'.Sized) (junk junk' : HMAC_SHA256_CTX) (hj : junk.Sized) (hj' : junk'.Sized) (passwd salt passwd' salt' : Bytes)
    (hpl : passwd.length = passwd'.length) (hsl : salt.length = salt'.length) (N : W64) (r p : W32) (hr : r ≠ 0)
    (buf buf' : Bytes) (buflen : Nat) (hl : buflen ≤ buf.length) (hl' : buflen ≤ buf'.length) (hb : buflen ≤ szMax) (hb' : buflen ≤ szMax')
    (o o' : ScOut) (tr tr' : List Acc)
    (h : crypto_scrypt_internalTT szMax env hw junk passwd salt N r p buf buflen f = Res.ok (o, tr)) (h0 : o.rc = 0)
    (h' : crypto_scrypt_internalTT szMax' env' hw junk' passwd' salt' N r p buf' buflen f = Res.ok (o', tr')) (h0' : o'.rc = 0) (hp : p.toNat ≤ 2 ^ 25)
    (hbl : buflen ≤ 32 * (2 ^ 32 - 1)) :
    tr = tr' ↔ ∀ b, b < p.toNat → ∀ i, i < N.toNat →
      visit r.toNat N.toNat (mixed passwd salt r.toNat p.toNat b) i = visit r.toNat N.toNat (mixed passwd' salt' r.toNat p.toNat b) i := by
  have hr0 : 0 < r.toNat := by
    rcases Nat.eq_zero_or_pos r.toNat with h | h
    · exact absurd (BitVec.eq_of_toNat_eq h) hr
    · exact h
  obtain ⟨F, hF, hT⟩ := C79_kdf f hw r p hr hp passwd'.length
  obtain ⟨first, hT⟩ := hT salt'.length
  obtain ⟨last, hT⟩ := hT buflen hbl
  have e := hT szMax hs env he junk hj passwd salt hpl hsl N buf hl hb o tr h h0
  have e' := hT szMax' hs' env' he' junk' hj' passwd' salt' rfl rfl N buf' hl' hb' o' tr' h' h0'
  rw [e, e']
  constructor
  · intro q b hb1 i hi
    rw [List.append_assoc, List.append_assoc] at q
    have q := List.append_cancel_right (List.append_cancel_left q)
    exact phase_inj F hF hr0 q b hb1 i hi
  · intro q
    congr 2
    exact phase_congr F q

/-- **C79.**  What an observer of all the addresses learns from a derivation, given the parameters, the routines selected and the output length: exactly the lengths of
the password and of the salt and the entries of V looked up.  Two successful derivations that agree on the parameters make the same accesses if and only if they agree on
these. -/
theorem C79_exactly (f : SmixImpl) (hw : ShaHw) (szMax szMax' : Nat) (hs : IsSizeMax szMax) (hs' : IsSizeMax szMax') (env env' : ScEnv) (he : env.Sized)
    (he' : env'.Sized) (junk junk' : HMAC_SHA256_CTX) (hj : junk.Sized) (hj' : junk'.Sized) (passwd salt passwd' salt' : Bytes) (N : W64) (r p : W32) (hr : r ≠ 0)
    (buf buf' : Bytes) (buflen : Nat) (hl : buflen ≤ buf.length) (hl' : buflen ≤ buf'.length) (hb : buflen ≤ szMax) (hb' : buflen ≤ szMax')
    (o o' : ScOut) (tr tr' : List Acc)
    (h : crypto_scrypt_internalTT szMax env hw junk passwd salt N r p buf buflen f = Res.ok (o, tr)) (h0 : o.rc = 0)
    (h' : crypto_scrypt_internalTT szMax' env' hw junk' passwd' salt' N r p buf' buflen f = Res.ok (o', tr')) (h0' : o'.rc = 0) (hp : p.toNat ≤ 2 ^ 25)
    (hbl : buflen ≤ 32 * (2 ^ 32 - 1)) :
    tr = tr' ↔ passwd.length = passwd'.length ∧ salt.length = salt'.length ∧ ∀ b, b < p.toNat → ∀ i, i < N.toNat →
      visit r.toNat N.toNat (mixed passwd salt r.toNat p.toNat b) i = visit r.toNat N.toNat (mixed passwd' salt' r.toNat p.toNat b) i := by
  constructor
  · intro e
    obtain ⟨p1, s1, a1⟩ := C79_inputs f hw szMax env junk passwd salt N r p buf buflen o tr h
    obtain ⟨p2, s2, a2⟩ := C79_inputs f hw szMax' env' junk' passwd' salt' N r p buf' buflen o' tr' h'
    obtain ⟨q1, t1⟩ := a1 h0
    obtain ⟨q2, t2⟩ := a2 h0'
    have l1 : passwd.length = passwd'.length := Nat.le_antisymm (len_of_reads p2 (e ▸ q1)) (len_of_reads p1 (e ▸ q2))
    have l2 : salt.length = salt'.length := Nat.le_antisymm (len_of_reads s2 (e ▸ t1)) (len_of_reads s1 (e ▸ t2))
    exact ⟨l1, l2, (exactly_of_lengths f hw szMax szMax' hs hs' env env' he he' junk junk' hj hj' passwd salt passwd' salt' l1 l2 N r p hr buf buf' buflen hl hl' hb hb'
      o o' tr tr' h h0 h' h0' hp hbl).1 e⟩
  · rintro ⟨l1, l2, e⟩
    exact (exactly_of_lengths f hw szMax szMax' hs hs' env env' he he' junk junk' hj hj' passwd salt passwd' salt' l1 l2 N r p hr buf buf' buflen hl hl' hb hb'
      o o' tr tr' h h0 h' h0' hp hbl).2 e

/-- The logged run exists whenever the derivation returns. -/
theorem C79_exists (szMax : Nat) (env : ScEnv) (hw : ShaHw) (junk : HMAC_SHA256_CTX) (passwd salt : Bytes) (N : W64) (r p : W32) (buf : Bytes)
    (buflen : Nat) (f : SmixImpl) {o : ScOut}
    (h : crypto_scrypt_internal szMax env (shaTransform hw) junk passwd salt N r p buf buflen (smixImpl f) = .ok o) :
    ∃ tr, crypto_scrypt_internalTT szMax env hw junk passwd salt N r p buf buflen f = Res.ok (o, tr) := by
  rw [← C79_erase] at h
  obtain ⟨x, h1, h⟩ := Res.bind_eq_ok.1 (show (_ >>= _ : Res _) = _ from h)
  exact ⟨x.2, by rw [h1, ← Res.ok.inj h]⟩

/-- Non-vacuity: N = 1024, r = 8, p = 1, any two passwords and salts, all routines: both derivations succeed, and they make the same accesses if and only if the
lengths agree and they look up the same 1024 entries. -/
example (hw : ShaHw) (f : SmixImpl) (pw salt pw' salt' : Bytes) : ∃ o o' tr tr',
    crypto_scrypt_internalTT (2 ^ 64 - 1) okEnv hw zeroHctx pw salt 1024 8 1 (List.replicate 64 0) 64 f = Res.ok (o, tr) ∧ o.rc = 0 ∧
    crypto_scrypt_internalTT (2 ^ 64 - 1) okEnv hw zeroHctx pw' salt' 1024 8 1 (List.replicate 64 0) 64 f = Res.ok (o', tr') ∧ o'.rc = 0 ∧
    (tr = tr' ↔ pw.length = pw'.length ∧ salt.length = salt'.length ∧ ∀ i, i < 1024 → visit 8 1024 (mixed pw salt 8 1 0) i = visit 8 1024 (mixed pw' salt' 8 1 0) i) := by
  have hp : ScParams (2 ^ 64 - 1) (1024 : W64).toNat (8 : W32).toNat (1 : W32).toNat 64 :=
    ⟨by decide, by decide, by decide, ⟨10, by decide, by norm_num, by norm_num⟩, by norm_num, by decide, by decide, by decide⟩
  have run : ∀ pw salt : Bytes, ∃ o tr, crypto_scrypt_internalTT (2 ^ 64 - 1) okEnv hw zeroHctx pw salt 1024 8 1 (List.replicate 64 0) 64 f = Res.ok (o, tr) ∧
      o.rc = 0 := by
    intro pw salt
    rcases internal_total (2 ^ 64 - 1) (.inr rfl) okEnv okEnv_sized (shaTransform hw) (goodTf hw) zeroHctx zeroHctx_sized (smixImpl f) (goodSmix f) pw salt 1024 8 1
      (List.replicate 64 0) 64 (by rw [List.length_replicate]) (by norm_num) with ⟨h, -⟩ | ⟨-, ⟨h | h | h, -⟩ | ⟨-, h⟩⟩
    · exact absurd hp h
    · cases h
    · cases h
    · cases h
    · obtain ⟨tr, h1⟩ := C79_exists _ _ _ _ _ _ _ _ _ _ _ _ h
      exact ⟨_, tr, h1, rfl⟩
  obtain ⟨o, tr, r1, q1⟩ := run pw salt
  obtain ⟨o', tr', r2, q2⟩ := run pw' salt'
  refine ⟨o, o', tr, tr', r1, q1, r2, q2, ?_⟩
  have := C79_exactly f hw _ _ (.inr rfl) (.inr rfl) okEnv okEnv okEnv_sized okEnv_sized zeroHctx zeroHctx zeroHctx_sized zeroHctx_sized pw salt pw' salt'
    1024 8 1 (by decide) (List.replicate 64 0) (List.replicate 64 0) 64 (by rw [List.length_replicate]) (by rw [List.length_replicate]) (by norm_num) (by norm_num)
    o o' tr tr' r1 q1 r2 q2 (by decide) (by norm_num)
  rw [show (1 : W32).toNat = 1 from rfl, show (8 : W32).toNat = 8 from rfl, show (1024 : W64).toNat = 1024 from rfl] at this
  rw [this]
  constructor
  · rintro ⟨l1, l2, q⟩
    exact ⟨l1, l2, fun i hi => q 0 (by omega) i hi⟩
  · rintro ⟨l1, l2, q⟩
    refine ⟨l1, l2, fun b hb i hi => ?_⟩
    obtain rfl : b = 0 := by omega
    exact q i hi

end Scrypt.Props
