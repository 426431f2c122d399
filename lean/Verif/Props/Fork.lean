import Verif.Proofs.DrbgDue
import Verif.Proofs.DecDraws
import Verif.Props.Salts
import Verif.Props.KeyStream
/-
C85: a process that forks (finding F32).  fork() gives the child a copy of the parent's memory, and so of the random generator's state; nothing in the library
notices.  The parent and the child then go on independently: with their own calls, their own behaviour of the system, and their own answers of the entropy source.
-/
namespace Scrypt.Props
open Scrypt Spec F64

/-- The generate steps of the random generator (of at most 65536 bytes each, 256 of them between two seedings) that a call takes at most. -/
def drawSteps : LibCall → Nat
  | .encBuf .. => 1
  | .encFile .. => 1
  | .random b => (b.length + 65535) / 65536
  | _ => 0

/-- The generate steps that handing out these bytes takes. -/
def handSteps (ws : List Bytes) : Nat := (ws.map fun w => (w.length + 65535) / 65536).sum

/-- The call asks for random bytes. -/
def AsksRandom : LibCall → Prop
  | .encBuf .. => True
  | .encFile .. => True
  | .random _ => True
  | _ => False

/-- Every call that asks for random bytes succeeds and hands them out. -/
def AllServed (cs : List LibCall) (outs : List LibOut) : Prop := ∀ x ∈ List.zip cs outs, AsksRandom x.1 → handedOut x.1 x.2 ≠ none

/-- The memory of the process that forked, and an entropy source of its own: the state in which the child (and the parent) goes on.  [No code: fork(2) copies
the static variables of crypto_entropy.c:22-29, sha256.c:32, crypto_aes.c:32 and crypto_scrypt.c:48] -/
def forked (st : Statics) (seeds : List SeedEnv) : Statics := { st with seeds := seeds }

theorem forked_inv {m : Machine} {st : Statics} (h : StInv m st) (seeds : List SeedEnv) : StInv m (forked st seeds) := ⟨h.sha, h.drbg⟩

theorem allHandedOut_cons (c : LibCall) (o : LibOut) (cs : List LibCall) (os : List LibOut) :
    allHandedOut (c :: cs) (o :: os) = (handedOut c o).toList ++ allHandedOut cs os := by
  unfold allHandedOut
  rw [List.zip_cons_cons, List.filterMap_cons]
  cases handedOut c o <;> rfl

theorem requests_single {sys : DrbgSys} {es : List SeedEnv} {st : Scrypt.Drbg} {b : Bytes} {rs : List ReadOut} {st' : Scrypt.Drbg} {es' : List SeedEnv}
    (h : requests sys es st [b] = .ok (some (rs, st', es'))) : ∃ r, rs = [r] := by
  unfold requests at h
  obtain ⟨r, h1, h⟩ := Res.bind_eq_ok.1 h
  cases r with
  | none => cases h
  | some r =>
    simp only [] at h
    unfold requests at h
    rw [Res.bind_ok] at h
    exact ⟨r, (Prod.mk.inj (Option.some.inj (Res.ok.inj h))).1.symm⟩

/-- The requests of one call. -/
theorem call_drew {m : Machine} (gm : m.Good) {e : CallEnv} (ge : e.Good) {st st' : Statics} (hi : StInv m st) {c : LibCall} {o : LibOut} (hf : BufferFits c)
    (h : libCall m e st c = .ok (some (o, st'))) :
    ∃ bufs rs, requests m.drbgSys st.seeds st.drbg bufs = .ok (some (rs, st'.drbg, st'.seeds)) ∧ ((handedOut c o).toList).Sublist (okBufs rs) ∧
      steps (bufs.map List.length) ≤ drawSteps c ∧
      ((AsksRandom c → handedOut c o ≠ none) → (∀ r ∈ rs, r.ok = true) ∧ rs.map (·.buf) = (handedOut c o).toList) := by
  by_cases hq : AsksRandom c
  · obtain ⟨bufs, rs, h1, h2, h3, h4⟩ := handedOut_drawn gm ge hi hf h
    refine ⟨bufs, rs, h1, h2, ?_, ?_⟩
    · have hb : ∀ b : Bytes, b.length = drawLen c → pieces b.length ≤ drawSteps c := by
        intro b hb
        rw [hb]
        unfold pieces
        cases c with
        | encBuf => show _ ≤ 1; unfold drawLen; norm_num
        | encFile => show _ ≤ 1; unfold drawLen; norm_num
        | random x => exact Nat.le_refl _
        | _ => exact hq.elim
      unfold steps
      match bufs, h3, h4 with
      | [], _, _ => exact Nat.zero_le _
      | [b], _, h4 =>
        rw [List.map_singleton, List.map_singleton, List.sum_singleton]
        exact hb b (h4 b (by simp))
      | _ :: _ :: _, h3, _ => simp at h3
    · intro hs
      have hs := hs hq
      obtain ⟨w, hw⟩ := Option.ne_none_iff_exists'.1 hs
      rw [hw] at h2 ⊢
      match bufs, h3, h1 with
      | [], _, h1 =>
        unfold requests at h1
        obtain ⟨rfl, -⟩ := Prod.mk.inj (Option.some.inj (Res.ok.inj h1))
        cases h2
      | [b], _, h1 =>
        obtain ⟨r, rfl⟩ := requests_single h1
        unfold okBufs at h2
        cases hk : r.ok with
        | false =>
          rw [List.filter_cons_of_neg (by rw [hk]; simp)] at h2
          cases h2
        | true =>
          rw [List.filter_cons_of_pos hk] at h2
          refine ⟨fun x hx => by rw [List.mem_singleton.1 hx]; exact hk, ?_⟩
          exact (h2.eq_of_length rfl).symm
      | _ :: _ :: _, h3, _ => simp at h3
  · have hz : handedOut c o = none := by
      cases c with
      | encBuf => exact (hq trivial).elim
      | encFile => exact (hq trivial).elim
      | random => exact (hq trivial).elim
      | _ => cases o <;> rfl
    obtain ⟨e1, e2⟩ := quiet_undrawn gm ge hi (by
      cases c with
      | encBuf => exact (hq trivial).elim
      | encFile => exact (hq trivial).elim
      | random => exact (hq trivial).elim
      | _ => trivial) h
    refine ⟨[], [], by rw [e1, e2]; rfl, by rw [hz]; exact List.nil_sublist _, Nat.zero_le _, fun _ => ⟨(fun r hr => by cases hr), by rw [hz]; rfl⟩⟩

/-- The requests of a history. -/
theorem history_drew {m : Machine} (gm : m.Good) : ∀ (cs : List (CallEnv × LibCall)) (_ : ∀ c ∈ cs, c.1.Good ∧ BufferFits c.2) {st st' : Statics} (_ : StInv m st)
    {outs : List LibOut} (_ : libHistory m st cs = .ok (some (outs, st'))),
    StInv m st' ∧
    ∃ bufs rs, requests m.drbgSys st.seeds st.drbg bufs = .ok (some (rs, st'.drbg, st'.seeds)) ∧ (allHandedOut (cs.map (·.2)) outs).Sublist (okBufs rs) ∧
      steps (bufs.map List.length) ≤ (cs.map fun c => drawSteps c.2).sum ∧
      (AllServed (cs.map (·.2)) outs → (∀ r ∈ rs, r.ok = true) ∧ rs.map (·.buf) = allHandedOut (cs.map (·.2)) outs)
  | [], _, st, st', hi, outs, h => by
    unfold libHistory at h
    obtain ⟨rfl, rfl⟩ := Prod.mk.inj (Option.some.inj (Res.ok.inj h))
    exact ⟨hi, [], [], rfl, List.Sublist.refl _, Nat.le_refl _, fun _ => ⟨(fun r hr => by cases hr), rfl⟩⟩
  | c :: cs, hg, st, st', hi, outs, h => by
    unfold libHistory at h
    obtain ⟨r, h1, h⟩ := Res.bind_eq_ok.1 h
    cases r with
    | none => cases h
    | some x =>
      simp only [] at h
      obtain ⟨q, h2, h⟩ := Res.bind_eq_ok.1 h
      cases q with
      | none => cases h
      | some q =>
        obtain ⟨rfl, rfl⟩ := Prod.mk.inj (Option.some.inj (Res.ok.inj h))
        have hc := hg c (by simp)
        obtain ⟨sys, -, -, a3, -⟩ := libCall_spec gm hc.1 hi h1
        obtain ⟨b1, r1, e1, s1, w1, f1⟩ := call_drew gm hc.1 hi hc.2 h1
        obtain ⟨hi', b2, r2, e2, s2, w2, f2⟩ := history_drew gm cs (fun c hc => hg c (by simp [hc])) a3 h2
        refine ⟨hi', b1 ++ b2, r1 ++ r2, requests_append e1 e2, ?_, ?_, ?_⟩
        · have : okBufs (r1 ++ r2) = okBufs r1 ++ okBufs r2 := by unfold okBufs; rw [List.filter_append, List.map_append]
          rw [this, List.map_cons, allHandedOut_cons]
          exact List.Sublist.append s1 s2
        · unfold steps at w1 w2 ⊢
          rw [List.map_append, List.map_append, List.sum_append, List.map_cons, List.sum_cons]
          omega
        · intro hs
          obtain ⟨g1, g2⟩ := f1 (hs (c.2, x.1) (by rw [List.map_cons, List.zip_cons_cons]; exact List.mem_cons_self))
          obtain ⟨g3, g4⟩ := f2 (fun y hy => hs y (by rw [List.map_cons, List.zip_cons_cons]; exact List.mem_cons_of_mem _ hy))
          refine ⟨fun r hr => (List.mem_append.1 hr).elim (g1 r) (g3 r), ?_⟩
          rw [List.map_append, g2, g4, List.map_cons, allHandedOut_cons]

theorem steps_lengths (ws : List Bytes) : steps (ws.map List.length) = handSteps ws := by
  unfold steps handSteps pieces
  rw [List.map_map]
  rfl

theorem requests_lengths {sys : DrbgSys} (g : sys.Good) : ∀ (bufs : List Bytes) {es es' : List SeedEnv} {st st' : Scrypt.Drbg} {rs : List ReadOut}
    {s : Option Spec.Drbg.State} (_ : Scrypt.Rep st s) (_ : requests sys es st bufs = .ok (some (rs, st', es'))) (_ : ∀ r ∈ rs, r.ok = true),
    (rs.map (·.buf)).map List.length = bufs.map List.length
  | [], es, es', st, st', rs, s, hs, h, hk => by
    unfold requests at h
    obtain ⟨rfl, -⟩ := Prod.mk.inj (Option.some.inj (Res.ok.inj h))
    rfl
  | b :: bufs, es, es', st, st', rs, s, hs, h, hk => by
    unfold requests at h
    obtain ⟨r, h1, h⟩ := Res.bind_eq_ok.1 h
    cases r with
    | none => cases h
    | some r =>
      simp only [] at h
      obtain ⟨q, h2, h⟩ := Res.bind_eq_ok.1 h
      cases q with
      | none => cases h
      | some q =>
        obtain ⟨qs, qst, qes⟩ := q
        simp only [Option.map_some] at h
        obtain ⟨rfl, h4⟩ := Prod.mk.inj (Option.some.inj (Res.ok.inj h))
        obtain ⟨u, ops, s', w, -, -, a1, a2, a3, -⟩ := crypto_entropy_read_spec g hs h1
        have ih := requests_lengths g bufs a1 h2 (fun r hr => hk r (List.mem_cons_of_mem _ hr))
        have := (a3 (hk r List.mem_cons_self)).1
        rw [List.map_cons, List.map_cons, List.map_cons, ih, a2, List.length_append, List.length_drop]
        congr 1
        omega

/-- What a process hands out after it forked, with a seeded generator that is not due for reseeding, depends on the lengths asked for only. -/
theorem fork_determined {m : Machine} (gm : m.Good) {before : List (CallEnv × LibCall)} (hb : ∀ c ∈ before, c.1.Good ∧ BufferFits c.2) {seeds : List SeedEnv}
    {outs : List LibOut} {st : Statics} (h0 : libHistory m (Statics.initial seeds) before = .ok (some (outs, st)))
    (hd : allHandedOut (before.map (·.2)) outs ≠ []) (lens : List Nat) (hw : (before.map fun c => drawSteps c.2).sum + steps lens ≤ 256) :
    ∃ ws : List Bytes, ∀ (seeds' : List SeedEnv) (cs : List (CallEnv × LibCall)) (outs' : List LibOut) (st' : Statics), (∀ c ∈ cs, c.1.Good ∧ BufferFits c.2) →
      libHistory m (forked st seeds') cs = .ok (some (outs', st')) → AllServed (cs.map (·.2)) outs' →
      (allHandedOut (cs.map (·.2)) outs').map List.length = lens → allHandedOut (cs.map (·.2)) outs' = ws ∧ st'.seeds = seeds' := by
  obtain ⟨hi, bufs, rs, a1, a2, a3, -⟩ := history_drew gm before hb (StInv.initial m seeds) h0
  obtain ⟨s, b1, b2, b3⟩ := requests_served (drbgSys_good gm) bufs (s := none) (show Scrypt.Rep (Statics.initial seeds).drbg none from rfl) a1
  have hex : ∃ r ∈ rs, r.ok = true := by
    obtain ⟨w, hw⟩ := List.exists_mem_of_ne_nil _ hd
    have := a2.subset hw
    unfold okBufs at this
    obtain ⟨r, hr, -⟩ := List.mem_map.1 this
    obtain ⟨h1, h2⟩ := List.mem_filter.1 hr
    exact ⟨r, h1, h2⟩
  cases s with
  | none => exact absurd (b2 (.inr hex)) (by simp)
  | some s =>
    have b3 : s.served ≤ 0 + _ := b3
    obtain ⟨ws, -, c2⟩ := requests_due (drbgSys_good gm) lens b1 (by omega)
    refine ⟨ws, ?_⟩
    intro seeds' cs outs' st' hg h hs hl
    obtain ⟨-, bufs', rs', d1, d2, d3, d4⟩ := history_drew gm cs hg (forked_inv hi seeds') h
    obtain ⟨d5, d6⟩ := d4 hs
    have hbl : bufs'.map List.length = lens := by
      rw [← hl, ← d6]
      exact (requests_lengths (drbgSys_good gm) bufs' b1 d1 d5).symm
    obtain ⟨rs2, st2, e1, e2, e3⟩ := c2 seeds' bufs' hbl
    have := d1.symm.trans e1
    obtain ⟨k1, k2⟩ := Prod.mk.inj (Option.some.inj (Res.ok.inj this))
    obtain ⟨k2, k3⟩ := Prod.mk.inj k2
    rw [← d6, k1, e3]
    exact ⟨rfl, k3⟩

/-- **C85, finding F32.**  A process that has used its random generator forks.  From then on the parent and the child, whatever they call and whatever the system
answers them, hand out the same random bytes, in the same order, as long as they ask for the same amounts and the generator is not due for reseeding; neither
asks the system for entropy. -/
theorem C85_fork {m : Machine} (gm : m.Good) {before : List (CallEnv × LibCall)} (hb : ∀ c ∈ before, c.1.Good ∧ BufferFits c.2) {seeds : List SeedEnv}
    {outs : List LibOut} {st : Statics} (h0 : libHistory m (Statics.initial seeds) before = .ok (some (outs, st)))
    (hd : allHandedOut (before.map (·.2)) outs ≠ [])
    {csP csC : List (CallEnv × LibCall)} (gP : ∀ c ∈ csP, c.1.Good ∧ BufferFits c.2) (gC : ∀ c ∈ csC, c.1.Good ∧ BufferFits c.2)
    {seedsP seedsC : List SeedEnv} {outsP outsC : List LibOut} {stP stC : Statics}
    (hP : libHistory m (forked st seedsP) csP = .ok (some (outsP, stP))) (hC : libHistory m (forked st seedsC) csC = .ok (some (outsC, stC)))
    (sP : AllServed (csP.map (·.2)) outsP) (sC : AllServed (csC.map (·.2)) outsC)
    (hl : (allHandedOut (csP.map (·.2)) outsP).map List.length = (allHandedOut (csC.map (·.2)) outsC).map List.length)
    (hw : (before.map fun c => drawSteps c.2).sum + handSteps (allHandedOut (csP.map (·.2)) outsP) ≤ 256) :
    allHandedOut (csP.map (·.2)) outsP = allHandedOut (csC.map (·.2)) outsC ∧ stP.seeds = seedsP ∧ stC.seeds = seedsC := by
  rw [← steps_lengths] at hw
  obtain ⟨ws, h⟩ := fork_determined gm hb h0 hd _ hw
  obtain ⟨a1, a2⟩ := h seedsP csP outsP stP gP hP sP rfl
  obtain ⟨b1, b2⟩ := h seedsC csC outsC stC gC hC sC hl.symm
  exact ⟨a1.trans b1.symm, a2, b2⟩

theorem header96_eq (dk : Bytes) (l r p : Nat) (salt m : Bytes) (hs : salt.length = 32) :
    (container dk l r p salt m).take 96 = header96 dk l r p salt := by
  unfold container
  rw [List.append_assoc, List.take_append_of_le_length (by rw [header96_length _ _ _ _ _ hs]), List.take_of_length_le (by rw [header96_length _ _ _ _ _ hs])]

/-- Two containers made with one salt, passphrase and one set of parameters. -/
theorem same_key_xor {passwd salt : Bytes} {l r p : Nat} (hs : salt.length = 32) {m1 m2 : Bytes} {k : Nat} (h1 : k < m1.length) (h2 : k < m2.length) :
    xorBytes (field (container (scryptCode passwd salt (2 ^ l) r p 64) l r p salt m1) (96 + k) 1)
      (field (container (scryptCode passwd salt (2 ^ l) r p 64) l r p salt m2) (96 + k) 1) = xorBytes (field m1 k 1) (field m2 k 1) := by
  rw [field_container hs (by omega), field_container hs (by omega)]
  unfold dataCipher ctr
  rw [field_xor, field_xor]
  have one : ∀ (x : Bytes), k < x.length → field x k 1 = [x.getD k 0] := by
    intro x hx
    unfold field
    rw [List.drop_eq_getElem_cons hx, List.take_succ_cons, List.take_zero, List.getD_eq_getElem?_getD, List.getElem?_eq_getElem hx]; rfl
  have st : ∀ n, k < n → field (ctrStream (aes (keyEnc (scryptCode passwd salt (2 ^ l) r p 64))) 0 0 n) k 1 =
      [ctrByte (aes (keyEnc (scryptCode passwd salt (2 ^ l) r p 64))) 0 k] := by
    intro n hn
    rw [one _ (by rw [ctrStream, List.length_map, List.length_range]; exact hn), ctrStream, List.getD_eq_getElem?_getD, List.getElem?_map,
      List.getElem?_range hn]
    show [ctrByte _ 0 (0 + k)] = _
    rw [Nat.zero_add]
  rw [st _ h1, st _ h2, one _ h1, one _ h2]
  simp only [xorBytes, List.zipWith_cons_cons, List.zipWith_nil_left]
  rw [show ∀ x y z : Byte, (x ^^^ z) ^^^ (y ^^^ z) = x ^^^ y from fun x y z => by
    rw [show (x ^^^ z) ^^^ (y ^^^ z) = (x ^^^ y) ^^^ (z ^^^ z) by ac_rfl]; simp]

/-- What an encryption hands out is the salt in its result. -/
theorem handedOut_salt {c : LibCall} {o : LibOut} {passwd msg D : Bytes} (h : Encrypts c o passwd msg D) :
    AsksRandom c ∧ handedOut c o = some (field D 16 32) := by
  unfold Encrypts at h
  split at h
  · obtain ⟨rfl, rfl, h1, h2, rfl⟩ := h
    refine ⟨trivial, ?_⟩
    unfold handedOut
    simp only []
    rw [if_pos h2]
    unfold field
    rw [List.drop_take, List.take_take]
    congr 2
  · obtain ⟨rfl, rfl, h1, h2⟩ := h
    refine ⟨trivial, ?_⟩
    unfold handedOut
    simp only []
    rw [if_pos h1, h2, List.drop_left]
  · exact h.elim

/-- **C85, finding F32**, what follows: the parent and the child each encrypt a message under the same passphrase as the first thing they do.  Then the two results
carry the same salt; and if the parameters in the two headers are the same too, the whole headers are, and the two ciphertexts differ exactly as the messages do. -/
theorem C85_twopad {m : Machine} (gm : m.Good) {before : List (CallEnv × LibCall)} (hb : ∀ c ∈ before, c.1.Good ∧ BufferFits c.2) {seeds : List SeedEnv}
    {outs : List LibOut} {st : Statics} (h0 : libHistory m (Statics.initial seeds) before = .ok (some (outs, st)))
    (hd : allHandedOut (before.map (·.2)) outs ≠ []) (hw : (before.map fun c => drawSteps c.2).sum < 256)
    {eP eC : CallEnv} (geP : eP.Good) (geC : eC.Good) {cP cC : LibCall} (fP : BufferFits cP) (fC : BufferFits cC) {seedsP seedsC : List SeedEnv}
    {oP oC : LibOut} {stP stC : Statics} (hP : libCall m eP (forked st seedsP) cP = .ok (some (oP, stP))) (hC : libCall m eC (forked st seedsC) cC = .ok (some (oC, stC)))
    {passwd mP mC DP DC : Bytes} (hmP : mP.length + 128 < 2 ^ 64) (hmC : mC.length + 128 < 2 ^ 64)
    (xP : Encrypts cP oP passwd mP DP) (xC : Encrypts cC oC passwd mC DC) :
    hdrSalt DP = hdrSalt DC ∧
    (hdrLogN DP = hdrLogN DC → hdrR DP = hdrR DC → hdrP DP = hdrP DC → DP.take 96 = DC.take 96 ∧
      ∀ k, k < mP.length → k < mC.length → xorBytes (field DP (96 + k) 1) (field DC (96 + k) 1) = xorBytes (field mP k 1) (field mC k 1)) := by
  obtain ⟨hi, -⟩ := history_drew gm before hb (StInv.initial m seeds) h0
  obtain ⟨sysP, p1, p2, -, -⟩ := libCall_spec gm geP (forked_inv hi seedsP) hP
  obtain ⟨sysC, c1, c2, -, -⟩ := libCall_spec gm geC (forked_inv hi seedsC) hC
  obtain ⟨saltP, lP, rP, pP, -, a2, a3, a4, a5, rfl, -⟩ := encrypts_container p1.good p2 hmP xP
  obtain ⟨saltC, lC, rC, pC, -, b2, b3, b4, b5, rfl, -⟩ := encrypts_container c1.good c2 hmC xC
  have fldP := container_fields (scryptCode passwd saltP (2 ^ lP) rP pP 64) lP rP pP saltP mP a2 (by have := a3.2.1; omega) a4 a5
  have fldC := container_fields (scryptCode passwd saltC (2 ^ lC) rC pC 64) lC rC pC saltC mC b2 (by have := b3.2.1; omega) b4 b5
  have one : ∀ {e : CallEnv} {c : LibCall} {sd : List SeedEnv} {o : LibOut} {st' : Statics}, libCall m e (forked st sd) c = .ok (some (o, st')) →
      libHistory m (forked st sd) [(e, c)] = .ok (some ([o], st')) := by
    intro e c sd o st' h
    unfold libHistory
    rw [h, Res.bind_ok]
    simp only []
    unfold libHistory
    rfl
  obtain ⟨qP, wP⟩ := handedOut_salt xP
  obtain ⟨qC, wC⟩ := handedOut_salt xC
  have hoP : allHandedOut ([(eP, cP)].map (·.2)) [oP] = [field (container (scryptCode passwd saltP (2 ^ lP) rP pP 64) lP rP pP saltP mP) 16 32] := by
    rw [List.map_singleton, allHandedOut_cons, wP]; rfl
  have hoC : allHandedOut ([(eC, cC)].map (·.2)) [oC] = [field (container (scryptCode passwd saltC (2 ^ lC) rC pC 64) lC rC pC saltC mC) 16 32] := by
    rw [List.map_singleton, allHandedOut_cons, wC]; rfl
  have sp : field (container (scryptCode passwd saltP (2 ^ lP) rP pP 64) lP rP pP saltP mP) 16 32 = saltP := fldP.salt
  have sc : field (container (scryptCode passwd saltC (2 ^ lC) rC pC 64) lC rC pC saltC mC) 16 32 = saltC := fldC.salt
  rw [sp] at hoP
  rw [sc] at hoC
  have served : ∀ {e : CallEnv} {c : LibCall} {o : LibOut} {w : Bytes}, handedOut c o = some w → AllServed ([(e, c)].map (·.2)) [o] := by
    intro e c o w hw x hx _
    rw [List.map_singleton, List.zip_cons_cons, List.zip_nil_left, List.mem_singleton] at hx
    rw [hx, hw]; simp
  have key := (C85_fork gm hb h0 hd (csP := [(eP, cP)]) (csC := [(eC, cC)]) (fun c hc => by rw [List.mem_singleton.1 hc]; exact ⟨geP, fP⟩)
    (fun c hc => by rw [List.mem_singleton.1 hc]; exact ⟨geC, fC⟩) (one hP) (one hC) (served wP) (served wC)
    (by rw [hoP, hoC, List.map_singleton, List.map_singleton, a2, b2])
    (by rw [hoP]; unfold handSteps; rw [List.map_singleton, List.sum_singleton, a2]; omega)).1
  rw [hoP, hoC] at key
  have hsalt : saltP = saltC := (List.cons.inj key).1
  refine ⟨by rw [fldP.salt, fldC.salt, hsalt], ?_⟩
  rw [fldP.logN, fldC.logN, fldP.r, fldC.r, fldP.p, fldC.p]
  rintro rfl rfl rfl
  subst hsalt
  exact ⟨by rw [header96_eq _ _ _ _ _ _ a2, header96_eq _ _ _ _ _ _ a2], fun k k1 k2 => same_key_xor a2 k1 k2⟩

/-- Decryptions and key derivations leave the generator as it was. -/
theorem history_quiet {m : Machine} (gm : m.Good) : ∀ (cs : List (CallEnv × LibCall)) (_ : ∀ c ∈ cs, c.1.Good ∧ ¬ AsksRandom c.2) {st st' : Statics} (_ : StInv m st)
    {outs : List LibOut} (_ : libHistory m st cs = .ok (some (outs, st'))), StInv m st' ∧ st'.drbg = st.drbg ∧ st'.seeds = st.seeds
  | [], _, st, st', hi, outs, h => by
    unfold libHistory at h
    obtain ⟨rfl, rfl⟩ := Prod.mk.inj (Option.some.inj (Res.ok.inj h))
    exact ⟨hi, rfl, rfl⟩
  | c :: cs, hg, st, st', hi, outs, h => by
    unfold libHistory at h
    obtain ⟨r, h1, h⟩ := Res.bind_eq_ok.1 h
    cases r with
    | none => cases h
    | some x =>
      simp only [] at h
      obtain ⟨q, h2, h⟩ := Res.bind_eq_ok.1 h
      cases q with
      | none => cases h
      | some q =>
        obtain ⟨rfl, rfl⟩ := Prod.mk.inj (Option.some.inj (Res.ok.inj h))
        have hc := hg c (by simp)
        obtain ⟨sys, -, -, a3, -⟩ := libCall_spec gm hc.1 hi h1
        obtain ⟨e1, e2⟩ := quiet_undrawn gm hc.1 hi (by
          have := hc.2
          revert this
          generalize c.2 = k
          intro hq
          cases k with
          | encBuf => exact (hq trivial).elim
          | encFile => exact (hq trivial).elim
          | random => exact (hq trivial).elim
          | _ => trivial) h1
        obtain ⟨b1, b2, b3⟩ := history_quiet gm cs (fun c hc => hg c (by simp [hc])) a3 h2
        exact ⟨b1, b2.trans e1, b3.trans e2⟩

/-- **C85**, decryptions and key derivations ask for no random bytes: whatever they are given and whatever becomes of them, the entropy source is not consulted,
and what the process hands out afterwards is what it would have handed out without them. -/
theorem C85_quiet {m : Machine} (gm : m.Good) {cs : List (CallEnv × LibCall)} (hg : ∀ c ∈ cs, c.1.Good ∧ ¬ AsksRandom c.2) {seeds : List SeedEnv} {outs : List LibOut}
    {st : Statics} (h : libHistory m (Statics.initial seeds) cs = .ok (some (outs, st))) :
    st.drbg = Drbg.initial ∧ st.seeds = seeds ∧ allHandedOut (cs.map (·.2)) outs = [] := by
  obtain ⟨a1, a2, a3⟩ := history_quiet gm cs hg (StInv.initial m seeds) h
  refine ⟨a2, a3, ?_⟩
  unfold allHandedOut
  rw [List.filterMap_eq_nil_iff]
  intro x hx
  have hx1 := (List.of_mem_zip hx).1
  obtain ⟨c, hc, e⟩ := List.mem_map.1 hx1
  have hq := (hg c hc).2
  rw [e] at hq
  obtain ⟨k, o⟩ := x
  cases k with
  | encBuf => exact (hq trivial).elim
  | encFile => exact (hq trivial).elim
  | random => exact (hq trivial).elim
  | _ => cases o <;> rfl

/-- **C85**, when forking is harmless: if the process has only decrypted and derived keys before it forks, what the child hands out comes from one run of the
generator seeded only from what the child's own entropy source delivers. -/
theorem C85_apart {m : Machine} (gm : m.Good) {before : List (CallEnv × LibCall)} (hb : ∀ c ∈ before, c.1.Good ∧ ¬ AsksRandom c.2) {seeds : List SeedEnv}
    {outs : List LibOut} {st : Statics} (h0 : libHistory m (Statics.initial seeds) before = .ok (some (outs, st)))
    {cs : List (CallEnv × LibCall)} (hc : ∀ c ∈ cs, c.1.Good ∧ BufferFits c.2) {seeds' : List SeedEnv} {outs' : List LibOut} {st' : Statics}
    (h : libHistory m (forked st seeds') cs = .ok (some (outs', st'))) :
    ∃ (used : List SeedEnv) (ops : List Spec.Drbg.Op) (pieces : List Bytes), seeds' = used ++ st'.seeds ∧
      Seedings m.rdrand false used ops ∧ Spec.Drbg.Legal none ops ∧ (Spec.Drbg.run none ops).2 = pieces.flatten ∧
      (allHandedOut (cs.map (·.2)) outs').Sublist pieces := by
  obtain ⟨hi, e1, -⟩ := history_quiet gm before hb (StInv.initial m seeds) h0
  obtain ⟨bufs, rs, h1, h2⟩ := history_drawn gm cs hc (forked_inv hi seeds') h
  have h1 : requests m.drbgSys seeds' Drbg.initial bufs = .ok (some (rs, st'.drbg, st'.seeds)) := by rw [← show (forked st seeds').drbg = Drbg.initial from e1]; exact h1
  obtain ⟨used, ops, ws, a1, a2, a3, a4, a5, a6, a7⟩ := C39_history (drbgSys_good gm) h1
  exact ⟨used, ops, ws, a1, a2, a3, a4, h2.trans (okBufs_sublist rs bufs ws a5 a6 a7)⟩

end Scrypt.Props
