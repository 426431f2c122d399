import Verif.Props.Process
/-
C54: the salts of a process are disjoint pieces of the output of its random generator.
-/
namespace Scrypt.Props
open Scrypt Spec F64

/-- The random bytes a call hands out: the salt in the file it produced (bytes 16 to 47), or the buffer filled by crypto_entropy_read. -/
def handedOut : LibCall → LibOut → Option Bytes
  | .encBuf .., .buf o => if o.rc = .OK then some (field o.out 16 32) else none
  | .encFile _ outf .., .file o => if o.rc = .OK then some (field (o.outf.written.drop outf.written.length) 16 32) else none
  | .random _, .random o => if o.ok then some o.buf else none
  | _, _ => none

/-- All the random bytes a process handed out, in order. -/
def allHandedOut (cs : List LibCall) (outs : List LibOut) : List Bytes := (List.zip cs outs).filterMap fun x => handedOut x.1 x.2

/-- The length conditions under which a call is one the documentation allows. -/
def BufferFits : LibCall → Prop
  | .encBuf inbuf outbuf .. => inbuf.length + 128 < 2 ^ 64 ∧ inbuf.length + 128 ≤ outbuf.length
  | .encFile i .. => i.data.length + 128 < 2 ^ 64
  | _ => True

/-- The successful requests of a list, as buffers. -/
def okBufs (rs : List ReadOut) : List Bytes := (rs.filter (·.ok)).map (·.buf)

theorem requests_append {sys : DrbgSys} : ∀ {b1 b2 : List Bytes} {es es' es'' : List SeedEnv} {st st' st'' : Scrypt.Drbg} {r1 r2 : List ReadOut}
    (_ : requests sys es st b1 = .ok (some (r1, st', es'))) (_ : requests sys es' st' b2 = .ok (some (r2, st'', es''))),
    requests sys es st (b1 ++ b2) = .ok (some (r1 ++ r2, st'', es''))
  | [], b2, es, es', es'', st, st', st'', r1, r2, h1, h2 => by
    unfold requests at h1
    obtain ⟨rfl, h3⟩ := Prod.mk.inj (Option.some.inj (Res.ok.inj h1))
    obtain ⟨rfl, rfl⟩ := Prod.mk.inj h3
    exact h2
  | b :: b1, b2, es, es', es'', st, st', st'', r1, r2, h1, h2 => by
    rw [List.cons_append]
    unfold requests at h1 ⊢
    obtain ⟨r, e1, h1⟩ := Res.bind_eq_ok.1 h1
    rw [e1, Res.bind_ok]
    cases r with
    | none => cases h1
    | some r =>
      simp only [] at h1 ⊢
      obtain ⟨q, e2, h1⟩ := Res.bind_eq_ok.1 h1
      cases q with
      | none => cases h1
      | some q =>
        obtain ⟨rfl, h3⟩ := Prod.mk.inj (Option.some.inj (Res.ok.inj h1))
        have : requests sys r.rest r.st b1 = .ok (some (q.1, st', es')) := by rw [e2, ← h3]
        rw [requests_append this h2, Res.bind_ok]
        rfl

/-- One request as a history of one request. -/
theorem requests_one {sys : DrbgSys} {es : List SeedEnv} {st : Scrypt.Drbg} {b : Bytes} {o : ReadOut}
    (h : crypto_entropy_read sys es st b b.length = .ok (some o)) : requests sys es st [b] = .ok (some ([o], o.st, o.rest)) := by
  unfold requests
  rw [h, Res.bind_ok]
  rfl

/-- How many bytes a call asks the generator for, if it asks. -/
def drawLen : LibCall → Nat
  | .random b => b.length
  | _ => 32

/-- What one call hands out is what a request it made delivered; it made at most one. -/
theorem handedOut_drawn {m : Machine} (gm : m.Good) {e : CallEnv} (ge : e.Good) {st st' : Statics} (hi : StInv m st) {c : LibCall} {o : LibOut} (hf : BufferFits c)
    (h : libCall m e st c = .ok (some (o, st'))) :
    ∃ bufs rs, requests m.drbgSys st.seeds st.drbg bufs = .ok (some (rs, st'.drbg, st'.seeds)) ∧ ((handedOut c o).toList).Sublist (okBufs rs) ∧
      bufs.length ≤ 1 ∧ ∀ b ∈ bufs, b.length = drawLen c := by
  obtain ⟨sys, a1, a2, -, a4⟩ := libCall_spec gm ge hi h
  have nodraw : st'.drbg = st.drbg → st'.seeds = st.seeds → ∃ bufs rs, requests m.drbgSys st.seeds st.drbg bufs = .ok (some (rs, st'.drbg, st'.seeds)) ∧
      okBufs rs = [] ∧ bufs = [] := fun e1 e2 => ⟨[], [], by rw [e1, e2]; rfl, rfl, rfl⟩
  have draw : ∀ {x : Option Bytes}, SaltDrawn m e st sys.salt st' → (∀ w, x = some w → sys.salt = some w) → drawLen c = 32 →
      ∃ bufs rs, requests m.drbgSys st.seeds st.drbg bufs = .ok (some (rs, st'.drbg, st'.seeds)) ∧ (x.toList).Sublist (okBufs rs) ∧
        bufs.length ≤ 1 ∧ ∀ b ∈ bufs, b.length = drawLen c := by
    intro x hd hx hl
    rcases hd with ⟨e1, e2, e3⟩ | ⟨r, e1, e2, e3, e4⟩
    · obtain ⟨b, rs, h1, h2, rfl⟩ := nodraw e1 e2
      refine ⟨[], rs, h1, ?_, Nat.zero_le _, (fun b hb => by cases hb)⟩
      cases x with
      | none => exact List.nil_sublist _
      | some w => rw [hx w rfl] at e3; cases e3
    · have e1' : crypto_entropy_read m.drbgSys st.seeds st.drbg e.salt0 e.salt0.length = .ok (some r) := by rw [ge.salt0]; exact e1
      refine ⟨[e.salt0], [r], by rw [e3, e4]; exact requests_one e1', ?_, Nat.le_refl _, fun b hb => by rw [List.mem_singleton.1 hb, ge.salt0, hl]⟩
      cases x with
      | none => exact List.nil_sublist _
      | some w =>
        rw [hx w rfl] at e2
        split at e2
        · rename_i hok
          cases e2
          unfold okBufs
          rw [List.filter_cons_of_pos hok]
          exact List.Sublist.refl _
        · cases e2
  have salt : ∀ {passwd msg D : Bytes}, msg.length + 128 < 2 ^ 64 → Encrypts c o passwd msg D → sys.salt = some (field D 16 32) := by
    intro passwd msg D hm hE
    obtain ⟨salt, l, r, p, h1, h2, h3, h4, h5, h6, -⟩ := encrypts_container a1.good a2 hm hE
    have hC := container_fields (scryptCode passwd salt (2 ^ l) r p 64) l r p salt msg h2 (by have := h3.2.1; omega) h4 h5
    rw [h1, h6]
    exact congrArg some hC.salt.symm
  cases c with
  | encBuf inbuf outbuf pw P v f =>
    cases o with
    | buf o =>
      refine draw a4 ?_ rfl
      intro w hw
      unfold handedOut at hw
      simp only [] at hw
      split at hw
      · rename_i hok
        cases hw
        rw [salt (passwd := pw) (msg := inbuf) (D := o.out.take (inbuf.length + 128)) hf.1 ⟨rfl, rfl, hf.2, hok, rfl⟩]
        unfold field
        rw [List.drop_take, List.take_take, show min 32 (inbuf.length + 128 - 16) = 32 by omega]
      · cases hw
    | file => exact a2.elim
    | kdf => exact a2.elim
    | random => exact a2.elim
  | encFile i outf pw P v f =>
    cases o with
    | file o =>
      refine draw a4 ?_ rfl
      intro w hw
      unfold handedOut at hw
      simp only [] at hw
      split at hw
      · rename_i hok
        cases hw
        refine salt (passwd := pw) (msg := i.data) hf ⟨rfl, rfl, hok, ?_⟩
        obtain ⟨_, _, -, -, -, -, -, -, -, -, -, i6⟩ := encFile_inv a1.good (show i.data.length < 2 ^ 64 by have := hf; unfold BufferFits at this; omega) a2 hok
        rw [i6, List.drop_left]
      · cases hw
    | buf => exact a2.elim
    | kdf => exact a2.elim
    | random => exact a2.elim
  | decBuf _ _ _ _ _ _ _ =>
    refine draw a4 ?_ rfl
    intro w hw
    cases o <;> cases hw
  | decFile _ _ _ _ _ _ =>
    refine draw a4 ?_ rfl
    intro w hw
    cases o <;> cases hw
  | kdf _ _ _ _ _ _ _ =>
    obtain ⟨b, rs, h1, -, rfl⟩ := nodraw a4.1 a4.2
    refine ⟨[], rs, h1, ?_, Nat.zero_le _, (fun b hb => by cases hb)⟩
    cases o <;> exact List.nil_sublist _
  | random b =>
    cases o with
    | random o =>
      obtain ⟨o', h1, h2, h3⟩ := a4
      have e : o' = o := by have := h1.symm.trans a2; exact Option.some.inj (Res.ok.inj this)
      subst e
      refine ⟨[b], [o'], by rw [h2, h3]; exact requests_one h1, ?_, Nat.le_refl _, fun b hb => by rw [List.mem_singleton.1 hb]; rfl⟩
      unfold handedOut
      simp only []
      split
      · rename_i hok
        unfold okBufs
        rw [List.filter_cons_of_pos hok]
        exact List.Sublist.refl _
      · exact List.nil_sublist _
    | buf => exact a2.elim
    | kdf => exact a2.elim
    | file => exact a2.elim

theorem history_drawn {m : Machine} (gm : m.Good) : ∀ (cs : List (CallEnv × LibCall)) (_ : ∀ c ∈ cs, c.1.Good ∧ BufferFits c.2) {st st' : Statics} (_ : StInv m st)
    {outs : List LibOut} (_ : libHistory m st cs = .ok (some (outs, st'))),
    ∃ bufs rs, requests m.drbgSys st.seeds st.drbg bufs = .ok (some (rs, st'.drbg, st'.seeds)) ∧ (allHandedOut (cs.map (·.2)) outs).Sublist (okBufs rs)
  | [], _, st, st', hi, outs, h => by
    unfold libHistory at h
    obtain ⟨rfl, rfl⟩ := Prod.mk.inj (Option.some.inj (Res.ok.inj h))
    exact ⟨[], [], rfl, List.Sublist.refl _⟩
  | c :: cs, hg, st, st', hi, outs, h => by
    unfold libHistory at h
    obtain ⟨r, h1, h⟩ := Res.bind_eq_ok.1 h
    cases r with
    | none => cases h
    | some x =>
      simp only [] at h
      obtain ⟨q, h2, h⟩ := Res.bind_eq_ok.1 h
      cases q with
      | none => cases h
      | some q =>
        obtain ⟨rfl, rfl⟩ := Prod.mk.inj (Option.some.inj (Res.ok.inj h))
        have hc := hg c (by simp)
        obtain ⟨sys, -, -, a3, -⟩ := libCall_spec gm hc.1 hi h1
        obtain ⟨b1, r1, e1, s1, -⟩ := handedOut_drawn gm hc.1 hi hc.2 h1
        obtain ⟨b2, r2, e2, s2⟩ := history_drawn gm cs (fun c hc => hg c (by simp [hc])) a3 h2
        refine ⟨b1 ++ b2, r1 ++ r2, requests_append e1 e2, ?_⟩
        have : okBufs (r1 ++ r2) = okBufs r1 ++ okBufs r2 := by unfold okBufs; rw [List.filter_append, List.map_append]
        rw [this]
        have : allHandedOut ((c :: cs).map (·.2)) (x.1 :: q.1) = (handedOut c.2 x.1).toList ++ allHandedOut (cs.map (·.2)) q.1 := by
          unfold allHandedOut
          rw [List.map_cons, List.zip_cons_cons, List.filterMap_cons]
          cases handedOut c.2 x.1 <;> rfl
        rw [this]
        exact List.Sublist.append s1 s2

theorem okBufs_sublist : ∀ (rs : List ReadOut) (bufs ws : List Bytes) (_ : rs.length = bufs.length) (_ : ws.length = bufs.length)
    (_ : ∀ (i : Nat) b w r, bufs[i]? = some b → ws[i]? = some w → rs[i]? = some r → Stored b w r), (okBufs rs).Sublist ws
  | [], bufs, ws, _, _, _ => List.nil_sublist _
  | r :: rs, [], ws, h, _, _ => by cases h
  | r :: rs, b :: bufs, [], _, h, _ => by cases h
  | r :: rs, b :: bufs, w :: ws, h1, h2, h => by
    have ih := okBufs_sublist rs bufs ws (by simpa using h1) (by simpa using h2) (fun i b w r a1 a2 a3 => h (i + 1) b w r (by simpa) (by simpa) (by simpa))
    obtain ⟨s1, s2, -⟩ := h 0 b w r rfl rfl rfl
    unfold okBufs at ih ⊢
    cases hok : r.ok with
    | false => rw [List.filter_cons_of_neg (by simp [hok])]; exact List.Sublist.cons _ ih
    | true =>
      rw [List.filter_cons_of_pos hok, List.map_cons]
      have : r.buf = w := by rw [s1, s2 hok, List.drop_length, List.append_nil]
      rw [this]
      exact List.Sublist.cons_cons _ ih

/-- **C54.**  In every history of calls, with every behaviour of the entropy source: there is one run of the HMAC_DRBG of SP 800-90A, seeded by entropy that
the operating system delivered and legal in the sense of the standard, such that the salts of the files produced and the buffers filled by
crypto_entropy_read are, in this order, pieces of the output of this run at different places. -/
theorem C54_salts {m : Machine} (gm : m.Good) {cs : List (CallEnv × LibCall)} (hc : ∀ c ∈ cs, c.1.Good ∧ BufferFits c.2) {seeds : List SeedEnv}
    {outs : List LibOut} {st : Statics} (h : libHistory m (Statics.initial seeds) cs = .ok (some (outs, st))) :
    ∃ (used : List SeedEnv) (ops : List Spec.Drbg.Op) (pieces : List Bytes), seeds = used ++ st.seeds ∧
      Seedings m.rdrand false used ops ∧ Spec.Drbg.Legal none ops ∧ (Spec.Drbg.run none ops).2 = pieces.flatten ∧
      (allHandedOut (cs.map (·.2)) outs).Sublist pieces := by
  obtain ⟨bufs, rs, h1, h2⟩ := history_drawn gm cs hc (StInv.initial m seeds) h
  obtain ⟨used, ops, ws, a1, a2, a3, a4, a5, a6, a7⟩ := C39_history (drbgSys_good gm) h1
  exact ⟨used, ops, ws, a1, a2, a3, a4, h2.trans (okBufs_sublist rs bufs ws a5 a6 a7)⟩

end Scrypt.Props
