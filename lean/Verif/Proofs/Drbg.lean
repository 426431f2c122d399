import Verif.Proofs.Entropy
/-
The HMAC_DRBG code computes SP 800-90A.
-/
namespace Scrypt
open Spec

/-- A platform whose SHA-256 block function is correct. -/
structure DrbgSys.Good (sys : DrbgSys) : Prop where
  tf : GoodTf sys.tf
  junk : sys.junk.Sized

theorem drbgUpdate_spec {sys : DrbgSys} (g : sys.Good) (st : Drbg) (hV : st.V.length = 32) (data : Bytes) :
    drbgUpdate sys st data = .ok { st with Key := (Spec.Drbg.update st.Key st.V data).1, V := (Spec.Drbg.update st.Key st.V data).2 } := by
  obtain ⟨c1, e1, h1⟩ := HMAC_SHA256_Init_spec sys.tf g.tf sys.junk g.junk st.Key
  obtain ⟨c2, e2, h2⟩ := HMAC_SHA256_Update_spec sys.tf g.tf _ _ _ (st.V ++ [0x00]) h1
  obtain ⟨c3, e3, h3⟩ := HMAC_SHA256_Update_spec sys.tf g.tf _ _ _ data h2
  obtain ⟨c4, e4, h4⟩ := HMAC_SHA256_Final_spec sys.tf g.tf _ _ _ h3
  rw [List.nil_append] at e4
  have t1 : (st.V ++ [(0x00 : Byte)]).take 32 = st.V := List.take_left' hV
  have b1 := HMAC_SHA256_Buf_spec sys.tf g.tf sys.junk g.junk (hmac st.Key (st.V ++ [0x00] ++ data)) st.V
  obtain ⟨c5, e5, h5⟩ := HMAC_SHA256_Init_spec sys.tf g.tf c4 h4 (hmac st.Key (st.V ++ [0x00] ++ data))
  obtain ⟨c6, e6, h6⟩ := HMAC_SHA256_Update_spec sys.tf g.tf _ _ _ (hmac (hmac st.Key (st.V ++ [0x00] ++ data)) st.V ++ [0x01]) h5
  obtain ⟨c7, e7, h7⟩ := HMAC_SHA256_Update_spec sys.tf g.tf _ _ _ data h6
  obtain ⟨c8, e8, h8⟩ := HMAC_SHA256_Final_spec sys.tf g.tf _ _ _ h7
  rw [List.nil_append] at e8
  have t2 : (hmac (hmac st.Key (st.V ++ [0x00] ++ data)) st.V ++ [(0x01 : Byte)]).take 32 =
      hmac (hmac st.Key (st.V ++ [0x00] ++ data)) st.V := List.take_left' (hmac_length _ _)
  have b2 := HMAC_SHA256_Buf_spec sys.tf g.tf sys.junk g.junk
    (hmac (hmac st.Key (st.V ++ [0x00] ++ data)) (hmac (hmac st.Key (st.V ++ [0x00] ++ data)) st.V ++ [0x01] ++ data))
    (hmac (hmac st.Key (st.V ++ [0x00] ++ data)) st.V)
  unfold drbgUpdate
  simp only [e1, e2, e3, e4, Res.bind_ok, t1, b1]
  by_cases hd : data = []
  · rw [if_neg (by rw [hd]; simp)]
    unfold Spec.Drbg.update
    rw [if_pos hd]
  · rw [if_pos (by rw [Ne, List.length_eq_zero_iff]; exact hd)]
    simp only [e5, e6, e7, e8, Res.bind_ok, t2, b2]
    unfold Spec.Drbg.update
    rw [if_neg hd]

theorem update_length (K V data : Bytes) : (Spec.Drbg.update K V data).1.length = 32 ∧ (Spec.Drbg.update K V data).2.length = 32 := by
  unfold Spec.Drbg.update
  split <;> exact ⟨hmac_length _ _, hmac_length _ _⟩

/-- The state of the C code represents the state of the generator. -/
def Rep (st : Drbg) : Option Spec.Drbg.State → Prop
  | none => st.instantiated = false
  | some s => st.instantiated = true ∧ st.Key = s.K ∧ st.V = s.V ∧ s.V.length = 32 ∧
      st.reseed_counter.toNat = s.served + 1 ∧ s.served ≤ 256

/-! ### Seeding -/

theorem rdrand_some {n : Nat} : ∀ {as : List (Option W32)} {b : Bytes}, generate_seed_rdrand as n = some b →
    ∃ (ws : List W32) (rest : _), as = ws.map some ++ rest ∧ ws.length = n ∧ b = ws.flatMap fun w => leBytes 4 w.toNat := by
  induction n with
  | zero => intro as b h; unfold generate_seed_rdrand at h; cases h; exact ⟨[], as, rfl, rfl, rfl⟩
  | succ n ih =>
    intro as b h
    unfold generate_seed_rdrand at h
    split at h
    · rename_i w rest
      rw [Option.map_eq_some_iff] at h
      obtain ⟨b', h1, h2⟩ := h
      obtain ⟨ws, r, e1, e2, e3⟩ := ih h1
      refine ⟨w :: ws, r, by rw [e1]; rfl, by rw [List.length_cons, e2], ?_⟩
      rw [List.flatMap_cons, ← e3, ← le32enc_eq]
      exact h2.symm
    · cases h

theorem rdrand_none {n : Nat} : ∀ {as : List (Option W32)}, generate_seed_rdrand as n = none →
    ¬ ∃ (ws : List W32) (rest : _), as = ws.map some ++ rest ∧ ws.length = n := by
  induction n with
  | zero => intro as h; unfold generate_seed_rdrand at h; cases h
  | succ n ih =>
    rintro as h ⟨ws, rest, e1, e2⟩
    cases ws with
    | nil => cases e2
    | cons w ws =>
      rw [e1] at h
      unfold generate_seed_rdrand at h
      simp only [List.map_cons, List.cons_append, Option.map_eq_none_iff] at h
      exact ih h ⟨ws, rest, rfl, by simpa using e2⟩

/-- Mixing seed material and RDRAND output. -/
theorem mix_spec {sys : DrbgSys} (g : sys.Good) (st : Drbg) (hV : st.V.length = 32) (seed : Bytes) (as : List (Option W32)) :
    ∃ x, RdrandSeed sys.hasRdrand as x ∧
      (drbgUpdate sys st seed >>= fun st => update_from_rdrand sys st as) =
        .ok { st with Key := (Spec.Drbg.seeded st.Key st.V seed x).K, V := (Spec.Drbg.seeded st.Key st.V seed x).V } := by
  rw [drbgUpdate_spec g st hV, Res.bind_ok]
  unfold update_from_rdrand
  cases hr : sys.hasRdrand with
  | false =>
    rw [if_neg (by simp)]
    exact ⟨none, by simp [RdrandSeed], rfl⟩
  | true =>
    rw [if_pos rfl]
    cases hg : generate_seed_rdrand as 8 with
    | none => exact ⟨none, fun h => rdrand_none hg h.2, rfl⟩
    | some b =>
      refine ⟨some b, ⟨rfl, rdrand_some hg⟩, ?_⟩
      simp only []
      rw [drbgUpdate_spec g _ (update_length _ _ _).2]
      rfl

theorem seeded_length (K V seed : Bytes) (x : Option Bytes) : (Spec.Drbg.seeded K V seed x).V.length = 32 := by
  unfold Spec.Drbg.seeded
  cases x <;> exact (update_length _ _ _).2

theorem seeded_served (K V seed : Bytes) (x : Option Bytes) : (Spec.Drbg.seeded K V seed x).served = 0 := by
  unfold Spec.Drbg.seeded
  cases x <;> rfl

theorem obtained_take {os : EntropyOs} {n : Nat} {d buf : Bytes} {o : EntOut} (hb : buf.length = n)
    (h : entropy_read os buf n = .ok (some o)) (ho : Obtained os n d) : o.buf.take n = d := by
  obtain ⟨h1, h2, -⟩ := entropy_read_spec (by omega) h
  rw [h2 d (h1.2 ⟨d, ho⟩) ho.2.2.1]
  obtain ⟨-, -, ⟨_, _, -, -, -, e⟩, -⟩ := ho
  exact List.take_left' e

theorem instantiate_spec {sys : DrbgSys} (g : sys.Good) (e : SeedEnv) (st : Drbg) {b : Bool} {st' : Drbg}
    (h : instantiate sys e st = .ok (some (b, st'))) :
    (b = false ∧ st' = st ∧ ¬ ∃ d, Obtained e.os 48 d) ∨
    (b = true ∧ ∃ d x, Obtained e.os 48 d ∧ d.length = 48 ∧ RdrandSeed sys.hasRdrand e.rdrand x ∧
      Rep { st' with instantiated := true } (Spec.Drbg.step none (.instantiate d x)).1) := by
  unfold instantiate at h
  rw [Res.bind_eq_ok] at h
  obtain ⟨r, hr, h⟩ := h
  cases r with
  | none => cases h
  | some r =>
    have hl : ((List.range 48).map e.stk).length = 48 := by simp
    obtain ⟨s1, -⟩ := entropy_read_spec (by omega) hr
    simp only [] at h
    cases hk : r.ok with
    | false =>
      rw [if_pos (by rw [hk]; rfl)] at h
      cases h
      exact .inl ⟨rfl, rfl, fun hd => by rw [s1.2 hd] at hk; cases hk⟩
    | true =>
      rw [if_neg (by rw [hk]; simp)] at h
      obtain ⟨d, hd⟩ := s1.1 hk
      have hdl : d.length = 48 := by obtain ⟨-, -, ⟨_, _, -, -, -, e⟩, -⟩ := hd; exact e
      obtain ⟨x, hx, hm⟩ := mix_spec g { st with Key := List.replicate 32 0x00, V := List.replicate 32 0x01, reseed_counter := 1 }
        (by simp) (r.buf.take 48) e.rdrand
      rw [← bind_assoc, hm, Res.bind_ok] at h
      cases h
      rw [obtained_take hl hr hd]
      refine .inr ⟨rfl, d, x, hd, hdl, hx, ?_⟩
      refine ⟨rfl, rfl, rfl, seeded_length _ _ _ _, ?_, ?_⟩
      · rw [seeded_served]; rfl
      · rw [seeded_served]; omega

theorem reseed_spec {sys : DrbgSys} (g : sys.Good) (e : SeedEnv) {st : Drbg} {s : Spec.Drbg.State} (hs : Rep st (some s)) {b : Bool} {st' : Drbg}
    (h : reseed sys e st = .ok (some (b, st'))) :
    (b = false ∧ st' = st ∧ ¬ ∃ d, Obtained e.os 32 d) ∨
    (b = true ∧ ∃ d x, Obtained e.os 32 d ∧ d.length = 32 ∧ RdrandSeed sys.hasRdrand e.rdrand x ∧
      Rep st' (Spec.Drbg.step (some s) (.reseed d x)).1) := by
  obtain ⟨i1, i2, i3, i4, i5, i6⟩ := hs
  unfold reseed at h
  rw [Res.bind_eq_ok] at h
  obtain ⟨r, hr, h⟩ := h
  cases r with
  | none => cases h
  | some r =>
    have hl : ((List.range 32).map e.stk).length = 32 := by simp
    obtain ⟨s1, -⟩ := entropy_read_spec (by omega) hr
    simp only [] at h
    cases hk : r.ok with
    | false =>
      rw [if_pos (by rw [hk]; rfl)] at h
      cases h
      exact .inl ⟨rfl, rfl, fun hd => by rw [s1.2 hd] at hk; cases hk⟩
    | true =>
      rw [if_neg (by rw [hk]; simp)] at h
      obtain ⟨d, hd⟩ := s1.1 hk
      have hdl : d.length = 32 := by obtain ⟨-, -, ⟨_, _, -, -, -, e⟩, -⟩ := hd; exact e
      obtain ⟨x, hx, hm⟩ := mix_spec g st (by rw [i3, i4]) (r.buf.take 32) e.rdrand
      rw [← bind_assoc, hm, Res.bind_ok] at h
      cases h
      rw [obtained_take hl hr hd, i2, i3]
      refine .inr ⟨rfl, d, x, hd, hdl, hx, ?_⟩
      refine ⟨i1, rfl, rfl, seeded_length _ _ _ _, ?_, ?_⟩
      · rw [seeded_served]; rfl
      · rw [seeded_served]; omega

/-! ### Generating -/

theorem chain_length (K V : Bytes) (hV : V.length = 32) (i : Nat) : (Spec.Drbg.chain K V i).length = 32 := by
  cases i with
  | zero => exact hV
  | succ i => exact hmac_length _ _

theorem blocks_length (K V : Bytes) (hV : V.length = 32) (m : Nat) :
    ((List.range m).flatMap fun i => Spec.Drbg.chain K V (i + 1)).length = 32 * m := by
  induction m with
  | zero => rfl
  | succ m ih =>
    rw [List.range_succ, List.flatMap_append, List.length_append, ih]
    simp only [List.flatMap_cons, List.flatMap_nil, List.append_nil, chain_length K V hV]
    omega

theorem generate_spec {sys : DrbgSys} (g : sys.Good) {st : Drbg} {s : Spec.Drbg.State} (hs : Rep st (some s)) (hc : s.served < 256)
    (buf : Bytes) (off n : Nat) (hn : n ≤ 65536) (hl : off + n ≤ buf.length) :
    ∃ st' w, generate sys st buf off n = .ok (buf.take off ++ w ++ buf.drop (off + n), st') ∧ w.length = n ∧
      w = (Spec.Drbg.step (some s) (.generate n)).2 ∧ Rep st' (Spec.Drbg.step (some s) (.generate n)).1 := by
  obtain ⟨i1, i2, i3, i4, i5, i6⟩ := hs
  -- the loop
  have hloop : ∃ q, forLoop ((n + 31) / 32) (genStep sys st.Key off n) (buf, st.V) = .ok q ∧
      (q.2 = Spec.Drbg.chain s.K s.V ((n + 31) / 32) ∧
       q.1 = buf.take off ++ ((List.range ((n + 31) / 32)).flatMap fun i => Spec.Drbg.chain s.K s.V (i + 1)).take n ++
        buf.drop (off + min n (32 * ((n + 31) / 32)))) := by
    refine forLoop_inv (P := fun i (q : Bytes × Bytes) => q.2 = Spec.Drbg.chain s.K s.V i ∧
       q.1 = buf.take off ++ ((List.range i).flatMap fun i => Spec.Drbg.chain s.K s.V (i + 1)).take n ++
        buf.drop (off + min n (32 * i))) ⟨i3, by simp⟩ ?_
    rintro i ⟨b, V⟩ hi ⟨p1, p2⟩
    simp only [] at p1 p2
    subst p1
    have hbl := blocks_length s.K s.V i4 i
    have hmin : min n (32 * i) = 32 * i := by omega
    have htake : ((List.range i).flatMap fun i => Spec.Drbg.chain s.K s.V (i + 1)).take n =
        (List.range i).flatMap fun i => Spec.Drbg.chain s.K s.V (i + 1) := List.take_of_length_le (by rw [hbl]; omega)
    rw [hmin, htake] at p2
    have hpre : (buf.take off ++ (List.range i).flatMap fun i => Spec.Drbg.chain s.K s.V (i + 1)).length = off + 32 * i := by
      rw [List.length_append, hbl, List.length_take]; omega
    unfold genStep
    rw [HMAC_SHA256_Buf_spec sys.tf g.tf sys.junk g.junk, Res.bind_ok]
    have hk : (if n - 32 * i ≥ 32 then 32 else n - 32 * i) = min 32 (n - 32 * i) := by split <;> omega
    have hVl : (hmac st.Key (Spec.Drbg.chain s.K s.V i)).length = 32 := hmac_length _ _
    have hsl : ((hmac st.Key (Spec.Drbg.chain s.K s.V i)).take (min 32 (n - 32 * i))).length = min 32 (n - 32 * i) := by
      rw [List.length_take, hVl]; omega
    simp only [hk]
    rw [p2, wrSlice_ok (by rw [hsl, List.length_append, hpre, List.length_drop]; omega), Res.bind_ok]
    refine ⟨_, rfl, by rw [i2]; rfl, ?_⟩
    simp only []
    rw [List.take_left' hpre, List.range_succ, List.flatMap_append, hsl]
    simp only [List.flatMap_cons, List.flatMap_nil, List.append_nil]
    rw [List.take_append, htake, hbl, List.append_assoc (buf.take off)]
    congr 1
    · congr 2
      rw [i2]
      show _ = List.take (n - 32 * i) (hmac s.K (Spec.Drbg.chain s.K s.V i))
      rw [show min 32 (n - 32 * i) = min (n - 32 * i) (hmac s.K (Spec.Drbg.chain s.K s.V i)).length from by rw [hmac_length]; omega,
        ← List.take_take, List.take_length]
    · rw [← List.drop_drop (i := min 32 (n - 32 * i)), List.drop_left' hpre, List.drop_drop]
      congr 1
      omega
  obtain ⟨q, hq, q1, q2⟩ := hloop
  have hmin : min n (32 * ((n + 31) / 32)) = n := by omega
  rw [hmin] at q2
  unfold generate
  rw [show cassert (n ≤ GENERATE_MAXLEN) = .ok () from by unfold GENERATE_MAXLEN; simp [hn], Res.bind_ok,
    show cassert (st.reseed_counter.toNat ≤ RESEED_INTERVAL) = .ok () from by
      unfold RESEED_INTERVAL; rw [i5]; simp [show s.served + 1 ≤ 256 by omega], Res.bind_ok, hq, Res.bind_ok]
  simp only []
  rw [drbgUpdate_spec g _ (by rw [q1]; exact chain_length _ _ i4 _), Res.bind_ok]
  refine ⟨_, ((List.range ((n + 31) / 32)).flatMap fun i => Spec.Drbg.chain s.K s.V (i + 1)).take n, by rw [q2], ?_, rfl, ?_⟩
  · rw [List.length_take, blocks_length _ _ i4]; omega
  · refine ⟨i1, ?_, ?_, ?_, ?_, ?_⟩
    · simp only [i2, q1]
    · simp only [i2, q1]
    · exact (update_length _ _ _).2
    · simp only [BitVec.toNat_add]
      rw [i5]
      show (s.served + 1 + 1) % 4294967296 = s.served + 1 + 1
      omega
    · show s.served + 1 ≤ 256
      omega

end Scrypt
