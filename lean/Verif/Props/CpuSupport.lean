import Verif.Model.CpuSupport
import Verif.Props.Aes
import Verif.Props.Scrypt
/-
C56: accelerated code runs only on processors that have the instructions it consists of.
-/
namespace Scrypt
open Spec (Ext Cpu CpuidRegs)

/-- The build can find out about the feature: it is enabled, and the means of detection are compiled in. -/
def CpuBuild.Detects (b : CpuBuild) : Ext → Prop
  | .sha => b.shani = true ∧ b.cpuidCount = true
  | .armAes => b.armAes = true ∧ b.aux ≠ .neither
  | .armSha2 => b.armSha256 = true ∧ b.aux ≠ .neither
  | e => b.enabled e = true ∧ b.cpuid = true

theorem bit32 (w : BitVec 32) (i : Nat) (h : i < 32) : ((w &&& (1#32 <<< i)) != 0#32) = w.getLsbD i := by
  cases hb : w.getLsbD i with
  | true =>
    rw [bne_iff_ne]
    intro e
    have := congrArg (fun x => x.getLsbD i) e
    rw [BitVec.getLsbD_eq_getElem h] at hb
    simp [h] at this
    exact Bool.noConfusion (hb.symm.trans this)
  | false =>
    have : w &&& (1#32 <<< i) = 0#32 := by
      apply BitVec.eq_of_getLsbD_eq
      intro j hj
      simp only [BitVec.getLsbD_and, BitVec.getLsbD_shiftLeft, BitVec.getLsbD_one, BitVec.getLsbD_zero]
      by_cases e : j = i
      · subst e; rw [hb]; rfl
      · by_cases l : j < i
        · simp [l]
        · rw [show decide (j - i = 0) = false by simp; omega]; simp
    rw [this]; rfl

theorem bit64 (w : BitVec 64) (i : Nat) (h : i < 64) : ((w &&& (1#64 <<< i)) != 0#64) = w.getLsbD i := by
  cases hb : w.getLsbD i with
  | true =>
    rw [bne_iff_ne]
    intro e
    have := congrArg (fun x => x.getLsbD i) e
    rw [BitVec.getLsbD_eq_getElem h] at hb
    simp [h] at this
    exact Bool.noConfusion (hb.symm.trans this)
  | false =>
    have : w &&& (1#64 <<< i) = 0#64 := by
      apply BitVec.eq_of_getLsbD_eq
      intro j hj
      simp only [BitVec.getLsbD_and, BitVec.getLsbD_shiftLeft, BitVec.getLsbD_one, BitVec.getLsbD_zero]
      by_cases e : j = i
      · subst e; rw [hb]; rfl
      · by_cases l : j < i
        · simp [l]
        · rw [show decide (j - i = 0) = false by simp; omega]; simp
    rw [this]; rfl

theorem leaf1_cases (b : CpuBuild) (c : Cpu) (g : CpuidRegs → Bool) :
    (if b.cpuid then
      match getCpuid c 0 with
      | none => false
      | some r0 => if r0.eax.toNat < 1 then false else match getCpuid c 1 with
        | none => false
        | some r => g r
    else false) = true ↔ b.cpuid = true ∧ ∃ m l0 l1 l7, c = .x86 m l0 l1 l7 ∧ 1 ≤ m.toNat ∧ g l1 = true := by
  cases b.cpuid with
  | false => simp
  | true =>
    cases c with
    | x86 m l0 l1 l7 =>
      by_cases h : m.toNat = 0
      · simp [getCpuid, h]
      · have h1 : ¬ m.toNat < 1 := by omega
        simp [getCpuid, h, h1]
        omega
    | aarch64 w => simp [getCpuid]
    | arm w => simp [getCpuid]

/-- Detection is exact. -/
theorem detect_iff (b : CpuBuild) (c : Cpu) (e : Ext) (h : b.enabled e = true) : detect b c true e = true ↔ b.Detects e ∧ c.Has e := by
  cases e with
  | aesni =>
    show detectAesni b c = true ↔ _
    unfold detectAesni
    refine (leaf1_cases b c (fun r => r.ecx &&& (1#32 <<< 25) != 0#32)).trans ⟨?_, ?_⟩
    · rintro ⟨hc, m, l0, l1, l7, rfl, h1, h2⟩
      exact ⟨⟨h, hc⟩, h1, (bit32 l1.ecx 25 (by omega)).symm.trans h2⟩
    · rintro ⟨⟨-, hc⟩, h1⟩
      cases c with
      | x86 m l0 l1 l7 => exact ⟨hc, m, l0, l1, l7, rfl, h1.1, (bit32 l1.ecx 25 (by omega)).trans h1.2⟩
      | aarch64 w => exact h1.elim
      | arm w => exact h1.elim
  | rdrand =>
    show detectRdrand b c = true ↔ _
    unfold detectRdrand
    refine (leaf1_cases b c (fun r => r.ecx &&& (1#32 <<< 30) != 0#32)).trans ⟨?_, ?_⟩
    · rintro ⟨hc, m, l0, l1, l7, rfl, h1, h2⟩
      exact ⟨⟨h, hc⟩, h1, (bit32 l1.ecx 30 (by omega)).symm.trans h2⟩
    · rintro ⟨⟨-, hc⟩, h1⟩
      cases c with
      | x86 m l0 l1 l7 => exact ⟨hc, m, l0, l1, l7, rfl, h1.1, (bit32 l1.ecx 30 (by omega)).trans h1.2⟩
      | aarch64 w => exact h1.elim
      | arm w => exact h1.elim
  | ssse3 =>
    show detectSsse3 b c = true ↔ _
    unfold detectSsse3
    refine (leaf1_cases b c (fun r => r.ecx &&& (1#32 <<< 9) != 0#32)).trans ⟨?_, ?_⟩
    · rintro ⟨hc, m, l0, l1, l7, rfl, h1, h2⟩
      exact ⟨⟨h, hc⟩, h1, (bit32 l1.ecx 9 (by omega)).symm.trans h2⟩
    · rintro ⟨⟨-, hc⟩, h1⟩
      cases c with
      | x86 m l0 l1 l7 => exact ⟨hc, m, l0, l1, l7, rfl, h1.1, (bit32 l1.ecx 9 (by omega)).trans h1.2⟩
      | aarch64 w => exact h1.elim
      | arm w => exact h1.elim
  | sse2 =>
    show detectSse2 b c = true ↔ _
    unfold detectSse2
    refine (leaf1_cases b c (fun r => r.edx &&& (1#32 <<< 26) != 0#32)).trans ⟨?_, ?_⟩
    · rintro ⟨hc, m, l0, l1, l7, rfl, h1, h2⟩
      exact ⟨⟨h, hc⟩, h1, (bit32 l1.edx 26 (by omega)).symm.trans h2⟩
    · rintro ⟨⟨-, hc⟩, h1⟩
      cases c with
      | x86 m l0 l1 l7 => exact ⟨hc, m, l0, l1, l7, rfl, h1.1, (bit32 l1.edx 26 (by omega)).trans h1.2⟩
      | aarch64 w => exact h1.elim
      | arm w => exact h1.elim
  | sha =>
    unfold detect detectShani
    have h : b.shani = true := h
    cases hc : b.cpuidCount with
    | false => simp [CpuBuild.Detects, hc]
    | true =>
      cases c with
      | x86 m l0 l1 l7 =>
        by_cases h0 : m.toNat = 0
        · simp [getCpuid, h0, Cpu.Has]
        · by_cases h7 : m.toNat < 7
          · have : ¬ 7 ≤ m.toNat := by omega
            simp [getCpuid, h0, h7, Cpu.Has, this]
          · have : 7 ≤ m.toNat := by omega
            have e := bit32 l7.ebx 29 (by omega)
            simp only [getCpuid, h0, false_or, Nat.not_lt_zero, if_false, if_true, h7, cpuidCount7, e]
            exact ⟨fun x => ⟨⟨h, hc⟩, this, x⟩, fun x => x.2.2⟩
      | aarch64 w => simp [getCpuid, Cpu.Has]
      | arm w => simp [getCpuid, Cpu.Has]
  | armAes =>
    show detectArmAes b c true = true ↔ _
    unfold detectArmAes
    have h : b.armAes = true := h
    rw [if_pos h]
    cases ha : b.aux with
    | neither => exact ⟨fun x => absurd x nofun, fun x => absurd ha x.1.2⟩
    | getauxval =>
      cases c with
      | x86 m l0 l1 l7 => exact ⟨fun x => absurd x nofun, fun x => x.2.elim⟩
      | aarch64 w =>
        have e := bit64 w 3 (by omega)
        simp only [e]
        exact ⟨fun x => ⟨⟨h, by rw [ha]; exact nofun⟩, x⟩, fun x => x.2⟩
      | arm w =>
        have e := bit32 w 0 (by omega)
        simp only [e]
        exact ⟨fun x => ⟨⟨h, by rw [ha]; exact nofun⟩, x⟩, fun x => x.2⟩
    | elfAuxInfo =>
      cases c with
      | x86 m l0 l1 l7 => exact ⟨fun x => absurd x nofun, fun x => x.2.elim⟩
      | aarch64 w =>
        have e := bit64 w 3 (by omega)
        simp only [e]
        exact ⟨fun x => ⟨⟨h, by rw [ha]; exact nofun⟩, x⟩, fun x => x.2⟩
      | arm w =>
        have e := bit32 w 0 (by omega)
        simp only [e]
        exact ⟨fun x => ⟨⟨h, by rw [ha]; exact nofun⟩, x⟩, fun x => x.2⟩
  | armSha2 =>
    show detectArmSha256 b c true = true ↔ _
    unfold detectArmSha256
    have h : b.armSha256 = true := h
    rw [if_pos h]
    cases ha : b.aux with
    | neither => exact ⟨fun x => absurd x nofun, fun x => absurd ha x.1.2⟩
    | getauxval =>
      cases c with
      | x86 m l0 l1 l7 => exact ⟨fun x => absurd x nofun, fun x => x.2.elim⟩
      | aarch64 w =>
        have e := bit64 w 6 (by omega)
        simp only [e]
        exact ⟨fun x => ⟨⟨h, by rw [ha]; exact nofun⟩, x⟩, fun x => x.2⟩
      | arm w =>
        have e := bit32 w 3 (by omega)
        simp only [e]
        exact ⟨fun x => ⟨⟨h, by rw [ha]; exact nofun⟩, x⟩, fun x => x.2⟩
    | elfAuxInfo =>
      cases c with
      | x86 m l0 l1 l7 => exact ⟨fun x => absurd x nofun, fun x => x.2.elim⟩
      | aarch64 w =>
        have e := bit64 w 6 (by omega)
        simp only [e]
        exact ⟨fun x => ⟨⟨h, by rw [ha]; exact nofun⟩, x⟩, fun x => x.2⟩
      | arm w =>
        have e := bit32 w 3 (by omega)
        simp only [e]
        exact ⟨fun x => ⟨⟨h, by rw [ha]; exact nofun⟩, x⟩, fun x => x.2⟩

/-- A failing elf_aux_info can only hide a feature. -/
theorem detect_sound (b : CpuBuild) (c : Cpu) (aux : Bool) (e : Ext) (h : detect b c aux e = true) : detect b c true e = true := by
  cases aux with
  | true => exact h
  | false =>
    cases e with
    | armAes =>
      unfold detect detectArmAes at h ⊢
      cases ha : b.armAes <;> cases hx : b.aux <;> cases c <;> simp_all
    | armSha2 =>
      unfold detect detectArmSha256 at h ⊢
      cases ha : b.armSha256 <;> cases hx : b.aux <;> cases c <;> simp_all
    | _ => exact h

/-- What is remembered is true. -/
def FeatVars.Sound (b : CpuBuild) (c : Cpu) (v : FeatVars) : Prop := ∀ e, (v e).present = true → b.Detects e ∧ c.Has e

/-- Nothing was missed, either: no elf_aux_info has failed so far. -/
def FeatVars.Exact (b : CpuBuild) (c : Cpu) (v : FeatVars) : Prop := ∀ e, (v e).init = true → (b.Detects e ∧ c.Has e) → (v e).present = true

theorem enabled_of_detects {b : CpuBuild} {e : Ext} (h : b.Detects e) : b.enabled e = true := by
  cases e <;> exact h.1

theorem sound_initial (b : CpuBuild) (c : Cpu) : FeatVars.initial.Sound b c := fun _ h => nomatch h
theorem exact_initial (b : CpuBuild) (c : Cpu) : FeatVars.initial.Exact b c := fun _ h => nomatch h

theorem cpusupport_spec {b : CpuBuild} {c : Cpu} {v : FeatVars} (aux : Bool) (f : Ext) (hv : v.Sound b c) :
    (cpusupport b c aux f v).2.Sound b c ∧
    ((cpusupport b c aux f v).1 = true → b.Detects f ∧ c.Has f) ∧
    (aux = true → v.Exact b c → (cpusupport b c aux f v).2.Exact b c ∧ (b.Detects f ∧ c.Has f → (cpusupport b c aux f v).1 = true)) ∧
    ((cpusupport b c aux f v).1 = ((cpusupport b c aux f v).2 f).present) ∧
    (((cpusupport b c aux f v).2 f).present = true ∨ ((cpusupport b c aux f v).2 f).init = true) ∧
    (∀ g, g ≠ f → (cpusupport b c aux f v).2 g = v g) ∧
    ((v f).present = true ∨ (v f).init = true → cpusupport b c aux f v = ((v f).present, v)) := by
  unfold cpusupport
  cases hp : (v f).present with
  | true => exact ⟨hv, fun _ => hv f hp, fun _ hx => ⟨hx, fun _ => rfl⟩, hp.symm, .inl hp, fun _ _ => rfl, fun _ => rfl⟩
  | false =>
    cases hi : (v f).init with
    | true =>
      refine ⟨hv, fun h => (Bool.noConfusion h), fun _ hx => ⟨hx, fun h => ?_⟩, hp.symm, .inr hi, fun _ _ => rfl, fun _ => rfl⟩
      exact absurd (hx f hi h) (by rw [hp]; exact nofun)
    | false =>
      have hd : (if b.enabled f = true then detect b c aux f else false) = true → b.Detects f ∧ c.Has f := by
        intro h
        split at h
        · rename_i he
          exact (detect_iff b c f he).1 (detect_sound b c aux f h)
        · cases h
      have hd' : aux = true → b.Detects f ∧ c.Has f → (if b.enabled f = true then detect b c aux f else false) = true := by
        rintro rfl h
        rw [if_pos (enabled_of_detects h.1)]
        exact (detect_iff b c f (enabled_of_detects h.1)).2 h
      generalize (if b.enabled f = true then detect b c aux f else false) = p at hd hd'
      simp only [Bool.false_eq_true, if_false, if_true]
      refine ⟨fun e h => ?_, hd, fun ha hx => ⟨fun e h1 h2 => ?_, hd' ha⟩, by simp, by simp, fun g hg => ?_, fun h => ?_⟩
      · by_cases e1 : e = f
        · subst e1; exact hd (by simpa using h)
        · simp only [e1, if_false] at h; exact hv e h
      · by_cases e1 : e = f
        · subst e1; simpa using hd' ha h2
        · simp only [e1, if_false] at h1 ⊢; exact hx e h1 h2
      · simp only [hg, if_false]
      · rcases h with h | h <;> cases h

/-- A sequence of queries, in one process; the Boolean of each: elf_aux_info succeeds, should it be called. -/
def queries (b : CpuBuild) (c : Cpu) : List (Ext × Bool) → FeatVars → List Bool × FeatVars
  | [], v => ([], v)
  | q :: qs, v => ((cpusupport b c q.2 q.1 v).1 :: (queries b c qs (cpusupport b c q.2 q.1 v).2).1, (queries b c qs (cpusupport b c q.2 q.1 v).2).2)

theorem queries_spec (b : CpuBuild) (c : Cpu) (e : Ext) : ∀ (qs : List (Ext × Bool)) (v : FeatVars), v.Sound b c →
    ∃ a, (∀ (j : Nat) (aux : Bool), qs[j]? = some (e, aux) → (queries b c qs v).1[j]? = some a) ∧
      ((v e).present = true ∨ (v e).init = true → a = (v e).present) ∧
      (a = true → b.Detects e ∧ c.Has e) ∧
      ((∀ q ∈ qs, q.2 = true) → v.Exact b c → (∃ (j : Nat) (aux : Bool), qs[j]? = some (e, aux)) → b.Detects e ∧ c.Has e → a = true)
  | [], v, hv => ⟨(v e).present, fun j aux h => (by simp at h), fun _ => rfl, hv e, fun _ _ h => (by simp at h)⟩
  | q :: qs, v, hv => by
    obtain ⟨s1, s2, s3, s4, s5, s6, s7⟩ := cpusupport_spec q.2 q.1 hv
    obtain ⟨a, a1, a2, a3, a4⟩ := queries_spec b c e qs _ s1
    by_cases he : q.1 = e
    · have ha : a = (cpusupport b c q.2 q.1 v).1 := by rw [s4, he]; rw [he] at a2 s5; exact a2 s5
      refine ⟨a, fun j aux h => ?_, fun h => ?_, a3, fun h1 h2 _ h4 => ?_⟩
      · cases j with
        | zero => rw [ha]; rfl
        | succ j => exact a1 j aux h
      · rw [ha, he]
        rw [he] at s7
        rw [s7 h]
      · rw [ha]
        refine (s3 (h1 q (List.mem_cons_self ..)) h2).2 ?_
        rw [he]; exact h4
    · have e1 := s6 e (Ne.symm he)
      rw [e1] at a2
      refine ⟨a, fun j aux h => ?_, a2, a3, fun h1 h2 h3 h4 => ?_⟩
      · cases j with
        | zero => exact absurd (congrArg Prod.fst (Option.some.inj h)) he
        | succ j => exact a1 j aux h
      · refine a4 (fun q' hq' => h1 q' (List.mem_cons_of_mem _ hq')) (s3 (h1 q (List.mem_cons_self ..)) h2).1 ?_ h4
        obtain ⟨j, aux, h⟩ := h3
        cases j with
        | zero => exact absurd (congrArg Prod.fst (Option.some.inj h)) he
        | succ j => exact ⟨j, aux, h⟩

/-- A routine is usable: the build can find out about all the extensions it needs, and the processor has them. -/
def Usable (b : CpuBuild) (c : Cpu) (needs : List Ext) : Prop := ∀ e ∈ needs, b.Detects e ∧ c.Has e

theorem Usable.on {b : CpuBuild} {c : Cpu} {needs : List Ext} (h : Usable b c needs) {α : Type} (x : Res α) : onCpu c needs x = x :=
  if_pos fun e he => (h e he).2

theorem shaOn_software (c : Cpu) : shaOn c .software = shaTransform .software := by
  funext s blk
  unfold shaOn onCpu
  exact if_pos (fun e he => absurd he (List.not_mem_nil (a := e)))

theorem shaOn_usable {b : CpuBuild} {c : Cpu} {h : ShaHw} (hu : Usable b c h.needs) : shaOn c h = shaTransform h := by
  funext s blk
  exact hu.on _

theorem sha_test (c : Cpu) {b : CpuBuild} {h : ShaHw} (hu : Usable b c h.needs) :
    hwtest (shaOn c .software) (shaOn c h) initial_state hwTestBlock = .ok true := by
  rw [shaOn_software, shaOn_usable hu]
  exact hwtest_pass _ _ (goodTf ShaHw.software) (goodTf h)

theorem validate_ok {α : Type} (q : Bool) (t : Res Bool) (s : α) (next : Res α) (h : q = true → t = .ok true) :
    cpusupportValidate q t s next = if q then .ok s else next := by
  unfold cpusupportValidate
  cases q with
  | true => rw [if_pos rfl, if_pos rfl, h rfl]; rfl
  | false => rfl

open Classical in
/-- The first usable routine of a list, or the portable one. -/
noncomputable def firstUsable (b : CpuBuild) (c : Cpu) (l : List ShaHw) : ShaHw := (l.find? fun h => decide (Usable b c h.needs)).getD .software

theorem firstUsable_yes {b : CpuBuild} {c : Cpu} {h : ShaHw} {l : List ShaHw} (hu : Usable b c h.needs) : firstUsable b c (h :: l) = h := by
  unfold firstUsable
  rw [List.find?_cons_of_pos (by simpa using hu)]
  rfl

theorem firstUsable_no {b : CpuBuild} {c : Cpu} {h : ShaHw} {l : List ShaHw} (hu : ¬ Usable b c h.needs) : firstUsable b c (h :: l) = firstUsable b c l := by
  unfold firstUsable
  rw [List.find?_cons_of_neg (by simpa using hu)]

/-- A selection that still has to try the routines `l` is correct. -/
def ShaStage (b : CpuBuild) (c : Cpu) (aux : Bool) (l : List ShaHw) (v : FeatVars) (x : Res (ShaHw × FeatVars)) : Prop :=
  ∃ h v', x = .ok (h, v') ∧ v'.Sound b c ∧ shaOn c h = shaTransform h ∧ (∀ e ∈ h.needs, c.Has e) ∧
      (aux = true → v.Exact b c → v'.Exact b c ∧ h = firstUsable b c l)

theorem shaStage_nil {b : CpuBuild} {c : Cpu} {aux : Bool} {v : FeatVars} (hv : v.Sound b c) : ShaStage b c aux [] v (.ok (.software, v)) :=
  ⟨.software, v, rfl, hv, shaOn_software c, fun e h => absurd h (List.not_mem_nil (a := e)), fun _ hx => ⟨hx, rfl⟩⟩

theorem shaStage_skip {b : CpuBuild} {c : Cpu} {aux : Bool} {v : FeatVars} {h : ShaHw} {l : List ShaHw} {x : Res (ShaHw × FeatVars)}
    (hx : ShaStage b c aux l v x) (hu : ¬ Usable b c h.needs) : ShaStage b c aux (h :: l) v x := by
  obtain ⟨h', v', h1, h2, h3, h4, h5⟩ := hx
  exact ⟨h', v', h1, h2, h3, h4, fun ha he => ⟨(h5 ha he).1, (h5 ha he).2.trans (firstUsable_no hu).symm⟩⟩

theorem shaStage_one {b : CpuBuild} {c : Cpu} {aux : Bool} {l : List ShaHw} {next : FeatVars → Res (ShaHw × FeatVars)}
    (hn : ∀ v, v.Sound b c → ShaStage b c aux l v (next v)) (h : ShaHw) (f : Ext) (hh : h.needs = [f]) (v : FeatVars) (hv : v.Sound b c) :
    ShaStage b c aux (h :: l) v (if b.enabled f then
      cpusupportValidate (cpusupport b c aux f v).1 (hwtest (shaOn c .software) (shaOn c h) initial_state hwTestBlock) (h, (cpusupport b c aux f v).2)
        (next (cpusupport b c aux f v).2) else next v) := by
  obtain ⟨s1, s2, s3, -⟩ := cpusupport_spec aux f hv
  have hu : (b.Detects f ∧ c.Has f) ↔ Usable b c h.needs := by
    unfold Usable
    rw [hh]
    simp
  split
  · rw [validate_ok _ _ _ _ fun h => sha_test c (hu.1 (s2 h))]
    cases hq : (cpusupport b c aux f v).1 with
    | true =>
      have u := hu.1 (s2 hq)
      exact ⟨h, _, rfl, s1, shaOn_usable u, fun e he => (u e he).2, fun ha he => ⟨(s3 ha he).1, (firstUsable_yes u).symm⟩⟩
    | false =>
      obtain ⟨h', v', h1, h2, h3, h4, h5⟩ := hn _ s1
      refine ⟨h', v', h1, h2, h3, h4, fun ha he => ⟨(h5 ha (s3 ha he).1).1, (h5 ha (s3 ha he).1).2.trans (firstUsable_no fun u => ?_).symm⟩⟩
      exact absurd ((s3 ha he).2 (hu.2 u)) (by rw [hq]; exact nofun)
  · rename_i hb
    exact shaStage_skip (hn v hv) fun u => hb (enabled_of_detects (hu.2 u).1)

namespace Props

/-- C56.  Feature queries, in every order and number: a positive answer is true (the build has the code, the processor the instructions); queries about
the same feature always get the same answer; and, as long as elf_aux_info does not fail, a negative answer is true as well. -/
theorem C56_queries (b : CpuBuild) (c : Cpu) (qs : List (Ext × Bool)) (i : Nat) (e : Ext) (aux : Bool) (hq : qs[i]? = some (e, aux)) :
    ∃ a, (queries b c qs .initial).1[i]? = some a ∧
      (a = true → b.Detects e ∧ c.Has e) ∧
      ((∀ q ∈ qs, q.2 = true) → b.Detects e ∧ c.Has e → a = true) ∧
      ∀ (j : Nat) (aux' : Bool), qs[j]? = some (e, aux') → (queries b c qs .initial).1[j]? = some a := by
  obtain ⟨a, a1, -, a3, a4⟩ := queries_spec b c e qs .initial (sound_initial b c)
  exact ⟨a, a1 i aux hq, a3, fun h1 h2 => a4 h1 (exact_initial b c) ⟨i, aux, hq⟩ h2, a1⟩

/-- C56, SHA-256.  On every processor, with every build, whatever was queried before: the selection never executes an instruction the processor lacks
(`shaOn c` would be undefined), and selects a routine whose instructions the processor has; if elf_aux_info does not fail it is the first usable one of
SHA-NI, SSE2, ARM SHA2, and the portable code if there is none. -/
theorem C56_sha256 (b : CpuBuild) (c : Cpu) (aux : Bool) (v : FeatVars) (hv : v.Sound b c) :
    ∃ h v', shaInitOn b c aux (shaOn c) none v = .ok (h, v') ∧ v'.Sound b c ∧ shaOn c h = shaTransform h ∧
      (∀ e ∈ h.needs, c.Has e) ∧
      (aux = true → v.Exact b c → v'.Exact b c ∧ h = firstUsable b c [.x86_shani, .x86_sse2, .arm_sha256]) := by
  show ShaStage b c aux [.x86_shani, .x86_sse2, .arm_sha256] v _
  have st3 := fun v hv => shaStage_one (l := []) (next := fun v => .ok (.software, v)) (fun v (hv : FeatVars.Sound b c v) => shaStage_nil (aux := aux) hv)
    .arm_sha256 .armSha2 rfl v hv
  have st2 := fun v hv => shaStage_one st3 .x86_sse2 .sse2 rfl v hv
  unfold shaInitOn
  simp only []
  by_cases hb : (b.shani && b.ssse3) = true
  · rw [if_pos hb]
    obtain ⟨s1, s2, s3, -⟩ := cpusupport_spec aux .sha hv
    cases hq : (cpusupport b c aux .sha v).1 with
    | false =>
      obtain ⟨h', v', h1, h2, h3, h4, h5⟩ := st2 _ s1
      refine ⟨h', v', h1, h2, h3, h4, fun ha he => ⟨(h5 ha (s3 ha he).1).1, (h5 ha (s3 ha he).1).2.trans (firstUsable_no fun u => ?_).symm⟩⟩
      exact absurd ((s3 ha he).2 (u .sha (by simp [ShaHw.needs]))) (by rw [hq]; exact nofun)
    | true =>
      obtain ⟨t1, t2, t3, -⟩ := cpusupport_spec aux .ssse3 s1
      rw [if_pos rfl]
      have hu : (cpusupport b c aux .ssse3 (cpusupport b c aux .sha v).2).1 = true → Usable b c ShaHw.x86_shani.needs := by
        intro h e he
        rcases List.mem_cons.1 he with rfl | he
        · exact s2 hq
        · rw [List.mem_singleton.1 he]; exact t2 h
      rw [validate_ok _ _ _ _ fun h => sha_test c (hu h)]
      cases hr : (cpusupport b c aux .ssse3 (cpusupport b c aux .sha v).2).1 with
      | true =>
        have u := hu hr
        exact ⟨_, _, rfl, t1, shaOn_usable u, fun e he => (u e he).2, fun ha he => ⟨(t3 ha (s3 ha he).1).1, (firstUsable_yes u).symm⟩⟩
      | false =>
        obtain ⟨h', v', h1, h2, h3, h4, h5⟩ := st2 _ t1
        refine ⟨h', v', h1, h2, h3, h4, fun ha he => ?_⟩
        have x := t3 ha (s3 ha he).1
        refine ⟨(h5 ha x.1).1, (h5 ha x.1).2.trans (firstUsable_no fun u => ?_).symm⟩
        exact absurd (x.2 (u .ssse3 (by simp [ShaHw.needs]))) (by rw [hr]; exact nofun)
  · rw [if_neg hb]
    refine shaStage_skip (st2 v hv) fun u => hb ?_
    have a := enabled_of_detects (u .sha (by simp [ShaHw.needs])).1
    have d := enabled_of_detects (u .ssse3 (by simp [ShaHw.needs])).1
    exact Bool.and_eq_true_iff.2 ⟨a, d⟩

/-- C56, AES.  The same for the selection of the AES routine: running its self-tests on the processor is the same as running them anywhere (nothing is
executed that the processor lacks), and the routine selected consists of instructions that it has. -/
theorem C56_aes (b : CpuBuild) (c : Cpu) (aux : Bool) (mem : Option (List Bytes)) (setOk : Bool) (ossl : Ossl) (v : FeatVars) (hv : v.Sound b c) :
    aesInitOn b c aux (aesOn c mem setOk ossl) none v = aesInitOn b c aux (aesOneshot mem setOk ossl) none v ∧
    ∀ h v', aesInitOn b c aux (aesOneshot mem setOk ossl) none v = .ok (h, v') → v'.Sound b c ∧ ∀ e ∈ h.needs, c.Has e := by
  have hs : aesOn c mem setOk ossl .software = aesOneshot mem setOk ossl .software := by
    funext key len p
    unfold aesOn onCpu
    exact if_pos (fun e he => absurd he (List.not_mem_nil (a := e)))
  have hu : ∀ (h : AesHw) (f : Ext), h.needs = [f] → c.Has f → aesOn c mem setOk ossl h = aesOneshot mem setOk ossl h := by
    intro h f e hf
    funext key len p
    unfold aesOn onCpu
    refine if_pos fun e' he => ?_
    rw [e] at he
    rw [List.mem_singleton.1 he]
    exact hf
  have sw : ∀ (v : FeatVars) (h : AesHw) (v' : FeatVars), v.Sound b c → (functest (aesOneshot mem setOk ossl .software) aesTestcases >>= fun ok => if ok then .ok (AesHw.software, v) else .abort) =
      .ok (h, v') → v'.Sound b c ∧ ∀ e ∈ h.needs, c.Has e := by
    intro v h v' hv hx
    obtain ⟨ok, h1, hx⟩ := Res.bind_eq_ok.1 hx
    cases ok with
    | false => cases hx
    | true =>
      obtain ⟨rfl, rfl⟩ := Prod.mk.inj (Res.ok.inj hx)
      exact ⟨hv, fun e he => absurd he (List.not_mem_nil (a := e))⟩
  have val : ∀ (q : Bool) (t : Res Bool) (x : AesHw × FeatVars) (next : Res (AesHw × FeatVars)) (y : AesHw × FeatVars), cpusupportValidate q t x next = .ok y →
      (q = true ∧ y = x) ∨ next = .ok y := by
    intro q t x next y h
    rcases validate_cases h with ⟨a, -, d⟩ | h
    · exact .inl ⟨a, d.symm⟩
    · exact .inr h
  have vcong : ∀ (q : Bool) (t t' : Res Bool) (x : AesHw × FeatVars) (next next' : Res (AesHw × FeatVars)), (q = true → t = t') → next = next' →
      cpusupportValidate q t x next = cpusupportValidate q t' x next' := by
    intro q t t' x next next' h1 h2
    unfold cpusupportValidate
    cases q with
    | true => rw [h1 rfl, h2]
    | false => rw [h2]; rfl
  unfold aesInitOn
  simp only []
  obtain ⟨s1, s2, -⟩ := cpusupport_spec aux .aesni hv
  have arm : ∀ v : FeatVars, v.Sound b c → (if b.armAes = true then
        cpusupportValidate (cpusupport b c aux .armAes v).1 (functest (aesOn c mem setOk ossl .arm_aes) aesTestcases) (AesHw.arm_aes, (cpusupport b c aux .armAes v).2)
          (functest (aesOn c mem setOk ossl .software) aesTestcases >>= fun ok => if ok then .ok (AesHw.software, (cpusupport b c aux .armAes v).2) else .abort)
      else functest (aesOn c mem setOk ossl .software) aesTestcases >>= fun ok => if ok then .ok (AesHw.software, v) else .abort) =
      (if b.armAes = true then
        cpusupportValidate (cpusupport b c aux .armAes v).1 (functest (aesOneshot mem setOk ossl .arm_aes) aesTestcases) (AesHw.arm_aes, (cpusupport b c aux .armAes v).2)
          (functest (aesOneshot mem setOk ossl .software) aesTestcases >>= fun ok => if ok then .ok (AesHw.software, (cpusupport b c aux .armAes v).2) else .abort)
      else functest (aesOneshot mem setOk ossl .software) aesTestcases >>= fun ok => if ok then .ok (AesHw.software, v) else .abort) := by
    intro v hv
    obtain ⟨-, t2, -⟩ := cpusupport_spec aux .armAes hv
    rw [hs]
    split
    · exact vcong _ _ _ _ _ _ (fun h => by rw [hu .arm_aes .armAes rfl (t2 h).2]) rfl
    · rfl
  have arm' : ∀ (v : FeatVars) (h : AesHw) (v' : FeatVars), v.Sound b c → (if b.armAes = true then
        cpusupportValidate (cpusupport b c aux .armAes v).1 (functest (aesOneshot mem setOk ossl .arm_aes) aesTestcases) (AesHw.arm_aes, (cpusupport b c aux .armAes v).2)
          (functest (aesOneshot mem setOk ossl .software) aesTestcases >>= fun ok => if ok then .ok (AesHw.software, (cpusupport b c aux .armAes v).2) else .abort)
      else functest (aesOneshot mem setOk ossl .software) aesTestcases >>= fun ok => if ok then .ok (AesHw.software, v) else .abort) = .ok (h, v') →
      v'.Sound b c ∧ ∀ e ∈ h.needs, c.Has e := by
    intro v h v' hv hx
    obtain ⟨t1, t2, -⟩ := cpusupport_spec aux .armAes hv
    split at hx
    · rcases val _ _ _ _ _ hx with ⟨a, d⟩ | hx
      · obtain ⟨rfl, rfl⟩ := Prod.mk.inj d
        exact ⟨t1, fun e he => by rw [List.mem_singleton.1 he]; exact (t2 a).2⟩
      · exact sw _ _ _ t1 hx
    · exact sw _ _ _ hv hx
  constructor
  · split
    · exact vcong _ _ _ _ _ _ (fun h => by rw [hu .x86_aesni .aesni rfl (s2 h).2]) (arm _ s1)
    · exact arm v hv
  · intro h v' hx
    split at hx
    · rcases val _ _ _ _ _ hx with ⟨a, d⟩ | hx
      · obtain ⟨rfl, rfl⟩ := Prod.mk.inj d
        exact ⟨s1, fun e he => by rw [List.mem_singleton.1 he]; exact (s2 a).2⟩
      · exact arm' _ _ _ s1 hx
    · exact arm' _ _ _ hv hx

/-- C56, scrypt.  The same for the selection of smix. -/
theorem C56_smix (b : CpuBuild) (c : Cpu) (aux : Bool) (szMax : Nat) (e1 e2 : ScEnv) (tf : Transform) (junk : HMAC_SHA256_CTX) (hbuf : Bytes) (v : FeatVars)
    (hv : v.Sound b c) :
    selectsmixOn b c aux szMax e1 e2 tf junk hbuf (smixOn c) v = selectsmixOn b c aux szMax e1 e2 tf junk hbuf smixImpl v ∧
    ∀ f v', selectsmixOn b c aux szMax e1 e2 tf junk hbuf smixImpl v = .ok (f, v') → v'.Sound b c ∧ (∀ e ∈ f.needs, c.Has e) ∧ smixOn c f = smixImpl f := by
  have hg : smixOn c .generic = smixImpl .generic := by
    funext B r N V XY
    unfold smixOn onCpu
    exact if_pos (fun e he => absurd he (List.not_mem_nil (a := e)))
  have hs : c.Has .sse2 → smixOn c .sse2 = smixImpl .sse2 := by
    intro h
    funext B r N V XY
    unfold smixOn onCpu
    refine if_pos fun e' he => ?_
    rw [List.mem_singleton.1 he]
    exact h
  obtain ⟨s1, s2, -⟩ := cpusupport_spec aux .sse2 hv
  have hsel : ∀ q : Bool, (q = true → c.Has .sse2) → selectsmix szMax q e1 e2 tf junk hbuf (smixOn c) = selectsmix szMax q e1 e2 tf junk hbuf smixImpl := by
    intro q hq
    unfold selectsmix
    rw [hg]
    cases q with
    | true => rw [hs (hq rfl)]
    | false => rfl
  have hres : ∀ (q : Bool) f, (q = true → c.Has .sse2) → selectsmix szMax q e1 e2 tf junk hbuf smixImpl = .ok f → (∀ e ∈ f.needs, c.Has e) ∧ smixOn c f = smixImpl f := by
    intro q f hq hf
    have := (selectsmix_passed _ _ _ _ _ _ _ _ _ hf).2
    cases f with
    | generic => exact ⟨fun e he => absurd he (List.not_mem_nil (a := e)), hg⟩
    | sse2 =>
      have h2 := hq (this rfl)
      exact ⟨fun e he => by rw [List.mem_singleton.1 he]; exact h2, hs h2⟩
  unfold selectsmixOn
  simp only []
  constructor
  · split
    · rw [hsel _ fun h => (s2 h).2]
    · rw [hsel false fun h => (by cases h)]
  · intro f v' hx
    split at hx
    · obtain ⟨f', h1, hx⟩ := Res.bind_eq_ok.1 hx
      obtain ⟨rfl, rfl⟩ := Prod.mk.inj (Res.ok.inj hx)
      exact ⟨s1, hres _ _ (fun h => (s2 h).2) h1⟩
    · obtain ⟨f', h1, hx⟩ := Res.bind_eq_ok.1 hx
      obtain ⟨rfl, rfl⟩ := Prod.mk.inj (Res.ok.inj hx)
      exact ⟨hv, hres false _ (fun h => (by cases h)) h1⟩

end Props
end Scrypt
