import Verif.Props.CpuSupport
/-
C56: the selections with feature queries are the selections of C43, with the answers of the queries.
-/
namespace Scrypt.Props
open Scrypt Spec

theorem validate_fst {α β : Type} (q : Bool) (t : Res Bool) (x : α × β) (n : Res (α × β)) :
    (cpusupportValidate q t x n >>= fun z => Res.ok z.1) = cpusupportValidate q t x.1 (n >>= fun z => Res.ok z.1) := by
  unfold cpusupportValidate
  cases q with
  | false => rfl
  | true =>
    rw [if_pos rfl, if_pos rfl]
    cases t with
    | ub => rfl
    | abort => rfl
    | ok b => cases b <;> rfl

/-- What the queries answer when the AES implementation is selected: each is made only if support was compiled in, the second after the first. -/
def aesAnswers (b : CpuBuild) (c : Cpu) (aux : Bool) (v : FeatVars) : AesHw → Bool
  | .x86_aesni => b.aesni && (cpusupport b c aux .aesni v).1
  | .arm_aes => b.armAes && (cpusupport b c aux .armAes (if b.aesni then (cpusupport b c aux .aesni v).2 else v)).1
  | .software => false

/-- **C56.**  The selection of AES on a processor is the selection of C43 (so what is selected has passed its own self-test), given what the queries answer. -/
theorem C56_aes_selects (b : CpuBuild) (c : Cpu) (aux : Bool) (mem : Option (List Bytes)) (setOk : Bool) (ossl : Ossl) (st : Option AesHw) (v : FeatVars) :
    (aesInitOn b c aux (aesOneshot mem setOk ossl) st v >>= fun x => .ok x.1) = aes_hwaccel_init (aesAnswers b c aux v) mem setOk ossl st := by
  cases st with
  | some h => rfl
  | none =>
    have hsw : ∀ w : FeatVars, ((functest (openssl_oneshot setOk ossl) aesTestcases >>= fun ok => if ok then Res.ok (AesHw.software, w) else .abort) >>=
        fun x => Res.ok x.1) = functest (openssl_oneshot setOk ossl) aesTestcases >>= fun ok => if ok then Res.ok AesHw.software else .abort := by
      intro w
      cases functest (openssl_oneshot setOk ossl) aesTestcases with
      | ub => rfl
      | abort => rfl
      | ok t => cases t <;> rfl
    unfold aesInitOn aes_hwaccel_init aesAnswers
    dsimp only [aesOneshot]
    cases h1 : b.aesni <;> cases h2 : b.armAes
    all_goals
      simp only [Bool.false_eq_true, if_false, if_true, Bool.false_and, Bool.true_and]
    · rw [hsw]; rfl
    · rw [validate_fst, hsw]; rfl
    · rw [validate_fst, hsw]; rfl
    · rw [validate_fst, validate_fst, hsw]; rfl

/-- What the queries answer when the SHA-256 routine is selected: SHA-NI needs the answers about SHA and SSSE3. -/
def shaAnswers (b : CpuBuild) (c : Cpu) (aux : Bool) (v : FeatVars) : ShaHw → Bool :=
  let v1 := if b.shani && b.ssse3 then (cpusupport b c aux .sha v).2 else v
  let v2 := if b.shani && b.ssse3 then (if (cpusupport b c aux .sha v).1 then (cpusupport b c aux .ssse3 v1).2 else v1) else v
  let v3 := if b.sse2 then (cpusupport b c aux .sse2 v2).2 else v2
  fun h => match h with
  | .x86_shani => (b.shani && b.ssse3) && ((cpusupport b c aux .sha v).1 && (cpusupport b c aux .ssse3 v1).1)
  | .x86_sse2 => b.sse2 && (cpusupport b c aux .sse2 v2).1
  | .arm_sha256 => b.armSha256 && (cpusupport b c aux .armSha2 v3).1
  | .software => false

/-- **C56.**  The same for SHA-256, whatever the routines compute. -/
theorem C56_sha256_selects (b : CpuBuild) (c : Cpu) (aux : Bool) (impl : ShaHw → Transform) (st : Option ShaHw) (v : FeatVars) :
    (shaInitOn b c aux impl st v >>= fun x => .ok x.1) = hwaccel_init (shaAnswers b c aux v) impl st := by
  cases st with
  | some h => rfl
  | none =>
    have harm : ∀ w : FeatVars,
        ((if b.armSha256 then cpusupportValidate (cpusupport b c aux .armSha2 w).1 (hwtest (impl .software) (impl .arm_sha256) initial_state hwTestBlock)
          (ShaHw.arm_sha256, (cpusupport b c aux .armSha2 w).2) (.ok (.software, (cpusupport b c aux .armSha2 w).2)) else .ok (.software, w)) >>= fun x => Res.ok x.1) =
        cpusupportValidate (b.armSha256 && (cpusupport b c aux .armSha2 w).1) (hwtest (impl .software) (impl .arm_sha256) initial_state hwTestBlock) .arm_sha256 (.ok .software) := by
      intro w
      cases b.armSha256 with
      | false => rfl
      | true =>
        rw [if_pos rfl, validate_fst]
        rfl
    have hsse : ∀ w : FeatVars,
        ((if b.sse2 then cpusupportValidate (cpusupport b c aux .sse2 w).1 (hwtest (impl .software) (impl .x86_sse2) initial_state hwTestBlock)
          (ShaHw.x86_sse2, (cpusupport b c aux .sse2 w).2)
          (if b.armSha256 then cpusupportValidate (cpusupport b c aux .armSha2 (cpusupport b c aux .sse2 w).2).1
              (hwtest (impl .software) (impl .arm_sha256) initial_state hwTestBlock)
              (ShaHw.arm_sha256, (cpusupport b c aux .armSha2 (cpusupport b c aux .sse2 w).2).2)
              (.ok (.software, (cpusupport b c aux .armSha2 (cpusupport b c aux .sse2 w).2).2)) else .ok (.software, (cpusupport b c aux .sse2 w).2))
          else (if b.armSha256 then cpusupportValidate (cpusupport b c aux .armSha2 w).1 (hwtest (impl .software) (impl .arm_sha256) initial_state hwTestBlock)
            (ShaHw.arm_sha256, (cpusupport b c aux .armSha2 w).2) (.ok (.software, (cpusupport b c aux .armSha2 w).2)) else .ok (.software, w))) >>= fun x => Res.ok x.1) =
        cpusupportValidate (b.sse2 && (cpusupport b c aux .sse2 w).1) (hwtest (impl .software) (impl .x86_sse2) initial_state hwTestBlock) .x86_sse2
          (cpusupportValidate (b.armSha256 && (cpusupport b c aux .armSha2 (if b.sse2 then (cpusupport b c aux .sse2 w).2 else w)).1)
            (hwtest (impl .software) (impl .arm_sha256) initial_state hwTestBlock) .arm_sha256 (.ok .software)) := by
      intro w
      cases b.sse2 with
      | false =>
        simp only [Bool.false_eq_true, if_false, Bool.false_and]
        rw [harm]
        rfl
      | true =>
        rw [if_pos rfl, if_pos rfl, validate_fst, harm]
        rfl
    unfold shaInitOn hwaccel_init shaAnswers
    dsimp only
    cases h1 : (b.shani && b.ssse3) with
    | false =>
      simp only [Bool.false_eq_true, if_false, Bool.false_and]
      exact hsse v
    | true =>
      simp only [if_true, Bool.true_and]
      cases h2 : (cpusupport b c aux .sha v).1 with
      | false =>
        simp only [Bool.false_eq_true, if_false, Bool.false_and]
        rw [validate_fst, hsse]
      | true =>
        simp only [if_true, Bool.true_and]
        rw [validate_fst, hsse]

end Scrypt.Props
