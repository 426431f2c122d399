import Verif.Proofs.Sha256Sse2
import Verif.Proofs.Sha256Shani
import Verif.Proofs.Sha256Arm
namespace Scrypt
open Spec

/-- Every selectable block function computes FIPS 180-4 compression. -/
theorem goodTf (hw : ShaHw) : GoodTf (shaTransform hw) := by
  intro s b hb
  cases hw with
  | software => exact swTransform_spec s b hb
  | x86_shani => exact SHA256_Transform_shani_spec s b hb
  | arm_sha256 => exact SHA256_Transform_arm_spec s b hb
  | x86_sse2 =>
    obtain ⟨W', S', e⟩ := SHA256_Transform_sse2_spec s b (List.replicate 64 0) (List.replicate 8 0) hb
      (by simp) (by simp)
    simp only [shaTransform, e, Res.bind_ok, Res.pure_eq]

end Scrypt
