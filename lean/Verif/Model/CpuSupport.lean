import Verif.Spec.Cpu
import Verif.Model.HwSelect
import Verif.Model.Aes
import Verif.Model.CryptoScrypt
import Verif.Model.Process
/-
Run-time detection of processor features (libcperciva/cpusupport) and the three selections that use it.
-/
namespace Scrypt
open Spec (Ext Cpu CpuidRegs)

/-! ### What the compiler's cpuid.h and the C library offer -/

/-- [Called at cpusupport_x86_aesni.c:15, 21 and in the other cpusupport_x86_*.c.] gcc's `cpuid.h`: `__get_cpuid(leaf, ...)` for the basic leaves; `none`: it returned 0 (no CPUID instruction, or the leaf is above the highest one).
Leaf 0 has the highest leaf in eax. -/
def getCpuid : Cpu → Nat → Option CpuidRegs
  | .x86 maxLeaf leaf0 leaf1 leaf7, leaf =>
    if maxLeaf.toNat = 0 ∨ maxLeaf.toNat < leaf then none
    else if leaf = 0 then some { leaf0 with eax := maxLeaf }
    else if leaf = 1 then some leaf1
    else if leaf = 7 then some leaf7
    else some ⟨0, 0, 0, 0⟩
  | _, _ => none

/-- [Called at cpusupport_x86_shani.c:27.] gcc's `cpuid.h`: `__cpuid_count(7, 0, ...)`, without any check. -/
def cpuidCount7 : Cpu → CpuidRegs
  | .x86 _ _ _ leaf7 => leaf7
  | _ => ⟨0, 0, 0, 0⟩

/-! ### Build configuration -/

/-- How the capability words of ARM systems are read: the macros CPUSUPPORT_HWCAP_GETAUXVAL and CPUSUPPORT_HWCAP_ELF_AUX_INFO (both together do not
compile: `capabilities` would be declared twice). [cpusupport_arm_aes.c:3-21, cpusupport_arm_sha256.c:3-21] -/
inductive AuxBuild
  | neither | getauxval | elfAuxInfo
  deriving DecidableEq, Repr

/-- The CPUSUPPORT_* macros, cpusupport.h:7-14. -/
structure CpuBuild where
  cpuid : Bool
  cpuidCount : Bool
  aesni : Bool
  rdrand : Bool
  shani : Bool
  ssse3 : Bool
  sse2 : Bool
  armAes : Bool
  armSha256 : Bool
  aux : AuxBuild

/-- The enabling macro of each feature, cpusupport.h:134-142. -/
def CpuBuild.enabled (b : CpuBuild) : Ext → Bool
  | .aesni => b.aesni
  | .rdrand => b.rdrand
  | .sha => b.shani
  | .ssse3 => b.ssse3
  | .sse2 => b.sse2
  | .armAes => b.armAes
  | .armSha2 => b.armSha256

/-! ### Detection -/

/-- cpusupport_x86_aesni.c:9-32 `cpusupport_x86_aesni_detect_1` -/
def detectAesni (b : CpuBuild) (c : Cpu) : Bool :=
  if b.cpuid then
    match getCpuid c 0 with
    | none => false
    | some r0 =>
      if r0.eax.toNat < 1 then false
      else
        match getCpuid c 1 with
        | none => false
        | some r => r.ecx &&& (1#32 <<< 25) != 0#32
  else false

/-- cpusupport_x86_rdrand.c:9-32 `cpusupport_x86_rdrand_detect_1` -/
def detectRdrand (b : CpuBuild) (c : Cpu) : Bool :=
  if b.cpuid then
    match getCpuid c 0 with
    | none => false
    | some r0 =>
      if r0.eax.toNat < 1 then false
      else
        match getCpuid c 1 with
        | none => false
        | some r => r.ecx &&& (1#32 <<< 30) != 0#32
  else false

/-- cpusupport_x86_ssse3.c:9-32 `cpusupport_x86_ssse3_detect_1` -/
def detectSsse3 (b : CpuBuild) (c : Cpu) : Bool :=
  if b.cpuid then
    match getCpuid c 0 with
    | none => false
    | some r0 =>
      if r0.eax.toNat < 1 then false
      else
        match getCpuid c 1 with
        | none => false
        | some r => r.ecx &&& (1#32 <<< 9) != 0#32
  else false

/-- cpusupport_x86_sse2.c:9-32 `cpusupport_x86_sse2_detect_1` -/
def detectSse2 (b : CpuBuild) (c : Cpu) : Bool :=
  if b.cpuid then
    match getCpuid c 0 with
    | none => false
    | some r0 =>
      if r0.eax.toNat < 1 then false
      else
        match getCpuid c 1 with
        | none => false
        | some r => r.edx &&& (1#32 <<< 26) != 0#32
  else false

/-- cpusupport_x86_shani.c:9-37 `cpusupport_x86_shani_detect_1` -/
def detectShani (b : CpuBuild) (c : Cpu) : Bool :=
  if b.cpuidCount then
    match getCpuid c 0 with
    | none => false
    | some r0 =>
      if r0.eax.toNat < 7 then false
      else (cpuidCount7 c).ebx &&& (1#32 <<< 29) != 0#32
  else false

/-- cpusupport_arm_aes.c:23-57 `cpusupport_arm_aes_detect_1`; `auxOk`: elf_aux_info succeeds.  HWCAP_AES = 1 << 3, HWCAP2_AES = 1 << 0. -/
def detectArmAes (b : CpuBuild) (c : Cpu) (auxOk : Bool) : Bool :=
  if b.armAes then
    match b.aux, c with
    | .getauxval, .aarch64 hwcap => hwcap &&& (1#64 <<< 3) != 0#64
    | .getauxval, .arm hwcap2 => hwcap2 &&& (1#32 <<< 0) != 0#32
    | .elfAuxInfo, .aarch64 hwcap => if !auxOk then false else hwcap &&& (1#64 <<< 3) != 0#64
    | .elfAuxInfo, .arm hwcap2 => if !auxOk then false else hwcap2 &&& (1#32 <<< 0) != 0#32
    | _, _ => false
  else false

/-- cpusupport_arm_sha256.c:23-57 `cpusupport_arm_sha256_detect_1`.  HWCAP_SHA2 = 1 << 6, HWCAP2_SHA2 = 1 << 3. -/
def detectArmSha256 (b : CpuBuild) (c : Cpu) (auxOk : Bool) : Bool :=
  if b.armSha256 then
    match b.aux, c with
    | .getauxval, .aarch64 hwcap => hwcap &&& (1#64 <<< 6) != 0#64
    | .getauxval, .arm hwcap2 => hwcap2 &&& (1#32 <<< 3) != 0#32
    | .elfAuxInfo, .aarch64 hwcap => if !auxOk then false else hwcap &&& (1#64 <<< 6) != 0#64
    | .elfAuxInfo, .arm hwcap2 => if !auxOk then false else hwcap2 &&& (1#32 <<< 3) != 0#32
    | _, _ => false
  else false

/-- The `_detect_1` functions. [The files cpusupport_x86_*.c:9-37 and cpusupport_arm_*.c:23-57] -/
def detect (b : CpuBuild) (c : Cpu) (auxOk : Bool) : Ext → Bool
  | .aesni => detectAesni b c
  | .rdrand => detectRdrand b c
  | .ssse3 => detectSsse3 b c
  | .sse2 => detectSse2 b c
  | .sha => detectShani b c
  | .armAes => detectArmAes b c auxOk
  | .armSha2 => detectArmSha256 b c auxOk

/-! ### The cached query -/

/-- The variables `cpusupport_*_present_1` and `cpusupport_*_init_1` of every feature, cpusupport.h:88-91. -/
structure FeatVar where
  present : Bool
  init : Bool
  deriving DecidableEq, Repr

/-- All of them. [cpusupport.h:89-96] -/
abbrev FeatVars := Ext → FeatVar

/-- cpusupport.h:91-92: both start as 0. -/
def FeatVars.initial : FeatVars := fun _ => ⟨false, false⟩

/-- cpusupport.h:47-59 `cpusupport_arch_feature()`.  When the enabling macro is not defined the function uses a stub that detects nothing
(cpusupport.h:40-42). -/
def cpusupport (b : CpuBuild) (c : Cpu) (auxOk : Bool) (f : Ext) (v : FeatVars) : Bool × FeatVars :=
  if (v f).present then (true, v)
  else if (v f).init then (false, v)
  else
    let present := if b.enabled f then detect b c auxOk f else false
    let v := fun g => if g = f then { v g with present := present } else v g
    let v := fun g => if g = f then { v g with init := true } else v g
    ((v f).present, v)

/-! ### The instructions that each routine consists of -/

/-- The extensions that the code of each SHA-256 routine needs (the line `CPUSUPPORT CFLAGS` at the top of sha256_shani.c:4, sha256_sse2.c:4 and
sha256_arm.c:4, and the intrinsics used: `_mm_sha256*` are SHA, `_mm_shuffle_epi8` and `_mm_alignr_epi8` are SSSE3, the rest SSE2, which every SSSE3
processor has). -/
def ShaHw.needs : ShaHw → List Ext
  | .software => []
  | .x86_shani => [.sha, .ssse3]
  | .x86_sse2 => [.sse2]
  | .arm_sha256 => [.armSha2]

/-- The same for AES: crypto_aes_aesni.c:4, crypto_aes_arm.c:4, crypto_aesctr_aesni.c:4, crypto_aesctr_arm.c:4. -/
def AesHw.needs : AesHw → List Ext
  | .software => []
  | .x86_aesni => [.aesni]
  | .arm_aes => [.armAes]

/-- The same for smix: crypto_scrypt_smix_sse2.c:30. -/
def SmixImpl.needs : SmixImpl → List Ext
  | .generic => []
  | .sse2 => [.sse2]

/-! ### The selections, with the queries -/

/-- sha256.c:163-196 `hwaccel_init` with the feature queries: `auxOk` tells for each query of an ARM feature whether elf_aux_info succeeds. -/
def shaInitOn (b : CpuBuild) (c : Cpu) (auxOk : Bool) (impl : ShaHw → Transform) (st : Option ShaHw) (v : FeatVars) : Res (ShaHw × FeatVars) :=
  match st with
  | some h => .ok (h, v)
  | none =>
    let test (h : ShaHw) : Res Bool := hwtest (impl .software) (impl h) initial_state hwTestBlock
    let arm (v : FeatVars) : Res (ShaHw × FeatVars) :=
      if b.armSha256 then
        let (q, v) := cpusupport b c auxOk .armSha2 v
        cpusupportValidate q (test .arm_sha256) (.arm_sha256, v) (.ok (.software, v))
      else .ok (.software, v)
    let sse2 (v : FeatVars) : Res (ShaHw × FeatVars) :=
      if b.sse2 then
        let (q, v) := cpusupport b c auxOk .sse2 v
        cpusupportValidate q (test .x86_sse2) (.x86_sse2, v) (arm v)
      else arm v
    if b.shani && b.ssse3 then
      let (q, v) := cpusupport b c auxOk .sha v
      let (q, v) := if q then cpusupport b c auxOk .ssse3 v else (false, v)
      cpusupportValidate q (test .x86_shani) (.x86_shani, v) (sse2 v)
    else sse2 v

/-- crypto_aes.c:170-198 `hwaccel_init` with the feature queries; `run h` is the one-shot encryption of implementation `h`. -/
def aesInitOn (b : CpuBuild) (c : Cpu) (auxOk : Bool) (run : AesHw → Bytes → Nat → Bytes → Res (Option Bytes)) (st : Option AesHw) (v : FeatVars) :
    Res (AesHw × FeatVars) :=
  match st with
  | some h => .ok (h, v)
  | none =>
    let sw (v : FeatVars) : Res (AesHw × FeatVars) :=
      functest (run .software) aesTestcases >>= fun ok => if ok then .ok (.software, v) else .abort
    let arm (v : FeatVars) : Res (AesHw × FeatVars) :=
      if b.armAes then
        let (q, v) := cpusupport b c auxOk .armAes v
        cpusupportValidate q (functest (run .arm_aes) aesTestcases) (.arm_aes, v) (sw v)
      else sw v
    if b.aesni then
      let (q, v) := cpusupport b c auxOk .aesni v
      cpusupportValidate q (functest (run .x86_aesni) aesTestcases) (.x86_aesni, v) (arm v)
    else arm v

/-- The code that exists: crypto_aes.c:104-167. -/
def aesOneshot (mem : Option (List Bytes)) (setOk : Bool) (ossl : Ossl) : AesHw → Bytes → Nat → Bytes → Res (Option Bytes)
  | .x86_aesni => x86_aesni_oneshot mem
  | .arm_aes => arm_aes_oneshot mem
  | .software => openssl_oneshot setOk ossl

/-- crypto_scrypt.c:210-235 `selectsmix` with the feature query. -/
def selectsmixOn (b : CpuBuild) (c : Cpu) (auxOk : Bool) (szMax : Nat) (e1 e2 : ScEnv) (tf : Transform) (junk : HMAC_SHA256_CTX) (hbuf : Bytes)
    (impl : SmixImpl → SmixFn) (v : FeatVars) : Res (SmixImpl × FeatVars) :=
  if b.sse2 then
    let (q, v) := cpusupport b c auxOk .sse2 v
    selectsmix szMax q e1 e2 tf junk hbuf impl >>= fun f => .ok (f, v)
  else selectsmix szMax false e1 e2 tf junk hbuf impl >>= fun f => .ok (f, v)

/-! ### The processor refuses instructions it does not have -/

open Classical in
/-- Code that needs the extensions `needs`, run on processor `c`: an instruction that the processor does not have is undefined behaviour (the process
is killed by SIGILL). [Hardware; no code] -/
noncomputable def onCpu {α : Type} (c : Cpu) (needs : List Ext) (code : Res α) : Res α :=
  if ∀ e ∈ needs, c.Has e then code else .ub

/-- sha256.c:246-269: the SHA-256 routines on a processor. -/
noncomputable def shaOn (c : Cpu) (h : ShaHw) : Transform := fun state block => onCpu c h.needs (shaTransform h state block)

/-- The one-shot AES encryptions on a processor. [crypto_aes.c:104-167] -/
noncomputable def aesOn (c : Cpu) (mem : Option (List Bytes)) (setOk : Bool) (ossl : Ossl) (h : AesHw) (key : Bytes) (len : Nat) (ptext : Bytes) :
    Res (Option Bytes) :=
  onCpu c h.needs (aesOneshot mem setOk ossl h key len ptext)

/-- The smix routines on a processor. [crypto_scrypt_smix.c:157, crypto_scrypt_smix_sse2.c:192] -/
noncomputable def smixOn (c : Cpu) (f : SmixImpl) : SmixFn := fun B r N V XY => onCpu c f.needs (smixImpl f B r N V XY)

/-- The machine of Model/Process.lean that a processor and a build make, when elf_aux_info works (or is not used). [The conditions at sha256.c:182-194, crypto_aes.c:170-198, crypto_scrypt.c:214-216, crypto_entropy.c:43-46] -/
def Machine.onCpu (m : Machine) (b : CpuBuild) (c : Cpu) : Machine :=
  { m with
    shaFeat := fun
      | .software => false
      | .x86_shani => b.shani && b.ssse3 && detect b c true .sha && detect b c true .ssse3
      | .x86_sse2 => b.sse2 && detect b c true .sse2
      | .arm_sha256 => b.armSha256 && detect b c true .armSha2
    aesFeat := fun
      | .software => false
      | .x86_aesni => b.aesni && detect b c true .aesni
      | .arm_aes => b.armAes && detect b c true .armAes
    sse2 := b.sse2 && detect b c true .sse2
    rdrand := b.rdrand && detect b c true .rdrand }

end Scrypt
