/-
What a processor says it can do: the rules of the processors' manuals, independent of the code.
-/
namespace Scrypt.Spec

/-- The instruction-set extensions that some part of the library uses. -/
inductive Ext
  | aesni | rdrand | sha | ssse3 | sse2 | armAes | armSha2
  deriving DecidableEq, Repr

/-- The four registers filled by the CPUID instruction. -/
structure CpuidRegs where
  eax : BitVec 32
  ebx : BitVec 32
  ecx : BitVec 32
  edx : BitVec 32
  deriving Repr

/-- A processor.  x86: the highest CPUID leaf (0 if there is no CPUID instruction) and the contents of leaves 1 and 7 (subleaf 0); ARM: the capability
words that the kernel passes to the process, of which 64-bit code looks at the first and 32-bit code at the second. -/
inductive Cpu
  | x86 (maxLeaf : BitVec 32) (leaf0 leaf1 leaf7 : CpuidRegs)
  | aarch64 (hwcap : BitVec 64)
  | arm (hwcap2 : BitVec 32)
  deriving Repr

/-- The processor has the extension.  x86: Intel SDM vol. 2A, CPUID; ARM: the kernel's `asm/hwcap.h`. -/
def Cpu.Has : Cpu → Ext → Prop
  | .x86 maxLeaf _ leaf1 leaf7, e =>
    match e with
    | .aesni => 1 ≤ maxLeaf.toNat ∧ leaf1.ecx.getLsbD 25 = true
    | .rdrand => 1 ≤ maxLeaf.toNat ∧ leaf1.ecx.getLsbD 30 = true
    | .ssse3 => 1 ≤ maxLeaf.toNat ∧ leaf1.ecx.getLsbD 9 = true
    | .sse2 => 1 ≤ maxLeaf.toNat ∧ leaf1.edx.getLsbD 26 = true
    | .sha => 7 ≤ maxLeaf.toNat ∧ leaf7.ebx.getLsbD 29 = true
    | .armAes => False
    | .armSha2 => False
  | .aarch64 hwcap, e =>
    match e with
    | .armAes => hwcap.getLsbD 3 = true
    | .armSha2 => hwcap.getLsbD 6 = true
    | _ => False
  | .arm hwcap2, e =>
    match e with
    | .armAes => hwcap2.getLsbD 0 = true
    | .armSha2 => hwcap2.getLsbD 3 = true
    | _ => False

end Scrypt.Spec
