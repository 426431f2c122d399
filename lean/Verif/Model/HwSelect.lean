import Verif.Model.Sha256Hw
/-
Run-time selection of the SHA-256 block function (libcperciva/alg/sha256.c, hwtest and hwaccel_init,
with CPUSUPPORT_VALIDATE of libcperciva/cpusupport/cpusupport.h).
-/
namespace Scrypt

/-- sha256.c:179-180, the test block `0x00 0x01 ... 0x3f`. -/
def hwTestBlock : Bytes := (List.range 64).map (BitVec.ofNat 8)

/-- sha256.c:139-160 `hwtest`; `true` = the results match (C returns 0). `SHA256_Transform` is called
while `hwaccel == HW_SOFTWARE`, i.e. it is the software code. -/
def hwtest (sw func : Transform) (state : List W32) (block : Bytes) : Res Bool := do
  let ssw ← sw state block
  let shw ← func state block
  return ssw == shw

/-- cpusupport.h:104-115 `CPUSUPPORT_VALIDATE` followed by the rest of the function (`next`): the
warning text is not modelled. -/
def cpusupportValidate {α : Type} (checks : Bool) (check : Res Bool) (success : α) (next : Res α) : Res α :=
  if checks then do
    if ← check then return success else next
  else next

/-- sha256.c:163-196 `hwaccel_init`; `st` is the static `hwaccel` (`none` = HW_UNSET), `feat` says
whether the accelerated code is compiled in and the CPU reports the feature (`shani` needs SSSE3
too: `feat .x86_shani` is the conjunction), `impl` is the code of each routine. -/
def hwaccel_init (feat : ShaHw → Bool) (impl : ShaHw → Transform) (st : Option ShaHw) : Res ShaHw :=
  match st with
  | some h => .ok h
  | none =>
    let test (h : ShaHw) : Res Bool := hwtest (impl .software) (impl h) initial_state hwTestBlock
    cpusupportValidate (feat .x86_shani) (test .x86_shani) .x86_shani <|
    cpusupportValidate (feat .x86_sse2) (test .x86_sse2) .x86_sse2 <|
    cpusupportValidate (feat .arm_sha256) (test .arm_sha256) .arm_sha256 <|
    .ok .software

end Scrypt
