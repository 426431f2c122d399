import Verif.Proofs.SelfTest
/-
The kernel evaluations used for the scrypt self-test vector, in pieces small enough for the kernel's
memory.
-/
namespace Scrypt
open Spec

/-- The literal blocks as words. -/
def litBlocks (l : List (List Nat)) : List (List W32) := l.map fun b => b.map (BitVec.ofNat 32)

set_option maxRecDepth 100000 in
theorem selfRomix : romixF salsa20_8_words (litBlocks selfB0) = litBlocks selfB1 := by decide +kernel

/-- The uninitialised context used in the evaluation. -/
def zeroHctx : HMAC_SHA256_CTX := ⟨SHA256_CTX.zero, SHA256_CTX.zero⟩

/-- The `i`-th 32-byte piece of the first literal. -/
def half (i : Nat) : Bytes := leWordBytes (((litBlocks selfB0).getD (i / 2) []).drop (8 * (i % 2)) |>.take 8)

set_option maxRecDepth 100000 in
theorem selfPb0_0 : ∀ i ∈ [0, 1, 2, 3], HMAC_SHA256_Buf swTransform zeroHctx testPasswd (testSalt ++ beBytes 4 (i + 1)) = .ok (half i) := by
  decide +kernel

set_option maxRecDepth 100000 in
theorem selfPb0_1 : ∀ i ∈ [4, 5, 6, 7], HMAC_SHA256_Buf swTransform zeroHctx testPasswd (testSalt ++ beBytes 4 (i + 1)) = .ok (half i) := by
  decide +kernel

set_option maxRecDepth 100000 in
theorem selfPb0_2 : ∀ i ∈ [8, 9, 10, 11], HMAC_SHA256_Buf swTransform zeroHctx testPasswd (testSalt ++ beBytes 4 (i + 1)) = .ok (half i) := by
  decide +kernel

set_option maxRecDepth 100000 in
theorem selfPb0_3 : ∀ i ∈ [12, 13, 14, 15], HMAC_SHA256_Buf swTransform zeroHctx testPasswd (testSalt ++ beBytes 4 (i + 1)) = .ok (half i) := by
  decide +kernel

set_option maxRecDepth 100000 in
theorem selfPb0_4 : ∀ i ∈ [16, 17, 18, 19], HMAC_SHA256_Buf swTransform zeroHctx testPasswd (testSalt ++ beBytes 4 (i + 1)) = .ok (half i) := by
  decide +kernel

set_option maxRecDepth 100000 in
theorem selfPb0_5 : ∀ i ∈ [20, 21, 22, 23], HMAC_SHA256_Buf swTransform zeroHctx testPasswd (testSalt ++ beBytes 4 (i + 1)) = .ok (half i) := by
  decide +kernel

set_option maxRecDepth 100000 in
theorem selfPb0_6 : ∀ i ∈ [24, 25, 26, 27], HMAC_SHA256_Buf swTransform zeroHctx testPasswd (testSalt ++ beBytes 4 (i + 1)) = .ok (half i) := by
  decide +kernel

set_option maxRecDepth 100000 in
theorem selfPb0_7 : ∀ i ∈ [28, 29, 30, 31], HMAC_SHA256_Buf swTransform zeroHctx testPasswd (testSalt ++ beBytes 4 (i + 1)) = .ok (half i) := by
  decide +kernel

set_option maxRecDepth 100000 in
theorem selfPb1_0 : HMAC_SHA256_Buf swTransform zeroHctx testPasswd (leWordBytes (litBlocks selfB1).flatten ++ beBytes 4 1) = .ok ((testResult.take 32)) := by
  decide +kernel

set_option maxRecDepth 100000 in
theorem selfPb1_1 : HMAC_SHA256_Buf swTransform zeroHctx testPasswd (leWordBytes (litBlocks selfB1).flatten ++ beBytes 4 2) = .ok ((testResult.drop 32)) := by
  decide +kernel

end Scrypt
