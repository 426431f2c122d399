import Verif.Proofs.Aes
/-
The FIPS 197 specification evaluated (by the kernel) on the two self-test vectors of crypto_aes.c.
-/
namespace Scrypt
open Spec

def sboxRow0 : List Nat := [0x63, 0x7c, 0x77, 0x7b, 0xf2, 0x6b, 0x6f, 0xc5, 0x30, 0x1, 0x67, 0x2b, 0xfe, 0xd7, 0xab, 0x76, 0xca, 0x82, 0xc9, 0x7d, 0xfa, 0x59, 0x47, 0xf0, 0xad, 0xd4, 0xa2, 0xaf, 0x9c, 0xa4, 0x72, 0xc0]
theorem sboxRow0_eq : (List.range 32).map (fun i => (sbox (BitVec.ofNat 8 (0 + i))).toNat) = sboxRow0 := by decide +kernel

def sboxRow1 : List Nat := [0xb7, 0xfd, 0x93, 0x26, 0x36, 0x3f, 0xf7, 0xcc, 0x34, 0xa5, 0xe5, 0xf1, 0x71, 0xd8, 0x31, 0x15, 0x4, 0xc7, 0x23, 0xc3, 0x18, 0x96, 0x5, 0x9a, 0x7, 0x12, 0x80, 0xe2, 0xeb, 0x27, 0xb2, 0x75]
theorem sboxRow1_eq : (List.range 32).map (fun i => (sbox (BitVec.ofNat 8 (32 + i))).toNat) = sboxRow1 := by decide +kernel

def sboxRow2 : List Nat := [0x9, 0x83, 0x2c, 0x1a, 0x1b, 0x6e, 0x5a, 0xa0, 0x52, 0x3b, 0xd6, 0xb3, 0x29, 0xe3, 0x2f, 0x84, 0x53, 0xd1, 0x0, 0xed, 0x20, 0xfc, 0xb1, 0x5b, 0x6a, 0xcb, 0xbe, 0x39, 0x4a, 0x4c, 0x58, 0xcf]
theorem sboxRow2_eq : (List.range 32).map (fun i => (sbox (BitVec.ofNat 8 (64 + i))).toNat) = sboxRow2 := by decide +kernel

def sboxRow3 : List Nat := [0xd0, 0xef, 0xaa, 0xfb, 0x43, 0x4d, 0x33, 0x85, 0x45, 0xf9, 0x2, 0x7f, 0x50, 0x3c, 0x9f, 0xa8, 0x51, 0xa3, 0x40, 0x8f, 0x92, 0x9d, 0x38, 0xf5, 0xbc, 0xb6, 0xda, 0x21, 0x10, 0xff, 0xf3, 0xd2]
theorem sboxRow3_eq : (List.range 32).map (fun i => (sbox (BitVec.ofNat 8 (96 + i))).toNat) = sboxRow3 := by decide +kernel

def sboxRow4 : List Nat := [0xcd, 0xc, 0x13, 0xec, 0x5f, 0x97, 0x44, 0x17, 0xc4, 0xa7, 0x7e, 0x3d, 0x64, 0x5d, 0x19, 0x73, 0x60, 0x81, 0x4f, 0xdc, 0x22, 0x2a, 0x90, 0x88, 0x46, 0xee, 0xb8, 0x14, 0xde, 0x5e, 0xb, 0xdb]
theorem sboxRow4_eq : (List.range 32).map (fun i => (sbox (BitVec.ofNat 8 (128 + i))).toNat) = sboxRow4 := by decide +kernel

def sboxRow5 : List Nat := [0xe0, 0x32, 0x3a, 0xa, 0x49, 0x6, 0x24, 0x5c, 0xc2, 0xd3, 0xac, 0x62, 0x91, 0x95, 0xe4, 0x79, 0xe7, 0xc8, 0x37, 0x6d, 0x8d, 0xd5, 0x4e, 0xa9, 0x6c, 0x56, 0xf4, 0xea, 0x65, 0x7a, 0xae, 0x8]
theorem sboxRow5_eq : (List.range 32).map (fun i => (sbox (BitVec.ofNat 8 (160 + i))).toNat) = sboxRow5 := by decide +kernel

def sboxRow6 : List Nat := [0xba, 0x78, 0x25, 0x2e, 0x1c, 0xa6, 0xb4, 0xc6, 0xe8, 0xdd, 0x74, 0x1f, 0x4b, 0xbd, 0x8b, 0x8a, 0x70, 0x3e, 0xb5, 0x66, 0x48, 0x3, 0xf6, 0xe, 0x61, 0x35, 0x57, 0xb9, 0x86, 0xc1, 0x1d, 0x9e]
theorem sboxRow6_eq : (List.range 32).map (fun i => (sbox (BitVec.ofNat 8 (192 + i))).toNat) = sboxRow6 := by decide +kernel

def sboxRow7 : List Nat := [0xe1, 0xf8, 0x98, 0x11, 0x69, 0xd9, 0x8e, 0x94, 0x9b, 0x1e, 0x87, 0xe9, 0xce, 0x55, 0x28, 0xdf, 0x8c, 0xa1, 0x89, 0xd, 0xbf, 0xe6, 0x42, 0x68, 0x41, 0x99, 0x2d, 0xf, 0xb0, 0x54, 0xbb, 0x16]
theorem sboxRow7_eq : (List.range 32).map (fun i => (sbox (BitVec.ofNat 8 (224 + i))).toNat) = sboxRow7 := by decide +kernel

/-- FIPS 197 figure 7. -/
def sboxTable : List Nat := sboxRow0 ++ sboxRow1 ++ sboxRow2 ++ sboxRow3 ++ sboxRow4 ++ sboxRow5 ++ sboxRow6 ++ sboxRow7

def sboxT (b : Byte) : Byte := BitVec.ofNat 8 (sboxTable.getD b.toNat 0)

theorem sboxTable_eq : (List.range 256).map (fun i => (sbox (BitVec.ofNat 8 i)).toNat) = sboxTable := by
  have key : ∀ (f : Nat → Nat), (List.range 256).map f = (List.range 32).map (fun i => f (0 + i)) ++ (List.range 32).map (fun i => f (32 + i)) ++ (List.range 32).map (fun i => f (64 + i))
    ++ (List.range 32).map (fun i => f (96 + i)) ++ (List.range 32).map (fun i => f (128 + i)) ++ (List.range 32).map (fun i => f (160 + i)) ++ (List.range 32).map (fun i => f (192 + i))
    ++ (List.range 32).map (fun i => f (224 + i)) := by
    intro f
    have e : List.range 256 = (List.range 32).map (0 + ·) ++ (List.range 32).map (32 + ·) ++ (List.range 32).map (64 + ·) ++ (List.range 32).map (96 + ·) ++ (List.range 32).map (128 + ·)
      ++ (List.range 32).map (160 + ·) ++ (List.range 32).map (192 + ·) ++ (List.range 32).map (224 + ·) := by decide +kernel
    rw [e]
    simp only [List.map_append, List.map_map]
    rfl
  rw [key, sboxRow0_eq, sboxRow1_eq, sboxRow2_eq, sboxRow3_eq, sboxRow4_eq, sboxRow5_eq, sboxRow6_eq, sboxRow7_eq]
  rfl

theorem sbox_eq_table : sbox = sboxT := by
  funext b
  unfold sboxT
  rw [← sboxTable_eq, List.getD_eq_getElem?_getD, List.getElem?_map, List.getElem?_range b.isLt]
  simp

theorem fips197_c1 : Spec.aes [0x00, 0x01, 0x02, 0x03, 0x04, 0x05, 0x06, 0x07, 0x08, 0x09, 0x0a, 0x0b, 0x0c, 0x0d, 0x0e, 0x0f]
   [0x00, 0x11, 0x22, 0x33, 0x44, 0x55, 0x66, 0x77, 0x88, 0x99, 0xaa, 0xbb, 0xcc, 0xdd, 0xee, 0xff] =
   [0x69, 0xc4, 0xe0, 0xd8, 0x6a, 0x7b, 0x04, 0x30, 0xd8, 0xcd, 0xb7, 0x80, 0x70, 0xb4, 0xc5, 0x5a] := by
  unfold Spec.aes
  rw [sbox_eq_table]
  decide +kernel

theorem fips197_c3 : Spec.aes [0x00, 0x01, 0x02, 0x03, 0x04, 0x05, 0x06, 0x07, 0x08, 0x09, 0x0a, 0x0b, 0x0c, 0x0d, 0x0e, 0x0f,
    0x10, 0x11, 0x12, 0x13, 0x14, 0x15, 0x16, 0x17, 0x18, 0x19, 0x1a, 0x1b, 0x1c, 0x1d, 0x1e, 0x1f]
   [0x00, 0x11, 0x22, 0x33, 0x44, 0x55, 0x66, 0x77, 0x88, 0x99, 0xaa, 0xbb, 0xcc, 0xdd, 0xee, 0xff] =
   [0x8e, 0xa2, 0xb7, 0xca, 0x51, 0x67, 0x45, 0xbf, 0xea, 0xfc, 0x49, 0x90, 0x4b, 0x49, 0x60, 0x89] := by
  unfold Spec.aes
  rw [sbox_eq_table]
  decide +kernel

end Scrypt
