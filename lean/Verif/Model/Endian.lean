import Verif.Basic
/-
Model of libcperciva/util/sysendian.h.  Decoders take the pointed-to array (a list) and read with
bounds checking; encoders return the bytes stored (the caller places them with `wrSlice`).
-/
namespace Scrypt

/-- `(uint8_t)(x & 0xff)` for a value of any width. [The casts in sysendian.h:20-143] -/
def lowByte {n : Nat} (x : BitVec n) : Byte := (x &&& 0xff#n).setWidth 8

/-- sysendian.h:20-26 `be16dec` -/
def be16dec (p : Bytes) : Res (BitVec 16) := do
  let p0 ← rd p 0; let p1 ← rd p 1
  return p1.setWidth 16 ||| (p0.setWidth 16 <<< 8)

/-- sysendian.h:28-35 `be16enc` -/
def be16enc (x : BitVec 16) : Bytes := [lowByte (x >>> 8), lowByte x]

/-- sysendian.h:37-44 `be32dec` -/
def be32dec (p : Bytes) : Res W32 := do
  let p0 ← rd p 0; let p1 ← rd p 1; let p2 ← rd p 2; let p3 ← rd p 3
  return p3.setWidth 32 ||| (p2.setWidth 32 <<< 8) ||| (p1.setWidth 32 <<< 16) |||
    (p0.setWidth 32 <<< 24)

/-- sysendian.h:46-55 `be32enc` -/
def be32enc (x : W32) : Bytes :=
  [lowByte (x >>> 24), lowByte (x >>> 16), lowByte (x >>> 8), lowByte x]

/-- sysendian.h:57-66 `be64dec` -/
def be64dec (p : Bytes) : Res W64 := do
  let p0 ← rd p 0; let p1 ← rd p 1; let p2 ← rd p 2; let p3 ← rd p 3
  let p4 ← rd p 4; let p5 ← rd p 5; let p6 ← rd p 6; let p7 ← rd p 7
  return p7.setWidth 64 ||| (p6.setWidth 64 <<< 8) ||| (p5.setWidth 64 <<< 16) |||
    (p4.setWidth 64 <<< 24) ||| (p3.setWidth 64 <<< 32) ||| (p2.setWidth 64 <<< 40) |||
    (p1.setWidth 64 <<< 48) ||| (p0.setWidth 64 <<< 56)

/-- sysendian.h:68-81 `be64enc` -/
def be64enc (x : W64) : Bytes :=
  [lowByte (x >>> 56), lowByte (x >>> 48), lowByte (x >>> 40), lowByte (x >>> 32),
   lowByte (x >>> 24), lowByte (x >>> 16), lowByte (x >>> 8), lowByte x]

/-- sysendian.h:83-89 `le16dec` -/
def le16dec (p : Bytes) : Res (BitVec 16) := do
  let p0 ← rd p 0; let p1 ← rd p 1
  return p0.setWidth 16 ||| (p1.setWidth 16 <<< 8)

/-- sysendian.h:91-98 `le16enc` -/
def le16enc (x : BitVec 16) : Bytes := [lowByte x, lowByte (x >>> 8)]

/-- sysendian.h:100-107 `le32dec` -/
def le32dec (p : Bytes) : Res W32 := do
  let p0 ← rd p 0; let p1 ← rd p 1; let p2 ← rd p 2; let p3 ← rd p 3
  return p0.setWidth 32 ||| (p1.setWidth 32 <<< 8) ||| (p2.setWidth 32 <<< 16) |||
    (p3.setWidth 32 <<< 24)

/-- sysendian.h:109-118 `le32enc` -/
def le32enc (x : W32) : Bytes :=
  [lowByte x, lowByte (x >>> 8), lowByte (x >>> 16), lowByte (x >>> 24)]

/-- sysendian.h:120-129 `le64dec` -/
def le64dec (p : Bytes) : Res W64 := do
  let p0 ← rd p 0; let p1 ← rd p 1; let p2 ← rd p 2; let p3 ← rd p 3
  let p4 ← rd p 4; let p5 ← rd p 5; let p6 ← rd p 6; let p7 ← rd p 7
  return p0.setWidth 64 ||| (p1.setWidth 64 <<< 8) ||| (p2.setWidth 64 <<< 16) |||
    (p3.setWidth 64 <<< 24) ||| (p4.setWidth 64 <<< 32) ||| (p5.setWidth 64 <<< 40) |||
    (p6.setWidth 64 <<< 48) ||| (p7.setWidth 64 <<< 56)

/-- sysendian.h:131-144 `le64enc` -/
def le64enc (x : W64) : Bytes :=
  [lowByte x, lowByte (x >>> 8), lowByte (x >>> 16), lowByte (x >>> 24),
   lowByte (x >>> 32), lowByte (x >>> 40), lowByte (x >>> 48), lowByte (x >>> 56)]

end Scrypt
