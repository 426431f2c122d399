import Verif.Model.Endian
import Verif.Spec.Intrinsics
/-
Models of lib/crypto/crypto_scrypt_smix.c (generic), crypto_scrypt_smix_sse2.c, and of the smix part
of crypto_scrypt-ref.c.

Memory: `XY` and `V` are flat arrays of 32-bit words (bytes for the reference implementation) with
exactly the sizes the caller allocates; `X`, `Y`, `Z` are offsets into `XY`.  Every access goes
through `rd`/`wr`/`rdSlice`/`wrSlice`, so an access outside the allocation is `Res.ub`.
-/
namespace Scrypt

/-- `for (i = 0; i < n; i++) dest[doff + i] ^= src[soff + i];`, the two regions being in different
arrays. [crypto_scrypt_smix.c:50-56] -/
def xorFrom {α : Type} [XorOp α] (dest : List α) (doff : Nat) (src : List α) (soff n : Nat) : Res (List α) :=
  forLoop n (fun d i => do
    let x ← rd d (doff + i)
    let y ← rd src (soff + i)
    wr d (doff + i) (x ^^^ y)) dest

/-- The same with both regions in one array. [crypto_scrypt_smix.c:50-56] -/
def xorWithin {α : Type} [XorOp α] (m : List α) (doff soff n : Nat) : Res (List α) :=
  forLoop n (fun m i => do
    let x ← rd m (doff + i)
    let y ← rd m (soff + i)
    wr m (doff + i) (x ^^^ y)) m

/-- `memcpy(&dest[doff], &src[soff], n elements)`, different arrays. [crypto_scrypt_smix.c:43-47] -/
def cpyFrom {α : Type} (dest : List α) (doff : Nat) (src : List α) (soff n : Nat) : Res (List α) := do
  let s ← rdSlice src soff n
  wrSlice dest doff s

/-- `memcpy` within one array (the regions never overlap in this code). [crypto_scrypt_smix.c:43-47] -/
def cpyWithin {α : Type} (m : List α) (doff soff n : Nat) : Res (List α) := do
  let s ← rdSlice m soff n
  wrSlice m doff s

namespace Smix

/-- The macro `R(a,b)`. crypto_scrypt_smix.c:70, crypto_scrypt-ref.c:83 -/
def R (a : W32) (b : Nat) : W32 := (a <<< b) ||| (a >>> (32 - b))

/-- `x[d] ^= R(x[a]+x[b], n)` [crypto_scrypt_smix.c:72-95] -/
def qstep (x : List W32) (d a b n : Nat) : Res (List W32) := do
  let xa ← rd x a
  let xb ← rd x b
  let xd ← rd x d
  wr x d (xd ^^^ R (xa + xb) n)

/-- crypto_scrypt_smix.c:71-82 (columns); identical text crypto_scrypt-ref.c:84-95 -/
def colStep (x : List W32) : Res (List W32) := do
  let x ← qstep x 4 0 12 7;   let x ← qstep x 8 4 0 9
  let x ← qstep x 12 8 4 13;  let x ← qstep x 0 12 8 18
  let x ← qstep x 9 5 1 7;    let x ← qstep x 13 9 5 9
  let x ← qstep x 1 13 9 13;  let x ← qstep x 5 1 13 18
  let x ← qstep x 14 10 6 7;  let x ← qstep x 2 14 10 9
  let x ← qstep x 6 2 14 13;  let x ← qstep x 10 6 2 18
  let x ← qstep x 3 15 11 7;  let x ← qstep x 7 3 15 9
  let x ← qstep x 11 7 3 13;  qstep x 15 11 7 18

/-- crypto_scrypt_smix.c:84-95 (rows); identical text crypto_scrypt-ref.c:97-108 -/
def rowStep (x : List W32) : Res (List W32) := do
  let x ← qstep x 1 0 3 7;    let x ← qstep x 2 1 0 9
  let x ← qstep x 3 2 1 13;   let x ← qstep x 0 3 2 18
  let x ← qstep x 6 5 4 7;    let x ← qstep x 7 6 5 9
  let x ← qstep x 4 7 6 13;   let x ← qstep x 5 4 7 18
  let x ← qstep x 11 10 9 7;  let x ← qstep x 8 11 10 9
  let x ← qstep x 9 8 11 13;  let x ← qstep x 10 9 8 18
  let x ← qstep x 12 15 14 7; let x ← qstep x 13 12 15 9
  let x ← qstep x 14 13 12 13; qstep x 15 14 13 18

/-- `for (i = 0; i < 8; i += 2) { columns; rows }` [crypto_scrypt_smix.c:69-97] -/
def rounds8 (x : List W32) : Res (List W32) :=
  forLoop 4 (fun x _ => do
    let x ← colStep x
    rowStep x) x

/-- The operations of an smix implementation on its word arrays. [The helpers of crypto_scrypt_smix.c:42-146 and crypto_scrypt_smix_sse2.c:45-179] -/
structure Ops where
  /-- `blkcpy(&V[voff], &XY[xoff], n words)` -/
  cpyToV : (V : List W32) → (voff : Nat) → (XY : List W32) → (xoff n : Nat) → Res (List W32)
  /-- `blkxor(&XY[xoff], &V[voff], n words)` -/
  xorV : (XY : List W32) → (xoff : Nat) → (V : List W32) → (voff n : Nat) → Res (List W32)
  /-- `blockmix_salsa8(&XY[bin], &XY[bout], &XY[z], r)` -/
  blockmix : (XY : List W32) → (bin bout z r : Nat) → Res (List W32)
  /-- `integerify(&XY[off], r)` -/
  integerify : (XY : List W32) → (off r : Nat) → Res W64

/-- The two loops of `crypto_scrypt_smix` (crypto_scrypt_smix.c:171-201) and of
`crypto_scrypt_smix_sse2` (crypto_scrypt_smix_sse2.c:209-240), which differ only in the operations
called. `i = 2q`. Word offsets: `X = 0`, `Y = 32r`, `Z = 64r`, `V_i = 32ri`. `j` is the bit-wise
`integerify & (N - 1)` on `uint64_t`. -/
def loops (ops : Ops) (r N : Nat) (V XY : List W32) : Res (List W32 × List W32) := do
  let X := 0; let Y := 32 * r; let Z := 64 * r
  let (V, XY) ← forLoop ((N + 1) / 2) (fun (V, XY) q => do
    let i := 2 * q
    let V ← ops.cpyToV V (i * (32 * r)) XY X (32 * r)
    let XY ← ops.blockmix XY X Y Z r
    let V ← ops.cpyToV V ((i + 1) * (32 * r)) XY Y (32 * r)
    let XY ← ops.blockmix XY Y X Z r
    return (V, XY)) (V, XY)
  let XY ← forLoop ((N + 1) / 2) (fun XY _ => do
    let t ← ops.integerify XY X r
    let j := (t &&& (BitVec.ofNat 64 N - 1)).toNat
    let XY ← ops.xorV XY X V (j * (32 * r)) (32 * r)
    let XY ← ops.blockmix XY X Y Z r
    let t ← ops.integerify XY Y r
    let j := (t &&& (BitVec.ofNat 64 N - 1)).toNat
    let XY ← ops.xorV XY Y V (j * (32 * r)) (32 * r)
    ops.blockmix XY Y X Z r) XY
  return (V, XY)

end Smix

/-! ### Generic implementation -/
namespace Gen
open Smix

/-- crypto_scrypt_smix.c:62-100 `salsa20_8` applied to `&m[off]`. -/
def salsa20_8 (m : List W32) (off : Nat) : Res (List W32) := do
  let x ← rdSlice m off 16
  let x ← rounds8 x
  forLoop 16 (fun m i => do
    let b ← rd m (off + i)
    let xi ← rd x i
    wr m (off + i) (b + xi)) m

/-- crypto_scrypt_smix.c:108-134 `blockmix_salsa8`; `i = 2k`. -/
def blockmix (m : List W32) (bin bout z r : Nat) : Res (List W32) := do
  let m ← cpyWithin m z (bin + (2 * r - 1) * 16) 16
  forLoop r (fun m k => do
    let i := 2 * k
    let m ← xorWithin m z (bin + i * 16) 16
    let m ← salsa20_8 m z
    let m ← cpyWithin m (bout + i * 8) z 16
    let m ← xorWithin m z (bin + i * 16 + 16) 16
    let m ← salsa20_8 m z
    cpyWithin m (bout + i * 8 + r * 16) z 16) m

/-- crypto_scrypt_smix.c:140-146 `integerify` -/
def integerify (m : List W32) (off r : Nat) : Res W64 := do
  let x1 ← rd m (off + (2 * r - 1) * 16 + 1)
  let x0 ← rd m (off + (2 * r - 1) * 16 + 0)
  return (x1.setWidth 64 <<< 32) + x0.setWidth 64

/-- crypto_scrypt_smix.c:42-146, the helpers. -/
def ops : Ops where
  cpyToV := cpyFrom
  xorV := xorFrom
  blockmix := blockmix
  integerify := integerify

end Gen

/-- crypto_scrypt_smix.c:156-206 `crypto_scrypt_smix(B, r, N, V, XY)`: the new contents of the three
arrays. -/
def crypto_scrypt_smix (B : Bytes) (r N : Nat) (V XY : List W32) : Res (Bytes × List W32 × List W32) := do
  let XY ← forLoop (32 * r) (fun XY k => do
    let w ← le32dec (B.drop (4 * k))
    wr XY k w) XY
  let (V, XY) ← Smix.loops Gen.ops r N V XY
  let B ← forLoop (32 * r) (fun B k => do
    let w ← rd XY k
    wrSlice B (4 * k) (le32enc w)) B
  return (B, V, XY)

/-! ### SSE2 implementation -/
namespace SseSmix
open Smix

/-- Load / store the `__m128i` at word offset `off + 4 * i` (`p[i]` with `p = (__m128i *)&m[off]`). [crypto_scrypt_smix_sse2.c:76-79, 52, 62] -/
def ld (m : List W32) (off i : Nat) : Res V4 := mm_loadu_words m (off + 4 * i)
/-- crypto_scrypt_smix_sse2.c:121-124, 52, 62. -/
def st (m : List W32) (off i : Nat) (v : V4) : Res (List W32) := mm_storeu_words m (off + 4 * i) v

/-- crypto_scrypt_smix_sse2.c:45-53 `blkcpy` between arrays; `n` words = `n / 4` vectors -/
def blkcpyFrom (dest : List W32) (doff : Nat) (src : List W32) (soff n : Nat) : Res (List W32) :=
  forLoop (n / 4) (fun d i => do
    let v ← ld src soff i
    st d doff i v) dest

/-- `blkcpy` within one array. [crypto_scrypt_smix_sse2.c:46-53] -/
def blkcpyWithin (m : List W32) (doff soff n : Nat) : Res (List W32) :=
  forLoop (n / 4) (fun m i => do
    let v ← ld m soff i
    st m doff i v) m

/-- crypto_scrypt_smix_sse2.c:55-63 `blkxor` between arrays -/
def blkxorFrom (dest : List W32) (doff : Nat) (src : List W32) (soff n : Nat) : Res (List W32) :=
  forLoop (n / 4) (fun d i => do
    let x ← ld d doff i
    let y ← ld src soff i
    st d doff i (mm_xor_si128 x y)) dest

/-- `blkxor` within one array. [crypto_scrypt_smix_sse2.c:56-63] -/
def blkxorWithin (m : List W32) (doff soff n : Nat) : Res (List W32) :=
  forLoop (n / 4) (fun m i => do
    let x ← ld m doff i
    let y ← ld m soff i
    st m doff i (mm_xor_si128 x y)) m

/-- `D = _mm_xor_si128(D, _mm_slli_epi32(T, n)); D = _mm_xor_si128(D, _mm_srli_epi32(T, 32 - n))` with
`T = _mm_add_epi32(A, B)` [crypto_scrypt_smix_sse2.c:84-94, 103-113] -/
def qv (D A B : V4) (n : Nat) : V4 :=
  let T := mm_add_epi32 A B
  let D := mm_xor_si128 D (mm_slli_epi32 T n)
  mm_xor_si128 D (mm_srli_epi32 T (32 - n))

/-- crypto_scrypt_smix_sse2.c:82-118, the loop body. -/
def dround (X : V4 × V4 × V4 × V4) : V4 × V4 × V4 × V4 :=
  let (X0, X1, X2, X3) := X
  let X1 := qv X1 X0 X3 7
  let X2 := qv X2 X1 X0 9
  let X3 := qv X3 X2 X1 13
  let X0 := qv X0 X3 X2 18
  let X1 := mm_shuffle_epi32 X1 0x93
  let X2 := mm_shuffle_epi32 X2 0x4E
  let X3 := mm_shuffle_epi32 X3 0x39
  let X3 := qv X3 X0 X1 7
  let X2 := qv X2 X3 X0 9
  let X1 := qv X1 X2 X3 13
  let X0 := qv X0 X1 X2 18
  let X1 := mm_shuffle_epi32 X1 0x39
  let X2 := mm_shuffle_epi32 X2 0x4E
  let X3 := mm_shuffle_epi32 X3 0x93
  (X0, X1, X2, X3)

/-- crypto_scrypt_smix_sse2.c:69-125 `salsa20_8` applied to the four vectors at `&m[off]`. -/
def salsa20_8 (m : List W32) (off : Nat) : Res (List W32) := do
  let B0 ← ld m off 0
  let B1 ← ld m off 1
  let B2 ← ld m off 2
  let B3 ← ld m off 3
  let (X0, X1, X2, X3) := iter 4 (fun X _ => dround X) (B0, B1, B2, B3)
  let b ← ld m off 0
  let m ← st m off 0 (mm_add_epi32 b X0)
  let b ← ld m off 1
  let m ← st m off 1 (mm_add_epi32 b X1)
  let b ← ld m off 2
  let m ← st m off 2 (mm_add_epi32 b X2)
  let b ← ld m off 3
  st m off 3 (mm_add_epi32 b X3)

/-- crypto_scrypt_smix_sse2.c:133-159 `blockmix_salsa8`; `&Bin[8r-4]` is word `32r-16`. -/
def blockmix (m : List W32) (bin bout z r : Nat) : Res (List W32) := do
  let m ← blkcpyWithin m z (bin + 4 * (8 * r - 4)) 16
  forLoop r (fun m i => do
    let m ← blkxorWithin m z (bin + 4 * (i * 8)) 16
    let m ← salsa20_8 m z
    let m ← blkcpyWithin m (bout + 4 * (i * 4)) z 16
    let m ← blkxorWithin m z (bin + 4 * (i * 8 + 4)) 16
    let m ← salsa20_8 m z
    blkcpyWithin m (bout + 4 * ((r + i) * 4)) z 16) m

/-- crypto_scrypt_smix_sse2.c:166-179 `integerify` -/
def integerify (m : List W32) (off r : Nat) : Res W64 := do
  let v0 ← ld m (off + 4 * ((2 * r - 1) * 4)) 0
  let X0 := v0.l0
  let v3 ← ld m (off + 4 * ((2 * r - 1) * 4)) 3
  let X13 := (mm_srli_si128 v3 4).l0
  return (X13.setWidth 64 <<< 32) + X0.setWidth 64

/-- crypto_scrypt_smix_sse2.c:45-179, the helpers. -/
def ops : Ops where
  cpyToV := blkcpyFrom
  xorV := blkxorFrom
  blockmix := blockmix
  integerify := integerify

end SseSmix

/-- crypto_scrypt_smix_sse2.c:191-249 `crypto_scrypt_smix_sse2(B, r, N, V, XY)` -/
def crypto_scrypt_smix_sse2 (B : Bytes) (r N : Nat) (V XY : List W32) :
    Res (Bytes × List W32 × List W32) := do
  let XY ← forLoop (2 * r) (fun XY k =>
    forLoop 16 (fun XY i => do
      let w ← le32dec (B.drop ((k * 16 + i * 5 % 16) * 4))
      wr XY (k * 16 + i) w) XY) XY
  let (V, XY) ← Smix.loops SseSmix.ops r N V XY
  let B ← forLoop (2 * r) (fun B k =>
    forLoop 16 (fun B i => do
      let w ← rd XY (k * 16 + i)
      wrSlice B ((k * 16 + i * 5 % 16) * 4) (le32enc w)) B) B
  return (B, V, XY)

/-! ### Reference implementation (crypto_scrypt-ref.c), on bytes -/
namespace Ref
open Smix

/-- crypto_scrypt-ref.c:68-119 `salsa20_8` on the 64-byte array `B`. -/
def salsa20_8 (B : Bytes) : Res Bytes := do
  let B32 ← forLoop 16 (fun B32 i => do
    let w ← le32dec (B.drop (i * 4))
    wr B32 i w) (List.replicate 16 0)
  let x ← rounds8 B32
  let B32 ← forLoop 16 (fun B32 i => do
    let b ← rd B32 i
    let xi ← rd x i
    wr B32 i (b + xi)) B32
  forLoop 16 (fun B i => do
    let w ← rd B32 i
    wrSlice B (4 * i) (le32enc w)) B

/-- crypto_scrypt-ref.c:126-150 `blockmix_salsa8(&m[b], &m[y], r)`; `X` is a local array. The
byte loops `blkcpy` are memcpy of disjoint regions. -/
def blockmix (m : Bytes) (b y r : Nat) : Res Bytes := do
  let X ← rdSlice m (b + (2 * r - 1) * 64) 64
  let (_, m) ← forLoop (2 * r) (fun (X, m) i => do
    let X ← xorFrom X 0 m (b + i * 64) 64
    let X ← salsa20_8 X
    let m ← wrSlice m (y + i * 64) X
    return (X, m)) (X, m)
  let m ← forLoop r (fun m i => cpyWithin m (b + i * 64) (y + (i * 2) * 64) 64) m
  forLoop r (fun m i => cpyWithin m (b + (i + r) * 64) (y + (i * 2 + 1) * 64) 64) m

/-- crypto_scrypt-ref.c:156-162 `integerify` -/
def integerify (m : Bytes) (b r : Nat) : Res W64 := le64dec (m.drop (b + (2 * r - 1) * 64))

/-- crypto_scrypt-ref.c:170-202 `smix` -/
def smix (B : Bytes) (r N : Nat) (V XY : Bytes) : Res (Bytes × Bytes × Bytes) := do
  let X := 0; let Y := 128 * r
  let XY ← cpyFrom XY X B 0 (128 * r)
  let (V, XY) ← forLoop N (fun (V, XY) i => do
    let V ← cpyFrom V (i * (128 * r)) XY X (128 * r)
    let XY ← blockmix XY X Y r
    return (V, XY)) (V, XY)
  let XY ← forLoop N (fun XY _ => do
    let t ← integerify XY X r
    let j := (t &&& (BitVec.ofNat 64 N - 1)).toNat
    let XY ← xorFrom XY X V (j * (128 * r)) (128 * r)
    blockmix XY X Y r) XY
  let B ← cpyFrom B 0 XY X (128 * r)
  return (B, V, XY)

end Ref
end Scrypt
