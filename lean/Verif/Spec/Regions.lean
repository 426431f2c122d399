import Verif.Basic
/-
Regions of one memory.
-/
namespace Scrypt.Spec

/-- The `n` bytes at `&mem[off]`. -/
def region (mem : Bytes) (off n : Nat) : Bytes := (mem.drop off).take n

/-- The memory after `bytes` were stored at `&mem[off]` (everything else unchanged). -/
def store (mem : Bytes) (off : Nat) (bytes : Bytes) : Bytes := mem.take off ++ bytes ++ mem.drop (off + bytes.length)

/-- `[a, a + n)` and `[b, b + k)` have no byte in common. -/
def Apart (a n b k : Nat) : Prop := a + n ≤ b ∨ b + k ≤ a

end Scrypt.Spec
