import Verif.Model.Access
/-
What it means that a computation reads only what has been given a value, and writes only where it may.
-/
namespace Scrypt

/-- A set of elements of arrays. -/
abbrev Cells := Arr → Nat → Prop

/-- The elements of `D`, and those the accesses `t` have written. -/
def after (D : Cells) (t : List Acc) : Cells := fun a i => D a i ∨ (⟨a, i, true⟩ : Acc) ∈ t

/-- When the elements of `D` have a value at the start: every element that is read has a value by then, and every element that is written is one of `may`. -/
def WrittenFirst (may D : Cells) (tr : List Acc) : Prop :=
  ∀ pre c post, tr = pre ++ c :: post → (c.write = false → after D pre c.arr c.idx) ∧ (c.write = true → may c.arr c.idx)

/-- The constant tables. -/
def tables : Cells
  | .h .Krnd, i => i < 64
  | .h .PAD, i => i < 64
  | .h .initial_state, i => i < 8
  | _, _ => False

/-- The automatic variables of the hashing, with their sizes: the message schedule, the working state, the two pads and digests of HMAC, and the contexts. -/
def hashVars : Cells
  | .h .W, i => i < 64
  | .h .S, i => i < 8
  | .h .khash, i => i < 32
  | .h .pad, i => i < 64
  | .h .ihash, i => i < 32
  | .h (.state _), i => i < 8
  | .h (.count _), i => i < 1
  | .h (.buf _), i => i < 64
  | _, _ => False

/-- The further automatic variables of PBKDF2. -/
def pbkdf2Vars : Cells
  | .h .ivec, i => i < 4
  | .h .U, i => i < 32
  | .h .T, i => i < 32
  | _, _ => False

/-- What the derivation of a key writes: the three blocks of memory it has allocated, the output, automatic variables. -/
def kdfWrites (N r p buflen : Nat) : Cells := fun a i => match a with
  | .B => i < 128 * r * p
  | .V => i < 32 * r * N
  | .XY => i < 64 * r + 16
  | .x => i < 16
  | .h .out => i < buflen
  | a => hashVars a i ∨ pbkdf2Vars a i

/-- What has a value when the derivation of a key starts: the passphrase, the salt, the constant tables. -/
def kdfGiven (passwdlen saltlen : Nat) : Cells := fun a i => match a with
  | .h .passwd => i < passwdlen
  | .h .salt => i < saltlen
  | a => tables a i

/-- The AES key schedule, the CTR stream and the counter block on the stack. -/
def aesVars : Cells
  | .c .rkeys, i => i < 15
  | .c .bytectr, i => i < 1
  | .c .kblk, i => i < 16
  | .c .pblk, i => i < 16
  | .c .cblk, i => i < 8
  | _, _ => False

/-- `n` elements of the array `o` from `off` on. -/
def sub (o : CObj) (off n : Nat) : Cells := fun a i => a = .c o ∧ off ≤ i ∧ i < off + n

/-- One of the sets of the list. -/
def among (l : List Cells) : Cells := fun a i => ∃ D, D ∈ l ∧ D a i

end Scrypt
