import Verif.Spec.Sha256
/-
HMAC_DRBG with SHA-256, NIST SP 800-90A section 10.1.2, without personalization string and additional
input, and the rules for using it: instantiate first, at most 65536 bytes per request, at most 256
requests between seedings.
-/
namespace Scrypt.Spec.Drbg

/-- Working state: Key, V and the number of requests served since the last seeding. -/
structure State where
  K : Bytes
  V : Bytes
  served : Nat
  deriving DecidableEq

/-- HMAC_DRBG_Update (10.1.2.2). -/
def update (K V data : Bytes) : Bytes × Bytes :=
  let K1 := hmac K (V ++ [0x00] ++ data)
  let V1 := hmac K1 V
  if data = [] then (K1, V1)
  else
    let K2 := hmac K1 (V1 ++ [0x01] ++ data)
    (K2, hmac K2 V1)

/-- V, HMAC(K, V), HMAC(K, HMAC(K, V)), ... -/
def chain (K V : Bytes) : Nat → Bytes
  | 0 => V
  | i + 1 => hmac K (chain K V i)

/-- The operations of a generator.  `extra` is additional seed material mixed in right after a seeding
(RDRAND output, if any). -/
inductive Op where
  | instantiate (seed : Bytes) (extra : Option Bytes)
  | reseed (seed : Bytes) (extra : Option Bytes)
  | generate (n : Nat)
  deriving DecidableEq

/-- Mix seed material, then the extra material if there is any; the counter restarts. -/
def seeded (K V seed : Bytes) (extra : Option Bytes) : State :=
  let a := update K V seed
  match extra with
  | none => ⟨a.1, a.2, 0⟩
  | some x => let b := update a.1 a.2 x; ⟨b.1, b.2, 0⟩

/-- One operation: the new state and the bytes it outputs.  (10.1.2.3, 10.1.2.4, 10.1.2.5)  Generating
`n` bytes outputs the first `n` bytes of `chain 1 ++ chain 2 ++ ...`, and updates with no data. -/
def step : Option State → Op → Option State × Bytes
  | _, .instantiate seed extra => (some (seeded (List.replicate 32 0x00) (List.replicate 32 0x01) seed extra), [])
  | some s, .reseed seed extra => (some (seeded s.K s.V seed extra), [])
  | some s, .generate n =>
    let m := (n + 31) / 32
    let a := update s.K (chain s.K s.V m) []
    (some ⟨a.1, a.2, s.served + 1⟩, ((List.range m).flatMap fun i => chain s.K s.V (i + 1)).take n)
  | none, _ => (none, [])

/-- All the operations: the final state and everything that was output. -/
def run : Option State → List Op → Option State × Bytes
  | s, [] => (s, [])
  | s, op :: ops =>
    let a := step s op
    let b := run a.1 ops
    (b.1, a.2 ++ b.2)

/-- Proper use, given the number of requests since the last seeding (`none`: not yet instantiated):
instantiation comes first and once with 48 bytes of entropy and nonce, reseeding takes 32 bytes, and every
request is for 1..65536 bytes and is among the first 256 since the last seeding. -/
def Legal : Option Nat → List Op → Prop
  | _, [] => True
  | none, .instantiate seed _ :: ops => seed.length = 48 ∧ Legal (some 0) ops
  | some _, .reseed seed _ :: ops => seed.length = 32 ∧ Legal (some 0) ops
  | some k, .generate n :: ops => 1 ≤ n ∧ n ≤ 65536 ∧ k < 256 ∧ Legal (some (k + 1)) ops
  | _, _ :: _ => False

end Scrypt.Spec.Drbg
