import Verif.Model.Sha256
import Verif.Model.Endian
/-
Model of libcperciva/util/entropy.c, libcperciva/crypto/crypto_entropy.c and crypto_entropy_rdrand.c.
The operating system is an oracle: every list below holds the answers to successive system calls.  When
a list runs out the function is still waiting for an answer: outcome `none`.
-/
namespace Scrypt

/-- Answers of close(2). [The call at entropy.c:115-121] -/
inductive CloseAns
  | ok | eintr | err
  deriving DecidableEq, Repr

/-- The answers of the operating system during one `entropy_read`: malloc, open, the successive reads
(`none` is -1, `some []` is end of file) and the successive closes. [The calls at entropy.c:41, 47, 79, 115] -/
structure EntropyOs where
  mallocOk : Bool
  openOk : Bool
  reads : List (Option Bytes)
  closes : List CloseAns

/-- Resource events of `entropy_read`. [Observation of entropy.c:41-56, 113-129] -/
inductive EntEv
  | malloc | open | close (a : CloseAns) | free
  deriving DecidableEq, Repr

/-- `SSIZE_MAX` on a 64-bit platform. [The assertion at entropy.c:75] -/
def SSIZE_MAX : Nat := 2 ^ 63 - 1

/-- entropy.c:77-93, the loop of entropy_read_fill, filling `buf[off .. off+buflen)`; the Boolean is
"success".  read(2) never returns more than it was asked for: such an answer is `.ub`. -/
def fillLoop : List (Option Bytes) → Bytes → Nat → Nat → Res (Option (Bool × Bytes))
  | _, buf, _, 0 => .ok (some (true, buf))
  | [], _, _, _ + 1 => .ok none
  | none :: _, buf, _, _ + 1 => .ok (some (false, buf))
  | some d :: rs, buf, off, n + 1 =>
    if d.length = 0 then .ok (some (false, buf))
    else if n + 1 < d.length then .ub
    else wrSlice buf off d >>= fun buf => fillLoop rs buf (off + d.length) (n + 1 - d.length)

/-- entropy.c:67-101 `entropy_read_fill` -/
def entropy_read_fill (os : EntropyOs) (buf : Bytes) (buflen : Nat) : Res (Option (Bool × Bytes)) :=
  if SSIZE_MAX < buflen then .abort else fillLoop os.reads buf 0 buflen

/-- entropy.c:114-120, the loop `while (close(er->fd) == -1)`: success, and the events. -/
def closeLoop : List CloseAns → Option (Bool × List EntEv)
  | [] => none
  | .ok :: _ => some (true, [.close .ok])
  | .err :: _ => some (false, [.close .err])
  | .eintr :: cs => (closeLoop cs).map fun r => (r.1, .close .eintr :: r.2)

/-- entropy.c:107-133 `entropy_read_done`; both paths free the cookie. -/
def entropy_read_done (os : EntropyOs) : Option (Bool × List EntEv) :=
  (closeLoop os.closes).map fun r => (r.1, r.2 ++ [.free])

/-- Outcome of `entropy_read`: success (0) or failure (-1), the buffer, the resource events. [The results of entropy.c:140-173] -/
structure EntOut where
  ok : Bool
  buf : Bytes
  tr : List EntEv

/-- entropy.c:139-173 `entropy_read`, with entropy_read_init (entropy.c:36-61) inlined. -/
def entropy_read (os : EntropyOs) (buf : Bytes) (buflen : Nat) : Res (Option EntOut) :=
  if SSIZE_MAX < buflen then .abort
  else if !os.mallocOk then .ok (some ⟨false, buf, []⟩)
  else if !os.openOk then .ok (some ⟨false, buf, [.malloc, .free]⟩)
  else entropy_read_fill os buf buflen >>= fun f =>
    match f with
    | none => .ok none
    | some (filled, buf) =>
      match entropy_read_done os with
      | none => .ok none
      | some (closed, tr) => .ok (some ⟨filled && closed, buf, [.malloc, .open] ++ tr⟩)

/-! ### The generator -/

/-- crypto_entropy.c:21-29: the static state `drbg` and `instantiated`. -/
structure Drbg where
  Key : Bytes
  V : Bytes
  reseed_counter : W32
  instantiated : Bool

/-- The static state at program start (C zero-initializes it). [crypto_entropy.c:22-26, 29] -/
def Drbg.initial : Drbg := ⟨List.replicate 32 0, List.replicate 32 0, 0, false⟩

/-- crypto_entropy.c:32-32 `RESEED_INTERVAL` -/
def RESEED_INTERVAL : Nat := 256
/-- crypto_entropy.c:35-35 `GENERATE_MAXLEN` -/
def GENERATE_MAXLEN : Nat := 65536

/-- What one seeding (instantiate or reseed) observes: uninitialized stack bytes, the operating system,
and the answers of the RDRAND instruction (`none`: carry flag clear). [The local variables and calls of crypto_entropy.c:63-90, 144-169] -/
structure SeedEnv where
  stk : Nat → Byte
  os : EntropyOs
  rdrand : List (Option W32)

/-- The platform: the SHA-256 block function, uninitialized HMAC context contents, and whether RDRAND is
compiled in and reported by the CPU. [The build and platform behind crypto_entropy.c:43-55] -/
structure DrbgSys where
  tf : Transform
  junk : HMAC_SHA256_CTX
  hasRdrand : Bool

/-- crypto_entropy.c:96-137 `update` -/
def drbgUpdate (sys : DrbgSys) (st : Drbg) (data : Bytes) : Res Drbg := do
  let K := st.Key
  let Vx := st.V ++ [0x00]
  let ctx ← HMAC_SHA256_Init sys.tf sys.junk K
  let ctx ← HMAC_SHA256_Update sys.tf ctx Vx
  let ctx ← HMAC_SHA256_Update sys.tf ctx data
  let (K, ctx) ← HMAC_SHA256_Final_internal sys.tf ctx
  let d ← HMAC_SHA256_Buf sys.tf sys.junk K (Vx.take 32)
  if data.length ≠ 0 then
    let Vx := d ++ [0x01]
    let ctx ← HMAC_SHA256_Init sys.tf ctx K
    let ctx ← HMAC_SHA256_Update sys.tf ctx Vx
    let ctx ← HMAC_SHA256_Update sys.tf ctx data
    let (K, _) ← HMAC_SHA256_Final_internal sys.tf ctx
    let d ← HMAC_SHA256_Buf sys.tf sys.junk K (Vx.take 32)
    .ok { st with Key := K, V := d }
  else .ok { st with Key := K, V := d }

/-- crypto_entropy_rdrand.c:18-35 `generate_seed_rdrand` with `len = 8`, giving the bytes of the eight
words in (x86) memory order; `none`: failure.  A missing answer counts as a failed step. -/
def generate_seed_rdrand (answers : List (Option W32)) : Nat → Option Bytes
  | 0 => some []
  | n + 1 =>
    match answers with
    | some w :: rest => (generate_seed_rdrand rest n).map (le32enc w ++ ·)
    | _ => none

/-- crypto_entropy.c:43-55 `update_from_rdrand` guarded by `cpusupport_x86_rdrand()`
(crypto_entropy.c:79-83, 155-159). -/
def update_from_rdrand (sys : DrbgSys) (st : Drbg) (answers : List (Option W32)) : Res Drbg :=
  if sys.hasRdrand then
    match generate_seed_rdrand answers 8 with
    | none => .ok st
    | some b => drbgUpdate sys st b
  else .ok st

/-- crypto_entropy.c:62-90 `instantiate`; the Boolean is "success".  (`instantiated` is set by the caller.) -/
def instantiate (sys : DrbgSys) (e : SeedEnv) (st : Drbg) : Res (Option (Bool × Drbg)) :=
  entropy_read e.os ((List.range 48).map e.stk) 48 >>= fun r =>
    match r with
    | none => .ok none
    | some r =>
      if !r.ok then .ok (some (false, st))
      else
        drbgUpdate sys { st with Key := List.replicate 32 0x00, V := List.replicate 32 0x01, reseed_counter := 1 }
          (r.buf.take 48) >>= fun st =>
        update_from_rdrand sys st e.rdrand >>= fun st => .ok (some (true, st))

/-- crypto_entropy.c:143-169 `reseed` -/
def reseed (sys : DrbgSys) (e : SeedEnv) (st : Drbg) : Res (Option (Bool × Drbg)) :=
  entropy_read e.os ((List.range 32).map e.stk) 32 >>= fun r =>
    match r with
    | none => .ok none
    | some r =>
      if !r.ok then .ok (some (false, st))
      else
        drbgUpdate sys st (r.buf.take 32) >>= fun st =>
        update_from_rdrand sys st e.rdrand >>= fun st => .ok (some (true, { st with reseed_counter := 1 }))

/-- crypto_entropy.c:186-193, one iteration of the loop of `generate` (bufpos = 32 i), on (buffer, V). -/
def genStep (sys : DrbgSys) (Key : Bytes) (off buflen : Nat) (s : Bytes × Bytes) (i : Nat) : Res (Bytes × Bytes) := do
  let V ← HMAC_SHA256_Buf sys.tf sys.junk Key s.2
  let buf ← wrSlice s.1 (off + 32 * i) (V.take (if buflen - 32 * i ≥ 32 then 32 else buflen - 32 * i))
  .ok (buf, V)

/-- crypto_entropy.c:178-200 `generate`, filling `buf[off .. off+buflen)`. -/
def generate (sys : DrbgSys) (st : Drbg) (buf : Bytes) (off buflen : Nat) : Res (Bytes × Drbg) := do
  cassert (buflen ≤ GENERATE_MAXLEN)
  cassert (st.reseed_counter.toNat ≤ RESEED_INTERVAL)
  let (buf, V) ← forLoop ((buflen + 31) / 32) (genStep sys st.Key off buflen) (buf, st.V)
  let st ← drbgUpdate sys { st with V := V } []
  .ok (buf, { st with reseed_counter := st.reseed_counter + 1 })

/-- Outcome of `crypto_entropy_read`: 0 or -1, the buffer, the state, the seedings not consumed. [The results of crypto_entropy.c:207-245] -/
structure ReadOut where
  ok : Bool
  buf : Bytes
  st : Drbg
  rest : List SeedEnv

/-- crypto_entropy.c:229-233: how much is generated in one step. -/
def bytesToProvide (buflen : Nat) : Nat := if buflen > GENERATE_MAXLEN then GENERATE_MAXLEN else buflen

/-- crypto_entropy.c:223-227 (reseed if needed): the Boolean is "go on". -/
def reseedIfNeeded (sys : DrbgSys) (es : List SeedEnv) (st : Drbg) : Res (Option (Bool × Drbg × List SeedEnv)) :=
  if st.reseed_counter.toNat > RESEED_INTERVAL then
    match es with
    | [] => .ok none
    | e :: es => reseed sys e st >>= fun r => .ok (r.map fun r => (r.1, r.2, es))
  else .ok (some (true, st, es))

/-- crypto_entropy.c:221-241, the loop of `crypto_entropy_read`; `off` is how far `buf` has advanced. -/
def readLoop (sys : DrbgSys) (es : List SeedEnv) (st : Drbg) (buf : Bytes) (off buflen : Nat) : Res (Option ReadOut) :=
  if _h : buflen = 0 then .ok (some ⟨true, buf, st, es⟩)
  else
    reseedIfNeeded sys es st >>= fun r =>
      match r with
      | none => .ok none
      | some (false, st, es) => .ok (some ⟨false, buf, st, es⟩)
      | some (true, st, es) =>
        generate sys st buf off (bytesToProvide buflen) >>= fun g =>
          readLoop sys es g.2 g.1 (off + bytesToProvide buflen) (buflen - bytesToProvide buflen)
termination_by buflen
decreasing_by
  unfold bytesToProvide GENERATE_MAXLEN
  split <;> omega

/-- crypto_entropy.c:206-245 `crypto_entropy_read` -/
def crypto_entropy_read (sys : DrbgSys) (es : List SeedEnv) (st : Drbg) (buf : Bytes) (buflen : Nat) : Res (Option ReadOut) :=
  if st.instantiated then readLoop sys es st buf 0 buflen
  else
    match es with
    | [] => .ok none
    | e :: es =>
      instantiate sys e st >>= fun r =>
        match r with
        | none => .ok none
        | some (false, st) => .ok (some ⟨false, buf, st, es⟩)
        | some (true, st) => readLoop sys es { st with instantiated := true } buf 0 buflen

/-- A history: the requests are made one after the other; the outcomes, the final state and the seedings
not consumed. [Successive calls of crypto_entropy.c:207] -/
def requests (sys : DrbgSys) : List SeedEnv → Drbg → List Bytes → Res (Option (List ReadOut × Drbg × List SeedEnv))
  | es, st, [] => .ok (some ([], st, es))
  | es, st, buf :: bufs =>
    crypto_entropy_read sys es st buf buf.length >>= fun r =>
      match r with
      | none => .ok none
      | some r =>
        requests sys r.rest r.st bufs >>= fun q =>
          .ok (q.map fun q => (r :: q.1, q.2))

end Scrypt
