import Verif.Model.Enc
import Verif.Model.Entropy
import Verif.Model.Cpuperf
/-
A process that uses the library: the static variables of the library (the implementations selected so far, the random generator's state), how
one call finds and leaves them, and sequences of calls.

The models of the single calls (Model/Enc.lean) take the answers of the components they use as given: `EncSys.par.perf` (scryptenc_cpuperf),
`EncSys.salt` (crypto_entropy_read), `EncSys.sha`, `EncSys.aesHw`, `EncSys.smix` (the selections).  Here these answers are computed, by the models of
the components, from the static variables and the operating system.
-/
namespace Scrypt

/-- The machine and the build: what stays the same while the process runs. [The build and hardware; no code] -/
structure Machine where
  szMax : Nat
  cfg : MemCfg
  clk : ClkCfg
  clocksPerSec : Nat
  /-- accelerated code compiled in and reported by the CPU -/
  shaFeat : ShaHw → Bool
  aesFeat : AesHw → Bool
  sse2 : Bool
  rdrand : Bool
  ossl : Ossl
  /-- uninitialised stack in crypto_entropy.c.  Simplification: the same in every call. -/
  drbgJunk : HMAC_SHA256_CTX

/-- The static variables of the library: sha256.c:22-32 and crypto_aes.c:22-32 `hwaccel` (`none`: HW_UNSET; crypto_aesctr.c has a copy of the latter),
crypto_scrypt.c:48 `smix_func`, crypto_entropy.c:22-26 `drbg`; and, beyond them, the seedings the process will still observe. -/
structure Statics where
  sha : Option ShaHw
  aes : Option AesHw
  smix : Option SmixImpl
  drbg : Drbg
  seeds : List SeedEnv

/-- The process starts. [The initialisers at sha256.c:32, crypto_aes.c:32, crypto_scrypt.c:48, crypto_entropy.c:22-29] -/
def Statics.initial (seeds : List SeedEnv) : Statics := ⟨none, none, none, Drbg.initial, seeds⟩

/-- One derivation made by scryptenc_cpuperf, and the clock afterwards. [scryptenc_cpuperf.c:74-86, 91-105] -/
structure PerfEnv where
  kdf : ScEnv
  clk : ClkPair

/-- What the operating system answers, and what uninitialised memory contains, during one call. [The calls made by scryptenc.c:102-925] -/
structure CallEnv where
  mem : MemSys
  disp : DispEnv
  res : ClkPair
  start1 : ClkPair
  steps1 : List PerfEnv
  start2 : ClkPair
  steps2 : List PerfEnv
  kdf1 : ScEnv
  kdf2 : ScEnv
  kdf : ScEnv
  salt0 : Bytes
  aesTestMem : Option (List Bytes)
  aesTestSet : Bool
  aes : AesEnv
  ctr : Option CtrStream
  cookieOk : Bool
  junkSha : SHA256_CTX
  junkHmac : HMAC_SHA256_CTX
  junkHmac2 : HMAC_SHA256_CTX
  junkTest : Bytes
  dk0 : Bytes
  header0 : Bytes
  iobuf : Bytes
  xmm : Nat → Bytes

/-! ### scryptenc_cpuperf, with the derivations it makes -/

/-- How a measuring loop ends. [The ways out of scryptenc_cpuperf.c:74-86, 91-105] -/
inductive PerfEnd
  | err (c : Code)
  | done (diffd : F64) (iters : Nat)
  | running

/-- scryptenc_cpuperf.c:74-86 and 91-105: a measuring loop, calling crypto_scrypt (`perfLoop` with the derivations made). -/
def perfLoopL (m : Machine) (e : CallEnv) (tf : Transform) (N : W64) (t0 : Timeval) (bound : F64) :
    Nat → List PerfEnv → Option SmixImpl → Res (PerfEnd × Option SmixImpl)
  | _, [], st => .ok (.running, st)
  | i, s :: rest, st =>
    crypto_scrypt m.szMax m.sse2 e.kdf1 e.kdf2 s.kdf tf e.junkHmac e.junkTest smixImpl st [] [] N 1 1 [] 0 >>= fun r =>
      if r.1.rc ≠ 0 then .ok (.err .EKEY, r.2)
      else
        match getclockdiff m.clk t0 s.clk with
        | none => .ok (.err .ECLOCK, r.2)
        | some d => if F64.lt bound d then .ok (.done d (i + 1), r.2) else perfLoopL m e tf N t0 bound (i + 1) rest r.2

/-- scryptenc_cpuperf.c:88-113, the second phase. -/
def perfPhase2L (m : Machine) (e : CallEnv) (tf : Transform) (resd : F64) (st : Option SmixImpl) : Res (Option (Code × F64) × Option SmixImpl) :=
  match monoclock_get m.clk e.start2 with
  | none => .ok (some (.ECLOCK, .nan), st)
  | some t0 =>
    perfLoopL m e tf 128 t0 resd 0 e.steps2 st >>= fun r =>
      match r.1 with
      | .err c => .ok (some (c, .nan), r.2)
      | .running => .ok (none, r.2)
      | .done d n => .ok (some (.OK, F64.div (F64.ofNat (512 * n % 2 ^ 64)) d), r.2)

/-- scryptenc_cpuperf.c:58-116 `scryptenc_cpuperf` -/
def cpuperfL (m : Machine) (e : CallEnv) (tf : Transform) (st : Option SmixImpl) : Res (Option (Code × F64) × Option SmixImpl) :=
  match monoclock_getres m.clk m.clocksPerSec e.res with
  | none => .ok (some (.ECLOCK, .nan), st)
  | some resd =>
    match monoclock_get m.clk e.start1 with
    | none => .ok (some (.ECLOCK, .nan), st)
    | some t0 =>
      perfLoopL m e tf 16 t0 (F64.ofNat 0) 0 e.steps1 st >>= fun r =>
        match r.1 with
        | .err c => .ok (some (c, .nan), r.2)
        | .running => .ok (none, r.2)
        | .done _ _ => perfPhase2L m e tf resd r.2

/-! ### One call -/

/-- The answers before anything was asked: the clock, the random generator and AES have failed. [Device of the model: no code] -/
def baseSys (m : Machine) (e : CallEnv) (sha : ShaHw) (smix : Option SmixImpl) : EncSys :=
  { par := ⟨m.szMax, m.cfg, e.mem, (.ECLOCK, .nan), e.disp⟩, sha := sha, aesHw := .software, ossl := m.ossl, sse2Ok := m.sse2, kdf1 := e.kdf1, kdf2 := e.kdf2,
    kdf := e.kdf, smix := smix, salt := none, aes := ⟨none, false⟩, ctr := e.ctr, cookieOk := e.cookieOk, junkSha := e.junkSha, junkHmac := e.junkHmac,
    junkHmac2 := e.junkHmac2, junkTest := e.junkTest, dk0 := e.dk0, header0 := e.header0, iobuf := e.iobuf, xmm := e.xmm }

/-- Does the call report this code?. [Device of the model: no code] -/
def reports (r : Res Code) (c : Code) : Bool :=
  match r with
  | .ok c' => c' = c
  | _ => false

/-- The speed, if the call `f` asks for it (i.e. if it fails when the clock does). [scryptenc.c:117, 200: `scryptenc_cpuperf(&opps)`] -/
def askPerf (m : Machine) (e : CallEnv) (f : EncSys → Res Code) (sys : EncSys) : Res (Option EncSys) :=
  if reports (f sys) .ECLOCK then
    cpuperfL m e sys.tf sys.smix >>= fun r =>
      match r.1 with
      | none => .ok none
      | some perf => .ok (some { sys with par := { sys.par with perf := perf }, smix := r.2 })
  else .ok (some sys)

/-- The salt, if the call asks for it: scryptenc.c:279-280 `crypto_entropy_read(salt, 32)`. -/
def askSalt (m : Machine) (e : CallEnv) (f : EncSys → Res Code) (sys : EncSys) (st : Statics) : Res (Option (EncSys × Statics)) :=
  if reports (f sys) .ESALT then
    crypto_entropy_read ⟨sys.tf, m.drbgJunk, m.rdrand⟩ st.seeds st.drbg e.salt0 32 >>= fun r =>
      match r with
      | none => .ok none
      | some o => .ok (some ({ sys with salt := if o.ok then some o.buf else none }, { st with drbg := o.st, seeds := o.rest }))
  else .ok (some (sys, st))

/-- The AES implementation, if the call gets that far. [scryptenc.c:443, 530, 614, 822: `crypto_aes_key_expand`] -/
def askAes (m : Machine) (e : CallEnv) (f : EncSys → Res Code) (sys : EncSys) (st : Statics) : Res (EncSys × Statics) :=
  if reports (f sys) .EOPENSSL then
    aes_hwaccel_init m.aesFeat e.aesTestMem e.aesTestSet m.ossl st.aes >>= fun h =>
      .ok ({ sys with aesHw := h, aes := e.aes }, { st with aes := some h })
  else .ok (sys, st)

/-- Everything one call (`f`: the code it returns) asks the components for, in order: the SHA-256 block function, the speed (scryptenc.c:117, 197), the salt
(scryptenc.c:279), AES.  Simplification: the SHA-256 block function is selected at the start of the call, not at the first `SHA256_Init` in it; this makes
no difference as the selection can neither fail nor be influenced (`C43_sha256_init`).
`none`: still waiting for the clock to tick or for entropy. -/
def answers (m : Machine) (e : CallEnv) (st : Statics) (f : EncSys → Res Code) : Res (Option (EncSys × Statics)) :=
  hwaccel_init m.shaFeat shaTransform st.sha >>= fun sha =>
    askPerf m e f (baseSys m e sha st.smix) >>= fun r =>
      match r with
      | none => .ok none
      | some sys =>
        askSalt m e f sys { st with sha := some sha } >>= fun r =>
          match r with
          | none => .ok none
          | some r => askAes m e f r.1 r.2 >>= fun x => .ok (some x)

/-- A library call. [The functions of scryptenc.h:107-173, crypto_scrypt.h, crypto_entropy.h] -/
inductive LibCall
  | encBuf (inbuf outbuf passwd : Bytes) (P : EncParams) (verbose force : Bool)
  | decBuf (inbuf outbuf : Bytes) (outlen : Nat) (passwd : Bytes) (P : EncParams) (verbose force : Bool)
  | encFile (inf : InFile) (outf : OutFile) (passwd : Bytes) (P : EncParams) (verbose force : Bool)
  | decFile (inf : InFile) (outf : OutFile) (passwd : Bytes) (P : EncParams) (verbose force : Bool)
  /-- crypto_scrypt (libscrypt-kdf) -/
  | kdf (passwd salt : Bytes) (N : W64) (r p : W32) (buf : Bytes) (buflen : Nat)
  /-- crypto_entropy_read -/
  | random (buf : Bytes)

/-- What comes of it. [The results of the functions of scryptenc.h:107-173] -/
inductive LibOut
  | buf (o : BufOut)
  | file (o : FileOut)
  | kdf (o : ScOut)
  | random (o : ReadOut)

/-- One call on buffers or files: the answers it asks for, then the call. [Calls of scryptenc.c:416-925 with the components they call] -/
def withAnswers {α : Type} (m : Machine) (e : CallEnv) (st : Statics) (f : EncSys → Res α) (rc : α → Code) (smix : α → Option SmixImpl) :
    Res (Option (α × Statics)) :=
  answers m e st (fun sys => f sys >>= fun o => .ok (rc o)) >>= fun r =>
    match r with
    | none => .ok none
    | some x => f x.1 >>= fun o => .ok (some (o, { x.2 with smix := smix o }))

/-- One call. [Calls of scryptenc.c:416-925, crypto_scrypt.c:247, crypto_entropy.c:207] -/
def libCall (m : Machine) (e : CallEnv) (st : Statics) : LibCall → Res (Option (LibOut × Statics))
  | .encBuf inbuf outbuf passwd P v f =>
    withAnswers m e st (fun sys => scryptenc_buf sys inbuf outbuf passwd P v f) (·.rc) (·.smix) >>= fun r => .ok (r.map fun x => (.buf x.1, x.2))
  | .decBuf inbuf outbuf outlen passwd P v f =>
    withAnswers m e st (fun sys => scryptdec_buf sys inbuf outbuf outlen passwd P v f) (·.rc) (·.smix) >>= fun r => .ok (r.map fun x => (.buf x.1, x.2))
  | .encFile inf outf passwd P v f =>
    withAnswers m e st (fun sys => scryptenc_file sys inf outf passwd P v f) (·.rc) (·.smix) >>= fun r => .ok (r.map fun x => (.file x.1, x.2))
  | .decFile inf outf passwd P v f =>
    withAnswers m e st (fun sys => scryptdec_file sys inf outf passwd P v f) (·.rc) (·.smix) >>= fun r => .ok (r.map fun x => (.file x.1, x.2))
  | .kdf passwd salt N r p buf buflen =>
    hwaccel_init m.shaFeat shaTransform st.sha >>= fun sha =>
      crypto_scrypt m.szMax m.sse2 e.kdf1 e.kdf2 e.kdf (shaTransform sha) e.junkHmac e.junkTest smixImpl st.smix passwd salt N r p buf buflen >>= fun o =>
        .ok (some (.kdf o.1, { st with sha := some sha, smix := o.2 }))
  | .random buf =>
    hwaccel_init m.shaFeat shaTransform st.sha >>= fun sha =>
      crypto_entropy_read ⟨shaTransform sha, m.drbgJunk, m.rdrand⟩ st.seeds st.drbg buf buf.length >>= fun r =>
        match r with
        | none => .ok none
        | some o => .ok (some (.random o, { st with sha := some sha, drbg := o.st, seeds := o.rest }))

/-- A history: the calls are made one after the other. [Successive calls by the program that uses the library; no code] -/
def libHistory (m : Machine) : Statics → List (CallEnv × LibCall) → Res (Option (List LibOut × Statics))
  | st, [] => .ok (some ([], st))
  | st, c :: cs =>
    libCall m c.1 st c.2 >>= fun r =>
      match r with
      | none => .ok none
      | some x =>
        libHistory m x.2 cs >>= fun q =>
          .ok (q.map fun q => (x.1 :: q.1, q.2))

end Scrypt
