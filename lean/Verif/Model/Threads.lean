import Verif.Model.CryptoScrypt
import Verif.Model.HwSelect
import Verif.Model.CpuSupport
import Verif.Model.Aes
import Verif.Model.Entropy
/-
Several threads calling the library at once.  The static variables of the library (smix_func of crypto_scrypt.c, hwaccel of sha256.c and of
crypto_aes.c, the present/init pairs of cpusupport.h, the generator's state of crypto_entropy.c) are shared; everything else that these functions touch
is local to the call.  A thread is a small machine that does one access to a shared variable per step, with the local work that belongs to it, and a
schedule says which thread takes the next step.

Simplification: an access to one of these variables (an int, an enum or a pointer) is a single indivisible step and the steps of all threads are
totally ordered.  C11 calls these accesses a data race and promises nothing (5.1.2.4p25); the model is of the machine code that compilers emit for them
(one load or one store of an aligned word each).
-/
namespace Scrypt

/-- The threads `ts` with the shared variables `g` take the steps of a schedule; an entry that names no thread does nothing.  [Not in the code; the static variables are those of crypto_scrypt.c:48, sha256.c:32, crypto_aes.c:32: the
scheduler.] -/
def interleave {σ τ : Type} (step : σ → τ → σ × τ) : List Nat → σ × List τ → σ × List τ
  | [], s => s
  | i :: is, s =>
    match s.2[i]? with
    | none => interleave step is s
    | some t => interleave step is ((step s.1 t).1, s.2.set i (step s.1 t).2)

/-! ### A feature query -/

/-- Where a thread is in `cpusupport_arch_feature()`, cpusupport.h:46-59. -/
inductive FeatPc
  /-- cpusupport.h:50 -/
  | readPresent
  /-- cpusupport.h:52 -/
  | readInit
  /-- cpusupport.h:54-55 -/
  | writePresent
  /-- cpusupport.h:56 -/
  | writeInit
  /-- cpusupport.h:57 -/
  | readBack
  /-- returned -/
  | done (r : Bool)
  deriving DecidableEq, Repr

/-- cpusupport.h:46-59, one access at a time; `detected` is what the detection function returns. -/
def featStep (detected : Bool) (v : FeatVar) : FeatPc → FeatVar × FeatPc
  | .readPresent => (v, if v.present then .done true else .readInit)
  | .readInit => (v, if v.init then .done false else .writePresent)
  | .writePresent => ({ v with present := detected }, .writeInit)
  | .writeInit => ({ v with init := true }, .readBack)
  | .readBack => (v, .done v.present)
  | .done r => (v, .done r)

/-! ### The choice of an implementation (`hwaccel_init`) -/

/-- One CPUSUPPORT_VALIDATE of a `hwaccel_init`: the value, whether the queries say yes, and the self-test, which may read the variable.
[cpusupport.h:104-115, sha256.c:182-195, crypto_aes.c:181-188] -/
structure HwCand (α : Type) where
  val : α
  feat : Bool
  test : Option α → Res Bool

/-- Where a thread is in `hwaccel_init`.  [sha256.c:163-196, crypto_aes.c:170-198] -/
inductive HwPc (α : Type)
  /-- sha256.c:171-173, crypto_aes.c:174-176 -/
  | check
  /-- sha256.c:176, crypto_aes.c:179 -/
  | default
  /-- the candidates that are left -/
  | validate (cs : List (HwCand α))
  /-- cpusupport.h:108 -/
  | assign (v : α)
  /-- returned -/
  | ready
  /-- the process has stopped here: abort, or undefined behaviour -/
  | stopped (e : Res Unit)

/-- sha256.c:163-196 and crypto_aes.c:170-198 `hwaccel_init`, one access at a time.  `sw` is HW_SOFTWARE, `cands` the candidates in order, and `last` what
is done if none passes (crypto_aes.c:190-197; nothing in sha256.c). -/
def hwStep {α : Type} (sw : α) (cands : List (HwCand α)) (last : Res Unit) (var : Option α) : HwPc α → Option α × HwPc α
  | .check => (var, if var.isSome then .ready else .default)
  | .default => (some sw, .validate cands)
  | .validate [] => (var, match last with | .ok _ => .ready | e => .stopped e)
  | .validate (c :: cs) =>
    (var, if c.feat then
        match c.test var with
        | .ok true => .assign c.val
        | .ok false => .validate cs
        | .abort => .stopped .abort
        | .ub => .stopped .ub
      else .validate cs)
  | .assign v => (some v, .ready)
  | .ready => (var, .ready)
  | .stopped e => (var, .stopped e)

/-- sha256.c:245-270: which routine SHA256_Transform uses, given the variable (HW_UNSET falls through to the software code). -/
def shaDispatch (impl : ShaHw → Transform) (var : Option ShaHw) : Transform := impl (var.getD .software)

/-- sha256.c:182-195: the candidates for SHA-256; `hwtest` compares with SHA256_Transform, which reads `hwaccel`. -/
def shaCands (feat : ShaHw → Bool) (impl : ShaHw → Transform) : List (HwCand ShaHw) :=
  [.x86_shani, .x86_sse2, .arm_sha256].map fun h =>
    { val := h, feat := feat h, test := fun var => hwtest (shaDispatch impl var) (impl h) initial_state hwTestBlock }

/-- crypto_aes.c:181-188: the candidates for AES; the tests do not read `hwaccel`. -/
def aesCands (feat : AesHw → Bool) (mem : Option (List Bytes)) : List (HwCand AesHw) :=
  [{ val := .x86_aesni, feat := feat .x86_aesni, test := fun _ => functest (x86_aesni_oneshot mem) aesTestcases },
   { val := .arm_aes, feat := feat .arm_aes, test := fun _ => functest (arm_aes_oneshot mem) aesTestcases }]

/-- crypto_aes.c:190-197: the test of OpenSSL. -/
def aesLast (setOk : Bool) (ossl : Ossl) : Res Unit :=
  functest (openssl_oneshot setOk ossl) aesTestcases >>= fun ok => if ok then .ok () else .abort

/-! ### crypto_scrypt -/

/-- The arguments of one call of crypto_scrypt and what the system does during it.  `sse2Ok` is what the thread's query of SSE2 returns and `tf` what
SHA256_Transform does for it, block after block.  [crypto_scrypt.c:246-249] -/
structure KdfCall where
  (e1 e2 env : ScEnv)
  sse2Ok : Bool
  tf : Transform
  junk : HMAC_SHA256_CTX
  hbuf : Bytes
  (P S : Bytes)
  N : W64
  (r p : W32)
  buf : Bytes
  buflen : Nat

/-- Where a thread is in `crypto_scrypt`.  [crypto_scrypt.c:246-257] -/
inductive KdfPc
  /-- crypto_scrypt.c:252 -/
  | check
  /-- crypto_scrypt.c:253, 216-234: the self-tests -/
  | select
  /-- crypto_scrypt.c:219, 228 -/
  | assign (f : SmixImpl)
  /-- crypto_scrypt.c:255-256 -/
  | call
  /-- returned, or the process stopped -/
  | done (r : Res ScOut)

/-- A thread that calls `crypto_scrypt`. [crypto_scrypt.c:246-257] -/
structure KdfThread where
  c : KdfCall
  pc : KdfPc

/-- crypto_scrypt.c:246-257 with selectsmix (210-235), one access to `smix_func` at a time. A null `smix_func` cannot be called. -/
def kdfStep (szMax : Nat) (var : Option SmixImpl) (t : KdfThread) : Option SmixImpl × KdfThread :=
  match t.pc with
  | .check => (var, { t with pc := if var.isSome then .call else .select })
  | .select =>
    (var, { t with pc :=
      match selectsmix szMax t.c.sse2Ok t.c.e1 t.c.e2 t.c.tf t.c.junk t.c.hbuf smixImpl with
      | .ok f => .assign f
      | .abort => .done .abort
      | .ub => .done .ub })
  | .assign f => (some f, { t with pc := .call })
  | .call =>
    (var, { t with pc := .done <|
      match var with
      | none => .ub
      | some f =>
        crypto_scrypt_internal szMax t.c.env t.c.tf t.c.junk t.c.P t.c.S t.c.N t.c.r t.c.p t.c.buf t.c.buflen (smixImpl f) })
  | .done r => (var, { t with pc := .done r })

/-! ### AES with an expanded key -/

/-- What a thread that encrypts one block with AES is given. [crypto_aes.c:240-302] -/
structure AesCall where
  feat : AesHw → Bool
  mem : Option (List Bytes)
  setOk : Bool
  env : AesEnv
  key : Bytes
  len : Nat
  inp : Bytes

/-- Where a thread is that expands a key and then encrypts one block. [crypto_aes.c:240-302] -/
inductive AesPc
  /-- crypto_aes.c:245, in `hwaccel_init` -/
  | init (pc : HwPc AesHw)
  /-- crypto_aes.c:248-265 -/
  | expand
  /-- crypto_aes.c:280-302 -/
  | encrypt (k : AesKey)
  /-- returned (`none`: the expansion failed), or the process stopped -/
  | done (r : Res (Option Bytes))

/-- A thread that encrypts. [crypto_aes.c:240-302] -/
structure AesThread where
  c : AesCall
  pc : AesPc

/-- crypto_aes.c:240-302: crypto_aes_key_expand followed by crypto_aes_encrypt_block.  Simplification: each of the two reads `hwaccel` twice (once for
each implementation it compares with), of which a build for one processor has one. -/
def aesStep (ossl : Ossl) (var : Option AesHw) (t : AesThread) : Option AesHw × AesThread :=
  match t.pc with
  | .init .ready => (var, { t with pc := .expand })
  | .init (.stopped e) => (var, { t with pc := .done (e >>= fun _ => .ub) })
  | .init pc =>
    let s := hwStep .software (aesCands t.c.feat t.c.mem) (aesLast t.c.setOk ossl) var pc
    (s.1, { t with pc := .init s.2 })
  | .expand =>
    (var, { t with pc :=
      match crypto_aes_key_expand (var.getD .software) t.c.env t.c.key t.c.len with
      | .ok (some k) => .encrypt k
      | .ok none => .done (.ok none)
      | .abort => .done .abort
      | .ub => .done .ub })
  | .encrypt k => (var, { t with pc := .done (crypto_aes_encrypt_block (var.getD .software) ossl t.c.inp k >>= fun b => .ok (some b)) })
  | .done r => (var, { t with pc := .done r })

/-! ### Random bytes -/

/-- Where a thread is that asks an instantiated generator for 32 bytes (one block, no reseeding due). [crypto_entropy.c:186-199] -/
inductive RandPc
  /-- crypto_entropy.c:188: HMAC_SHA256_Buf reads the shared Key and V -/
  | hash
  /-- crypto_entropy.c:188: and writes the shared V -/
  | writeV (V : Bytes)
  /-- crypto_entropy.c:190-193: memcpy from the shared V -/
  | copy
  /-- crypto_entropy.c:196-199: the update, taken as one step -/
  | update (out : Bytes)
  /-- returned with these bytes, or the process stopped -/
  | done (r : Res Bytes)
  deriving DecidableEq

/-- crypto_entropy.c:178-200 `generate` for 32 bytes, split at the accesses to V. -/
def randStep (sys : DrbgSys) (st : Drbg) : RandPc → Drbg × RandPc
  | .hash => (st, match HMAC_SHA256_Buf sys.tf sys.junk st.Key st.V with | .ok V => .writeV V | .abort => .done .abort | .ub => .done .ub)
  | .writeV V => ({ st with V := V }, .copy)
  | .copy => (st, .update (st.V.take 32))
  | .update out =>
    match drbgUpdate sys st [] with
    | .ok st' => ({ st' with reseed_counter := st'.reseed_counter + 1 }, .done (.ok out))
    | .abort => (st, .done .abort)
    | .ub => (st, .done .ub)
  | .done r => (st, .done r)

end Scrypt
