import Verif.Model.Asprintf
import Verif.Model.Entropy
import Verif.Model.Cpuperf
import Verif.Model.CryptoScrypt
import Verif.Model.Aes
import Verif.Model.Warnp
/-
What entropy.c, monoclock.c and the selection of implementations print on stderr.  Each function below has the control flow of the function it
belongs to and yields its messages; that the two agree on when there is a failure is proved (C75).
-/
namespace Scrypt

/-! ### entropy.c -/

/-- entropy.c:78-93, the messages of the loop of entropy_read_fill, and whether it failed; `n` bytes are still wanted. -/
def fillSaid : List (Option Bytes) → Nat → List Diag × Bool
  | _, 0 => ([], false)
  | [], _ + 1 => ([], false)
  | none :: _, _ + 1 => ([.warnp "read(/dev/urandom)".toList], true)
  | some d :: rs, n + 1 => if d.length = 0 then ([.warn0 "EOF on /dev/urandom?".toList], true) else fillSaid rs (n + 1 - d.length)

/-- entropy.c:115-120, the messages of entropy_read_done, and whether it failed. -/
def closeSaid : List CloseAns → List Diag × Bool
  | [] => ([], false)
  | .ok :: _ => ([], false)
  | .err :: _ => ([.warnp "close(/dev/urandom)".toList], true)
  | .eintr :: cs => closeSaid cs

/-- entropy.c:148-172: the messages of entropy_read once the device is open.  After a failed read the device is closed too (entropy.c:168), without a
message of entropy_read's own. -/
def openedSaid (os : EntropyOs) (buflen : Nat) : List Diag :=
  let f := fillSaid os.reads buflen
  let c := closeSaid os.closes
  if f.2 then f.1 ++ [.warn0 "entropy_read_fill".toList] ++ c.1
  else f.1 ++ c.1 ++ (if c.2 then [.warn0 "entropy_read_done".toList] else [])

/-- entropy.c:139-173 `entropy_read` with entropy_read_init (36-61): the messages. -/
def entropySaid (os : EntropyOs) (buflen : Nat) : List Diag :=
  if !os.mallocOk then [.warnp "malloc".toList, .warn0 "entropy_read_init".toList]
  else if !os.openOk then [.warnp "open(/dev/urandom)".toList, .warn0 "entropy_read_init".toList]
  else openedSaid os buflen

/-- crypto_entropy.c:206-245: the messages of a call, given the seedings it used up: 48 bytes are read to instantiate the generator, 32 to reseed. -/
def seedsSaid : Bool → List SeedEnv → List Diag
  | _, [] => []
  | inst, e :: es => entropySaid e.os (if inst then 32 else 48) ++ seedsSaid true es

/-! ### monoclock.c -/

/-- monoclock.c:44-57: the messages of the fallback branch of monoclock_get. -/
def monoFallbackSaid (cfg : ClkCfg) : ClkAns → List Diag
  | .time _ _ => []
  | _ => [.warnp (if cfg.useRealtime then "clock_gettime(CLOCK_REALTIME)".toList else "gettimeofday".toList)]

/-- monoclock.c:26-63 `monoclock_get`: the messages. -/
def monoclock_get_said (cfg : ClkCfg) (a : ClkPair) : List Diag :=
  if cfg.useMonotonic then
    match a.mono with
    | .time _ _ => []
    | .fail => [.warnp "clock_gettime(CLOCK_MONOTONIC)".toList]
    | .unsupported => monoFallbackSaid cfg a.fallback
  else monoFallbackSaid cfg a.fallback

/-- monoclock.c:71-96 `monoclock_get_cputime`; `cpu` is the answer of CLOCK_PROCESS_CPUTIME_ID, `none` where that is not compiled in. -/
def monoclock_get_cputime (cfg : ClkCfg) (cpu : Option ClkAns) (a : ClkPair) : Option Timeval :=
  match cpu with
  | some (.time s n) => some ⟨s, n.tdiv 1000⟩
  | some .fail => none
  | _ => monoclock_get cfg a

/-- monoclock.c:71-96 `monoclock_get_cputime`: the messages. -/
def monoclock_get_cputime_said (cfg : ClkCfg) (cpu : Option ClkAns) (a : ClkPair) : List Diag :=
  match cpu with
  | some (.time _ _) => []
  | some .fail => [.warnp "clock_gettime(CLOCK_PROCESS_CPUTIME_ID)".toList]
  | _ => monoclock_get_said cfg a

/-- monoclock.c:121-142: the messages of the fallback branch of monoclock_getres. -/
def resFallbackSaid (cfg : ClkCfg) : ClkAns → List Diag
  | .time _ _ => []
  | _ => if cfg.useRealtime then [.warnp "clock_getres(CLOCK_REALTIME)".toList] else []

/-- monoclock.c:106-150 `monoclock_getres`: the messages. -/
def monoclock_getres_said (cfg : ClkCfg) (a : ClkPair) : List Diag :=
  if cfg.useMonotonic then
    match a.mono with
    | .time _ _ => []
    | .fail => [.warnp "clock_getres(CLOCK_MONOTONIC)".toList]
    | .unsupported => resFallbackSaid cfg a.fallback
  else resFallbackSaid cfg a.fallback

/-- scryptenc_cpuperf.c:74-86 and 91-105: the messages of a measuring loop; the Boolean: it was left by `break`. -/
def perfLoopSaid (cfg : ClkCfg) (st : Timeval) (bound : F64) : List PerfStep → List Diag × Bool
  | [] => ([], false)
  | s :: rest =>
    if s.scryptOk then
      match getclockdiff cfg st s.clk with
      | none => (monoclock_get_said cfg s.clk, false)
      | some d =>
        if F64.lt bound d then (monoclock_get_said cfg s.clk, true)
        else (monoclock_get_said cfg s.clk ++ (perfLoopSaid cfg st bound rest).1, (perfLoopSaid cfg st bound rest).2)
    else ([], false)

/-- scryptenc_cpuperf.c:88-113: the messages of the second phase. -/
def perfPhase2Said (cfg : ClkCfg) (resd : F64) (start : ClkPair) (steps : List PerfStep) : List Diag :=
  monoclock_get_said cfg start ++
    match monoclock_get cfg start with
    | none => []
    | some st => (perfLoopSaid cfg st resd steps).1

/-- scryptenc_cpuperf.c:72-113: the messages after the resolution is known. -/
def perfPhase1Said (cfg : ClkCfg) (resd : F64) (start1 : ClkPair) (steps1 : List PerfStep) (start2 : ClkPair) (steps2 : List PerfStep) : List Diag :=
  monoclock_get_said cfg start1 ++
    match monoclock_get cfg start1 with
    | none => []
    | some st =>
      (perfLoopSaid cfg st (F64.ofNat 0) steps1).1 ++
        if (perfLoopSaid cfg st (F64.ofNat 0) steps1).2 then perfPhase2Said cfg resd start2 steps2 else []

/-- scryptenc_cpuperf.c:58-116 `scryptenc_cpuperf`: the messages. -/
def scryptenc_cpuperf_said (cfg : ClkCfg) (clocksPerSec : Nat) (res start1 : ClkPair) (steps1 : List PerfStep) (start2 : ClkPair) (steps2 : List PerfStep) :
    List Diag :=
  monoclock_getres_said cfg res ++
    match monoclock_getres cfg clocksPerSec res with
    | none => []
    | some resd => perfPhase1Said cfg resd start1 steps1 start2 steps2

/-! ### The selection of implementations -/

/-- cpusupport.h:104-115 `CPUSUPPORT_VALIDATE`: the message, and the messages of what follows. -/
def validateSaid (checks : Bool) (check : Res Bool) (name : CStr) (next : List Diag) : List Diag :=
  if checks then
    match check with
    | .ok true => []
    | .ok false => .warn0 ("Disabling ".toList ++ name ++ " due to failed self-test".toList) :: next
    | _ => []
  else next

/-- sha256.c:163-196 `hwaccel_init`: the messages. -/
def hwaccel_init_said (feat : ShaHw → Bool) (impl : ShaHw → Transform) (st : Option ShaHw) : List Diag :=
  match st with
  | some _ => []
  | none =>
    validateSaid (feat .x86_shani) (hwtest (impl .software) (impl .x86_shani) initial_state hwTestBlock) "HW_X86_SHANI".toList <|
    validateSaid (feat .x86_sse2) (hwtest (impl .software) (impl .x86_sse2) initial_state hwTestBlock) "HW_X86_SSE2".toList <|
    validateSaid (feat .arm_sha256) (hwtest (impl .software) (impl .arm_sha256) initial_state hwTestBlock) "HW_ARM_SHA256".toList []

/-- crypto_aes.c:170-198 `hwaccel_init`: the messages. -/
def aes_hwaccel_init_said (feat : AesHw → Bool) (mem : Option (List Bytes)) (setOk : Bool) (ossl : Ossl) (st : Option AesHw) : List Diag :=
  match st with
  | some _ => []
  | none =>
    validateSaid (feat .x86_aesni) (functest (x86_aesni_oneshot mem) aesTestcases) "HW_X86_AESNI".toList <|
    validateSaid (feat .arm_aes) (functest (arm_aes_oneshot mem) aesTestcases) "HW_ARM_AES".toList <|
    match functest (openssl_oneshot setOk ossl) aesTestcases with
    | .ok false => [.warn0 "OpenSSL gives incorrect AES values.".toList]
    | _ => []

/-- crypto_scrypt.c:210-235 `selectsmix`: the messages. -/
def selectsmix_said (szMax : Nat) (sse2Ok : Bool) (e1 e2 : ScEnv) (tf : Transform) (junk : HMAC_SHA256_CTX) (hbuf : Bytes) (impl : SmixImpl → SmixFn) : List Diag :=
  let last := match testsmix szMax e2 tf junk hbuf (impl .generic) with
    | .ok false => [Diag.warn0 "Generic scrypt code is broken - please report bug!".toList]
    | _ => []
  if sse2Ok then
    match testsmix szMax e1 tf junk hbuf (impl .sse2) with
    | .ok true => []
    | .ok false => .warn0 "Disabling broken SSE2 scrypt support - please report bug!".toList :: last
    | _ => []
  else last

/-- humansize.c:15-58 `humansize`: the messages. -/
def humansize_said (enc1 enc2 : Bool) (malloc : Nat → Option CStr) (size : W64) : Res (List Diag) :=
  humansize true size >>= fun t =>
    asprintf ⟨if enc1 then t else none, if enc2 then t else none, malloc⟩ >>= fun o =>
      .ok (if o.rc = -1 then [.warnp "asprintf".toList] else [])

end Scrypt
