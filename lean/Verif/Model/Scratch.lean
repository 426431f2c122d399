import Verif.Model.Sha256Hw
import Verif.Model.Entropy
/-
The hash functions with their working memory: sha256.c and crypto_entropy.c once more, this time with the scratch arrays and automatic variables that the
models in Sha256.lean and Entropy.lean leave out.  Every function takes the contents of its automatic variables at entry (whatever the stack contained) and
returns their contents at its return.  One scratch array serves several purposes (`tmp32` in every block function, `tmp8` for the padded key, the hashed key
and the inner hash), as in the code.
-/
namespace Scrypt

/-- insecure_memzero.c:7-15 `insecure_memzero_func`, on an array of bytes. -/
def insecure_memzero (buf : Bytes) (len : Nat) : Res Bytes := forLoop len (fun b i => wr b i 0) buf

/-- The same on an array of 32-bit words, `len` counting bytes (a multiple of four): the bytes taken four at a time. [insecure_memzero.c:7-15, as called at sha256.c:433, 466, 485, 537, 565, 602, 625, 697] -/
def memzero32 (buf : List W32) (len : Nat) : Res (List W32) := forLoop (len / 4) (fun b i => wr b i 0) buf

/-- `insecure_memzero(&ctx, sizeof(SHA256_CTX))` (8 words, a 64-bit count, 64 bytes; no padding). [insecure_memzero.c:7-15, as called at sha256.c:463, 484] -/
def memzeroCtx (ctx : SHA256_CTX) : Res SHA256_CTX :=
  memzero32 ctx.state 32 >>= fun s => insecure_memzero ctx.buf 64 >>= fun b => .ok ⟨s, 0, b⟩

/-- `insecure_memzero(&ctx, sizeof(HMAC_SHA256_CTX))` [insecure_memzero.c:7-15, as called at sha256.c:599, 624, 694-696] -/
def memzeroHctx (ctx : HMAC_SHA256_CTX) : Res HMAC_SHA256_CTX :=
  memzeroCtx ctx.ictx >>= fun i => memzeroCtx ctx.octx >>= fun o => .ok ⟨i, o⟩

/-- A pointer into the middle of an array splits it: the parts `[off, off+len)` and the rest. [The pointers `&tmp8[64]` at sha256.c:619, 656] -/
def splitAt3 (a : Bytes) (off len : Nat) : Res (Bytes × Bytes × Bytes) :=
  if off + len ≤ a.length then .ok (a.take off, (a.drop off).take len, a.drop (off + len)) else .ub

/-- sha256.c:232-321 `SHA256_Transform(state, block, W, S)` called with `W = &tmp32[0]`, `S = &tmp32[64]`: the new state and scratch.  SHA-NI and ARM
do not use the scratch. -/
def transformS (hw : ShaHw) (state : List W32) (block : Bytes) (tmp32 : List W32) : Res (List W32 × List W32) :=
  match hw with
  | .x86_shani => SHA256_Transform_shani state block >>= fun s => .ok (s, tmp32)
  | .arm_sha256 => SHA256_Transform_arm state block >>= fun s => .ok (s, tmp32)
  | .x86_sse2 =>
    rdSlice tmp32 0 64 >>= fun W => rdSlice tmp32 64 8 >>= fun S =>
      SHA256_Transform_sse2 state block W S >>= fun r => .ok (r.1, r.2.1 ++ r.2.2)
  | .software =>
    rdSlice tmp32 0 64 >>= fun W => rdSlice tmp32 64 8 >>= fun S =>
      SHA256_Transform_sw state block W S >>= fun r => .ok (r.1, r.2.1 ++ r.2.2)

/-- sha256.c:331-357 `SHA256_Pad` -/
def SHA256_PadS (hw : ShaHw) (ctx : SHA256_CTX) (tmp32 : List W32) : Res (SHA256_CTX × List W32) :=
  (if ctx.r < 56 then
      rdSlice PAD 0 (56 - ctx.r) >>= fun src => wrSlice ctx.buf ctx.r src >>= fun buf => .ok ({ ctx with buf := buf }, tmp32)
    else
      rdSlice PAD 0 (64 - ctx.r) >>= fun src => wrSlice ctx.buf ctx.r src >>= fun buf =>
        transformS hw ctx.state buf tmp32 >>= fun r =>
          wrSlice buf 0 (List.replicate 56 0) >>= fun buf => .ok ({ ctx with state := r.1, buf := buf }, r.2)) >>= fun c =>
  wrSlice c.1.buf 56 (be64enc c.1.count) >>= fun buf =>
    transformS hw c.1.state buf c.2 >>= fun r => .ok ({ c.1 with state := r.1, buf := buf }, r.2)

/-- sha256.c:411-416, `while (len >= 64)`; the first argument bounds the number of iterations, as in `updLoop`. -/
def updLoopS (hw : ShaHw) : Nat → List W32 → Bytes → List W32 → Res ((List W32 × Bytes) × List W32)
  | 0, state, src, t => .ok ((state, src), t)
  | fuel + 1, state, src, t =>
    if src.length ≥ 64 then transformS hw state (src.take 64) t >>= fun r => updLoopS hw fuel r.1 (src.drop 64) r.2
    else .ok ((state, src), t)

/-- sha256.c:383-421 `SHA256_Update_internal` -/
def SHA256_Update_internalS (hw : ShaHw) (ctx : SHA256_CTX) (src : Bytes) (tmp32 : List W32) : Res (SHA256_CTX × List W32) :=
  if src.length = 0 then .ok (ctx, tmp32)
  else if src.length < 64 - ctx.r then
    wrSlice ctx.buf ctx.r src >>= fun buf => .ok ({ ctx with count := ctx.count + (BitVec.ofNat 64 src.length <<< 3), buf := buf }, tmp32)
  else
    wrSlice ctx.buf ctx.r (src.take (64 - ctx.r)) >>= fun buf =>
      transformS hw ctx.state buf tmp32 >>= fun r =>
        updLoopS hw src.length r.1 (src.drop (64 - ctx.r)) r.2 >>= fun x =>
          wrSlice buf 0 x.1.2 >>= fun buf =>
            .ok ({ ctx with count := ctx.count + (BitVec.ofNat 64 src.length <<< 3), state := x.1.1, buf := buf }, x.2)

/-- sha256.c:424-434 `SHA256_Update` -/
def SHA256_UpdateS (hw : ShaHw) (ctx : SHA256_CTX) (src : Bytes) (tmp32 : List W32) : Res (SHA256_CTX × List W32) :=
  SHA256_Update_internalS hw ctx src tmp32 >>= fun r => memzero32 r.2 (4 * 72) >>= fun t => .ok (r.1, t)

/-- sha256.c:441-451 `SHA256_Final_internal` -/
def SHA256_Final_internalS (hw : ShaHw) (ctx : SHA256_CTX) (tmp32 : List W32) : Res ((Bytes × SHA256_CTX) × List W32) :=
  SHA256_PadS hw ctx tmp32 >>= fun r => be32enc_vect r.1.state 32 >>= fun d => .ok ((d, r.1), r.2)

/-- sha256.c:454-467 `SHA256_Final`: digest, context, scratch. -/
def SHA256_FinalS (hw : ShaHw) (ctx : SHA256_CTX) (tmp32 : List W32) : Res (Bytes × SHA256_CTX × List W32) :=
  SHA256_Final_internalS hw ctx tmp32 >>= fun r =>
    memzeroCtx r.1.2 >>= fun c => memzero32 r.2 (4 * 72) >>= fun t => .ok (r.1.1, c, t)

/-- sha256.c:473-486 `SHA256_Buf`: digest, context, scratch. -/
def SHA256_BufS (hw : ShaHw) (ctx : SHA256_CTX) (src : Bytes) (tmp32 : List W32) : Res (Bytes × SHA256_CTX × List W32) :=
  SHA256_Update_internalS hw (SHA256_Init ctx) src tmp32 >>= fun r =>
    SHA256_Final_internalS hw r.1 r.2 >>= fun r =>
      memzeroCtx r.1.2 >>= fun c => memzero32 r.2 (4 * 72) >>= fun t => .ok (r.1.1, c, t)

/-- sha256.c:513-515 and 520-522: `memset(pad, v, 64); for (i = 0; i < Klen; i++) pad[i] ^= K[i];` -/
def hmacPadS (v : Byte) (K pad : Bytes) : Res Bytes :=
  wrSlice pad 0 (List.replicate 64 v) >>= fun pad =>
    forLoop K.length (fun pad i => do
      let x ← rd pad i
      let k ← rd K i
      wr pad i (x ^^^ k)) pad

/-- sha256.c:493-523 `HMAC_SHA256_Init_internal`: context, tmp32, pad, khash. -/
def HMAC_SHA256_Init_internalS (hw : ShaHw) (ctx : HMAC_SHA256_CTX) (K : Bytes) (tmp32 : List W32) (pad khash : Bytes) :
    Res (HMAC_SHA256_CTX × List W32 × Bytes × Bytes) :=
  (if K.length > 64 then
      SHA256_Update_internalS hw (SHA256_Init ctx.ictx) K tmp32 >>= fun r =>
        SHA256_Final_internalS hw r.1 r.2 >>= fun r =>
          wrSlice khash 0 r.1.1 >>= fun khash => rdSlice khash 0 32 >>= fun K => .ok (r.1.2, K, khash, r.2)
    else .ok (ctx.ictx, K, khash, tmp32)) >>= fun x =>
  hmacPadS 0x36 x.2.1 pad >>= fun pad =>
    rdSlice pad 0 64 >>= fun p =>
      SHA256_Update_internalS hw (SHA256_Init x.1) p x.2.2.2 >>= fun i =>
        hmacPadS 0x5c x.2.1 pad >>= fun pad =>
          rdSlice pad 0 64 >>= fun p =>
            SHA256_Update_internalS hw (SHA256_Init ctx.octx) p i.2 >>= fun o => .ok (⟨i.1, o.1⟩, o.2, pad, x.2.2.1)

/-- sha256.c:526-540 `HMAC_SHA256_Init` -/
def HMAC_SHA256_InitS (hw : ShaHw) (ctx : HMAC_SHA256_CTX) (K : Bytes) (tmp32 : List W32) (pad khash : Bytes) :
    Res (HMAC_SHA256_CTX × List W32 × Bytes × Bytes) :=
  HMAC_SHA256_Init_internalS hw ctx K tmp32 pad khash >>= fun r =>
    memzero32 r.2.1 (4 * 72) >>= fun t => insecure_memzero r.2.2.2 32 >>= fun kh => insecure_memzero r.2.2.1 64 >>= fun p => .ok (r.1, t, p, kh)

/-- sha256.c:546-553 `HMAC_SHA256_Update_internal` -/
def HMAC_SHA256_Update_internalS (hw : ShaHw) (ctx : HMAC_SHA256_CTX) (src : Bytes) (tmp32 : List W32) : Res (HMAC_SHA256_CTX × List W32) :=
  SHA256_Update_internalS hw ctx.ictx src tmp32 >>= fun r => .ok ({ ctx with ictx := r.1 }, r.2)

/-- sha256.c:556-566 `HMAC_SHA256_Update` -/
def HMAC_SHA256_UpdateS (hw : ShaHw) (ctx : HMAC_SHA256_CTX) (src : Bytes) (tmp32 : List W32) : Res (HMAC_SHA256_CTX × List W32) :=
  HMAC_SHA256_Update_internalS hw ctx src tmp32 >>= fun r => memzero32 r.2 (4 * 72) >>= fun t => .ok (r.1, t)

/-- sha256.c:573-586 `HMAC_SHA256_Final_internal`: digest and context, tmp32, ihash. -/
def HMAC_SHA256_Final_internalS (hw : ShaHw) (ctx : HMAC_SHA256_CTX) (tmp32 : List W32) (ihash : Bytes) :
    Res ((Bytes × HMAC_SHA256_CTX) × List W32 × Bytes) :=
  SHA256_Final_internalS hw ctx.ictx tmp32 >>= fun i =>
    wrSlice ihash 0 i.1.1 >>= fun ihash =>
      rdSlice ihash 0 32 >>= fun h =>
        SHA256_Update_internalS hw ctx.octx h i.2 >>= fun o =>
          SHA256_Final_internalS hw o.1 o.2 >>= fun d => .ok ((d.1.1, ⟨i.1.2, d.1.2⟩), d.2, ihash)

/-- sha256.c:589-604 `HMAC_SHA256_Final`: digest, context, tmp32, ihash. -/
def HMAC_SHA256_FinalS (hw : ShaHw) (ctx : HMAC_SHA256_CTX) (tmp32 : List W32) (ihash : Bytes) :
    Res (Bytes × HMAC_SHA256_CTX × List W32 × Bytes) :=
  HMAC_SHA256_Final_internalS hw ctx tmp32 ihash >>= fun r =>
    memzeroHctx r.1.2 >>= fun c => memzero32 r.2.1 (4 * 72) >>= fun t => insecure_memzero r.2.2 32 >>= fun ih => .ok (r.1.1, c, t, ih)

/-- Calls of HMAC_SHA256_Init_internal with `pad = &tmp8[0]`, `khash = &tmp8[64]` (sha256.c:618, 655-656). -/
def hmacInitTmp8 (hw : ShaHw) (ctx : HMAC_SHA256_CTX) (K : Bytes) (tmp32 : List W32) (tmp8 : Bytes) : Res (HMAC_SHA256_CTX × List W32 × Bytes) :=
  splitAt3 tmp8 64 32 >>= fun s =>
    HMAC_SHA256_Init_internalS hw ctx K tmp32 s.1 s.2.1 >>= fun r => .ok (r.1, r.2.1, r.2.2.1 ++ r.2.2.2 ++ s.2.2)

/-- Calls of HMAC_SHA256_Final_internal with `ihash = &tmp8[0]` (sha256.c:620, 670, 680). -/
def hmacFinalTmp8 (hw : ShaHw) (ctx : HMAC_SHA256_CTX) (tmp32 : List W32) (tmp8 : Bytes) : Res ((Bytes × HMAC_SHA256_CTX) × List W32 × Bytes) :=
  splitAt3 tmp8 0 32 >>= fun s =>
    HMAC_SHA256_Final_internalS hw ctx tmp32 s.2.1 >>= fun r => .ok (r.1, r.2.1, s.1 ++ r.2.2 ++ s.2.2)

/-- sha256.c:611-627 `HMAC_SHA256_Buf`: digest, context, tmp32, tmp8. -/
def HMAC_SHA256_BufS (hw : ShaHw) (ctx : HMAC_SHA256_CTX) (K src : Bytes) (tmp32 : List W32) (tmp8 : Bytes) :
    Res (Bytes × HMAC_SHA256_CTX × List W32 × Bytes) :=
  hmacInitTmp8 hw ctx K tmp32 tmp8 >>= fun r =>
    HMAC_SHA256_Update_internalS hw r.1 src r.2.1 >>= fun u =>
      hmacFinalTmp8 hw u.1 u.2 r.2.2 >>= fun f =>
        memzeroHctx f.1.2 >>= fun c => memzero32 f.2.1 (4 * 72) >>= fun t => insecure_memzero f.2.2 96 >>= fun t8 => .ok (f.1.1, c, t, t8)

/-- The automatic variables of PBKDF2_SHA256 that hold secrets (sha256.c:637-644; `ivec` holds the block number). -/
structure PbLocals where
  Phctx : HMAC_SHA256_CTX
  PShctx : HMAC_SHA256_CTX
  hctx : HMAC_SHA256_CTX
  tmp32 : List W32
  tmp8 : Bytes
  U : Bytes
  T : Bytes

/-- sha256.c:668-670 and 678-680: `memcpy(&hctx, &from, …)`, feed `x`, write the HMAC to `U`. -/
def pbPrf (hw : ShaHw) (l : PbLocals) (src : HMAC_SHA256_CTX) (x : Bytes) : Res PbLocals :=
  HMAC_SHA256_Update_internalS hw src x l.tmp32 >>= fun u =>
    hmacFinalTmp8 hw u.1 u.2 l.tmp8 >>= fun f =>
      wrSlice l.U 0 f.1.1 >>= fun U => .ok { l with hctx := f.1.2, tmp32 := f.2.1, tmp8 := f.2.2, U := U }

/-- sha256.c:676-685, one iteration of the loop over j. -/
def pbInnerS (hw : ShaHw) (l : PbLocals) : Res PbLocals :=
  rdSlice l.U 0 32 >>= fun x =>
    pbPrf hw l l.Phctx x >>= fun l =>
      forLoop 32 (fun T k => do
        let t ← rd T k
        let u ← rd l.U k
        wr T k (t ^^^ u)) l.T >>= fun T => .ok { l with T := T }

/-- sha256.c:663-691, one block. -/
def pbBlockS (hw : ShaHw) (c dkLen : Nat) (s : Bytes × PbLocals) (i : Nat) : Res (Bytes × PbLocals) :=
  pbPrf hw s.2 s.2.PShctx (be32enc (BitVec.ofNat 32 (i + 1))) >>= fun l =>
    rdSlice l.U 0 32 >>= fun x =>
      wrSlice l.T 0 x >>= fun T =>
        forLoop (c - 1) (fun l _ => pbInnerS hw l) { l with T := T } >>= fun l =>
          rdSlice l.T 0 (if dkLen - i * 32 > 32 then 32 else dkLen - i * 32) >>= fun src =>
            wrSlice s.1 (i * 32) src >>= fun buf => .ok (buf, l)

/-- sha256.c:693-700, the cleaning of the stack. -/
def pbClean (l : PbLocals) : Res PbLocals :=
  memzeroHctx l.Phctx >>= fun a => memzeroHctx l.PShctx >>= fun b => memzeroHctx l.hctx >>= fun c => memzero32 l.tmp32 (4 * 72) >>= fun t =>
    insecure_memzero l.tmp8 96 >>= fun t8 => insecure_memzero l.U 32 >>= fun U => insecure_memzero l.T 32 >>= fun T => .ok ⟨a, b, c, t, t8, U, T⟩

/-- sha256.c:634-701 `PBKDF2_SHA256`: the output buffer and the automatic variables. -/
def PBKDF2_SHA256S (hw : ShaHw) (l : PbLocals) (passwd salt : Bytes) (c : Nat) (buf : Bytes) (dkLen : Nat) : Res (Bytes × PbLocals) :=
  cassert (dkLen ≤ 32 * (2 ^ 32 - 1)) >>= fun _ =>
    hmacInitTmp8 hw l.Phctx passwd l.tmp32 l.tmp8 >>= fun r =>
      HMAC_SHA256_Update_internalS hw r.1 salt r.2.1 >>= fun u =>
        forLoop ((dkLen + 31) / 32) (pbBlockS hw c dkLen) (buf, { l with Phctx := r.1, PShctx := u.1, tmp32 := u.2, tmp8 := r.2.2 }) >>= fun s =>
          pbClean s.2 >>= fun l => .ok (s.1, l)

/-! ### The random generator -/

/-- What the stack contains when the generator calls the hash functions: the contents of their automatic variables at entry.  Simplification: the same for
every call. [The automatic variables of sha256.c:425-626 as entered from crypto_entropy.c:97-200] -/
structure HStk where
  tmp32 : List W32
  pad : Bytes
  khash : Bytes
  ihash : Bytes
  tmp8 : Bytes
  hctx : HMAC_SHA256_CTX

/-- crypto_entropy.c:107-114 and 118-126, one mixing stage: K <- HMAC(K, V || b || data), V <- HMAC(K, V), on (K, Vx, ctx). -/
def drbgStageS (hw : ShaHw) (k : HStk) (b : Byte) (data : Bytes) (s : Bytes × Bytes × HMAC_SHA256_CTX) : Res (Bytes × Bytes × HMAC_SHA256_CTX) :=
  wr s.2.1 32 b >>= fun Vx =>
    rdSlice s.1 0 32 >>= fun key =>
      HMAC_SHA256_InitS hw s.2.2 key k.tmp32 k.pad k.khash >>= fun c =>
        rdSlice Vx 0 33 >>= fun v =>
          HMAC_SHA256_UpdateS hw c.1 v k.tmp32 >>= fun c =>
            HMAC_SHA256_UpdateS hw c.1 data k.tmp32 >>= fun c =>
              HMAC_SHA256_FinalS hw c.1 k.tmp32 k.ihash >>= fun d =>
                wrSlice s.1 0 d.1 >>= fun K =>
                  rdSlice K 0 32 >>= fun key =>
                    rdSlice Vx 0 32 >>= fun v =>
                      HMAC_SHA256_BufS hw k.hctx key v k.tmp32 k.tmp8 >>= fun h => wrSlice Vx 0 h.1 >>= fun Vx => .ok (K, Vx, d.2.1)

/-- crypto_entropy.c:96-137 `update`: the state, and its automatic variables K, Vx and ctx at return. -/
def drbgUpdateS (hw : ShaHw) (k : HStk) (st : Drbg) (data : Bytes) (K Vx : Bytes) (ctx : HMAC_SHA256_CTX) : Res (Drbg × Bytes × Bytes × HMAC_SHA256_CTX) :=
  wrSlice K 0 st.Key >>= fun K =>
    wrSlice Vx 0 st.V >>= fun Vx =>
      drbgStageS hw k 0x00 data (K, Vx, ctx) >>= fun s =>
        (if data.length ≠ 0 then drbgStageS hw k 0x01 data s else .ok s) >>= fun s =>
          rdSlice s.1 0 32 >>= fun key =>
            rdSlice s.2.1 0 32 >>= fun v =>
              insecure_memzero s.1 32 >>= fun K => insecure_memzero s.2.1 33 >>= fun Vx => .ok ({ st with Key := key, V := v }, K, Vx, s.2.2)

/-- crypto_entropy.c:43-55 `update_from_rdrand`: the state, and its `buf` at return (`none`: RDRAND is not there or failed; nothing was mixed in). -/
def update_from_rdrandS (hw : ShaHw) (k : HStk) (has : Bool) (st : Drbg) (answers : List (Option W32)) (K Vx : Bytes) (ctx : HMAC_SHA256_CTX) :
    Res (Drbg × Option Bytes) :=
  if has then
    match generate_seed_rdrand answers 8 with
    | none => .ok (st, none)
    | some b => drbgUpdateS hw k st b K Vx ctx >>= fun r => insecure_memzero b 32 >>= fun b => .ok (r.1, some b)
  else .ok (st, none)

/-- The rest of `instantiate` (crypto_entropy.c:75-90) and of `reseed` (crypto_entropy.c:151-168) after a successful entropy_read of `n` bytes, without the
counter: the state, and `seed_material` and RDRAND's `buf` at return. -/
def seedS (hw : ShaHw) (k : HStk) (has : Bool) (st : Drbg) (seed : Bytes) (n : Nat) (answers : List (Option W32)) (K Vx : Bytes) (ctx : HMAC_SHA256_CTX) :
    Res (Drbg × Bytes × Option Bytes) :=
  rdSlice seed 0 n >>= fun data =>
    drbgUpdateS hw k st data K Vx ctx >>= fun r =>
      update_from_rdrandS hw k has r.1 answers K Vx ctx >>= fun x => insecure_memzero seed n >>= fun seed => .ok (x.1, seed, x.2)

/-- crypto_entropy.c:62-90 `instantiate`: success, the state, `seed_material` and RDRAND's `buf` at return. -/
def instantiateS (hw : ShaHw) (k : HStk) (has : Bool) (e : SeedEnv) (st : Drbg) (K Vx : Bytes) (ctx : HMAC_SHA256_CTX) :
    Res (Option (Bool × Drbg × Bytes × Option Bytes)) :=
  entropy_read e.os ((List.range 48).map e.stk) 48 >>= fun r =>
    match r with
    | none => .ok none
    | some r =>
      if !r.ok then .ok (some (false, st, r.buf, none))
      else
        seedS hw k has { st with Key := List.replicate 32 0x00, V := List.replicate 32 0x01, reseed_counter := 1 } r.buf 48 e.rdrand K Vx ctx >>= fun x =>
          .ok (some (true, x))

/-- crypto_entropy.c:143-169 `reseed`: success, the state, `seed_material` and RDRAND's `buf` at return. -/
def reseedS (hw : ShaHw) (k : HStk) (has : Bool) (e : SeedEnv) (st : Drbg) (K Vx : Bytes) (ctx : HMAC_SHA256_CTX) :
    Res (Option (Bool × Drbg × Bytes × Option Bytes)) :=
  entropy_read e.os ((List.range 32).map e.stk) 32 >>= fun r =>
    match r with
    | none => .ok none
    | some r =>
      if !r.ok then .ok (some (false, st, r.buf, none))
      else seedS hw k has st r.buf 32 e.rdrand K Vx ctx >>= fun x => .ok (some (true, { x.1 with reseed_counter := 1 }, x.2))

end Scrypt
