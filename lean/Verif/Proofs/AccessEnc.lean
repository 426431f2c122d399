import Verif.Model.AccessEnc
import Verif.Proofs.AccessHash
import Verif.Proofs.Overlap
/-
Encrypting and decrypting with a log: forgetting the log gives the original, and two computations on data of the same lengths make the same accesses.
-/
namespace Scrypt
open Spec Logged

/-! ### Forgetting the log -/

theorem erase_move {α : Type} (a : Arr) (off : Nat) (x : Logged α) : erase (move a off x) = erase x := by
  cases x <;> rfl

theorem q_loadT_erase (a : Arr) (m : Bytes) (off : Nat) : erase (q_loadT a m off) = q_load m off := erase_log _ _

theorem mk128_aesniT_erase (rk : List Bytes) (i : Nat) (c : Byte) : erase (MKRKEY128_aesniT rk i c) = MKRKEY128_aesni rk i c := by
  unfold MKRKEY128_aesniT MKRKEY128_aesni
  simp only [erase_bind, rdT_erase, wrT_erase]

theorem mk256_aesniT_erase (rk : List Bytes) (i s : Nat) (c : Byte) : erase (MKRKEY256_aesniT rk i s c) = MKRKEY256_aesni rk i s c := by
  unfold MKRKEY256_aesniT MKRKEY256_aesni
  simp only [erase_bind, rdT_erase, wrT_erase]

theorem mk128_armT_erase (rk : List Bytes) (i : Nat) (c : W32) : erase (MKRKEY128_armT rk i c) = MKRKEY128_arm rk i c := by
  unfold MKRKEY128_armT MKRKEY128_arm
  simp only [erase_bind, rdT_erase, wrT_erase]

theorem mk256_armT_erase (rk : List Bytes) (i : Nat) (c : W32) : erase (MKRKEY256_armT rk i c) = MKRKEY256_arm rk i c := by
  unfold MKRKEY256_armT MKRKEY256_arm
  simp only [erase_bind, rdT_erase, wrT_erase]

theorem expand_aesniT_erase (mem : Option (List Bytes)) (key : Bytes) (len : Nat) :
    erase (crypto_aes_key_expand_aesniT mem key len) = crypto_aes_key_expand_aesni mem key len := by
  unfold crypto_aes_key_expand_aesniT crypto_aes_key_expand_aesni
  cases mem with
  | none => rfl
  | some rk =>
    simp only [erase_ite, erase_bind, crypto_aes_key_expand_128_aesniT, crypto_aes_key_expand_128_aesni, crypto_aes_key_expand_256_aesniT,
      crypto_aes_key_expand_256_aesni, q_loadT_erase, wrT_erase, mk128_aesniT_erase, mk256_aesniT_erase, erase_pure, Res.pure_eq]

theorem expand_armT_erase (mem : Option (List Bytes)) (key : Bytes) (len : Nat) :
    erase (crypto_aes_key_expand_armT mem key len) = crypto_aes_key_expand_arm mem key len := by
  unfold crypto_aes_key_expand_armT crypto_aes_key_expand_arm
  cases mem with
  | none => rfl
  | some rk =>
    simp only [erase_ite, erase_bind, crypto_aes_key_expand_128_armT, crypto_aes_key_expand_128_arm, crypto_aes_key_expand_256_armT,
      crypto_aes_key_expand_256_arm, q_loadT_erase, wrT_erase, mk128_armT_erase, mk256_armT_erase, erase_pure, Res.pure_eq]

theorem block_aesniT_erase (inp : Bytes) (key : HwKey) :
    erase (crypto_aes_encrypt_block_aesni_m128iT inp key) = crypto_aes_encrypt_block_aesni_m128i inp key := by
  unfold crypto_aes_encrypt_block_aesni_m128iT crypto_aes_encrypt_block_aesni_m128i
  simp only [erase_bind, erase_ite, rdT_erase, erase_pure, Res.pure_eq]
  split <;> simp only [Res.bind_ok, bind_assoc]

theorem block_armT_erase (inp : Bytes) (key : HwKey) :
    erase (crypto_aes_encrypt_block_arm_u8T inp key) = crypto_aes_encrypt_block_arm_u8 inp key := by
  unfold crypto_aes_encrypt_block_arm_u8T crypto_aes_encrypt_block_arm_u8
  simp only [erase_bind, erase_ite, rdT_erase, erase_pure, Res.pure_eq]
  split <;> simp only [Res.bind_ok, bind_assoc]

theorem expandT_erase (hw : AesHw) (env : AesEnv) (key : Bytes) (len : Nat) :
    erase (crypto_aes_key_expandT hw env key len) = crypto_aes_key_expand hw env key len := by
  unfold crypto_aes_key_expandT crypto_aes_key_expand
  cases hw <;> simp only [erase_bind, erase_ite, erase_log, expand_aesniT_erase, expand_armT_erase, rdSliceT_erase, erase_pure, Res.pure_eq]

theorem encrypt_blockT_erase (a b : Arr) (hw : AesHw) (ossl : Ossl) (inp : Bytes) (key : AesKey) :
    erase (crypto_aes_encrypt_blockT a b hw ossl inp key) = crypto_aes_encrypt_block hw ossl inp key := by
  unfold crypto_aes_encrypt_blockT crypto_aes_encrypt_block
  cases hw <;> cases key <;>
    simp only [erase_bind, erase_log, crypto_aes_encrypt_block_aesniT, crypto_aes_encrypt_block_aesni, crypto_aes_encrypt_block_armT,
      crypto_aes_encrypt_block_arm, q_loadT_erase, block_aesniT_erase, block_armT_erase, res_bind_id]

theorem bytectrT_erase (w : Bool) : erase (bytectrT w) = .ok () := erase_log _ _

theorem generateT_erase (hw : AesHw) (ossl : Ossl) (s : CtrStream) : erase (cipherblock_generateT hw ossl s) = cipherblock_generate hw ossl s := by
  unfold cipherblock_generateT cipherblock_generate
  simp only [erase_bind, erase_ite, erase_log, bytectrT_erase, rdT_erase, wrT_erase, wrSliceT_erase, encrypt_blockT_erase, erase_pure, Res.pure_eq, Res.bind_ok]
  congr 1; funext _; congr 1; funext b; congr 1; funext p; congr 1; funext b
  split <;> simp only [Res.bind_ok]

theorem useT_erase (a : Arr) (s : CtrStream) (c : MCursor) (n bm : Nat) : erase (cipherblock_useT a s c n bm) = cipherblock_useM s c n bm := by
  unfold cipherblock_useT cipherblock_useM
  simp only [erase_bind, erase_forLoopT, bytectrT_erase, rdT_erase, wrT_erase, erase_pure, Res.pure_eq, Res.bind_ok]

theorem preT_erase (a : Arr) (s : CtrStream) (c : MCursor) : erase (pre_wholeblockT a s c) = pre_wholeblockM s c := by
  unfold pre_wholeblockT pre_wholeblockM
  simp only [erase_bind, erase_ite, bytectrT_erase, useT_erase, erase_pure, Res.pure_eq, Res.bind_ok]

theorem postT_erase (a : Arr) (hw : AesHw) (ossl : Ossl) (s : CtrStream) (c : MCursor) :
    erase (post_wholeblockT a hw ossl s c) = post_wholeblockM hw ossl s c := by
  unfold post_wholeblockT post_wholeblockM
  simp only [erase_bind, erase_ite, generateT_erase, useT_erase, erase_pure, Res.pure_eq]

theorem loopT_erase (a : Arr) (hw : AesHw) (ossl : Ossl) : ∀ (fuel : Nat) (s : CtrStream) (c : MCursor),
    erase (portable_loopT a hw ossl fuel s c) = portable_loopM hw ossl fuel s c
  | 0, s, c => by unfold portable_loopT portable_loopM; simp only [erase_ite, erase_log, erase_pure, Res.pure_eq]
  | fuel + 1, s, c => by
    unfold portable_loopT portable_loopM
    simp only [erase_bind, erase_ite, generateT_erase, useT_erase, loopT_erase a hw ossl fuel, erase_pure, Res.pure_eq]

theorem portableT_erase (a : Arr) (hw : AesHw) (ossl : Ossl) (s : CtrStream) (c : MCursor) :
    erase (portable_streamT a hw ossl s c) = portable_streamM hw ossl s c := by
  unfold portable_streamT portable_streamM
  simp only [erase_bind, erase_ite, preT_erase, loopT_erase, postT_erase, erase_pure, Res.pure_eq]

theorem rdSlice_all_of {α : Type} (m : List α) : rdSlice m 0 m.length = .ok m := by
  rw [rdSlice_sl (by omega)]
  simp [sl]

theorem aesni_wholeT_erase (a : Arr) (junk : Bytes) (s : CtrStream) (c : MCursor) :
    erase (aesni_wholeblocksT a junk s c) = aesni_wholeblocksM junk s c := by
  unfold aesni_wholeblocksT aesni_wholeblocksM
  obtain ⟨key, ctr, buf, pblk⟩ := s
  cases key <;> simp only [Res.pure_eq, Res.bind_ok, erase_log]
  · rfl
  · simp only [erase_bind, erase_ite, erase_log, bytectrT_erase, erase_forLoopT, aesni_stepT, block_aesniT_erase, q_loadT_erase, wrSliceT_erase, rdSliceT_erase,
      rdSlice_all_of, erase_pure, Res.bind_ok]
  · rfl

theorem arm_wholeT_erase (a : Arr) (s : CtrStream) (c : MCursor) : erase (arm_wholeblocksT a s c) = arm_wholeblocksM s c := by
  unfold arm_wholeblocksT arm_wholeblocksM
  obtain ⟨key, ctr, buf, pblk⟩ := s
  cases key <;> simp only [Res.pure_eq, Res.bind_ok, erase_log]
  · rfl
  · rfl
  · simp only [erase_bind, erase_ite, erase_log, bytectrT_erase, erase_forLoopT, arm_stepT, block_armT_erase, q_loadT_erase, wrSliceT_erase, rdSliceT_erase,
      rdSlice_all_of, erase_pure, Res.bind_ok]

theorem aesni_streamT_erase (a : Arr) (hw : AesHw) (ossl : Ossl) (junk : Bytes) (s : CtrStream) (c : MCursor) :
    erase (aesni_streamT a hw ossl junk s c) = aesni_streamM hw ossl junk s c := by
  unfold aesni_streamT aesni_streamM aesni_whole_if16T aesni_whole_if16M
  simp only [erase_bind, erase_ite, preT_erase, aesni_wholeT_erase, postT_erase, erase_pure, Res.pure_eq]

theorem arm_streamT_erase (a : Arr) (hw : AesHw) (ossl : Ossl) (s : CtrStream) (c : MCursor) :
    erase (arm_streamT a hw ossl s c) = arm_streamM hw ossl s c := by
  unfold arm_streamT arm_streamM arm_whole_if16T arm_whole_if16M
  simp only [erase_bind, erase_ite, preT_erase, arm_wholeT_erase, postT_erase, erase_pure, Res.pure_eq]

theorem streamT_erase (a : Arr) (hw : AesHw) (ossl : Ossl) (junk : Bytes) (s : CtrStream) (mem : Bytes) (inp outp n : Nat) :
    erase (crypto_aesctr_streamT a hw ossl junk s mem inp outp n) = crypto_aesctr_streamM hw ossl junk s mem inp outp n := by
  unfold crypto_aesctr_streamT crypto_aesctr_streamM
  simp only [erase_bind, erase_ite, aesni_streamT_erase, arm_streamT_erase, portableT_erase, erase_pure, Res.pure_eq]
  split
  · rfl
  · split <;> rfl

theorem init2T_erase (s : CtrStream) (key : Option AesKey) (nonce : W64) : erase (crypto_aesctr_init2T s key nonce) = crypto_aesctr_init2 s key nonce := by
  unfold crypto_aesctr_init2T crypto_aesctr_init2
  simp only [erase_bind, bytectrT_erase, wrT_erase, wrSliceT_erase, erase_pure, Res.pure_eq, Res.bind_ok]
  rfl

theorem aesOpenT_erase (sys : EncSys) (dk : Bytes) : erase (aesOpenT sys dk) = aesOpen sys dk := by
  unfold aesOpenT aesOpen
  rw [erase_bind, expandT_erase]
  congr 1
  funext k
  cases k with
  | none => rfl
  | some k =>
    show erase _ = _
    simp only []
    rw [erase_bind]
    unfold crypto_aesctr_initT crypto_aesctr_init
    cases sys.ctr with
    | none => simp only [erase_pure, Res.pure_eq, Res.bind_ok, erase_log]
    | some s => simp only [erase_bind, init2T_erase, erase_pure, Res.pure_eq, bind_assoc, Res.bind_ok]

section
variable {hw : ShaHw}

theorem tfE (hw : ShaHw) : TfErases (shaTransformT hw) (shaTransform hw) := shaTransformT_erase hw

theorem macFinalT_erase (ctx : HMAC_SHA256_CTX) :
    erase (macFinalT hw ctx) = (HMAC_SHA256_Final (shaTransform hw) ctx >>= fun r => (.ok r.1 : Res Bytes)) := by
  unfold macFinalT HMAC_SHA256_Final
  simp only [erase_bind, erase_log, HFinalT_erase (tfE hw), Res.pure_eq, bind_assoc, Res.bind_ok]

theorem macInitT_erase (junk : HMAC_SHA256_CTX) (dk : Bytes) :
    erase (macInitT hw junk dk) = (rdSlice dk 32 32 >>= fun k => HMAC_SHA256_Init (shaTransform hw) junk k) := by
  unfold macInitT
  simp only [erase_bind, erase_log, erase_move, HInitT_erase (tfE hw)]

theorem macUpdateT_erase (a : Arr) (off : Nat) (ctx : HMAC_SHA256_CTX) (x : Bytes) :
    erase (macUpdateT hw a off ctx x) = HMAC_SHA256_Update (shaTransform hw) ctx x := by
  unfold macUpdateT
  simp only [erase_move, HUpdateT_erase (tfE hw)]

theorem verifyT_erase (a : Arr) (ao : Nat) (b : Arr) (bo : Nat) (x y : Bytes) : ∀ (n : Nat),
    erase (crypto_verify_bytesT a ao b bo x y n) = (crypto_verify_bytes x y n >>= fun v => (.ok v.1 : Res Byte)) := by
  unfold crypto_verify_bytesT crypto_verify_bytes
  intro n
  rw [erase_forLoopT]
  induction n with
  | zero => rfl
  | succ n ih =>
    rw [forLoop_succ, forLoop_succ, ih, bind_assoc, bind_assoc]
    congr 1
    funext st
    simp only [erase_bind, erase_log, erase_pure, Res.pure_eq, bind_assoc, Res.bind_ok]

variable {sys : EncSys} (htf : sys.tf = shaTransform hw)
include htf

theorem headerSumT_erase (h : Bytes) : erase (headerSumT hw sys.junkSha h) = headerSum sys h := by
  unfold headerSumT headerSum SHA256_Final
  simp only [erase_bind, erase_log, InitT_erase, UpdateT_erase (tfE hw), FinalT_erase (tfE hw), Res.pure_eq, Res.bind_ok, bind_assoc, htf]

theorem headerSigT_erase (a : Arr) (off : Nat) (dk h : Bytes) : erase (headerSigT hw sys.junkHmac dk a off h) = headerSig sys h dk := by
  unfold headerSigT headerSig
  simp only [erase_bind, erase_log, macInitT_erase, macUpdateT_erase, macFinalT_erase, htf, bind_assoc]

theorem bufTagT_erase (a : Arr) (off : Nat) (dk x : Bytes) : erase (bufTagT hw sys.junkHmac2 dk a off x) = bufTag sys dk x := by
  unfold bufTagT bufTag
  simp only [erase_bind, macInitT_erase, macUpdateT_erase, macFinalT_erase, htf, bind_assoc]

theorem writeHeaderT_erase (P : EncParams) (salt dk : Bytes) : erase (writeHeaderT sys hw P salt dk) = writeHeader sys P salt dk := by
  unfold writeHeaderT writeHeader writeHeader48
  simp only [erase_bind, wrSliceT_erase, wrT_erase, rdSliceT_erase, headerSumT_erase htf, headerSigT_erase htf, bind_assoc]

theorem checkSigT_erase (a : Arr) (off : Nat) (header : Bytes) (P : EncParams) (err : List Msg) (o : ScOut) (st : Option SmixImpl) :
    erase (checkSigT sys hw a off header P err o st) = checkSig sys header P err o st := by
  unfold checkSigT checkSig
  simp only [erase_bind, erase_log, headerSigT_erase htf, verifyT_erase, erase_pure, Res.bind_ok, bind_assoc]
  congr 1; funext d; congr 1; funext sig; congr 1; funext v
  split <;> rfl

theorem encBufT_erase (mem : Bytes) (inp n outp : Nat) (s : SetupOut) : erase (encBufBodyT sys hw mem inp n outp s) = encBufBodyM sys mem inp n outp s := by
  unfold encBufBodyT encBufBodyM
  simp only [erase_bind, rdSliceT_erase, wrSliceT_erase, aesOpenT_erase]
  congr 1; funext h; congr 1; funext m; congr 1; funext a
  cases a.1.2 with
  | none => exact erase_log _ _
  | some st =>
    simp only [erase_bind, erase_log, streamT_erase, bufTagT_erase htf, rdSliceT_erase, wrSliceT_erase, Res.bind_ok]

theorem decBufT_erase (mem : Bytes) (inp n outp outlen : Nat) (s : SetupOut) :
    erase (decBufBodyT sys hw mem inp n outp outlen s) = decBufBodyM sys mem inp n outp outlen s := by
  unfold decBufBodyT decBufBodyM
  simp only [erase_bind, aesOpenT_erase]
  congr 1; funext a
  cases a.1.2 with
  | none => exact erase_log _ _
  | some st => simp only [erase_bind, erase_log, streamT_erase, bufTagT_erase htf, verifyT_erase, Res.bind_ok, bind_assoc]

theorem encLoopT_erase : ∀ (fuel : Nat) (s : CtrStream) (hctx : HMAC_SHA256_CTX) (buf : Bytes) (inf : List Bytes) (outf : OutFile),
    erase (encLoopA sys hw fuel s hctx buf inf outf) = encLoopM sys fuel s hctx buf inf outf
  | 0, _, _, _, _, _ => rfl
  | fuel + 1, s, hctx, buf, inf, outf => by
    unfold encLoopA encLoopM
    simp only [erase_ite, erase_bind, erase_log, streamT_erase, wrSliceT_erase, macUpdateT_erase, Res.bind_ok, htf, encLoopT_erase fuel, erase_pure, Res.pure_eq]

theorem decLoopT_erase : ∀ (fuel : Nat) (s : CtrStream) (hctx : HMAC_SHA256_CTX) (buf : Bytes) (buflen : Nat) (inf : List Bytes) (outf : OutFile),
    erase (decLoopA sys hw fuel s hctx buf buflen inf outf) = decLoopM sys fuel s hctx buf buflen inf outf
  | 0, _, _, _, _, _, _ => rfl
  | fuel + 1, s, hctx, buf, buflen, inf, outf => by
    unfold decLoopA decLoopM
    simp only [erase_ite, erase_bind, erase_log, streamT_erase, wrSliceT_erase, rdSliceT_erase, macUpdateT_erase, Res.bind_ok, htf, decLoopT_erase fuel, erase_pure,
      Res.pure_eq]

theorem encFileEndT_erase (inf : InFile) (s : SetupOut) (tr : List Ev) (l : LoopEnd) :
    erase (encFileEndA sys hw inf s tr l) = encFileEnd sys inf s tr l := by
  unfold encFileEndA encFileEnd
  simp only [erase_ite, erase_bind, erase_log, rdSliceT_erase, macFinalT_erase, Res.bind_ok, bind_assoc, htf]

theorem decFileEndT_erase (err : Bool) (tr : List Ev) (l : LoopEnd) : erase (decFileEndA sys hw err tr l) = decFileEnd sys err tr l := by
  unfold decFileEndA decFileEnd
  simp only [erase_ite, erase_bind, erase_log, macFinalT_erase, verifyT_erase, Res.bind_ok, bind_assoc, htf, erase_pure, Res.pure_eq]

theorem encFileT_erase (inf : InFile) (outf : OutFile) (s : SetupOut) : erase (encFileBodyA sys hw inf outf s) = encFileBodyM sys inf outf s := by
  unfold encFileBodyA encFileBodyM
  simp only [erase_bind, erase_log, erase_ite, macInitT_erase, macUpdateT_erase, aesOpenT_erase, bind_assoc, htf, Res.bind_ok]
  congr 1; funext k; congr 1; funext c; congr 1; funext h; congr 1; funext c2
  split
  · rfl
  · congr 1; funext a
    cases a.1.2 with
    | none => exact erase_log _ _
    | some st => simp only [erase_bind, encLoopT_erase htf, encFileEndT_erase htf]

theorem decCopyT_erase (c : Cookie) (outf : OutFile) : erase (scryptdec_file_copyA sys hw c outf) = scryptdec_file_copyM sys c outf := by
  unfold scryptdec_file_copyA scryptdec_file_copyM
  simp only [erase_bind, erase_log, macInitT_erase, macUpdateT_erase, aesOpenT_erase, bind_assoc, htf]
  congr 1; funext k; congr 1; funext x; congr 1; funext h; congr 1; funext c2; congr 1; funext a
  cases a.1.2 with
  | none => rfl
  | some st => simp only [erase_bind, decLoopT_erase htf, decFileEndT_erase htf]

end

/-! ### Two computations on data of the same lengths -/

theorem same_move {α β : Type} {R : α → β → Prop} {x : Logged α} {y : Logged β} (a : Arr) (off : Nat) (h : SameTr R x y) :
    SameTr R (move a off x) (move a off y) := by
  intro p u q v e1 e2
  cases x with
  | ok c =>
    cases y with
    | ok d =>
      obtain ⟨h1, h2⟩ := Prod.mk.inj (Res.ok.inj e1)
      obtain ⟨h3, h4⟩ := Prod.mk.inj (Res.ok.inj e2)
      subst h1 h2 h3 h4
      obtain ⟨e, r⟩ := h c.1 c.2 d.1 d.2 rfl rfl
      exact ⟨by rw [e], r⟩
    | ub => cases e2
    | abort => cases e2
  | ub => cases e1
  | abort => cases e1

theorem same_ub {α β : Type} {R : α → β → Prop} {t : List Acc} {y : Logged β} : SameTr R (log t (.ub : Res α)) y := by
  intro a u b v e1 e2
  cases e1

theorem same_q_loadT (a : Arr) (m m' : Bytes) (o : Nat) : SameTr Anyhow (q_loadT a m o) (q_loadT a m' o) := same_log rfl fun _ _ _ _ => trivial

macro "enc_op" : tactic => `(tactic| first | same_op | exact same_q_loadT _ _ _ _)
macro "enc_ops" : tactic => `(tactic| repeat' first | enc_op | refine same_bind (R := Anyhow) ?_ fun _ _ _ => ?_)

theorem same_mk128_aesniT (r r' : List Bytes) (i : Nat) (c : Byte) : SameTr Anyhow (MKRKEY128_aesniT r i c) (MKRKEY128_aesniT r' i c) := by
  unfold MKRKEY128_aesniT; enc_ops
theorem same_mk256_aesniT (r r' : List Bytes) (i s : Nat) (c : Byte) : SameTr Anyhow (MKRKEY256_aesniT r i s c) (MKRKEY256_aesniT r' i s c) := by
  unfold MKRKEY256_aesniT; enc_ops
theorem same_mk128_armT (r r' : List Bytes) (i : Nat) (c : W32) : SameTr Anyhow (MKRKEY128_armT r i c) (MKRKEY128_armT r' i c) := by
  unfold MKRKEY128_armT; enc_ops
theorem same_mk256_armT (r r' : List Bytes) (i : Nat) (c : W32) : SameTr Anyhow (MKRKEY256_armT r i c) (MKRKEY256_armT r' i c) := by
  unfold MKRKEY256_armT; enc_ops

macro "key_bind" : tactic => `(tactic| refine same_bind (R := Anyhow) ?_ fun _ _ _ => ?_)
macro "key_128_aesni" : tactic => `(tactic| repeat' first | exact same_mk128_aesniT _ _ _ _ | key_bind)
macro "key_256_aesni" : tactic => `(tactic| repeat' first | exact same_mk256_aesniT _ _ _ _ _ | key_bind)
macro "key_128_arm" : tactic => `(tactic| repeat' first | exact same_mk128_armT _ _ _ _ | key_bind)
macro "key_256_arm" : tactic => `(tactic| repeat' first | exact same_mk256_armT _ _ _ _ | key_bind)

/-- Two expanded keys of the same kind and with the same number of rounds. -/
def KeyLike : AesKey → AesKey → Prop
  | .ossl _, .ossl _ => True
  | .aesni k, .aesni k' => k.nr = k'.nr
  | .arm k, .arm k' => k.nr = k'.nr
  | _, _ => False

/-- Both missing or both there and related. -/
def OptLike {α β : Type} (R : α → β → Prop) : Option α → Option β → Prop
  | none, none => True
  | some a, some b => R a b
  | _, _ => False

theorem same_expand_aesniT (mem : Option (List Bytes)) (k k' : Bytes) (len : Nat) :
    SameTr (OptLike fun x x' : HwKey => x.nr = x'.nr) (crypto_aes_key_expand_aesniT mem k len) (crypto_aes_key_expand_aesniT mem k' len) := by
  unfold crypto_aes_key_expand_aesniT
  cases mem with
  | none => exact same_pure trivial
  | some rk =>
    simp only []
    split
    · refine same_bind (R := Anyhow) ?_ fun _ _ _ => same_pure rfl
      unfold crypto_aes_key_expand_128_aesniT
      refine same_bind (same_q_loadT _ _ _ _) fun _ _ _ => same_bind (same_wrT _ _ _ _ _ _) fun _ _ _ => ?_
      key_128_aesni
    · split
      · refine same_bind (R := Anyhow) ?_ fun _ _ _ => same_pure rfl
        unfold crypto_aes_key_expand_256_aesniT
        refine same_bind (same_q_loadT _ _ _ _) fun _ _ _ => same_bind (same_wrT _ _ _ _ _ _) fun _ _ _ => ?_
        refine same_bind (same_q_loadT _ _ _ _) fun _ _ _ => same_bind (same_wrT _ _ _ _ _ _) fun _ _ _ => ?_
        key_256_aesni
      · exact same_pure trivial

theorem same_expand_armT (mem : Option (List Bytes)) (k k' : Bytes) (len : Nat) :
    SameTr (OptLike fun x x' : HwKey => x.nr = x'.nr) (crypto_aes_key_expand_armT mem k len) (crypto_aes_key_expand_armT mem k' len) := by
  unfold crypto_aes_key_expand_armT
  cases mem with
  | none => exact same_pure trivial
  | some rk =>
    simp only []
    split
    · refine same_bind (R := Anyhow) ?_ fun _ _ _ => same_pure rfl
      unfold crypto_aes_key_expand_128_armT
      refine same_bind (same_q_loadT _ _ _ _) fun _ _ _ => same_bind (same_wrT _ _ _ _ _ _) fun _ _ _ => ?_
      key_128_arm
    · split
      · refine same_bind (R := Anyhow) ?_ fun _ _ _ => same_pure rfl
        unfold crypto_aes_key_expand_256_armT
        refine same_bind (same_q_loadT _ _ _ _) fun _ _ _ => same_bind (same_wrT _ _ _ _ _ _) fun _ _ _ => ?_
        refine same_bind (same_q_loadT _ _ _ _) fun _ _ _ => same_bind (same_wrT _ _ _ _ _ _) fun _ _ _ => ?_
        key_256_arm
      · exact same_pure trivial

theorem same_expandT (hw : AesHw) (env : AesEnv) (k k' : Bytes) (len : Nat) :
    SameTr (OptLike KeyLike) (crypto_aes_key_expandT hw env k len) (crypto_aes_key_expandT hw env k' len) := by
  unfold crypto_aes_key_expandT
  refine same_bind (R := Anyhow) (same_log rfl fun _ _ _ _ => trivial) fun _ _ _ => ?_
  cases hw with
  | x86_aesni =>
    refine same_bind (same_expand_aesniT _ _ _ _) fun a b h => same_pure ?_
    cases a <;> cases b <;> exact h
  | arm_aes =>
    refine same_bind (same_expand_armT _ _ _ _) fun a b h => same_pure ?_
    cases a <;> cases b <;> exact h
  | software =>
    simp only []
    split
    · exact same_pure trivial
    · exact same_bind (same_rdSliceT _ _ _ _ _) fun _ _ _ => same_pure trivial

theorem same_block_aesniT (x x' : Bytes) (k k' : HwKey) (h : k.nr = k'.nr) :
    SameTr Anyhow (crypto_aes_encrypt_block_aesni_m128iT x k) (crypto_aes_encrypt_block_aesni_m128iT x' k') := by
  unfold crypto_aes_encrypt_block_aesni_m128iT
  rw [h]
  enc_ops
  split <;> enc_ops

theorem same_block_armT (x x' : Bytes) (k k' : HwKey) (h : k.nr = k'.nr) :
    SameTr Anyhow (crypto_aes_encrypt_block_arm_u8T x k) (crypto_aes_encrypt_block_arm_u8T x' k') := by
  unfold crypto_aes_encrypt_block_arm_u8T
  rw [h]
  enc_ops
  split <;> enc_ops

theorem same_encrypt_blockT (a b : Arr) (hw : AesHw) (ossl : Ossl) (x x' : Bytes) (k k' : AesKey) (h : KeyLike k k') :
    SameTr Anyhow (crypto_aes_encrypt_blockT a b hw ossl x k) (crypto_aes_encrypt_blockT a b hw ossl x' k') := by
  unfold crypto_aes_encrypt_blockT
  cases k with
  | ossl k =>
    cases k' with
    | ossl k' => cases hw <;> first | exact same_ub | exact same_log rfl fun _ _ _ _ => trivial
    | aesni k' => exact h.elim
    | arm k' => exact h.elim
  | aesni k =>
    cases k' with
    | ossl k' => exact h.elim
    | aesni k' =>
      cases hw
      · exact same_ub
      · exact same_bind (same_q_loadT _ _ _ _) fun _ _ _ => same_bind (same_block_aesniT _ _ _ _ h) fun _ _ _ => same_log rfl fun _ _ _ _ => trivial
      · exact same_ub
    | arm k' => exact h.elim
  | arm k =>
    cases k' with
    | ossl k' => exact h.elim
    | aesni k' => exact h.elim
    | arm k' =>
      cases hw
      · exact same_ub
      · exact same_ub
      · exact same_bind (same_q_loadT _ _ _ _) fun _ _ _ => same_bind (same_block_armT _ _ _ _ h) fun _ _ _ => same_log rfl fun _ _ _ _ => trivial

theorem same_bytectrT (w : Bool) : SameTr Anyhow (bytectrT w) (bytectrT w) := same_log rfl fun _ _ _ _ => trivial

/-- Two streams at the same position. -/
structure StreamLike (s s' : CtrStream) : Prop where
  key : KeyLike s.key s'.key
  ctr : s.bytectr = s'.bytectr
  low : s.pblk[15]? = s'.pblk[15]?

/-- Two cursors at the same position. -/
structure CurLike (c c' : MCursor) : Prop where
  inp : c.inp = c'.inp
  outp : c.outp = c'.outp
  len : c.buflen = c'.buflen

theorem rd_got {α : Type} {m : List α} {i : Nat} {v : α} (h : rd m i = .ok v) : m[i]? = some v := by
  unfold rd at h
  cases e : m[i]? with
  | none => rw [e] at h; cases h
  | some w => rw [e] at h; rw [Res.ok.inj h]

theorem wr_some {α : Type} {m m' : List α} {i : Nat} {v : α} (h : wr m i v = .ok m') : m'[i]? = some v := by
  unfold wr at h
  split at h
  · rename_i hi
    rw [← Res.ok.inj h, List.getElem?_set_self hi]
  · cases h

theorem wrSlice_at {m m' : Bytes} {o : Nat} {s : Bytes} (h : wrSlice m o s = .ok m') (i : Nat) (hi : i < s.length) : m'[o + i]? = s[i]? := by
  by_cases hl : o + s.length ≤ m.length
  · rw [wrSlice_ow hl] at h
    rw [← Res.ok.inj h, ow_getElem? m o s hl, if_pos ⟨by omega, by omega⟩, Nat.add_sub_cancel_left]
  · unfold wrSlice at h
    rw [if_neg hl] at h
    cases h

theorem wrSlice_low {m m' p p' : Bytes} {x : Bytes} (h : wrSlice m 8 x = .ok p) (h' : wrSlice m' 8 x = .ok p') (hx : ¬ 7 < x.length)
    (e : m[15]? = m'[15]?) : p[15]? = p'[15]? := by
  have go : ∀ {m p : Bytes}, wrSlice m 8 x = .ok p → p[15]? = m[15]? := by
    intro m p h
    by_cases hl : 8 + x.length ≤ m.length
    · rw [wrSlice_ow hl] at h
      rw [← Res.ok.inj h, ow_getElem? m 8 x hl, if_neg (by omega)]
    · unfold wrSlice at h
      rw [if_neg hl] at h
      cases h
  rw [go h, go h', e]

theorem same_generateT (hw : AesHw) (ossl : Ossl) (s s' : CtrStream) (h : StreamLike s s') :
    SameTr StreamLike (cipherblock_generateT hw ossl s) (cipherblock_generateT hw ossl s') := by
  unfold cipherblock_generateT
  refine same_bind (same_bytectrT _) fun _ _ _ => ?_
  refine same_bind (R := Anyhow) (same_log rfl fun _ _ _ _ => trivial) fun _ _ _ => ?_
  refine same_bind (R := Eq) (same_log rfl fun a b e1 e2 => ?_) fun b b' hb => ?_
  · have := (rd_got e1).symm.trans (h.low.trans (rd_got e2))
    exact Option.some.inj this
  subst hb
  refine same_bind (R := fun m m' : Bytes => m[15]? = m'[15]?) (same_log rfl fun a b e1 e2 => ?_) fun m m' hm => ?_
  · rw [wr_some e1, wr_some e2]
  refine same_bind (R := Eq) (same_log rfl fun a b e1 e2 => ?_) fun c c' hc => ?_
  · exact Option.some.inj ((rd_got e1).symm.trans (hm.trans (rd_got e2)))
  subst hc
  refine same_bind (R := fun m m' : Bytes => m[15]? = m'[15]?) ?_ fun p p' hp => ?_
  · split
    · refine same_bind (same_bytectrT _) fun _ _ _ => ?_
      rw [h.ctr]
      refine same_log rfl fun a b e1 e2 => ?_
      exact (wrSlice_at e1 7 (by simp [be64enc])).trans (wrSlice_at e2 7 (by simp [be64enc])).symm
    · exact same_pure hm
  refine same_bind (same_encrypt_blockT _ _ _ _ _ _ _ _ h.key) fun _ _ _ => ?_
  exact same_pure ⟨h.key, h.ctr, hp⟩

/-- Two streams and cursors at the same position. -/
def BothLike (x x' : CtrStream × MCursor) : Prop := StreamLike x.1 x'.1 ∧ CurLike x.2 x'.2

theorem same_useT (a : Arr) (s s' : CtrStream) (h : StreamLike s s') (c c' : MCursor) (hc : CurLike c c') (n bm : Nat) :
    SameTr BothLike (cipherblock_useT a s c n bm) (cipherblock_useT a s' c' n bm) := by
  unfold cipherblock_useT
  refine same_bind (R := Anyhow) ?_ fun m m' _ => ?_
  · refine same_forLoop (fun m m' i _ => ?_) trivial n
    rw [hc.inp, hc.outp]
    same_ops
  refine same_bind (same_bytectrT _) fun _ _ _ => same_bind (same_bytectrT _) fun _ _ _ => same_pure ?_
  refine ⟨⟨h.key, ?_, h.low⟩, ⟨?_, ?_, ?_⟩⟩
  · show s.bytectr + _ = s'.bytectr + _; rw [h.ctr]
  · show c.inp + n = c'.inp + n; rw [hc.inp]
  · show c.outp + n = c'.outp + n; rw [hc.outp]
  · show c.buflen - n = c'.buflen - n; rw [hc.len]

theorem same_preT (a : Arr) (s s' : CtrStream) (h : StreamLike s s') (c c' : MCursor) (hc : CurLike c c') :
    SameTr (fun x x' => x.1 = x'.1 ∧ BothLike x.2 x'.2) (pre_wholeblockT a s c) (pre_wholeblockT a s' c') := by
  unfold pre_wholeblockT
  simp only [h.ctr, hc.len]
  refine same_bind (same_bytectrT _) fun _ _ _ => ?_
  split
  · split
    · exact same_bind (same_useT a s s' h c c' hc _ _) fun x x' hx => same_pure ⟨rfl, hx⟩
    · exact same_bind (same_useT a s s' h c c' hc _ _) fun x x' hx => same_pure ⟨rfl, hx⟩
  · exact same_pure ⟨rfl, h, hc⟩

theorem same_postT (a : Arr) (hw : AesHw) (ossl : Ossl) (s s' : CtrStream) (h : StreamLike s s') (c c' : MCursor) (hc : CurLike c c') :
    SameTr BothLike (post_wholeblockT a hw ossl s c) (post_wholeblockT a hw ossl s' c') := by
  unfold post_wholeblockT
  simp only [hc.len]
  split
  · exact same_bind (same_generateT hw ossl s s' h) fun x x' hx => same_useT a x x' hx c c' hc _ _
  · exact same_pure ⟨h, hc⟩

theorem same_loopT (a : Arr) (hw : AesHw) (ossl : Ossl) : ∀ (fuel : Nat) (s s' : CtrStream), StreamLike s s' → ∀ (c c' : MCursor), CurLike c c' →
    SameTr BothLike (portable_loopT a hw ossl fuel s c) (portable_loopT a hw ossl fuel s' c')
  | 0, s, s', h, c, c', hc => by
    unfold portable_loopT
    simp only [hc.len]
    split
    · exact same_ub
    · exact same_pure ⟨h, hc⟩
  | fuel + 1, s, s', h, c, c', hc => by
    unfold portable_loopT
    simp only [hc.len]
    split
    · refine same_bind (same_generateT hw ossl s s' h) fun x x' hx => ?_
      exact same_bind (same_useT a x x' hx c c' hc _ _) fun y y' hy => same_loopT a hw ossl fuel _ _ hy.1 _ _ hy.2
    · exact same_pure ⟨h, hc⟩

theorem same_portableT (a : Arr) (hw : AesHw) (ossl : Ossl) (s s' : CtrStream) (h : StreamLike s s') (c c' : MCursor) (hc : CurLike c c') :
    SameTr BothLike (portable_streamT a hw ossl s c) (portable_streamT a hw ossl s' c') := by
  unfold portable_streamT
  refine same_bind (same_preT a s s' h c c' hc) fun x x' hx => ?_
  obtain ⟨d, t, u⟩ := x
  obtain ⟨d', t', u'⟩ := x'
  obtain ⟨h1, h2⟩ := hx
  simp only at h1
  subst h1
  simp only []
  split
  · exact same_pure h2
  · rw [show u.buflen = u'.buflen from h2.2.len]
    exact same_bind (same_loopT a hw ossl _ _ _ h2.1 _ _ h2.2) fun y y' hy => same_postT a hw ossl _ _ hy.1 _ _ hy.2

/-- The loop of the accelerated code: the same counter and positions. -/
def StepLike (x x' : W64 × Bytes × Bytes × Nat × Nat) : Prop := x.1 = x'.1 ∧ x.2.1 = x'.2.1 ∧ x.2.2.2 = x'.2.2.2

theorem same_aesni_stepT (a : Arr) (junk nb nb' : Bytes) (k k' : HwKey) (h : k.nr = k'.nr) (x x' : W64 × Bytes × Bytes × Nat × Nat) (hx : StepLike x x') :
    SameTr StepLike (aesni_stepT a junk nb k x) (aesni_stepT a junk nb' k' x') := by
  obtain ⟨bc, arr, m, i, o⟩ := x
  obtain ⟨bc', arr', m', i', o'⟩ := x'
  obtain ⟨h1, h2, h3⟩ := hx
  simp only at h1 h2 h3
  subst h1 h2
  obtain ⟨rfl, rfl⟩ := Prod.mk.inj h3
  unfold aesni_stepT
  refine same_bind (R := Eq) (same_log rfl fun _ _ e1 e2 => (Res.ok.inj e1).symm.trans (Res.ok.inj e2)) fun ar ar' e => ?_
  subst e
  refine same_bind (R := Anyhow) (same_log rfl fun _ _ _ _ => trivial) fun _ _ _ => ?_
  refine same_bind (same_block_aesniT _ _ _ _ h) fun _ _ _ => ?_
  refine same_bind (same_q_loadT _ _ _ _) fun _ _ _ => ?_
  refine same_bind (same_wrSliceT _ _ _ _ _ _ ?_) fun _ _ _ => same_pure ⟨rfl, rfl, rfl⟩
  exact (q_xor_length _ _).trans (q_xor_length _ _).symm

theorem same_arm_stepT (a : Arr) (nb nb' : Bytes) (k k' : HwKey) (h : k.nr = k'.nr) (x x' : W64 × Bytes × Bytes × Nat × Nat) (hx : StepLike x x') :
    SameTr StepLike (arm_stepT a nb k x) (arm_stepT a nb' k' x') := by
  obtain ⟨bc, arr, m, i, o⟩ := x
  obtain ⟨bc', arr', m', i', o'⟩ := x'
  obtain ⟨h1, h2, h3⟩ := hx
  simp only at h1 h2 h3
  subst h1 h2
  obtain ⟨rfl, rfl⟩ := Prod.mk.inj h3
  unfold arm_stepT
  refine same_bind (R := Eq) (same_log rfl fun _ _ e1 e2 => (Res.ok.inj e1).symm.trans (Res.ok.inj e2)) fun ar ar' e => ?_
  subst e
  refine same_bind (R := Anyhow) (same_log rfl fun _ _ _ _ => trivial) fun _ _ _ => ?_
  refine same_bind (same_block_armT _ _ _ _ h) fun _ _ _ => ?_
  refine same_bind (same_q_loadT _ _ _ _) fun _ _ _ => ?_
  refine same_bind (same_wrSliceT _ _ _ _ _ _ ?_) fun _ _ _ => same_pure ⟨rfl, rfl, rfl⟩
  exact (q_xor_length _ _).trans (q_xor_length _ _).symm

theorem same_aesni_wholeT (a : Arr) (junk : Bytes) (s s' : CtrStream) (h : StreamLike s s') (c c' : MCursor) (hc : CurLike c c') :
    SameTr BothLike (aesni_wholeblocksT a junk s c) (aesni_wholeblocksT a junk s' c') := by
  unfold aesni_wholeblocksT
  obtain ⟨key, ctr, buf, pblk⟩ := s
  obtain ⟨key', ctr', buf', pblk'⟩ := s'
  obtain ⟨hk, hctr, hlow⟩ := h
  simp only at hk hctr hlow
  subst hctr
  cases key with
  | ossl k => exact same_ub
  | arm k => exact same_ub
  | aesni k =>
    cases key' with
    | ossl k' => exact hk.elim
    | arm k' => exact hk.elim
    | aesni k' =>
      simp only [hc.len, hc.inp, hc.outp]
      refine same_bind (R := Anyhow) (same_log rfl fun _ _ _ _ => trivial) fun _ _ _ => ?_
      refine same_bind (same_bytectrT _) fun _ _ _ => ?_
      split
      · exact same_ub
      refine same_bind (R := StepLike) ?_ fun x x' hx => ?_
      · exact same_forLoop (fun x x' i hx => by exact same_aesni_stepT a junk _ _ k k' hk x x' hx) (by exact ⟨rfl, rfl, rfl⟩) _
      obtain ⟨bc, arr, m, i, o⟩ := x
      obtain ⟨bc', arr', m', i', o'⟩ := x'
      obtain ⟨h1, h2, h3⟩ := hx
      simp only at h1 h2 h3
      subst h1 h2
      obtain ⟨rfl, rfl⟩ := Prod.mk.inj h3
      simp only []
      refine same_bind (R := Eq) (same_log rfl fun x y e1 e2 => by rw [e1] at e2; exact Res.ok.inj e2) fun x x' hx => ?_
      subst hx
      refine same_bind (R := fun m m' : Bytes => m[15]? = m'[15]?) (same_log rfl fun p q e1 e2 => ?_) fun p p' hp => ?_
      · by_cases hx : 7 < x.length
        · exact (wrSlice_at e1 7 hx).trans (wrSlice_at e2 7 hx).symm
        · exact wrSlice_low e1 e2 hx hlow
      refine same_bind (same_bytectrT _) fun _ _ _ => same_bind (same_bytectrT _) fun _ _ _ => same_pure ?_
      exact ⟨⟨hk, rfl, hp⟩, ⟨rfl, rfl, rfl⟩⟩

theorem same_arm_wholeT (a : Arr) (s s' : CtrStream) (h : StreamLike s s') (c c' : MCursor) (hc : CurLike c c') :
    SameTr BothLike (arm_wholeblocksT a s c) (arm_wholeblocksT a s' c') := by
  unfold arm_wholeblocksT
  obtain ⟨key, ctr, buf, pblk⟩ := s
  obtain ⟨key', ctr', buf', pblk'⟩ := s'
  obtain ⟨hk, hctr, hlow⟩ := h
  simp only at hk hctr hlow
  subst hctr
  cases key with
  | ossl k => exact same_ub
  | aesni k => exact same_ub
  | arm k =>
    cases key' with
    | ossl k' => exact hk.elim
    | aesni k' => exact hk.elim
    | arm k' =>
      simp only [hc.len, hc.inp, hc.outp]
      refine same_bind (R := Anyhow) (same_log rfl fun _ _ _ _ => trivial) fun _ _ _ => ?_
      refine same_bind (same_bytectrT _) fun _ _ _ => ?_
      split
      · exact same_ub
      refine same_bind (R := StepLike) ?_ fun x x' hx => ?_
      · exact same_forLoop (fun x x' i hx => by exact same_arm_stepT a _ _ k k' hk x x' hx) (by exact ⟨rfl, rfl, rfl⟩) _
      obtain ⟨bc, arr, m, i, o⟩ := x
      obtain ⟨bc', arr', m', i', o'⟩ := x'
      obtain ⟨h1, h2, h3⟩ := hx
      simp only at h1 h2 h3
      subst h1 h2
      obtain ⟨rfl, rfl⟩ := Prod.mk.inj h3
      simp only []
      refine same_bind (R := Eq) (same_log rfl fun x y e1 e2 => by rw [e1] at e2; exact Res.ok.inj e2) fun x x' hx => ?_
      subst hx
      refine same_bind (R := fun m m' : Bytes => m[15]? = m'[15]?) (same_log rfl fun p q e1 e2 => ?_) fun p p' hp => ?_
      · by_cases hx : 7 < x.length
        · exact (wrSlice_at e1 7 hx).trans (wrSlice_at e2 7 hx).symm
        · exact wrSlice_low e1 e2 hx hlow
      refine same_bind (same_bytectrT _) fun _ _ _ => same_bind (same_bytectrT _) fun _ _ _ => same_pure ?_
      exact ⟨⟨hk, rfl, hp⟩, ⟨rfl, rfl, rfl⟩⟩

theorem same_aesni_streamT (a : Arr) (hw : AesHw) (ossl : Ossl) (junk : Bytes) (s s' : CtrStream) (h : StreamLike s s') (c c' : MCursor) (hc : CurLike c c') :
    SameTr BothLike (aesni_streamT a hw ossl junk s c) (aesni_streamT a hw ossl junk s' c') := by
  unfold aesni_streamT
  refine same_bind (same_preT a s s' h c c' hc) fun x x' hx => ?_
  obtain ⟨d, t, u⟩ := x
  obtain ⟨d', t', u'⟩ := x'
  obtain ⟨h1, h2⟩ := hx
  simp only at h1
  subst h1
  simp only []
  split
  · exact same_pure h2
  · refine same_bind (R := BothLike) ?_ fun y y' hy => same_postT a hw ossl _ _ hy.1 _ _ hy.2
    unfold aesni_whole_if16T
    rw [show u.buflen = u'.buflen from h2.2.len]
    split
    · exact same_aesni_wholeT a junk _ _ h2.1 _ _ h2.2
    · exact same_pure h2

theorem same_arm_streamT (a : Arr) (hw : AesHw) (ossl : Ossl) (s s' : CtrStream) (h : StreamLike s s') (c c' : MCursor) (hc : CurLike c c') :
    SameTr BothLike (arm_streamT a hw ossl s c) (arm_streamT a hw ossl s' c') := by
  unfold arm_streamT
  refine same_bind (same_preT a s s' h c c' hc) fun x x' hx => ?_
  obtain ⟨d, t, u⟩ := x
  obtain ⟨d', t', u'⟩ := x'
  obtain ⟨h1, h2⟩ := hx
  simp only at h1
  subst h1
  simp only []
  split
  · exact same_pure h2
  · refine same_bind (R := BothLike) ?_ fun y y' hy => same_postT a hw ossl _ _ hy.1 _ _ hy.2
    unfold arm_whole_if16T
    rw [show u.buflen = u'.buflen from h2.2.len]
    split
    · exact same_arm_wholeT a _ _ h2.1 _ _ h2.2
    · exact same_pure h2

theorem same_streamT (a : Arr) (hw : AesHw) (ossl : Ossl) (junk : Bytes) (s s' : CtrStream) (h : StreamLike s s') (m m' : Bytes) (inp outp n : Nat) :
    SameTr (fun x x' => StreamLike x.1 x'.1) (crypto_aesctr_streamT a hw ossl junk s m inp outp n) (crypto_aesctr_streamT a hw ossl junk s' m' inp outp n) := by
  unfold crypto_aesctr_streamT
  refine same_bind (R := BothLike) ?_ fun x x' hx => same_pure hx.1
  split
  · exact same_aesni_streamT a hw ossl junk s s' h _ _ ⟨rfl, rfl, rfl⟩
  · split
    · exact same_arm_streamT a hw ossl s s' h _ _ ⟨rfl, rfl, rfl⟩
    · exact same_portableT a hw ossl s s' h _ _ ⟨rfl, rfl, rfl⟩

theorem same_initT (mem : Option CtrStream) (k k' : AesKey) (h : KeyLike k k') (nonce : W64) :
    SameTr (OptLike StreamLike) (crypto_aesctr_initT mem k nonce) (crypto_aesctr_initT mem k' nonce) := by
  unfold crypto_aesctr_initT
  cases mem with
  | none => exact same_pure trivial
  | some s =>
    refine same_bind (R := StreamLike) ?_ fun _ _ hx => same_pure hx
    unfold crypto_aesctr_init2T
    refine same_bind (same_wrSliceT _ _ _ _ _ _ rfl) fun _ _ _ => same_bind (same_bytectrT _) fun _ _ _ => ?_
    refine same_bind (R := fun m m' : Bytes => m[15]? = m'[15]?) (same_log rfl fun p q e1 e2 => ?_) fun p p' hp => ?_
    · rw [wr_some e1, wr_some e2]
    · exact same_pure ⟨h, rfl, hp⟩

/-- The same outcome of opening a stream. -/
def OpenLike (x x' : (Code × Option CtrStream) × List Ev) : Prop := x.1.1 = x'.1.1 ∧ OptLike StreamLike x.1.2 x'.1.2

theorem same_aesOpenT (sys : EncSys) (dk dk' : Bytes) : SameTr OpenLike (aesOpenT sys dk) (aesOpenT sys dk') := by
  unfold aesOpenT
  refine same_bind (same_expandT _ _ _ _ _) fun k k' hk => ?_
  cases k with
  | none =>
    cases k' with
    | none => exact same_pure ⟨rfl, trivial⟩
    | some k' => exact hk.elim
  | some k =>
    cases k' with
    | none => exact hk.elim
    | some k' =>
      simp only []
      refine same_bind (same_initT _ k k' hk _) fun s s' hs => ?_
      cases s with
      | none =>
        cases s' with
        | none => exact same_log rfl fun _ _ e1 e2 => by rw [← Res.ok.inj e1, ← Res.ok.inj e2]; exact ⟨rfl, trivial⟩
        | some s' => exact hs.elim
      | some s =>
        cases s' with
        | none => exact hs.elim
        | some s' => exact same_pure ⟨rfl, hs⟩

theorem same_slice (m m' : Bytes) (o n : Nat) : SameTr SameLen (log [] (rdSlice m o n)) (log [] (rdSlice m' o n)) :=
  same_log rfl fun _ _ e e' => by unfold SameLen; rw [rdSlice_length e, rdSlice_length e']

theorem same_note (t : List Acc) : SameTr Anyhow (log t (.ok ())) (log t (.ok ())) := same_log rfl fun _ _ _ _ => trivial

theorem same_last {α β : Type} (t : List Acc) (a : α) (b : β) : SameTr Anyhow (log t (.ok a)) (log t (.ok b)) := same_log rfl fun _ _ _ _ => trivial

theorem same_macInitT (hw : ShaHw) (j : HMAC_SHA256_CTX) (dk dk' : Bytes) : SameTr SameH (macInitT hw j dk) (macInitT hw j dk') := by
  unfold macInitT
  exact same_bind (same_slice _ _ _ _) fun _ _ h => same_move _ _ (same_HInitT (shaTransformT_same hw) _ _ _ _ _ _ h)

theorem same_macUpdateT (hw : ShaHw) (a : Arr) (off : Nat) (c c' : HMAC_SHA256_CTX) (h : SameH c c') (x x' : Bytes) (hx : SameLen x x') :
    SameTr SameH (macUpdateT hw a off c x) (macUpdateT hw a off c' x') := by
  unfold macUpdateT
  exact same_move _ _ (same_HUpdateT (shaTransformT_same hw) _ _ _ _ h _ _ hx)

theorem same_macFinalT (hw : ShaHw) (c c' : HMAC_SHA256_CTX) (h : SameH c c') : SameTr SameLen (macFinalT hw c) (macFinalT hw c') := by
  unfold macFinalT
  refine same_bind (same_HFinalT (shaTransformT_same hw) _ _ _ _ h) fun x x' hx => same_log rfl fun a b e e' => ?_
  rw [← Res.ok.inj e, ← Res.ok.inj e']
  exact hx

theorem same_bufTagT (hw : ShaHw) (j : HMAC_SHA256_CTX) (dk dk' : Bytes) (a : Arr) (off : Nat) (x x' : Bytes) (hx : SameLen x x') :
    SameTr SameLen (bufTagT hw j dk a off x) (bufTagT hw j dk' a off x') := by
  unfold bufTagT
  exact same_bind (same_macInitT _ _ _ _) fun _ _ h => same_bind (same_macUpdateT _ _ _ _ _ h _ _ hx) fun _ _ h => same_macFinalT _ _ _ h

theorem same_headerSigT (hw : ShaHw) (j : HMAC_SHA256_CTX) (dk dk' : Bytes) (a : Arr) (off : Nat) (x x' : Bytes) :
    SameTr SameLen (headerSigT hw j dk a off x) (headerSigT hw j dk' a off x') := by
  unfold headerSigT
  exact same_bind (same_macInitT _ _ _ _) fun _ _ h => same_bind (same_slice _ _ _ _) fun _ _ hx =>
    same_bind (same_macUpdateT _ _ _ _ _ h _ _ hx) fun _ _ h => same_macFinalT _ _ _ h

theorem same_verifyT (a : Arr) (ao : Nat) (b : Arr) (bo : Nat) (x x' y y' : Bytes) (n : Nat) :
    SameTr Anyhow (crypto_verify_bytesT a ao b bo x y n) (crypto_verify_bytesT a ao b bo x' y' n) := by
  unfold crypto_verify_bytesT
  refine same_forLoop (fun _ _ _ _ => ?_) trivial _
  refine same_bind (R := Anyhow) (same_log rfl fun _ _ _ _ => trivial) fun _ _ _ => ?_
  exact same_bind (R := Anyhow) (same_log rfl fun _ _ _ _ => trivial) fun _ _ _ => same_pure trivial

theorem same_headerSumT (hw : ShaHw) (j : SHA256_CTX) (x x' : Bytes) : SameTr SameLen (headerSumT hw j x) (headerSumT hw j x') := by
  unfold headerSumT
  refine same_bind (same_slice _ _ _ _) fun _ _ hx => same_bind (same_InitT _ _ _) fun _ _ h => ?_
  refine same_bind (same_UpdateT (shaTransformT_same hw) _ _ _ _ h _ _ hx) fun _ _ h => ?_
  refine same_bind (same_FinalT (shaTransformT_same hw) _ _ _ _ h) fun _ _ h => same_log rfl fun a b e e' => ?_
  rw [← Res.ok.inj e, ← Res.ok.inj e']
  exact h

theorem be32enc_len (x : W32) : (be32enc x).length = 4 := rfl

theorem same_writeHeaderT (sys : EncSys) (hw : ShaHw) (P P' : EncParams) (salt salt' dk dk' : Bytes) :
    SameTr Anyhow (writeHeaderT sys hw P salt dk) (writeHeaderT sys hw P' salt' dk') := by
  unfold writeHeaderT
  refine same_bind (same_wrSliceT _ _ _ _ _ _ rfl) fun _ _ _ => same_bind (same_wrT _ _ _ _ _ _) fun _ _ _ => ?_
  refine same_bind (same_wrT _ _ _ _ _ _) fun _ _ _ => same_bind (same_wrSliceT _ _ _ _ _ _ rfl) fun _ _ _ => ?_
  refine same_bind (same_wrSliceT _ _ _ _ _ _ rfl) fun _ _ _ => same_bind (same_rdSliceT _ _ _ _ _) fun _ _ h => ?_
  refine same_bind (same_wrSliceT _ _ _ _ _ _ h) fun _ _ _ => same_bind (same_headerSumT _ _ _ _) fun _ _ h => ?_
  refine same_bind (same_rdSliceT _ _ _ _ _) fun _ _ h => same_bind (same_wrSliceT _ _ _ _ _ _ h) fun _ _ _ => ?_
  refine same_bind (same_headerSigT _ _ _ _ _ _ _ _) fun _ _ h => same_bind (same_rdSliceT _ _ _ _ _) fun _ _ h => ?_
  exact same_wrSliceT _ _ _ _ _ _ h

theorem same_checkSigT (sys : EncSys) (hw : ShaHw) (a : Arr) (off : Nat) (h h' : Bytes) (P P' : EncParams) (err err' : List Msg) (o o' : ScOut) (st st' : Option SmixImpl) :
    SameTr Anyhow (checkSigT sys hw a off h P err o st) (checkSigT sys hw a off h' P' err' o' st') := by
  unfold checkSigT
  refine same_bind (same_headerSigT _ _ _ _ _ _ _ _) fun _ _ _ => same_bind (same_slice _ _ _ _) fun _ _ _ => ?_
  exact same_bind (same_verifyT _ _ _ _ _ _ _ _ _) fun _ _ _ => same_pure trivial

theorem same_encBufT (sys : EncSys) (hw : ShaHw) (m m' : Bytes) (inp n outp : Nat) (s s' : SetupOut) :
    SameTr Anyhow (encBufBodyT sys hw m inp n outp s) (encBufBodyT sys hw m' inp n outp s') := by
  unfold encBufBodyT
  refine same_bind (same_rdSliceT _ _ _ _ _) fun _ _ h => same_bind (same_wrSliceT _ _ _ _ _ _ h) fun m m' _ => ?_
  refine same_bind (same_aesOpenT _ _ _) fun a a' ha => ?_
  obtain ⟨⟨rc, st⟩, tr⟩ := a
  obtain ⟨⟨rc', st'⟩, tr'⟩ := a'
  obtain ⟨_, h⟩ := ha
  simp only at h
  cases st with
  | none =>
    cases st' with
    | none => exact same_last _ _ _
    | some st' => exact h.elim
  | some st =>
    cases st' with
    | none => exact h.elim
    | some st' =>
      refine same_bind (same_streamT _ _ _ _ _ _ h _ _ _ _ _) fun r r' hr => same_bind (same_note _) fun _ _ _ => ?_
      refine same_bind (same_slice _ _ _ _) fun x x' hx => same_bind (same_bufTagT _ _ _ _ _ _ _ _ hx) fun _ _ _ => ?_
      refine same_bind (same_rdSliceT _ _ _ _ _) fun _ _ h => same_bind (same_wrSliceT _ _ _ _ _ _ h) fun _ _ _ => ?_
      exact same_last _ _ _

theorem same_decBufT (sys : EncSys) (hw : ShaHw) (m m' : Bytes) (inp n outp ol ol' : Nat) (s s' : SetupOut) :
    SameTr Anyhow (decBufBodyT sys hw m inp n outp ol s) (decBufBodyT sys hw m' inp n outp ol' s') := by
  unfold decBufBodyT
  refine same_bind (same_aesOpenT _ _ _) fun a a' ha => ?_
  obtain ⟨⟨rc, st⟩, tr⟩ := a
  obtain ⟨⟨rc', st'⟩, tr'⟩ := a'
  obtain ⟨_, h⟩ := ha
  simp only at h
  cases st with
  | none =>
    cases st' with
    | none => exact same_last _ _ _
    | some st' => exact h.elim
  | some st =>
    cases st' with
    | none => exact h.elim
    | some st' =>
      refine same_bind (same_streamT _ _ _ _ _ _ h _ _ _ _ _) fun r r' hr => same_bind (same_note _) fun _ _ _ => ?_
      refine same_bind (same_slice _ _ _ _) fun x x' hx => same_bind (same_bufTagT _ _ _ _ _ _ _ _ hx) fun _ _ _ => ?_
      refine same_bind (same_slice _ _ _ _) fun _ _ _ => same_bind (same_verifyT _ _ _ _ _ _ _ _ _) fun _ _ _ => ?_
      exact same_last _ _ _

/-- Input that arrives in pieces of the same lengths. -/
def SegLike (a b : List Bytes) : Prop := a.map List.length = b.map List.length

theorem SegLike.flat {a b : List Bytes} (h : SegLike a b) : a.flatten.length = b.flatten.length := by
  rw [List.length_flatten, List.length_flatten, show a.map List.length = b.map List.length from h]

theorem freadSome_like (n : Nat) : ∀ (a b : List Bytes), SegLike a b → SameLen (freadSome n a).1 (freadSome n b).1 ∧ SegLike (freadSome n a).2 (freadSome n b).2
  | [], [], _ => ⟨rfl, rfl⟩
  | [], _ :: _, h => by cases h
  | _ :: _, [], h => by cases h
  | x :: a, y :: b, h => by
    obtain ⟨h1, h2⟩ := List.cons.inj (show x.length :: a.map List.length = y.length :: b.map List.length from h)
    have h0 : x = [] ↔ y = [] := by rw [← List.length_eq_zero_iff, ← List.length_eq_zero_iff, h1]
    unfold freadSome
    by_cases e : x = []
    · rw [if_pos e, if_pos (h0.1 e)]
      exact freadSome_like n a b h2
    · rw [if_neg e, if_neg (mt h0.2 e), h1]
      split
      · exact ⟨h1, h2⟩
      · refine ⟨?_, ?_⟩
        · show (x.take n).length = (y.take n).length
          rw [List.length_take, List.length_take, h1]
        · show (x.drop n).length :: a.map List.length = (y.drop n).length :: b.map List.length
          rw [List.length_drop, List.length_drop, h1, h2]

/-- Output files that will take the same number of bytes more. -/
def OutLike (f g : OutFile) : Prop := f.room = g.room

theorem fwrite_like {f g : OutFile} (h : OutLike f g) {x y : Bytes} (hx : SameLen x y) : (fwrite f x).1 = (fwrite g y).1 ∧ OutLike (fwrite f x).2 (fwrite g y).2 := by
  obtain ⟨w, r⟩ := f
  obtain ⟨w', r'⟩ := g
  obtain rfl : r = r' := h
  have hl : x.length = y.length := hx
  unfold fwrite
  cases r with
  | none => exact ⟨hl, rfl⟩
  | some k =>
    simp only [hl]
    split
    · exact ⟨rfl, rfl⟩
    · exact ⟨rfl, rfl⟩

/-- Loops that ended alike. -/
def EndLike (l l' : LoopEnd) : Prop := l.wfail = l'.wfail ∧ SameH l.hctx l'.hctx ∧ l.buflen = l'.buflen ∧ OutLike l.outf l'.outf

theorem same_encLoopT (sys : EncSys) (hw : ShaHw) : ∀ (fuel : Nat) (s s' : CtrStream), StreamLike s s' → ∀ (c c' : HMAC_SHA256_CTX), SameH c c' → ∀ (b b' : Bytes) (i i' : List Bytes),
    SegLike i i' → ∀ (f f' : OutFile), OutLike f f' → SameTr EndLike (encLoopA sys hw fuel s c b i f) (encLoopA sys hw fuel s' c' b' i' f')
  | 0, _, _, _, _, _, _, _, _, _, _, _, _, _, _ => by unfold encLoopA; exact same_ub
  | fuel + 1, s, s', hs, c, c', hc, b, b', i, i', hi, f, f', hf => by
    unfold encLoopA
    obtain ⟨h1, h2⟩ := freadSome_like ENCBLOCK i i' hi
    generalize freadSome ENCBLOCK i = p at h1 h2
    generalize freadSome ENCBLOCK i' = p' at h1 h2
    obtain ⟨d, i⟩ := p
    obtain ⟨d', i'⟩ := p'
    simp only at h1 h2 ⊢
    have hl : d.length = d'.length := h1
    have h0 : d = [] ↔ d' = [] := by rw [← List.length_eq_zero_iff, ← List.length_eq_zero_iff, hl]
    by_cases e : d = []
    · rw [if_pos e, if_pos (h0.1 e)]
      exact same_pure ⟨rfl, hc, rfl, hf⟩
    · rw [if_neg e, if_neg (mt h0.2 e), hl]
      refine same_bind (same_wrSliceT _ _ _ _ _ _ h1) fun m m' _ => same_bind (same_streamT _ _ _ _ _ _ hs _ _ _ _ _) fun r r' hr => ?_
      refine same_bind (same_slice _ _ _ _) fun y y' hy => same_bind (same_macUpdateT _ _ _ _ _ hc _ _ hy) fun hx hx' hh => ?_
      refine same_bind (same_note _) fun _ _ _ => ?_
      obtain ⟨e1, e2⟩ := fwrite_like hf hy
      rw [e1]
      split
      · exact same_pure ⟨rfl, hh, rfl, e2⟩
      · exact same_encLoopT sys hw fuel _ _ hr _ _ hh _ _ _ _ h2 _ _ e2

theorem same_decLoopT (sys : EncSys) (hw : ShaHw) : ∀ (fuel : Nat) (s s' : CtrStream), StreamLike s s' → ∀ (c c' : HMAC_SHA256_CTX), SameH c c' → ∀ (b b' : Bytes) (bl : Nat) (i i' : List Bytes),
    SegLike i i' → ∀ (f f' : OutFile), OutLike f f' → SameTr EndLike (decLoopA sys hw fuel s c b bl i f) (decLoopA sys hw fuel s' c' b' bl i' f')
  | 0, _, _, _, _, _, _, _, _, _, _, _, _, _, _, _ => by unfold decLoopA; exact same_ub
  | fuel + 1, s, s', hs, c, c', hc, b, b', bl, i, i', hi, f, f', hf => by
    unfold decLoopA
    obtain ⟨h1, h2⟩ := freadSome_like (ENCBLOCK + 32 - bl) i i' hi
    generalize freadSome (ENCBLOCK + 32 - bl) i = p at h1 h2
    generalize freadSome (ENCBLOCK + 32 - bl) i' = p' at h1 h2
    obtain ⟨d, i⟩ := p
    obtain ⟨d', i'⟩ := p'
    simp only at h1 h2 ⊢
    have hl : d.length = d'.length := h1
    have h0 : d = [] ↔ d' = [] := by rw [← List.length_eq_zero_iff, ← List.length_eq_zero_iff, hl]
    by_cases e : d = []
    · rw [if_pos e, if_pos (h0.1 e)]
      exact same_pure ⟨rfl, hc, rfl, hf⟩
    · rw [if_neg e, if_neg (mt h0.2 e), hl]
      refine same_bind (same_wrSliceT _ _ _ _ _ _ h1) fun m m' _ => ?_
      split
      · exact same_decLoopT sys hw fuel _ _ hs _ _ hc _ _ _ _ _ h2 _ _ hf
      · refine same_bind (same_slice _ _ _ _) fun y y' hy => same_bind (same_macUpdateT _ _ _ _ _ hc _ _ hy) fun hx hx' hh => ?_
        refine same_bind (same_streamT _ _ _ _ _ _ hs _ _ _ _ _) fun r r' hr => ?_
        refine same_bind (same_rdSliceT _ _ _ _ _) fun y y' hy => ?_
        obtain ⟨e1, e2⟩ := fwrite_like hf hy
        rw [e1]
        split
        · exact same_pure ⟨rfl, hh, rfl, e2⟩
        · refine same_bind (same_rdSliceT _ _ _ _ _) fun _ _ ht => same_bind (same_wrSliceT _ _ _ _ _ _ ht) fun _ _ _ => ?_
          exact same_decLoopT sys hw fuel _ _ hr _ _ hh _ _ _ _ _ h2 _ _ e2

theorem same_encFileEndT (sys : EncSys) (hw : ShaHw) (inf inf' : InFile) (he : inf.err = inf'.err) (s s' : SetupOut) (tr tr' : List Ev) (l l' : LoopEnd) (h : EndLike l l') :
    SameTr Anyhow (encFileEndA sys hw inf s tr l) (encFileEndA sys hw inf' s' tr' l') := by
  obtain ⟨h1, h2, h3, h4⟩ := h
  unfold encFileEndA
  rw [h1, he]
  split
  · exact same_last _ _ _
  split
  · exact same_last _ _ _
  refine same_bind (same_note _) fun _ _ _ => same_bind (same_macFinalT _ _ _ h2) fun _ _ _ => ?_
  exact same_bind (same_rdSliceT _ _ _ _ _) fun _ _ _ => same_last _ _ _

theorem same_encFileT (sys : EncSys) (hw : ShaHw) (inf inf' : InFile) (hi : SegLike inf.segs inf'.segs) (he : inf.err = inf'.err) (f f' : OutFile) (hf : OutLike f f') (s s' : SetupOut) :
    SameTr Anyhow (encFileBodyA sys hw inf f s) (encFileBodyA sys hw inf' f' s') := by
  unfold encFileBodyA
  refine same_bind (same_macInitT _ _ _ _) fun _ _ hc => same_bind (same_slice _ _ _ _) fun _ _ hy => ?_
  refine same_bind (same_macUpdateT _ _ _ _ _ hc _ _ hy) fun _ _ hc => same_bind (same_note _) fun _ _ _ => ?_
  obtain ⟨e1, e2⟩ := fwrite_like hf hy
  rw [e1]
  split
  · exact same_last _ _ _
  refine same_bind (same_aesOpenT _ _ _) fun a a' ha => ?_
  obtain ⟨⟨rc, st⟩, tr⟩ := a
  obtain ⟨⟨rc', st'⟩, tr'⟩ := a'
  obtain ⟨_, h⟩ := ha
  simp only at h
  cases st with
  | none =>
    cases st' with
    | none => exact same_last _ _ _
    | some st' => exact h.elim
  | some st =>
    cases st' with
    | none => exact h.elim
    | some st' =>
      simp only [show inf.data.length = inf'.data.length from hi.flat]
      exact same_bind (same_encLoopT _ _ _ _ _ h _ _ hc _ _ _ _ hi _ _ e2) fun _ _ hl => same_encFileEndT _ _ _ _ he _ _ _ _ _ _ hl

theorem same_decFileEndT (sys : EncSys) (hw : ShaHw) (err : Bool) (tr tr' : List Ev) (l l' : LoopEnd) (h : EndLike l l') :
    SameTr Anyhow (decFileEndA sys hw err tr l) (decFileEndA sys hw err tr' l') := by
  obtain ⟨h1, h2, h3, h4⟩ := h
  unfold decFileEndA
  rw [h1, h3]
  split
  · exact same_last _ _ _
  refine same_bind (same_note _) fun _ _ _ => ?_
  split
  · exact same_pure trivial
  split
  · exact same_pure trivial
  refine same_bind (same_macFinalT _ _ _ h2) fun _ _ _ => ?_
  exact same_bind (same_verifyT _ _ _ _ _ _ _ _ _) fun _ _ _ => same_pure trivial

theorem same_decCopyT (sys : EncSys) (hw : ShaHw) (c c' : Cookie) (hi : SegLike c.inf.segs c'.inf.segs) (he : c.inf.err = c'.inf.err) (f f' : OutFile) (hf : OutLike f f') :
    SameTr Anyhow (scryptdec_file_copyA sys hw c f) (scryptdec_file_copyA sys hw c' f') := by
  unfold scryptdec_file_copyA
  refine same_bind (same_macInitT _ _ _ _) fun _ _ hc => same_bind (same_slice _ _ _ _) fun _ _ hy => ?_
  refine same_bind (same_macUpdateT _ _ _ _ _ hc _ _ hy) fun _ _ hc => ?_
  refine same_bind (same_aesOpenT _ _ _) fun a a' ha => ?_
  obtain ⟨⟨rc, st⟩, tr⟩ := a
  obtain ⟨⟨rc', st'⟩, tr'⟩ := a'
  obtain ⟨_, h⟩ := ha
  simp only at h
  cases st with
  | none =>
    cases st' with
    | none => exact same_pure trivial
    | some st' => exact h.elim
  | some st =>
    cases st' with
    | none => exact h.elim
    | some st' =>
      simp only [show c.inf.data.length = c'.inf.data.length from hi.flat, he]
      exact same_bind (same_decLoopT _ _ _ _ _ h _ _ hc _ _ _ _ _ hi _ _ hf) fun _ _ hl => same_decFileEndT _ _ _ _ _ _ _ hl

end Scrypt
