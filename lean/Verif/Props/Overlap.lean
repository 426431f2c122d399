import Verif.Model.Overlap
import Verif.Proofs.Overlap
import Verif.Proofs.AccessOps
import Verif.Proofs.EncMain
import Verif.Props.Aes
import Verif.Props.EncEx
import Verif.Spec.Regions
import Mathlib.Tactic.ByContra
import Mathlib.Tactic.Set
import Mathlib.Tactic.SplitIfs
/-
C80: what overlapping buffers do.
-/
namespace Scrypt.Props
open Scrypt Spec F64

/-- Storing into a region what the region's own contents became under a store at its start. -/
theorem ow_region {m z : Bytes} {o k : Nat} (h : o + k ≤ m.length) (hz : z.length ≤ k) : ow m o (ow (sl m o k) 0 z) = ow m o z := by
  have hs := sl_length m o k h
  have hl : (ow (sl m o k) 0 z).length = k := by rw [ow_length _ _ _ (by omega), hs]
  apply List.ext_getElem?
  intro i
  rw [ow_getElem? m o (ow (sl m o k) 0 z) (by omega), ow_getElem? m o z (by omega), hl]
  by_cases h1 : o ≤ i ∧ i < o + k
  · rw [if_pos h1, ow_getElem? _ _ _ (by omega)]
    by_cases h2 : i < o + z.length
    · rw [if_pos (by omega), if_pos (by omega), Nat.sub_zero]
    · rw [if_neg (by omega), if_neg (by omega), sl_getElem?, if_pos (by omega)]
      congr 1; omega
  · rw [if_neg h1, if_neg (by omega)]

theorem stream_eq {mem : Bytes} {ip op n : Nat} (F : Fwd mem ip op n) (hw : AesHw) (ossl : Ossl) (junk : Bytes) (s : CtrStream) :
    (crypto_aesctr_streamM hw ossl junk s mem ip op n =
      crypto_aesctr_stream hw ossl junk s (sl mem ip n) n >>= fun r => .ok (r.1, ow mem op r.2)) ∧
    ∀ s' out, crypto_aesctr_stream hw ossl junk s (sl mem ip n) n = .ok (s', out) → out.length = n := by
  have h := stream_rel F hw ossl junk s
  revert h
  cases h1 : crypto_aesctr_stream hw ossl junk s (sl mem ip n) n <;> cases h2 : crypto_aesctr_streamM hw ossl junk s mem ip op n <;>
    intro h <;> first | exact h.elim | skip
  · rename_i a b
    obtain ⟨a1, a2⟩ := a
    obtain ⟨b1, b2⟩ := b
    obtain ⟨e1, e2, e3⟩ := h
    simp only at e1 e2 e3
    subst e1 e3
    exact ⟨rfl, fun s' out e => by cases e; exact e2⟩
  · exact ⟨rfl, fun _ _ e => nomatch e⟩
  · exact ⟨rfl, fun _ _ e => nomatch e⟩

/-- C80. `crypto_aesctr_stream(stream, &mem[inp], &mem[outp], n)`, for every implementation and state of the
stream: if the output starts no later than the input, in particular if the two buffers are the same, or if
they have no byte in common, the function does what it does on a copy of the input and stores the result:
exactly `n` bytes, at `outp`; every other byte of the memory is unchanged. -/
theorem C80_stream (hw : AesHw) (ossl : Ossl) (junk : Bytes) (s : CtrStream) (mem : Bytes) (inp outp n : Nat)
    (hin : inp + n ≤ mem.length) (hout : outp + n ≤ mem.length) (hov : outp ≤ inp ∨ Apart inp n outp n) :
    (crypto_aesctr_streamM hw ossl junk s mem inp outp n =
      crypto_aesctr_stream hw ossl junk s (region mem inp n) n >>= fun r => .ok (r.1, store mem outp r.2)) ∧
    ∀ s' out, crypto_aesctr_stream hw ossl junk s (region mem inp n) n = .ok (s', out) → out.length = n :=
  stream_eq ⟨hin, hout, by rcases hov with h | h | h <;> omega⟩ hw ossl junk s

/-- C80. The one-shot function under the same condition: the region at `outp` becomes the AES-CTR
encryption of what was in the region at `inp`. -/
theorem C80_buf (hw : AesHw) (ossl : Ossl) (ho : hw = .software → GoodOssl ossl) (k : Bytes) (hl : k.length = 16 ∨ k.length = 32)
    (key : AesKey) (g : GoodKey hw k key) (junk : Bytes) (stack : CtrStream) (hs : stack.Sized) (nonce : W64)
    (mem : Bytes) (inp outp n : Nat) (hn : n < 2 ^ 64) (hin : inp + n ≤ mem.length) (hout : outp + n ≤ mem.length)
    (hov : outp ≤ inp ∨ Apart inp n outp n) :
    crypto_aesctr_bufM hw ossl junk stack key nonce mem inp outp n =
      .ok (store mem outp (Spec.ctr (Spec.aes k) nonce.toNat 0 (region mem inp n))) := by
  have hr : (region mem inp n).length = n := sl_length mem inp n hin
  have h := C24_buf hw ossl ho k hl key g junk stack hs nonce (region mem inp n) n (by omega) hn
  rw [List.take_of_length_le (by omega)] at h
  unfold crypto_aesctr_buf at h
  unfold crypto_aesctr_bufM
  rw [Res.bind_eq_ok] at h
  obtain ⟨s, e, h⟩ := h
  rw [e, Res.bind_ok, (C80_stream hw ossl junk s mem inp outp n hin hout hov).1]
  rw [Res.bind_eq_ok] at h
  obtain ⟨⟨s', out⟩, e2, h⟩ := h
  rw [e2, Res.bind_ok]
  cases h
  rfl

/-! ### The file functions, which work in place -/

theorem encLoopM_eq (sys : EncSys) (fuel : Nat) : ∀ (s : CtrStream) (hctx : HMAC_SHA256_CTX) (buf : Bytes) (inf : List Bytes) (outf : OutFile),
    encLoopM sys fuel s hctx buf inf outf = encLoop sys fuel s hctx buf inf outf := by
  induction fuel with
  | zero => intros; rfl
  | succ fuel ih =>
    intro s hctx buf inf outf
    unfold encLoopM encLoop
    obtain ⟨d, inf'⟩ := freadSome ENCBLOCK inf
    simp only []
    by_cases hd : d = []
    · rw [if_pos hd, if_pos hd]
    rw [if_neg hd, if_neg hd]
    by_cases hl : 0 + d.length ≤ buf.length
    case neg =>
      have : wrSlice buf 0 d = .ub := by unfold wrSlice; rw [if_neg hl]
      rw [this]; rfl
    rw [wrSlice_ow hl, Res.bind_ok, Res.bind_ok]
    have hb : (ow buf 0 d).length = buf.length := ow_length buf 0 d hl
    obtain ⟨e, hlen⟩ := stream_eq (mem := ow buf 0 d) (ip := 0) (op := 0) (n := d.length) ⟨by omega, by omega, .inl (Nat.le_refl _)⟩
      sys.aesHw sys.ossl (sys.xmm fuel) s
    rw [e, rdSlice_sl (by omega), Res.bind_ok, bind_assoc]
    cases hs : crypto_aesctr_stream sys.aesHw sys.ossl (sys.xmm fuel) s (sl (ow buf 0 d) 0 d.length) d.length with
    | ub => rfl
    | abort => rfl
    | ok r =>
      obtain ⟨s', out⟩ := r
      have := hlen s' out hs
      rw [Res.bind_ok, Res.bind_ok, Res.bind_ok]
      simp only []
      rw [wrSlice_ow (by omega), Res.bind_ok]
      simp only [ih]

theorem decLoopM_eq (sys : EncSys) (fuel : Nat) : ∀ (s : CtrStream) (hctx : HMAC_SHA256_CTX) (buf : Bytes) (blen : Nat) (inf : List Bytes) (outf : OutFile),
    decLoopM sys fuel s hctx buf blen inf outf = decLoop sys fuel s hctx buf blen inf outf := by
  induction fuel with
  | zero => intros; rfl
  | succ fuel ih =>
    intro s hctx buf blen inf outf
    unfold decLoopM decLoop
    obtain ⟨d, inf'⟩ := freadSome (ENCBLOCK + 32 - blen) inf
    simp only []
    by_cases hd : d = []
    · rw [if_pos hd, if_pos hd]
    rw [if_neg hd, if_neg hd]
    by_cases hl : blen + d.length ≤ buf.length
    case neg =>
      have : wrSlice buf blen d = .ub := by unfold wrSlice; rw [if_neg hl]
      rw [this]; rfl
    rw [wrSlice_ow hl, Res.bind_ok, Res.bind_ok]
    by_cases h32 : blen + d.length ≤ 32
    · rw [if_pos h32, if_pos h32, ih]
    rw [if_neg h32, if_neg h32]
    have hb : (ow buf blen d).length = buf.length := ow_length buf blen d hl
    rw [rdSlice_sl (by omega), Res.bind_ok, Res.bind_ok]
    cases hh : HMAC_SHA256_Update sys.tf hctx (sl (ow buf blen d) 0 (blen + d.length - 32)) with
    | ub => rfl
    | abort => rfl
    | ok hctx' =>
    rw [Res.bind_ok, Res.bind_ok]
    obtain ⟨e, hlen⟩ := stream_eq (mem := ow buf blen d) (ip := 0) (op := 0) (n := blen + d.length - 32) ⟨by omega, by omega, .inl (Nat.le_refl _)⟩
      sys.aesHw sys.ossl (sys.xmm fuel) s
    rw [e, bind_assoc]
    cases hs : crypto_aesctr_stream sys.aesHw sys.ossl (sys.xmm fuel) s (sl (ow buf blen d) 0 (blen + d.length - 32)) (blen + d.length - 32) with
    | ub => rfl
    | abort => rfl
    | ok r =>
      obtain ⟨s', out⟩ := r
      have := hlen s' out hs
      rw [Res.bind_ok, Res.bind_ok, Res.bind_ok]
      simp only []
      rw [wrSlice_ow (by omega), Res.bind_ok]
      simp only [ih]

/-- C80. scryptenc_file and scryptdec_file_copy encrypt and decrypt their buffer in place; they do exactly
what they would do with a second buffer, for every file, every division of it and every outcome. -/
theorem C80_files : scryptenc_fileM = scryptenc_file ∧ scryptdec_file_copyM = scryptdec_file_copy := by
  constructor
  · funext sys inf outf passwd P verbose force
    unfold scryptenc_fileM scryptenc_file encFileBodyM encFileBody
    simp only [encLoopM_eq]
    rfl
  · funext sys c outf
    unfold scryptdec_file_copyM scryptdec_file_copy
    simp only [decLoopM_eq]
    rfl

/-! ### scryptenc_buf -/

/-- A memory instead of the buffer of the caller in a result. -/
def inMem (mem : Bytes) (outp : Nat) (o : BufOut) : BufOut := { o with out := store mem outp o.out }

theorem encBodyM_eq (sys : EncSys) (mem : Bytes) (inp n outp : Nat) (s : SetupOut) (hin : inp + n ≤ mem.length)
    (hout : outp + (n + 128) ≤ mem.length) (hov : outp + 96 ≤ inp ∨ inp + n ≤ outp + 96) (hh : s.header.length = 96) :
    encBufBodyM sys mem inp n outp s =
      encBufBody sys (sl (ow mem outp s.header) inp n) (sl mem outp (n + 128)) s >>= fun o => .ok (inMem mem outp o) := by
  unfold encBufBodyM encBufBody
  have hl1 : (ow mem outp s.header).length = mem.length := ow_length _ _ _ (by omega)
  have hx : (sl (ow mem outp s.header) inp n).length = n := sl_length _ _ _ (by omega)
  have hob : (sl mem outp (n + 128)).length = n + 128 := sl_length _ _ _ (by omega)
  rw [rdSlice_sl (by omega), Res.bind_ok, Res.bind_ok, sl_full _ _ hh, wrSlice_ow (by omega), Res.bind_ok,
    wrSlice_ow (by omega), Res.bind_ok]
  cases ha : aesOpen sys s.dk with
  | ub => rfl
  | abort => rfl
  | ok a =>
  rw [Res.bind_ok, Res.bind_ok]
  obtain ⟨⟨rc, st⟩, tr⟩ := a
  cases st with
  | none =>
    show Res.ok _ = Res.ok _
    unfold inMem store
    congr 2
    exact (ow_region (by omega) (by omega)).symm
  | some st =>
  simp only []
  obtain ⟨e, hlen⟩ := stream_eq (mem := ow mem outp s.header) (ip := inp) (op := outp + 96) (n := n)
    ⟨by omega, by omega, hov⟩ sys.aesHw sys.ossl (sys.xmm 0) st
  rw [e, hx]
  cases hs : crypto_aesctr_stream sys.aesHw sys.ossl (sys.xmm 0) st (sl (ow mem outp s.header) inp n) n with
  | ub => rfl
  | abort => rfl
  | ok r =>
  obtain ⟨s', c⟩ := r
  have hc := hlen s' c hs
  have hhc : (s.header ++ c).length = 96 + n := by rw [List.length_append, hh, hc]
  rw [Res.bind_ok, Res.bind_ok, Res.bind_ok]
  simp only []
  have hl0 : (ow (sl mem outp (n + 128)) 0 s.header).length = n + 128 := by rw [ow_length _ _ _ (by omega), hob]
  rw [wrSlice_ow (by omega), Res.bind_ok, ow_ow_adj mem outp _ s.header c (by omega) (by omega),
    ow_ow_adj _ 0 _ s.header c (by omega) (by omega)]
  have hl2 : (ow mem outp (s.header ++ c)).length = mem.length := ow_length _ _ _ (by omega)
  have hl3 : (ow (sl mem outp (n + 128)) 0 (s.header ++ c)).length = n + 128 := by rw [ow_length _ _ _ (by omega), hob]
  rw [rdSlice_sl (by omega), Res.bind_ok, sl_ow_same' _ _ _ _ hhc (by omega),
    rdSlice_sl (by omega), Res.bind_ok, sl_ow_same' _ _ _ _ hhc (by omega)]
  cases ht : bufTag sys s.dk (s.header ++ c) with
  | ub => rfl
  | abort => rfl
  | ok t =>
  rw [Res.bind_ok, Res.bind_ok]
  cases ht2 : rdSlice t 0 32 with
  | ub => rfl
  | abort => rfl
  | ok t' =>
  rw [Res.bind_ok, Res.bind_ok]
  have h32 : t'.length = 32 := rdSlice_length ht2
  rw [wrSlice_ow (by omega), Res.bind_ok, wrSlice_ow (by omega), Res.bind_ok,
    ow_ow_adj mem outp _ _ t' (by omega) (by omega), ow_ow_adj _ 0 _ _ t' (by omega) (by omega)]
  show Res.ok _ = Res.ok _
  unfold inMem store
  congr 2
  exact (ow_region (by omega) (by rw [List.length_append]; omega)).symm

theorem ow_self {m : Bytes} {o k : Nat} (h : o + k ≤ m.length) : ow m o (sl m o k) = m := by
  have := ow_region (m := m) (o := o) (k := k) (z := []) h (Nat.zero_le _)
  rwa [ow_nil, ow_nil] at this

theorem encSetup_header {sys : EncSys} (g : sys.Good) {passwd : Bytes} {P : EncParams} {verbose force : Bool} {s : SetupOut}
    (hs : scryptenc_setup sys passwd P verbose force = .ok s) (h0 : s.rc = .OK) : s.header.length = 96 := by
  obtain ⟨salt, l, i1, i2, i3, i4, i5, i6, i7⟩ := encSetup_inv g hs h0
  rw [i7]
  exact header96_length _ _ _ _ _ (g.salt _ i1)

/-- C80. `scryptenc_buf(&mem[inp], n, &mem[outp], …)`: if the input starts at or after the 97th byte of the
output buffer (in particular if it lies exactly where its encryption goes), or ends before the output buffer
starts, the call does what it does with separate buffers: the same code, parameters, messages and container,
stored at `outp`, and nothing else in the memory changes. The password may lie anywhere, even in the output
buffer. -/
theorem C80_enc {sys : EncSys} (g : sys.Good) (mem : Bytes) (inp n outp pwp pwlen : Nat) (P : EncParams) (verbose force : Bool)
    (hin : inp + n ≤ mem.length) (hout : outp + (n + 128) ≤ mem.length) (hpw : pwp + pwlen ≤ mem.length)
    (hov : outp + 96 ≤ inp ∨ inp + n ≤ outp) :
    scryptenc_bufM sys mem inp n outp pwp pwlen P verbose force =
      scryptenc_buf sys (region mem inp n) (region mem outp (n + 128)) (region mem pwp pwlen) P verbose force >>=
        fun o => .ok (inMem mem outp o) := by
  unfold scryptenc_bufM scryptenc_buf
  cases ha : cassert (P.zero || P.nonzero) with
  | ub => rfl
  | abort => rfl
  | ok u =>
  rw [Res.bind_ok, Res.bind_ok, rdSlice_sl hpw, Res.bind_ok, show sl mem pwp pwlen = region mem pwp pwlen from rfl]
  cases hs : scryptenc_setup sys (region mem pwp pwlen) P verbose force with
  | ub => rfl
  | abort => rfl
  | ok s =>
  rw [Res.bind_ok, Res.bind_ok]
  by_cases h0 : s.rc = .OK
  case neg =>
    rw [if_pos h0, if_pos h0, Res.bind_ok]
    unfold inMem
    simp only []
    rw [show store mem outp (region mem outp (n + 128)) = mem from ow_self hout]
  rw [if_neg (not_not.2 h0), if_neg (not_not.2 h0)]
  have hh := encSetup_header g hs h0
  rw [encBodyM_eq sys mem inp n outp s hin hout (by omega) hh]
  have hsame : sl (ow mem outp s.header) inp n = sl mem inp n := sl_ow_disj _ _ _ (by omega) _ _ (by omega)
  rw [hsame]
  rfl

/-- C80. The boundary in `C80_enc` is real. Called on its own input (`outbuf = inbuf`) scryptenc_buf
overwrites the data with the file header before encrypting it: where a call with separate buffers succeeds this
one reports success too, and what it has encrypted is the beginning of its own header, not the data (here for
data of at most 96 bytes). -/
theorem C80_enc_over_input {sys : EncSys} (g : sys.Good) (mem : Bytes) (p n pwp pwlen : Nat) (P : EncParams) (verbose force : Bool)
    (hn : n ≤ 96) (hout : p + (n + 128) ≤ mem.length) (hpw : pwp + pwlen ≤ mem.length) {ob : Bytes} (hob : n + 128 ≤ ob.length) {o : BufOut}
    (h : scryptenc_buf sys (region mem p n) ob (region mem pwp pwlen) P verbose force = .ok o) (hok : o.rc = .OK) :
    ∃ (o2 : BufOut) (salt dk : Bytes) (l : Nat), scryptenc_bufM sys mem p n p pwp pwlen P verbose force = .ok o2 ∧ o2.rc = .OK ∧
      sys.salt = some salt ∧ dk = scryptCode (region mem pwp pwlen) salt (2 ^ l) o.P.r.toNat o.P.p.toNat 64 ∧
      o.out.take (n + 128) = container dk l o.P.r.toNat o.P.p.toNat salt (region mem p n) ∧
      region o2.out p (n + 128) = container dk l o.P.r.toNat o.P.p.toNat salt ((header96 dk l o.P.r.toNat o.P.p.toNat salt).take n) := by
  unfold scryptenc_buf at h
  unfold scryptenc_bufM
  rw [Res.bind_eq_ok] at h
  obtain ⟨u, hu, h⟩ := h
  rw [Res.bind_eq_ok] at h
  obtain ⟨s, hs, h⟩ := h
  rw [hu, Res.bind_ok, rdSlice_sl hpw, Res.bind_ok, show sl mem pwp pwlen = region mem pwp pwlen from rfl, hs, Res.bind_ok]
  by_cases h0 : s.rc = .OK
  case neg => rw [if_pos h0] at h; cases h; exact absurd hok h0
  rw [if_neg (not_not.2 h0)] at h ⊢
  have hh := encSetup_header g hs h0
  have hrl : (region mem p n).length = n := sl_length _ _ _ (by omega)
  obtain ⟨salt, l, i1, i2, i3, i4, i5, i6, i7⟩ := encSetup_inv g hs h0
  have hx : sl (ow mem p s.header) p n = s.header.take n := by
    have := sl_ow_inside mem p s.header (by omega) 0 n (by omega)
    rw [Nat.add_zero] at this
    rw [this]
    simp [sl]
  have hdk : s.dk.length = 64 := by rw [i5]; exact scryptCode_length _ _ _ _ _ _
  have hxl : (s.header.take n).length = n := by rw [List.length_take]; omega
  rw [encBufBody_ok g _ _ (by omega) (by omega) s l _ _ salt (g.salt _ i1) hdk i7] at h
  rw [encBodyM_eq sys mem p n p s (by omega) hout (by omega) hh, hx,
    encBufBody_ok g _ _ (by omega) (by rw [hxl, sl_length _ _ _ hout]) s l _ _ salt (g.salt _ i1) hdk i7, Res.bind_ok]
  cases h
  have ha : aesCode sys = .OK := hok
  refine ⟨_, salt, s.dk, l, rfl, ha, i1, i5, ?_, ?_⟩
  · simp only [if_pos ha]
    have hcl := container_length s.dk l s.P.r.toNat s.P.p.toNat salt (region mem p n) (g.salt _ i1)
    rw [List.take_append_of_le_length (by omega), List.take_of_length_le (by omega)]
  · rw [i7.symm]
    unfold inMem
    simp only [if_pos ha]
    have hcl : (container s.dk l s.P.r.toNat s.P.p.toNat salt (s.header.take n)).length = n + 128 := by
      rw [container_length _ _ _ _ _ _ (g.salt _ i1), hxl]
    rw [List.drop_of_length_le (by rw [hxl, sl_length _ _ _ hout]), List.append_nil]
    exact sl_ow_same' mem p (n + 128) _ hcl hout

/-- C80. Whatever the overlap and the lengths: data lying in the first 96 bytes of the output buffer is lost.
Two memories that differ only there give the same outcome, and after a success the same memory, so nothing can
recover it. -/
theorem C80_enc_loses {sys : EncSys} (g : sys.Good) (mem mem2 : Bytes) (inp n outp pwp pwlen : Nat) (P : EncParams) (verbose force : Bool)
    (hlen : mem2.length = mem.length) (hout : outp + (n + 128) ≤ mem.length) (hpw : pwp + pwlen ≤ mem.length)
    (hp : Apart pwp pwlen outp 96) (hag : ∀ i, ¬ (outp ≤ i ∧ i < outp + 96) → mem2[i]? = mem[i]?) {o : BufOut}
    (h : scryptenc_bufM sys mem inp n outp pwp pwlen P verbose force = .ok o) (hok : o.rc = .OK) :
    scryptenc_bufM sys mem2 inp n outp pwp pwlen P verbose force = .ok o := by
  have hpe : sl mem2 pwp pwlen = sl mem pwp pwlen := by
    refine sl_ext _ _ _ _ _ fun i hi => hag _ ?_
    rcases hp with h | h <;> omega
  unfold scryptenc_bufM at h ⊢
  rw [Res.bind_eq_ok] at h
  obtain ⟨u, ha, h⟩ := h
  rw [ha, Res.bind_ok, rdSlice_sl (by omega), Res.bind_ok, hpe]
  rw [rdSlice_sl hpw, Res.bind_ok, Res.bind_eq_ok] at h
  obtain ⟨s, hs, h⟩ := h
  rw [hs, Res.bind_ok]
  by_cases h0 : s.rc = .OK
  case neg => rw [if_pos h0] at h; cases h; exact absurd hok h0
  rw [if_neg (not_not.2 h0)] at h ⊢
  have hh := encSetup_header g hs h0
  have hm : ow mem2 outp s.header = ow mem outp s.header := by
    apply List.ext_getElem?
    intro i
    rw [ow_getElem? _ _ _ (by omega), ow_getElem? _ _ _ (by omega), hh]
    by_cases c : outp ≤ i ∧ i < outp + 96
    · rw [if_pos c, if_pos c]
    · rw [if_neg c, if_neg c]
      exact hag i c
  unfold encBufBodyM at h ⊢
  rw [rdSlice_sl (by omega), Res.bind_ok, sl_full _ _ hh, wrSlice_ow (by omega), Res.bind_ok] at h ⊢
  rw [hm]
  exact h

/-! ### scryptdec_buf -/

theorem decBodyM_ok {sys : EncSys} (g : sys.Good) (mem : Bytes) (inp n outp outlen : Nat) (h128 : 128 ≤ n) (hn : n < 2 ^ 64)
    (hin : inp + n ≤ mem.length) (hout : outp + n ≤ mem.length) (hov : outp ≤ inp + 96 ∨ inp + 96 + (n - 128) ≤ outp)
    (s : SetupOut) (hdk : s.dk.length = 64) :
    decBufBodyM sys mem inp n outp outlen s =
      if aesCode sys ≠ .OK then .ok ⟨aesCode sys, s.P, mem, outlen, zero64, openTrace sys, s.err, s.smix⟩
      else .ok ⟨if TagOk s.dk (sl (ow mem outp (plaintext s.dk (sl mem inp n))) inp n) then .OK else .EINVAL, s.P,
        ow mem outp (plaintext s.dk (sl mem inp n)), n - 128, zero64, openTrace sys, s.err, s.smix⟩ := by
  unfold decBufBodyM
  have lI : (sl mem inp n).length = n := sl_length _ _ _ hin
  rcases aesOpen_cases g s.dk hdk with ⟨h, hc⟩ | ⟨h, hc⟩ | ⟨st, h, hc, hr⟩
  · rw [h, Res.bind_ok]; simp [hc, openTrace]
  · rw [h, Res.bind_ok]; simp [hc, openTrace]
  · rw [h, Res.bind_ok, if_neg (by simp [hc])]
    simp only []
    obtain ⟨e, -⟩ := stream_eq (mem := mem) (ip := inp + 96) (op := outp) (n := n - 128)
      ⟨by omega, by omega, hov⟩ sys.aesHw sys.ossl (sys.xmm 0) st
    have hf : sl mem (inp + 96) (n - 128) = field (sl mem inp n) 96 ((sl mem inp n).length - 128) := by
      rw [lI]
      exact (sl_sl mem inp n 96 (n - 128) (by omega)).symm
    have lf : (sl mem (inp + 96) (n - 128)).length = n - 128 := sl_length _ _ _ (by omega)
    obtain ⟨st', es, -⟩ := hr.stream (sys.xmm 0) (sl mem (inp + 96) (n - 128)) (n - 128) lf.symm (by omega)
    rw [e, es, Res.bind_ok, Res.bind_ok]
    simp only []
    rw [show Spec.ctr (Spec.aes (keyEnc s.dk)) 0 0 (sl mem (inp + 96) (n - 128)) = plaintext s.dk (sl mem inp n) by rw [hf]; rfl]
    have lP : (plaintext s.dk (sl mem inp n)).length = n - 128 := by rw [plaintext, dataCipher_length, ← hf, lf]
    generalize hm : ow mem outp (plaintext s.dk (sl mem inp n)) = m
    have lm : m.length = mem.length := by rw [← hm]; exact ow_length _ _ _ (by omega)
    have lJ : (sl m inp n).length = n := sl_length _ _ _ (by omega)
    rw [rdSlice_sl (by omega), Res.bind_ok, bufTag_ok sys g _ _ (by omega), Res.bind_ok, rdSlice_sl (by omega), Res.bind_ok]
    obtain ⟨v, e, hv⟩ := verify_bytes_ok (hmac (keyHmac s.dk) (sl m inp (n - 32))) (sl m (inp + (n - 32)) 32) 32 (by simp)
      (by rw [sl_length _ _ _ (by omega)])
    rw [e, Res.bind_ok]
    rw [List.take_of_length_le (Nat.le_of_eq (hmac_length _ _)),
      List.take_of_length_le (show (sl m (inp + (n - 32)) 32).length ≤ 32 by rw [sl_length _ _ _ (by omega)])] at hv
    have t1 : (sl m inp n).take (n - 32) = sl m inp (n - 32) := by
      unfold sl
      rw [List.take_take, Nat.min_eq_left (by omega)]
    have t2 : (sl m inp n).drop (n - 32) = sl m (inp + (n - 32)) 32 := by
      unfold sl
      rw [List.drop_take, List.drop_drop, show n - (n - 32) = 32 by omega]
    have hT : TagOk s.dk (sl m inp n) ↔ v = 0 := by rw [hv, TagOk, lJ, t1, t2]; exact eq_comm
    by_cases h0 : v = 0
    · simp only [h0, ne_eq, not_true_eq_false, if_false, if_pos (hT.2 h0), openTrace, hc, if_true]; rfl
    · simp only [h0, ne_eq, not_false_eq_true, if_true, if_neg (fun h => h0 (hT.1 h)), openTrace, hc]; rfl

/-- Both forms of scryptdec_buf up to the decryption proper. -/
theorem decBufM_head {sys : EncSys} (mem : Bytes) (inp n outp outlen pwp pwlen : Nat) (P : EncParams) (verbose force : Bool) (ob : Bytes)
    (hin : inp + n ≤ mem.length) (hpw : pwp + pwlen ≤ mem.length) :
    (∃ rc P' dk tr err sm, scryptdec_bufM sys mem inp n outp outlen pwp pwlen P verbose force = .ok ⟨rc, P', mem, outlen, dk, tr, err, sm⟩ ∧
      scryptdec_buf sys (sl mem inp n) ob outlen (sl mem pwp pwlen) P verbose force = .ok ⟨rc, P', ob, outlen, dk, tr, err, sm⟩ ∧ rc ≠ .OK) ∨
    (scryptdec_bufM sys mem inp n outp outlen pwp pwlen P verbose force = .ub ∧
      scryptdec_buf sys (sl mem inp n) ob outlen (sl mem pwp pwlen) P verbose force = .ub) ∨
    (scryptdec_bufM sys mem inp n outp outlen pwp pwlen P verbose force = .abort ∧
      scryptdec_buf sys (sl mem inp n) ob outlen (sl mem pwp pwlen) P verbose force = .abort) ∨
    ∃ s, scryptdec_setup sys (sl mem inp n) (sl mem pwp pwlen) P verbose force = .ok s ∧ s.rc = .OK ∧ 128 ≤ n ∧
      scryptdec_bufM sys mem inp n outp outlen pwp pwlen P verbose force = decBufBodyM sys mem inp n outp outlen s ∧
      scryptdec_buf sys (sl mem inp n) ob outlen (sl mem pwp pwlen) P verbose force = decBufBody sys (sl mem inp n) ob outlen s := by
  unfold scryptdec_bufM scryptdec_buf
  have lI : (sl mem inp n).length = n := sl_length _ _ _ hin
  cases ha : cassert P.zero with
  | ub => exact .inr (.inl ⟨rfl, rfl⟩)
  | abort => exact .inr (.inr (.inl ⟨rfl, rfl⟩))
  | ok u =>
  rw [Res.bind_ok, Res.bind_ok, rdSlice_sl hin, Res.bind_ok, lI]
  by_cases h7 : n < 7 ∨ (sl mem inp n).take 6 ≠ [0x73, 0x63, 0x72, 0x79, 0x70, 0x74]
  · rw [if_pos h7, if_pos h7]
    exact .inl ⟨_, _, _, _, _, _, rfl, rfl, by simp⟩
  rw [if_neg h7, if_neg h7]
  cases hv : rd (sl mem inp n) 6 with
  | ub => exact .inr (.inl ⟨rfl, rfl⟩)
  | abort => exact .inr (.inr (.inl ⟨rfl, rfl⟩))
  | ok v =>
  rw [Res.bind_ok, Res.bind_ok]
  by_cases hv0 : v ≠ 0
  · rw [if_pos hv0, if_pos hv0]
    exact .inl ⟨_, _, _, _, _, _, rfl, rfl, by simp⟩
  rw [if_neg hv0, if_neg hv0]
  by_cases h128 : n < 128
  · rw [if_pos h128, if_pos h128]
    exact .inl ⟨_, _, _, _, _, _, rfl, rfl, by simp⟩
  rw [if_neg h128, if_neg h128, rdSlice_sl hpw, Res.bind_ok]
  cases hs : scryptdec_setup sys (sl mem inp n) (sl mem pwp pwlen) P verbose force with
  | ub => exact .inr (.inl ⟨rfl, rfl⟩)
  | abort => exact .inr (.inr (.inl ⟨rfl, rfl⟩))
  | ok s =>
  rw [Res.bind_ok, Res.bind_ok]
  by_cases h0 : s.rc = .OK
  · rw [if_neg (not_not.2 h0), if_neg (not_not.2 h0)]
    exact .inr (.inr (.inr ⟨s, rfl, h0, by omega, rfl, rfl⟩))
  · rw [if_pos h0, if_pos h0]
    exact .inl ⟨_, _, _, _, _, _, rfl, rfl, h0⟩

theorem plain_len {dk inp : Bytes} : (plaintext dk inp).length = min (inp.length - 128) (inp.length - 96) := by
  rw [plaintext, dataCipher_length, field, List.length_take, List.length_drop]

/-- C80. `scryptdec_buf(&mem[inp], n, &mem[outp], …)` with no byte of the input among the `n - 128` bytes the
plaintext takes: the same code, parameters, length, messages and plaintext as with separate buffers, and nothing
else in the memory changes. The password may lie anywhere. -/
theorem C80_dec {sys : EncSys} (g : sys.Good) (mem : Bytes) (inp n outp outlen pwp pwlen : Nat) (P : EncParams) (verbose force : Bool)
    (hn : n < 2 ^ 64) (hin : inp + n ≤ mem.length) (hout : outp + n ≤ mem.length) (hpw : pwp + pwlen ≤ mem.length)
    (hov : Apart inp n outp (n - 128)) :
    scryptdec_bufM sys mem inp n outp outlen pwp pwlen P verbose force =
      scryptdec_buf sys (region mem inp n) (region mem outp n) outlen (region mem pwp pwlen) P verbose force >>=
        fun o => .ok (inMem mem outp o) := by
  have lI : (sl mem inp n).length = n := sl_length _ _ _ hin
  have hself : store mem outp (sl mem outp n) = mem := ow_self hout
  show _ = scryptdec_buf sys (sl mem inp n) (sl mem outp n) outlen (sl mem pwp pwlen) P verbose force >>= fun o => .ok (inMem mem outp o)
  rcases decBufM_head (sys := sys) mem inp n outp outlen pwp pwlen P verbose force (sl mem outp n) hin hpw with
    ⟨rc, P', dk, tr, err, sm, e1, e2, -⟩ | ⟨e1, e2⟩ | ⟨e1, e2⟩ | ⟨s, hs, h0, h128, e1, e2⟩
  · rw [e1, e2, Res.bind_ok]
    unfold inMem
    simp only []
    rw [hself]
  · rw [e1, e2]; rfl
  · rw [e1, e2]; rfl
  have hdk : s.dk.length = 64 := by rw [decSetup_dk g (by omega) hs h0]; exact inpKey_length _ _
  have lP : (plaintext s.dk (sl mem inp n)).length = n - 128 := by rw [plain_len, lI]; exact Nat.min_eq_left (by omega)
  rw [e1, e2, decBodyM_ok g mem inp n outp outlen h128 hn hin hout (by unfold Apart at hov; omega) s hdk,
    decBufBody_ok g (sl mem inp n) (sl mem outp n) outlen (by omega) (by omega) (by rw [lI, sl_length _ _ _ hout]) s hdk, lI]
  have hsame : sl (ow mem outp (plaintext s.dk (sl mem inp n))) inp n = sl mem inp n :=
    sl_ow_disj _ _ _ (by omega) _ _ (by unfold Apart at hov; omega)
  rw [hsame]
  by_cases hc : aesCode sys = .OK
  case neg =>
    rw [if_pos hc, if_pos hc, Res.bind_ok]
    unfold inMem
    simp only []
    rw [hself]
  rw [if_neg (not_not.2 hc), if_neg (not_not.2 hc), Res.bind_ok]
  unfold inMem
  simp only []
  have hz := ow_region (m := mem) (z := plaintext s.dk (sl mem inp n)) (o := outp) (k := n) hout (by omega)
  rw [show plaintext s.dk (sl mem inp n) ++ (sl mem outp n).drop (n - 128) = ow (sl mem outp n) 0 (plaintext s.dk (sl mem inp n)) by
    unfold ow
    rw [List.take_zero, List.nil_append, Nat.zero_add, lP]]
  rw [show store mem outp (ow (sl mem outp n) 0 (plaintext s.dk (sl mem inp n))) = ow mem outp (plaintext s.dk (sl mem inp n)) from hz]

/-- C80. If instead the output starts inside the input, no later than the encrypted data (for example
`outbuf = inbuf`), and a call with separate buffers would accept the input, then the plaintext delivered is the
right one and `*outlen` too, but the code is decided by the input as the plaintext has left it: the decryption
comes first, the signature is checked after. -/
theorem C80_dec_overlap {sys : EncSys} (g : sys.Good) (mem : Bytes) (inp n outp outlen pwp pwlen : Nat) (P : EncParams) (verbose force : Bool)
    (hn : n < 2 ^ 64) (hin : inp + n ≤ mem.length) (hout : outp + n ≤ mem.length) (hpw : pwp + pwlen ≤ mem.length)
    (hov : outp ≤ inp + 96) {ob : Bytes} (hob : n ≤ ob.length) {o : BufOut}
    (h : scryptdec_buf sys (region mem inp n) ob outlen (region mem pwp pwlen) P verbose force = .ok o) (hok : o.rc = .OK) :
    ∃ o2, scryptdec_bufM sys mem inp n outp outlen pwp pwlen P verbose force = .ok o2 ∧
      o2.outlen = n - 128 ∧ o2.out = store mem outp (o.out.take (n - 128)) ∧
      (TagOk (inpKey (region mem pwp pwlen) (region mem inp n)) (region o2.out inp n) → o2.rc = .OK) ∧
      (¬ TagOk (inpKey (region mem pwp pwlen) (region mem inp n)) (region o2.out inp n) → o2.rc = .EINVAL) := by
  have lI : (sl mem inp n).length = n := sl_length _ _ _ hin
  have h : scryptdec_buf sys (sl mem inp n) ob outlen (sl mem pwp pwlen) P verbose force = .ok o := h
  rcases decBufM_head (sys := sys) mem inp n outp outlen pwp pwlen P verbose force ob hin hpw with
    ⟨rc, P', dk, tr, err, sm, e1, e2, hne⟩ | ⟨e1, e2⟩ | ⟨e1, e2⟩ | ⟨s, hs, h0, h128, e1, e2⟩
  · rw [e2] at h; cases h; exact absurd hok hne
  · rw [e2] at h; cases h
  · rw [e2] at h; cases h
  have hkey := decSetup_dk g (by omega) hs h0
  have hdk : s.dk.length = 64 := by rw [hkey]; exact inpKey_length _ _
  rw [e2, decBufBody_ok g (sl mem inp n) ob outlen (by omega) (by omega) (by omega) s hdk] at h
  have lP : (plaintext s.dk (sl mem inp n)).length = n - 128 := by rw [plain_len, lI]; exact Nat.min_eq_left (by omega)
  rw [e1, decBodyM_ok g mem inp n outp outlen h128 hn hin hout (by omega) s hdk]
  by_cases hc : aesCode sys = .OK
  case neg => rw [if_pos hc] at h; cases h; exact absurd hok hc
  rw [if_neg (not_not.2 hc)] at h ⊢
  cases h
  have hout2 : ow mem outp (plaintext s.dk (sl mem inp n)) =
      store mem outp ((plaintext s.dk (sl mem inp n) ++ ob.drop ((sl mem inp n).length - 128)).take (n - 128)) := by
    rw [List.take_append_of_le_length (by omega), List.take_of_length_le (by omega)]
    rfl
  have hk2 : inpKey (region mem pwp pwlen) (region mem inp n) = s.dk := hkey.symm
  rw [hk2]
  by_cases ht : TagOk s.dk (sl (ow mem outp (plaintext s.dk (sl mem inp n))) inp n)
  · rw [if_pos ht]
    exact ⟨_, rfl, rfl, hout2, fun _ => rfl, fun hn => absurd ht hn⟩
  · rw [if_neg ht]
    exact ⟨_, rfl, rfl, hout2, fun hn => absurd hn ht, fun _ => rfl⟩

/-- C80. So an authentic input can practically not be decrypted in place: with `outbuf = inbuf`, unless the
plaintext happens to equal the beginning of the container, success means that two different messages with the same
HMAC-SHA256 have been found. -/
theorem C80_dec_in_place {sys : EncSys} (g : sys.Good) (mem : Bytes) (inp n outlen pwp pwlen : Nat) (P : EncParams) (verbose force : Bool)
    (hn : n < 2 ^ 64) (hin : inp + n ≤ mem.length) (hpw : pwp + pwlen ≤ mem.length) {ob : Bytes} (hob : n ≤ ob.length) {o : BufOut}
    (h : scryptdec_buf sys (region mem inp n) ob outlen (region mem pwp pwlen) P verbose force = .ok o) (hok : o.rc = .OK)
    (hdiff : o.out.take (n - 128) ≠ region mem inp (n - 128)) {o2 : BufOut}
    (h2 : scryptdec_bufM sys mem inp n inp outlen pwp pwlen P verbose force = .ok o2) (hok2 : o2.rc = .OK) :
    ∃ key a b, a ≠ b ∧ hmac key a = hmac key b := by
  have lI : (sl mem inp n).length = n := sl_length _ _ _ hin
  have hrsl : ∀ m : Bytes, region m inp n = sl m inp n := fun _ => rfl
  obtain ⟨o3, e3, -, hmem, -, hT⟩ := C80_dec_overlap g mem inp n inp outlen pwp pwlen P verbose force hn hin hin hpw (by omega) hob h hok
  rw [h2] at e3
  cases e3
  have hT2 : TagOk (inpKey (region mem pwp pwlen) (region mem inp n)) (region o2.out inp n) := by
    by_contra hc
    rw [hT hc] at hok2
    cases hok2
  have hspec := decBuf_spec g (by rw [hrsl, lI]; omega) (by rw [hrsl, lI]; omega) h
  have hTag : TagOk (inpKey (region mem pwp pwlen) (region mem inp n)) (region mem inp n) ∧ 128 ≤ n := by
    have hrc := hspec.rc
    rw [hok] at hrc
    unfold bufVerdict at hrc
    split_ifs at hrc with c1 c2 c3 c4 c5 c6 c7 c8 c9
    · exact absurd hrc.symm c5
    · exact absurd hrc.symm c8
    · exact ⟨c9, by rw [hrsl, lI] at c3; omega⟩
  obtain ⟨hTag, h128⟩ := hTag
  set key := inpKey (region mem pwp pwlen) (region mem inp n) with hkey
  have lo : (o.out.take (n - 128)).length = n - 128 := by
    by_contra hc
    have : o.out.length < n - 128 := by
      rw [List.length_take] at hc; omega
    have h1 := hspec.out_no
    by_cases hu : Unlocked sys (region mem pwp pwlen) P verbose force (region mem inp n) 128 ∧ aesCode sys = .OK
    · have := (hspec.out_yes hu.1 hu.2).1
      have hl := congrArg List.length this
      rw [List.length_append, plain_len, List.length_drop, hrsl, lI] at hl
      omega
    · have := (h1 hu).1
      rw [this] at hc
      rw [List.length_take] at hc
      omega
  have lm : o2.out.length = mem.length := by rw [hmem]; exact ow_length _ _ _ (by omega)
  have lJ : (region o2.out inp n).length = n := sl_length _ _ _ (by omega)
  unfold TagOk at hTag hT2
  rw [lJ] at hT2
  rw [hrsl, lI, ← hrsl] at hTag
  have htail : (region o2.out inp n).drop (n - 32) = (region mem inp n).drop (n - 32) := by
    apply List.ext_getElem?
    intro i
    rw [List.getElem?_drop, List.getElem?_drop, hrsl, hrsl, sl_getElem?, sl_getElem?, hmem]
    have : (store mem inp (o.out.take (n - 128)))[inp + (n - 32 + i)]? = mem[inp + (n - 32 + i)]? := by
      show (ow mem inp (o.out.take (n - 128)))[inp + (n - 32 + i)]? = _
      rw [ow_getElem? mem inp (o.out.take (n - 128)) (by omega), if_neg (by omega)]
    rw [this]
  refine ⟨keyHmac key, (region o2.out inp n).take (n - 32), (region mem inp n).take (n - 32), ?_, ?_⟩
  · intro he
    apply hdiff
    have := congrArg (List.take (n - 128)) he
    rw [List.take_take, List.take_take, Nat.min_eq_left (by omega)] at this
    have t1 : ∀ m : Bytes, (region m inp n).take (n - 128) = sl m inp (n - 128) := by
      intro m
      unfold region sl
      rw [List.take_take, Nat.min_eq_left (by omega)]
    rw [t1, t1, hmem] at this
    have hs : sl (store mem inp (o.out.take (n - 128))) inp (n - 128) = o.out.take (n - 128) := sl_ow_same' mem inp _ _ lo (by omega)
    rw [hs] at this
    exact this
  · rw [← hT2, ← hTag, htail]

/-! ### Examples -/

/-- The condition of `C80_stream` cannot be dropped: with the output one byte after the input, a stream in the
middle of an all-zero key block repeats the first byte instead of copying four. -/
theorem C80_boundary : ∃ (s : CtrStream) (mem : Bytes),
    (∃ s', crypto_aesctr_streamM .software (fun _ b => b) [] s mem 0 1 4 = .ok (s', [1, 1, 1, 1, 1])) ∧
    ∃ s', crypto_aesctr_stream .software (fun _ b => b) [] s (region mem 0 4) 4 = .ok (s', [1, 2, 3, 4]) :=
  ⟨⟨.ossl [], 1, List.replicate 16 0, List.replicate 16 0⟩, [1, 2, 3, 4, 5],
    ⟨⟨.ossl [], 5, List.replicate 16 0, List.replicate 16 0⟩, by decide +kernel⟩,
    ⟨.ossl [], 5, List.replicate 16 0, List.replicate 16 0⟩, by decide +kernel⟩

/-- A memory with three bytes of data at index 96, room for the container around it, and a passphrase. -/
def exArea : Bytes := List.replicate 96 0 ++ [1, 2, 3] ++ List.replicate 101 0

set_option maxRecDepth 4000 in
/-- Non-vacuity for `C80_enc`, `C80_enc_loses`: the data is encrypted where it lies (the passphrase is `mem[190 .. 193]`), the
call succeeds, the container decrypts to the data, and before the call the first 96 bytes of the memory did not matter. -/
example (sha : ShaHw) (hw : AesHw) : ∃ o o2, scryptenc_bufM (exEnc sha hw exSalt) exArea 96 3 0 190 4 exP false false = .ok o ∧ o.rc = .OK ∧
    scryptdec_buf (exEnc sha hw exSalt) (region o.out 0 131) (List.replicate 131 9) 77 (region exArea 190 4) exP0 true false = .ok o2 ∧ o2.rc = .OK ∧
    o2.out.take o2.outlen = [1, 2, 3] ∧
    scryptenc_bufM (exEnc sha hw exSalt) (List.replicate 96 7 ++ [1, 2, 3] ++ List.replicate 101 0) 96 3 0 190 4 exP false false = .ok o := by
  obtain ⟨o, h, hok, hP⟩ := exEnc_buf sha hw exSalt_length (region exArea 96 3) (region exArea 0 131) (region exArea 190 4) (by decide)
    (by decide) false false
  have g := exEnc_good sha hw exSalt_length
  have e := C80_enc g exArea 96 3 0 190 4 exP false false (by decide) (by decide) (by decide) (by decide)
  rw [h, Res.bind_ok] at e
  have hl : o.out.length = 131 := by
    obtain ⟨salt, l, i1, -, -, -, -, i6⟩ := encBuf_inv g (by decide) (by decide) h hok
    rw [i6, List.length_append, container_length _ _ _ _ _ _ (g.salt _ i1)]
    decide
  have hr : region (inMem exArea 0 o).out 0 131 = o.out.take 131 := by
    rw [List.take_of_length_le (by omega)]
    exact sl_ow_same' exArea 0 131 o.out hl (by decide)
  obtain ⟨o2, h2, r, -, t, -⟩ := C01_roundtrip (outlen := 77) (outbuf2 := List.replicate 131 9) (P2 := exP0) (verbose2 := true) (force2 := false)
    g g (exEnc_ready sha hw exSalt) (m := region exArea 96 3)
    (by decide) (by decide) h hok (by rw [List.length_replicate]; decide) (by decide)
    (exLimits _ _ _ _ rfl _ _) (by rw [hP]; exact exPass _ _ _ _ rfl rfl rfl _) (by rw [hP]; exact exEnc_kdf _ _ _) (exEnc_aes _ _ _)
  refine ⟨_, o2, e, hok, ?_, r, t, ?_⟩
  · rw [hr]; exact h2
  · refine C80_enc_loses g exArea _ 96 3 0 190 4 exP false false (by decide) (by decide) (by decide) (by unfold Apart; omega) ?_ e hok
    intro i hi
    have h96 : 96 ≤ i := by omega
    unfold exArea
    have hz : ∀ (b : Byte) (t : Bytes), (List.replicate 96 b ++ t)[i]? = t[i - 96]? := by
      intro b t
      rw [List.getElem?_append_right (by rw [List.length_replicate]; exact h96), List.length_replicate]
    rw [List.append_assoc, List.append_assoc, hz, hz]

set_option maxRecDepth 4000 in
/-- Non-vacuity for `C80_enc_over_input`. -/
example (sha : ShaHw) (hw : AesHw) : ∃ o o2, scryptenc_buf (exEnc sha hw exSalt) (region exArea 0 3) (List.replicate 131 9) (region exArea 190 4) exP false false = .ok o ∧
    o.rc = .OK ∧ scryptenc_bufM (exEnc sha hw exSalt) exArea 0 3 0 190 4 exP false false = .ok o2 ∧ o2.rc = .OK := by
  obtain ⟨o, h, hok, -⟩ := exEnc_buf sha hw exSalt_length (region exArea 0 3) (List.replicate 131 9) (region exArea 190 4) (by decide)
    (by decide) false false
  obtain ⟨o2, -, -, -, h2, h3, -⟩ := C80_enc_over_input (exEnc_good sha hw exSalt_length) exArea 0 3 190 4 exP false false (by decide) (by decide)
    (by decide) (by decide) h hok
  exact ⟨o, o2, h, hok, h2, h3⟩

set_option maxRecDepth 4000 in
/-- Non-vacuity for `C80_dec`, `C80_dec_overlap`, `C80_dec_in_place`: a container followed by room for the plaintext and a passphrase is
accepted when decrypted next to itself; decrypted over itself it delivers the same three bytes, and they differ from its own first three. -/
theorem exDec_area (sha : ShaHw) (hw : AesHw) : ∃ (mem : Bytes) (o o1 o2 : BufOut),
    scryptdec_buf (exEnc sha hw exSalt) (region mem 0 131) (region mem 131 131) 77 (region mem 262 4) exP0 true false = .ok o ∧ o.rc = .OK ∧
    scryptdec_bufM (exEnc sha hw exSalt) mem 0 131 131 77 262 4 exP0 true false = .ok o1 ∧ o1.rc = .OK ∧ region o1.out 131 3 = [1, 2, 3] ∧
    scryptdec_bufM (exEnc sha hw exSalt) mem 0 131 0 77 262 4 exP0 true false = .ok o2 ∧ region o2.out 0 3 = [1, 2, 3] ∧
    o.out.take (131 - 128) ≠ region mem 0 (131 - 128) := by
  have g := exEnc_good sha hw exSalt_length
  obtain ⟨oe, h, hok, hP⟩ := exEnc_buf sha hw exSalt_length [1, 2, 3] (List.replicate 131 0) [0, 0, 0, 0] (by decide)
    (by decide) true false
  have hcont := encBuf_inv g (by decide) (by decide) h hok
  obtain ⟨salt, l, i1, -, -, -, -, i6⟩ := hcont
  have hcl := container_length (scryptCode [0, 0, 0, 0] salt (2 ^ l) oe.P.r.toNat oe.P.p.toNat 64) l oe.P.r.toNat oe.P.p.toNat salt [1, 2, 3] (g.salt _ i1)
  have hl : oe.out.length = 131 := by
    rw [i6, List.length_append, hcl]
    decide
  have hlm : (oe.out ++ List.replicate 135 0).length = 266 := by rw [List.length_append, hl, List.length_replicate]
  have r1 : region (oe.out ++ List.replicate 135 0) 0 131 = oe.out.take 131 := by
    unfold region
    rw [List.drop_zero, List.take_append_of_le_length (by omega)]
  have r2 : region (oe.out ++ List.replicate 135 0) 262 4 = [0, 0, 0, 0] := by
    unfold region
    rw [List.drop_append, List.drop_of_length_le (by omega), hl, List.nil_append]
    decide
  obtain ⟨o, h2, r, ol, t, -⟩ := C01_roundtrip (outlen := 77) (outbuf2 := region (oe.out ++ List.replicate 135 0) 131 131) (P2 := exP0) (verbose2 := true) (force2 := false)
    g g (exEnc_ready sha hw exSalt) (by decide) (by decide) h hok
    (by rw [show (region (oe.out ++ List.replicate 135 0) 131 131).length = 131 from sl_length _ _ _ (by omega)]; decide) (by decide)
    (exLimits _ _ _ _ rfl _ _) (by rw [hP]; exact exPass _ _ _ _ rfl rfl rfl _) (by rw [hP]; exact exEnc_kdf _ _ _) (exEnc_aes _ _ _)
  have h2 : scryptdec_buf (exEnc sha hw exSalt) (oe.out.take 131) (region (oe.out ++ List.replicate 135 0) 131 131) 77 [0, 0, 0, 0] exP0 true false = .ok o := h2
  rw [← r1, ← r2] at h2
  rw [ol] at t
  have t3 : o.out.take 3 = [1, 2, 3] := t
  have e1 := C80_dec g (oe.out ++ List.replicate 135 0) 0 131 131 77 262 4 exP0 true false (by decide) (by omega) (by omega) (by omega) (by unfold Apart; omega)
  rw [h2, Res.bind_ok] at e1
  obtain ⟨o2, e2, -, m2, -, -⟩ := C80_dec_overlap g (oe.out ++ List.replicate 135 0) 0 131 0 77 262 4 exP0 true false (by decide) (by omega) (by omega) (by omega)
    (by omega) (by rw [show (region (oe.out ++ List.replicate 135 0) 131 131).length = 131 from sl_length _ _ _ (by omega)]) h2 r
  have hol : o.out.length = 131 := by
    have hs := decBuf_spec g (by rw [r1, List.length_take]; omega) (by rw [r1, List.length_take, hl]; exact Nat.le_of_eq (by rw [show (region (oe.out ++ List.replicate 135 0) 131 131).length = 131 from sl_length _ _ _ (by omega)]; rfl)) h2
    by_cases hu : Unlocked (exEnc sha hw exSalt) (region (oe.out ++ List.replicate 135 0) 262 4) exP0 true false (region (oe.out ++ List.replicate 135 0) 0 131) 128 ∧ aesCode (exEnc sha hw exSalt) = .OK
    · rw [(hs.out_yes hu.1 hu.2).1, List.length_append, plain_len, List.length_drop, r1, List.length_take, hl,
        show (region (oe.out ++ List.replicate 135 0) 131 131).length = 131 from sl_length _ _ _ (by omega)]
      decide
    · rw [(hs.out_no hu).1]
      exact sl_length _ _ _ (by omega)
  refine ⟨_, o, _, o2, h2, r, e1, r, ?_, e2, ?_, ?_⟩
  · show region (store _ 131 o.out) 131 3 = _
    have := sl_ow_inside (oe.out ++ List.replicate 135 0) 131 o.out (by omega) 0 3 (by omega)
    show sl (ow _ 131 o.out) 131 3 = _
    rw [Nat.add_zero] at this
    rw [this]
    unfold sl
    rw [List.drop_zero, t3]
  · rw [m2, show (131 - 128) = 3 from rfl, t3]
    show sl (ow _ 0 _) 0 3 = _
    exact sl_ow_same' _ 0 3 [1, 2, 3] rfl (by omega)
  · rw [show (131 - 128) = 3 from rfl, t3]
    intro hc
    have : oe.out[0]? = some 1 := by
      have := congrArg (fun l => l[0]?) hc
      simp only [region, List.drop_zero, List.getElem?_take] at this
      rw [List.getElem?_append_left (by omega)] at this
      simpa using this.symm
    rw [i6] at this
    rw [List.getElem?_append_left (by rw [hcl]; decide)] at this
    have h0 : (container (scryptCode [0, 0, 0, 0] salt (2 ^ l) oe.P.r.toNat oe.P.p.toNat 64) l oe.P.r.toNat oe.P.p.toNat salt [1, 2, 3])[0]? = some 0x73 := by
      simp [container, header96, header64, header48, magic]
    rw [h0] at this
    cases this

end Scrypt.Props
