import Verif.Proofs.DefinedSmix
import Verif.Proofs.AccessEnc
/-
`WrittenFirst` for AES-CTR.
-/
namespace Scrypt
open Spec Logged

variable {may D : Cells}

theorem def_rd' {α : Type} {a : Arr} {m : List α} {i : Nat} (h : D a i) : Def may D (rdT a m i) (fun v => rd m i = .ok v) (fun _ => noCells) := by
  unfold rdT
  rw [← accs_one]
  exact def_reads (Has.of fun j h1 h2 => (show j = i by omega) ▸ h)

theorem def_wrv {α : Type} {a : Arr} {m : List α} {i : Nat} {v : α} (h : may a i) :
    Def may D (wrT a m i v) (fun m' => wr m i v = .ok m') (fun _ => cells a i 1) := by
  unfold wrT
  rw [← accs_one]
  exact (def_writes (Has.of fun j h1 h2 => (show j = i by omega) ▸ h)).conseq (fun _ e => e) fun _ _ => Has.right (Has.refl _)

/-- What encrypting may rely on: it may write the expanded key, the stream, the counter block and the digest. -/
structure CEnv (may : Cells) : Prop where
  rkeys : Has may (cells (.c .rkeys) 0 15)
  bytectr : Has may (cells (.c .bytectr) 0 1)
  kblk : Has may (cells (.c .kblk) 0 16)
  pblk : Has may (cells (.c .pblk) 0 16)
  cblk : Has may (cells (.c .cblk) 0 8)

/-! ### Key expansion -/

theorem def_q_loadT {a : Arr} {m : Bytes} {off : Nat} (h : Has D (cells a off 16)) : Def0 may D (q_loadT a m off) := (def_reads h).drop

theorem has_next {a : Arr} {i : Nat} (h : Has D (cells a 0 i)) : Has (both D (cells a i 1)) (cells a 0 (i + 1)) :=
  Has.join (n := i) (m := 1) (Has.left h) (Has.right (by rw [Nat.zero_add]; exact Has.refl _)) (by omega) (by omega)

theorem def_mk128_aesniT {rk : List Bytes} {i : Nat} {c : Byte} (he : CEnv may) (h : Has D (cells (.c .rkeys) 0 i)) (hi : 1 ≤ i ∧ i < 15) :
    Def may D (MKRKEY128_aesniT rk i c) (fun _ => True) (fun _ => cells (.c .rkeys) 0 (i + 1)) := by
  unfold MKRKEY128_aesniT
  iterate 2 refine def_seq (def_rd (h.at (by omega) (by omega))) fun _ _ => ?_
  exact (def_wr (he.rkeys.at (by omega) (by omega))).conseq (fun _ _ => trivial) fun _ _ => has_next h

theorem def_mk256_aesniT {rk : List Bytes} {i s : Nat} {c : Byte} (he : CEnv may) (h : Has D (cells (.c .rkeys) 0 i)) (hi : 2 ≤ i ∧ i < 15) :
    Def may D (MKRKEY256_aesniT rk i s c) (fun _ => True) (fun _ => cells (.c .rkeys) 0 (i + 1)) := by
  unfold MKRKEY256_aesniT
  iterate 2 refine def_seq (def_rd (h.at (by omega) (by omega))) fun _ _ => ?_
  exact (def_wr (he.rkeys.at (by omega) (by omega))).conseq (fun _ _ => trivial) fun _ _ => has_next h

theorem def_mk256_armT {rk : List Bytes} {i : Nat} {c : W32} (he : CEnv may) (h : Has D (cells (.c .rkeys) 0 i)) (hi : 2 ≤ i ∧ i < 15) :
    Def may D (MKRKEY256_armT rk i c) (fun _ => True) (fun _ => cells (.c .rkeys) 0 (i + 1)) := by
  unfold MKRKEY256_armT
  iterate 2 refine def_seq (def_rd (h.at (by omega) (by omega))) fun _ _ => ?_
  exact (def_wr (he.rkeys.at (by omega) (by omega))).conseq (fun _ _ => trivial) fun _ _ => has_next h

theorem def_expand256_aesniT {key : Bytes} {rk : List Bytes} (he : CEnv may) (hd : Has D (cells (.c .dk) 0 32)) :
    Def may D (crypto_aes_key_expand_256_aesniT key rk) (fun _ => True) (fun _ => cells (.c .rkeys) 0 15) := by
  unfold crypto_aes_key_expand_256_aesniT
  refine def_seq (def_q_loadT (hd.sub (by omega) (by omega))) fun k _ => ?_
  refine def_bind (def_wr (he.rkeys.at (by omega) (by omega))) fun rk _ => ?_
  refine def_seq (def_q_loadT (Has.left (hd.sub (by omega) (by omega)))) fun k _ => ?_
  refine def_bind ((def_wr (he.rkeys.at (by omega) (by omega))).conseq (P' := fun _ => cells (.c .rkeys) 0 2) (R' := fun _ => True) (fun _ _ => trivial)
    fun _ _ => has_next (Has.right (Has.refl _))) fun rk _ => ?_
  iterate 12 refine def_bind (def_mk256_aesniT he (Has.right (Has.refl _)) (by omega)) fun rk _ => ?_
  exact def_mk256_aesniT he (Has.right (Has.refl _)) (by omega)

theorem def_expand256_armT {key : Bytes} {rk : List Bytes} (he : CEnv may) (hd : Has D (cells (.c .dk) 0 32)) :
    Def may D (crypto_aes_key_expand_256_armT key rk) (fun _ => True) (fun _ => cells (.c .rkeys) 0 15) := by
  unfold crypto_aes_key_expand_256_armT
  refine def_seq (def_q_loadT (hd.sub (by omega) (by omega))) fun k _ => ?_
  refine def_bind (def_wr (he.rkeys.at (by omega) (by omega))) fun rk _ => ?_
  refine def_seq (def_q_loadT (Has.left (hd.sub (by omega) (by omega)))) fun k _ => ?_
  refine def_bind ((def_wr (he.rkeys.at (by omega) (by omega))).conseq (P' := fun _ => cells (.c .rkeys) 0 2) (R' := fun _ => True) (fun _ _ => trivial)
    fun _ _ => has_next (Has.right (Has.refl _))) fun rk _ => ?_
  iterate 12 refine def_bind (def_mk256_armT he (Has.right (Has.refl _)) (by omega)) fun rk _ => ?_
  exact def_mk256_armT he (Has.right (Has.refl _)) (by omega)

/-- The elements of an expanded key that are used. -/
def keyCells : AesKey → Cells
  | .ossl _ => noCells
  | _ => cells (.c .rkeys) 0 15

/-- There are at most 14 rounds. -/
def KeyFits : AesKey → Prop
  | .aesni k => k.nr ≤ 14
  | .arm k => k.nr ≤ 14
  | .ossl _ => True

theorem def_key_expandT {hw : AesHw} {env : AesEnv} {key : Bytes} (he : CEnv may) (hd : Has D (cells (.c .dk) 0 32)) :
    Def may D (crypto_aes_key_expandT hw env key 32) (fun r => ∀ k, r = some k → KeyFits k)
      (fun r => match r with | some k => keyCells k | none => noCells) := by
  unfold crypto_aes_key_expandT
  refine def_seq (def_quiet (R := fun _ => True) fun _ _ => trivial) fun _ _ => ?_
  cases hw with
  | x86_aesni =>
    dsimp only
    unfold crypto_aes_key_expand_aesniT
    cases env.mem with
    | none => exact def_bind (def_pure (R := fun r => r = none) (P := fun _ => noCells) rfl (Has.none _)) fun r hr => by subst hr; exact def_pure (fun _ h => nomatch h) (Has.none _)
    | some rk =>
      dsimp only
      rw [if_neg (show ¬((32 : Nat) = 16) by decide), if_pos rfl]
      refine def_bind (R := fun r => ∃ k, r = some k ∧ k.nr ≤ 14) (P := fun _ => cells (.c .rkeys) 0 15)
        (def_bind (def_expand256_aesniT he hd) fun rk _ => def_pure ⟨_, rfl, Nat.le_refl 14⟩ (Has.right (Has.refl _))) ?_
      rintro r ⟨k, rfl, hk⟩
      refine def_pure (fun k' e => ?_) (Has.right (Has.refl _))
      obtain rfl := Option.some.inj e
      exact hk
  | arm_aes =>
    dsimp only
    unfold crypto_aes_key_expand_armT
    cases env.mem with
    | none => exact def_bind (def_pure (R := fun r => r = none) (P := fun _ => noCells) rfl (Has.none _)) fun r hr => by subst hr; exact def_pure (fun _ h => nomatch h) (Has.none _)
    | some rk =>
      dsimp only
      rw [if_neg (show ¬((32 : Nat) = 16) by decide), if_pos rfl]
      refine def_bind (R := fun r => ∃ k, r = some k ∧ k.nr ≤ 14) (P := fun _ => cells (.c .rkeys) 0 15)
        (def_bind (def_expand256_armT he hd) fun rk _ => def_pure ⟨_, rfl, Nat.le_refl 14⟩ (Has.right (Has.refl _))) ?_
      rintro r ⟨k, rfl, hk⟩
      refine def_pure (fun k' e => ?_) (Has.right (Has.refl _))
      obtain rfl := Option.some.inj e
      exact hk
  | software =>
    dsimp only
    refine def_ite (fun _ => def_pure (fun _ h => nomatch h) (Has.none _)) fun _ => ?_
    refine def_seq (def_rdSlice hd) fun b _ => ?_
    refine def_pure (fun k' e => ?_) (Has.none _)
    obtain rfl := Option.some.inj e
    exact trivial

/-! ### One block -/

theorem def_block_aesniT {inp : Bytes} {key : HwKey} (h : Has D (cells (.c .rkeys) 0 15)) (hn : key.nr ≤ 14) :
    Def0 may D (crypto_aes_encrypt_block_aesni_m128iT inp key) := by
  unfold crypto_aes_encrypt_block_aesni_m128iT
  iterate 10 refine def_seq (def_rd (h.at (by omega) (by omega))) fun _ _ => ?_
  refine def_seq (R := fun _ => True) (P := fun _ => noCells) (def_ite (fun _ => ?_) fun _ => def_pure0) fun _ _ => ?_
  · iterate 4 refine def_seq (def_rd (h.at (by omega) (by omega))) fun _ _ => ?_
    exact def_pure0
  · exact def_seq (def_rd (h.at (by omega) (by omega))) fun _ _ => def_pure0

theorem def_block_armT {inp : Bytes} {key : HwKey} (h : Has D (cells (.c .rkeys) 0 15)) (hn : key.nr ≤ 14) :
    Def0 may D (crypto_aes_encrypt_block_arm_u8T inp key) := by
  unfold crypto_aes_encrypt_block_arm_u8T
  iterate 9 refine def_seq (def_rd (h.at (by omega) (by omega))) fun _ _ => ?_
  refine def_seq (R := fun _ => True) (P := fun _ => noCells) (def_ite (fun _ => ?_) fun _ => def_pure0) fun _ _ => ?_
  · iterate 4 refine def_seq (def_rd (h.at (by omega) (by omega))) fun _ _ => ?_
    exact def_pure0
  · iterate 2 refine def_seq (def_rd (h.at (by omega) (by omega))) fun _ _ => ?_
    exact def_pure0

theorem def_encrypt_blockT {a b : Arr} {hw : AesHw} {ossl : Ossl} {inp : Bytes} {key : AesKey} (ha : Has D (cells a 0 16)) (hb : Has may (cells b 0 16))
    (hk : Has D (keyCells key)) (hf : KeyFits key) : Def may D (crypto_aes_encrypt_blockT a b hw ossl inp key) (fun _ => True) (fun _ => cells b 0 16) := by
  unfold crypto_aes_encrypt_blockT
  split
  · unfold crypto_aes_encrypt_block_aesniT
    refine def_seq (def_q_loadT ha) fun _ _ => def_seq (def_block_aesniT hk hf) fun _ _ => ?_
    exact (def_writes hb).conseq (fun _ _ => trivial) fun _ _ => Has.right (Has.refl _)
  · unfold crypto_aes_encrypt_block_armT
    refine def_seq (def_q_loadT ha) fun _ _ => def_seq (def_block_armT hk hf) fun _ _ => ?_
    exact (def_writes hb).conseq (fun _ _ => trivial) fun _ _ => Has.right (Has.refl _)
  · exact def_log (wf_append.2 ⟨wf_reads fun _ h1 h2 => ha.at h1 h2, wf_writes fun _ h1 h2 => hb.at h1 h2⟩) fun _ _ =>
      ⟨trivial, fun _ _ h => Or.inr (List.mem_append.2 (Or.inr (mem_accs'.2 ⟨h.1, rfl, h.2⟩)))⟩
  · exact def_log (wf_nil _ _) fun _ e => nomatch e

/-! ### The stream -/

/-- The elements of a stream that have a value: the counter and the nonce; the whole block once the first counter value has been stored (until then its last byte is 0xff);
the key stream block unless the position is at a block boundary. -/
def streamCells (s : CtrStream) : Cells :=
  both (both (both (cells (.c .bytectr) 0 1) (cells (.c .pblk) 15 1)) (cells (.c .pblk) 0 (if s.pblk[15]? = some 0xff then 8 else 16)))
    (both (cells (.c .kblk) 0 (if s.bytectr % 16 = 0 then 0 else 16)) (keyCells s.key))

structure StreamIn (D : Cells) (s : CtrStream) : Prop where
  ctr : Has D (cells (.c .bytectr) 0 1)
  last : Has D (cells (.c .pblk) 15 1)
  pblk : Has D (cells (.c .pblk) 0 (if s.pblk[15]? = some 0xff then 8 else 16))
  kblk : Has D (cells (.c .kblk) 0 (if s.bytectr % 16 = 0 then 0 else 16))
  key : Has D (keyCells s.key)

theorem StreamIn.of {s : CtrStream} (h : Has D (streamCells s)) : StreamIn D s :=
  ⟨fun a i x => h a i (Or.inl (Or.inl (Or.inl x))), fun a i x => h a i (Or.inl (Or.inl (Or.inr x))), fun a i x => h a i (Or.inl (Or.inr x)),
    fun a i x => h a i (Or.inr (Or.inl x)), fun a i x => h a i (Or.inr (Or.inr x))⟩

theorem StreamIn.has {s : CtrStream} (h : StreamIn D s) : Has D (streamCells s) := Has.both (Has.both (Has.both h.ctr h.last) h.pblk) (Has.both h.kblk h.key)

theorem StreamIn.mono {D' : Cells} {s : CtrStream} (h : StreamIn D s) (hd : Has D' D) : StreamIn D' s := StreamIn.of (hd.trans h.has)
theorem StreamIn.both {E : Cells} {s : CtrStream} (h : StreamIn D s) : StreamIn (both D E) s := h.mono (Has.left (Has.refl _))

theorem def_bytectrR (h : Has D (cells (.c .bytectr) 0 1)) : Def0 may D (bytectrT false) := by
  unfold bytectrT
  rw [← accs_one]
  exact (def_reads h).drop

theorem def_bytectrW (h : CEnv may) : Def may D (bytectrT true) (fun _ => True) (fun _ => cells (.c .bytectr) 0 1) := by
  unfold bytectrT
  rw [← accs_one]
  exact (def_writes h.bytectr).conseq (fun _ _ => trivial) fun _ _ => Has.right (Has.refl _)

theorem rd_wr {α : Type} {m m' : List α} {i : Nat} {v w : α} (h : wr m i v = .ok m') (h' : rd m' i = .ok w) : w = v := by
  unfold wr at h
  split at h
  · obtain rfl := Res.ok.inj h
    unfold rd at h'
    rename_i hl
    rw [List.getElem?_set_self hl] at h'
    exact (Res.ok.inj h').symm
  · cases h

theorem rd_getElem {α : Type} {m : List α} {i : Nat} {w : α} (h : rd m i = .ok w) : m[i]? = some w := by
  unfold rd at h
  split at h
  · rename_i x hx
    rw [hx, Res.ok.inj h]
  · cases h

theorem def_generateT {hw : AesHw} {ossl : Ossl} {s : CtrStream} (he : CEnv may) (hs : StreamIn D s) (hf : KeyFits s.key) :
    Def may D (cipherblock_generateT hw ossl s) (fun s' => s'.key = s.key ∧ s'.bytectr = s.bytectr)
      (fun _ => both (cells (.c .pblk) 0 16) (cells (.c .kblk) 0 16)) := by
  unfold cipherblock_generateT
  refine def_seq (def_bytectrR hs.ctr) fun _ _ => def_seq (def_quiet (R := fun _ => True) fun _ _ => trivial) fun _ _ => ?_
  refine def_seq (def_rd' (hs.last.at (by omega) (by omega))) fun b hb => ?_
  refine def_seq (def_wrv (he.pblk.at (by omega) (by omega))) fun pb hpb => ?_
  refine def_seq (def_rd' (hs.last.at (by omega) (by omega))) fun b' hb' => ?_
  obtain rfl := rd_wr hpb hb'
  refine def_bind (R := fun _ => True) (P := fun _ => cells (.c .pblk) 0 16) (def_ite (fun _ => ?_) fun h0 => ?_) fun pb2 _ => ?_
  · refine def_seq (def_bytectrR hs.ctr) fun _ _ => ?_
    refine (def_wrSlice (by show Has may (cells (.c .pblk) 8 8); exact he.pblk.sub (by omega) (by omega))).conseq (fun _ _ => trivial) fun _ _ => ?_
    refine Has.join (n := 8) (m := 8) (Has.left (hs.pblk.sub (by omega) (by split <;> omega))) (Has.right (Has.refl _)) (by omega) (by omega)
  · refine def_pure trivial ?_
    have := hs.pblk
    rw [if_neg (fun e => h0 (by rw [rd_getElem hb] at e; rw [Option.some.inj e]; rfl))] at this
    exact this
  · refine def_bind (def_encrypt_blockT (Has.right (Has.refl _)) he.kblk (Has.left hs.key) hf) fun buf _ => ?_
    exact def_pure ⟨rfl, rfl⟩ (Has.both (Has.left (Has.right (Has.refl _))) (Has.right (Has.refl _)))

/-- A cursor moved on by `k` bytes. -/
def Moved (c c' : MCursor) (k : Nat) : Prop := c'.inp = c.inp + k ∧ c'.outp = c.outp + k ∧ c'.buflen + k = c.buflen

theorem def_useT {a : Arr} {s : CtrStream} {c : MCursor} {n bm : Nat} (he : CEnv may) (hc : Has D (cells (.c .bytectr) 0 1)) (hk : Has D (cells (.c .kblk) 0 (bm + n)))
    (hi : Has D (cells a c.inp n)) (mo : Has may (cells a c.outp n)) (hn : n ≤ c.buflen) :
    Def may D (cipherblock_useT a s c n bm) (fun r => r.1.key = s.key ∧ r.1.pblk = s.pblk ∧ r.1.bytectr = s.bytectr + BitVec.ofNat 64 n ∧ Moved c r.2 n)
      (fun _ => cells a c.outp n) := by
  unfold cipherblock_useT
  refine def_bind (R := fun _ => True) (P := fun _ => cells a c.outp n) ?_ fun m _ => ?_
  · refine def_loop (R := fun _ _ => True) (fun i => cells a c.outp i) trivial has_empty fun m i hi' _ => ?_
    refine def_seq (def_rd (Has.left hi |>.at (by omega) (by omega))) fun _ _ => ?_
    refine def_seq (def_rd (Has.left hk |>.at (by omega) (by omega))) fun _ _ => ?_
    exact (def_wr (mo.at (by omega) (by omega))).conseq (fun _ _ => trivial) fun _ _ => has_grow
  · refine def_seq (def_bytectrR (Has.left hc)) fun _ _ => def_seq (def_bytectrW he) fun _ _ => ?_
    exact def_pure ⟨rfl, rfl, rfl, rfl, rfl, by show c.buflen - n + n = c.buflen; omega⟩ (Has.right (Has.refl _))

/-- The post-condition of the parts of the stream functions: the stream is usable, the cursor has moved, what it has passed has been written. -/
def partR (s : CtrStream) (c : MCursor) (r : CtrStream × MCursor) : Prop := r.1.key = s.key ∧ ∃ k, Moved c r.2 k

def partP (a : Arr) (c : MCursor) (r : CtrStream × MCursor) : Cells := both (streamCells r.1) (cells a c.outp (r.2.outp - c.outp))

theorem def_preT {a : Arr} {s : CtrStream} {c : MCursor} (he : CEnv may) (hs : StreamIn D s) (hi : Has D (cells a c.inp c.buflen)) (mo : Has may (cells a c.outp c.buflen)) :
    Def may D (pre_wholeblockT a s c) (fun r => partR s c r.2 ∧ (r.1 = true → r.2.2.buflen = 0)) (fun r => partP a c r.2) := by
  unfold pre_wholeblockT
  refine def_seq (def_bytectrR hs.ctr) fun _ _ => ?_
  dsimp only
  have hm : (s.bytectr % 16).toNat < 16 := by
    rw [BitVec.toNat_umod]
    exact Nat.mod_lt _ (by decide)
  have keep : ∀ {E : Cells} {s' : CtrStream}, s'.key = s.key → s'.pblk = s.pblk → s.bytectr % 16 ≠ 0 → Has (both D E) (streamCells s') := fun {E s'} e1 e2 h => by
    refine StreamIn.has ⟨Has.left hs.ctr, Has.left hs.last, Has.left (by rw [e2]; exact hs.pblk), Has.left ?_, Has.left (by rw [e1]; exact hs.key)⟩
    have := hs.kblk
    rw [if_neg h] at this
    exact this.sub (by omega) (by split <;> omega)
  refine def_ite (fun h => def_ite (fun h2 => ?_) fun h2 => ?_) fun h => ?_
  · have h16 : s.bytectr % 16 ≠ 0 := fun e => h (by rw [e]; rfl)
    have hk := hs.kblk
    rw [if_neg h16] at hk
    refine def_bind (def_useT he hs.ctr (hk.sub (by omega) (by omega)) hi mo (Nat.le_refl _)) fun ⟨s', c'⟩ ⟨e1, e2, e3, e4⟩ => ?_
    dsimp only at e1 e2 e3 e4 ⊢
    refine def_pure ⟨⟨e1, _, e4⟩, fun _ => by have := e4.2.2; dsimp only; omega⟩ (Has.both (keep e1 e2 h16) (Has.right (has_cells (Nat.le_refl _) ?_)))
    have := e4.2.1
    dsimp only
    omega
  · have h16 : s.bytectr % 16 ≠ 0 := fun e => h (by rw [e]; rfl)
    have hk := hs.kblk
    rw [if_neg h16] at hk
    refine def_bind (def_useT he hs.ctr (hk.sub (by omega) (by omega)) (hi.sub (by omega) (by omega)) (mo.sub (by omega) (by omega)) (by omega)) fun ⟨s', c'⟩ ⟨e1, e2, e3, e4⟩ => ?_
    dsimp only at e1 e2 e3 e4 ⊢
    refine def_pure ⟨⟨e1, _, e4⟩, (nofun)⟩ (Has.both (keep e1 e2 h16) (Has.right (has_cells (Nat.le_refl _) ?_)))
    have := e4.2.1
    dsimp only
    omega
  · refine def_pure ⟨⟨rfl, 0, rfl, rfl, rfl⟩, (nofun)⟩ (Has.both hs.has ?_)
    show Has D (cells a c.outp (c.outp - c.outp))
    rw [Nat.sub_self]
    exact has_empty

theorem partR.trans {s s1 : CtrStream} {c c1 : MCursor} {r : CtrStream × MCursor} (h : partR s c (s1, c1)) (h' : partR s1 c1 r) : partR s c r := by
  obtain ⟨e, k, h1, h2, h3⟩ := h
  obtain ⟨e', k', h1', h2', h3'⟩ := h'
  dsimp only at *
  exact ⟨e'.trans e, k + k', by omega, by omega, by omega⟩

theorem partP.trans {E : Cells} {a : Arr} {s s1 : CtrStream} {c c1 : MCursor} {r : CtrStream × MCursor} (h : partR s c (s1, c1)) (h' : partR s1 c1 r) (hp : Has E (partP a c (s1, c1))) :
    Has (both E (partP a c1 r)) (partP a c r) := by
  obtain ⟨e, k, h1, h2, h3⟩ := h
  obtain ⟨e', k', h1', h2', h3'⟩ := h'
  dsimp only at *
  refine Has.both (Has.right (Has.left (Has.refl _))) ?_
  refine Has.join (n := c1.outp - c.outp) (m := r.2.outp - c1.outp) (Has.left fun a i x => hp a i (Or.inr x)) (Has.right (Has.right (by rw [show c.outp + (c1.outp - c.outp) = c1.outp by omega]; exact Has.refl _)))
    (by omega) (by omega)

theorem logged_assoc {α β γ : Type} (x : Logged α) (f : α → Logged β) (g : β → Logged γ) : ((x >>= f) >>= g) = (x >>= fun a => f a >>= g) := by
  show Logged.bind (Logged.bind x f) g = Logged.bind x fun a => Logged.bind (f a) g
  unfold Logged.bind
  cases x with
  | ok a =>
    show Res.bind (Res.bind (f a.1) _) _ = Res.bind (Res.bind (f a.1) _) _
    cases f a.1 with
    | ok b =>
      show Res.bind (g b.1) _ = Res.bind (Res.bind (g b.1) _) _
      cases g b.1 with
      | ok c => show Res.ok _ = Res.ok _; rw [List.append_assoc]
      | ub => rfl
      | abort => rfl
    | ub => rfl
    | abort => rfl
  | ub => rfl
  | abort => rfl

/-- A generated block is used. -/
theorem def_genuseT {a : Arr} {hw : AesHw} {ossl : Ossl} {s : CtrStream} {c : MCursor} {n : Nat} (he : CEnv may) (hs : StreamIn D s) (hf : KeyFits s.key)
    (hi : Has D (cells a c.inp n)) (mo : Has may (cells a c.outp n)) (hn : n ≤ c.buflen) (h16 : n ≤ 16) :
    Def may D (cipherblock_generateT hw ossl s >>= fun s => cipherblock_useT a s c n 0) (fun r => r.1.key = s.key ∧ Moved c r.2 n) (fun r => partP a c r) := by
  refine def_bind (def_generateT he hs hf) fun s' ⟨e1, e2⟩ => ?_
  refine (def_useT he (Has.left hs.ctr) (Has.right (Has.right (has_cells (by omega) (by omega)))) (Has.left hi) mo hn).conseq (fun r h => ⟨h.1.trans e1, h.2.2.2⟩) fun r h => ?_
  obtain ⟨k1, k2, k3, k4⟩ := h
  refine Has.both (StreamIn.has ⟨Has.left (Has.left hs.ctr), Has.left (Has.left hs.last), Has.left (Has.right (Has.left (has_cells (by omega) (by split <;> omega)))),
    Has.left (Has.right (Has.right (has_cells (by omega) (by split <;> omega)))), Has.left (Has.left (by rw [k1, e1]; exact hs.key))⟩) (Has.right (has_cells (by omega) ?_))
  have := k4.2.1
  omega

theorem def_postT {a : Arr} {hw : AesHw} {ossl : Ossl} {s : CtrStream} {c : MCursor} (he : CEnv may) (hs : StreamIn D s) (hf : KeyFits s.key)
    (hi : Has D (cells a c.inp c.buflen)) (mo : Has may (cells a c.outp c.buflen)) (h16 : c.buflen < 16) :
    Def may D (post_wholeblockT a hw ossl s c) (fun r => partR s c r ∧ r.2.buflen = 0) (fun r => partP a c r) := by
  unfold post_wholeblockT
  refine def_ite (fun h => ?_) fun h => ?_
  · exact (def_genuseT he hs hf hi mo (Nat.le_refl _) (by omega)).conseq (fun r h => ⟨⟨h.1, _, h.2⟩, by have := h.2.2.2; omega⟩) fun _ _ => Has.right (Has.refl _)
  · refine def_pure ⟨⟨rfl, 0, rfl, rfl, rfl⟩, by dsimp only; omega⟩ (Has.both hs.has ?_)
    show Has D (cells a c.outp (c.outp - c.outp))
    rw [Nat.sub_self]
    exact has_empty

theorem def_portable_loopT {a : Arr} {hw : AesHw} {ossl : Ossl} (he : CEnv may) : ∀ (fuel : Nat) {D : Cells} (s : CtrStream) (c : MCursor), StreamIn D s → KeyFits s.key →
    Has D (cells a c.inp c.buflen) → Has may (cells a c.outp c.buflen) →
    Def may D (portable_loopT a hw ossl fuel s c) (fun r => partR s c r ∧ r.2.buflen < 16) (fun r => partP a c r)
  | 0, D, s, c, hs, _, _, _ => by
    unfold portable_loopT
    refine def_ite (fun _ => def_log (wf_nil _ _) fun _ e => nomatch e) fun h => ?_
    refine def_pure ⟨⟨rfl, 0, rfl, rfl, rfl⟩, by dsimp only; omega⟩ (Has.both hs.has ?_)
    show Has D (cells a c.outp (c.outp - c.outp))
    rw [Nat.sub_self]
    exact has_empty
  | fuel + 1, D, s, c, hs, hf, hi, mo => by
    unfold portable_loopT
    refine def_ite (fun h => ?_) fun h => ?_
    · have step := def_genuseT (hw := hw) (ossl := ossl) he hs hf (hi.sub (o' := c.inp) (n' := 16) (by omega) (by omega)) (mo.sub (by omega) (by omega)) (by omega) (Nat.le_refl 16)
      have assoc : (do
          let s ← cipherblock_generateT hw ossl s
          let (s, c) ← cipherblock_useT a s c 16 0
          portable_loopT a hw ossl fuel s c : Logged (CtrStream × MCursor)) =
        ((cipherblock_generateT hw ossl s >>= fun s => cipherblock_useT a s c 16 0) >>= fun r => portable_loopT a hw ossl fuel r.1 r.2) := by
        rw [logged_assoc]
      rw [assoc]
      refine def_bind step fun ⟨s1, c1⟩ ⟨e1, e2⟩ => ?_
      dsimp only at e1 e2 ⊢
      have hr : partR s c (s1, c1) := ⟨e1, 16, e2⟩
      have e3 := e2
      obtain ⟨m1, m2, m3⟩ := e3
      refine (def_portable_loopT he fuel s1 c1 (StreamIn.of (Has.right (Has.left (Has.refl _)))) (by rw [e1]; exact hf) (Has.left (hi.sub (by omega) (by omega)))
        (mo.sub (by omega) (by omega))).conseq (fun r h => ⟨hr.trans h.1, h.2⟩) fun r h => partP.trans hr h.1 (Has.right (Has.refl _))
    · refine def_pure ⟨⟨rfl, 0, rfl, rfl, rfl⟩, by dsimp only; omega⟩ (Has.both hs.has ?_)
      show Has D (cells a c.outp (c.outp - c.outp))
      rw [Nat.sub_self]
      exact has_empty

/-! ### The accelerated loops -/

/-- The state of the accelerated loops after `k` blocks. -/
def BlocksR (c : MCursor) (k : Nat) (st : W64 × Bytes × Bytes × Nat × Nat) : Prop :=
  st.2.2.2.1 = c.inp + 16 * k ∧ st.2.2.2.2 = c.outp + 16 * k ∧ (0 < k → st.2.1.length = 8)

theorem def_aesni_stepT {a : Arr} {junk nonce : Bytes} {key : HwKey} {st : W64 × Bytes × Bytes × Nat × Nat} {c : MCursor} {k : Nat} (he : CEnv may)
    (hk : Has D (cells (.c .rkeys) 0 15)) (hn : key.nr ≤ 14) (hst : BlocksR c k st) (hi : Has D (cells a (c.inp + 16 * k) 16)) (mo : Has may (cells a (c.outp + 16 * k) 16)) :
    Def may D (aesni_stepT a junk nonce key st) (BlocksR c (k + 1)) (fun _ => both (cells a (c.outp + 16 * k) 16) (cells (.c .cblk) 0 8)) := by
  obtain ⟨h1, h2, h3⟩ := hst
  unfold aesni_stepT
  refine def_bind (def_writes he.cblk) fun arr harr => ?_
  refine def_seq (def_reads (Has.right (Has.refl _))) fun b _ => ?_
  refine def_seq (def_block_aesniT (Has.left hk) hn) fun b _ => ?_
  refine def_seq (def_q_loadT (by rw [h1]; exact Has.left hi)) fun b _ => ?_
  refine def_bind (def_wrSlice (by rw [q_xor_length, h2]; exact mo)) fun m _ => ?_
  rw [q_xor_length, h2]
  refine def_pure ⟨by dsimp only; omega, by dsimp only; omega, fun _ => ?_⟩ (Has.both (Has.right (Has.refl _)) (Has.left (Has.right (Has.refl _))))
  obtain rfl := Res.ok.inj harr
  rfl

theorem def_arm_stepT {a : Arr} {nonce : Bytes} {key : HwKey} {st : W64 × Bytes × Bytes × Nat × Nat} {c : MCursor} {k : Nat} (he : CEnv may)
    (hk : Has D (cells (.c .rkeys) 0 15)) (hn : key.nr ≤ 14) (hst : BlocksR c k st) (hi : Has D (cells a (c.inp + 16 * k) 16)) (mo : Has may (cells a (c.outp + 16 * k) 16)) :
    Def may D (arm_stepT a nonce key st) (BlocksR c (k + 1)) (fun _ => both (cells a (c.outp + 16 * k) 16) (cells (.c .cblk) 0 8)) := by
  obtain ⟨h1, h2, h3⟩ := hst
  unfold arm_stepT
  refine def_bind (def_writes he.cblk) fun arr harr => ?_
  refine def_seq (def_reads (Has.right (Has.refl _))) fun b _ => ?_
  refine def_seq (def_block_armT (Has.left hk) hn) fun b _ => ?_
  refine def_seq (def_q_loadT (by rw [h1]; exact Has.left hi)) fun b _ => ?_
  refine def_bind (def_wrSlice (by rw [q_xor_length, h2]; exact mo)) fun m _ => ?_
  rw [q_xor_length, h2]
  refine def_pure ⟨by dsimp only; omega, by dsimp only; omega, fun _ => ?_⟩ (Has.both (Has.right (Has.refl _)) (Has.left (Has.right (Has.refl _))))
  obtain rfl := Res.ok.inj harr
  rfl

/-- What the accelerated loops have written after `k` blocks. -/
def blocksP (a : Arr) (c : MCursor) (k : Nat) : Cells := both (cells a c.outp (16 * k)) (cells (.c .cblk) 0 (if k = 0 then 0 else 8))

theorem has_blocks {E : Cells} {a : Arr} {c : MCursor} {k : Nat} (h : Has E (blocksP a c k)) (h1 : Has E (cells a (c.outp + 16 * k) 16)) (h2 : Has E (cells (.c .cblk) 0 8)) :
    Has E (blocksP a c (k + 1)) :=
  Has.both (Has.join (n := 16 * k) (m := 16) (fun a i x => h a i (Or.inl x)) h1 (by omega) (by omega)) h2

theorem ctr_mod (b : W64) (n : Nat) : (b + BitVec.ofNat 64 (16 * n)) % 16 = 0 ↔ b % 16 = 0 := by
  have e : ∀ x : W64, x % 16 = 0 ↔ x.toNat % 16 = 0 := by
    intro x
    constructor
    · intro h
      have := congrArg BitVec.toNat h
      rwa [BitVec.toNat_umod] at this
    · intro h
      apply BitVec.eq_of_toNat_eq
      rw [BitVec.toNat_umod]
      exact h
  rw [e, e, BitVec.toNat_add, BitVec.toNat_ofNat]
  omega

/-- The end of the accelerated loops. -/
theorem def_blocksEndT {a : Arr} {s : CtrStream} {c : MCursor} {st : W64 × Bytes × Bytes × Nat × Nat} (he : CEnv may) (hs : StreamIn D s) (hq : ¬c.buflen / 16 = 0)
    (hst : BlocksR c (c.buflen / 16) st) (hp : Has D (blocksP a c (c.buflen / 16))) :
    Def may D (do
      let arr ← rdSliceT (.c .cblk) st.2.1 0 st.2.1.length
      let pblk ← wrSliceT (.c .pblk) s.pblk 8 arr
      bytectrT false
      bytectrT true
      return ({ s with pblk := pblk, bytectr := s.bytectr + BitVec.ofNat 64 (16 * (c.buflen / 16)) },
        ⟨st.2.2.1, st.2.2.2.1, st.2.2.2.2, c.buflen - 16 * (c.buflen / 16)⟩)) (fun r => partR s c r ∧ r.2.buflen < 16) (fun r => partP a c r) := by
  obtain ⟨h1, h2, h3⟩ := hst
  have hl := h3 (by omega)
  rw [hl]
  have hc : Has D (cells (.c .cblk) 0 8) := by
    have : Has D (cells (.c .cblk) 0 (if c.buflen / 16 = 0 then 0 else 8)) := fun a i x => hp a i (Or.inr x)
    rwa [if_neg hq] at this
  refine def_seq (def_rdSlice hc) fun arr ha => ?_
  refine def_bind (def_wrSlice (by rw [ha]; exact he.pblk.sub (by omega) (by omega))) fun pb _ => ?_
  rw [ha]
  refine def_seq (def_bytectrR (Has.left hs.ctr)) fun _ _ => def_seq (def_bytectrW he) fun _ _ => ?_
  refine def_pure ⟨⟨rfl, 16 * (c.buflen / 16), h1, h2, by dsimp only; omega⟩, by dsimp only; omega⟩ ?_
  have hfull : Has (both D (cells (.c .pblk) 8 8)) (cells (.c .pblk) 0 16) :=
    Has.join (n := 8) (m := 8) (Has.left (hs.pblk.sub (by omega) (by split <;> omega))) (Has.right (Has.refl _)) (by omega) (by omega)
  refine Has.both (StreamIn.has ⟨Has.left hs.ctr, Has.left hs.last, hfull.sub (by omega) (by split <;> omega), ?_, Has.left hs.key⟩) (Has.left ?_)
  · simp only [ctr_mod]
    exact Has.left hs.kblk
  · show Has D (cells a c.outp (st.2.2.2.2 - c.outp))
    rw [h2, Nat.add_sub_cancel_left]
    exact fun a i x => hp a i (Or.inl x)

theorem def_aesni_wholeT {a : Arr} {junk : Bytes} {s : CtrStream} {c : MCursor} (he : CEnv may) (hs : StreamIn D s) (hf : KeyFits s.key)
    (hi : Has D (cells a c.inp c.buflen)) (mo : Has may (cells a c.outp c.buflen)) :
    Def may D (aesni_wholeblocksT a junk s c) (fun r => partR s c r ∧ r.2.buflen < 16) (fun r => partP a c r) := by
  unfold aesni_wholeblocksT
  cases hkey : s.key with
  | aesni key =>
    dsimp only
    have hk := hs.key
    rw [hkey] at hk hf
    refine def_seq (def_reads (hs.pblk.sub (by omega) (by split <;> omega))) fun nonce _ => def_seq (def_bytectrR hs.ctr) fun _ _ => ?_
    refine def_ite (fun _ => def_log (wf_nil _ _) fun _ e => nomatch e) fun hq => ?_
    refine def_bind (R := BlocksR c (c.buflen / 16)) (P := fun _ => blocksP a c (c.buflen / 16)) ?_ fun st hst => (by rw [← hkey]; exact def_blocksEndT he hs.both hq hst (Has.right (Has.refl _)))
    refine def_loop (R := BlocksR c) (fun k => blocksP a c k) ⟨rfl, rfl, fun h => absurd h (by omega)⟩ (Has.both has_empty has_empty) fun st k hk' hst => ?_
    refine (def_aesni_stepT he (Has.left hk) hf hst (Has.left (hi.sub (by omega) (by omega))) (mo.sub (by omega) (by omega))).conseq (fun _ h => h) fun _ _ => ?_
    exact has_blocks (Has.left (Has.right (Has.refl _))) (Has.right (Has.left (Has.refl _))) (Has.right (Has.right (Has.refl _)))
  | arm key => exact def_log (wf_nil _ _) fun _ e => nomatch e
  | ossl key => exact def_log (wf_nil _ _) fun _ e => nomatch e

theorem def_arm_wholeT {a : Arr} {s : CtrStream} {c : MCursor} (he : CEnv may) (hs : StreamIn D s) (hf : KeyFits s.key)
    (hi : Has D (cells a c.inp c.buflen)) (mo : Has may (cells a c.outp c.buflen)) :
    Def may D (arm_wholeblocksT a s c) (fun r => partR s c r ∧ r.2.buflen < 16) (fun r => partP a c r) := by
  unfold arm_wholeblocksT
  cases hkey : s.key with
  | arm key =>
    dsimp only
    have hk := hs.key
    rw [hkey] at hk hf
    refine def_seq (def_reads (hs.pblk.sub (by omega) (by split <;> omega))) fun nonce _ => def_seq (def_bytectrR hs.ctr) fun _ _ => ?_
    refine def_ite (fun _ => def_log (wf_nil _ _) fun _ e => nomatch e) fun hq => ?_
    refine def_bind (R := BlocksR c (c.buflen / 16)) (P := fun _ => blocksP a c (c.buflen / 16)) ?_ fun st hst => (by rw [← hkey]; exact def_blocksEndT he hs.both hq hst (Has.right (Has.refl _)))
    refine def_loop (R := BlocksR c) (fun k => blocksP a c k) ⟨rfl, rfl, fun h => absurd h (by omega)⟩ (Has.both has_empty has_empty) fun st k hk' hst => ?_
    refine (def_arm_stepT he (Has.left hk) hf hst (Has.left (hi.sub (by omega) (by omega))) (mo.sub (by omega) (by omega))).conseq (fun _ h => h) fun _ _ => ?_
    exact has_blocks (Has.left (Has.right (Has.refl _))) (Has.right (Has.left (Has.refl _))) (Has.right (Has.right (Has.refl _)))
  | aesni key => exact def_log (wf_nil _ _) fun _ e => nomatch e
  | ossl key => exact def_log (wf_nil _ _) fun _ e => nomatch e

/-- Before, the blocks, after. -/
theorem def_threeT {a : Arr} {hw : AesHw} {ossl : Ossl} {s : CtrStream} {c : MCursor} (he : CEnv may) (hs : StreamIn D s) (hf : KeyFits s.key)
    (hi : Has D (cells a c.inp c.buflen)) (mo : Has may (cells a c.outp c.buflen)) (mid : CtrStream → MCursor → Logged (CtrStream × MCursor))
    (hm : ∀ (E : Cells) (s' : CtrStream) (c' : MCursor), StreamIn E s' → KeyFits s'.key → Has E (cells a c'.inp c'.buflen) → Has may (cells a c'.outp c'.buflen) →
      Def may E (mid s' c') (fun r => partR s' c' r ∧ r.2.buflen < 16) (fun r => partP a c' r)) :
    Def may D (do
      let (done, s, c) ← pre_wholeblockT a s c
      if done then return (s, c)
      let (s, c) ← mid s c
      post_wholeblockT a hw ossl s c) (fun r => partR s c r ∧ r.2.buflen = 0) (fun r => partP a c r) := by
  refine def_bind (def_preT he hs hi mo) fun ⟨done, s1, c1⟩ ⟨h1, h2⟩ => ?_
  dsimp only at h1 h2 ⊢
  have hP : Has (both D (partP a c (s1, c1))) (partP a c (s1, c1)) := Has.right (Has.refl _)
  have g1 := h1
  obtain ⟨e1, k, m1, m2, m3⟩ := g1
  dsimp only at e1 m1 m2 m3
  refine def_ite (fun hd => def_pure ⟨h1, h2 hd⟩ hP) fun hd => ?_
  have hi1 : Has (both D (partP a c (s1, c1))) (cells a c1.inp c1.buflen) := Has.left (hi.sub (by omega) (by omega))
  refine def_bind (hm _ s1 c1 (StreamIn.of (hP.trans (Has.left (Has.refl _)))) (by rw [e1]; exact hf) hi1 (mo.sub (by omega) (by omega))) fun ⟨s2, c2⟩ ⟨h3, h4⟩ => ?_
  dsimp only at h3 h4 ⊢
  have h13 := h1.trans h3
  have hP2 : Has (both (both D (partP a c (s1, c1))) (partP a c1 (s2, c2))) (partP a c (s2, c2)) := partP.trans h1 h3 hP
  have g2 := h3
  obtain ⟨e1', k', m1', m2', m3'⟩ := g2
  dsimp only at e1' m1' m2' m3'
  refine (def_postT he (StreamIn.of (Has.right (Has.left (Has.refl _)))) (by rw [e1', e1]; exact hf) (Has.left (hi1.sub (by omega) (by omega))) (mo.sub (by omega) (by omega)) h4).conseq
    (fun r h => ⟨h13.trans h.1, h.2⟩) fun r h => partP.trans h13 h.1 hP2

theorem def_if16 {a : Arr} {s : CtrStream} {c : MCursor} {x : Logged (CtrStream × MCursor)} (hs : StreamIn D s)
    (h : Def may D x (fun r => partR s c r ∧ r.2.buflen < 16) (fun r => partP a c r)) :
    Def may D (if c.buflen ≥ 16 then x else pure (s, c)) (fun r => partR s c r ∧ r.2.buflen < 16) (fun r => partP a c r) := by
  refine def_ite (fun _ => h) fun h => def_pure ⟨⟨rfl, 0, rfl, rfl, rfl⟩, by dsimp only; omega⟩ (Has.both hs.has ?_)
  show Has D (cells a c.outp (c.outp - c.outp))
  rw [Nat.sub_self]
  exact has_empty

theorem def_streamT {a : Arr} {hw : AesHw} {ossl : Ossl} {junk : Bytes} {s : CtrStream} {mem : Bytes} {inp outp n : Nat} (he : CEnv may) (hs : StreamIn D s) (hf : KeyFits s.key)
    (hi : Has D (cells a inp n)) (mo : Has may (cells a outp n)) :
    Def may D (crypto_aesctr_streamT a hw ossl junk s mem inp outp n) (fun r => r.1.key = s.key) (fun r => both (streamCells r.1) (cells a outp n)) := by
  unfold crypto_aesctr_streamT
  have key : ∀ x : Logged (CtrStream × MCursor), Def may D x (fun r => partR s ⟨mem, inp, outp, n⟩ r ∧ r.2.buflen = 0) (fun r => partP a ⟨mem, inp, outp, n⟩ r) →
      Def may D (x >>= fun r => pure (r.1, r.2.mem)) (fun r => r.1.key = s.key) (fun r => both (streamCells r.1) (cells a outp n)) := by
    intro x hx
    refine def_bind hx fun ⟨s', c'⟩ ⟨⟨e, k, m1, m2, m3⟩, h0⟩ => ?_
    dsimp only at e m1 m2 m3 h0 ⊢
    refine def_pure e (Has.right (Has.both (Has.left (Has.refl _)) (Has.right (has_cells (Nat.le_refl _) ?_))))
    dsimp only
    omega
  refine key _ (def_ite (fun _ => ?_) fun _ => def_ite (fun _ => ?_) fun _ => ?_)
  · exact def_threeT he hs hf hi mo (fun s c => aesni_whole_if16T a junk s c) fun E s' c' h1 h2 h3 h4 => def_if16 h1 (def_aesni_wholeT he h1 h2 h3 h4)
  · exact def_threeT he hs hf hi mo (fun s c => arm_whole_if16T a s c) fun E s' c' h1 h2 h3 h4 => def_if16 h1 (def_arm_wholeT he h1 h2 h3 h4)
  · exact def_threeT he hs hf hi mo (fun s c => portable_loopT a hw ossl c.buflen s c) fun E s' c' h1 h2 h3 h4 => def_portable_loopT he _ s' c' h1 h2 h3 h4

theorem wr_getElem {α : Type} {m m' : List α} {i : Nat} {v : α} (h : wr m i v = .ok m') : m'[i]? = some v := by
  unfold wr at h
  split at h
  · obtain rfl := Res.ok.inj h
    rename_i hl
    exact List.getElem?_set_self hl
  · cases h

theorem def_init2T {s : CtrStream} {k : AesKey} {nonce : W64} (he : CEnv may) (hk : Has D (keyCells k)) :
    Def may D (crypto_aesctr_init2T s (some k) nonce) (fun r => r.key = k) (fun r => streamCells r) := by
  unfold crypto_aesctr_init2T
  dsimp only
  refine def_bind (def_wrSlice (by show Has may (cells (.c .pblk) 0 8); exact he.pblk.sub (by omega) (by omega))) fun pb _ => ?_
  refine def_bind (def_bytectrW he) fun _ _ => ?_
  refine def_bind (def_wrv (he.pblk.at (by omega) (by omega))) fun pb2 h2 => ?_
  refine def_pure rfl (StreamIn.has ⟨Has.left (Has.right (Has.refl _)), Has.right (Has.refl _), ?_, ?_, Has.left (Has.left (Has.left hk))⟩)
  · show Has _ (cells _ 0 (if pb2[15]? = some 0xff then 8 else 16))
    rw [if_pos (wr_getElem h2)]
    exact Has.left (Has.left (Has.right (Has.refl _)))
  · show Has _ (cells _ 0 (if (0 : W64) % 16 = 0 then 0 else 16))
    rw [if_pos (by decide)]
    exact has_empty

/-- The expanded key and the stream. -/
theorem def_aesOpenT {sys : EncSys} {dk : Bytes} (he : CEnv may) (hd : Has D (cells (.c .dk) 0 32)) :
    Def may D (aesOpenT sys dk) (fun r => ∀ s, r.1.2 = some s → KeyFits s.key) (fun r => match r.1.2 with | some s => streamCells s | none => noCells) := by
  unfold aesOpenT
  refine def_bind (def_key_expandT he hd) fun k hk => ?_
  cases k with
  | none => exact def_pure (fun _ h => nomatch h) (Has.none _)
  | some k =>
    dsimp only
    have hf := hk k rfl
    unfold crypto_aesctr_initT
    cases sys.ctr with
    | none =>
      dsimp only
      refine def_bind (def_pure (R := fun r => r = none) (P := fun _ => noCells) rfl (Has.none _)) ?_
      rintro r rfl
      refine def_log ?_ fun v e => ?_
      · unfold keyWiped
        split
        · exact wf_nil _ _
        · exact wf_writes fun _ h1 h2 => he.rkeys.at h1 h2
      · obtain rfl := Res.ok.inj e
        exact ⟨fun _ h => (nomatch h), Has.none _⟩
    | some st =>
      dsimp only
      refine def_bind (R := fun r => ∃ s, r = some s ∧ s.key = k) (P := fun r => match r with | some s => streamCells s | none => noCells)
        (def_bind (def_init2T he (Has.right (Has.refl _))) fun s hs => def_pure ⟨s, rfl, hs⟩ (Has.right (Has.refl _))) ?_
      rintro r ⟨s, rfl, hs⟩
      refine def_pure (fun s' e => ?_) (Has.right (Has.refl _))
      obtain rfl := Option.some.inj e
      rw [hs]
      exact hf

end Scrypt
