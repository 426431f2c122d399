import Verif.Proofs.DefinedEnc
import Verif.Proofs.EncFile
/-
`WrittenFirst` for the encryption and decryption after the key derivation.
-/
namespace Scrypt
open Spec Logged

variable {may D : Cells}

theorem HEnv.pulled {o : CObj} {off : Nat} (h : HEnv may D) : HEnv (pulled (.c o) off may) (pulled (.c o) off D) where
  krnd := has_pulled_other nofun h.krnd
  padc := has_pulled_other nofun h.padc
  init := has_pulled_other nofun h.init
  W := has_pulled_other nofun h.W
  S := has_pulled_other nofun h.S
  khash := has_pulled_other nofun h.khash
  pad := has_pulled_other nofun h.pad
  ihash := has_pulled_other nofun h.ihash
  state := fun cx => has_pulled_other nofun (h.state cx)
  count := fun cx => has_pulled_other nofun (h.count cx)
  buf := fun cx => has_pulled_other nofun (h.buf cx)

theorem hmac_not_c {w : HOwner} {o : CObj} {i : Nat} (h : hmacCells w (.c o) i) : False := by
  rcases h with ((h | h) | h) | ((h | h) | h) <;> exact nomatch h.1

theorem pulled_hmac {w : HOwner} {o : CObj} {off : Nat} (h : Has D (hmacCells w)) : Has (pulled (.c o) off D) (hmacCells w) := by
  intro a i x
  show (if a = .c o then _ else _)
  rw [if_neg (by rintro rfl; exact hmac_not_c x)]
  exact h a i x

/-- What the encryption may rely on. -/
structure TEnv (may D : Cells) : Prop extends HEnv may D where
  c : CEnv may
  hbuf : Has may (cells (.c .hbuf) 0 32)
  dkw : Has may (cells (.c .dk) 0 64)
  dk : Has D (cells (.c .dk) 0 64)

theorem TEnv.both {E : Cells} (h : TEnv may D) : TEnv may (both D E) :=
  { h.toHEnv.both with
    c := h.c
    hbuf := h.hbuf
    dkw := h.dkw
    dk := Has.left h.dk }

/-- What computing a header's tag may rely on. -/
structure SEnv (may D : Cells) : Prop extends HEnv may D where
  hbuf : Has may (cells (.c .hbuf) 0 32)
  dk : Has D (cells (.c .dk) 0 64)

theorem SEnv.both {E : Cells} (h : SEnv may D) : SEnv may (both D E) :=
  { h.toHEnv.both with
    hbuf := h.hbuf
    dk := Has.left h.dk }

theorem TEnv.s (h : TEnv may D) : SEnv may D := { h.toHEnv with hbuf := h.hbuf, dk := h.dk }

theorem def_macInitT {hw : ShaHw} {junk : HMAC_SHA256_CTX} {dk : Bytes} (he : SEnv may D) :
    Def may D (macInitT hw junk dk) (fun _ => True) (fun _ => hmacCells .mac) := by
  unfold macInitT
  refine def_seq (def_quiet (R := fun k : Bytes => k.length = 32) fun _ e => rdSlice_length e) fun k hk => ?_
  refine def_move (def_HInitT (def_tf _ hw) he.toHEnv.pulled ?_) fun _ _ h => hmac_not_c h
  rw [hk]
  exact has_pulled (he.dk.sub (by omega) (by omega))

theorem def_macUpdateT {hw : ShaHw} {o : CObj} {off : Nat} {ctx : HMAC_SHA256_CTX} {x : Bytes} (he : HEnv may D) (hc : Has D (hmacCells .mac))
    (hi : Has D (cells (.c o) off x.length)) : Def0 may D (macUpdateT hw (.c o) off ctx x) := by
  unfold macUpdateT
  exact def_move (def_HUpdateT (def_tf _ hw) he.pulled (pulled_hmac hc) (has_pulled hi)) fun _ _ h => h

theorem def_macFinalT {hw : ShaHw} {ctx : HMAC_SHA256_CTX} (he : SEnv may D) (hc : Has D (hmacCells .mac)) :
    Def may D (macFinalT hw ctx) (fun b => b.length = 32) (fun _ => cells (.c .hbuf) 0 32) := by
  unfold macFinalT
  refine def_bind (def_HFinalT (def_tf _ hw) he.toHEnv hc he.hbuf) fun r hr => ?_
  refine def_log (wf_hmacW he.toHEnv) fun b e => ?_
  obtain rfl := Res.ok.inj e
  exact ⟨hr, fun a i x => Or.inl (Or.inr x)⟩

theorem def_bufTagT {hw : ShaHw} {junk : HMAC_SHA256_CTX} {dk : Bytes} {o : CObj} {off : Nat} {x : Bytes} (he : SEnv may D) (hi : Has D (cells (.c o) off x.length)) :
    Def may D (bufTagT hw junk dk (.c o) off x) (fun b => b.length = 32) (fun _ => cells (.c .hbuf) 0 32) := by
  unfold bufTagT
  refine def_bind (def_macInitT he) fun ctx _ => ?_
  refine def_seq (def_macUpdateT he.both.toHEnv (Has.right (Has.refl _)) (Has.left hi)) fun ctx _ => ?_
  exact (def_macFinalT he.both (Has.right (Has.refl _))).conseq (fun _ h => h) fun _ _ => Has.right (Has.refl _)

theorem def_headerSigT {hw : ShaHw} {junk : HMAC_SHA256_CTX} {dk h : Bytes} {o : CObj} {off : Nat} (he : SEnv may D) (hi : Has D (cells (.c o) off 64)) :
    Def may D (headerSigT hw junk dk (.c o) off h) (fun b => b.length = 32) (fun _ => cells (.c .hbuf) 0 32) := by
  unfold headerSigT
  refine def_bind (def_macInitT he) fun ctx _ => ?_
  refine def_seq (def_quiet (R := fun k : Bytes => k.length = 64) fun _ e => rdSlice_length e) fun x hx => ?_
  refine def_seq (def_macUpdateT he.both.toHEnv (Has.right (Has.refl _)) (Has.left (by rw [hx]; exact hi))) fun ctx _ => ?_
  exact (def_macFinalT he.both (Has.right (Has.refl _))).conseq (fun _ h => h) fun _ _ => Has.right (Has.refl _)

theorem def_verifyT {a b : Arr} {ao bo len : Nat} {x y : Bytes} (ha : Has D (cells a ao len)) (hb : Has D (cells b bo len)) :
    Def0 may D (crypto_verify_bytesT a ao b bo x y len) := by
  unfold crypto_verify_bytesT
  refine def_for0 fun v i hi => ?_
  rw [← accs_one, ← accs_one]
  exact def_seq (def_reads (ha.sub (by omega) (by omega))) fun _ _ => def_seq (def_reads (hb.sub (by omega) (by omega))) fun _ _ => def_pure0

theorem def_headerSumT {hw : ShaHw} {junk : SHA256_CTX} {h : Bytes} (he : SEnv may D) (hi : Has D (cells (.c .header) 0 48)) :
    Def may D (headerSumT hw junk h) (fun b => b.length = 32) (fun _ => cells (.c .hbuf) 0 32) := by
  unfold headerSumT
  refine def_seq (def_quiet (R := fun k : Bytes => k.length = 48) fun _ e => rdSlice_length e) fun x hx => ?_
  refine def_bind (def_InitT he.toHEnv) fun ctx hr => ?_
  have e48 : ctx.r + x.length < 64 := by rw [hr, hx]; omega
  refine def_bind (R := fun _ => True) (P := fun c => cells (.h (.buf .plain)) 0 c.r) ?_ fun ctx _ => ?_
  · refine (def_UpdateT (def_tf _ hw) he.both.toHEnv ⟨Has.right (Has.left (Has.refl _)), Has.right (Has.right (Has.refl _)), by rw [hr]; exact has_empty⟩
      (Has.left (by rw [hx]; exact hi))).conseq (fun _ h => h) fun c _ => Has.right ?_
    unfold updBuf
    rw [if_neg (by omega)]
    exact Has.refl _
  · refine def_bind (def_FinalT (da := .c .hbuf) (def_tf _ hw) he.both.both.toHEnv ⟨Has.left (Has.right (Has.left (Has.refl _))), Has.left (Has.right (Has.right (Has.refl _))),
      Has.right (Has.refl _)⟩ he.hbuf) fun r hr => ?_
    refine def_log (wf_ctxW he.toHEnv) fun b e => ?_
    obtain rfl := Res.ok.inj e
    exact ⟨hr, fun a i x => Or.inl (Or.inr x)⟩

theorem has_part {a : Arr} {o n m o' n' : Nat} (h : Has D (cells a o n)) (ho : o' = o + n) (hn : n' = n + m) : Has (both D (cells a o' m)) (cells a o n') :=
  Has.join (n := n) (m := m) (Has.left h) (Has.right (ho ▸ Has.refl _)) (by omega) (by omega)

theorem def_writeHeaderT {sys : EncSys} {hw : ShaHw} {P : EncParams} {salt dk : Bytes} (he : SEnv may D) (hs : Has D (cells (.c .salt) 0 32)) (mh : Has may (cells (.c .header) 0 96)) :
    Def may D (writeHeaderT sys hw P salt dk) (fun _ => True) (fun _ => cells (.c .header) 0 96) := by
  unfold writeHeaderT
  refine def_bind (def_wrSlice (by show Has may (cells (.c .header) 0 6); exact mh.sub (by omega) (by omega))) fun h _ => ?_
  have h6 : Has (both D (cells (.c .header) 0 6)) (cells (.c .header) 0 6) := Has.right (Has.refl _)
  refine def_bind (def_wr (mh.at (by omega) (by omega))) fun h _ => ?_
  have h7 := has_part (m := 1) (n' := 7) h6 (o' := 6) rfl rfl
  refine def_bind (def_wr (mh.at (by omega) (by omega))) fun h _ => ?_
  have h8 := has_part (m := 1) (n' := 8) h7 (o' := 7) rfl rfl
  refine def_bind (def_wrSlice (by show Has may (cells (.c .header) 8 4); exact mh.sub (by omega) (by omega))) fun h _ => ?_
  have h12 := has_part (m := 4) (n' := 12) h8 (o' := 8) rfl rfl
  refine def_bind (def_wrSlice (by show Has may (cells (.c .header) 12 4); exact mh.sub (by omega) (by omega))) fun h _ => ?_
  have h16 := has_part (m := 4) (n' := 16) h12 (o' := 12) rfl rfl
  refine def_seq (def_rdSlice (Has.left (Has.left (Has.left (Has.left (Has.left hs)))))) fun s hs => ?_
  have hs : s.length = 32 := hs
  refine def_bind (def_wrSlice (by rw [hs]; exact mh.sub (by omega) (by omega))) fun h _ => ?_
  rw [hs]
  have h48 := has_part (m := 32) (n' := 48) h16 (o' := 16) rfl rfl
  refine def_bind (def_headerSumT he.both.both.both.both.both.both h48) fun d _ => ?_
  refine def_seq (def_rdSlice (Has.right (has_cells (by omega) (by omega)))) fun d hd => ?_
  have hd : d.length = 16 := hd
  refine def_bind (def_wrSlice (by rw [hd]; exact mh.sub (by omega) (by omega))) fun h _ => ?_
  rw [hd]
  have h64 := has_part (m := 16) (n' := 64) (Has.left (E := cells (.c .hbuf) 0 32) h48) (o' := 48) rfl rfl
  refine def_bind (def_headerSigT he.both.both.both.both.both.both.both.both h64) fun d _ => ?_
  refine def_seq (def_rdSlice (Has.right (has_cells (by omega) (by omega)))) fun d hd => ?_
  have hd : d.length = 32 := hd
  refine (def_wrSlice (by rw [hd]; exact mh.sub (by omega) (by omega))).conseq (fun _ _ => trivial) fun _ _ => ?_
  rw [hd]
  exact has_part (m := 32) (n' := 96) (Has.left (E := cells (.c .hbuf) 0 32) h64) (o' := 64) rfl rfl

theorem def_checkSigT {sys : EncSys} {hw : ShaHw} {o : CObj} {off : Nat} {header : Bytes} {P : EncParams} {err : List Msg} {sc : ScOut} {st : Option SmixImpl} (he : SEnv may D)
    (hh : Has D (cells (.c o) off 96)) : Def0 may D (checkSigT sys hw (.c o) off header P err sc st) := by
  unfold checkSigT
  refine def_bind (def_headerSigT he (hh.sub (by omega) (by omega))) fun d _ => ?_
  refine def_seq (def_quiet (R := fun _ => True) fun _ _ => trivial) fun sig _ => ?_
  exact def_seq (def_verifyT (Has.right (Has.refl _)) (Has.left (hh.sub (by omega) (by omega)))) fun _ _ => def_pure0

theorem wf_streamWiped (he : CEnv may) : WrittenFirst may D streamWiped :=
  wf_append.2 ⟨wf_append.2 ⟨wf_writes fun _ h1 h2 => he.bytectr.at h1 h2, wf_writes fun _ h1 h2 => he.kblk.at h1 h2⟩, wf_writes fun _ h1 h2 => he.pblk.at h1 h2⟩

theorem wf_keyWiped (he : CEnv may) (hw : AesHw) : WrittenFirst may D (keyWiped hw) := by
  unfold keyWiped
  split
  · exact wf_nil _ _
  · exact wf_writes fun _ h1 h2 => he.rkeys.at h1 h2

theorem wf_dkWiped (he : TEnv may D) {D' : Cells} : WrittenFirst may D' (accs (.c .dk) true 0 64) := wf_writes fun _ h1 h2 => he.dkw.at h1 h2

theorem wf_closed (he : CEnv may) (hw : AesHw) : WrittenFirst may D (streamWiped ++ keyWiped hw) := wf_append.2 ⟨wf_streamWiped he, wf_keyWiped he hw⟩

theorem def_encBufT {sys : EncSys} {hw : ShaHw} {mem : Bytes} {inp n outp : Nat} {s : SetupOut} (he : TEnv may D) (hh : Has D (cells (.c .header) 0 96))
    (hi : Has D (cells (.c .mem) inp n)) (mo : Has may (cells (.c .mem) outp (n + 128))) : Def0 may D (encBufBodyT sys hw mem inp n outp s) := by
  unfold encBufBodyT
  refine def_seq (def_rdSlice hh) fun h hl => ?_
  have hl : h.length = 96 := hl
  refine def_bind (def_wrSlice (by rw [hl]; exact mo.sub (by omega) (by omega))) fun mem _ => ?_
  rw [hl]
  refine def_bind (def_aesOpenT he.c (Has.left (he.dk.sub (by omega) (by omega)))) fun a ha => ?_
  obtain ⟨⟨code, st⟩, ev⟩ := a
  dsimp only at ha ⊢
  cases st with
  | none => exact def_log0 (wf_dkWiped he)
  | some st =>
    dsimp only
    refine def_bind (def_streamT he.c (StreamIn.of (Has.right (Has.refl _))) (ha st rfl) (Has.left (Has.left hi)) (mo.sub (by omega) (by omega))) fun r _ => ?_
    refine def_seq (def_log0 (wf_closed he.c _)) fun _ _ => ?_
    refine def_seq (def_quiet (R := fun k : Bytes => k.length = 96 + n) fun _ e => rdSlice_length e) fun x hx => ?_
    refine def_bind (def_bufTagT he.both.both.both.s ?_) fun t _ => ?_
    · rw [hx]
      exact Has.join (n := 96) (m := n) (Has.left (Has.left (Has.right (Has.refl _)))) (Has.right (Has.right (Has.refl _))) (by omega) (by omega)
    refine def_seq (def_rdSlice (Has.right (Has.refl _))) fun t ht => ?_
    have ht : t.length = 32 := ht
    refine def_seq (def_wrSlice (by rw [ht]; exact mo.sub (by omega) (by omega))) fun mem _ => ?_
    exact def_log0 (wf_dkWiped he)

theorem def_decBufT {sys : EncSys} {hw : ShaHw} {mem : Bytes} {inp n outp outlen : Nat} {s : SetupOut} (he : TEnv may D) (hn : 128 ≤ n)
    (hi : Has D (cells (.c .mem) inp n)) (mo : Has may (cells (.c .mem) outp (n - 128))) : Def0 may D (decBufBodyT sys hw mem inp n outp outlen s) := by
  unfold decBufBodyT
  refine def_bind (def_aesOpenT he.c (he.dk.sub (by omega) (by omega))) fun a ha => ?_
  obtain ⟨⟨code, st⟩, ev⟩ := a
  dsimp only at ha ⊢
  cases st with
  | none => exact def_log0 (wf_dkWiped he)
  | some st =>
    dsimp only
    refine def_bind (def_streamT he.c (StreamIn.of (Has.right (Has.refl _))) (ha st rfl) (Has.left (hi.sub (by omega) (by omega))) mo) fun r _ => ?_
    refine def_seq (def_log0 (wf_closed he.c _)) fun _ _ => ?_
    refine def_seq (def_quiet (R := fun k : Bytes => k.length = n - 32) fun _ e => rdSlice_length e) fun x hx => ?_
    refine def_bind (def_bufTagT he.both.both.s ?_) fun t _ => ?_
    · rw [hx]
      exact Has.left (Has.left (hi.sub (by omega) (by omega)))
    refine def_seq (def_quiet (R := fun _ => True) fun _ _ => trivial) fun x _ => ?_
    refine def_seq (def_verifyT (Has.right (Has.refl _)) (Has.left (Has.left (Has.left (hi.sub (by omega) (by omega)))))) fun _ _ => ?_
    exact def_log0 (wf_dkWiped he)

theorem def_encLoopA {sys : EncSys} {hw : ShaHw} (mi : Has may (cells (.c .iobuf) 0 65536)) (hc' : CEnv may) : ∀ (fuel : Nat) (D : Cells) (s : CtrStream) (hctx : HMAC_SHA256_CTX) (buf : Bytes)
    (inf : List Bytes) (outf : OutFile), HEnv may D → StreamIn D s → KeyFits s.key → Has D (hmacCells .mac) → Def0 may D (encLoopA sys hw fuel s hctx buf inf outf)
  | 0, D, s, hctx, buf, inf, outf, _, _, _, _ => def_log0 (wf_nil _ _)
  | fuel + 1, D, s, hctx, buf, inf, outf, he, hs, hf, hc => by
    unfold encLoopA
    refine def_ite (fun _ => def_pure0) fun _ => ?_
    have hd : (freadSome ENCBLOCK inf).1.length ≤ 65536 := (freadSome_spec ENCBLOCK (by unfold ENCBLOCK; omega) inf).2.1
    generalize (freadSome ENCBLOCK inf).1 = d at hd ⊢
    dsimp only
    refine def_bind (def_wrSlice (mi.sub (by omega) (by omega))) fun buf _ => ?_
    refine def_bind (def_streamT hc' hs.both hf (Has.right (Has.refl _)) (mi.sub (by omega) (by omega))) fun r hk => ?_
    have hio : Has (both (both D (cells (.c .iobuf) 0 d.length)) (both (streamCells r.1) (cells (.c .iobuf) 0 d.length))) (cells (.c .iobuf) 0 d.length) := Has.right (Has.right (Has.refl _))
    refine def_seq (def_quiet (R := fun k : Bytes => k.length = d.length) fun _ e => rdSlice_length e) fun y hy => ?_
    refine def_seq (def_macUpdateT he.both.both (Has.left (Has.left hc)) (by rw [hy]; exact hio)) fun hctx _ => ?_
    refine def_seq (def_reads hio) fun _ _ => ?_
    refine def_ite (fun _ => def_pure0) fun _ => ?_
    exact def_encLoopA mi hc' fuel _ r.1 hctx r.2 _ _ he.both.both (StreamIn.of (Has.right (Has.left (Has.refl _)))) (by rw [hk]; exact hf) (Has.left (Has.left hc))

theorem def_decLoopA {sys : EncSys} {hw : ShaHw} (mi : Has may (cells (.c .iobuf) 0 65568)) (hc' : CEnv may) : ∀ (fuel : Nat) (D : Cells) (s : CtrStream) (hctx : HMAC_SHA256_CTX) (buf : Bytes)
    (buflen : Nat) (inf : List Bytes) (outf : OutFile), HEnv may D → StreamIn D s → KeyFits s.key → Has D (hmacCells .mac) → buflen ≤ 32 → Has D (cells (.c .iobuf) 0 buflen) →
    Def may D (decLoopA sys hw fuel s hctx buf buflen inf outf) (fun _ => True) (fun l => cells (.c .iobuf) 0 (if l.wfail then 0 else l.buflen))
  | 0, D, s, hctx, buf, buflen, inf, outf, _, _, _, _, _, _ => def_log (wf_nil _ _) fun _ e => nomatch e
  | fuel + 1, D, s, hctx, buf, buflen, inf, outf, he, hs, hf, hc, hb, hio => by
    unfold decLoopA
    refine def_ite (fun _ => def_pure trivial hio) fun _ => ?_
    have hd : (freadSome (ENCBLOCK + 32 - buflen) inf).1.length ≤ 65568 - buflen := (freadSome_spec (ENCBLOCK + 32 - buflen) (by unfold ENCBLOCK; omega) inf).2.1
    generalize (freadSome (ENCBLOCK + 32 - buflen) inf).1 = d at hd ⊢
    dsimp only
    refine def_bind (def_wrSlice (mi.sub (by omega) (by omega))) fun buf _ => ?_
    have hall := has_part (m := d.length) (n' := buflen + d.length) hio (o' := buflen) (by omega) rfl
    refine def_ite (fun h => ?_) fun h => ?_
    · refine (def_decLoopA mi hc' fuel _ s hctx buf (buflen + d.length) _ outf he.both hs.both hf (Has.left hc) h hall)
    · refine def_seq (def_quiet (R := fun k : Bytes => k.length = buflen + d.length - 32) fun _ e => rdSlice_length e) fun x hx => ?_
      refine def_seq (def_macUpdateT he.both (Has.left hc) (by rw [hx]; exact hall.sub (by omega) (by omega))) fun hctx _ => ?_
      refine def_bind (def_streamT hc' hs.both hf (hall.sub (by omega) (by omega)) (mi.sub (by omega) (by omega))) fun r hk => ?_
      refine def_seq (def_rdSlice (Has.left (hall.sub (by omega) (by omega)))) fun y _ => ?_
      refine def_ite (fun _ => def_pure trivial has_empty) fun _ => ?_
      refine def_seq (def_rdSlice (Has.left (hall.sub (by omega) (by omega)))) fun t ht => ?_
      have ht : t.length = 32 := ht
      refine def_bind (def_wrSlice (by rw [ht]; exact mi.sub (by omega) (by omega))) fun buf _ => ?_
      rw [ht]
      exact def_decLoopA mi hc' fuel _ r.1 hctx buf 32 _ _ he.both.both.both (StreamIn.of (Has.left (Has.right (Has.left (Has.refl _))))) (by rw [hk]; exact hf)
        (Has.left (Has.left (Has.left hc))) (Nat.le_refl _) (Has.right (Has.refl _))

theorem def_encFileEndA {sys : EncSys} {hw : ShaHw} {inf : InFile} {s : SetupOut} {tr : List Ev} {l : LoopEnd} (he : TEnv may D) (hc : Has D (hmacCells .mac)) :
    Def0 may D (encFileEndA sys hw inf s tr l) := by
  unfold encFileEndA
  refine def_ite (fun _ => def_log0 (wf_append.2 ⟨wf_streamWiped he.c, wf_dkWiped he⟩)) fun _ => ?_
  refine def_ite (fun _ => def_log0 (wf_append.2 ⟨wf_closed he.c _, wf_dkWiped he⟩)) fun _ => ?_
  refine def_seq (def_log0 (wf_closed he.c _)) fun _ _ => ?_
  refine def_bind (def_macFinalT he.s hc) fun t _ => ?_
  exact def_seq (def_rdSlice (Has.right (Has.refl _))) fun t _ => def_log0 (wf_dkWiped he)

theorem def_encFileA {sys : EncSys} {hw : ShaHw} {inf : InFile} {outf : OutFile} {s : SetupOut} (he : TEnv may D) (hh : Has D (cells (.c .header) 0 96))
    (mi : Has may (cells (.c .iobuf) 0 65536)) : Def0 may D (encFileBodyA sys hw inf outf s) := by
  unfold encFileBodyA
  refine def_bind (def_macInitT he.s) fun ctx _ => ?_
  refine def_seq (def_quiet (R := fun k : Bytes => k.length = 96) fun _ e => rdSlice_length e) fun x hx => ?_
  refine def_seq (def_macUpdateT he.both.toHEnv (Has.right (Has.refl _)) (Has.left (by rw [hx]; exact hh))) fun ctx _ => ?_
  refine def_seq (def_reads (Has.left hh)) fun _ _ => ?_
  refine def_ite (fun _ => def_log0 (wf_dkWiped he)) fun _ => ?_
  refine def_bind (def_aesOpenT he.c (Has.left (he.dk.sub (by omega) (by omega)))) fun a ha => ?_
  obtain ⟨⟨code, st⟩, ev⟩ := a
  dsimp only at ha ⊢
  cases st with
  | none => exact def_log0 (wf_dkWiped he)
  | some st =>
    dsimp only
    refine def_seq (def_encLoopA mi he.c _ _ _ _ _ _ _ he.both.both.toHEnv (StreamIn.of (Has.right (Has.refl _))) (ha st rfl) (Has.left (Has.right (Has.refl _)))) fun l _ => ?_
    exact def_encFileEndA he.both.both (Has.left (Has.right (Has.refl _)))

theorem def_decFileEndA {sys : EncSys} {hw : ShaHw} {err : Bool} {tr : List Ev} {l : LoopEnd} (he : SEnv may D) (hc' : CEnv may) (hc : Has D (hmacCells .mac))
    (hio : Has D (cells (.c .iobuf) 0 (if l.wfail then 0 else l.buflen))) : Def0 may D (decFileEndA sys hw err tr l) := by
  unfold decFileEndA
  refine def_ite (fun _ => def_log0 (wf_streamWiped hc')) fun hwf => ?_
  refine def_seq (def_log0 (wf_closed hc' _)) fun _ _ => ?_
  refine def_ite (fun _ => def_pure0) fun _ => def_ite (fun _ => def_pure0) fun hl => ?_
  rw [if_neg hwf] at hio
  refine def_bind (def_macFinalT he hc) fun t _ => ?_
  exact def_seq (def_verifyT (Has.right (Has.refl _)) (Has.left (hio.sub (by omega) (by omega)))) fun _ _ => def_pure0

theorem def_decFileA {sys : EncSys} {hw : ShaHw} {c : Cookie} {outf : OutFile} (he : SEnv may D) (hc' : CEnv may) (hh : Has D (cells (.c .header) 0 96))
    (mi : Has may (cells (.c .iobuf) 0 65568)) : Def0 may D (scryptdec_file_copyA sys hw c outf) := by
  unfold scryptdec_file_copyA
  refine def_bind (def_macInitT he) fun ctx _ => ?_
  refine def_seq (def_quiet (R := fun k : Bytes => k.length = 96) fun _ e => rdSlice_length e) fun x hx => ?_
  refine def_seq (def_macUpdateT he.both.toHEnv (Has.right (Has.refl _)) (Has.left (by rw [hx]; exact hh))) fun ctx _ => ?_
  refine def_bind (def_aesOpenT hc' (Has.left (he.dk.sub (by omega) (by omega)))) fun a ha => ?_
  obtain ⟨⟨code, st⟩, ev⟩ := a
  dsimp only at ha ⊢
  cases st with
  | none => exact def_pure0
  | some st =>
    dsimp only
    refine def_bind (def_decLoopA mi hc' _ _ _ _ _ _ _ _ he.both.both.toHEnv (StreamIn.of (Has.right (Has.refl _))) (ha st rfl) (Has.left (Has.right (Has.refl _))) (Nat.zero_le _) has_empty) fun l _ => ?_
    exact def_decFileEndA he.both.both.both hc' (Has.left (Has.left (Has.right (Has.refl _)))) (Has.right (Has.refl _))

end Scrypt
