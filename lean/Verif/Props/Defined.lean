import Verif.Proofs.DefinedTop
import Verif.Props.AccessEnc
import Verif.Props.AccessHash
/-
C86: nothing is read before it has been given a value, and nothing is written outside the function's own objects and its output.
-/
namespace Scrypt.Props
open Spec

theorem has_sub {o : CObj} {off n : Nat} {l : List Cells} (h : sub o off n ∈ l) : Has (among l) (cells (.c o) off n) := fun _ _ x => ⟨_, h, x⟩

theorem has_of {l : List Cells} {D : Cells} {a : Arr} {n : Nat} (h : D ∈ l) (hd : ∀ i, i < n → D a i) : Has (among l) (cells a 0 n) :=
  Has.of fun i _ h2 => ⟨D, h, hd i (by omega)⟩

theorem hEnv_among {m d : List Cells} (hm : hashVars ∈ m) (hd : tables ∈ d) : HEnv (among m) (among d) where
  krnd := has_of hd fun _ h => h
  padc := has_of hd fun _ h => h
  init := has_of hd fun _ h => h
  W := has_of hm fun _ h => h
  S := has_of hm fun _ h => h
  khash := has_of hm fun _ h => h
  pad := has_of hm fun _ h => h
  ihash := has_of hm fun _ h => h
  state := fun _ => has_of hm fun _ h => h
  count := fun _ => has_of hm fun _ h => h
  buf := fun _ => has_of hm fun _ h => h

theorem cEnv_among {m : List Cells} (hm : aesVars ∈ m) : CEnv (among m) where
  rkeys := has_of hm fun _ h => h
  bytectr := has_of hm fun _ h => h
  kblk := has_of hm fun _ h => h
  pblk := has_of hm fun _ h => h
  cblk := has_of hm fun _ h => h

theorem pEnv_kdf (N r p buflen lp ls : Nat) : PEnv (kdfWrites N r p buflen) (kdfGiven lp ls) where
  krnd := Has.of fun i _ h => (show i < 64 by omega)
  padc := Has.of fun i _ h => (show i < 64 by omega)
  init := Has.of fun i _ h => (show i < 8 by omega)
  W := Has.of fun i _ h => Or.inl (show i < 64 by omega)
  S := Has.of fun i _ h => Or.inl (show i < 8 by omega)
  khash := Has.of fun i _ h => Or.inl (show i < 32 by omega)
  pad := Has.of fun i _ h => Or.inl (show i < 64 by omega)
  ihash := Has.of fun i _ h => Or.inl (show i < 32 by omega)
  state := fun _ => Has.of fun i _ h => Or.inl (show i < 8 by omega)
  count := fun _ => Has.of fun i _ h => Or.inl (show i < 1 by omega)
  buf := fun _ => Has.of fun i _ h => Or.inl (show i < 64 by omega)
  ivec := Has.of fun i _ h => Or.inr (show i < 4 by omega)
  U := Has.of fun i _ h => Or.inr (show i < 32 by omega)
  T := Has.of fun i _ h => Or.inr (show i < 32 by omega)

/-- **C86.**  Deriving a key, whether or not it succeeds, for all routines: every element read is one of the passphrase, the salt and the constant tables, or has been written
before; every element written is one of the three blocks it has allocated, of the output or of its automatic variables. On success the whole output has been written. -/
theorem C86_kdf (szMax : Nat) (hs : IsSizeMax szMax) (env : ScEnv) (hw : ShaHw) (junk : HMAC_SHA256_CTX) (passwd salt : Bytes) (N : W64) (r p : W32) (buf : Bytes) (buflen : Nat)
    (hb : buflen ≤ szMax) (f : SmixImpl) (o : ScOut) (tr : List Acc) (h : crypto_scrypt_internalTT szMax env hw junk passwd salt N r p buf buflen f = Res.ok (o, tr)) :
    WrittenFirst (kdfWrites N.toNat r.toNat p.toNat buflen) (kdfGiven passwd.length salt.length) tr ∧
      (o.rc = 0 → ∀ i, i < buflen → (⟨.h .out, i, true⟩ : Acc) ∈ tr) := by
  suffices H : Def (kdfWrites N.toNat r.toNat p.toNat buflen) (kdfGiven passwd.length salt.length)
      (crypto_scrypt_internalTT szMax env hw junk passwd salt N r p buf buflen f) (fun _ => True) (fun o => if o.rc = 0 then cells (.h .out) 0 buflen else noCells) by
    obtain ⟨h1, -, h3⟩ := H o tr h
    refine ⟨h1, fun h0 i hi => ?_⟩
    dsimp only at h3
    rw [if_pos h0] at h3
    rcases h3 (.h .out) i ⟨rfl, by omega, by omega⟩ with h | h
    · exact h.elim
    · exact h
  have hbad : ∀ {e : ScOut}, e.rc ≠ 0 → Def (kdfWrites N.toNat r.toNat p.toNat buflen) (kdfGiven passwd.length salt.length) (Logged.log [] (.ok e)) (fun _ => True)
      (fun o => if o.rc = 0 then cells (.h .out) 0 buflen else noCells) := fun he => def_log (wf_nil _ _) fun a ha => by
    obtain rfl := Res.ok.inj ha
    rw [if_neg he]
    exact ⟨trivial, Has.none _⟩
  unfold crypto_scrypt_internalTT
  simp only []
  cases hc : scryptCheck szMax N r p buflen with
  | some e => exact hbad (by show ¬ (-1 : Int) = 0; decide)
  | none =>
    simp only []
    obtain ⟨r0, p0, rp, ⟨k, hk, k1, k2⟩, len, szB, szXY, szV⟩ := (scryptCheck_none_iff szMax hs N r p buflen hb).1 hc
    rw [Nat.mod_eq_of_lt (show 128 * r.toNat * p.toNat < szMax + 1 by omega), Nat.mod_eq_of_lt (show 256 * r.toNat + 64 < szMax + 1 by omega),
      Nat.mod_eq_of_lt (show 128 * r.toNat * N.toNat < szMax + 1 by omega)]
    have eB : p.toNat * 128 * r.toNat = 128 * r.toNat * p.toNat := by ring
    cases hB : env.allocB (128 * r.toNat * p.toNat) with
    | none => exact hbad (by show ¬ (-1 : Int) = 0; decide)
    | some B =>
    simp only []
    cases hX : env.allocXY (256 * r.toNat + 64) with
    | none => exact hbad (by show ¬ (-1 : Int) = 0; decide)
    | some XY =>
    simp only []
    cases hV : env.allocV (128 * r.toNat * N.toNat) with
    | none => exact hbad (by show ¬ (-1 : Int) = 0; decide)
    | some V =>
    simp only [eB, Nat.mod_eq_of_lt (show 128 * r.toNat * p.toNat < szMax + 1 by omega)]
    have he := pEnv_kdf N.toNat r.toNat p.toNat buflen passwd.length salt.length
    have mB : Has (kdfWrites N.toNat r.toNat p.toNat buflen) (cells .B 0 (128 * r.toNat * p.toNat)) := Has.of fun i _ h => (show i < 128 * r.toNat * p.toNat by omega)
    have mV : Has (kdfWrites N.toNat r.toNat p.toNat buflen) (cells .V 0 (N.toNat * (32 * r.toNat))) := Has.of fun i _ h => (show i < 32 * r.toNat * N.toNat by
      rw [Nat.mul_comm (32 * r.toNat)]; omega)
    have mXY : Has (kdfWrites N.toNat r.toNat p.toNat buflen) (cells .XY 0 (64 * r.toNat + 16)) := Has.of fun i _ h => (show i < 64 * r.toNat + 16 by omega)
    have mx : Has (kdfWrites N.toNat r.toNat p.toNat buflen) (cells .x 0 16) := Has.of fun i _ h => (show i < 16 by omega)
    have mo : Has (kdfWrites N.toNat r.toNat p.toNat buflen) (cells (.h .out) 0 buflen) := Has.of fun i _ h => (show i < buflen by omega)
    have dp : Has (kdfGiven passwd.length salt.length) (cells (.h .passwd) 0 passwd.length) := Has.of fun i _ h => (show i < passwd.length by omega)
    have ds : Has (kdfGiven passwd.length salt.length) (cells (.h .salt) 0 salt.length) := Has.of fun i _ h => (show i < salt.length by omega)
    refine def_bind (def_PBKDF2T (def_tf _ hw) he dp ds mB) fun B _ => ?_
    have h2 : N.toNat % 2 = 0 := by
      obtain ⟨j, rfl⟩ : ∃ j, k = j + 1 := ⟨k - 1, by omega⟩
      rw [hk, Nat.pow_succ]
      omega
    refine def_seq (def_mixBlocksT hs (by omega) (by rw [hk]; exact Nat.two_pow_pos k) N.isLt h2 szB (Has.right (Has.refl _)) mB mXY mV mx) fun ⟨B, V, XY⟩ _ => ?_
    dsimp only
    refine def_seq (def_quiet (R := fun x : Bytes => x.length = 128 * r.toNat * p.toNat) fun _ e => rdSlice_length e) fun Bs hl => ?_
    refine def_bind (def_PBKDF2T (def_tf _ hw) he.both (Has.left dp) (Has.right (by rw [hl]; exact Has.refl _)) mo) fun out _ => ?_
    have hend : ∀ o : ScOut, Has (both (both (kdfGiven passwd.length salt.length) (cells .B 0 (128 * r.toNat * p.toNat))) (cells (.h .out) 0 buflen))
        (if o.rc = 0 then cells (.h .out) 0 buflen else noCells) := by
      intro o
      split
      · exact Has.right (Has.refl _)
      · exact Has.none _
    split
    · exact def_pure trivial (hend _)
    · exact def_pure trivial (hend _)

/-- **C86.**  Constructing the header: given the salt and the derived key, nothing is read before it is written, only the header, the digest and automatic variables are written,
and all 96 bytes of the header are. -/
theorem C86_header (sys : EncSys) (P : EncParams) (salt dk h : Bytes) (tr : List Acc) (e : writeHeaderT sys sys.sha P salt dk = Res.ok (h, tr)) :
    WrittenFirst (among [sub .header 0 96, sub .hbuf 0 32, hashVars]) (among [sub .salt 0 32, sub .dk 0 64, tables]) tr ∧
      ∀ i, i < 96 → (⟨.c .header, i, true⟩ : Acc) ∈ tr := by
  have H := def_writeHeaderT (sys := sys) (hw := sys.sha) (P := P) (salt := salt) (dk := dk)
    (may := among [sub .header 0 96, sub .hbuf 0 32, hashVars]) (D := among [sub .salt 0 32, sub .dk 0 64, tables])
    { hEnv_among (by simp) (by simp) with hbuf := has_sub (by simp), dk := has_sub (by simp) } (has_sub (by simp)) (has_sub (by simp))
  obtain ⟨h1, -, h3⟩ := H h tr e
  refine ⟨h1, fun i hi => ?_⟩
  rcases h3 (.c .header) i ⟨rfl, by omega, by omega⟩ with ⟨D, hD, h⟩ | h
  · simp only [List.mem_cons, List.not_mem_nil, or_false] at hD
    rcases hD with rfl | rfl | rfl
    · exact nomatch h.1
    · exact nomatch h.1
    · exact h.elim
  · exact h

/-- **C86.**  Checking the header's signature, the header being in the caller's memory or in a buffer of the program's. -/
theorem C86_check (sys : EncSys) (A : CObj) (off : Nat) (header : Bytes) (P : EncParams) (err : List Msg) (o : ScOut) (st : Option SmixImpl) (r : SetupOut) (tr : List Acc)
    (e : checkSigT sys sys.sha (.c A) off header P err o st = Res.ok (r, tr)) :
    WrittenFirst (among [sub .hbuf 0 32, hashVars]) (among [sub A off 96, sub .dk 0 64, tables]) tr :=
  (def_checkSigT { hEnv_among (by simp) (by simp) with hbuf := has_sub (by simp), dk := has_sub (by simp) } (has_sub (by simp)) r tr e).1

theorem tEnv_among {m d : List Cells} (m1 : hashVars ∈ m) (m2 : aesVars ∈ m) (m3 : sub .hbuf 0 32 ∈ m) (m4 : sub .dk 0 64 ∈ m) (d1 : tables ∈ d) (d2 : sub .dk 0 64 ∈ d) :
    TEnv (among m) (among d) :=
  { hEnv_among m1 d1 with
    c := cEnv_among m2
    hbuf := has_sub m3
    dkw := has_sub m4
    dk := has_sub d2 }

/-- **C86.**  The encryption of a buffer after the setup, whatever its outcome: of the caller's memory only the output is written, and what is read of it is the input or
has been written before. (The derived key, which is overwritten at the end, is the program's own.) -/
theorem C86_enc (sys : EncSys) (mem : Bytes) (inp n outp : Nat) (s : SetupOut) (o : BufOut) (tr : List Acc) (e : encBufBodyT sys sys.sha mem inp n outp s = Res.ok (o, tr)) :
    WrittenFirst (among [sub .mem outp (n + 128), sub .dk 0 64, sub .hbuf 0 32, aesVars, hashVars])
      (among [sub .mem inp n, sub .header 0 96, sub .dk 0 64, tables]) tr :=
  (def_encBufT (tEnv_among (by simp) (by simp) (by simp) (by simp) (by simp) (by simp)) (has_sub (by simp)) (has_sub (by simp)) (has_sub (by simp)) o tr e).1

/-- **C86.**  The decryption of a buffer of at least 128 bytes after the setup, whatever its outcome. -/
theorem C86_dec (sys : EncSys) (mem : Bytes) (inp n outp outlen : Nat) (hn : 128 ≤ n) (s : SetupOut) (o : BufOut) (tr : List Acc)
    (e : decBufBodyT sys sys.sha mem inp n outp outlen s = Res.ok (o, tr)) :
    WrittenFirst (among [sub .mem outp (n - 128), sub .dk 0 64, sub .hbuf 0 32, aesVars, hashVars]) (among [sub .mem inp n, sub .dk 0 64, tables]) tr :=
  (def_decBufT (tEnv_among (by simp) (by simp) (by simp) (by simp) (by simp) (by simp)) hn (has_sub (by simp)) (has_sub (by simp)) o tr e).1

/-- **C86.**  The encryption of a file after the setup, however its data arrives and however much can be written: the buffer of 65536 bytes is not exceeded, and of it only what
has been received is read. -/
theorem C86_enc_file (sys : EncSys) (inf : InFile) (outf : OutFile) (s : SetupOut) (o : FileOut) (tr : List Acc) (e : encFileBodyA sys sys.sha inf outf s = Res.ok (o, tr)) :
    WrittenFirst (among [sub .iobuf 0 65536, sub .dk 0 64, sub .hbuf 0 32, aesVars, hashVars]) (among [sub .header 0 96, sub .dk 0 64, tables]) tr :=
  (def_encFileA (tEnv_among (by simp) (by simp) (by simp) (by simp) (by simp) (by simp)) (has_sub (by simp)) (has_sub (by simp)) o tr e).1

/-- **C86.**  The decryption of a file after its header, likewise, with a buffer of 65568 bytes; the derived key is not written. -/
theorem C86_dec_file (sys : EncSys) (c : Cookie) (outf : OutFile) (o : CopyOut) (tr : List Acc) (e : scryptdec_file_copyA sys sys.sha c outf = Res.ok (o, tr)) :
    WrittenFirst (among [sub .iobuf 0 65568, sub .hbuf 0 32, aesVars, hashVars]) (among [sub .header 0 96, sub .dk 0 64, tables]) tr :=
  (def_decFileA { hEnv_among (by simp) (by simp) with hbuf := has_sub (by simp), dk := has_sub (by simp) } (cEnv_among (by simp)) (has_sub (by simp)) (has_sub (by simp)) o tr e).1

/-- The property is not empty: reading what has no value yet, and writing elsewhere, violate it; writing and then reading does not. -/
example : ¬ WrittenFirst (cells .x 0 16) noCells [⟨.x, 3, false⟩, ⟨.x, 3, true⟩] ∧ ¬ WrittenFirst (cells .x 0 16) noCells [⟨.x, 16, true⟩] ∧
    WrittenFirst (cells .x 0 16) noCells [⟨.x, 3, true⟩, ⟨.x, 3, false⟩] := by
  refine ⟨fun h => ?_, fun h => ?_, ?_⟩
  · rcases (h [] _ _ rfl).1 rfl with h | h
    · exact h
    · exact nomatch h
  · have := ((h [] _ _ rfl).2 rfl).2.2
    exact absurd this (by decide)
  · rw [wf_cons, wf_cons]
    exact ⟨⟨nofun, fun _ => ⟨rfl, by decide, by decide⟩⟩, ⟨fun _ => Or.inr (by simp), nofun⟩, wf_nil _ _⟩

/-- Non-vacuity for `C86_kdf`: N = 1024, r = 8, p = 1, any passphrase and salt, all routines. -/
example (hw : ShaHw) (f : SmixImpl) (pw salt : Bytes) : ∃ o tr, crypto_scrypt_internalTT (2 ^ 64 - 1) okEnv hw zeroHctx pw salt 1024 8 1 (List.replicate 64 0) 64 f = Res.ok (o, tr) ∧
    o.rc = 0 ∧ WrittenFirst (kdfWrites 1024 8 1 64) (kdfGiven pw.length salt.length) tr ∧ (⟨.h .out, 63, true⟩ : Acc) ∈ tr := by
  have hp : ScParams (2 ^ 64 - 1) (1024 : W64).toNat (8 : W32).toNat (1 : W32).toNat 64 :=
    ⟨by decide, by decide, by decide, ⟨10, by decide, by norm_num, by norm_num⟩, by norm_num, by decide, by decide, by decide⟩
  rcases internal_total (2 ^ 64 - 1) (.inr rfl) okEnv okEnv_sized (shaTransform hw) (goodTf hw) zeroHctx zeroHctx_sized (smixImpl f) (goodSmix f) pw salt 1024 8 1
      (List.replicate 64 0) 64 (by rw [List.length_replicate]) (by norm_num) with ⟨h, -⟩ | ⟨-, ⟨h | h | h, -⟩ | ⟨-, h⟩⟩
  · exact absurd hp h
  · cases h
  · cases h
  · cases h
  · obtain ⟨tr, h1⟩ := C79_exists _ _ _ _ _ _ _ _ _ _ _ _ h
    obtain ⟨q, w⟩ := C86_kdf (2 ^ 64 - 1) (.inr rfl) okEnv hw zeroHctx pw salt 1024 8 1 (List.replicate 64 0) 64 (by norm_num) f _ tr h1
    exact ⟨_, tr, h1, rfl, q, w rfl 63 (by omega)⟩

set_option maxRecDepth 4000 in
/-- Non-vacuity for `C86_enc`: in the area of 200 bytes the plaintext is inside what becomes the container. -/
example (sha : ShaHw) (hw : AesHw) : ∃ (mem : Bytes) (o : BufOut) (s : SetupOut) (tr : List Acc), o.rc = .OK ∧ encBufBodyT (exEnc sha hw exSalt) sha mem 96 3 0 s = Res.ok (o, tr) ∧
    (⟨.c .mem, 97, false⟩ : Acc) ∈ tr ∧ (⟨.c .mem, 130, true⟩ : Acc) ∈ tr ∧
    WrittenFirst (among [sub .mem 0 131, sub .dk 0 64, sub .hbuf 0 32, aesVars, hashVars]) (among [sub .mem 96 3, sub .header 0 96, sub .dk 0 64, tables]) tr := by
  have g := exEnc_good sha hw exSalt_length
  obtain ⟨o, h, hok, -⟩ := exEnc_buf sha hw exSalt_length (region exArea 96 3) (region exArea 0 131) (region exArea 190 4) (by decide) (by decide) false false
  have e := C80_enc g exArea 96 3 0 190 4 exP false false (by decide) (by decide) (by decide) (by decide)
  rw [h, Res.bind_ok] at e
  obtain ⟨tr, ht⟩ := C81_enc (exEnc sha hw exSalt) 96 3 0
  obtain ⟨⟨pw, s, -, -, -, q⟩, hx⟩ := ht exArea 190 4 exP false false _ e hok
  refine ⟨exArea, _, s, tr, ?_, q, (hx 97).1.2 (.inl ⟨by decide, by decide⟩), (hx 130).2.2 ⟨by decide, by decide⟩, C86_enc (exEnc sha hw exSalt) exArea 96 3 0 s _ tr q⟩
  exact hok

/-- Non-vacuity for `C86_dec`: a container of 131 bytes is decrypted. -/
example (sha : ShaHw) (hw : AesHw) : ∃ (mem : Bytes) (o : BufOut) (s : SetupOut) (tr : List Acc), o.rc = .OK ∧ decBufBodyT (exEnc sha hw exSalt) sha mem 0 131 131 77 s = Res.ok (o, tr) ∧
    (⟨.c .mem, 130, false⟩ : Acc) ∈ tr ∧ WrittenFirst (among [sub .mem 131 3, sub .dk 0 64, sub .hbuf 0 32, aesVars, hashVars]) (among [sub .mem 0 131, sub .dk 0 64, tables]) tr := by
  obtain ⟨mem, -, o, -, -, -, e, hok, -⟩ := exDec_area sha hw
  obtain ⟨hn, inbuf, pw, s, h1, h2, h3, h4, h5⟩ := dec_reached e hok
  obtain ⟨tr, ht⟩ := C81_dec (exEnc sha hw exSalt) 0 131 131 hn
  obtain ⟨q, hx⟩ := ht mem 77 262 4 exP0 true false inbuf pw s o e h1 h2 h3 h4 h5
  exact ⟨mem, o, s, tr, hok, q, (hx (.inl hok) 130).1.2 ⟨by decide, by decide⟩, C86_dec (exEnc sha hw exSalt) mem 0 131 131 77 hn s o tr q⟩

/-- Non-vacuity for `C86_header` and `C86_check`: a header is made, and its signature is checked. -/
example (sha : ShaHw) (hw : AesHw) : ∃ (h : Bytes) (r : SetupOut) (tr tr' : List Acc),
    writeHeaderT (exEnc sha hw exSalt) sha exP exSalt (List.replicate 64 7) = Res.ok (h, tr) ∧ (⟨.c .header, 95, true⟩ : Acc) ∈ tr ∧
    checkSigT (exEnc sha hw exSalt) sha (.c .mem) 10 h exP [] ⟨0, none, List.replicate 64 7, []⟩ none = Res.ok (r, tr') ∧
    WrittenFirst (among [sub .hbuf 0 32, hashVars]) (among [sub .mem 10 96, sub .dk 0 64, tables]) tr' := by
  have g := exEnc_good sha hw exSalt_length
  obtain ⟨tr, ht⟩ := C81_header (exEnc sha hw exSalt)
  have q := ht exP exSalt (List.replicate 64 7) _ (writeHeader_ok _ g exP 10 rfl exSalt (List.replicate 64 7) exSalt_length (List.length_replicate ..))
  obtain ⟨tr', ht'⟩ := C81_check (exEnc sha hw exSalt) (.c .mem) 10
  have q' := ht' _ exP [] ⟨0, none, List.replicate 64 7, []⟩ none _ (checkSig_ok g (header96 (List.replicate 64 7) 10 exP.r.toNat exP.p.toNat exSalt)
    (Nat.le_of_eq (header96_length _ _ _ _ _ exSalt_length).symm) exP [] ⟨0, none, List.replicate 64 7, []⟩ none (List.length_replicate ..))
  exact ⟨_, _, tr, tr', q, (C86_header _ _ _ _ _ _ q).2 95 (by omega), q', C86_check _ _ _ _ _ _ _ _ _ _ q'⟩

/-- Non-vacuity for `C86_enc_file`: the file is encrypted. -/
example (sha : ShaHw) (hw : AesHw) : ∃ (s : SetupOut) (o : FileOut) (tr : List Acc), o.rc = .OK ∧
    encFileBodyA (exEnc sha hw exSalt) sha ⟨[[1, 2], [3]], false⟩ ⟨[], none⟩ s = Res.ok (o, tr) ∧
    WrittenFirst (among [sub .iobuf 0 65536, sub .dk 0 64, sub .hbuf 0 32, aesVars, hashVars]) (among [sub .header 0 96, sub .dk 0 64, tables]) tr := by
  obtain ⟨o, e, hok, -⟩ := exEnc_file sha hw exSalt_length ⟨[[1, 2], [3]], false⟩ ⟨[], none⟩ [7] (by decide) rfl (by intro k hk; cases hk) false false
  have e' := e
  unfold scryptenc_file at e'
  rw [Res.bind_eq_ok] at e'
  obtain ⟨_, -, e'⟩ := e'
  rw [Res.bind_eq_ok] at e'
  obtain ⟨s, hs, e'⟩ := e'
  split at e'
  next hrc => obtain rfl := Res.ok.inj e'; exact absurd hok hrc
  next hrc =>
    obtain ⟨tr, ht⟩ := C81_enc_file (exEnc sha hw exSalt) [2, 1] false none
    have q := ht _ _ [7] exP false false s o rfl rfl rfl e hs (by simpa using hrc)
    exact ⟨s, o, tr, hok, q, C86_enc_file (exEnc sha hw exSalt) _ _ s o tr q⟩

/-- Non-vacuity for `C86_dec_file`: the copy runs to its end. -/
example (sha : ShaHw) (hw : AesHw) : ∃ (o : CopyOut) (tr : List Acc),
    scryptdec_file_copyA (exEnc sha hw exSalt) sha ⟨⟨[List.replicate 40 1], false⟩, List.replicate 96 2, List.replicate 64 3⟩ ⟨[], none⟩ = Res.ok (o, tr) ∧
    WrittenFirst (among [sub .iobuf 0 65568, sub .hbuf 0 32, aesVars, hashVars]) (among [sub .header 0 96, sub .dk 0 64, tables]) tr := by
  have g := exEnc_good sha hw exSalt_length
  obtain ⟨tr, ht⟩ := C81_dec_file (exEnc sha hw exSalt) [40] false none
  obtain ⟨o, e, -⟩ := decCopy_ok g ⟨⟨[List.replicate 40 1], false⟩, List.replicate 96 2, List.replicate 64 3⟩ ⟨[], none⟩ (by simp) (by simp) (by decide)
  have q := ht _ _ o rfl rfl rfl e
  exact ⟨o, tr, q, C86_dec_file (exEnc sha hw exSalt) _ _ o tr q⟩

end Scrypt.Props
