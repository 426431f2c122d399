import Verif.Props.EncAuth
import Verif.Props.EncEx
import Verif.Proofs.AesInj
/-
C66: the key stream of one container never repeats; what it hides, and what it does not when a salt is used twice.
-/
namespace Scrypt.Props
open Scrypt Spec

theorem ctrStream_block {E : Bytes → Bytes} {nonce n i : Nat} (hE : (E (beBytes 8 nonce ++ beBytes 8 i)).length = 16) (h : 16 * (i + 1) ≤ n) :
    field (ctrStream E nonce 0 n) (16 * i) 16 = E (beBytes 8 nonce ++ beBytes 8 i) := by
  have hl : (field (ctrStream E nonce 0 n) (16 * i) 16).length = 16 := by
    rw [field, List.length_take, List.length_drop, ctrStream, List.length_map, List.length_range]; omega
  apply ext16 hl hE
  intro k hk
  unfold field ctrStream
  rw [List.getD_eq_getElem?_getD, List.getElem?_take, if_pos hk, List.getElem?_drop, List.getElem?_map, List.getElem?_range (by omega)]
  show ctrByte E nonce (0 + (16 * i + k)) = _
  unfold ctrByte
  rw [show (0 + (16 * i + k)) / 16 = i by omega, show (0 + (16 * i + k)) % 16 = k by omega]

theorem field_xor (a b : Bytes) (o n : Nat) : field (xorBytes a b) o n = xorBytes (field a o n) (field b o n) := by
  unfold field xorBytes
  rw [List.drop_zipWith, List.take_zipWith]

theorem xor_twice {a b : Bytes} (h : a.length = b.length) : xorBytes (xorBytes a b) a = b := by
  apply List.ext_getElem
  · unfold xorBytes; rw [List.length_zipWith, List.length_zipWith]; omega
  intro i h1 h2
  simp only [xorBytes, List.getElem_zipWith]
  rw [BitVec.xor_comm, ← BitVec.xor_assoc, BitVec.xor_self, BitVec.zero_xor]

theorem beBytes_inj8 {i j : Nat} (hi : i < 2 ^ 64) (hj : j < 2 ^ 64) (h : beBytes 8 i = beBytes 8 j) : i = j := by
  have e := congrArg beVal h
  rw [beVal_beBytes, beVal_beBytes] at e
  omega

theorem field_container {dk : Bytes} {logN r p : Nat} {salt m : Bytes} (hs : salt.length = 32) {a n : Nat} (h : a + n ≤ m.length) :
    field (container dk logN r p salt m) (96 + a) n = field (dataCipher dk m) a n := by
  have hh : (header96 dk logN r p salt).length = 96 := header96_length _ _ _ _ _ hs
  have hc : (dataCipher dk m).length = m.length := ctr_length _ _ _ _
  have hd : (header96 dk logN r p salt).drop 96 = [] := List.drop_eq_nil_of_le (by omega)
  unfold container field
  dsimp only []
  rw [List.append_assoc, ← List.drop_drop, List.drop_append_of_le_length (by omega), hd, List.nil_append,
    List.drop_append_of_le_length (by omega), List.take_append_of_le_length (by rw [List.length_drop]; omega)]

/-- In a container, the bytes hiding blocks `i` and `j` differ. -/
theorem container_stream {dk : Bytes} {logN r p : Nat} {salt m : Bytes} (hdk : dk.length = 64) (hs : salt.length = 32) (hm : m.length < 2 ^ 64) {i j : Nat}
    (hij : i ≠ j) (hi : 16 * (i + 1) ≤ m.length) (hj : 16 * (j + 1) ≤ m.length) :
    xorBytes (field (container dk logN r p salt m) (96 + 16 * i) 16) (field m (16 * i) 16) ≠
      xorBytes (field (container dk logN r p salt m) (96 + 16 * j) 16) (field m (16 * j) 16) := by
  have hk : (keyEnc dk).length = 16 ∨ (keyEnc dk).length = 32 := by right; simp [keyEnc]; omega
  have key : ∀ i, 16 * (i + 1) ≤ m.length →
      xorBytes (field (container dk logN r p salt m) (96 + 16 * i) 16) (field m (16 * i) 16) = aes (keyEnc dk) (beBytes 8 0 ++ beBytes 8 i) := by
    intro i hi
    rw [field_container hs (by omega)]
    unfold dataCipher ctr
    have hb := ctrStream_block (E := aes (keyEnc dk)) (nonce := 0) (n := m.length) (i := i) (aes_length _ _ hk) hi
    rw [field_xor, hb, xor_twice]
    rw [aes_length _ _ hk, field, List.length_take, List.length_drop]; omega
  rw [key i hi, key j hj]
  intro h
  have h := aes_inj hk (by rw [List.length_append, beBytes_length, beBytes_length]) (by rw [List.length_append, beBytes_length, beBytes_length]) h
  exact hij (beBytes_inj8 (by omega) (by omega) (List.append_cancel_left h))

/-- **C66**, buffer.  In what an encryption produces, the 16 bytes that were xored onto the plaintext block `i` (bytes `16i` to `16i+15`) and the ones xored
onto block `j` are different; in particular equal plaintext blocks at different places never give equal ciphertext blocks. -/
theorem C66_buf {sys : EncSys} (g : sys.Good) {m outbuf passwd : Bytes} (hm : m.length < 2 ^ 64) (hout : m.length + 128 ≤ outbuf.length)
    {P : EncParams} {verbose force : Bool} {o : BufOut} (h : scryptenc_buf sys m outbuf passwd P verbose force = .ok o) (hok : o.rc = .OK) {i j : Nat}
    (hij : i ≠ j) (hi : 16 * (i + 1) ≤ m.length) (hj : 16 * (j + 1) ≤ m.length) :
    xorBytes (field o.out (96 + 16 * i) 16) (field m (16 * i) 16) ≠ xorBytes (field o.out (96 + 16 * j) 16) (field m (16 * j) 16) ∧
    (field m (16 * i) 16 = field m (16 * j) 16 → field o.out (96 + 16 * i) 16 ≠ field o.out (96 + 16 * j) 16) := by
  obtain ⟨salt, l, -, s1, -, s2, s3, -⟩ := C03_buf g hm hout h hok
  have hf : ∀ a, 16 * (a + 1) ≤ m.length → field o.out (96 + 16 * a) 16 =
      field (container (scryptCode passwd salt (2 ^ l) o.P.r.toNat o.P.p.toNat 64) l o.P.r.toNat o.P.p.toNat salt m) (96 + 16 * a) 16 := by
    intro a ha
    rw [s2]
    unfold field
    rw [List.drop_append_of_le_length (by omega), List.take_append_of_le_length (by rw [List.length_drop]; omega)]
  have hx := container_stream (logN := l) (r := o.P.r.toNat) (p := o.P.p.toNat) (scryptCode_length passwd salt (2 ^ l) o.P.r.toNat o.P.p.toNat 64) s1 hm hij hi hj
  rw [← hf i hi, ← hf j hj] at hx
  exact ⟨hx, fun e1 e2 => hx (by rw [e1, e2])⟩

/-- **C66**, stream. -/
theorem C66_file {sys : EncSys} (g : sys.Good) {inf : InFile} {outf : OutFile} {passwd : Bytes} (hm : inf.data.length < 2 ^ 64)
    {P : EncParams} {verbose force : Bool} {o : FileOut} (h : scryptenc_file sys inf outf passwd P verbose force = .ok o) (hok : o.rc = .OK) {i j : Nat}
    (hij : i ≠ j) (hi : 16 * (i + 1) ≤ inf.data.length) (hj : 16 * (j + 1) ≤ inf.data.length) :
    ∃ c, o.outf.written = outf.written ++ c ∧
      xorBytes (field c (96 + 16 * i) 16) (field inf.data (16 * i) 16) ≠ xorBytes (field c (96 + 16 * j) 16) (field inf.data (16 * j) 16) ∧
      (field inf.data (16 * i) 16 = field inf.data (16 * j) 16 → field c (96 + 16 * i) 16 ≠ field c (96 + 16 * j) 16) := by
  obtain ⟨salt, l, -, s1, -, s2, -⟩ := C03_file g hm h hok
  have hx := container_stream (logN := l) (r := o.P.r.toNat) (p := o.P.p.toNat) (scryptCode_length passwd salt (2 ^ l) o.P.r.toNat o.P.p.toNat 64) s1 hm hij hi hj
  exact ⟨_, s2, hx, fun e1 e2 => hx (by rw [e1, e2])⟩

/-- **C66**, the other direction: if two messages are encrypted under the same passphrase and parameters with the same salt (which the random salt is there to
prevent), the bytes of the two ciphertexts differ exactly as the messages do. -/
theorem C66_same_salt {s1 s2 : EncSys} (g1 : s1.Good) (g2 : s2.Good) {m1 m2 out1 out2 passwd : Bytes} (hm1 : m1.length < 2 ^ 64) (hm2 : m2.length < 2 ^ 64)
    (h1 : m1.length + 128 ≤ out1.length) (h2 : m2.length + 128 ≤ out2.length) {P1 P2 : EncParams} {v1 f1 v2 f2 : Bool} {o1 o2 : BufOut}
    (e1 : scryptenc_buf s1 m1 out1 passwd P1 v1 f1 = .ok o1) (e2 : scryptenc_buf s2 m2 out2 passwd P2 v2 f2 = .ok o2) (k1 : o1.rc = .OK) (k2 : o2.rc = .OK)
    (hs : s1.salt = s2.salt) (hl : o1.P.logN = o2.P.logN) (hr : o1.P.r = o2.P.r) (hp : o1.P.p = o2.P.p) {k : Nat} (hk1 : k < m1.length) (hk2 : k < m2.length) :
    xorBytes (field o1.out (96 + k) 1) (field o2.out (96 + k) 1) = xorBytes (field m1 k 1) (field m2 k 1) := by
  obtain ⟨a, l, a0, a1, a2, a3, a4, -⟩ := C03_buf g1 hm1 h1 e1 k1
  obtain ⟨b, n, b0, b1, b2, b3, b4, -⟩ := C03_buf g2 hm2 h2 e2 k2
  rw [hs, b0] at a0
  have hab := Option.some.inj a0
  have hln : l = n := by rw [hl, b2] at a2; exact_mod_cast a2.symm
  subst hab hln
  rw [hr, hp] at a3 a4
  have key : ∀ {m c rest : Bytes}, c.length = m.length + 128 → k < m.length → field (c ++ rest) (96 + k) 1 = field c (96 + k) 1 := by
    intro m c rest hc hk
    unfold field
    rw [List.drop_append_of_le_length (by omega), List.take_append_of_le_length (by rw [List.length_drop]; omega)]
  rw [a3, b3, key a4 hk1, key b4 hk2, field_container b1 (by omega), field_container b1 (by omega)]
  unfold dataCipher ctr
  rw [field_xor, field_xor]
  have one : ∀ (x : Bytes), k < x.length → field x k 1 = [x.getD k 0] := by
    intro x hx
    unfold field
    rw [List.drop_eq_getElem_cons hx, List.take_succ_cons, List.take_zero, List.getD_eq_getElem?_getD, List.getElem?_eq_getElem hx]; rfl
  have st : ∀ n, k < n → field (ctrStream (aes (keyEnc (scryptCode passwd b (2 ^ l) o2.P.r.toNat o2.P.p.toNat 64))) 0 0 n) k 1 =
      [ctrByte (aes (keyEnc (scryptCode passwd b (2 ^ l) o2.P.r.toNat o2.P.p.toNat 64))) 0 k] := by
    intro n hn
    rw [one _ (by rw [ctrStream, List.length_map, List.length_range]; exact hn), ctrStream, List.getD_eq_getElem?_getD, List.getElem?_map,
      List.getElem?_range hn]
    show [ctrByte _ 0 (0 + k)] = _
    rw [Nat.zero_add]
  rw [st _ hk1, st _ hk2, one _ hk1, one _ hk2]
  simp only [xorBytes, List.zipWith_cons_cons, List.zipWith_nil_left]
  rw [show ∀ x y z : Byte, (x ^^^ z) ^^^ (y ^^^ z) = x ^^^ y from fun x y z => by
    rw [show (x ^^^ z) ^^^ (y ^^^ z) = (x ^^^ y) ^^^ (z ^^^ z) by ac_rfl]; simp]

/-- Non-vacuity for C66_buf: 32 zero bytes are encrypted, and the two halves of the ciphertext differ. -/
example (sha : ShaHw) (hw : AesHw) (passwd : Bytes) : ∃ o,
    scryptenc_buf (exEnc sha hw exSalt) (List.replicate 32 0) (List.replicate 160 0) passwd exP false false = .ok o ∧ o.rc = .OK ∧
    field o.out 96 16 ≠ field o.out 112 16 := by
  obtain ⟨o, h, hok, -⟩ := exEnc_buf sha hw exSalt_length (List.replicate 32 0) (List.replicate 160 0) passwd (by rw [List.length_replicate]; norm_num)
    (by rw [List.length_replicate, List.length_replicate]) false false
  exact ⟨o, h, hok, (C66_buf (exEnc_good sha hw exSalt_length) (by rw [List.length_replicate]; norm_num) (by rw [List.length_replicate, List.length_replicate]) h hok
    (i := 0) (j := 1) (by decide) (by rw [List.length_replicate]; norm_num) (by rw [List.length_replicate])).2 (by decide)⟩

/-- Non-vacuity for C66_file: the same for a stream delivered in two pieces. -/
example (sha : ShaHw) (hw : AesHw) (passwd : Bytes) : ∃ o c,
    scryptenc_file (exEnc sha hw exSalt) ⟨[List.replicate 5 0, List.replicate 27 0], false⟩ ⟨[9], none⟩ passwd exP false false = .ok o ∧ o.rc = .OK ∧
    o.outf.written = [9] ++ c ∧ field c 96 16 ≠ field c 112 16 := by
  obtain ⟨o, h, hok, -⟩ := exEnc_file sha hw exSalt_length ⟨[List.replicate 5 0, List.replicate 27 0], false⟩ ⟨[9], none⟩ passwd (by decide) rfl
    (by intro k hk; cases hk) false false
  obtain ⟨c, h1, -, h2⟩ := C66_file (exEnc_good sha hw exSalt_length) (by decide) h hok (i := 0) (j := 1) (by decide) (by decide) (by decide)
  exact ⟨o, c, h, hok, h1, h2 (by decide)⟩

/-- Non-vacuity for C66_same_salt: the example machine draws the same salt twice. -/
example (sha : ShaHw) (hw : AesHw) (passwd : Bytes) : ∃ o1 o2,
    scryptenc_buf (exEnc sha hw exSalt) [1, 2, 3] (List.replicate 131 0) passwd exP false false = .ok o1 ∧
    scryptenc_buf (exEnc sha hw exSalt) [1, 7, 3, 4] (List.replicate 132 0) passwd exP false false = .ok o2 ∧
    xorBytes (field o1.out 97 1) (field o2.out 97 1) = [5] := by
  obtain ⟨o1, h1, k1, p1⟩ := exEnc_buf sha hw exSalt_length [1, 2, 3] (List.replicate 131 0) passwd (by decide) (by rw [List.length_replicate]; decide) false false
  obtain ⟨o2, h2, k2, p2⟩ := exEnc_buf sha hw exSalt_length [1, 7, 3, 4] (List.replicate 132 0) passwd (by decide) (by rw [List.length_replicate]; decide) false false
  have g := exEnc_good sha hw exSalt_length
  exact ⟨o1, o2, h1, h2, C66_same_salt g g (by decide) (by decide) (by rw [List.length_replicate]; decide) (by rw [List.length_replicate]; decide) h1 h2 k1 k2 rfl
    (by rw [p1, p2]) (by rw [p1, p2]) (by rw [p1, p2]) (k := 1) (by decide) (by decide)⟩

end Scrypt.Props
