import Verif.Props.Fork
import Verif.Props.KeyStream
/-
C66: one salt, two streams.
-/
namespace Scrypt.Props
open Scrypt Spec

/-- **C66**, streams: two streams encrypted under the same passphrase and parameters with the same salt differ exactly as the plaintexts do. -/
theorem C66_same_salt_file {s1 s2 : EncSys} (g1 : s1.Good) (g2 : s2.Good) {i1 i2 : InFile} {u1 u2 : OutFile} {passwd : Bytes}
    (hm1 : i1.data.length < 2 ^ 64) (hm2 : i2.data.length < 2 ^ 64) {P1 P2 : EncParams} {v1 f1 v2 f2 : Bool} {o1 o2 : FileOut}
    (e1 : scryptenc_file s1 i1 u1 passwd P1 v1 f1 = .ok o1) (e2 : scryptenc_file s2 i2 u2 passwd P2 v2 f2 = .ok o2) (k1 : o1.rc = .OK) (k2 : o2.rc = .OK)
    (hs : s1.salt = s2.salt) (hl : o1.P.logN = o2.P.logN) (hr : o1.P.r = o2.P.r) (hp : o1.P.p = o2.P.p) :
    ∃ c1 c2, o1.outf.written = u1.written ++ c1 ∧ o2.outf.written = u2.written ++ c2 ∧
      ∀ k, k < i1.data.length → k < i2.data.length →
        xorBytes (field c1 (96 + k) 1) (field c2 (96 + k) 1) = xorBytes (field i1.data k 1) (field i2.data k 1) := by
  obtain ⟨a, l, a0, a1, a2, a3, -⟩ := C03_file g1 hm1 e1 k1
  obtain ⟨b, n, b0, b1, b2, b3, -⟩ := C03_file g2 hm2 e2 k2
  rw [hs, b0] at a0
  have hab := Option.some.inj a0
  have hln : l = n := by rw [hl, b2] at a2; exact_mod_cast a2.symm
  subst hab hln
  rw [hr, hp] at a3
  exact ⟨_, _, a3, b3, fun k h1 h2 => same_key_xor b1 h1 h2⟩

/-- The example machine draws the same salt for two streams. -/
example (sha : ShaHw) (hw : AesHw) (passwd : Bytes) : ∃ o1 o2 c1 c2,
    scryptenc_file (exEnc sha hw exSalt) ⟨[[1], [2, 3]], false⟩ ⟨[9], none⟩ passwd exP false false = .ok o1 ∧
    scryptenc_file (exEnc sha hw exSalt) ⟨[[1, 7, 3, 4]], false⟩ ⟨[], none⟩ passwd exP false false = .ok o2 ∧
    o1.outf.written = [9] ++ c1 ∧ o2.outf.written = [] ++ c2 ∧ xorBytes (field c1 97 1) (field c2 97 1) = [5] := by
  obtain ⟨o1, h1, k1, p1⟩ := exEnc_file sha hw exSalt_length ⟨[[1], [2, 3]], false⟩ ⟨[9], none⟩ passwd (by decide) rfl
    (by intro k hk; cases hk) false false
  obtain ⟨o2, h2, k2, p2⟩ := exEnc_file sha hw exSalt_length ⟨[[1, 7, 3, 4]], false⟩ ⟨[], none⟩ passwd (by decide) rfl
    (by intro k hk; cases hk) false false
  have g := exEnc_good sha hw exSalt_length
  obtain ⟨c1, c2, q1, q2, q3⟩ := C66_same_salt_file g g (by decide) (by decide) h1 h2 k1 k2 rfl (by rw [p1, p2]) (by rw [p1, p2]) (by rw [p1, p2])
  exact ⟨o1, o2, c1, c2, h1, h2, q1, q2, q3 1 (by decide) (by decide)⟩

end Scrypt.Props

