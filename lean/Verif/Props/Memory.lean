import Verif.Props.Cost
import Verif.Props.Picked
import Verif.Props.Enough
/-
C63: how much memory an operation asks for when a memory limit is in force.  The limit covers the large table of `128Nr` bytes only, not the `p` blocks of
`128r` bytes.
-/
namespace Scrypt.Spec

/-- All the bytes one derivation asks the allocator for (C55_cost, C63_asked): `p` blocks of `128r` bytes, scratch space, and the large table. -/
def memTotal (N r p : Nat) : Nat := 128 * r * p + (256 * r + 64) + memNeed N r

end Scrypt.Spec

namespace Scrypt.Props
open Scrypt Spec F64

/-- **C63.**  A derivation asks for at most `memTotal` bytes in all, and a successful one for exactly that many. -/
theorem C63_asked (szMax : Nat) (hs : IsSizeMax szMax) (env : ScEnv) (tf : Transform) (junk : HMAC_SHA256_CTX) (passwd salt : Bytes) (N : W64) (r p : W32)
    (buf : Bytes) (buflen : Nat) (hb : buflen ≤ szMax) (f : SmixImpl) {o : ScOut} {asked : List Nat} {n : Nat}
    (h : crypto_scrypt_internalC szMax env tf junk passwd salt N r p buf buflen f = Res.ok ((o, asked), n)) :
    asked.sum ≤ memTotal N.toNat r.toNat p.toNat ∧ (o.rc = 0 → asked.sum = memTotal N.toNat r.toNat p.toNat) := by
  obtain ⟨c1, c2⟩ := C55_cost szMax hs env tf junk passwd salt N r p buf buflen hb f h
  by_cases hp : ScParams szMax N.toNat r.toNat p.toNat buflen
  · obtain ⟨⟨t, ht⟩, c3, c4⟩ := c2 hp
    have hsum : asked.sum + t.sum = memTotal N.toNat r.toNat p.toNat := by
      rw [← List.sum_append, ht]
      unfold memTotal
      simp only [List.sum_cons, List.sum_nil]
      omega
    refine ⟨by omega, fun h0 => ?_⟩
    by_cases hc : env.allocB (128 * r.toNat * p.toNat) = none ∨ env.allocXY (256 * r.toNat + 64) = none ∨ env.allocV (memNeed N.toNat r.toNat) = none
    · exact absurd h0 (c4 hc).2
    · rw [not_or, not_or] at hc
      have hl := (c3 hc).1
      have hlen := congrArg List.length ht
      rw [List.length_append, hl] at hlen
      have : t = [] := List.eq_nil_of_length_eq_zero (by simpa using hlen)
      rw [this] at hsum
      simpa using hsum
  · obtain ⟨e1, -, e3⟩ := c1 hp
    rw [e1]
    exact ⟨Nat.zero_le _, fun h0 => absurd h0 e3⟩

/-- What a memory limit of `m` bytes and a budget (speed times time) say about parameters that pass: the large table fits the limit, all requests together
are at most twice the limit, 64 bytes, and the `128rp` bytes of the blocks; and those are bounded only by the time (up to the rounding of three divisions). -/
def WithinMemory (m : Nat) (budget : F64) (N r p : Nat) : Prop :=
  memNeed N r ≤ m ∧ memTotal N r p ≤ 2 * m + 64 + 128 * r * p ∧
    (budget = nan ∨ budget = inf false ∨ ∃ q, budget = fin false q ∧ ((128 * r * p * N : Nat) : ℚ) ≤ 32 * q * (1 + 1 / 2 ^ 53) ^ 3)

theorem withinMemory {sys : EncSys} {P : EncParams} {logN r p : Nat} (hg : GoodParams logN r p) (h : LimitsPass sys P false (2 ^ logN) r p) :
    ∃ m, MemLimit sys P m ∧ WithinMemory m (F64.mul sys.par.perf.2 P.maxtime) (2 ^ logN) r p := by
  rcases h with h | ⟨⟨m, hm⟩, -, hb, hs⟩
  · cases h
  have hmem : memNeed (2 ^ logN) r ≤ m := by
    by_contra hc
    exact hb ⟨m, hm, by omega⟩
  refine ⟨m, hm, hmem, ?_, ?_⟩
  · have h1 : 1 ≤ logN := by exact_mod_cast hg.1
    have : 2 ^ 1 ≤ 2 ^ logN := Nat.pow_le_pow_right (by norm_num) h1
    have : 256 * r ≤ memNeed (2 ^ logN) r := by unfold memNeed; nlinarith
    unfold memTotal
    omega
  · rcases (C13_time_test sys.par.perf.2 P.maxtime logN r p hg).2 hs with h | h | ⟨q, h, hq⟩
    · exact .inl h
    · exact .inr (.inl h)
    · refine .inr (.inr ⟨q, h, ?_⟩)
      have e : ((128 * r * p * 2 ^ logN : Nat) : ℚ) = 32 * (cpuNeed (2 ^ logN) r p : Nat) := by unfold cpuNeed; push_cast; ring
      rw [e]
      linarith

/-- **C63**, decryption of a buffer: if it succeeds without force, the parameters in its header are within memory as described. -/
theorem C63_dec_buf {sys : EncSys} (g : sys.Good) {D outbuf passwd : Bytes} {outlen : Nat} (hD : D.length < 2 ^ 64) (hout : D.length ≤ outbuf.length)
    {P : EncParams} {verbose : Bool} (hl : LimitsOk sys P verbose false) {o : BufOut}
    (h : scryptdec_buf sys D outbuf outlen passwd P verbose false = .ok o) (hok : o.rc = .OK) :
    ∃ m, MemLimit sys P m ∧ WithinMemory m (F64.mul sys.par.perf.2 P.maxtime) (2 ^ hdrLogN D) (hdrR D) (hdrP D) := by
  classical
  rw [(decBuf_spec g hD hout h).rc, bufVerdict_ok] at hok
  obtain ⟨a1, a2⟩ := (paramCode_ok g hl D).1 hok.2.2.2.2.1
  exact withinMemory a1 a2

/-- **C63**, decryption of a file. -/
theorem C63_dec_file {sys : EncSys} (g : sys.Good) {inf : InFile} {outf : OutFile} {passwd : Bytes} (hD : inf.data.length < 2 ^ 64)
    {P : EncParams} {verbose : Bool} (hl : LimitsOk sys P verbose false) {o : FileOut}
    (h : scryptdec_file sys inf outf passwd P verbose false = .ok o) (hok : o.rc = .OK) :
    ∃ m, MemLimit sys P m ∧ WithinMemory m (F64.mul sys.par.perf.2 P.maxtime) (2 ^ hdrLogN inf.data) (hdrR inf.data) (hdrP inf.data) := by
  obtain ⟨c1, c2, -⟩ := (decFile_ok g hD h).1 hok
  obtain ⟨a1, a2⟩ := (paramCode_ok g hl inf.data).1 c2.params
  exact withinMemory a1 a2

/-- **C63**, encryption with automatically chosen parameters: the large table fits the limit, and when more than one block is used (which happens only when the
memory limit is what bounds N), the blocks take at least `1024 * 32 * b / m` bytes, less 1024, for every number `b` of operations that the time allows: the
less memory the user allows, the more the blocks take. -/
theorem C63_auto {memlimit : Nat} {opps maxtime : F64} {logN r p : Nat} (h : PickedFor memlimit opps maxtime logN r p) :
    memNeed (2 ^ logN) r ≤ memlimit ∧
    (2 ≤ p → 8 * (p + 1) < 2 ^ 30 → ∀ b : Nat, WithinBudget opps maxtime b → 32768 * b < 128 * r * (p + 1) * memlimit) := by
  obtain ⟨rfl, g, h1, h2, h3⟩ := h
  refine ⟨h1, fun hp hcap b hb => ?_⟩
  rcases h3 with ⟨h3, -⟩ | ⟨-, h3 | h3⟩
  · omega
  · omega
  have hlt : b < cpuNeed (2 ^ logN) 8 (p + 1) := by
    by_contra hc
    have hle : cpuNeed (2 ^ logN) 8 (p + 1) ≤ b := by omega
    refine h3 ?_
    rcases hb with hb | hb
    · left
      revert hb
      generalize F64.mul opps maxtime = x
      cases x with
      | nan => exact id
      | inf neg => exact id
      | fin neg q =>
        intro hb
        have hb : (b : ℚ) ≤ F64.val neg q := hb
        have : ((cpuNeed (2 ^ logN) 8 (p + 1) : Nat) : ℚ) ≤ b := by exact_mod_cast hle
        exact le_trans this hb
    · exact .inr (le_trans hle hb)
  have e : 32768 * cpuNeed (2 ^ logN) 8 (p + 1) = 128 * 8 * (p + 1) * memNeed (2 ^ logN) 8 := by unfold cpuNeed memNeed; ring
  calc 32768 * b < 32768 * cpuNeed (2 ^ logN) 8 (p + 1) := by omega
    _ = 128 * 8 * (p + 1) * memNeed (2 ^ logN) 8 := e
    _ ≤ 128 * 8 * (p + 1) * memlimit := Nat.mul_le_mul_left _ h1

/-- A user with a fast machine who allows 1 MiB of memory and 300 seconds. -/
def exPSmall : EncParams := ⟨2 ^ 20, fin false (1 / 2), F64.ofNat 300, 0, 0, 0⟩

theorem exSmallMem (sha : ShaHw) (hw : AesHw) (salt : Bytes) : MemLimit (exBig sha hw salt) exPSmall (2 ^ 20) := by
  obtain ⟨r, hr, hn⟩ := C17_defined (szMax := (exBig sha hw salt).par.szMax) (Or.inr rfl) (exBig sha hw salt).par.cfg (exBig sha hw salt).par.mem (2 ^ 20)
    (q := 1 / 2) (by norm_num) (by norm_num) rep_half
  cases r with
  | none => exact absurd (hn.1 rfl) (exMem_noFail (by simp))
  | some m =>
    obtain ⟨-, -, -, -, b1, -, b2, -⟩ := C17_bounds (Or.inr rfl) _ _ _ _ (show (fin false (1 / 2)).Valid from ⟨rep_half, lt_of_lt_of_le (by norm_num) (one_le_pow₀ (by norm_num : (1 : ℚ) ≤ 2) : (1 : ℚ) ≤ 2 ^ 1024)⟩) hr
    have b2 := b2 (by norm_num)
    obtain rfl : m = 2 ^ 20 := by
      have : max 1048576 (2 ^ 20) = 2 ^ 20 := by norm_num
      omega
    exact hr

theorem exBig_ops (sha : ShaHw) (hw : AesHw) (salt : Bytes) : F64.mul (exBig sha hw salt).par.perf.2 exPSmall.maxtime = fin false 600000000 := by
  show F64.mul (F64.ofNat 2000000) (F64.ofNat 300) = _
  rw [(ofNat_exact (show 2000000 < 2 ^ 53 by norm_num)).1, (ofNat_exact (show 300 < 2 ^ 53 by norm_num)).1]
  have hr : Rep (600000000 : ℚ) := by
    have := rep_nat (n := 600000000) (by norm_num); exact_mod_cast this
  simp only [F64.mul]
  norm_num
  rw [round_small] <;> rw [roundMag_rep hr]
  exact lt_of_lt_of_le (by norm_num) (pow_le_pow_right₀ (by norm_num : (1 : ℚ) ≤ 2) (by norm_num : 30 ≤ 1024))

theorem exSmallPass (sha : ShaHw) (hw : AesHw) (salt : Bytes) : LimitsPass (exBig sha hw salt) exPSmall false (2 ^ 1) 1 (2 ^ 26) := by
  refine .inr ⟨⟨_, exSmallMem sha hw salt⟩, rfl, ?_, ?_⟩
  · rintro ⟨m, hm, hb⟩
    have h2 := exSmallMem sha hw salt
    unfold MemLimit at hm h2
    rw [h2] at hm
    obtain rfl := Option.some.inj (Res.ok.inj hm)
    unfold memNeed at hb
    omega
  · refine (C13_time_test _ _ 1 1 (2 ^ 26) ⟨by norm_num, by norm_num, by norm_num, by norm_num, by norm_num⟩).1 ?_
    rw [exBig_ops]
    show ((cpuNeed (2 ^ 1) 1 (2 ^ 26) : Nat) : ℚ) ≤ F64.val false 600000000
    norm_num [cpuNeed, F64.val]

/-- **C63** (finding F23), decryption.  A hostile file whose header says N = 2, r = 1, p = 2^26 (no passphrase is needed to make one) passes the memory limit
of 1 MiB and the time limit of 300 seconds on the example machine, and decrypting it first asks for a block of 8 GiB: if the system refuses that, the
operation ends with EKEY, not with ETOOBIG. -/
theorem C63_F23_dec (sha : ShaHw) (hw : AesHw) {salt : Bytes} (hsalt : salt.length = 32) (env : ScEnv) (henv : env.Sized) {D outbuf passwd : Bytes}
    {outlen : Nat} (hD : D.length < 2 ^ 64) (h128 : 128 ≤ D.length) (hout : D.length ≤ outbuf.length) (hm : HasMagic D) (hv : VersionOk D)
    (hc : ChecksumOk D) (h1 : hdrLogN D = 1) (h2 : hdrR D = 1) (h3 : hdrP D = 2 ^ 26) {o : BufOut}
    (h : scryptdec_buf { exBig sha hw salt with kdf := env } D outbuf outlen passwd exPSmall false false = .ok o) :
    MemLimit { exBig sha hw salt with kdf := env } exPSmall (2 ^ 20) ∧ 2 ^ 33 < memTotal (2 ^ hdrLogN D) (hdrR D) (hdrP D) ∧
    (env.allocB (2 ^ 33) = none → o.rc = .EKEY) := by
  classical
  have g0 := exBig_good sha hw hsalt
  have g : ({ exBig sha hw salt with kdf := env } : EncSys).Good := { g0 with kdf := henv }
  refine ⟨exSmallMem sha hw salt, by rw [h1, h2, h3]; norm_num [memTotal, memNeed], fun hn => ?_⟩
  have hl : LimitsOk { exBig sha hw salt with kdf := env } exPSmall false false :=
    ⟨fun _ => ⟨1 / 2, rfl, by norm_num, by norm_num, rep_half⟩, fun h => by cases h⟩
  rw [(decBuf_spec g hD hout h).rc]
  unfold bufVerdict
  have hp : paramCode { exBig sha hw salt with kdf := env } exPSmall false false D = .OK := by
    rw [paramCode_ok g hl, h1, h2, h3]
    exact ⟨⟨by norm_num, by norm_num, by norm_num, by norm_num, by norm_num⟩, exSmallPass sha hw salt⟩
  rw [if_neg (by rintro (h | h); omega; exact h hm), if_neg (not_not.2 hv), if_neg (by omega), if_neg (not_not.2 hc), if_neg (not_not.2 hp), if_pos ?_]
  rintro ⟨-, hb, -⟩
  rw [h2, h3] at hb
  exact hb hn

/-- **C63** (finding F23), encryption.  On the example machine with a limit of 1 MiB and 300 seconds, automatically chosen parameters make the blocks take
more than 17 MiB. -/
theorem C63_F23_enc (sha : ShaHw) (hw : AesHw) {salt : Bytes} (hsalt : salt.length = 32) {m outbuf passwd : Bytes} (hm : m.length < 2 ^ 64)
    (hout : m.length + 128 ≤ outbuf.length) {verbose force : Bool} {o : BufOut}
    (h : scryptenc_buf (exBig sha hw salt) m outbuf passwd exPSmall verbose force = .ok o) (hok : o.rc = .OK) :
    17 * 2 ^ 20 < 128 * hdrR o.out * hdrP o.out := by
  obtain ⟨ml, h1, h2⟩ := C11_enc_buf (exBig_good sha hw hsalt) hm hout h hok rfl
  have h3 := exSmallMem sha hw salt
  unfold MemLimit at h3
  rw [h3] at h1
  obtain rfl := Option.some.inj (Res.ok.inj h1)
  have hbud : WithinBudget (exBig sha hw salt).par.perf.2 exPSmall.maxtime 600000000 := by
    left
    rw [exBig_ops]
    show ((600000000 : Nat) : ℚ) ≤ F64.val false 600000000
    norm_num [F64.val]
  have hnot : ∀ n : Nat, 600000000 < n → ¬ WithinBudget (exBig sha hw salt).par.perf.2 exPSmall.maxtime n := by
    rintro n hn (hw | hw)
    · rw [exBig_ops] at hw
      have hw : (n : ℚ) ≤ F64.val false 600000000 := hw
      have : ((600000000 : Nat) : ℚ) < n := by exact_mod_cast hn
      norm_num [F64.val] at hw this
      linarith
    · omega
  have hr := h2.1
  rw [hr]
  obtain ⟨-, hg, hmem, -, h4⟩ := id h2
  obtain ⟨-, hA⟩ := C63_auto h2
  rw [hr] at hA
  by_cases hp : 2 ≤ hdrP o.out
  · by_cases hcap : 8 * (hdrP o.out + 1) < 2 ^ 30
    · have := hA hp hcap _ hbud
      omega
    · omega
  · exfalso
    obtain ⟨-, -, -, hp1, -⟩ := hg
    have hp1 : hdrP o.out = 1 := by omega
    have hN : 2 ^ hdrLogN o.out ≤ 1024 := by unfold memNeed at hmem; omega
    have hsmall : ∀ n : Nat, n ≤ 600000000 → WithinBudget (exBig sha hw salt).par.perf.2 exPSmall.maxtime n := by
      intro n hn
      left
      rw [exBig_ops]
      show (n : ℚ) ≤ F64.val false 600000000
      have : (n : ℚ) ≤ (600000000 : Nat) := by exact_mod_cast hn
      norm_num [F64.val] at this ⊢
      exact this
    rcases h4 with ⟨-, h4⟩ | ⟨-, h4 | h4⟩
    · exact h4 (hsmall _ (by rw [hp1]; unfold cpuNeed; omega))
    · omega
    · exact h4 (hsmall _ (by rw [hp1]; unfold cpuNeed; omega))

/-- Non-vacuity for C63_auto and C63_F23_enc: the encryption succeeds. -/
theorem exSmallAuto (sha : ShaHw) (hw : AesHw) (m outbuf passwd : Bytes) (hm : m.length < 2 ^ 64) (hout : m.length + 128 ≤ outbuf.length) (verbose force : Bool) :
    ∃ o, scryptenc_buf (exBig sha hw exSalt) m outbuf passwd exPSmall verbose force = .ok o ∧ o.rc = .OK ∧ 17 * 2 ^ 20 < 128 * hdrR o.out * hdrP o.out := by
  have g := exBig_good sha hw exSalt_length
  have hmul : F64.mul (exBig sha hw exSalt).par.perf.2 exPSmall.maxtime ≠ nan := by
    rw [exBig_ops]; simp
  obtain ⟨o, h⟩ := encBuf_total (passwd := passwd) g (show SelfTestReady (exBig sha hw exSalt) from exEnc_ready sha hw exSalt) hm hout (P := exPSmall) (verbose := verbose) (force := force) (by decide)
    ⟨fun h => absurd rfl h, fun _ => ⟨⟨fun _ => ⟨1 / 2, rfl, by norm_num, by norm_num, rep_half⟩, fun _ => ⟨rfl, rfl⟩⟩, fun _ => hmul⟩⟩
  have hml := exSmallMem sha hw exSalt
  obtain ⟨s, hs, b1, -⟩ := encBuf_spec g hm hout h
  obtain ⟨c, hc, -, -⟩ := encSetup_spec g hs
  have hcok : c = .OK := by
    obtain ⟨out, e1, e2⟩ := C11_total (exBig sha hw exSalt).par g.sz exPSmall.maxmem exPSmall.maxmemfrac exPSmall.maxtime verbose hml rfl hmul (fun _ => ⟨rfl, rfl⟩)
    unfold setupParams at hc
    rw [if_neg (not_not.2 (show exPSmall.logN = 0 from rfl)), e1, Res.bind_ok] at hc
    cases hv : out.val with
    | none => rw [hv] at hc; rw [← e2]; exact (Prod.mk.inj (Res.ok.inj hc)).1.symm
    | some v => rw [hv] at hc; rw [← e2]; exact (Prod.mk.inj (Res.ok.inj hc)).1.symm
  subst hcok
  obtain ⟨m', l, a1, a2, a3, a4, a5, -⟩ := setup_picked g rfl hc
  unfold MemLimit at hml
  rw [a1] at hml
  have hml := Option.some.inj (Res.ok.inj hml)
  rw [← b1] at a2 a3 a4
  have hN : 2 ^ o.P.logN.toNat = 2 ^ l := by rw [a2]; rfl
  have hmem : 128 * 2 ^ l * 8 < 2 ^ 28 := by have := a5; unfold memNeed at this; omega
  have hp := a4
  unfold GoodParams at hp
  have hk : KdfOk (exBig sha hw exSalt) (2 ^ o.P.logN.toNat) o.P.r.toNat o.P.p.toNat := by
    rw [hN, a3]
    refine ⟨⟨by norm_num, hp.2.2.2.1, by omega, ⟨l, rfl, by omega, by omega⟩, by omega, ?_, ?_, ?_⟩, Option.some_ne_none _, Option.some_ne_none _, Option.some_ne_none _, rfl⟩
    · show 128 * 8 * o.P.p.toNat ≤ 2 ^ 64 - 1; omega
    · show 256 * 8 + 64 ≤ 2 ^ 64 - 1; norm_num
    · show 128 * 8 * 2 ^ l ≤ 2 ^ 64 - 1; omega
  have hok : o.rc = .OK := by
    rw [(C60_buf g hm hout (fun h => absurd rfl h) h).1]
    unfold encChecks autoChecks aesChecks
    rw [if_neg (not_not.2 (show exPSmall.logN = 0 from rfl))]
    simp only [List.cons_append, List.nil_append]
    rw [firstFail_cons ⟨_, a1⟩, firstFail_cons (show (exBig sha hw exSalt).par.perf.1 = .OK from rfl),
      firstFail_cons (show (exBig sha hw exSalt).salt ≠ none from Option.some_ne_none _), firstFail_cons hk]
    rw [firstFail_cons (show aesAvail (exBig sha hw exSalt) = true by cases hw <;> rfl), firstFail_cons (show (exBig sha hw exSalt).ctr ≠ none from Option.some_ne_none _)]
    rfl
  exact ⟨o, h, hok, C63_F23_enc sha hw exSalt_length hm hout h hok⟩

/-- Non-vacuity for C63_F23_dec: such files exist, and a system that refuses the 8 GiB; the user is told that the key could not be computed. -/
example (sha : ShaHw) (hw : AesHw) (dk m passwd : Bytes) (hm : m.length < 2 ^ 60) (outlen : Nat) :
    ∃ o, scryptdec_buf { exBig sha hw exSalt with kdf := { okEnv with allocB := fun n => if n < 2 ^ 32 then some (List.replicate n 0xa5) else none } }
      (container dk 1 1 (2 ^ 26) exSalt m) (List.replicate (m.length + 128) 0) outlen passwd exPSmall false false = .ok o ∧ o.rc = .EKEY := by
  have hD := container_fields dk 1 1 (2 ^ 26) exSalt m exSalt_length (by norm_num) (by norm_num) (by norm_num)
  have henv : ({ okEnv with allocB := fun n => if n < 2 ^ 32 then some (List.replicate n 0xa5) else none } : ScEnv).Sized := by
    have hs := okEnv_sized
    refine { hs with B := ?_ }
    intro n b hb
    dsimp only [] at hb
    split at hb
    · rw [← Option.some.inj hb, List.length_replicate]
    · cases hb
  have g0 := exBig_good sha hw exSalt_length
  obtain ⟨⟨o, h⟩, -⟩ := C51_dec
    (sys := { exBig sha hw exSalt with kdf := { okEnv with allocB := fun n => if n < 2 ^ 32 then some (List.replicate n 0xa5) else none } })
    { g0 with kdf := henv } (exEnc_ready sha hw exSalt) (container dk 1 1 (2 ^ 26) exSalt m) (List.replicate (m.length + 128) 0) passwd outlen
    (by rw [hD.len]; omega) (by rw [hD.len, List.length_replicate]) ⟨[], false⟩ (by simp [InFile.data]) ⟨[], none⟩ (P := exPSmall) (verbose := false)
    (force := false) (by decide) ⟨fun _ => ⟨1 / 2, rfl, by norm_num, by norm_num, rep_half⟩, fun h => by cases h⟩
  exact ⟨o, h, (C63_F23_dec sha hw exSalt_length _ henv (by rw [hD.len]; omega) (by rw [hD.len]; omega) (by rw [hD.len, List.length_replicate]) hD.magic
    hD.version hD.sum hD.logN hD.r hD.p h).2.2
    (show (if (2 : Nat) ^ 33 < 2 ^ 32 then some (List.replicate (2 ^ 33) 0xa5) else none : Option Bytes) = none from if_neg (by norm_num))⟩

end Scrypt.Props
