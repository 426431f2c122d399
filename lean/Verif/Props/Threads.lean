import Verif.Proofs.Threads
import Verif.Props.Scrypt
import Verif.Props.Aes
import Verif.Proofs.Drbg
import Mathlib.Tactic.ByContra
import Mathlib.Tactic.Common
/-
C70: key derivation from several threads.  C71: what holds of AES when it is used from several threads (findings F27 and F28).
-/
namespace Scrypt.Props
open Scrypt.Spec

/-! ### C70: feature queries -/

/-- C70. Threads query a CPU feature in any interleaving, from the program's start.  No thread is told that the processor has a feature that it does not have,
and as soon as one query has been answered every query that starts afterwards is answered correctly. -/
theorem C70_feature (detected : Bool) (n : Nat) (sched : List Nat) :
    let s := interleave (featStep detected) sched (⟨false, false⟩, List.replicate n .readPresent)
    (FeatPc.done true ∈ s.2 → detected = true) ∧
    ((∃ r, FeatPc.done r ∈ s.2) → ∀ (sched' : List Nat) (m i : Nat) (r : Bool),
      (interleave (featStep detected) sched' (s.1, List.replicate m .readPresent)).2[i]? = some (.done r) → r = detected) := by
  intro s
  have main := interleave_inv (step := featStep detected)
    (fun g => (g.present = true → detected = true) ∧ (g.init = true → g.present = detected))
    (fun _ g t => (t = .writeInit → g.present = detected) ∧ (t = .readBack → g.init = true) ∧
      ∀ r, t = .done r → (r = true → detected = true) ∧ (g.present = true ∨ g.init = true))
    (by
      rintro i ⟨pr, it⟩ t ⟨h1, h2⟩ ⟨h3, h4, h5⟩
      cases t <;> cases pr <;> cases it <;> cases detected <;> simp_all [featStep])
    (by
      rintro i ⟨pr, it⟩ t ⟨h1, h2⟩ ⟨h3, h4, h5⟩ j u ⟨k3, k4, k5⟩
      cases t <;> cases pr <;> cases it <;> cases detected <;> cases u <;> simp_all [featStep])
    sched (⟨false, false⟩, List.replicate n .readPresent) (by simp) (by
      intro i t hi
      have : t = .readPresent := by
        have := List.mem_of_getElem? hi
        exact List.eq_of_mem_replicate this
      subst this
      simp)
  obtain ⟨⟨p1, p2⟩, q⟩ := main
  refine ⟨fun hm => ?_, ?_⟩
  · obtain ⟨i, hi⟩ := List.getElem?_of_mem hm
    exact ((q i _ hi).2.2 true rfl).1 rfl
  · rintro ⟨r0, hr0⟩ sched' m i r hi
    obtain ⟨i0, hi0⟩ := List.getElem?_of_mem hr0
    have hset := ((q i0 _ hi0).2.2 r0 rfl).2
    have hpres : s.1.present = detected := by
      rcases hset with h | h
      · rw [show s.1.present = true from h, p1 h]
      · exact p2 h
    have again := interleave_inv (step := featStep detected)
      (fun g => g.present = detected ∧ (detected = false → g.init = true))
      (fun _ g t => t = .readPresent ∨ (t = .readInit ∧ detected = false) ∨ t = .done detected)
      (by
        rintro i ⟨pr, it⟩ t ⟨h1, h2⟩ h3
        rcases h3 with h | ⟨h, h'⟩ | h <;> subst h <;> cases pr <;> cases it <;> cases detected <;> simp_all [featStep])
      (by
        rintro i ⟨pr, it⟩ t ⟨h1, h2⟩ h3 j u h4
        exact h4)
      sched' (s.1, List.replicate m .readPresent)
      ⟨hpres, fun hd => by
        rcases hset with h | h
        · rw [p1 h] at hd; cases hd
        · exact h⟩
      (by
        intro i t hi
        exact .inl (List.eq_of_mem_replicate (List.mem_of_getElem? hi)))
    rcases again.2 i _ hi with h | ⟨h, -⟩ | h
    · cases h
    · cases h
    · exact FeatPc.done.inj h

/-- C70. Every query is answered after at most five of the thread's own steps. -/
theorem C70_feature_finishes (detected : Bool) (v : FeatVar) (n : Nat) (sched : List Nat) (i : Nat) (hi : i < n) (h : 5 ≤ sched.count i) :
    ∃ r, (interleave (featStep detected) sched (v, List.replicate n .readPresent)).2[i]? = some (.done r) := by
  obtain ⟨u, hu, hm⟩ := interleave_progress (step := featStep detected)
    (fun t => match t with | .readPresent => 5 | .readInit => 4 | .writePresent => 3 | .writeInit => 2 | .readBack => 1 | .done _ => 0)
    (by
      rintro ⟨pr, it⟩ t
      cases t <;> cases pr <;> cases it <;> simp [featStep])
    sched (v, List.replicate n .readPresent) i .readPresent (by simp [hi])
  simp only at hm
  cases u with
  | done r => exact ⟨r, hu⟩
  | _ => simp only at hm; omega

/-- C70, finding F27 (first part): a thread whose query overlaps the first one can be told that the processor lacks a feature which it has (the other thread
stores `present` between this thread's two reads), and then the slower code is selected. -/
theorem C70_F27_missed : (interleave (featStep true) [0, 1, 1, 1, 1, 1, 0] (⟨false, false⟩, [.readPresent, .readPresent])).2 = [.done false, .done true] := by
  decide

/-! ### C70: the choice of the SHA-256 routine -/

/-- A thread in `hwaccel_init` of sha256.c, with what its feature queries answer. -/
def shaStep (var : Option ShaHw) (t : (ShaHw → Bool) × HwPc ShaHw) : Option ShaHw × ((ShaHw → Bool) × HwPc ShaHw) :=
  let s := hwStep .software (shaCands t.1 shaTransform) (.ok ()) var t.2
  (s.1, (t.1, s.2))

/-- C70. Threads start hashing in any interleaving, from the program's start: none of them aborts or runs into undefined behaviour in the selection; a thread
that has passed it finds a routine selected; and a routine other than the software one is selected, or about to be, only if a query for it was answered yes. -/
theorem C70_sha_selection (feats : List (ShaHw → Bool)) (sched : List Nat) :
    let s := interleave shaStep sched (none, feats.map fun f => (f, .check))
    (∀ t ∈ s.2, ∀ e, t.2 ≠ .stopped e) ∧
    (∀ t ∈ s.2, t.2 = .ready → s.1.isSome) ∧
    (∀ h, s.1 = some h → h = .software ∨ ∃ f ∈ feats, f h = true) := by
  intro s
  have tests : ∀ (var : Option ShaHw) (h : ShaHw), hwtest (shaDispatch shaTransform var) (shaTransform h) initial_state hwTestBlock = .ok true :=
    fun var h => hwtest_pass _ _ (goodTf _) (goodTf h)
  have main := interleave_inv (step := shaStep)
    (fun g => ∀ h, g = some h → h = .software ∨ ∃ f ∈ feats, f h = true)
    (fun _ g t => t.1 ∈ feats ∧ (t.2 = .check ∨ t.2 = .default ∨
      (∃ cs, t.2 = .validate cs ∧ g.isSome ∧ ∀ c ∈ cs, c ∈ shaCands t.1 shaTransform) ∨
      (∃ v, t.2 = .assign v ∧ t.1 v = true) ∨ (t.2 = .ready ∧ g.isSome)))
    (by
      rintro i g ⟨f, pc⟩ hP ⟨hf, h⟩
      rcases h with h | h | ⟨cs, h, hg, hcs⟩ | ⟨v, h, hv⟩ | ⟨h, hg⟩ <;> simp only at h <;> subst h
      · refine ⟨hP, hf, ?_⟩
        cases g with
        | none => exact .inr (.inl rfl)
        | some x => exact .inr (.inr (.inr (.inr ⟨rfl, rfl⟩)))
      · refine ⟨?_, hf, .inr (.inr (.inl ⟨_, rfl, rfl, fun c hc => hc⟩))⟩
        intro h hh
        exact .inl (Option.some.inj hh).symm
      · cases cs with
        | nil => exact ⟨hP, hf, .inr (.inr (.inr (.inr ⟨rfl, hg⟩)))⟩
        | cons c cs =>
          refine ⟨hP, hf, ?_⟩
          have hc := hcs c (by simp)
          simp only [shaCands, List.mem_map] at hc
          obtain ⟨h, -, rfl⟩ := hc
          cases hfh : f h with
          | false =>
            refine .inr (.inr (.inl ⟨cs, ?_, hg, fun c hc => hcs c (by simp [hc])⟩))
            simp only [shaStep, hwStep, hfh, Bool.false_eq_true, if_false]
          | true =>
            refine .inr (.inr (.inr (.inl ⟨h, ?_, hfh⟩)))
            simp only [shaStep, hwStep, hfh, if_true, tests]
      · refine ⟨?_, hf, .inr (.inr (.inr (.inr ⟨rfl, rfl⟩)))⟩
        intro h hh
        obtain rfl := Option.some.inj hh
        exact .inr ⟨f, hf, hv⟩
      · exact ⟨hP, hf, .inr (.inr (.inr (.inr ⟨rfl, hg⟩)))⟩)
    (by
      rintro i g ⟨f, pc⟩ hP ⟨hf, h⟩ j ⟨f', pc'⟩ ⟨hf', h'⟩
      have mono : g.isSome → (shaStep g (f, pc)).1.isSome := by
        intro hg
        rcases h with h | h | ⟨cs, h, -, -⟩ | ⟨v, h, -⟩ | ⟨h, -⟩ <;> simp only at h <;> subst h
        · exact hg
        · rfl
        · cases cs <;> exact hg
        · rfl
        · exact hg
      refine ⟨hf', ?_⟩
      rcases h' with h' | h' | ⟨cs, h', hg, hc⟩ | h' | ⟨h', hg⟩
      · exact .inl h'
      · exact .inr (.inl h')
      · exact .inr (.inr (.inl ⟨cs, h', mono hg, hc⟩))
      · exact .inr (.inr (.inr (.inl h')))
      · exact .inr (.inr (.inr (.inr ⟨h', mono hg⟩))))
    sched (none, feats.map fun f => (f, .check)) (by simp) (by
      intro i t hi
      have := List.mem_of_getElem? hi
      simp only [List.mem_map] at this
      obtain ⟨f, hf, rfl⟩ := this
      exact ⟨hf, .inl rfl⟩)
  obtain ⟨p, q⟩ := main
  refine ⟨?_, ?_, p⟩
  · intro t ht e he
    obtain ⟨i, hi⟩ := List.getElem?_of_mem ht
    rcases (q i t hi).2 with h | h | ⟨_, h, -⟩ | ⟨_, h, -⟩ | ⟨h, -⟩ <;> rw [he] at h <;> cases h
  · intro t ht hr
    obtain ⟨i, hi⟩ := List.getElem?_of_mem ht
    rcases (q i t hi).2 with h | h | ⟨_, h, -⟩ | ⟨_, h, -⟩ | ⟨h, hg⟩
    · rw [hr] at h; cases h
    · rw [hr] at h; cases h
    · rw [hr] at h; cases h
    · rw [hr] at h; cases h
    · exact hg

/-- C70. The selection takes at most six of a thread's own steps. -/
theorem C70_sha_selection_finishes (var : Option ShaHw) (feats : List (ShaHw → Bool)) (sched : List Nat) (i : Nat) (hi : i < feats.length)
    (h : 6 ≤ sched.count i) :
    ∃ t, (interleave shaStep sched (var, feats.map fun f => (f, .check))).2[i]? = some t ∧ (t.2 = .ready ∨ ∃ e, t.2 = .stopped e) := by
  obtain ⟨u, hu, hm⟩ := interleave_progress (step := shaStep)
    (fun t => match t.2 with | .check => 6 | .default => 5 | .validate cs => cs.length + 1 | .assign _ => 1 | .ready => 0 | .stopped _ => 0)
    (by
      rintro g ⟨f, pc⟩
      cases pc with
      | check => cases g <;> simp [shaStep, hwStep]
      | default => simp [shaStep, hwStep, shaCands]
      | validate cs =>
        cases cs with
        | nil => simp [shaStep, hwStep]
        | cons c cs =>
          simp only [shaStep, hwStep]
          cases c.feat with
          | false => simp
          | true =>
            simp only [if_true]
            cases c.test g with
            | ok b => cases b <;> simp
            | ub => simp
            | abort => simp
      | assign v => simp [shaStep, hwStep]
      | ready => simp [shaStep, hwStep]
      | stopped e => simp [shaStep, hwStep])
    sched (var, feats.map fun f => (f, .check)) i (feats[i], .check) (by simp [hi])
  refine ⟨u, hu, ?_⟩
  obtain ⟨f, pc⟩ := u
  simp only at hm
  cases pc with
  | ready => exact .inl rfl
  | stopped e => exact .inr ⟨e, rfl⟩
  | _ => simp only at hm; omega

/-! ### C70: crypto_scrypt -/

/-- A call as the library may receive it: memory that is handed out has the size asked for, the output buffer has room, and every block is hashed by some
SHA-256 routine of the library (not necessarily the same one throughout). -/
structure _root_.Scrypt.KdfCall.Good (szMax : Nat) (c : KdfCall) : Prop where
  e1 : c.e1.Sized
  e2 : c.e2.Sized
  env : c.env.Sized
  junk : c.junk.Sized
  hbuf : c.hbuf.length = 64
  tf : ∀ s b, ∃ hw, c.tf s b = shaTransform hw s b
  room : c.buflen ≤ c.buf.length
  size : c.buflen ≤ szMax

theorem _root_.Scrypt.KdfCall.Good.goodTf {szMax : Nat} {c : KdfCall} (g : c.Good szMax) : GoodTf c.tf := by
  intro s b hb
  obtain ⟨hw, h⟩ := g.tf s.toList b
  rw [h]
  exact Scrypt.goodTf hw s b hb

theorem testsmix_total (szMax : Nat) (hs : IsSizeMax szMax) (env : ScEnv) (he : env.Sized) (tf : Transform) (ht : GoodTf tf)
    (junk : HMAC_SHA256_CTX) (hj : junk.Sized) (hbuf : Bytes) (hb : hbuf.length = 64) (smix : SmixFn) (hm : GoodSmix smix) :
    ∃ b, testsmix szMax env tf junk hbuf smix = .ok b := by
  have hsz : 2 ^ 32 - 1 ≤ szMax := by rcases hs with h | h <;> rw [h] <;> decide
  unfold testsmix
  rcases internal_total szMax hs env he tf ht junk hj smix hm testPasswd testSalt 16 8 1 hbuf 64 (by omega) (by omega) with
    ⟨_, e, _, h⟩ | ⟨_, ⟨_, h⟩ | ⟨_, h⟩⟩ <;> rw [h] <;> exact ⟨_, rfl⟩

theorem selectsmix_total {szMax : Nat} (hs : IsSizeMax szMax) {c : KdfCall} (g : c.Good szMax) :
    (∃ f, selectsmix szMax c.sse2Ok c.e1 c.e2 c.tf c.junk c.hbuf smixImpl = .ok f) ∨
    selectsmix szMax c.sse2Ok c.e1 c.e2 c.tf c.junk c.hbuf smixImpl = .abort := by
  obtain ⟨b1, h1⟩ := testsmix_total szMax hs c.e1 g.e1 c.tf g.goodTf c.junk g.junk c.hbuf g.hbuf _ (goodSmix .sse2)
  obtain ⟨b2, h2⟩ := testsmix_total szMax hs c.e2 g.e2 c.tf g.goodTf c.junk g.junk c.hbuf g.hbuf _ (goodSmix .generic)
  unfold selectsmix
  cases c.sse2Ok <;> cases b1 <;> cases b2 <;> simp [h1, h2]

/-- The same call made alone in a process that has used the routine `f` before and hashes with the routine `hw`. -/
def _root_.Scrypt.KdfCall.alone (szMax : Nat) (c : KdfCall) (hw : ShaHw) (f : SmixImpl) : Res (ScOut × Option SmixImpl) :=
  crypto_scrypt szMax c.sse2Ok c.e1 c.e2 c.env (shaTransform hw) c.junk c.hbuf smixImpl (some f) c.P c.S c.N c.r c.p c.buf c.buflen

theorem internal_alone {szMax : Nat} (hs : IsSizeMax szMax) {c : KdfCall} (g : c.Good szMax) (f : SmixImpl) :
    ∃ o, crypto_scrypt_internal szMax c.env c.tf c.junk c.P c.S c.N c.r c.p c.buf c.buflen (smixImpl f) = .ok o ∧
      ∀ hw f', c.alone szMax hw f' = .ok (o, some f') := by
  have key : ∀ hw f' o, crypto_scrypt_internal szMax c.env (shaTransform hw) c.junk c.P c.S c.N c.r c.p c.buf c.buflen (smixImpl f') = .ok o →
      c.alone szMax hw f' = .ok (o, some f') := by
    intro hw f' o h
    unfold KdfCall.alone crypto_scrypt
    simp only [Res.pure_eq, Res.bind_ok, h]
  rcases internal_total szMax hs c.env g.env c.tf g.goodTf c.junk g.junk _ (goodSmix f) c.P c.S c.N c.r c.p c.buf c.buflen g.room g.size with
    ⟨c1, e1, q1, h1⟩ | ⟨c1, ⟨d1, h1⟩ | ⟨d1, h1⟩⟩ <;> refine ⟨_, h1, fun hw f' => key hw f' _ ?_⟩ <;>
  rcases internal_total szMax hs c.env g.env _ (Scrypt.goodTf hw) c.junk g.junk _ (goodSmix f') c.P c.S c.N c.r c.p c.buf c.buflen g.room g.size with
    ⟨c2, e2, q2, h2⟩ | ⟨c2, ⟨d2, h2⟩ | ⟨d2, h2⟩⟩
  · rw [q1] at q2; cases q2; exact h2
  · exact absurd c2 c1
  · exact absurd c2 c1
  · exact absurd c1 c2
  · exact h2
  · obtain ⟨a, b, c⟩ := d2; rcases d1 with d | d | d <;> contradiction
  · exact absurd c1 c2
  · obtain ⟨a, b, c⟩ := d1; rcases d2 with d | d | d <;> contradiction
  · exact h2

/-- The threads, each about to make its call. -/
def kdfStart (calls : List KdfCall) : List KdfThread := calls.map fun c => ⟨c, .check⟩

/-- C70. Any number of threads call `crypto_scrypt` in one process, in any interleaving, whether or not a routine has been selected before.  A call that returns
returns exactly what the same call returns when it is made alone, on any processor, with any routine.  The only other way to end is the abort of the
call's own self-test (finding F14), and there is no undefined behaviour. -/
theorem C70_kdf (szMax : Nat) (hs : IsSizeMax szMax) (var : Option SmixImpl) (calls : List KdfCall) (hg : ∀ c ∈ calls, c.Good szMax)
    (sched : List Nat) (i : Nat) (c : KdfCall) (hc : calls[i]? = some c) (r : Res ScOut)
    (hr : ((interleave (kdfStep szMax) sched (var, kdfStart calls)).2[i]?).map KdfThread.pc = some (.done r)) :
    (∃ o, r = .ok o ∧ ∀ hw f, c.alone szMax hw f = .ok (o, some f)) ∨
    (r = .abort ∧ selectsmix szMax c.sse2Ok c.e1 c.e2 c.tf c.junk c.hbuf smixImpl = .abort) := by
  have main := interleave_inv (step := kdfStep szMax) (fun _ => True)
    (fun i g t => calls[i]? = some t.c ∧ (t.pc = .call → g.isSome) ∧
      ∀ r, t.pc = .done r → (∃ o, r = .ok o ∧ ∀ hw f, t.c.alone szMax hw f = .ok (o, some f)) ∨
        (r = .abort ∧ selectsmix szMax t.c.sse2Ok t.c.e1 t.c.e2 t.c.tf t.c.junk t.c.hbuf smixImpl = .abort))
    (by
      rintro i g ⟨c, pc⟩ - ⟨h1, h2, h3⟩
      have gc := hg c (List.mem_of_getElem? h1)
      refine ⟨trivial, ?_⟩
      cases pc with
      | check =>
        cases g with
        | none => exact ⟨h1, (fun h => by cases h), (fun r h => by cases h)⟩
        | some f => exact ⟨h1, fun _ => rfl, (fun r h => by cases h)⟩
      | select =>
        unfold kdfStep
        simp only
        rcases selectsmix_total hs gc with ⟨f, hf⟩ | hf
        · rw [hf]; exact ⟨h1, (fun h => by cases h), (fun r h => by cases h)⟩
        · rw [hf]
          exact ⟨h1, (fun h => by cases h), (fun r h => by cases h; exact .inr ⟨rfl, rfl⟩)⟩
      | assign f => exact ⟨h1, fun _ => rfl, (fun r h => by cases h)⟩
      | call =>
        obtain ⟨f, rfl⟩ := Option.isSome_iff_exists.1 (h2 rfl)
        obtain ⟨o, ho, ha⟩ := internal_alone hs gc f
        unfold kdfStep
        simp only [ho]
        exact ⟨h1, (fun h => by cases h), (fun r h => by cases h; exact .inl ⟨o, rfl, ha⟩)⟩
      | done r => exact ⟨h1, (fun h => by cases h), h3⟩)
    (by
      rintro i g ⟨c, pc⟩ - - j ⟨c', pc'⟩ ⟨k1, k2, k3⟩
      refine ⟨k1, fun h => ?_, k3⟩
      have := k2 h
      cases pc <;> first | exact this | rfl)
    sched (var, kdfStart calls) trivial (by
      intro i t hi
      simp only [kdfStart, List.getElem?_map, Option.map_eq_some_iff] at hi
      obtain ⟨c, hc, rfl⟩ := hi
      exact ⟨hc, (fun h => by cases h), (fun r h => by cases h)⟩)
  rw [Option.map_eq_some_iff] at hr
  obtain ⟨t, ht, hp⟩ := hr
  obtain ⟨q1, -, q3⟩ := main.2 i t ht
  rw [hc] at q1
  obtain rfl := Option.some.inj q1
  exact q3 r hp

/-- C70. No thread can be kept from finishing by what the others do: four of its own steps are enough. -/
theorem C70_kdf_finishes (szMax : Nat) (var : Option SmixImpl) (calls : List KdfCall) (sched : List Nat) (i : Nat) (hi : i < calls.length)
    (h : 4 ≤ sched.count i) : ∃ r, ((interleave (kdfStep szMax) sched (var, kdfStart calls)).2[i]?).map KdfThread.pc = some (.done r) := by
  obtain ⟨u, hu, hm⟩ := interleave_progress (step := kdfStep szMax)
    (fun t => match t.pc with | .check => 4 | .select => 3 | .assign _ => 2 | .call => 1 | .done _ => 0)
    (by
      rintro g ⟨c, pc⟩
      cases pc with
      | check => cases g <;> simp [kdfStep]
      | select =>
        unfold kdfStep
        cases h : selectsmix szMax c.sse2Ok c.e1 c.e2 c.tf c.junk c.hbuf smixImpl <;> simp [h]
      | assign f => simp [kdfStep]
      | call => simp [kdfStep]
      | done r => simp [kdfStep])
    sched (var, kdfStart calls) i ⟨calls[i], .check⟩ (by simp [kdfStart, hi])
  rw [hu]
  obtain ⟨c, pc⟩ := u
  simp only at hm
  cases pc with
  | done r => exact ⟨r, rfl⟩
  | _ => simp only at hm; omega

/-- C70. In particular a thread whose call returns 0 has the key that RFC 7914 defines, whatever the other threads did. -/
theorem C70_kdf_rfc7914 (szMax : Nat) (hs : IsSizeMax szMax) (var : Option SmixImpl) (calls : List KdfCall) (hg : ∀ c ∈ calls, c.Good szMax)
    (sched : List Nat) (i : Nat) (c : KdfCall) (hc : calls[i]? = some c) (o : ScOut)
    (hr : ((interleave (kdfStep szMax) sched (var, kdfStart calls)).2[i]?).map KdfThread.pc = some (.done (.ok o)))
    (h0 : o.rc = 0) (hp : c.p.toNat ≤ 2 ^ 25) :
    o.buf = Spec.scrypt c.P c.S c.N.toNat c.r.toNat c.p.toNat c.buflen ++ c.buf.drop c.buflen := by
  have g := hg c (List.mem_of_getElem? hc)
  rcases C70_kdf szMax hs var calls hg sched i c hc _ hr with ⟨o', ho, ha⟩ | ⟨h, -⟩
  · obtain rfl := Res.ok.inj ho
    exact C21_rfc7914 .software szMax hs c.sse2Ok c.e1 c.e2 c.env g.env c.junk g.junk c.hbuf _ c.P c.S c.N c.r c.p c.buf c.buflen g.room g.size o _
      (ha .software .generic) h0 hp
  · cases h

/-- The system gives a self-test the memory that it needs. -/
def SelfTestRoom (e : ScEnv) : Prop := e.allocB 1024 ≠ none ∧ e.allocXY 2112 ≠ none ∧ e.allocV 16384 ≠ none ∧ e.munmapOk = true

/-- C70. If the self-tests get their memory, every thread that has taken four steps has returned, with what the call returns alone. -/
theorem C70_kdf_returns (szMax : Nat) (hs : IsSizeMax szMax) (var : Option SmixImpl) (calls : List KdfCall) (hg : ∀ c ∈ calls, c.Good szMax)
    (hroom : ∀ c ∈ calls, SelfTestRoom c.e2) (sched : List Nat) (i : Nat) (c : KdfCall) (hc : calls[i]? = some c) (h : 4 ≤ sched.count i) :
    ∃ o, ((interleave (kdfStep szMax) sched (var, kdfStart calls)).2[i]?).map KdfThread.pc = some (.done (.ok o)) ∧
      ∀ hw f, c.alone szMax hw f = .ok (o, some f) := by
  have hi : i < calls.length := by
    by_contra hx
    rw [List.getElem?_eq_none (by omega)] at hc; cases hc
  have g := hg c (List.mem_of_getElem? hc)
  obtain ⟨r, hr⟩ := C70_kdf_finishes szMax var calls sched i hi h
  rcases C70_kdf szMax hs var calls hg sched i c hc r hr with ⟨o, rfl, ha⟩ | ⟨-, ha⟩
  · exact ⟨o, hr, ha⟩
  · obtain ⟨a1, a2, a3, a4⟩ := hroom c (List.mem_of_getElem? hc)
    have t2 := testsmix_pass szMax hs c.e2 g.e2 c.tf g.goodTf c.junk g.junk c.hbuf g.hbuf _ (goodSmix .generic) a1 a2 a3 a4
    obtain ⟨b1, h1⟩ := testsmix_total szMax hs c.e1 g.e1 c.tf g.goodTf c.junk g.junk c.hbuf g.hbuf _ (goodSmix .sse2)
    unfold selectsmix at ha
    cases hb : c.sse2Ok <;> cases b1 <;> simp [hb, h1, t2] at ha

/-- A call for the examples, hashing the blocks alternately with the software and the SHA-NI routine. -/
def exKdf (pw : Bytes) : KdfCall :=
  { e1 := okEnv, e2 := okEnv, env := okEnv, sse2Ok := true, tf := fun s b => shaTransform (if b[0]? = some 0 then .software else .x86_shani) s b,
    junk := zeroHctx, hbuf := List.replicate 64 0xa5, P := pw, S := [1, 2, 3], N := 1024, r := 8, p := 1, buf := List.replicate 64 0, buflen := 64 }

theorem exKdf_good (pw : Bytes) : (exKdf pw).Good (2 ^ 64 - 1) where
  e1 := okEnv_sized
  e2 := okEnv_sized
  env := okEnv_sized
  junk := zeroHctx_sized
  hbuf := List.length_replicate
  tf := fun s b => ⟨_, rfl⟩
  room := Nat.le_of_eq (List.length_replicate).symm
  size := show 64 ≤ 2 ^ 64 - 1 by decide

/-- Non-vacuity: two threads, the first overtaken by the second in its self-test; both return what they return alone. -/
example (pw pw' : Bytes) : ∃ o, ((interleave (kdfStep (2 ^ 64 - 1)) [0, 0, 1, 1, 0, 1, 1, 0] (none, kdfStart [exKdf pw, exKdf pw'])).2[1]?).map KdfThread.pc =
      some (.done (.ok o)) ∧ ∀ hw f, (exKdf pw').alone (2 ^ 64 - 1) hw f = .ok (o, some f) :=
  C70_kdf_returns (2 ^ 64 - 1) (.inr rfl) none [exKdf pw, exKdf pw'] (by
      intro c hc
      simp only [List.mem_cons, List.not_mem_nil, or_false] at hc
      rcases hc with rfl | rfl <;> exact exKdf_good _)
    (by
      intro c hc
      simp only [List.mem_cons, List.not_mem_nil, or_false] at hc
      rcases hc with rfl | rfl <;> exact ⟨Option.some_ne_none _, Option.some_ne_none _, Option.some_ne_none _, rfl⟩)
    _ 1 _ rfl (by decide)

end Scrypt.Props
