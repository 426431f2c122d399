import Verif.Proofs.AccessLoops
import Verif.Proofs.CryptoScrypt
import Verif.Spec.Visits
/-
The mixing routines and the derivation, with what they access.
-/
namespace Scrypt
open Spec Logged

theorem loopsT_erase {opsT : Smix.OpsT} {ops : Smix.Ops} {cp xo bm ig} (T : OpsTSpec opsT ops cp xo bm ig) (r N : Nat) (V XY : List W32) :
    erase (Smix.loopsT opsT r N V XY) = Smix.loops ops r N V XY := by
  unfold Smix.loopsT Smix.loops
  simp only [erase_bind, erase_forLoopT, T.eCpy, T.eXor, T.eBm, T.eIg, erase_pure, Res.pure_eq]

theorem smixT_erase (f : SmixImpl) (B : Bytes) (r N : Nat) (V XY : List W32) : erase (smixImplT f B r N V XY) = smixImpl f B r N V XY := by
  cases f with
  | generic =>
    obtain ⟨cp, xo, bm, ig, T⟩ := gen_opsT_spec
    show erase (crypto_scrypt_smixT B r N V XY) = crypto_scrypt_smix B r N V XY
    unfold crypto_scrypt_smixT crypto_scrypt_smix
    simp only [erase_bind, erase_forLoopT, erase_pure, Res.pure_eq, loopsT_erase T, le32decT_erase, rdT_erase, wrT_erase, wrSliceT_erase]
  | sse2 =>
    obtain ⟨cp, xo, bm, ig, T⟩ := sse_opsT_spec
    show erase (crypto_scrypt_smix_sse2T B r N V XY) = crypto_scrypt_smix_sse2 B r N V XY
    unfold crypto_scrypt_smix_sse2T crypto_scrypt_smix_sse2
    simp only [erase_bind, erase_forLoopT, erase_pure, Res.pure_eq, loopsT_erase T, le32decT_erase, rdT_erase, wrT_erase, wrSliceT_erase]

theorem le32enc_length (w : W32) : (le32enc w).length = 4 := by rw [le32enc_eq, leBytes_length]

/-- The indices computed on words are those of the specification. -/
theorem itf_visit (r N k : Nat) (hr : 0 < r) (hN : N = 2 ^ k) (hk : k ≤ 63) (B : Bytes) (hB : B.length = 128 * r) (i : Nat) :
    (itfW 1 r (gRO 16 salsa20_8_words r N (fun S => (itfW 1 r S).toNat % N) (leWords (32 * r) B) i)).toNat % N = visit r N B i := by
  have hW : (leWords (32 * r) B).length = 16 * (2 * r) := by rw [leWords_length]; omega
  have l := gRO_length salsa_hom.lenσ r N (fun S => (itfW 1 r S).toNat % N) (leWords (32 * r) B) hr hW i
  have e : leWordBytes (gRO 16 salsa20_8_words r N (fun S => (itfW 1 r S).toNat % N) (leWords (32 * r) B) i) = roMixX r N B i := by
    rw [roMixX_eq, ← gmap_leWordBytes _ _ l, ← gRO_map salsa_hom r N hr (fun S => (itfW 1 r S).toNat % N) (fun X => Spec.integerify r X % N) _ _ hW,
      gmap_leWordBytes _ _ hW, leWordBytes_leWords _ _ (by omega)]
    intro x hx
    rw [gmap_leWordBytes _ _ hx, hN]
    exact integerify_words r k hr hk x hx
  unfold visit
  rw [← e, hN]
  exact (integerify_words r k hr hk _ (hN ▸ l)).symm

theorem gen_visit (r N k : Nat) (hr : 0 < r) (hN : N = 2 ^ k) (hk : k ≤ 63) (B : Bytes) (hB : B.length = 128 * r) (XY : List W32) (hXY : XY.length = 64 * r + 16)
    (i : Nat) : (itfW 1 r (gRO 16 salsa20_8_words r N (fun S => (itfW 1 r S).toNat % N) (sl (ow XY 0 (leWords (32 * r) B)) 0 (32 * r)) i)).toNat % N =
      visit r N B i := by
  rw [sl_ow_same' _ _ _ _ (leWords_length _ _) (by omega)]
  exact itf_visit r N k hr hN hk B hB i

theorem sse_visit (r N k : Nat) (hr : 0 < r) (hN : N = 2 ^ k) (hk : k ≤ 63) (B : Bytes) (hB : B.length = 128 * r) (XY : List W32) (hXY : XY.length = 64 * r + 16)
    (i : Nat) : (itfW 13 r (gRO 16 salsaP r N (fun S => (itfW 13 r S).toNat % N)
      (sl (ow XY 0 (gmap 16 perm (2 * r) (leWords (16 * (2 * r)) B))) 0 (32 * r)) i)).toNat % N = visit r N B i := by
  have hW : (leWords (16 * (2 * r)) B).length = 16 * (2 * r) := leWords_length _ _
  have hP := gmap_length perm_hom (2 * r) _ hW
  rw [sl_ow_same' _ _ _ _ (by rw [← show 16 * (2 * r) = 32 * r by omega]; exact hP) (by omega)]
  rw [gRO_map perm_hom r N hr (fun S => (itfW 1 r S).toNat % N) _ (fun x hx => by rw [itf_perm r hr x hx]) _ hW]
  rw [itf_perm r hr _ (gRO_length salsa_hom.lenσ r N _ _ hr hW i), show 16 * (2 * r) = 32 * r by omega]
  exact itf_visit r N k hr hN hk B hB i

theorem smixT_gen (r : Nat) (hr : 0 < r) : ∃ (load store : List Acc) (fill : Nat → List Acc) (look : Nat → Nat → List Acc),
    onV load = [] ∧ onV store = [] ∧ (∀ i, onV (fill i) = accs .V true (i * (32 * r)) (32 * r)) ∧ (∀ i j, onV (look i j) = accs .V false (j * (32 * r)) (32 * r)) ∧
    ∀ N k, N = 2 ^ k → 1 ≤ k → k ≤ 63 → ∀ (B : Bytes) (V XY : List W32), B.length = 128 * r → V.length = 32 * r * N → XY.length = 64 * r + 16 →
      HasTr (crypto_scrypt_smixT B r N V XY)
        (load ++ ((List.range N).flatMap fill ++ ((List.range N).flatMap fun i => look i (visit r N B i)) ++ store)) := by
  obtain ⟨cp, xo, bm, ig, T⟩ := gen_opsT_spec
  refine ⟨(List.range (32 * r)).flatMap fun k => accs .B false (4 * k) 4 ++ [⟨.XY, k, true⟩],
    ((List.range (32 * r)).flatMap fun k => [⟨.XY, k, false⟩] ++ accs .B true (4 * k) 4) ++ [], trFill cp bm r, trVisit xo bm ig r, ?_, ?_, onV_fill T r, onV_visit T r,
    fun N k hN k1 k2 B V XY hB hV hXY => ?_⟩
  · simp only [onV_append, onV_accs_B, onV_flatMap, onV_cons, onV_nil, List.append_nil, reduceCtorEq, if_false, flatMap_nil_of]
  · simp only [onV_append, onV_accs_B, onV_flatMap, onV_cons, onV_nil, List.append_nil, reduceCtorEq, if_false, flatMap_nil_of]
  · have hW := leWords_length (32 * r) B
    have l0 := ow_length XY 0 (leWords (32 * r) B) (by omega)
    obtain ⟨V', XY', e, -, -⟩ := loopsT_spec T gen_ops_spec r N k hr hN k1 k2 V (ow XY 0 (leWords (32 * r) B)) hV (by omega)
    rw [show (fun i => trVisit xo bm ig r i ((itfW 1 r (gRO 16 salsa20_8_words r N (fun S => (itfW 1 r S).toNat % N)
      (sl (ow XY 0 (leWords (32 * r) B)) 0 (32 * r)) i)).toNat % N)) = fun i => trVisit xo bm ig r i (visit r N B i) from
      funext fun i => by rw [gen_visit r N k hr hN k2 B hB XY hXY i]] at e
    unfold crypto_scrypt_smixT
    refine hasTr_bind' (hasTr_forLoop (fun XY k => ?_) XY _) fun XY1 h1 => ?_
    · exact hasTr_bind (le32decT_tr _ _) fun _ => wrT_tr _ _ _ _
    have h1 : XY1 = ow XY 0 (leWords (32 * r) B) := by
      simp only [erase_bind, erase_forLoopT, le32decT_erase, wrT_erase] at h1
      rw [load_loop B (32 * r) XY (by omega) (by omega)] at h1
      exact (Res.ok.inj h1).symm
    subst h1
    refine hasTr_bind ?_ fun s => ?_
    · intro a u h
      rw [e] at h
      exact (Prod.mk.inj (Res.ok.inj h)).2.symm
    · refine hasTr_bind (hasTr_forLoop (fun B k => ?_) B _) fun _ => hasTr_pure _
      exact hasTr_bind (rdT_tr _ _ _) fun w => wrSliceT_tr _ _ _ _ (le32enc_length w)

theorem smixT_sse (r : Nat) (hr : 0 < r) : ∃ (load store : List Acc) (fill : Nat → List Acc) (look : Nat → Nat → List Acc),
    onV load = [] ∧ onV store = [] ∧ (∀ i, onV (fill i) = accs .V true (i * (32 * r)) (32 * r)) ∧ (∀ i j, onV (look i j) = accs .V false (j * (32 * r)) (32 * r)) ∧
    ∀ N k, N = 2 ^ k → 1 ≤ k → k ≤ 63 → ∀ (B : Bytes) (V XY : List W32), B.length = 128 * r → V.length = 32 * r * N → XY.length = 64 * r + 16 →
      HasTr (crypto_scrypt_smix_sse2T B r N V XY)
        (load ++ ((List.range N).flatMap fill ++ ((List.range N).flatMap fun i => look i (visit r N B i)) ++ store)) := by
  obtain ⟨cp, xo, bm, ig, T⟩ := sse_opsT_spec
  refine ⟨(List.range (2 * r)).flatMap fun k => (List.range 16).flatMap fun i => accs .B false ((k * 16 + i * 5 % 16) * 4) 4 ++ [⟨.XY, k * 16 + i, true⟩],
    ((List.range (2 * r)).flatMap fun k => (List.range 16).flatMap fun i => [⟨.XY, k * 16 + i, false⟩] ++ accs .B true ((k * 16 + i * 5 % 16) * 4) 4) ++ [],
    trFill cp bm r, trVisit xo bm ig r, ?_, ?_, onV_fill T r, onV_visit T r,
    fun N k hN k1 k2 B V XY hB hV hXY => ?_⟩
  · simp only [onV_append, onV_accs_B, onV_flatMap, onV_cons, onV_nil, List.append_nil, reduceCtorEq, if_false, flatMap_nil_of]
  · simp only [onV_append, onV_accs_B, onV_flatMap, onV_cons, onV_nil, List.append_nil, reduceCtorEq, if_false, flatMap_nil_of]
  · have hW := leWords_length (16 * (2 * r)) B
    have hP := gmap_length perm_hom (2 * r) _ hW
    have l0 := ow_length XY 0 (gmap 16 perm (2 * r) (leWords (16 * (2 * r)) B)) (by omega)
    obtain ⟨V', XY', e, -, -⟩ := loopsT_spec T sse_ops_spec r N k hr hN k1 k2 V (ow XY 0 (gmap 16 perm (2 * r) (leWords (16 * (2 * r)) B))) hV (by omega)
    rw [show (fun i => trVisit xo bm ig r i ((itfW 13 r (gRO 16 salsaP r N (fun S => (itfW 13 r S).toNat % N)
      (sl (ow XY 0 (gmap 16 perm (2 * r) (leWords (16 * (2 * r)) B))) 0 (32 * r)) i)).toNat % N)) = fun i => trVisit xo bm ig r i (visit r N B i) from
      funext fun i => by rw [sse_visit r N k hr hN k2 B hB XY hXY i]] at e
    unfold crypto_scrypt_smix_sse2T
    refine hasTr_bind' (hasTr_forLoop (fun XY k => ?_) XY _) fun XY1 h1 => ?_
    · refine hasTr_forLoop (fun XY i => ?_) XY _
      exact hasTr_bind (le32decT_tr _ _) fun _ => wrT_tr _ _ _ _
    have h1 : XY1 = ow XY 0 (gmap 16 perm (2 * r) (leWords (16 * (2 * r)) B)) := by
      simp only [erase_bind, erase_forLoopT, le32decT_erase, wrT_erase] at h1
      rw [sse_load_loop B (2 * r) XY (by omega) (by omega)] at h1
      exact (Res.ok.inj h1).symm
    subst h1
    refine hasTr_bind ?_ fun s => ?_
    · intro a u h
      rw [e] at h
      exact (Prod.mk.inj (Res.ok.inj h)).2.symm
    · refine hasTr_bind (hasTr_forLoop (fun B k => ?_) B _) fun _ => hasTr_pure _
      refine hasTr_forLoop (fun B i => ?_) B _
      exact hasTr_bind (rdT_tr _ _ _) fun w => wrSliceT_tr _ _ _ _ (le32enc_length w)

end Scrypt
