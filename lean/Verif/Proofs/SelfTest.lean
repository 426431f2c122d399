import Verif.Proofs.CryptoScrypt
import Verif.Proofs.SelfTestData
/-
Evaluation, by the kernel, of the scrypt self-test vector: a block-list version of ROMix (r = 8,
N = 16) is proved equal to the specification and evaluated.
-/
namespace Scrypt
open Spec

def bmGo (σ : List W32 → List W32) : List W32 → List (List W32) → List (List W32)
  | _, [] => []
  | X, b :: bs => let Y := σ (xorL X b); Y :: bmGo σ Y bs
def evens {α : Type} : List α → List α
  | a :: _ :: t => a :: evens t
  | _ => []
def odds {α : Type} : List α → List α
  | _ :: b :: t => b :: odds t
  | _ => []
def bmF (σ : List W32 → List W32) (Bs : List (List W32)) : List (List W32) :=
  let Y := bmGo σ (Bs.getLastD []) Bs
  evens Y ++ odds Y
def vF (σ : List W32 → List W32) : Nat → List (List W32) → List (List (List W32)) × List (List W32)
  | 0, B => ([], B)
  | n + 1, B => let q := vF σ n (bmF σ B); (B :: q.1, q.2)
def mixF (σ : List W32 → List W32) (V : List (List (List W32))) : Nat → List (List W32) → List (List W32)
  | 0, X => X
  | n + 1, X => mixF σ V n (bmF σ (List.zipWith xorL X (V.getD (((X.getLastD []).getD 0 0).toNat % 16) [])))
def romixF (σ : List W32 → List W32) (B : List (List W32)) : List (List W32) :=
  let q := vF σ 16 B
  mixF σ q.1 16 q.2

/-- The 16 blocks of a 256-word array. -/
def blks (W : List W32) : List (List W32) := (List.range 16).map fun k => sl W (16 * k) 16

theorem bmGo_spec (σ : List W32 → List W32) (r : Nat) (W : List W32) (n i : Nat) :
    bmGo σ (gX 16 σ r W i) ((List.range' i n).map fun k => sl W (16 * k) 16) = (List.range' i n).map fun k => gX 16 σ r W (k + 1) := by
  induction n generalizing i with
  | zero => rfl
  | succ n ih =>
    rw [List.range'_succ, List.map_cons, List.map_cons, bmGo]
    have : σ (xorL (gX 16 σ r W i) (sl W (16 * i) 16)) = gX 16 σ r W (i + 1) := rfl
    rw [this, ih]

theorem range16 : List.range 16 = [0, 1, 2, 3, 4, 5, 6, 7, 8, 9, 10, 11, 12, 13, 14, 15] := rfl

theorem blks_last (W : List W32) : (blks W).getLastD [] = sl W (16 * 15) 16 := by
  rw [blks, range16]; rfl

theorem bmF_spec (σ : List W32 → List W32) (hσ : ∀ x, x.length = 16 → (σ x).length = 16) (W : List W32) (hW : W.length = 16 * (2 * 8)) :
    bmF σ (blks W) = blks (gBM 16 σ 8 W) := by
  have h0 : sl W (16 * 15) 16 = gX 16 σ 8 W 0 := rfl
  have h1 : blks W = (List.range' 0 16).map fun k => sl W (16 * k) 16 := by rw [← List.range_eq_range']; rfl
  have h2 : blks (gBM 16 σ 8 W) = (List.range 16).map fun k => if k < 8 then gX 16 σ 8 W (2 * k + 1) else gX 16 σ 8 W (2 * (k - 8) + 2) := by
    apply List.map_congr_left
    intro k hk
    exact gBM_sl hσ 8 W (by omega) hW k (by simpa using hk)
  unfold bmF
  rw [blks_last, h0]
  rw [h1, bmGo_spec, ← List.range_eq_range', h2, range16]
  rfl

theorem vF_spec (σ : List W32 → List W32) (hσ : ∀ x, x.length = 16 → (σ x).length = 16) (n : Nat) (W : List W32) (hW : W.length = 16 * (2 * 8)) :
    vF σ n (blks W) = ((List.range n).map (fun i => blks (gV 16 σ 8 W i)), blks (gV 16 σ 8 W n)) := by
  induction n generalizing W with
  | zero => rfl
  | succ n ih =>
    have hshift : ∀ i, gV 16 σ 8 (gBM 16 σ 8 W) i = gV 16 σ 8 W (i + 1) := by
      intro i
      induction i with
      | zero => rfl
      | succ i ih => rw [gV, ih]; rfl
    rw [vF, bmF_spec σ hσ W hW, ih _ (gBM_length hσ 8 W (by omega) hW)]
    simp only [hshift]
    rw [List.range_succ_eq_map, List.map_cons, List.map_map]
    rfl

theorem blks_xor (A B : List W32) : List.zipWith xorL (blks A) (blks B) = blks (xorL A B) := by
  rw [blks, blks, blks, range16]
  simp only [List.map, List.zipWith, sl_xorL]

theorem mixF_spec (σ : List W32 → List W32) (hσ : ∀ x, x.length = 16 → (σ x).length = 16) (W : List W32) (hW : W.length = 16 * (2 * 8))
    (J : List W32 → Nat) (hJ : ∀ S, S.length = 16 * (2 * 8) → J S = ((sl S (16 * 15) 16).getD 0 0).toNat % 16) (n i : Nat) :
    mixF σ ((List.range 16).map (fun i => blks (gV 16 σ 8 W i))) n (blks (gRO 16 σ 8 16 J W i)) = blks (gRO 16 σ 8 16 J W (i + n)) := by
  induction n generalizing i with
  | zero => rfl
  | succ n ih =>
    have hl := gRO_length hσ 8 16 J W (by omega) hW i
    have hj := hJ _ hl
    have hlt : J (gRO 16 σ 8 16 J W i) < 16 := by rw [hj]; exact Nat.mod_lt _ (by omega)
    have hg : ((List.range 16).map (fun i => blks (gV 16 σ 8 W i))).getD (J (gRO 16 σ 8 16 J W i)) [] = blks (gV 16 σ 8 W (J (gRO 16 σ 8 16 J W i))) := by
      rw [List.getD_eq_getElem?_getD, List.getElem?_map, List.getElem?_range hlt]; rfl
    rw [mixF, blks_last, ← hj, hg, blks_xor,
      bmF_spec σ hσ _ (xorL_length _ _ _ hl (gV_length hσ 8 W (by omega) hW _))]
    have : gBM 16 σ 8 (xorL (gRO 16 σ 8 16 J W i) (gV 16 σ 8 W (J (gRO 16 σ 8 16 J W i)))) = gRO 16 σ 8 16 J W (i + 1) := rfl
    rw [this, ih]
    congr 2; omega

theorem romixF_gen (σ : List W32 → List W32) (hσ : ∀ x, x.length = 16 → (σ x).length = 16) (W : List W32) (hW : W.length = 16 * (2 * 8))
    (J : List W32 → Nat) (hJ : ∀ S, S.length = 16 * (2 * 8) → J S = ((sl S (16 * 15) 16).getD 0 0).toNat % 16) :
    (romixF σ (blks W)).flatten = gRO 16 σ 8 16 J W 16 := by
  have hm := mixF_spec σ hσ W hW J hJ 16 0
  rw [Nat.zero_add] at hm
  rw [gRO] at hm
  unfold romixF
  rw [vF_spec _ hσ 16 W hW]
  refine (congrArg List.flatten hm).trans ?_
  rw [blks, ← List.flatMap_def]
  exact flatMap_sl _ 16 16 (gRO_length hσ 8 16 _ W (by omega) hW 16)

theorem romixF_spec (W : List W32) (hW : W.length = 16 * (2 * 8)) :
    leWordBytes (romixF salsa20_8_words (blks W)).flatten = roMix 8 16 (leWordBytes W) := by
  have h := gRO_bytes 8 4 (by omega) (by omega) W hW
  rw [show (2 : Nat) ^ 4 = 16 from by norm_num] at h
  rw [← h]
  refine congrArg leWordBytes (romixF_gen _ salsa_hom.lenσ W hW _ ?_)
  intro S hS
  rw [itfW, itf_toNat]
  have : S.getD (16 * (2 * 8 - 1)) 0 = (sl S (16 * 15) 16).getD 0 0 := by
    rw [List.getD_eq_getElem?_getD, List.getD_eq_getElem?_getD, sl_getElem?]; rfl
  rw [this]; omega

end Scrypt
