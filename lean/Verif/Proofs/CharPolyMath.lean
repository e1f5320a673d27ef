import Verif.Spec.CharPoly
import Verif.Proofs.OnWin
import Mathlib.LinearAlgebra.Matrix.Adjugate
import Mathlib.LinearAlgebra.Matrix.Charpoly.Basic

/-!
# Characteristic polynomials: similarity, blocks, companion matrices
-/

namespace Verif.FF

open Polynomial Finset Matrix
open Verif.Spec

variable {K : Type} [Field K] {n d : ℕ} {f g : ℕ → ℕ → K}

lemma chi_congr (h : ∀ i < n, ∀ j < n, f i j = g i j) : chi n f = chi n g := by
  unfold chi
  rw [toMat_ext.2 h]

/-- `B T = T B'` with `T` invertible -/
lemma chi_similar {B T B' : ℕ → ℕ → K} (hT : (toMat n n T).det ≠ 0) (h : ∀ i < n, ∀ j < n, mul n B T i j = mul n T B' i j) :
    chi n B = chi n B' := by
  rw [← toMat_ext, toMat_mul, toMat_mul] at h
  have hu : IsUnit (toMat n n T).det := isUnit_iff_ne_zero.2 hT
  have e : toMat n n B = toMat n n T * toMat n n B' * (toMat n n T)⁻¹ := by
    rw [← h, Matrix.mul_assoc, Matrix.mul_nonsing_inv _ hu, Matrix.mul_one]
  have := Matrix.charpoly_units_conj (Matrix.nonsingInvUnit (toMat n n T) hu) (toMat n n B')
  unfold chi
  rw [e]
  exact this

/-- the identity with one column replaced -/
lemma det_col {T : ℕ → ℕ → K} {k : ℕ} (hk : k < n) {v : ℕ → K} (h : ∀ i < n, ∀ j < n, T i j = if j = k then v i else if i = j then 1 else 0) :
    (toMat n n T).det = v k := by
  have e : toMat n n T = (1 : Matrix (Fin n) (Fin n) K).updateCol ⟨k, hk⟩ (fun i => v i) := by
    ext i j
    rw [toMat_apply, h i i.2 j j.2, Matrix.updateCol_apply, Matrix.one_apply]
    simp only [Fin.ext_iff]
  rw [e, ← Matrix.cramer_apply, Matrix.cramer_one]
  rfl

lemma chi_swap {a b : ℕ} (ha : a < n) (hb : b < n) : chi n (fun i j => f (Equiv.swap a b i) (Equiv.swap a b j)) = chi n f := by
  unfold chi
  have h := Matrix.charpoly_reindex (Equiv.swap (⟨a, ha⟩ : Fin n) ⟨b, hb⟩) (toMat n n f)
  rw [← h]
  congr 1
  ext i j
  rw [Matrix.reindex_apply, Matrix.submatrix_apply, toMat_apply, toMat_apply, Equiv.symm_swap]
  have key : ∀ i : Fin n, Equiv.swap a b (i : ℕ) = ((Equiv.swap (⟨a, ha⟩ : Fin n) ⟨b, hb⟩ i : Fin n) : ℕ) := by
    intro i
    rw [Equiv.swap_apply_def, Equiv.swap_apply_def]
    simp only [Fin.ext_iff]
    split_ifs <;> rfl
  rw [key, key]

/-- block triangular matrix -/
lemma chi_block {e : ℕ} (h : ∀ i < e, ∀ j < d, f (d + i) j = 0) : chi (d + e) f = chi d f * chi e (blk f d d) := by
  unfold chi
  rw [← Matrix.charpoly_reindex finSumFinEquiv.symm (toMat (d + e) (d + e) f),
    ← Matrix.charpoly_fromBlocks_zero₂₁ (M₁₂ := toMat d e (blk f 0 d))]
  congr 1
  ext i j
  rcases i with i | i <;> rcases j with j | j <;>
    simp [Matrix.reindex_apply, Matrix.submatrix_apply, toMat_apply, blk, Fin.val_natAdd]
  exact h i i.2 j j.2

lemma chi_zero : chi 0 f = 1 := Matrix.charpoly_isEmpty

/-- companion matrix -/
lemma chi_companion (hd : 0 < d) (h : ∀ j, j + 1 < d → ∀ i < d, f i j = if i = j + 1 then 1 else 0) :
    chi d f = X ^ d - ∑ i ∈ range d, C (f i (d - 1)) * X ^ i := by
  set M := toMat d d f with hM
  let e : ℕ → Fin d → K := fun t i => if (i : ℕ) = t then 1 else 0
  have hc : ∀ t, (ht : t < d) → M *ᵥ e t = fun i : Fin d => f i t := by
    intro t ht
    ext i
    rw [Matrix.mulVec, dotProduct, Finset.sum_eq_single ⟨t, ht⟩]
    · simp [e, hM]
    · intro b _ hb
      have : (b : ℕ) ≠ t := fun h => hb (Fin.ext h)
      simp [e, this]
    · intro h; exact absurd (mem_univ _) h
  have hp : ∀ t < d, (M ^ t) *ᵥ e 0 = e t := by
    intro t ht
    induction t with
    | zero => simp
    | succ t ih =>
      rw [pow_succ', ← Matrix.mulVec_mulVec, ih (by omega), hc t (by omega)]
      ext i
      rw [h t ht i i.2]
  have hd' : (M ^ d) *ᵥ e 0 = fun i : Fin d => f i (d - 1) := by
    rw [show M ^ d = M * M ^ (d - 1) by rw [← pow_succ', Nat.sub_add_cancel hd], ← Matrix.mulVec_mulVec, hp _ (by omega), hc _ (by omega)]
  have hm : M.charpoly.Monic := Matrix.charpoly_monic M
  have hn : M.charpoly.natDegree = d := by rw [Matrix.charpoly_natDegree_eq_dim, Fintype.card_fin]
  set q := ∑ i ∈ range d, C (M.charpoly.coeff i) * X ^ i with hq
  have hs : M.charpoly = X ^ d + q := by
    have := hm.as_sum
    rwa [hn] at this
  have h0 : (aeval M M.charpoly) *ᵥ e 0 = 0 := by rw [Matrix.aeval_self_charpoly, Matrix.zero_mulVec]
  have h1 : ∀ i : Fin d, f i (d - 1) + M.charpoly.coeff i = 0 := by
    intro i
    have h2 := congrFun h0 i
    rw [hs, map_add, map_pow, aeval_X, Matrix.add_mulVec, hd', hq, map_sum, Pi.add_apply, Matrix.sum_mulVec, Finset.sum_apply,
      Finset.sum_eq_single (i : ℕ)] at h2
    · rw [map_mul, map_pow, aeval_X, aeval_C, ← Algebra.smul_def, Matrix.smul_mulVec, hp i i.2] at h2
      simpa [e] using h2
    · intro b hb hbi
      rw [map_mul, map_pow, aeval_X, aeval_C, ← Algebra.smul_def, Matrix.smul_mulVec, hp b (mem_range.1 hb)]
      have : (i : ℕ) ≠ b := fun h => hbi h.symm
      simp [e, this]
    · intro hi; exact absurd (mem_range.2 i.2) hi
  show M.charpoly = _
  rw [hs, hq, sub_eq_add_neg, ← Finset.sum_neg_distrib]
  congr 1
  refine sum_congr rfl (fun i hi => ?_)
  have := h1 ⟨i, mem_range.1 hi⟩
  rw [eq_neg_of_add_eq_zero_right this, map_neg, neg_mul]

omit [Field K] in
lemma polyOf_append [Field K] (l l' : List K) : polyOf (l ++ l') = polyOf l + X ^ l.length * polyOf l' := by
  induction l with
  | nil => simp [polyOf]
  | cons a l ih =>
    simp only [polyOf, List.cons_append, List.foldr_cons, List.length_cons] at ih ⊢
    rw [ih, pow_succ, mul_add, add_assoc]
    congr 2
    rw [← mul_assoc, mul_comm X]

/-- a list given by its entries -/
lemma polyOf_range (c : ℕ → K) (d : ℕ) : polyOf ((List.range d).map c) = ∑ i ∈ range d, C (c i) * X ^ i := by
  induction d with
  | zero => simp [polyOf]
  | succ d ih =>
    rw [List.range_succ, List.map_append, polyOf_append, ih, sum_range_succ, List.length_map, List.length_range]
    have e : polyOf [c d] = C (c d) := by simp [polyOf]
    rw [List.map_singleton, e, mul_comm]

/-- the polynomial of a companion block as the library gives it -/
lemma polyOf_companion (c : ℕ → K) (d : ℕ) :
    polyOf ((List.range d).map (fun i => - c i) ++ [1]) = X ^ d - ∑ i ∈ range d, C (c i) * X ^ i := by
  rw [polyOf_append, polyOf_range, List.length_map, List.length_range]
  simp only [polyOf, List.foldr_cons, List.foldr_nil, map_neg, neg_mul, Finset.sum_neg_distrib]
  simp
  ring

end Verif.FF
