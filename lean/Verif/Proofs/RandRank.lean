import Verif.Spec.Rook
import Verif.Spec.RankProfile
import Verif.Proofs.Det
import Mathlib.LinearAlgebra.Matrix.Block
import Mathlib.LinearAlgebra.Matrix.Rank

/-!
# Ranks of the leading blocks of a product of triangular matrices and a placement of rooks
-/

namespace Verif.RandMat

open Finset Verif.Spec

variable {K : Type} [Field K] {M N R : ℕ} {p q : ℕ → ℕ} {T U X : ℕ → ℕ → K}

/-- the matrix with ones at the positions given -/
def rookMat (K : Type) [Field K] (R : ℕ) (p q : ℕ → ℕ) (i j : ℕ) : K := ∑ k ∈ range R, (if p k = i then 1 else 0) * (if q k = j then 1 else 0)

lemma rookMat_pos (h : Rook M N R p q) {k l : ℕ} (hk : k < R) (hl : l < R) : rookMat K R p q (p k) (q l) = if k = l then 1 else 0 := by
  unfold rookMat
  rw [sum_eq_single k]
  · rw [if_pos rfl, one_mul]
    by_cases c : k = l
    · rw [if_pos (by rw [c]), if_pos c]
    · rw [if_neg (fun e => c (h.col_inj _ hk _ hl e)), if_neg c]
  · intro s hs hn
    rw [if_neg (fun e => hn (h.row_inj _ (mem_range.1 hs) _ hk e)), zero_mul]
  · intro hn; exact absurd (mem_range.2 hk) hn

lemma rookMat_rank (h : Rook M N R p q) (a b : ℕ) : (toMat a b (rookMat K R p q)).rank = rookCount R p q a b := by
  unfold rookCount
  generalize hS : (range R).filter (fun k => p k < a ∧ q k < b) = S
  have mem : ∀ {k}, k ∈ S ↔ k < R ∧ p k < a ∧ q k < b := by intro k; rw [← hS]; simp
  refine le_antisymm ?_ ?_
  · let L : Matrix (Fin a) S K := fun x k => if p k = x then 1 else 0
    let V : Matrix S (Fin b) K := fun k y => if q k = y then 1 else 0
    have e : toMat a b (rookMat K R p q) = L * V := by
      ext x y
      have := x.2
      have := y.2
      rw [Matrix.mul_apply, toMat_apply, rookMat]
      show _ = ∑ k : S, (if p k = x then (1 : K) else 0) * (if q k = y then 1 else 0)
      rw [Finset.sum_coe_sort S (fun k => (if p k = x then (1 : K) else 0) * (if q k = y then 1 else 0))]
      refine (Finset.sum_subset (fun k hk => mem_range.2 (mem.1 hk).1) (fun k hk hk' => ?_)).symm
      have hk := mem_range.1 hk
      by_cases c : p k = x
      · rw [if_neg (show ¬ q k = y from fun c' => hk' (mem.2 ⟨hk, by omega, by omega⟩)), mul_zero]
      · rw [if_neg c, zero_mul]
    rw [e]
    refine (Matrix.rank_mul_le_left L V).trans ((Matrix.rank_le_card_width L).trans ?_)
    simp
  · let f : S → Fin a := fun k => ⟨p k, (mem.1 k.2).2.1⟩
    let g : S → Fin b := fun k => ⟨q k, (mem.1 k.2).2.2⟩
    have e2 : (toMat a b (rookMat K R p q)).submatrix f g = 1 := by
      ext k l
      show rookMat K R p q (p k) (q l) = _
      rw [rookMat_pos h (mem.1 k.2).1 (mem.1 l.2).1, Matrix.one_apply]
      simp only [Subtype.ext_iff]
    have : ((1 : Matrix S S K)).rank = S.card := by rw [Matrix.rank_one, Fintype.card_coe]
    rw [← this, ← e2]
    exact Matrix.rank_submatrix_le _ f g

/-- a lower triangular matrix with no zero on its diagonal -/
def LowerNS (n : ℕ) (T : ℕ → ℕ → K) : Prop := (∀ i < n, ∀ j < n, i < j → T i j = 0) ∧ ∀ i < n, T i i ≠ 0

/-- an upper triangular matrix with no zero on its diagonal -/
def UpperNS (n : ℕ) (T : ℕ → ℕ → K) : Prop := (∀ i < n, ∀ j < n, j < i → T i j = 0) ∧ ∀ i < n, T i i ≠ 0

lemma LowerNS.det_eq (h : ∀ i < M, ∀ j < M, i < j → T i j = 0) : (toMat M M T).det = ∏ k ∈ range M, T k k := by
  rw [Matrix.det_of_lowerTriangular, ← Fin.prod_univ_eq_prod_range (fun k => T k k)]
  · rfl
  · intro i j hij
    exact h i i.2 j j.2 (by simpa using hij)

lemma UpperNS.det_eq (h : ∀ i < M, ∀ j < M, j < i → T i j = 0) : (toMat M M T).det = ∏ k ∈ range M, T k k := by
  rw [Matrix.det_of_upperTriangular, ← Fin.prod_univ_eq_prod_range (fun k => T k k)]
  · rfl
  · intro i j hij
    exact h i i.2 j j.2 (by simpa using hij)

lemma LowerNS.det {a : ℕ} (h : LowerNS M T) (ha : a ≤ M) : IsUnit (toMat a a T).det := by
  rw [LowerNS.det_eq (fun i hi j hj => h.1 i (by omega) j (by omega)), isUnit_iff_ne_zero, prod_ne_zero_iff]
  intro k hk
  exact h.2 k (by have := mem_range.1 hk; omega)

lemma UpperNS.det {a : ℕ} (h : UpperNS M T) (ha : a ≤ M) : IsUnit (toMat a a T).det := by
  rw [UpperNS.det_eq (fun i hi j hj => h.1 i (by omega) j (by omega)), isUnit_iff_ne_zero, prod_ne_zero_iff]
  intro k hk
  exact h.2 k (by have := mem_range.1 hk; omega)

/-- the rank of each leading block of `T E U`, `E` having its ones at `(p k, q k)`, is the number of ones in it -/
theorem rk_rook (h : Rook M N R p q) (hT : LowerNS M T) (hU : UpperNS N U)
    (e : ∀ i < M, ∀ j < N, X i j = ∑ k ∈ range R, T i (p k) * U (q k) j) {a b : ℕ} (ha : a ≤ M) (hb : b ≤ N) : rk X a b = rookCount R p q a b := by
  have key : toMat a b X = toMat a a T * toMat a b (rookMat K R p q) * toMat b b U := by
    ext i j
    have hi := i.2
    have hj := j.2
    have s1 : ∀ k, k < R → ∑ x : Fin a, T i x * (if p k = x then (1 : K) else 0) = T i (p k) := by
      intro k hk
      rw [Fin.sum_univ_eq_sum_range (fun x => T i x * (if p k = x then (1 : K) else 0)) a]
      by_cases c : p k < a
      · rw [sum_eq_single (p k) (fun x _ hx => by rw [if_neg (fun e => hx e.symm), mul_zero]) (fun hn => absurd (mem_range.2 c) hn), if_pos rfl, mul_one]
      · rw [hT.1 i (by omega) (p k) (h.row_lt k hk) (by omega)]
        exact sum_eq_zero (fun x hx => by rw [if_neg (by have := mem_range.1 hx; omega), mul_zero])
    have s2 : ∀ k, k < R → ∑ y : Fin b, (if q k = y then (1 : K) else 0) * U y j = U (q k) j := by
      intro k hk
      rw [Fin.sum_univ_eq_sum_range (fun y => (if q k = y then (1 : K) else 0) * U y j) b]
      by_cases c : q k < b
      · rw [sum_eq_single (q k) (fun x _ hx => by rw [if_neg (fun e => hx e.symm), zero_mul]) (fun hn => absurd (mem_range.2 c) hn), if_pos rfl, one_mul]
      · rw [hU.1 (q k) (h.col_lt k hk) j (by omega) (by omega)]
        exact sum_eq_zero (fun x hx => by rw [if_neg (by have := mem_range.1 hx; omega), zero_mul])
    rw [toMat_apply, e i (by omega) j (by omega), Matrix.mul_apply]
    simp only [Matrix.mul_apply, toMat_apply, rookMat]
    simp only [mul_sum, sum_mul]
    have : ∀ y : Fin b, (∑ x : Fin a, ∑ k ∈ range R, T i x * ((if p k = x then (1 : K) else 0) * (if q k = y then 1 else 0)) * U y j) =
        ∑ k ∈ range R, T i (p k) * ((if q k = y then (1 : K) else 0) * U y j) := by
      intro y
      rw [sum_comm]
      refine sum_congr rfl (fun k hk => ?_)
      rw [← s1 k (mem_range.1 hk), sum_mul]
      exact sum_congr rfl (fun x _ => by ring)
    rw [sum_congr rfl (fun y _ => this y), sum_comm]
    refine sum_congr rfl (fun k hk => ?_)
    rw [← mul_sum, s2 k (mem_range.1 hk)]
  rw [rk, key, Matrix.rank_mul_eq_left_of_isUnit_det _ _ (hU.det hb), Matrix.rank_mul_eq_right_of_isUnit_det _ _ (hT.det ha), rookMat_rank h]

end Verif.RandMat
