import Verif.Spec.LinAlg
import Mathlib.Data.Matrix.Mul
import Mathlib.LinearAlgebra.Matrix.NonsingularInverse

/-!
# Bridge to Mathlib matrices
-/

namespace Verif.Spec

open Finset

variable {K : Type}

/-- the `m × n` matrix with the given entries -/
def toMat (m n : ℕ) (A : ℕ → ℕ → K) : Matrix (Fin m) (Fin n) K := fun i j => A i j

@[simp] lemma toMat_apply (m n : ℕ) (A : ℕ → ℕ → K) (i : Fin m) (j : Fin n) : toMat m n A i j = A i j := rfl

lemma toMat_ext {m n : ℕ} {A B : ℕ → ℕ → K} : toMat m n A = toMat m n B ↔ ∀ i < m, ∀ j < n, A i j = B i j :=
  ⟨fun h i hi j hj => congrFun (congrFun h ⟨i, hi⟩) ⟨j, hj⟩, fun h => by ext i j; exact h i i.2 j j.2⟩

lemma toMat_mul [CommRing K] (m k n : ℕ) (A B : ℕ → ℕ → K) : toMat m n (mul k A B) = toMat m k A * toMat k n B := by
  ext i j
  simp only [toMat_apply, mul, Matrix.mul_apply]
  exact (Fin.sum_univ_eq_sum_range (fun l => A i l * B l j) k).symm

lemma toMat_one [CommRing K] (n : ℕ) : toMat n n (one : ℕ → ℕ → K) = 1 := by
  ext i j
  simp only [toMat_apply, one, Matrix.one_apply, Fin.ext_iff]

/-- `S` is the inverse of `T`, both of order `n` -/
def IsInv [CommRing K] (n : ℕ) (T S : ℕ → ℕ → K) : Prop :=
  (∀ i < n, ∀ j < n, mul n S T i j = one i j) ∧ ∀ i < n, ∀ j < n, mul n T S i j = one i j

lemma IsInv.of_left [CommRing K] {n : ℕ} {T S : ℕ → ℕ → K} (h : ∀ i < n, ∀ j < n, mul n S T i j = one i j) : IsInv n T S := by
  refine ⟨h, ?_⟩
  rw [← toMat_ext, toMat_mul, toMat_one] at h ⊢
  exact mul_eq_one_comm.1 h

lemma IsInv.of_right [CommRing K] {n : ℕ} {T S : ℕ → ℕ → K} (h : ∀ i < n, ∀ j < n, mul n T S i j = one i j) : IsInv n T S := by
  have := IsInv.of_left h
  exact ⟨this.2, this.1⟩

lemma IsInv.unique [CommRing K] {n : ℕ} {T S R : ℕ → ℕ → K} (h : IsInv n T S) (h' : IsInv n T R) : ∀ i < n, ∀ j < n, S i j = R i j := by
  have h1 := h.1
  have h2 := h'.2
  rw [← toMat_ext, toMat_mul, toMat_one] at h1 h2
  rw [← toMat_ext]
  calc toMat n n S = toMat n n S * (toMat n n T * toMat n n R) := by rw [h2, Matrix.mul_one]
    _ = toMat n n R := by rw [← Matrix.mul_assoc, h1, Matrix.one_mul]

end Verif.Spec
