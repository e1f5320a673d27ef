import Verif.Proofs.Danilevski
import Verif.Props.ApplyP
import Verif.Props.Solve
import Verif.Core.HeapEx

/-!
# Property C75: characteristic polynomial by Danilevski's algorithm
-/

namespace Verif.Props

open Verif.FF Polynomial

variable {K : Type} [Field K] [DecidableEq K] {m : Mem K} {N A lda : ℕ}

/-- the coefficients of a monic polynomial of positive degree: the last one, and only that one, has to be 1 -/
def IsMonic (l : List K) : Prop := ∃ c : List K, c ≠ [] ∧ l = c ++ [1]

/-- `Danilevski` terminates normally on every matrix, over every field, writes only in the matrix (and leaks nothing); the polynomials
returned are monic and their product is the characteristic polynomial of the matrix. -/
theorem C75_danilevski (cat : Cat) (hA : Rect m N N A lda) : Run (danilevski cat N A lda) m (fun L m' =>
    Only m m' ⟨A, lda, N, N⟩ ∧ (∀ l ∈ L, IsMonic l) ∧ (L.map Spec.polyOf).prod = (Spec.toMat N N (m.mat ⟨A, lda, N, N⟩)).charpoly) :=
  (danilevski_spec cat hA.on).mono (fun _ _ ⟨⟨_, h1⟩, h2, h3⟩ => ⟨On.only h1, h2, h3⟩)

omit [DecidableEq K] in
/-- the polynomial of a list, coefficient by coefficient -/
theorem C75_coeff (l : List K) (i : ℕ) : (Spec.polyOf l).coeff i = l.getD i 0 := by
  induction l generalizing i with
  | nil => simp [Spec.polyOf]
  | cons a l ih =>
    have e : Spec.polyOf (a :: l) = C a + X * Spec.polyOf l := rfl
    rw [e, coeff_add]
    cases i with
    | zero => simp
    | succ i => rw [coeff_C_succ, coeff_X_mul, ih, zero_add, List.getD_cons_succ]

omit [DecidableEq K] in
/-- the polynomials are monic polynomials of Mathlib, of degree the size of the vector minus one -/
theorem C75_monic {l : List K} (h : IsMonic l) : (Spec.polyOf l).Monic ∧ (Spec.polyOf l).natDegree = l.length - 1 ∧ 2 ≤ l.length := by
  obtain ⟨c, hc, rfl⟩ := h
  have h2 : 0 < c.length := List.length_pos_iff.2 hc
  have hle : (Spec.polyOf (c ++ [1])).natDegree ≤ c.length := by
    rw [natDegree_le_iff_coeff_eq_zero]
    intro i hi
    rw [C75_coeff]
    rw [List.getD_eq_getElem?_getD, List.getElem?_eq_none (by simp; omega), Option.getD_none]
  have h1 : (Spec.polyOf (c ++ [1])).coeff c.length = 1 := by rw [C75_coeff]; simp
  have hd := natDegree_eq_of_le_of_coeff_ne_zero hle (by rw [h1]; exact one_ne_zero)
  refine ⟨?_, by rw [hd]; simp, by simp; omega⟩
  rw [Monic, leadingCoeff, hd, h1]

/-- a matrix of order 3 over ℚ with leading dimension 4 that needs an exchange; row 0 has a zero below the diagonal -/
def danex : Mem ℚ := memOf [1, 2, 3, 77, 0, 4, 5, 77, 6, 7, 8]

example : Rect danex 3 3 0 4 := ⟨WF_memOf _, OkIn_memOf (by decide), by decide⟩

/-- the result on the example: one companion block, `X³ - 13 X² - 9 X + 15` -/
example : result (danilevski .modular 3 0 4) danex = some [[15, -9, -13, 1]] := by decide +kernel

/-- a block triangular matrix gives several blocks -/
example : result (danilevski .generic 3 0 3) (memOf [(1 : ℚ), 5, 6, 0, 2, 4, 0, 0, 3]) = some [[-3, 1], [-2, 1], [-1, 1]] := by decide +kernel

end Verif.Props
