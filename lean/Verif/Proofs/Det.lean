import Verif.Model.Det
import Verif.Proofs.PluqRank
import Verif.Proofs.PluqStep
import Mathlib.Tactic.Ring

/-!
# The determinant from a PLUQ decomposition
-/

namespace Verif.FF

open Finset Verif.Spec Verif.Spec.Perm Verif.Pluq

variable {K : Type}

/-- the number of proper exchanges among the first `k` -/
def exch (P : ℕ → ℕ) (k : ℕ) : ℕ := ((range k).filter (fun i => P i ≠ i)).card

lemma exch_succ (P : ℕ → ℕ) (k : ℕ) : exch P (k + 1) = exch P k + (if P k ≠ k then 1 else 0) := by
  rw [exch, range_add_one, filter_insert]
  split_ifs with h
  · rw [card_insert_of_notMem (by simp)]; rfl
  · rfl

/-- the permutation of `Fin n` made of the first `k` exchanges and its sign -/
lemma exists_sign {P : ℕ → ℕ} {n : ℕ} (hP : ∀ i < n, P i < n) : ∀ k ≤ n, ∃ σ : Equiv.Perm (Fin n), (∀ i : Fin n, (σ i : ℕ) = ofSwaps P k i) ∧
    Equiv.Perm.sign σ = (-1) ^ exch P k
  | 0, _ => ⟨1, fun _ => rfl, by simp [exch]⟩
  | k+1, hk => by
    obtain ⟨σ, h1, h2⟩ := exists_sign hP k (by omega)
    have hpk := hP k hk
    refine ⟨σ * Equiv.swap ⟨k, hk⟩ ⟨P k, hpk⟩, fun i => ?_, ?_⟩
    · rw [ofSwaps, Equiv.Perm.mul_apply, Equiv.Perm.mul_apply, h1]
      congr 1
      simp only [Equiv.swap_apply_def, Fin.ext_iff]
      split_ifs <;> rfl
    · rw [Equiv.Perm.sign_mul, h2, exch_succ, pow_add]
      congr 1
      by_cases e : P k = k
      · simp [e]
      · rw [Equiv.Perm.sign_swap (by simpa [Fin.ext_iff] using fun h => e h.symm)]
        simp [e]

variable [Field K]

/-- the determinant of a product of triangular matrices and permutations -/
lemma det_of_prod {d : Diag} {N : ℕ} {X V : ℕ → ℕ → K} {P Q : ℕ → ℕ} (hP : ∀ i < N, P i < N) (hQ : ∀ i < N, Q i < N)
    (h : ∀ i < N, ∀ j < N, X (ofSwaps P N i) (ofSwaps Q N j) = ∑ k ∈ range N, luL d V i k * luU d V k j) :
    (toMat N N X).det = (-1) ^ (exch P N + exch Q N) * ∏ k ∈ range N, V k k := by
  obtain ⟨σ, s1, s2⟩ := exists_sign hP N le_rfl
  obtain ⟨τ, t1, t2⟩ := exists_sign hQ N le_rfl
  have e : (toMat N N X).submatrix σ τ = toMat N N (luL d V) * toMat N N (luU d V) := by
    ext i j
    rw [Matrix.mul_apply]
    show X (σ i) (τ j) = _
    rw [s1, t1, h i i.2 j j.2, ← Fin.sum_univ_eq_sum_range (fun k => luL d V i k * luU d V k j)]
    rfl
  have dL : (toMat N N (luL d V)).det = ∏ k : Fin N, luL d V k k := by
    rw [Matrix.det_of_lowerTriangular]
    · rfl
    · intro i j hij
      exact luL_gt (by simpa using hij)
  have dU : (toMat N N (luU d V)).det = ∏ k : Fin N, luU d V k k := by
    rw [Matrix.det_of_upperTriangular]
    · rfl
    · intro i j hij
      exact luU_gt (by simpa using hij)
  have dd : ((toMat N N X).submatrix σ τ).det = ∏ k ∈ range N, V k k := by
    rw [e, Matrix.det_mul, dL, dU, ← prod_mul_distrib, ← Fin.prod_univ_eq_prod_range]
    exact prod_congr rfl (fun k _ => lu_diag)
  have e2 : (toMat N N X).submatrix σ τ = ((toMat N N X).submatrix σ id).submatrix id τ := rfl
  rw [e2, Matrix.det_permute', Matrix.det_permute, s2, t2] at dd
  rw [← dd, pow_add]
  push_cast
  have : ∀ n : ℕ, ((-1 : K) ^ n) * (-1) ^ n = 1 := fun n => by rw [← mul_pow]; simp
  calc (toMat N N X).det = ((-1) ^ exch P N * (-1) ^ exch P N) * (((-1) ^ exch Q N * (-1) ^ exch Q N) * (toMat N N X).det) := by
        rw [this, this, one_mul, one_mul]
    _ = _ := by ring

/-- the determinant -/
lemma det_of_fac {d : Diag} {N : ℕ} {X V : ℕ → ℕ → K} {P Q : ℕ → ℕ} (hP : ∀ i < N, P i < N) (hQ : ∀ i < N, Q i < N)
    (h : IsPLUQ d N N X V (ofSwaps P N) (ofSwaps Q N) N) :
    (toMat N N X).det = (-1) ^ (exch P N + exch Q N) * ∏ k ∈ range N, V k k := det_of_prod hP hQ h.fac

variable [DecidableEq K]

omit [Field K] [DecidableEq K] in
lemma countExchanges_spec {N : ℕ} {P Q : Arr ℕ} (hP : P.len = N) (hQ : Q.len = N) :
    Ok (countExchanges N P Q) (fun c => c = exch P.get N + exch Q.get N) := by
  refine Ok_iter (fun k c => c = exch P.get k + exch Q.get k) (by simp [exch]) ?_
  rintro k c hk rfl
  simp only [Ok_bind, Ok_rd, Ok_pure]
  refine ⟨by omega, by omega, ?_⟩
  rw [exch_succ, exch_succ]
  split_ifs <;> omega

omit [DecidableEq K] in
lemma mulDiag_spec {m0 m : Mem K} {W : Win} {V : ℕ → ℕ → K} {N : ℕ} (h : On m0 m W V) (hr : N ≤ W.r) (hc : N ≤ W.c) :
    Run (mulDiag N W.p W.ld) m (fun x m' => m' = m ∧ x = ∏ k ∈ range N, V k k) := by
  refine Run_iter (fun k x m' => m' = m ∧ x = ∏ k ∈ range k, V k k) ⟨rfl, by simp⟩ ?_
  rintro k x m' hk ⟨rfl, rfl⟩
  have e : W.p + k * (W.ld + 1) = W.adr k k := by rw [Win.adr]; ring
  rw [Run_bind, Run_load, e]
  refine ⟨h.okc (by omega) (by omega), ?_⟩
  rw [Run_pure, h.val (by omega) (by omega), prod_range_succ]
  exact ⟨rfl, rfl⟩

end Verif.FF
