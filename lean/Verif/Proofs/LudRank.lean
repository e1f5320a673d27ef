import Verif.Proofs.LudMath
import Mathlib.LinearAlgebra.Matrix.Block

/-!
# Rank and row rank profile from a CUP decomposition
-/

namespace Verif.Lud

open Finset Verif.Spec Verif.Spec.Perm Verif.Pluq

variable {K : Type} [Field K] {d : Diag} {M N r : ℕ} {X V : ℕ → ℕ → K} {p q : ℕ → ℕ}

/-- the pivot rows above `a` -/
def pivRows (q : ℕ → ℕ) (r a : ℕ) : Finset ℕ := (range r).filter (fun k => q k < a)

lemma cup_diag (h : Cup d M N X V p q r) {k : ℕ} (hk : k < r) : cupC d V q (q k) k * luU d V k k ≠ 0 := by
  have hp := h.piv k hk
  cases d
  · rw [cupC_eq_nonUnit, luU_diag_nonUnit, one_mul]; exact hp
  · rw [cupC_eq_unit, luU_diag_unit, mul_one]; exact hp

/-- the rows of the pivots and the first columns after permutation form invertible submatrices -/
theorem Cup.minor (h : Cup d M N X V p q r) {s : ℕ} (hs : s ≤ r) : (toMat s s (fun i j => X (q i) (p j))).det ≠ 0 := by
  have rN := h.rN
  let C : Matrix (Fin s) (Fin s) K := fun i k => cupC d V q (q i) k
  let U : Matrix (Fin s) (Fin s) K := fun k j => luU d V k j
  have e : toMat s s (fun i j => X (q i) (p j)) = C * U := by
    ext i j
    rw [Matrix.mul_apply, toMat_apply, h.fac _ (h.qM i (by omega)) j (by omega)]
    show _ = ∑ x : Fin s, (fun x => cupC d V q (q i) x * luU d V x j) x
    rw [Fin.sum_univ_eq_sum_range (fun x => cupC d V q (q i) x * luU d V x j) s]
    refine (sum_subset (fun x hx => mem_range.2 (by have := mem_range.1 hx; omega)) (fun x hx hx' => ?_)).symm
    rw [mem_range] at hx hx'
    rw [luU_gt (by omega), mul_zero]
  have dC : C.det = ∏ k : Fin s, cupC d V q (q k) k := by
    rw [Matrix.det_of_lowerTriangular]
    intro i j hij
    have hij : i < j := by simpa using hij
    exact cupC_lt (h.inc i j hij (by omega))
  have dU : U.det = ∏ k : Fin s, luU d V k k := by
    rw [Matrix.det_of_upperTriangular]
    intro i j hij
    exact luU_gt (by simpa using hij)
  rw [e, Matrix.det_mul, dC, dU, ← Finset.prod_mul_distrib, Finset.prod_ne_zero_iff]
  exact fun k _ => cup_diag h (by omega)

/-- the pivot rows above `a` are the first ones -/
lemma pivRows_eq (h : IsCUP d M N X V p q r) (a : ℕ) : ∃ s ≤ r, pivRows q r a = range s := by
  have key : ∀ t ≤ r, ∃ s ≤ t, (∀ k < s, q k < a) ∧ ∀ k, s ≤ k → k < t → a ≤ q k := by
    intro t
    induction t with
    | zero => intro _; exact ⟨0, le_rfl, fun k hk => by omega, fun k _ hk => by omega⟩
    | succ t ih =>
      intro ht
      obtain ⟨s, hs, h1, h2⟩ := ih (by omega)
      rcases Nat.lt_or_ge s t with c | c
      · refine ⟨s, by omega, h1, fun k h3 h4 => ?_⟩
        have := h2 s le_rfl c
        rcases Nat.lt_succ_iff_lt_or_eq.1 h4 with hk | rfl
        · exact h2 k h3 hk
        · have := h.inc s k c (by omega)
          omega
      · obtain rfl : s = t := by omega
        by_cases c : q s < a
        · refine ⟨s + 1, le_rfl, fun k hk => ?_, fun k h3 h4 => by omega⟩
          rcases Nat.lt_succ_iff_lt_or_eq.1 hk with hk | rfl
          · exact h1 k hk
          · exact c
        · refine ⟨s, by omega, h1, fun k h3 h4 => ?_⟩
          obtain rfl : k = s := by omega
          omega
  obtain ⟨s, hs, h1, h2⟩ := key r le_rfl
  refine ⟨s, hs, ?_⟩
  ext k
  simp only [pivRows, mem_filter, mem_range]
  constructor
  · rintro ⟨hk, hq⟩
    by_contra hc
    have := h2 k (by omega) hk
    omega
  · intro hk
    exact ⟨by omega, h1 k hk⟩

/-- the rank of the leading rows -/
theorem Cup.rank_rows (h : Cup d M N X V p q r) {a : ℕ} (ha : a ≤ M) : rk X a N = (pivRows q r a).card := by
  have rN := h.rN
  obtain ⟨s, hs, e⟩ := pivRows_eq h.toIsCUP a
  have mem : ∀ k, k < s ↔ k < r ∧ q k < a := fun k => by
    rw [← mem_range, ← e]; simp [pivRows]
  obtain ⟨t, ht⟩ := perm_surj h.pP
  rw [e, card_range, rk]
  refine le_antisymm ?_ ?_
  · let C : Matrix (Fin a) (Fin s) K := fun i k => cupC d V q i k
    let U : Matrix (Fin s) (Fin N) K := fun k j => luU d V k (t j)
    have e : toMat a N X = C * U := by
      ext i j
      have hf := h.fac i (by omega) _ (ht j j.2).1
      rw [(ht j j.2).2] at hf
      rw [Matrix.mul_apply, toMat_apply, hf]
      show _ = ∑ x : Fin s, (fun x => cupC d V q i x * luU d V x (t j)) x
      rw [Fin.sum_univ_eq_sum_range (fun x => cupC d V q i x * luU d V x (t j)) s]
      refine (sum_subset (fun x hx => mem_range.2 (by have := mem_range.1 hx; omega)) (fun x hx hx' => ?_)).symm
      rw [mem_range] at hx hx'
      have : ¬ q x < a := fun hq => hx' ((mem x).2 ⟨hx, hq⟩)
      rw [cupC_lt (by omega), zero_mul]
    rw [e]
    refine (Matrix.rank_mul_le_left C U).trans ((Matrix.rank_le_card_width C).trans ?_)
    simp
  · let f : Fin s → Fin a := fun k => ⟨q k, ((mem k).1 k.2).2⟩
    let g : Fin s → Fin N := fun k => ⟨p k, h.pP.1 k (by omega)⟩
    have := Matrix.rank_of_det_ne_zero (h.minor hs)
    rw [Fintype.card_fin] at this
    rw [← this]
    exact Matrix.rank_submatrix_le (toMat a N X) f g

/-- the number of pivots is the rank -/
theorem Cup.rank_eq (h : Cup d M N X V p q r) : rk X M N = r := by
  rw [h.rank_rows le_rfl, pivRows, filter_true_of_mem (fun k hk => h.qM k (mem_range.1 hk)), card_range]

/-- the pivot rows are the row rank profile -/
theorem Cup.profile (h : Cup d M N X V p q r) : IsRowRankProfile M N X ((List.range r).map q) := by
  refine ⟨?_, fun i => ?_⟩
  · rw [List.pairwise_map]
    refine List.Pairwise.imp_of_mem ?_ List.pairwise_lt_range
    intro a b _ hb hab
    exact h.inc a b hab (List.mem_range.1 hb)
  · simp only [List.mem_map, List.mem_range]
    constructor
    · rintro ⟨k, hk, rfl⟩
      have hq := h.qM k hk
      refine ⟨hq, ?_⟩
      rw [h.rank_rows hq, h.rank_rows hq.le]
      refine (Finset.card_lt_card ⟨fun x hx => ?_, fun hc => ?_⟩).ne'
      · simp only [pivRows, mem_filter, mem_range] at hx ⊢; omega
      · have := @hc k (by simp only [pivRows, mem_filter, mem_range]; omega)
        simp only [pivRows, mem_filter] at this; omega
    · rintro ⟨hi, hne⟩
      by_contra hc
      rw [h.rank_rows hi, h.rank_rows hi.le] at hne
      refine hne (congrArg _ (Finset.ext (fun k => ?_)))
      simp only [pivRows, mem_filter, mem_range]
      constructor
      · rintro ⟨hk, hq⟩
        refine ⟨hk, ?_⟩
        by_contra hn
        exact hc ⟨k, hk, by omega⟩
      · rintro ⟨hk, hq⟩
        exact ⟨hk, by omega⟩

end Verif.Lud
