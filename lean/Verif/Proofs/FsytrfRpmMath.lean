import Mathlib.Algebra.BigOperators.Group.Finset.Basic
import Mathlib.Algebra.Field.Basic
import Mathlib.Tactic.Ring
import Mathlib.Tactic.FieldSimp
import Mathlib.Tactic.LinearCombination

/-!
# The symmetric elimination with pivots of size 1 and 2
-/

namespace Verif.FF

open Finset

variable {K : Type} [Field K]

/-- the bilinear form `uᵀ Δ u`: `mate` pairs the rows of the 2 x 2 blocks -/
def qf (r : ℕ) (mate : ℕ → ℕ) (y : ℕ → K) (u : ℕ → ℕ → K) (i j : ℕ) : K := ∑ l ∈ range r, u l i * (y l * u (mate l) j)

/-- the state of the elimination: the first `row` rows of the permuted matrix are `uᵀ Δ u` -/
structure RpmI (N : ℕ) (S : ℕ → ℕ → K) (row rank : ℕ) (σ mate : ℕ → ℕ) (u : ℕ → ℕ → K) (y : ℕ → K) : Prop where
  le1 : rank ≤ row
  le2 : row ≤ N
  lt : ∀ i < N, σ i < N
  inj : ∀ i < N, ∀ j < N, σ i = σ j → i = j
  mono : ∀ i j, rank ≤ i → i < j → j < N → σ i < σ j
  mlt : ∀ l < rank, mate l < rank
  minv : ∀ l < rank, mate (mate l) = l
  mnear : ∀ l < rank, mate l ≤ l + 1 ∧ l ≤ mate l + 1
  ex : ∀ i < row, ∀ j < N, S (σ i) (σ j) = qf rank mate y u i j
  nz : ∀ l < rank, u l l ≠ 0
  yv : ∀ l < rank, y l = (u l l)⁻¹
  dm : ∀ l < rank, u (mate l) (mate l) = u l l
  tri : ∀ l < rank, ∀ j < l, u l j = 0
  sup : ∀ l < rank, ∀ j < N, u l j ≠ 0 → σ l ≤ σ j

section
variable {N row rank : ℕ} {S : ℕ → ℕ → K} {σ mate : ℕ → ℕ} {u : ℕ → ℕ → K} {y : ℕ → K} {i j k : ℕ}

lemma RpmI.ym (h : RpmI N S row rank σ mate u y) {l : ℕ} (hl : l < rank) : y (mate l) = y l := by
  rw [h.yv _ (h.mlt l hl), h.yv l hl, h.dm l hl]

lemma RpmI.qf_symm (h : RpmI N S row rank σ mate u y) (i j : ℕ) : qf rank mate y u i j = qf rank mate y u j i := by
  unfold qf
  refine sum_nbij' mate mate (fun l hl => mem_range.2 (h.mlt l (mem_range.1 hl))) (fun l hl => mem_range.2 (h.mlt l (mem_range.1 hl)))
    (fun l hl => h.minv l (mem_range.1 hl)) (fun l hl => h.minv l (mem_range.1 hl)) (fun l hl => ?_)
  rw [h.minv l (mem_range.1 hl), h.ym (mem_range.1 hl)]
  ring

/-- what is left of row `k` -/
def resid (rank : ℕ) (S : ℕ → ℕ → K) (σ mate : ℕ → ℕ) (u : ℕ → ℕ → K) (y : ℕ → K) (k j : ℕ) : K := S (σ k) (σ j) - qf rank mate y u k j

lemma RpmI.low (h : RpmI N S row rank σ mate u y) (hS : ∀ i j, S i j = S j i) (hk : k < N) (hj : j < row) : resid rank S σ mate u y k j = 0 := by
  unfold resid
  rw [hS, h.ex j hj k hk, h.qf_symm, sub_self]

lemma RpmI.rsymm (h : RpmI N S row rank σ mate u y) (hS : ∀ i j, S i j = S j i) (k j : ℕ) :
    resid rank S σ mate u y k j = resid rank S σ mate u y j k := by
  unfold resid
  rw [hS, h.qf_symm]

/-- no pivot in the row -/
lemma RpmI.nextZero (h : RpmI N S row rank σ mate u y) (hS : ∀ i j, S i j = S j i) (hr : row < N)
    (hz : ∀ j, row ≤ j → j < N → resid rank S σ mate u y row j = 0) : RpmI N S (row + 1) rank σ mate u y := by
  refine ⟨by have := h.le1; omega, by omega, h.lt, h.inj, h.mono, h.mlt, h.minv, h.mnear, fun i hi j hj => ?_, h.nz, h.yv, h.dm, h.tri, h.sup⟩
  by_cases c : i < row
  · exact h.ex i c j hj
  · obtain rfl : i = row := by omega
    have : resid rank S σ mate u y i j = 0 := by
      by_cases c : j < i
      · exact h.low hS hr c
      · exact hz j (by omega) hj
    exact sub_eq_zero.1 this

/-- old place of the column at `j` after a pivot in `row` -/
def rho1 (rank row j : ℕ) : ℕ := if j = rank then row else if rank < j ∧ j ≤ row then j - 1 else j

/-- old place of the column at `j` after the pivots in `row` and `k` -/
def rho2 (rank row k j : ℕ) : ℕ :=
  if j = rank then row else if j = rank + 1 then k else if j < rank then j else if j < row + 2 then j - 2 else if j ≤ k then j - 1 else j

lemma RpmI.nextOne (h : RpmI N S row rank σ mate u y) (hS : ∀ i j, S i j = S j i) (hr : row < N) {σ' mate' : ℕ → ℕ} {u' : ℕ → ℕ → K} {y' : ℕ → K}
    (hx : resid rank S σ mate u y row row ≠ 0) (hσ : ∀ j < N, σ' j = σ (rho1 rank row j)) (hm : ∀ l < rank, mate' l = mate l) (hm' : mate' rank = rank)
    (hu : ∀ l < rank, ∀ j < N, u' l j = u l (rho1 rank row j)) (hu' : ∀ j < N, u' rank j = resid rank S σ mate u y row (rho1 rank row j))
    (hy : ∀ l < rank, y' l = y l) (hy' : y' rank = (resid rank S σ mate u y row row)⁻¹) : RpmI N S (row + 1) (rank + 1) σ' mate' u' y' := by
  have hle := h.le1
  set ρ := rho1 rank row with hρ
  set c := resid rank S σ mate u y row with hc
  have ρlt : ∀ j < N, ρ j < N := fun j hj => by simp only [hρ, rho1]; split_ifs <;> omega
  have ρlow : ∀ j < rank, ρ j = j := fun j hj => by simp only [hρ, rho1]; split_ifs <;> omega
  have ρhi : ∀ j, rank ≤ j → rank ≤ ρ j := fun j hj => by simp only [hρ, rho1]; split_ifs <;> omega
  have ρinj : ∀ i < N, ∀ j < N, ρ i = ρ j → i = j := fun i _ j _ e => by simp only [hρ, rho1] at e; split_ifs at e <;> omega
  have ρmono : ∀ i j, rank + 1 ≤ i → i < j → ρ i < ρ j := fun i j h1 h2 => by simp only [hρ, rho1]; split_ifs <;> omega
  have ρrow : ∀ i < row + 1, ρ i < row ∨ ρ i = row := fun i hi => by simp only [hρ, rho1]; split_ifs <;> omega
  have ρr : ρ rank = row := by simp [hρ, rho1]
  have c0 : ∀ j < row, c j = 0 := fun j hj => h.low hS hr hj
  have qf' : ∀ i < N, ∀ j < N, qf (rank + 1) mate' y' u' i j = qf rank mate y u (ρ i) (ρ j) + c (ρ i) * ((c row)⁻¹ * c (ρ j)) := fun i hi j hj => by
    unfold qf
    rw [sum_range_succ, hm', hu' i hi, hu' j hj, hy']
    congr 1
    refine sum_congr rfl (fun l hl => ?_)
    have hl := mem_range.1 hl
    rw [hu l hl i hi, hm l hl, hu _ (h.mlt l hl) j hj, hy l hl]
  have lt_cases : ∀ l, l < rank + 1 → l < rank ∨ l = rank := fun l hl => by omega
  have d' : ∀ l < rank, u' l l = u l l := fun l hl => by rw [hu l hl l (by omega), ρlow l hl]
  have dr : u' rank rank = c row := by rw [hu' rank (by omega), ρr]
  refine ⟨by omega, by omega, fun i hi => by rw [hσ i hi]; exact h.lt _ (ρlt i hi), fun i hi j hj e => ?_, fun i j h1 h2 h3 => ?_, fun l hl => ?_, fun l hl => ?_,
    fun l hl => ?_, fun i hi j hj => ?_, fun l hl => ?_, fun l hl => ?_, fun l hl => ?_, fun l hl j hj => ?_, fun l hl j hj => ?_⟩
  · rw [hσ i hi, hσ j hj] at e
    exact ρinj i hi j hj (h.inj _ (ρlt i hi) _ (ρlt j hj) e)
  · rw [hσ i (by omega), hσ j h3]
    exact h.mono _ _ (ρhi i (by omega)) (ρmono i j h1 h2) (ρlt j h3)
  · rcases lt_cases l hl with hl | rfl
    · rw [hm l hl]; have := h.mlt l hl; omega
    · omega
  · rcases lt_cases l hl with hl | rfl
    · rw [hm l hl, hm _ (h.mlt l hl), h.minv l hl]
    · rw [hm', hm']
  · rcases lt_cases l hl with hl | rfl
    · rw [hm l hl]; exact h.mnear l hl
    · omega
  · rw [hσ i (by omega), hσ j hj, qf' i (by omega) j hj]
    rcases ρrow i hi with e | e
    · rw [c0 _ e, zero_mul, add_zero]
      exact h.ex _ e _ (ρlt j hj)
    · rw [e, mul_inv_cancel_left₀ hx, hc]
      unfold resid
      ring
  · rcases lt_cases l hl with hl | rfl
    · rw [d' l hl]; exact h.nz l hl
    · rw [dr]; exact hx
  · rcases lt_cases l hl with hl | rfl
    · rw [d' l hl, hy l hl]; exact h.yv l hl
    · rw [dr, hy']
  · rcases lt_cases l hl with hl | rfl
    · rw [hm l hl, d' _ (h.mlt l hl), d' l hl]; exact h.dm l hl
    · rw [hm']
  · rcases lt_cases l hl with hl | rfl
    · rw [hu l hl j (by omega), ρlow j (by omega)]; exact h.tri l hl j hj
    · rw [hu' j (by omega), ρlow j hj]; exact c0 j (by omega)
  · rcases lt_cases l hl with hl | rfl
    · rw [hu l hl j hj, hσ l (by omega), hσ j hj, ρlow l hl]
      exact h.sup l hl _ (ρlt j hj)
    · rw [hu' j hj, hσ l (by omega), hσ j hj, ρr]
      intro hne
      have h1 : row ≤ ρ j := by
        by_contra hh
        exact hne (c0 _ (by omega))
      rcases Nat.eq_or_lt_of_le h1 with e | e
      · rw [← e]
      · exact (h.mono _ _ hle e (ρlt j hj)).le

lemma RpmI.nextTwo (h : RpmI N S row rank σ mate u y) (hS : ∀ i j, S i j = S j i) (h2 : (2 : K) ≠ 0) (hrk : row < k) (hk : k < N) {σ' mate' : ℕ → ℕ}
    {u' : ℕ → ℕ → K} {y' : ℕ → K} {x z : K} (hx : resid rank S σ mate u y row k = x) (hx0 : x ≠ 0) (hz : resid rank S σ mate u y k k = z)
    (h0 : ∀ j, row ≤ j → j < k → resid rank S σ mate u y row j = 0)
    (hσ : ∀ j < N, σ' j = σ (rho2 rank row k j)) (hm : ∀ l < rank, mate' l = mate l) (hm1 : mate' rank = rank + 1) (hm2 : mate' (rank + 1) = rank)
    (hu : ∀ l < rank, ∀ j < N, u' l j = u l (rho2 rank row k j))
    (hu1 : ∀ j < N, u' rank j = resid rank S σ mate u y k (rho2 rank row k j) - z * 2⁻¹ * x⁻¹ * resid rank S σ mate u y row (rho2 rank row k j))
    (hu2 : ∀ j < N, u' (rank + 1) j = resid rank S σ mate u y row (rho2 rank row k j))
    (hy : ∀ l < rank, y' l = y l) (hy1 : y' rank = x⁻¹) (hy2 : y' (rank + 1) = x⁻¹) : RpmI N S (row + 2) (rank + 2) σ' mate' u' y' := by
  have hle := h.le1
  set ρ := rho2 rank row k with hρ
  set c := resid rank S σ mate u y row with hc
  set e := resid rank S σ mate u y k with he
  set f : ℕ → K := fun j => e j - z * 2⁻¹ * x⁻¹ * c j with hf
  have ρlt : ∀ j < N, ρ j < N := fun j hj => by simp only [hρ, rho2]; split_ifs <;> omega
  have ρlow : ∀ j < rank, ρ j = j := fun j hj => by simp only [hρ, rho2]; split_ifs <;> omega
  have ρhi : ∀ j, rank ≤ j → rank ≤ ρ j := fun j hj => by simp only [hρ, rho2]; split_ifs <;> omega
  have ρinj : ∀ i < N, ∀ j < N, ρ i = ρ j → i = j := fun i _ j _ e => by simp only [hρ, rho2] at e; split_ifs at e <;> omega
  have ρmono : ∀ i j, rank + 2 ≤ i → i < j → ρ i < ρ j := fun i j h1 h2 => by simp only [hρ, rho2]; split_ifs <;> omega
  have ρrow : ∀ i < row + 2, ρ i < row ∨ ρ i = row ∨ ρ i = k := fun i hi => by simp only [hρ, rho2]; split_ifs <;> omega
  have ρr : ρ rank = row := by simp [hρ, rho2]
  have ρr1 : ρ (rank + 1) = k := by simp [hρ, rho2]
  have c0 : ∀ j < k, c j = 0 := fun j hj => by
    by_cases q : j < row
    · exact h.low hS (by omega) q
    · exact h0 j (by omega) hj
  have e0 : ∀ j < row, e j = 0 := fun j hj => h.low hS hk hj
  have er : e row = x := by rw [he, h.rsymm hS]; exact hx
  have f0 : ∀ j < row, f j = 0 := fun j hj => by simp only [hf, e0 j hj, c0 j (by omega)]; ring
  have fr : f row = x := by simp only [hf, er, c0 row hrk]; ring
  have fk : f k = z * 2⁻¹ := by
    simp only [hf, hx, hz]
    field_simp
    ring
  have hu1' : ∀ j < N, u' rank j = f (ρ j) := hu1
  have qf' : ∀ i < N, ∀ j < N, qf (rank + 2) mate' y' u' i j = qf rank mate y u (ρ i) (ρ j) + f (ρ i) * (x⁻¹ * c (ρ j)) + c (ρ i) * (x⁻¹ * f (ρ j)) := fun i hi j hj => by
    unfold qf
    rw [sum_range_succ, sum_range_succ, hm1, hm2, hu1' i hi, hu1' j hj, hu2 i hi, hu2 j hj, hy1, hy2]
    congr 2
    refine sum_congr rfl (fun l hl => ?_)
    have hl := mem_range.1 hl
    rw [hu l hl i hi, hm l hl, hu _ (h.mlt l hl) j hj, hy l hl]
  have lt_cases : ∀ l, l < rank + 2 → l < rank ∨ l = rank ∨ l = rank + 1 := fun l hl => by omega
  have d' : ∀ l < rank, u' l l = u l l := fun l hl => by rw [hu l hl l (by omega), ρlow l hl]
  have dr : u' rank rank = x := by rw [hu1' rank (by omega), ρr, fr]
  have dr1 : u' (rank + 1) (rank + 1) = x := by rw [hu2 (rank + 1) (by omega), ρr1]; exact hx
  refine ⟨by omega, by omega, fun i hi => by rw [hσ i hi]; exact h.lt _ (ρlt i hi), fun i hi j hj e => ?_, fun i j h1 h2 h3 => ?_, fun l hl => ?_, fun l hl => ?_,
    fun l hl => ?_, fun i hi j hj => ?_, fun l hl => ?_, fun l hl => ?_, fun l hl => ?_, fun l hl j hj => ?_, fun l hl j hj => ?_⟩
  · rw [hσ i hi, hσ j hj] at e
    exact ρinj i hi j hj (h.inj _ (ρlt i hi) _ (ρlt j hj) e)
  · rw [hσ i (by omega), hσ j h3]
    exact h.mono _ _ (ρhi i (by omega)) (ρmono i j h1 h2) (ρlt j h3)
  · rcases lt_cases l hl with hl | rfl | rfl
    · rw [hm l hl]; have := h.mlt l hl; omega
    · omega
    · omega
  · rcases lt_cases l hl with hl | rfl | rfl
    · rw [hm l hl, hm _ (h.mlt l hl), h.minv l hl]
    · rw [hm1, hm2]
    · rw [hm2, hm1]
  · rcases lt_cases l hl with hl | rfl | rfl
    · rw [hm l hl]; exact h.mnear l hl
    · omega
    · omega
  · rw [hσ i (by omega), hσ j hj, qf' i (by omega) j hj]
    rcases ρrow i hi with q | q | q
    · rw [c0 (ρ i) (by omega), f0 (ρ i) q, zero_mul, zero_mul, add_zero, add_zero]
      exact h.ex _ q _ (ρlt j hj)
    · rw [q, fr, c0 row hrk, mul_inv_cancel_left₀ hx0, hc]
      unfold resid
      ring
    · have ck : c k = x := hx
      rw [q, fk, ck, mul_inv_cancel_left₀ hx0]
      simp only [hf, he, resid]
      ring
  · rcases lt_cases l hl with hl | rfl | rfl
    · rw [d' l hl]; exact h.nz l hl
    · rw [dr]; exact hx0
    · rw [dr1]; exact hx0
  · rcases lt_cases l hl with hl | rfl | rfl
    · rw [d' l hl, hy l hl]; exact h.yv l hl
    · rw [dr, hy1]
    · rw [dr1, hy2]
  · rcases lt_cases l hl with hl | rfl | rfl
    · rw [hm l hl, d' _ (h.mlt l hl), d' l hl]; exact h.dm l hl
    · rw [hm1, dr, dr1]
    · rw [hm2, dr, dr1]
  · rcases lt_cases l hl with hl | rfl | rfl
    · rw [hu l hl j (by omega), ρlow j (by omega)]; exact h.tri l hl j hj
    · rw [hu1' j (by omega), ρlow j hj]; exact f0 j (by omega)
    · rw [hu2 j (by omega)]
      refine c0 _ ?_
      rcases Nat.lt_succ_iff_lt_or_eq.1 hj with q | q
      · rw [ρlow j q]; omega
      · rw [q, ρr]; exact hrk
  · rcases lt_cases l hl with hl | rfl | rfl
    · rw [hu l hl j hj, hσ l (by omega), hσ j hj, ρlow l hl]
      exact h.sup l hl _ (ρlt j hj)
    · rw [hu1' j hj, hσ l (by omega), hσ j hj, ρr]
      intro hne
      have h1 : row ≤ ρ j := by
        by_contra hh
        exact hne (f0 _ (by omega))
      rcases Nat.eq_or_lt_of_le h1 with q | q
      · rw [← q]
      · exact (h.mono _ _ hle q (ρlt j hj)).le
    · rw [hu2 j hj, hσ (rank + 1) (by omega), hσ j hj, ρr1]
      intro hne
      have h1 : k ≤ ρ j := by
        by_contra hh
        exact hne (c0 _ (by omega))
      rcases Nat.eq_or_lt_of_le h1 with q | q
      · rw [← q]
      · exact (h.mono _ _ (by omega) q (ρlt j hj)).le

end

end Verif.FF
