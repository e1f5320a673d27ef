import Verif.Spec.Pluq
import Verif.Spec.RankProfile

/-!
# Bruhat generators of left triangular matrices

A matrix of order `N` is read as a left triangular matrix: only the entries `(i, j)` with `i + j + 1 < N` count.
-/

namespace Verif.Spec

open Finset

variable {K : Type} [Field K]

/-- Entry `i` of the column of the lower factor belonging to pivot `k`, stored in column `q k` of `V`: it starts at the pivot (one if the
upper factor has the stored diagonal) and is zero in the rows of earlier pivots. -/
def ltLower (d : Diag) (V : ℕ → ℕ → K) (p q : ℕ → ℕ) (k i : ℕ) : K :=
  if i < p k then 0 else if i = p k then (match d with | .unit => V (p k) (q k) | .nonUnit => 1) else if ∃ a < k, p a = i then 0 else V i (q k)

/-- Entry `j` of the row of the upper factor belonging to pivot `k`, stored in row `p k` of `V`. -/
def ltUpper (d : Diag) (V : ℕ → ℕ → K) (p q : ℕ → ℕ) (k j : ℕ) : K :=
  if j < q k then 0 else if j = q k then (match d with | .unit => 1 | .nonUnit => V (p k) (q k)) else if ∃ a < k, q a = j then 0 else V (p k) j

/-- `V`, `p`, `q` are a Bruhat generator of the left triangular part of `X`, with `r` pivots `(p k, q k)` -/
structure IsBruhat (d : Diag) (N : ℕ) (X V : ℕ → ℕ → K) (p q : ℕ → ℕ) (r : ℕ) : Prop where
  left : ∀ k < r, p k + q k + 1 < N
  rows : ∀ k < r, ∀ k' < r, p k = p k' → k = k'
  cols : ∀ k < r, ∀ k' < r, q k = q k' → k = k'
  pivot : ∀ k < r, V (p k) (q k) ≠ 0
  factor : ∀ i j, i + j + 1 < N → X i j = ∑ k ∈ range r, ltLower d V p q k i * ltUpper d V p q k j

/-- `R` is the left triangular rank profile matrix of `X`: zeroes and ones, the ones inside the left triangle and at most one in each row and
column, and the rank of each leading submatrix inside the triangle is the number of ones in it. -/
structure IsLeftProfile (N : ℕ) (X R : ℕ → ℕ → K) : Prop where
  zeroOne : ∀ i < N, ∀ j < N, R i j = 0 ∨ R i j = 1
  left : ∀ i < N, ∀ j < N, R i j = 1 → i + j + 1 < N
  row : ∀ i < N, ∀ j < N, ∀ j' < N, R i j = 1 → R i j' = 1 → j = j'
  col : ∀ i < N, ∀ i' < N, ∀ j < N, R i j = 1 → R i' j = 1 → i = i'
  rank : ∀ a b, a + b ≤ N → ∃ S : Finset (ℕ × ℕ), (∀ x, x ∈ S ↔ x.1 < a ∧ x.2 < b ∧ R x.1 x.2 = 1) ∧ rk X a b = S.card

/-- the order of quasi-separability of the left triangular part of `X`: the largest rank of a leading submatrix inside the triangle -/
def IsLeftOrder (N : ℕ) (X : ℕ → ℕ → K) (s : ℕ) : Prop :=
  (∀ a b, a + b ≤ N → rk X a b ≤ s) ∧ ∃ a b, a + b ≤ N ∧ rk X a b = s

end Verif.Spec
