import Mathlib.Data.Finset.Card

/-!
# Rook placements

A matrix of zeroes and ones with at most one one in each row and column, given by the positions `(p k, q k)`, `k < R`, of its ones.
-/

namespace Verif.Spec

/-- `R` positions in an `M × N` matrix, no two in one row or column -/
structure Rook (M N R : ℕ) (p q : ℕ → ℕ) : Prop where
  row_lt : ∀ k < R, p k < M
  col_lt : ∀ k < R, q k < N
  row_inj : ∀ k < R, ∀ l < R, p k = p l → k = l
  col_inj : ∀ k < R, ∀ l < R, q k = q l → k = l

/-- the matrix is symmetric -/
def SymRook (R : ℕ) (p q : ℕ → ℕ) : Prop := ∀ k < R, ∃ l < R, p l = q k ∧ q l = p k

/-- the number of ones in the first `a` rows and `b` columns -/
def rookCount (R : ℕ) (p q : ℕ → ℕ) (a b : ℕ) : ℕ := ((Finset.range R).filter (fun k => p k < a ∧ q k < b)).card

end Verif.Spec
