import Verif.Spec.Mat
import Mathlib.LinearAlgebra.Matrix.Rank

/-!
# What a rank profile is

The row rank profile of a matrix lists, in increasing order, the rows that are not combinations of the rows above, i.e. the rows
at which the rank of the leading rows increases.
-/

namespace Verif.Spec

variable {K : Type} [Field K]

/-- rank of the leading `m × n` submatrix -/
noncomputable def rk (X : ℕ → ℕ → K) (m n : ℕ) : ℕ := (toMat m n X).rank

/-- `l` is the row rank profile of the leading `m × n` submatrix of `X` -/
def IsRowRankProfile (m n : ℕ) (X : ℕ → ℕ → K) (l : List ℕ) : Prop :=
  l.Pairwise (· < ·) ∧ ∀ i, i ∈ l ↔ i < m ∧ rk X (i + 1) n ≠ rk X i n

/-- `l` is the column rank profile of the leading `m × n` submatrix of `X` -/
def IsColRankProfile (m n : ℕ) (X : ℕ → ℕ → K) (l : List ℕ) : Prop :=
  l.Pairwise (· < ·) ∧ ∀ j, j ∈ l ↔ j < n ∧ rk X m (j + 1) ≠ rk X m j

end Verif.Spec
