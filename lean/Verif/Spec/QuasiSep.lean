import Verif.Spec.RankProfile

/-!
# Quasi-separable matrices
-/

namespace Verif.Spec

variable {K : Type} [Field K]

/-- The order of quasi-separability is at most `s`: no block of the matrix strictly above or strictly below the diagonal has a rank larger than
`s`.  It is enough to ask it for the largest such blocks, and here only for those that start at a multiple of `s`. -/
def QuasiSep (N s : ℕ) (α : ℕ → ℕ → K) : Prop :=
  ∀ b, b * s < N → rk (fun i j => α i (b * s + j)) (b * s) (N - b * s) ≤ s ∧ rk (fun i j => α (b * s + i) j) (N - b * s) (b * s) ≤ s

end Verif.Spec
