import Verif.Spec.LinAlg
import Verif.Spec.Perm

/-!
# What a PLUQ decomposition is
-/

namespace Verif.Spec

open Finset Verif.Spec.Perm

variable {K : Type} [CommRing K]

/-- the lower factor stored in `V` when the upper factor has the diagonal `d` -/
def luL (d : Diag) (V : ℕ → ℕ → K) : ℕ → ℕ → K := tri .lower (match d with | .unit => .nonUnit | .nonUnit => .unit) V

/-- the upper factor stored in `V` -/
def luU (d : Diag) (V : ℕ → ℕ → K) : ℕ → ℕ → K := tri .upper d V

/-- `V` stores the factors of the `M × N` matrix `X` with rows permuted by `p`, columns by `q`, and `r` pivots. -/
structure IsPLUQ (d : Diag) (M N : ℕ) (X V : ℕ → ℕ → K) (p q : ℕ → ℕ) (r : ℕ) : Prop where
  rM : r ≤ M
  rN : r ≤ N
  piv : ∀ k < r, V k k ≠ 0
  fac : ∀ i < M, ∀ j < N, X (p i) (q j) = ∑ k ∈ range r, luL d V i k * luU d V k j

end Verif.Spec
