import Verif.Spec.LinAlg
import Verif.Spec.Pluq

/-!
# What a CUP decomposition is

`X = C U P` with `C` in column echelon form (the pivot of column `k` is in row `q k`, these rows increase) and `U` upper
trapezoidal.  The PLE decomposition is the CUP decomposition of the transpose.
-/

namespace Verif.Spec

open Finset Verif.Spec.Perm

variable {K : Type} [CommRing K]

/-- the echelon factor stored in `V` below the pivots, when the upper factor has the diagonal `d` -/
def cupC (d : Diag) (V : ℕ → ℕ → K) (q : ℕ → ℕ) (i k : ℕ) : K :=
  if i < q k then 0
  else if i = q k then (match d with | .unit => V i k | .nonUnit => 1)
  else V i k

/-- `V` stores the factors of the `M × N` matrix `X` with columns permuted by `p`, and `r` pivots in the rows `q k`. -/
structure IsCUP (d : Diag) (M N : ℕ) (X V : ℕ → ℕ → K) (p q : ℕ → ℕ) (r : ℕ) : Prop where
  rN : r ≤ N
  qM : ∀ k < r, q k < M
  inc : ∀ k l, k < l → l < r → q k < q l
  piv : ∀ k < r, (match d with | .unit => V (q k) k | .nonUnit => V k k) ≠ 0
  fac : ∀ i < M, ∀ j < N, X i (p j) = ∑ k ∈ range r, cupC d V q i k * luU d V k j

end Verif.Spec
