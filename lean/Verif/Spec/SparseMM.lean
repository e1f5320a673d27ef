import Verif.Spec.Sparse

/-!
# Specification of the product of a sparse matrix and a block of vectors
-/

namespace Verif.Sparse
open Finset
variable {K : Type}

/-- `(A X)_{i,k}` for the matrix of the triples (duplicates summed) and `X_{c,k} = x[c*ldx+k]`. -/
def blockDot [CommRing K] (nnz : ℕ) (row col : Arr ℕ) (dat x : Arr K) (ldx i k : ℕ) : K :=
  ∑ t ∈ range nnz, if row.get t = i then dat.get t * x.get (col.get t * ldx + k) else 0

/-- `z` is `y` with the `m × bs` block of leading dimension `ldy` replaced by `f`, and nothing else changed. -/
def IsBlock (m bs ldy : ℕ) (f : ℕ → ℕ → K) (y z : Arr K) : Prop :=
  z.len = y.len ∧ (∀ i < m, ∀ k < bs, z.get (i * ldy + k) = f i k) ∧
    ∀ p, (∀ i < m, ∀ k < bs, p ≠ i * ldy + k) → z.get p = y.get p

/-- An `r × bs` block of leading dimension `ld` fits in the array. -/
def Fits (r bs ld : ℕ) (x : Arr K) : Prop := ∀ i < r, i * ld + bs ≤ x.len

end Verif.Sparse
