import Verif.Core.Arr
import Mathlib.Algebra.BigOperators.Group.Finset.Basic
import Mathlib.Algebra.Ring.Basic

/-!
# Specification of sparse products

A sparse matrix is given by coordinate triples `(row t, col t, dat t)`, `t < nnz`; duplicates are summed.
-/

namespace Verif.Sparse
open Finset
variable {K : Type}

/-- Well-formed coordinate triples of an `m × n` matrix. -/
structure Trip (m n nnz : ℕ) (row col : Arr ℕ) (dat : Arr K) : Prop where
  rlen : nnz ≤ row.len
  clen : nnz ≤ col.len
  dlen : nnz ≤ dat.len
  rlt : ∀ t < nnz, row.get t < m
  clt : ∀ t < nnz, col.get t < n

/-- rows in nondecreasing order -/
def SortedRows (row : Arr ℕ) (n : ℕ) : Prop := ∀ s t, s ≤ t → t < n → row.get s ≤ row.get t

/-- `(A x)_i` for the matrix of the triples (duplicates summed). -/
def rowDot [CommRing K] (nnz : ℕ) (row col : Arr ℕ) (dat x : Arr K) (i : ℕ) : K :=
  ∑ t ∈ range nnz, if row.get t = i then dat.get t * x.get (col.get t) else 0

end Verif.Sparse
