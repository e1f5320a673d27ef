import Verif.Core.Enums
import Mathlib.Algebra.BigOperators.Group.Finset.Basic
import Mathlib.Algebra.Ring.Basic

/-!
# Linear algebra vocabulary used to state properties

Matrices are functions `ℕ → ℕ → K`; dimensions are given where the matrix is used.  Nothing here refers to the models.
-/

namespace Verif.Spec

open Finset

variable {K : Type}

/-- `op(A)` -/
def op (t : Tr) (A : ℕ → ℕ → K) : ℕ → ℕ → K := match t with
  | .no => A
  | .yes => fun i j => A j i

/-- product with inner dimension `k` -/
def mul [CommRing K] (k : ℕ) (A B : ℕ → ℕ → K) : ℕ → ℕ → K := fun i j => ∑ l ∈ range k, A i l * B l j

/-- The triangular matrix stored in `A`: the other triangle is read as zero and, for a unit diagonal, the diagonal as
one. -/
def tri [CommRing K] (u : Uplo) (d : Diag) (A : ℕ → ℕ → K) : ℕ → ℕ → K := fun i j =>
  if i = j then (match d with | .unit => 1 | .nonUnit => A i i)
  else match u with
    | .lower => if j < i then A i j else 0
    | .upper => if i < j then A i j else 0

/-- order of a triangular matrix applied to an `M × N` matrix on the given side -/
def sideDim (s : Side) (M N : ℕ) : ℕ := match s with
  | .left => M
  | .right => N

/-- `T X` or `X T`, `T` of order `n` -/
def sideMul [CommRing K] (s : Side) (n : ℕ) (T X : ℕ → ℕ → K) : ℕ → ℕ → K := match s with
  | .left => mul n T X
  | .right => mul n X T

/-- the stored entries of a triangular matrix: the strict triangle, and the diagonal unless it is a unit diagonal -/
def inTri (u : Uplo) (d : Diag) (i j : ℕ) : Prop :=
  (match u with
    | .lower => j < i
    | .upper => i < j) ∨ (i = j ∧ d = .nonUnit)

/-- identity matrix -/
def one [CommRing K] : ℕ → ℕ → K := fun i j => if i = j then 1 else 0

end Verif.Spec
