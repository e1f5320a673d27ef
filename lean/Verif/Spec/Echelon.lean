import Verif.Spec.LinAlg
import Verif.Spec.Perm

/-!
# Reduced row echelon forms with their transformation, as stored by the library
-/

namespace Verif.Spec

open Finset Verif.Spec.Perm

variable {K : Type} [CommRing K]

/-- The transformation whose columns `rb, …, rb+R-1` are stored in the columns `cb, …, cb+R-1` of `V`; its other columns are those
of the identity matrix. -/
def transOf (rb cb R : ℕ) (V : ℕ → ℕ → K) (i k : ℕ) : K :=
  if rb ≤ k ∧ k < rb + R then V i (cb + (k - rb)) else if i = k then 1 else 0

/-- The reduced form with the unit vectors in the first `R` columns (in the rows `rb, …`), the other columns stored in `V`, and zeros
below row `rb + R`. -/
def reducedOf (rb cb R : ℕ) (V : ℕ → ℕ → K) (i j : ℕ) : K :=
  if j < R then (if i = rb + j then 1 else 0) else if i < rb + R then V i (cb + j) else 0

/-- `V` stores the reduced row echelon form of the `M × N` matrix `X` (up to the order `q` of the columns) and the transformation:
`T · X(p, q) = (I  S; 0  0)` with `T = (V₁₁ 0; V₂₁ I)`, `S = V₁₂`.  The last condition says that the column `q j` does not use
pivots to the right of it. -/
structure IsReduced (M N R : ℕ) (X V : ℕ → ℕ → K) (p q : ℕ → ℕ) : Prop where
  rM : R ≤ M
  rN : R ≤ N
  pP : IsPermArray p M
  pQ : IsPermArray q N
  eq : ∀ i < M, ∀ j < N, ∑ k ∈ range M, transOf 0 0 R V i k * X (p k) (q j) = reducedOf 0 0 R V i j
  mono : ∀ i < R, ∀ j < N, R ≤ j → q j < q i → V i j = 0

/-- The lower triangular transformation stored in the first `R` columns of `V`, completed with columns of the identity matrix. -/
def rowTransOf (R : ℕ) (V : ℕ → ℕ → K) (i k : ℕ) : K := if k < R then tri .lower .nonUnit V i k else if i = k then 1 else 0

/-- The unit upper triangular (trapezoidal) matrix stored in the first `R` rows of `V`, completed with zero rows. -/
def rowEchOf (R : ℕ) (V : ℕ → ℕ → K) (i j : ℕ) : K := if i < R then tri .upper .unit V i j else 0

/-- `V` stores a row echelon form of `X` (up to the order `q` of the columns) and the transformation. -/
structure IsEchelon (M N R : ℕ) (X V : ℕ → ℕ → K) (p q : ℕ → ℕ) : Prop where
  rM : R ≤ M
  rN : R ≤ N
  pP : IsPermArray p M
  pQ : IsPermArray q N
  eq : ∀ i < M, ∀ j < N, ∑ k ∈ range M, rowTransOf R V i k * X (p k) (q j) = rowEchOf R V i j
  inv : ∀ i < R, V i i ≠ 0
  mono : ∀ i < R, ∀ j < N, q j < q i → rowEchOf R V i j = 0

/-- `V` stores the reduced row echelon form of `X` without the transformation: `X(p, q) = L · U · (I S)` with `L`, `U` triangular and
invertible. -/
structure IsReducedNT (M N R : ℕ) (X V : ℕ → ℕ → K) (p q : ℕ → ℕ) : Prop where
  rM : R ≤ M
  rN : R ≤ N
  pP : IsPermArray p M
  pQ : IsPermArray q N
  eq : ∀ i < M, ∀ j < N, X (p i) (q j) =
    ∑ k ∈ range R, tri .lower .nonUnit V i k * ∑ l ∈ range R, tri .upper .unit V k l * reducedOf 0 0 R V l j
  inv : ∀ i < R, V i i ≠ 0
  mono : ∀ i < R, ∀ j < N, R ≤ j → q j < q i → V i j = 0

/-- Row `k` of an echelon form stored in row `k` of `V`, with pivot one in column `q k`: what is left of the pivot is zero, whatever
is stored there. -/
def slabRow (V : ℕ → ℕ → K) (q : ℕ → ℕ) (k j : ℕ) : K := if j < q k then 0 else if j = q k then 1 else V k j

/-- `V` stores a row echelon form of `X` with pivots in the increasing columns `q k`, and the transformation: `T · X(p) = E`. -/
structure IsSlabEchelon (M N R : ℕ) (X V : ℕ → ℕ → K) (p q : ℕ → ℕ) : Prop where
  rM : R ≤ M
  pP : IsPermArray p M
  qN : ∀ k < R, q k < N
  inc : ∀ k l, k < l → l < R → q k < q l
  eq : ∀ i < M, ∀ j < N, ∑ k ∈ range M, rowTransOf R V i k * X (p k) j = if i < R then slabRow V q i j else 0
  inv : ∀ i < R, V i i ≠ 0

/-- `E` is a row echelon form of the `M × N` matrix `X` of rank `r`, with pivots equal to one in the columns `c 0 < c 1 < …`, and `T` is an
invertible matrix with `T · X = E`. -/
structure IsRowEchelonForm (M N r : ℕ) (X T E : ℕ → ℕ → K) (c : ℕ → ℕ) : Prop where
  rM : r ≤ M
  cN : ∀ k < r, c k < N
  inc : ∀ k l, k < l → l < r → c k < c l
  piv : ∀ k < r, E k (c k) = 1
  left : ∀ k < r, ∀ j < c k, E k j = 0
  below : ∀ i < M, r ≤ i → ∀ j < N, E i j = 0
  eq : ∀ i < M, ∀ j < N, ∑ k ∈ range M, T i k * X k j = E i j
  inv : ∃ S : ℕ → ℕ → K, ∀ i < M, ∀ k < M, ∑ l ∈ range M, S i l * T l k = if i = k then 1 else 0

/-- and it is the reduced one: the columns of the pivots are unit vectors -/
structure IsReducedRowEchelonForm (M N r : ℕ) (X T E : ℕ → ℕ → K) (c : ℕ → ℕ) : Prop extends IsRowEchelonForm M N r X T E c where
  red : ∀ i < r, ∀ k < r, E i (c k) = if i = k then 1 else 0

end Verif.Spec
