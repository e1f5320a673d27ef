import Verif.Spec.LinAlg

/-!
# Linear systems with a matrix of right-hand sides, null spaces
-/

namespace Verif.Spec

open Finset

variable {K : Type} [CommRing K]

/-- `A Z = B` (left) or `Z A = B` (right) for `A` of size `M × N` and `c` right-hand sides -/
def IsSolution (s : Side) (M N c : ℕ) (A B Z : ℕ → ℕ → K) : Prop := match s with
  | .left => ∀ i < M, ∀ j < c, mul N A Z i j = B i j
  | .right => ∀ i < c, ∀ j < N, mul M Z A i j = B i j

/-- `info = 0` and `Z` is a solution, or `info = 1` and there is none -/
def Answer (s : Side) (M N c : ℕ) (A B Z : ℕ → ℕ → K) (info : ℕ) : Prop :=
  (info = 0 ∧ IsSolution s M N c A B Z) ∨ (info = 1 ∧ ∀ Z', ¬ IsSolution s M N c A B Z')

/-- The columns of the `N × d` matrix `B` are a basis of the vectors `x` with `A x = 0`: the vectors are the combinations of the
columns, each in one way only. -/
def IsNullBasis (M N d : ℕ) (A B : ℕ → ℕ → K) : Prop :=
  (∀ x : ℕ → K, (∀ i < M, ∑ j ∈ range N, A i j * x j = 0) ↔ ∃ y : ℕ → K, ∀ j < N, x j = ∑ c ∈ range d, B j c * y c) ∧
  ∀ y : ℕ → K, (∀ j < N, ∑ c ∈ range d, B j c * y c = 0) → ∀ c < d, y c = 0

end Verif.Spec
