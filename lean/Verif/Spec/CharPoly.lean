import Verif.Spec.Mat
import Mathlib.LinearAlgebra.Matrix.Charpoly.Basic
import Mathlib.LinearAlgebra.Matrix.Charpoly.Coeff

/-!
# Characteristic polynomials

The polynomials of the library are vectors of coefficients; here is the polynomial of Mathlib they stand for.
-/

namespace Verif.Spec

open Polynomial

variable {K : Type} [Field K]

/-- the polynomial with the given coefficients, constant term first -/
noncomputable def polyOf (l : List K) : K[X] := l.foldr (fun a p => C a + X * p) 0

/-- the characteristic polynomial of the `n × n` matrix with entries `f i j` -/
noncomputable def chi (n : ℕ) (f : ℕ → ℕ → K) : K[X] := (toMat n n f).charpoly

/-- the product of the polynomials of a list -/
noncomputable def prodOf (l : List (List K)) : K[X] := (l.map polyOf).prod

end Verif.Spec
