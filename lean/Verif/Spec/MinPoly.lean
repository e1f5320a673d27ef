import Verif.Spec.CharPoly
import Mathlib.LinearAlgebra.Matrix.Charpoly.Minpoly

/-!
# Minimal polynomials
-/

namespace Verif.Spec

open Polynomial Matrix

variable {K : Type} [Field K]

/-- the value at the `n × n` matrix `a` of the polynomial `q`, applied to the vector `v` -/
noncomputable def polyVec (n : ℕ) (a : ℕ → ℕ → K) (v : ℕ → K) (q : K[X]) : Fin n → K := aeval (toMat n n a) q *ᵥ fun i => v i

/-- `p` is the minimal polynomial of the vector `v` for the `n × n` matrix `a`: it is monic, and its multiples are exactly the
polynomials `q` with `q(a) v = 0` -/
def IsMinPolyOf (n : ℕ) (a : ℕ → ℕ → K) (v : ℕ → K) (p : K[X]) : Prop :=
  p.Monic ∧ ∀ q : K[X], polyVec n a v q = 0 ↔ p ∣ q

/-- there is only one -/
lemma IsMinPolyOf.unique {n : ℕ} {a : ℕ → ℕ → K} {v : ℕ → K} {p p' : K[X]} (h : IsMinPolyOf n a v p) (h' : IsMinPolyOf n a v p') : p = p' :=
  eq_of_monic_of_associated h.1 h'.1 (associated_of_dvd_dvd ((h.2 _).1 ((h'.2 _).2 dvd_rfl)) ((h'.2 _).1 ((h.2 _).2 dvd_rfl)))

end Verif.Spec
