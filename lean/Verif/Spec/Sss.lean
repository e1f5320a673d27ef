import Verif.Spec.LinAlg

/-!
# Sequentially semi-separable matrices

The matrix described by the generators `P, Q, R, U, V, W, D` of order `s`, as drawn in /repo/fflas-ffpack/ffpack/ffpack.h
(`productSSSxTS`): blocks of order `s`, the last one possibly smaller, `D` on the block diagonal, `P_i R_{i-1} ⋯ R_{j+1} Q_j` below and
`U_i W_{i+1} ⋯ W_{j-1} V_j` above it.  The blocks are stored one below the other; `P`, `R`, `V`, `W` start with the block number 2.
-/

namespace Verif.Spec

open Finset

variable {K : Type} [CommRing K]

/-- the seven stored matrices -/
structure Sss (K : Type) where
  (P Q R U V W D : ℕ → ℕ → K)

/-- `d` factors `R` times the block `b` of `Q` (blocks numbered from 0) -/
def rqChain (G : Sss K) (s b : ℕ) : ℕ → ℕ → ℕ → K
  | 0 => fun i j => G.Q (b * s + i) j
  | d+1 => fun i j => ∑ l ∈ range s, G.R ((b + d) * s + i) l * rqChain G s b d l j

/-- `d` factors `W` times the block of `V` stored at place `b` -/
def wvChain (G : Sss K) (s b : ℕ) : ℕ → ℕ → ℕ → K
  | 0 => fun i j => G.V (b * s + i) j
  | d+1 => fun i j => ∑ l ∈ range s, G.W ((b - (d + 1)) * s + i) l * wvChain G s b d l j

/-- the matrix described by the generators -/
def sssMat (G : Sss K) (s : ℕ) : ℕ → ℕ → K := fun i j =>
  if j / s < i / s then ∑ l ∈ range s, G.P ((i / s - 1) * s + i % s) l * rqChain G s (j / s) (i / s - 1 - j / s) l (j % s)
  else if i / s < j / s then ∑ l ∈ range s, G.U (i / s * s + i % s) l * wvChain G s (j / s - 1) (j / s - 1 - i / s) l (j % s)
  else G.D i (j % s)

end Verif.Spec
