import Mathlib.Data.Int.Basic

/-!
# What the integer SIMD operations promise

The notation of the comments of `/repo/fflas-ffpack/fflas/fflas_simd`: signed and unsigned values
of a lane, `smod`, and the masks returned by comparisons.
-/

namespace Verif.SimdInt

/-- `a smod p` of the comments ("the signed representant of `a` modulo `p`, that is
`-p/2 <= (a smod p) < p/2`"), for `p = 2^h`. -/
def smod (a : ℤ) (h : ℕ) : ℤ := (a + 2 ^ h / 2) % 2 ^ h - 2 ^ h / 2

/-- `P ? 0xFF..FF : 0`. -/
def maskOf (w : ℕ) (P : Prop) [Decidable P] : BitVec w := if P then BitVec.allOnes w else 0

end Verif.SimdInt
