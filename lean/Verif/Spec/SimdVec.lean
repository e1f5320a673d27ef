import Mathlib.Data.Int.Basic

/-!
# Canonical representatives
-/

namespace Verif

/-- The representative of `z` modulo `p` in `[mn, mn + p)`: `mn = 0` for `Modular`, `mn = -(p-1)/2` for
`ModularBalanced`. -/
def canon (p : ℕ) (mn z : ℤ) : ℤ := mn + (z - mn) % p

/-- Entry `(i, j)` belongs to the triangle `UpLo` (diagonal included). -/
def inTri (upper : Bool) (i j : ℕ) : Prop := if upper then i ≤ j else j ≤ i

instance (upper : Bool) (i j : ℕ) : Decidable (inTri upper i j) := by unfold inTri; infer_instance

end Verif
