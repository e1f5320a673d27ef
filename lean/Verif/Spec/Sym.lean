import Verif.Spec.LinAlg

/-!
# Symmetric matrices stored in one triangle
-/

namespace Verif.Spec

/-- the triangle selected by `FflasUpper` or `FflasLower`, diagonal included -/
def inHalf (u : Uplo) (i j : ℕ) : Prop := match u with
  | .upper => i ≤ j
  | .lower => j ≤ i

instance (u : Uplo) (i j : ℕ) : Decidable (inHalf u i j) := by
  unfold inHalf; cases u <;> infer_instance

/-- `tb i` marks a block of size 2 starting at `i`, unless `i` is itself the second row of a block: is `i` the second row of a block? -/
def second (tb : ℕ → Bool) : ℕ → Bool
  | 0 => false
  | i+1 => !second tb i && tb i

/-- the row exchanged with row `i` by the block diagonal matrix `Δ` with blocks `(1)` and `(0 1; 1 0)` -/
def partner (tb : ℕ → Bool) (i : ℕ) : ℕ :=
  if second tb i then i - 1 else if tb i then i + 1 else i

/-- the first row of the block of `i` -/
def lead (tb : ℕ → Bool) (i : ℕ) : ℕ := if second tb i then i - 1 else i

/-- the blocks of size 2 lie within the first `k` rows -/
def Fits (tb : ℕ → Bool) (k : ℕ) : Prop := ∀ i < k, second tb i = false → tb i = true → i + 1 < k

end Verif.Spec
