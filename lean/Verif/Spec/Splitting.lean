import Verif.Model.BlockCuts

/-!
# Specification of loop splitting

Independent of how the splitters work: only the produced list of ranges is inspected.
-/

namespace Verif.Spec.Splitting

/-- Every index below `n` lies in exactly one of the half-open ranges and no other index lies in
any of them. -/
def ExactCover (ranges : List (ℕ × ℕ)) (n : ℕ) : Prop :=
  ∀ i, (ranges.countP (fun r => decide (r.1 ≤ i ∧ i < r.2))) = if i < n then 1 else 0

/-- Every entry of the `m × n` matrix lies in exactly one tile, and no other pair in any. -/
def ExactTiling (tiles : List BlockCuts.Tile) (m n : ℕ) : Prop :=
  ∀ i j, (tiles.countP (fun t => decide ((t.i0 ≤ i ∧ i < t.i1) ∧ (t.j0 ≤ j ∧ j < t.j1))))
    = if i < m ∧ j < n then 1 else 0

/-- Consecutive ranges touch: each starts where the previous one ends, the first starts at `a`. -/
def Consecutive : ℕ → List (ℕ × ℕ) → Prop
  | _, [] => True
  | a, r :: rs => r.1 = a ∧ Consecutive r.2 rs

end Verif.Spec.Splitting
