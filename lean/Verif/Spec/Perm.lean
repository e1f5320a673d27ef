import Mathlib.Logic.Equiv.Basic
import Mathlib.Algebra.Group.End
import Mathlib.Tactic.SplitIfs

/-!
# What permutation arrays mean

Independent of the model.  A *transposition array* `P` of size `n` (LAPACK format) stands for:
"exchange entries 0 and `P 0`, then 1 and `P 1`, …, then `n-1` and `P (n-1)`".  A *mathematical array*
`M` lists images: the result at position `i` is the original entry `M i`.
-/

namespace Verif.Spec.Perm

/-- The vector `v` after exchanging the entries `i` and `j`. -/
def exchange {α : Type} (v : ℕ → α) (i j : ℕ) : ℕ → α :=
  fun x => if x = i then v j else if x = j then v i else v x

/-- The vector after the first `k` exchanges of the transposition array `P`. -/
def applySwaps {α : Type} (P : ℕ → ℕ) (v : ℕ → α) : ℕ → ℕ → α
  | 0 => v
  | k+1 => exchange (applySwaps P v k) k (P k)

/-- The vector after the exchanges `b, b+1, …, b+k-1` of `P`, in this order. -/
def exchangesUp {α : Type} (P : ℕ → ℕ) (b : ℕ) (v : ℕ → α) : ℕ → ℕ → α
  | 0 => v
  | k+1 => exchange (exchangesUp P b v k) (b + k) (P (b + k))

/-- The vector after the exchanges `e-1, e-2, …, e-k` of `P`, in this order. -/
def exchangesDown {α : Type} (P : ℕ → ℕ) (e : ℕ) (v : ℕ → α) : ℕ → ℕ → α
  | 0 => v
  | k+1 => exchange (exchangesDown P e v k) (e - 1 - k) (P (e - 1 - k))

/-- `P` is a transposition array of size `n`. -/
def IsTranspArray (P : ℕ → ℕ) (n : ℕ) : Prop := ∀ i < n, i ≤ P i ∧ P i < n

/-- `M` lists each of `0..n-1` exactly once. -/
def IsPermArray (M : ℕ → ℕ) (n : ℕ) : Prop := (∀ i < n, M i < n) ∧ ∀ i < n, ∀ j < n, M i = M j → i = j

/-- The vector `w` with the `n` exchanges of `P` performed on its trailing part `w R, w (R+1), …`
(exchange number `i` exchanges entries `R+i` and `R + P i`). -/
def applyTrailing {α : Type} (P : ℕ → ℕ) (w : ℕ → α) (R n : ℕ) : ℕ → α :=
  fun i => if i < R then w i else applySwaps P (fun j => w (R + j)) n (i - R)

/-- The permutation of ℕ realised by the first `k` exchanges: `applySwaps P v k = v ∘ ofSwaps P k`
(`Verif.Spec.Perm.applySwaps_eq`). -/
def ofSwaps (P : ℕ → ℕ) : ℕ → Equiv.Perm ℕ
  | 0 => 1
  | k+1 => ofSwaps P k * Equiv.swap k (P k)

lemma exchange_eq {α : Type} (v : ℕ → α) (i j : ℕ) : exchange v i j = v ∘ Equiv.swap i j := by
  funext x
  simp only [exchange, Function.comp, Equiv.swap_apply_def]
  split_ifs <;> rfl

lemma applySwaps_eq {α : Type} (P : ℕ → ℕ) (v : ℕ → α) (k : ℕ) : applySwaps P v k = v ∘ ofSwaps P k := by
  induction k with
  | zero => rfl
  | succ k ih => simp only [applySwaps, ofSwaps, exchange_eq, ih, Equiv.Perm.coe_mul, Function.comp_assoc]

end Verif.Spec.Perm
