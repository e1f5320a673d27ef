import Mathlib.Data.Int.Basic
import Mathlib.Tactic.Linarith
import Mathlib.Tactic.NormNum
import Mathlib.Tactic.Ring
import Mathlib.Algebra.Order.Ring.Int

/-!
# `limits` and `in_range`

Model of `/repo/fflas-ffpack/utils/flimits.h`, integer types only (two's complement of any width).
-/

namespace Verif.Limits

/-- A C++ integer type: signedness and width. -/
structure IntTy where
  signed : Bool
  bits : ℕ

/-- `limits<T>::min()`, lines 43-120. -/
def IntTy.min (T : IntTy) : ℤ := if T.signed then -2 ^ (T.bits - 1) else 0
/-- `limits<T>::max()`, lines 43-120. -/
def IntTy.max (T : IntTy) : ℤ := if T.signed then 2 ^ (T.bits - 1) - 1 else 2 ^ T.bits - 1

/-- `static_cast<T>(e)`: reduction modulo `2^bits` into the range of `T`. -/
def IntTy.cast (T : IntTy) (e : ℤ) : ℤ :=
  let r := e % 2 ^ T.bits
  if T.signed ∧ 2 ^ (T.bits - 1) ≤ r then r - 2 ^ T.bits else r

/-- `in_range<T,E>(e)`, lines 168-187: one overload per combination of signedness.  Comparisons between
operands of equal signedness compare values. -/
def inRange (T E : IntTy) (e : ℤ) : Bool :=
  if T.signed = E.signed then decide (T.min ≤ e) && decide (e ≤ T.max)
  else if T.signed then decide (e ≤ E.cast T.max)
  else decide (0 ≤ e) && decide (T.cast e ≤ T.max)

end Verif.Limits
