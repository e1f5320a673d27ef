import Verif.Core.FP

/-!
# Modular reduction of machine words

Model of the scalar reductions in `/repo/fflas-ffpack/fflas/fflas_freduce.inl`.  Every floating-point
operation is followed by a rounding `rnd prec` (`prec = 24` for `float`, `53` for `double`); `floor` of
a floating-point number is exact.  Simplification: no fused multiply-add contraction; the SIMD kernels
(`Simd*::mod`) perform the same operations lane by lane and are not modelled separately.
-/

namespace Verif.Reduce
open Verif.FP

/-- `reduce(T A, T B, T invB, T min, T max)` for `T = float` (lines 61-69) and `T = double`
(lines 71-80). -/
def reduceF (prec : ℕ) (A B invB min max : ℚ) : ℚ :=
  let Q := rnd prec (A * invB)
  let Q : ℤ := ⌊Q⌋
  let A := rnd prec (A - rnd prec (Q * B))
  let A := if A < min then rnd prec (A + B) else A
  if A > max then rnd prec (A - B) else A

/-- `HelperMod<Field, MachineFloatTag>` (lines 130-147) followed by `reduce` (lines 328-333): `invp` is
the rounded inverse, `min` and `max` are the extremal elements of the field. -/
def reduceHelperF (prec : ℕ) (p : ℕ) (min max : ℤ) (A : ℚ) : ℚ :=
  reduceF prec A p (rnd prec (1 / p)) min max

/-- `reduce(int64_t A, int64_t p, double invp, double min, double max, int64_t pow50rem)`, lines 82-93,
with the constants of `HelperMod<Field, MachineIntTag>` (lines 105-128).  `A >> 50` is the arithmetic
shift and `A & 0x3FFFFFFFFFFFF` the low 50 bits, i.e. Euclidean quotient and remainder by `2^50`.
The conversions to `double` round; the final conversion to `int64_t` is exact on integers. -/
def reduce64 (p : ℕ) (min max : ℤ) (A : ℤ) : ℚ :=
  let Aq50 := A / 2 ^ 50
  let Ar50 := A % 2 ^ 50
  let pow50rem : ℤ := 2 ^ 50 % p
  let Aeq := Aq50 * pow50rem + Ar50
  reduceHelperF 53 p min max (rnd 53 Aeq)

/-- C++ `%` on integers: remainder of the truncated division (line 52). -/
def reduceT (A B : ℤ) : ℤ := A.tmod B

/-- `reduce(Element A, HelperMod<Field, MachineIntTag|ArbitraryPrecIntTag>)` (lines 308-326, 335-348)
through `A % p`, then adjusted to the field's interval. -/
def reduceInt (balanced : Bool) (p : ℕ) (min max : ℤ) (A : ℤ) : ℤ :=
  let r := reduceT A p
  let r := if !balanced then r else (if r > max then r - p else r)
  if r < min then r + p else r

end Verif.Reduce
