import Verif.Core.FP
import Verif.Core.Arr
import Mathlib.Algebra.BigOperators.Group.Finset.Basic

/-!
# Delayed-reduction bounds

Model of the functions deciding how many products may be accumulated before a modular reduction.
All `double`/`float` operations are rounded (`rnd`), in the order in which the code performs them.
-/

namespace Verif.Bounds
open Verif Verif.FP

/-- `computeFactorClassic` (fflas_bounds.inl:42-71): `p-1`, or `(p-1) >> 1` for
`ModularBalanced<double>` and `ModularBalanced<float>`; converted to double. -/
def computeFactorClassic (balanced : Bool) (p : ℕ) : ℚ :=
  if balanced then rnd 53 (((p - 1) / 2 : ℕ) : ℚ) else rnd 53 ((p - 1 : ℕ) : ℚ)

/-- `F.mOne` of Givaro's `Modular` (positive) and `ModularBalanced`. -/
def mOne (balanced : Bool) (p : ℕ) : ℤ := if balanced then -1 else p - 1

/-- `DotProdBoundClassic` (fflas_bounds.inl:73-108).  `beta` is the representative stored in the field
element (in `[0,p)` or balanced); `F.mOne` is stored as `p-1` or `-1`; `L` is
`limits<Element>::max()` and `sizeMax` the largest `size_t`.  A division by `c*c = 0` gives an infinity
in the code, whose conversion to `uint64_t` is undefined: fault `divZero`. -/
def dotProdBoundClassic (sizeMax : ℕ) (balanced : Bool) (p : ℕ) (L : ℤ) (beta : ℤ) :
    Except Fault ℕ :=
  if p = 0 then .ok sizeMax
  else
    let c := computeFactorClassic balanced p
    let cplt : ℚ := if beta = 0 then 0 else if beta = 1 ∨ beta = mOne balanced p then c else rnd 53 (|rnd 53 (beta : ℚ)| * c)
    let num := rnd 53 (rnd 53 (rnd 53 (L : ℚ) + 1) - cplt)
    let den := rnd 53 (c * c)
    if den = 0 then .error .divZero
    else
      let kmax := ⌊rnd 53 (num / den)⌋
      if kmax ≤ 1 then .ok 1 else .ok (min kmax.toNat (2 ^ 31))

/-- The loop of `TRSMBound (Modular<Element>)` (fflas_bounds.inl:185-192), at most `fuel` more tests.
Running out of fuel (a loop that does not stop) is `none`. -/
def trsmLoopPos (p : ℕ) (L : ℤ) : ℕ → ℚ → ℚ → ℕ → Option ℕ
  | 0, _, _, _ => none
  | fuel+1, p1, p2, nmax =>
    if rnd 53 (rnd 53 (p1 + p2) * (((p : ℚ) - 1) / 2)) ≤ (L : ℚ) then
      trsmLoopPos p L fuel (rnd 53 (p1 * p)) (rnd 53 (p2 * ((p : ℚ) - 2))) (nmax + 1)
    else some nmax

/-- `TRSMBound (Modular<Element>)` (fflas_bounds.inl:177-194), `L = limits<Element>::max()`.
Simplification: `p`, `p-2` and `(p-1)/2` are exact (they are for `p ≤ 2^53`). -/
def trsmBoundPos (fuel p : ℕ) (L : ℤ) : Option ℕ := (trsmLoopPos p L fuel 1 1 0).map (max 1)

/-- The loop of `TRSMBound (ModularBalanced<Element>)` (fflas_bounds.inl:208-216). -/
def trsmLoopBal (p : ℕ) (L : ℤ) : ℕ → ℚ → ℕ → Option ℕ
  | 0, _, _ => none
  | fuel+1, p1, nmax =>
    if rnd 53 ((((p - 1) / 2 : ℕ) : ℚ) * p1) ≤ (L : ℚ) then
      trsmLoopBal p L fuel (rnd 53 (p1 * (((p + 1) / 2 : ℕ) : ℚ))) (nmax + 1)
    else some nmax

/-- `TRSMBound (ModularBalanced<Element>)` (fflas_bounds.inl:202-218). -/
def trsmBoundBal (fuel p : ℕ) (L : ℤ) : Option ℕ := (trsmLoopBal p L fuel 1 0).map (max 1)

/-- A closed interval of integers (`Amin`, `Amax`, … of `MMHelper`). -/
structure Itv where
  lo : ℤ
  hi : ℤ
  deriving DecidableEq, Repr

/-- `std::max(-Xmin, Xmax)`. -/
def Itv.mag (I : Itv) : ℤ := max (-I.lo) I.hi

/-- The bounds carried by `MMHelper` (fflas_helpers.inl:155-169). -/
structure Helper where
  F : Itv
  A : Itv
  B : Itv
  C : Itv
  Out : Itv
  maxStorable : ℤ
  deriving Repr

/-- `MMHelper::MaxDelayedDim` (fflas_helpers.inl:172-195) when the delayed field is `double` (`prec = 53`)
or `float` (`prec = 24`): every operation is rounded.  `diff/AB` with `AB = 0` is an infinity whose
conversion to `size_t` is undefined: fault. -/
def maxDelayedDimF (prec sizeMax : ℕ) (H : Helper) (beta : ℤ) : Except Fault ℕ :=
  if H.maxStorable < 0 then .ok sizeMax
  else
    let absbeta : ℚ := if beta < 0 then -(beta : ℚ) else beta
    let diff := rnd prec (H.maxStorable - rnd prec (absbeta * H.C.mag))
    let AB := rnd prec ((H.A.mag : ℚ) * H.B.mag)
    if diff < 0 ∨ AB < 0 then .ok 0
    else if AB = 0 then .error .divZero
    else .ok ⌊rnd prec (diff / AB)⌋.toNat

/-- `MMHelper::MaxDelayedDim` when the delayed field has exact (integer) elements: `/` truncates.
Simplification: machine integers do not wrap around. -/
def maxDelayedDimZ (sizeMax : ℕ) (H : Helper) (beta : ℤ) : Except Fault ℕ :=
  if H.maxStorable < 0 then .ok sizeMax
  else
    let diff := H.maxStorable - |beta| * H.C.mag
    let AB := H.A.mag * H.B.mag
    if diff < 0 ∨ AB < 0 then .ok 0
    else if AB = 0 then .error .divZero
    else .ok (min (diff / AB).toNat sizeMax)

/-- `MMHelper::setOutBounds` (fflas_helpers.inl:198-214), over exact integers. -/
def setOutBounds (H : Helper) (k : ℕ) (alpha beta : ℤ) : Helper :=
  let o : Itv := if beta < 0 then ⟨beta * H.C.hi, beta * H.C.lo⟩ else ⟨beta * H.C.lo, beta * H.C.hi⟩
  let mn := min (H.A.lo * H.B.hi) (H.A.hi * H.B.lo)
  let mx := max (H.A.lo * H.B.lo) (H.A.hi * H.B.hi)
  if alpha > 0 then { H with Out := ⟨o.lo + k * alpha * mn, o.hi + k * alpha * mx⟩ }
  else { H with Out := ⟨o.lo + k * alpha * mx, o.hi + k * alpha * mn⟩ }

/-- Result of the `NeedPre*Reduction` functions: the returned flag ("reduce the operands first"), the
intervals of the operands after the call, the interval of the result. -/
structure Need where
  reduce : Bool
  op1 : Itv
  op2 : Itv
  out : Itv
  deriving DecidableEq, Repr

/-- `NeedPreAddReduction` for `LazyTag` (fflas_fgemm.inl:100-117), over exact integers. -/
def needPreAdd (F : Itv) (maxS : ℤ) (o1 o2 : Itv) : Need :=
  if maxS - o1.hi < o2.hi ∨ maxS + o1.lo < -o2.lo then ⟨true, F, F, ⟨2 * F.lo, 2 * F.hi⟩⟩
  else ⟨false, o1, o2, ⟨o1.lo + o2.lo, o1.hi + o2.hi⟩⟩

/-- `NeedPreSubReduction` for `LazyTag` (fflas_fgemm.inl:130-147), over exact integers. -/
def needPreSub (F : Itv) (maxS : ℤ) (o1 o2 : Itv) : Need :=
  if maxS - o1.hi < -o2.lo ∨ maxS - o2.hi < -o1.lo then ⟨true, F, F, ⟨F.lo - F.hi, -(F.lo - F.hi)⟩⟩
  else ⟨false, o1, o2, ⟨o1.lo - o2.hi, o1.hi - o2.lo⟩⟩

/-- `NeedDoublePreAddReduction` for `LazyTag` (fflas_fgemm.inl:162-181): decides for `op1 + beta*op2`
whether `op1` must be reduced (`op2` is not).  Over exact integers. -/
def needDoublePreAdd (F : Itv) (maxS : ℤ) (o1 o2 : Itv) (beta : ℤ) : Need :=
  let lo := min (beta * o2.lo) (beta * o2.hi)
  let hi := max (beta * o2.lo) (beta * o2.hi)
  if o1.hi > maxS - hi ∨ -o1.lo > maxS + lo then ⟨true, F, o2, ⟨lo + F.lo, hi + F.hi⟩⟩
  else ⟨false, o1, o2, ⟨lo + o1.lo, hi + o1.hi⟩⟩

/-- `NeedPreAxpyReduction` for `LazyTag` (fflas_fsyrk_strassen.inl:76-116): `op1 + x*op2`.  The quotients are
rounded floating-point quotients; the other operations are exact in the ranges considered.  In floating
point a division by `x = 0` gives an infinity (or NaN) and both comparisons are false. -/
def needPreAxpy (prec : ℕ) (F : Itv) (maxS : ℤ) (o1 o2 : Itv) (x : ℤ) : Need :=
  if x < 0 then
    if (o2.lo : ℚ) < rnd prec (((maxS - o1.hi : ℤ) : ℚ) / x) ∨ (o2.hi : ℚ) > rnd prec (((-maxS - o1.lo : ℤ) : ℚ) / x)
    then ⟨true, F, F, ⟨F.lo + x * F.hi, F.hi + x * F.lo⟩⟩
    else ⟨false, o1, o2, ⟨o1.lo + x * o2.hi, o1.hi + x * o2.lo⟩⟩
  else
    if x ≠ 0 ∧ ((o2.hi : ℚ) > rnd prec (((maxS - o1.hi : ℤ) : ℚ) / x) ∨ (o2.lo : ℚ) < rnd prec (((-maxS - o1.lo : ℤ) : ℚ) / x))
    then ⟨true, F, F, ⟨(x + 1) * F.lo, (x + 1) * F.hi⟩⟩
    else ⟨false, o1, o2, ⟨o1.lo + x * o2.lo, o1.hi + x * o2.hi⟩⟩

end Verif.Bounds
