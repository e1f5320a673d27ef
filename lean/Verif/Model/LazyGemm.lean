import Verif.Model.Bounds
import Mathlib.Data.ZMod.Basic

/-!
# Classical matrix product with delayed reductions

`fgemm` over `Modular<double|float>` / `ModularBalanced<double|float>` computes every entry of the product by
blocks of floating-point dot products separated by modular reductions.  All the control flow (block sizes,
intervals) is the same for every entry of `C`, so the model follows one entry `(i,j)`: `a l`, `b l` are the
`k` entries of row `i` of `op(A)` and of column `j` of `op(B)`, `c` is `C[i,j]`.
-/

namespace Verif.Lazy
open Verif Verif.FP Verif.Bounds

/-- A finite prime field in floating-point representation: modulus, smallest representative
(`0` or `-(p-1)/2`), mantissa size of the element type. -/
structure FpField where
  p : ℕ
  lo : ℤ
  prec : ℕ

namespace FpField
/-- `F.minElement()`, `F.maxElement()`. -/
def itv (F : FpField) : Itv := ⟨F.lo, F.lo + F.p - 1⟩

/-- `F.reduce`: the representative in `[lo, lo+p)`.  Simplification: exact here; the rounding of the
actual floating-point reduction is the object of C35. -/
def red (F : FpField) (x : ℤ) : ℤ := F.lo + (x - F.lo) % F.p

/-- `F.one` and `F.mOne` as stored. -/
def one (F : FpField) : ℤ := F.red 1
def mOne (F : FpField) : ℤ := F.red (-1)

/-- `F.div` (for a non-zero divisor). -/
def div (F : FpField) (x y : ℤ) : ℤ := F.red (x * ((y : ZMod F.p)⁻¹).val)
end FpField

/-- An order of evaluation of `beta*c + t_0 + ... + t_{k-1}` (leaf `none` is the term `beta*c`): BLAS may add the
terms in any order and association. -/
inductive SumTree where
  | leaf (t : Option ℕ)
  | node (l r : SumTree)
  deriving Repr

def SumTree.leaves : SumTree → List (Option ℕ)
  | .leaf t => [t]
  | .node l r => l.leaves ++ r.leaves

/-- The schedule sums every term of a dot product of length `k` exactly once. -/
def SumTree.Covers (t : SumTree) (k : ℕ) : Prop := t.leaves.Perm (none :: (List.range k).map some)

/-- A floating-point result: exact when at most `2^prec`, otherwise the fault `inexact`. -/
def chk (prec : ℕ) (v : ℤ) : Except Fault ℤ := if |v| ≤ 2 ^ prec then .ok v else .error .inexact

/-- Evaluation of the sum in the order given by the tree, every intermediate value checked. -/
def SumTree.eval (prec : ℕ) (v : Option ℕ → ℤ) : SumTree → Except Fault ℤ
  | .leaf t => chk prec (v t)
  | .node l r => do
    let x ← l.eval prec v
    let y ← r.eval prec v
    chk prec (x + y)

/-- `cblas_?gemm` on one entry: `beta*c + alpha * ∑_{l<k} a l * b l` in floating point
(fgemm_classical.inl:247-290). -/
def kernel (prec : ℕ) (tree : SumTree) (alpha : ℤ) (a b : ℕ → ℤ) (beta c : ℤ) : Except Fault ℤ :=
  tree.eval prec (fun t => match t with | none => beta * c | some l => alpha * (a l * b l))

/-- `Helper` for reduced operands (fflas_helpers.inl:286-298), `MaxStorableValue = 2^prec - 1`. -/
def initHelper (F : FpField) : Helper := ⟨F.itv, F.itv, F.itv, F.itv, ⟨0, 0⟩, 2 ^ F.prec - 1⟩

/-- `X.lo < F.lo || X.hi > F.hi`. -/
def Itv.exceeds (X F : Itv) : Bool := decide (X.lo < F.lo) || decide (X.hi > F.hi)

/-- fgemm with `LazyTag` (fgemm_classical.inl:47-175).  `sched i n` is the summation order used by the `i`-th call
of the BLAS kernel, on `n` products (call 0 is the remainder block).  Returns the (unreduced) entry and its declared interval.
The fallback without any delayed block (line 102) is computed over the field. -/
def fgemmLazy (F : FpField) (sizeMax : ℕ) (H : Helper) (sched : ℕ → ℕ → SumTree) (k : ℕ) (alpha : ℤ) (a b : ℕ → ℤ)
    (beta c : ℤ) : Except Fault (ℤ × Itv) := do
  let alphadf : ℤ := if alpha = F.mOne then -1 else 1
  let betadf0 : ℤ := if alpha = F.mOne ∨ alpha = F.one then beta else F.div beta alpha
  let betadf : ℤ := if betadf0 = F.mOne then -1 else betadf0
  let kmax0 ← maxDelayedDimF F.prec sizeMax H betadf
  -- "Might as well reduce inputs"
  let redA := kmax0 ≤ k / 2 ∧ Itv.exceeds H.A F.itv
  let redB := kmax0 ≤ k / 2 ∧ Itv.exceeds H.B F.itv
  let redC := kmax0 ≤ k / 2 ∧ Itv.exceeds H.C F.itv
  let a := if redA then fun l => F.red (a l) else a
  let b := if redB then fun l => F.red (b l) else b
  let c := if redC then F.red c else c
  let H1 : Helper := { H with
    A := if redA then F.itv else H.A
    B := if redB then F.itv else H.B
    C := if redC then F.itv else H.C }
  let kmax ← (if kmax0 ≤ k / 2 then maxDelayedDimF F.prec sizeMax H1 betadf else .ok kmax0)
  if kmax = 0 then
    .ok (F.red (alpha * (∑ l ∈ Finset.range k, a l * b l) + beta * c), F.itv)
  else
    let k2 := min k kmax
    let remblock := if k % kmax = 0 then kmax else k % kmax
    let nblock ← (if k % kmax = 0 then usub (k / kmax) 1 else .ok (k / kmax))
    let c0 ← kernel F.prec (sched 0 remblock) alphadf (fun l => a (nblock * k2 + l)) (fun l => b (nblock * k2 + l)) betadf c
    let Hfp := setOutBounds H1 remblock alphadf betadf
    let r ← iter nblock (fun i (s : ℤ × Helper) => do
      let c1 := F.red s.1
      let Hi : Helper := { s.2 with C := F.itv }
      let c2 ← kernel F.prec (sched (i + 1) k2) alphadf (fun l => a (i * k2 + l)) (fun l => b (i * k2 + l)) 1 c1
      .ok (c2, setOutBounds Hi k2 alphadf 1)) (c0, Hfp)
    if alpha = F.mOne ∨ alpha = F.one then .ok (r.1, r.2.Out)
    else
      -- scaling by alpha over the delayed field, after a reduction when it might not fit
      let big := (r.2.Out.mag : ℚ) > rnd F.prec ((H.maxStorable : ℚ) / |alpha|)
      let c1 := if big then F.red r.1 else r.1
      let O := if big then F.itv else r.2.Out
      let c2 ← chk F.prec (alpha * c1)
      .ok (c2, if alpha > 0 then ⟨alpha * O.lo, alpha * O.hi⟩ else ⟨alpha * O.hi, alpha * O.lo⟩)

/-- `ScalAndReduce` (fflas_fgemm.inl:215-234) on one entry. -/
def scalAndReduce (F : FpField) (alpha : ℤ) (c : ℤ) (out : Itv) : Except Fault ℤ :=
  if alpha = F.one ∨ alpha = F.mOne then .ok (F.red c)
  else if (out.mag : ℚ) > rnd F.prec (((2 ^ F.prec - 1 : ℤ) : ℚ) / |alpha|) then .ok (F.red (alpha * F.red c))
  else do
    let c ← chk F.prec (alpha * c)
    .ok (F.red c)

/-- fgemm with `DelayedTag` when it does not convert and does not recurse (fflas_fgemm.inl:382-438): early exits,
division by `alpha`, lazy product, scaling and reduction. -/
def fgemmDelayed (F : FpField) (sizeMax : ℕ) (sched : ℕ → ℕ → SumTree) (k : ℕ) (alpha : ℤ) (a b : ℕ → ℤ)
    (beta c : ℤ) : Except Fault ℤ :=
  if k = 0 ∨ alpha = 0 then .ok (F.red (beta * c))
  else do
    let alpha1 := if alpha ≠ F.one ∧ alpha ≠ F.mOne then F.one else alpha
    let beta1 := if alpha ≠ F.one ∧ alpha ≠ F.mOne then F.div beta alpha else beta
    let r ← fgemmLazy F sizeMax (initHelper F) sched k alpha1 a b beta1 c
    scalAndReduce F alpha r.1 r.2

end Verif.Lazy
