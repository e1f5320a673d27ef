import Verif.Model.Delayed

/-!
# Delayed products over fields of 64-bit integers

`fgemm` with `LazyTag` over `Modular<int64_t>` and `ModularBalanced<int64_t>`, when the modulus is too large for `double`: the delayed field is
`ZRing<int64_t>`.  One entry at a time, as in `Model/LazyGemm.lean`.

Simplifications: the operands are elements of the field, so the bounds of the helper are those of the field and the reductions of the operands
(fgemm_classical.inl:84-100) are not done; the bounds `Outmin`, `Outmax` are exact integers; Winograd's recursion is not modelled.
The field is an `FpField` whose number of bits is not used.
-/

namespace Verif.Conv

open Verif Verif.FP Verif.Bounds Verif.Lazy Verif.FF

/-- `limits<int64_t>::max()` -/
def max64 : ℤ := 2 ^ 63 - 1

/-- An operation on 64-bit integers; the smallest integer is excluded too. -/
def chk64 (v : ℤ) : Except Fault ℤ := if |v| ≤ max64 then .ok v else .error .inexact

/-- `MaxDelayedDim(beta)` for elements of the field, /repo/fflas-ffpack/fflas/fflas_helpers.inl:172-195. -/
def maxDelayedDim64 (F : FpField) (beta : ℤ) : Except Fault ℕ := do
  let ab ← chk64 (|beta| * F.itv.mag)
  let diff ← chk64 (max64 - ab)
  let AB ← chk64 (F.itv.mag * F.itv.mag)
  if diff < 0 ∨ AB < 0 then pure 0
  else if AB = 0 then .error .divZero
  else pure (diff / AB).toNat

/-- `fgemm` over `ZRing<int64_t>` on one entry: `beta c + alpha ∑ a b` for `alpha = ±1`.  The terms are added in an unknown order: the sum of their
absolute values must fit. -/
def kernel64 (k : ℕ) (alpha : ℤ) (a b : ℕ → ℤ) (beta c : ℤ) : Except Fault ℤ :=
  if |beta * c| + ∑ l ∈ Finset.range k, |alpha * (a l * b l)| ≤ max64 then .ok (beta * c + alpha * ∑ l ∈ Finset.range k, a l * b l)
  else .error .inexact

/-- The blocks, /repo/fflas-ffpack/fflas/fflas_fgemm/fgemm_classical.inl:108-146: the remainder first, a reduction before each further block. -/
def blocks64 (F : FpField) (kmax k : ℕ) (alphadf : ℤ) (a b : ℕ → ℤ) (betadf c : ℤ) : Except Fault (ℤ × Helper) := do
  let k2 := min k kmax
  let remblock := if k % kmax = 0 then kmax else k % kmax
  let nblock ← (if k % kmax = 0 then usub (k / kmax) 1 else .ok (k / kmax))
  let c0 ← kernel64 remblock alphadf (fun l => a (nblock * k2 + l)) (fun l => b (nblock * k2 + l)) betadf c
  let H : Helper := ⟨F.itv, F.itv, F.itv, F.itv, ⟨0, 0⟩, max64⟩
  iter nblock (fun i (s : ℤ × Helper) => do
    let c1 := F.red s.1
    let Hi : Helper := { s.2 with C := F.itv }
    let c2 ← kernel64 k2 alphadf (fun l => a (i * k2 + l)) (fun l => b (i * k2 + l)) 1 c1
    .ok (c2, setOutBounds Hi k2 alphadf 1)) (c0, setOutBounds H remblock alphadf betadf)

/-- `fgemm` with `LazyTag`, /repo/fflas-ffpack/fflas/fflas_fgemm/fgemm_classical.inl:47-175: the entry and its declared interval.  Without any delayed
block the product is computed over the field (line 102). -/
def fgemmLazy64 (F : FpField) (k : ℕ) (alpha : ℤ) (a b : ℕ → ℤ) (beta c : ℤ) : Except Fault (ℤ × Itv) := do
  let alphadf : ℤ := if alpha = F.mOne then -1 else 1
  let betadf0 : ℤ := if alpha = F.mOne ∨ alpha = F.one then beta else F.div beta alpha
  let betadf : ℤ := if betadf0 = F.mOne then -1 else betadf0
  let kmax ← maxDelayedDim64 F betadf
  if kmax = 0 then .ok (F.red (alpha * (∑ l ∈ Finset.range k, a l * b l) + beta * c), F.itv)
  else do
    let r ← blocks64 F kmax k alphadf a b betadf c
    if alpha = F.mOne ∨ alpha = F.one then .ok (r.1, r.2.Out)
    else
      let big := r.2.Out.mag > max64 / |alpha|
      let c1 := if big then F.red r.1 else r.1
      let O := if big then F.itv else r.2.Out
      let c2 ← chk64 (alpha * c1)
      .ok (c2, if alpha > 0 then ⟨alpha * O.lo, alpha * O.hi⟩ else ⟨alpha * O.hi, alpha * O.lo⟩)

/-- `ScalAndReduce` on one entry, /repo/fflas-ffpack/fflas/fflas_fgemm.inl:215-234. -/
def scalAndReduce64 (F : FpField) (alpha : ℤ) (c : ℤ) (out : Itv) : Except Fault ℤ :=
  if alpha = F.one ∨ alpha = F.mOne then .ok (F.red c)
  else if out.mag > max64 / |alpha| then .ok (F.red (alpha * F.red c))
  else do
    let c ← chk64 (alpha * c)
    .ok (F.red c)

/-- `fgemm` with `DelayedTag`, /repo/fflas-ffpack/fflas/fflas_fgemm.inl:423-437. -/
def fgemmEntry64 (F : FpField) (k : ℕ) (alpha : ℤ) (a b : ℕ → ℤ) (beta c : ℤ) : Except Fault ℤ := do
  let alpha1 := if alpha ≠ F.one ∧ alpha ≠ F.mOne then F.one else alpha
  let beta1 := if alpha ≠ F.one ∧ alpha ≠ F.mOne then F.div beta alpha else beta
  let r ← fgemmLazy64 F k alpha1 a b beta1 c
  scalAndReduce64 F alpha r.1 r.2

/-- `fgemv` with `DelayedTag` over 64-bit integers: the call of `fgemm` with `LazyTag` and the reduction, /repo/fflas-ffpack/fflas/fflas_fgemv.inl:155-163. -/
def fgemvEntry64 (F : FpField) (k : ℕ) (alpha : ℤ) (a b : ℕ → ℤ) (beta c : ℤ) : Except Fault ℤ := do
  let r ← fgemmLazy64 F k alpha a b beta c
  pure (F.red r.1)

/-- The product on arrays, entry by entry. -/
def fgemmArr64 (e : ℕ → ℤ → (ℕ → ℤ) → (ℕ → ℤ) → ℤ → ℤ → Except Fault ℤ) (ta tb : Tr) (m n k : ℕ) (alpha : ℤ) (A : Arr ℤ) (lda : ℕ) (B : Arr ℤ) (ldb : ℕ)
    (beta : ℤ) (C : Arr ℤ) (ldc : ℕ) : Except Fault (Arr ℤ) :=
  iter m (fun i => iter n (fun j (C : Arr ℤ) => do
    let c ← C.rd (i * ldc + j)
    let r ← (do
      let a ← rdVec k A (fun l => adr ta lda i l)
      let b ← rdVec k B (fun l => adr tb ldb l j)
      e k alpha a b beta c)
    C.wr (i * ldc + j) r)) C

/-- the field of 64-bit integers -/
def WordField.fp (F : WordField) : FpField := ⟨F.p, F.lo, 63⟩

/-- `fgemm` over `Modular<int64_t>` and `ModularBalanced<int64_t>` with any modulus: the continuation left out of `fgemmDel`. -/
def fgemmI64 (F : WordField) (maxCard : ℕ) (J : ℕ → ℕ → ℤ) (sizeMax : ℕ) (sched : ℕ → ℕ → ℕ → ℕ → SumTree) (ta tb : Tr) (m n k : ℕ) (alpha : ℤ)
    (A : Arr ℤ) (lda : ℕ) (B : Arr ℤ) (ldb : ℕ) (beta : ℤ) (C : Arr ℤ) (ldc : ℕ) : Except Fault (Arr ℤ) := do
  let r ← fgemmDel .int64 F maxCard J sizeMax sched ta tb m n k alpha A lda B ldb beta C ldc
  match r with
  | some C => pure C
  | none => fgemmArr64 (fgemmEntry64 F.fp) ta tb m n k alpha A lda B ldb beta C ldc

/-- `fgemv`, the same. -/
def fgemvI64 (F : WordField) (maxCard : ℕ) (J : ℕ → ℕ → ℤ) (sizeMax : ℕ) (sched : ℕ → ℕ → ℕ → ℕ → SumTree) (ta : Tr) (M N : ℕ) (alpha : ℤ)
    (A : Arr ℤ) (lda : ℕ) (X : Arr ℤ) (incX : ℕ) (beta : ℤ) (Y : Arr ℤ) (incY : ℕ) : Except Fault (Arr ℤ) := do
  let r ← fgemvDel .int64 F maxCard J sizeMax sched ta M N alpha A lda X incX beta Y incY
  match r with
  | some Y => pure Y
  | none => fgemmArr64 (fgemvEntry64 F.fp) ta .no (if ta = .no then M else N) 1 (if ta = .no then N else M) alpha A lda X incX beta Y incY

/-- `fscal(F, N, alpha, y, incy, sY, 1)` -/
def fscal64 (F : WordField) (N : ℕ) (alpha : ℤ) (y : Arr ℤ) (incy : ℕ) (sY : Arr ℤ) : Except Fault (Arr ℤ) :=
  iter N (fun j => iter 1 (fun _ (sY : Arr ℤ) => do
    let v ← (do
      let x ← y.rd (j * incy)
      pure (F.red (alpha * x)))
    sY.wr j v)) sY

/-- `fger`, the same: /repo/fflas-ffpack/fflas/fflas_fger.inl:289-300 and the reduction of the public function (line 43). -/
def fgerI64 (F : WordField) (maxCard : ℕ) (J : ℕ → ℕ → ℤ) (M N : ℕ) (alpha : ℤ) (x : Arr ℤ) (incx : ℕ) (y : Arr ℤ) (incy : ℕ) (A : Arr ℤ)
    (lda : ℕ) : Except Fault (Arr ℤ) := do
  let r ← fgerDel .int64 F maxCard J M N alpha x incx y incy A lda
  match r with
  | some A => pure A
  | none => do
    let sY ← fscal64 F N alpha y incy (Arr.mk' N (J 0))
    let A ← fgemmArr64 (fgemvEntry64 F.fp) .no .no M N 1 F.fp.one x incx sY 1 F.fp.one A lda
    fscalinW F M N 1 A lda

end Verif.Conv
