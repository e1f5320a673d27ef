import Verif.Model.Convert

/-!
# Products over the fields of floating-point numbers and of 64-bit integers

`fgemm`, `fgemv` and `fger` over `Modular` and `ModularBalanced` of `float`, `double` and `int64_t` (`ModeCategories::DelayedTag`): the public function,
the choice of the field and the product, on arrays.

Simplifications: those of `Model/Convert.lean`.  The products over fields of 64-bit integers that are too large for `double` are computed with integers;
this continuation is not modelled (the result is `none`).
-/

namespace Verif.Conv

open Verif Verif.FP Verif.Bounds Verif.Lazy Verif.FF

/-- The class of the field.  `double` stands for `Modular<double>` and `ModularBalanced<double>`, `int64` for `Modular<int64_t>` and
`ModularBalanced<int64_t>`. -/
inductive Kind where
  | modFloat
  | balFloat
  | double
  | int64
deriving DecidableEq

/-- The field itself as a field of floating-point numbers. -/
def Kind.native (kd : Kind) (F : WordField) : Option FpField :=
  match kd with
  | .modFloat => some ⟨F.p, F.lo, 24⟩
  | .balFloat => some ⟨F.p, F.lo, 24⟩
  | .double => some ⟨F.p, F.lo, 53⟩
  | .int64 => none

/-- `fgemm` with `DelayedTag`: the other field to which the operands are converted, /repo/fflas-ffpack/fflas/fflas_fgemm.inl:409-422. -/
def gemmField (kd : Kind) (maxCard p : ℕ) : Option FpField :=
  if kd = .modFloat then none
  else if p = 2 then some ⟨2, 0, 24⟩
  else if kd = .balFloat then none
  else if p < 800 then some (balanced p 24)
  else if kd ≠ .double ∧ 16 * p < maxCard then some (balanced p 53)
  else none

/-- `fgemv` with `DelayedTag`, /repo/fflas-ffpack/fflas/fflas_fgemv.inl:142-165.  64-bit integers are converted to `ModularBalanced<double>`, and for
`p < 800` the inner call converts to `ModularBalanced<float>` in turn (lines 142-147): simplified to one conversion of the same elements. -/
def gemvField (kd : Kind) (maxCard p : ℕ) : Option FpField :=
  if kd = .double ∧ p < 800 ∧ p > 2 then some (balanced p 24)
  else if kd = .int64 ∧ 16 * p < maxCard ∧ p > 2 then some (if p < 800 then balanced p 24 else balanced p 53)
  else none

/-- `fger` with `DelayedTag`, /repo/fflas-ffpack/fflas/fflas_fger.inl:285-301. -/
def gerField (kd : Kind) (maxCard p : ℕ) : Option FpField :=
  if kd = .int64 ∧ p < maxCard ∧ p > 2 then some (balanced p 53)
  else none

/-- `fgemm`, public entry (/repo/fflas-ffpack/fflas/fflas_fgemm.inl:320-343), then `DelayedTag` (lines 363-438). -/
def fgemmDel (kd : Kind) (F : WordField) (maxCard : ℕ) (J : ℕ → ℕ → ℤ) (sizeMax : ℕ) (sched : ℕ → ℕ → ℕ → ℕ → SumTree) (ta tb : Tr) (m n k : ℕ) (alpha : ℤ)
    (A : Arr ℤ) (lda : ℕ) (B : Arr ℤ) (ldb : ℕ) (beta : ℤ) (C : Arr ℤ) (ldc : ℕ) : Except Fault (Option (Arr ℤ)) :=
  if m = 0 ∨ n = 0 then pure (some C)
  else if k = 0 ∨ alpha = 0 then do
    let C ← fscalinW F m n beta C ldc
    pure (some C)
  else match gemmField kd maxCard F.p, kd.native F with
    | some G, _ => do
      let C ← fgemmConvert F G J sizeMax sched ta tb m n k alpha A lda B ldb beta C ldc
      pure (some C)
    | none, some G => do
      let C ← fgemmG G sizeMax sched ta tb m n k alpha A lda B ldb beta C ldc
      pure (some C)
    | none, none => pure none

/-- `fgemv`, public entry (/repo/fflas-ffpack/fflas/fflas_fgemv.inl:337-362), then `DelayedTag` (lines 118-182) and `LazyTag` (lines 222-333), which do
for each entry of `Y` what `fgemm` does. -/
def fgemvDel (kd : Kind) (F : WordField) (maxCard : ℕ) (J : ℕ → ℕ → ℤ) (sizeMax : ℕ) (sched : ℕ → ℕ → ℕ → ℕ → SumTree) (ta : Tr) (M N : ℕ) (alpha : ℤ)
    (A : Arr ℤ) (lda : ℕ) (X : Arr ℤ) (incX : ℕ) (beta : ℤ) (Y : Arr ℤ) (incY : ℕ) : Except Fault (Option (Arr ℤ)) :=
  let Ydim := if ta = .no then M else N
  let Xdim := if ta = .no then N else M
  if M = 0 then pure (some Y)
  else if Xdim = 0 ∨ alpha = 0 then do
    let Y ← fscalinW F Ydim 1 beta Y incY
    pure (some Y)
  else match gemvField kd maxCard F.p, kd.native F with
    | some G, _ => do
      let Y ← fgemvConvert F G J sizeMax sched ta M N alpha A lda X incX beta Y incY
      pure (some Y)
    | none, some G => do
      let Y ← fgemmG G sizeMax sched ta .no Ydim 1 Xdim alpha A lda X incX beta Y incY
      pure (some Y)
    | none, none => pure none

/-- `fger(G, M, N, alpha, x, incx, y, incy, A, lda)` over a field of floating-point numbers: `DelayedTag` (/repo/fflas-ffpack/fflas/fflas_fger.inl:302-331)
and the reduction of the public function (line 43). -/
def fgerStrided (G : FpField) (M N : ℕ) (alpha : ℤ) (x : Arr ℤ) (incx : ℕ) (y : Arr ℤ) (incy : ℕ) (A : Arr ℤ) (lda : ℕ) : Except Fault (Arr ℤ) :=
  iter M (fun i => iter N (fun j (A : Arr ℤ) => do
    let a ← A.rd (i * lda + j)
    let r ← (do
      let x ← x.rd (i * incx)
      let y ← y.rd (j * incy)
      fgerEntry G alpha x y a)
    A.wr (i * lda + j) r)) A

/-- `fger`, public entry (/repo/fflas-ffpack/fflas/fflas_fger.inl:33-44), then `DelayedTag` (lines 274-331). -/
def fgerDel (kd : Kind) (F : WordField) (maxCard : ℕ) (J : ℕ → ℕ → ℤ) (M N : ℕ) (alpha : ℤ) (x : Arr ℤ) (incx : ℕ) (y : Arr ℤ) (incy : ℕ) (A : Arr ℤ)
    (lda : ℕ) : Except Fault (Option (Arr ℤ)) :=
  if alpha = 0 then do
    let A ← fscalinW F M N 1 A lda
    pure (some A)
  else match gerField kd maxCard F.p, kd.native F with
    | some G, _ => do
      let A ← fgerConvert F G J M N alpha x incx y incy A lda
      let A ← fscalinW F M N 1 A lda
      pure (some A)
    | none, some G => do
      let A ← fgerStrided G M N alpha x incx y incy A lda
      pure (some A)
    | none, none => pure none

end Verif.Conv
