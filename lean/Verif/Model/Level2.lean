import Verif.Model.Level1
import Verif.Core.Enums
import Mathlib.Algebra.Field.Basic

/-!
# Matrix-vector routines: `fger`, `fgemv`, `ftrsv`
-/

namespace Verif.FF

variable {K : Type} [Field K] [DecidableEq K]

/-- `fger`, /repo/fflas-ffpack/fflas/fflas_fger.inl:104-166: `A ← A + alpha x yᵀ`.  The final `freduce` of the wrapper
(:40) is the identity on field elements. -/
def fger (M N : ℕ) (alpha : K) (x incx y incy A lda : ℕ) : Prog K Unit :=
  if alpha = 0 then pure ()
  else if M < N then
    if alpha = 1 then loop (cnt M lda) fun i => loop N fun j => do
      let a ← load (A + i * lda + j)
      let u ← load (x + i * incx)
      let v ← load (y + j * incy)
      store (A + i * lda + j) (a + u * v)
    else if alpha = -1 then loop (cnt M lda) fun i => do
      let u ← load (x + i * incx)
      let tmp := -u
      loop N fun j => do
        let a ← load (A + i * lda + j)
        let v ← load (y + j * incy)
        store (A + i * lda + j) (a + tmp * v)
    else loop (cnt M lda) fun i => do
      let u ← load (x + i * incx)
      let tmp := alpha * u
      loop N fun j => do
        let a ← load (A + i * lda + j)
        let v ← load (y + j * incy)
        store (A + i * lda + j) (a + tmp * v)
  else
    if alpha = 1 then loop N fun j => loop M fun i => do
      let a ← load (A + j + i * lda)
      let u ← load (x + i * incx)
      let v ← load (y + j * incy)
      store (A + j + i * lda) (a + u * v)
    else if alpha = -1 then loop N fun j => do
      let v ← load (y + j * incy)
      let tmp := -v
      loop M fun i => do
        let a ← load (A + j + i * lda)
        let u ← load (x + i * incx)
        store (A + j + i * lda) (a + u * tmp)
    else loop N fun j => do
      let v ← load (y + j * incy)
      let tmp := alpha * v
      loop M fun i => do
        let a ← load (A + j + i * lda)
        let u ← load (x + i * incx)
        store (A + j + i * lda) (a + u * tmp)

/-- `F.div(x, a, b)` -/
def divE (a b : K) : Except Fault K := do
  let i ← invE b
  pure (a * i)

/-- `fgemv`, `DefaultTag`, /repo/fflas-ffpack/fflas/fflas_fgemv.inl:190-222. -/
def fgemvDefault (cat : Cat) (ta : Tr) (M N : ℕ) (alpha : K) (A lda X incX : ℕ) (beta : K) (Y incY : ℕ) : Prog K Unit := do
  let Ydim := if ta = .no then M else N
  (if beta = 0 then vzero Ydim Y incY
   else do
    let b ← liftE (divE beta alpha)
    vscalin cat Ydim b Y incY)
  (if ta = .no then loop Ydim fun i => do
      let d ← vdot N (A + i * lda) 1 X incX
      let y ← load (Y + i * incY)
      store (Y + i * incY) (y + d)
   else loop Ydim fun i => do
      let d ← vdot M (A + i) lda X incX
      let y ← load (Y + i * incY)
      store (Y + i * incY) (y + d))
  vscalin cat Ydim alpha Y incY

/-- `fgemv`, public entry, /repo/fflas-ffpack/fflas/fflas_fgemv.inl:337-362. -/
def fgemv (cat : Cat) (ta : Tr) (M N : ℕ) (alpha : K) (A lda X incX : ℕ) (beta : K) (Y incY : ℕ) : Prog K Unit :=
  if M = 0 then pure ()
  else
    let Ydim := if ta = .no then M else N
    let Xdim := if ta = .no then N else M
    if Xdim = 0 ∨ alpha = 0 then
      if beta = 0 then vzero Ydim Y incY else vscalin cat Ydim beta Y incY
    else fgemvDefault cat ta M N alpha A lda X incX beta Y incY

/-- `fgemv` for `ZRing<int64_t>` without SIMD, /repo/fflas-ffpack/fflas/fflas_fgemv.inl:384-401: the scaling statement
is `*Yi *= beta * *Yi`. -/
def fgemvInt64 {R : Type} [CommRing R] (ta : Tr) (M N : ℕ) (alpha : R) (A lda X incX : ℕ) (beta : R) (Y incY : ℕ) :
    Prog R Unit :=
  if ta = .no then loop M fun i => do
    let y ← load (Y + i * incY)
    store (Y + i * incY) (y * (beta * y))
    loop N fun j => do
      let y ← load (Y + i * incY)
      let a ← load (A + i * lda + j)
      let x ← load (X + j * incX)
      store (Y + i * incY) (y + alpha * a * x)
  else loop N fun i => do
    let y ← load (Y + i * incY)
    store (Y + i * incY) (y * (beta * y))
    loop M fun j => do
      let y ← load (Y + i * incY)
      let a ← load (A + i + j * lda)
      let x ← load (X + j * incX)
      store (Y + i * incY) (y + alpha * a * x)

/-- `*Xi -= d; if NonUnit *Xi /= piv`: the body shared by the four loops of `ftrsv`. -/
def trsvStep (diag : Diag) (Xi piv : ℕ) (d : K) : Prog K Unit := do
  let x ← load Xi
  store Xi (x - d)
  if diag = .nonUnit then do
    let x ← load Xi
    let p ← load piv
    let v ← liftE (divE x p)
    store Xi v
  else pure ()

/-- `ftrsv`, /repo/fflas-ffpack/fflas/fflas_ftrsv.inl:35-87: `X ← op(A)⁻¹ X`.  Only `incX > 0` is modelled (the
parameter is a signed `int`; the loop `for (; Xi >= X; Xi -= incX)` of the upper case needs `incX > 0` to end).  The two
descending loops run over `i = 0 .. N-1` with `Xi = X + (N-1-i)*incX`. -/
def ftrsv (uplo : Uplo) (ta : Tr) (diag : Diag) (N A lda X incX : ℕ) : Prog K Unit :=
  match uplo, ta with
  | .lower, .yes => loop N fun i => do
      let k := N - 1 - i
      let d ← (if i = 0 then pure 0 else vdot i (A + k * (lda + 1) + lda) lda (X + k * incX + incX) incX)
      trsvStep diag (X + k * incX) (A + k * (lda + 1)) d
  | .lower, .no => loop N fun i => do
      let d ← vdot i (A + i * lda) 1 X incX
      trsvStep diag (X + i * incX) (A + i * lda + i) d
  | .upper, .yes => loop N fun i => do
      let d ← vdot i (A + i) lda X incX
      trsvStep diag (X + i * incX) (A + i + i * lda) d
  | .upper, .no => loop N fun i => do
      let k := N - 1 - i
      let d ← (if i = 0 then pure 0 else vdot i (A + k * (lda + 1) + 1) 1 (X + k * incX + incX) incX)
      trsvStep diag (X + k * incX) (A + k * (lda + 1)) d

end Verif.FF
