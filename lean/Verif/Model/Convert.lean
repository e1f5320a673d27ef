import Verif.Core.HeapEx
import Verif.Model.LazyGemm
import Verif.Model.Gemm

/-!
# Products over fields of machine words, computed in floating point

`fgemm`, `fgemv` and `fger` over `Modular` and `ModularBalanced` of 8, 16 and 32 bit integers (`ModeCategories::ConvertTo<MachineFloatTag>`)
copy the operands to a field of floating-point numbers with the same modulus, call the routine of this field and copy the result back.

Simplifications: the arrays are values with a length (the arguments do not overlap); the routine of the floating-point field is the one of
`Model/LazyGemm.lean` entry by entry (no recursion of Winograd); the cardinality of a prime field is its characteristic; `16*F.cardinality()` does
not wrap around.
-/

namespace Verif.Conv

open Verif Verif.FP Verif.Bounds Verif.Lazy Verif.FF

/-- A prime field whose elements are the machine integers from `lo` to `lo + p - 1`. -/
structure WordField where
  p : ℕ
  lo : ℤ

namespace WordField
/-- the elements -/
def itv (F : WordField) : Itv := ⟨F.lo, F.lo + F.p - 1⟩
/-- `F.init(x, y)` and `F.reduce`: the representative (of Givaro; exact on integers). -/
def red (F : WordField) (x : ℤ) : ℤ := F.lo + (x - F.lo) % F.p
end WordField

/-- `Givaro::ModularBalanced<float|double> G(p)`. -/
def balanced (p prec : ℕ) : FpField := ⟨p, -(((p - 1) / 2 : ℕ) : ℤ), prec⟩

/-- The field chosen for the conversion; `skip`: the function returns without doing anything; `fail`: `FFPACK::failure()` throws. -/
inductive Route where
  | conv (G : FpField)
  | skip
  | fail

/-- `fgemm` with `ConvertTo<MachineFloatTag>` for a field that is none of the floating-point ones, /repo/fflas-ffpack/fflas/fflas_fgemm.inl:254-276:
the call of `failure()` is in the branch of `Modular<float>`.  800 is `DOUBLE_TO_FLOAT_CROSSOVER` (fflas.h:57-59), `maxCard` is
`Givaro::ModularBalanced<double>::maxCardinality()`. -/
def fgemmRoute (maxCard p : ℕ) : Route :=
  if p = 2 then .conv ⟨2, 0, 24⟩
  else if p < 800 then .conv (balanced p 24)
  else if 16 * p < maxCard then .conv (balanced p 53)
  else .skip

/-- `fgemv` with `ConvertTo<MachineFloatTag>`, /repo/fflas-ffpack/fflas/fflas_fgemv.inl:97-106. -/
def fgemvRoute (maxCard p : ℕ) : Route :=
  if p < 800 ∧ p > 2 then .conv (balanced p 24)
  else if 16 * p < maxCard ∧ p > 2 then .conv (balanced p 53)
  else .fail

/-- `fger` with `ConvertTo<MachineFloatTag>`, /repo/fflas-ffpack/fflas/fflas_fger.inl:94-100. -/
def fgerRoute (maxCard p : ℕ) : Route :=
  if p < 800 ∧ p > 2 then .conv (balanced p 24)
  else if 16 * p < maxCard then .conv (balanced p 53)
  else .fail

/-- `F.convert(tmp, x); G.init(xf, tmp)` (fflas_fgemm.inl:62-65): the conversion to a floating-point number must be exact. -/
def toG (G : FpField) (x : ℤ) : Except Fault ℤ := do
  let y ← chk G.prec x
  pure (G.red y)

/-- `fconvert(F, m, n, Af, c, A, lda)`, /repo/fflas-ffpack/fflas/fflas_level2.inl:279-288; vectors are matrices with one column (fflas_level1.inl:112-120). -/
def fconvertM (prec m n : ℕ) (Af : Arr ℤ) (A : Arr ℤ) (lda : ℕ) : Except Fault (Arr ℤ) :=
  iter m (fun i => iter n (fun j (Af : Arr ℤ) => do
    let y ← (do
      let x ← A.rd (i * lda + j)
      chk prec x)
    Af.wr (i * n + j) y)) Af

/-- `freduce(G, m, n, Af, n)` -/
def freduceM (G : FpField) (m n : ℕ) (Af : Arr ℤ) : Except Fault (Arr ℤ) :=
  iter m (fun i => iter n (fun j (Af : Arr ℤ) => do
    let x ← Af.rd (i * n + j)
    let y ← Except.ok (G.red x)
    Af.wr (i * n + j) y)) Af

/-- `finit(F, m, n, Cf, n, C, ldc)`: back to the field of machine words. -/
def finitM (F : WordField) (m n : ℕ) (Cf : Arr ℤ) (C : Arr ℤ) (ldc : ℕ) : Except Fault (Arr ℤ) :=
  iter m (fun i => iter n (fun j (C : Arr ℤ) => do
    let y ← (do
      let x ← Cf.rd (i * n + j)
      pure (F.red x))
    C.wr (i * ldc + j) y)) C

/-- the address of the entry `(i, l)` of `op(A)` -/
def adr (t : Tr) (ld i l : ℕ) : ℕ := match t with
  | .no => i * ld + l
  | .yes => l * ld + i

/-- the `k` numbers read by a dot product -/
def rdVec (k : ℕ) (A : Arr ℤ) (at' : ℕ → ℕ) : Except Fault (ℕ → ℤ) :=
  iter k (fun l (v : ℕ → ℤ) => do
    let x ← A.rd (at' l)
    pure (Function.update v l x)) (fun _ => 0)

/-- `fgemm(G, ta, tb, m, n, k, alpha, A, lda, B, ldb, beta, C, ldc)` over a floating-point field, `DelayedTag`
(fflas_fgemm.inl:363-438, fgemm_classical.inl:47-175), entry by entry. -/
def fgemmG (G : FpField) (sizeMax : ℕ) (sched : ℕ → ℕ → ℕ → ℕ → SumTree) (ta tb : Tr) (m n k : ℕ) (alpha : ℤ) (A : Arr ℤ) (lda : ℕ)
    (B : Arr ℤ) (ldb : ℕ) (beta : ℤ) (C : Arr ℤ) (ldc : ℕ) : Except Fault (Arr ℤ) :=
  iter m (fun i => iter n (fun j (C : Arr ℤ) => do
    let c ← C.rd (i * ldc + j)
    let r ← (do
      let a ← rdVec k A (fun l => adr ta lda i l)
      let b ← rdVec k B (fun l => adr tb ldb l j)
      fgemmDelayed G sizeMax (sched i j) k alpha a b beta c)
    C.wr (i * ldc + j) r)) C

/-- `Protected::fgemm_convert<NewField>`, /repo/fflas-ffpack/fflas/fflas_fgemm.inl:38-97.  `J 0`, `J 1`, `J 2`: the contents of the fresh arrays. -/
def fgemmConvert (F : WordField) (G : FpField) (J : ℕ → ℕ → ℤ) (sizeMax : ℕ) (sched : ℕ → ℕ → ℕ → ℕ → SumTree) (ta tb : Tr) (m n k : ℕ) (alpha : ℤ)
    (A : Arr ℤ) (lda : ℕ) (B : Arr ℤ) (ldb : ℕ) (beta : ℤ) (C : Arr ℤ) (ldc : ℕ) : Except Fault (Arr ℤ) := do
  let betaf ← toG G beta
  let alphaf ← toG G alpha
  let Af := Arr.mk' (m * k) (J 0)
  let Bf := Arr.mk' (k * n) (J 1)
  let Cf := Arr.mk' (m * n) (J 2)
  let ma := if ta = .yes then k else m
  let ka := if ta = .yes then m else k
  let kb := if tb = .yes then n else k
  let nb := if tb = .yes then k else n
  let Af ← fconvertM G.prec ma ka Af A lda
  let Af ← freduceM G ma ka Af
  let Bf ← fconvertM G.prec kb nb Bf B ldb
  let Bf ← freduceM G kb nb Bf
  let Cf ← (if beta ≠ 0 then do
      let Cf ← fconvertM G.prec m n Cf C ldc
      freduceM G m n Cf
    else pure Cf)
  let Cf ← fgemmG G sizeMax sched ta tb m n k alphaf Af ka Bf nb betaf Cf n
  finitM F m n Cf C ldc

/-- `fscalin(F, m, n, beta, C, ldc)` -/
def fscalinW (F : WordField) (m n : ℕ) (beta : ℤ) (C : Arr ℤ) (ldc : ℕ) : Except Fault (Arr ℤ) :=
  iter m (fun i => iter n (fun j (C : Arr ℤ) => do
    let x ← C.rd (i * ldc + j)
    let y ← Except.ok (F.red (beta * x))
    C.wr (i * ldc + j) y)) C

/-- `fgemm`, public entry, /repo/fflas-ffpack/fflas/fflas_fgemm.inl:320-343 (the checker is the one that does nothing).  `none`: an exception is thrown. -/
def fgemmWord (F : WordField) (maxCard : ℕ) (J : ℕ → ℕ → ℤ) (sizeMax : ℕ) (sched : ℕ → ℕ → ℕ → ℕ → SumTree) (ta tb : Tr) (m n k : ℕ) (alpha : ℤ)
    (A : Arr ℤ) (lda : ℕ) (B : Arr ℤ) (ldb : ℕ) (beta : ℤ) (C : Arr ℤ) (ldc : ℕ) : Except Fault (Option (Arr ℤ)) :=
  if m = 0 ∨ n = 0 then pure (some C)
  else if k = 0 ∨ alpha = 0 then do
    let C ← fscalinW F m n beta C ldc
    pure (some C)
  else match fgemmRoute maxCard F.p with
    | .conv G => do
      let C ← fgemmConvert F G J sizeMax sched ta tb m n k alpha A lda B ldb beta C ldc
      pure (some C)
    | .skip => pure (some C)
    | .fail => pure none

/-- `Protected::fgemv_convert<FloatElement>`, /repo/fflas-ffpack/fflas/fflas_fgemv.inl:37-82.  The call of `fgemv` over `G` does for each entry of `Y`
what `fgemm` does (fflas_fgemv.inl:110-333: the same steps as fgemm_classical.inl:47-175; here `M ≠ 0`). -/
def fgemvConvert (F : WordField) (G : FpField) (J : ℕ → ℕ → ℤ) (sizeMax : ℕ) (sched : ℕ → ℕ → ℕ → ℕ → SumTree) (ta : Tr) (M N : ℕ) (alpha : ℤ)
    (A : Arr ℤ) (lda : ℕ) (X : Arr ℤ) (incX : ℕ) (beta : ℤ) (Y : Arr ℤ) (incY : ℕ) : Except Fault (Arr ℤ) := do
  let betaf ← toG G beta
  let alphaf ← toG G alpha
  let ma := if ta = .yes then N else M
  let na := if ta = .yes then M else N
  let Af := Arr.mk' (M * N) (J 0)
  let Xf := Arr.mk' na (J 1)
  let Yf := Arr.mk' ma (J 2)
  let Af ← fconvertM G.prec M N Af A lda
  let Af ← freduceM G M N Af
  let Xf ← fconvertM G.prec na 1 Xf X incX
  let Xf ← freduceM G na 1 Xf
  let Yf ← (if beta ≠ 0 then do
      let Yf ← fconvertM G.prec ma 1 Yf Y incY
      freduceM G ma 1 Yf
    else pure Yf)
  let Yf ← fgemmG G sizeMax sched ta .no ma 1 na alphaf Af N Xf 1 betaf Yf 1
  finitM F ma 1 Yf Y incY

/-- `fgemv`, public entry, /repo/fflas-ffpack/fflas/fflas_fgemv.inl:337-362 (`fzero` for `beta = 0`: the same values).  `none`: an exception is thrown. -/
def fgemvWord (F : WordField) (maxCard : ℕ) (J : ℕ → ℕ → ℤ) (sizeMax : ℕ) (sched : ℕ → ℕ → ℕ → ℕ → SumTree) (ta : Tr) (M N : ℕ) (alpha : ℤ)
    (A : Arr ℤ) (lda : ℕ) (X : Arr ℤ) (incX : ℕ) (beta : ℤ) (Y : Arr ℤ) (incY : ℕ) : Except Fault (Option (Arr ℤ)) :=
  let Ydim := if ta = .no then M else N
  let Xdim := if ta = .no then N else M
  if M = 0 then pure (some Y)
  else if Xdim = 0 ∨ alpha = 0 then do
    let Y ← fscalinW F Ydim 1 beta Y incY
    pure (some Y)
  else match fgemvRoute maxCard F.p with
    | .conv G => do
      let Y ← fgemvConvert F G J sizeMax sched ta M N alpha A lda X incX beta Y incY
      pure (some Y)
    | .skip => pure (some Y)
    | .fail => pure none

/-- One entry of `fger` over a floating-point field, `DelayedTag` (fflas_fger.inl:302-331), with the reduction at the end of the public
function (line 43): `alpha y` is reduced unless `alpha` is 1 or -1. -/
def fgerEntry (G : FpField) (alpha x y a : ℤ) : Except Fault ℤ :=
  if alpha = 0 then .ok (G.red a)
  else do
    let y ← (if alpha = G.one then .ok y else if alpha = G.mOne then chk G.prec (-y) else .ok (G.red (alpha * y)))
    let t ← chk G.prec (x * y)
    let s ← chk G.prec (a + t)
    .ok (G.red s)

/-- `fger(G, M, N, alpha, X, 1, Y, 1, A, N)` -/
def fgerG (G : FpField) (M N : ℕ) (alpha : ℤ) (X Y A : Arr ℤ) : Except Fault (Arr ℤ) :=
  iter M (fun i => iter N (fun j (A : Arr ℤ) => do
    let a ← A.rd (i * N + j)
    let r ← (do
      let x ← X.rd i
      let y ← Y.rd j
      fgerEntry G alpha x y a)
    A.wr (i * N + j) r)) A

/-- `Protected::fger_convert<FloatElement>`, /repo/fflas-ffpack/fflas/fflas_fger.inl:48-77. -/
def fgerConvert (F : WordField) (G : FpField) (J : ℕ → ℕ → ℤ) (M N : ℕ) (alpha : ℤ) (x : Arr ℤ) (incx : ℕ) (y : Arr ℤ) (incy : ℕ) (A : Arr ℤ)
    (lda : ℕ) : Except Fault (Arr ℤ) := do
  let alphaf ← toG G alpha
  let Af := Arr.mk' (M * N) (J 0)
  let Xf := Arr.mk' M (J 1)
  let Yf := Arr.mk' N (J 2)
  let Af ← fconvertM G.prec M N Af A lda
  let Af ← freduceM G M N Af
  let Xf ← fconvertM G.prec M 1 Xf x incx
  let Xf ← freduceM G M 1 Xf
  let Yf ← fconvertM G.prec N 1 Yf y incy
  let Yf ← freduceM G N 1 Yf
  let Af ← fgerG G M N alphaf Xf Yf Af
  finitM F M N Af A lda

/-- `fger`, public entry, /repo/fflas-ffpack/fflas/fflas_fger.inl:33-46 and 82-102: the result is reduced once more over `F`. -/
def fgerWord (F : WordField) (maxCard : ℕ) (J : ℕ → ℕ → ℤ) (M N : ℕ) (alpha : ℤ) (x : Arr ℤ) (incx : ℕ) (y : Arr ℤ) (incy : ℕ) (A : Arr ℤ)
    (lda : ℕ) : Except Fault (Option (Arr ℤ)) :=
  if alpha = 0 then do
    let A ← fscalinW F M N 1 A lda
    pure (some A)
  else match fgerRoute maxCard F.p with
    | .conv G => do
      let A ← fgerConvert F G J M N alpha x incx y incy A lda
      let A ← fscalinW F M N 1 A lda
      pure (some A)
    | .skip => pure (some A)
    | .fail => pure none

end Verif.Conv
