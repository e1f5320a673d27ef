import Verif.Model.MultiPrec

/-!
# Matrix-vector product of multi-precision integers

`fgemv` over `ZRing<Integer>` and `Modular<Integer>`: the public function, then the product of a matrix by a matrix with one column.
-/

namespace Verif.MP

open Verif.FF

/-- `fgemv` over `ZRing<Integer>`: /repo/fflas-ffpack/fflas/fflas_fgemv.inl:337-362 (`fzero` for `beta = 0`: the same values), then
fflas_fgemv_mp.inl:84-97. -/
def fgemvZ (E : Env) (gs : GemmFam) (ta : Tr) (M N : ℕ) (alpha : ℤ) (A : Arr ℤ) (lda : ℕ) (X : Arr ℤ) (incX : ℕ) (beta : ℤ) (Y : Arr ℤ)
    (incY : ℕ) : Except Fault (Arr ℤ) :=
  let Ydim := if ta = .no then M else N
  let Xdim := if ta = .no then N else M
  if M = 0 then pure Y
  else if Xdim = 0 ∨ alpha = 0 then fscalinZ 0 Ydim 1 beta Y incY
  else fgemmZH E gs 0 0 ta .no (if ta = .no then M else N) 1 (if ta = .no then N else M) alpha A lda X incX beta Y incY

/-- `fgemv` over `Modular<Integer>(p)`: the same, fflas_fgemv_mp.inl:101-114; `fgemm` for this field is in fgemm_classical_mp.inl:501-526. -/
def fgemvModZ (E : Env) (gs : GemmFam) (p : ℕ) (ta : Tr) (M N : ℕ) (alpha : ℤ) (A : Arr ℤ) (lda : ℕ) (X : Arr ℤ) (incX : ℕ) (beta : ℤ) (Y : Arr ℤ)
    (incY : ℕ) : Except Fault (Arr ℤ) :=
  let Ydim := if ta = .no then M else N
  let Xdim := if ta = .no then N else M
  if M = 0 then pure Y
  else if Xdim = 0 ∨ alpha = 0 then fscalinZ p Ydim 1 beta Y incY
  else do
    let Y ← fgemmZH E gs p p ta .no (if ta = .no then M else N) 1 (if ta = .no then N else M) alpha A lda X incX beta Y incY
    freduceZ p (if ta = .no then M else N) 1 Y incY

end Verif.MP
