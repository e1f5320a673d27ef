import Verif.Model.Par
import Verif.Model.Fsyrk

/-!
# Parallel symmetric rank update with a diagonal matrix

fflas_fsyrk.inl:584-675.  The products are parameters: `gc nt` is `fgemm` with the cutting chosen by the caller and `nt` threads (:618),
`gb nt` is `fgemm` with `Block/Threads` (:632, :651, :654), `gs` is the sequential one.  A sequential part is written as a task without
`.par` because it allocates memory.
-/

namespace Verif.Par

open Verif.FF

variable {K : Type} [Field K] [DecidableEq K]

/-- `op(A) ← op(A) D` for `n` rows, fflas_fsyrk.inl:612-616 (and :524-528 in the sequential version) -/
def scaleD (t : Tr) (n k A lda D incD : ℕ) : Prog K Unit := loop k fun l => do
  let d ← load (D + l * incD)
  vscalin .generic n d (A + l * incCol t lda) (incRow t lda)

/-- `temp ← op(A) D` for `n` rows, fflas_fsyrk.inl:640-646 (and :551-557 in the sequential version) -/
def fillD (t : Tr) (n k A lda D incD temp ldt : ℕ) : Prog K Unit := loop k fun l => do
  let d ← load (D + l * incD)
  vscal .generic n d (A + l * incCol t lda) (incRow t lda) (temp + l * incCol t ldt) (incRow t ldt)

instance (n : ℕ) (a : K) (X incX Y incY : ℕ) : Small (vscal .generic n a X incX Y incY) := by delta vscal; dsimp only; infer_instance
instance (t : Tr) (n k A lda D incD : ℕ) : Small (scaleD t n k A lda D incD : Prog K Unit) := by delta scaleD; infer_instance
instance (t : Tr) (n k A lda D incD temp ldt : ℕ) : Small (fillD t n k A lda D incD temp ldt : Prog K Unit) := by delta fillD; infer_instance

/-- the base case `N <= threshold`, fflas_fsyrk.inl:603-620 (and :515-532 in the sequential version) -/
def syrkBase (g : PGemm K) (t : Tr) (n k : ℕ) (alpha : K) (A lda D incD : ℕ) (beta : K) (C ldc : ℕ) (q : Proc K) : Proc K :=
  .alloc (n * k) fun temp =>
    call (fassign (opr t n k) (opc t n k) A lda temp (opc t n k))
      (call (scaleD t n k A lda D incD)
        (g ⟨t, oppTr t, n, n, k, alpha, A, lda, temp, opc t n k, beta, C, ldc⟩ (.free temp (n * k) q)))

/-- the block outside the diagonal, fflas_fsyrk.inl:634-656 (and :545-567 in the sequential version): `temp ← A2 D`, the product, and
`temp` is deleted; `n1` is the number of rows of the first half -/
def syrkOff (g : PGemm K) (u : Uplo) (t : Tr) (n n1 k : ℕ) (alpha : K) (A lda D incD : ℕ) (beta : K) (C ldc : ℕ) (q : Proc K) : Proc K :=
  .alloc (max (n - n1) n1 * k) fun temp =>
    call (fillD t (n - n1) k (A + n1 * incRow t lda) lda D incD temp (opc t (n - n1) k))
      (g (match u with
        | .upper => ⟨t, oppTr t, n1, n - n1, k, alpha, A, lda, temp, opc t (n - n1) k, beta, C + n1, ldc⟩
        | .lower => ⟨t, oppTr t, n - n1, n1, k, alpha, temp, opc t (n - n1) k, A, lda, beta, C + n1 * ldc, ldc⟩)
        (.free temp (max (n - n1) n1 * k) q))

/-- sequential `fsyrk` with a diagonal matrix as a part of a task, fflas_fsyrk.inl:494-583 -/
def seqSyrk (gs : PGemm K) (thr : ℕ) (u : Uplo) (t : Tr) (k : ℕ) (alpha : K) (lda D incD : ℕ) (beta : K) (ldc : ℕ) :
    ℕ → ℕ → ℕ → ℕ → Proc K → Proc K
  | 0, _, _, _, _ => .fault .fuel
  | fuel + 1, n, A, C, q =>
    if n ≤ thr then syrkBase gs t n k alpha A lda D incD beta C ldc q
    else
      syrkOff gs u t n (n / 2) k alpha A lda D incD beta C ldc
        (seqSyrk gs thr u t k alpha lda D incD beta ldc fuel (n / 2) A C
          (seqSyrk gs thr u t k alpha lda D incD beta ldc fuel (n - n / 2) (A + n / 2 * incRow t lda) (C + n / 2 + n / 2 * ldc) q))

/-- parallel `fsyrk` with a diagonal matrix, `nt` threads, fflas_fsyrk.inl:584-675.  The first argument bounds the depth of the recursion. -/
def pSyrk (gs : PGemm K) (gc gb : ℕ → PGemm K) (thr : ℕ) (u : Uplo) (t : Tr) (k : ℕ) (alpha : K) (lda D incD : ℕ) (beta : K) (ldc : ℕ) :
    ℕ → ℕ → ℕ → ℕ → ℕ → Proc K → Proc K
  | 0, _, _, _, _, _ => .fault .fuel
  | fuel + 1, nt, n, A, C, q =>
    if n ≤ thr then syrkBase (gc nt) t n k alpha A lda D incD beta C ldc q
    else if nt = 1 then seqSyrk gs thr u t k alpha lda D incD beta ldc (fuel + 1) n A C q
    else
      syrkOff (gb nt) u t n (n / 2) k alpha A lda D incD beta C ldc
        (.par 2 ![pSyrk gs gc gb thr u t k alpha lda D incD beta ldc fuel (nt / 2) (n / 2) A C .ret,
          pSyrk gs gc gb thr u t k alpha lda D incD beta ldc fuel (nt - nt / 2) (n - n / 2) (A + n / 2 * incRow t lda) (C + n / 2 + n / 2 * ldc) .ret] q)

end Verif.Par
