import Verif.Model.Level2

/-!
# Matrix multiplication: the classical algorithm and the public entries
-/

namespace Verif.FF

variable {K : Type} [Field K] [DecidableEq K]

/-- Signature shared by all versions of `fgemm`: `ta tb m n k alpha A lda B ldb beta C ldc`. -/
abbrev GemmFn (K : Type) := Tr → Tr → ℕ → ℕ → ℕ → K → ℕ → ℕ → ℕ → ℕ → K → ℕ → ℕ → Prog K Unit

/-- number of stored rows of a matrix whose `op` is `m × k` -/
def opr (t : Tr) (m k : ℕ) : ℕ := match t with
  | .no => m
  | .yes => k

/-- number of stored columns -/
def opc (t : Tr) (m k : ℕ) : ℕ := match t with
  | .no => k
  | .yes => m

/-- `F.axpyin(*c, *a, *b)` -/
def axpyin (c a b : ℕ) : Prog K Unit := do
  let z ← load c
  let x ← load a
  let y ← load b
  store c (z + x * y)

/-- Classical `fgemm` over a field (`DefaultTag`), /repo/fflas-ffpack/fflas/fflas_fgemm/fgemm_classical.inl:181-229. -/
def gemmClassic (cat : Cat) : GemmFn K := fun ta tb m n k alpha A lda B ldb beta C ldc =>
  if alpha = 0 then fscalin cat m n beta C ldc
  else do
    (if beta = 0 then fzero m n C ldc
     else do
      let b ← liftE (divE beta alpha)
      fscalin cat m n b C ldc)
    (match ta, tb with
     | .no, .no => loop m fun i => loop k fun l => loop n fun j => axpyin (C + i * ldc + j) (A + i * lda + l) (B + l * ldb + j)
     | .no, .yes => loop m fun i => loop n fun j => loop k fun l => axpyin (C + i * ldc + j) (A + i * lda + l) (B + j * ldb + l)
     | .yes, .no => loop m fun i => loop k fun l => loop n fun j => axpyin (C + i * ldc + j) (A + l * lda + i) (B + l * ldb + j)
     | .yes, .yes => loop m fun i => loop n fun j => loop k fun l => axpyin (C + i * ldc + j) (A + l * lda + i) (B + j * ldb + l))
    fscalin cat m n alpha C ldc

/-- Public `fgemm`, /repo/fflas-ffpack/fflas/fflas_fgemm.inl:320-346 (the checker is empty unless checking is
enabled), calling the version `g` selected by the helper. -/
def gemmPublic (cat : Cat) (g : GemmFn K) : GemmFn K := fun ta tb m n k alpha A lda B ldb beta C ldc =>
  if m = 0 ∨ n = 0 then pure ()
  else if k = 0 ∨ alpha = 0 then fscalin cat m n beta C ldc
  else g ta tb m n k alpha A lda B ldb beta C ldc

/-- `fgemm` with delayed reductions, /repo/fflas-ffpack/fflas/fflas_fgemm.inl:368-437: `alpha` other than `±1` is
factored out; `g` is the lazy version called with the remaining coefficients.  Conversions to a floating-point field
(:409-418) and reductions do not change the value in the field. -/
def gemmDelayed (cat : Cat) (g : GemmFn K) : GemmFn K := fun ta tb m n k alpha A lda B ldb beta C ldc =>
  if m = 0 ∨ n = 0 then pure ()
  else if k = 0 ∨ alpha = 0 then fscalin cat m n beta C ldc
  else if alpha ≠ 1 ∧ alpha ≠ -1 then do
    let b ← liftE (divE beta alpha)
    g ta tb m n k 1 A lda B ldb b C ldc
    fscalin cat m n alpha C ldc
  else g ta tb m n k alpha A lda B ldb beta C ldc

end Verif.FF
