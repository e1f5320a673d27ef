import Verif.Model.Level1
import Verif.Spec.LinAlg

/-!
# `fmove` and the triangular `fzero`

/repo/fflas-ffpack/fflas/fflas_level2.inl:82-112 and 402-419.
-/

namespace Verif.FF

open Verif.Spec

variable {K : Type} [CommRing K] [DecidableEq K]

/-- `FFLAS_UPLO` in full -/
inductive Shape
  | upper | lower | leftTri | rightTri

/-- `inc_row`, fflas_level2.inl:100-105 (`-lda` of an unsigned `lda`, converted to `ptrdiff_t`, is the negative number) -/
def zeroInc (lda : ℕ) : Shape → ℤ
  | .upper => lda + 1
  | .lower => -lda
  | .leftTri => lda
  | .rightTri => -lda + 1

/-- first `Ai`, fflas_level2.inl:100-105 -/
def zeroFirst (n A lda : ℕ) : Shape → ℤ
  | .upper => A
  | .lower => A + ((n : ℤ) - 1) * lda
  | .leftTri => A
  | .rightTri => A + ((n : ℤ) - 1) * lda

/-- `Ai++` without the diagonal, fflas_level2.inl:106-109 -/
def zeroSkip : Diag → Shape → ℤ
  | .unit, .upper => 1
  | .unit, .rightTri => 1
  | .unit, .lower => 0
  | .unit, .leftTri => 0
  | .nonUnit, _ => 0

/-- `Ai` before the loop -/
def zeroStart (n A lda : ℕ) (d : Diag) (s : Shape) : ℤ := zeroFirst n A lda s + zeroSkip d s

/-- `fzero` for a triangular matrix, fflas_level2.inl:93-112.  `size--` of an unsigned zero (`n = 0`, `FflasUnit`) is a fault: the loop that
follows would clear `2^64 - 1` entries. -/
def fzeroTri (s : Shape) (d : Diag) (n A lda : ℕ) : Prog K Unit := do
  let size ← match d with
    | .unit => liftE (usub n 1)
    | .nonUnit => pure n
  loop size fun t => vzero (size - t) (zeroStart n A lda d s + t * zeroInc lda s).toNat 1

/-- `fmove`, fflas_level2.inl:402-419: documented as `A ← B`, `B ← 0`; `fassign (F, m, n, A, lda, B, ldb)` copies its first matrix to the
second one. -/
def fmove (m n A lda B ldb : ℕ) : Prog K Unit := do
  fassign m n A lda B ldb
  fzero m n B ldb

end Verif.FF
