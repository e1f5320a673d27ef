/-!
# Option arguments of the BLAS-like routines

`FFLAS_TRANSPOSE`, `FFLAS_UPLO`, `FFLAS_DIAG`, `FFLAS_SIDE`, /repo/fflas-ffpack/fflas/fflas_enum.h:34-85.
-/

namespace Verif

inductive Tr where
  | no
  | yes
  deriving DecidableEq, Repr

inductive Uplo where
  | upper
  | lower
  deriving DecidableEq, Repr

inductive Diag where
  | nonUnit
  | unit
  deriving DecidableEq, Repr

inductive Side where
  | left
  | right
  deriving DecidableEq, Repr

end Verif
