import Verif.Model.Trsm

/-!
# Triangular inversion and products of triangular matrices

/repo/fflas-ffpack/ffpack/ffpack_ftrtr.inl.  `tm` is the in-place `ftrmm`, `g` is `fgemm`.
-/

namespace Verif.FF

variable {K : Type} [Field K] [DecidableEq K]

/-- `F.invin(*p)` -/
def invCell (p : ℕ) : Prog K Unit := do
  let x ← load p
  let y ← liftE (invE x)
  store p y

/-- Row `li` of the base case, ffpack_ftrtr.inl:48-54 and 68-73: the diagonal entry is inverted; returns `negDiag`. -/
def trtriDiag (diag : Diag) (p : ℕ) : Prog K K := match diag with
  | .nonUnit => do
    invCell p
    let x ← load p
    pure (-x)
  | .unit => pure (-1)

/-- Base case, ffpack_ftrtr.inl:42-82. -/
def ftrtriBase (tm : Side → Uplo → Tr → Diag → ℕ → ℕ → K → ℕ → ℕ → ℕ → ℕ → Prog K Unit) (uplo : Uplo) (diag : Diag) (lda N A : ℕ) :
    Prog K Unit := match uplo with
  | .upper => do
    (match diag with
      | .nonUnit => invCell (A + (N - 1) * (lda + 1))
      | .unit => pure ())
    loop (N - 1) fun t => do
      let li := N - 1 - 1 - t
      let nd ← trtriDiag diag (A + li * (lda + 1))
      tm .right .upper .no diag 1 (N - li - 1) nd (A + (li + 1) * (lda + 1)) lda (A + li * (lda + 1) + 1) lda
  | .lower => do
    (match diag with
      | .nonUnit => invCell A
      | .unit => pure ())
    loop (N - 1) fun t => do
      let li := 1 + t
      let nd ← trtriDiag diag (A + li * (lda + 1))
      tm .right .lower .no diag 1 li nd A lda (A + li * lda) lda

/-- `ftrtri`, ffpack_ftrtr.inl:36-103.  The recursion of the code does not end for `threshold = 0`; here it then runs out of
fuel. -/
def ftrtri (tm : Side → Uplo → Tr → Diag → ℕ → ℕ → K → ℕ → ℕ → ℕ → ℕ → Prog K Unit) (uplo : Uplo) (diag : Diag) (lda threshold : ℕ) :
    ℕ → ℕ → ℕ → Prog K Unit
  | 0, _, _ => liftE (.error .fuel)
  | fuel + 1, N, A =>
    if N = 0 then pure ()
    else if N ≤ threshold then ftrtriBase tm uplo diag lda N A
    else do
      let N1 := N / 2
      let N2 := N - N1
      ftrtri tm uplo diag lda threshold fuel N1 A
      ftrtri tm uplo diag lda threshold fuel N2 (A + N1 * (lda + 1))
      match uplo with
      | .upper => do
        tm .left uplo .no diag N1 N2 1 A lda (A + N1) lda
        tm .right uplo .no diag N1 N2 (-1) (A + N1 * (lda + 1)) lda (A + N1) lda
      | .lower => do
        tm .left uplo .no diag N2 N1 1 (A + N1 * (lda + 1)) lda (A + N1 * lda) lda
        tm .right uplo .no diag N2 N1 (-1) A lda (A + N1 * lda) lda

/-- the other diagonal: `(diag == FflasUnit) ? FflasNonUnit : FflasUnit` -/
def otherDiag : Diag → Diag
  | .unit => .nonUnit
  | .nonUnit => .unit

/-- `ftrtrm`, ffpack_ftrtr.inl:105-147. -/
def ftrtrm (tm : Side → Uplo → Tr → Diag → ℕ → ℕ → K → ℕ → ℕ → ℕ → ℕ → Prog K Unit) (g : GemmFn K) (side : Side) (diag : Diag) (lda : ℕ) :
    ℕ → ℕ → ℕ → Prog K Unit
  | 0, _, _ => liftE (.error .fuel)
  | fuel + 1, N, A =>
    if N ≤ 1 then pure ()
    else
      let N1 := N / 2
      let N2 := N - N1
      match side with
      | .left => do
        ftrtrm tm g side diag lda fuel N1 A
        g .no .no N1 N1 N2 1 (A + N1) lda (A + N1 * lda) lda 1 A lda
        tm .right .lower .no (otherDiag diag) N1 N2 1 (A + N1 * (lda + 1)) lda (A + N1) lda
        tm .left .upper .no diag N2 N1 1 (A + N1 * (lda + 1)) lda (A + N1 * lda) lda
        ftrtrm tm g side diag lda fuel N2 (A + N1 * (lda + 1))
      | .right => do
        ftrtrm tm g side diag lda fuel N2 (A + N1 * (lda + 1))
        g .no .no N2 N2 N1 1 (A + N1 * lda) lda (A + N1) lda 1 (A + N1 * (lda + 1)) lda
        tm .left .lower .no (otherDiag diag) N1 N2 1 A lda (A + N1) lda
        tm .right .upper .no diag N2 N1 1 A lda (A + N1 * lda) lda
        ftrtrm tm g side diag lda fuel N1 A

/-- `trinv_left`, ffpack_ftrtr.inl:149-156 -/
def trinvLeft (tm : Side → Uplo → Tr → Diag → ℕ → ℕ → K → ℕ → ℕ → ℕ → ℕ → Prog K Unit) (threshold N L ldl X ldx : ℕ) : Prog K Unit := do
  fassign N N L ldl X ldx
  ftrtri tm .lower .unit ldx threshold (N + 1) N X

end Verif.FF
