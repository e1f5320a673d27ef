import Verif.Model.Gemm
import Verif.Model.Trsm
import Verif.Model.Level2
import Verif.Model.ApplyP

/-!
# Probabilistic checkers

`freivalds` (/repo/fflas-ffpack/fflas/fflas_freivalds.inl) and the checkers of /repo/fflas-ffpack/checkers.  The random
generator is a function `rnd` from the index of the draw to the element drawn.  The result is the Boolean the C++ function
returns; the checkers `throw` where the model returns `false`.  `freivalds` leaves through `return`, so its blocks are freed;
the destructors of the checkers free `v` and `w` also when the check throws.

`finit(F,n,X,1)` sets every element to `F.init()`, which is the zero of the field: `vzero`.
-/

namespace Verif.FF

variable {K : Type} [Field K] [DecidableEq K]

/-- `frand`, stride 1, /repo/fflas-ffpack/fflas/fflas_level1.inl:191-207; also the loop fflas_freivalds.inl:63-65 -/
def frand (rnd : ℕ → K) (n X : ℕ) : Prog K Unit := loop n fun j => store (X + j) (rnd j)

/-- `freivalds`, /repo/fflas-ffpack/fflas/fflas_freivalds.inl:48-111.  The loop `pass &= F.isZero(x[j])` reads every entry. -/
def freivalds (cat : Cat) (rnd : ℕ → K) (ta tb : Tr) (m n k : ℕ) (alpha : K) (A lda B ldb C ldc : ℕ) : Prog K Bool := do
  let v ← alloc n
  let y ← alloc k
  let x ← alloc m
  frand rnd n v
  fgemv cat tb (opr tb k n) (opc tb k n) 1 B ldb v 1 0 y 1
  fgemv cat ta (opr ta m k) (opc ta m k) alpha A lda y 1 0 x 1
  fgemv cat .no m n (-1) C ldc v 1 1 x 1
  let pass ← iter m (fun j pass => do
    let e ← load (x + j)
    pure (pass && decide (e = 0))) true
  free y k
  free v n
  free x m
  pure pass

/-- first half of the checkers of `fgemm`, `ftrsm`, `PLUQ` and `invert`: allocation of `v` (`n` entries) and `w` (`m` entries),
random `v`, `w ← c · X · v`.  checkers/checker_fgemm.inl:40-48, :94-101; checker_ftrsm.inl:39-50, :108-115;
checker_pluq.inl:49-58, :132-146; checker_invert.inl:40-45, :67-78. -/
def checkInit (cat : Cat) (rnd : ℕ → K) (m n : ℕ) (c : K) (X ldx : ℕ) : Prog K (ℕ × ℕ) := do
  let v ← alloc n
  let w ← alloc m
  vzero n v 1
  vzero m w 1
  frand rnd n v
  fgemv cat .no m n c X ldx v 1 0 w 1
  pure (v, w)

/-- destructor of the checkers: `fflas_delete(v,w)` -/
def checkDone (m n v w : ℕ) : Prog K Unit := do
  free v n
  free w m

/-- `CheckerImplem_fgemm::check`, checkers/checker_fgemm.inl:63-91 -/
def checkFgemm (cat : Cat) (v w1 : ℕ) (ta tb : Tr) (m n k : ℕ) (alpha : K) (A lda B ldb C ldc : ℕ) : Prog K Bool := do
  fgemv cat .no m n 1 C ldc v 1 (-1) w1 1
  let w2 ← alloc k
  vzero k w2 1
  fgemv cat tb (opr tb k n) (opc tb k n) 1 B ldb v 1 0 w2 1
  fgemv cat ta (opr ta m k) (opc ta m k) alpha A lda w2 1 (-1) w1 1
  free w2 k
  viszero m w1 1

/-- the public `fgemm`, /repo/fflas-ffpack/fflas/fflas_fgemm.inl:322-347, compiled with the checker, around the product `g` -/
def fgemmChecked (cat : Cat) (rnd : ℕ → K) (g : GemmFn K) (ta tb : Tr) (m n k : ℕ) (alpha : K) (A lda B ldb : ℕ) (beta : K)
    (C ldc : ℕ) : Prog K Bool :=
  if m = 0 ∨ n = 0 then pure true
  else if k = 0 ∨ alpha = 0 then do
    fscalin cat m n beta C ldc
    pure true
  else do
    let (v, w) ← checkInit cat rnd m n beta C ldc
    g ta tb m n k alpha A lda B ldb beta C ldc
    let pass ← checkFgemm cat v w ta tb m n k alpha A lda B ldb C ldc
    checkDone m n v w
    pure pass

/-- `CheckerImplem_ftrsm::check`, checkers/checker_ftrsm.inl:68-105; `tm` is the public `ftrmm` -/
def checkFtrsm (cat : Cat) (tm : Side → Uplo → Tr → Diag → ℕ → ℕ → K → ℕ → ℕ → ℕ → ℕ → Prog K Unit) (v w : ℕ) (side : Side)
    (uplo : Uplo) (ta : Tr) (diag : Diag) (m n A lda X ldx : ℕ) : Prog K Bool := do
  let k := match side with
    | .left => m
    | .right => n
  let v1 ← alloc k
  vzero k v1 1
  match side with
    | .left => do
      fgemv cat .no m n 1 X ldx v 1 0 v1 1
      tm .left uplo ta diag k 1 1 A lda v1 1
      vsubin cat m v1 1 w 1
    | .right => do
      tm .left uplo ta diag k 1 1 A lda v 1
      fgemv cat .no m n 1 X ldx v 1 (-1) w 1
  free v1 k
  fiszero m 1 w 1

/-- the public `ftrsm`, /repo/fflas-ffpack/fflas/fflas_ftrsm.inl:40-59, compiled with the checker, around the solver `ts` -/
def ftrsmChecked (cat : Cat) (rnd : ℕ → K) (tm ts : Side → Uplo → Tr → Diag → ℕ → ℕ → K → ℕ → ℕ → ℕ → ℕ → Prog K Unit)
    (side : Side) (uplo : Uplo) (ta : Tr) (diag : Diag) (m n : ℕ) (alpha : K) (A lda B ldb : ℕ) : Prog K Bool := do
  let (v, w) ← checkInit cat rnd m n alpha B ldb
  ts side uplo ta diag m n alpha A lda B ldb
  let pass ← checkFtrsm cat tm v w side uplo ta diag m n A lda B ldb
  checkDone m n v w
  pure pass

/-- `oppDiag`, the diagonal of the other factor, checkers/checker_pluq.inl:110 -/
def oppDiag (d : Diag) : Diag := match d with
  | .nonUnit => .unit
  | .unit => .nonUnit

/-- `CheckerImplem_PLUQ::check`, checkers/checker_pluq.inl:81-129 -/
def checkPluq (g : GemmFn K) (tm : Side → Uplo → Tr → Diag → ℕ → ℕ → K → ℕ → ℕ → ℕ → ℕ → Prog K Unit) (v w : ℕ) (diag : Diag)
    (m n A lda r : ℕ) (P Q : Arr ℕ) : Prog K Bool := do
  let u ← alloc (max m n)
  fassign n 1 v 1 u 1
  applyP .left .no 1 0 n u 1 Q
  tm .left .upper .no diag r 1 1 A lda u 1
  let _ ← (if r < n then g .no .no r 1 (n - r) 1 (A + r) lda (u + r) 1 1 u 1 else pure ())
  let _ ← (if r < m then g .no .no (m - r) 1 r 1 (A + r * lda) lda u 1 0 (u + r) 1 else pure ())
  tm .left .lower .no (oppDiag diag) r 1 1 A lda u 1
  applyP .left .yes 1 0 m u 1 P
  let pass ← vequal m w 1 u 1
  free u (max m n)
  pure pass

/-- `PLUQ`, /repo/fflas-ffpack/ffpack/ffpack_pluq.inl:651-662, compiled with the checker, around the decomposition `body` -/
def pluqChecked (cat : Cat) (rnd : ℕ → K) (g : GemmFn K)
    (tm : Side → Uplo → Tr → Diag → ℕ → ℕ → K → ℕ → ℕ → ℕ → ℕ → Prog K Unit) (body : Prog K (ℕ × Arr ℕ × Arr ℕ)) (diag : Diag)
    (m n A lda : ℕ) : Prog K (Bool × ℕ × Arr ℕ × Arr ℕ) := do
  let (v, w) ← checkInit cat rnd m n 1 A lda
  let (r, P, Q) ← body
  let pass ← checkPluq g tm v w diag m n A lda r P Q
  checkDone m n v w
  pure (pass, r, P, Q)

/-- `CheckerImplem_invert::check`, checkers/checker_invert.inl:57-64 -/
def checkInvert (cat : Cat) (v w m A lda nullity : ℕ) : Prog K Bool := do
  fgemv cat .no m m 1 A lda w 1 (-1) v 1
  let z ← fiszero m 1 v 1
  pure (z || decide (nullity ≠ 0))

/-- `Invert`, /repo/fflas-ffpack/ffpack/ffpack_invert.inl:34-57, compiled with the checker; `body`, which returns the nullity,
is what stands between the two halves of the checker (for `M = 0` the function returns without calling `check`). -/
def invertChecked (cat : Cat) (rnd : ℕ → K) (body : Prog K ℕ) (m A lda : ℕ) : Prog K (Bool × ℕ) := do
  let (v, w) ← checkInit cat rnd m m 1 A lda
  if m = 0 then do
    checkDone m m v w
    pure (true, 0)
  else do
    let nul ← body
    let pass ← checkInvert cat v w m A lda nul
    checkDone m m v w
    pure (pass, nul)

end Verif.FF
