import Verif.Model.EchelonSlab
import Verif.Model.RankProfile

/-!
# Accessors to the triangular factors, the echelon forms and their transformations

/repo/fflas-ffpack/ffpack/ffpack_echelonforms.inl:440-825.  `d` is `diag`, `u` is `Uplo`, `onz` is `OnlyNonZeroVectors`.  The
differences `N-i-1`, `M-R`, … do not wrap for `i < R ≤ M, N`, and `N-piv-1` not for `piv < N`.
-/

namespace Verif.FF

open Verif.Perm

variable {K : Type} [Field K] [DecidableEq K]

/-- one row of the upper triangular factor, ffpack_echelonforms.inl:459-467 -/
def triRowUpper (d : Diag) (N A lda T ldt i : ℕ) : Prog K Unit := do
  vzero i (T + i * ldt) 1
  match d with
  | .nonUnit => vassign (N - i) (A + i * lda + i) 1 (T + i * ldt + i) 1
  | .unit => do
    store (T + i * ldt + i) 1
    vassign (N - i - 1) (A + i * lda + i + 1) 1 (T + i * ldt + i + 1) 1

/-- one row of the lower triangular factor, ffpack_echelonforms.inl:474-482 -/
def triRowLower (d : Diag) (maxcol A lda T ldt i : ℕ) : Prog K Unit := do
  match d with
  | .nonUnit => do
    vassign (i + 1) (A + i * lda) 1 (T + i * ldt) 1
    vzero (maxcol - i - 1) (T + i * ldt + i + 1) 1
  | .unit => do
    vassign i (A + i * lda) 1 (T + i * ldt) 1
    store (T + i * ldt + i) 1
    vzero (maxcol - i - 1) (T + i * ldt + i + 1) 1

/-- `getTriangular` out of place, ffpack_echelonforms.inl:445-489 -/
def getTriangular (u : Uplo) (d : Diag) (M N R A lda T ldt : ℕ) (onz : Bool) : Prog K Unit :=
  match u with
  | .upper => do
    loop R (triRowUpper d N A lda T ldt)
    if onz then pure () else fzero (M - R) N (T + R * ldt) ldt
  | .lower => do
    loop R (triRowLower d (if onz then R else N) A lda T ldt)
    fassign (M - R) R (A + R * lda) lda (T + R * ldt) ldt
    if onz then pure () else fzero (M - R) (N - R) (T + R * ldt + R) ldt

/-- `if (diag == FflasUnit) F.assign (*p, F.one)` -/
def unitAt (d : Diag) (p : ℕ) : Prog K Unit :=
  match d with
  | .unit => store p 1
  | .nonUnit => pure ()

/-- `getTriangular` in place, ffpack_echelonforms.inl:490-514 -/
def getTriangularIn (u : Uplo) (d : Diag) (M N R A lda : ℕ) : Prog K Unit :=
  match u with
  | .upper => do
    loop R fun i => do
      vzero i (A + i * lda) 1
      unitAt d (A + i * lda + i)
    fzero (M - R) N (A + R * lda) lda
  | .lower => do
    loop R fun i => do
      unitAt d (A + i * lda + i)
      vzero (N - i - 1) (A + i * lda + i + 1) 1
    fzero (M - R) (N - R) (A + R * lda + R) lda

/-- `PLUQtoEchelonPermutation`, ffpack_echelonforms.inl:516-530; `outPerm` has `R` entries -/
def pluqToEchelonPermutation (jk : ℕ → ℕ → ℕ) (N R : ℕ) (P outPerm : Arr ℕ) : Except Fault (Arr ℕ) := do
  let MP ← LAPACKPerm2MathPerm (Arr.mk' N (jk 0)) P N
  let invMP ← iter N (fun i (X : Arr ℕ) => do
    let x ← MP.rd i
    X.wr x i) (Arr.mk' N (jk 1))
  let MP ← sortPrefix MP R
  let MP ← iter R (fun i (X : Arr ℕ) => do
    let x ← X.rd i
    let y ← invMP.rd x
    X.wr i y) MP
  MathPerm2LAPACKPerm outPerm MP R (jk 2) (jk 3)

/-- `LuTag` of the echelon functions (`FfpackGaussJordanSlab` is left out) -/
inductive EchTag | slab | tile | gjTile
deriving DecidableEq

/-- rows of a row echelon form, ffpack_echelonforms.inl:545-554 -/
def echRowTo (d : Diag) (N A lda T ldt : ℕ) (P : Arr ℕ) (i : ℕ) : Prog K Unit := do
  let piv ← liftE (P.rd i)
  vzero piv (T + i * ldt) 1
  match d with
  | .nonUnit => vassign (N - piv) (A + i * lda + piv) 1 (T + i * ldt + piv) 1
  | .unit => do
    store (T + i * ldt + piv) 1
    vassign (N - piv - 1) (A + i * lda + piv + 1) 1 (T + i * ldt + piv + 1) 1

/-- columns of a column echelon form, ffpack_echelonforms.inl:558-567 -/
def echColTo (d : Diag) (M A lda T ldt : ℕ) (P : Arr ℕ) (i : ℕ) : Prog K Unit := do
  let piv ← liftE (P.rd i)
  vzero piv (T + i) ldt
  match d with
  | .nonUnit => vassign (M - piv) (A + i + piv * lda) lda (T + i + piv * ldt) ldt
  | .unit => do
    store (T + i + piv * ldt) 1
    vassign (M - piv - 1) (A + i + (piv + 1) * lda) lda (T + i + (piv + 1) * ldt) ldt

/-- the permutation `LPerm` applied to the rows (side left, not transposed) or the columns (side right, transposed) -/
def applyLPerm (jk : ℕ → ℕ → ℕ) (side : Side) (dim n R T ldt : ℕ) (P : Arr ℕ) : Prog K Unit := do
  let LPerm ← liftE (pluqToEchelonPermutation jk n R P (Arr.mk' R (jk 4)))
  applyP side (match side with | .left => .no | .right => .yes) dim 0 R T ldt LPerm

/-- `getEchelonForm` out of place, ffpack_echelonforms.inl:532-594 -/
def getEchelonForm (jk : ℕ → ℕ → ℕ) (tag : EchTag) (u : Uplo) (d : Diag) (M N R : ℕ) (P : Arr ℕ) (A lda T ldt : ℕ) (onz : Bool) : Prog K Unit :=
  if tag ≠ .tile then
    match u with
    | .upper => do
      loop R (echRowTo d N A lda T ldt P)
      if onz then pure () else fzero (M - R) N (T + R * ldt) ldt
    | .lower => do
      loop R (echColTo d M A lda T ldt P)
      if onz then pure () else fzero M (N - R) (T + R) ldt
  else do
    getTriangular u d M N R A lda T ldt onz
    match u with
    | .lower => do
      applyP .left .yes (if onz then R else N) 0 M T ldt P
      applyLPerm jk .right M M R T ldt P
    | .upper => do
      applyP .right .no (if onz then R else M) 0 N T ldt P
      applyLPerm jk .left N N R T ldt P

/-- `getEchelonForm` in place, ffpack_echelonforms.inl:595-645 -/
def getEchelonFormIn (jk : ℕ → ℕ → ℕ) (tag : EchTag) (u : Uplo) (d : Diag) (M N R : ℕ) (P : Arr ℕ) (A lda : ℕ) : Prog K Unit :=
  if tag ≠ .tile then
    match u with
    | .upper => do
      loop R fun i => do
        let piv ← liftE (P.rd i)
        vzero piv (A + i * lda) 1
        unitAt d (A + i * lda + piv)
      fzero (M - R) N (A + R * lda) lda
    | .lower => do
      loop R fun i => do
        let piv ← liftE (P.rd i)
        vzero piv (A + i) lda
        unitAt d (A + i + piv * lda)
      fzero M (N - R) (A + R) lda
  else do
    getTriangularIn u d M N R A lda
    match u with
    | .lower => do
      applyP .left .yes N 0 M A lda P
      applyLPerm jk .right M M R A lda P
    | .upper => do
      applyP .right .no M 0 N A lda P
      applyLPerm jk .left N N R A lda P

/-- `getEchelonTransform`, ffpack_echelonforms.inl:647-692 -/
def getEchelonTransform (jk : ℕ → ℕ → ℕ) (tag : EchTag) (u : Uplo) (d : Diag) (M N R : ℕ) (P Q : Arr ℕ) (A lda T ldt : ℕ) : Prog K Unit :=
  match u with
  | .lower => do
    getTriangular .upper (otherDiag d) M N R A lda T ldt true
    fidentity (N - R) (N - R) (T + R * ldt + R) ldt 1
    fzero (N - R) R (T + R * ldt) ldt
    applyP .left .yes N 0 (if tag = .tile then N else R) T ldt P
    if tag = .tile then applyLPerm jk .right N M R T ldt Q else pure ()
  | .upper => do
    getTriangular .lower (otherDiag d) M N R A lda T ldt true
    fidentity (M - R) (M - R) (T + R * ldt + R) ldt 1
    fzero R (M - R) (T + R) ldt
    applyP .right .no M 0 (if tag = .tile then M else R) T ldt P
    if tag = .tile then applyLPerm jk .left M N R T ldt Q else pure ()

/-- `getReducedEchelonForm` out of place, ffpack_echelonforms.inl:693-740 -/
def getReducedEchelonForm (jk : ℕ → ℕ → ℕ) (tag : EchTag) (u : Uplo) (M N R : ℕ) (P : Arr ℕ) (A lda T ldt : ℕ) (onz : Bool) : Prog K Unit := do
  fidentity R R T ldt 1
  match u with
  | .upper => do
    fassign R (N - R) (A + R) lda (T + R) ldt
    applyP .right .no R 0 (if tag = .slab then R else N) T ldt P
    let _ ← (if onz then pure () else fzero (M - R) N (T + R * ldt) ldt)
    if tag = .tile ∨ tag = .gjTile then applyLPerm jk .left N N R T ldt P else pure ()
  | .lower => do
    fassign (M - R) R (A + R * lda) lda (T + R * ldt) ldt
    applyP .left .yes R 0 (if tag = .slab then R else M) T ldt P
    let _ ← (if onz then pure () else fzero M (N - R) (T + R) ldt)
    if tag = .tile then applyLPerm jk .right M M R T ldt P else pure ()

/-- `getReducedEchelonForm` in place, ffpack_echelonforms.inl:741-779 -/
def getReducedEchelonFormIn (jk : ℕ → ℕ → ℕ) (tag : EchTag) (u : Uplo) (M N R : ℕ) (P : Arr ℕ) (A lda : ℕ) : Prog K Unit := do
  fidentity R R A lda 1
  match u with
  | .upper => do
    applyP .right .no R 0 (if tag = .slab then R else N) A lda P
    fzero (M - R) N (A + R * lda) lda
    if tag = .tile ∨ tag = .gjTile then applyLPerm jk .left N N R A lda P else pure ()
  | .lower => do
    applyP .left .yes R 0 (if tag = .slab then R else M) A lda P
    fzero M (N - R) (A + R) lda
    if tag ≠ .slab then applyLPerm jk .right M M R A lda P else pure ()

/-- `getReducedEchelonTransform`, ffpack_echelonforms.inl:780-826 -/
def getReducedEchelonTransform (jk : ℕ → ℕ → ℕ) (tag : EchTag) (u : Uplo) (M N R : ℕ) (P Q : Arr ℕ) (A lda T ldt : ℕ) : Prog K Unit :=
  match u with
  | .lower => do
    fidentity (N - R) (N - R) (T + R * ldt + R) ldt 1
    fassign R N A lda T ldt
    fzero (N - R) R (T + R * ldt) ldt
    applyP .left .yes N 0 (if tag = .tile ∨ tag = .gjTile then N else R) T ldt P
    if tag = .tile then applyLPerm jk .right N M R T ldt Q else pure ()
  | .upper => do
    fidentity (M - R) (M - R) (T + R * ldt + R) ldt 1
    fassign M R A lda T ldt
    fzero R (M - R) (T + R) ldt
    applyP .right .no M 0 (if tag = .tile ∨ tag = .gjTile then M else R) T ldt P
    if tag ≠ .slab then applyLPerm jk .left M N R T ldt Q else pure ()

end Verif.FF
