import Verif.Model.LUdivine
import Verif.Model.RankProfile
import Verif.Model.Echelon

/-!
# Functions that call LUdivine

/repo/fflas-ffpack/ffpack/ffpack.inl (`IsSingular`), ffpack_rankprofiles.inl, ffpack_invert.inl (`Invert2`).  `cutoff` is
`__FFLASFFPACK_LUDIVINE_THRESHOLD` (1 unless defined otherwise, fflas-ffpack-default-thresholds.h:21-22), the default argument of
`LUdivine` (ffpack.h:651).  Arrays from `fflas_new` have contents given by `jk`.
-/

namespace Verif.FF

open Verif.Perm

variable {K : Type} [Field K] [DecidableEq K]

/-- `IsSingular`, ffpack.inl:74-91; the result of `LUdivine` is converted to `bool`. -/
def isSingular (cat : Cat) (g : GemmFn K) (ts : TrsmFn K) (cutoff : ℕ) (jk : List ℕ → ℕ → ℕ) (M N A lda : ℕ) : Prog K Bool :=
  if M = 0 ∧ N = 0 then pure false
  else if M = 0 ∨ N = 0 then pure true
  else if M ≠ N then pure true
  else do
    let (R, _, _) ← ludivine cat g ts cutoff .no .nonUnit true M N A lda (Arr.mk' N (jk [0])) (Arr.mk' M (jk [1]))
    pure (decide (R = 0))

/-- `RowRankProfile` with `LuTag = FfpackSlabRecursive`, ffpack_rankprofiles.inl:51-75 -/
def slabRowRankProfile (cat : Cat) (g : GemmFn K) (ts : TrsmFn K) (cutoff : ℕ) (jk : List ℕ → ℕ → ℕ) (M N A lda : ℕ) :
    Prog K (ℕ × Arr ℕ) := do
  let (R, _, Q) ← ludivine cat g ts cutoff .no .nonUnit false M N A lda (Arr.mk' N (jk [0])) (Arr.mk' M (jk [1]))
  let rk ← liftE (rankProfileFromLU Q M R (Arr.mk' R (jk [2])) (jk [3]) .slab)
  pure (R, rk)

/-- `ColumnRankProfile` with `LuTag = FfpackSlabRecursive`, ffpack_rankprofiles.inl:98-118 -/
def slabColumnRankProfile (cat : Cat) (g : GemmFn K) (ts : TrsmFn K) (cutoff : ℕ) (jk : List ℕ → ℕ → ℕ) (M N A lda : ℕ) :
    Prog K (ℕ × Arr ℕ) := do
  let (R, _, Q) ← ludivine cat g ts cutoff .yes .nonUnit false M N A lda (Arr.mk' M (jk [0])) (Arr.mk' N (jk [1]))
  let rk ← liftE (rankProfileFromLU Q N R (Arr.mk' R (jk [2])) (jk [3]) .slab)
  pure (R, rk)

/-- the exchanges of the first `R` entries of `P` performed on an array, ffpack_rankprofiles.inl:187-193, :221-227 -/
def exchangeAll (X P : Arr ℕ) (R : ℕ) : Except Fault (Arr ℕ) :=
  iter R (fun i X => do
    let p ← P.rd i
    if i ≠ p then aswap X i p else pure X) X

/-- `RowRankProfileSubmatrixIndices`, ffpack_rankprofiles.inl:166-199; returns `R`, `rowindices`, `colindices` -/
def rowIndices (cat : Cat) (g : GemmFn K) (ts : TrsmFn K) (cutoff : ℕ) (jk : List ℕ → ℕ → ℕ) (M N A lda : ℕ) :
    Prog K (ℕ × Arr ℕ × Arr ℕ) := do
  let (R, P, Q) ← ludivine cat g ts cutoff .no .nonUnit false M N A lda (Arr.mk' N (jk [0])) (Arr.mk' M (jk [1]))
  let rows ← liftE (copyTo Q 0 (Arr.mk' M (jk [2])) 0 R)
  let cols ← liftE (iota (Arr.mk' N (jk [3])) N)
  let cols ← liftE (exchangeAll cols P R)
  pure (R, rows, cols)

/-- `ColRankProfileSubmatrixIndices`, ffpack_rankprofiles.inl:201-234.  The array `rowindices` has `M` entries and the
loop that initialises it (:218-219) stops at `N`. -/
def colIndices (cat : Cat) (g : GemmFn K) (ts : TrsmFn K) (cutoff : ℕ) (jk : List ℕ → ℕ → ℕ) (M N A lda : ℕ) :
    Prog K (ℕ × Arr ℕ × Arr ℕ) := do
  let (R, P, Q) ← ludivine cat g ts cutoff .yes .nonUnit false M N A lda (Arr.mk' M (jk [0])) (Arr.mk' N (jk [1]))
  let cols ← liftE (copyTo Q 0 (Arr.mk' N (jk [2])) 0 R)
  let rows ← liftE (iota (Arr.mk' M (jk [3])) N)
  let rows ← liftE (exchangeAll rows P R)
  pure (R, rows, cols)

/-- the copy of the submatrix, ffpack_rankprofiles.inl:250-253, :276-279 -/
def submatrix (R A lda X : ℕ) (rows cols : Arr ℕ) : Prog K Unit :=
  loop R fun i => loop R fun j => do
    let a ← liftE (rows.rd i)
    let b ← liftE (cols.rd j)
    let x ← load (A + a * lda + b)
    store (X + i * R + j) x

/-- `RowRankProfileSubmatrix`, ffpack_rankprofiles.inl:236-258; returns `R` and `X` -/
def rowRankProfileSubmatrix (cat : Cat) (g : GemmFn K) (ts : TrsmFn K) (cutoff : ℕ) (jk : List ℕ → ℕ → ℕ) (M N A lda : ℕ) :
    Prog K (ℕ × ℕ) := do
  let A2 ← alloc (M * N)
  fassign M N A lda A2 N
  let (R, rows, cols) ← rowIndices cat g ts cutoff jk M N A2 N
  let X ← alloc (R * R)
  submatrix R A lda X rows cols
  free A2 (M * N)
  pure (R, X)

/-- `ColRankProfileSubmatrix`, ffpack_rankprofiles.inl:260-282 -/
def colRankProfileSubmatrix (cat : Cat) (g : GemmFn K) (ts : TrsmFn K) (cutoff : ℕ) (jk : List ℕ → ℕ → ℕ) (M N A lda : ℕ) :
    Prog K (ℕ × ℕ) := do
  let A2 ← alloc (M * N)
  fassign M N A lda A2 N
  let (R, rows, cols) ← colIndices cat g ts cutoff jk M N A2 N
  let X ← alloc (R * R)
  submatrix R A lda X rows cols
  free A2 (M * N)
  pure (R, X)

/-- `LQUPtoInverseOfFullRankMinor`, ffpack_rankprofiles.inl:284-316; `tt` is `__FFLASFFPACK_FTRTRI_THRESHOLD` -/
def lqupToInverse (ts tm : TrsmFn K) (tt rank A lda X ldx : ℕ) (Qt : Arr ℕ) : Prog K Unit := do
  loop rank fun row => do
    let s ← liftE (Qt.rd row)
    if s ≠ row then
      loop row fun col => do
        let x ← load (A + s * lda + col)
        store (A + row * lda + col) x
    else pure ()
  ftrtri tm .lower .unit lda tt (rank + 1) rank A
  fassign rank rank A lda X ldx
  ts .left .upper .no .nonUnit rank rank 1 A lda X ldx

/-- The unit lower triangular part of `A` written to `X`, with the zeros above, ffpack_invert.inl:119-126. -/
def unitLowerTo (M A lda X ldx : ℕ) : Prog K Unit := do
  loop M fun i => do
    loop (M - i) fun t => store (X + i * ldx + (i + t)) 0
    store (X + i * (ldx + 1)) 1
  loop (M - 1) fun t => vassign (t + 1) (A + (t + 1) * lda) 1 (X + (t + 1) * ldx) 1

/-- `Invert2`, ffpack_invert.inl:77-134; returns the nullity.  `X` is left as it is if the nullity is positive. -/
def invert2 (cat : Cat) (g : GemmFn K) (ts tm : TrsmFn K) (cutoff tt : ℕ) (jk : List ℕ → ℕ → ℕ) (M A lda X ldx : ℕ) : Prog K ℕ :=
  if M = 0 then pure 0
  else do
    let (R, P, _) ← ludivine cat g ts cutoff .no .nonUnit false M M A lda (Arr.mk' M (jk [0])) (Arr.mk' M (jk [1]))
    if 0 < M - R then pure (M - R)
    else do
      fzero M M X ldx
      ftrtri tm .lower .unit lda tt (M + 1) M A
      unitLowerTo M A lda X ldx
      ts .left .upper .no .nonUnit M M 1 A lda X ldx
      applyP .left .yes M 0 M X ldx P
      pure 0

end Verif.FF
