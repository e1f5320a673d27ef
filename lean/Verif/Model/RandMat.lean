import Verif.Model.Ftrtr
import Verif.Model.RandRook
import Verif.Model.Bruhat

/-!
# Random matrices

/repo/fflas-ffpack/utils/fflas_randommatrix.h: triangular, symmetric, of given rank, rank profile matrix, determinant or order of
quasi-separability.  The elements drawn are arbitrary functions of the place where they are put; those drawn by
`GeneralRingNonZeroRandIter` are given separately (the theorems assume that they are not zero).  Integers drawn are an arbitrary
sequence as in `Model/RandRook`.
-/

namespace Verif.FF

variable {K : Type} [Field K] [DecidableEq K]

/-- the elements drawn for a triangular matrix: `el i j` anywhere, `nz i` non-zero on the diagonal -/
structure TriDraws (K : Type) where
  el : ℕ → ℕ → K
  nz : ℕ → K

/-- the part inside the triangle and the zeroes of `RandomTriangularMatrix`, fflas_randommatrix.h:134-146.  `n-1` is computed on `size_t`. -/
def randTriBody (u : Uplo) (el : ℕ → ℕ → K) (m n A lda : ℕ) : Prog K Unit :=
  match u with
  | .upper => loop m fun i => do
    vzero (min i n) (A + i * lda) 1
    loop (n - i) fun t => store (A + (i * lda + (i + t))) (el i (i + t))
  | .lower => loop m fun i => do
    loop (i + 1) fun j => store (A + (i * lda + j)) (el i j)
    let n1 ← usub n 1
    vzero (n1 - min i n1) (A + i * lda + i + 1) 1

/-- `RandomTriangularMatrix`, fflas_randommatrix.h:129-158 -/
def randTri (u : Uplo) (d : Diag) (ns : Bool) (D : TriDraws K) (m n A lda : ℕ) : Prog K Unit := do
  randTriBody u D.el m n A lda
  match d with
  | .unit => loop (min m n) fun i => store (A + i * (lda + 1)) 1
  | .nonUnit => if ns = true then loop (min m n) fun i => store (A + i * (lda + 1)) (D.nz i) else pure ()

/-- the loop of `RandomSymmetricMatrix`, :203-211 -/
def randSymFill (cat : Cat) (n A lda : ℕ) : Prog K Unit :=
  loop n fun i => do
    let piv ← load (A + i * (lda + 1))
    if piv ≠ 0 then do
      let x ← load (A + i * (lda + 1))
      vscal cat (n - i - 1) x⁻¹ (A + i * (lda + 1) + 1) 1 (A + i * (lda + 1) + lda) lda
    else pure ()

/-- `RandomSymmetricMatrix`, :199-214 -/
def randSym (cat : Cat) (tm : TrsmFn K) (g : GemmFn K) (ns : Bool) (D : TriDraws K) (n A lda : ℕ) : Prog K Unit := do
  randTri .upper .nonUnit ns D n n A lda
  randSymFill cat n A lda
  ftrtrm tm g .right .nonUnit lda (n + 1) n A

/-- `P[i] = i + RandInt(0U,n-i)`, :255-258; the same values as `RandomPermutation`, :318-322 -/
def randLapack (dr : ℕ → ℕ) (n : ℕ) : Except Fault (Arr ℕ) := randomPermutation dr n (Arr.mk' n (fun _ => 0))

/-- `RandomMatrixWithRank`, :231-276.  The argument `r` is not used. -/
def randRank (g : GemmFn K) (dl du : TriDraws K) (dp dq : ℕ → ℕ) (m n _r A lda : ℕ) : Prog K Unit := do
  let U ← alloc (m * n)
  let L ← alloc (m * m)
  randTri .lower .nonUnit true dl m m L m
  randTri .upper .nonUnit true du m n U n
  let P ← liftE (randLapack dp n)
  let Q ← liftE (randLapack dq m)
  applyP .right .no m 0 n U n P
  applyP .left .no m 0 m L m Q
  g .no .no m n m 1 L m U n 0 A lda
  free L (m * m)
  free U (m * n)

/-- the columns of `L` in `RandomMatrixWithRankandRPM`, :755-761; `el k l` is drawn for pivot `k` and row `l` -/
def rpmCols (el : ℕ → ℕ → K) (nz : ℕ → K) (M N R L : ℕ) (rows cols : Arr ℕ) : Prog K Unit :=
  loop R fun k => do
    let i ← liftE (rows.rd k)
    let j ← liftE (cols.rd k)
    store (L + (i * N + j)) (nz k)
    loop (M - (i + 1)) fun t => store (L + ((i + 1 + t) * N + j)) (el k (i + 1 + t))

/-- `RandomMatrixWithRankandRPM`, :741-775 -/
def randRPM (g : GemmFn K) (el : ℕ → ℕ → K) (nz : ℕ → K) (du : TriDraws K) (M N R A lda : ℕ) (rows cols : Arr ℕ) : Prog K Unit := do
  let L ← alloc (M * N)
  fzero M N L N
  rpmCols el nz M N R L rows cols
  let U ← alloc (N * N)
  randTri .upper .nonUnit true du N N U N
  g .no .no M N N 1 L N U N 0 A lda
  free L (M * N)
  free U (N * N)

/-- `L <- U^T x R` in `RandomSymmetricMatrixWithRankandRPM`, :821-826.  `N-i` is computed on `size_t`. -/
def symCols (N R U L : ℕ) (rows cols : Arr ℕ) : Prog K Unit :=
  loop R fun k => do
    let i ← liftE (rows.rd k)
    let j ← liftE (cols.rd k)
    let c ← usub N i
    vassign c (U + i * (N + 1)) 1 (L + j + i * N) N

/-- `RandomSymmetricMatrixWithRankandRPM`, :810-833 -/
def randSymRPM (g : GemmFn K) (du : TriDraws K) (N R A lda : ℕ) (rows cols : Arr ℕ) : Prog K Unit := do
  let U ← alloc (N * N)
  let L ← alloc (N * N)
  randTri .upper .nonUnit true du N N U N
  fzero N N L N
  symCols N R U L rows cols
  g .no .no N N N 1 L N U N 0 A lda
  free L (N * N)
  free U (N * N)

/-- `RandomMatrixWithRankandRandomRPM`, :867-879; `junk` is what `fflas_new` leaves in the arrays -/
def randRankRPM (g : GemmFn K) (dr junk junk' : ℕ → ℕ) (el : ℕ → ℕ → K) (nz : ℕ → K) (du : TriDraws K) (M N R A lda : ℕ) : Prog K Unit := do
  let (rows, cols) ← liftE (randomRankProfileMatrix dr junk junk' M N R (Arr.mk' R junk) (Arr.mk' R junk'))
  randRPM g el nz du M N R A lda rows cols

/-- `RandomSymmetricMatrixWithRankandRandomRPM`, :911-923 -/
def randSymRankRPM (g : GemmFn K) (dr junk junk' : ℕ → ℕ) (fuel : ℕ) (du : TriDraws K) (N R A lda : ℕ) : Prog K Unit := do
  let (rows, cols) ← liftE (randomSymmetricRankProfileMatrix dr junk junk' fuel N R (Arr.mk' R junk) (Arr.mk' R junk'))
  randSymRPM g du N R A lda rows cols

/-- the sign of the permutations, :985-991: `d1 = 1` -/
def permSign (n : ℕ) (P : Arr ℕ) (b : Bool) : Except Fault Bool :=
  iter n (fun i b => do
    let x ← P.rd i
    pure (if x ≠ i then !b else b)) b

/-- `for (size_t i=0 ; i<n-1 ; ++i) F.mulin(dd,L[i*n+i])`, :996-998; the first argument is the number of factors -/
def diagProd (n L : ℕ) : ℕ → Prog K K
  | 0 => pure 1
  | k+1 => do
    let x ← diagProd n L k
    let y ← load (L + (k * n + k))
    pure (x * y)

/-- `RandomMatrixWithDet`, :968-1025; `F.div` by zero is a fault.  `fgemm` is given the literals `1.0` and `0.0`, taken to be one and zero. -/
def randDet (g : GemmFn K) (dl du : TriDraws K) (dp dq : ℕ → ℕ) (n : ℕ) (d : K) (A lda : ℕ) : Prog K Unit := do
  let U ← alloc (n * n)
  let L ← alloc (n * n)
  let P ← liftE (randLapack dp n)
  let Q ← liftE (randLapack dq n)
  let s ← liftE (permSign n P true)
  let s ← liftE (permSign n Q s)
  randTri .lower .nonUnit true dl n n L n
  let n1 ← usub n 1
  let dd ← diagProd n L n1
  if dd = 0 then Prog.fault .divZero
  else do
    let o ← usub (n * n) 1
    store (L + o) (if s = true then d / dd else -(d / dd))
    randTri .upper .unit true du n n U n
    applyP .right .no n 0 n U n P
    applyP .left .no n 0 n L n Q
    g .no .no n n n 1 L n U n 0 A lda
    free L (n * n)
    free U (n * n)

/-- `fzero (F, FflasRightTri, FflasNonUnit, n, A, lda)`, fflas_level2.inl:93-112: the last row first, one entry less in each row -/
def fzeroRight (n A lda : ℕ) : Prog K Unit :=
  loop n fun t => vzero (n - t) (A + ((n - 1 - t) * lda + t)) 1

/-- `RandomLTQSMatrixWithRankandQSorder`, :1028-1050 -/
def randLTQS (g : GemmFn K) (dr junk : ℕ → ℕ) (jz : ℕ → ℤ) (el : ℕ → ℕ → K) (nz : ℕ → K) (du : TriDraws K) (n r t A lda : ℕ) : Prog K Unit := do
  let (rows, cols) ← liftE (randomLTQSRankProfileMatrix dr junk jz n r t (Arr.mk' r junk) (Arr.mk' r junk))
  randRPM g el nz du n n r A lda rows cols
  fzeroRight n A lda

end Verif.FF
