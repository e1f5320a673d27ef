import Verif.Model.Gemm

/-!
# Symmetric rank-k and rank-2k updates

`fsyrk`: default, divide and conquer and delayed versions, the versions with a diagonal or a block diagonal matrix in the middle, and
`fsyr2k`.  Conversions to and reductions in another representation do not change values in the field and are omitted.
`fsyrk_convert` (fflas_fsyrk.inl:30-75) is not modelled: it calls a version of `freduce` that does not exist.
-/

namespace Verif.FF

variable {K : Type} [Field K] [DecidableEq K]

/-- first column of row `i` in the selected triangle -/
def rowBeg (u : Uplo) (i : ℕ) : ℕ := match u with
  | .upper => i
  | .lower => 0

/-- number of entries of row `i` in the selected triangle of a matrix of order `n` -/
def rowLen (u : Uplo) (n i : ℕ) : ℕ := match u with
  | .upper => n - i
  | .lower => i + 1

/-- signature of `fsyrk`: `uplo trans n k alpha A lda beta C ldc` -/
abbrev SyrkFn (K : Type) := Uplo → Tr → ℕ → ℕ → K → ℕ → ℕ → K → ℕ → ℕ → Prog K Unit

/-- the other value of `trans` -/
def oppTr : Tr → Tr
  | .no => .yes
  | .yes => .no

/-- `fsyrk`, default version, /repo/fflas-ffpack/fflas/fflas_fsyrk.inl:117-168. -/
def fsyrkDefault : SyrkFn K := fun u trans n k alpha A lda beta C ldc =>
  loop n fun i => loop (rowLen u n i) fun t => do
    let j := rowBeg u i + t
    let c ← load (C + i * ldc + j)
    store (C + i * ldc + j) (c * beta)
    let d ← (match trans with
      | .no => vdot k (A + i * lda) 1 (A + j * lda) 1
      | .yes => vdot k (A + i) lda (A + j) lda)
    let c ← load (C + i * ldc + j)
    store (C + i * ldc + j) (c + alpha * d)

/-- distance between rows of `op(A)`, fflas_fsyrk.inl:522-525 -/
def incRow (trans : Tr) (lda : ℕ) : ℕ := match trans with
  | .no => lda
  | .yes => 1

/-- distance between columns of `op(A)`, fflas_fsyrk.inl:522-525 -/
def incCol (trans : Tr) (lda : ℕ) : ℕ := match trans with
  | .no => 1
  | .yes => lda

/-- `fsyrk`, divide and conquer, fflas_fsyrk.inl:392-440: `base` is the classical version called at recursion level 0. -/
def fsyrkDC (g : GemmFn K) (base : SyrkFn K) : ℕ → SyrkFn K
  | 0 => base
  | lev+1 => fun u trans n k alpha A lda beta C ldc => do
    let n1 := n / 2
    let n2 := n - n1
    let A2 := A + n1 * incRow trans lda
    let C12 := C + n1
    let C21 := C + n1 * ldc
    let C22 := C12 + n1 * ldc
    fsyrkDC g base lev u trans n1 k alpha A lda beta C ldc
    fsyrkDC g base lev u trans n2 k alpha A2 lda beta C22 ldc
    match u with
    | .upper => g trans (oppTr trans) n1 n2 k alpha A lda A2 lda beta C12 ldc
    | .lower => g trans (oppTr trans) n2 n1 k alpha A2 lda A lda beta C21 ldc

/-- address of column (or row) `l` of the `k` columns (rows) of `A`, fflas_fsyrk.inl:342-344 -/
def shiftA (trans : Tr) (lda l : ℕ) : ℕ := match trans with
  | .no => l
  | .yes => l * lda

/-- `fsyrk` over a field with delayed reductions, called with `alpha = ±1`, fflas_fsyrk.inl:263-390, `kmax` being the number of terms
that can be accumulated; the products over the delayed field (`cblas_?syrk`, fflas_fsyrk.inl:459-491) are modelled by `fsyrkDefault`. -/
def fsyrkLazy (cat : Cat) (kmax : ℕ) : SyrkFn K := fun u trans n k alpha A lda beta C ldc =>
  if n = 0 then pure ()
  else if k = 0 ∨ alpha = 0 then fscalin cat n n beta C ldc
  else if kmax = 0 then fsyrkDefault u trans n k alpha A lda beta C ldc
  else do
    let k2 := min k kmax
    let nblock := if k % kmax = 0 then k / kmax - 1 else k / kmax
    let remblock := if k % kmax = 0 then kmax else k % kmax
    fsyrkDefault u trans n remblock alpha (A + nblock * shiftA trans lda k2) lda beta C ldc
    loop nblock fun i => fsyrkDefault u trans n k2 alpha (A + i * shiftA trans lda k2) lda 1 C ldc

/-- `fsyrk` with delayed reductions, fflas_fsyrk.inl:224-261 with `ScalAndReduce`, :201-222: `alpha` other than `±1` is factored out, and
the whole matrix `C` is multiplied by it at the end. -/
def fsyrkDelayed (cat : Cat) (kmax : ℕ) : SyrkFn K := fun u trans n k alpha A lda beta C ldc =>
  if n = 0 then pure ()
  else if k = 0 ∨ alpha = 0 then fscalin cat n n beta C ldc
  else if alpha ≠ 1 ∧ alpha ≠ -1 then do
    let b ← liftE (divE beta alpha)
    fsyrkLazy cat kmax u trans n k 1 A lda b C ldc
    fscalin cat n n alpha C ldc
  else fsyrkLazy cat kmax u trans n k alpha A lda beta C ldc

/-- Public `fsyrk`, fflas_fsyrk.inl:78-116, calling the version `s` selected by the field. -/
def fsyrk (cat : Cat) (s : SyrkFn K) : SyrkFn K := fun u trans n k alpha A lda beta C ldc =>
  if n = 0 then pure ()
  else if k = 0 ∨ alpha = 0 then fscalin cat n n beta C ldc
  else s u trans n k alpha A lda beta C ldc

/-- `fsyrk` with a diagonal matrix, sequential, fflas_fsyrk.inl:494-583: `C ← alpha op(A) D op(A)ᵀ + beta C`, `op(A) ← op(A) D`.  The
first argument bounds the depth of the recursion (`n` suffices when `thr ≥ 1`, proved; for `thr = 0` the code does not terminate). -/
def fsyrkDiag (cat : Cat) (g : GemmFn K) (thr : ℕ) (u : Uplo) (trans : Tr) (k : ℕ) (alpha : K) (lda D incD : ℕ) (beta : K) (ldc : ℕ) :
    ℕ → ℕ → ℕ → ℕ → Prog K Unit
  | 0, _, _, _ => Prog.fault .fuel
  | fuel+1, n, A, C =>
    if n ≤ thr then do
      let temp ← alloc (n * k)
      let ldt := opc trans n k
      fassign (opr trans n k) (opc trans n k) A lda temp ldt
      loop k fun l => do
        let d ← load (D + l * incD)
        vscalin cat n d (A + l * incCol trans lda) (incRow trans lda)
      g trans (oppTr trans) n n k alpha A lda temp ldt beta C ldc
      free temp (n * k)
    else do
      let n1 := n / 2
      let n2 := n - n1
      let A2 := A + n1 * incRow trans lda
      let C12 := C + n1
      let C21 := C + n1 * ldc
      let C22 := C12 + n1 * ldc
      let temp ← alloc (max n2 n1 * k)
      let ldt := opc trans n2 k
      loop k fun l => do
        let d ← load (D + l * incD)
        vscal cat n2 d (A2 + l * incCol trans lda) (incRow trans lda) (temp + l * incCol trans ldt) (incRow trans ldt)
      let _ ← (match u with
        | .upper => g trans (oppTr trans) n1 n2 k alpha A lda temp ldt beta C12 ldc
        | .lower => g trans (oppTr trans) n2 n1 k alpha temp ldt A lda beta C21 ldc)
      free temp (max n2 n1 * k)
      fsyrkDiag cat g thr u trans k alpha lda D incD beta ldc fuel n1 A C
      fsyrkDiag cat g thr u trans k alpha lda D incD beta ldc fuel n2 A2 C22

/-- the loops over the blocks of the block diagonal matrix, fflas_fsyrk.inl:711-719 and :743-752: `one i` for a block of size 1 at `i`,
`two i` for a block of size 2 at `i, i+1`.  Reading `twoBlocks` beyond its end is a fault. -/
def blocks (tb : Arr Bool) (k : ℕ) (one two : ℕ → Prog K Unit) : ℕ → ℕ → Prog K Unit
  | 0, i => if i < k then Prog.fault .fuel else pure ()
  | fuel+1, i => if i < k then do
      let b ← liftE (tb.rd i)
      if b then do
        two i
        blocks tb k one two fuel (i + 2)
      else do
        one i
        blocks tb k one two fuel (i + 1)
    else pure ()

/-- `fsyrk` with a block diagonal matrix `Δ D`, fflas_fsyrk.inl:677-769. -/
def fsyrkBlk (cat : Cat) (g : GemmFn K) (thr : ℕ) (u : Uplo) (trans : Tr) (k : ℕ) (alpha : K) (lda D incD : ℕ) (tb : Arr Bool) (beta : K)
    (ldc : ℕ) : ℕ → ℕ → ℕ → ℕ → Prog K Unit
  | 0, _, _, _ => Prog.fault .fuel
  | fuel+1, n, A, C =>
    if n ≤ thr then do
      let temp ← alloc (n * k)
      let ldt := opc trans n k
      fassign (opr trans n k) (opc trans n k) A lda temp ldt
      blocks tb k
        (fun l => do
          let d ← load (D + l * incD)
          vscalin cat n d (A + l * incCol trans lda) (incRow trans lda))
        (fun l => do
          let d ← load (D + l * incD)
          vscal cat n d (A + l * incCol trans lda + incCol trans lda) (incRow trans lda) (A + l * incCol trans lda) (incRow trans lda)
          let d ← load (D + l * incD)
          vscal cat n d (temp + l * incCol trans ldt) (incRow trans ldt) (A + l * incCol trans lda + incCol trans lda) (incRow trans lda))
        k 0
      g trans (oppTr trans) n n k alpha A lda temp ldt beta C ldc
      free temp (n * k)
    else do
      let n1 := n / 2
      let i ← liftE (usub n1 1)
      let b ← liftE (tb.rd i)
      let n1 := if b then n1 + 1 else n1
      let n2 := n - n1
      let A2 := A + n1 * incRow trans lda
      let C12 := C + n1
      let C21 := C + n1 * ldc
      let C22 := C12 + n1 * ldc
      let temp ← alloc (max n2 n1 * k)
      let ldt := opc trans n2 k
      blocks tb k
        (fun l => do
          let d ← load (D + l * incD)
          vscal cat n2 d (A2 + l * incCol trans lda) (incRow trans lda) (temp + l * incCol trans ldt) (incRow trans ldt))
        (fun l => do
          let d ← load (D + l * incD)
          vscal cat n2 d (A2 + l * incCol trans lda) (incRow trans lda) (temp + l * incCol trans ldt + incCol trans ldt) (incRow trans ldt)
          let d ← load (D + l * incD)
          vscal cat n2 d (A2 + l * incCol trans lda + incCol trans lda) (incRow trans lda) (temp + l * incCol trans ldt) (incRow trans ldt))
        k 0
      let _ ← (match u with
        | .upper => g trans (oppTr trans) n1 n2 k alpha A lda temp ldt beta C12 ldc
        | .lower => g trans (oppTr trans) n2 n1 k alpha temp ldt A lda beta C21 ldc)
      free temp (max n2 n1 * k)
      fsyrkBlk cat g thr u trans k alpha lda D incD tb beta ldc fuel n1 A C
      fsyrkBlk cat g thr u trans k alpha lda D incD tb beta ldc fuel n2 A2 C22

/-- the part of `fsyr2k` after the shape tests, fflas_fsyr2k.inl:47-101 (`F.characteristic() != 2` is `2 ≠ 0` in a field) -/
def fsyr2kCore (cat : Cat) (g : GemmFn K) (u : Uplo) (trans : Tr) (n k : ℕ) (alpha : K) (A lda B ldb : ℕ) (beta : K) (C ldc : ℕ) :
    Prog K Unit := do
  let diagC ← (if (2 : K) ≠ 0 then do
      let itwo ← liftE (invE (2 : K))
      vscalin cat n itwo C (ldc + 1)
      pure 0
    else do
      let diagC ← alloc n
      vscal cat n beta C (ldc + 1) diagC 1
      pure diagC)
  loop n fun i => match u with
    | .upper => vzero i (C + i * ldc) 1
    | .lower => vzero i (C + i) ldc
  g trans (oppTr trans) n n k alpha A lda B ldb beta C ldc
  if (2 : K) ≠ 0 then
    loop n fun i => match u with
      | .upper => vaddin cat (i + 1) (C + i * ldc) 1 (C + i) ldc
      | .lower => vaddin cat (n - i) (C + i * ldc + i) 1 (C + i * ldc + i) ldc
  else do
    loop n fun i => match u with
      | .upper => vaddin cat i (C + i * ldc) 1 (C + i) ldc
      | .lower => vaddin cat (n - i - 1) (C + i * ldc + (i + 1)) 1 (C + (i + 1) * ldc + i) ldc
    vassign n diagC 1 C (ldc + 1)
    free diagC n

/-- `fsyr2k`, /repo/fflas-ffpack/fflas/fflas_fsyr2k.inl:31-103.  For `K = 0` the matrix is scaled and the computation goes on. -/
def fsyr2k (cat : Cat) (g : GemmFn K) (u : Uplo) (trans : Tr) (n k : ℕ) (alpha : K) (A lda B ldb : ℕ) (beta : K) (C ldc : ℕ) :
    Prog K Unit :=
  if n = 0 then pure ()
  else do
    let _ ← (if k = 0 then fscalin cat n n beta C ldc else pure ())
    fsyr2kCore cat g u trans n k alpha A lda B ldb beta C ldc

end Verif.FF
