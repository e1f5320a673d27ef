import Verif.Model.Fsyrk
import Verif.Model.Winograd

/-!
# Strassen-like symmetric rank-k update

/repo/fflas-ffpack/fflas/fflas_fsyrk_strassen.inl: `fsyrk` with the helper `MMHelperAlgo::Winograd`.  It multiplies a matrix by its transpose
with five products of half the size, three of which are again of the form `X Xᵀ`, using `x`, `y` with `x² + y² = -1`.  Reductions modulo
`p` (`freduce`, decided by `NeedPreScalReduction`, `NeedPreAxpyReduction`, `NeedPreAddReduction`) do not change values in the field and are
left out, see `Model/Bounds.lean`; so the operations over `F` and over the delayed field `DF` are the same.
-/

namespace Verif.FF

variable {K : Type} [Field K] [DecidableEq K]

/-- two `faxpy` that are skipped if `y = 0`, fflas_fsyrk_strassen.inl:263-266, :283-286, :301-304, :322-325 -/
def axpy2 (cat : Cat) (n : ℕ) (y c1 : K) (X1 Y1 : ℕ) (c2 : K) (X2 Y2 : ℕ) : Prog K Unit :=
  if y ≠ 0 then do
    vaxpy cat n c1 X1 1 Y1 1
    vaxpy cat n c2 X2 1 Y2 1
  else pure ()

/-- row `i` of `S ← (A21 - A11) Y`, `T ← A22 - A21 Y`, not transposed, fflas_fsyrk_strassen.inl:258-290 -/
def s1s2No (cat : Cat) (k2 : ℕ) (x y : K) (A11 A21 A22 S T : ℕ) : Prog K Unit := do
  vscal cat k2 x A21 1 S 1
  axpy2 cat (k2 / 2) y (-y) (A21 + k2 / 2) S y A21 (S + k2 / 2)
  vsub cat k2 A22 1 S 1 T 1
  vaxpy cat k2 (-x) A11 1 S 1
  axpy2 cat (k2 / 2) y y (A11 + k2 / 2) S (-y) A11 (S + k2 / 2)

/-- rows `i` and `i + K/4` of the transposed version, fflas_fsyrk_strassen.inl:292-333; the addresses ending in `r` are those of the
second row -/
def s1s2Yes (cat : Cat) (n2 : ℕ) (x y : K) (A11 A11r A21 A21r A22 A22r S Sr T Tr : ℕ) : Prog K Unit := do
  vscal cat n2 x A21 1 S 1
  vscal cat n2 x A21r 1 Sr 1
  axpy2 cat n2 y (-y) A21r S y A21 Sr
  vsub cat n2 A22 1 S 1 T 1
  vsub cat n2 A22r 1 Sr 1 Tr 1
  vaxpy cat n2 (-x) A11 1 S 1
  vaxpy cat n2 (-x) A11r 1 Sr 1
  axpy2 cat n2 y y A11r S (-y) A11 Sr

/-- `computeS1S2`, fflas_fsyrk_strassen.inl:131-334, where `n2 = N/2`, `k2 = K/2` and `K/4 = k2 / 2`. -/
def computeS1S2 (cat : Cat) (t : Tr) (n2 k2 : ℕ) (x y : K) (A lda S lds T ldt : ℕ) : Prog K Unit :=
  let A21 := q21 t A lda n2 k2
  let A22 := q22 t A lda n2 k2
  match t with
  | .no => loop n2 fun i => s1s2No cat k2 x y (A + i * lda) (A21 + i * lda) (A22 + i * lda) (S + i * lds) (T + i * ldt)
  | .yes => loop (k2 / 2) fun i =>
    s1s2Yes cat n2 x y (A + i * lda) (A + (k2 / 2) * lda + i * lda) (A21 + i * lda) (A21 + (k2 / 2) * lda + i * lda)
      (A22 + i * lda) (A22 + (k2 / 2) * lda + i * lda) (S + i * lds) (S + (k2 / 2) * lds + i * lds) (T + i * ldt)
      (T + (k2 / 2) * ldt + i * ldt)

/-- `faddin` on triangles, /repo/fflas-ffpack/fflas/fflas_fadd.h:257-274 -/
def faddinTri (cat : Cat) (u : Uplo) (n B ldb C ldc : ℕ) : Prog K Unit :=
  match u with
  | .upper => loop n fun i => vaddin cat (n - i) (B + i * (ldb + 1)) 1 (C + i * (ldc + 1)) 1
  | .lower => loop n fun i => vaddin cat (i + 1) (B + i * ldb) 1 (C + i * ldc) 1

/-- the off-diagonal block of `C` that is not part of the result, fflas_fsyrk_strassen.inl:480-484 (there `C12`) -/
def cDead (u : Uplo) (C ldc n2 : ℕ) : ℕ := match u with
  | .lower => C + n2
  | .upper => C + n2 * ldc

/-- the off-diagonal block of `C` that is part of the result (there `C21`) -/
def cLive (u : Uplo) (C ldc n2 : ℕ) : ℕ := match u with
  | .lower => C + n2 * ldc
  | .upper => C + n2

/-- `fgemm` with the operands in the order given by `uplo`, fflas_fsyrk_strassen.inl:512-515, :535-542, :645-648, :664-672 -/
def gemmU (g : GemmFn K) (u : Uplo) (t : Tr) (n2 k2 : ℕ) (alpha : K) (X ldx Y ldy : ℕ) (beta : K) (C ldc : ℕ) : Prog K Unit :=
  match u with
  | .lower => g t (oppTr t) n2 n2 k2 alpha X ldx Y ldy beta C ldc
  | .upper => g t (oppTr t) n2 n2 k2 alpha Y ldy X ldx beta C ldc

/-- "make U1 explicit", fflas_fsyrk_strassen.inl:566-571, :689-694 -/
def mirror (u : Uplo) (n C ldc : ℕ) : Prog K Unit :=
  loop n fun i => match u with
    | .lower => vassign i (C + i * ldc) 1 (C + i) ldc
    | .upper => vassign i (C + i) ldc (C + i * ldc) 1

/-- `fflas_new` if the condition holds -/
def newIf (c : Bool) (n p : ℕ) : Prog K ℕ := if c then alloc n else pure p

/-- `fflas_delete` if the condition holds -/
def freeIf (c : Bool) (p n : ℕ) : Prog K Unit := if c then free p n else pure ()

/-- end of the schedule without accumulation, from `P1` on, fflas_fsyrk_strassen.inl:547-604 -/
def strassenTail (cat : Cat) (rec : SyrkFn K) (u : Uplo) (t : Tr) (n2 k2 : ℕ) (alpha : K) (A lda C ldc : ℕ) : Prog K Unit := do
  let A12 := q12 t A lda n2 k2
  let C12 := cDead u C ldc n2
  let C21 := cLive u C ldc n2
  let C22 := C + n2 * ldc + n2
  rec u t n2 k2 alpha A lda 0 C ldc                               -- P1
  faddinTri cat u n2 C ldc C12 ldc                                -- U1
  mirror u n2 C12 ldc
  loop n2 fun i => vaddin cat n2 (C22 + i * ldc) 1 (C12 + i) ldc  -- U2
  faddin cat n2 n2 C12 ldc C21 ldc                                -- U4
  faddinTri cat u n2 C12 ldc C22 ldc                              -- U5
  rec u t n2 k2 alpha A12 lda 0 C12 ldc                           -- P2
  faddinTri cat u n2 C12 ldc C ldc                                -- U3

/-- the schedule without accumulation (`beta = 0`), fflas_fsyrk_strassen.inl:492-604: `S1`, `S2`, `S4` are stored in `C` if
`K ≤ N`. -/
def strassen0 (cat : Cat) (g : GemmFn K) (rec : SyrkFn K) (x y : K) (u : Uplo) (t : Tr) (n k : ℕ) (alpha : K) (A lda C ldc : ℕ) :
    Prog K Unit := do
  let n2 := n / 2
  let k2 := k / 2
  let A12 := q12 t A lda n2 k2
  let A22 := q22 t A lda n2 k2
  let la := opr t n2 k2
  let ca := opc t n2 k2
  let C12 := cDead u C ldc n2
  let C21 := cLive u C ldc n2
  let C22 := C + n2 * ldc + n2
  let big := decide (k > n)
  let S1 ← newIf big (n2 * k2) C21
  let S2 ← newIf big (n2 * k2) C12
  let S4 := if big then S1 else C
  let lds := if big then ldTmp t n2 k2 else ldc
  computeS1S2 cat t n2 k2 x y A lda S1 lds S2 lds
  gemmU g u t n2 k2 alpha S2 lds S1 lds 0 C22 ldc                 -- P4
  freeIf big S2 (n2 * k2)
  fsubin cat la ca A22 lda S1 lds                                 -- S3
  rec u t n2 k2 alpha S1 lds 0 C12 ldc                            -- P5
  fadd cat la ca S1 lds A12 lda S4 lds                            -- S4
  gemmU g u t n2 k2 alpha A22 lda S4 lds 0 C21 ldc                -- P3
  freeIf big S1 (n2 * k2)
  strassenTail cat rec u t n2 k2 alpha A lda C ldc

/-- the strict triangle of `C22` is saved, turned by a half turn, in the dead triangle of `C11`, fflas_fsyrk_strassen.inl:628-634 -/
def saveTri (u : Uplo) (n2 C22 C11 ldc : ℕ) : Prog K Unit :=
  loop (n2 - 1) fun i => match u with
    | .lower => vassign (n2 - (i + 1)) (C22 + (n2 - (i + 1)) * ldc) 1 (C11 + 1 + i * (ldc + 1)) 1
    | .upper => vassign (n2 - (i + 1)) (C22 + 1 + i * (ldc + 1)) 1 (C11 + (n2 - (i + 1)) * ldc) 1

/-- the diagonal of `C22` is saved in `DC22`, fflas_fsyrk_strassen.inl:636-640 -/
def saveDiag (n2 C22 ldc D : ℕ) : Prog K Unit :=
  loop n2 fun i => do
    let c ← load (C22 + i * (ldc + 1))
    store (D + i) c

/-- `C22[i*(ldc+1)] += beta * DC22[i]` -/
def axpyDiag (beta : K) (C22 ldc D i : ℕ) : Prog K Unit := do
  let c ← load (C22 + i * (ldc + 1))
  let d ← load (D + i)
  store (C22 + i * (ldc + 1)) (c + beta * d)

/-- the saved triangle and the saved diagonal are added to `C22`, fflas_fsyrk_strassen.inl:722-733.  The last diagonal entry is
`C22[(N2-1)*(ldc+1)]`, outside the matrix if `N2 = 0`. -/
def restoreTri (cat : Cat) (u : Uplo) (n2 : ℕ) (beta : K) (C22 C11 ldc D : ℕ) : Prog K Unit := do
  loop (n2 - 1) fun i => do
    match u with
    | .lower => vaxpy cat (n2 - (i + 1)) beta (C11 + 1 + i * (ldc + 1)) 1 (C22 + (n2 - (i + 1)) * ldc) 1
    | .upper => vaxpy cat (n2 - (i + 1)) beta (C11 + (n2 - (i + 1)) * ldc) 1 (C22 + 1 + i * (ldc + 1)) 1
    axpyDiag beta C22 ldc D i
  if n2 = 0 then Prog.fault .oob
  else axpyDiag beta C22 ldc D (n2 - 1)

/-- end of the schedule with accumulation, from `P1` on, fflas_fsyrk_strassen.inl:674-756; `T` is the temporary and `D` contains the
diagonal of `C22` -/
def strassenAccTail (cat : Cat) (rec : SyrkFn K) (u : Uplo) (t : Tr) (n2 k2 : ℕ) (alpha : K) (A lda : ℕ) (beta : K)
    (C ldc T ldt D : ℕ) : Prog K Unit := do
  let A12 := q12 t A lda n2 k2
  let C12 := cDead u C ldc n2
  let C21 := cLive u C ldc n2
  let C22 := C + n2 * ldc + n2
  rec u t n2 k2 alpha A lda 0 T ldt                               -- P1
  faddinTri cat u n2 T ldt C12 ldc                                -- U1
  mirror u n2 C12 ldc
  loop n2 fun i => vaddin cat n2 (C22 + i * ldc) 1 (C12 + i) ldc  -- U2
  faddin cat n2 n2 C12 ldc C21 ldc                                -- U4
  faddinTri cat u n2 C12 ldc C22 ldc                              -- U5
  restoreTri cat u n2 beta C22 C ldc D                            -- U5'
  free D n2
  rec u t n2 k2 alpha A12 lda beta C ldc                          -- P2
  faddinTri cat u n2 T ldt C ldc                                  -- U3

/-- the schedule with accumulation, fflas_fsyrk_strassen.inl:605-757: `S1`, `S3`, `S4`, then `P1` are in the temporary `T`. -/
def strassenAcc (cat : Cat) (g : GemmFn K) (rec : SyrkFn K) (x y : K) (u : Uplo) (t : Tr) (n k : ℕ) (alpha : K) (A lda : ℕ) (beta : K)
    (C ldc : ℕ) : Prog K Unit := do
  let n2 := n / 2
  let k2 := k / 2
  let A12 := q12 t A lda n2 k2
  let A22 := q22 t A lda n2 k2
  let la := opr t n2 k2
  let ca := opc t n2 k2
  let C12 := cDead u C ldc n2
  let C21 := cLive u C ldc n2
  let C22 := C + n2 * ldc + n2
  let big := decide (k > n)
  let T ← alloc (n2 * max n2 k2)
  let ldt := ldTmp t n2 (max n2 k2)
  let S2 ← newIf big (n2 * k2) C12
  let lds := if big then ldTmp t n2 k2 else ldc
  computeS1S2 cat t n2 k2 x y A lda T ldt S2 lds
  saveTri u n2 C22 C ldc
  let D ← alloc n2
  saveDiag n2 C22 ldc D
  gemmU g u t n2 k2 alpha S2 lds T ldt 0 C22 ldc                  -- P4
  freeIf big S2 (n2 * k2)
  fsubin cat la ca A22 lda T ldt                                  -- S3
  rec u t n2 k2 alpha T ldt 0 C12 ldc                             -- P5
  faddin cat la ca A12 lda T ldt                                  -- S4
  gemmU g u t n2 k2 alpha A22 lda T ldt beta C21 ldc              -- P3
  strassenAccTail cat rec u t n2 k2 alpha A lda beta C ldc T ldt D
  free T (n2 * max n2 k2)

/-- `fsyrk_strassen`, fflas_fsyrk_strassen.inl:436-759, at recursion level `lev`; `base` is the classical `fsyrk` called at level 0. -/
def fsyrkStrassen (cat : Cat) (g : GemmFn K) (base : SyrkFn K) (x y : K) : ℕ → SyrkFn K
  | 0 => base
  | lev+1 => fun u t n k alpha A lda beta C ldc =>
    if beta = 0 then strassen0 cat g (fsyrkStrassen cat g base x y lev) x y u t n k alpha A lda C ldc
    else strassenAcc cat g (fsyrkStrassen cat g base x y lev) x y u t n k alpha A lda beta C ldc

/-- `fsyrk` with the helper `Winograd`, fflas_fsyrk_strassen.inl:372-433: the part of `A` whose dimensions are multiples of
`2^(recLevel+1)` is treated by `fsyrk_strassen`, the rest by the classical `fsyrk` (`base`), by `fsyrk` without helper (`top`) and by
`fgemm`.  `recLevel` is an `int`; a negative value (the default of the helper) is not modelled, there the recursion does not end. -/
def fsyrkWino (cat : Cat) (g : GemmFn K) (base top : SyrkFn K) (x y : K) (lev : ℕ) : SyrkFn K :=
  fun u t n k alpha A lda beta C ldc =>
  if lev = 0 then base u t n k alpha A lda beta C ldc
  else do
    let q := 2 ^ (lev + 1)
    let ns := n / q * q
    let ks := k / q * q
    let A12 := q12 t A lda ns ks
    let A21 := q21 t A lda ns ks
    fsyrkStrassen cat g base x y lev u t ns ks alpha A lda beta C ldc
    base u t ns (k - ks) alpha A12 lda 1 C ldc
    top u t (n - ns) k alpha A21 lda beta (C + ns * (ldc + 1)) ldc
    match u with
    | .lower => g t (oppTr t) (n - ns) ns k alpha A21 lda A lda beta (C + ns * ldc) ldc
    | .upper => g t (oppTr t) ns (n - ns) k alpha A lda A21 lda beta (C + ns) ldc

/-- `fsyrk` with the helper `Winograd` over a field with delayed reductions, fflas_fsyrk_strassen.inl:336-370: `alpha` other than `±1` is
factored out and the whole of `C` is multiplied by it at the end (`ScalAndReduce`, fflas_fgemm.inl:215-234). -/
def fsyrkWinoDelayed (cat : Cat) (g : GemmFn K) (base top : SyrkFn K) (x y : K) (lev : ℕ) : SyrkFn K :=
  fun u t n k alpha A lda beta C ldc =>
  if n = 0 then pure ()
  else if k = 0 ∨ alpha = 0 then fscalin cat n n beta C ldc
  else if alpha ≠ 1 ∧ alpha ≠ -1 then do
    let b ← liftE (divE beta alpha)
    fsyrkWino cat g base top x y lev u t n k 1 A lda b C ldc
    fscalin cat n n alpha C ldc
  else fsyrkWino cat g base top x y lev u t n k alpha A lda beta C ldc

end Verif.FF
