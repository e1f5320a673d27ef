import Verif.Model.Gemm

/-!
# Strassen-Winograd multiplication

Reductions modulo `p` between additions (`freduce`, `NeedPreAddReduction`) do not change values in the field and are left
out; their necessity is the subject of `Model/Bounds.lean` and `Model/LazyGemm.lean`.
-/

namespace Verif.FF

variable {K : Type} [Field K] [DecidableEq K]

/-- `A12` where `op(A)` has blocks of size `mr × kr`, /repo/fflas-ffpack/fflas/fflas_fgemm/schedule_winograd.inl:377-404. -/
def q12 (t : Tr) (A lda _mr kr : ℕ) : ℕ := match t with
  | .no => A + kr
  | .yes => A + kr * lda

/-- `A21` -/
def q21 (t : Tr) (A lda mr _kr : ℕ) : ℕ := match t with
  | .no => A + mr * lda
  | .yes => A + mr

/-- `A22` -/
def q22 (t : Tr) (A lda mr kr : ℕ) : ℕ := match t with
  | .no => A + mr * lda + kr
  | .yes => A + kr * lda + mr

/-- leading dimension of a temporary, schedule_winograd.inl:383,390 and schedule_winograd_acc.inl:244,250 -/
def ldTmp (t : Tr) (trans notrans : ℕ) : ℕ := match t with
  | .no => notrans
  | .yes => trans

/-- `BLAS3::Winograd` (`beta = 0`, two temporaries),
/repo/fflas-ffpack/fflas/fflas_fgemm/schedule_winograd.inl:341-540; `g` is the recursive `fgemm`. -/
def winograd (cat : Cat) (g : GemmFn K) (ta tb : Tr) (mr nr kr : ℕ) (alpha : K) (A lda B ldb C ldc : ℕ) : Prog K Unit := do
  let A11 := A
  let A12 := q12 ta A lda mr kr
  let A21 := q21 ta A lda mr kr
  let A22 := q22 ta A lda mr kr
  let B11 := B
  let B12 := q12 tb B ldb kr nr
  let B21 := q21 tb B ldb kr nr
  let B22 := q22 tb B ldb kr nr
  let C11 := C
  let C12 := C + nr
  let C21 := C + mr * ldc
  let C22 := C + mr * ldc + nr
  let x1rd := max nr kr
  let ldX1 := ldTmp ta mr x1rd
  let la := opr ta mr kr
  let ca := opc ta mr kr
  let lb := opr tb kr nr
  let cb := opc tb kr nr
  let ldX2 := opc tb kr nr
  let X2 ← alloc (kr * nr)
  fsub cat lb cb B22 ldb B12 ldb X2 ldX2                          -- T3
  let X1 ← alloc (mr * x1rd)
  fsub cat la ca A11 lda A21 lda X1 ldX1                          -- S3
  g ta tb mr nr kr alpha X1 ldX1 X2 ldX2 0 C21 ldc                -- P7
  fsub cat lb cb B12 ldb B11 ldb X2 ldX2                          -- T1
  fadd cat la ca A21 lda A22 lda X1 ldX1                          -- S1
  g ta tb mr nr kr alpha X1 ldX1 X2 ldX2 0 C22 ldc                -- P5
  fsub cat lb cb B22 ldb X2 ldX2 X2 ldX2                          -- T2
  fsubin cat la ca A11 lda X1 ldX1                                -- S2
  g ta tb mr nr kr alpha X1 ldX1 X2 ldX2 0 C12 ldc                -- P6
  fsub cat la ca A12 lda X1 ldX1 X1 ldX1                          -- S4
  g ta tb mr nr kr alpha X1 ldX1 B22 ldb 0 C11 ldc                -- P3
  g ta tb mr nr kr alpha A11 lda B11 ldb 0 X1 nr                  -- P1
  faddin cat mr nr X1 nr C12 ldc                                  -- U2
  faddin cat mr nr C12 ldc C21 ldc                                -- U3
  faddin cat mr nr C22 ldc C12 ldc                                -- U4
  faddin cat mr nr C21 ldc C22 ldc                                -- U7
  faddin cat mr nr C11 ldc C12 ldc                                -- U5
  fsubin cat lb cb B21 ldb X2 ldX2                                -- T4
  g ta tb mr nr kr alpha A22 lda X2 ldX2 0 C11 ldc                -- P4
  free X2 (kr * nr)
  fsubin cat mr nr C11 ldc C21 ldc                                -- U6
  g ta tb mr nr kr alpha A12 lda B21 ldb 0 C11 ldc                -- P2
  faddin cat mr nr X1 nr C11 ldc                                  -- U1
  free X1 (mr * x1rd)

/-- `BLAS3::WinogradAcc_3_21` (`beta ≠ 0`, three temporaries, the schedule selected by `NEWWINO`),
/repo/fflas-ffpack/fflas/fflas_fgemm/schedule_winograd_acc.inl:187-385. -/
def winogradAcc (cat : Cat) (g : GemmFn K) (ta tb : Tr) (mr nr kr : ℕ) (alpha : K) (A lda B ldb : ℕ) (beta : K)
    (C ldc : ℕ) : Prog K Unit := do
  let A11 := A
  let A12 := q12 ta A lda mr kr
  let A21 := q21 ta A lda mr kr
  let A22 := q22 ta A lda mr kr
  let B11 := B
  let B12 := q12 tb B ldb kr nr
  let B21 := q21 tb B ldb kr nr
  let B22 := q22 tb B ldb kr nr
  let C11 := C
  let C12 := C + nr
  let C21 := C + mr * ldc
  let C22 := C + mr * ldc + nr
  let x3rd := max mr kr
  let la := opr ta mr kr
  let ca := opc ta mr kr
  let lb := opr tb kr nr
  let cb := opc tb kr nr
  let ldX3 := ldTmp tb x3rd nr
  let X3 ← alloc (x3rd * nr)
  fsub cat lb cb B12 ldb B11 ldb X3 ldX3                          -- T1
  let X2 ← alloc (mr * kr)
  fadd cat la ca A21 lda A22 lda X2 ca                            -- S1
  let X1 ← alloc (mr * nr)
  g ta tb mr nr kr alpha X2 ca X3 ldX3 0 X1 nr                    -- P5
  faddmul cat mr nr X1 nr beta C22 ldc C22 ldc
  faddmul cat mr nr X1 nr beta C12 ldc C12 ldc
  g ta tb mr nr kr alpha A11 lda B11 ldb 0 X1 nr                  -- P1
  g ta tb mr nr kr alpha A12 lda B21 ldb beta C11 ldc             -- P2
  faddin cat mr nr X1 nr C11 ldc                                  -- U1
  fsub cat lb cb B22 ldb X3 ldX3 X3 ldX3                          -- T2
  fsubin cat la ca A11 lda X2 ca                                  -- S2
  g ta tb mr nr kr alpha X2 ca X3 ldX3 1 X1 nr                    -- U2
  faddin cat mr nr X1 nr C12 ldc                                  -- U4
  fsubin cat lb cb B21 ldb X3 ldX3                                -- T4
  fsub cat la ca A12 lda X2 ca X2 ca                              -- S4
  g ta tb mr nr kr alpha A22 lda X3 ldX3 (-beta) C21 ldc          -- P4
  g ta tb mr nr kr alpha X2 ca B22 ldb 1 C12 ldc                  -- U5
  fsub cat lb cb B22 ldb B12 ldb X3 ldX3                          -- T3
  fsub cat la ca A11 lda A21 lda X2 ca                            -- S3
  g ta tb mr nr kr alpha X2 ca X3 ldX3 1 X1 nr                    -- U3
  free X2 (mr * kr)
  free X3 (x3rd * nr)
  faddin cat mr nr X1 nr C22 ldc                                  -- U7
  fsub cat mr nr X1 nr C21 ldc C21 ldc                            -- U6
  free X1 (mr * nr)

/-- `Protected::WinogradCalc` in the default configuration,
/repo/fflas-ffpack/fflas/fflas_fgemm/fgemm_winograd.inl:281-368. -/
def winogradCalc (cat : Cat) (g : GemmFn K) (ta tb : Tr) (mr nr kr : ℕ) (alpha : K) (A lda B ldb : ℕ) (beta : K)
    (C ldc : ℕ) : Prog K Unit :=
  if beta = 0 then winograd cat g ta tb mr nr kr alpha A lda B ldb C ldc
  else winogradAcc cat g ta tb mr nr kr alpha A lda B ldb beta C ldc

/-- `Protected::DynamicPeeling2`, /repo/fflas-ffpack/fflas/fflas_fgemm/fgemm_winograd.inl:189-276; `g` is `fgemm` with
recursion level `-1`. -/
def dynamicPeeling2 (g : GemmFn K) (ta tb : Tr) (m n k mr nr kr : ℕ) (alpha : K) (A lda B ldb : ℕ) (beta : K) (C ldc : ℕ) :
    Prog K Unit :=
  let mkn := (if nr > 0 then 1 else 0) + (if kr > 0 then 2 else 0) + (if mr > 0 then 4 else 0)
  let a12 := q12 ta A lda (m - mr) (k - kr)
  let a21 := q21 ta A lda (m - mr) (k - kr)
  let b12 := q12 tb B ldb (k - kr) (n - nr)
  let b21 := q21 tb B ldb (k - kr) (n - nr)
  match mkn with
  | 1 => g ta tb m nr k alpha A lda b12 ldb beta (C + (n - nr)) ldc
  | 2 => g ta tb m n kr alpha a12 lda b21 ldb 1 C ldc
  | 3 => do
    g ta tb m nr k alpha A lda b12 ldb beta (C + (n - nr)) ldc
    g ta tb m (n - nr) kr alpha a12 lda b21 ldb 1 C ldc
  | 4 => g ta tb mr n k alpha a21 lda B ldb beta (C + (m - mr) * ldc) ldc
  | 5 => do
    g ta tb m nr k alpha A lda b12 ldb beta (C + (n - nr)) ldc
    g ta tb mr (n - nr) k alpha a21 lda B ldb beta (C + (m - mr) * ldc) ldc
  | 6 => do
    g ta tb (m - mr) n kr alpha a12 lda b21 ldb 1 C ldc
    g ta tb mr n k alpha a21 lda B ldb beta (C + (m - mr) * ldc) ldc
  | 7 => do
    g ta tb (m - mr) (n - nr) kr alpha a12 lda b21 ldb 1 C ldc
    g ta tb mr (n - nr) k alpha a21 lda B ldb beta (C + (m - mr) * ldc) ldc
    g ta tb m nr k alpha A lda b12 ldb beta (C + (n - nr)) ldc
  | _ => pure ()

/-- `Protected::WinogradSteps`, /repo/fflas-ffpack/fflas/fflas_fgemm/fgemm_winograd.inl:71-82:
`while (mt >= th) { ++w; mt >>= 1; }`.  `th` is the threshold; the fuel `m + 1` is enough for every `th ≥ 1`, and the
C++ loop does not end for `th = 0`. -/
def winogradSteps (th m : ℕ) : ℕ := go (m + 1) m
where
  go : ℕ → ℕ → ℕ
    | 0, _ => 0
    | f+1, mt => if th ≤ mt then go f (mt / 2) + 1 else 0

/-- Winograd `fgemm`, /repo/fflas-ffpack/fflas/fflas_fgemm/fgemm_winograd.inl:376-441.  The recursion level is `none` for
`-1` (to be computed from the threshold); `fuel` bounds the depth of the recursion, running out of it is a fault. -/
def gemmWino (cat : Cat) (th : ℕ) : ℕ → Option ℕ → GemmFn K
  | 0, _ => fun _ _ _ _ _ _ _ _ _ _ _ _ _ => liftE (.error .fuel)
  | fuel+1, lev => fun ta tb m n k alpha A lda B ldb beta C ldc =>
    if m = 0 ∨ n = 0 then pure ()
    else if k = 0 then fscalin cat m n beta C ldc
    else
      match lev.getD (winogradSteps th (min m (min k n))) with
      | 0 => gemmClassic cat ta tb m n k alpha A lda B ldb beta C ldc
      | w+1 => do
        let m2 := (m >>> (w+1)) <<< w
        let n2 := (n >>> (w+1)) <<< w
        let k2 := (k >>> (w+1)) <<< w
        winogradCalc cat (gemmWino cat th fuel (some w)) ta tb m2 n2 k2 alpha A lda B ldb beta C ldc
        dynamicPeeling2 (gemmWino cat th fuel none) ta tb m n k (m - 2 * m2) (n - 2 * n2) (k - 2 * k2)
          alpha A lda B ldb beta C ldc

/-- recursion depth that is always enough -/
def winoFuel (lev : Option ℕ) (m n k : ℕ) : ℕ := match lev with
  | none => 2 * (m + n + k) + 1
  | some w => 2 * (m + n + k) + w + 2

/-- The version selected by default: number of levels computed from the threshold,
/repo/fflas-ffpack/fflas/fflas_fgemm.inl:286-301,350-365 (`recLevel = -1`). -/
def gemmAuto (cat : Cat) (th : ℕ) : GemmFn K := fun ta tb m n k =>
  gemmWino cat th (winoFuel none m n k) none ta tb m n k

end Verif.FF
