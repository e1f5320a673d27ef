import Verif.Model.Winograd

/-!
# The other schedule for accumulation

`WinogradAcc_3_23` is selected by `OLDWINO` (/repo/fflas-ffpack/fflas/fflas_fgemm/fgemm_winograd.inl:348-349).  The schedules of `NEWACC`
declare constant pointers without a value, those of `NEWIP` and `NEWACCIP` call a function `fgemm2` which does not exist: they are not modelled.
Reductions modulo `p` are left out as in `Model/Winograd.lean`.
-/

namespace Verif.FF

variable {K : Type} [Field K] [DecidableEq K]

/-- `BLAS3::WinogradAcc_3_23` (`beta ≠ 0`, three temporaries),
/repo/fflas-ffpack/fflas/fflas_fgemm/schedule_winograd_acc.inl:41-183. -/
def winogradAccOld (cat : Cat) (g : GemmFn K) (ta tb : Tr) (mr nr kr : ℕ) (alpha : K) (A lda B ldb : ℕ) (beta : K)
    (C ldc : ℕ) : Prog K Unit := do
  let A11 := A
  let A12 := q12 ta A lda mr kr
  let A21 := q21 ta A lda mr kr
  let A22 := q22 ta A lda mr kr
  let B11 := B
  let B12 := q12 tb B ldb kr nr
  let B21 := q21 tb B ldb kr nr
  let B22 := q22 tb B ldb kr nr
  let C11 := C
  let C12 := C + nr
  let C21 := C + mr * ldc
  let C22 := C + mr * ldc + nr
  let x3rd := max mr kr
  let la := opr ta mr kr
  let ca := opc ta mr kr
  let lb := opr tb kr nr
  let cb := opc tb kr nr
  let ldX3 := ldTmp tb x3rd nr
  g ta tb mr nr kr alpha A12 lda B21 ldb beta C11 ldc             -- P2
  let X3 ← alloc (x3rd * nr)
  fsub cat lb cb B22 ldb B12 ldb X3 ldX3                          -- T3
  let X2 ← alloc (mr * kr)
  fsub cat la ca A11 lda A21 lda X2 ca                            -- S3
  fsubin cat mr nr C12 ldc C22 ldc
  fsubin cat mr nr C22 ldc C21 ldc
  g ta tb mr nr kr alpha X2 ca X3 ldX3 beta C22 ldc               -- P7
  fsub cat lb cb B12 ldb B11 ldb X3 ldX3                          -- T1
  fadd cat la ca A21 lda A22 lda X2 ca                            -- S1
  g ta tb mr nr kr alpha X2 ca X3 ldX3 beta C12 ldc               -- P5
  fsub cat lb cb B22 ldb X3 ldX3 X3 ldX3                          -- T2
  fsubin cat la ca A11 lda X2 ca                                  -- S2
  let X1 ← alloc (mr * nr)
  g ta tb mr nr kr alpha X2 ca X3 ldX3 0 X1 nr                    -- P6
  fsubin cat lb cb B21 ldb X3 ldX3                                -- T4
  fsub cat la ca A12 lda X2 ca X2 ca                              -- S4
  g ta tb mr nr kr alpha A22 lda X3 ldX3 (-beta) C21 ldc          -- P4
  g ta tb mr nr kr alpha A11 lda B11 ldb 0 X3 nr                  -- P1
  faddin cat mr nr X3 nr C11 ldc                                  -- U1
  faddin cat mr nr X3 nr X1 nr                                    -- U2
  fadd cat mr nr X1 nr C22 ldc X3 nr                              -- U3
  fadd cat mr nr C12 ldc X3 nr C22 ldc                            -- U7
  faddin cat mr nr X1 nr C12 ldc                                  -- U4
  free X1 (mr * nr)
  fsub cat mr nr X3 nr C21 ldc C21 ldc                            -- U6
  free X3 (x3rd * nr)
  g ta tb mr nr kr alpha X2 ca B22 ldb 1 C12 ldc                  -- U5
  free X2 (mr * kr)

/-- `Protected::WinogradCalc` with `OLDWINO`, fgemm_winograd.inl:281-368 -/
def winogradCalcOld (cat : Cat) (g : GemmFn K) (ta tb : Tr) (mr nr kr : ℕ) (alpha : K) (A lda B ldb : ℕ) (beta : K)
    (C ldc : ℕ) : Prog K Unit :=
  if beta = 0 then winograd cat g ta tb mr nr kr alpha A lda B ldb C ldc
  else winogradAccOld cat g ta tb mr nr kr alpha A lda B ldb beta C ldc

/-- Winograd `fgemm` with `OLDWINO`, fgemm_winograd.inl:376-441; see `gemmWino` -/
def gemmWinoOld (cat : Cat) (th : ℕ) : ℕ → Option ℕ → GemmFn K
  | 0, _ => fun _ _ _ _ _ _ _ _ _ _ _ _ _ => liftE (.error .fuel)
  | fuel+1, lev => fun ta tb m n k alpha A lda B ldb beta C ldc =>
    if m = 0 ∨ n = 0 then pure ()
    else if k = 0 then fscalin cat m n beta C ldc
    else
      match lev.getD (winogradSteps th (min m (min k n))) with
      | 0 => gemmClassic cat ta tb m n k alpha A lda B ldb beta C ldc
      | w+1 => do
        let m2 := (m >>> (w+1)) <<< w
        let n2 := (n >>> (w+1)) <<< w
        let k2 := (k >>> (w+1)) <<< w
        winogradCalcOld cat (gemmWinoOld cat th fuel (some w)) ta tb m2 n2 k2 alpha A lda B ldb beta C ldc
        dynamicPeeling2 (gemmWinoOld cat th fuel none) ta tb m n k (m - 2 * m2) (n - 2 * n2) (k - 2 * k2)
          alpha A lda B ldb beta C ldc

end Verif.FF
