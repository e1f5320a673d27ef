import Verif.Model.Pluq

/-!
# Echelon forms and inversion

/repo/fflas-ffpack/ffpack/ffpack_echelonforms.inl and ffpack_invert.inl, sequential versions, tags `FfpackTileRecursive` and
`FfpackGaussJordanTile` (the slab variants go through `LUdivine`).  Arrays from `fflas_new` have contents given by `jk`, as in
`Model/Pluq`.  Unsigned differences such as `M - rowbeg - r1` never wrap (the proofs give `r1 ≤ M - rowbeg`).
-/

namespace Verif.FF

open Verif.Perm

variable {K : Type} [Field K] [DecidableEq K]

/-- Kernels and tuning parameters: `fgemm`, `ftrsm`, in-place `ftrmm`, base case of `PLUQ`, threshold of `ftrtri`
(`__FFLASFFPACK_FTRTRI_THRESHOLD`), base case of `GaussJordan` (`__FFLASFFPACK_GAUSSJORDAN_BASECASE`, 256). -/
structure Kit (K : Type) where
  cat : Cat
  g : GemmFn K
  ts : TrsmFn K
  tm : TrsmFn K
  thr : ℕ
  tt : ℕ
  bc : ℕ

/-- `RowEchelonForm`, ffpack_echelonforms.inl:107-129; returns the rank, `P` and `Qt`. -/
def rowEchelonForm (k : Kit K) (jk : List ℕ → ℕ → ℕ) (transform : Bool) (M N A lda : ℕ) (P Qt : Arr ℕ) : Prog K (ℕ × Arr ℕ × Arr ℕ) := do
  let (r, P, Qt) ← pluq k.cat k.g k.ts k.thr jk .unit M N A lda P Qt
  if transform then do
    ftrtri k.tm .lower .nonUnit lda k.tt (r + 1) r A
    k.tm .right .lower .no .nonUnit (M - r) r (-1) A lda (A + r * lda) lda
    pure (r, P, Qt)
  else pure (r, P, Qt)

/-- `ColumnEchelonForm`, ffpack_echelonforms.inl:60-81 -/
def columnEchelonForm (k : Kit K) (jk : List ℕ → ℕ → ℕ) (transform : Bool) (M N A lda : ℕ) (P Qt : Arr ℕ) :
    Prog K (ℕ × Arr ℕ × Arr ℕ) := do
  let (r, Qt, P) ← pluq k.cat k.g k.ts k.thr jk .nonUnit M N A lda Qt P
  if transform then do
    ftrtri k.tm .upper .nonUnit lda k.tt (r + 1) r A
    k.tm .left .upper .no .nonUnit r (N - r) (-1) A lda (A + r) lda
    pure (r, P, Qt)
  else pure (r, P, Qt)

/-- `ReducedColumnEchelonForm`, ffpack_echelonforms.inl:158-187 -/
def reducedColumnEchelonForm (k : Kit K) (jk : List ℕ → ℕ → ℕ) (transform : Bool) (M N A lda : ℕ) (P Qt : Arr ℕ) :
    Prog K (ℕ × Arr ℕ × Arr ℕ) := do
  let (r, P, Qt) ← columnEchelonForm k jk transform M N A lda P Qt
  if transform then do
    ftrtri k.tm .lower .unit lda k.tt (r + 1) r A
    k.tm .right .lower .no .unit (M - r) r 1 A lda (A + r * lda) lda
    ftrtrm k.tm k.g .left .nonUnit lda (r + 1) r A
    pure (r, P, Qt)
  else do
    k.ts .right .lower .no .unit (M - r) r 1 A lda (A + r * lda) lda
    pure (r, P, Qt)

/-- `ReducedRowEchelonForm` with the tag `FfpackTileRecursive`, ffpack_echelonforms.inl:221-245 -/
def reducedRowEchelonForm (k : Kit K) (jk : List ℕ → ℕ → ℕ) (transform : Bool) (M N A lda : ℕ) (P Qt : Arr ℕ) :
    Prog K (ℕ × Arr ℕ × Arr ℕ) := do
  let Qt ← liftE (iota Qt N)
  let P ← liftE (iota P M)
  let (r, P, Qt) ← rowEchelonForm k jk transform M N A lda P Qt
  if transform then do
    ftrtri k.tm .upper .unit lda k.tt (r + 1) r A
    k.tm .left .upper .no .unit r (N - r) 1 A lda (A + r) lda
    ftrtrm k.tm k.g .left .unit lda (r + 1) r A
    pure (r, P, Qt)
  else do
    k.ts .left .upper .no .unit r (N - r) 1 A lda (A + r) lda
    pure (r, P, Qt)

/-- Base case of `GaussJordan`, ffpack_echelonforms.inl:280-322.  The call with `Q + colbeg` works on the entries
`colbeg … colbeg + colsize - 1`; here they are taken out, and put back by the loop `Q[i] += colbeg`. -/
def gaussJordanBase (k : Kit K) (jk : List ℕ → ℕ → ℕ) (M A lda colbeg rowbeg colsize : ℕ) (P Q : Arr ℕ) : Prog K (ℕ × Arr ℕ × Arr ℕ) := do
  let A12 := A + colbeg
  let A22 := A12 + rowbeg * lda
  let q ← liftE (copyTo Q colbeg (Arr.mk' colsize (jk [0])) 0 colsize)
  let (R, P, q) ← reducedRowEchelonForm k (fun l => jk (1 :: l)) true (M - rowbeg) colsize A22 lda P q
  let A13 := A12 + R
  let A23 := A22 + R
  let Q ← liftE (iter colsize (fun i Q => do
    let x ← Arr.rd q i
    Arr.wr Q (colbeg + i) (x + colbeg)) Q)
  applyP .right .yes rowbeg colbeg (colbeg + colsize) A lda Q
  k.g .no .no rowbeg (colsize - R) R (-1) A12 lda A23 lda 1 A13 lda
  let tmp ← alloc (rowbeg * R)
  fassign rowbeg R A12 lda tmp R
  k.g .no .no rowbeg R R (-1) tmp R A22 lda 0 A12 lda
  free tmp (rowbeg * R)
  pure (R, P, Q)

/-- Application of the transformation of the first slice to the second slice, ffpack_echelonforms.inl:347-363. -/
def gaussJordanApply (k : Kit K) (M A lda colbeg rowbeg colsize r1 : ℕ) (P : Arr ℕ) : Prog K Unit := do
  let recsize := colsize / 2
  let A11 := A + colbeg
  let A12 := A11 + recsize
  let A22 := A12 + rowbeg * lda
  let A21 := A11 + rowbeg * lda
  let A31 := A21 + r1 * lda
  let A32 := A22 + r1 * lda
  applyP .left .no (colsize - recsize) 0 (M - rowbeg) A22 lda P
  k.g .no .no rowbeg (colsize - recsize) r1 1 A11 lda A22 lda 1 A12 lda
  k.g .no .no (M - rowbeg - r1) (colsize - recsize) r1 1 A31 lda A22 lda 1 A32 lda
  let tmp ← alloc (r1 * (colsize - recsize))
  fassign r1 (colsize - recsize) A22 lda tmp (colsize - recsize)
  k.g .no .no r1 (colsize - recsize) r1 1 A21 lda tmp (colsize - recsize) 0 A22 lda
  free tmp (r1 * (colsize - recsize))

/-- Composition of the two transformations, ffpack_echelonforms.inl:369-397 (except the composition of the arrays `P`). -/
def gaussJordanCompose (k : Kit K) (M A lda colbeg rowbeg colsize r1 r2 : ℕ) (P2 : Arr ℕ) : Prog K Unit := do
  let recsize := colsize / 2
  let A11 := A + colbeg
  let A12 := A11 + recsize
  let A31 := A11 + rowbeg * lda + r1 * lda
  let A32 := A12 + rowbeg * lda + r1 * lda
  applyP .left .no r1 0 (M - rowbeg - r1) A31 lda P2
  let U31 := A31 + r2 * lda
  let U32 := U31 + recsize
  k.g .no .no (rowbeg + r1) r1 r2 1 A12 lda A31 lda 1 A11 lda
  k.g .no .no (M - rowbeg - r1 - r2) r1 r2 1 U32 lda A31 lda 1 U31 lda
  let tmp ← alloc (r2 * r1)
  fassign r2 r1 A31 lda tmp r1
  k.g .no .no r2 r1 r2 1 A32 lda tmp r1 0 A31 lda
  free tmp (r2 * r1)

/-- The matrix part of moving the non-pivot columns of the first slice behind the pivots of the second, ffpack_echelonforms.inl:399-415. -/
def gaussJordanMove (M A lda colbeg rowbeg recsize r1 r2 : ℕ) : Prog K Unit := do
  let ncol := recsize - r1
  let nrow := rowbeg + r1
  let A11 := A + colbeg
  let A12 := A11 + recsize
  let NZ1 := A11 + r1
  let tmp ← alloc (nrow * ncol)
  fassign nrow ncol NZ1 lda tmp ncol
  fassign M r2 A12 lda NZ1 lda
  let NZ1 := NZ1 + r2
  fassign nrow ncol tmp ncol NZ1 lda
  free tmp (nrow * ncol)
  fzero (M - rowbeg - r1) (recsize - r1) (NZ1 + (rowbeg + r1) * lda) lda

/-- The index part, ffpack_echelonforms.inl:417-433. -/
def gaussJordanMoveQ (jk : List ℕ → ℕ → ℕ) (N colbeg recsize r1 r2 : ℕ) (Q : Arr ℕ) : Except Fault (Arr ℕ) := do
  let ncol := recsize - r1
  let MathQ ← LAPACKPerm2MathPerm (Arr.mk' N (jk [0])) Q N
  let temp ← copyTo MathQ (colbeg + r1) (Arr.mk' ncol (jk [1])) 0 ncol
  let MathQ ← copyForward MathQ (colbeg + recsize) (colbeg + r1) r2
  let MathQ ← copyTo temp 0 MathQ (colbeg + r1 + r2) ncol
  MathPerm2LAPACKPerm Q MathQ N (jk [2]) (jk [3])

/-- `GaussJordan` with the tag `FfpackGaussJordanTile`, ffpack_echelonforms.inl:248-435.  The first argument bounds the depth
of the recursion (`colsize + 1` suffices when the base case is at least 1). -/
def gaussJordan (k : Kit K) (M N A lda : ℕ) : ℕ → (List ℕ → ℕ → ℕ) → ℕ → ℕ → ℕ → Arr ℕ → Arr ℕ → Prog K (ℕ × Arr ℕ × Arr ℕ)
  | 0, _, _, _, _, _, _ => Prog.fault .fuel
  | fuel + 1, jk, colbeg, rowbeg, colsize, P, Q =>
    if rowbeg = M then pure (0, P, Q)
    else if colsize ≤ k.bc then gaussJordanBase k (fun l => jk (0 :: l)) M A lda colbeg rowbeg colsize P Q
    else do
      let recsize := colsize / 2
      let (r1, P, Q) ← gaussJordan k M N A lda fuel (fun l => jk (1 :: l)) colbeg rowbeg recsize P Q
      gaussJordanApply k M A lda colbeg rowbeg colsize r1 P
      let (r2, P2, Q) ← gaussJordan k M N A lda fuel (fun l => jk (2 :: l)) (colbeg + recsize) (rowbeg + r1) (colsize - recsize)
        (Arr.mk' (M - rowbeg - r1) (jk [3])) Q
      gaussJordanCompose k M A lda colbeg rowbeg colsize r1 r2 P2
      let P ← liftE (composePermutationsLLL P P2 r1 (M - rowbeg) (jk [5]) (jk [6]) (jk [7]))
      if r1 < recsize ∧ r2 ≠ 0 then do
        gaussJordanMove M A lda colbeg rowbeg recsize r1 r2
        let Q ← liftE (gaussJordanMoveQ (fun l => jk (4 :: l)) N colbeg recsize r1 r2 Q)
        pure (r1 + r2, P, Q)
      else pure (r1 + r2, P, Q)

/-- `ReducedRowEchelonForm` with the tag `FfpackGaussJordanTile` and `transform`, ffpack_echelonforms.inl:221-227 -/
def reducedRowEchelonFormGJ (k : Kit K) (jk : List ℕ → ℕ → ℕ) (M N A lda : ℕ) (P Qt : Arr ℕ) : Prog K (ℕ × Arr ℕ × Arr ℕ) := do
  let Qt ← liftE (iota Qt N)
  let P ← liftE (iota P M)
  gaussJordan k M N A lda (N + 1) jk 0 0 N P Qt

/-- `Invert` in place, ffpack_invert.inl:33-57; returns the nullity.  The checker is empty unless checkers are enabled. -/
def invert (k : Kit K) (jk : List ℕ → ℕ → ℕ) (M A lda : ℕ) : Prog K ℕ :=
  if M = 0 then pure 0
  else do
    let (R, P, _) ← reducedRowEchelonFormGJ k (fun l => jk (2 :: l)) M M A lda (Arr.mk' M (jk [0])) (Arr.mk' M (jk [1]))
    let nullity ← liftE (usub M R)
    applyP .right .no M 0 R A lda P
    pure nullity

/-- `Invert` out of place, ffpack_invert.inl:59-75 -/
def invertX (k : Kit K) (jk : List ℕ → ℕ → ℕ) (M A lda X ldx : ℕ) : Prog K ℕ :=
  if M = 0 then pure 0
  else do
    fassign M M A lda X ldx
    invert k jk M X ldx

end Verif.FF
