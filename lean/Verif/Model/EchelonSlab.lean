import Verif.Model.Echelon
import Verif.Model.LUdivine

/-!
# Echelon forms computed by LUdivine

/repo/fflas-ffpack/ffpack/ffpack_echelonforms.inl, the tag `FfpackSlabRecursive` (the default), sequential.  The functions call
`LUdivine` with the default value of its parameter `cutoff` (ffpack.h, `__FFLASFFPACK_LUDIVINE_THRESHOLD`, 1); here it is a parameter.
-/

namespace Verif.FF

open Verif.Perm

variable {K : Type} [Field K] [DecidableEq K]

/-- `RowEchelonForm` with the tag `FfpackSlabRecursive`, ffpack_echelonforms.inl:107-127 -/
def rowEchelonSlab (k : Kit K) (cutoff : ℕ) (transform : Bool) (M N A lda : ℕ) (P Qt : Arr ℕ) : Prog K (ℕ × Arr ℕ × Arr ℕ) := do
  let (r, P, Qt) ← ludivine k.cat k.g k.ts cutoff .yes .nonUnit false M N A lda P Qt
  if transform then do
    ftrtri k.tm .lower .nonUnit lda k.tt (r + 1) r A
    k.tm .right .lower .no .nonUnit (M - r) r (-1) A lda (A + r * lda) lda
    pure (r, P, Qt)
  else pure (r, P, Qt)

/-- `ColumnEchelonForm` with the tag `FfpackSlabRecursive`, ffpack_echelonforms.inl:60-80 -/
def columnEchelonSlab (k : Kit K) (cutoff : ℕ) (transform : Bool) (M N A lda : ℕ) (P Qt : Arr ℕ) : Prog K (ℕ × Arr ℕ × Arr ℕ) := do
  let (r, P, Qt) ← ludivine k.cat k.g k.ts cutoff .no .nonUnit false M N A lda P Qt
  if transform then do
    ftrtri k.tm .upper .nonUnit lda k.tt (r + 1) r A
    k.tm .left .upper .no .nonUnit r (N - r) (-1) A lda (A + r) lda
    pure (r, P, Qt)
  else pure (r, P, Qt)

/-- the exchanges of columns before the reduction of a row echelon form, ffpack_echelonforms.inl:230-232 -/
def compressCols (A lda r : ℕ) (Qt : Arr ℕ) : Prog K Unit :=
  loop r fun i => do
    let q ← liftE (Arr.rd Qt i)
    if q > i then vswap i (A + q) lda (A + i) lda else pure ()

/-- the exchanges of rows before the reduction of a column echelon form, ffpack_echelonforms.inl:166-172 -/
def compressRows (A lda r : ℕ) (Qt : Arr ℕ) : Prog K Unit :=
  loop r fun i => do
    let q ← liftE (Arr.rd Qt i)
    if q > i then vswap i (A + q * lda) 1 (A + i * lda) 1 else pure ()

/-- `ReducedColumnEchelonForm` with the tag `FfpackSlabRecursive`, ffpack_echelonforms.inl:156-183 -/
def reducedColumnEchelonSlab (k : Kit K) (cutoff : ℕ) (transform : Bool) (M N A lda : ℕ) (P Qt : Arr ℕ) :
    Prog K (ℕ × Arr ℕ × Arr ℕ) := do
  let (r, P, Qt) ← columnEchelonSlab k cutoff transform M N A lda P Qt
  compressRows A lda r Qt
  if transform then do
    ftrtri k.tm .lower .unit lda k.tt (r + 1) r A
    k.tm .right .lower .no .unit (M - r) r 1 A lda (A + r * lda) lda
    ftrtrm k.tm k.g .left .nonUnit lda (r + 1) r A
    pure (r, P, Qt)
  else do
    k.ts .right .lower .no .unit (M - r) r 1 A lda (A + r * lda) lda
    pure (r, P, Qt)

/-- `ReducedRowEchelonForm` with the tag `FfpackSlabRecursive`, ffpack_echelonforms.inl:215-245 -/
def reducedRowEchelonSlab (k : Kit K) (cutoff : ℕ) (transform : Bool) (M N A lda : ℕ) (P Qt : Arr ℕ) :
    Prog K (ℕ × Arr ℕ × Arr ℕ) := do
  let Qt ← liftE (iota Qt N)
  let P ← liftE (iota P M)
  let (r, P, Qt) ← rowEchelonSlab k cutoff transform M N A lda P Qt
  compressCols A lda r Qt
  if transform then do
    ftrtri k.tm .upper .unit lda k.tt (r + 1) r A
    k.tm .left .upper .no .unit r (N - r) 1 A lda (A + r) lda
    ftrtrm k.tm k.g .left .unit lda (r + 1) r A
    pure (r, P, Qt)
  else do
    k.ts .left .upper .no .unit r (N - r) 1 A lda (A + r) lda
    pure (r, P, Qt)

end Verif.FF
