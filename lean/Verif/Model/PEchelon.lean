import Verif.Model.Echelon
import Verif.Model.PPluq

/-!
# Echelon forms with a parallel helper, and their C interface

`pColumnEchelonForm`, `pRowEchelonForm`, `pReducedColumnEchelonForm`, `pReducedRowEchelonForm`
(/repo/fflas-ffpack/ffpack/ffpack_echelonforms.inl:45-245) with the tag `FfpackTileRecursive`: the decomposition runs in parallel, what
follows it is sequential.  The C functions `p…EchelonForm_modular_…` are in /repo/fflas-ffpack/interfaces/libs/ffpack.C:587-792.
-/

namespace Verif.FF

open Verif.Perm Verif.ParV

variable {K : Type} [Field K] [DecidableEq K]

/-- which of the four functions -/
inductive EchForm
  | col | row | redCol | redRow

/-- The parallel part: `PLUQ` with the helper (ffpack_echelonforms.inl:71, 117), in the order of the arguments of `PLUQ`: `P1` for the rows,
`P2` for the columns (for the column forms these are `Qt` and `P`).  `ReducedRowEchelonForm` fills both arrays before (lines 222-223);
`PLUQ` overwrites them. -/
def pEchPluq (junk : ℕ → K) (gthr thr : ℕ) (jk : List ℕ → ℕ → ℕ) (nt : ℕ) (f : EchForm) (M N A lda : ℕ) (P1 P2 : Arr ℕ) : VProc K Res :=
  match f with
  | .col | .redCol => ppluq junk gthr thr jk nt .nonUnit M N A lda P1 P2
  | .row | .redRow => ppluq junk gthr thr jk nt .unit M N A lda P1 P2

/-- The end of `RowEchelonForm`, ffpack_echelonforms.inl:120-123 -/
def rowTail (k : Kit K) (transform : Bool) (M A lda r : ℕ) : Prog K Unit :=
  if transform then do
    ftrtri k.tm .lower .nonUnit lda k.tt (r + 1) r A
    k.tm .right .lower .no .nonUnit (M - r) r (-1) A lda (A + r * lda) lda
  else pure ()

/-- The end of `ColumnEchelonForm`, ffpack_echelonforms.inl:74-77 -/
def colTail (k : Kit K) (transform : Bool) (N A lda r : ℕ) : Prog K Unit :=
  if transform then do
    ftrtri k.tm .upper .nonUnit lda k.tt (r + 1) r A
    k.tm .left .upper .no .nonUnit r (N - r) (-1) A lda (A + r) lda
  else pure ()

/-- What follows the decomposition; the reductions are ffpack_echelonforms.inl:175-183 and 234-243. -/
def pEchTail (k : Kit K) (f : EchForm) (transform : Bool) (M N A lda r : ℕ) : Prog K Unit :=
  match f with
  | .row => rowTail k transform M A lda r
  | .col => colTail k transform N A lda r
  | .redRow => do
    rowTail k transform M A lda r
    if transform then do
      ftrtri k.tm .upper .unit lda k.tt (r + 1) r A
      k.tm .left .upper .no .unit r (N - r) 1 A lda (A + r) lda
      ftrtrm k.tm k.g .left .unit lda (r + 1) r A
    else k.ts .left .upper .no .unit r (N - r) 1 A lda (A + r) lda
  | .redCol => do
    colTail k transform N A lda r
    if transform then do
      ftrtri k.tm .lower .unit lda k.tt (r + 1) r A
      k.tm .right .lower .no .unit (M - r) r 1 A lda (A + r * lda) lda
      ftrtrm k.tm k.g .left .nonUnit lda (r + 1) r A
    else k.ts .right .lower .no .unit (M - r) r 1 A lda (A + r * lda) lda

/-- `numthreads ? numthreads : NUM_THREADS`, ffpack_echelonforms.inl:53, 100, 149, 208 -/
def echThreads (numthreads dflt : ℕ) : ℕ := if numthreads ≠ 0 then numthreads else dflt

/-- element type of the C function -/
inductive CElt
  | double | float | int32

/-- The arguments (`transform`, `numthreads`) that the C function `p…EchelonForm_modular_…` hands to the C++ function, whose
parameters are `…, P, Qt, transform, numthreads, LuTag`.  interfaces/libs/ffpack.C:596, 613, 631, 649, 665, 682 pass `transform, 0`;
lines 700, 718, 734, 751, 769, 787 pass `0, transform`: a `0` becomes `false`, a `bool` becomes `0` or `1`.  The two values of `positive`
(`Modular` or `ModularBalanced`) do the same. -/
def cEchArgs (ty : CElt) (f : EchForm) (transform : Bool) : Bool × ℕ :=
  match ty, f with
  | .double, _ => (transform, 0)
  | .float, .col => (transform, 0)
  | .float, .row => (transform, 0)
  | .float, .redCol => (false, transform.toNat)
  | .float, .redRow => (false, transform.toNat)
  | .int32, _ => (false, transform.toNat)

/-- the parallel part of the C function -/
def cEchPluq (junk : ℕ → K) (gthr thr : ℕ) (jk : List ℕ → ℕ → ℕ) (dflt : ℕ) (ty : CElt) (f : EchForm) (transform : Bool) (M N A lda : ℕ)
    (P1 P2 : Arr ℕ) : VProc K Res :=
  pEchPluq junk gthr thr jk (echThreads (cEchArgs ty f transform).2 dflt) f M N A lda P1 P2

/-- the rest of the C function -/
def cEchTail (k : Kit K) (ty : CElt) (f : EchForm) (transform : Bool) (M N A lda r : ℕ) : Prog K Unit :=
  pEchTail k f (cEchArgs ty f transform).1 M N A lda r

end Verif.FF
