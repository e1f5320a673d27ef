import Verif.Model.ApplyP

/-!
# MonotonicApplyP

/repo/fflas-ffpack/ffpack/ffpack_permutation.inl:39-292, with neither `MONOTONIC_CYCLES` nor `MONOTONIC_MOREPIVOTS` defined (the
default).  `lda` is the distance between two lines (rows for Side = Left, columns for Side = Right), `incA` the distance between two
entries of a line; `M` entries of each line are moved.
-/

namespace Verif.FF

open Verif.Perm

variable {K : Type}

/-- The marking loop of `MonotonicApplyP`, ffpack_permutation.inl:59-69: the vector `ispiv`, the number of pivots not in place and
the largest position `maxpiv`.  `R-1` is computed on `size_t`: for `R = 0` it is `2^64-1`. -/
def markPivots (MathP : Arr ℕ) (lenP R : ℕ) : Except Fault (Arr Bool × ℕ × ℕ) :=
  iter R (fun i ((ispiv, cnt, maxpiv) : Arr Bool × ℕ × ℕ) => do
    let p ← MathP.rd i
    let ispiv ← ispiv.wr p true
    if p ≠ i then pure (ispiv, cnt + 1, if maxpiv < p then p else maxpiv)
    else pure (ispiv, cnt, maxpiv)) (Arr.mk' lenP (fun _ => false), 0, if R = 0 then 2 ^ 64 - 1 else R - 1)

/-- `int dest = maxpiv` (:126): a value that does not fit in an `int` is an error of the model (the conversion is
implementation-defined and the loop then goes wrong). -/
def toInt31 (x : ℕ) : Except Fault ℕ := if x < 2 ^ 31 then .ok x else .error .inexact

section
variable [CommRing K] [DecidableEq K]

/-- `for (i=0,j=0; i<R; i++) if (MathP[i] != i) { fassign(line -> temp+j*M); j++; }`, where the line is `MathP[i]` (`byP`) or `i`. -/
def savePivots (byP : Bool) (M A lda incA temp : ℕ) (MathP : Arr ℕ) (R : ℕ) : Prog K ℕ :=
  iter R (fun i j => do
    let p ← liftE (MathP.rd i)
    if p ≠ i then do
      vassign M (A + (if byP then p else i) * lda) incA (temp + j * M) 1
      pure (j + 1)
    else pure j) 0

/-- the same loop in the other direction, `temp+j*M -> line` -/
def restorePivots (byP : Bool) (M A lda incA temp : ℕ) (MathP : Arr ℕ) (R : ℕ) : Prog K ℕ :=
  iter R (fun i j => do
    let p ← liftE (MathP.rd i)
    if p ≠ i then do
      vassign M (temp + j * M) 1 (A + (if byP then p else i) * lda) incA
      pure (j + 1)
    else pure j) 0

/-- The loop `while (dest >= (int)R)` of `MonotonicCompress`, :128-135.  The arguments are `src+1` and `dest+1`; copying from
line `-1` is a fault. -/
def compressMove (M A lda incA R : ℕ) (ispiv : Arr Bool) : ℕ → ℕ → Prog K Unit
  | 0, d => if R < d then Prog.fault .underflow else pure ()
  | s + 1, d =>
    if R < d then do
      let b ← liftE (ispiv.rd s)
      if b then compressMove M A lda incA R ispiv s d
      else do
        vassign M (A + s * lda) incA (A + (d - 1) * lda) incA
        compressMove M A lda incA R ispiv s (d - 1)
    else pure ()

/-- `MonotonicCompress`, ffpack_permutation.inl:107-143. -/
def monotonicCompress (M A lda incA : ℕ) (MathP : Arr ℕ) (R maxpiv rowstomove : ℕ) (ispiv : Arr Bool) : Prog K Unit := do
  let temp ← alloc (rowstomove * M)
  let _ ← savePivots true M A lda incA temp MathP R
  let dest ← liftE (toInt31 maxpiv)
  compressMove M A lda incA R ispiv dest (dest + 1)
  let _ ← restorePivots false M A lda incA temp MathP R
  free temp (rowstomove * M)

/-- The loop `while (src <= maxpiv)` of `MonotonicExpand`, :277-284.  Every iteration increments `dest`; the first argument bounds
the number of iterations. -/
def expandMove (M A lda incA maxpiv : ℕ) (ispiv : Arr Bool) : ℕ → ℕ → ℕ → Prog K Unit
  | 0, _, _ => Prog.fault .fuel
  | fuel + 1, src, dest =>
    if src ≤ maxpiv then do
      let b ← liftE (ispiv.rd dest)
      if b then expandMove M A lda incA maxpiv ispiv fuel src (dest + 1)
      else do
        vassign M (A + src * lda) incA (A + dest * lda) incA
        expandMove M A lda incA maxpiv ispiv fuel (src + 1) (dest + 1)
    else pure ()

/-- `MonotonicExpand`, ffpack_permutation.inl:258-292. -/
def monotonicExpand (M A lda incA : ℕ) (MathP : Arr ℕ) (R maxpiv rowstomove : ℕ) (ispiv : Arr Bool) : Prog K Unit := do
  let temp ← alloc (rowstomove * M)
  let _ ← savePivots false M A lda incA temp MathP R
  expandMove M A lda incA maxpiv ispiv (maxpiv + 2) R 0
  let _ ← restorePivots true M A lda incA temp MathP R
  free temp (rowstomove * M)

/-- one block of `MonotonicApplyP` -/
def monotonicBlock (compress : Bool) (M A lda incA : ℕ) (MathP : Arr ℕ) (R maxpiv rowstomove : ℕ) (ispiv : Arr Bool) : Prog K Unit :=
  if compress then monotonicCompress M A lda incA MathP R maxpiv rowstomove ispiv
  else monotonicExpand M A lda incA MathP R maxpiv rowstomove ispiv

/-- distance between two entries of a line, :78-79 -/
def monoInc (side : Side) (lda : ℕ) : ℕ := match side with
  | .left => 1
  | .right => lda

/-- distance between two lines, :78-79 -/
def monoLd (side : Side) (lda : ℕ) : ℕ := match side with
  | .left => lda
  | .right => 1

/-- the test of :82-83 -/
def monoCompress (side : Side) (ta : Tr) : Bool := match side, ta with
  | .left, .no => true
  | .right, .yes => true
  | _, _ => false

/-- `MonotonicApplyP`, ffpack_permutation.inl:43-105.  `junk`: contents of the array `MathP` obtained from `new`.  The counter
`nonpivrowstomove` is not used. -/
def monotonicApplyP (side : Side) (ta : Tr) (M ibeg iend A lda : ℕ) (P : Arr ℕ) (R : ℕ) (junk : ℕ → ℕ) : Prog K Unit := do
  let B := 32
  let lenP ← liftE (usub iend ibeg)
  let MathP ← liftE (iter lenP (fun i (X : Arr ℕ) => X.wr i i) (Arr.mk' lenP junk))
  let MathP ← liftE (LAPACKPerm2MathPerm MathP P lenP)
  let (ispiv, pivrowstomove, maxpiv) ← liftE (markPivots MathP lenP R)
  if pivrowstomove = 0 then pure ()
  else do
    let _ ← liftE (iter (lenP - R) (fun t (c : ℕ) => do
      let p ← MathP.rd (R + t)
      pure (if p ≠ R + t then c + 1 else c)) 0)
    let NB := M / B
    let last := M % B
    let incA := monoInc side lda
    let llda := monoLd side lda
    let inc := B * incA
    let compress := monoCompress side ta
    loop NB fun i => monotonicBlock compress B (A + i * inc) llda incA MathP R maxpiv pivrowstomove ispiv
    monotonicBlock compress last (A + NB * inc) llda incA MathP R maxpiv pivrowstomove ispiv

end

end Verif.FF
