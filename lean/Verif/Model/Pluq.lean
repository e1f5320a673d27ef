import Verif.Model.ApplyP
import Verif.Model.Perm
import Verif.Model.Ftrtr
import Verif.Model.Level2
import Verif.Model.Gemm
import Verif.Model.Trsm

/-!
# PLUQ decomposition

/repo/fflas-ffpack/ffpack/ffpack_pluq.inl.  The matrix is in memory; the permutation arrays are values with checked accesses,
passed in and returned.  Arrays obtained from `fflas_new<size_t>` have unspecified contents, supplied by `jk` (a different
function for each array: `jk` is indexed by the path of recursive calls followed by the number of the array).  `fgemm` and
`ftrsm` are parameters.  `CROUT` is defined (:31); `NOBASECASE`, `MEMCOPY` and `MONOTONIC_APPLYP` are not.
-/

namespace Verif.FF

open Verif.Perm

variable {K : Type}

section arrays
variable {α : Type}

/-- an operation on the array starting at `A + off` -/
def onSub (A : Arr α) (off : ℕ) (f : Arr α → Except Fault (Arr α)) : Except Fault (Arr α) :=
  if off ≤ A.len then do
    let B ← f ⟨A.len - off, fun i => A.get (off + i)⟩
    pure ⟨A.len, fun i => if i < off then A.get i else B.get (i - off)⟩
  else .error .oob

/-- `fassign` between two index arrays -/
def copyTo (src : Arr α) (so : ℕ) (dst : Arr α) (d n : ℕ) : Except Fault (Arr α) :=
  iter n (fun i D => do
    let x ← src.rd (so + i)
    Arr.wr D (d + i) x) dst

/-- `PermApplyS` with `lda = width = 1`, ffpack_permutation.inl:389-399 and doApplyS :345-356. -/
def permApplyS (A : Arr α) (junk : ℕ → α) (M2 R1 R2 R3 R4 : ℕ) : Except Fault (Arr α) := do
  let t ← usub M2 (R1 + R2)
  let tmp ← copyTo A (R1 + R2) (Arr.mk' t junk) 0 t
  let A ← copyForward A M2 (R1 + R2) (R3 + R4)
  copyTo tmp 0 A (R1 + R2 + R3 + R4) t

/-- `PermApplyT` with `lda = width = 1`, ffpack_permutation.inl:453-463 and doApplyT :401-415. -/
def permApplyT (A : Arr α) (junk : ℕ → α) (N2 R1 R2 R3 R4 : ℕ) : Except Fault (Arr α) := do
  let t ← usub N2 R1
  let t' ← usub t R3
  let tmp ← copyTo A R1 (Arr.mk' t junk) 0 t
  let A ← copyForward A N2 R1 R2
  let A ← copyTo tmp 0 A (R1 + R2) R3
  let A ← copyForward A (N2 + R2) (R1 + R2 + R3) R4
  copyTo tmp R3 A (R1 + R2 + R3 + R4) t'

/-- `for (i = 0; i < n; ++i) P[i] = i` -/
def iota (P : Arr ℕ) (n : ℕ) : Except Fault (Arr ℕ) := iter n (fun i P => Arr.wr P i i) P

/-- `for (i = b; i < n; ++i) P[i] += s` -/
def addFrom (P : Arr ℕ) (b n s : ℕ) : Except Fault (Arr ℕ) :=
  iter (n - b) (fun t P => do
    let x ← Arr.rd P (b + t)
    Arr.wr P (b + t) (x + s)) P

end arrays

section
variable [Field K] [DecidableEq K]

/-- `while (isZero (*(CurrRow + i++)) && (i < N)); i--;`, ffpack_pluq.inl:356-358 -/
def findPiv (C N : ℕ) : ℕ → ℕ → Prog K ℕ
  | 0, _ => Prog.fault .fuel
  | f+1, i => do
    let x ← load (C + i)
    if x = 0 ∧ i + 1 < N then findPiv C N f (i + 1) else pure i

/-- the state of the loop of the base case: `rank`, `MathP`, `MathQ` -/
structure CroutSt where
  rank : ℕ
  MathP : Arr ℕ
  MathQ : Arr ℕ

/-- column part of a pivot step: rotation of the columns `rank .. i`, ffpack_pluq.inl:376-385 -/
def croutCols (M A lda row i : ℕ) (s : CroutSt) : Prog K CroutSt :=
  let C := A + row * lda
  if s.rank < i then do
    cyclicShiftCol (A + s.rank) s.rank (i - s.rank + 1) lda
    let MathQ ← liftE (onSub s.MathQ s.rank (fun B => cyclic_shift_mathPerm copyMove B (i - s.rank + 1)))
    cyclicShiftCol (C + lda + s.rank) (M - row - 1) (i - s.rank + 1) lda
    let x ← load (C + i)
    store (A + s.rank * (lda + 1)) x
    vzero (i - s.rank) (A + s.rank * (lda + 1) + 1) 1
    pure { s with MathQ := MathQ }
  else pure s

/-- row part of a pivot step: rotation of the rows `rank .. row`, ffpack_pluq.inl:386-396; `sh` is `cyclic_shift_row` -/
def croutRows (sh : ℕ → ℕ → ℕ → ℕ → Prog K Unit) (N A lda row i : ℕ) (s : CroutSt) : Prog K CroutSt :=
  let C := A + row * lda
  if s.rank < row then do
    sh (A + s.rank * lda) (row - s.rank + 1) s.rank lda
    let MathP ← liftE (onSub s.MathP s.rank (fun B => cyclic_shift_mathPerm copyMove B (row - s.rank + 1)))
    vassign (N - i - 1) (C + i + 1) 1 (A + s.rank * lda + i + 1) 1
    let x ← load (C + i)
    store (A + s.rank * (lda + 1)) x
    vzero (row - s.rank) (A + s.rank * (lda + 1) + lda) lda
    store (C + i) 0
    pure { s with MathP := MathP }
  else pure s

/-- one iteration of the loop of `PLUQ_basecaseCrout`, ffpack_pluq.inl:352-401 -/
def croutStep (sh : ℕ → ℕ → ℕ → ℕ → Prog K Unit) (cat : Cat) (d : Diag) (M N A lda row : ℕ) (s : CroutSt) : Prog K CroutSt :=
  if s.rank < N then do
    let C := A + row * lda
    fgemv cat .yes s.rank (N - s.rank) (-1) (A + s.rank) lda C 1 1 (C + s.rank) 1
    let i ← findPiv C N (N - s.rank) s.rank
    let x ← load (C + i)
    if x ≠ 0 then do
      fgemv cat .no (M - row - 1) s.rank (-1) (C + lda) lda (A + i) lda 1 (C + lda + i) lda
      let x ← load (C + i)
      let inv ← liftE (invE x)
      (match d with
      | .unit => vscalin cat (N - i - 1) inv (C + i + 1) 1
      | .nonUnit => vscalin cat (M - row - 1) inv (C + i + lda) lda)
      let s ← croutCols M A lda row i s
      let s ← croutRows sh N A lda row i s
      pure { s with rank := s.rank + 1 }
    else pure s
  else pure s

/-- `PLUQ_basecaseCrout`, ffpack_pluq.inl:337-430.  The `while` loop increments `row` in each iteration: it is a loop over the
rows whose body does nothing once `rank = N`. -/
def pluqCrout (sh : ℕ → ℕ → ℕ → ℕ → Prog K Unit) (cat : Cat) (jk : List ℕ → ℕ → ℕ) (d : Diag) (M N A lda : ℕ) (P Q : Arr ℕ) : Prog K (ℕ × Arr ℕ × Arr ℕ) := do
  let MathP ← liftE (iota (Arr.mk' M (jk [0])) M)
  let MathQ ← liftE (iota (Arr.mk' N (jk [1])) N)
  let s ← iter M (fun row s => croutStep sh cat d M N A lda row s) ⟨0, MathP, MathQ⟩
  let Q ← liftE (MathPerm2LAPACKPerm Q s.MathQ N (jk [2]) (jk [3]))
  let P ← liftE (MathPerm2LAPACKPerm P s.MathP M (jk [4]) (jk [5]))
  fzero (M - s.rank) (N - s.rank) (A + s.rank * (1 + lda)) lda
  pure (s.rank, P, Q)

/-- type of `ftrsm` -/
abbrev TrsmFn (K : Type) := Side → Uplo → Tr → Diag → ℕ → ℕ → K → ℕ → ℕ → ℕ → ℕ → Prog K Unit

/-- the recursive call: arguments `jk d M N A P Q` -/
abbrev PluqFn (K : Type) := (List ℕ → ℕ → ℕ) → Diag → ℕ → ℕ → ℕ → Arr ℕ → Arr ℕ → Prog K (ℕ × Arr ℕ × Arr ℕ)

/-- the computation of `O` through a temporary, ffpack_pluq.inl:570-579 -/
def pluqO (g : GemmFn K) (ts : TrsmFn K) (d : Diag) (lda R2 R3 n2' G A4 F : ℕ) : Prog K Unit := do
  let temp ← alloc (R3 * R2)
  fassign R3 R2 A4 lda temp R2
  ts .left .lower .no (otherDiag d) R3 R2 1 G lda temp R2
  ts .left .lower .no (otherDiag d) R3 n2' 1 G lda (A4 + R2) lda
  g .no .no R3 n2' R2 (-1) temp R2 (F + R2) lda 1 (A4 + R2) lda
  free temp (R3 * R2)

/-- rows of the factors and the row permutation, ffpack_pluq.inl:606-625 -/
def pluqS (jk : List ℕ → ℕ → ℕ) (M N M2 R1 R2 R3 R4 A lda : ℕ) (P P1 P2 P3 P4 : Arr ℕ) : Prog K (Arr ℕ) := do
  let MathP ← liftE (onSub (Arr.mk' M (jk [8])) 0 (fun B => composePermutationsLLM B P1 P2 R1 M2))
  let MathP ← liftE (onSub MathP M2 (fun B => composePermutationsLLM B P3 P4 R3 (M - M2)))
  let MathP ← liftE (addFrom MathP M2 M M2)
  let MathP ← (if R1 + R2 < M2 then do
      let MathP ← liftE (permApplyS MathP (jk [9]) M2 R1 R2 R3 R4)
      matrixApplyS A lda N M2 R1 R2 R3 R4
      pure MathP
    else pure MathP)
  liftE (MathPerm2LAPACKPerm P MathP M (jk [10]) (jk [11]))

/-- columns of the factors and the column permutation, ffpack_pluq.inl:627-647 -/
def pluqT (jk : List ℕ → ℕ → ℕ) (M N N2 R1 R2 R3 R4 A lda : ℕ) (Q Q1 Q2 Q3 Q4 : Arr ℕ) : Prog K (Arr ℕ) := do
  let MathQ ← liftE (onSub (Arr.mk' N (jk [12])) 0 (fun B => composePermutationsLLM B Q1 Q3 R1 N2))
  let MathQ ← liftE (onSub MathQ N2 (fun B => composePermutationsLLM B Q2 Q4 R2 (N - N2)))
  let MathQ ← liftE (addFrom MathQ N2 N N2)
  let MathQ ← (if R1 < N2 then do
      let MathQ ← liftE (permApplyT MathQ (jk [13]) N2 R1 R2 R3 R4)
      matrixApplyT A lda M N2 R1 R2 R3 R4
      pure MathQ
    else pure MathQ)
  liftE (MathPerm2LAPACKPerm Q MathQ N (jk [14]) (jk [15]))

/-- the recursive part of `_PLUQ`, ffpack_pluq.inl:488-650 -/
def pluqStep (g : GemmFn K) (ts : TrsmFn K) (rec : PluqFn K) (jk : List ℕ → ℕ → ℕ) (d : Diag) (M N A lda : ℕ) (P Q : Arr ℕ) :
    Prog K (ℕ × Arr ℕ × Arr ℕ) := do
  let opp := otherDiag d
  let M2 := M / 2
  let N2 := N / 2
  let (R1, P1, Q1) ← rec (fun l => jk (20 :: l)) d M2 N2 A (Arr.mk' M2 (jk [0])) (Arr.mk' N2 (jk [1]))
  let A2 := A + N2
  let A3 := A + M2 * lda
  let A4 := A3 + N2
  let F := A2 + R1 * lda
  let G := A3 + R1
  applyP .left .no (N - N2) 0 M2 A2 lda P1
  applyP .right .yes (M - M2) 0 N2 A3 lda Q1
  ts .left .lower .no opp R1 (N - N2) 1 A lda A2 lda
  ts .right .upper .no d (M - M2) R1 1 A lda A3 lda
  g .no .no (M2 - R1) (N - N2) R1 (-1) (A + R1 * lda) lda A2 lda 1 (A2 + R1 * lda) lda
  g .no .no (M - M2) (N2 - R1) R1 (-1) A3 lda (A + R1) lda 1 (A3 + R1) lda
  g .no .no (M - M2) (N - N2) R1 (-1) A3 lda A2 lda 1 A4 lda
  let (R2, P2, Q2) ← rec (fun l => jk (21 :: l)) d (M2 - R1) (N - N2) F (Arr.mk' (M2 - R1) (jk [2])) (Arr.mk' (N - N2) (jk [3]))
  let (R3, P3, Q3) ← rec (fun l => jk (22 :: l)) d (M - M2) (N2 - R1) G (Arr.mk' (M - M2) (jk [4])) (Arr.mk' (N2 - R1) (jk [5]))
  applyP .right .yes (M - M2) 0 (N - N2) A4 lda Q2
  applyP .left .no (N - N2) 0 (M - M2) A4 lda P3
  applyP .left .no R1 0 (M - M2) A3 lda P3
  applyP .left .no R1 0 (M2 - R1) (A + R1 * lda) lda P2
  applyP .right .yes R1 0 (N - N2) A2 lda Q2
  applyP .right .yes R1 0 (N2 - R1) (A + R1) lda Q3
  ts .right .upper .no d (M - M2) R2 1 F lda A4 lda
  pluqO g ts d lda R2 R3 (N - N2 - R2) G A4 F
  let R := A4 + R2 + R3 * lda
  g .no .no (M - M2 - R3) (N - N2 - R2) R2 (-1) (A4 + R3 * lda) lda (F + R2) lda 1 R lda
  g .no .no (M - M2 - R3) (N - N2 - R2) R3 (-1) (G + R3 * lda) lda (A4 + R2) lda 1 R lda
  let (R4, P4, Q4) ← rec (fun l => jk (23 :: l)) d (M - M2 - R3) (N - N2 - R2) R (Arr.mk' (M - M2 - R3) (jk [6]))
    (Arr.mk' (N - N2 - R2) (jk [7]))
  applyP .left .no (N2 + R2) 0 (M - M2 - R3) (A3 + R3 * lda) lda P4
  applyP .right .yes (M2 + R3) 0 (N - N2 - R2) (A2 + R2) lda Q4
  let P ← pluqS jk M N M2 R1 R2 R3 R4 A lda P P1 P2 P3 P4
  let Q ← pluqT jk M N N2 R1 R2 R3 R4 A lda Q Q1 Q2 Q3 Q4
  pure (R1 + R2 + R3 + R4, P, Q)

/-- `_PLUQ`, ffpack_pluq.inl:433-652.  The first argument bounds the recursion depth (`M + N + 1` suffices, proved). -/
def pluqRec (cat : Cat) (g : GemmFn K) (ts : TrsmFn K) (thr lda : ℕ) : ℕ → PluqFn K
  | 0 => fun _ _ _ _ _ _ _ => Prog.fault .fuel
  | fuel+1 => fun jk d M N A P Q => do
    let P ← liftE (iota P M)
    let Q ← liftE (iota Q N)
    if min M N = 0 then pure (0, P, Q)
    else if max M N = 1 then do
      let x ← load A
      pure (if x = 0 then 0 else 1, P, Q)
    else if min M N < thr then pluqCrout cyclicShiftRow cat jk d M N A lda P Q
    else pluqStep g ts (pluqRec cat g ts thr lda fuel) jk d M N A lda P Q

/-- `PLUQ`, ffpack_pluq.inl:654-676.  The checker `Checker_PLUQ` is empty unless checkers are enabled (see C34). -/
def pluq (cat : Cat) (g : GemmFn K) (ts : TrsmFn K) (thr : ℕ) (jk : List ℕ → ℕ → ℕ) (d : Diag) (M N A lda : ℕ) (P Q : Arr ℕ) :
    Prog K (ℕ × Arr ℕ × Arr ℕ) :=
  pluqRec cat g ts thr lda (M + N + 1) jk d M N A P Q

end
end Verif.FF
