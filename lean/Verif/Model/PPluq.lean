import Verif.Core.ParVProg
import Verif.Model.Par
import Verif.Model.Pluq

/-!
# Parallel PLUQ decomposition

/repo/fflas-ffpack/ffpack/ffpack_ppluq.inl:79-425.  Each `CHECK_DEPENDENCIES`/`WAIT` is a `taskwait`: the tasks spawned since the previous one run in
any interleaving of their memory accesses, and tasks spawn tasks (the recursive calls, and the parallel `applyP`, `ftrsm`, `fgemm`, `MatrixApplyS/T`
of `Model/Par.lean`).  A task that assigns `R2`, `P2`, `Q2` (or `R3`, … ) returns these values to the code after the wait.

Simplifications: index arrays are values, as in `Model/Pluq.lean` (each is written by one task and read after the next wait); their contents when
allocated are `jk`; the temporary `temp` of the product `O` is allocated and freed by the function, just before and after the tasks that do it in
the source; a synchronous call of a function that spawns tasks is a single task with a wait.  The product is the parallel one (`TwoDAdaptive`) with
the classical product in its leaves.  `thr = 0` when `__FFLASFFPACK_PLUQ_THRESHOLD` is not defined.
-/

namespace Verif.ParV
open Verif.FF Verif.Par Verif.Perm

variable {K : Type} [Field K] [DecidableEq K]

/-- `cyclic_shift_row`, ffpack_permutation.inl:706-731, with its row buffer as a value (it is private to the call); `c` are the contents of the new buffer -/
def cyclicShiftRowV (c : ℕ → K) (A m n lda : ℕ) : Prog K Unit :=
  if 1 < m then do
    let b ← iter n (fun i b => do
      let x ← load (A + (m - 1) * lda + i)
      liftE (Arr.wr b i x)) (Arr.mk' n c)
    loop (m - 1) fun t => vassign n (A + (m - 1 - t) * lda - lda) 1 (A + (m - 1 - t) * lda) 1
    loop n fun i => do
      let x ← liftE (Arr.rd b i)
      store (A + i) x
  else pure ()

/-! ## The sequential parts, cut into memory accesses -/

section
variable {ν : Type}

instance (n X incX : ℕ) : Cut ν (vnegin n X incX : Prog K Unit) := by delta vnegin; infer_instance
instance (n X incX : ℕ) : Cut ν (vzero n X incX : Prog K Unit) := by delta vzero; infer_instance
instance (n Y incY X incX : ℕ) : Cut ν (vassign n Y incY X incX : Prog K Unit) := by delta vassign; infer_instance
instance (n : ℕ) (a : K) (X incX : ℕ) : Cut ν (vscalin .generic n a X incX) := by delta vscalin; dsimp only; infer_instance
instance (n X incX Y incY : ℕ) : Cut ν (vdot n X incX Y incY : Prog K K) := by delta vdot; infer_instance
instance (m n A lda : ℕ) : Cut ν (fzero m n A lda : Prog K Unit) := by delta fzero; infer_instance
instance (m n B ldb A lda : ℕ) : Cut ν (fassign m n B ldb A lda : Prog K Unit) := by delta fassign; infer_instance
instance (ta : Tr) (M N : ℕ) (alpha : K) (A lda X incX : ℕ) (beta : K) (Y incY : ℕ) :
    Cut ν (fgemvDefault .generic ta M N alpha A lda X incX beta Y incY) := by delta fgemvDefault; infer_instance
instance (ta : Tr) (M N : ℕ) (alpha : K) (A lda X incX : ℕ) (beta : K) (Y incY : ℕ) :
    Cut ν (fgemv .generic ta M N alpha A lda X incX beta Y incY) := by delta fgemv; dsimp only; infer_instance
instance (p n : ℕ) : Cut ν (copyBackward1 p n : Prog K Unit) := by delta copyBackward1; infer_instance
instance (A m n lda : ℕ) : Cut ν (cyclicShiftCol A m n lda : Prog K Unit) := by delta cyclicShiftCol; dsimp only; infer_instance
instance (c : ℕ → K) (A m n lda : ℕ) : Cut ν (cyclicShiftRowV c A m n lda : Prog K Unit) := by delta cyclicShiftRowV; infer_instance

/-- the accesses of the search of a pivot -/
@[implicit_reducible] def cutFindPiv (C N : ℕ) : (f i : ℕ) → Cut ν (findPiv (K := K) C N f i)
  | 0, _ => inferInstanceAs (Cut ν (Prog.fault .fuel))
  | f + 1, i =>
    haveI := cutFindPiv C N f (i + 1)
    inferInstanceAs (Cut ν (do
      let x ← load (C + i)
      if x = 0 ∧ i + 1 < N then findPiv C N f (i + 1) else pure i))
instance (C N f i : ℕ) : Cut ν (findPiv (K := K) C N f i) := cutFindPiv C N f i

instance (M A lda row i : ℕ) (s : CroutSt) : Cut ν (croutCols (K := K) M A lda row i s) := by delta croutCols; dsimp only; infer_instance
set_option synthInstance.maxSize 1000 in
set_option synthInstance.maxHeartbeats 200000 in
instance (c : ℕ → K) (N A lda row i : ℕ) (s : CroutSt) : Cut ν (croutRows (cyclicShiftRowV c) N A lda row i s) := by
  delta croutRows; dsimp only; infer_instance
set_option synthInstance.maxSize 1000 in
set_option synthInstance.maxHeartbeats 200000 in
instance (c : ℕ → K) (d : Diag) (M N A lda row : ℕ) (s : CroutSt) : Cut ν (croutStep (cyclicShiftRowV c) .generic d M N A lda row s) := by
  delta croutStep; cases d <;> (dsimp only; infer_instance)
instance (c : ℕ → K) (jk : List ℕ → ℕ → ℕ) (d : Diag) (M N A lda : ℕ) (P Q : Arr ℕ) :
    Cut ν (pluqCrout (cyclicShiftRowV c) .generic jk d M N A lda P Q) := by delta pluqCrout; infer_instance
end

/-- `while ((piv < n) && isZero (A[piv*inc])) piv++`, ffpack_ppluq.inl:94-95 and :113-114: the index of the first nonzero entry, `f` entries left -/
def firstNz (A inc : ℕ) : ℕ → ℕ → Prog K ℕ
  | 0, piv => pure piv
  | f + 1, piv => do
    let x ← load (A + piv * inc)
    if x = 0 then firstNz A inc f (piv + 1) else pure piv

/-- the pivot comes first, ffpack_ppluq.inl:98-102 and :117-121 -/
def lineMove (A inc piv : ℕ) : Prog K Unit :=
  if piv ≠ 0 then do
    let x ← load (A + piv * inc)
    store A x
    store (A + piv * inc) 0
  else pure ()

/-- division by the pivot, ffpack_ppluq.inl:103-107 and :122-126 -/
def lineScale (scale : Bool) (n A inc piv : ℕ) : Prog K Unit :=
  if scale = true then do
    let x ← load A
    let inv ← liftE (invE x)
    vscalin .generic (n - piv - 1) inv (A + (piv + 1) * inc) inc
  else pure ()

/-- a single row (`inc = 1`, scaled when `Diag = Unit`) or a single column (`inc = lda`, scaled when `Diag = NonUnit`), ffpack_ppluq.inl:92-110 and
:111-129; the result is the index of the pivot, `n` when there is none -/
def pluqLine (scale : Bool) (n A inc : ℕ) : Prog K ℕ := do
  let piv ← firstNz A inc n 0
  if piv = n then pure n
  else do
    lineMove A inc piv
    lineScale scale n A inc piv
    pure piv

@[implicit_reducible] def cutFirstNz {ν : Type} (A inc : ℕ) : (f i : ℕ) → Cut ν (firstNz (K := K) A inc f i)
  | 0, _ => inferInstanceAs (Cut ν (pure _))
  | f + 1, piv =>
    haveI := cutFirstNz (ν := ν) A inc f (piv + 1)
    inferInstanceAs (Cut ν (do
      let x ← load (A + piv * inc)
      if x = 0 then firstNz A inc f (piv + 1) else pure piv))
instance {ν : Type} (A inc f i : ℕ) : Cut ν (firstNz (K := K) A inc f i) := cutFirstNz A inc f i
instance {ν : Type} (A inc piv : ℕ) : Cut ν (lineMove (K := K) A inc piv) := by delta lineMove; infer_instance
instance {ν : Type} (scale : Bool) (n A inc piv : ℕ) : Cut ν (lineScale (K := K) scale n A inc piv) := by delta lineScale; infer_instance
instance {ν : Type} (scale : Bool) (n A inc : ℕ) : Cut ν (pluqLine (K := K) scale n A inc) := by delta pluqLine; infer_instance

/-- what a task of `PLUQ` assigns: the rank and the two permutations -/
abbrev Res := ℕ × Arr ℕ × Arr ℕ

instance : Inhabited Res := ⟨(0, ⟨0, fun _ => 0⟩, ⟨0, fun _ => 0⟩)⟩

/-- a parallel function as a task -/
def tk (p : Proc K) : VProc K Res := up p (.ret default)

/-- an operation on index arrays -/
def liftV {α : Type} (e : Except Fault α) (k : α → VProc K Res) : VProc K Res :=
  match e with
  | .ok a => k a
  | .error f => .fault f

/-- the recursive call: arguments `jk nt d M N A P Q` -/
abbrev PPluqFn (K : Type) := (List ℕ → ℕ → ℕ) → ℕ → Diag → ℕ → ℕ → ℕ → Arr ℕ → Arr ℕ → VProc K Res

/-- `fgemm (.., m, n, k, mOne, A, lda, B, lda, one, C, lda, MMParH)` with `nt` threads -/
def tkGemm (gthr nt m n k A lda B ldb C ldc : ℕ) : VProc K Res :=
  tk (pfgemm2DA seqGemm gthr (nt + 1) nt ⟨.no, .no, m, n, k, -1, A, lda, B, ldb, 1, C, ldc⟩ .ret)

/-- `ftrsm (.., Left, Lower, NoTrans, OppDiag, r, c, one, A, lda, B, ldb, TRSMParH)` -/
def tkL (d : Diag) (t r c A lda B ldb : ℕ) : VProc K Res := tk (pftrsm .left .lower .no (otherDiag d) .Threads r c 1 A lda B ldb t .ret)

/-- `ftrsm (.., Right, Upper, NoTrans, Diag, r, c, one, A, lda, B, ldb, TRSMParH)` -/
def tkU (d : Diag) (t r c A lda B ldb : ℕ) : VProc K Res := tk (pftrsm .right .upper .no d .Threads r c 1 A lda B ldb t .ret)

/-- `applyP (Fi, Left, NoTrans, c, 0, r, A, lda, P, PermParH)` -/
def tkRows (t r c A lda : ℕ) (P : Arr ℕ) : VProc K Res := tk (papplyP .left .no .Threads c 0 r A lda P t .ret)

/-- `applyP (Fi, Right, Trans, r, 0, c, A, lda, P, PermParH)` -/
def tkCols (t r c A lda : ℕ) (P : Arr ℕ) : VProc K Res := tk (papplyP .right .yes .Threads r 0 c A lda P t .ret)

/-- the blocks `O` and `R`, ffpack_ppluq.inl:262-303; `m2`, `n2` are the dimensions of `A4` -/
def ppluqO (gthr nt : ℕ) (d : Diag) (lda m2 n2 R2 R3 G A4 F : ℕ) (k : VProc K Res) : VProc K Res :=
  let t := max (nt / 2) 1
  .alloc (R3 * R2) fun temp =>
  .par 1 ![Cut.tr (fassign R3 R2 A4 lda temp R2) fun _ => .ret default] fun _ =>
  .par 2 ![tkL d t R3 R2 G lda temp R2, tkL d t R3 (n2 - R2) G lda (A4 + R2) lda] fun _ =>
  .par 2 ![tkGemm gthr t R3 (n2 - R2) R2 temp R2 (F + R2) lda (A4 + R2) lda,
    tkGemm gthr t (m2 - R3) (n2 - R2) R2 (A4 + R3 * lda) lda (F + R2) lda (A4 + R2 + R3 * lda) lda] fun _ =>
  .free temp (R3 * R2) k

/-- rows of the factors and the row permutation, ffpack_ppluq.inl:337-361; the result is `MathP` -/
def ppluqS (jk : List ℕ → ℕ → ℕ) (nt M N M2 R1 R2 R3 R4 A lda : ℕ) (P1 P2 P3 P4 : Arr ℕ) (k : Arr ℕ → VProc K Res) : VProc K Res :=
  liftV (do
    let X ← onSub (Arr.mk' M (jk [8])) 0 (fun B => composePermutationsLLM B P1 P2 R1 M2)
    let X ← onSub X M2 (fun B => composePermutationsLLM B P3 P4 R3 (M - M2))
    addFrom X M2 M M2) fun MathP =>
  if R1 + R2 < M2 then
    liftV (permApplyS MathP (jk [9]) M2 R1 R2 R3 R4) fun MathP =>
    .par 1 ![tk (pmatrixApplyS .Threads A lda N M2 R1 R2 R3 R4 (max nt 1) .ret)] fun _ => k MathP
  else k MathP

/-- columns of the factors and the column permutation, ffpack_ppluq.inl:362-384; the result is `MathQ` -/
def ppluqT (jk : List ℕ → ℕ → ℕ) (t M N N2 R1 R2 R3 R4 A lda : ℕ) (Q1 Q2 Q3 Q4 : Arr ℕ) (k : Arr ℕ → VProc K Res) : VProc K Res :=
  liftV (do
    let X ← onSub (Arr.mk' N (jk [12])) 0 (fun B => composePermutationsLLM B Q1 Q3 R1 N2)
    let X ← onSub X N2 (fun B => composePermutationsLLM B Q2 Q4 R2 (N - N2))
    addFrom X N2 N N2) fun MathQ =>
  if R1 < N2 then
    liftV (permApplyT MathQ (jk [13]) N2 R1 R2 R3 R4) fun MathQ =>
    .par 1 ![tk (pmatrixApplyT .Threads A lda M N2 R1 R2 R3 R4 t .ret)] fun _ => k MathQ
  else k MathQ

/-- the recursive part of the parallel `PLUQ`, ffpack_ppluq.inl:136-402 -/
def ppluqStep (gthr : ℕ) (rec : PPluqFn K) (jk : List ℕ → ℕ → ℕ) (nt : ℕ) (d : Diag) (M N A lda : ℕ) (P Q : Arr ℕ) : VProc K Res :=
  let M2 := M / 2
  let N2 := N / 2
  let h := max (nt / 2) 1
  let q := max (nt / 4) 1
  .par 1 ![rec (fun l => jk (20 :: l)) nt d M2 N2 A (Arr.mk' M2 (jk [0])) (Arr.mk' N2 (jk [1]))] fun x1 =>
  let R1 := (x1 0).1
  let P1 := (x1 0).2.1
  let Q1 := (x1 0).2.2
  let A2 := A + N2
  let A3 := A + M2 * lda
  let A4 := A3 + N2
  let F := A2 + R1 * lda
  let G := A3 + R1
  .par 2 ![tkRows h M2 (N - N2) A2 lda P1, tkCols h (M - M2) N2 A3 lda Q1] fun _ =>
  .par 2 ![tkL d h R1 (N - N2) A lda A2 lda, tkU d h (M - M2) R1 A lda A3 lda] fun _ =>
  .par 2 ![tkGemm gthr h (M2 - R1) (N - N2) R1 (A + R1 * lda) lda A2 lda F lda, tkGemm gthr h (M - M2) (N2 - R1) R1 A3 lda (A + R1) lda G lda] fun _ =>
  .par 3 ![rec (fun l => jk (21 :: l)) h d (M2 - R1) (N - N2) F (Arr.mk' (M2 - R1) (jk [2])) (Arr.mk' (N - N2) (jk [3])),
    rec (fun l => jk (22 :: l)) (max (nt - nt / 2) 1) d (M - M2) (N2 - R1) G (Arr.mk' (M - M2) (jk [4])) (Arr.mk' (N2 - R1) (jk [5])),
    tkGemm gthr h (M - M2) (N - N2) R1 A3 lda A2 lda A4 lda] fun x2 =>
  let R2 := (x2 0).1
  let P2 := (x2 0).2.1
  let Q2 := (x2 0).2.2
  let R3 := (x2 1).1
  let P3 := (x2 1).2.1
  let Q3 := (x2 1).2.2
  .par 1 ![up (papplyP .right .yes .Threads (M - M2) 0 (N - N2) A4 lda Q2 (max nt 1) .ret)
    (up (papplyP .left .no .Threads (N - N2) 0 (M - M2) A4 lda P3 (max nt 1) .ret) (.ret default))] fun _ =>
  .par 5 ![tkRows q (M - M2) R1 A3 lda P3, tkRows q (M2 - R1) R1 (A + R1 * lda) lda P2, tkCols q R1 (N - N2) A2 lda Q2,
    tkCols q R1 (N2 - R1) (A + R1) lda Q3, tkU d h (M - M2) R2 F lda A4 lda] fun _ =>
  ppluqO gthr nt d lda (M - M2) (N - N2) R2 R3 G A4 F
  (.par 1 ![tkGemm gthr (max nt 1) (M - M2 - R3) (N - N2 - R2) R3 (G + R3 * lda) lda (A4 + R2) lda (A4 + R2 + R3 * lda) lda] fun _ =>
  .par 1 ![rec (fun l => jk (23 :: l)) nt d (M - M2 - R3) (N - N2 - R2) (A4 + R2 + R3 * lda) (Arr.mk' (M - M2 - R3) (jk [6]))
    (Arr.mk' (N - N2 - R2) (jk [7]))] fun x4 =>
  let R4 := (x4 0).1
  let P4 := (x4 0).2.1
  let Q4 := (x4 0).2.2
  .par 2 ![tkRows h (M - M2 - R3) (N2 + R2) (A3 + R3 * lda) lda P4, tkCols h (M2 + R3) (N - N2 - R2) (A2 + R2) lda Q4] fun _ =>
  ppluqS jk nt M N M2 R1 R2 R3 R4 A lda P1 P2 P3 P4 fun MathP =>
  ppluqT jk (if R1 + R2 < M2 then max nt 1 else h) M N N2 R1 R2 R3 R4 A lda Q1 Q2 Q3 Q4 fun MathQ =>
  liftV (MathPerm2LAPACKPerm Q MathQ N (jk [14]) (jk [15])) fun Q =>
  liftV (MathPerm2LAPACKPerm P MathP M (jk [10]) (jk [11])) fun P =>
  .ret (R1 + R2 + R3 + R4, P, Q))

/-- the parallel `PLUQ`, ffpack_ppluq.inl:79-403.  The first argument after `lda` bounds the depth of the recursion (`M + N + 1` suffices, proved);
`nt` is the number of threads. -/
def ppluqRec (junk : ℕ → K) (gthr thr lda : ℕ) : ℕ → PPluqFn K
  | 0 => fun _ _ _ _ _ _ _ _ => .fault .fuel
  | fuel+1 => fun jk nt d M N A P Q =>
    liftV (iota P M) fun P =>
    liftV (iota Q N) fun Q =>
    if min M N = 0 then .ret (0, P, Q)
    else if max M N = 1 then .rd A fun x => .ret (if x = 0 then 0 else 1, P, Q)
    else if M = 1 then
      Cut.tr (pluqLine (d = .unit) N A 1) fun piv =>
      if piv = N then .ret (0, P, Q)
      else if piv = 0 then .ret (1, P, Q)
      else liftV (Arr.wr Q 0 piv) fun Q => .ret (1, P, Q)
    else if N = 1 then
      Cut.tr (pluqLine (d = .nonUnit) M A lda) fun piv =>
      if piv = M then .ret (0, P, Q)
      else if piv = 0 then .ret (1, P, Q)
      else liftV (Arr.wr P 0 piv) fun P => .ret (1, P, Q)
    else if min M N < thr then Cut.tr (pluqCrout (cyclicShiftRowV junk) .generic jk d M N A lda P Q) .ret
    else ppluqStep gthr (ppluqRec junk gthr thr lda fuel) jk nt d M N A lda P Q

/-- `PLUQ` with a parallel helper, and `pPLUQ`, ffpack_ppluq.inl:405-425 (`nt = NUM_THREADS`) -/
def ppluq (junk : ℕ → K) (gthr thr : ℕ) (jk : List ℕ → ℕ → ℕ) (nt : ℕ) (d : Diag) (M N A lda : ℕ) (P Q : Arr ℕ) : VProc K Res :=
  ppluqRec junk gthr thr lda (M + N + 1) jk nt d M N A P Q

end Verif.ParV
