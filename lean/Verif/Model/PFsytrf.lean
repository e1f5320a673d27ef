import Verif.Model.PFsyrk
import Verif.Model.PPluq
import Verif.Model.Fsytrf

/-!
# Parallel triangular factorisation of symmetric matrices

ffpack_fsytrf.inl:629-678 (`fsytrf_nonunit` with a parallel helper) and :706-722 (`fsytrf` with a parallel helper).  The function is one
task; the triangular solves and the symmetric updates start tasks.  `q` is what follows with the answer.
-/

namespace Verif.ParV

open Verif.FF
open Verif.Par (Proc PGemm call pftrsm pSyrk seqSyrk)

variable {K : Type} [Field K] [DecidableEq K] {ν : Type}

instance (n X incX Y incY : ℕ) : Cut ν (vneg n X incX Y incY : Prog K Unit) := by delta vneg; infer_instance
instance (n : ℕ) (a : K) (X incX Y incY : ℕ) : Cut ν (vscal .generic n a X incX Y incY) := by delta vscal; dsimp only; infer_instance
instance (n X incX Y incY : ℕ) : Cut ν (vaddin .generic n X incX Y incY : Prog K Unit) := by delta vaddin vadd vaddsub; dsimp only; infer_instance
instance (n X incX Y incY : ℕ) : Cut ν (vsubin .generic n X incX Y incY : Prog K Unit) := by delta vsubin vsub vaddsub; dsimp only; infer_instance
instance (n : ℕ) (a : K) (X incX Y incY : ℕ) : Cut ν (vaxpy .generic n a X incX Y incY) := by
  delta vaxpy axpypInc; dsimp only; infer_instance

/-- the pivot at `Ai`: `none` if it is 0, otherwise its inverse, stored at `Di`, ffpack_fsytrf.inl:75-76, 92-93 -/
def sytHead (Ai Di : ℕ) : Prog K (Option K) := do
  let a ← load Ai
  if a = 0 then pure none
  else do
    let y ← liftE (invE a)
    store Di y
    pure (some y)

/-- the update of the other rows in `fsytrf_BC_RL`, ffpack_fsytrf.inl:77-85, 94-102 -/
def rlBody (u : Uplo) (lda N Ai : ℕ) (y : K) (tmp : ℕ) : Prog K Unit := do
  vscal .generic N (-y) (Ai + sytInc u lda) (sytInc u lda) tmp 1
  loop N fun t => do
    let c ← load (tmp + t)
    vaxpy .generic (N - t) c (Ai + (t + 1) * sytInc u lda) (sytInc u lda) (Ai + (t + 1) * (lda + 1)) (sytInc u lda)

instance (Ai Di : ℕ) : Cut ν (sytHead Ai Di : Prog K (Option K)) := by delta sytHead; infer_instance
instance (u : Uplo) (lda N Ai : ℕ) (y : K) (tmp : ℕ) : Cut ν (rlBody u lda N Ai y tmp) := by delta rlBody; infer_instance

/-- `fsytrf_BC_RL`, ffpack_fsytrf.inl:68-106, for `incDinv = 1` and fields without delayed reduction, cut at the allocations -/
def rlV (u : Uplo) (lda : ℕ) : ℕ → ℕ → ℕ → (Bool → VProc K ν) → VProc K ν
  | 0, _, _, q => q true
  | N + 1, Ai, Di, q => Cut.tr (sytHead Ai Di) fun o => match o with
    | none => q false
    | some y => .alloc N fun tmp => Cut.tr (rlBody u lda N Ai y tmp) fun _ => .free tmp N (rlV u lda N (Ai + (lda + 1)) (Di + 1) q)

/-- the update of column `i` in `fsytrf_BC_Crout`, ffpack_fsytrf.inl:38-47, 53-60 -/
def croutBody (u : Uplo) (N A lda D i tmp : ℕ) : Prog K Unit := do
  loop i fun j => do
    let a ← load (A + i * sytInc u lda + j * sytSel u lda 1)
    let d ← load (D + j * 1)
    store (tmp + j) (a * d)
  fgemv .generic (sytTr u) (sytSel u i (N - i)) (sytSel u (N - i) i) (-1) (A + i * sytInc u lda) lda tmp 1 1 (A + i * (lda + 1)) (sytInc u lda)

instance (u : Uplo) (N A lda D i tmp : ℕ) : Cut ν (croutBody u N A lda D i tmp : Prog K Unit) := by delta croutBody; infer_instance

/-- `fsytrf_BC_Crout`, ffpack_fsytrf.inl:32-66, for `incDinv = 1`, cut at the allocations; the last number is that of the rows left -/
def croutV (u : Uplo) (N A lda D : ℕ) : ℕ → (Bool → VProc K ν) → VProc K ν
  | 0, q => q true
  | left + 1, q => .alloc (N - (left + 1)) fun tmp => Cut.tr (croutBody u N A lda D (N - (left + 1)) tmp) fun _ => .free tmp (N - (left + 1))
      (Cut.tr (sytHead (A + (N - (left + 1)) * (lda + 1)) (D + (N - (left + 1)) * 1)) fun o => match o with
        | none => q false
        | some _ => croutV u N A lda D left q)

/-- type of the base cases -/
abbrev SytrfV (K ν : Type) := Uplo → ℕ → ℕ → ℕ → ℕ → (Bool → VProc K ν) → VProc K ν

/-- type of the triangular solves: side, uplo, trans, diag, M, N, alpha, A, lda, B, ldb -/
abbrev TrP (K : Type) := Side → Uplo → Tr → Diag → ℕ → ℕ → K → ℕ → ℕ → ℕ → ℕ → Proc K

/-- type of `fsyrk` with a diagonal matrix: uplo, trans, n, k, alpha, A, lda, D, incD, beta, C, ldc -/
abbrev SyrkP (K : Type) := Uplo → Tr → ℕ → ℕ → K → ℕ → ℕ → ℕ → ℕ → K → ℕ → ℕ → Proc K

/-- `fsytrf_nonunit`, ffpack_fsytrf.inl:582-678, for `incDinv = 1`, with the solves `ts` and the updates `sk` of the helper.  The first
number bounds the depth of the recursion. -/
def sytrfV [Inhabited ν] (bc : SytrfV K ν) (ts : TrP K) (sk : SyrkP K) (u : Uplo) (lda thr : ℕ) : ℕ → ℕ → ℕ → ℕ → (Bool → VProc K ν) → VProc K ν
  | 0, _, _, _, _ => .fault .fuel
  | fuel + 1, N, A, D, q =>
    if N ≤ thr then bc u N A lda D q
    else
      sytrfV bc ts sk u lda thr fuel (N / 2) A D fun ok1 =>
        if ok1 = false then q false
        else
          up (ts (sytSide u) u .yes .nonUnit (sytSel u (N / 2) (N - N / 2)) (sytSel u (N - N / 2) (N / 2)) 1 A lda (A + N / 2 * sytInc u lda) lda)
            (up (sk u (sytTr u) (N - N / 2) (N / 2) (-1) (A + N / 2 * sytInc u lda) lda A (lda + 1) 1 (A + N / 2 * (lda + 1)) lda)
              (sytrfV bc ts sk u lda thr fuel (N - N / 2) (A + N / 2 * (lda + 1)) (D + N / 2) q))

/-- the sequential solve as a part of a task -/
def trsmSeq : TrP K := fun side u ta d M N alpha A lda B ldb => call (ftrsm .generic (gemmClassic .generic) side u ta d M N alpha A lda B ldb) .ret

/-- `ftrsm` with `Block/Threads`, ffpack_fsytrf.inl:667-668, fflas_ftrsm.inl:97-99 -/
def trsmPar (nt : ℕ) : TrP K := fun side u ta d M N alpha A lda B ldb => pftrsm side u ta d .Threads M N alpha A lda B ldb nt .ret

/-- the sequential `fsyrk` as a part of a task; `sthr` is its default threshold -/
def syrkSeq (gs : PGemm K) (sthr : ℕ) : SyrkP K := fun u t n k alpha A lda D incD beta C ldc =>
  seqSyrk gs sthr u t k alpha lda D incD beta ldc (n + 1) n A C .ret

/-- the parallel `fsyrk`, ffpack_fsytrf.inl:671 -/
def syrkPar (gs : PGemm K) (gc gb : ℕ → PGemm K) (sthr nt : ℕ) : SyrkP K := fun u t n k alpha A lda D incD beta C ldc =>
  pSyrk gs gc gb sthr u t k alpha lda D incD beta ldc (n + 1) nt n A C .ret

/-- `fsytrf_nonunit` with a parallel helper, ffpack_fsytrf.inl:629-678.  The number of threads is the same in the whole recursion: with one
thread the sequential version is called (:652-653; before it, `N <= threshold` is the same test in both). -/
def pfsytrfNonunit [Inhabited ν] (gs : PGemm K) (gc gb : ℕ → PGemm K) (bc : SytrfV K ν) (sthr nt : ℕ) (u : Uplo) (N A lda D thr : ℕ)
    (q : Bool → VProc K ν) : VProc K ν :=
  if nt = 1 then sytrfV bc trsmSeq (syrkSeq gs sthr) u lda thr (N + 1) N A D q
  else sytrfV bc (trsmPar nt) (syrkPar gs gc gb sthr nt) u lda thr (N + 1) N A D q

/-- the division by the pivots, ffpack_fsytrf.inl:717-719 -/
def sytUnit (u : Uplo) (N A lda D : ℕ) : Prog K Unit := loop N fun i => do
  let d ← load (D + i)
  vscalin .generic (N - i - 1) d (A + i * (lda + 1) + sytInc u lda) (sytInc u lda)

instance (u : Uplo) (N A lda D : ℕ) : Cut ν (sytUnit u N A lda D : Prog K Unit) := by delta sytUnit; infer_instance

/-- `fsytrf` with a parallel helper, ffpack_fsytrf.inl:706-722.  On failure `Dinv` is not deleted. -/
def pfsytrf (gs : PGemm K) (gc gb : ℕ → PGemm K) (bc : SytrfV K Bool) (sthr nt : ℕ) (u : Uplo) (N A lda thr : ℕ) : VProc K Bool :=
  .alloc N fun D => pfsytrfNonunit gs gc gb bc sthr nt u N A lda D thr fun ok =>
    if ok = false then .ret false
    else Cut.tr (sytUnit u N A lda D) fun _ => .free D N (.ret true)

/-- `fsytrf_BC_RL` as a base case -/
def bcRL : SytrfV K ν := fun u N A lda D q => rlV u lda N A D q

/-- `fsytrf_BC_Crout` as a base case -/
def bcCrout : SytrfV K ν := fun u N A lda D q => croutV u N A lda D N q

end Verif.ParV
