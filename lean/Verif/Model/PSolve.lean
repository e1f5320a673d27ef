import Verif.Model.PPluq
import Verif.Model.Solve

/-!
# Systems solved with the parallel decomposition

/repo/fflas-ffpack/ffpack/ffpack.inl:163-208.
-/

namespace Verif.ParV
open Verif.FF Verif.Par Verif.Perm

variable {K ν : Type}

/-- a process, then what follows it in the same task, which gets its value -/
def vbind : VProc K ν → (ν → VProc K ν) → VProc K ν
  | .ret x, f => f x
  | .fault e, _ => .fault e
  | .rd i k, f => .rd i fun x => vbind (k x) f
  | .wr i v p, f => .wr i v (vbind p f)
  | .alloc n k, f => .alloc n fun x => vbind (k x) f
  | .free p n q, f => .free p n (vbind q f)
  | .par n ts k, f => .par n ts fun x => vbind (k x) f

variable [Field K] [DecidableEq K]

instance (n X incX Y incY : ℕ) : Cut ν (vswap n X incX Y incY : Prog K Unit) := by delta vswap; infer_instance
instance (side : Side) (M A lda : ℕ) (P : Arr ℕ) (i : ℕ) : Cut ν (applyPStep side M A lda P i : Prog K Unit) := by
  delta applyPStep; cases side <;> (dsimp only; infer_instance)
instance (side : Side) (ta : Tr) (M ibeg iend A lda : ℕ) (P : Arr ℕ) : Cut ν (applyPBlock side ta M ibeg iend A lda P : Prog K Unit) := by
  delta applyPBlock; cases side <;> cases ta <;> (dsimp only; infer_instance)
instance (side : Side) (ta : Tr) (M ibeg iend A lda : ℕ) (P : Arr ℕ) : Cut ν (applyP side ta M ibeg iend A lda P : Prog K Unit) := by
  delta applyP; dsimp only; infer_instance
instance (diag : Diag) (Xi piv : ℕ) (d : K) : Cut ν (trsvStep diag Xi piv d) := by delta trsvStep; infer_instance
instance (uplo : Uplo) (ta : Tr) (diag : Diag) (N A lda X incX : ℕ) : Cut ν (ftrsv uplo ta diag N A lda X incX : Prog K Unit) := by
  delta ftrsv; cases uplo <;> cases ta <;> (dsimp only; infer_instance)

/-- `Solve` after the decomposition of an invertible matrix, ffpack.inl:183-192 -/
def solveTail (M A lda x incx b incb : ℕ) (rowP P : Arr ℕ) : Prog K Bool := do
  vassign M b incb x incx
  applyP .left .no 1 0 M x incx rowP
  ftrsv .lower .no .unit M A lda x incx
  ftrsv .upper .no .nonUnit M A lda x incx
  applyP .left .yes 1 0 M x incx P
  pure true

instance (M A lda x incx b incb : ℕ) (rowP P : Arr ℕ) : Cut ν (solveTail M A lda x incx b incb rowP P : Prog K Bool) := by
  delta solveTail; infer_instance

/-- `pSolve`, ffpack.inl:197-208, and `Solve` with a parallel helper, :163-195: only `PLUQ` is parallel, the rest is done by the task
that waited for the decomposition.  The value is the rank and the permutations, local variables of `Solve`; `SINGULAR MATRIX` is printed
when the rank is smaller than `M`. -/
def psolve (junk : ℕ → K) (gthr thr : ℕ) (jk : List ℕ → ℕ → ℕ) (nt M A lda x incx b incb : ℕ) (rowP P : Arr ℕ) : VProc K Res :=
  vbind (ppluq junk gthr thr jk nt .nonUnit M M A lda rowP P) fun r =>
    if r.1 < M then .ret r
    else Cut.tr (solveTail M A lda x incx b incb r.2.1 r.2.2) fun _ => .ret r

end Verif.ParV
