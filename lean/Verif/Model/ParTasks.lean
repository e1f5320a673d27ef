import Verif.Core.ParProg
import Verif.Model.Trsm
import Verif.Model.ApplyP

/-!
# The kernels as tasks

The programs that the parallel functions run inside tasks, cut into memory accesses (`Small`).  Only versions that allocate nothing
are cut; `Small.law` says that the accesses performed one after the other are the program.
-/

namespace Verif.Par
open Verif.FF

variable {K : Type} [Field K] [DecidableEq K]

/-- the program `p`, then `k` -/
def call {α : Type} (p : Prog K α) [hp : Small p] (k : Proc K) : Proc K := hp.tr fun _ => k

instance (n X incX : ℕ) : Small (vnegin n X incX : Prog K Unit) := by delta vnegin; infer_instance
instance (n Y incY X incX : ℕ) : Small (vneg n Y incY X incX : Prog K Unit) := by delta vneg; infer_instance
instance (n X incX : ℕ) : Small (vzero n X incX : Prog K Unit) := by delta vzero; infer_instance
instance (n Y incY X incX : ℕ) : Small (vassign n Y incY X incX : Prog K Unit) := by delta vassign; infer_instance
instance (n X incX Y incY : ℕ) : Small (vswap n X incX Y incY : Prog K Unit) := by delta vswap; infer_instance
instance (n : ℕ) (a : K) (X incX : ℕ) : Small (vscalin .generic n a X incX) := by delta vscalin; dsimp only; infer_instance
instance (ADD : Bool) (cat : Cat) (n A incA B incB C incC : ℕ) : Small (vaddsub cat ADD n A incA B incB C incC : Prog K Unit) := by
  delta vaddsub; infer_instance
instance (cat : Cat) (n A incA B incB C incC : ℕ) : Small (vadd cat n A incA B incB C incC : Prog K Unit) := by delta vadd; infer_instance
instance (cat : Cat) (n A incA B incB C incC : ℕ) : Small (vsub cat n A incA B incB C incC : Prog K Unit) := by delta vsub; infer_instance
instance (cat : Cat) (n B incB C incC : ℕ) : Small (vaddin cat n B incB C incC : Prog K Unit) := by delta vaddin; infer_instance
instance (cat : Cat) (n B incB C incC : ℕ) : Small (vsubin cat n B incB C incC : Prog K Unit) := by delta vsubin; infer_instance
instance (n X incX Y incY : ℕ) : Small (vdot n X incX Y incY : Prog K K) := by delta vdot; infer_instance
instance (m n A lda : ℕ) : Small (fzero m n A lda : Prog K Unit) := by delta fzero; infer_instance
instance (m n B ldb A lda : ℕ) : Small (fassign m n B ldb A lda : Prog K Unit) := by delta fassign; infer_instance
instance (m n A lda : ℕ) : Small (fnegin m n A lda : Prog K Unit) := by delta fnegin; infer_instance
instance (m n : ℕ) (a : K) (A lda : ℕ) : Small (fscalin .generic m n a A lda) := by delta fscalin; infer_instance
instance (cat : Cat) (m n A lda B ldb C ldc : ℕ) : Small (fadd cat m n A lda B ldb C ldc : Prog K Unit) := by delta fadd; infer_instance
instance (cat : Cat) (m n A lda B ldb C ldc : ℕ) : Small (fsub cat m n A lda B ldb C ldc : Prog K Unit) := by delta fsub; infer_instance
instance (cat : Cat) (m n B ldb C ldc : ℕ) : Small (faddin cat m n B ldb C ldc : Prog K Unit) := by delta faddin; infer_instance
instance (cat : Cat) (m n B ldb C ldc : ℕ) : Small (fsubin cat m n B ldb C ldc : Prog K Unit) := by delta fsubin; infer_instance
instance (c a b : ℕ) : Small (axpyin c a b : Prog K Unit) := by delta axpyin; infer_instance
instance (ta tb : Tr) (m n k : ℕ) (alpha : K) (A lda B ldb : ℕ) (beta : K) (C ldc : ℕ) :
    Small (gemmClassic .generic ta tb m n k alpha A lda B ldb beta C ldc) := by
  delta gemmClassic
  cases ta <;> cases tb <;> (dsimp only; infer_instance)
instance (ta : Tr) (M N : ℕ) (alpha : K) (A lda X incX : ℕ) (beta : K) (Y incY : ℕ) :
    Small (fgemvDefault .generic ta M N alpha A lda X incX beta Y incY) := by delta fgemvDefault; infer_instance
instance (ta : Tr) (M N : ℕ) (alpha : K) (A lda X incX : ℕ) (beta : K) (Y incY : ℕ) :
    Small (fgemv .generic ta M N alpha A lda X incX beta Y incY) := by delta fgemv; dsimp only; infer_instance
instance (side : Side) (M A lda : ℕ) (P : Arr ℕ) (i : ℕ) : Small (applyPStep side M A lda P i : Prog K Unit) := by
  delta applyPStep; cases side <;> (dsimp only; infer_instance)
instance (side : Side) (ta : Tr) (M ibeg iend A lda : ℕ) (P : Arr ℕ) : Small (applyPBlock side ta M ibeg iend A lda P : Prog K Unit) := by
  delta applyPBlock; cases side <;> cases ta <;> (dsimp only; infer_instance)
instance (side : Side) (ta : Tr) (M ibeg iend A lda : ℕ) (P : Arr ℕ) : Small (applyP side ta M ibeg iend A lda P : Prog K Unit) := by
  delta applyP; dsimp only; infer_instance
instance (A lda tmp width M2 R1 R2 R3 R4 : ℕ) : Small (doApplyS A lda tmp width M2 R1 R2 R3 R4 : Prog K Unit) := by
  delta doApplyS; infer_instance
instance (A lda tmp width N2 R1 R2 R3 R4 : ℕ) : Small (doApplyT A lda tmp width N2 R1 R2 R3 R4 : Prog K Unit) := by
  delta doApplyT; infer_instance

/-! `ftrsm` with the classical product -/

instance (side : Side) (M N : ℕ) (a : K) (B ldb : ℕ) : Small (trScal .generic side M N a B ldb) := by
  delta trScal; cases side <;> (dsimp only; infer_instance)

instance (side : Side) (uplo : Uplo) (ta : Tr) (r1 r2 : ℕ → ℕ → ℕ → ℕ → Prog K Unit) [∀ a b c d, Small (r1 a b c d)] [∀ a b c d, Small (r2 a b c d)]
    (ns M N A lda B ldb : ℕ) : Small (trsmSplit (gemmClassic .generic) side uplo ta r1 r2 ns M N A lda B ldb) := by
  delta trsmSplit; cases side <;> (dsimp only; infer_instance)

/-- the accesses of the recursive solve -/
@[implicit_reducible] def smallTrsmGen (side : Side) (uplo : Uplo) (ta : Tr) (diag : Diag) (lda ldb : ℕ) : (fuel M N A B : ℕ) →
    Small (ftrsmGen (K := K) .generic (gemmClassic .generic) side uplo ta diag lda ldb fuel M N A B)
  | 0, _, _, _, _ => inferInstanceAs (Small (liftE (.error .fuel)))
  | fuel + 1, M, N, A, B =>
    haveI := smallTrsmGen side uplo ta diag lda ldb fuel
    inferInstanceAs (Small (if trNa side M N = 1 then
      if diag = .nonUnit then do
        let a ← load A
        let inv ← liftE (invE a)
        trScal .generic side M N inv B ldb
      else pure ()
    else trsmSplit (gemmClassic .generic) side uplo ta (ftrsmGen .generic (gemmClassic .generic) side uplo ta diag lda ldb fuel)
      (ftrsmGen .generic (gemmClassic .generic) side uplo ta diag lda ldb fuel) (trNa side M N >>> 1) M N A lda B ldb))

instance (side : Side) (uplo : Uplo) (ta : Tr) (diag : Diag) (lda ldb fuel M N A B : ℕ) :
    Small (ftrsmGen (K := K) .generic (gemmClassic .generic) side uplo ta diag lda ldb fuel M N A B) :=
  smallTrsmGen side uplo ta diag lda ldb fuel M N A B

instance (side : Side) (uplo : Uplo) (ta : Tr) (diag : Diag) (M N : ℕ) (alpha : K) (A lda B ldb : ℕ) :
    Small (ftrsm .generic (gemmClassic .generic) side uplo ta diag M N alpha A lda B ldb) := by delta ftrsm; infer_instance

end Verif.Par
