import Verif.Proofs.WinogradOld
import Verif.Props.Gemm

/-!
# Property C10 for the schedule selected by `OLDWINO`
-/

namespace Verif.Props
open Verif.FF

variable {K : Type} [Field K] [DecidableEq K] {mem : Mem K} {ta tb : Tr} {m n k A lda B ldb C ldc : ℕ}

/-- C10: Winograd product accumulated on `beta C`, compiled with `OLDWINO`. -/
theorem C10_winograd_old (cat : Cat) (th : ℕ) (hth : 2 ≤ th) (lev : Option ℕ) (alpha beta : K) (fuel : ℕ)
    (hf : winoFuel lev m n k ≤ fuel) (h : GPre mem ta tb m n k A lda B ldb C ldc) :
    Run (gemmWinoOld cat th fuel lev ta tb m n k alpha A lda B ldb beta C ldc) mem (fun _ mem' => Step mem mem' ⟨C, ldc, m, n⟩
      (fun i j => alpha * Spec.mul k (opnd mem ta m k A lda) (opnd mem tb k n B ldb) i j + beta * mem.mat ⟨C, ldc, m, n⟩ i j)) := by
  exact of_gval (gemmWinoOld_ok cat th hth fuel lev ta tb m n k hf mem alpha A lda B ldb beta C ldc h)

/-- both schedules on the example of C10, `3 × 3` with one level, and on transposed operands -/
example : ∀ i < 12, after (gemmWinoOld .generic 2 40 none .no .yes 3 3 3 (2 : ℚ) 0 3 9 3 5 18 4) gex (18 + i) =
    after (gemmWino .generic 2 40 none .no .yes 3 3 3 (2 : ℚ) 0 3 9 3 5 18 4) gex (18 + i) := by decide +kernel

example : after (gemmWinoOld .generic 2 40 none .no .no 3 3 3 (1 : ℚ) 0 3 9 3 1 18 4) gex 18 = some 5 ∧
    after (gemmWinoOld .generic 2 40 none .no .no 3 3 3 (1 : ℚ) 0 3 9 3 1 18 4) gex 21 = some 77 := by decide +kernel

end Verif.Props
