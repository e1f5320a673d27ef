import Verif.Proofs.Winograd3
import Verif.Core.HeapEx
import Mathlib.Data.Rat.Defs
import Mathlib.Algebra.Field.Rat

/-!
# Properties C09, C10: matrix products

`GPre` (file `Proofs/Gemm.lean`) lists the calling conditions only: the three matrices are allocated, rows of a matrix do
not overlap, `C` does not overlap `A` or `B`, and the allocator's free area is unallocated.
-/

namespace Verif.Props

open Verif.FF

variable {K : Type} [Field K] [DecidableEq K] {mem : Mem K} {ta tb : Tr} {m n k A lda B ldb C ldc : ℕ}

/-- contents of the window of a `fgemm` operand, seen through `op` -/
def opnd (mem : Mem K) (t : Tr) (r c A lda : ℕ) : ℕ → ℕ → K :=
  Spec.op t (mem.mat (match t with | .no => ⟨A, lda, r, c⟩ | .yes => ⟨A, lda, c, r⟩))

omit [Field K] [DecidableEq K] in
lemma opnd_eq (mem : Mem K) (t : Tr) (r c A lda : ℕ) : opnd mem t r c A lda = Spec.op t (mem.mat (aw t r c A lda)) := by
  cases t <;> rfl

lemma of_gval {p : Prog K Unit} {alpha beta : K} (h : Run p mem (fun _ mem' => Step mem mem' ⟨C, ldc, m, n⟩
      (gval mem ta tb m n k alpha A lda B ldb beta C ldc))) :
    Run p mem (fun _ mem' => Step mem mem' ⟨C, ldc, m, n⟩ (fun i j =>
      alpha * Spec.mul k (opnd mem ta m k A lda) (opnd mem tb k n B ldb) i j + beta * mem.mat ⟨C, ldc, m, n⟩ i j)) := by
  refine h.mono (fun _ _ s => s.congr (fun i _ j _ => ?_))
  rw [gval, opnd_eq, opnd_eq]

/-- Classical product. -/
theorem C09_classic (cat : Cat) (alpha beta : K) (h : GPre mem ta tb m n k A lda B ldb C ldc) :
    Run (gemmClassic cat ta tb m n k alpha A lda B ldb beta C ldc) mem (fun _ mem' => Step mem mem' ⟨C, ldc, m, n⟩ (fun i j =>
      alpha * Spec.mul k (opnd mem ta m k A lda) (opnd mem tb k n B ldb) i j + beta * mem.mat ⟨C, ldc, m, n⟩ i j)) := by
  exact of_gval (gemmClassic_ok cat _ _ _ _ _ _ alpha _ _ _ _ beta _ _ h)

/-- C09: Winograd product with `beta = 0`, for every threshold of at least 2 and every number of recursion levels
(`none`: chosen from the threshold), every shape.  The recursion ends within the depth `winoFuel`. -/
theorem C09_winograd (cat : Cat) (th : ℕ) (hth : 2 ≤ th) (lev : Option ℕ) (alpha : K) (fuel : ℕ)
    (hf : winoFuel lev m n k ≤ fuel) (h : GPre mem ta tb m n k A lda B ldb C ldc) :
    Run (gemmWino cat th fuel lev ta tb m n k alpha A lda B ldb 0 C ldc) mem (fun _ mem' => Step mem mem' ⟨C, ldc, m, n⟩
      (fun i j => alpha * Spec.mul k (opnd mem ta m k A lda) (opnd mem tb k n B ldb) i j)) := by
  refine (gemmWino_ok cat th hth fuel lev ta tb m n k hf mem alpha A lda B ldb 0 C ldc h).mono (fun _ _ s => s.congr ?_)
  intro i _ j _
  simp only [gval, opnd_eq, zero_mul, add_zero]

/-- C10: Winograd product accumulated on `beta C`. -/
theorem C10_winograd_acc (cat : Cat) (th : ℕ) (hth : 2 ≤ th) (lev : Option ℕ) (alpha beta : K) (fuel : ℕ)
    (hf : winoFuel lev m n k ≤ fuel) (h : GPre mem ta tb m n k A lda B ldb C ldc) :
    Run (gemmWino cat th fuel lev ta tb m n k alpha A lda B ldb beta C ldc) mem (fun _ mem' => Step mem mem' ⟨C, ldc, m, n⟩
      (fun i j => alpha * Spec.mul k (opnd mem ta m k A lda) (opnd mem tb k n B ldb) i j + beta * mem.mat ⟨C, ldc, m, n⟩ i j)) := by
  exact of_gval (gemmWino_ok cat th hth fuel lev ta tb m n k hf mem alpha A lda B ldb beta C ldc h)

/-- The public entries, over the Winograd version. -/
theorem C10_public (cat : Cat) (th : ℕ) (hth : 2 ≤ th) (alpha beta : K)
    (h : GPre mem ta tb m n k A lda B ldb C ldc) :
    Run (gemmPublic cat (gemmAuto cat th) ta tb m n k alpha A lda B ldb beta C ldc) mem (fun _ mem' => Step mem mem' ⟨C, ldc, m, n⟩
      (fun i j => alpha * Spec.mul k (opnd mem ta m k A lda) (opnd mem tb k n B ldb) i j + beta * mem.mat ⟨C, ldc, m, n⟩ i j)) := by
  exact of_gval (gemmPublic_ok cat (gemmAuto_ok cat th hth) ta tb m n k mem alpha A lda B ldb beta C ldc h)

/-- The entry with delayed reductions, which factors `alpha` out. -/
theorem C10_delayed (cat : Cat) (th : ℕ) (hth : 2 ≤ th) (alpha beta : K)
    (h : GPre mem ta tb m n k A lda B ldb C ldc) :
    Run (gemmDelayed cat (gemmAuto cat th) ta tb m n k alpha A lda B ldb beta C ldc) mem (fun _ mem' => Step mem mem' ⟨C, ldc, m, n⟩
      (fun i j => alpha * Spec.mul k (opnd mem ta m k A lda) (opnd mem tb k n B ldb) i j + beta * mem.mat ⟨C, ldc, m, n⟩ i j)) := by
  exact of_gval (gemmDelayed_ok cat (gemmAuto_ok cat th hth) ta tb m n k mem alpha A lda B ldb beta C ldc h)

/-! ### A concrete case: `3 × 3` matrices, `C` with leading dimension 4, threshold 2 (one level, all dimensions peeled) -/

/-- `A` at 0, `B` at 9, `C` at 18 -/
def gex : Mem ℚ := memOf [1,2,3, 4,5,6, 7,8,10, 2,0,1, 1,1,0, 0,3,1, 1,1,1,77, 2,2,2,77, 3,3,3,77]

example : GPre gex .no .no 3 3 3 0 3 9 3 18 4 where
  wf := WF_memOf _
  okA := OkIn_memOf (by decide)
  okB := OkIn_memOf (by decide)
  okC := OkIn_memOf (by decide)
  lA := by decide
  lB := by decide
  lC := by decide
  dA := Win.Ends.disj (V := ⟨18, 4, 3, 3⟩) (by decide)
  dB := Win.Ends.disj (V := ⟨18, 4, 3, 3⟩) (by decide)

example : after (gemmWino .modular 2 (winoFuel none 3 3 3) none .no .no 3 3 3 1 0 3 9 3 0 18 4) gex 18 = some 4 ∧
    after (gemmWino .modular 2 (winoFuel none 3 3 3) none .no .no 3 3 3 1 0 3 9 3 0 18 4) gex 28 = some 17 ∧
    after (gemmWino .modular 2 (winoFuel none 3 3 3) none .no .no 3 3 3 1 0 3 9 3 0 18 4) gex 29 = some 77 ∧
    after (gemmWino .modular 2 (winoFuel none 3 3 3) none .no .yes 3 3 3 2 0 3 9 3 3 18 4) gex 18 = some 13 := by
  decide +kernel

end Verif.Props
