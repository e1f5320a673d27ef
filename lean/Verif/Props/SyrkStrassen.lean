import Mathlib.FieldTheory.Finite.Basic
import Verif.Proofs.SyrkStrassen7
import Verif.Props.Fsyrk

/-!
# Property C102: symmetric rank-k update with a Strassen-like algorithm

`fsyrk` called with a helper `MMHelper<Field, MMHelperAlgo::Winograd>` computes the same update as the classical versions (C38), for every
number of recursion levels.  The algorithm uses `x`, `y` with `x² + y² = -1`.
-/

namespace Verif.Props

open Verif.FF Verif.Spec Finset

variable {K : Type} [Field K] [DecidableEq K] {m : Mem K} {u : Uplo} {t : Tr} {n k A lda C ldc : ℕ} {g : GemmFn K}

lemma SyrkBase.all (cat : Cat) (b : SyrkBase) : SyrkAll (b.prog cat : SyrkFn K) := by
  cases b with
  | default => exact syrkAll_default
  | lazy kmax => exact syrkAll_lazy cat kmax
  | delayed kmax => exact syrkAll_delayed cat kmax

/-- C102, partial: the selected triangle of `C` receives `alpha op(A) op(A)ᵀ + beta C`; nothing outside of `C` is changed, all temporaries
are released.  `b` is the classical version used at the last level, `c` the one used for the remaining rows.  Missing: with
`beta ≠ 0` the order must be at least `2^(lev+1)` (see `C102_small_violated`), the other triangle of `C` is overwritten (see
`C102_scratch_violated`), and negative numbers of levels (the default of the helper), for which the recursion does not end. -/
theorem C102_strassen_partial (cat : Cat) (hg : GemmOk g) (b c : SyrkBase) {x y : K} (hxy : x * x + y * y = -1) (lev : ℕ) (alpha beta : K)
    (hn : lev = 0 ∨ beta = 0 ∨ 2 ^ (lev + 1) ≤ n) (hC : Rect m n n C ldc) (hA : SyrkArg m t n k A lda C ldc) :
    Run (fsyrkWino cat g (b.prog cat) (fsyrk cat (c.prog cat)) x y lev u t n k alpha A lda beta C ldc) m (fun _ m' =>
      Only m m' ⟨C, ldc, n, n⟩ ∧ ∀ i < n, ∀ j < n, inHalf u i j → m'.mat ⟨C, ldc, n, n⟩ i j =
        alpha * ∑ l ∈ range k, opnd m t n k A lda i l * opnd m t n k A lda j l + beta * m.mat ⟨C, ldc, n, n⟩ i j) := by
  refine (fsyrkWino_ok cat hg (b.all cat) ((c.all cat).top cat) hxy lev hn hC.on hA.osrc hA.dis).mono ?_
  rintro _ m' ⟨V', h1, h2⟩
  refine ⟨⟨h1.step.ok, h1.step.frame⟩, fun i hi j hj c => ?_⟩
  rw [h1.mat hi hj, h2 i hi j hj c]; rfl

/-- C102, partial, over fields with delayed reductions, where `alpha` is factored out.  Missing: the same as above. -/
theorem C102_delayed_partial (cat : Cat) (hg : GemmOk g) (b c : SyrkBase) {x y : K} (hxy : x * x + y * y = -1) (lev : ℕ) (alpha beta : K)
    (hn : lev = 0 ∨ beta = 0 ∨ 2 ^ (lev + 1) ≤ n) (hC : Rect m n n C ldc) (hA : SyrkArg m t n k A lda C ldc) :
    Run (fsyrkWinoDelayed cat g (b.prog cat) (fsyrk cat (c.prog cat)) x y lev u t n k alpha A lda beta C ldc) m (fun _ m' =>
      Only m m' ⟨C, ldc, n, n⟩ ∧ ∀ i < n, ∀ j < n, inHalf u i j → m'.mat ⟨C, ldc, n, n⟩ i j =
        alpha * ∑ l ∈ range k, opnd m t n k A lda i l * opnd m t n k A lda j l + beta * m.mat ⟨C, ldc, n, n⟩ i j) := by
  refine (fsyrkWinoDelayed_ok cat hg (b.all cat) ((c.all cat).top cat) hxy lev hn hC.on hA.osrc hA.dis).mono ?_
  rintro _ m' ⟨V', h1, h2⟩
  refine ⟨⟨h1.step.ok, h1.step.frame⟩, fun i hi j hj c => ?_⟩
  rw [h1.mat hi hj, h2 i hi j hj c]; rfl

/-- The constants exist in every field of prime characteristic: what `sumofsquaresmodprime` is called for has a solution. -/
theorem C102_constants (p : ℕ) [Fact p.Prime] [CharP K p] : ∃ x y : K, x * x + y * y = -1 := by
  obtain ⟨a, b, h⟩ := ZMod.sq_add_sq p (-1)
  refine ⟨ZMod.castHom (dvd_refl p) K a, ZMod.castHom (dvd_refl p) K b, ?_⟩
  rw [← map_mul, ← map_mul, ← map_add, ← sq, ← sq, h, map_neg, map_one]

/-- but not in characteristic 0, for instance over `ℚ` -/
theorem C102_constants_rat (x y : ℚ) : x * x + y * y ≠ -1 := by
  have h1 := mul_self_nonneg x
  have h2 := mul_self_nonneg y
  intro h
  have h3 := add_nonneg h1 h2
  rw [h] at h3
  exact absurd h3 (by decide)

instance fact_prime_seven : Fact (Nat.Prime 7) := ⟨by decide⟩

/-- `A`, `5 × 6`, at 0; `C`, `5 × 5` with leading dimension 6, at 30 -/
def strx : Mem (ZMod 7) := memOf ([1,2,3,4,5,6, 0,1,1,0,2,2, 6,1,3,2,2,0, 1,1,4,0,3,5, 2,0,6,1,1,1] ++
  [1,2,3,4,5,6, 0,1,2,3,4,6, 3,5,6,1,0,6, 2,2,1,4,5,6, 6,5,4,3,2,6])

/-- C102 without the condition on the order fails: for a matrix of order 3 and one level of recursion the code accesses the entry
`C22[(N2-1)*(ldc+1)]` of an empty block. -/
theorem C102_small_violated : Rect strx 3 3 30 6 ∧ SyrkArg strx .no 3 4 0 6 30 6 ∧ (2 : ZMod 7) * 2 + 3 * 3 = -1 ∧
    faultOf (fsyrkWino .generic (gemmClassic .generic) fsyrkDefault (fsyrk .generic fsyrkDefault) 2 3 1 .lower .no 3 4 1 0 6 1 30 6) strx
      = some .oob := by
  refine ⟨⟨WF_memOf _, OkIn_memOf (by decide), by decide⟩, ⟨OkIn_memOf (by decide), by decide, Win.Ends.disj (by decide)⟩, by decide, ?_⟩
  decide +kernel

/-- C102 fails for the other triangle: it is used as scratch space. -/
theorem C102_scratch_violated : Rect strx 4 4 30 6 ∧ SyrkArg strx .no 4 4 0 6 30 6 ∧
    after (fsyrkWino .generic (gemmClassic .generic) fsyrkDefault (fsyrk .generic fsyrkDefault) 2 3 1 .lower .no 4 4 1 0 6 1 30 6) strx 32 ≠
      some (strx.mat ⟨30, 6, 4, 4⟩ 0 2) := by
  refine ⟨⟨WF_memOf _, OkIn_memOf (by decide), by decide⟩, ⟨OkIn_memOf (by decide), by decide, Win.Ends.disj (by decide)⟩, ?_⟩
  decide +kernel

/-! ### Concrete cases over `ℤ/7` -/

example : Rect strx 5 5 30 6 := ⟨WF_memOf _, OkIn_memOf (by decide), by decide⟩

example : SyrkArg strx .no 5 6 0 6 30 6 := ⟨OkIn_memOf (by decide), by decide, Win.Ends.disj (by decide)⟩

/-- order 5, 6 columns, one level: lower triangle, `alpha = 3`, `beta = 2`, compared with the classical version -/
example : ∀ i < 5, ∀ j < 5, j ≤ i →
    after (fsyrkWino .generic (gemmClassic .generic) fsyrkDefault (fsyrk .generic fsyrkDefault) 2 3 1 .lower .no 5 6 3 0 6 2 30 6) strx (30 + i * 6 + j) =
    after (fsyrkDefault .lower .no 5 6 3 0 6 2 30 6) strx (30 + i * 6 + j) := by decide +kernel

/-- the padding of `C` and the matrix `A` are unchanged -/
example : ∀ a ∈ [0, 17, 29, 35, 41, 47],
    after (fsyrkWino .generic (gemmClassic .generic) fsyrkDefault (fsyrk .generic fsyrkDefault) 2 3 1 .lower .no 5 6 3 0 6 2 30 6) strx a =
    some (strx.val a) := by decide +kernel

end Verif.Props
