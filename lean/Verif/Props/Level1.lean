import Verif.Proofs.Level2
import Verif.Core.HeapEx
import Mathlib.Data.Rat.Defs
import Mathlib.Algebra.Field.Rat

/-!
# Properties C26 (level-1 part), C53, C54

`Step m m' W g`: afterwards window `W` holds `g`, every other allocated cell keeps its value, nothing is leaked.
`vw X inc n` is the vector of `n` entries starting at `X` with increment `inc`.  `Safe` allows operands to coincide
with the destination entry by entry (in-place use) and to be disjoint from it.
-/

namespace Verif.Props

open Verif.FF Finset

variable {K : Type} [CommRing K] [DecidableEq K] {m : Mem K}

/-! ## C26: vectors -/

section vec
variable {n X incX Y incY Z incZ : ℕ}

/-- `fassign` copies. -/
theorem C26_fassign (hX : OkIn m (vw X incX n)) (hY : OkIn m (vw Y incY n)) (hs : (vw X incX n).Safe (vw Y incY n))
    (hi : 0 < incY) :
    Run (vassign n X incX Y incY) m (fun _ m' => Step m m' (vw Y incY n) (fun i _ => m.val (X + i * incX))) :=
  vassign_spec hX hY hs hi

/-- `fneg` negates. -/
theorem C26_fneg (hX : OkIn m (vw X incX n)) (hY : OkIn m (vw Y incY n)) (hs : (vw X incX n).Safe (vw Y incY n))
    (hi : 0 < incY) :
    Run (vneg n X incX Y incY) m (fun _ m' => Step m m' (vw Y incY n) (fun i _ => - m.val (X + i * incX))) :=
  vneg_spec hX hY hs hi

/-- `fscal` scales, in place or not, in every field category and for every stride and length (the long strided vectors
of modular fields go through temporaries). -/
theorem C26_fscal (cat : Cat) (a : K) (hm : WF m) (hX : OkIn m (vw X incX n)) (hY : OkIn m (vw Y incY n))
    (hs : (vw X incX n).Safe (vw Y incY n)) (hi : 0 < incX) (hj : 0 < incY) :
    Run (vscal cat n a X incX Y incY) m
      (fun _ m' => Step m m' (vw Y incY n) (fun i _ => a * m.val (X + i * incX))) :=
  vscal_spec cat a hm hX hY hs hi hj

/-- `fscalin` scales. -/
theorem C26_fscalin (cat : Cat) (a : K) (hm : WF m) (hX : OkIn m (vw X incX n)) (hi : 0 < incX) :
    Run (vscalin cat n a X incX) m (fun _ m' => Step m m' (vw X incX n) (fun i _ => a * m.val (X + i * incX))) :=
  vscalin_spec cat a hm hX hi

/-- `fadd` adds. -/
theorem C26_fadd (cat : Cat) (hX : OkIn m (vw X incX n)) (hZ : OkIn m (vw Z incZ n))
    (hY : OkIn m (vw Y incY n)) (hs : (vw X incX n).Safe (vw Y incY n)) (hsz : (vw Z incZ n).Safe (vw Y incY n))
    (hj : 0 < incY) : Run (vadd cat n X incX Z incZ Y incY) m
      (fun _ m' => Step m m' (vw Y incY n) (fun i _ => m.val (X + i * incX) + m.val (Z + i * incZ))) :=
  vadd_spec cat hX hZ hY hs hsz hj

/-- `fdot` is the dot product and leaves the memory alone. -/
theorem C26_fdot (hX : OkIn m (vw X incX n)) (hY : OkIn m (vw Y incY n)) (hi : 0 < incX) :
    Run (vdot n X incX Y incY) m (fun d m' => m' = m ∧ d = ∑ i ∈ range n, m.val (X + i * incX) * m.val (Y + i * incY)) :=
  vdot_spec hX hY hi

/-- `fdot` with delayed reductions is the dot product whatever the block length. -/
theorem C26_fdot_delayed (D : ℕ) (hX : OkIn m (vw X incX n)) (hY : OkIn m (vw Y incY n)) (hi : 0 < incX) :
    Run (vdotDelayed D n X incX Y incY) m (fun d m' => m' = m ∧
      d = ∑ i ∈ range n, m.val (X + i * incX) * m.val (Y + i * incY)) :=
  vdotDelayed_spec D hX hY hi

/-- `fswap` exchanges two disjoint vectors. -/
theorem C26_fswap (hX : OkIn m (vw X incX n)) (hY : OkIn m (vw Y incY n)) (hd : (vw X incX n).Disj (vw Y incY n))
    (hi : 0 < incX) (hj : 0 < incY) :
    Run (vswap n X incX Y incY) m (fun _ m' => m'.ok = m.ok ∧ m'.next = m.next ∧
      (∀ i < n, m'.val (X + i * incX) = m.val (Y + i * incY)) ∧
      (∀ i < n, m'.val (Y + i * incY) = m.val (X + i * incX)) ∧
      ∀ a, ¬ (vw X incX n).Has a → ¬ (vw Y incY n).Has a → m'.val a = m.val a) :=
  vswap_spec hX hY hd hi hj

/-- `fiszero` decides whether all entries vanish. -/
theorem C26_fiszero (hX : OkIn m (vw X incX n)) :
    Run (viszero n X incX) m (fun b m' => m' = m ∧ (b = true ↔ ∀ i < n, m.val (X + i * incX) = 0)) :=
  viszero_spec hX

/-- `fequal` decides equality. -/
theorem C26_fequal (hX : OkIn m (vw X incX n)) (hY : OkIn m (vw Y incY n)) :
    Run (vequal n X incX Y incY) m
      (fun b m' => m' = m ∧ (b = true ↔ ∀ i < n, m.val (X + i * incX) = m.val (Y + i * incY))) :=
  vequal_spec hX hY

/-- `faxpy`: `Y ← a X + Y`.  The full statement has no hypothesis `hgen`; it is violated by strided vectors over a
field without specialisation when `a = -1` (`C53_faxpy_violated`). -/
theorem C53_faxpy_partial (cat : Cat) (a : K) (hm : WF m) (hX : OkIn m (vw X incX n)) (hY : OkIn m (vw Y incY n))
    (hs : (vw X incX n).Safe (vw Y incY n)) (hi : 0 < incX) (hj : 0 < incY)
    (hgen : cat = .modular ∨ (incX = 1 ∧ incY = 1) ∨ a ≠ -1 ∨ a = 1) :
    Run (vaxpy cat n a X incX Y incY) m
      (fun _ m' => Step m m' (vw Y incY n) (fun i _ => a * m.val (X + i * incX) + m.val (Y + i * incY))) :=
  vaxpy_spec cat a hm hX hY hs hi hj hgen

/-- `fsub`: `Y ← X - Z`, for modular fields or unit increments. -/
theorem C53_fsub_partial (cat : Cat) (hX : OkIn m (vw X incX n)) (hZ : OkIn m (vw Z incZ n))
    (hY : OkIn m (vw Y incY n)) (hs : (vw X incX n).Safe (vw Y incY n)) (hsz : (vw Z incZ n).Safe (vw Y incY n))
    (hj : 0 < incY) (hgen : cat = .modular ∨ (incX = 1 ∧ incZ = 1 ∧ incY = 1)) :
    Run (vsub cat n X incX Z incZ Y incY) m
      (fun _ m' => Step m m' (vw Y incY n) (fun i _ => m.val (X + i * incX) - m.val (Z + i * incZ))) :=
  vsub_spec cat hX hZ hY hs hsz hj hgen

/-- `fadd` with a coefficient: `Y ← X + a Z`, `X` disjoint from `Y` or equal to it. -/
theorem C53_faddmul_partial (cat : Cat) (a : K) (hm : WF m) (hX : OkIn m (vw X incX n)) (hZ : OkIn m (vw Z incZ n))
    (hY : OkIn m (vw Y incY n)) (hs : (vw X incX n).Disj (vw Y incY n) ∨ (X = Y ∧ incX = incY))
    (hsz : (vw Z incZ n).Safe (vw Y incY n)) (hi : 0 < incX) (hk : 0 < incZ) (hj : 0 < incY)
    (hgen : cat = .modular ∨ (incX = 1 ∧ incZ = 1 ∧ incY = 1) ∨ a ≠ -1 ∨ a = 1) :
    Run (vaddmul cat n X incX a Z incZ Y incY) m
      (fun _ m' => Step m m' (vw Y incY n) (fun i _ => m.val (X + i * incX) + a * m.val (Z + i * incZ))) :=
  vaddmul_spec cat a hm hX hZ hY hs hsz hi hk hj hgen

end vec

/-! ## C53: subtraction of strided vectors over generic fields -/

/-- Over a field without specialised kernels, subtracting strided vectors adds them: `(5, 7) - (1, 2)` with increment 2
gives `(6, 9)`. -/
theorem C53_fsub_violated :
    (List.range 4).map (fun a => after (vsub .generic 2 0 2 4 2 8 2) (memOf [5, 0, 7, 0, 1, 0, 2, 0, 0, 0, (0 : ℚ)]) (8 + a))
      = [some 6, some 0, some 9, some 0] := by decide +kernel

/-- The same for `faxpy` with coefficient -1: `Y - X` is computed as `Y + X`. -/
theorem C53_faxpy_violated :
    (List.range 3).map (fun a => after (vaxpy .generic 2 (-1) 0 2 4 2) (memOf [1, 0, 2, 0, 5, 0, (7 : ℚ)]) (4 + a))
      = [some 6, some 0, some 9] := by decide +kernel

/-- For every strided operands the generic subtraction is the addition. -/
theorem C53_fsub_adds_violated {n X incX Y incY Z incZ : ℕ} (hX : OkIn m (vw X incX n)) (hZ : OkIn m (vw Z incZ n))
    (hY : OkIn m (vw Y incY n)) (hs : (vw X incX n).Safe (vw Y incY n)) (hsz : (vw Z incZ n).Safe (vw Y incY n))
    (hj : 0 < incY) (hne : ¬ (incX = 1 ∧ incZ = 1 ∧ incY = 1)) :
    Run (vsub .generic n X incX Z incZ Y incY) m
      (fun _ m' => Step m m' (vw Y incY n) (fun i _ => m.val (X + i * incX) + m.val (Z + i * incZ))) := by
  have h := vadd_spec .generic hX hZ hY hs hsz hj
  unfold vadd vaddsub at h
  unfold vsub vaddsub
  rw [if_neg hne] at h ⊢
  simpa using h

/-! ## C54: `fscal` over the floating-point domains -/

/-- `fscal` for `DoubleDomain`/`FloatDomain` when both increments agree: `Y ← a X`. -/
theorem C54_fscal_double_partial {n X Y inc : ℕ} (a : K) (hX : OkIn m (vw X inc n)) (hY : OkIn m (vw Y inc n))
    (hs : (vw X inc n).Safe (vw Y inc n)) (hi : 0 < inc) :
    Run (vscalDouble n a X inc Y inc) m (fun _ m' => Step m m' (vw Y inc n) (fun i _ => a * m.val (X + i * inc))) := by
  unfold vscalDouble
  simp only [Run_bind]
  refine (Run_map1 (fun x => x) hX hY hs hi).mono ?_
  intro _ m1 s1
  refine (Run_map1 (fun x => a * x) (hY.step s1) (hY.step s1) (vw_Inj hi).safe hi).mono ?_
  intro _ m2 s2
  refine (s1.trans s2).congr ?_
  intro i hi' j _
  rw [Step.vval s1 hi']

/-- With different increments the wrong entries of `x` are read: scaling `(1, 2)` stored contiguously by 3 into a vector
of increment 2 gives `(3, 30)`. -/
theorem C54_fscal_double_violated :
    (List.range 3).map (fun a => after (vscalDouble 2 3 0 1 4 2) (memOf [1, 2, 10, 0, 0, 0, (0 : ℚ)]) (4 + a))
      = [some 3, some 0, some 30] := by decide +kernel

/-- It may even read outside the vector. -/
theorem C54_fscal_double_oob_violated :
    faultOf (vscalDouble 2 3 4 1 0 4) (memOf [0, 0, 0, 0, 1, (2 : ℚ)]) = some .oob := by decide +kernel

/-! ## C26: matrices -/

section mat
variable {M N A lda B ldb C ldc : ℕ}

/-- `fzero` clears. -/
theorem C26_fzero2 (hm : WF m) (hA : OkIn m ⟨A, lda, M, N⟩) (hl : N ≤ lda) :
    Run (fzero M N A lda) m (fun _ m' => Step m m' ⟨A, lda, M, N⟩ (fun _ _ => 0)) := fzero_spec hm hA hl

/-- `fidentity` writes a scalar matrix, rectangular shapes included. -/
theorem C26_fidentity (d : K) (hm : WF m) (hA : OkIn m ⟨A, lda, M, N⟩) (hl : N ≤ lda) :
    Run (fidentity M N A lda d) m (fun _ m' => Step m m' ⟨A, lda, M, N⟩ (fun i j => if i = j then d else 0)) :=
  fidentity_spec d hm hA hl

/-- `fassign` copies. -/
theorem C26_fassign2 (hm : WF m) (hB : OkIn m ⟨B, ldb, M, N⟩) (hA : OkIn m ⟨A, lda, M, N⟩) (hl : N ≤ lda)
    (hs : (Win.mk B ldb M N).Safe ⟨A, lda, M, N⟩) :
    Run (fassign M N B ldb A lda) m (fun _ m' => Step m m' ⟨A, lda, M, N⟩ (fun i j => m.mat ⟨B, ldb, M, N⟩ i j)) :=
  fassign_spec hm hB hA hl hs

/-- `fneg` negates. -/
theorem C26_fneg2 (hm : WF m) (hB : OkIn m ⟨B, ldb, M, N⟩) (hA : OkIn m ⟨A, lda, M, N⟩) (hl : N ≤ lda)
    (hs : (Win.mk B ldb M N).Safe ⟨A, lda, M, N⟩) :
    Run (fneg M N B ldb A lda) m (fun _ m' => Step m m' ⟨A, lda, M, N⟩ (fun i j => - m.mat ⟨B, ldb, M, N⟩ i j)) :=
  fneg_spec hm hB hA hl hs

/-- `fscalin` scales. -/
theorem C26_fscalin2 (cat : Cat) (a : K) (hm : WF m) (hA : OkIn m ⟨A, lda, M, N⟩) (hl : N ≤ lda) :
    Run (fscalin cat M N a A lda) m
      (fun _ m' => Step m m' ⟨A, lda, M, N⟩ (fun i j => a * m.mat ⟨A, lda, M, N⟩ i j)) := fscalin_spec cat a hm hA hl

/-- `fscal` scales. -/
theorem C26_fscal2 (cat : Cat) (a : K) (hm : WF m) (hB : OkIn m ⟨B, ldb, M, N⟩) (hA : OkIn m ⟨A, lda, M, N⟩) (hl : N ≤ lda)
    (hs : (Win.mk B ldb M N).Safe ⟨A, lda, M, N⟩) :
    Run (fscal cat M N a B ldb A lda) m
      (fun _ m' => Step m m' ⟨A, lda, M, N⟩ (fun i j => a * m.mat ⟨B, ldb, M, N⟩ i j)) := fscal_spec cat a hm hB hA hl hs

/-- `fadd` adds. -/
theorem C26_fadd2 (cat : Cat) (hm : WF m) (hA : OkIn m ⟨A, lda, M, N⟩) (hB : OkIn m ⟨B, ldb, M, N⟩)
    (hC : OkIn m ⟨C, ldc, M, N⟩) (hla : N ≤ lda) (hl : N ≤ ldc)
    (hsA : (Win.mk A lda M N).Safe ⟨C, ldc, M, N⟩) (hsB : (Win.mk B ldb M N).Safe ⟨C, ldc, M, N⟩) :
    Run (fadd cat M N A lda B ldb C ldc) m (fun _ m' => Step m m' ⟨C, ldc, M, N⟩
      (fun i j => m.mat ⟨A, lda, M, N⟩ i j + m.mat ⟨B, ldb, M, N⟩ i j)) := fadd_spec cat hm hA hB hC hla hl hsA hsB

/-- `fsub` subtracts (matrices are never strided within a row, so C53 does not matter here). -/
theorem C26_fsub2 (cat : Cat) (hm : WF m) (hA : OkIn m ⟨A, lda, M, N⟩) (hB : OkIn m ⟨B, ldb, M, N⟩)
    (hC : OkIn m ⟨C, ldc, M, N⟩) (hla : N ≤ lda) (hl : N ≤ ldc)
    (hsA : (Win.mk A lda M N).Safe ⟨C, ldc, M, N⟩) (hsB : (Win.mk B ldb M N).Safe ⟨C, ldc, M, N⟩) :
    Run (fsub cat M N A lda B ldb C ldc) m (fun _ m' => Step m m' ⟨C, ldc, M, N⟩
      (fun i j => m.mat ⟨A, lda, M, N⟩ i j - m.mat ⟨B, ldb, M, N⟩ i j)) := fsub_spec cat hm hA hB hC hla hl hsA hsB

/-- `faddin` adds in place. -/
theorem C26_faddin2 (cat : Cat) (hm : WF m) (hB : OkIn m ⟨B, ldb, M, N⟩) (hC : OkIn m ⟨C, ldc, M, N⟩) (hlb : N ≤ ldb)
    (hl : N ≤ ldc) (hsB : (Win.mk B ldb M N).Safe ⟨C, ldc, M, N⟩) :
    Run (faddin cat M N B ldb C ldc) m (fun _ m' => Step m m' ⟨C, ldc, M, N⟩
      (fun i j => m.mat ⟨B, ldb, M, N⟩ i j + m.mat ⟨C, ldc, M, N⟩ i j)) := faddin_spec cat hm hB hC hlb hl hsB

/-- `fsubin` subtracts in place. -/
theorem C26_fsubin2 (cat : Cat) (hm : WF m) (hB : OkIn m ⟨B, ldb, M, N⟩) (hC : OkIn m ⟨C, ldc, M, N⟩) (hlb : N ≤ ldb)
    (hl : N ≤ ldc) (hsB : (Win.mk B ldb M N).Safe ⟨C, ldc, M, N⟩) :
    Run (fsubin cat M N B ldb C ldc) m (fun _ m' => Step m m' ⟨C, ldc, M, N⟩
      (fun i j => m.mat ⟨C, ldc, M, N⟩ i j - m.mat ⟨B, ldb, M, N⟩ i j)) := fsubin_spec cat hm hB hC hlb hl hsB

/-- `faxpy`: `C ← a B + C`. -/
theorem C26_faxpy2 (cat : Cat) (a : K) (hm : WF m) (hB : OkIn m ⟨B, ldb, M, N⟩) (hC : OkIn m ⟨C, ldc, M, N⟩) (hlb : N ≤ ldb)
    (hl : N ≤ ldc) (hsB : (Win.mk B ldb M N).Safe ⟨C, ldc, M, N⟩) :
    Run (faxpy cat M N a B ldb C ldc) m (fun _ m' => Step m m' ⟨C, ldc, M, N⟩
      (fun i j => a * m.mat ⟨B, ldb, M, N⟩ i j + m.mat ⟨C, ldc, M, N⟩ i j)) := faxpy_spec cat a hm hB hC hlb hl hsB

/-- `fadd` with a coefficient: `C ← A + a B`, `A` disjoint from `C` or `A` is `C`. -/
theorem C26_faddmul2 (cat : Cat) (a : K) (hm : WF m) (hA : OkIn m ⟨A, lda, M, N⟩) (hB : OkIn m ⟨B, ldb, M, N⟩)
    (hC : OkIn m ⟨C, ldc, M, N⟩) (hla : N ≤ lda) (hlb : N ≤ ldb) (hl : N ≤ ldc)
    (hsA : (Win.mk A lda M N).Disj ⟨C, ldc, M, N⟩ ∨ (A = C ∧ lda = ldc))
    (hsB : (Win.mk B ldb M N).Safe ⟨C, ldc, M, N⟩) :
    Run (faddmul cat M N A lda a B ldb C ldc) m (fun _ m' => Step m m' ⟨C, ldc, M, N⟩
      (fun i j => m.mat ⟨A, lda, M, N⟩ i j + a * m.mat ⟨B, ldb, M, N⟩ i j)) :=
  faddmul_spec cat a hm hA hB hC hla hlb hl hsA hsB

/-- The hypothesis on `A` is needed: with `A` and `C` the same single row under different leading dimensions,
`C ← A + 3 B` gives `3 b + 3 b` (the test `C == A && lda == ldc` fails and `C` is overwritten before `A` is read). -/
theorem C26_faddmul_alias :
    after (faddmul .generic 1 1 0 1 (3 : ℚ) 1 1 0 2) (memOf [10, 1]) 0 = some 6 := by decide +kernel

/-- `fequal` on matrices. -/
theorem C26_fequal2 (hA : OkIn m ⟨A, lda, M, N⟩) (hB : OkIn m ⟨B, ldb, M, N⟩) :
    Run (fequal M N A lda B ldb) m (fun b m' => m' = m ∧
      (b = true ↔ ∀ i < M, ∀ j < N, m.mat ⟨A, lda, M, N⟩ i j = m.mat ⟨B, ldb, M, N⟩ i j)) := fequal_spec hA hB

/-- `fiszero` on matrices. -/
theorem C26_fiszero2 (hA : OkIn m ⟨A, lda, M, N⟩) :
    Run (fiszero M N A lda) m
      (fun b m' => m' = m ∧ (b = true ↔ ∀ i < M, ∀ j < N, m.mat ⟨A, lda, M, N⟩ i j = 0)) := fiszero_spec hA

end mat

/-! ## Examples meeting the hypotheses -/

section examples

/-- A strided vector of 40 entries over a modular field (long enough for the temporary to be used). -/
example : Run (vscalin .modular 40 (3 : ℚ) 1 2) (memOf (List.replicate 100 5))
    (fun _ m' => Step (memOf (List.replicate 100 5)) m' (vw 1 2 40) (fun i _ => 3 * (memOf (List.replicate 100 (5:ℚ))).val (1 + i * 2))) :=
  C26_fscalin _ _ (WF_memOf _) (OkIn_memOf (by decide)) (by decide)

example : after (vscalin .modular 40 (3 : ℚ) 1 2) (memOf (List.replicate 100 5)) 79 = some 15 := by decide +kernel
example : after (vscalin .modular 40 (3 : ℚ) 1 2) (memOf (List.replicate 100 5)) 80 = some 5 := by decide +kernel

/-- Two by two blocks of a larger matrix, result in place of the first operand. -/
example : Run (fsub .modular 2 2 0 4 2 4 0 4) (memOf [1, 2, 3, 4, 5, 6, 7, (8 : ℚ)])
    (fun _ m' => Step (memOf [1, 2, 3, 4, 5, 6, 7, 8]) m' ⟨0, 4, 2, 2⟩ (fun i j =>
      (memOf [1, 2, 3, 4, 5, 6, 7, 8]).mat ⟨0, 4, 2, 2⟩ i j - (memOf [1, 2, 3, 4, 5, 6, 7, 8]).mat ⟨2, 4, 2, 2⟩ i j)) := by
  refine C26_fsub2 .modular (WF_memOf _) (OkIn_memOf (by decide)) (OkIn_memOf (by decide)) (OkIn_memOf (by decide)) (by decide)
    (by decide) (fit_Inj (by decide)).safe ?_
  intro i hi j hj i' hi' j' hj' e
  simp only [Win.adr_mk] at e hi hj hi' hj'
  omega

/-- Dot product in blocks of three of vectors of seven entries. -/
example : result (vdotDelayed 3 7 0 1 7 1) (memOf [1, 2, 3, 4, 5, 6, 7, 1, 1, 1, 1, 1, 1, (1 : ℚ)]) = some 28 := by decide +kernel

end examples

end Verif.Props
