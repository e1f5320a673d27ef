import Verif.Proofs.Level2
import Verif.Core.HeapEx
import Mathlib.Data.Rat.Defs
import Mathlib.Algebra.Field.Rat

/-!
# Properties C26 (level-2 part), C40, C55
-/

namespace Verif.Props

open Verif.FF Finset

variable {K : Type} {m : Mem K} {M N A lda X incX Y incY : ℕ}

/-- contents of a vector -/
def vecAt (m : Mem K) (X inc : ℕ) : ℕ → K := fun i => m.val (X + i * inc)

/-- `op(A) x` -/
def mulVec [CommRing K] (ta : Tr) (M N : ℕ) (A : ℕ → ℕ → K) (x : ℕ → K) : ℕ → K := fun i =>
  match ta with
  | .no => ∑ k ∈ range N, A i k * x k
  | .yes => ∑ k ∈ range M, A k i * x k

/-- `fger`: `A ← A + alpha x yᵀ` for every shape and stride. -/
theorem C26_fger [Field K] [DecidableEq K] (alpha : K) (hA : OkIn m ⟨A, lda, M, N⟩) (hl : N ≤ lda)
    (hx : OkIn m (vw X incX M)) (hy : OkIn m (vw Y incY N))
    (hdx : (vw X incX M).Disj ⟨A, lda, M, N⟩) (hdy : (vw Y incY N).Disj ⟨A, lda, M, N⟩) :
    Run (fger M N alpha X incX Y incY A lda) m (fun _ m' => Step m m' ⟨A, lda, M, N⟩ (fun i j =>
      m.mat ⟨A, lda, M, N⟩ i j + alpha * (vecAt m X incX i * vecAt m Y incY j))) :=
  fger_spec alpha hA hl hx hy hdx hdy

/-- `fgemv`: `y ← alpha op(A) x + beta y` for every shape except an empty transposed matrix.  The full statement (C40)
has no hypothesis `hM`; see `C40_violated`. -/
theorem C40_fgemv_partial [Field K] [DecidableEq K] (cat : Cat) (ta : Tr) (alpha beta : K) (hM : M ≠ 0 ∨ ta = .no)
    (hm : WF m) (hA : OkIn m ⟨A, lda, M, N⟩) (hl : N ≤ lda)
    (hX : OkIn m (vw X incX (if ta = .no then N else M))) (hY : OkIn m (vw Y incY (if ta = .no then M else N)))
    (hiY : 0 < incY) (hdA : (Win.mk A lda M N).Disj (vw Y incY (if ta = .no then M else N)))
    (hdX : (vw X incX (if ta = .no then N else M)).Disj (vw Y incY (if ta = .no then M else N))) :
    Run (fgemv cat ta M N alpha A lda X incX beta Y incY) m
      (fun _ m' => Step m m' (vw Y incY (if ta = .no then M else N)) (fun i _ =>
        alpha * mulVec ta M N (m.mat ⟨A, lda, M, N⟩) (vecAt m X incX) i + beta * vecAt m Y incY i)) := by
  refine (fgemv_spec cat ta alpha beta rfl rfl hM hm hA hl hX hY hiY hdA hdX).mono (fun _ _ s => s.congr ?_)
  intro i _ _ _
  cases ta <;> simp [mulVec, vecAt, Mem.mat]

/-- Violation: for a `0 × N` matrix and `Trans`, `y` must become `beta y`; it is left unchanged. -/
theorem C40_violated [Field K] [DecidableEq K] (cat : Cat) (alpha beta : K) (m : Mem K) (N A lda X incX Y incY : ℕ) :
    Run (fgemv cat .yes 0 N alpha A lda X incX beta Y incY) m (fun _ m' => m' = m) := by
  unfold fgemv; simp

/-- Concretely: `y = (7)`, `beta = 2`: the result is 7 instead of 14. -/
theorem C40_violated_witness :
    after (fgemv .modular .yes 0 1 1 0 1 0 1 2 0 1) (memOf [(7 : ℚ)]) 0 = some 7 := by decide +kernel

/-- The 64-bit integer `fgemv` for `beta = 0`. -/
theorem C55_fgemv_int64_partial [CommRing K] (ta : Tr) (alpha : K)
    (hA : OkIn m ⟨A, lda, M, N⟩)
    (hX : OkIn m (vw X incX (if ta = .no then N else M))) (hY : OkIn m (vw Y incY (if ta = .no then M else N)))
    (hiY : 0 < incY) (hdA : (Win.mk A lda M N).Disj (vw Y incY (if ta = .no then M else N)))
    (hdX : (vw X incX (if ta = .no then N else M)).Disj (vw Y incY (if ta = .no then M else N))) :
    Run (fgemvInt64 ta M N alpha A lda X incX 0 Y incY) m
      (fun _ m' => Step m m' (vw Y incY (if ta = .no then M else N)) (fun i _ =>
        alpha * mulVec ta M N (m.mat ⟨A, lda, M, N⟩) (vecAt m X incX) i)) := by
  refine (fgemvInt64_spec ta alpha 0 rfl rfl hA hX hY hiY hdA hdX).mono (fun _ _ s => s.congr ?_)
  intro i _ _ _
  cases ta <;> simp [mulVec, vecAt, Mem.mat]

/-- Violation: what is computed is `alpha op(A) x + beta y²`, entry by entry, for all inputs. -/
theorem C55_violated [CommRing K] (ta : Tr) (alpha beta : K)
    (hA : OkIn m ⟨A, lda, M, N⟩)
    (hX : OkIn m (vw X incX (if ta = .no then N else M))) (hY : OkIn m (vw Y incY (if ta = .no then M else N)))
    (hiY : 0 < incY) (hdA : (Win.mk A lda M N).Disj (vw Y incY (if ta = .no then M else N)))
    (hdX : (vw X incX (if ta = .no then N else M)).Disj (vw Y incY (if ta = .no then M else N))) :
    Run (fgemvInt64 ta M N alpha A lda X incX beta Y incY) m
      (fun _ m' => Step m m' (vw Y incY (if ta = .no then M else N)) (fun i _ =>
        alpha * mulVec ta M N (m.mat ⟨A, lda, M, N⟩) (vecAt m X incX) i + beta * vecAt m Y incY i ^ 2)) := by
  refine (fgemvInt64_spec ta alpha beta rfl rfl hA hX hY hiY hdA hdX).mono (fun _ _ s => s.congr ?_)
  intro i _ _ _
  cases ta <;> simp [mulVec, vecAt, Mem.mat] <;> ring

/-- Concretely: `A = (2)`, `x = (3)`, `y = (5)`, `alpha = beta = 1`: 31 instead of 11. -/
theorem C55_violated_witness :
    after (fgemvInt64 .no 1 1 1 0 1 1 1 1 2 1) (memOf [2, 3, (5 : ℤ)]) 2 = some 31 := by decide +kernel

/-- `ftrsv` solves `op(T) x' = x` where `T` is the stored triangle, reading nothing else of `A`. -/
theorem C26_ftrsv [Field K] [DecidableEq K] (uplo : Uplo) (ta : Tr) (diag : Diag) (hA : OkIn m ⟨A, lda, N, N⟩) (hl : N ≤ lda)
    (hX : OkIn m (vw X incX N)) (hi : 0 < incX) (hd : (Win.mk A lda N N).Disj (vw X incX N))
    (hnz : diag = .nonUnit → ∀ i < N, m.mat ⟨A, lda, N, N⟩ i i ≠ 0) :
    Run (ftrsv uplo ta diag N A lda X incX) m (fun _ m' => m'.ok = m.ok ∧ m'.next = m.next ∧
      (∀ i < N, ∑ k ∈ range N, Spec.op ta (Spec.tri uplo diag (m.mat ⟨A, lda, N, N⟩)) i k * vecAt m' X incX k =
        vecAt m X incX i) ∧
      ∀ a, ¬ (vw X incX N).Has a → m'.val a = m.val a) := by
  refine (ftrsv_spec uplo ta diag hA hl hX hi hd hnz).mono ?_
  rintro _ m' ⟨h1, h2, h3, h4⟩
  exact ⟨h1, h2, h3, fun a hn => h4 a (fun s hs e => hn ⟨s, hs, 0, Nat.one_pos, e⟩)⟩

/-- The division is needed: a zero on the diagonal faults. -/
theorem C26_ftrsv_singular_faults :
    faultOf (ftrsv .lower .no .nonUnit 1 0 1 1 1) (memOf [0, (1 : ℚ)]) = some .divZero := by decide +kernel

/-! ## Examples meeting the hypotheses -/

/-- rank-one update of a 2 × 3 block with leading dimension 4 -/
example : Run (fger 2 3 (5 : ℚ) 8 1 10 1 0 4) (memOf [1, 2, 3, 9, 4, 5, 6, 9, 1, 2, 3, 4, 5])
    (fun _ m' => Step (memOf [1, 2, 3, 9, 4, 5, 6, 9, 1, 2, 3, 4, 5]) m' ⟨0, 4, 2, 3⟩ (fun i j =>
      (memOf [1, 2, 3, 9, 4, 5, 6, 9, 1, 2, 3, 4, (5 : ℚ)]).mat ⟨0, 4, 2, 3⟩ i j +
        5 * (vecAt (memOf [1, 2, 3, 9, 4, 5, 6, 9, 1, 2, 3, 4, 5]) 8 1 i *
          vecAt (memOf [1, 2, 3, 9, 4, 5, 6, 9, 1, 2, 3, 4, 5]) 10 1 j))) :=
  C26_fger 5 (OkIn_memOf (by decide)) (by decide) (OkIn_memOf (by decide)) (OkIn_memOf (by decide))
    (Win.Ends.disj (by decide)).symm (Win.Ends.disj (by decide)).symm

example : after (fger 2 3 (5 : ℚ) 8 1 10 1 0 4) (memOf [1, 2, 3, 9, 4, 5, 6, 9, 1, 2, 3, 4, 5]) 6 = some 56 := by
  decide +kernel

/-- transposed product with a 2 × 3 matrix and a strided result -/
example : (List.range 5).map (after (fgemv .modular .yes 2 3 2 0 3 6 1 10 8 2) (memOf [1, 2, 3, 4, 5, 6, 1, 1, 1, 0, 2, 0, (3 : ℚ)]) ∘ (8 + ·))
    = [some 20, some 0, some 34, some 0, some 48] := by decide +kernel

/-- triangular system -/
example : Run (ftrsv .upper .no .nonUnit 2 0 2 4 1) (memOf [2, 3, 7, 4, 16, (8 : ℚ)]) (fun _ m' =>
    m'.ok = (memOf [2, 3, 7, 4, 16, (8 : ℚ)]).ok ∧ m'.next = (memOf [2, 3, 7, 4, 16, (8 : ℚ)]).next ∧
    (∀ i < 2, ∑ k ∈ range 2, Spec.op .no (Spec.tri .upper .nonUnit ((memOf [2, 3, 7, 4, 16, (8 : ℚ)]).mat ⟨0, 2, 2, 2⟩)) i k *
      vecAt m' 4 1 k = vecAt (memOf [2, 3, 7, 4, 16, (8 : ℚ)]) 4 1 i) ∧
    ∀ a, ¬ (vw 4 1 2).Has a → m'.val a = (memOf [2, 3, 7, 4, 16, (8 : ℚ)]).val a) :=
  C26_ftrsv _ _ _ (OkIn_memOf (by decide)) (by decide) (OkIn_memOf (by decide)) (by decide) (Win.Ends.disj (by decide))
    (by decide +kernel)

example : (List.range 2).map (after (ftrsv .upper .no .nonUnit 2 0 2 4 1) (memOf [2, 3, 7, 4, 16, (8 : ℚ)]) ∘ (4 + ·))
    = [some 5, some 2] := by decide +kernel

end Verif.Props
