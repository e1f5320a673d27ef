import Verif.Proofs.Transpose
import Verif.Props.Solve

/-!
# Property C37: transposition
-/

namespace Verif.Props

open Verif.FF Verif.Spec

variable {K : Type} [Field K] [DecidableEq K] {μ : Mem K} {m n A lda B ldb bs : ℕ}

/-- calling conditions of `ftranspose`: the checked conditions on the strides (fflas_transpose.h:319-346), and the two
windows are disjoint if the pointers differ -/
structure TransposeCall (μ : Mem K) (m n A lda B ldb : ℕ) : Prop where
  wf : WF μ
  src : OkIn μ ⟨A, lda, m, n⟩
  dst : OkIn μ ⟨B, ldb, n, m⟩
  ld : m ≤ ldb
  disj : A ≠ B → (Win.mk A lda m n).Disj ⟨B, ldb, n, m⟩
  square : A = B → m = n → lda = ldb
  flat : A = B → m ≠ n → lda = n ∧ ldb = m

/-- `B` holds the transpose of the `m × n` matrix that was in `A`; everything else is as before -/
structure Transposed (μ μ' : Mem K) (m n A lda B ldb : ℕ) : Prop where
  ok : μ'.ok = μ.ok
  val : ∀ i < m, ∀ j < n, μ'.val (B + j * ldb + i) = μ.val (A + i * lda + j)
  frame : ∀ a, μ.ok a = true → (∀ j < n, ∀ i < m, a ≠ B + j * ldb + i) → μ'.val a = μ.val a

omit [Field K] [DecidableEq K] in
lemma Transposed.of_step {μ' : Mem K} (s : Step μ μ' ⟨B, ldb, n, m⟩ (fun j i => μ.val (A + i * lda + j))) :
    Transposed μ μ' m n A lda B ldb :=
  ⟨s.ok, fun i hi j hj => s.val j hj i hi, fun a ha hn => s.frame a ha (by rintro ⟨j, hj, i, hi, e⟩; exact hn j hj i hi e)⟩

/-- C37: `ftranspose` for every register type and block size, distinct matrices or in place, square or not. -/
theorem C37_ftranspose (S : Simd) (hb : 0 < bs) (hd : S.vs ∣ bs) (h : TransposeCall μ m n A lda B ldb) :
    Run (ftranspose S bs m n A lda B ldb) μ (fun r μ' => r = B ∧ Transposed μ μ' m n A lda B ldb) := by
  unfold ftranspose
  rw [Run_bind]
  rif c
  · exact (notInplace_spec S hb hd h.src h.dst h.ld (h.disj c)).mono fun _ μ' s => (Run_pure _ _ _).2 ⟨rfl, .of_step s⟩
  · have c : A = B := not_not.1 c
    subst c
    rif e
    · have hl := h.square rfl e
      subst e hl
      exact (squareInplace_spec S h.wf hb hd h.src h.ld).mono fun _ μ' s => (Run_pure _ _ _).2 ⟨rfl, .of_step s⟩
    · obtain ⟨rfl, rfl⟩ := h.flat rfl e
      exact (nonsquareV1_spec S h.wf hb hd h.src).mono fun _ μ' s => (Run_pure _ _ _).2 ⟨rfl, .of_step s⟩

/-- C37: the alternative in-place algorithm in three permutation passes. -/
theorem C37_nonsquare_inplace_v2 (hw : WF μ) (hA : OkIn μ ⟨A, n, m, n⟩) (hmn : m ≠ 0 ∨ n ≠ 0) :
    Run (nonsquareV2 m n A) μ (fun _ μ' => Transposed μ μ' m n A n A m) :=
  (nonsquareV2_spec hw hA (by omega)).mono fun _ _ s => .of_step s

/-- the hypothesis of `C37_nonsquare_inplace_v2` is needed: for an empty matrix the gcd is zero -/
theorem C37_v2_empty_faults (A : ℕ) : faultOf (nonsquareV2 (K := K) 0 0 A) μ = some .divZero := by
  simp [nonsquareV2, faultOf, Prog.fault, bind, Prog.bind]

/-- C37 fails under the *documented* conditions (fflas_transpose.h:299-301: `m ≤ lda` and `n ≤ ldb`): they exchange the roles
of `m` and `n`.  A `3 × 2` matrix transposed with `ldb = 2`. -/
theorem C37_documented_strides_violated : ∃ (μ : Mem ℚ) (A lda B ldb : ℕ), WF μ ∧ OkIn μ ⟨A, lda, 3, 2⟩ ∧ OkIn μ ⟨B, ldb, 2, 3⟩ ∧
    3 ≤ lda ∧ 2 ≤ ldb ∧ (Win.mk A lda 3 2).Disj ⟨B, ldb, 2, 3⟩ ∧
    Run (ftranspose .none 16 3 2 A lda B ldb) μ (fun _ μ' => μ'.val (B + ldb) ≠ μ.val (A + 1)) := by
  refine ⟨memOf [1, 2, 0, 3, 4, 0, 5, 6, 0, 0, 0, 0, 0, 0], 0, 3, 9, 2, WF_memOf _, OkIn_memOf (by decide), OkIn_memOf (by decide),
    by decide, by decide, Win.Ends.disj (by decide), ?_⟩
  have e : after (ftranspose .none 16 3 2 0 3 9 2) (memOf [(1 : ℚ), 2, 0, 3, 4, 0, 5, 6, 0, 0, 0, 0, 0, 0]) 11 = some 5 := by
    decide +kernel
  unfold after at e
  split at e
  · rename_i x m' hx
    simp only [Option.some.injEq] at e
    refine ⟨x, m', hx, ?_⟩
    simp [e, memOf]
  · simp at e

/-! ### Concrete cases -/

/-- a `5 × 3` matrix with leading dimension 4 at 0, room for a `3 × 5` matrix with leading dimension 6 at 20 -/
def trx : Mem ℚ := memOf [1,2,3,0, 4,5,6,0, 7,8,9,0, 10,11,12,0, 13,14,15,0, 0,0,0,0,0,77, 0,0,0,0,0,77, 0,0,0,0,0,77]

example : TransposeCall trx 5 3 0 4 20 6 :=
  ⟨WF_memOf _, OkIn_memOf (by decide), OkIn_memOf (by decide), by decide, fun _ => Win.Ends.disj (by decide), by decide, by decide⟩

/-- registers of two elements, blocks of two: whole blocks and both remainders -/
example : (List.range 18).map (fun i => after (ftranspose .s128_64 2 5 3 0 4 20 6) trx (20 + i)) =
    [1,4,7,10,13,77, 2,5,8,11,14,77, 3,6,9,12,15,77].map some := by decide +kernel

/-- a `4 × 6` matrix stored without gaps -/
def try24 : Mem ℚ := memOf ((List.range 24).map (fun i => (i : ℚ)))

example : TransposeCall try24 4 6 0 6 0 4 :=
  ⟨WF_memOf _, OkIn_memOf (by decide), OkIn_memOf (by decide), by decide, fun h => absurd rfl h, by decide, by decide⟩

/-- in place, by the copy and by the three passes -/
example : (List.range 24).map (fun i => after (ftranspose .s128_32 4 4 6 0 6 0 4) try24 i) =
    (List.range 24).map (fun l => some (((l % 4 * 6 + l / 4 : ℕ) : ℚ))) := by decide +kernel

example : (List.range 24).map (fun i => after (nonsquareV2 4 6 0) try24 i) =
    (List.range 24).map (fun l => some (((l % 4 * 6 + l / 4 : ℕ) : ℚ))) := by decide +kernel

example : TransposeCall try24 3 3 0 7 0 7 :=
  ⟨WF_memOf _, OkIn_memOf (by decide), OkIn_memOf (by decide), by decide, fun h => absurd rfl h, by decide, by decide⟩

/-- square in place, leading dimension 7 -/
example : (List.range 18).map (fun i => after (ftranspose .s128_64 2 3 3 0 7 0 7) try24 i) =
    [0,7,14,3,4,5,6, 1,8,15,10,11,12,13, 2,9,16,17].map some := by decide +kernel

end Verif.Props
