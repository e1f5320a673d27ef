import Verif.Props.ParLinear
import Verif.Proofs.PTrsm

/-!
# Property C70, recursive and hybrid variants

The products of the triangular solve are parallel (`g`, one of the products of C67); the hybrid variant also cuts the right-hand side.
-/

namespace Verif.Props
open Verif.FF Verif.Par Verif.BlockCuts

variable {K : Type} [Field K] [DecidableEq K]
variable {m : Mem K} {side : Side} {u : Uplo} {ta : Tr} {d : Diag} {M N A lda B ldb : ℕ}

/-- what a parallel triangular solve must do: there is one matrix `X` such that every execution replaces `B` by `X`, it solves the system, and
it is the only solution -/
def ParSolves (p : Proc K) (m : Mem K) (side : Side) (u : Uplo) (ta : Tr) (d : Diag) (M N : ℕ) (alpha : K) (A lda B ldb : ℕ) : Prop :=
  ∃ X, EveryRun p m ⟨B, ldb, M, N⟩ X ∧
    (∀ i < M, ∀ j < N, Spec.sideMul side (Spec.sideDim side M N) (triOp m u ta d (Spec.sideDim side M N) A lda) X i j = alpha * m.mat ⟨B, ldb, M, N⟩ i j) ∧
    ∀ Y : ℕ → ℕ → K, (∀ i < M, ∀ j < N, Spec.sideMul side (Spec.sideDim side M N) (triOp m u ta d (Spec.sideDim side M N) A lda) Y i j =
      alpha * m.mat ⟨B, ldb, M, N⟩ i j) → ∀ i < M, ∀ j < N, Y i j = X i j

/-- C70, recursive variant: with any of the products that are correct for all executions, so is the solve. -/
theorem C70_recursive {g : PGemm K} (hg : PGemmOk g) (alpha : K) (h : TriCall m u d (Spec.sideDim side M N) A lda ⟨B, ldb, M, N⟩)
    (hr : Regular m d (Spec.sideDim side M N) A lda) :
    ParSolves (ftrsmP g side u ta d M N alpha A lda B ldb .ret) m side u ta d M N alpha A lda B ldb := by
  obtain ⟨X, hX, hs⟩ := ftrsmRec_ok (v := m.val) (side := side) (u := u) (ta := ta) (d := d) (A := A) (lda := lda) (B := B) hg alpha h.lW h.lA
    (by rintro x ⟨i, hi, j, hj, ht, rfl⟩; exact h.dA i hi j hj ht) hr
  refine ⟨X, everyRun h.wf h.okW (by rintro x ⟨i, hi, j, hj, ht, rfl⟩; exact h.okA i hi j hj ht) hX, hs, ?_⟩
  obtain ⟨_, _, _, X', _, h1, h2⟩ := C11_ftrsm (side := side) (ta := ta) .generic (gemmClassic_ok .generic) alpha h hr
  intro Y hY i hi j hj
  rw [h2 Y hY i hi j hj, h2 X hs i hi j hj]

/-- C70, recursive variant with `Block/Threads` -/
theorem C70_recursive_block (thr nt : ℕ) (hnt : 1 ≤ nt) (alpha : K) (h : TriCall m u d (Spec.sideDim side M N) A lda ⟨B, ldb, M, N⟩)
    (hr : Regular m d (Spec.sideDim side M N) A lda) :
    ParSolves (ftrsmP (pfgemmBlock seqGemm thr nt) side u ta d M N alpha A lda B ldb .ret) m side u ta d M N alpha A lda B ldb :=
  C70_recursive (pfgemmBlock_ok seqGemm_ok hnt) alpha h hr

/-- C70, hybrid variant.  Missing: an empty right-hand side (`C70_hybrid_violated`, `C70_hybrid_rows_violated`) and, with `Grain`, at most 256 columns on
the left (`C70_hybrid_grain_violated`). -/
theorem C70_hybrid_partial {gp : ℕ → PGemm K} (hgp : ∀ nt, 1 ≤ nt → PGemmOk (gp nt)) (p : Param) (nt : ℕ)
    (hM : side = .right → 0 < M) (hN : side = .left → 0 < N) (hg : p = .Grain → 1 ≤ nt ∧ (side = .left → 256 < N))
    (alpha : K) (h : TriCall m u d (Spec.sideDim side M N) A lda ⟨B, ldb, M, N⟩) (hr : Regular m d (Spec.sideDim side M N) A lda) :
    ParSolves (pftrsmHybrid gp side u ta d p M N alpha A lda B ldb nt .ret) m side u ta d M N alpha A lda B ldb := by
  obtain ⟨X, hX, hs⟩ := pftrsmHybrid_ok (v := m.val) (side := side) (u := u) (ta := ta) (d := d) (p := p) (nt := nt) (A := A) (lda := lda) (B := B) hgp alpha
    hg hM hN h.lW h.lA (by rintro x ⟨i, hi, j, hj, ht, rfl⟩; exact h.dA i hi j hj ht) hr
  refine ⟨X, everyRun h.wf h.okW (by rintro x ⟨i, hi, j, hj, ht, rfl⟩; exact h.okA i hi j hj ht) hX, hs, ?_⟩
  obtain ⟨_, _, _, X', _, h1, h2⟩ := C11_ftrsm (side := side) (ta := ta) .generic (gemmClassic_ok .generic) alpha h hr
  intro Y hY i hi j hj
  rw [h2 Y hY i hi j hj, h2 X hs i hi j hj]

/-- a process that is faulty from the start -/
lemma not_parSolves_fault {e : Fault} {alpha : K} : ¬ ParSolves (.fault e) m side u ta d M N alpha A lda B ldb := by
  rintro ⟨X, hE, _⟩
  obtain ⟨_, hs, _⟩ := hE.sequential
  simp [Proc.seq, Prog.fault] at hs

lemma hybridWhile_zero {n : ℕ} (h : n ≤ 256) : ∀ fuel it rc x, hybridWhile n fuel it rc = some x → x.1 = 0 := by
  intro fuel
  induction fuel with
  | zero =>
    intro it rc x e
    simp only [hybridWhile] at e
    split at e
    · simp at e
    · obtain rfl := Option.some.inj e
      simp only
      omega
  | succ fuel ih =>
    intro it rc x e
    simp only [hybridWhile] at e
    split at e
    · exact ih _ _ _ e
    · obtain rfl := Option.some.inj e
      simp only
      omega

/-- Violation of C70 by the hybrid variant with `Grain`: with 1 to 256 columns on the left the number of tasks becomes 0, and the block size
is found by dividing by it. -/
theorem C70_hybrid_grain_violated (gp : ℕ → PGemm K) (nt : ℕ) (hN : 0 < N) (h : N ≤ 256) (alpha : K) :
    ¬ ParSolves (pftrsmHybrid gp .left u ta d .Grain M N alpha A lda B ldb nt .ret) m .left u ta d M N alpha A lda B ldb := by
  obtain ⟨it, rc, e, _⟩ := hybridLeft_some (n := N) (nt := nt) hN
  obtain rfl : it = 0 := by
    unfold hybridLeft at e
    split at e
    · rcases hw : hybridWhile N nt (nt / 2) 2 with _ | x
      · rw [hw] at e; simp at e
      · rw [hw] at e
        have h0 := hybridWhile_zero h _ _ _ _ hw
        simp only [Option.map_some, Option.some.injEq, Prod.mk.injEq] at e
        omega
    · obtain ⟨rfl, _⟩ := Prod.mk.inj (Option.some.inj e)
      omega
  simp only [pftrsmHybrid, e, forBlock1D, FS1D.build]
  exact not_parSolves_fault

/-- Violation of C70 by the hybrid variant without rows on the right: infinity is converted to an integer. -/
theorem C70_hybrid_rows_violated (gp : ℕ → PGemm K) (p : Param) (nt : ℕ) (hnt : 1 ≤ nt) (alpha : K) :
    ¬ ParSolves (pftrsmHybrid gp .right u ta d p 0 N alpha A lda B ldb nt .ret) m .right u ta d 0 N alpha A lda B ldb := by
  have e : hybridRight 0 nt = .error .divZero := by simp [hybridRight]; omega
  simp only [pftrsmHybrid, e]
  exact not_parSolves_fault

/-- the example of C70 in two columns of products on two threads -/
example : ParSolves (ftrsmP (pfgemmBlock seqGemm 0 2) .left .upper .no .nonUnit 2 3 3 0 2 4 3 .ret) ptex .left .upper .no .nonUnit 2 3 3 0 2 4 3 :=
  C70_recursive_block 0 2 (by decide) 3 ptex_call (fun _ => by decide +kernel)

example : ParSolves (pftrsmHybrid (pfgemmBlock seqGemm 0) .left .upper .no .nonUnit .Threads 2 3 3 0 2 4 3 4 .ret) ptex .left .upper .no .nonUnit 2 3 3 0 2 4 3 :=
  C70_hybrid_partial (fun _ h => pfgemmBlock_ok seqGemm_ok h) .Threads 4 (fun h => absurd h (by decide)) (fun _ => by decide) (fun h => absurd h (by decide)) 3 ptex_call
    (fun _ => by decide +kernel)

example : after (ftrsmP (pfgemmBlock seqGemm 0 2) .left .upper .no .nonUnit 2 3 (3 : ℚ) 0 2 4 3 .ret).seq ptex 4 = some 3 ∧
    after (pftrsmHybrid (pfgemmBlock seqGemm 0) .left .upper .no .nonUnit .Threads 2 3 (3 : ℚ) 0 2 4 3 4 .ret).seq ptex 5 = some 6 ∧
    after (pftrsmHybrid (pfgemmBlock seqGemm 0) .left .upper .no .nonUnit .Threads 2 3 (3 : ℚ) 0 2 4 3 4 .ret).seq ptex 9 = some 0 := by decide +kernel

/-- 600 rows on the right are three blocks for four threads; 600 columns on the left two blocks, each on two threads -/
example : (hybridRight 600 4).toOption = some (3, 2) ∧ hybridLeft 600 4 = some (4, 1) ∧ hybridLeft 600 8 = some (4, 2) := by decide +kernel

end Verif.Props
