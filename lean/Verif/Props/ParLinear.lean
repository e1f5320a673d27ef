import Verif.Proofs.ParGemm
import Verif.Proofs.ParBad
import Verif.Props.Par
import Verif.Props.Gemm
import Verif.Props.Level2
import Verif.Props.Trsm
import Mathlib.Tactic.IntervalCases

/-!
# Properties C67–C71: the parallel products, triangular solve and permutations

`EveryRun p m w g` (file `Spec/Par.lean`) speaks of all the executions of `p`, whatever the order in which the tasks advance.
-/

namespace Verif.Props
open Verif.FF Verif.Par Verif.BlockCuts Finset

variable {K : Type} [Field K] [DecidableEq K]

/-- one execution, the sequential one, is enough to refute -/
lemma not_everyRun_of_after {p : Proc K} {m : Mem K} {w : Win} {g : ℕ → ℕ → K} (hwf : WF m) {i j : ℕ} (hi : i < w.r) (hj : j < w.c)
    (h : after p.seq m (w.adr i j) ≠ some (g i j)) : ¬ EveryRun p m w g := by
  intro hE
  rcases seq_run p hwf with ⟨p', m', s, f⟩ | ⟨m', e, s, _⟩
  · exact hE.noFault p' m' s f
  · exact h (by simp only [after, e, (hE.result m' s).1 i hi j hj])

/-! ### C67: products -/

section
variable {mem : Mem K} {ta tb : Tr} {m n k A lda B ldb C ldc : ℕ}

/-- what all the parallel products compute -/
def ParProduct (g : PGemm K) (mem : Mem K) (ta tb : Tr) (m n k : ℕ) (alpha : K) (A lda B ldb : ℕ) (beta : K) (C ldc : ℕ) : Prop :=
  EveryRun (g ⟨ta, tb, m, n, k, alpha, A, lda, B, ldb, beta, C, ldc⟩ .ret) mem ⟨C, ldc, m, n⟩ (fun i j =>
    alpha * Spec.mul k (opnd mem ta m k A lda) (opnd mem tb k n B ldb) i j + beta * mem.mat ⟨C, ldc, m, n⟩ i j)

lemma ParProduct.of {g : PGemm K} (hg : PGemmOk g) (alpha beta : K) (h : GPre mem ta tb m n k A lda B ldb C ldc) :
    ParProduct g mem ta tb m n k alpha A lda B ldb beta C ldc := by
  have hp : Call.Pre (⟨ta, tb, m, n, k, alpha, A, lda, B, ldb, beta, C, ldc⟩ : Call K) :=
    ⟨h.lA, h.lB, h.lC, fun x hx hc => hx.elim (fun a => h.dA x a hc) (fun b => h.dB x b hc)⟩
  have ht := hg.task (v := mem.val) hp (fun _ hx => hx)
  refine everyRun h.wf h.okC (fun x hx => hx.elim (h.okA x) (h.okB x)) (ht.congr rfl (fun i _ j _ => ?_))
  simp only [Call.val, Call.dot, Spec.mul, Nat.zero_add]
  congr 2
  refine Finset.sum_congr rfl (fun l _ => ?_)
  cases ta <;> cases tb <;> simp [opnd, Spec.op, Mem.mat, opAdr]

/-- C67, `Block/Threads`: every execution with at least one thread gives `alpha op(A) op(B) + beta C`, whatever the threshold. -/
theorem C67_block (thr nt : ℕ) (hnt : 1 ≤ nt) (alpha beta : K) (h : GPre mem ta tb m n k A lda B ldb C ldc) :
    ParProduct (pfgemmBlock seqGemm thr nt) mem ta tb m n k alpha A lda B ldb beta C ldc :=
  .of (pfgemmBlock_ok seqGemm_ok hnt) alpha beta h

/-- C67, `Recursive/TwoDAdaptive`. -/
theorem C67_2DA (thr nt : ℕ) (alpha beta : K) (h : GPre mem ta tb m n k A lda B ldb C ldc) :
    ParProduct (pfgemm2DA seqGemm thr (nt + 1) nt) mem ta tb m n k alpha A lda B ldb beta C ldc :=
  .of (pfgemm2DA_ok seqGemm_ok (Nat.lt_succ_self nt)) alpha beta h

/-- C67, `Recursive/TwoD`. -/
theorem C67_2D (thr nt : ℕ) (alpha beta : K) (h : GPre mem ta tb m n k A lda B ldb C ldc) :
    ParProduct (pfgemm2D seqGemm thr (nt + 1) nt) mem ta tb m n k alpha A lda B ldb beta C ldc :=
  .of (pfgemm2D_ok seqGemm_ok (Nat.lt_succ_self nt)) alpha beta h

/-- C67, `Recursive/ThreeDInPlace`. -/
theorem C67_3DI (thr nt : ℕ) (alpha beta : K) (h : GPre mem ta tb m n k A lda B ldb C ldc) :
    ParProduct (pfgemm3DI seqGemm thr (nt + 1) nt) mem ta tb m n k alpha A lda B ldb beta C ldc :=
  .of (pfgemm3DI_ok seqGemm_ok (Nat.lt_succ_self nt)) alpha beta h

/-- C67, `Recursive/ThreeD`: with temporaries shared by the tasks. -/
theorem C67_3D (thr nt : ℕ) (alpha beta : K) (h : GPre mem ta tb m n k A lda B ldb C ldc) :
    ParProduct (pfgemm3D seqGemm thr (nt + 1) nt) mem ta tb m n k alpha A lda B ldb beta C ldc :=
  .of (pfgemm3D_ok seqGemm_ok (Nat.lt_succ_self nt)) alpha beta h

/-- C67, `Recursive/ThreeDAdaptive`, proved for the variant that adds the second product with its dimensions in the right order.  Missing: the code
exchanges them (`C67_3DA_violated`). -/
theorem C67_3DA_partial (thr nt : ℕ) (alpha beta : K) (h : GPre mem ta tb m n k A lda B ldb C ldc) :
    ParProduct (pfgemm3DA Prod.mk seqGemm thr (nt + 1) nt) mem ta tb m n k alpha A lda B ldb beta C ldc :=
  .of (pfgemm3DA_ok seqGemm_ok (Nat.lt_succ_self nt)) alpha beta h

/-- Violation of C67 for `Recursive/ThreeDAdaptive`: with at least two threads, a product above the threshold with `m < n ≤ k`, and nothing allocated
after the last row of `C`, some execution leaves the allocated memory: the sum of the two partial products goes over an `n × m` matrix
instead of `m × n`. -/
theorem C67_3DA_violated (thr nt : ℕ) (alpha beta : K) (hwf : WF mem) (hnt : 2 ≤ nt) (hsize : thr < min (m * n) (min (m * k) (k * n)))
    (hal : alpha ≠ 0) (hmn : m < n) (hnk : n ≤ k) (hC : mem.ok (C + m * ldc) = false) (hn : C + m * ldc < mem.next) :
    ¬ ParProduct (pfgemm3DA (fun m n => (n, m)) seqGemm thr (nt + 1) nt) mem ta tb m n k alpha A lda B ldb beta C ldc := by
  intro hE
  obtain ⟨p', m', s, f⟩ := pfgemm3DA_crash seqGemm (k := .ret) (fuel := nt) (c := ⟨ta, tb, m, n, k, alpha, A, lda, B, ldb, beta, C, ldc⟩) hwf hnt hsize hal hmn hnk hC hn
  exact hE.noFault p' m' s f

/-- the same exchange when everything is allocated: `1 × 2` times `2 × 2`, the entry `(0, 1)` misses a half and the row below is changed -/
def pgex : Mem ℚ := memOf [1,2, 3,4, 5,6, 0,0, 7,7]

lemma pgex_pre : GPre pgex .no .no 1 2 2 0 2 2 2 6 2 where
  wf := WF_memOf _
  okA := OkIn_memOf (by decide)
  okB := OkIn_memOf (by decide)
  okC := OkIn_memOf (by decide)
  lA := by decide
  lB := by decide
  lC := by decide
  dA := Win.Ends.disj (V := ⟨6, 2, 1, 2⟩) (by decide)
  dB := Win.Ends.disj (V := ⟨6, 2, 1, 2⟩) (by decide)

theorem C67_3DA_violated_value :
    ¬ ParProduct (pfgemm3DA (fun m n => (n, m)) seqGemm 0 3 2) pgex .no .no 1 2 2 1 0 2 2 2 0 6 2 := by
  refine not_everyRun_of_after (WF_memOf _) (i := 0) (j := 1) (by decide) (by decide) ?_
  decide +kernel

/-- the hypotheses of `C67_3DA_violated` hold for a call with its three matrices allocated: `C` is followed by a hole -/
example : ∃ mem : Mem ℚ, GPre mem .no .no 1 2 2 0 2 2 2 6 2 ∧ WF mem ∧ mem.ok (6 + 1 * 2) = false ∧ 6 + 1 * 2 < mem.next := by
  refine ⟨{ memOf [1,2, 3,4, 5,6, 0,0] with next := 10 }, ⟨fun a ha => WF_memOf _ a (le_trans (by decide) ha), fun a ha => OkIn_memOf (l := [1,2, 3,4, 5,6, 0,0]) (by decide) a ha,
    fun a ha => OkIn_memOf (l := [1,2, 3,4, 5,6, 0,0]) (by decide) a ha, fun a ha => OkIn_memOf (l := [1,2, 3,4, 5,6, 0,0]) (by decide) a ha, by decide, by decide, by decide,
    Win.Ends.disj (V := ⟨6, 2, 1, 2⟩) (by decide), Win.Ends.disj (V := ⟨6, 2, 1, 2⟩) (by decide)⟩, fun a ha => WF_memOf _ a (le_trans (by decide) ha), rfl, by decide⟩

/-- the example of C09 on four threads, cut in all the directions -/
example : ParProduct (pfgemm3D seqGemm 2 5 4) gex .no .yes 3 3 3 2 0 3 9 3 3 18 4 :=
  C67_3D 2 4 2 3 ⟨WF_memOf _, OkIn_memOf (by decide), OkIn_memOf (by decide), OkIn_memOf (by decide), by decide, by decide, by decide,
    Win.Ends.disj (V := ⟨18, 4, 3, 3⟩) (by decide), Win.Ends.disj (V := ⟨18, 4, 3, 3⟩) (by decide)⟩

example : after (pfgemm3D seqGemm 2 5 4 ⟨.no, .yes, 3, 3, 3, 2, 0, 3, 9, 3, 3, 18, 4⟩ .ret).seq gex 18 = some 13 ∧
    after (pfgemm3D seqGemm 2 5 4 ⟨.no, .yes, 3, 3, 3, 2, 0, 3, 9, 3, 3, 18, 4⟩ .ret).seq gex 21 = some 77 ∧
    after (pfgemmBlock seqGemm 2 4 ⟨.no, .no, 3, 3, 3, 1, 0, 3, 9, 3, 0, 18, 4⟩ .ret).seq gex 28 = some 17 := by decide +kernel

end

/-! ### C68: matrix-vector products -/

section
variable {m : Mem K} {M N A lda X incX Y incY : ℕ}

/-- calling conditions of `fgemv` -/
structure GemvCall (m : Mem K) (ta : Tr) (M N A lda X incX Y incY : ℕ) : Prop where
  wf : WF m
  okA : OkIn m ⟨A, lda, M, N⟩
  ld : N ≤ lda
  okX : OkIn m (vw X incX (if ta = .no then N else M))
  okY : OkIn m (vw Y incY (if ta = .no then M else N))
  inc : 0 < incY
  dA : (Win.mk A lda M N).Disj (vw Y incY (if ta = .no then M else N))
  dX : (vw X incX (if ta = .no then N else M)).Disj (vw Y incY (if ta = .no then M else N))

/-- what all the parallel matrix-vector products compute -/
def ParGemv (p : Proc K) (m : Mem K) (ta : Tr) (M N : ℕ) (alpha : K) (A lda X incX : ℕ) (beta : K) (Y incY : ℕ) : Prop :=
  EveryRun p m (vw Y incY (if ta = .no then M else N)) (fun i _ =>
    alpha * mulVec ta M N (m.mat ⟨A, lda, M, N⟩) (vecAt m X incX) i + beta * vecAt m Y incY i)

omit [DecidableEq K] in
lemma gemvV_eq (ta : Tr) (alpha beta : K) (i : ℕ) : gemvV m.val ta (if ta = .no then N else M) alpha A lda X incX beta Y incY i =
    alpha * mulVec ta M N (m.mat ⟨A, lda, M, N⟩) (vecAt m X incX) i + beta * vecAt m Y incY i := by
  cases ta <;> simp [gemvV, mulVec, vecAt, Mem.mat, opAdr]

/-- C68, by rows, for every splitting strategy.  Missing from the full statement: an empty transposed matrix, which the sequential `fgemv` gets
wrong (`C40_violated`). -/
theorem C68_row_partial (p : Param) (t : ℕ) (hg : p = .Grain → t ≠ 0) (ta : Tr) (alpha beta : K) (hM : M ≠ 0 ∨ ta = .no)
    (h : GemvCall m ta M N A lda X incX Y incY) :
    ParGemv (pfgemvRow ta p M N alpha A lda X incX beta Y incY t .ret) m ta M N alpha A lda X incX beta Y incY :=
  everyRun h.wf h.okY (fun x hx => hx.elim (h.okA x) (h.okX x))
    ((pfgemvRow_ok hg hM h.ld h.inc h.dA h.dX).congr rfl (fun i _ _ _ => gemvV_eq ta alpha beta i))

omit [DecidableEq K] in
lemma pfgemvRec_off [DecidableEq K] (o o' : ℕ → ℕ) (alpha beta : K) : ∀ (fuel nt M N A Y : ℕ) (k : Proc K),
    pfgemvRec o alpha lda X incX beta incY fuel nt .no M N A Y k = pfgemvRec o' alpha lda X incX beta incY fuel nt .no M N A Y k := by
  intro fuel
  induction fuel with
  | zero => intros; rfl
  | succ fuel ih =>
    intro nt M N A Y k
    simp only [pfgemvRec]
    split_ifs
    · rfl
    · rw [ih, ih]

lemma pfgemvRec_every (nt : ℕ) (hnt : 1 ≤ nt) (ta : Tr) (alpha beta : K) (hM : M ≠ 0 ∨ ta = .no)
    (h : GemvCall m ta M N A lda X incX Y incY) :
    ParGemv (pfgemvRec (· / 2) alpha lda X incX beta incY nt nt ta M N A Y .ret) m ta M N alpha A lda X incX beta Y incY := by
  refine everyRun (Rs := fun x => (Win.mk A lda M N).Has x ∨ (vw X incX (if ta = .no then N else M)).Has x) h.wf h.okY (fun x hx => hx.elim (h.okA x) (h.okX x)) ?_
  have := pfgemvRec_ok (ta := ta) (alpha := alpha) (beta := beta) (A := A) (Y := Y) (X := X) (incX := incX) (v := m.val) (N := N) (lda := lda)
    (Rs := fun x => (Win.mk A lda M N).Has x ∨ (vw X incX (if ta = .no then N else M)).Has x) h.ld h.inc ((FinS.has _).or (FinS.has _))
    (fuel := nt) (nt := nt) (M := M) (b := 0) (A' := A) (Y' := Y) le_rfl hnt h.ld hM rfl rfl (by simp) (fun _ hx => Or.inl hx) (fun _ hx => Or.inr hx)
    (fun x hx => hx.elim (h.dA x) (h.dX x)) (by simp)
  refine this.congr rfl (fun i _ _ _ => ?_)
  rw [Nat.zero_add]; exact gemvV_eq ta alpha beta i

/-- C68, recursive, not transposed: the code as it is. -/
theorem C68_rec_notrans (nt : ℕ) (hnt : 1 ≤ nt) (alpha beta : K) (h : GemvCall m .no M N A lda X incX Y incY) :
    ParGemv (pfgemvRec (fun n => n) alpha lda X incX beta incY nt nt .no M N A Y .ret) m .no M N alpha A lda X incX beta Y incY := by
  rw [pfgemvRec_off _ (· / 2)]
  exact pfgemvRec_every nt hnt .no alpha beta (Or.inr rfl) h

/-- C68, recursive, transposed, proved for the variant whose second half of `A` starts at column `n / 2`.  Missing: the code starts it at
column `n` (`C68_rec_trans_violated`). -/
theorem C68_rec_trans_partial (nt : ℕ) (hnt : 1 ≤ nt) (alpha beta : K) (hM : M ≠ 0) (h : GemvCall m .yes M N A lda X incX Y incY) :
    ParGemv (pfgemvRec (· / 2) alpha lda X incX beta incY nt nt .yes M N A Y .ret) m .yes M N alpha A lda X incX beta Y incY :=
  pfgemvRec_every nt hnt .yes alpha beta (Or.inl hM) h

/-- `A` is `2 × 2` at 0 with leading dimension 4, `x` at 8, `y` at 10 -/
def pvex : Mem ℚ := memOf [1,2,50,60, 3,4,70,80, 1,1, 0,0]

/-- `A` is `2 × 2` at 4, the end of the memory; `x` at 0, `y` at 2 -/
def pvex2 : Mem ℚ := memOf [1,1, 0,0, 1,2, 3,4]

lemma pvex_call : GemvCall pvex .yes 2 2 0 4 8 1 10 1 :=
  ⟨WF_memOf _, OkIn_memOf (by decide), by decide, OkIn_memOf (by decide), OkIn_memOf (by decide), by decide,
    Win.Ends.disj (V := vw 10 1 2) (by decide), Win.Ends.disj (V := vw 10 1 2) (by decide)⟩

lemma pvex2_call : GemvCall pvex2 .yes 2 2 4 2 0 1 2 1 :=
  ⟨WF_memOf _, OkIn_memOf (by decide), by decide, OkIn_memOf (by decide), OkIn_memOf (by decide), by decide,
    Win.Disj.symm (Win.Ends.disj (V := ⟨4, 2, 2, 2⟩) (by decide)), Win.Ends.disj (V := vw 2 1 2) (by decide)⟩

/-- Violation of C68: two threads, a transposed `2 × 2` matrix.  With columns to the right of the matrix the second entry of `y` is computed from
one of them (`120` in place of `6`); with none the code reads after the end of the matrix. -/
theorem C68_rec_trans_violated :
    ¬ ParGemv (pfgemvRec (fun n => n) 1 4 8 1 0 1 2 2 .yes 2 2 0 10 .ret) pvex .yes 2 2 1 0 4 8 1 0 10 1 ∧
    after (pfgemvRec (fun n => n) (1 : ℚ) 4 8 1 0 1 2 2 .yes 2 2 0 10 .ret).seq pvex 11 = some 120 ∧
    Crash (pfgemvRec (fun n => n) 1 2 0 1 0 1 2 2 .yes 2 2 4 2 .ret) pvex2 := by
  refine ⟨not_everyRun_of_after (WF_memOf _) (i := 1) (j := 0) (by decide) (by decide) (by decide +kernel), by decide +kernel, ?_⟩
  have h : faultOf (pfgemvRec (fun n => n) (1 : ℚ) 2 0 1 0 1 2 2 .yes 2 2 4 2 .ret).seq pvex2 = some .oob := by decide +kernel
  cases e : (pfgemvRec (fun n => n) (1 : ℚ) 2 0 1 0 1 2 2 .yes 2 2 4 2 .ret).seq pvex2 with
  | error x => exact crash_of_seq (WF_memOf _) e
  | ok r => simp only [faultOf, e] at h; exact absurd h (by decide)

example : ParGemv (pfgemvRow .yes .Threads 2 2 1 0 4 8 1 0 10 1 2 .ret) pvex .yes 2 2 1 0 4 8 1 0 10 1 :=
  C68_row_partial .Threads 2 (by simp) .yes 1 0 (Or.inl (by decide)) pvex_call

example : after (pfgemvRow .yes .Threads 2 2 (1 : ℚ) 0 4 8 1 0 10 1 2 .ret).seq pvex 11 = some 6 := by decide +kernel

end

/-! ### C69: dot products -/

section
variable {m : Mem K} {N x incx y incy out : ℕ}

/-- C69: parallel `fdot` with one block per thread adds the dot product to `d`, in every execution; here the result is stored in the cell `out`. -/
theorem C69_fdot_threads (t : ℕ) (ht : 1 ≤ t) (d : K) (hwf : WF m) (hx : OkIn m (vw x incx N)) (hy : OkIn m (vw y incy N)) (hi : 0 < incx)
    (ho : m.ok out = true) :
    EveryRun (pfdot .Threads N x incx y incy d t (fun r => .wr out r .ret)) m ⟨out, 1, 1, 1⟩
      (fun _ _ => d + ∑ i ∈ range N, vecAt m x incx i * vecAt m y incy i) := by
  refine everyRun (Rs := fun a => (vw x incx N).Has a ∨ (vw y incy N).Has a) hwf ?_ (fun a ha => ha.elim (hx a) (hy a)) ?_
  · rintro a ⟨i, hi, j, hj, rfl⟩
    have hi : i < 1 := hi
    have hj : j < 1 := hj
    obtain rfl : i = 0 := by omega
    obtain rfl : j = 0 := by omega
    simpa [Win.adr] using ho
  · refine pfdot_ok ht hi (fun a h => Or.inr (Or.inl (Or.inl h))) (fun a h => Or.inr (Or.inl (Or.inr h))) (fun v' _ => ?_)
    refine ⟨Or.inl ⟨0, Nat.one_pos, 0, Nat.one_pos, by simp [Win.adr]⟩, fun i hi j hj => ?_⟩
    have hi : i < 1 := hi
    have hj : j < 1 := hj
    obtain rfl : i = 0 := by omega
    obtain rfl : j = 0 := by omega
    simp [Win.adr, vecAt]

/-- five ones at 0, five twos at 5, the result at 10 -/
def pdex : Mem ℚ := memOf [1,1,1,1,1, 2,2,2,2,2, 0]

/-- Violation of C69 with the strategy `Grain`: the number given is the size of the blocks, but the temporary for the results of the blocks has that
many cells.  Witness: six entries, blocks of two entries; the third block writes after the end of the temporary. -/
theorem C69_fdot_grain_violated : Crash (pfdot .Grain 6 0 1 0 1 0 2 (fun r => .wr 10 r .ret)) pdex := by
  have h : faultOf (pfdot .Grain 6 0 1 0 1 (0 : ℚ) 2 (fun r => .wr 10 r .ret)).seq pdex = some .oob := by decide +kernel
  cases e : (pfdot .Grain 6 0 1 0 1 (0 : ℚ) 2 (fun r => .wr 10 r .ret)).seq pdex with
  | error x => exact crash_of_seq (WF_memOf _) e
  | ok r => simp only [faultOf, e] at h; exact absurd h (by decide)

example : EveryRun (pfdot .Threads 5 0 1 5 1 3 2 (fun r => .wr 10 r .ret)) pdex ⟨10, 1, 1, 1⟩
    (fun _ _ => 3 + ∑ i ∈ range 5, vecAt pdex 0 1 i * vecAt pdex 5 1 i) :=
  C69_fdot_threads 2 (by decide) 3 (WF_memOf _) (OkIn_memOf (by decide)) (OkIn_memOf (by decide)) (by decide) (by decide)

example : after (pfdot .Threads 5 0 1 5 1 (3 : ℚ) 2 (fun r => .wr 10 r .ret)).seq pdex 10 = some 13 := by decide +kernel

end

/-! ### C70: triangular systems -/

section
variable {m : Mem K} {side : Side} {u : Uplo} {ta : Tr} {d : Diag} {M N A lda B ldb : ℕ}

/-- C70: parallel `ftrsm`: there is one matrix `X` such that every execution replaces `B` by `X`, it solves the triangular system, and it is the
only solution. -/
theorem C70_ftrsm (p : Param) (t : ℕ) (hg : p = .Grain → t ≠ 0) (alpha : K) (h : TriCall m u d (Spec.sideDim side M N) A lda ⟨B, ldb, M, N⟩)
    (hr : Regular m d (Spec.sideDim side M N) A lda) :
    ∃ X, EveryRun (pftrsm side u ta d p M N alpha A lda B ldb t .ret) m ⟨B, ldb, M, N⟩ X ∧
      (∀ i < M, ∀ j < N, Spec.sideMul side (Spec.sideDim side M N) (triOp m u ta d (Spec.sideDim side M N) A lda) X i j = alpha * m.mat ⟨B, ldb, M, N⟩ i j) ∧
      ∀ Y : ℕ → ℕ → K, (∀ i < M, ∀ j < N, Spec.sideMul side (Spec.sideDim side M N) (triOp m u ta d (Spec.sideDim side M N) A lda) Y i j =
        alpha * m.mat ⟨B, ldb, M, N⟩ i j) → ∀ i < M, ∀ j < N, Y i j = X i j := by
  obtain ⟨X, hX, hs⟩ := pftrsm_ok (v := m.val) (side := side) (u := u) (ta := ta) (d := d) (p := p) (t := t) (A := A) (lda := lda) (B := B) alpha hg h.lW h.lA
    (by rintro x ⟨i, hi, j, hj, ht, rfl⟩; exact h.dA i hi j hj ht) hr
  refine ⟨X, everyRun h.wf h.okW (by rintro x ⟨i, hi, j, hj, ht, rfl⟩; exact h.okA i hi j hj ht) hX, hs, ?_⟩
  obtain ⟨_, _, _, X', _, h1, h2⟩ := C11_ftrsm (side := side) (ta := ta) .generic (gemmClassic_ok .generic) alpha h hr
  intro Y hY i hi j hj
  rw [h2 Y hY i hi j hj, h2 X hs i hi j hj]

/-- Violation of C70 by the hybrid variant: for an empty right-hand side on the left, the loop that chooses the number of tasks never ends. -/
theorem C70_hybrid_violated (nt : ℕ) : ∀ fuel, hybridTasks 0 nt fuel = none := by
  have : ∀ fuel it, hybridLoop 0 fuel it = none := by
    intro fuel
    induction fuel with
    | zero => intro it; simp [hybridLoop]
    | succ fuel ih => intro it; simp [hybridLoop, ih]
  intro fuel
  simp [hybridTasks, this]

/-- For a right-hand side that is not empty the loop ends after at most `nt` iterations, with at most `nt` tasks. -/
theorem C70_hybrid_tasks (n nt : ℕ) (hn : 0 < n) : ∃ q ≤ nt, hybridTasks n nt nt = some q := by
  have : ∀ fuel it, it ≤ fuel → ∃ q ≤ it, hybridLoop n fuel it = some q := by
    intro fuel
    induction fuel with
    | zero => intro it h; obtain rfl : it = 0 := by omega
              exact ⟨0, le_rfl, by simp [hybridLoop]; omega⟩
    | succ fuel ih =>
      intro it h
      simp only [hybridLoop]
      split_ifs with h1
      · obtain ⟨q, h2, h3⟩ := ih (it / 2) (by omega)
        exact ⟨q, by omega, h3⟩
      · exact ⟨it, le_rfl, rfl⟩
  unfold hybridTasks
  split_ifs
  · obtain ⟨q, h1, h2⟩ := this nt (nt / 2) (by omega)
    exact ⟨q * 2, by omega, by rw [h2]; rfl⟩
  · exact ⟨nt, le_rfl, rfl⟩

/-- upper triangular `2 × 2` matrix at 0, `B` is `2 × 3` at 4 -/
def ptex : Mem ℚ := memOf [2,1, 99,4, 4,5,6, 8,4,0]

lemma ptex_call : TriCall ptex .upper .nonUnit 2 0 2 ⟨4, 3, 2, 3⟩ where
  wf := WF_memOf _
  okW := OkIn_memOf (by decide)
  lW := by decide
  lA := by decide
  okA := fun i hi j hj _ => by interval_cases i <;> interval_cases j <;> decide +kernel
  dA := fun i hi j hj _ h => by obtain ⟨a, _, b, _, e⟩ := h; simp only [Win.adr] at e; omega

example : Regular ptex .nonUnit 2 0 2 := fun _ => by decide +kernel

example : after (pftrsm .left .upper .no .nonUnit .Threads 2 3 (1 : ℚ) 0 2 4 3 2 .ret).seq ptex 4 = some 1 ∧
    after (pftrsm .left .upper .no .nonUnit .Threads 2 3 (1 : ℚ) 0 2 4 3 2 .ret).seq ptex 5 = some 2 ∧
    after (pftrsm .left .upper .no .nonUnit .Threads 2 3 (1 : ℚ) 0 2 4 3 2 .ret).seq ptex 9 = some 0 := by decide +kernel

end

/-! ### C71: permutations, clearing -/

section
variable {m : Mem K} {A lda r c : ℕ} {P : Arr ℕ} {ibeg iend : ℕ}

/-- C71, parallel `applyP`, rows. -/
theorem C71_applyP_rows (p : Param) (t : ℕ) (hg : p = .Grain → t ≠ 0) (ta : Tr) (h : Rect m r c A lda) (he : iend ≤ r) (hP : iend ≤ P.len)
    (hp : ∀ i < iend, P.get i < r) :
    EveryRun (papplyP .left ta p c ibeg iend A lda P t .ret) m ⟨A, lda, r, c⟩
      (fun i j => exchanged (ta = .no) P.get ibeg iend (fun x => m.mat ⟨A, lda, r, c⟩ x j) i) := by
  refine everyRun h.wf h.ok (fun _ h => h.elim) ((papplyP_left_ok (v := m.val) hg h.ld he hP hp).congr rfl (fun i _ j _ => ?_))
  rw [exchanged_left]; rfl

/-- C71, parallel `applyP`, columns. -/
theorem C71_applyP_cols (p : Param) (t : ℕ) (hg : p = .Grain → t ≠ 0) (ta : Tr) (h : Rect m r c A lda) (he : iend ≤ c) (hP : iend ≤ P.len)
    (hp : ∀ i < iend, P.get i < c) :
    EveryRun (papplyP .right ta p r ibeg iend A lda P t .ret) m ⟨A, lda, r, c⟩
      (fun i j => exchanged (ta = .yes) P.get ibeg iend (fun x => m.mat ⟨A, lda, r, c⟩ i x) j) := by
  refine everyRun h.wf h.ok (fun _ h => h.elim) ((papplyP_right_ok (v := m.val) hg h.ld he hP hp).congr rfl (fun i _ j _ => ?_))
  rw [exchanged_right]; rfl

/-- rows `a+t .. a+t+b-1` are moved before the rows `a .. a+t-1` -/
def blockMoved {α : Type} (a t b : ℕ) (v : ℕ → α) (i : ℕ) : α :=
  if i < a then v i else if i < a + b then v (i + t) else if i < a + b + t then v (i - b) else v i

/-- C71, parallel `MatrixApplyS`: in every execution the `R3 + R4` rows after row `M2` go before the `M2 - (R1 + R2)` rows that precede them. -/
theorem C71_matrixApplyS (p : Param) (t : ℕ) (hg : p = .Grain → t ≠ 0) {M2 R1 R2 R3 R4 : ℕ} (h12 : R1 + R2 ≤ M2) (h : Rect m (M2 + R3 + R4) c A lda) :
    EveryRun (pmatrixApplyS p A lda c M2 R1 R2 R3 R4 t .ret) m ⟨A, lda, M2 + R3 + R4, c⟩
      (fun i j => blockMoved (R1 + R2) (M2 - (R1 + R2)) (R3 + R4) (fun x => m.mat ⟨A, lda, M2 + R3 + R4, c⟩ x j) i) := by
  refine everyRun h.wf h.ok (fun _ h => h.elim) ((pmatrixApplyS_ok (v := m.val) hg h.ld h12).congr rfl (fun i _ j _ => ?_))
  simp only [blockMoved, sPerm, Mem.mat, Win.adr]
  split_ifs <;> rfl

/-- C71, parallel `MatrixApplyT`: in every execution the `R2` columns after column `N2` go after the first `R1` columns, and the `R4` columns that
follow them go after the `R3` columns that come next. -/
theorem C71_matrixApplyT (p : Param) (t : ℕ) (hg : p = .Grain → t ≠ 0) {N2 R1 R2 R3 R4 : ℕ} (h13 : R1 + R3 ≤ N2) (h : Rect m r (N2 + R2 + R4) A lda) :
    EveryRun (pmatrixApplyT p A lda r N2 R1 R2 R3 R4 t .ret) m ⟨A, lda, r, N2 + R2 + R4⟩
      (fun i j => blockMoved (R1 + R2 + R3) (N2 - (R1 + R3)) R4 (blockMoved R1 (N2 - R1) R2 (fun x => m.mat ⟨A, lda, r, N2 + R2 + R4⟩ i x)) j) := by
  refine everyRun h.wf h.ok (fun _ h => h.elim) ((pmatrixApplyT_ok (v := m.val) hg h.ld h13).congr rfl (fun i _ j hj => ?_))
  have hj : j < N2 + R2 + R4 := hj
  have e : ∀ a b : ℕ, a = b → m.val (A + i * lda + a) = m.val (A + i * lda + b) := fun a b h => by rw [h]
  simp only [blockMoved, tPerm, Mem.mat, Win.adr]
  split_ifs <;> first | exact e _ _ (by omega) | (exfalso; omega)

/-- C71, `pfzero` with blocks of `BS` entries (`BS` is at least the Winograd threshold).  Full statement: the `r × c` matrix becomes zero.  Proved
when in both directions the remainder modulo the block size is at most the number of blocks.  Missing: the other shapes, for which it is
false (`C71_pfzero_violated`). -/
theorem C71_pfzero_partial (BS : ℕ) (h : Rect m r c A c) (hr : r % max (min r BS) 1 ≤ r / max (min r BS) 1) (hc : c % max (min c BS) 1 ≤ c / max (min c BS) 1) :
    EveryRun (pfzero r c A BS .ret) m ⟨A, c, r, c⟩ (fun _ _ => 0) := by
  refine everyRun h.wf h.ok (fun _ h => h.elim) (pfzero_ok _ ?_)
  rw [bnd_full (by simpa [rowSize] using hr), bnd_full (by simpa [colSize] using hc)]

/-- Violation of C71 by `pfzero`: whatever the matrix and the block size, if there are more rows left over than blocks of rows, the last row is not
cleared in any execution.  For instance `r = 1999` and `BS = 1000`: rows 1001 to 1998 keep their contents. -/
theorem C71_pfzero_violated (BS : ℕ) (h : Rect m r c A c) (hr : r / max (min r BS) 1 < r % max (min r BS) 1) :
    ∀ m', Steps (pfzero r c A BS .ret, m) (.ret, m') → ∀ j < c, m'.val (A + (r - 1) * c + j) = m.val (A + (r - 1) * c + j) := by
  intro m' s j hj
  have hlt := bnd_lt hr
  have hle := bnd_le c (colSize .Block .Grain c BS)
  have hr0 : 0 < r := by omega
  have hin : (Win.mk A c r c).Has (A + (r - 1) * c + j) := ⟨r - 1, by show r - 1 < r; omega, j, hj, rfl⟩
  have hrow : rowSize .Block .Grain r BS = max (min r BS) 1 := rfl
  have ht := pfzero_ok (K := K) (v := m.val) (m := r) (n := c) (C := A) (BS := BS) _ rfl
  have hE := fun ho => everyRun (m := m) (Rs := fun _ => False) h.wf ho (fun _ h => h.elim) ht
  replace hE := hE (fun a ha => h.ok a (by
    refine Win.Has_mono (V := ⟨A, c, r, c⟩) ?_ ?_ ?_ ?_ ha
    exacts [rfl, rfl, hlt.le, hle]))
  refine ((hE.result m' s).2 _ (h.ok _ hin)).2 ?_
  rintro ⟨a, ha, b, hb, e⟩
  simp only [hrow] at ha
  simp only [] at hb
  have := (Win.Inj_of_le (W := ⟨A, c, r, c⟩) (Or.inl le_rfl)) (r - 1) (by show r - 1 < r; omega) j hj a (by show a < r; omega) b (by show b < c; omega) e
  omega

example : (1999 / max (min 1999 1000) 1 : ℕ) < 1999 % max (min 1999 1000) 1 := by decide

/-- five rows, grain 3 -/
def pzex : Mem ℚ := memOf [1,2,3,4,5]

example : after (pfzero 5 1 0 3 .ret).seq pzex 3 = some 0 ∧ after (pfzero 5 1 0 3 .ret).seq pzex 4 = some 5 := by decide +kernel

example : EveryRun (pfzero 5 1 0 2 .ret) pzex ⟨0, 1, 5, 1⟩ (fun _ _ => 0) :=
  C71_pfzero_partial 2 ⟨WF_memOf _, OkIn_memOf (by decide), by decide⟩ (by decide) (by decide)

example : after (papplyP .left .no .Threads 2 0 3 0 3 ⟨3, fun i => [2, 2, 2].getD i 0⟩ 2 .ret).seq parex 0 = some 5 ∧
    after (papplyP .left .no .Threads 2 0 3 0 3 ⟨3, fun i => [2, 2, 2].getD i 0⟩ 2 .ret).seq parex 8 = some 77 := by decide +kernel

example : EveryRun (papplyP .left .no .Threads 2 0 3 0 3 ⟨3, fun i => [2, 2, 2].getD i 0⟩ 2 .ret) parex ⟨0, 3, 3, 2⟩
    (fun i j => exchanged true (fun i => [2, 2, 2].getD i 0) 0 3 (fun x => parex.mat ⟨0, 3, 3, 2⟩ x j) i) :=
  C71_applyP_rows .Threads 2 (by simp) .no ⟨WF_memOf _, OkIn_memOf (by decide), by decide⟩ (by decide) (by decide) (by decide)

example : after (pmatrixApplyS .Threads 0 1 1 3 1 0 1 1 2 .ret).seq pzex 1 = some 4 ∧ after (pmatrixApplyS .Threads 0 1 1 3 1 0 1 1 2 .ret).seq pzex 3 = some 2 ∧
    after (pmatrixApplyT .Threads 0 5 1 3 1 1 1 1 2 .ret).seq pzex 1 = some 4 ∧ after (pmatrixApplyT .Threads 0 5 1 3 1 1 1 1 2 .ret).seq pzex 3 = some 5 := by
  decide +kernel

end

end Verif.Props
