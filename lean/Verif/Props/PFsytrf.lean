import Verif.Props.Fsytrf
import Verif.Props.Fsyrk
import Verif.Proofs.PFsytrfBase
import Verif.Proofs.ParGemm
import Verif.Proofs.PPluq
import Verif.Spec.ParV

/-!
# Property C118: parallel triangular factorisation of symmetric matrices
-/

namespace Verif.Props

open Verif.FF Finset Verif.ParV Verif.Par

variable {K : Type} [Field K] [DecidableEq K] {m : Mem K} {u : Uplo} {n A lda thr sthr nt : ℕ}

/-- C118, partial: `fsytrf` with a parallel helper, for **every schedule of the tasks**, every number of threads and every threshold that
are not 0, with any correct products and base case: no fault, race, deadlock or infinite execution; the answer tells whether the stored
symmetric matrix has generic rank profile; if it has, `A` holds its factorisation; only `A` is modified.  Missing: the threshold 0, and
that the memory allocated is the same as before if the answer is false (see `C118_leak_violated`). -/
theorem C118_fsytrf_partial {gs : PGemm K} {gc gb : ℕ → PGemm K} (hs : PGemmOk gs) (hc : ∀ nt, 1 ≤ nt → PGemmOk (gc nt)) (hb : ∀ nt, 1 ≤ nt → PGemmOk (gb nt))
    {bc : SytrfV K Bool} (hst : 1 ≤ sthr) (hnt : 1 ≤ nt) (h1 : 1 ≤ thr) (hbc : ∀ n ≤ thr, SytVOk u lda n (fun A D q => bc u n A lda D q))
    (hA : Rect m n n A lda) :
    EveryExec (pfsytrf gs gc gb bc sthr nt u n A lda thr) m (Win.mk A lda n n).Has (fun r m' =>
      (r = true ↔ GenericRP n (symOf u (m.mat ⟨A, lda, n, n⟩))) ∧
      (r = true → IsLDLT u n (symOf u (m.mat ⟨A, lda, n, n⟩)) (m'.mat ⟨A, lda, n, n⟩) ∧ ∀ l < n, m'.mat ⟨A, lda, n, n⟩ l l ≠ 0)) := by
  have E := everyExec hA.wf hA.ok (pfsytrf_wp (v := m.val) (A := A) hs hc hb hst hnt h1 hbc n hA.ld)
  refine ⟨E.1, E.2, E.3, E.4, E.5, fun r m' s => ?_, E.frame⟩
  obtain ⟨ht, hf⟩ := E.result r m' s
  cases r with
  | false =>
    obtain ⟨k, hk, e⟩ := (hf rfl).det (symOf_eq _)
    exact ⟨⟨fun hh => absurd hh (by simp), fun hg => absurd e (hg k hk)⟩, fun hh => absurd hh (by simp)⟩
  | true =>
    obtain ⟨z, N1, e⟩ := ht rfl
    obtain ⟨e0, e1⟩ := N1.unit e
    refine ⟨⟨fun _ k hk => N1.det (symOf_eq _) hk, fun _ => rfl⟩, fun _ => ⟨fun i hi j hj => ?_, fun l hl => e0 l hl⟩⟩
    rw [lowOp_eq]
    exact sym_cases (symOf_eq _) e1 i hi j hj

/-- C118 with the products of the library and the default base case: the upper triangle (see `C74_lower_violated` for the lower one). -/
theorem C118_RL (gthr : ℕ) (hst : 1 ≤ sthr) (hnt : 1 ≤ nt) (h1 : 1 ≤ thr) (hA : Rect m n n A lda) :
    EveryExec (pfsytrf seqGemm (pfgemmBlock seqGemm gthr) (pfgemmBlock seqGemm gthr) bcRL sthr nt .upper n A lda thr) m (Win.mk A lda n n).Has (fun r m' =>
      (r = true ↔ GenericRP n (symOf .upper (m.mat ⟨A, lda, n, n⟩))) ∧
      (r = true → IsLDLT .upper n (symOf .upper (m.mat ⟨A, lda, n, n⟩)) (m'.mat ⟨A, lda, n, n⟩) ∧ ∀ l < n, m'.mat ⟨A, lda, n, n⟩ l l ≠ 0)) :=
  C118_fsytrf_partial seqGemm_ok (fun _ h => pfgemmBlock_ok seqGemm_ok h) (fun _ h => pfgemmBlock_ok seqGemm_ok h) hst hnt h1
    (fun n _ => rlV_ok rfl n) hA

/-- C118 with the products of the library and the base case `fsytrf_BC_Crout`. -/
theorem C118_Crout (gthr : ℕ) (hst : 1 ≤ sthr) (hnt : 1 ≤ nt) (h1 : 1 ≤ thr) (hA : Rect m n n A lda) :
    EveryExec (pfsytrf seqGemm (pfgemmBlock seqGemm gthr) (pfgemmBlock seqGemm gthr) bcCrout sthr nt u n A lda thr) m (Win.mk A lda n n).Has (fun r m' =>
      (r = true ↔ GenericRP n (symOf u (m.mat ⟨A, lda, n, n⟩))) ∧
      (r = true → IsLDLT u n (symOf u (m.mat ⟨A, lda, n, n⟩)) (m'.mat ⟨A, lda, n, n⟩) ∧ ∀ l < n, m'.mat ⟨A, lda, n, n⟩ l l ≠ 0)) :=
  C118_fsytrf_partial seqGemm_ok (fun _ h => pfgemmBlock_ok seqGemm_ok h) (fun _ h => pfgemmBlock_ok seqGemm_ok h) hst hnt h1
    (fun n _ => croutV_ok n) hA

/-! ### A concrete case -/

abbrev psytRun (u : Uplo) (n lda thr nt : ℕ) : VProc ℚ Bool :=
  pfsytrf seqGemm (pfgemmBlock seqGemm 1) (pfgemmBlock seqGemm 1) bcCrout 1 nt u n 0 lda thr

example : EveryExec (psytRun .lower 3 4 1 3) sytex (Win.mk 0 4 3 3).Has (fun r m' =>
      (r = true ↔ GenericRP 3 (symOf .lower (sytex.mat ⟨0, 4, 3, 3⟩))) ∧
      (r = true → IsLDLT .lower 3 (symOf .lower (sytex.mat ⟨0, 4, 3, 3⟩)) (m'.mat ⟨0, 4, 3, 3⟩) ∧ ∀ l < 3, m'.mat ⟨0, 4, 3, 3⟩ l l ≠ 0)) :=
  C118_Crout (m := sytex) (u := .lower) (n := 3) (A := 0) (lda := 4) (thr := 1) (sthr := 1) (nt := 3) 1 (by decide) (by decide) (by decide) sytex_pre

/-- the run that takes the tasks in turn -/
example : result (psytRun .upper 3 4 1 3).seq sytex = some true ∧ result (psytRun .upper 2 2 1 2).seq (memOf [1, 2, 2, 4]) = some false ∧
    (List.range 11).map (after (psytRun .upper 3 4 1 3).seq sytex) = [2, 2, 3, 77, 4, -3, 5/3, 77, 6, 7, -26/3].map some ∧
    (List.range 11).map (after (psytRun .lower 3 4 1 2).seq sytex) = [2, 4, 6, 77, 2, -3, 7, 77, 3, 5/3, -26/3].map some ∧
    (List.range 11).map (after (psytRun .lower 3 4 2 1).seq sytex) = [2, 4, 6, 77, 2, -3, 7, 77, 3, 5/3, -26/3].map some :=
  ⟨by decide +kernel, by decide +kernel, by decide +kernel, by decide +kernel, by decide +kernel⟩

/-- the upper triangle with the default base case -/
example : (List.range 11).map (after (pfsytrf seqGemm (pfgemmBlock seqGemm 1) (pfgemmBlock seqGemm 1) bcRL 1 3 .upper 3 0 4 2).seq sytex) =
    [2, 2, 3, 77, 4, -3, 5/3, 77, 6, 7, -26/3].map some := by decide +kernel

/-- The answer false leaves the cells of `Dinv` allocated: cells 4 and 5 here. -/
theorem C118_leak_violated : ∃ m : Mem ℚ, Rect m 2 2 0 2 ∧ ∃ m', (psytRun .upper 2 2 1 2).seq m = .ok (false, m') ∧
    m.ok 4 = false ∧ m'.ok 4 = true ∧ m'.ok 5 = true := by
  refine ⟨memOf [1, 2, 2, 4], ⟨WF_memOf _, OkIn_memOf (by decide), by decide⟩, ?_⟩
  have h : ((psytRun .upper 2 2 1 2).seq (memOf [(1 : ℚ), 2, 2, 4])).toOption.map (fun x => (x.1, x.2.ok 4, x.2.ok 5)) = some (false, true, true) := by
    decide +kernel
  generalize (psytRun .upper 2 2 1 2).seq (memOf [(1 : ℚ), 2, 2, 4]) = o at h ⊢
  match o, h with
  | .ok (r, m'), h =>
    simp only [Except.toOption, Option.map_some, Option.some.injEq, Prod.mk.injEq] at h
    exact ⟨m', by rw [h.1], by decide +kernel, h.2⟩

end Verif.Props
