import Verif.Props.Fsyrk
import Verif.Proofs.PFsyrk
import Verif.Proofs.ParGemm
import Verif.Proofs.PPluq
import Verif.Spec.ParV

/-!
# Property C117: parallel symmetric rank update with a diagonal matrix
-/

namespace Verif.Props

open Verif.FF Verif.Spec Finset Verif.ParV Verif.Par

variable {K : Type} [Field K] [DecidableEq K] {m : Mem K} {u : Uplo} {t : Tr} {n k A lda D incD C ldc thr nt : ℕ}

/-- C117: parallel `fsyrk` with a diagonal matrix, for **every schedule of the tasks**, every number of threads and every threshold that are
not 0, with any correct products: no fault, race, deadlock or infinite execution; the selected triangle of `C` holds
`alpha op(A) D op(A)ᵀ + beta C`, `op(A)` holds `op(A) D`, and nothing else but the window of `C` changes. -/
theorem C117_products {gs : PGemm K} {gc gb : ℕ → PGemm K} (hs : PGemmOk gs) (hc : ∀ nt, 1 ≤ nt → PGemmOk (gc nt)) (hb : ∀ nt, 1 ≤ nt → PGemmOk (gb nt))
    (h1 : 1 ≤ thr) (hnt : 1 ≤ nt) (alpha beta : K) (hC : Rect m n n C ldc) (hA : SyrkArg m t n k A lda C ldc) (hD : OkIn m (vw D incD k)) (hi : 1 ≤ incD)
    (hDA : (vw D incD k).Disj (aw t n k A lda)) (hDC : (vw D incD k).Disj ⟨C, ldc, n, n⟩) :
    EveryExec (up (pSyrk gs gc gb thr u t k alpha lda D incD beta ldc (n + 1) nt n A C .ret) (.ret ())) m
      (fun a => (Win.mk C ldc n n).Has a ∨ (aw t n k A lda).Has a) (fun _ m' =>
      (∀ i < n, ∀ j < n, inHalf u i j → m'.val (C + i * ldc + j) =
        alpha * (∑ l ∈ range k, m.val (D + l * incD) * opnd m t n k A lda i l * opnd m t n k A lda j l) + beta * m.val (C + i * ldc + j)) ∧
      ∀ i < n, ∀ l < k, opnd m' t n k A lda i l = m.val (D + l * incD) * opnd m t n k A lda i l) := by
  have eop : ∀ (w : Mem K) i l, opnd w t n k A lda i l = w.val (opAdr t A lda i l) := by
    intro w i l; cases t <;> rfl
  have la : opc t n k ≤ lda := by cases t <;> exact hA.ld
  have okA : OkIn m (aw t n k A lda) := hA.osrc.ok
  let U : ℕ → Prop := fun a => ((Win.mk C ldc n n).Has a ∨ (aw t n k A lda).Has a) ∨ (vw D incD k).Has a
  have hp : SPre t n k A lda D incD C ldc := ⟨la, hC.ld, hi, hA.dis, hDA, hDC⟩
  have main : ParV.wp (up (pSyrk gs gc gb thr u t k alpha lda D incD beta ldc (n + 1) nt n A C .ret) (.ret ())) U (fun _ => False) (fun _ => False) m.val
      (fun (_ : Unit) v' => SPost u t n k alpha A lda D incD beta C ldc m.val v' ∧ ∀ a, (vw D incD k).Has a → v' a = m.val a) := by
    refine up_wp _ (Q0 := fun v' => SPost u t n k alpha A lda D incD beta C ldc m.val v' ∧ ∀ a, (vw D incD k).Has a → v' a = m.val a) ?_ (fun v' h => h)
    refine pSyrk_ok hs hc hb h1 (n + 1) nt n hnt (by omega) (by omega) A C .ret U (fun _ => False) (fun _ => False) m.val _ hp
      (fun x hx => Or.inl (Or.inl (Or.inr hx))) (fun x hx => Or.inl (Or.inl (Or.inl hx))) (fun x hx => Or.inl (Or.inr hx)) (fun v' hf hS => ?_)
    exact ⟨hS, fun a ha => hf a (Or.inl (Or.inr ha)) (fun h => hDA a ha h) (fun h => hDC a ha h)⟩
  have E := everyExec hC.wf (fun i hi => hi.elim (fun h => h.elim (hC.ok i) (okA i)) (hD i)) main
  refine ⟨E.1, E.2, E.3, E.4, E.5, fun r m' s => ⟨fun i hi j hj hh => ?_, fun i hi l hl => ?_⟩, fun r m' s a ha => ⟨(E.frame r m' s a ha).1, fun hn => ?_⟩⟩
  · simp only [eop]
    exact (E.result r m' s).1.2 i hi j hj hh
  · simp only [eop]
    exact (E.result r m' s).1.1 i hi l hl
  · by_cases hB : (vw D incD k).Has a
    · exact (E.result r m' s).2 a hB
    · exact (E.frame r m' s a ha).2 (fun h => h.elim hn hB)

/-- C117 with the products of the library and the cutting `Block/Threads`. -/
theorem C117_fsyrk (gthr : ℕ) (h1 : 1 ≤ thr) (hnt : 1 ≤ nt) (alpha beta : K) (hC : Rect m n n C ldc) (hA : SyrkArg m t n k A lda C ldc)
    (hD : OkIn m (vw D incD k)) (hi : 1 ≤ incD) (hDA : (vw D incD k).Disj (aw t n k A lda)) (hDC : (vw D incD k).Disj ⟨C, ldc, n, n⟩) :
    EveryExec (up (pSyrk seqGemm (pfgemmBlock seqGemm gthr) (pfgemmBlock seqGemm gthr) thr u t k alpha lda D incD beta ldc (n + 1) nt n A C .ret) (.ret ())) m
      (fun a => (Win.mk C ldc n n).Has a ∨ (aw t n k A lda).Has a) (fun _ m' =>
      (∀ i < n, ∀ j < n, inHalf u i j → m'.val (C + i * ldc + j) =
        alpha * (∑ l ∈ range k, m.val (D + l * incD) * opnd m t n k A lda i l * opnd m t n k A lda j l) + beta * m.val (C + i * ldc + j)) ∧
      ∀ i < n, ∀ l < k, opnd m' t n k A lda i l = m.val (D + l * incD) * opnd m t n k A lda i l) :=
  C117_products seqGemm_ok (fun _ h => pfgemmBlock_ok seqGemm_ok h) (fun _ h => pfgemmBlock_ok seqGemm_ok h) h1 hnt alpha beta hC hA hD hi hDA hDC

/-! ### A concrete case -/

abbrev psyRun : VProc ℚ Unit :=
  up (pSyrk seqGemm (pfgemmBlock seqGemm 1) (pfgemmBlock seqGemm 1) 1 .upper .no 2 (1 : ℚ) 2 24 2 10 4 4 3 3 0 12 .ret) (.ret ())

example : EveryExec psyRun syx (fun a => (Win.mk 12 4 3 3).Has a ∨ (aw .no 3 2 0 2).Has a) (fun _ m' =>
      (∀ i < 3, ∀ j < 3, inHalf .upper i j → m'.val (12 + i * 4 + j) =
        1 * (∑ l ∈ range 2, syx.val (24 + l * 2) * opnd syx .no 3 2 0 2 i l * opnd syx .no 3 2 0 2 j l) + 10 * syx.val (12 + i * 4 + j)) ∧
      ∀ i < 3, ∀ l < 2, opnd m' .no 3 2 0 2 i l = syx.val (24 + l * 2) * opnd syx .no 3 2 0 2 i l) :=
  C117_fsyrk (m := syx) (u := .upper) (t := .no) (n := 3) (k := 2) (A := 0) (lda := 2) (D := 24) (incD := 2) (C := 12) (ldc := 4) (thr := 1) (nt := 3) 1
    (by decide) (by decide) 1 10 ⟨WF_memOf _, OkIn_memOf (by decide), by decide⟩ ⟨OkIn_memOf (by decide), by decide, Win.Ends.disj (by decide)⟩
    (OkIn_memOf (by decide)) (by decide) (Win.Ends.disj (by decide)).symm (Win.Ends.disj (by decide)).symm

/-- the run that takes the tasks in turn -/
example : (List.range 6).map (after psyRun.seq syx) = [2, 6, 6, 12, 10, 18].map some ∧
    (List.range 12).map (fun i => after psyRun.seq syx (12 + i)) = [24, 50, 76, 77, 4, 116, 162, 77, 7, 8, 248, 77].map some := by decide +kernel

end Verif.Props
