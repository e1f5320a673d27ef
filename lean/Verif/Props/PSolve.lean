import Verif.Props.PPluq
import Verif.Props.Solve
import Verif.Proofs.PSolve

/-!
# Property C116: systems solved with the parallel decomposition
-/

namespace Verif.Props

open Verif.FF Verif.Spec Verif.Spec.Perm Finset Verif.ParV Verif.Par

variable {K : Type} [Field K] [DecidableEq K] {m : Mem K} {M A lda : ℕ} {P Q : Arr ℕ}

/-- C116: `pSolve`, for every number of threads, every threshold, **every schedule of the tasks** and all contents of new arrays: no fault,
race, deadlock or infinite execution.  The message `SINGULAR MATRIX` is printed exactly when the matrix is not invertible, and then `x` is
left as it was; otherwise `x` holds the solution of `A x = b`.  Only `A` and `x` change. -/
theorem C116_psolve (junk : ℕ → K) (gthr thr : ℕ) (jk : List ℕ → ℕ → ℕ) (nt : ℕ) (hP : P.len = M) (hQ : Q.len = M) {x incx b incb : ℕ}
    (hA : Rect m M M A lda) (hx : Rect m M 1 x incx) (hb : Rect m M 1 b incb) (hd : (Win.mk A lda M M).Disj ⟨x, incx, M, 1⟩)
    (hdAb : (Win.mk b incb M 1).Disj ⟨A, lda, M, M⟩) (hdb : (Win.mk b incb M 1).Disj ⟨x, incx, M, 1⟩) :
    EveryExec (psolve junk gthr thr jk nt M A lda x incx b incb P Q) m (fun a => (Win.mk A lda M M).Has a ∨ (Win.mk x incx M 1).Has a) (fun r m' =>
      r.1 = rk (m.mat ⟨A, lda, M, M⟩) M M ∧
      (r.1 < M → ∀ j < M, m'.val (x + j * incx) = m.val (x + j * incx)) ∧
      (r.1 = M → ∀ i < M, ∑ j ∈ range M, m.val (A + i * lda + j) * m'.val (x + j * incx) = m.val (b + i * incb))) := by
  set WA : Win := ⟨A, lda, M, M⟩ with eA
  set Wx : Win := ⟨x, incx, M, 1⟩ with ex
  set Wb : Win := ⟨b, incb, M, 1⟩ with eb
  let U : ℕ → Prop := fun a => WA.Has a ∨ (Wx.Has a ∨ Wb.Has a)
  have hax : ∀ j < M, Wx.adr j 0 = x + j * incx := fun j _ => by simp [ex, Win.adr]
  have hab : ∀ j < M, Wb.adr j 0 = b + j * incb := fun j _ => by simp [eb, Win.adr]
  have main : wp (psolve junk gthr thr jk nt M A lda x incx b incb P Q) U (fun _ => False) (fun _ => False) m.val (fun r v' =>
      (r.1 = rk (m.mat WA) M M ∧ (r.1 < M → ∀ j < M, v' (x + j * incx) = m.val (x + j * incx)) ∧
      (r.1 = M → ∀ i < M, ∑ j ∈ range M, m.val (A + i * lda + j) * v' (x + j * incx) = m.val (b + i * incb))) ∧ ∀ a, Wb.Has a → v' a = m.val a) := by
    unfold psolve
    refine wp_vbind _ (wp_wide (v0 := m.val) _ (fun i hi => ⟨fun ha => ?_, fun h => h⟩) (fun _ _ => rfl)
      (ppluq_spec (W := WA) (v := m.val) junk gthr thr jk nt .nonUnit hA.ld hP hQ)) ?_
    · exact hi.elim (fun h => hd i ha h) (fun h => hdAb i h ha)
    rintro r v1 ⟨⟨h1, h2, h3, h4, Y, hY, hF⟩, hfr⟩
    have D : Decomposes .nonUnit M M (m.mat WA) Y r.2.1.get r.2.2.get r.1 :=
      ⟨hF.rM, hF.rN, h3, h4, hF.piv, hF.zero, fun i hi j hj => by
        rw [applySwaps_eq, applySwaps_eq]
        exact hF.fac i hi j hj⟩
    have er : r.1 = rk (m.mat WA) M M := C20_decomposition_rank D
    split_ifs with hr
    · refine ⟨⟨er, fun _ j hj => ?_, fun h => absurd h hr.ne⟩, fun a ha => hfr a (Or.inr ha)⟩
      exact hfr _ (Or.inl ⟨j, hj, 0, Nat.one_pos, (hax j hj).symm⟩)
    · have e : r.1 = M := by have := D.rM; omega
      obtain ⟨m1, hwf, hmv, hok⟩ := exists_mem v1 ((FinS.has WA).or ((FinS.has Wx).or (FinS.has Wb)))
      have oT : On m1 m1 Wx (fun i j => v1 (Wx.adr i j)) := ⟨hwf, fun a ha => (hok a).2 (Or.inr (Or.inl ha)), hx.ld, Step.refl (fun _ _ _ _ => by show m1.val _ = _; rw [hmv])⟩
      have sA : Src m1 WA Y := ⟨fun a ha => (hok a).2 (Or.inl ha), hA.ld, fun i hi j hj => by rw [hmv]; exact hY i hi j hj⟩
      have sB : Src m1 Wb (m.mat Wb) := ⟨fun a ha => (hok a).2 (Or.inr (Or.inr ha)), hb.ld, fun i hi j hj => by
        rw [hmv]; exact hfr _ (Or.inr ⟨i, hi, j, hj, rfl⟩)⟩
      have hlu := D.lu
      rw [e] at hlu
      refine wp_cut _ m1 hmv (fun i hi => Or.inl ((hok i).1 hi)) (solve_tail_on (T := Wx) (P := r.2.1) (Q := r.2.2) oT rfl rfl sA hd sB hdb rfl rfl rfl rfl h1 h3 h2 h4 hlu) ?_
      rintro done m2 ⟨rfl, Z, h, eq⟩ _ _
      refine ⟨⟨er, fun h => absurd h hr, fun _ i hi => ?_⟩, fun a ha => ?_⟩
      · have := eq i hi
        rw [show m.mat Wb i 0 = m.val (b + i * incb) by rw [← hab i hi]; rfl] at this
        rw [← this]
        refine sum_congr rfl (fun j hj => ?_)
        have h5 := h.val (i := j) (j := 0) (mem_range.1 hj) Nat.one_pos
        rw [hax j (mem_range.1 hj)] at h5
        rw [h5]
        rfl
      · rw [h.step.frame a ((hok a).2 (Or.inr (Or.inr ha))) (fun hh => hdb a ha hh), hmv]
        exact hfr a (Or.inr ha)
  have E := everyExec hA.wf (fun i hi => hi.elim (hA.ok i) (fun h => h.elim (hx.ok i) (hb.ok i))) main
  refine ⟨E.1, E.2, E.3, E.4, E.5, fun r m' s => (E.result r m' s).1, fun r m' s a ha => ⟨(E.frame r m' s a ha).1, fun hn => ?_⟩⟩
  by_cases hB : Wb.Has a
  · exact (E.result r m' s).2 a hB
  · exact (E.frame r m' s a ha).2 (fun h => h.elim (fun h => hn (Or.inl h)) (fun h => h.elim (fun h => hn (Or.inr h)) hB))

/-! ### A concrete case -/

/-- `[0 2 1; 1 1 0; 3 0 1]` with leading dimension 4 at 0, `x` at 12 with stride 2, `b` at 18 -/
def psx : Mem ℚ := memOf [0, 2, 1, 9, 1, 1, 0, 9, 3, 0, 1, 9, 7, 7, 7, 7, 7, 7, 7, 3, 6]

abbrev psxRun : VProc ℚ Res :=
  psolve (fun _ => 5) 2 2 (fun l i => l.sum + i) 4 3 0 4 12 2 18 1 (Arr.mk' 3 (fun _ => 9)) (Arr.mk' 3 (fun _ => 8))

lemma psx_disj : (Win.mk 0 4 3 3).Disj ⟨12, 2, 3, 1⟩ ∧ (Win.mk 18 1 3 1).Disj ⟨0, 4, 3, 3⟩ ∧ (Win.mk 18 1 3 1).Disj ⟨12, 2, 3, 1⟩ := by
  refine ⟨?_, ?_, ?_⟩ <;> rintro a ⟨i, hi, j, hj, rfl⟩ ⟨i', hi', j', hj', e⟩ <;> simp only [Win.adr] at * <;> omega

example : EveryExec psxRun psx (fun a => (Win.mk 0 4 3 3).Has a ∨ (Win.mk 12 2 3 1).Has a) (fun r m' =>
      r.1 = rk (psx.mat ⟨0, 4, 3, 3⟩) 3 3 ∧
      (r.1 < 3 → ∀ j < 3, m'.val (12 + j * 2) = psx.val (12 + j * 2)) ∧
      (r.1 = 3 → ∀ i < 3, ∑ j ∈ range 3, psx.val (0 + i * 4 + j) * m'.val (12 + j * 2) = psx.val (18 + i * 1))) :=
  C116_psolve (m := psx) (M := 3) (A := 0) (lda := 4) (P := Arr.mk' 3 (fun _ => 9)) (Q := Arr.mk' 3 (fun _ => 8)) (x := 12) (incx := 2) (b := 18) (incb := 1)
    (fun _ => 5) 2 2 (fun l i => l.sum + i) 4 rfl rfl ⟨WF_memOf _, OkIn_memOf (by decide), by decide⟩ ⟨WF_memOf _, OkIn_memOf (by decide), by decide⟩
    ⟨WF_memOf _, OkIn_memOf (by decide), by decide⟩ psx_disj.1 psx_disj.2.1 psx_disj.2.2

example : (result psxRun.seq psx).map (fun x => x.1) = some 3 ∧ after psxRun.seq psx 12 = some 1 ∧ after psxRun.seq psx 14 = some 2 ∧
    after psxRun.seq psx 16 = some 3 ∧ after psxRun.seq psx 13 = some 7 := by decide +kernel

end Verif.Props
