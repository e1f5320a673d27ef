import Verif.Proofs.GaussJordan
import Verif.Props.Solve

/-!
# Properties C23, C56, C57: inversion, echelon forms, Gauss–Jordan elimination
-/

namespace Verif.Props

open Verif.FF Verif.Spec Verif.Spec.Perm Verif.Pluq Finset

variable {K : Type} [Field K] [DecidableEq K] {m : Mem K} {M N A lda X ldx : ℕ} {P Q : Arr ℕ} {k : Kit K}

/-- What the functions below promise besides the contents of the matrix: `r` is the rank of the matrix, the arrays describe sequences of
exchanges of `a` and `b` elements, and nothing but the matrix has changed; `V` is its contents. -/
structure Computes (m m' : Mem K) (M N A lda a b r : ℕ) (P Q : Arr ℕ) (V : ℕ → ℕ → K) : Prop where
  step : Step m m' ⟨A, lda, M, N⟩ V
  rank : r = rk (m.mat ⟨A, lda, M, N⟩) M N
  lenP : P.len = a
  lenQ : Q.len = b
  tP : IsTranspArray P.get a
  tQ : IsTranspArray Q.get b

omit [DecidableEq K] in
lemma rk_transp (X : ℕ → ℕ → K) (M N : ℕ) : rk (fun i j => X j i) N M = rk X M N := by
  have : toMat N M (fun i j => X j i) = (toMat M N X).transpose := rfl
  rw [rk, this, Matrix.rank_transpose, rk]

/-- C56: `RowEchelonForm` with the transformation: `T · X(P, Q) = E`, with the transformation `T` (lower triangular, invertible) and
the echelon form `E` (unit upper triangular, its rows after the rank zero; a non-zero entry is never left of its pivot) packed into `A`. -/
theorem C56_rowEchelonForm (hk : KitOk k) (jk : List ℕ → ℕ → ℕ) (h : Rect m M N A lda) (hP : P.len = M) (hQ : Q.len = N) :
    Run (rowEchelonForm k jk true M N A lda P Q) m (fun x m' => ∃ V, Computes m m' M N A lda M N x.1 x.2.1 x.2.2 V ∧
      IsEchelon M N x.1 (m.mat ⟨A, lda, M, N⟩) V (applySwaps x.2.1.get id M) (applySwaps x.2.2.get id N)) := by
  refine (rowEchelonForm_tr hk jk h.on hP hQ).mono ?_
  rintro ⟨r, P', Q'⟩ m' ⟨a, b, V, h', e⟩
  refine ⟨V, ⟨h'.step, e.rank_eq.symm, a.1, b.1, a.2, b.2⟩, ?_⟩
  rw [applySwaps_eq, applySwaps_eq]
  exact e

/-- C56: without the transformation it is the decomposition of C19. -/
theorem C56_rowEchelonForm_noTransform (hk : KitOk k) (jk : List ℕ → ℕ → ℕ) (h : Rect m M N A lda) (hP : P.len = M) (hQ : Q.len = N) :
    Run (rowEchelonForm k jk false M N A lda P Q) m (fun x m' => ∃ V, Computes m m' M N A lda M N x.1 x.2.1 x.2.2 V ∧
      Decomposes .unit M N (m.mat ⟨A, lda, M, N⟩) V x.2.1.get x.2.2.get x.1) := by
  simp only [rowEchelonForm, Run_bind]
  refine (pluq_spec k.cat hk.g hk.ts k.thr jk .unit h.on hP hQ).mono ?_
  rintro ⟨r, P', Q'⟩ m' ⟨h1, h2, h3, h4, V, h5, h6⟩
  simp only [Bool.false_eq_true, if_false, Run_pure]
  exact ⟨V, ⟨h5.step, h6.rank_eq.symm, h1, h2, h3, h4⟩, decomposes h3 h4 h6⟩

/-- C56: `ColumnEchelonForm`: the statement for the transposed matrices, with the column permutation `P` and the row permutation `Q`. -/
theorem C56_columnEchelonForm (hk : KitOk k) (jk : List ℕ → ℕ → ℕ) (h : Rect m M N A lda) (hP : P.len = N) (hQ : Q.len = M) :
    Run (columnEchelonForm k jk true M N A lda P Q) m (fun x m' => ∃ V, Computes m m' M N A lda N M x.1 x.2.1 x.2.2 V ∧
      IsEchelon N M x.1 (fun i j => m.mat ⟨A, lda, M, N⟩ j i) (fun i j => V j i) (applySwaps x.2.1.get id N) (applySwaps x.2.2.get id M)) := by
  refine (columnEchelonForm_tr hk jk h.on hP hQ).mono ?_
  rintro ⟨r, P', Q'⟩ m' ⟨a, b, V, h', e⟩
  refine ⟨V, ⟨h'.step, ?_, a.1, b.1, a.2, b.2⟩, ?_⟩
  · rw [← rk_transp]; exact e.rank_eq.symm
  · rw [applySwaps_eq, applySwaps_eq]
    exact e

/-- C56: without the transformation it is the decomposition of C19. -/
theorem C56_columnEchelonForm_noTransform (hk : KitOk k) (jk : List ℕ → ℕ → ℕ) (h : Rect m M N A lda) (hP : P.len = N) (hQ : Q.len = M) :
    Run (columnEchelonForm k jk false M N A lda P Q) m (fun x m' => ∃ V, Computes m m' M N A lda N M x.1 x.2.1 x.2.2 V ∧
      Decomposes .nonUnit M N (m.mat ⟨A, lda, M, N⟩) V x.2.2.get x.2.1.get x.1) := by
  simp only [columnEchelonForm, Run_bind]
  refine (pluq_spec k.cat hk.g hk.ts k.thr jk .nonUnit h.on hQ hP).mono ?_
  rintro ⟨r, P', Q'⟩ m' ⟨h1, h2, h3, h4, V, h5, h6⟩
  simp only [Bool.false_eq_true, if_false, Run_pure]
  exact ⟨V, ⟨h5.step, h6.rank_eq.symm, h2, h1, h4, h3⟩, decomposes h3 h4 h6⟩

/-- C56: `ReducedRowEchelonForm` (tag `FfpackTileRecursive`) with the transformation: `T · X(P, Q) = (I S; 0 0)`, `T` and `S` packed into `A`;
`S` is zero left of the pivots. -/
theorem C56_reducedRowEchelonForm (hk : KitOk k) (jk : List ℕ → ℕ → ℕ) (h : Rect m M N A lda) (hP : P.len = M) (hQ : Q.len = N) :
    Run (reducedRowEchelonForm k jk true M N A lda P Q) m (fun x m' => ∃ V, Computes m m' M N A lda M N x.1 x.2.1 x.2.2 V ∧
      IsReduced M N x.1 (m.mat ⟨A, lda, M, N⟩) V (applySwaps x.2.1.get id M) (applySwaps x.2.2.get id N)) := by
  refine (reducedRowEchelonForm_spec hk jk h.on hP hQ).mono ?_
  rintro ⟨r, P', Q'⟩ m' ⟨a, b, V, h', e⟩
  replace e := e.isReduced
  refine ⟨V, ⟨h'.step, e.rank_eq.symm, a.1, b.1, a.2, b.2⟩, ?_⟩
  rw [applySwaps_eq, applySwaps_eq]
  exact e

/-- C56: `ReducedRowEchelonForm` without the transformation: `X(P, Q) = L · U · (I S)`. -/
theorem C56_reducedRowEchelonForm_noTransform (hk : KitOk k) (jk : List ℕ → ℕ → ℕ) (h : Rect m M N A lda) (hP : P.len = M) (hQ : Q.len = N) :
    Run (reducedRowEchelonForm k jk false M N A lda P Q) m (fun x m' => ∃ V, Computes m m' M N A lda M N x.1 x.2.1 x.2.2 V ∧
      IsReducedNT M N x.1 (m.mat ⟨A, lda, M, N⟩) V (applySwaps x.2.1.get id M) (applySwaps x.2.2.get id N)) := by
  refine (reducedRowEchelonFormNT_spec hk jk h.on hP hQ).mono ?_
  rintro ⟨r, P', Q'⟩ m' ⟨a, b, V, h', e⟩
  refine ⟨V, ⟨h'.step, e.rank_eq.symm, a.1, b.1, a.2, b.2⟩, ?_⟩
  rw [applySwaps_eq, applySwaps_eq]
  exact e

/-- C56: `ReducedColumnEchelonForm` with the transformation -/
theorem C56_reducedColumnEchelonForm (hk : KitOk k) (jk : List ℕ → ℕ → ℕ) (h : Rect m M N A lda) (hP : P.len = N) (hQ : Q.len = M) :
    Run (reducedColumnEchelonForm k jk true M N A lda P Q) m (fun x m' => ∃ V, Computes m m' M N A lda N M x.1 x.2.1 x.2.2 V ∧
      IsReduced N M x.1 (fun i j => m.mat ⟨A, lda, M, N⟩ j i) (fun i j => V j i) (applySwaps x.2.1.get id N) (applySwaps x.2.2.get id M)) := by
  refine (reducedColumnEchelonForm_spec hk jk h.on hP hQ).mono ?_
  rintro ⟨r, P', Q'⟩ m' ⟨a, b, V, h', e⟩
  replace e := e.isReduced
  refine ⟨V, ⟨h'.step, ?_, a.1, b.1, a.2, b.2⟩, ?_⟩
  · rw [← rk_transp]; exact e.rank_eq.symm
  · rw [applySwaps_eq, applySwaps_eq]
    exact e

/-- C56: `ReducedColumnEchelonForm` without the transformation -/
theorem C56_reducedColumnEchelonForm_noTransform (hk : KitOk k) (jk : List ℕ → ℕ → ℕ) (h : Rect m M N A lda) (hP : P.len = N) (hQ : Q.len = M) :
    Run (reducedColumnEchelonForm k jk false M N A lda P Q) m (fun x m' => ∃ V, Computes m m' M N A lda N M x.1 x.2.1 x.2.2 V ∧
      IsReducedNT N M x.1 (fun i j => m.mat ⟨A, lda, M, N⟩ j i) (fun i j => V j i) (applySwaps x.2.1.get id N) (applySwaps x.2.2.get id M)) := by
  refine (reducedColumnEchelonFormNT_spec hk jk h.on hP hQ).mono ?_
  rintro ⟨r, P', Q'⟩ m' ⟨a, b, V, h', e⟩
  refine ⟨V, ⟨h'.step, ?_, a.1, b.1, a.2, b.2⟩, ?_⟩
  · rw [← rk_transp]; exact e.rank_eq.symm
  · rw [applySwaps_eq, applySwaps_eq]
    exact e

/-- C57: the recursive Gauss–Jordan elimination (tag `FfpackGaussJordanTile`) computes the reduced row echelon form with the
transformation, for every base case size. -/
theorem C57_gaussJordan (hk : KitOk k) (jk : List ℕ → ℕ → ℕ) (h : Rect m M N A lda) (hP : P.len = M) (hQ : Q.len = N) :
    Run (reducedRowEchelonFormGJ k jk M N A lda P Q) m (fun x m' => ∃ V, Computes m m' M N A lda M N x.1 x.2.1 x.2.2 V ∧
      IsReduced M N x.1 (m.mat ⟨A, lda, M, N⟩) V (applySwaps x.2.1.get id M) (applySwaps x.2.2.get id N)) := by
  refine (reducedRowEchelonFormGJ_spec hk jk h.on hP hQ).mono ?_
  rintro ⟨r, P', Q'⟩ m' ⟨a, b, V, h', e⟩
  refine ⟨V, ⟨h'.step, e.rank_eq.symm, a.1, b.1, a.2, b.2⟩, ?_⟩
  rw [applySwaps_eq, applySwaps_eq]
  exact e

/-- The kernels of C10, C11 and C12 with arbitrary thresholds. -/
abbrev kitOf (K : Type) [Field K] [DecidableEq K] (cat : Cat) (th thr tt bc : ℕ) : Kit K :=
  ⟨cat, gemmAuto cat th, ftrsm cat (gemmAuto cat th), ftrmm cat (gemmAuto cat th), thr, tt, bc⟩

lemma kitOf_ok (cat : Cat) {th : ℕ} (hth : 2 ≤ th) (thr : ℕ) {tt bc : ℕ} (htt : 1 ≤ tt) (hbc : 1 ≤ bc) : KitOk (kitOf K cat th thr tt bc) :=
  ⟨gemmAuto_ok cat th hth, ftrsm_TrsmOk cat (gemmAuto_ok cat th hth), ftrmm_TrmmOk cat (gemmAuto_ok cat th hth), htt, hbc⟩

/-- C57 with concrete kernels -/
theorem C57_gaussJordan_winograd (cat : Cat) {th : ℕ} (hth : 2 ≤ th) (thr : ℕ) {tt bc : ℕ} (htt : 1 ≤ tt) (hbc : 1 ≤ bc) (jk : List ℕ → ℕ → ℕ)
    (h : Rect m M N A lda) (hP : P.len = M) (hQ : Q.len = N) :
    Run (reducedRowEchelonFormGJ (kitOf K cat th thr tt bc) jk M N A lda P Q) m (fun x m' =>
      ∃ V, Computes m m' M N A lda M N x.1 x.2.1 x.2.2 V ∧
      IsReduced M N x.1 (m.mat ⟨A, lda, M, N⟩) V (applySwaps x.2.1.get id M) (applySwaps x.2.2.get id N)) :=
  C57_gaussJordan (kitOf_ok cat hth thr htt hbc) jk h hP hQ

/-- C23, partial: `Invert` returns the nullity, and when it is zero the result is the inverse up to the order of its rows: `Z · X` is a
permutation matrix.  The full statement, `Z · X = I`, is false, see `C23_invert_violated`; it holds when the permutation is trivial. -/
theorem C23_invert_partial (hk : KitOk k) (jk : List ℕ → ℕ → ℕ) (h : Rect m M M A lda) :
    Run (invert k jk M A lda) m (fun nul m' => ∃ Z, Step m m' ⟨A, lda, M, M⟩ Z ∧ nul = M - rk (m.mat ⟨A, lda, M, M⟩) M M ∧
      (nul = 0 → ∃ q, IsPermArray q M ∧ ∀ i < M, ∀ j < M,
        ∑ l ∈ range M, Z i l * m.mat ⟨A, lda, M, M⟩ l (q j) = if i = j then 1 else 0)) := by
  refine (invert_spec hk jk h.on rfl).mono ?_
  rintro nul m' ⟨h0, Z, V, p, q, h1, h2, h3⟩
  have hr := h2.rank_eq
  simp only [] at h0 hr h3
  refine ⟨Z, h1.step, by rw [hr]; omega, fun hn => ⟨q, h2.pQ, h3 hn⟩⟩

/-- C23, partial: the out of place version; the input is unchanged. -/
theorem C23_invertX_partial (hk : KitOk k) (jk : List ℕ → ℕ → ℕ) (h : Rect m M M A lda) (hX : Rect m M M X ldx)
    (hd : (Win.mk A lda M M).Disj ⟨X, ldx, M, M⟩) :
    Run (invertX k jk M A lda X ldx) m (fun nul m' => ∃ Z, Step m m' ⟨X, ldx, M, M⟩ Z ∧ nul = M - rk (m.mat ⟨A, lda, M, M⟩) M M ∧
      (nul = 0 → ∃ q, IsPermArray q M ∧ ∀ i < M, ∀ j < M,
        ∑ l ∈ range M, Z i l * m.mat ⟨A, lda, M, M⟩ l (q j) = if i = j then 1 else 0)) := by
  unfold invertX
  rif h0
  · subst h0
    rw [Run_pure]
    exact ⟨_, Step.refl (fun _ _ _ _ => rfl), by simp, fun _ => ⟨id, ⟨fun i hi => absurd hi (by omega), fun i hi => absurd hi (by omega)⟩, fun i hi => absurd hi (by omega)⟩⟩
  · rw [Run_bind]
    refine (fassign_at (W := ⟨X, ldx, M, M⟩) (S := ⟨A, lda, M, M⟩) hX.on h.on.src hd 0 0 0 0 M M (by simp) (by simp) (by simp) (by simp)
      (by simp [Win.adr]) (by simp [Win.adr])).mono ?_
    intro _ m1 h1
    replace h1 : On m m1 ⟨X, ldx, M, M⟩ (m.mat ⟨A, lda, M, M⟩) :=
      h1.congr (fun i hi j hj => by simp only [] at hi hj; simp [upd, blk, hi, hj])
    refine (invert_spec hk jk h1 rfl).mono ?_
    rintro nul m' ⟨h0, Z, V, p, q, h1, h2, h3⟩
    have hr := h2.rank_eq
    simp only [] at h0 hr h3
    exact ⟨Z, h1.step, by rw [hr]; omega, fun hn => ⟨q, h2.pQ, h3 hn⟩⟩

/-- the kit of the examples, over the rational numbers: recursion down to single columns -/
abbrev exK : Kit ℚ := ⟨.modular, exG, exT, ftrmm .modular exG, 1, 1, 1⟩

lemma exK_ok : KitOk exK :=
  ⟨gemmClassic_ok .modular, ftrsm_TrsmOk .modular (gemmClassic_ok .modular), ftrmm_TrmmOk .modular (gemmClassic_ok .modular), le_rfl, le_rfl⟩

/-- C23 fails: for the matrix `(0 1; 1 0)` (with the library's base case size 256) `Invert` reports nullity 0 and returns the identity
matrix, whose product with the input is not the identity.  The column permutation of the echelon form is ignored. -/
theorem C23_invert_violated :
    ∃ (m : Mem ℚ) (A : ℕ), Rect m 2 2 A 2 ∧ Run (invert {exK with bc := 256} (fun _ i => i) 2 A 2) m (fun nul m' => nul = 0 ∧
      ∑ l ∈ range 2, m'.mat ⟨A, 2, 2, 2⟩ 0 l * m.mat ⟨A, 2, 2, 2⟩ l 0 ≠ 1) := by
  refine ⟨memOf [0, 1, 1, 0], 0, ⟨WF_memOf _, OkIn_memOf (by decide), by decide⟩, ?_⟩
  have h : ∃ x m', invert {exK with bc := 256} (fun _ i => i) 2 0 2 (memOf [0, 1, 1, 0]) = .ok (x, m') ∧ x = 0 ∧ m'.val 0 = 1 ∧ m'.val 1 = 0 := by
    have e : after (invert {exK with bc := 256} (fun _ i => i) 2 0 2) (memOf [0, 1, 1, 0]) 0 = some 1 ∧
        after (invert {exK with bc := 256} (fun _ i => i) 2 0 2) (memOf [0, 1, 1, 0]) 1 = some 0 := by
      decide +kernel
    have e' : result (invert {exK with bc := 256} (fun _ i => i) 2 0 2) (memOf [0, 1, 1, 0]) = some 0 := by decide +kernel
    unfold result at e'
    unfold after at e
    split at e
    · rename_i x m' hx
      rw [hx] at e'
      simp only [Option.some.injEq] at e e'
      exact ⟨x, m', hx, e', e⟩
    · simp at e
  obtain ⟨x, m', e, e2, e3, e4⟩ := h
  refine ⟨x, m', e, e2, ?_⟩
  simp [sum_range_succ, Mem.mat, Win.adr, e3, e4, memOf]

/-- an input on which only rows are exchanged is inverted: `(2 1; 1 1)` -/
example : (List.range 4).map (after (invert exK (fun _ i => i) 2 0 2) (memOf [2, 1, 1, 1])) = [1, -1, -1, 2].map some := by decide +kernel

/-- the `4 × 5` matrix of rank 3 of `Props/Pluq` by all the functions -/
abbrev ePQ : Arr ℕ × Arr ℕ := (Arr.mk' 4 (fun _ => 9), Arr.mk' 5 (fun _ => 8))
example : Rect pex 4 5 0 6 ∧ ePQ.1.len = 4 ∧ ePQ.2.len = 5 ∧ KitOk exK := ⟨pex_rect, rfl, rfl, exK_ok⟩
abbrev eJ : List ℕ → ℕ → ℕ := fun l i => l.sum + i
example : (result (reducedRowEchelonFormGJ exK eJ 4 5 0 6 ePQ.1 ePQ.2) pex).map (fun x => (x.1, x.2.1.toList, x.2.2.toList)) =
    some (3, [0, 3, 3, 3], [1, 2, 3, 3, 4]) := by decide +kernel
example : (List.range 20).map (after (reducedRowEchelonFormGJ exK eJ 4 5 0 6 ePQ.1 ePQ.2) pex) =
    [-1/5, 2, -3/5, 0, -8/5, 77, 2/5, -1, 1/5, 0, 6/5, 77, -1/5, 0, 2/5, 0, 7/5, 77, -1, 0].map some := by decide +kernel
example : (result (reducedRowEchelonForm exK eJ true 4 5 0 6 ePQ.1 ePQ.2) pex).map (fun x => (x.1, x.2.1.toList, x.2.2.toList)) =
    some (3, [0, 1, 3, 3], [1, 3, 2, 3, 4]) := by decide +kernel
example : (List.range 20).map (after (reducedRowEchelonForm exK eJ true 4 5 0 6 ePQ.1 ePQ.2) pex) =
    [-1/5, -3/5, 2, 0, -8/5, 77, -1/5, 2/5, 0, 0, 7/5, 77, 2/5, 1/5, -1, 0, 6/5, 77, -1, -1].map some := by decide +kernel
example : (List.range 20).map (after (rowEchelonForm exK eJ true 4 5 0 6 ePQ.1 ePQ.2) pex) =
    [1/2, 1/2, 2, 0, 3/2, 77, -1/5, 2/5, 0, 0, 7/5, 77, 2/5, 1/5, -1, 0, 6/5, 77, -1, -1].map some := by decide +kernel
example : (List.range 20).map (after (reducedColumnEchelonForm exK eJ true 4 5 0 6 ePQ.2 ePQ.1) pex) =
    [-1/5, -3/5, 2, 0, 8/5, 77, -1/5, 2/5, 0, 0, -7/5, 77, 2/5, 1/5, -1, 0, -6/5, 77, 1, 1].map some := by decide +kernel

end Verif.Props
