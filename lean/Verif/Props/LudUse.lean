import Verif.Proofs.LudUse
import Verif.Props.LUdivine
import Verif.Props.Solve

/-!
# Properties C42, C60, C61, C62, C63: functions that call LUdivine
-/

namespace Verif.Props

open Verif.FF Verif.Spec Verif.Spec.Perm Verif.Lud Verif.Perm Finset

variable {K : Type} [Field K] [DecidableEq K] {m : Mem K} {M N A lda : ℕ} {P Q : Arr ℕ} {g : GemmFn K} {ts tm : TrsmFn K}

/-- `rows` and `cols` are `R` row and column indices of an invertible submatrix of the `M × N` matrix `X`, of maximal order `R`;
the rows are the row rank profile. -/
structure MaximalMinor (M N : ℕ) (X : ℕ → ℕ → K) (R : ℕ) (rows cols : ℕ → ℕ) : Prop where
  rank : R = rk X M N
  profile : IsRowRankProfile M N X ((List.range R).map rows)
  cols_lt : ∀ j < R, cols j < N
  cols_ne : ∀ i < R, ∀ j < R, cols i = cols j → i = j
  minor : (toMat R R (fun i j => X (rows i) (cols j))).det ≠ 0

omit [DecidableEq K] in
lemma MaximalMinor.of {X : ℕ → ℕ → K} {R : ℕ} {rows cols : Arr ℕ} (h : IndPost M N X R rows cols) : MaximalMinor M N X R rows.get cols.get :=
  ⟨h.rank, h.prof, h.cols_lt, h.cols_ne, h.minor⟩

/-- C42: `RowRankProfileSubmatrixIndices`, for every shape and cutoff -/
theorem C42_rowIndices (cat : Cat) (hg : GemmOk g) (ht : TrsmOk ts) (cutoff : ℕ) (jk : List ℕ → ℕ → ℕ) (h : Rect m M N A lda) :
    Run (rowIndices cat g ts cutoff jk M N A lda) m (fun y m' => Only m m' ⟨A, lda, M, N⟩ ∧ y.2.1.len = M ∧ y.2.2.len = N ∧
      MaximalMinor M N (m.mat ⟨A, lda, M, N⟩) y.1 y.2.1.get y.2.2.get) := by
  refine (rowIndices_spec (W := ⟨A, lda, M, N⟩) cat hg ht cutoff jk h.on).mono ?_
  rintro y m' ⟨Y, h1, h2⟩
  exact ⟨On.only h1, h2.lenR, h2.lenC, .of h2⟩

/-- C42, partial: `ColRankProfileSubmatrixIndices` for square matrices and the default cutoff.  Missing: other shapes
(`C42_col_oob_violated`, `C42_col_uninit_violated`) and a cutoff above 1. -/
theorem C42_colIndices_partial (cat : Cat) (hg : GemmOk g) (ht : TrsmOk ts) {cutoff : ℕ} (hc : cutoff ≤ 1) (jk : List ℕ → ℕ → ℕ) (h : Rect m M M A lda) :
    Run (colIndices cat g ts cutoff jk M M A lda) m (fun y m' => Only m m' ⟨A, lda, M, M⟩ ∧ y.2.1.len = M ∧ y.2.2.len = M ∧
      MaximalMinor M M (fun i j => m.mat ⟨A, lda, M, M⟩ j i) y.1 y.2.2.get y.2.1.get) := by
  refine (colIndices_spec (W := ⟨A, lda, M, M⟩) cat hg ht hc jk h.on rfl).mono ?_
  rintro y m' ⟨Y, h1, h2⟩
  exact ⟨On.only h1, h2.lenC, h2.lenR, .of h2⟩

/-- C42 fails for `N > M`: the array `rowindices` is written out of bounds.  Witness: `(1 1)`. -/
theorem C42_col_oob_violated :
    ∃ (m : Mem ℚ) (A : ℕ), Rect m 1 2 A 2 ∧ colIndices .modular exG exT 1 (fun _ i => i) 1 2 A 2 m = .error .oob := by
  refine ⟨memOf [1, 1], 0, ⟨WF_memOf _, OkIn_memOf (by decide), by decide⟩, ?_⟩
  have e : faultOf (colIndices .modular exG exT 1 (fun _ i => i) 1 2 0 2) (memOf [1, 1] : Mem ℚ) = some .oob := by decide +kernel
  unfold faultOf at e
  split at e
  · simp at e
  · rename_i f hf
    rw [hf, Option.some.inj e]

/-- C42 fails for `N < M`: part of `rowindices` is never written, and the returned row index is whatever the memory contained,
here 5 for a matrix with two rows.  Witness: `(0; 1)`. -/
theorem C42_col_uninit_violated :
    ∃ (m : Mem ℚ) (A : ℕ), Rect m 2 1 A 1 ∧ Run (colIndices .modular exG exT 1 (fun _ _ => 5) 2 1 A 1) m (fun y _ => y.1 = 1 ∧ y.2.1.get 0 = 5) := by
  refine ⟨memOf [0, 1], 0, ⟨WF_memOf _, OkIn_memOf (by decide), by decide⟩, ?_⟩
  have e' : (result (colIndices .modular exG exT 1 (fun _ _ => 5) 2 1 0 1) (memOf [0, 1] : Mem ℚ)).map (fun x => (x.1, x.2.1.get 0)) = some (1, 5) := by
    decide +kernel
  have e : after (colIndices .modular exG exT 1 (fun _ _ => 5) 2 1 0 1) (memOf [0, 1] : Mem ℚ) 0 = some 1 := by decide +kernel
  obtain ⟨x, m', hx⟩ := run_of e
  have r := result_of hx e'
  simp only [Prod.mk.injEq] at r
  exact ⟨x, m', hx, r⟩

/-- C42: `RowRankProfileSubmatrix` allocates the `R × R` matrix `X`, fills it with a submatrix of maximal rank made of the rows of the row
rank profile, and leaves everything that existed unchanged, including the input; the copy of the input is released. -/
theorem C42_rowSubmatrix (cat : Cat) (hg : GemmOk g) (ht : TrsmOk ts) (cutoff : ℕ) (jk : List ℕ → ℕ → ℕ) (h : Rect m M N A lda) :
    Run (rowRankProfileSubmatrix cat g ts cutoff jk M N A lda) m (fun y m' =>
      (∀ a, m.ok a = true → m'.val a = m.val a) ∧ (∀ a, m'.ok a = true ↔ m.ok a = true ∨ y.2 ≤ a ∧ a < y.2 + y.1 * y.1) ∧
      (∀ a, y.2 ≤ a → m.ok a = false) ∧
      ∃ rows cols, MaximalMinor M N (m.mat ⟨A, lda, M, N⟩) y.1 rows cols ∧
        ∀ i < y.1, ∀ j < y.1, m'.val (y.2 + i * y.1 + j) = m.mat ⟨A, lda, M, N⟩ (rows i) (cols j)) := by
  have hh := submatrixOf_spec (X := m.mat ⟨A, lda, M, N⟩) (A := A) (lda := lda) (M := M) (N := N) (ind := fun A2 => rowIndices cat g ts cutoff jk M N A2 N)
    (I := fun R rows cols => IndPost M N (m.mat ⟨A, lda, M, N⟩) R rows cols)
    (fun A2 m1 h1 => rowIndices_spec (W := ⟨A2, N, M, N⟩) cat hg ht cutoff jk h1)
    (fun R rows cols h => ⟨by
      rw [h.lenR, h.rank]
      have := Matrix.rank_le_card_height (toMat M N (m.mat ⟨A, lda, M, N⟩))
      rwa [Fintype.card_fin] at this, by
      rw [h.lenC, h.rank]
      have := Matrix.rank_le_card_width (toMat M N (m.mat ⟨A, lda, M, N⟩))
      rwa [Fintype.card_fin] at this, fun i hi => ((h.prof.2 _).1 (List.mem_map.2 ⟨i, List.mem_range.2 hi, rfl⟩)).1, h.cols_lt⟩)
    h.wf h.on.src
  refine hh.mono ?_
  rintro ⟨R, T⟩ m' ⟨rows, cols, h1, h2⟩
  exact ⟨h2.frame, h2.ok, h2.new, _, _, .of h1, h2.val⟩

/-- C42, partial: `ColRankProfileSubmatrix` for square matrices and the default cutoff; the rows and columns exchange their roles. -/
theorem C42_colSubmatrix_partial (cat : Cat) (hg : GemmOk g) (ht : TrsmOk ts) {cutoff : ℕ} (hc : cutoff ≤ 1) (jk : List ℕ → ℕ → ℕ)
    (h : Rect m M M A lda) :
    Run (colRankProfileSubmatrix cat g ts cutoff jk M M A lda) m (fun y m' =>
      (∀ a, m.ok a = true → m'.val a = m.val a) ∧ (∀ a, m'.ok a = true ↔ m.ok a = true ∨ y.2 ≤ a ∧ a < y.2 + y.1 * y.1) ∧
      (∀ a, y.2 ≤ a → m.ok a = false) ∧
      ∃ rows cols, MaximalMinor M M (fun i j => m.mat ⟨A, lda, M, M⟩ j i) y.1 cols rows ∧
        ∀ i < y.1, ∀ j < y.1, m'.val (y.2 + i * y.1 + j) = m.mat ⟨A, lda, M, M⟩ (rows i) (cols j)) := by
  have hh := submatrixOf_spec (X := m.mat ⟨A, lda, M, M⟩) (A := A) (lda := lda) (M := M) (N := M) (ind := fun A2 => colIndices cat g ts cutoff jk M M A2 M)
    (I := fun R rows cols => IndPost M M (fun i j => m.mat ⟨A, lda, M, M⟩ j i) R cols rows)
    (fun A2 m1 h1 => colIndices_spec (W := ⟨A2, M, M, M⟩) cat hg ht hc jk h1 rfl)
    (fun R rows cols h => ⟨by
      rw [h.lenC, h.rank]
      have := Matrix.rank_le_card_width (toMat M M (fun i j => m.mat ⟨A, lda, M, M⟩ j i))
      rwa [Fintype.card_fin] at this, by
      rw [h.lenR, h.rank]
      have := Matrix.rank_le_card_height (toMat M M (fun i j => m.mat ⟨A, lda, M, M⟩ j i))
      rwa [Fintype.card_fin] at this, h.cols_lt, fun i hi => ((h.prof.2 _).1 (List.mem_map.2 ⟨i, List.mem_range.2 hi, rfl⟩)).1⟩)
    h.wf h.on.src
  refine hh.mono ?_
  rintro ⟨R, T⟩ m' ⟨rows, cols, h1, h2⟩
  exact ⟨h2.frame, h2.ok, h2.new, _, _, .of h1, h2.val⟩

/-- C60, partial: `IsSingular` is false exactly for the nonsingular square matrices, for the default cutoff 1.  Missing: a cutoff above 1, for
which it is false (`C60_cutoff_violated`). -/
theorem C60_isSingular_partial (cat : Cat) (hg : GemmOk g) (ht : TrsmOk ts) {cutoff : ℕ} (hc : cutoff ≤ 1) (jk : List ℕ → ℕ → ℕ) (h : Rect m M N A lda) :
    Run (isSingular cat g ts cutoff jk M N A lda) m (fun b m' => Only m m' ⟨A, lda, M, N⟩ ∧
      (b = false ↔ M = N ∧ rk (m.mat ⟨A, lda, M, N⟩) M N = M)) := by
  refine (isSingular_spec (W := ⟨A, lda, M, N⟩) cat hg ht hc jk h.on).mono ?_
  rintro b m' ⟨⟨Y, h1⟩, h2⟩
  exact ⟨On.only h1, h2⟩

/-- C60 fails for a cutoff above 1: `LUdivine_small` ignores the request to return 0 for a singular matrix.  Witness: `(1 1; 1 1)` is said to
be nonsingular. -/
theorem C60_cutoff_violated :
    ∃ (m : Mem ℚ) (A : ℕ), Rect m 2 2 A 2 ∧ (toMat 2 2 (m.mat ⟨A, 2, 2, 2⟩)).det = 0 ∧
      Run (isSingular .modular exG exT 3 (fun _ i => i) 2 2 A 2) m (fun b _ => b = false) := by
  refine ⟨memOf [1, 1, 1, 1], 0, ⟨WF_memOf _, OkIn_memOf (by decide), by decide⟩, ?_, ?_⟩
  · rw [Matrix.det_fin_two]
    simp [toMat, Mem.mat, Win.adr, memOf]
  have e' : (result (isSingular .modular exG exT 3 (fun _ i => i) 2 2 0 2) (memOf [1, 1, 1, 1] : Mem ℚ)).map id = some false := by decide +kernel
  have e : after (isSingular .modular exG exT 3 (fun _ i => i) 2 2 0 2) (memOf [1, 1, 1, 1] : Mem ℚ) 0 = some 1 := by decide +kernel
  obtain ⟨x, m', hx⟩ := run_of e
  exact ⟨x, m', hx, result_of hx e'⟩

/-- C61: `RowRankProfile` with the slab recursive elimination, for every shape and cutoff -/
theorem C61_rowRankProfile (cat : Cat) (hg : GemmOk g) (ht : TrsmOk ts) (cutoff : ℕ) (jk : List ℕ → ℕ → ℕ) (h : Rect m M N A lda) :
    Run (slabRowRankProfile cat g ts cutoff jk M N A lda) m (fun x m' => Only m m' ⟨A, lda, M, N⟩ ∧
      x.1 = rk (m.mat ⟨A, lda, M, N⟩) M N ∧ IsRowRankProfile M N (m.mat ⟨A, lda, M, N⟩) x.2.toList) := by
  unfold slabRowRankProfile
  rw [Run_bind]
  refine (C44_ludivine cat hg ht cutoff .nonUnit h (P := Arr.mk' N (jk [0])) (Q := Arr.mk' M (jk [1])) (by simp [Arr.mk']) (by simp [Arr.mk'])).mono ?_
  rintro ⟨R, P, Q⟩ m1 ⟨l1, l2, V, hV, hD⟩
  obtain ⟨h1, h2, -⟩ := C44_decomposition_rank hD
  have hr := hD.rM
  simp only [Arr.mk'] at l1 l2 h1 h2 hr ⊢
  rw [Run_bind, Run_liftE]
  refine (copyTo_spec Q 0 (⟨R, jk [2]⟩ : Arr ℕ) 0 R (by omega) (by simp)).mono (fun rows hrows => ?_)
  rw [Run_pure]
  refine ⟨⟨hV.ok, hV.frame⟩, h1, ?_⟩
  have e : rows.toList = (List.range R).map Q.get := by
    unfold Arr.toList
    rw [hrows.1]
    refine List.map_congr_left (fun i hi => ?_)
    rw [hrows.2 i, if_pos (by have h := List.mem_range.1 hi; have h : i < R := h; omega)]
    simp
  rw [e]
  exact h2

/-- C61, partial: `ColumnRankProfile` with the slab recursive elimination, for the default cutoff 1.  Missing: a cutoff above 1, for which it is
false (`C61_column_cutoff_violated`). -/
theorem C61_columnRankProfile_partial (cat : Cat) (hg : GemmOk g) (ht : TrsmOk ts) {cutoff : ℕ} (hc : cutoff ≤ 1) (jk : List ℕ → ℕ → ℕ)
    (h : Rect m M N A lda) :
    Run (slabColumnRankProfile cat g ts cutoff jk M N A lda) m (fun x m' => Only m m' ⟨A, lda, M, N⟩ ∧
      x.1 = rk (m.mat ⟨A, lda, M, N⟩) M N ∧ IsColRankProfile M N (m.mat ⟨A, lda, M, N⟩) x.2.toList) := by
  unfold slabColumnRankProfile
  rw [Run_bind]
  refine (C44_ludivine_transposed_partial cat hg ht hc .nonUnit h (P := Arr.mk' M (jk [0])) (Q := Arr.mk' N (jk [1])) (by simp [Arr.mk']) (by simp [Arr.mk'])).mono ?_
  rintro ⟨R, P, Q⟩ m1 ⟨l1, l2, V, hV, hD⟩
  obtain ⟨h1, h2, -⟩ := C44_decomposition_rank hD
  have hr := hD.rM
  simp only [Arr.mk'] at l1 l2 h1 h2 hr ⊢
  rw [Run_bind, Run_liftE]
  refine (copyTo_spec Q 0 (⟨R, jk [2]⟩ : Arr ℕ) 0 R (by omega) (by simp)).mono (fun rows hrows => ?_)
  rw [Run_pure]
  have tr : ∀ a b, rk (fun i j => m.mat ⟨A, lda, M, N⟩ j i) a b = rk (m.mat ⟨A, lda, M, N⟩) b a := fun a b => by
    unfold rk
    rw [← Matrix.rank_transpose]
    rfl
  refine ⟨⟨hV.ok, hV.frame⟩, h1.trans (tr _ _), ?_⟩
  have e : rows.toList = (List.range R).map Q.get := by
    unfold Arr.toList
    rw [hrows.1]
    refine List.map_congr_left (fun i hi => ?_)
    rw [hrows.2 i, if_pos (by have h := List.mem_range.1 hi; have h : i < R := h; omega)]
    simp
  rw [e]
  refine ⟨h2.1, fun j => ?_⟩
  rw [h2.2, tr, tr]

/-- C61 fails for the column rank profile with a cutoff above 1.  Witness: the column rank profile of `(0 1)` is said to be column 0. -/
theorem C61_column_cutoff_violated :
    ∃ (m : Mem ℚ) (A : ℕ), Rect m 1 2 A 2 ∧ Run (slabColumnRankProfile .modular exG exT 3 (fun _ i => i) 1 2 A 2) m (fun x _ =>
      x.2.toList = [0] ∧ ¬ IsColRankProfile 1 2 (m.mat ⟨A, 2, 1, 2⟩) [0]) := by
  refine ⟨memOf [0, 1], 0, ⟨WF_memOf _, OkIn_memOf (by decide), by decide⟩, ?_⟩
  have e' : (result (slabColumnRankProfile .modular exG exT 3 (fun _ i => i) 1 2 0 2) (memOf [0, 1] : Mem ℚ)).map (fun x => x.2.toList) = some [0] := by
    decide +kernel
  have e : after (slabColumnRankProfile .modular exG exT 3 (fun _ i => i) 1 2 0 2) (memOf [0, 1] : Mem ℚ) 0 = some 1 := by decide +kernel
  obtain ⟨x, m', hx⟩ := run_of e
  have r : x.2.toList = [0] := result_of hx (f := fun x => x.2.toList) e'
  refine ⟨x, m', hx, r, fun h => ?_⟩
  obtain ⟨-, h⟩ := (h.2 0).1 (by simp)
  have e1 : toMat 1 1 ((memOf [0, 1] : Mem ℚ).mat ⟨0, 2, 1, 2⟩) = 0 := by
    ext i j
    fin_cases i; fin_cases j
    simp [toMat, Mem.mat, Win.adr, memOf]
  refine h ?_
  unfold rk
  rw [Nat.zero_add, e1, Matrix.rank_zero]
  have := Matrix.rank_le_card_width (toMat 1 0 ((memOf [0, 1] : Mem ℚ).mat ⟨0, 2, 1, 2⟩))
  rw [Fintype.card_fin] at this
  omega

/-- C62: `Invert2` returns the nullity, and if it is zero the inverse of the input is in `X`; otherwise `X` is unchanged.  Nothing else than
the two matrices is modified. -/
theorem C62_invert2 (cat : Cat) (hg : GemmOk g) (ht : TrsmOk ts) (hm : TrmmOk tm) (cutoff : ℕ) {tt : ℕ} (htt : 1 ≤ tt) (jk : List ℕ → ℕ → ℕ)
    {X ldx : ℕ} (h : Rect m M M A lda) (hX : Rect m M M X ldx) (hd : (Win.mk A lda M M).Disj ⟨X, ldx, M, M⟩) :
    Run (invert2 cat g ts tm cutoff tt jk M A lda X ldx) m (fun nul m' => Only2 m m' ⟨A, lda, M, M⟩ ⟨X, ldx, M, M⟩ ∧
      nul = M - rk (m.mat ⟨A, lda, M, M⟩) M M ∧
      (nul = 0 → toMat M M (m.mat ⟨A, lda, M, M⟩) * toMat M M (m'.mat ⟨X, ldx, M, M⟩) = 1) ∧
      (nul ≠ 0 → ∀ i < M, ∀ j < M, m'.mat ⟨X, ldx, M, M⟩ i j = m.mat ⟨X, ldx, M, M⟩ i j)) := by
  have h2 : On2 m m ⟨A, lda, M, M⟩ (m.mat ⟨A, lda, M, M⟩) ⟨X, ldx, M, M⟩ (m.mat ⟨X, ldx, M, M⟩) :=
    ⟨h.wf, h.ok, hX.ok, h.ld, hX.ld, hd, rfl, le_rfl, fun _ _ _ _ => rfl, fun _ _ _ _ => rfl, fun _ _ _ _ => rfl⟩
  refine (invert2_spec cat hg ht hm htt jk h2).mono ?_
  rintro nul m' ⟨h1, V, Z, h3, h4, h5⟩
  have e : ∀ i < M, ∀ j < M, m'.mat ⟨X, ldx, M, M⟩ i j = Z i j := h3.valT
  refine ⟨On2.only h3, h1, fun hn => ?_, fun hn i hi j hj => (e i hi j hj).trans (h5 hn i hi j hj)⟩
  ext i j
  rw [Matrix.mul_apply, Matrix.one_apply, show (if i = j then (1 : K) else 0) = if (i : ℕ) = j then 1 else 0 by simp [Fin.ext_iff],
    ← h4 hn i i.2 j j.2, ← Fin.sum_univ_eq_sum_range (fun l => m.mat ⟨A, lda, M, M⟩ i l * Z l j)]
  refine sum_congr rfl (fun l _ => ?_)
  rw [show toMat M M (m'.mat ⟨X, ldx, M, M⟩) l j = Z l j from e l l.2 j j.2]
  rfl

/-- C63 fails: `LQUPtoInverseOfFullRankMinor` copies both factors before it solves with the upper one.  Witness: for the `1 × 1` matrix 2 the
result is 1. -/
theorem C63_fullRankMinor_violated :
    ∃ (m : Mem ℚ), Rect m 1 1 0 1 ∧ Rect m 1 1 1 1 ∧ Run (do
        let (_, _, Q) ← ludivine .modular exG exT 1 .no .nonUnit false 1 1 0 1 lJ lJ
        lqupToInverse exT (ftrmm .modular exG) 1 1 0 1 1 1 Q) m (fun _ m' =>
      m.mat ⟨0, 1, 1, 1⟩ 0 0 * m'.mat ⟨1, 1, 1, 1⟩ 0 0 = 2) := by
  refine ⟨memOf [2, 7], ⟨WF_memOf _, OkIn_memOf (by decide), by decide⟩, ⟨WF_memOf _, OkIn_memOf (by decide), by decide⟩, ?_⟩
  have e : after (do
        let (_, _, Q) ← ludivine .modular exG exT 1 .no .nonUnit false 1 1 0 1 lJ lJ
        lqupToInverse exT (ftrmm .modular exG) 1 1 0 1 1 1 Q) (memOf [2, 7] : Mem ℚ) 1 = some 1 := by decide +kernel
  obtain ⟨x, m', hx⟩ := run_of e
  refine ⟨x, m', hx, ?_⟩
  have := after_of hx e
  simp [Mem.mat, Win.adr, memOf, this]

/-- examples: the `3 × 4` matrix of rank 2 of `Props/LUdivine` -/
abbrev lj : List ℕ → ℕ → ℕ := fun l i => l.sum + i + 7
example : (result (rowIndices .modular exG exT 1 lj 3 4 0 4) lex).map (fun x => (x.1, pre x.2.1 x.1, pre x.2.2 x.1)) = some (2, [1, 2], [1, 0]) := by
  decide +kernel
example : (List.range 4).map (fun i => after (rowRankProfileSubmatrix .modular exG exT 1 lj 3 4 0 4) lex (24 + i)) = [2, 0, 1, 1].map some := by
  decide +kernel
example : result (rowRankProfileSubmatrix .modular exG exT 1 lj 3 4 0 4) lex = some (2, 24) := by decide +kernel
example : (result (slabRowRankProfile .modular exG exT 1 lj 3 4 0 4) lex).map (fun x => (x.1, x.2.toList)) = some (2, [1, 2]) := by decide +kernel
example : (result (slabColumnRankProfile .modular exG exT 1 lj 3 4 0 4) lex).map (fun x => (x.1, x.2.toList)) = some (2, [0, 1]) := by decide +kernel
/-- singular, nonsingular, not square -/
example : [result (isSingular .modular exG exT 1 lj 2 2 0 2) (memOf [0, 1, 0, 1]), result (isSingular .modular exG exT 1 lj 2 2 0 2) (memOf [0, 1, 1, 1]),
    result (isSingular .modular exG exT 1 lj 1 2 0 2) (memOf [0, 1])] = [some true, some false, some true] := by decide +kernel
/-- `(0 1; 2 3)` inverted, `(1 1; 1 1)` not -/
example : (List.range 4).map (fun i => after (invert2 .modular exG exT (ftrmm .modular exG) 1 1 lj 2 0 2 4 2) (memOf [0, 1, 2, 3, 7, 7, 7, 7]) (4 + i)) =
    [-3/2, 1/2, 1, 0].map some := by decide +kernel
example : result (invert2 .modular exG exT (ftrmm .modular exG) 1 1 lj 2 0 2 4 2) (memOf [1, 1, 1, 1, 7, 7, 7, 7]) = some 1 := by decide +kernel
example : (Win.mk 0 2 2 2).Disj ⟨4, 2, 2, 2⟩ := by
  rintro a ⟨i, hi, j, hj, rfl⟩ ⟨i', hi', j', hj', e⟩
  simp only [Win.adr] at *
  omega

end Verif.Props
