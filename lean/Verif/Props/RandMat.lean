import Verif.Proofs.RandMatSym
import Verif.Proofs.RandLen
import Verif.Proofs.RandMatDet
import Verif.Props.RandRook
import Verif.Props.Bruhat
import Verif.Props.MinPoly
import Verif.Spec.Bruhat
import Mathlib.Algebra.Field.ZMod

/-!
# C88 to C94: random matrices

The elements and the integers drawn are arbitrary, except that the generator of non-zero elements draws no zero: the theorems are about every run.
-/

namespace Verif.Props

open Finset Verif.FF Verif.Spec Verif.RandMat Verif.RandRook

variable {K : Type} [Field K] [DecidableEq K] {m : Mem K} {M N R A lda : ℕ} {g : GemmFn K} {tm : TrsmFn K} {el : ℕ → ℕ → K} {nz : ℕ → K}
  {D dl du : TriDraws K}

/-! ## C88: triangular matrices -/

/-- zeroes outside the triangle, the elements drawn strictly inside, and on the diagonal ones, non-zero elements drawn, or elements drawn -/
structure RandTri (u : Uplo) (d : Diag) (ns : Bool) (D : TriDraws K) (M N : ℕ) (X : ℕ → ℕ → K) : Prop where
  below : u = .upper → ∀ i < M, ∀ j < N, j < i → X i j = 0
  above : u = .lower → ∀ i < M, ∀ j < N, i < j → X i j = 0
  insideU : u = .upper → ∀ i < M, ∀ j < N, i < j → X i j = D.el i j
  insideL : u = .lower → ∀ i < M, ∀ j < N, j < i → X i j = D.el i j
  unit : d = .unit → ∀ i < M, i < N → X i i = 1
  nonsing : d = .nonUnit → ns = true → ∀ i < M, i < N → X i i = D.nz i
  any : d = .nonUnit → ns = false → ∀ i < M, i < N → X i i = D.el i i

/-- **C88.** Upper triangular matrices of all sizes, lower triangular ones with at most as many rows as columns.
Missing: lower triangular with more rows than columns, for which it is false (`C88_violated`). -/
theorem C88_triangular_partial (u : Uplo) (d : Diag) (ns : Bool) (D : TriDraws K) (h : Rect m M N A lda) (hu : u = .lower → M ≤ N) :
    Run (randTri u d ns D M N A lda) m (fun _ m' => Only m m' ⟨A, lda, M, N⟩ ∧ RandTri u d ns D M N (m'.mat ⟨A, lda, M, N⟩)) := by
  refine (randTri_on (W := ⟨A, lda, M, N⟩) u d ns D h.on hu).mono (fun _ m' h' => ⟨On.only h', ?_⟩)
  have e : ∀ i < M, ∀ j < N, m'.mat ⟨A, lda, M, N⟩ i j = triVal u d ns D i j := fun i hi j hj => h'.step.val i hi j hj
  constructor <;> rintro rfl
  · intro i hi j hj c; rw [e i hi j hj]; simp only [triVal, triBody]; rw [if_neg (by omega), if_neg (by omega)]
  · intro i hi j hj c; rw [e i hi j hj]; simp only [triVal, triBody]; rw [if_neg (by omega), if_neg (by omega)]
  · intro i hi j hj c; rw [e i hi j hj]; simp only [triVal, triBody]; rw [if_neg (by omega), if_pos (by omega)]
  · intro i hi j hj c; rw [e i hi j hj]; simp only [triVal, triBody]; rw [if_neg (by omega), if_pos (by omega)]
  · intro i hi hj; rw [e i hi i hj]; simp [triVal]
  · rintro rfl i hi hj; rw [e i hi i hj]; simp [triVal]
  · rintro rfl i hi hj; rw [e i hi i hj]; simp [triVal]

/-- **C88, violation.** A lower triangular matrix with two rows and one column, leading dimension two: the cell to the right of the second row is
overwritten; with leading dimension one the access is out of bounds. -/
theorem C88_violated : Rect (memOf [(7 : ℚ), 7, 7, 7]) 2 1 0 2 ∧ ¬ (Win.mk 0 2 2 1).Has 3 ∧
    after (randTri .lower .nonUnit true ⟨fun _ _ => 5, fun _ => 1⟩ 2 1 0 2) (memOf [(7 : ℚ), 7, 7, 7]) 3 = some 5 ∧
    Rect (memOf [(7 : ℚ), 7]) 2 1 0 1 ∧ faultOf (randTri .lower .nonUnit true ⟨fun _ _ => 5, fun _ => 1⟩ 2 1 0 1) (memOf [(7 : ℚ), 7]) = some .oob := by
  refine ⟨⟨WF_memOf _, OkIn_memOf (by decide), by decide⟩, ?_, by decide +kernel, ⟨WF_memOf _, OkIn_memOf (by decide), by decide⟩, by decide +kernel⟩
  rintro ⟨i, hi, j, hj, e⟩
  simp only [Win.adr] at hi hj e
  omega

/-- a `2 × 3` matrix -/
example : let p : Prog ℚ Unit := randTri .lower .unit true ⟨fun i j => i + 2 * j + 2, fun _ => 1⟩ 2 3 0 3
    ∀ i < 6, after p (memOf [7, 7, 7, 7, 7, 7]) i = some (([1, 0, 0, 3, 1, 0] : List ℚ).getD i 0) := by decide +kernel

/-! ## C89: rank profile matrices -/

/-- **C89.** `RandomMatrixWithRankandRPM`: the rank of every leading block is the number of pivots given in it. -/
theorem C89_profile (hg : GemmOk g) (el : ℕ → ℕ → K) {rows cols : Arr ℕ} (hnz : ∀ k < R, nz k ≠ 0) (hdu : ∀ i < N, du.nz i ≠ 0)
    (hR : Rook M N R rows.get cols.get) (hr : R ≤ rows.len) (hc : R ≤ cols.len) (h : Rect m M N A lda) :
    Run (randRPM g el nz du M N R A lda rows cols) m (fun _ m' => Only m m' ⟨A, lda, M, N⟩ ∧
      ∀ a ≤ M, ∀ b ≤ N, rk (m'.mat ⟨A, lda, M, N⟩) a b = rookCount R rows.get cols.get a b) := by
  refine (randRPM_spec hg el hnz hdu hR hr hc h.on).mono ?_
  rintro _ m' ⟨x, h1, h2⟩
  refine ⟨On.only h1, fun a ha b hb => ?_⟩
  rw [← h2 a ha b hb]
  unfold rk
  congr 1
  ext i j
  exact h1.step.val i (by have := i.2; simp only []; omega) j (by have := j.2; simp only []; omega)

lemma rookCount_all {p q : ℕ → ℕ} (h : Rook M N R p q) : rookCount R p q M N = R := by
  unfold rookCount
  rw [filter_true_of_mem (fun k hk => ⟨h.row_lt k (mem_range.1 hk), h.col_lt k (mem_range.1 hk)⟩), card_range]

/-- **C89.** `RandomMatrixWithRankandRandomRPM`: rank `R`, whatever is drawn, and a rank profile matrix as `RandomRankProfileMatrix` (C85) draws it. -/
theorem C89_random (hg : GemmOk g) (dr junk junk' : ℕ → ℕ) (el : ℕ → ℕ → K) (hnz : ∀ k < R, nz k ≠ 0) (hdu : ∀ i < N, du.nz i ≠ 0) (hM : R ≤ M) (hN : R ≤ N)
    (h : Rect m M N A lda) :
    Run (randRankRPM g dr junk junk' el nz du M N R A lda) m (fun _ m' => Only m m' ⟨A, lda, M, N⟩ ∧ (toMat M N (m'.mat ⟨A, lda, M, N⟩)).rank = R ∧
      ∃ p q, Rook M N R p q ∧ ∀ a ≤ M, ∀ b ≤ N, rk (m'.mat ⟨A, lda, M, N⟩) a b = rookCount R p q a b) := by
  unfold randRankRPM
  have hl : Ok (randomRankProfileMatrix dr junk junk' M N R (Arr.mk' R junk) (Arr.mk' R junk'))
      (fun x => Rook M N R x.1.get x.2.get ∧ x.1.len = R ∧ x.2.len = R) := by
    unfold randomRankProfileMatrix
    rw [Ok_bind]
    refine (C85_subset dr junk hM (le_refl R)).mono ?_
    rintro rows' ⟨r1, r2, l1, -⟩
    rw [Ok_bind]
    refine (C85_subset _ junk' hN (le_refl R)).mono ?_
    rintro cols' ⟨c1, c2, l2, -⟩
    rw [Ok_pure]
    exact ⟨⟨r1, c1, r2, c2⟩, l1, l2⟩
  rw [Run_bind, Run_liftE]
  refine hl.mono ?_
  rintro ⟨rows, cols⟩ ⟨hk, l1, l2⟩
  refine (C89_profile hg el hnz hdu hk l1.ge l2.ge h).mono ?_
  rintro _ m' ⟨h1, h2⟩
  refine ⟨h1, ?_, _, _, hk, h2⟩
  have := h2 M le_rfl N le_rfl
  rw [rookCount_all hk] at this
  exact this

instance rmP5 : Fact (Nat.Prime 5) := ⟨by decide⟩

abbrev rmG : GemmFn (ZMod 5) := gemmClassic .modular

/-- a `3 × 4` matrix of rank two with pivots at `(2, 0)` and `(0, 3)` -/
example : Rook 3 4 2 (Arr.ofList [2, 0]).get (Arr.ofList [0, 3]).get ∧ Rect (memOf (List.replicate 12 (0 : ZMod 5))) 3 4 0 4 ∧
    (∀ i < 12, after (randRPM rmG (fun k l => (2 * k + l : ℕ)) (fun k => (k + 1 : ℕ)) ⟨fun i j => (i + j : ℕ), fun i => (i + 1 : ℕ)⟩ 3 4 2 0 4
        (Arr.ofList [2, 0]) (Arr.ofList [0, 3])) (memOf (List.replicate 12 (0 : ZMod 5))) i =
      some (([0, 0, 0, 3, 0, 0, 0, 2, 1, 1, 2, 4] : List (ZMod 5)).getD i 0)) :=
  ⟨⟨by decide, by decide, by decide, by decide⟩, ⟨WF_memOf _, OkIn_memOf (by decide), by decide⟩, by decide +kernel⟩

/-! ## C90: rank -/

/-- **C90.** `RandomMatrixWithRank` returns a matrix of full rank, which is what is asked for when `r = min M N`.
Missing: smaller `r`, for which it is false (`C90_violated`). -/
theorem C90_rank_partial (hg : GemmOk g) (dp dq : ℕ → ℕ) {r : ℕ} (hr : r = min M N) (hdl : ∀ i < M, dl.nz i ≠ 0) (hdu : ∀ i < min M N, du.nz i ≠ 0)
    (h : Rect m M N A lda) :
    Run (randRank g dl du dp dq M N r A lda) m (fun _ m' => Only m m' ⟨A, lda, M, N⟩ ∧ (toMat M N (m'.mat ⟨A, lda, M, N⟩)).rank = r) := by
  refine (randRank_spec hg dp dq hdl hdu h.on).mono ?_
  rintro _ m' ⟨x, h1, h2⟩
  refine ⟨On.only h1, ?_⟩
  rw [hr, ← h2]
  congr 1
  ext i j
  exact h1.step.val i i.2 j j.2

/-- **C90, violation.** For every smaller `r`, and whatever is drawn, the rank is not `r`: the argument is not used. -/
theorem C90_violated (hg : GemmOk g) (dp dq : ℕ → ℕ) {r : ℕ} (hr : r < min M N) (hdl : ∀ i < M, dl.nz i ≠ 0) (hdu : ∀ i < min M N, du.nz i ≠ 0)
    (h : Rect m M N A lda) :
    Run (randRank g dl du dp dq M N r A lda) m (fun _ m' => (toMat M N (m'.mat ⟨A, lda, M, N⟩)).rank ≠ r) := by
  refine (randRank_spec hg dp dq hdl hdu h.on).mono ?_
  rintro _ m' ⟨x, h1, h2⟩
  have e : toMat M N (m'.mat ⟨A, lda, M, N⟩) = toMat M N x := by ext i j; exact h1.step.val i i.2 j j.2
  rw [e, h2]
  omega

/-- `2 × 3`, with exchanges -/
example : (∀ i < 6, after (randRank rmG ⟨fun i j => (i + j : ℕ), fun i => (i + 1 : ℕ)⟩ ⟨fun i j => (i + j : ℕ), fun i => (i + 2 : ℕ)⟩ (fun _ => 1) (fun _ => 1)
      2 3 2 0 3) (memOf (List.replicate 6 (0 : ZMod 5))) i = some (([3, 2, 2, 2, 2, 1] : List (ZMod 5)).getD i 0)) := by decide +kernel

/-! ## C91: symmetric matrices -/

/-- **C91.** `RandomSymmetricMatrix` with `nonsingular`: symmetric and non-singular; without: symmetric if no zero is drawn for the diagonal.
Missing: zeroes on the diagonal, for which it is false (`C91_violated`). -/
theorem C91_symmetric_partial (cat : Cat) (ht : TrmmOk tm) (hg : GemmOk g) (ns : Bool) (D : TriDraws K) (h1 : ns = true → ∀ i < N, D.nz i ≠ 0)
    (h2 : ns = false → ∀ i < N, D.el i i ≠ 0) (h : Rect m N N A lda) :
    Run (randSym cat tm g ns D N A lda) m (fun _ m' => Only m m' ⟨A, lda, N, N⟩ ∧
      (∀ i < N, ∀ j < N, m'.mat ⟨A, lda, N, N⟩ i j = m'.mat ⟨A, lda, N, N⟩ j i) ∧ (toMat N N (m'.mat ⟨A, lda, N, N⟩)).det ≠ 0) := by
  refine (randSym_on cat ht hg ns D h.on).mono (fun _ m' h' => ⟨On.only h', ?_⟩)
  have hu : UpperNS N (triVal .upper .nonUnit ns D) := by
    refine ⟨fun i _ j _ hij => by simp only [triVal, triBody]; rw [if_neg (by omega), if_neg (by omega)], fun i hi => ?_⟩
    cases ns
    · simpa [triVal] using h2 rfl i hi
    · simpa [triVal] using h1 rfl i hi
  generalize triVal .upper .nonUnit ns D = u at h' hu
  have e : ∀ i < N, ∀ j < N, m'.mat ⟨A, lda, N, N⟩ i j = ∑ l ∈ range N, u l i * (u l l)⁻¹ * u l j :=
    fun i hi j hj => (h'.step.val i hi j hj).trans (symVal_eq hu hi hj)
  refine ⟨fun i hi j hj => ?_, ?_⟩
  · rw [e i hi j hj, e j hj i hi]
    exact sum_congr rfl (fun l _ => by ring)
  · have e2 : toMat N N (m'.mat ⟨A, lda, N, N⟩) = toMat N N (fun i l => u l i * (u l l)⁻¹) * toMat N N u := by
      ext i j
      rw [toMat_apply, e i i.2 j j.2, Matrix.mul_apply, ← Fin.sum_univ_eq_sum_range (fun l => u l i * (u l l)⁻¹ * u l j)]
      rfl
    rw [e2, Matrix.det_mul]
    refine mul_ne_zero (IsUnit.ne_zero (LowerNS.det (M := N) ⟨fun i hi j hj hij => ?_, fun i hi => ?_⟩ le_rfl)) (hu.det le_rfl).ne_zero
    · dsimp only; rw [hu.1 j hj i hi hij, zero_mul]
    · dsimp only; rw [mul_inv_cancel₀ (hu.2 i hi)]; exact one_ne_zero

/-- **C91, violation.** If zero is drawn for the first entry of the diagonal and not next to it, the matrix of order two is not symmetric. -/
theorem C91_violated (cat : Cat) (ht : TrmmOk tm) (hg : GemmOk g) (D : TriDraws K) (h0 : D.el 0 0 = 0) (h1 : D.el 0 1 ≠ 0) (h : Rect m 2 2 A lda) :
    Run (randSym cat tm g false D 2 A lda) m (fun _ m' => m'.mat ⟨A, lda, 2, 2⟩ 0 1 ≠ m'.mat ⟨A, lda, 2, 2⟩ 1 0) := by
  refine (randSym_on cat ht hg false D h.on).mono (fun _ m' h' => ?_)
  have e1 := h'.step.val 0 (by simp) 1 (by simp)
  have e2 := h'.step.val 1 (by simp) 0 (by simp)
  have e3 : trtrm .right .nonUnit 2 (symFill 2 (triVal .upper .nonUnit false D)) 0 1 = D.el 0 1 := by
    simp [trtrm, sum_range_succ, tri, symFill, triVal, triBody, otherDiag]
  have e4 : trtrm .right .nonUnit 2 (symFill 2 (triVal .upper .nonUnit false D)) 1 0 = 0 := by
    simp [trtrm, sum_range_succ, tri, symFill, triVal, triBody, h0]
  show m'.val _ ≠ m'.val _
  rw [e1, e2, e3, e4]
  exact h1

example : ∀ i < 4, after (randSym .modular (ftrmm .modular rmG) rmG true ⟨fun i j => (i + j : ℕ), fun i => (i + 2 : ℕ)⟩ 2 0 2)
    (memOf (List.replicate 4 (0 : ZMod 5))) i = some (([2, 1, 1, 1] : List (ZMod 5)).getD i 0) := by decide +kernel

/-! ## C92: symmetric rank profile matrices -/

/-- **C92.** `RandomSymmetricMatrixWithRankandRPM`: the rank of every leading block is the number of pivots given in it; the matrix is symmetric if the pivots are. -/
theorem C92_profile (hg : GemmOk g) {rows cols : Arr ℕ} (hdu : ∀ i < N, du.nz i ≠ 0) (hR : Rook N N R rows.get cols.get) (hr : R ≤ rows.len) (hc : R ≤ cols.len)
    (h : Rect m N N A lda) :
    Run (randSymRPM g du N R A lda rows cols) m (fun _ m' => Only m m' ⟨A, lda, N, N⟩ ∧
      (∀ a ≤ N, ∀ b ≤ N, rk (m'.mat ⟨A, lda, N, N⟩) a b = rookCount R rows.get cols.get a b) ∧
      (SymRook R rows.get cols.get → ∀ i < N, ∀ j < N, m'.mat ⟨A, lda, N, N⟩ i j = m'.mat ⟨A, lda, N, N⟩ j i)) := by
  refine (randSymRPM_spec hg hdu hR hr hc h.on).mono ?_
  rintro _ m' ⟨x, h1, h2, h3⟩
  refine ⟨On.only h1, fun a ha b hb => ?_, fun hs i hi j hj => ?_⟩
  · rw [← h2 a ha b hb]
    unfold rk
    congr 1
    ext i j
    exact h1.step.val i (by have := i.2; simp only []; omega) j (by have := j.2; simp only []; omega)
  · exact (h1.step.val i hi j hj).trans ((h3 hs i hi j hj).trans (h1.step.val j hj i hi).symm)

/-- **C92.** `RandomSymmetricMatrixWithRankandRandomRPM`: symmetric of rank `R` whenever the positions are found, which is always so for even `R`.
Missing: odd `R`, for which it may not end (`C92_violated`). -/
theorem C92_random_partial (hg : GemmOk g) (dr junk junk' : ℕ → ℕ) {fuel : ℕ} (hf : 0 < fuel) (hdu : ∀ i < N, du.nz i ≠ 0) (hN : R ≤ N)
    (h : Rect m N N A lda)
    (he : R % 2 = 0 ∨ ∃ x, randomSymmetricRankProfileMatrix dr junk junk' fuel N R (Arr.mk' R junk) (Arr.mk' R junk') = .ok x) :
    Run (randSymRankRPM g dr junk junk' fuel du N R A lda) m (fun _ m' => Only m m' ⟨A, lda, N, N⟩ ∧ (toMat N N (m'.mat ⟨A, lda, N, N⟩)).rank = R ∧
      (∀ i < N, ∀ j < N, m'.mat ⟨A, lda, N, N⟩ i j = m'.mat ⟨A, lda, N, N⟩ j i)) := by
  have key := C86_symmetric_partial dr junk junk' fuel hN (rows := Arr.mk' R junk) (cols := Arr.mk' R junk') (le_refl R) (le_refl R)
  obtain ⟨x, e⟩ : ∃ x, randomSymmetricRankProfileMatrix dr junk junk' fuel N R (Arr.mk' R junk) (Arr.mk' R junk') = .ok x :=
    he.elim (fun e => key.2.2 e hf) id
  obtain ⟨k1, k2⟩ := key.2.1 x e
  obtain ⟨l1, l2⟩ := randomSymmetric_len e
  unfold randSymRankRPM
  rw [Run_bind, Run_liftE, e, Ok_ok]
  refine (C92_profile hg hdu k1 l1.ge l2.ge h).mono ?_
  rintro _ m' ⟨h1, h2, h3⟩
  refine ⟨h1, ?_, h3 k2⟩
  have := h2 N le_rfl N le_rfl
  rw [rookCount_all k1] at this
  exact this

/-- **C92, violation.** Order 4 and rank 3: for some draws no number of steps is sufficient. -/
theorem C92_violated (dr junk junk' : ℕ → ℕ) (h0 : dr 0 = 3) (h1 : dr 1 = 2) (h2 : dr 2 = 1) (h3 : dr 3 = 1) (fuel : ℕ) :
    faultOf (randSymRankRPM g dr junk junk' fuel du 4 3 A lda) m = some .fuel := by
  unfold randSymRankRPM
  refine faultOf_bind ?_
  rw [C86_violated dr junk junk' h0 h1 h2 h3 _ _ rfl rfl]
  rfl

example : ∀ i < 9, after (randSymRPM rmG ⟨fun i j => (i + j : ℕ), fun i => (i + 1 : ℕ)⟩ 3 2 0 3 (Arr.ofList [2, 0]) (Arr.ofList [0, 2]))
    (memOf (List.replicate 9 (0 : ZMod 5))) i = some (([0, 0, 3, 0, 0, 3, 3, 3, 2] : List (ZMod 5)).getD i 0) := by decide +kernel

/-! ## C93: determinant -/

/-- **C93.** `RandomMatrixWithDet` returns a matrix of determinant `d`, whatever is drawn.
Missing: order zero, where `n - 1` wraps (`C93_violated`). -/
theorem C93_det_partial (hg : GemmOk g) (dp dq : ℕ → ℕ) (d : K) (hN : 0 < N) (hdl : ∀ i < N, dl.nz i ≠ 0) (h : Rect m N N A lda) :
    Run (randDet g dl du dp dq N d A lda) m (fun _ m' => Only m m' ⟨A, lda, N, N⟩ ∧ (toMat N N (m'.mat ⟨A, lda, N, N⟩)).det = d) := by
  refine (randDet_spec hg dp dq d hN hdl h.on).mono ?_
  rintro _ m' ⟨x, h1, h2⟩
  refine ⟨On.only h1, ?_⟩
  rw [← h2]
  congr 1
  ext i j
  exact h1.step.val i i.2 j j.2

/-- **C93, violation.** -/
theorem C93_violated (dp dq : ℕ → ℕ) (d : ℚ) {g : GemmFn ℚ} {dl du : TriDraws ℚ} : Rect (memOf ([] : List ℚ)) 0 0 0 0 ∧
    faultOf (randDet g dl du dp dq 0 d 0 0) (memOf []) = some .underflow :=
  ⟨⟨WF_memOf _, OkIn_memOf (by decide), by decide⟩, rfl⟩

/-- order three, one exchange in one permutation and two in the other, determinant 3 -/
example : ∀ i < 9, after (randDet rmG ⟨fun i j => (i + j : ℕ), fun i => (i + 2 : ℕ)⟩ ⟨fun i j => (i + j : ℕ), fun i => (i + 1 : ℕ)⟩ (fun _ => 1) (fun i => if i = 0 then 2 else 0)
    3 3 0 3) (memOf (List.replicate 9 (0 : ZMod 5))) i = some (([0, 2, 0, 1, 1, 4, 4, 2, 2] : List (ZMod 5)).getD i 0) := by decide +kernel

/-! ## C94: left triangular quasi-separable matrices -/

/-- **C94.** `RandomLTQSMatrixWithRankandQSorder`: the only possible fault is the one of C87; otherwise the matrix is left triangular, the ranks of the leading blocks in the triangle
are given by `r` pivots in the triangle, and its order of quasi-separability is at most `t`.
Missing: order `t` (`C94_violated`). -/
theorem C94_ltqs_partial (hg : GemmOk g) (dr junk : ℕ → ℕ) (jz : ℕ → ℤ) (el : ℕ → ℕ → K) {r t : ℕ} (hnz : ∀ k < r, nz k ≠ 0) (hdu : ∀ i < N, du.nz i ≠ 0)
    (hr : r < N) (ht : 0 < t) (h : Rect m N N A lda) :
    faultOf (randLTQS g dr junk jz el nz du N r t A lda) m = some .oob ∨
    Run (randLTQS g dr junk jz el nz du N r t A lda) m (fun _ m' => Only m m' ⟨A, lda, N, N⟩ ∧
      (∀ i < N, ∀ j < N, N ≤ i + j + 1 → m'.mat ⟨A, lda, N, N⟩ i j = 0) ∧
      (∀ a b, a + b ≤ N → rk (m'.mat ⟨A, lda, N, N⟩) a b ≤ t) ∧
      ∃ p q, Rook N N r p q ∧ (∀ k < r, p k + q k + 1 < N) ∧ ∀ a b, a + b ≤ N → rk (m'.mat ⟨A, lda, N, N⟩) a b = rookCount r p q a b) := by
  have key := C87_ltqs_partial dr junk jz hr ht (rows := Arr.mk' r junk) (cols := Arr.mk' r junk) (le_refl r)
  unfold randLTQS
  cases e : randomLTQSRankProfileMatrix dr junk jz N r t (Arr.mk' r junk) (Arr.mk' r junk) with
  | error f =>
    left
    obtain rfl := key.1 f e
    exact faultOf_bind rfl
  | ok x =>
    right
    obtain ⟨k1, k2, k3⟩ := key.2 x e
    obtain ⟨l1, l2⟩ := randomLTQS_len e
    rw [Run_bind, Run_liftE, Ok_ok, Run_bind]
    refine (randRPM_spec hg el hnz hdu k1 l1.ge l2.ge h.on).mono ?_
    rintro _ m1 ⟨y, h1, h2⟩
    refine (fzeroRight_on h1).mono (fun _ m' h3 => ?_)
    have ee : ∀ i < N, ∀ j < N, m'.mat ⟨A, lda, N, N⟩ i j = if i + j + 1 < N then y i j else 0 := fun i hi j hj => h3.step.val i hi j hj
    have er : ∀ a b, a + b ≤ N → rk (m'.mat ⟨A, lda, N, N⟩) a b = rookCount r x.1.get x.2.get a b := by
      intro a b hab
      rw [← h2 a (by omega) b (by omega)]
      unfold rk
      congr 1
      ext i j
      have := i.2
      have := j.2
      rw [toMat_apply, toMat_apply, ee i (by omega) j (by omega), if_pos (by omega)]
    refine ⟨On.only h3, fun i hi j hj hij => ?_, fun a b hab => ?_, _, _, k1, k2, er⟩
    · rw [ee i hi j hj, if_neg (by omega)]
    · rw [er a b hab]; exact k3 a b hab

/-- **C94, violation.** Order 4, two pivots, `t = 2` and draws `2, 1, 0, 0` (as in C87): whatever elements are drawn, the order is not 2. -/
theorem C94_violated (hg : GemmOk g) (el : ℕ → ℕ → K) (hnz : ∀ k < 2, nz k ≠ 0) (hdu : ∀ i < 4, du.nz i ≠ 0) (h : Rect m 4 4 A lda) :
    Run (randLTQS g (Arr.ofList [2, 1, 0, 0]).get (fun _ => 9) (fun _ => 9) el nz du 4 2 2 A lda) m (fun _ m' =>
      ¬ IsLeftOrder 4 (m'.mat ⟨A, lda, 4, 4⟩) 2) := by
  obtain ⟨x, e, e1, e2, e3⟩ := C87_order_violated
  have key := C87_ltqs_partial (Arr.ofList [2, 1, 0, 0]).get (fun _ => 9) (fun _ => 9) (n := 4) (r := 2) (t := 2) (by decide) (by decide)
    (rows := Arr.mk' 2 (fun _ => 9)) (cols := Arr.mk' 2 (fun _ => 9)) (le_refl 2)
  obtain ⟨k1, -, -⟩ := key.2 x e
  obtain ⟨l1, l2⟩ := randomLTQS_len e
  unfold randLTQS
  rw [Run_bind, Run_liftE, e, Ok_ok, Run_bind]
  refine (randRPM_spec hg el hnz hdu k1 l1.ge l2.ge h.on).mono ?_
  rintro _ m1 ⟨y, h1, h2⟩
  refine (fzeroRight_on h1).mono (fun _ m' h3 => ?_)
  rintro ⟨-, a, b, hab, hr⟩
  have : rk (m'.mat ⟨A, lda, 4, 4⟩) a b = rk y a b := by
    unfold rk
    congr 1
    ext i j
    have := i.2
    have := j.2
    exact (h3.step.val i (by simp only []; omega) j (by simp only []; omega)).trans (if_pos (by omega))
  rw [this, h2 a (by omega) b (by omega)] at hr
  have := e3 a (by omega) b (by omega) hab
  omega

/-- order 4, two pivots, `t = 1` -/
example : ∀ i < 16, after (randLTQS rmG (fun _ => 1) (fun _ => 9) (fun _ => 9) (fun i j => (i + j + 1 : ℕ)) (fun k => (k + 1 : ℕ))
      ⟨fun i j => (i + j : ℕ), fun i => (i + 1 : ℕ)⟩ 4 2 1 0 4) (memOf (List.replicate 16 (0 : ZMod 5))) i =
    some (([0, 2, 3, 0, 0, 4, 0, 0, 2, 0, 0, 0, 0, 0, 0, 0] : List (ZMod 5)).getD i 0) := by decide +kernel

end Verif.Props
