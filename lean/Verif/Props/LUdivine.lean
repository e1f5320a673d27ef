import Verif.Proofs.Ludivine
import Verif.Props.Pluq
import Verif.Props.Echelon

/-!
# Property C44: the CUP and PLE decompositions of LUdivine
-/

namespace Verif.Props

open Verif.FF Verif.Spec Verif.Spec.Perm Verif.Lud Finset

variable {K : Type} [Field K] [DecidableEq K] {m : Mem K} {M N A lda : ℕ} {P Q : Arr ℕ} {g : GemmFn K} {ts : TrsmFn K}

/-- `V` and the arrays `P`, `Q` describe the `M × N` matrix `X`: performing the first `r` exchanges of `P` on the columns of `X`
gives `C U` with `C` the column echelon matrix stored in `V` (pivots in the rows `Q k`, which increase) and `U` the upper
trapezoidal matrix stored in the first `r` rows of `V`; `d` tells which of them has unit pivots.  The places above the pivots of
`C` which do not belong to `U`, and the block below and right of the factors, are zero in `V`. -/
structure DecomposesCUP (d : Diag) (M N : ℕ) (X V : ℕ → ℕ → K) (P Q : ℕ → ℕ) (r : ℕ) : Prop where
  rM : r ≤ M
  rN : r ≤ N
  swaps : ∀ i < r, i ≤ P i ∧ P i < N
  rows : ∀ k < r, Q k < M
  increasing : ∀ k l, k < l → l < r → Q k < Q l
  piv : ∀ k < r, (match d with | .unit => V (Q k) k | .nonUnit => V k k) ≠ 0
  zero : ∀ i < M, ∀ j < N, r ≤ i → r ≤ j → V i j = 0
  above : ∀ k < r, ∀ i < M, (match d with | .unit => k ≤ i ∧ i < Q k | .nonUnit => k < i ∧ i ≤ Q k) → V i k = 0
  fac : ∀ i < M, ∀ j < N, applySwaps P (X i) r j = ∑ k ∈ range r, cupC d V Q i k * luU d V k j

omit [DecidableEq K] in
lemma decomposesCUP {d : Diag} {X V : ℕ → ℕ → K} {P Q : ℕ → ℕ} {r : ℕ} (h1 : ∀ i < r, i ≤ P i) (h2 : ∀ i < r, P i < N)
    (h : Cup d M N X V (ofSwaps P r) Q r) : DecomposesCUP d M N X V P Q r :=
  ⟨h.rM, h.rN, fun i hi => ⟨h1 i hi, h2 i hi⟩, h.qM, h.inc, h.piv, h.zero, fun k hk i hi hh => h.low k hk i hi (by
    cases d <;> simp only [ub] at hh ⊢ <;> omega) (by cases d <;> simp only [ub] at hh ⊢ <;> omega), fun i hi j hj => by
    rw [applySwaps_eq]
    exact h.fac i hi j hj⟩

/-- C44: `LUdivine` without transposition, for every shape, both diagonals and every cutoff (including the base case
`LUdivine_small`), any correct `fgemm` and `ftrsm`: no fault, the matrix is decomposed, nothing else is modified. -/
theorem C44_ludivine (cat : Cat) (hg : GemmOk g) (ht : TrsmOk ts) (cutoff : ℕ) (d : Diag) (h : Rect m M N A lda)
    (hP : min M N ≤ P.len) (hQ : M ≤ Q.len) :
    Run (ludivine cat g ts cutoff .no d false M N A lda P Q) m (fun x m' => x.2.1.len = P.len ∧ x.2.2.len = Q.len ∧
      ∃ V, Step m m' ⟨A, lda, M, N⟩ V ∧ DecomposesCUP d M N (m.mat ⟨A, lda, M, N⟩) V x.2.1.get x.2.2.get x.1) := by
  have h' : OnL .no m m ⟨A, lda, M, N⟩ (m.mat ⟨A, lda, M, N⟩) := h.on
  refine (ludivine_spec (W := ⟨A, lda, M, N⟩) cat hg ht (Or.inr ⟨rfl, rfl⟩) hP hQ h').mono ?_
  rintro x m' ⟨h1, h2, h3, h4, ⟨V, h5, h6⟩, -, -⟩
  exact ⟨h1, h2, V, On.step h5, decomposesCUP h3 h4 (h6 (by simp))⟩

/-- C44 with transposition (PLE decomposition): the transpose is decomposed, for the default cutoff 1.  Missing: a cutoff above
1, for which it is false (`C44_transposed_small_violated`). -/
theorem C44_ludivine_transposed_partial (cat : Cat) (hg : GemmOk g) (ht : TrsmOk ts) {cutoff : ℕ} (hc : cutoff ≤ 1) (d : Diag)
    (h : Rect m M N A lda) (hP : min M N ≤ P.len) (hQ : N ≤ Q.len) :
    Run (ludivine cat g ts cutoff .yes d false M N A lda P Q) m (fun x m' => x.2.1.len = P.len ∧ x.2.2.len = Q.len ∧
      ∃ V, Step m m' ⟨A, lda, M, N⟩ V ∧
        DecomposesCUP d N M (fun i j => m.mat ⟨A, lda, M, N⟩ j i) (fun i j => V j i) x.2.1.get x.2.2.get x.1) := by
  have h' : OnL .yes m m ⟨A, lda, M, N⟩ (fun i j => m.mat ⟨A, lda, M, N⟩ j i) := h.on
  refine (ludivine_spec (ta := .yes) (W := ⟨A, lda, M, N⟩) cat hg ht (Or.inl hc) hP hQ h').mono ?_
  rintro x m' ⟨h1, h2, h3, h4, ⟨V, h5, h6⟩, -, -⟩
  exact ⟨h1, h2, fun i j => V j i, On.step h5, decomposesCUP h3 h4 (h6 (by simp))⟩

/-- C44: any such decomposition has the rank as number of pivots and the row rank profile as pivot rows, whatever program
computed it; the pivot rows and columns form an invertible submatrix. -/
theorem C44_decomposition_rank {d : Diag} {X V : ℕ → ℕ → K} {P Q : ℕ → ℕ} {r : ℕ} (h : DecomposesCUP d M N X V P Q r) :
    r = rk X M N ∧ IsRowRankProfile M N X ((List.range r).map Q) ∧
      (toMat r r (fun i j => X (Q i) (applySwaps P id r j))).det ≠ 0 := by
  have pP : IsPermArray (ofSwaps P r) N := by
    have e : (ofSwaps P r : ℕ → ℕ) = ofSwaps (fun i => if i < r then P i else i) r :=
      congrArg _ (Perm.ofSwaps_congr (fun i hi => by rw [if_pos hi]))
    rw [e]
    refine ⟨fun i hi => (Perm.ofSwaps_lt (n := N) (fun j hj => ?_) r h.rN i).1 hi, fun i _ j _ hh => (ofSwaps _ r).injective hh⟩
    split_ifs with c
    · exact (h.swaps j c).2
    · exact hj
  have hc : Cup d M N X V (ofSwaps P r) Q r := ⟨⟨h.rN, h.rows, h.increasing, h.piv, fun i hi j hj => by
    have := h.fac i hi j hj
    rwa [applySwaps_eq] at this⟩, pP, fun k hk i hi h1 h2 => h.above k hk i hi (by cases d <;> simp only [ub] at h1 h2 ⊢ <;> omega), h.zero⟩
  rw [applySwaps_eq]
  exact ⟨hc.rank_eq.symm, hc.profile, hc.minor le_rfl⟩

/-- C44 with concrete kernels: Winograd's algorithm in the product and the triangular systems -/
theorem C44_ludivine_winograd (cat : Cat) (th : ℕ) (hth : 2 ≤ th) (cutoff : ℕ) (d : Diag) (h : Rect m M N A lda)
    (hP : min M N ≤ P.len) (hQ : M ≤ Q.len) :
    Run (ludivine cat (gemmAuto cat th) (ftrsm cat (gemmAuto cat th)) cutoff .no d false M N A lda P Q) m (fun x m' =>
      ∃ V, Step m m' ⟨A, lda, M, N⟩ V ∧ DecomposesCUP d M N (m.mat ⟨A, lda, M, N⟩) V x.2.1.get x.2.2.get x.1) :=
  (C44_ludivine cat (gemmAuto_ok cat th hth) (ftrsm_TrsmOk cat (gemmAuto_ok cat th hth)) cutoff d h hP hQ).mono (fun _ _ h => h.2.2)

/-- what a run on an example gives -/
lemma run_of {K α : Type} {p : Prog K α} {m : Mem K} {a : ℕ} {y : K} (h : after p m a = some y) : ∃ x m', p m = .ok (x, m') := by
  unfold after at h
  split at h
  · exact ⟨_, _, by assumption⟩
  · simp at h

lemma after_of {K α : Type} {p : Prog K α} {m m' : Mem K} {x : α} {a : ℕ} {y : K} (h : p m = .ok (x, m')) (e : after p m a = some y) : m'.val a = y := by
  unfold after at e
  rw [h] at e
  simpa using e

lemma result_of {K α β : Type} {p : Prog K α} {m m' : Mem K} {x : α} {f : α → β} {y : β} (h : p m = .ok (x, m')) (e : (result p m).map f = some y) :
    f x = y := by
  unfold result at e
  rw [h] at e
  simpa using e

abbrev lJ : Arr ℕ := Arr.mk' 2 (fun _ => 9)

/-- C44 fails with transposition and a cutoff above 1: `LUdivine_small` decomposes the matrix instead of its transpose.  Witness:
`(2 1; 1 1)`, cutoff 3. -/
theorem C44_transposed_small_violated :
    ∃ (m : Mem ℚ) (A : ℕ), Rect m 2 2 A 2 ∧ Run (ludivine .modular exG exT 3 .yes .nonUnit false 2 2 A 2 lJ lJ) m (fun x m' =>
      ∀ V, Step m m' ⟨A, 2, 2, 2⟩ V →
        ¬ DecomposesCUP .nonUnit 2 2 (fun i j => m.mat ⟨A, 2, 2, 2⟩ j i) (fun i j => V j i) x.2.1.get x.2.2.get x.1) := by
  refine ⟨memOf [2, 1, 1, 1], 0, ⟨WF_memOf _, OkIn_memOf (by decide), by decide⟩, ?_⟩
  have e : (List.range 4).map (after (ludivine .modular exG exT 3 .yes .nonUnit false 2 2 0 2 lJ lJ) (memOf [2, 1, 1, 1])) =
      [2, 1, 1/2, 1/2].map some := by decide +kernel
  have e' : (result (ludivine .modular exG exT 3 .yes .nonUnit false 2 2 0 2 lJ lJ) (memOf [2, 1, 1, 1])).map
      (fun x => (x.1, x.2.1.get 0, x.2.1.get 1, x.2.2.get 0, x.2.2.get 1)) = some (2, 0, 1, 0, 1) := by decide +kernel
  simp only [List.range, List.range.loop, List.map_cons, List.map_nil, List.cons.injEq, and_true] at e
  obtain ⟨e0, e1, e2, e3⟩ := e
  obtain ⟨x, m', hx⟩ := run_of e0
  refine ⟨x, m', hx, fun V hV hD => ?_⟩
  have r := result_of hx e'
  simp only [Prod.mk.injEq] at r
  obtain ⟨r1, r2, r3, r4, r5⟩ := r
  have v2 := hV.val 1 (by decide) 0 (by decide)
  have v0 := hV.val 0 (by decide) 0 (by decide)
  have v3 := hV.val 1 (by decide) 1 (by decide)
  simp only [Win.adr] at v2 v0 v3
  have := hD.fac 0 (by decide) 1 (by decide)
  rw [r1] at this
  have h2 := after_of hx e2
  have h0 := after_of hx e0
  norm_num at v2 v0 v3
  rw [h2] at v2
  simp [applySwaps, exchange, r2, r3, r4, r5, sum_range_succ, cupC, luU, tri, Mem.mat, Win.adr, ← v2, memOf] at this

/-- C44 fails for `LUdivine_gauss` with more rows than columns: the rows beyond the number of columns are not examined.  Witness:
`(0; 1)` has rank 1. -/
theorem C44_gauss_rows_violated :
    ∃ (m : Mem ℚ) (A : ℕ), Rect m 2 1 A 1 ∧ Run (ludGauss .modular 2 1 A 1 lJ lJ) m (fun x _ => x.1 ≠ rk (m.mat ⟨A, 1, 2, 1⟩) 2 1) := by
  refine ⟨memOf [0, 1], 0, ⟨WF_memOf _, OkIn_memOf (by decide), by decide⟩, ?_⟩
  have e' : (result (ludGauss .modular 2 1 0 1 lJ lJ) (memOf [0, 1] : Mem ℚ)).map (fun x => x.1) = some 0 := by decide +kernel
  have e : after (ludGauss .modular 2 1 0 1 lJ lJ) (memOf [0, 1] : Mem ℚ) 0 = some 0 := by decide +kernel
  obtain ⟨x, m', hx⟩ := run_of e
  refine ⟨x, m', hx, ?_⟩
  have r := result_of hx e'
  show x.1 ≠ _
  rw [r]
  intro h
  have h0 : (toMat 2 1 ((memOf [0, 1] : Mem ℚ).mat ⟨0, 1, 2, 1⟩)).mulVecLin = 0 := LinearMap.range_eq_bot.1 (Submodule.finrank_eq_zero.1 h.symm)
  have := congrFun (LinearMap.congr_fun h0 (fun _ => 1)) 1
  simp [Matrix.mulVec, dotProduct, toMat, Mem.mat, Win.adr, memOf] at this

/-- C44 fails for `LUdivine_gauss` with a unit upper factor: the parameter `Diag` is ignored.  Witness: `(2 1; 1 1)`. -/
theorem C44_gauss_unit_violated :
    ∃ (m : Mem ℚ) (A : ℕ), Rect m 2 2 A 2 ∧ Run (ludGauss .modular 2 2 A 2 lJ lJ) m (fun x m' =>
      ∀ V, Step m m' ⟨A, 2, 2, 2⟩ V → ¬ DecomposesCUP .unit 2 2 (m.mat ⟨A, 2, 2, 2⟩) V x.2.1.get x.2.2.get x.1) := by
  refine ⟨memOf [2, 1, 1, 1], 0, ⟨WF_memOf _, OkIn_memOf (by decide), by decide⟩, ?_⟩
  have e : (List.range 4).map (after (ludGauss .modular 2 2 0 2 lJ lJ) (memOf [2, 1, 1, 1] : Mem ℚ)) =
      [2, 1, 1/2, 1/2].map some := by decide +kernel
  have e' : (result (ludGauss .modular 2 2 0 2 lJ lJ) (memOf [2, 1, 1, 1] : Mem ℚ)).map
      (fun x => (x.1, x.2.1.get 0, x.2.1.get 1, x.2.2.get 0, x.2.2.get 1)) = some (2, 0, 1, 0, 1) := by decide +kernel
  simp only [List.range, List.range.loop, List.map_cons, List.map_nil, List.cons.injEq, and_true] at e
  obtain ⟨e0, e1, e2, e3⟩ := e
  obtain ⟨x, m', hx⟩ := run_of e0
  refine ⟨x, m', hx, fun V hV hD => ?_⟩
  have r := result_of hx e'
  simp only [Prod.mk.injEq] at r
  obtain ⟨r1, r2, r3, r4, r5⟩ := r
  have v1 := hV.val 0 (by decide) 1 (by decide)
  have v0 := hV.val 0 (by decide) 0 (by decide)
  simp only [Win.adr] at v1 v0
  have := hD.fac 0 (by decide) 1 (by decide)
  rw [r1] at this
  have h1 := after_of hx e1
  have h0 := after_of hx e0
  norm_num at v1 v0
  rw [h1] at v1
  rw [h0] at v0
  simp [applySwaps, exchange, r2, r3, r4, r5, sum_range_succ, cupC, luU, tri, Mem.mat, Win.adr, ← v1, ← v0, memOf] at this

/-- the `3 × 4` example of rank 2 with a zero first row and a zero first pivot candidate, decomposed with recursion down to single
rows, by `LUdivine_small`, with a unit upper factor, and transposed -/
abbrev lex : Mem ℚ := memOf [0, 0, 0, 0, 0, 2, 1, 4, 1, 1, 1, 1]
abbrev lPQ : Arr ℕ := Arr.mk' 4 (fun _ => 9)
lemma lex_rect : Rect lex 3 4 0 4 := ⟨WF_memOf _, OkIn_memOf (by decide), by decide⟩
example : Rect lex 3 4 0 4 ∧ min 3 4 ≤ lPQ.len ∧ 3 ≤ lPQ.len ∧ 4 ≤ lPQ.len ∧ GemmOk exG ∧ TrsmOk exT :=
  ⟨lex_rect, by decide, by decide, by decide, gemmClassic_ok .modular, ftrsm_TrsmOk .modular (gemmClassic_ok .modular)⟩
example : (result (ludivine .modular exG exT 1 .no .nonUnit false 3 4 0 4 lPQ lPQ) lex).map (fun x => (x.1, x.2.1.get 0, x.2.1.get 1, x.2.2.get 0, x.2.2.get 1)) =
    some (2, 1, 1, 1, 2) := by decide +kernel
example : (List.range 12).map (after (ludivine .modular exG exT 1 .no .nonUnit false 3 4 0 4 lPQ lPQ) lex) =
    [2, 0, 1, 4, 0, 1, 1/2, -1, 1/2, 0, 0, 0].map some := by decide +kernel
example : (List.range 12).map (after (ludivine .modular exG exT 9 .no .nonUnit false 3 4 0 4 lPQ lPQ) lex) =
    [2, 0, 1, 4, 0, 1, 1/2, -1, 1/2, 0, 0, 0].map some := by decide +kernel
example : (List.range 12).map (after (ludivine .modular exG exT 1 .no .unit false 3 4 0 4 lPQ lPQ) lex) =
    [0, 0, 1/2, 2, 2, 0, 1/2, -1, 1, 1, 0, 0].map some := by decide +kernel
example : (List.range 12).map (after (ludivine .modular exG exT 1 .yes .nonUnit false 3 4 0 4 lPQ lPQ) lex) =
    [1, 1, 1, 1, 0, 2, 1/2, 2, 0, 0, 0, 0].map some := by decide +kernel

end Verif.Props
