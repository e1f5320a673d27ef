import Verif.Proofs.RankProfile
import Verif.Proofs.Det
import Verif.Props.ApplyP
import Verif.Props.Trsm

/-!
# Properties C19, C20, C21, C41: PLUQ decomposition, rank, determinant, rank profiles
-/

namespace Verif.Props

open Verif.FF Verif.Spec Verif.Spec.Perm Finset

variable {K : Type} [Field K] [DecidableEq K] {m : Mem K} {M N A lda : ℕ} {P Q : Arr ℕ} {g : GemmFn K} {ts : TrsmFn K}

/-- The arrays `P`, `Q` and the matrix `V` describe the matrix `X`: performing the exchanges of `P` on the rows of `X` and the ones
of `Q` on its columns gives the product of the lower and the upper factor stored in `V` (the upper one has the diagonal `d`, the
lower one the other diagonal), with `r` non-zero pivots; below and right of the pivots `V` is zero. -/
structure Decomposes (d : Diag) (M N : ℕ) (X V : ℕ → ℕ → K) (P Q : ℕ → ℕ) (r : ℕ) : Prop where
  rM : r ≤ M
  rN : r ≤ N
  tP : IsTranspArray P M
  tQ : IsTranspArray Q N
  piv : ∀ k < r, V k k ≠ 0
  zero : ∀ i < M, ∀ j < N, r ≤ i → r ≤ j → V i j = 0
  fac : ∀ i < M, ∀ j < N, applySwaps Q (applySwaps P X M i) N j = ∑ k ∈ range r, luL d V i k * luU d V k j

omit [DecidableEq K] in
lemma decomposes {d : Diag} {X V : ℕ → ℕ → K} {P Q : ℕ → ℕ} {r : ℕ} (tP : IsTranspArray P M) (tQ : IsTranspArray Q N)
    (h : Pluq.Fac d M N X V (ofSwaps P M) (ofSwaps Q N) r) : Decomposes d M N X V P Q r :=
  ⟨h.rM, h.rN, tP, tQ, h.piv, h.zero, fun i hi j hj => by
    rw [applySwaps_eq, applySwaps_eq]
    exact h.fac i hi j hj⟩

/-- C19: `PLUQ` for every matrix, every threshold, any correct `fgemm` and `ftrsm`, whatever the contents of the arrays obtained
from the allocator: it terminates without fault, decomposes the matrix and changes nothing outside it. -/
theorem C19_pluq (cat : Cat) (hg : GemmOk g) (ht : TrsmOk ts) (thr : ℕ) (jk : List ℕ → ℕ → ℕ) (d : Diag) (h : Rect m M N A lda)
    (hP : P.len = M) (hQ : Q.len = N) :
    Run (pluq cat g ts thr jk d M N A lda P Q) m (fun x m' => x.2.1.len = M ∧ x.2.2.len = N ∧
      ∃ V, Step m m' ⟨A, lda, M, N⟩ V ∧ Decomposes d M N (m.mat ⟨A, lda, M, N⟩) V x.2.1.get x.2.2.get x.1) := by
  refine (pluq_spec cat hg ht thr jk d h.on hP hQ).mono ?_
  rintro x m' ⟨h1, h2, h3, h4, V, h5, h6⟩
  exact ⟨h1, h2, V, h5.step, decomposes h3 h4 h6⟩

/-- C19 with the `ftrsm` of C11 and the Winograd product of C10. -/
theorem C19_pluq_winograd (cat : Cat) (th : ℕ) (hth : 2 ≤ th) (thr : ℕ) (jk : List ℕ → ℕ → ℕ) (d : Diag) (h : Rect m M N A lda)
    (hP : P.len = M) (hQ : Q.len = N) :
    Run (pluq cat (gemmAuto cat th) (ftrsm cat (gemmAuto cat th)) thr jk d M N A lda P Q) m (fun x m' => x.2.1.len = M ∧ x.2.2.len = N ∧
      ∃ V, Step m m' ⟨A, lda, M, N⟩ V ∧ Decomposes d M N (m.mat ⟨A, lda, M, N⟩) V x.2.1.get x.2.2.get x.1) :=
  C19_pluq cat (gemmAuto_ok cat th hth) (ftrsm_TrsmOk cat (gemmAuto_ok cat th hth)) thr jk d h hP hQ

/-- C19: the pivots reveal the rank of every leading submatrix: it is the number of pivots whose row and column lie in it.  (This
is the rank profile matrix of Dumas, Pernet, Sultan.) -/
theorem C19_reveals_rank_profile_matrix (cat : Cat) (hg : GemmOk g) (ht : TrsmOk ts) (thr : ℕ) (jk : List ℕ → ℕ → ℕ) (d : Diag)
    (h : Rect m M N A lda) (hP : P.len = M) (hQ : Q.len = N) :
    Run (pluq cat g ts thr jk d M N A lda P Q) m (fun x _ => ∀ a ≤ M, ∀ b ≤ N,
      rk (m.mat ⟨A, lda, M, N⟩) a b =
        ((range x.1).filter (fun k => applySwaps x.2.1.get id M k < a ∧ applySwaps x.2.2.get id N k < b)).card) := by
  refine (pluq_spec cat hg ht thr jk d h.on hP hQ).mono ?_
  rintro x m' ⟨h1, h2, h3, h4, V, h5, h6⟩ a ha b hb
  rw [rk, h6.rank_leading ha hb, Pluq.pivots, applySwaps_eq, applySwaps_eq]
  rfl

/-- C20: a decomposition with `r` non-zero pivots can only exist when `r` is the rank, whatever program computed it. -/
theorem C20_decomposition_rank {d : Diag} {X V : ℕ → ℕ → K} {P Q : ℕ → ℕ} {r : ℕ} (h : Decomposes d M N X V P Q r) : r = rk X M N :=
  (IsPLUQ.rank_eq (p := ofSwaps P M) (q := ofSwaps Q N) ⟨h.rM, h.rN, h.piv, fun i hi j hj => by
    have := h.fac i hi j hj
    rwa [applySwaps_eq, applySwaps_eq] at this⟩ (Perm.ofSwaps_isPerm (fun i hi => (h.tP i hi).2))
    (Perm.ofSwaps_isPerm (fun i hi => (h.tQ i hi).2))).symm

/-- C20: `Rank` returns the rank and changes nothing outside the matrix. -/
theorem C20_rank (cat : Cat) (hg : GemmOk g) (ht : TrsmOk ts) (thr : ℕ) (jk : List ℕ → ℕ → ℕ) (h : Rect m M N A lda) :
    Run (FF.rank cat g ts thr jk M N A lda) m (fun r m' => r = rk (m.mat ⟨A, lda, M, N⟩) M N ∧ ∃ V, Step m m' ⟨A, lda, M, N⟩ V) := by
  unfold FF.rank
  split_ifs with h0
  · obtain ⟨rfl, rfl⟩ := h0
    rw [Run_pure]
    exact ⟨(Nat.le_zero.1 (Matrix.rank_le_height _)).symm, _, Step.refl (fun _ _ _ _ => rfl)⟩
  · rw [Run_bind]
    refine (pluq_spec cat hg ht thr (fun l => jk (2 :: l)) .nonUnit h.on rfl rfl).mono ?_
    rintro ⟨r, P, Q⟩ m' ⟨h1, h2, h3, h4, V, h5, h6⟩
    rw [Run_pure]
    exact ⟨h6.rank_eq.symm, V, h5.step⟩

/-- C20 with concrete kernels -/
theorem C20_rank_winograd (cat : Cat) (th : ℕ) (hth : 2 ≤ th) (thr : ℕ) (jk : List ℕ → ℕ → ℕ) (h : Rect m M N A lda) :
    Run (FF.rank cat (gemmAuto cat th) (ftrsm cat (gemmAuto cat th)) thr jk M N A lda) m (fun r m' =>
      r = rk (m.mat ⟨A, lda, M, N⟩) M N ∧ ∃ V, Step m m' ⟨A, lda, M, N⟩ V) :=
  C20_rank cat (gemmAuto_ok cat th hth) (ftrsm_TrsmOk cat (gemmAuto_ok cat th hth)) thr jk h

/-- C21: `Det` returns the determinant; supplied permutation arrays receive the permutations of the decomposition left in `A`. -/
theorem C21_det (cat : Cat) (hg : GemmOk g) (ht : TrsmOk ts) (thr : ℕ) (jk : List ℕ → ℕ → ℕ) (h : Rect m N N A lda)
    (PQ : Option (Arr ℕ × Arr ℕ)) (hPQ : ∀ x ∈ PQ, x.1.len = N ∧ x.2.len = N) :
    Run (det cat g ts thr jk N A lda PQ) m (fun x m' => x.1 = (toMat N N (m.mat ⟨A, lda, N, N⟩)).det ∧
      ∃ V, Step m m' ⟨A, lda, N, N⟩ V ∧
        ∀ y ∈ x.2, 0 < N → ∃ r, Decomposes .nonUnit N N (m.mat ⟨A, lda, N, N⟩) V y.1.get y.2.get r) := by
  unfold det
  split_ifs with h0
  · subst h0
    rw [Run_pure]
    exact ⟨by simp, _, Step.refl (fun _ _ _ _ => rfl), fun y _ hh => by omega⟩
  · have hl : (PQ.getD (Arr.mk' N (jk [0]), Arr.mk' N (jk [1]))).1.len = N ∧ (PQ.getD (Arr.mk' N (jk [0]), Arr.mk' N (jk [1]))).2.len = N := by
      cases PQ with
      | none => exact ⟨rfl, rfl⟩
      | some x => exact hPQ x rfl
    generalize PQ.getD (Arr.mk' N (jk [0]), Arr.mk' N (jk [1])) = PQ' at hl
    obtain ⟨P, Q⟩ := PQ'
    simp only [] at hl ⊢
    rw [Run_bind]
    refine (pluq_spec cat hg ht thr (fun l => jk (2 :: l)) .nonUnit h.on hl.1 hl.2).mono ?_
    rintro ⟨R, P', Q'⟩ m' ⟨h1, h2, h3, h4, V, h5, h6⟩
    simp only [] at h1 h2 h3 h4 h6 ⊢
    have dec : ∀ y ∈ PQ.map (fun _ => (P', Q')), 0 < N → ∃ r, Decomposes .nonUnit N N (m.mat ⟨A, lda, N, N⟩) V y.1.get y.2.get r := by
      intro y hy _
      obtain ⟨_, _, rfl⟩ := Option.mem_map.1 hy
      exact ⟨R, decomposes h3 h4 h6⟩
    split_ifs with hR
    · rw [Run_pure]
      refine ⟨?_, V, h5.step, dec⟩
      by_contra hne
      have := Matrix.rank_of_det_ne_zero (Ne.symm hne)
      have := h6.rank_eq
      simp at *
      omega
    · have e : R = N := by have := h6.rM; omega
      subst e
      rw [Run_bind]
      refine (mulDiag_spec (N := R) h5 le_rfl le_rfl).mono ?_
      rintro x m'' ⟨rfl, rfl⟩
      rw [Run_bind]
      refine (Run_liftE _ _ _).2 ((countExchanges_spec h1 h2).mono ?_)
      rintro c rfl
      rw [Run_pure]
      refine ⟨?_, V, h5.step, dec⟩
      rw [det_of_fac (fun i hi => (h3 i hi).2) (fun i hi => (h4 i hi).2) h6.toIsPLUQ]
      split_ifs with hc
      · rw [(Nat.odd_iff.2 hc).neg_one_pow]; ring
      · rw [(Nat.even_iff.2 (by omega)).neg_one_pow, one_mul]

/-- C21 with concrete kernels, arrays allocated by `Det` -/
theorem C21_det_winograd (cat : Cat) (th : ℕ) (hth : 2 ≤ th) (thr : ℕ) (jk : List ℕ → ℕ → ℕ) (h : Rect m N N A lda) :
    Run (det cat (gemmAuto cat th) (ftrsm cat (gemmAuto cat th)) thr jk N A lda none) m (fun x m' =>
      x.1 = (toMat N N (m.mat ⟨A, lda, N, N⟩)).det ∧ ∃ V, Step m m' ⟨A, lda, N, N⟩ V) :=
  (C21_det cat (gemmAuto_ok cat th hth) (ftrsm_TrsmOk cat (gemmAuto_ok cat th hth)) thr jk h none (by simp)).mono
    (fun _ _ ⟨h1, V, h2, _⟩ => ⟨h1, V, h2⟩)

/-- C41: `RowRankProfile` -/
theorem C41_rowRankProfile (cat : Cat) (hg : GemmOk g) (ht : TrsmOk ts) (thr : ℕ) (jk : List ℕ → ℕ → ℕ) (h : Rect m M N A lda) :
    Run (rowRankProfile cat g ts thr jk M N A lda) m (fun x _ => x.1 = rk (m.mat ⟨A, lda, M, N⟩) M N ∧
      IsRowRankProfile M N (m.mat ⟨A, lda, M, N⟩) x.2.toList) := by
  unfold rowRankProfile
  rw [Run_bind]
  refine (pluq_spec cat hg ht thr (fun l => jk (4 :: l)) .nonUnit h.on rfl rfl).mono ?_
  rintro ⟨r, P, Q⟩ m' ⟨h1, h2, h3, h4, V, h5, h6⟩
  simp only [] at h1 h2 h3 h4 h6 ⊢
  rw [Run_bind]
  refine (Run_liftE _ _ _).2 ((rankProfileFromLU_spec (jk [3]) h1 h3 h6.rM le_rfl).mono ?_)
  rintro B ⟨b1, b2, b3⟩
  rw [Run_pure]
  have e : B.toList = pre B r := by rw [Arr.toList, b1]; rfl
  refine ⟨h6.rank_eq.symm, ?_⟩
  rw [e]
  refine ⟨b2, fun x => ?_⟩
  rw [b3]
  constructor
  · rintro ⟨k, hk, rfl⟩
    have hlt := h6.pP.1 k (by have := h6.rM; exact lt_of_lt_of_le hk this)
    exact ⟨hlt, (row_jump h6 le_rfl hlt).2 ⟨k, hk, rfl, h6.pQ.1 k (lt_of_lt_of_le hk h6.rN)⟩⟩
  · rintro ⟨hx, hj⟩
    obtain ⟨k, hk, e, _⟩ := (row_jump h6 le_rfl hx).1 hj
    exact ⟨k, hk, e⟩

/-- C41: `ColumnRankProfile` -/
theorem C41_columnRankProfile (cat : Cat) (hg : GemmOk g) (ht : TrsmOk ts) (thr : ℕ) (jk : List ℕ → ℕ → ℕ) (h : Rect m M N A lda) :
    Run (columnRankProfile cat g ts thr jk M N A lda) m (fun x _ => x.1 = rk (m.mat ⟨A, lda, M, N⟩) M N ∧
      IsColRankProfile M N (m.mat ⟨A, lda, M, N⟩) x.2.toList) := by
  unfold columnRankProfile
  rw [Run_bind]
  refine (pluq_spec cat hg ht thr (fun l => jk (4 :: l)) .nonUnit h.on rfl rfl).mono ?_
  rintro ⟨r, P, Q⟩ m' ⟨h1, h2, h3, h4, V, h5, h6⟩
  simp only [] at h1 h2 h3 h4 h6 ⊢
  rw [Run_bind]
  refine (Run_liftE _ _ _).2 ((rankProfileFromLU_spec (jk [3]) h2 h4 h6.rN le_rfl).mono ?_)
  rintro B ⟨b1, b2, b3⟩
  rw [Run_pure]
  have e : B.toList = pre B r := by rw [Arr.toList, b1]; rfl
  refine ⟨h6.rank_eq.symm, ?_⟩
  rw [e]
  refine ⟨b2, fun x => ?_⟩
  rw [b3]
  constructor
  · rintro ⟨k, hk, rfl⟩
    have hlt := h6.pQ.1 k (lt_of_lt_of_le hk h6.rN)
    exact ⟨hlt, (col_jump h6 le_rfl hlt).2 ⟨k, hk, h6.pP.1 k (lt_of_lt_of_le hk h6.rM), rfl⟩⟩
  · rintro ⟨hx, hj⟩
    obtain ⟨k, hk, _, e⟩ := (col_jump h6 le_rfl hx).1 hj
    exact ⟨k, hk, e⟩

/-- C41: after one `PLUQ`, `LeadingSubmatrixRankProfiles` gives the rank and both rank profiles of any leading submatrix.  The
output arrays need as many entries as that rank. -/
theorem C41_leadingSubmatrixRankProfiles (cat : Cat) (hg : GemmOk g) (ht : TrsmOk ts) (thr : ℕ) (jk : List ℕ → ℕ → ℕ) (jp jq : ℕ → ℕ)
    (d : Diag) (h : Rect m M N A lda) (hP : P.len = M) (hQ : Q.len = N) {a b : ℕ} (ha : a ≤ M) (hb : b ≤ N) {RRP CRP : Arr ℕ}
    (hr : rk (m.mat ⟨A, lda, M, N⟩) a b ≤ RRP.len) (hc : rk (m.mat ⟨A, lda, M, N⟩) a b ≤ CRP.len) :
    Run (do
      let (R, P, Q) ← pluq cat g ts thr jk d M N A lda P Q
      liftE (leadingSubmatrixRankProfiles M N R a b P Q RRP CRP jp jq)) m (fun x _ =>
        x.1 = rk (m.mat ⟨A, lda, M, N⟩) a b ∧
        IsRowRankProfile a b (m.mat ⟨A, lda, M, N⟩) ((List.range x.1).map x.2.1.get) ∧
        IsColRankProfile a b (m.mat ⟨A, lda, M, N⟩) ((List.range x.1).map x.2.2.get)) := by
  rw [Run_bind]
  refine (pluq_spec cat hg ht thr jk d h.on hP hQ).mono ?_
  rintro ⟨r, P', Q'⟩ m' ⟨h1, h2, h3, h4, V, h5, h6⟩
  simp only [] at h1 h2 h3 h4 h6 ⊢
  exact (Run_liftE _ _ _).2 (leadingSubmatrixRankProfiles_spec jp jq h1 h2 h3 h4 h6 ha hb hr hc)

/-! ### concrete cases -/

/-- a `4 × 5` matrix of rank 3 with leading dimension 6; the first column is zero, row 2 is row 0 plus row 1 -/
def pex : Mem ℚ := memOf [0, 2, 4, 1, 3, 77, 0, 1, 2, 3, 5, 77, 0, 3, 6, 4, 8, 77, 0, 1, 1, 1, 1]

lemma pex_rect : Rect pex 4 5 0 6 := ⟨WF_memOf _, OkIn_memOf (by decide), by decide⟩

/-- the decomposition by the base case and by the recursion -/
abbrev pexRun (thr : ℕ) : Prog ℚ (ℕ × Arr ℕ × Arr ℕ) :=
  pluq .modular (gemmClassic .modular) (ftrsm .modular (gemmClassic .modular)) thr (fun l i => l.sum + i) .nonUnit 4 5 0 6
    (Arr.mk' 4 (fun _ => 9)) (Arr.mk' 5 (fun _ => 8))

example : (result (pexRun 1) pex).map (fun x => (x.1, x.2.1.toList, x.2.2.toList)) = some (3, [0, 1, 3, 3], [1, 3, 2, 3, 4]) := by
  decide +kernel
example : (result (pexRun 30) pex).map (fun x => (x.1, x.2.1.toList, x.2.2.toList)) = some (3, [0, 1, 3, 3], [1, 3, 2, 3, 4]) := by
  decide +kernel
example : after (pexRun 1) pex 0 = some 2 ∧ after (pexRun 1) pex 5 = some 77 := by decide +kernel

example : result (FF.rank .modular (gemmClassic .modular) (ftrsm .modular (gemmClassic .modular)) 1 (fun _ i => i) 4 5 0 6) pex = some 3 := by
  decide +kernel

example : (result (rowRankProfile .modular (gemmClassic .modular) (ftrsm .modular (gemmClassic .modular)) 1 (fun _ i => i) 4 5 0 6) pex).map
    (fun x => (x.1, x.2.toList)) = some (3, [0, 1, 3]) := by decide +kernel
example : (result (columnRankProfile .modular (gemmClassic .modular) (ftrsm .modular (gemmClassic .modular)) 1 (fun _ i => i) 4 5 0 6) pex).map
    (fun x => (x.1, x.2.toList)) = some (3, [1, 2, 3]) := by decide +kernel

/-- the determinant of a `3 × 3` matrix that needs one exchange -/
example : (result (det .modular (gemmClassic .modular) (ftrsm .modular (gemmClassic .modular)) 1 (fun _ i => i) 3 0 3 none)
    (memOf [0, 2, 1, 3, 1, 1, 1, 1, 4] : Mem ℚ)).map (fun x => x.1) = some (-20) := by decide +kernel

end Verif.Props
