import Verif.Proofs.RandMat

/-!
# Random symmetric matrices
-/

namespace Verif.FF

open Finset Verif.Spec Verif.RandMat

variable {K : Type} [Field K] [DecidableEq K] {m0 m m' : Mem K} {W : Win} {V V' : ℕ → ℕ → K}

/-! ## of given rank profile matrix -/

lemma symCols_on {N R L U : ℕ} {rows cols : Arr ℕ} {u : ℕ → ℕ → K} (hR : Rook N N R rows.get cols.get) (hr : R ≤ rows.len)
    (hc : R ≤ cols.len) (h : On m0 m ⟨L, N, N, N⟩ (fun _ _ => 0)) (hU : Src m0 ⟨U, N, N, N⟩ u) (hd : (Win.mk U N N N).Disj ⟨L, N, N, N⟩) :
    Run (symCols N R U L rows cols) m (fun _ m' => ∃ l, On m0 m' ⟨L, N, N, N⟩ l ∧
      (∀ k < R, ∀ i < N, l i (cols.get k) = if i < rows.get k then 0 else u (rows.get k) i) ∧ ∀ j < N, (∀ k < R, cols.get k ≠ j) → ∀ i < N, l i j = 0) := by
  refine Run_loop (fun t m' => ∃ l, On m0 m' ⟨L, N, N, N⟩ l ∧
      (∀ k < t, ∀ i < N, l i (cols.get k) = if i < rows.get k then 0 else u (rows.get k) i) ∧
      ∀ j < N, (∀ k < t, cols.get k ≠ j) → ∀ i < N, l i j = 0) ?_ ?_
  · exact ⟨_, h, by omega, fun _ _ _ _ _ => rfl⟩
  · rintro t m1 ht ⟨l, h1, e1, e2⟩
    have hi := hR.row_lt t ht
    have hj := hR.col_lt t ht
    rw [Run_bind, Run_liftE]
    refine (Ok_rd _ _ _).2 ⟨by omega, ?_⟩
    rw [Run_bind, Run_liftE]
    refine (Ok_rd _ _ _).2 ⟨by omega, ?_⟩
    generalize hI : rows.get t = i0 at hi
    generalize hJ : cols.get t = j0 at hj
    rw [Run_bind]
    refine Run_usub hi.le ?_
    have s := hU.on h1 hd
    have a1 : U + i0 * (N + 1) = (Win.mk U N N N).adr i0 i0 := by simp [Win.adr]; ring
    have a2 : L + j0 + i0 * N = (Win.mk L N N N).adr i0 j0 := by simp [Win.adr]; ring
    rw [a1, a2]
    refine (vassign_spec (s.vw_row hi (by simp only []; omega)) (h1.vw_col (by simp only []; omega) hj) (Win.Disj.safe ?_ rfl rfl) (by simp only []; omega)).mono ?_
    · intro x h2 h3
      obtain ⟨y, hy, rfl⟩ := vw_row_Has.1 h2
      obtain ⟨y', hy', e⟩ := vw_col_Has.1 h3
      exact hd ((Win.mk U N N N).adr i0 (i0 + y)) (Win.Has_adr hi (by simp only []; omega)) (by rw [e]; exact Win.Has_adr (by simp only []; omega) hj)
    · intro _ m2 st
      have h2 := h1.colStep (g := fun t => u i0 (i0 + t)) (i := i0) (j := j0) (n := N - i0) (by simp only []; omega) hj (st.congr (fun y hy _ _ => by
        have hy : y < N - i0 := hy
        rw [Nat.mul_one, Win.adr_add_col, s.val _ hi _ (by simp only []; omega)]))
      refine ⟨_, h2, fun k hk i hi' => ?_, fun j hj' hn i hi' => ?_⟩
      · by_cases c : k = t
        · subst c
          by_cases c2 : i0 ≤ i
          · rw [upd_in' (by omega), if_neg (by omega), hI]
            congr 1
            omega
          · rw [upd_out (by omega), if_pos (by omega), hJ, e2 j0 hj (fun s hs e => by have := hR.col_inj s (by omega) k ht (by omega); omega) i hi']
        · have : cols.get k ≠ j0 := fun e => c (hR.col_inj k (by omega) t ht (by omega))
          rw [upd_out (by omega), e1 k (by omega) i hi']
      · have := hn t (by omega)
        rw [upd_out (by omega), e2 j hj' (fun k hk => hn k (by omega)) i hi']

omit [DecidableEq K] in
/-- a sum over symmetric positions -/
lemma sum_symRook {N R : ℕ} {p q : ℕ → ℕ} {F : ℕ → ℕ → K} (h : Rook N N R p q) (hs : SymRook R p q) :
    ∑ k ∈ range R, F (p k) (q k) = ∑ k ∈ range R, F (q k) (p k) := by
  classical
  refine sum_bij (fun k hk => (hs k (mem_range.1 hk)).choose) (fun k hk => ?_) (fun k hk l hl e => ?_) (fun l hl => ?_) (fun k hk => ?_)
  · exact mem_range.2 (hs k (mem_range.1 hk)).choose_spec.1
  · have e1 := (hs k (mem_range.1 hk)).choose_spec.2.1
    have e2 := (hs l (mem_range.1 hl)).choose_spec.2.1
    exact h.col_inj k (mem_range.1 hk) l (mem_range.1 hl) (by rw [← e1, ← e2]; simp only [e])
  · obtain ⟨k, hk, e1, e2⟩ := hs l (mem_range.1 hl)
    refine ⟨k, mem_range.2 hk, ?_⟩
    have s := (hs k hk).choose_spec
    exact h.row_inj _ s.1 l (mem_range.1 hl) (by rw [s.2.1, e2])
  · have s := (hs k (mem_range.1 hk)).choose_spec
    rw [s.2.1, s.2.2]

/-- `RandomSymmetricMatrixWithRankandRPM` -/
theorem randSymRPM_spec {g : GemmFn K} (hg : GemmOk g) {du : TriDraws K} {N R A lda : ℕ} {rows cols : Arr ℕ} (hdu : ∀ i < N, du.nz i ≠ 0)
    (hR : Rook N N R rows.get cols.get) (hr : R ≤ rows.len) (hc : R ≤ cols.len) {a : ℕ → ℕ → K} (h : On m m ⟨A, lda, N, N⟩ a) :
    Run (randSymRPM g du N R A lda rows cols) m (fun _ m' => ∃ x, On m m' ⟨A, lda, N, N⟩ x ∧
      (∀ a ≤ N, ∀ b ≤ N, rk x a b = rookCount R rows.get cols.get a b) ∧
      (SymRook R rows.get cols.get → ∀ i < N, ∀ j < N, x i j = x j i)) := by
  unfold randSymRPM
  have h := Two.start h
  rw [Run_bind, Run_alloc]
  obtain ⟨f1, h1⟩ := h.allocU N N
  change Run _ (m.grow (N * N)) _
  generalize m.grow (N * N) = m1 at h1 ⊢
  generalize m.next = U at h1 ⊢
  rw [Run_bind, Run_alloc]
  obtain ⟨f2, h2⟩ := h1.allocL N N
  change Run _ (m1.grow (N * N)) _
  generalize m1.grow (N * N) = m2 at h2 ⊢
  generalize m1.next = L at h2 ⊢
  rw [Run_bind]
  refine (randTri_on .upper .nonUnit true du h2.onU (by simp)).mono (fun _ m3 t => ?_)
  have h3 := h2.putU t
  rw [Run_bind]
  refine (fzero_on h3.onL 0 0 N N (by simp) (by simp) (by simp [Win.adr])).mono (fun _ m4 t => ?_)
  have h4 := h3.putL (t.congr (V' := fun _ _ => 0) (fun i hi j hj => by rw [upd_in' (by simp only [] at hi hj; omega)]))
  rw [Run_bind]
  refine (symCols_on hR hr hc h4.onL h4.onU.src h4.disjLU.symm).mono ?_
  rintro _ m5 ⟨l, t, e1, e2⟩
  have h5 := h4.putL t
  rw [Run_bind]
  refine (h5.gemm hg).mono (fun _ m6 h6 => ?_)
  rw [Run_bind, Run_free]
  have h7 := h6.freeL (p := L) (n := N * N) rfl rfl
  rw [Run_free]
  have h8 := h7.freeU (p := U) (n := N * N) rfl rfl
  have hu := triVal_upper hdu
  generalize triVal .upper .nonUnit true du = u at e1 h8 hu
  have hx : ∀ i < N, ∀ j < N, ∑ x ∈ range N, l i x * u x j = ∑ k ∈ range R, u (rows.get k) i * u (cols.get k) j := fun i hi j hj => by
    refine sum_pivots hR.col_lt hR.col_inj (fun k hk => ?_) (fun j hj hn => e2 j hj hn i hi)
    rw [e1 k hk i hi]
    split_ifs with c
    · exact (hu.1 _ (hR.row_lt k hk) _ hi c).symm
    · rfl
  refine ⟨_, h8.done, fun a ha b hb => ?_, fun hs i hi j hj => ?_⟩
  · exact rk_rook (T := fun i j => u j i) hR ⟨fun i hi j hj hij => hu.1 j hj i hi hij, hu.2⟩ hu hx ha hb
  · rw [hx i hi j hj, hx j hj i hi, sum_symRook (F := fun x y => u x i * u y j) hR hs]
    exact sum_congr rfl (fun k _ => mul_comm _ _)

/-! ## dense -/

/-- the matrix with the multipliers below the diagonal -/
def symFill (t : ℕ) (u : ℕ → ℕ → K) (i j : ℕ) : K := if j < i ∧ j < t ∧ u j j ≠ 0 then (u j j)⁻¹ * u j i else u i j

lemma randSymFill_on (cat : Cat) {n A lda : ℕ} {u : ℕ → ℕ → K} (h : On m0 m ⟨A, lda, n, n⟩ u) :
    Run (randSymFill cat n A lda) m (fun _ m' => On m0 m' ⟨A, lda, n, n⟩ (symFill n u)) := by
  refine Run_loop (fun t m' => On m0 m' ⟨A, lda, n, n⟩ (symFill t u)) ?_ ?_
  · exact h.congr (fun i _ j _ => by rw [symFill, if_neg (by omega)])
  · intro t m1 ht h1
    have hld : n ≤ lda := h.ld
    have a0 : A + t * (lda + 1) = (Win.mk A lda n n).adr t t := by simp [Win.adr]; ring
    have v0 : m1.val ((Win.mk A lda n n).adr t t) = u t t := by rw [h1.val ht ht, symFill, if_neg (by omega)]
    have a1 : (Win.mk A lda n n).adr t t + 1 = (Win.mk A lda n n).adr t (t + 1) := by simp [Win.adr]; ring
    have a2 : (Win.mk A lda n n).adr t t + lda = (Win.mk A lda n n).adr (t + 1) t := by simp [Win.adr]; ring
    rw [a0, Run_bind, Run_load]
    refine ⟨h1.okc ht ht, ?_⟩
    rw [v0]
    rif c
    · rw [Run_bind, Run_load]
      refine ⟨h1.okc ht ht, ?_⟩
      rw [v0, a1, a2]
      by_cases hlast : n - t - 1 = 0
      · refine (vscal_spec cat _ h1.wf' (fun x hx => ?_) (fun x hx => ?_) (fun y hy => ?_) Nat.one_pos (by omega)).mono (fun _ m2 st => ?_)
        · obtain ⟨y, hy, -⟩ := hx; simp only [] at hy; omega
        · obtain ⟨y, hy, -⟩ := hx; simp only [] at hy; omega
        · simp only [] at hy; omega
        · refine ⟨h1.wf, h1.ok, h1.ld, ⟨st.ok.trans h1.step.ok, h1.step.next.trans st.next, fun i hi j hj => ?_, fun x hx hn => ?_⟩⟩
          · rw [st.frame _ (h1.okc hi hj) (fun ⟨y, hy, _⟩ => by simp only [] at hy; omega), h1.val hi hj]
            have hi : i < n := hi
            unfold symFill
            by_cases c2 : j < i ∧ j < t ∧ u j j ≠ 0
            · rw [if_pos c2, if_pos ⟨c2.1, by omega, c2.2.2⟩]
            · rw [if_neg c2, if_neg (fun e => c2 ⟨e.1, by omega, e.2.2⟩)]
          · rw [st.frame _ (by rw [h1.step.ok]; exact hx) (fun ⟨y, hy, _⟩ => by simp only [] at hy; omega), h1.step.frame x hx hn]
      · refine (vscal_spec cat _ h1.wf' (h1.vw_row ht (by simp only []; omega)) (h1.vw_col (by simp only []; omega) ht) (Win.Disj.safe ?_ rfl rfl) Nat.one_pos
          (by simp only []; omega)).mono (fun _ m2 st => ?_)
        · intro x h2 h3
          obtain ⟨y, hy, rfl⟩ := vw_row_Has.1 h2
          obtain ⟨y', hy', e⟩ := vw_col_Has.1 h3
          have := h1.inj t ht (t + 1 + y) (by simp only []; omega) (t + 1 + y') (by simp only []; omega) t ht e
          omega
        · refine (h1.colStep (g := fun y => (u t t)⁻¹ * u t (t + 1 + y)) (i := t + 1) (j := t) (n := n - t - 1) (by simp only []; omega) ht (st.congr (fun y hy _ _ => ?_))).congr ?_
          · have hy : y < n - t - 1 := hy
            rw [Nat.mul_one, Win.adr_add_col, h1.val ht (by simp only []; omega), symFill, if_neg (by omega)]
          · intro i hi j hj
            have hi : i < n := hi
            unfold symFill
            by_cases c1 : j = t ∧ t < i
            · rw [upd_in' (by omega), if_pos ⟨by omega, by omega, by rw [c1.1]; exact c⟩, c1.1, show t + 1 + (i - (t + 1)) = i by omega]
            · rw [upd_out (by omega)]
              by_cases c2 : j < i ∧ j < t ∧ u j j ≠ 0
              · rw [if_pos c2, if_pos ⟨c2.1, by omega, c2.2.2⟩]
              · rw [if_neg c2, if_neg (fun e => c2 ⟨e.1, by omega, e.2.2⟩)]
    · rw [Run_pure]
      refine h1.congr (fun i hi j hj => ?_)
      unfold symFill
      by_cases c2 : j < i ∧ j < t ∧ u j j ≠ 0
      · rw [if_pos c2, if_pos ⟨c2.1, by omega, c2.2.2⟩]
      · rw [if_neg c2, if_neg (fun e => c2 ⟨e.1, by
          by_contra h9
          have : j = t := by omega
          rw [this] at e
          exact c e.2.2, e.2.2⟩)]

/-- what `RandomSymmetricMatrix` computes from the triangular matrix `u` -/
theorem randSym_on (cat : Cat) {tm : TrsmFn K} {g : GemmFn K} (ht : TrmmOk tm) (hg : GemmOk g) (ns : Bool) (D : TriDraws K) {n A lda : ℕ}
    {a : ℕ → ℕ → K} (h : On m m ⟨A, lda, n, n⟩ a) :
    Run (randSym cat tm g ns D n A lda) m (fun _ m' => On m m' ⟨A, lda, n, n⟩ (trtrm .right .nonUnit n (symFill n (triVal .upper .nonUnit ns D)))) := by
  unfold randSym
  rw [Run_bind]
  refine (randTri_on .upper .nonUnit ns D h (by simp)).mono (fun _ m1 h1 => ?_)
  rw [Run_bind]
  refine (randSymFill_on cat h1).mono (fun _ m2 h2 => ?_)
  exact (ftrtrm_on ht hg (n + 1) n A m2 _ (by omega) h2.here).mono (fun _ m3 h3 => h2.trans h3)

omit [DecidableEq K] in
/-- with no zero on the diagonal the product is symmetric -/
lemma symVal_eq [DecidableEq K] {n : ℕ} {u : ℕ → ℕ → K} (hu : UpperNS n u) {i j : ℕ} (hi : i < n) (hj : j < n) :
    trtrm .right .nonUnit n (symFill n u) i j = ∑ l ∈ range n, u l i * (u l l)⁻¹ * u l j := by
  unfold trtrm
  refine sum_congr rfl (fun l hl => ?_)
  have hl := mem_range.1 hl
  have hz := hu.2 l hl
  congr 1
  · rcases lt_trichotomy l i with c | c | c
    · simp only [tri, symFill]
      rw [if_neg (by omega), if_pos c, if_pos ⟨c, hl, hz⟩, mul_comm]
    · subst c
      simp [tri, otherDiag, mul_inv_cancel₀ hz]
    · simp only [tri]
      rw [if_neg (by omega), if_neg (by omega), hu.1 l hl i hi c, zero_mul]
  · rcases lt_trichotomy l j with c | c | c
    · simp only [tri, symFill]
      rw [if_neg (by omega), if_pos c, if_neg (by omega)]
    · subst c
      simp [tri, symFill]
    · simp only [tri]
      rw [if_neg (by omega), if_neg (by omega), hu.1 l hl j hj c]

end Verif.FF
