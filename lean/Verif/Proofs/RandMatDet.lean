import Verif.Proofs.RandMat
import Verif.Proofs.Det

/-!
# Random matrices of given rank or determinant, and left triangular ones
-/

namespace Verif.FF

open Finset Verif.Spec Verif.RandMat Verif.Spec.Perm Verif.RandRook

variable {K : Type} [Field K] [DecidableEq K] {m0 m m' : Mem K} {W : Win} {V V' : ℕ → ℕ → K}

lemma randLapack_ok (d : ℕ → ℕ) (n : ℕ) : Ok (randLapack d n) (fun P => P.len = n ∧ ∀ i < n, P.get i < n) := by
  unfold randLapack randomPermutation
  refine (Ok_iter (fun t (P' : Arr ℕ) => P'.len = n ∧ ∀ i < t, P'.get i < n) ⟨rfl, by omega⟩ ?_)
  rintro t P' ht ⟨h0, h1⟩
  rw [Ok_bind]
  refine (randInt_ok (by omega)).mono ?_
  rintro x ⟨e, -, x2⟩
  rw [Ok_wr]
  refine ⟨by omega, h0, fun i hi => ?_⟩
  simp only [Function.update_apply]
  split_ifs with c
  · omega
  · exact h1 i (by omega)

/-- `(-1)^k` is `1` if and only if the flag is `true` -/
def sgn (K : Type) [Field K] (b : Bool) : K := if b = true then 1 else -1

omit [DecidableEq K] in
lemma permSign_ok {n : ℕ} {P : Arr ℕ} (hP : n ≤ P.len) (b : Bool) : Ok (permSign n P b) (fun b' => sgn K b' = sgn K b * (-1) ^ exch P.get n) := by
  unfold permSign
  refine Ok_iter (fun t b' => sgn K b' = sgn K b * (-1) ^ exch P.get t) (by simp [exch]) ?_
  rintro t b' ht e
  rw [Ok_bind, Ok_rd]
  refine ⟨by omega, ?_⟩
  rw [Ok_pure, exch_succ]
  by_cases c : P.get t = t
  · rw [if_neg (by simpa using c), if_neg (by simpa using c), e, Nat.add_zero]
  · rw [if_pos c, if_pos c, pow_add, ← mul_assoc, ← e]
    cases b' <;> simp [sgn]

/-- the product of the factors with their rows and columns permuted -/
def permProd (k : ℕ) (σ τ : ℕ → ℕ) (l u : ℕ → ℕ → K) (i j : ℕ) : K := ∑ x ∈ range k, l (σ i) x * u x (τ j)

/-- permutations of both factors, their product, and the end -/
lemma permGemm {g : GemmFn K} (hg : GemmOk g) {M N k A lda L U : ℕ} {a l u : ℕ → ℕ → K} {P Q : Arr ℕ} (hP : P.len = N ∧ ∀ i < N, P.get i < N)
    (hQ : Q.len = M ∧ ∀ i < M, Q.get i < M) (hk : k = M) (h : Two m0 m ⟨A, lda, M, N⟩ a ⟨L, k, M, k⟩ l ⟨U, N, k, N⟩ u) :
    Run (do
      applyP .right .no k 0 N U N P
      applyP .left .no M 0 M L k Q
      g .no .no M N k 1 L k U N 0 A lda
      free L (M * k)
      free U (k * N)) m (fun _ m' => On m0 m' ⟨A, lda, M, N⟩ (permProd k (ofSwaps Q.get M) ((ofSwaps P.get N)⁻¹ : Equiv.Perm ℕ) l u)) := by
  subst hk
  rw [Run_bind]
  have t1 := applyP_col (i0 := 0) (j0 := 0) (r := k) (c := N) (ibeg := 0) (iend := N) (P := P) .no h.onU (by simp) (by simp) le_rfl hP.1.ge hP.2
  rw [show (Win.mk U N k N).adr 0 0 = U by simp [Win.adr]] at t1
  refine t1.mono (fun _ m1 t => ?_)
  have h1 := h.putU t
  rw [Run_bind]
  have t2 := applyP_row (i0 := 0) (j0 := 0) (r := k) (c := k) (ibeg := 0) (iend := k) (P := Q) .no h1.onL (by simp) (by simp) le_rfl hQ.1.ge hQ.2
  rw [show (Win.mk L k k k).adr 0 0 = L by simp [Win.adr]] at t2
  refine t2.mono (fun _ m2 t => ?_)
  have h2 := h1.putL t
  rw [Run_bind]
  refine (h2.gemm hg).mono (fun _ m3 h3 => ?_)
  rw [Run_bind, Run_free]
  have h4 := h3.freeL (p := L) (n := k * k) rfl rfl
  rw [Run_free]
  have h5 := h4.freeU (p := U) (n := k * N) rfl rfl
  refine h5.done.congr (fun i hi j hj => ?_)
  have hi : i < k := hi
  have hj : j < N := hj
  refine sum_congr rfl (fun x hx => ?_)
  have hx := mem_range.1 hx
  unfold permRows permCols
  rw [upd_in' (by omega), upd_in' (by omega)]
  simp only [Nat.sub_zero, Nat.zero_add, appliedPerm, swapsFrom_zero]
  have := swapsDown_eq P.get 0 N
  rw [Nat.zero_add, swapsFrom_zero] at this
  rw [this]

section
omit [DecidableEq K]

/-- permutations of `Fin n` from arrays of exchanges -/
lemma permProd_eq {M N : ℕ} {P Q : ℕ → ℕ} {l u : ℕ → ℕ → K} (hP : ∀ i < N, P i < N) (hQ : ∀ i < M, Q i < M) :
    ∃ (σ : Equiv.Perm (Fin M)) (τ : Equiv.Perm (Fin N)), Equiv.Perm.sign σ = (-1) ^ exch Q M ∧ Equiv.Perm.sign τ = (-1) ^ exch P N ∧
      toMat M N (permProd M (ofSwaps Q M) ((ofSwaps P N)⁻¹ : Equiv.Perm ℕ) l u) = (toMat M M l * toMat M N u).submatrix σ τ := by
  obtain ⟨σ, s1, s2⟩ := exists_sign hQ M le_rfl
  obtain ⟨τ, t1, t2⟩ := exists_sign hP N le_rfl
  refine ⟨σ, τ⁻¹, s2, by rw [Equiv.Perm.sign_inv, t2], ?_⟩
  ext i j
  have e : ((τ⁻¹ j : Fin N) : ℕ) = ((ofSwaps P N)⁻¹ : Equiv.Perm ℕ) j := by
    rw [Equiv.Perm.eq_inv_iff_eq, ← t1]
    simp
  show ∑ x ∈ range M, _ = _
  rw [Matrix.submatrix_apply, Matrix.mul_apply, ← Fin.sum_univ_eq_sum_range (fun x => l (ofSwaps Q M i) x * u x (((ofSwaps P N)⁻¹ : Equiv.Perm ℕ) j))]
  refine sum_congr rfl (fun x _ => ?_)
  rw [toMat_apply, toMat_apply, s1, e]

lemma permProd_det {n : ℕ} {P Q : ℕ → ℕ} {l u : ℕ → ℕ → K} (hP : ∀ i < n, P i < n) (hQ : ∀ i < n, Q i < n) :
    (toMat n n (permProd n (ofSwaps Q n) ((ofSwaps P n)⁻¹ : Equiv.Perm ℕ) l u)).det =
      (-1) ^ exch P n * (-1) ^ exch Q n * ((toMat n n l).det * (toMat n n u).det) := by
  obtain ⟨σ, τ, s, t, e⟩ := permProd_eq (l := l) (u := u) hP hQ
  have e2 : (toMat n n l * toMat n n u).submatrix σ τ = ((toMat n n l * toMat n n u).submatrix σ id).submatrix id τ := rfl
  rw [e, e2, Matrix.det_permute', Matrix.det_permute, s, t, Matrix.det_mul]
  push_cast
  ring

lemma permProd_rank {M N : ℕ} {P Q : ℕ → ℕ} {l u : ℕ → ℕ → K} (hP : ∀ i < N, P i < N) (hQ : ∀ i < M, Q i < M) (hl : IsUnit (toMat M M l).det) :
    (toMat M N (permProd M (ofSwaps Q M) ((ofSwaps P N)⁻¹ : Equiv.Perm ℕ) l u)).rank = (toMat M N u).rank := by
  obtain ⟨σ, τ, -, -, e⟩ := permProd_eq (l := l) (u := u) hP hQ
  rw [e, Matrix.rank_submatrix, Matrix.rank_mul_eq_right_of_isUnit_det _ _ hl]

/-- an upper trapezoidal matrix with no zero on its diagonal has full rank -/
lemma trapezoid_rank {M N : ℕ} {u : ℕ → ℕ → K} (h : ∀ i < M, ∀ j < N, j < i → u i j = 0) (hd : ∀ i < min M N, u i i ≠ 0) :
    (toMat M N u).rank = min M N := by
  refine le_antisymm ?_ ?_
  · exact le_min ((Matrix.rank_le_card_height _).trans (by simp)) ((Matrix.rank_le_card_width _).trans (by simp))
  · have hu : UpperNS (min M N) u := ⟨fun i hi j hj => h i (by omega) j (by omega), hd⟩
    have := Matrix.rank_of_isUnit _ ((Matrix.isUnit_iff_isUnit_det _).2 (hu.det le_rfl))
    rw [Fintype.card_fin] at this
    rw [← this]
    exact Matrix.rank_submatrix_le (toMat M N u) (fun i : Fin (min M N) => ⟨i, by omega⟩) (fun i : Fin (min M N) => ⟨i, by omega⟩)

end

/-- `RandomMatrixWithRank` -/
theorem randRank_spec {g : GemmFn K} (hg : GemmOk g) {dl du : TriDraws K} (dp dq : ℕ → ℕ) {M N r A lda : ℕ} (hdl : ∀ i < M, dl.nz i ≠ 0)
    (hdu : ∀ i < min M N, du.nz i ≠ 0) {a : ℕ → ℕ → K} (h : On m m ⟨A, lda, M, N⟩ a) :
    Run (randRank g dl du dp dq M N r A lda) m (fun _ m' => ∃ x, On m m' ⟨A, lda, M, N⟩ x ∧ (toMat M N x).rank = min M N) := by
  unfold randRank
  have h := Two.start h
  rw [Run_bind, Run_alloc]
  obtain ⟨f1, h1⟩ := h.allocU M N
  change Run _ (m.grow (M * N)) _
  generalize m.grow (M * N) = m1 at h1 ⊢
  generalize m.next = U at h1 ⊢
  rw [Run_bind, Run_alloc]
  obtain ⟨f2, h2⟩ := h1.allocL M M
  change Run _ (m1.grow (M * M)) _
  generalize m1.grow (M * M) = m2 at h2 ⊢
  generalize m1.next = L at h2 ⊢
  rw [Run_bind]
  refine (randTri_on .lower .nonUnit true dl h2.onL (by simp)).mono (fun _ m3 t => ?_)
  have h3 := h2.putL t
  rw [Run_bind]
  refine (randTri_on .upper .nonUnit true du h3.onU (by simp)).mono (fun _ m4 t => ?_)
  have h4 := h3.putU t
  rw [Run_bind, Run_liftE]
  refine (randLapack_ok dp N).mono (fun P hP => ?_)
  rw [Run_bind, Run_liftE]
  refine (randLapack_ok dq M).mono (fun Q hQ => ?_)
  refine (permGemm hg hP hQ rfl h4).mono (fun _ m5 h5 => ⟨_, h5, ?_⟩)
  rw [permProd_rank hP.2 hQ.2 ((triVal_lower hdl).det le_rfl)]
  refine trapezoid_rank (fun i hi j hj hij => ?_) (fun i hi => by simpa [triVal] using hdu i hi)
  simp only [triVal, triBody]
  rw [if_neg (by omega), if_neg (by omega)]

lemma diagProd_spec {n L : ℕ} {l : ℕ → ℕ → K} (h : On m m ⟨L, n, n, n⟩ l) : ∀ k ≤ n, Run (diagProd n L k) m (fun x m' => m' = m ∧ x = ∏ i ∈ range k, l i i)
  | 0, _ => by rw [diagProd, Run_pure]; exact ⟨rfl, by simp⟩
  | k+1, hk => by
    rw [diagProd, Run_bind]
    refine (diagProd_spec h k (by omega)).mono ?_
    rintro x m1 ⟨rfl, rfl⟩
    have e : L + (k * n + k) = (Win.mk L n n n).adr k k := by simp [Win.adr]; ring
    rw [e, Run_bind, Run_load]
    refine ⟨h.okc (by simp only []; omega) (by simp only []; omega), ?_⟩
    rw [Run_pure, h.val (by simp only []; omega) (by simp only []; omega), prod_range_succ]
    exact ⟨rfl, rfl⟩

/-- `RandomMatrixWithDet` -/
theorem randDet_spec {g : GemmFn K} (hg : GemmOk g) {dl du : TriDraws K} (dp dq : ℕ → ℕ) {n A lda : ℕ} (d : K) (hn : 0 < n) (hdl : ∀ i < n, dl.nz i ≠ 0)
    {a : ℕ → ℕ → K} (h : On m m ⟨A, lda, n, n⟩ a) :
    Run (randDet g dl du dp dq n d A lda) m (fun _ m' => ∃ x, On m m' ⟨A, lda, n, n⟩ x ∧ (toMat n n x).det = d) := by
  unfold randDet
  have h := Two.start h
  rw [Run_bind, Run_alloc]
  obtain ⟨f1, h1⟩ := h.allocU n n
  change Run _ (m.grow (n * n)) _
  generalize m.grow (n * n) = m1 at h1 ⊢
  generalize m.next = U at h1 ⊢
  rw [Run_bind, Run_alloc]
  obtain ⟨f2, h2⟩ := h1.allocL n n
  change Run _ (m1.grow (n * n)) _
  generalize m1.grow (n * n) = m2 at h2 ⊢
  generalize m1.next = L at h2 ⊢
  rw [Run_bind, Run_liftE]
  refine (randLapack_ok dp n).mono (fun P hP => ?_)
  rw [Run_bind, Run_liftE]
  refine (randLapack_ok dq n).mono (fun Q hQ => ?_)
  rw [Run_bind, Run_liftE]
  refine (permSign_ok (K := K) hP.1.ge true).mono (fun s1 e1 => ?_)
  rw [Run_bind, Run_liftE]
  refine (permSign_ok (K := K) hQ.1.ge s1).mono (fun s e2 => ?_)
  rw [e1] at e2
  rw [Run_bind]
  refine (randTri_on .lower .nonUnit true dl h2.onL (by simp)).mono (fun _ m3 t => ?_)
  have h3 := h2.putL t
  have hl := triVal_lower hdl
  generalize triVal .lower .nonUnit true dl = l at h3 hl
  rw [Run_bind]
  refine Run_usub hn ?_
  rw [Run_bind]
  refine (diagProd_spec h3.onL (n - 1) (by omega)).mono ?_
  rintro dd m4 ⟨rfl, rfl⟩
  have hz : ∏ i ∈ range (n - 1), l i i ≠ 0 := prod_ne_zero_iff.2 (fun i hi => hl.2 i (by have := mem_range.1 hi; omega))
  rw [if_neg hz, Run_bind]
  refine Run_usub (Nat.mul_pos hn hn) ?_
  rw [Run_bind]
  have ea : L + (n * n - 1) = (Win.mk L n n n).adr (n - 1) (n - 1) := by
    obtain ⟨k, rfl⟩ : ∃ k, n = k + 1 := ⟨n - 1, by omega⟩
    simp only [Win.adr, Nat.add_sub_cancel]
    have : (k + 1) * (k + 1) = k * (k + 1) + k + 1 := by ring
    omega
  generalize hD : ∏ i ∈ range (n - 1), l i i = D at hz
  refine (store_to (V' := fun i j => if i = n - 1 ∧ j = n - 1 then (if s = true then d / D else -(d / D)) else l i j) h3.onL (i := n - 1) (j := n - 1)
    (by simp only []; omega) (by simp only []; omega) (fun _ _ _ _ => rfl) ea).mono (fun _ m5 t => ?_)
  have h5 := h3.putL t
  rw [Run_bind]
  refine (randTri_on .upper .unit true du h5.onU (by simp)).mono (fun _ m6 t => ?_)
  have h6 := h5.putU t
  refine (permGemm hg hP hQ rfl h6).mono (fun _ m7 h7 => ⟨_, h7, ?_⟩)
  rw [permProd_det hP.2 hQ.2, LowerNS.det_eq, UpperNS.det_eq]
  · have r : range n = range (n - 1 + 1) := by rw [Nat.sub_add_cancel hn]
    have e3 : ∏ k ∈ range n, triVal .upper .unit true du k k = 1 := prod_eq_one (fun k _ => by simp [triVal])
    have e4 : ∏ k ∈ range n, (if k = n - 1 ∧ k = n - 1 then (if s = true then d / D else -(d / D)) else l k k) = D * (sgn K s * (d / D)) := by
      rw [r, prod_range_succ, if_pos (show n - 1 = n - 1 ∧ n - 1 = n - 1 from ⟨rfl, rfl⟩), ← hD]
      congr 1
      · exact prod_congr rfl (fun k hk => by rw [if_neg (by have := mem_range.1 hk; omega)])
      · cases s <;> simp [sgn]
    rw [e3, e4, e2]
    have q : ∀ k : ℕ, ((-1 : K) ^ k) * (-1) ^ k = 1 := fun k => by rw [← mul_pow]; simp
    have p1 := q (exch P.get n)
    have p2 := q (exch Q.get n)
    generalize ((-1 : K) ^ exch P.get n) = x at *
    generalize ((-1 : K) ^ exch Q.get n) = y at *
    simp only [sgn, if_pos]
    field_simp
    linear_combination (y * y * d) * p1 + d * p2
  · intro i hi j hj hij
    simp only [triVal, triBody]
    rw [if_neg (by omega), if_neg (by omega)]
  · intro i hi j hj hij
    rw [if_neg (by omega), hl.1 i hi j hj hij]

/-- the right triangle set to zero -/
lemma fzeroRight_on {n A lda : ℕ} {x : ℕ → ℕ → K} (h : On m0 m ⟨A, lda, n, n⟩ x) :
    Run (fzeroRight n A lda) m (fun _ m' => On m0 m' ⟨A, lda, n, n⟩ (fun i j => if i + j + 1 < n then x i j else 0)) := by
  refine (Run_loop (fun t m' => On m0 m' ⟨A, lda, n, n⟩ (fun i j => if i + j + 1 < n ∨ i + t < n then x i j else 0)) ?_ ?_).mono ?_
  · exact h.congr (fun i hi j _ => by rw [if_pos (by right; exact hi)])
  · intro t m1 ht h1
    refine vzero_to h1 (i := n - 1 - t) (j := t) (by simp only []; omega) (by simp only []; omega) ?_ (by simp [Win.adr]; omega)
    intro a ha b hb
    have ha : a < n := ha
    have hb : b < n := hb
    by_cases c : a = n - 1 - t ∧ t ≤ b ∧ b < t + (n - t)
    · rw [if_pos c, if_neg (by omega)]
    · rw [if_neg c]
      by_cases c2 : a + b + 1 < n ∨ a + t < n
      · rw [if_pos c2, if_pos (by omega)]
      · rw [if_neg c2, if_neg (by omega)]
  · intro _ m1 h1
    refine h1.congr (fun i hi j hj => ?_)
    have hi : i < n := hi
    by_cases c : i + j + 1 < n
    · rw [if_pos c, if_pos (Or.inl c)]
    · rw [if_neg c, if_neg (by omega)]

end Verif.FF
