import Verif.Proofs.Fsytrf
import Verif.Props.Ftrstr
import Verif.Props.Solve

/-!
# Property C74: triangular factorisation of symmetric matrices
-/

namespace Verif.Props

open Verif.FF Finset

variable {K : Type} [Field K] [DecidableEq K] {m : Mem K} {u : Uplo} {cat : Cat} {g : GemmFn K} {n A lda D incD thr : ℕ}

/-- the symmetric matrix whose triangle `u` is stored in `b` -/
def symOf (u : Uplo) (b : ℕ → ℕ → K) (i j : ℕ) : K := if Spec.inHalf u i j then b i j else b j i

/-- generic rank profile: the determinants of all leading blocks of `S` are nonzero -/
def GenericRP (n : ℕ) (S : ℕ → ℕ → K) : Prop := ∀ k ≤ n, (Matrix.of (fun i j : Fin k => S i j)).det ≠ 0

/-- `S = L D Lᵀ` (lower) or `S = Uᵀ D U` (upper), with `L` or `U` unit triangular in the triangle `u` of `X`, and `D` on the diagonal -/
def IsLDLT (u : Uplo) (n : ℕ) (S X : ℕ → ℕ → K) : Prop := ∀ i < n, ∀ j < n,
  ∑ l ∈ range n, lowOp u (Spec.tri u .unit X) i l * X l l * lowOp u (Spec.tri u .unit X) j l = S i j

/-- `S = T D⁻¹ Tᵀ` with `T` triangular in the triangle `u` of `X`, and `y` the inverse of `D` -/
def IsTDT (u : Uplo) (n : ℕ) (S X : ℕ → ℕ → K) (y : ℕ → K) : Prop := ∀ i < n, ∀ j < n,
  ∑ l ∈ range n, lowOp u (Spec.tri u .nonUnit X) i l * y l * lowOp u (Spec.tri u .nonUnit X) j l = S i j

omit [DecidableEq K] in
lemma lowOp_eq (d : Diag) (X : ℕ → ℕ → K) : lowOp u (Spec.tri u d X) = lowM u d X := by cases u <;> rfl

omit [DecidableEq K] in
lemma symOf_eq (b : ℕ → ℕ → K) (i j : ℕ) : symOf u b i j = if j ≤ i then Spec.op (lowTr u) b i j else Spec.op (lowTr u) b j i := by
  cases u with
  | upper =>
    unfold symOf
    by_cases h1 : i ≤ j
    · rw [if_pos (show Spec.inHalf .upper i j from h1)]
      split_ifs with h2
      · obtain rfl : i = j := by omega
        rfl
      · rfl
    · rw [if_neg (show ¬ Spec.inHalf .upper i j from h1), if_pos (by omega)]
      rfl
  | lower => rfl

/-- C74, partial: `fsytrf_nonunit` with a contiguous `Dinv` returns true if and only if the symmetric matrix has generic rank profile;
then `S = T Dinv Tᵀ` with `Dinv` the inverse of the diagonal of `T`.  Only `A` and `Dinv` are modified.  Any base case meeting its
contract, any correct `ftrsm` and `fsyrk`.  Missing: other strides of `Dinv` (see `C74_incDinv_violated`), the threshold 0
(`C74_threshold_violated`). -/
theorem C74_nonunit_partial {bc : SytrfFn K} {ts : TrFn K} {sk : SyrkDFn K} (ht : TrsmOk ts) (hk : SyrkDOk sk) (h1 : 1 ≤ thr)
    (hb : ∀ n ≤ thr, SytOk u lda 1 n (fun A D => bc u n A lda D 1)) (hA : Rect m n n A lda) (hD : Rect m n 1 D 1)
    (hd : (Win.mk A lda n n).Disj ⟨D, 1, n, 1⟩) :
    Run (fsytrfNonunit bc ts sk u lda 1 thr (n + 1) n A D) m (fun r m' => Only2 m m' ⟨A, lda, n, n⟩ ⟨D, 1, n, 1⟩ ∧
      (r = true ↔ GenericRP n (symOf u (m.mat ⟨A, lda, n, n⟩))) ∧
      (r = true → IsTDT u n (symOf u (m.mat ⟨A, lda, n, n⟩)) (m'.mat ⟨A, lda, n, n⟩) (fun l => m'.val (D + l)) ∧
        ∀ l < n, m'.val (D + l) * m'.mat ⟨A, lda, n, n⟩ l l = 1)) := by
  have h0 : On2 m m ⟨A, lda, n, n⟩ (m.mat ⟨A, lda, n, n⟩) (vw D 1 n) (m.mat (vw D 1 n)) :=
    ⟨hA.wf, hA.ok, hD.ok, hA.ld, le_rfl, hd, rfl, le_rfl, fun _ _ _ _ => rfl, fun _ _ _ _ => rfl, fun _ _ _ _ => rfl⟩
  refine (fsytrfNonunit_ok ht hk h1 hb (n + 1) n (by omega) (by omega) m A D _ _ h0).mono ?_
  rintro r m' ⟨z, y, g1, ht1, hf1⟩
  refine ⟨On2.only g1, ⟨fun hr k hk => (ht1 hr).1.det (symOf_eq _) hk, fun hg => ?_⟩, fun hr => ?_⟩
  · cases r with
    | true => rfl
    | false =>
      obtain ⟨k, hk, e⟩ := (hf1 rfl).det (symOf_eq _)
      exact absurd e (hg k hk)
  · obtain ⟨N1, Y1⟩ := ht1 hr
    have ey : ∀ l < n, m'.val (D + l) = (z l l)⁻¹ := fun l hl => by
      have := g1.right.val (i := l) (j := 0) hl Nat.one_pos
      simp only [Win.adr, vw, Nat.mul_one, Nat.add_zero] at this
      rw [this, Y1 l hl]
    have ez : ∀ i < n, ∀ j < n, m'.mat ⟨A, lda, n, n⟩ i j = z i j := fun i hi j hj => g1.left.mat hi hj
    refine ⟨fun i hi j hj => ?_, fun l hl => ?_⟩
    · rw [lowOp_eq, ← sym_cases (symOf_eq _) N1.2 i hi j hj]
      refine sum_congr rfl (fun l hl => ?_)
      have hl := mem_range.1 hl
      rw [lowM_congr ez hi hl, lowM_congr ez hj hl]
      simp only [ey l hl]
    · rw [ey l hl, ez l hl l hl, inv_mul_cancel₀ (N1.1 l hl)]

/-- Specification of `fsytrf`: the answer tells whether the stored symmetric matrix has generic rank profile; if it has, `A` holds its
factorisation and only `A` is modified, with the same memory allocated as before. -/
def Factorises (u : Uplo) (n A lda : ℕ) (m m' : Mem K) (r : Bool) : Prop :=
  (r = true ↔ GenericRP n (symOf u (m.mat ⟨A, lda, n, n⟩))) ∧
  (∀ a, m.ok a = true → ¬ (Win.mk A lda n n).Has a → m'.val a = m.val a) ∧
  (r = true → m'.ok = m.ok ∧ IsLDLT u n (symOf u (m.mat ⟨A, lda, n, n⟩)) (m'.mat ⟨A, lda, n, n⟩) ∧ ∀ l < n, m'.mat ⟨A, lda, n, n⟩ l l ≠ 0)

/-- C74, partial: `fsytrf` with any base case, `ftrsm` and `fsyrk` meeting their contracts.  Missing: the threshold 0, and that the memory
allocated is the same as before also if the answer is false (see `C74_leak_violated`). -/
theorem C74_fsytrf_partial (cat : Cat) {bc : SytrfFn K} {ts : TrFn K} {sk : SyrkDFn K} (ht : TrsmOk ts) (hk : SyrkDOk sk) (h1 : 1 ≤ thr)
    (hb : ∀ n ≤ thr, SytOk u lda 1 n (fun A D => bc u n A lda D 1)) (hA : Rect m n n A lda) :
    Run (fsytrf cat bc ts sk u n A lda thr) m (fun r m' => Factorises u n A lda m m' r) := by
  refine (fsytrf_on cat ht hk h1 hb hA.on).mono ?_
  rintro r m' ⟨h1, h2⟩
  cases r with
  | false =>
    obtain ⟨f, _, fr⟩ := h2 rfl
    obtain ⟨k, hk, e⟩ := f.det (symOf_eq _)
    exact ⟨⟨fun hh => absurd hh (by simp), fun hg => absurd e (hg k hk)⟩, fr, fun hh => absurd hh (by simp)⟩
  | true =>
    obtain ⟨z, Z, N1, hZ, e⟩ := h1 rfl
    obtain ⟨e0, e1⟩ := N1.unit e
    have ez : ∀ i < n, ∀ j < n, m'.mat ⟨A, lda, n, n⟩ i j = Z i j := fun i hi j hj => hZ.mat hi hj
    refine ⟨⟨fun _ k hk => N1.det (symOf_eq _) hk, fun _ => rfl⟩, hZ.step.frame, fun _ => ⟨hZ.step.ok, fun i hi j hj => ?_, fun l hl => ?_⟩⟩
    · rw [lowOp_eq, ← sym_cases (symOf_eq _) e1 i hi j hj]
      refine sum_congr rfl (fun l hl => ?_)
      have hl := mem_range.1 hl
      rw [lowM_congr ez hi hl, lowM_congr ez hj hl, ez l hl l hl]
    · rw [ez l hl l hl]; exact e0 l hl

/-- C74 with the library's kernels and the default base case: fields with delayed reduction, or the upper triangle. -/
theorem C74_fsytrf_RL (hx : cat = .modular ∨ u = .upper) (hg : GemmOk g) {thr' : ℕ} (h1 : 1 ≤ thr) (h1' : 1 ≤ thr') (hA : Rect m n n A lda) :
    Run (fsytrf cat (fsytrfBcRL cat) (ftrsm cat g) (fsyrkD cat g thr') u n A lda thr) m (fun r m' => Factorises u n A lda m m' r) :=
  C74_fsytrf_partial cat (ftrsm_TrsmOk cat hg) (fsyrkD_ok cat hg h1') h1 (fun n _ => fsytrfRL_ok hx n) hA

/-- C74 with the library's kernels and the base case `fsytrf_BC_Crout`. -/
theorem C74_fsytrf_Crout (hg : GemmOk g) {thr' : ℕ} (h1 : 1 ≤ thr) (h1' : 1 ≤ thr') (hA : Rect m n n A lda) :
    Run (fsytrf cat (fsytrfBcCrout cat) (ftrsm cat g) (fsyrkD cat g thr') u n A lda thr) m (fun r m' => Factorises u n A lda m m' r) :=
  C74_fsytrf_partial cat (ftrsm_TrsmOk cat hg) (fsyrkD_ok cat hg h1') h1 (fun n _ => fsytrfCrout_ok cat n) hA

omit [DecidableEq K] in
/-- The factorisation is unique: the result does not depend on the algorithm, the threshold or the unused triangle. -/
theorem C74_unique {S X Y : ℕ → ℕ → K} (hX : IsLDLT u n S X) (hY : IsLDLT u n S Y) (hz : ∀ l < n, X l l ≠ 0) :
    ∀ i < n, ∀ j < n, Spec.inHalf u i j → X i j = Y i j := by
  have low : ∀ (Z : ℕ → ℕ → K) p, lowM u .unit Z p p = 1 := fun Z p => by cases u <;> simp [lowM, Spec.op, lowTr, Spec.tri]
  have key : ∀ q < n, ∀ p < n, q ≤ p → Spec.op (lowTr u) X p q = Spec.op (lowTr u) Y p q := by
    intro q
    induction q using Nat.strong_induction_on with
    | _ q ih =>
      intro hq
      have cut : ∀ (Z : ℕ → ℕ → K), IsLDLT u n S Z → ∀ p < n, q ≤ p →
          ∑ l ∈ range q, lowM u .unit Z p l * Z l l * lowM u .unit Z q l + lowM u .unit Z p q * Z q q = S p q := by
        intro Z hZ p hp hqp
        have := hZ p hp q hq
        rw [lowOp_eq] at this
        have e : ∑ l ∈ range (q + 1), lowM u .unit Z p l * Z l l * lowM u .unit Z q l = ∑ l ∈ range n, lowM u .unit Z p l * Z l l * lowM u .unit Z q l :=
          sum_subset (fun x hx => by simp only [mem_range] at *; omega) (fun l _ hl => by
            rw [lowM_zero (p := q) (by simpa using hl), mul_zero])
        rw [← this, ← e, sum_range_succ, low, mul_one]
      have same : ∀ p < n, q ≤ p → lowM u .unit X p q * X q q = lowM u .unit Y p q * Y q q := by
        intro p hp hqp
        have e1 := cut X hX p hp hqp
        have e2 := cut Y hY p hp hqp
        rw [← e2] at e1
        have : ∑ l ∈ range q, lowM u .unit X p l * X l l * lowM u .unit X q l = ∑ l ∈ range q, lowM u .unit Y p l * Y l l * lowM u .unit Y q l :=
          sum_congr rfl (fun l hl => by
            have hl := mem_range.1 hl
            have a := ih l hl (by omega) p hp (by omega)
            have b := ih l hl (by omega) q hq (by omega)
            have c := ih l hl (by omega) l (by omega) le_rfl
            rw [op_diag, op_diag] at c
            rw [lowM_off (by omega), lowM_off (by omega), lowM_off (by omega), lowM_off (by omega), a, b, c])
        rw [this] at e1
        exact add_left_cancel e1
      have dg : X q q = Y q q := by
        have := same q hq le_rfl
        rwa [low, low, one_mul, one_mul] at this
      intro p hp hqp
      rcases Nat.lt_or_ge q p with c | c
      · have := same p hp hqp
        rw [← dg, lowM_off c, lowM_off c] at this
        exact mul_right_cancel₀ (hz q hq) this
      · obtain rfl : p = q := by omega
        rw [op_diag, op_diag, dg]
  intro i hi j hj hh
  cases u with
  | upper => exact key i hi j hj hh
  | lower => exact key j hj i hi hh

/-! ### concrete cases -/

/-- a symmetric matrix of order 3 stored in both triangles, `lda = 4` -/
def sytex : Mem ℚ := memOf [2, 4, 6, 77, 4, 5, 7, 77, 6, 7, 1]

lemma sytex_pre : Rect sytex 3 3 0 4 := ⟨WF_memOf _, OkIn_memOf (by decide), by decide⟩

/-- the library's `fsytrf` over the rationals -/
def sytRun (cat : Cat) (u : Uplo) (n lda thr : ℕ) : Prog ℚ Bool :=
  fsytrf cat (fsytrfBcRL cat) (ftrsm cat (gemmClassic cat)) (fsyrkD cat (gemmClassic cat) 1) u n 0 lda thr

example : Rect sytex 3 3 0 4 ∧ result (sytRun .modular .upper 3 4 1) sytex = some true ∧ result (sytRun .generic .upper 3 4 1) sytex = some true ∧
    (List.range 11).map (after (sytRun .modular .upper 3 4 1) sytex) = [2, 2, 3, 77, 4, -3, 5/3, 77, 6, 7, -26/3].map some ∧
    (List.range 11).map (after (sytRun .modular .lower 3 4 1) sytex) = [2, 4, 6, 77, 2, -3, 7, 77, 3, 5/3, -26/3].map some ∧
    (List.range 11).map (after (sytRun .modular .lower 3 4 5) sytex) = [2, 4, 6, 77, 2, -3, 7, 77, 3, 5/3, -26/3].map some :=
  ⟨sytex_pre, by decide +kernel, by decide +kernel, by decide +kernel, by decide +kernel, by decide +kernel⟩

/-- the code's version with a larger base case and `fsytrf_BC_Crout` -/
example : (List.range 11).map (after (fsytrf .generic (fsytrfBcCrout .generic) (ftrsm .generic (gemmClassic .generic))
    (fsyrkD .generic (gemmClassic .generic) 1) .lower 3 0 4 2) sytex) = [2, 4, 6, 77, 2, -3, 7, 77, 3, 5/3, -26/3].map some := by decide +kernel

/-- a matrix without generic rank profile is refused -/
example : result (sytRun .modular .upper 2 2 1) (memOf [1, 2, 2, 4]) = some false ∧ result (sytRun .modular .lower 2 2 1) (memOf [0, 2, 2, 4]) = some false :=
  ⟨by decide +kernel, by decide +kernel⟩

/-- The answer false leaves the `n` cells of `Dinv` allocated (for every call with `n > 0`). -/
theorem C74_leak_violated (cat : Cat) {bc : SytrfFn K} {ts : TrFn K} {sk : SyrkDFn K} (ht : TrsmOk ts) (hk : SyrkDOk sk) (h1 : 1 ≤ thr)
    (hb : ∀ n ≤ thr, SytOk u lda 1 n (fun A D => bc u n A lda D 1)) (hA : Rect m n n A lda)
    (hg : ¬ GenericRP n (symOf u (m.mat ⟨A, lda, n, n⟩))) :
    Run (fsytrf cat bc ts sk u n A lda thr) m (fun r m' => r = false ∧ ∃ p, ∀ i < n, m.ok (p + i) = false ∧ m'.ok (p + i) = true) := by
  refine (fsytrf_on cat ht hk h1 hb hA.on).mono ?_
  rintro r m' ⟨h1, h2⟩
  cases r with
  | false =>
    refine ⟨rfl, m.next, fun i hi => ⟨hA.wf _ (by omega), ?_⟩⟩
    rw [(h2 rfl).2.1]
    simp only [Mem.grow, Bool.or_eq_true, Bool.and_eq_true, decide_eq_true_eq]
    omega
  | true =>
    obtain ⟨z, _, N1, _⟩ := h1 rfl
    exact absurd (fun k hk => N1.det (symOf_eq _) hk) hg

/-- the hypotheses of `C74_leak_violated` -/
example : Rect (memOf [(1 : ℚ), 2, 2, 4]) 2 2 0 2 ∧ ¬ GenericRP 2 (symOf .upper ((memOf [(1 : ℚ), 2, 2, 4]).mat ⟨0, 2, 2, 2⟩)) := by
  refine ⟨⟨WF_memOf _, OkIn_memOf (by decide), by decide⟩, fun h => h 2 le_rfl ?_⟩
  rw [Matrix.det_fin_two]
  simp only [Matrix.of_apply]
  decide +kernel

/-- Over fields without delayed reduction, the lower triangle: a singular matrix is accepted (the default base case subtracts with a
strided `faxpy`, wrong for the coefficient `-1`). -/
theorem C74_lower_violated : ∃ m : Mem ℚ, Rect m 2 2 0 2 ∧ ¬ GenericRP 2 (symOf .lower (m.mat ⟨0, 2, 2, 2⟩)) ∧
    result (sytRun .generic .lower 2 2 2) m = some true ∧ result (sytRun .modular .lower 2 2 2) m = some false := by
  refine ⟨memOf [1, 0, 1, 1], ⟨WF_memOf _, OkIn_memOf (by decide), by decide⟩, fun h => h 2 le_rfl ?_, by decide +kernel, by decide +kernel⟩
  rw [Matrix.det_fin_two]
  simp only [Matrix.of_apply]
  decide +kernel

/-- a symmetric matrix of order 2 and a vector `Dinv` with `incDinv = 2`: cells 4 and 6 -/
def sytinc : Mem ℚ := memOf [2, 3, 3, 1, 70, 80, 90]

/-- `fsytrf_nonunit` with `incDinv = 2` beyond the threshold: the second entry of `Dinv` is stored in the wrong cell, which does not
belong to `Dinv`. -/
theorem C74_incDinv_violated : OkIn sytinc ⟨0, 2, 2, 2⟩ ∧ OkIn sytinc ⟨4, 2, 2, 1⟩ ∧ (Win.mk 0 2 2 2).Disj ⟨4, 2, 2, 1⟩ ∧ ¬ (Win.mk 4 2 2 1).Has 5 ∧
    (let p := fsytrfNonunit (fsytrfBcRL .modular) (ftrsm .modular (gemmClassic .modular)) (fsyrkD .modular (gemmClassic .modular) 1) .upper 2 2 1 3 2 0 4
     result p sytinc = some true ∧ after p sytinc 3 = some (-7/2) ∧ after p sytinc 5 = some (-2/7) ∧ after p sytinc 6 = some 90) := by
  refine ⟨OkIn_memOf (by decide), OkIn_memOf (by decide), Win.Ends.disj (by decide), ?_, by decide +kernel, by decide +kernel, by decide +kernel, by decide +kernel⟩
  rintro ⟨i, hi, j, hj, e⟩
  simp only [Win.adr] at e hi hj
  omega

/-- With the threshold 0 the recursion never ends, for a matrix of order 1 and whatever the depth allowed. -/
theorem C74_threshold_violated (cat : Cat) {ts : TrFn K} {sk : SyrkDFn K} (incD : ℕ) (fuel : ℕ) (m : Mem K) (A D : ℕ) (Q : Bool → Mem K → Prop) :
    ¬ Run (fsytrfNonunit (fsytrfBcRL cat) ts sk u lda incD 0 fuel 1 A D) m Q := by
  induction fuel generalizing m A D with
  | zero =>
    simp only [fsytrfNonunit]
    rintro ⟨_, _, h, _⟩
    exact absurd h (by simp [liftE])
  | succ fuel ih =>
    have e0 : ∀ fuel A D (m : Mem K) (Q : Bool → Mem K → Prop), Run (fsytrfNonunit (fsytrfBcRL cat) ts sk u lda incD 0 fuel 0 A D) m Q → Q true m := by
      intro fuel A D m Q h
      cases fuel with
      | zero =>
        simp only [fsytrfNonunit] at h
        obtain ⟨_, _, h, _⟩ := h
        exact absurd h (by simp [liftE])
      | succ f => simpa [fsytrfNonunit, fsytrfBcRL, fsytrfRL] using h
    intro h
    simp only [fsytrfNonunit] at h
    rw [if_neg (by omega), Run_bind] at h
    have h := e0 _ _ _ _ _ h
    rw [if_neg (by simp), Run_bind] at h
    obtain ⟨_, m1, _, h⟩ := h
    rw [Run_bind] at h
    obtain ⟨_, m2, _, h⟩ := h
    exact ih _ _ _ h

end Verif.Props
