import Verif.Proofs.EchelonGet2
import Verif.Proofs.SolveMath

/-!
# The extracted matrices are echelon forms
-/

namespace Verif.FF

open Finset Verif.Spec Verif.Spec.Perm Verif.Pluq Verif.Perm

variable {K : Type} [Field K] {M N R : ℕ} {X V : ℕ → ℕ → K} {p q : Equiv.Perm ℕ}

/-- a lower triangular matrix without zero on the diagonal has a left inverse -/
lemma tri_leftInv (f : ℕ → ℕ → K) : ∀ n, (∀ i < n, f i i ≠ 0) → ∃ S : ℕ → ℕ → K, ∀ i < n, ∀ k < n,
    ∑ l ∈ range n, S i l * tri .lower .nonUnit f l k = if i = k then 1 else 0 := by
  intro n h
  have hd : (toMat n n (tri .lower .nonUnit f)).det ≠ 0 := by
    rw [Matrix.det_of_lowerTriangular _ (fun i j hij => by
      have hij : i < j := hij
      simp only [toMat, tri, Matrix.of_apply]
      rw [if_neg (by intro e; exact hij.ne (Fin.ext e)), if_neg (by simp; omega)])]
    refine Finset.prod_ne_zero_iff.2 (fun i _ => ?_)
    simpa [toMat, tri] using h i i.2
  obtain ⟨B, hB⟩ := (Matrix.isUnit_iff_isUnit_det _).2 (Ne.isUnit hd) |>.exists_left_inv
  refine ⟨fun i l => if hi : i < n then if hl : l < n then B ⟨i, hi⟩ ⟨l, hl⟩ else 0 else 0, fun i hi k hk => ?_⟩
  have := congrFun (congrFun hB ⟨i, hi⟩) ⟨k, hk⟩
  rw [Matrix.mul_apply, Matrix.one_apply] at this
  rw [Finset.sum_range]
  simp only [hi, dif_pos, Fin.is_lt, Fin.eta]
  rw [show (∑ x : Fin n, B ⟨i, hi⟩ x * tri .lower .nonUnit f x k) = _ from this]
  simp [Fin.ext_iff]

lemma rowTransOf_leftInv (hV : ∀ i < R, V i i ≠ 0) : ∃ S : ℕ → ℕ → K, ∀ i < M, ∀ k < M,
    ∑ l ∈ range M, S i l * rowTransOf R V l k = if i = k then 1 else 0 := by
  have e : rowTransOf R V = tri .lower .nonUnit (fun i k => if k < R then V i k else if i = k then 1 else 0) := by
    funext i k
    unfold rowTransOf tri
    by_cases c : i = k
    · subst c; simp
    · simp only [if_neg c]
      split_ifs <;> rfl
  rw [e]
  refine tri_leftInv _ M (fun i _ => ?_)
  by_cases c : i < R
  · simpa [c] using hV i c
  · simp [c]

lemma leftInv_of_rightInv {T S : ℕ → ℕ → K} (h : ∀ i < M, ∀ k < M, ∑ l ∈ range M, T i l * S l k = if i = k then 1 else 0) :
    ∀ i < M, ∀ k < M, ∑ l ∈ range M, S i l * T l k = if i = k then 1 else 0 := by
  have h1 : toMat M M T * toMat M M S = 1 := by
    rw [← toMat_mul, ← toMat_one, toMat_ext]
    exact fun i hi j hj => h i hi j hj
  have h2 := mul_eq_one_comm.1 h1
  rw [← toMat_mul, ← toMat_one, toMat_ext] at h2
  exact fun i hi j hj => h2 i hi j hj

lemma IsReduced.leftInv (h : IsReduced M N R X V p q) : ∃ S : ℕ → ℕ → K, ∀ i < M, ∀ k < M,
    ∑ l ∈ range M, S i l * transOf 0 0 R V l k = if i = k then 1 else 0 := by
  refine ⟨fun k j => if j < R then X (p k) (q j) else if k = j then 1 else 0, leftInv_of_rightInv (fun i hi k hk => ?_)⟩
  by_cases c : k < R
  · simp only [c, if_true]
    rw [h.eq i hi k (by have := h.rN; omega), reducedOf, if_pos c, Nat.zero_add]
  · simp only [c, if_false]
    rw [sum_eq_single k (fun b _ hb => by rw [if_neg hb, mul_zero]) (fun hb => absurd (mem_range.2 hk) hb), if_pos rfl, mul_one, transOf,
      if_neg (by omega)]

/-- rows in the order `σ`, rows of `X` in the order `p`, columns in the order `q` -/
lemma rowForm {T E : ℕ → ℕ → K} {σ : ℕ → ℕ} (hR : R ≤ M) (hRN : R ≤ N) (pP : IsPermArray p M) (pQ : IsPermArray q N) (pS : IsPermArray σ M)
    (hs : ∀ i < R, σ i < R) (hs' : ∀ i, R ≤ i → σ i = i)
    (inc : ∀ k l, k < l → l < R → q (σ k) < q (σ l)) (eq : ∀ i < M, ∀ j < N, ∑ k ∈ range M, T i k * X (p k) (q j) = E i j)
    (inv : ∃ S : ℕ → ℕ → K, ∀ i < M, ∀ k < M, ∑ l ∈ range M, S i l * T l k = if i = k then 1 else 0)
    (piv : ∀ k < R, E k k = 1) (left : ∀ k < R, ∀ j < N, q j < q k → E k j = 0) (below : ∀ i < M, R ≤ i → ∀ j < N, E i j = 0) :
    IsRowEchelonForm M N R X (fun i k => T (σ i) (p⁻¹ k)) (fun i j => E (σ i) (q⁻¹ j)) (fun k => q (σ k)) := by
  have qi : ∀ j < N, q⁻¹ j < N ∧ q (q⁻¹ j) = j := by
    intro j hj
    obtain ⟨s, hs⟩ := perm_surj pQ
    obtain ⟨a, b⟩ := hs j hj
    refine ⟨?_, by simp⟩
    rw [← b]; simpa using a
  have pi : ∀ j < M, p⁻¹ j < M ∧ p (p⁻¹ j) = j := by
    intro j hj
    obtain ⟨s, hs⟩ := perm_surj pP
    obtain ⟨a, b⟩ := hs j hj
    refine ⟨?_, by simp⟩
    rw [← b]; simpa using a
  refine ⟨hR, fun k hk => pQ.1 _ ((hs k hk).trans_le hRN), inc, fun k hk => ?_, fun k hk j hj => ?_, fun i hi hRi j hj => ?_, fun i hi j hj => ?_, ?_⟩
  · simpa using piv _ (hs k hk)
  · have hj : j < q (σ k) := hj
    have hjN : j < N := hj.trans (pQ.1 _ ((hs k hk).trans_le hRN))
    exact left _ (hs k hk) _ (qi j hjN).1 (by rw [(qi j hjN).2]; exact hj)
  · rw [hs' i hRi]
    exact below i hi hRi _ (qi j hj).1
  · rw [← eq (σ i) (pS.1 i hi) _ (qi j hj).1, (qi j hj).2, ← sum_perm pP]
    exact sum_congr rfl (fun k _ => by simp)
  · obtain ⟨S, hS⟩ := inv
    refine ⟨fun i l => S (p⁻¹ i) (σ l), fun i hi k hk => ?_⟩
    rw [sum_perm pS (fun l => S (p⁻¹ i) l * T l (p⁻¹ k)), hS _ (pi i hi).1 _ (pi k hk).1]
    simp

/-- tile: the rows are put in the order of the pivots -/
lemma IsEchelon.form (h : IsEchelon M N R X V p q) : IsRowEchelonForm M N R X (fun i k => rowTransOf R V (ech q R i) (p⁻¹ k))
    (fun i j => rowEchOf R V (ech q R i) (q⁻¹ j)) (srt q R) := by
  have := rowForm (T := rowTransOf R V) (E := rowEchOf R V) h.rM h.rN h.pP h.pQ (ech_perm q h.rM) (fun i hi => ech_lt hi) (fun i hi => ech_ge hi)
    (fun k l => ech_inc) h.eq (rowTransOf_leftInv h.inv) (fun k hk => by rw [rowEchOf, if_pos hk]; simp [tri]) h.mono
    (fun i _ hR j _ => by rw [rowEchOf, if_neg (by omega)])
  exact ⟨this.rM, fun k hk => by rw [← ech_srt hk]; exact this.cN k hk, fun k l hkl hl => srt_lt q hkl hl,
    fun k hk => by rw [← ech_srt hk]; exact this.piv k hk, fun k hk j hj => this.left k hk j (by rw [← ech_srt hk] at hj; exact hj), this.below, this.eq,
    this.inv⟩

/-- slab -/
lemma IsSlabEchelon.form {c : ℕ → ℕ} (h : IsSlabEchelon M N R X V p c) : IsRowEchelonForm M N R X (fun i k => rowTransOf R V i (p⁻¹ k))
    (fun i j => if i < R then slabRow V c i j else 0) c := by
  have pi : ∀ j < M, p⁻¹ j < M ∧ p (p⁻¹ j) = j := by
    intro j hj
    obtain ⟨s, hs⟩ := perm_surj h.pP
    obtain ⟨a, b⟩ := hs j hj
    refine ⟨?_, by simp⟩
    rw [← b]; simpa using a
  refine ⟨h.rM, h.qN, h.inc, fun k hk => by simp only [if_pos hk]; exact slabRow_eq, fun k hk j hj => by simp only [if_pos hk]; exact slabRow_lt hj,
    fun i _ hR j _ => if_neg (by omega), fun i hi j hj => ?_, ?_⟩
  · rw [← h.eq i hi j hj, ← sum_perm h.pP]
    exact sum_congr rfl (fun k _ => by simp)
  · obtain ⟨S, hS⟩ := rowTransOf_leftInv (M := M) h.inv
    refine ⟨fun i l => S (p⁻¹ i) l, fun i hi k hk => ?_⟩
    rw [hS _ (pi i hi).1 _ (pi k hk).1]
    simp

/-- reduced forms, the order of the rows given by `σ` -/
lemma IsReduced.form {σ : ℕ → ℕ} (h : IsReduced M N R X V p q) (pS : IsPermArray σ M) (hs : ∀ i < R, σ i < R) (hs' : ∀ i, R ≤ i → σ i = i)
    (inc : ∀ k l, k < l → l < R → q (σ k) < q (σ l)) :
    IsReducedRowEchelonForm M N R X (fun i k => transOf 0 0 R V (σ i) (p⁻¹ k)) (fun i j => reducedOf 0 0 R V (σ i) (q⁻¹ j)) (fun k => q (σ k)) := by
  have := rowForm (T := transOf 0 0 R V) (E := reducedOf 0 0 R V) h.rM h.rN h.pP h.pQ pS hs hs' inc h.eq (IsReduced.leftInv h)
    (fun k hk => by rw [reducedOf, if_pos hk]; simp) (fun k hk j hj hq => ?_) (fun i _ hR j _ => ?_)
  · refine ⟨this, fun i hi k hk => ?_⟩
    have e : q⁻¹ (q (σ k)) = σ k := by simp
    simp only [e]
    rw [reducedOf, if_pos (hs k hk), Nat.zero_add]
    by_cases c : i = k
    · subst c; simp
    · rw [if_neg c, if_neg]
      exact fun e => c (pS.2 i (by have := h.rM; omega) k (by have := h.rM; omega) e)
  · unfold reducedOf
    by_cases c : j < R
    · rw [if_pos c, if_neg (by rintro rfl; simp at hq)]
    · rw [if_neg c, if_pos (by omega), Nat.zero_add, h.mono k hk j hj (by omega) hq]
  · unfold reducedOf
    split_ifs <;> first | rfl | (exfalso; omega)

/-! ### uniqueness of the reduced form -/

/-- a combination of the rows of an echelon form starts in a column of a pivot -/
lemma comb_lead {r : ℕ} {E : ℕ → ℕ → K} {c : ℕ → ℕ} (inc : ∀ k l, k < l → l < r → c k < c l) (piv : ∀ k < r, E k (c k) = 1)
    (left : ∀ k < r, ∀ j < c k, E k j = 0) (a : ℕ → K) {j0 : ℕ} (h0 : ∑ k ∈ range r, a k * E k j0 ≠ 0)
    (hl : ∀ j < j0, ∑ k ∈ range r, a k * E k j = 0) : ∃ k < r, c k = j0 := by
  by_contra hn
  push Not at hn
  have hz : ∀ k < r, c k < j0 → a k = 0 := by
    intro k
    induction k using Nat.strong_induction_on with
    | _ k ih =>
      intro hk hc
      have := hl (c k) hc
      rw [sum_eq_single k (fun b hb hbk => ?_) (fun hb => absurd (mem_range.2 hk) hb), piv k hk, mul_one] at this
      · exact this
      · have hb := mem_range.1 hb
        rcases Nat.lt_or_gt_of_ne hbk with h | h
        · rw [ih b h hb ((inc b k h hk).trans hc), zero_mul]
        · rw [left b hb _ (inc k b h hb), mul_zero]
  refine h0 (sum_eq_zero (fun k hk => ?_))
  have hk := mem_range.1 hk
  rcases Nat.lt_or_ge (c k) j0 with h | h
  · rw [hz k hk h, zero_mul]
  · rw [left k hk j0 (lt_of_le_of_ne h (fun e => hn k hk e.symm)), mul_zero]

/-- the rows of one form are combinations of those of another -/
lemma _root_.Verif.Spec.IsRowEchelonForm.comb {r r' : ℕ} {T T' E E' : ℕ → ℕ → K} {c c' : ℕ → ℕ} (h : IsRowEchelonForm M N r X T E c)
    (h' : IsRowEchelonForm M N r' X T' E' c') : ∃ B : ℕ → ℕ → K, ∀ i < M, ∀ j < N, E' i j = ∑ k ∈ range r, B i k * E k j := by
  obtain ⟨S, hS⟩ := h.inv
  have hS' := leftInv_of_rightInv hS
  have hX : ∀ l < M, ∀ j < N, X l j = ∑ k ∈ range M, S l k * E k j := by
    intro l hl j hj
    rw [sum_congr rfl (fun k hk => by rw [← h.eq k (mem_range.1 hk) j hj, mul_sum])]
    rw [sum_comm]
    simp_rw [← mul_assoc, ← sum_mul]
    rw [sum_eq_single l (fun b hb hbl => by rw [hS l hl b (mem_range.1 hb), if_neg hbl.symm, zero_mul]) (fun hb => absurd (mem_range.2 hl) hb),
      hS l hl l hl, if_pos rfl, one_mul]
  refine ⟨fun i k => ∑ l ∈ range M, T' i l * S l k, fun i hi j hj => ?_⟩
  rw [← h'.eq i hi j hj, sum_congr rfl (fun l hl => by rw [hX l (mem_range.1 hl) j hj, mul_sum]), sum_comm]
  rw [← sum_subset (range_subset_range.2 h.rM) (fun k hk hk' => sum_eq_zero (fun l _ => by
    rw [h.below k (mem_range.1 hk) (by simpa using hk') j hj, mul_zero, mul_zero]))]
  refine sum_congr rfl (fun k _ => ?_)
  rw [sum_mul]
  exact sum_congr rfl (fun l _ => by ring)

lemma _root_.Verif.Spec.IsRowEchelonForm.sub {r r' : ℕ} {T T' E E' : ℕ → ℕ → K} {c c' : ℕ → ℕ} (h : IsRowEchelonForm M N r X T E c)
    (h' : IsRowEchelonForm M N r' X T' E' c') : ∀ k < r', ∃ l < r, c l = c' k := by
  obtain ⟨B, hB⟩ := h.comb h'
  intro k hk
  have hM := h'.rM
  have hN := h'.cN k hk
  refine comb_lead h.inc h.piv h.left (B k) ?_ (fun j hj => ?_)
  · rw [← hB k (by omega) _ hN, h'.piv k hk]; exact one_ne_zero
  · rw [← hB k (by omega) j (by omega), h'.left k hk j hj]

/-- two increasing enumerations of the same set -/
lemma inc_unique {r r' : ℕ} {c c' : ℕ → ℕ} (inc : ∀ k l, k < l → l < r → c k < c l) (inc' : ∀ k l, k < l → l < r' → c' k < c' l)
    (h : ∀ k < r', ∃ l < r, c l = c' k) (h' : ∀ k < r, ∃ l < r', c' l = c k) : r = r' ∧ ∀ k < r, c k = c' k := by
  have key : ∀ k, k < r → k < r' → c k = c' k := by
    intro k
    induction k using Nat.strong_induction_on with
    | _ k ih =>
      intro hk hk'
      obtain ⟨l, hl, e⟩ := h k hk'
      obtain ⟨l', hl', e'⟩ := h' k hk
      have h1 : k ≤ l := by
        by_contra hc
        have := ih l (by omega) hl (by omega)
        have := inc' l k (by omega) hk'
        omega
      have h2 : k ≤ l' := by
        by_contra hc
        have := ih l' (by omega) (by omega) hl'
        have := inc l' k (by omega) hk
        omega
      rcases Nat.eq_or_lt_of_le h1 with rfl | h1
      · exact e
      · rcases Nat.eq_or_lt_of_le h2 with rfl | h2
        · exact e'.symm
        · have := inc k l h1 hl
          have := inc' k l' h2 hl'
          omega
  have hr : r = r' := by
    rcases lt_trichotomy r r' with c0 | c0 | c0
    · obtain ⟨l, hl, e⟩ := h r c0
      have := key l hl (by omega)
      have := inc' l r hl c0
      omega
    · exact c0
    · obtain ⟨l, hl, e⟩ := h' r' c0
      have := key l (by omega) hl
      have := inc l r' hl c0
      omega
  exact ⟨hr, fun k hk => key k hk (by omega)⟩

/-- the rank and the pivots do not depend on the echelon form -/
theorem _root_.Verif.Spec.IsRowEchelonForm.unique {r r' : ℕ} {T T' E E' : ℕ → ℕ → K} {c c' : ℕ → ℕ} (h : IsRowEchelonForm M N r X T E c)
    (h' : IsRowEchelonForm M N r' X T' E' c') : r = r' ∧ ∀ k < r, c k = c' k := inc_unique h.inc h'.inc (h.sub h') (h'.sub h)

/-- and the reduced form is unique -/
theorem _root_.Verif.Spec.IsReducedRowEchelonForm.unique {r r' : ℕ} {T T' E E' : ℕ → ℕ → K} {c c' : ℕ → ℕ}
    (h : IsReducedRowEchelonForm M N r X T E c) (h' : IsReducedRowEchelonForm M N r' X T' E' c') : ∀ i < M, ∀ j < N, E i j = E' i j := by
  obtain ⟨rfl, hc⟩ := h.toIsRowEchelonForm.unique h'.toIsRowEchelonForm
  obtain ⟨B, hB⟩ := h.toIsRowEchelonForm.comb h'.toIsRowEchelonForm
  intro i hi j hj
  by_cases ci : i < r
  · have e : ∀ k < r, B i k = if i = k then 1 else 0 := by
      intro k hk
      have := hB i hi (c k) (h.cN k hk)
      rw [hc k hk, h'.red i ci k hk, ← hc k hk] at this
      rw [this, sum_eq_single k (fun b hb hbk => by rw [h.red b (mem_range.1 hb) k hk, if_neg hbk, mul_zero])
        (fun hb => absurd (mem_range.2 hk) hb), h.red k hk k hk, if_pos rfl, mul_one]
    rw [hB i hi j hj, sum_eq_single i (fun b hb hbi => by rw [e b (mem_range.1 hb), if_neg hbi.symm, zero_mul])
      (fun hb => absurd (mem_range.2 ci) hb), e i ci, if_pos rfl, one_mul]
  · rw [h.below i hi (by omega) j hj, h'.below i hi (by omega) j hj]

/-- the rank of the leading columns is the number of pivots in them -/
theorem _root_.Verif.Spec.IsRowEchelonForm.rank_cols {r b : ℕ} {T E : ℕ → ℕ → K} {c : ℕ → ℕ} (h : IsRowEchelonForm M N r X T E c) (hb : b ≤ N) :
    rk X M b = ((range r).filter (fun k => c k < b)).card := by
  obtain ⟨S, hS⟩ := h.inv
  have hM := h.rM
  have hU : IsUnit (toMat M M T).det := by
    have : toMat M M S * toMat M M T = 1 := by
      rw [← toMat_mul, ← toMat_one, toMat_ext]
      exact fun i hi j hj => hS i hi j hj
    have := congrArg Matrix.det this
    rw [Matrix.det_mul, Matrix.det_one] at this
    exact IsUnit.of_mul_eq_one_right _ this
  have e : toMat M M T * toMat M b X = toMat M b E := by
    rw [← toMat_mul, toMat_ext]
    exact fun i hi j hj => h.eq i hi j (by omega)
  rw [rk, ← Matrix.rank_mul_eq_right_of_isUnit_det _ _ hU, e]
  let F := (range r).filter (fun k => c k < b)
  have mem : ∀ {k}, k ∈ F ↔ k < r ∧ c k < b := by intro k; simp [F]
  refine le_antisymm ?_ ?_
  · let L : Matrix (Fin M) F K := fun x k => if (x : ℕ) = k then 1 else 0
    let U : Matrix F (Fin b) K := fun k y => E k y
    have e2 : toMat M b E = L * U := by
      ext x y
      rw [Matrix.mul_apply, toMat_apply]
      by_cases hx : (x : ℕ) ∈ F
      · rw [sum_eq_single ⟨x, hx⟩ (fun k _ hk => ?_) (fun hn => absurd (mem_univ _) hn)]
        · simp [L, U]
        · rw [show L x k = 0 from if_neg (fun e => hk (Subtype.ext e.symm)), zero_mul]
      · rw [sum_eq_zero (fun k _ => by rw [show L x k = 0 from if_neg (fun (e : (x : ℕ) = k) => hx (by rw [e]; exact k.2)), zero_mul])]
        by_cases hr : (x : ℕ) < r
        · refine h.left x hr y ?_
          rw [mem] at hx
          have := y.2
          omega
        · exact h.below x x.2 (by omega) y (by have := y.2; omega)
    rw [e2]
    refine (Matrix.rank_mul_le_left L U).trans ((Matrix.rank_le_card_width L).trans ?_)
    simp [F]
  · let f : F → Fin M := fun k => ⟨k, by have := (mem.1 k.2).1; omega⟩
    let g : F → Fin b := fun k => ⟨c k, (mem.1 k.2).2⟩
    have hdet : ((toMat M b E).submatrix f g).det ≠ 0 := by
      rw [Matrix.det_of_upperTriangular]
      · rw [prod_ne_zero_iff]
        intro k _
        rw [show (toMat M b E).submatrix f g k k = E k (c k) from rfl, h.piv k (mem.1 k.2).1]
        exact one_ne_zero
      · intro i j hij
        exact h.left i (mem.1 i.2).1 _ (h.inc j i hij (mem.1 i.2).1)
    have := Matrix.rank_of_det_ne_zero hdet
    rw [Fintype.card_coe] at this
    rw [show ((range r).filter (fun k => c k < b)).card = F.card from rfl, ← this]
    exact Matrix.rank_submatrix_le _ f g

theorem _root_.Verif.Spec.IsRowEchelonForm.rank_eq {r : ℕ} {T E : ℕ → ℕ → K} {c : ℕ → ℕ} (h : IsRowEchelonForm M N r X T E c) : rk X M N = r := by
  rw [h.rank_cols le_rfl, filter_true_of_mem (fun k hk => h.cN k (mem_range.1 hk)), card_range]

end Verif.FF
