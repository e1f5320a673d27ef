import Verif.Proofs.Ftrstr
import Verif.Proofs.FsyrkDiag
import Verif.Model.Fsytrf
import Mathlib.LinearAlgebra.Matrix.Block

/-!
# Composition of triangular factorisations of a symmetric matrix
-/

namespace Verif.FF

open Finset

variable {K : Type} [Field K]

/-- `z` holds a lower triangular `T` (in the triangle `u`) with `T D⁻¹ Tᵀ = b`, `D` the diagonal of `T` -/
def NonF (u : Uplo) (n : ℕ) (b z : ℕ → ℕ → K) : Prop := (∀ i < n, z i i ≠ 0) ∧ ∀ p < n, ∀ q ≤ p,
  ∑ l ∈ range n, lowM u .nonUnit z p l * (z l l)⁻¹ * lowM u .nonUnit z q l = Spec.op (lowTr u) b p q

/-- `b` has a leading block of order `k + 1` whose rank is at most `k` -/
def FailF (u : Uplo) (n : ℕ) (b : ℕ → ℕ → K) : Prop := ∃ k < n, ∃ (T : ℕ → ℕ → K) (d : ℕ → K),
  ∀ p ≤ k, ∀ q ≤ p, ∑ l ∈ range k, T p l * d l * T q l = Spec.op (lowTr u) b p q

section
variable {u : Uplo} {n n1 n2 : ℕ} {b c z : ℕ → ℕ → K}

lemma sytTr_eq (u : Uplo) : sytTr u = lowTr u := by cases u <;> rfl

lemma op_diag (t : Tr) (z : ℕ → ℕ → K) (i : ℕ) : Spec.op t z i i = z i i := by cases t <;> rfl

lemma op_blk (t : Tr) (z : ℕ → ℕ → K) (f i j : ℕ) : Spec.op t (blk z f f) i j = Spec.op t z (f + i) (f + j) := by cases t <;> rfl

lemma lowM_blk0 (d : Diag) (x : ℕ → ℕ → K) (p l : ℕ) : lowM u d (blk x 0 0) p l = lowM u d x p l := by
  rw [← lowM_blk, Nat.zero_add, Nat.zero_add]

lemma lowM_diag (z : ℕ → ℕ → K) (p : ℕ) : lowM u .nonUnit z p p = z p p := by
  cases u <;> simp [lowM, Spec.op, lowTr, Spec.tri]

/-- the entries of the stored triangle -/
lemma lowM_le (z : ℕ → ℕ → K) {p l : ℕ} (h : l ≤ p) : lowM u .nonUnit z p l = Spec.op (lowTr u) z p l := by
  rcases Nat.lt_or_ge l p with h | h'
  · exact lowM_off h
  · obtain rfl : l = p := by omega
    rw [lowM_diag, op_diag]

lemma NonF.congr {b' z' : ℕ → ℕ → K} (h : NonF u n b z) (hb : ∀ p < n, ∀ q ≤ p, Spec.op (lowTr u) b p q = Spec.op (lowTr u) b' p q)
    (hz : ∀ p < n, ∀ q ≤ p, Spec.op (lowTr u) z p q = Spec.op (lowTr u) z' p q) : NonF u n b' z' := by
  have e0 : ∀ i < n, z i i = z' i i := fun i hi => by
    have := hz i hi i le_rfl
    rwa [op_diag, op_diag] at this
  have e1 : ∀ p < n, ∀ l, lowM u .nonUnit z p l = lowM u .nonUnit z' p l := fun p hp l => by
    rcases Nat.lt_or_ge p l with h | h
    · rw [lowM_zero h, lowM_zero h]
    · rw [lowM_le _ h, lowM_le _ h, hz p hp l h]
  refine ⟨fun i hi => by rw [← e0 i hi]; exact h.1 i hi, fun p hp q hq => ?_⟩
  rw [← hb p hp q hq, ← h.2 p hp q hq]
  exact sum_congr rfl (fun l hl => by rw [e1 p hp, e1 q (by omega), e0 l (mem_range.1 hl)])

lemma FailF.congr {b' : ℕ → ℕ → K} (h : FailF u n b) (hb : ∀ p < n, ∀ q ≤ p, Spec.op (lowTr u) b p q = Spec.op (lowTr u) b' p q) : FailF u n b' := by
  obtain ⟨k, hk, T, d, h⟩ := h
  exact ⟨k, hk, T, d, fun p hp q hq => by rw [h p hp q hq, hb p (by omega) q hq]⟩

/-- failure of the first half -/
lemma FailF.first (h : FailF u n1 (blk b 0 0)) (hn : n1 ≤ n) : FailF u n b := by
  obtain ⟨k, hk, T, d, h⟩ := h
  refine ⟨k, by omega, T, d, fun p hp q hq => ?_⟩
  rw [h p hp q hq, op_blk, Nat.zero_add, Nat.zero_add]

/-- the first half and the off-diagonal block of a factorisation, `c` being the Schur complement -/
structure HalfF (u : Uplo) (n1 n2 : ℕ) (b c z : ℕ → ℕ → K) : Prop where
  first : NonF u n1 (blk b 0 0) (blk z 0 0)
  off : ∀ i < n2, ∀ q < n1, ∑ l ∈ range n1, Spec.op (lowTr u) z (n1 + i) l * (z l l)⁻¹ * lowM u .nonUnit z q l =
    Spec.op (lowTr u) b (n1 + i) q
  schur : ∀ i < n2, ∀ j ≤ i, Spec.op (lowTr u) c i j = Spec.op (lowTr u) b (n1 + i) (n1 + j) -
    ∑ l ∈ range n1, Spec.op (lowTr u) z (n1 + i) l * (z l l)⁻¹ * Spec.op (lowTr u) z (n1 + j) l

/-- success of the second half -/
lemma HalfF.join (h : HalfF u n1 n2 b c z) (hn : n1 + n2 = n) (h2 : NonF u n2 c (blk z n1 n1)) : NonF u n b z := by
  subst hn
  refine ⟨fun i hi => ?_, fun p hp q hq => ?_⟩
  · rcases Nat.lt_or_ge i n1 with hi1 | hi1
    · have := h.first.1 i hi1
      simpa [blk] using this
    · obtain ⟨i, rfl⟩ := Nat.exists_eq_add_of_le hi1
      exact h2.1 i (by omega)
  · rw [sum_range_add]
    rcases Nat.lt_or_ge p n1 with hp1 | hp1
    · rw [sum_eq_zero (s := range n2) (fun l _ => by rw [lowM_zero (p := p) (by omega), zero_mul, zero_mul]), add_zero]
      have := h.first.2 p hp1 q hq
      simp only [lowM_blk0, op_blk, Nat.zero_add] at this
      rw [← this]
      simp only [blk, Nat.zero_add]
    · obtain ⟨i, rfl⟩ := Nat.exists_eq_add_of_le hp1
      rcases Nat.lt_or_ge q n1 with hq1 | hq1
      · rw [sum_eq_zero (s := range n2) (fun l _ => by rw [lowM_zero (p := q) (by omega), mul_zero]), add_zero,
          ← h.off i (by omega) q hq1]
        refine sum_congr rfl (fun l hl => ?_)
        have := mem_range.1 hl
        rw [lowM_off (p := n1 + i) (by omega)]
      · obtain ⟨j, rfl⟩ := Nat.exists_eq_add_of_le hq1
        have e := h2.2 i (by omega) j (by omega)
        rw [h.schur i (by omega) j (by omega)] at e
        have e1 : ∑ l ∈ range n1, lowM u .nonUnit z (n1 + i) l * (z l l)⁻¹ * lowM u .nonUnit z (n1 + j) l =
            ∑ l ∈ range n1, Spec.op (lowTr u) z (n1 + i) l * (z l l)⁻¹ * Spec.op (lowTr u) z (n1 + j) l :=
          sum_congr rfl (fun l hl => by
            have := mem_range.1 hl
            rw [lowM_off (by omega), lowM_off (by omega)])
        have e2 : ∑ l ∈ range n2, lowM u .nonUnit z (n1 + i) (n1 + l) * (z (n1 + l) (n1 + l))⁻¹ * lowM u .nonUnit z (n1 + j) (n1 + l) =
            ∑ l ∈ range n2, lowM u .nonUnit (blk z n1 n1) i l * (blk z n1 n1 l l)⁻¹ * lowM u .nonUnit (blk z n1 n1) j l :=
          sum_congr rfl (fun l _ => by simp only [lowM_blk, blk])
        rw [e1, e2, e]; ring

/-- failure of the second half -/
lemma HalfF.fail (h : HalfF u n1 n2 b c z) (hn : n1 + n2 = n) (h2 : FailF u n2 c) : FailF u n b := by
  subst hn
  obtain ⟨k, hk, T, d, h2⟩ := h2
  refine ⟨n1 + k, by omega, fun p l => if l < n1 then lowM u .nonUnit z p l else if n1 ≤ p then T (p - n1) (l - n1) else 0,
    fun l => if l < n1 then (z l l)⁻¹ else d (l - n1), fun p hp q hq => ?_⟩
  rw [sum_range_add]
  have e1 : ∀ l ∈ range n1, (if l < n1 then lowM u .nonUnit z p l else if n1 ≤ p then T (p - n1) (l - n1) else 0) *
      (if l < n1 then (z l l)⁻¹ else d (l - n1)) * (if l < n1 then lowM u .nonUnit z q l else if n1 ≤ q then T (q - n1) (l - n1) else 0) =
      lowM u .nonUnit z p l * (z l l)⁻¹ * lowM u .nonUnit z q l := fun l hl => by
    simp only [if_pos (mem_range.1 hl)]
  rw [sum_congr rfl e1]
  have e0 : ∀ x, ¬ n1 + x < n1 := fun x => by omega
  simp only [e0, if_false, Nat.add_sub_cancel_left]
  rcases Nat.lt_or_ge p n1 with hp1 | hp1
  · simp only [if_neg (show ¬ n1 ≤ p by omega), zero_mul, sum_const_zero, add_zero]
    have := h.first.2 p hp1 q hq
    simp only [lowM_blk0, op_blk, Nat.zero_add] at this
    rw [← this]
    simp only [blk, Nat.zero_add]
  · obtain ⟨i, rfl⟩ := Nat.exists_eq_add_of_le hp1
    rcases Nat.lt_or_ge q n1 with hq1 | hq1
    · simp only [if_neg (show ¬ n1 ≤ q by omega), mul_zero, sum_const_zero, add_zero]
      rw [← h.off i (by omega) q hq1]
      refine sum_congr rfl (fun l hl => ?_)
      have := mem_range.1 hl
      rw [lowM_off (p := n1 + i) (by omega)]
    · obtain ⟨j, rfl⟩ := Nat.exists_eq_add_of_le hq1
      simp only [if_pos hp1, if_pos hq1, Nat.add_sub_cancel_left]
      rw [h2 i (by omega) j (by omega), h.schur i (by omega) j (by omega)]
      have e1 : ∑ l ∈ range n1, lowM u .nonUnit z (n1 + i) l * (z l l)⁻¹ * lowM u .nonUnit z (n1 + j) l =
          ∑ l ∈ range n1, Spec.op (lowTr u) z (n1 + i) l * (z l l)⁻¹ * Spec.op (lowTr u) z (n1 + j) l :=
        sum_congr rfl (fun l hl => by
          have := mem_range.1 hl
          rw [lowM_off (by omega), lowM_off (by omega)])
      rw [e1]; ring

/-- one step of the elimination -/
lemma HalfF.one (h0 : z 0 0 ≠ 0) (hz : ∀ p < n2 + 1, Spec.op (lowTr u) z p 0 = Spec.op (lowTr u) b p 0)
    (hc : ∀ i < n2, ∀ j ≤ i, Spec.op (lowTr u) c i j = Spec.op (lowTr u) b (1 + i) (1 + j) -
      Spec.op (lowTr u) z (1 + i) 0 * (z 0 0)⁻¹ * Spec.op (lowTr u) z (1 + j) 0) : HalfF u 1 n2 b c z := by
  refine ⟨⟨fun i hi => ?_, fun p hp q hq => ?_⟩, fun i hi q hq => ?_, fun i hi j hj => ?_⟩
  · obtain rfl : i = 0 := by omega
    simpa [blk] using h0
  · obtain rfl : p = 0 := by omega
    obtain rfl : q = 0 := by omega
    simp only [range_one, sum_singleton, lowM_blk0, lowM_diag, op_blk, Nat.zero_add, blk]
    rw [← hz 0 (by omega), op_diag, mul_inv_cancel₀ h0, one_mul]
  · obtain rfl : q = 0 := by omega
    simp only [range_one, sum_singleton, lowM_diag]
    rw [mul_assoc, inv_mul_cancel₀ h0, mul_one, hz _ (by omega)]
  · rw [hc i hi j hj, range_one, sum_singleton]

/-- the state of `fsytrf_BC_Crout` after `i` columns -/
structure CroutF (u : Uplo) (n i : ℕ) (b z : ℕ → ℕ → K) : Prop where
  nz : ∀ l < i, z l l ≠ 0
  done : ∀ p < n, ∀ q ≤ p, q < i → ∑ l ∈ range i, lowM u .nonUnit z p l * (z l l)⁻¹ * lowM u .nonUnit z q l = Spec.op (lowTr u) b p q
  rest : ∀ p < n, ∀ q ≤ p, i ≤ q → Spec.op (lowTr u) z p q = Spec.op (lowTr u) b p q

variable {i : ℕ} {z' : ℕ → ℕ → K}

lemma CroutF.start : CroutF u n 0 b b := ⟨fun l hl => by omega, fun p _ q _ h => by omega, fun _ _ _ _ _ => rfl⟩

lemma CroutF.stop (h : CroutF u n n b z) : NonF u n b z := ⟨h.nz, fun p hp q hq => h.done p hp q hq (by omega)⟩

lemma CroutF.sum (h : CroutF u n i b z) (hi : i < n)
    (e : ∀ p q, Spec.op (lowTr u) z' p q = if q = i ∧ i ≤ p ∧ p < n then Spec.op (lowTr u) z p i -
      ∑ l ∈ range i, Spec.op (lowTr u) z p l * (Spec.op (lowTr u) z i l * (z l l)⁻¹) else Spec.op (lowTr u) z p q) :
    (∀ l < i, z' l l = z l l) ∧ ∀ p < n, ∀ q ≤ p, q ≤ i → ∑ l ∈ range i, lowM u .nonUnit z' p l * (z' l l)⁻¹ * lowM u .nonUnit z' q l +
      (if q = i then Spec.op (lowTr u) z' p i else 0) = Spec.op (lowTr u) b p q := by
  have e1 : ∀ l < i, z' l l = z l l := fun l hl => by
    have := e l l
    rwa [if_neg (by omega), op_diag, op_diag] at this
  have e2 : ∀ p, ∀ l < i, lowM u .nonUnit z' p l = lowM u .nonUnit z p l := fun p l hl => by
    rcases Nat.lt_or_ge p l with h | h
    · rw [lowM_zero h, lowM_zero h]
    · rw [lowM_le _ h, lowM_le _ h, e, if_neg (by omega)]
  refine ⟨e1, fun p hp q hq hqi => ?_⟩
  have e3 : ∑ l ∈ range i, lowM u .nonUnit z' p l * (z' l l)⁻¹ * lowM u .nonUnit z' q l =
      ∑ l ∈ range i, lowM u .nonUnit z p l * (z l l)⁻¹ * lowM u .nonUnit z q l :=
    sum_congr rfl (fun l hl => by
      have hl := mem_range.1 hl
      rw [e2 p l hl, e2 q l hl, e1 l hl])
  rw [e3]
  by_cases c : q = i
  · subst c
    rw [if_pos rfl, e, if_pos (by omega), h.rest p hp q hq le_rfl]
    have : ∑ l ∈ range q, lowM u .nonUnit z p l * (z l l)⁻¹ * lowM u .nonUnit z q l =
        ∑ l ∈ range q, Spec.op (lowTr u) z p l * (Spec.op (lowTr u) z q l * (z l l)⁻¹) := sum_congr rfl (fun l hl => by
      have hl := mem_range.1 hl
      rw [lowM_off (by omega), lowM_off (by omega)]; ring)
    rw [this]; ring
  · rw [if_neg c, add_zero, h.done p hp q hq (by omega)]

lemma CroutF.next (h : CroutF u n i b z) (hi : i < n)
    (e : ∀ p q, Spec.op (lowTr u) z' p q = if q = i ∧ i ≤ p ∧ p < n then Spec.op (lowTr u) z p i -
      ∑ l ∈ range i, Spec.op (lowTr u) z p l * (Spec.op (lowTr u) z i l * (z l l)⁻¹) else Spec.op (lowTr u) z p q) (h0 : z' i i ≠ 0) :
    CroutF u n (i + 1) b z' := by
  obtain ⟨e1, e2⟩ := h.sum hi e
  refine ⟨fun l hl => ?_, fun p hp q hq hqi => ?_, fun p hp q hq hqi => ?_⟩
  · rcases Nat.lt_or_ge l i with c | c
    · rw [e1 l c]; exact h.nz l c
    · obtain rfl : l = i := by omega
      exact h0
  · rw [sum_range_succ, ← e2 p hp q hq (by omega)]
    congr 1
    by_cases c : q = i
    · subst c
      rw [if_pos rfl, lowM_diag, mul_assoc, inv_mul_cancel₀ h0, mul_one, lowM_le _ hq]
    · rw [if_neg c, lowM_zero (p := q) (by omega), mul_zero]
  · rw [e, if_neg (by omega), h.rest p hp q hq (by omega)]

lemma CroutF.fail (h : CroutF u n i b z) (hi : i < n)
    (e : ∀ p q, Spec.op (lowTr u) z' p q = if q = i ∧ i ≤ p ∧ p < n then Spec.op (lowTr u) z p i -
      ∑ l ∈ range i, Spec.op (lowTr u) z p l * (Spec.op (lowTr u) z i l * (z l l)⁻¹) else Spec.op (lowTr u) z p q) (h0 : z' i i = 0) :
    FailF u n b := by
  obtain ⟨_, e2⟩ := h.sum hi e
  refine ⟨i, hi, lowM u .nonUnit z', fun l => (z' l l)⁻¹, fun p hp q hq => ?_⟩
  rw [← e2 p (by omega) q hq (by omega)]
  by_cases c : q = i
  · obtain rfl : p = i := by omega
    rw [if_pos c, op_diag, h0, add_zero]
  · rw [if_neg c, add_zero]

/-- the entry of the symmetric matrix whose triangle `u` is stored in `b` -/
lemma sym_cases {s : ℕ → ℕ → K} (hs : ∀ i j, s i j = if j ≤ i then Spec.op (lowTr u) b i j else Spec.op (lowTr u) b j i) {T : ℕ → ℕ → K}
    {d : ℕ → K} {k n : ℕ} (h : ∀ p < k, ∀ q ≤ p, ∑ l ∈ range n, T p l * d l * T q l = Spec.op (lowTr u) b p q) :
    ∀ p < k, ∀ q < k, ∑ l ∈ range n, T p l * d l * T q l = s p q := by
  intro p hp q hq
  rw [hs]
  split_ifs with c
  · exact h p hp q c
  · rw [← h q hq p (by omega)]
    exact sum_congr rfl (fun l _ => by ring)

/-- leading blocks of a factorised matrix are invertible -/
lemma NonF.det {s : ℕ → ℕ → K} (hs : ∀ i j, s i j = if j ≤ i then Spec.op (lowTr u) b i j else Spec.op (lowTr u) b j i)
    (h : NonF u n b z) {k : ℕ} (hk : k ≤ n) : (Matrix.of (fun i j : Fin k => s i j)).det ≠ 0 := by
  have e := sym_cases hs h.2
  have : Matrix.of (fun i j : Fin k => s i j) = Matrix.of (fun i l : Fin k => lowM u .nonUnit z i l) *
      Matrix.diagonal (fun l : Fin k => (z l l)⁻¹) * (Matrix.of (fun i l : Fin k => lowM u .nonUnit z i l)).transpose := by
    ext i j
    rw [Matrix.mul_apply]
    simp only [Matrix.mul_diagonal, Matrix.of_apply, Matrix.transpose_apply]
    rw [← e i (by omega) j (by omega), Fin.sum_univ_eq_sum_range (fun l => lowM u .nonUnit z i l * (z l l)⁻¹ * lowM u .nonUnit z j l) k]
    symm
    refine sum_subset (by simpa using hk) (fun l _ hl => ?_)
    have hl : k ≤ l := by simpa using hl
    rw [lowM_zero (p := (i : ℕ)) (by omega), zero_mul, zero_mul]
  rw [this, Matrix.det_mul, Matrix.det_mul, Matrix.det_transpose, Matrix.det_diagonal,
    Matrix.det_of_lowerTriangular _ (fun i j hij => ?_)]
  · simp only [Matrix.of_apply, lowM_diag]
    refine mul_ne_zero (mul_ne_zero ?_ ?_) ?_ <;> refine Finset.prod_ne_zero_iff.2 (fun l _ => ?_)
    · exact h.1 l (by omega)
    · exact inv_ne_zero (h.1 l (by omega))
    · exact h.1 l (by omega)
  · have hij : i < j := hij
    exact lowM_zero (Fin.lt_def.1 hij)

/-- failure: some leading block is singular -/
lemma FailF.det {s : ℕ → ℕ → K} (hs : ∀ i j, s i j = if j ≤ i then Spec.op (lowTr u) b i j else Spec.op (lowTr u) b j i)
    (h : FailF u n b) : ∃ k ≤ n, (Matrix.of (fun i j : Fin k => s i j)).det = 0 := by
  obtain ⟨k, hk, T, d, h⟩ := h
  have e := sym_cases hs (k := k + 1) (fun p hp => h p (by omega))
  refine ⟨k + 1, hk, ?_⟩
  have : Matrix.of (fun i j : Fin (k + 1) => s i j) = Matrix.of (fun i l : Fin (k + 1) => if (l : ℕ) < k then T i l else 0) *
      Matrix.diagonal (fun l : Fin (k + 1) => d l) * (Matrix.of (fun i l : Fin (k + 1) => if (l : ℕ) < k then T i l else 0)).transpose := by
    ext i j
    rw [Matrix.mul_apply]
    simp only [Matrix.mul_diagonal, Matrix.of_apply, Matrix.transpose_apply]
    rw [← e i i.2 j j.2, Fin.sum_univ_eq_sum_range (fun l => (if l < k then T i l else 0) * d l * (if l < k then T j l else 0)) (k + 1),
      sum_range_succ, if_neg (by omega), zero_mul, zero_mul, add_zero]
    exact sum_congr rfl (fun l hl => by rw [if_pos (mem_range.1 hl), if_pos (mem_range.1 hl)])
  rw [this, Matrix.det_mul, Matrix.det_mul, Matrix.det_eq_zero_of_column_eq_zero (Fin.last k) (fun i => by simp), zero_mul, zero_mul]

/-- from `T D⁻¹ Tᵀ` to `L D Lᵀ` -/
lemma NonF.unit {Z : ℕ → ℕ → K} (h : NonF u n b z) (e : ∀ p < n, ∀ q ≤ p, Spec.op (lowTr u) Z p q =
    if q < p then (z q q)⁻¹ * Spec.op (lowTr u) z p q else Spec.op (lowTr u) z p q) :
    (∀ l < n, Z l l ≠ 0) ∧ ∀ p < n, ∀ q ≤ p, ∑ l ∈ range n, lowM u .unit Z p l * Z l l * lowM u .unit Z q l = Spec.op (lowTr u) b p q := by
  have e0 : ∀ l < n, Z l l = z l l := fun l hl => by
    have := e l hl l le_rfl
    rwa [if_neg (by omega), op_diag, op_diag] at this
  have e1 : ∀ p < n, ∀ l < n, lowM u .unit Z p l = (z l l)⁻¹ * lowM u .nonUnit z p l := fun p hp l hl => by
    rcases Nat.lt_trichotomy p l with c | rfl | c
    · rw [lowM_zero c, lowM_zero c, mul_zero]
    · rw [lowM_diag, inv_mul_cancel₀ (h.1 p hp)]
      cases u <;> simp [lowM, Spec.op, lowTr, Spec.tri]
    · rw [lowM_off c, lowM_off c, e p hp l (by omega), if_pos c]
  refine ⟨fun l hl => by rw [e0 l hl]; exact h.1 l hl, fun p hp q hq => ?_⟩
  rw [← h.2 p hp q hq]
  refine sum_congr rfl (fun l hl => ?_)
  have hl := mem_range.1 hl
  rw [e1 p hp l hl, e1 q (by omega) l hl, e0 l hl]
  have := h.1 l hl
  field_simp

end

end Verif.FF
