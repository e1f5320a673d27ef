import Verif.Proofs.MinPolyMath

/-!
# The matrix induced on the quotient by a Krylov space
-/

namespace Verif.FF

open Finset Verif.Perm Verif.Spec Verif.Spec.Perm Verif.Pluq Verif.Lud Polynomial

variable {K : Type} [Field K] {N R k e : ℕ} {Y V a y : ℕ → ℕ → K} {p : ℕ → ℕ} {c : ℕ → K}

lemma toMat_mulVec (M : ℕ → ℕ → K) (d : ℕ → K) (i : Fin R) :
    (toMat R R M).mulVec (fun j : Fin R => d j) i = ∑ l ∈ range R, M i l * d l := by
  rw [Matrix.mulVec, dotProduct, ← Fin.sum_univ_eq_sum_range (fun l => M i l * d l) R]
  rfl

/-- a matrix without kernel -/
def NoKer (R : ℕ) (M : ℕ → ℕ → K) : Prop := ∀ d : ℕ → K, (∀ i < R, ∑ l ∈ range R, M i l * d l = 0) → ∀ l < R, d l = 0

lemma ext_fin (x : Fin R → K) : ∃ d : ℕ → K, x = fun j : Fin R => d j :=
  ⟨fun j => if h : j < R then x ⟨j, h⟩ else 0, by funext j; simp⟩

lemma NoKer.det {M : ℕ → ℕ → K} (h : NoKer R M) : (toMat R R M).det ≠ 0 := by
  intro h0
  obtain ⟨x, hx, h1⟩ := Matrix.exists_mulVec_eq_zero_iff.2 h0
  obtain ⟨d, rfl⟩ := ext_fin x
  refine hx ?_
  have := h d (fun i hi => by rw [← toMat_mulVec M d ⟨i, hi⟩, h1]; rfl)
  funext j
  exact this j j.2

lemma NoKer.solve {M : ℕ → ℕ → K} (h : NoKer R M) (b : ℕ → K) : ∃ z : ℕ → K, ∀ i < R, ∑ l ∈ range R, M i l * z l = b i := by
  obtain ⟨z, hz⟩ := ext_fin ((toMat R R M)⁻¹.mulVec (fun j : Fin R => b j))
  refine ⟨z, fun i hi => ?_⟩
  rw [← toMat_mulVec M z ⟨i, hi⟩, ← hz, Matrix.mulVec_mulVec, Matrix.mul_nonsing_inv _ (isUnit_iff_ne_zero.2 h.det), Matrix.one_mulVec]

/-- the leading square of the eliminated rows is invertible -/
lemma Con.noKer (h : Con R N R Y V p) : NoKer R (fun i l => Y l (p i)) := by
  intro d hd
  have rN := h.rN
  have e : ∀ j < R, ∑ i ∈ range R, luU .unit V i j * ∑ l ∈ range R, luL .unit V l i * d l = 0 := by
    intro j hj
    rw [← hd j hj]
    simp_rw [mul_sum]
    rw [sum_comm]
    refine sum_congr rfl (fun l hl => ?_)
    have hl := mem_range.1 hl
    rw [h.fac l (by omega) (by omega) j (by omega), sum_mul]
    exact sum_congr rfl (fun i _ => by ring)
  have u := lower_unique (L := fun i k => luU .unit V k i) (y := fun i => ∑ l ∈ range R, luL .unit V l i * d l) h.dU
    (fun i _ k _ hik => luU_gt hik) e
  exact upper_unique (U := fun i k => luL .unit V k i) (y := d) h.dL (fun i _ k _ hik => luL_gt hik) u

lemma chi_transpose (n : ℕ) (f : ℕ → ℕ → K) : chi n (fun i j => f j i) = chi n f := by
  unfold chi
  rw [← Matrix.charpoly_transpose]
  rfl

lemma chi_perm (hp : IsPermArray p N) (f : ℕ → ℕ → K) : chi N (fun i j => f (p i) (p j)) = chi N f := by
  unfold chi
  have hb : Function.Bijective (fun i : Fin N => (⟨p i, hp.1 i i.2⟩ : Fin N)) := by
    rw [Function.Bijective, ← Finite.injective_iff_surjective, and_self]
    intro i j hij
    exact Fin.ext (hp.2 i i.2 j j.2 (Fin.mk.inj_iff.1 hij))
  rw [← Matrix.charpoly_reindex (Equiv.ofBijective _ hb) (toMat N N (fun i j => f (p i) (p j)))]
  congr 1
  ext i j
  simp only [Matrix.reindex_apply, Matrix.submatrix_apply, toMat_apply]
  have hi := (Equiv.ofBijective _ hb).apply_symm_apply i
  have hj := (Equiv.ofBijective _ hb).apply_symm_apply j
  rw [Equiv.ofBijective_apply] at hi hj
  have hi := congrArg Fin.val hi
  have hj := congrArg Fin.val hj
  simp only [] at hi hj
  rw [hi, hj]

/-- the case where the permutation is trivial -/
lemma luk_id (hK : IsKrylov (k + e) a y) (hk : 1 ≤ k) (hC : Con k (k + e) k y V id) (hrel : ∀ j < k + e, y k j = ∑ l ∈ range k, c l * y l j)
    {B S : ℕ → ℕ → K} (hB : ∀ i < e, ∀ j < k, ∑ l ∈ range k, B i l * luU .unit V l j = a j (k + i))
    (hS : ∀ i < e, ∀ j < e, S i j = a (k + j) (k + i) - ∑ l ∈ range k, B i l * V l (k + j)) :
    chi (k + e) a = (X ^ k - ∑ i ∈ range k, C (c i) * X ^ i) * chi e S := by
  have nk := hC.noKer
  simp only [id] at nk
  choose z hz using fun i : ℕ => nk.solve (fun j => a j (k + i))
  have hzB : ∀ i < e, ∀ l < k, ∑ t ∈ range k, luL .unit V t l * z i t = B i l := by
    intro i hi l hl
    have := lower_unique (L := fun i k => luU .unit V k i) (y := fun m => ∑ t ∈ range k, luL .unit V t m * z i t - B i m) hC.dU
      (fun i _ k _ hik => luU_gt hik) (fun j hj => by
        simp_rw [mul_sub]
        rw [sum_sub_distrib, sub_eq_zero]
        have e1 : ∑ l ∈ range k, luU .unit V l j * B i l = a j (k + i) := by
          rw [← hB i hi j hj]; exact sum_congr rfl (fun l _ => mul_comm _ _)
        rw [e1, ← hz i j hj]
        simp_rw [mul_sum]
        rw [sum_comm]
        refine sum_congr rfl (fun t ht => ?_)
        have ht := mem_range.1 ht
        have := hC.fac t ht ht.le j (by omega)
        simp only [id] at this
        rw [this, sum_mul]
        exact sum_congr rfl (fun m _ => by ring)) l hl
    exact sub_eq_zero.1 this
  let T : ℕ → ℕ → K := fun i j => if j < k then y j i else if i = j then 1 else 0
  let B' : ℕ → ℕ → K := fun i j => if j < k then (if j + 1 < k then (if i = j + 1 then 1 else 0) else if i < k then c i else 0) else
    if i < k then z (j - k) i else S (j - k) (i - k)
  have hTB : ∀ i < k + e, ∀ f : ℕ → K, ∑ l ∈ range (k + e), T i l * f l = ∑ l ∈ range k, y l i * f l + (if k ≤ i then f i else 0) := by
    intro i hi f
    rw [sum_range_add]
    congr 1
    · exact sum_congr rfl (fun l hl => by simp only [T]; rw [if_pos (mem_range.1 hl)])
    · have e1 : ∀ l ∈ range e, T i (k + l) * f (k + l) = if l = i - k ∧ k ≤ i then f i else 0 := fun l _ => by
        simp only [T]
        rw [if_neg (show ¬ k + l < k by omega)]
        by_cases q : i = k + l
        · subst q; rw [if_pos rfl, if_pos ⟨by omega, by omega⟩, one_mul]
        · rw [if_neg q, if_neg (by omega), zero_mul]
      rw [sum_congr rfl e1]
      by_cases q : k ≤ i
      · simp only [q, and_true, if_true]
        rw [Finset.sum_ite_eq' , if_pos (mem_range.2 (by omega))]
      · simp [q]
  have hT : NoKer (k + e) T := by
    intro d hd
    have h1 : ∀ i < k + e, ∑ l ∈ range k, y l i * d l + (if k ≤ i then d i else 0) = 0 := by
      intro i hi
      rw [← hTB i hi d]; exact hd i hi
    have h2 : ∀ l < k, d l = 0 := nk d (fun i hi => by
      have := h1 i (by omega)
      rw [if_neg (by omega), add_zero] at this
      exact this)
    intro l hl
    by_cases q : l < k
    · exact h2 l q
    · have := h1 l hl
      rw [if_pos (by omega), sum_eq_zero (fun t ht => by rw [h2 t (mem_range.1 ht), mul_zero]), zero_add] at this
      exact this
  have hsim : chi (k + e) a = chi (k + e) B' := by
    refine chi_similar hT.det (fun i hi j hj => ?_)
    rw [mul, mul, hTB i hi]
    by_cases q : j < k
    · have e1 : ∑ l ∈ range (k + e), a i l * T l j = y (j + 1) i := by
        rw [hK j i hi]
        exact sum_congr rfl (fun l _ => by simp only [T]; rw [if_pos q])
      rw [e1]
      by_cases q2 : j + 1 < k
      · have e2 : ∀ l ∈ range k, y l i * B' l j = if l = j + 1 then y (j + 1) i else 0 := fun l _ => by
          simp only [B']
          rw [if_pos q, if_pos q2]
          by_cases q3 : l = j + 1
          · subst q3; rw [if_pos rfl, if_pos rfl, mul_one]
          · rw [if_neg q3, if_neg q3, mul_zero]
        have e3 : (if k ≤ i then B' i j else 0) = 0 := by
          by_cases q4 : k ≤ i
          · rw [if_pos q4]; simp only [B']; rw [if_pos q, if_pos q2, if_neg (by omega)]
          · rw [if_neg q4]
        rw [sum_congr rfl e2, Finset.sum_ite_eq', if_pos (mem_range.2 q2), e3, add_zero]
      · have e2 : ∀ l ∈ range k, y l i * B' l j = c l * y l i := fun l hl => by
          simp only [B']
          rw [if_pos q, if_neg q2, if_pos (mem_range.1 hl), mul_comm]
        have e3 : (if k ≤ i then B' i j else 0) = 0 := by
          by_cases q4 : k ≤ i
          · rw [if_pos q4]; simp only [B']; rw [if_pos q, if_neg q2, if_neg (by omega)]
          · rw [if_neg q4]
        rw [sum_congr rfl e2, e3, add_zero, show j + 1 = k by omega, hrel i hi]
    · obtain ⟨t, rfl⟩ : ∃ t, j = k + t := ⟨j - k, by omega⟩
      have e1 : ∑ l ∈ range (k + e), a i l * T l (k + t) = a i (k + t) := by
        rw [Finset.sum_eq_single (k + t)]
        · simp [T]
        · intro l _ hl
          simp only [T]; rw [if_neg q, if_neg hl, mul_zero]
        · intro hh; exact absurd (mem_range.2 hj) hh
      have e2 : ∀ l ∈ range k, y l i * B' l (k + t) = y l i * z t l := fun l hl => by
        simp only [B']
        rw [if_neg q, if_pos (mem_range.1 hl), Nat.add_sub_cancel_left]
      rw [e1, sum_congr rfl e2]
      by_cases q4 : k ≤ i
      · obtain ⟨s, rfl⟩ : ∃ s, i = k + s := ⟨i - k, by omega⟩
        rw [if_pos q4]
        simp only [B']
        rw [if_neg q, if_neg (show ¬ k + s < k by omega), Nat.add_sub_cancel_left, Nat.add_sub_cancel_left, hS t (by omega) s (by omega)]
        have e3 : ∑ l ∈ range k, B t l * V l (k + s) = ∑ l ∈ range k, y l (k + s) * z t l := by
          have : ∀ l ∈ range k, B t l * V l (k + s) = ∑ r ∈ range k, luL .unit V r l * z t r * luU .unit V l (k + s) := fun l hl => by
            have hl := mem_range.1 hl
            rw [← hzB t (by omega) l hl, sum_mul, luU_lt (show l < k + s by omega)]
          rw [sum_congr rfl this, sum_comm]
          refine sum_congr rfl (fun r hr => ?_)
          have hr := mem_range.1 hr
          have hf := hC.fac r hr hr.le (k + s) (by omega)
          simp only [id] at hf
          rw [hf, sum_mul]
          exact sum_congr rfl (fun m _ => by ring)
        rw [e3]; ring
      · rw [if_neg q4, add_zero]
        exact (hz t i (by omega)).symm
  rw [hsim, chi_block (fun i hi j hj => by
    simp only [B']
    rw [if_pos hj]
    split_ifs <;> first | rfl | omega)]
  congr 1
  · rw [chi_companion (by omega) (fun j hj i hi => by simp only [B']; rw [if_pos (by omega), if_pos hj])]
    congr 1
    refine sum_congr rfl (fun i hi => ?_)
    simp only [B']
    rw [if_pos (by omega), if_neg (by omega), if_pos (mem_range.1 hi)]
  · rw [← chi_transpose e S]
    refine chi_congr (fun i hi j hj => ?_)
    simp only [blk, B']
    rw [if_neg (by omega), if_neg (by omega), Nat.add_sub_cancel_left, Nat.add_sub_cancel_left]

/-- the characteristic polynomial splits along the Krylov space -/
theorem luk_split (hK : IsKrylov (k + e) a y) (hk : 1 ≤ k) (hC : Con k (k + e) k y V p) (hrel : ∀ j < k + e, y k j = ∑ l ∈ range k, c l * y l j)
    {B S : ℕ → ℕ → K} (hB : ∀ i < e, ∀ j < k, ∑ l ∈ range k, B i l * luU .unit V l j = a (p j) (p (k + i)))
    (hS : ∀ i < e, ∀ j < e, S i j = a (p (k + j)) (p (k + i)) - ∑ l ∈ range k, B i l * V l (k + j)) :
    chi (k + e) a = (X ^ k - ∑ i ∈ range k, C (c i) * X ^ i) * chi e S := by
  rw [← chi_perm hC.pP a]
  refine luk_id (y := fun i j => y i (p j)) (V := V) ?_ hk ⟨hC.rN, hC.rM, hC.piv, ⟨fun i hi => hi, fun i _ j _ h => h⟩, hC.fac⟩
    (fun j hj => hrel _ (hC.pP.1 j hj)) hB hS
  intro i j hj
  show y (i + 1) (p j) = ∑ l ∈ range (k + e), a (p j) (p l) * y i (p l)
  rw [sum_perm hC.pP (fun l => a (p j) l * y i l), hK i (p j) (hC.pP.1 j hj)]

end Verif.FF
