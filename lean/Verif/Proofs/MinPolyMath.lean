import Verif.Proofs.MinPolyElim
import Verif.Proofs.CharPolyMath
import Verif.Spec.MinPoly

/-!
# Minimal polynomial and invariant subspace from an eliminated Krylov matrix
-/

namespace Verif.FF

open Finset Verif.Perm Verif.Spec Verif.Spec.Perm Verif.Pluq Verif.Lud Polynomial

variable {K : Type} [Field K] {M N R k : ℕ} {Y V a y : ℕ → ℕ → K} {p : ℕ → ℕ} {c : ℕ → K}

/-- the row after the independent ones is the combination found by the triangular solve -/
lemma Con.rel (h : Con M N R Y V p) (hR : R < M) (hc : ∀ i < R, ∑ l ∈ range R, luL .unit V l i * c l = V R i) :
    ∀ j < N, Y R j = ∑ l ∈ range R, c l * Y l j := by
  intro j hj
  obtain ⟨s, hs⟩ := perm_surj h.pP
  obtain ⟨h1, h2⟩ := hs j hj
  rw [← h2, h.fac R hR le_rfl _ h1]
  have e : ∀ l ∈ range R, c l * Y l (p (s j)) = ∑ i ∈ range R, c l * (luL .unit V l i * luU .unit V i (s j)) := fun l hl => by
    have hl := mem_range.1 hl
    rw [h.fac l (by omega) (by omega) _ h1, mul_sum]
  rw [sum_congr rfl e, sum_comm]
  refine sum_congr rfl (fun i hi => ?_)
  have hi := mem_range.1 hi
  rw [luL_lt hi, ← hc i hi, sum_mul]
  exact sum_congr rfl (fun l _ => by ring)

lemma Con.dU (h : Con M N R Y V p) : ∀ i < R, luU .unit V i i ≠ 0 := fun i hi => (luDiag (d := .unit) (h.piv i hi)).2
lemma Con.dL (h : Con M N R Y V p) : ∀ i < R, luL .unit V i i ≠ 0 := fun i hi => (luDiag (d := .unit) (h.piv i hi)).1

/-- the eliminated rows are independent -/
lemma Con.indep (h : Con M N R Y V p) {d : ℕ → K} (hd : ∀ j < N, ∑ l ∈ range R, d l * Y l j = 0) : ∀ l < R, d l = 0 := by
  have rM := h.rM
  have rN := h.rN
  have e : ∀ j < R, ∑ i ∈ range R, luU .unit V i j * ∑ l ∈ range R, luL .unit V l i * d l = 0 := by
    intro j hj
    rw [← hd (p j) (h.pP.1 j (by omega))]
    simp_rw [mul_sum]
    rw [sum_comm]
    refine sum_congr rfl (fun l hl => ?_)
    have hl := mem_range.1 hl
    rw [h.fac l (by omega) (by omega) j (by omega), mul_sum]
    exact sum_congr rfl (fun i _ => by ring)
  have u := lower_unique (L := fun i k => luU .unit V k i) (y := fun i => ∑ l ∈ range R, luL .unit V l i * d l) h.dU
    (fun i _ k _ hik => luU_gt hik) e
  exact upper_unique (U := fun i k => luL .unit V k i) (y := d) h.dL (fun i _ k _ hik => luL_gt hik) u

/-- polynomials applied to the first iterate -/
lemma krylov_pow (hK : IsKrylov N a y) : ∀ i, (toMat N N a ^ i).mulVec (fun j : Fin N => y 0 j) = fun j : Fin N => y i j := by
  intro i
  induction i with
  | zero => simp
  | succ i ih =>
    rw [pow_succ', ← Matrix.mulVec_mulVec, ih]
    funext j
    rw [hK i j j.2, Matrix.mulVec, dotProduct, ← Fin.sum_univ_eq_sum_range (fun l => a j l * y i l) N]
    rfl

lemma krylov_poly (hK : IsKrylov N a y) {q : K[X]} {n : ℕ} (hn : q.natDegree < n) :
    polyVec N a (y 0) q = fun j : Fin N => ∑ l ∈ range n, q.coeff l * y l j := by
  rw [polyVec, aeval_eq_sum_range' hn, Matrix.sum_mulVec]
  funext j
  rw [Finset.sum_apply]
  refine sum_congr rfl (fun l _ => ?_)
  rw [Matrix.smul_mulVec, krylov_pow hK]
  rfl

lemma companion_deg : (∑ i ∈ range k, C (c i) * X ^ i).degree < (k : WithBot ℕ) := by
  refine (degree_sum_le _ _).trans_lt ((Finset.sup_lt_iff (WithBot.bot_lt_coe k)).2 (fun i hi => ?_))
  exact (degree_C_mul_X_pow_le _ _).trans_lt (Nat.cast_lt.2 (mem_range.1 hi))

lemma companion_monic : (X ^ k - ∑ i ∈ range k, C (c i) * X ^ i).Monic := monic_X_pow_sub companion_deg

lemma companion_degree : (X ^ k - ∑ i ∈ range k, C (c i) * X ^ i).natDegree = k := by
  have := degree_sub_eq_left_of_degree_lt (p := (X : K[X]) ^ k) (q := ∑ i ∈ range k, C (c i) * X ^ i) (by rw [degree_X_pow]; exact companion_deg)
  rw [degree_X_pow] at this
  exact natDegree_eq_of_degree_eq_some this

lemma companion_coeff {l : ℕ} (hl : l ≤ k) : (X ^ k - ∑ i ∈ range k, C (c i) * X ^ i).coeff l = if l = k then 1 else - c l := by
  rw [coeff_sub, coeff_X_pow, finset_sum_coeff]
  simp only [coeff_C_mul, coeff_X_pow, mul_ite, mul_one, mul_zero]
  rw [Finset.sum_ite_eq]
  by_cases h : l = k
  · subst h; simp
  · rw [if_neg h, if_neg h, if_pos (mem_range.2 (by omega)), zero_sub]

/-- the minimal polynomial from the first dependent iterate -/
theorem minPoly_of_rel (hK : IsKrylov N a y) (hrel : ∀ j < N, y k j = ∑ l ∈ range k, c l * y l j)
    (hind : ∀ d : ℕ → K, (∀ j < N, ∑ l ∈ range k, d l * y l j = 0) → ∀ l < k, d l = 0) :
    IsMinPolyOf N a (y 0) (X ^ k - ∑ i ∈ range k, C (c i) * X ^ i) := by
  set P : K[X] := X ^ k - ∑ i ∈ range k, C (c i) * X ^ i with hP
  have hm : P.Monic := companion_monic
  have hdeg : P.natDegree = k := companion_degree
  have hz : polyVec N a (y 0) P = 0 := by
    rw [krylov_poly hK (n := k + 1) (by omega)]
    funext j
    rw [sum_range_succ, companion_coeff le_rfl, if_pos rfl, one_mul, hrel j j.2, ← sum_add_distrib]
    refine sum_eq_zero (fun l hl => ?_)
    have hl := mem_range.1 hl
    rw [companion_coeff hl.le, if_neg hl.ne]
    ring
  have hmul : ∀ r : K[X], polyVec N a (y 0) (P * r) = 0 := fun r => by
    rw [mul_comm, polyVec, map_mul, ← Matrix.mulVec_mulVec]
    have : (aeval (toMat N N a) P).mulVec (fun i : Fin N => y 0 i) = 0 := hz
    rw [this, Matrix.mulVec_zero]
  refine ⟨hm, fun q => ⟨fun hq => ?_, ?_⟩⟩
  · have e := modByMonic_add_div q P
    have h0 : polyVec N a (y 0) (q %ₘ P) = 0 := by
      have : polyVec N a (y 0) (q %ₘ P + P * (q /ₘ P)) = 0 := by rw [e]; exact hq
      rw [polyVec, map_add, Matrix.add_mulVec] at this
      have h2 := hmul (q /ₘ P)
      rw [polyVec] at h2
      rw [h2, add_zero] at this
      exact this
    by_cases hr : q %ₘ P = 0
    · rw [hr, zero_add] at e
      exact ⟨_, e.symm⟩
    · exfalso
      have hd := natDegree_lt_natDegree hr (degree_modByMonic_lt q hm)
      rw [hdeg] at hd
      rw [krylov_poly hK hd] at h0
      have hc := hind _ (fun j hj => congrFun h0 ⟨j, hj⟩) _ hd
      exact hr (leadingCoeff_eq_zero.1 hc)
  · rintro ⟨r, rfl⟩
    exact hmul r

end Verif.FF
