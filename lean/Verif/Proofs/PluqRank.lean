import Verif.Proofs.PluqMath
import Verif.Spec.Mat
import Mathlib.LinearAlgebra.Matrix.Rank
import Mathlib.LinearAlgebra.Matrix.Block

/-!
# The rank of the leading submatrices from a PLUQ decomposition
-/

namespace Verif.Pluq

open Finset Verif.Spec Verif.Spec.Perm

variable {K : Type} [Field K]

lemma perm_surj {p : ℕ → ℕ} {M : ℕ} (h : IsPermArray p M) : ∃ s : ℕ → ℕ, ∀ x < M, s x < M ∧ p (s x) = x := by
  have inj : Function.Injective (fun i : Fin M => (⟨p i, h.1 i i.2⟩ : Fin M)) := fun i j e => Fin.ext (h.2 i i.2 j j.2 (Fin.mk.inj_iff.1 e))
  have sur := Finite.injective_iff_surjective.1 inj
  refine ⟨fun x => if hx : x < M then (sur ⟨x, hx⟩).choose else 0, fun x hx => ?_⟩
  simp only [hx, dif_pos]
  exact ⟨Fin.is_lt _, by have := (sur ⟨x, hx⟩).choose_spec; exact Fin.mk.inj_iff.1 this⟩

/-- the pivots inside the leading `a × b` submatrix -/
def pivots (p q : ℕ → ℕ) (r a b : ℕ) : Finset ℕ := (range r).filter (fun k => p k < a ∧ q k < b)

/-- the rank of a matrix with a decomposition restricted to a set of pivots -/
lemma rank_of_pivots {d : Diag} {a b : ℕ} {X V : ℕ → ℕ → K} {p q : ℕ → ℕ} {S : Finset ℕ} {s t : ℕ → ℕ}
    (hs : ∀ x < a, p (s x) = x) (ht : ∀ y < b, q (t y) = y) (hp : ∀ k ∈ S, p k < a) (hq : ∀ k ∈ S, q k < b)
    (hsp : ∀ k ∈ S, s (p k) = k) (htq : ∀ k ∈ S, t (q k) = k)
    (piv : ∀ k ∈ S, V k k ≠ 0) (fac : ∀ x < a, ∀ y < b, X x y = ∑ k ∈ S, luL d V (s x) k * luU d V k (t y)) :
    (toMat a b X).rank = S.card := by
  let L : Matrix (Fin a) S K := fun x k => luL d V (s x) k
  let U : Matrix S (Fin b) K := fun k y => luU d V k (t y)
  have e : toMat a b X = L * U := by
    ext x y
    rw [Matrix.mul_apply, toMat_apply, fac x x.2 y y.2, ← Finset.sum_coe_sort]
  refine le_antisymm ?_ ?_
  · rw [e]
    refine (Matrix.rank_mul_le_left L U).trans ((Matrix.rank_le_card_width L).trans ?_)
    simp
  · let f : S → Fin a := fun k => ⟨p k, hp k k.2⟩
    let g : S → Fin b := fun k => ⟨q k, hq k k.2⟩
    have e2 : (toMat a b X).submatrix f g = L.submatrix f id * U.submatrix id g := by
      rw [e, Matrix.submatrix_mul _ _ f id g Function.bijective_id]
    have eL : ∀ i k : S, L.submatrix f id i k = luL d V i k := fun i k => by
      show luL d V (s (p i)) k = _
      rw [hsp i i.2]
    have eU : ∀ i k : S, U.submatrix id g i k = luU d V i k := fun i k => by
      show luU d V i (t (q k)) = _
      rw [htq k k.2]
    have dL : (L.submatrix f id).det = ∏ k : S, luL d V k k := by
      rw [Matrix.det_of_lowerTriangular]
      · exact Finset.prod_congr rfl (fun k _ => eL k k)
      · intro i j hij
        rw [eL]
        exact luL_gt (by simpa using hij)
    have dU : (U.submatrix id g).det = ∏ k : S, luU d V k k := by
      rw [Matrix.det_of_upperTriangular]
      · exact Finset.prod_congr rfl (fun k _ => eU k k)
      · intro i j hij
        rw [eU]
        exact luU_gt (by simpa using hij)
    have hdet : ((toMat a b X).submatrix f g).det ≠ 0 := by
      rw [e2, Matrix.det_mul, dL, dU, ← Finset.prod_mul_distrib, Finset.prod_ne_zero_iff]
      intro k _
      rw [lu_diag]
      exact piv k k.2
    have := Matrix.rank_of_det_ne_zero hdet
    rw [Fintype.card_coe] at this
    rw [← this]
    exact Matrix.rank_submatrix_le _ f g

/-- A decomposition of this kind gives the rank of every leading submatrix. -/
theorem Fac.rank_leading {d : Diag} {M N r : ℕ} {X V : ℕ → ℕ → K} {p q : ℕ → ℕ} (h : Fac d M N X V p q r) {a b : ℕ} (ha : a ≤ M) (hb : b ≤ N) :
    (toMat a b X).rank = (pivots p q r a b).card := by
  obtain ⟨s, hs⟩ := perm_surj h.pP
  obtain ⟨t, ht⟩ := perm_surj h.pQ
  have rM := h.rM
  have rN := h.rN
  have mem : ∀ {k}, k ∈ pivots p q r a b ↔ k < r ∧ p k < a ∧ q k < b := by intro k; simp [pivots]
  refine rank_of_pivots (d := d) (V := V) (p := p) (q := q) (s := s) (t := t) (fun x hx => (hs x (by omega)).2) (fun y hy => (ht y (by omega)).2)
    (fun k hk => (mem.1 hk).2.1) (fun k hk => (mem.1 hk).2.2) (fun k hk => ?_) (fun k hk => ?_) (fun k hk => h.piv k (mem.1 hk).1) (fun x hx y hy => ?_)
  · have hk := mem.1 hk
    have := hs (p k) (by omega)
    exact h.pP.2 _ this.1 _ (by omega) this.2
  · have hk := mem.1 hk
    have := ht (q k) (by omega)
    exact h.pQ.2 _ this.1 _ (by omega) this.2
  · obtain ⟨s1, s2⟩ := hs x (by omega)
    obtain ⟨t1, t2⟩ := ht y (by omega)
    have := h.fac (s x) s1 (t y) t1
    rw [s2, t2] at this
    rw [this]
    refine (Finset.sum_subset (Finset.filter_subset _ _) (fun k hk hk' => ?_)).symm
    have hk := mem_range.1 hk
    rw [← pivots, mem] at hk'
    rcases Nat.lt_or_ge (p k) a with c | c
    · rw [h.monoU k hk (t y) t1 (by omega), mul_zero]
    · rw [h.monoL k hk (s x) s1 (by omega), zero_mul]

/-- the number of pivots is the rank -/
theorem Fac.rank_eq {d : Diag} {M N r : ℕ} {X V : ℕ → ℕ → K} {p q : ℕ → ℕ} (h : Fac d M N X V p q r) : (toMat M N X).rank = r := by
  rw [h.rank_leading le_rfl le_rfl, pivots, filter_true_of_mem, card_range]
  intro k hk
  have hk := mem_range.1 hk
  have rM := h.rM
  have rN := h.rN
  exact ⟨h.pP.1 k (by omega), h.pQ.1 k (by omega)⟩

/-- the same from the factorisation alone -/
theorem _root_.Verif.Spec.IsPLUQ.rank_eq {d : Diag} {M N r : ℕ} {X V : ℕ → ℕ → K} {p q : ℕ → ℕ} (h : IsPLUQ d M N X V p q r) (hp : IsPermArray p M)
    (hq : IsPermArray q N) : (toMat M N X).rank = r := by
  obtain ⟨s, hs⟩ := perm_surj hp
  obtain ⟨t, ht⟩ := perm_surj hq
  have rM := h.rM
  have rN := h.rN
  rw [rank_of_pivots (d := d) (V := V) (p := p) (q := q) (s := s) (t := t) (S := range r) (fun x hx => (hs x hx).2) (fun y hy => (ht y hy).2), card_range]
  · intro k hk; have := mem_range.1 hk; exact hp.1 k (by omega)
  · intro k hk; have := mem_range.1 hk; exact hq.1 k (by omega)
  · intro k hk
    have hk := mem_range.1 hk
    have := hs (p k) (hp.1 k (by omega))
    exact hp.2 _ this.1 _ (by omega) this.2
  · intro k hk
    have hk := mem_range.1 hk
    have := ht (q k) (hq.1 k (by omega))
    exact hq.2 _ this.1 _ (by omega) this.2
  · intro k hk; exact h.piv k (mem_range.1 hk)
  · intro x hx y hy
    have := h.fac (s x) (hs x hx).1 (t y) (ht y hy).1
    rwa [(hs x hx).2, (ht y hy).2] at this

end Verif.Pluq
