import Verif.Proofs.BruhatMath
import Verif.Model.Bruhat
import Verif.Proofs.Perm
import Verif.Spec.RankProfile

/-!
# Bruhat generators: ranks of leading submatrices, order of quasi-separability
-/

namespace Verif.Bruhat

open Finset Verif.Spec Verif.Spec.Perm Verif.Pluq Verif.Perm

variable {K : Type} [Field K] {d : Diag} {N : ℕ} {X V : ℕ → ℕ → K} {p q : ℕ → ℕ} {r : ℕ}

/-- a generator gives the rank of every leading submatrix inside the left triangle -/
theorem gen_rank (injP : ∀ k < r, ∀ k' < r, p k = p k' → k = k') (injQ : ∀ k < r, ∀ k' < r, q k = q k' → k = k')
    (piv : ∀ k < r, V (p k) (q k) ≠ 0) (fac : ∀ i j, i + j + 1 < N → X i j = ∑ k ∈ range r, bl d V p q k i * bu d V p q k j)
    {a b : ℕ} (hab : a + b ≤ N) : rk X a b = (pivots p q r a b).card := by
  generalize hS : pivots p q r a b = S
  have mem : ∀ {k}, k ∈ S ↔ k < r ∧ p k < a ∧ q k < b := by intro k; rw [← hS]; simp [pivots]
  let L : Matrix (Fin a) S K := fun x k => bl d V p q k x
  let U : Matrix S (Fin b) K := fun k y => bu d V p q k y
  have e : toMat a b X = L * U := by
    ext x y
    have := x.2
    have := y.2
    rw [Matrix.mul_apply, toMat_apply, fac x y (by omega)]
    show _ = ∑ k : S, bl d V p q k x * bu d V p q k y
    rw [Finset.sum_coe_sort S (fun k => bl d V p q k x * bu d V p q k y)]
    refine (Finset.sum_subset (fun k hk => mem_range.2 (mem.1 hk).1) (fun k hk hk' => ?_)).symm
    have hk := mem_range.1 hk
    by_cases c : p k < a
    · have : b ≤ q k := by
        by_contra hc
        exact hk' (mem.2 ⟨hk, c, by omega⟩)
      rw [bu, bf_lt (show (y : ℕ) < q k by omega), mul_zero]
    · rw [bl, bf_lt (show (x : ℕ) < p k by omega), zero_mul]
  refine le_antisymm ?_ ?_
  · rw [rk, e]
    refine (Matrix.rank_mul_le_left L U).trans ((Matrix.rank_le_card_width L).trans ?_)
    simp
  · let f : S → Fin a := fun k => ⟨p k, (mem.1 k.2).2.1⟩
    let g : S → Fin b := fun k => ⟨q k, (mem.1 k.2).2.2⟩
    have e2 : (toMat a b X).submatrix f g = L.submatrix f id * U.submatrix id g := by
      rw [e, Matrix.submatrix_mul _ _ f id g Function.bijective_id]
    have dL : (L.submatrix f id).det = ∏ k : S, dsel d (V (p k) (q k)) 1 := by
      rw [Matrix.det_of_lowerTriangular]
      · exact Finset.prod_congr rfl (fun k _ => bl_self)
      · intro i j hij
        have hij : (i : ℕ) < j := by simpa using hij
        show bl d V p q j (p i) = 0
        refine bf_old hij rfl (fun e => ?_)
        have := injP _ (mem.1 j.2).1 _ (mem.1 i.2).1 e
        omega
    have dU : (U.submatrix id g).det = ∏ k : S, dsel d 1 (V (p k) (q k)) := by
      rw [Matrix.det_of_upperTriangular]
      · exact Finset.prod_congr rfl (fun k _ => bu_self)
      · intro i j hij
        have hij : (j : ℕ) < i := by simpa using hij
        show bu d V p q i (q j) = 0
        refine bf_old hij rfl (fun e => ?_)
        have := injQ _ (mem.1 i.2).1 _ (mem.1 j.2).1 e
        omega
    have hdet : ((toMat a b X).submatrix f g).det ≠ 0 := by
      rw [e2, Matrix.det_mul, dL, dU, ← Finset.prod_mul_distrib, Finset.prod_ne_zero_iff]
      intro k _
      exact mul_ne_zero (dsel_ne (piv k (mem.1 k.2).1)) (dsel_ne' (piv k (mem.1 k.2).1))
    have := Matrix.rank_of_det_ne_zero hdet
    rw [Fintype.card_coe] at this
    rw [← this]
    exact Matrix.rank_submatrix_le _ f g

theorem BF.rank (h : BF d N X V p q r) {a b : ℕ} (hab : a + b ≤ N) : rk X a b = (pivots p q r a b).card :=
  gen_rank h.injP h.injQ h.piv h.fac hab

/-- one more row -/
lemma card_row (hi : ∀ k < r, ∀ k' < r, p k = p k' → k = k') {a b : ℕ} (hb : ∀ k < r, p k = a → q k < b) :
    (pivots p q r (a + 1) b).card = (pivots p q r a b).card + if ∃ k < r, p k = a then 1 else 0 := by
  split_ifs with c
  · obtain ⟨k, hk, e⟩ := c
    rw [show pivots p q r (a + 1) b = insert k (pivots p q r a b) from ?_, card_insert_of_notMem]
    · simp only [pivots, mem_filter, not_and]
      intro _ h; omega
    · ext x
      simp only [pivots, mem_filter, mem_insert, mem_range]
      constructor
      · rintro ⟨h1, h2, h3⟩
        by_cases e' : p x = a
        · exact Or.inl (hi x h1 k hk (e'.trans e.symm))
        · exact Or.inr ⟨h1, by omega, h3⟩
      · rintro (rfl | ⟨h1, h2, h3⟩)
        · exact ⟨hk, by omega, hb _ hk e⟩
        · exact ⟨h1, by omega, h3⟩
  · rw [add_zero, show pivots p q r (a + 1) b = pivots p q r a b from ?_]
    ext x
    simp only [pivots, mem_filter, mem_range]
    constructor
    · rintro ⟨h1, h2, h3⟩
      refine ⟨h1, ?_, h3⟩
      by_contra hc
      exact c ⟨x, h1, by omega⟩
    · rintro ⟨h1, h2, h3⟩
      exact ⟨h1, by omega, h3⟩

lemma pivots_comm (a b : ℕ) : pivots p q r a b = pivots q p r b a := by
  ext x
  simp only [pivots, mem_filter, and_comm (a := p x < a)]

lemma card_col (hi : ∀ k < r, ∀ k' < r, q k = q k' → k = k') {a b : ℕ} (hb : ∀ k < r, q k = b → p k < a) :
    (pivots p q r a (b + 1)).card = (pivots p q r a b).card + if ∃ k < r, q k = b then 1 else 0 := by
  rw [pivots_comm, pivots_comm a b]
  exact card_row hi hb

omit [Field K] in
/-- marking the pivots -/
lemma marks {P Q : Arr ℕ} (hP : r ≤ P.len) (hQ : r ≤ Q.len) (bP : ∀ k < r, P.get k < N) (bQ : ∀ k < r, Q.get k < N) :
    Ok (iter r (fun i (x : Arr Bool × Arr Bool) => do
      let p ← P.rd i
      let rows ← x.1.wr p true
      let q ← Q.rd i
      let cols ← x.2.wr q true
      pure (rows, cols)) (Arr.mk' N (fun _ => false), Arr.mk' N (fun _ => false)))
    (fun x => x.1.len = N ∧ x.2.len = N ∧ (∀ a, x.1.get a = true ↔ ∃ k < r, P.get k = a) ∧ ∀ a, x.2.get a = true ↔ ∃ k < r, Q.get k = a) := by
  refine Ok_iter (fun n (x : Arr Bool × Arr Bool) => x.1.len = N ∧ x.2.len = N ∧ (∀ a, x.1.get a = true ↔ ∃ k < n, P.get k = a) ∧
    ∀ a, x.2.get a = true ↔ ∃ k < n, Q.get k = a) ⟨rfl, rfl, by simp [Arr.mk'], by simp [Arr.mk']⟩ ?_
  rintro n ⟨R, C⟩ hn ⟨l1, l2, e1, e2⟩
  simp only [] at l1 l2 e1 e2
  have step : ∀ (Z : Arr Bool) (T : Arr ℕ), (∀ a, Z.get a = true ↔ ∃ k < n, T.get k = a) →
      ∀ a, (if a = T.get n then true else Z.get a) = true ↔ ∃ k < n + 1, T.get k = a := by
    intro Z T e a
    by_cases c : a = T.get n
    · simp only [c, if_true, true_iff]; exact ⟨n, by omega, rfl⟩
    · rw [if_neg c, e]
      constructor
      · rintro ⟨k, hk, e⟩; exact ⟨k, by omega, e⟩
      · rintro ⟨k, hk, e'⟩
        rcases Nat.lt_or_ge k n with h | h
        · exact ⟨k, h, e'⟩
        · have hkn : k = n := by omega
          rw [hkn] at e'
          exact absurd e'.symm c
  rw [Ok_bind, Ok_rd]
  refine ⟨by omega, ?_⟩
  rw [Ok_bind, Ok_wr]
  refine ⟨by rw [l1]; exact bP n hn, ?_⟩
  rw [Ok_bind, Ok_rd]
  refine ⟨by omega, ?_⟩
  rw [Ok_bind, Ok_wr]
  refine ⟨by rw [l2]; exact bQ n hn, ?_⟩
  rw [Ok_pure]
  exact ⟨l1, l2, by simpa [Function.update_apply] using step R P e1, by simpa [Function.update_apply] using step C Q e2⟩

/-- the order of quasi-separability read off the pivots -/
theorem ltQSorder_spec {P Q : Arr ℕ} (hN : 0 < N) (hP : r ≤ P.len) (hQ : r ≤ Q.len) (bd : ∀ k < r, P.get k + Q.get k + 1 < N)
    (iP : ∀ k < r, ∀ k' < r, P.get k = P.get k' → k = k') (iQ : ∀ k < r, ∀ k' < r, Q.get k = Q.get k' → k = k') :
    Ok (FF.ltQSorder N r P Q) (fun s => s = (range N).sup (fun a => (pivots P.get Q.get r (a + 1) (N - 1 - a)).card)) := by
  unfold FF.ltQSorder
  rw [Ok_bind]
  refine (marks hP hQ (fun k hk => by have := bd k hk; omega) (fun k hk => by have := bd k hk; omega)).mono ?_
  rintro ⟨rows, cols⟩ ⟨l1, l2, e1, e2⟩
  simp only [] at l1 l2 e1 e2 ⊢
  rw [Ok_bind, Ok_rd]
  refine ⟨by omega, ?_⟩
  rw [Ok_bind]
  have c0 : (pivots P.get Q.get r 1 (N - 1)).card = if rows.get 0 = true then 1 else 0 := by
    have e := card_row (q := Q.get) (a := 0) (b := N - 1) iP (fun k hk e => by have := bd k hk; omega)
    rw [zero_add] at e
    rw [e, show pivots P.get Q.get r 0 (N - 1) = ∅ from by simp [pivots], card_empty, zero_add]
    simp only [e1]
  refine (Ok_iter (fun i (x : ℕ × ℕ) => x.1 = (pivots P.get Q.get r (i + 1) (N - 1 - i)).card ∧
    x.2 = (range (i + 1)).sup (fun a => (pivots P.get Q.get r (a + 1) (N - 1 - a)).card)) ?_ ?_).mono ?_
  · rw [zero_add, Nat.sub_zero, range_one, sup_singleton, zero_add, Nat.sub_zero, c0]
    by_cases c : rows.get 0 = true <;> simp [c]
  · rintro i ⟨t, s⟩ hi ⟨h1, h2⟩
    simp only [] at h1 h2 ⊢
    rw [Ok_bind, Ok_rd]
    refine ⟨by omega, ?_⟩
    rw [Ok_bind, Ok_rd]
    refine ⟨by omega, ?_⟩
    have r1 := card_row (q := Q.get) (a := i + 1) (b := N - 1 - i) iP (fun k hk e => by have := bd k hk; omega)
    have r2 := card_col (p := P.get) (a := i + 2) (b := N - 1 - (i + 1)) iQ (fun k hk e => by have := bd k hk; omega)
    rw [show N - 1 - (i + 1) + 1 = N - 1 - i by omega] at r2
    simp only [← e1, ← e2] at r1 r2
    rw [show i + 1 + 1 = i + 2 from rfl] at r1 ⊢
    have ht : (if rows.get (i + 1) = true then t + 1 else t) = (pivots P.get Q.get r (i + 2) (N - 1 - i)).card := by
      rw [r1, h1]
      by_cases c : rows.get (i + 1) = true <;> simp [c]
    simp only [ht]
    have fin : ∀ x, x = (pivots P.get Q.get r (i + 2) (N - 1 - (i + 1))).card → Ok (pure (x, max s x)) (fun y : ℕ × ℕ =>
        y.1 = (pivots P.get Q.get r (i + 2) (N - 1 - (i + 1))).card ∧
        y.2 = (range (i + 2)).sup (fun a => (pivots P.get Q.get r (a + 1) (N - 1 - a)).card)) := by
      rintro x rfl
      rw [Ok_pure]
      refine ⟨rfl, ?_⟩
      show max s _ = _
      rw [range_add_one (n := i + 1), sup_insert, h2, max_comm]
    by_cases c : cols.get (N - 1 - (i + 1)) = true
    · rw [if_pos c] at r2 ⊢
      rw [if_neg (by omega), Ok_bind, Ok_pure]
      exact fin _ (by omega)
    · rw [if_neg c] at r2 ⊢
      rw [Ok_bind, Ok_pure]
      exact fin _ (by omega)
  · rintro ⟨t, s⟩ ⟨_, h2⟩
    rw [Ok_pure, h2, show N - 1 + 1 = N by omega]

end Verif.Bruhat
