import Verif.Proofs.PluqRank

/-!
# Systems and null spaces from a rank revealing factorisation
-/

namespace Verif.Pluq

open Finset Verif.Spec Verif.Spec.Perm

variable {K : Type} [Field K]

lemma sum_perm {q : ℕ → ℕ} {N : ℕ} (hq : IsPermArray q N) (f : ℕ → K) : ∑ j ∈ range N, f (q j) = ∑ j ∈ range N, f j := by
  obtain ⟨s, hs⟩ := perm_surj hq
  refine sum_nbij' q s (fun j hj => mem_range.2 (hq.1 j (mem_range.1 hj))) (fun j hj => mem_range.2 (hs j (mem_range.1 hj)).1) ?_ ?_ ?_
  · intro j hj
    have hj := mem_range.1 hj
    have := hs (q j) (hq.1 j hj)
    exact hq.2 _ this.1 _ hj this.2
  · intro j hj
    exact (hs j (mem_range.1 hj)).2
  · intro j _; rfl

lemma lower_unique {R : ℕ} {L : ℕ → ℕ → K} {y : ℕ → K} (hd : ∀ k < R, L k k ≠ 0) (h0 : ∀ i < R, ∀ k < R, i < k → L i k = 0)
    (h : ∀ i < R, ∑ k ∈ range R, L i k * y k = 0) : ∀ k < R, y k = 0 := by
  intro k
  induction k using Nat.strong_induction_on with
  | _ k ih =>
    intro hk
    have e := h k hk
    rw [sum_eq_single k] at e
    · exact (mul_eq_zero.1 e).resolve_left (hd k hk)
    · intro l hl hne
      have hl := mem_range.1 hl
      rcases Nat.lt_or_gt_of_ne hne with h' | h'
      · rw [ih l h' hl, mul_zero]
      · rw [h0 k hk l hl h', zero_mul]
    · intro hn; exact absurd (mem_range.2 hk) hn

lemma upper_unique {R : ℕ} {U : ℕ → ℕ → K} {y : ℕ → K} (hd : ∀ k < R, U k k ≠ 0) (h0 : ∀ i < R, ∀ k < R, k < i → U i k = 0)
    (h : ∀ i < R, ∑ k ∈ range R, U i k * y k = 0) : ∀ k < R, y k = 0 := by
  have key : ∀ n k, k < R → R - k ≤ n → y k = 0 := by
    intro n
    induction n with
    | zero => intro k hk hn; omega
    | succ n ih =>
      intro k hk hn
      have e := h k hk
      rw [sum_eq_single k] at e
      · exact (mul_eq_zero.1 e).resolve_left (hd k hk)
      · intro l hl hne
        have hl := mem_range.1 hl
        rcases Nat.lt_or_gt_of_ne hne with h' | h'
        · rw [h0 k hk l hl h', zero_mul]
        · rw [ih l hl (by omega), mul_zero]
      · intro hn; exact absurd (mem_range.2 hk) hn
  exact fun k hk => key (R - k) k hk le_rfl

/-- `X` with permuted rows and columns is a product of a lower and an upper trapezoidal matrix -/
structure LU (M N R : ℕ) (X L U : ℕ → ℕ → K) (p q : ℕ → ℕ) : Prop where
  rM : R ≤ M
  rN : R ≤ N
  pP : IsPermArray p M
  pQ : IsPermArray q N
  dL : ∀ k < R, L k k ≠ 0
  dU : ∀ k < R, U k k ≠ 0
  lo : ∀ i < R, ∀ k < R, i < k → L i k = 0
  up : ∀ k < R, ∀ j < R, j < k → U k j = 0
  fac : ∀ i < M, ∀ j < N, X (p i) (q j) = ∑ k ∈ range R, L i k * U k j

lemma luDiag {d : Diag} {V : ℕ → ℕ → K} {k : ℕ} (h : V k k ≠ 0) : luL d V k k ≠ 0 ∧ luU d V k k ≠ 0 := by
  cases d <;> simp [luL, luU, tri, h]

lemma Fac.lu {d : Diag} {M N r : ℕ} {X V : ℕ → ℕ → K} {p q : ℕ → ℕ} (h : Fac d M N X V p q r) : LU M N r X (luL d V) (luU d V) p q :=
  ⟨h.rM, h.rN, h.pP, h.pQ, fun k hk => (luDiag (h.piv k hk)).1, fun k hk => (luDiag (h.piv k hk)).2,
    fun i _ k _ hik => by simp only [luL, tri]; rw [if_neg (by omega), if_neg (by omega)],
    fun k _ j _ hjk => by simp only [luU, tri]; rw [if_neg (by omega), if_neg (by omega)], h.fac⟩

namespace LU
variable {M N R : ℕ} {X L U : ℕ → ℕ → K} {p q : ℕ → ℕ}

/-- the same for the transposed matrix -/
lemma transpose (h : LU M N R X L U p q) : LU N M R (fun i j => X j i) (fun i k => U k i) (fun k j => L j k) q p :=
  ⟨h.rN, h.rM, h.pQ, h.pP, h.dU, h.dL, fun i hi k hk hik => h.up k hk i hi hik, fun k hk j hj hjk => h.lo j hj k hk hjk,
    fun i hi j hj => by rw [h.fac j hj i hi]; exact sum_congr rfl (fun k _ => mul_comm _ _)⟩

/-- product of `X` with a vector through the factors -/
lemma mulVec (h : LU M N R X L U p q) (x : ℕ → K) {i : ℕ} (hi : i < M) :
    ∑ j ∈ range N, X (p i) j * x j = ∑ k ∈ range R, L i k * ∑ j ∈ range N, U k j * x (q j) := by
  rw [← sum_perm h.pQ (fun j => X (p i) j * x j)]
  simp_rw [mul_sum]
  rw [sum_comm]
  refine sum_congr rfl (fun j hj => ?_)
  rw [h.fac i hi j (mem_range.1 hj), sum_mul]
  exact sum_congr rfl (fun k _ => mul_assoc _ _ _)

/-- the two triangular solves give a solution when the residual is zero -/
lemma solve_ok (h : LU M N R X L U p q) {b Y Z x : ℕ → K} (hY : ∀ i < M, ∑ k ∈ range R, L i k * Y k = b (p i))
    (hZ : ∀ k < R, ∑ j ∈ range R, U k j * Z j = Y k) (hx : ∀ j < N, x (q j) = if j < R then Z j else 0) :
    ∀ i < M, ∑ j ∈ range N, X i j * x j = b i := by
  intro i hi
  obtain ⟨s, hs⟩ := perm_surj h.pP
  obtain ⟨hs1, hs2⟩ := hs i hi
  rw [← hs2, h.mulVec x hs1, ← hY _ hs1]
  refine sum_congr rfl (fun k hk => ?_)
  have hk := mem_range.1 hk
  rw [← hZ k hk]
  congr 1
  obtain ⟨t, rfl⟩ := Nat.exists_eq_add_of_le h.rN
  rw [sum_range_add, sum_eq_zero (s := range t), add_zero]
  · refine sum_congr rfl (fun j hj => ?_)
    have hj := mem_range.1 hj
    rw [hx j (by omega), if_pos hj]
  · intro j hj
    have hj := mem_range.1 hj
    rw [hx _ (by omega), if_neg (by omega), mul_zero]

/-- when there is a solution the residual is zero -/
lemma residual (h : LU M N R X L U p q) {b Y x : ℕ → K} (hY : ∀ i < R, ∑ k ∈ range R, L i k * Y k = b (p i))
    (hx : ∀ i < M, ∑ j ∈ range N, X i j * x j = b i) : ∀ i < M, ∑ k ∈ range R, L i k * Y k = b (p i) := by
  have e : ∀ i < M, ∑ k ∈ range R, L i k * (∑ j ∈ range N, U k j * x (q j)) = b (p i) := fun i hi => by
    rw [← h.mulVec x hi, hx _ (h.pP.1 i hi)]
  have u : ∀ k < R, (∑ j ∈ range N, U k j * x (q j)) - Y k = 0 := by
    refine lower_unique h.dL h.lo (fun i hi => ?_)
    simp_rw [mul_sub]
    rw [sum_sub_distrib, e i (lt_of_lt_of_le hi h.rM), hY i hi, sub_self]
  intro i hi
  rw [← e i hi]
  refine sum_congr rfl (fun k hk => ?_)
  rw [sub_eq_zero.1 (u k (mem_range.1 hk))]

/-- null vectors -/
lemma null_iff (h : LU M N R X L U p q) (x : ℕ → K) :
    (∀ i < M, ∑ j ∈ range N, X i j * x j = 0) ↔ ∀ k < R, ∑ j ∈ range N, U k j * x (q j) = 0 := by
  constructor
  · intro hx
    refine lower_unique h.dL h.lo (fun i hi => ?_)
    rw [← h.mulVec x (lt_of_lt_of_le hi h.rM), hx _ (h.pP.1 i (lt_of_lt_of_le hi h.rM))]
  · intro hU i hi
    obtain ⟨s, hs⟩ := perm_surj h.pP
    obtain ⟨hs1, hs2⟩ := hs i hi
    rw [← hs2, h.mulVec x hs1]
    exact sum_eq_zero (fun k hk => by rw [hU k (mem_range.1 hk), mul_zero])

/-- The rows `q j`, `j < R` of a basis contain `-U₁⁻¹ U₂`, the others the identity. -/
lemma null_basis (h : LU M N R X L U p q) {NS T : ℕ → ℕ → K}
    (hT : ∀ k < R, ∀ c < N - R, ∑ j ∈ range R, U k j * T j c = -U k (R + c))
    (hN : ∀ j < N, ∀ c < N - R, NS (q j) c = if j < R then T j c else if j = R + c then 1 else 0) (x : ℕ → K) :
    (∀ i < M, ∑ j ∈ range N, X i j * x j = 0) ↔ ∀ j < N, x j = ∑ c ∈ range (N - R), NS j c * x (q (R + c)) := by
  rw [h.null_iff]
  obtain ⟨t, rfl⟩ := Nat.exists_eq_add_of_le h.rN
  simp only [Nat.add_sub_cancel_left] at *
  -- the non-pivot rows
  have hlast : ∀ c < t, ∀ y : ℕ → K, ∑ c' ∈ range t, NS (q (R + c)) c' * y c' = y c := by
    intro c hc y
    rw [sum_eq_single c]
    · rw [hN _ (by omega) c hc, if_neg (by omega), if_pos rfl, one_mul]
    · intro c' hc' hne
      rw [hN _ (by omega) c' (mem_range.1 hc'), if_neg (by omega), if_neg (by omega), zero_mul]
    · intro hn; exact absurd (mem_range.2 hc) hn
  have key : ∀ k < R, ∑ j ∈ range (R + t), U k j * x (q j) =
      ∑ j ∈ range R, U k j * (x (q j) - ∑ c ∈ range t, NS (q j) c * x (q (R + c))) := by
    intro k hk
    simp_rw [mul_sub]
    rw [sum_sub_distrib, sum_range_add, sub_eq_add_neg, ← sum_neg_distrib]
    congr 1
    have : ∀ j ∈ range R, -(U k j * ∑ c ∈ range t, NS (q j) c * x (q (R + c))) = ∑ c ∈ range t, -(U k j * T j c) * x (q (R + c)) := by
      intro j hj
      have hj := mem_range.1 hj
      rw [mul_sum, ← sum_neg_distrib]
      refine sum_congr rfl (fun c hc => ?_)
      rw [hN j (by omega) c (mem_range.1 hc), if_pos hj]; ring
    rw [sum_congr rfl this, sum_comm]
    refine sum_congr rfl (fun c hc => ?_)
    rw [← sum_mul, sum_neg_distrib, hT k hk c (mem_range.1 hc), neg_neg]
  obtain ⟨s, hs⟩ := perm_surj h.pQ
  constructor
  · intro hU
    have u := upper_unique h.dU h.up (y := fun j => x (q j) - ∑ c ∈ range t, NS (q j) c * x (q (R + c)))
      (fun k hk => by rw [← key k hk]; exact hU k hk)
    intro j hj
    obtain ⟨hs1, hs2⟩ := hs j hj
    rw [← hs2]
    by_cases hR : s j < R
    · exact sub_eq_zero.1 (u _ hR)
    · have := hlast (s j - R) (by omega) (fun c => x (q (R + c)))
      rw [show R + (s j - R) = s j by omega] at this
      exact this.symm
  · intro hx k hk
    rw [key k hk]
    refine sum_eq_zero (fun j hj => ?_)
    have hj := mem_range.1 hj
    rw [← hx (q j) (h.pQ.1 j (by omega)), sub_self, mul_zero]

end LU

end Verif.Pluq
