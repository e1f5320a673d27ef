import Verif.Spec.Cup
import Verif.Proofs.PluqRank
import Verif.Spec.RankProfile

/-!
# CUP decompositions, the algebra
-/

namespace Verif.Lud

open Finset Verif.Spec Verif.Spec.Perm Verif.Pluq

variable {K : Type} [Field K]

/-- 1 if the upper factor has a unit diagonal (then the pivots stay in the echelon factor) -/
def ub (d : Diag) : ℕ := match d with
  | .nonUnit => 0
  | .unit => 1

/-- the first `b` columns stay, the others are permuted by `σ` -/
def afterP (b : ℕ) (σ : ℕ → ℕ) (j : ℕ) : ℕ := if j < b then j else b + σ (j - b)

/-- A CUP decomposition, with what is known about the entries outside the factors. -/
structure Cup (d : Diag) (M N : ℕ) (X V : ℕ → ℕ → K) (p q : ℕ → ℕ) (r : ℕ) : Prop extends IsCUP d M N X V p q r where
  pP : IsPermArray p N
  low : ∀ k < r, ∀ i < M, k + 1 ≤ i + ub d → i + ub d < q k + 1 → V i k = 0
  zero : ∀ i < M, ∀ j < N, r ≤ i → r ≤ j → V i j = 0

section
variable {d : Diag} {M N r : ℕ} {X X' V V' : ℕ → ℕ → K} {p p' q q' : ℕ → ℕ}

lemma _root_.Verif.Spec.IsCUP.le_q (h : IsCUP d M N X V p q r) : ∀ k < r, k ≤ q k := by
  intro k
  induction k with
  | zero => intro _; omega
  | succ k ih =>
    intro hk
    have := h.inc k (k + 1) (by omega) hk
    have := ih (by omega)
    omega

lemma _root_.Verif.Spec.IsCUP.rM (h : IsCUP d M N X V p q r) : r ≤ M := by
  rcases Nat.eq_zero_or_pos r with h0 | h0
  · omega
  · have := h.le_q (r - 1) (by omega)
    have := h.qM (r - 1) (by omega)
    omega

lemma cupC_lt {i k : ℕ} (h : i < q k) : cupC d V q i k = 0 := if_pos h
lemma cupC_gt {i k : ℕ} (h : q k < i) : cupC d V q i k = V i k := by
  unfold cupC; rw [if_neg (by omega), if_neg (by omega)]
lemma cupC_eq_unit {k : ℕ} : cupC .unit V q (q k) k = V (q k) k := by
  unfold cupC; rw [if_neg (by omega), if_pos rfl]
lemma cupC_eq_nonUnit {k : ℕ} : cupC .nonUnit V q (q k) k = 1 := by
  unfold cupC; rw [if_neg (by omega), if_pos rfl]

/-- the echelon factor depends on the entries below the pivots -/
lemma cupC_congr {i i' k k' : ℕ} (h0 : i < q k ↔ i' < q' k') (h1 : i = q k ↔ i' = q' k')
    (h : q k + 1 ≤ i + ub d → V i k = V' i' k') : cupC d V q i k = cupC d V' q' i' k' := by
  unfold cupC
  by_cases c0 : i < q k
  · rw [if_pos c0, if_pos (h0.1 c0)]
  · rw [if_neg c0, if_neg (fun x => c0 (h0.2 x))]
    by_cases c1 : i = q k
    · rw [if_pos c1, if_pos (h1.1 c1)]
      cases d
      · rfl
      · exact h (by simp only [ub]; omega)
    · rw [if_neg c1, if_neg (fun x => c1 (h1.2 x))]
      exact h (by omega)

lemma luU_congr' {k j k' j' : ℕ} (h0 : k < j ↔ k' < j') (h1 : k = j ↔ k' = j') (h : k + ub d ≤ j → V k j = V' k' j') :
    luU d V k j = luU d V' k' j' := by
  rcases Nat.lt_trichotomy k j with hk | hk | hk
  · rw [luU_lt hk, luU_lt (h0.1 hk), h (by cases d <;> simp only [ub] <;> omega)]
  · have hk' := h1.1 hk
    subst hk hk'
    cases d
    · rw [luU_diag_nonUnit, luU_diag_nonUnit, h (by simp [ub])]
    · rw [luU_diag_unit, luU_diag_unit]
  · rw [luU_gt hk, luU_gt (by omega)]

lemma Cup.congr (h : Cup d M N X V p q r) (hX : ∀ i < M, ∀ j < N, X i j = X' i j) (hV : ∀ i < M, ∀ j < N, V i j = V' i j)
    (hp : ∀ j < N, p j = p' j) (hq : ∀ k < r, q k = q' k) : Cup d M N X' V' p' q' r := by
  have rN := h.rN
  have rM := h.rM
  refine ⟨⟨rN, fun k hk => ?_, fun k l hkl hl => ?_, fun k hk => ?_, fun i hi j hj => ?_⟩, ⟨fun j hj => ?_, fun i hi j hj e => ?_⟩,
    fun k hk i hi h1 h2 => ?_, fun i hi j hj h1 h2 => ?_⟩
  · rw [← hq k hk]; exact h.qM k hk
  · rw [← hq k (by omega), ← hq l hl]; exact h.inc k l hkl hl
  · have := h.piv k hk
    rw [hV _ (h.qM k hk) _ (by omega), hV k (by omega) k (by omega), hq k hk] at this
    exact this
  · rw [← hp j hj, ← hX i hi _ (h.pP.1 j hj), h.fac i hi j hj]
    refine sum_congr rfl (fun k hk => ?_)
    have hk := mem_range.1 hk
    rw [cupC_congr (V := V) (V' := V') (q' := q') (i' := i) (k' := k) (by rw [hq k hk]) (by rw [hq k hk]) (fun _ => hV i hi k (by omega)),
      luU_congr (V := V) (V' := V') (fun _ => hV k (by omega) j hj)]
  · rw [← hp j hj]; exact h.pP.1 j hj
  · rw [← hp i hi, ← hp j hj] at e; exact h.pP.2 i hi j hj e
  · rw [← hq k hk] at h2
    rw [← hV i hi k (by omega)]; exact h.low k hk i hi h1 h2
  · rw [← hV i hi j hj]; exact h.zero i hi j hj h1 h2

end

lemma afterP_perm {n b : ℕ} {σ : ℕ → ℕ} (hb : b ≤ n) (h : IsPermArray σ (n - b)) : IsPermArray (afterP b σ) n := by
  refine ⟨fun i hi => ?_, fun i hi j hj e => ?_⟩
  · unfold afterP
    split_ifs with c
    · exact hi
    · have := h.1 (i - b) (by omega)
      omega
  · unfold afterP at e
    split_ifs at e with c1 c2 c2
    · exact e
    · omega
    · omega
    · have := h.2 (i - b) (by omega) (j - b) (by omega) (by omega)
      omega

/-- The recursive step. -/
theorem Cup.comb {d : Diag} {m1 m2 n r1 r2 : ℕ} {X Y1 B S Y2 Y : ℕ → ℕ → K} {p1 p2 q1 q2 : ℕ → ℕ}
    (h1 : Cup d m1 n X Y1 p1 q1 r1) (h2 : Cup d m2 (n - r1) S Y2 p2 q2 r2)
    (hB : ∀ i < m2, ∀ j < r1, ∑ k ∈ range r1, B i k * luU d Y1 k j = X (m1 + i) (p1 j))
    (hS : ∀ i < m2, ∀ j < n - r1, S i j = X (m1 + i) (p1 (r1 + j)) - ∑ k ∈ range r1, B i k * Y1 k (r1 + j))
    (e1 : ∀ i < m1, ∀ k < r1, Y i k = Y1 i k)
    (e2 : ∀ k < r1, ∀ j < n - r1, Y k (r1 + j) = Y1 k (r1 + p2 j))
    (e3 : ∀ i < m2, ∀ k < r1, Y (m1 + i) k = B i k)
    (u : ∀ k < r2, ∀ j < n - r1, k + ub d ≤ j → Y (r1 + k) (r1 + j) = Y2 k j)
    (l : ∀ i < m2, ∀ k < r2, q2 k + 1 ≤ i + ub d → Y (m1 + i) (r1 + k) = Y2 i k)
    (z1 : ∀ k < r2, ∀ i < m1 + m2, r1 + k + 1 ≤ i + ub d → i + ub d < m1 + q2 k + 1 → Y i (r1 + k) = 0)
    (z2 : ∀ i < m1 + m2, ∀ j < n - r1, r1 + r2 ≤ i → r2 ≤ j → Y i (r1 + j) = 0) :
    Cup d (m1 + m2) n X Y (fun j => p1 (afterP r1 p2 j)) (fun k => if k < r1 then q1 k else m1 + q2 (k - r1)) (r1 + r2) := by
  have rN1 := h1.rN
  have rN2 := h2.rN
  have rM1 := h1.rM
  have rM2 := h2.rM
  have hub : ub d ≤ 1 := by cases d <;> simp [ub]
  have pa : IsPermArray (afterP r1 p2) n := afterP_perm rN1 h2.pP
  have aft : ∀ j < n, r1 ≤ j → afterP r1 p2 j = r1 + p2 (j - r1) := fun j _ h => if_neg (by omega)
  have afl : ∀ j < r1, afterP r1 p2 j = j := fun j h => if_pos h
  have U1 : ∀ k < r1, ∀ j < n, luU d Y k j = luU d Y1 k (afterP r1 p2 j) := by
    intro k hk j hj
    by_cases hj' : j < r1
    · rw [afl j hj']
      exact luU_congr (fun _ => e1 k (by omega) j hj')
    · rw [aft j hj (by omega)]
      refine luU_congr' (by omega) (by omega) (fun _ => ?_)
      have := e2 k hk (j - r1) (by omega)
      rwa [show r1 + (j - r1) = j by omega] at this
  have U2 : ∀ k < r2, ∀ j < n - r1, luU d Y (r1 + k) (r1 + j) = luU d Y2 k j := by
    intro k hk j hj
    exact luU_congr' (by omega) (by omega) (fun c => u k hk j hj (by omega))
  refine ⟨⟨by omega, fun k hk => ?_, fun k k' hkk hk => ?_, fun k hk => ?_, fun i hi j hj => ?_⟩, ⟨fun j hj => h1.pP.1 _ (pa.1 j hj), fun i hi j hj e => pa.2 i hi j hj (h1.pP.2 _ (pa.1 i hi) _ (pa.1 j hj) e)⟩, ?_, ?_⟩
  · split_ifs with c
    · have := h1.qM k c; omega
    · have := h2.qM (k - r1) (by omega); omega
  · split_ifs with c c' c'
    · exact h1.inc k k' hkk c'
    · have := h1.qM k c; omega
    · omega
    · have := h2.inc (k - r1) (k' - r1) (by omega) (by omega); omega
  · by_cases c : k < r1
    · have hp := h1.piv k c
      have hq := h1.qM k c
      cases d
      · simp only [] at hp ⊢
        rw [e1 k (by omega) k c]; exact hp
      · simp only [if_pos c] at hp ⊢
        rw [e1 _ hq k c]; exact hp
    · obtain ⟨t, rfl⟩ : ∃ t, k = r1 + t := ⟨k - r1, by omega⟩
      have ht : t < r2 := by omega
      have hp := h2.piv t ht
      have hq := h2.qM t ht
      cases d
      · simp only [] at hp ⊢
        rw [u t ht t (by omega) (by simp [ub])]; exact hp
      · simp only [if_neg c, Nat.add_sub_cancel_left] at hp ⊢
        rw [l _ hq t ht (by simp [ub])]; exact hp
  · rw [sum_range_add]
    have A1 : ∑ k ∈ range r1, cupC d Y (fun k => if k < r1 then q1 k else m1 + q2 (k - r1)) i k * luU d Y k j =
        ∑ k ∈ range r1, (if i < m1 then cupC d Y1 q1 i k else B (i - m1) k) * luU d Y1 k (afterP r1 p2 j) := by
      refine sum_congr rfl (fun k hk => ?_)
      have hk := mem_range.1 hk
      have hq := h1.qM k hk
      rw [U1 k hk j hj]
      congr 1
      split_ifs with c
      · exact cupC_congr (by simp only [if_pos hk]) (by simp only [if_pos hk]) (fun _ => e1 i c k hk)
      · rw [cupC_gt (by simp only [if_pos hk]; omega)]
        have := e3 (i - m1) (by omega) k hk
        rwa [show m1 + (i - m1) = i by omega] at this
    rw [A1]
    by_cases c : i < m1
    · simp only [if_pos c]
      rw [h1.fac i c _ (pa.1 j hj), left_eq_add]
      refine sum_eq_zero (fun k hk => ?_)
      rw [cupC_lt (by rw [if_neg (by omega)]; omega), zero_mul]
    · obtain ⟨s, rfl⟩ : ∃ s, i = m1 + s := ⟨i - m1, by omega⟩
      have hs : s < m2 := by omega
      simp only [if_neg c, Nat.add_sub_cancel_left]
      by_cases cj : j < r1
      · rw [afl j cj, hB s hs j cj, left_eq_add]
        exact sum_eq_zero (fun k _ => by rw [luU_gt (by omega), mul_zero])
      · obtain ⟨t, rfl⟩ : ∃ t, j = r1 + t := ⟨j - r1, by omega⟩
        have ht : t < n - r1 := by omega
        have hpt := h2.pP.1 t ht
        have e := h2.fac s hs t ht
        rw [hS s hs _ hpt] at e
        rw [aft _ hj (by omega), Nat.add_sub_cancel_left]
        have f1 : ∑ k ∈ range r1, B s k * luU d Y1 k (r1 + p2 t) = ∑ k ∈ range r1, B s k * Y1 k (r1 + p2 t) :=
          sum_congr rfl (fun k hk => by rw [luU_lt (by have := mem_range.1 hk; omega)])
        rw [f1, sub_eq_iff_eq_add'.1 e]
        congr 1
        refine sum_congr rfl (fun k hk => ?_)
        have hk := mem_range.1 hk
        rw [U2 k hk t ht]
        congr 1
        exact (cupC_congr (by rw [if_neg (by omega), Nat.add_sub_cancel_left]; omega) (by rw [if_neg (by omega), Nat.add_sub_cancel_left]; omega)
          (fun cc => l s hs k hk (by rw [if_neg (by omega), Nat.add_sub_cancel_left] at cc; omega))).symm
  · intro k hk i hi c1 c2
    by_cases c : k < r1
    · rw [if_pos c] at c2
      have hq := h1.qM k c
      rw [e1 i (by omega) k c]
      exact h1.low k c i (by omega) c1 c2
    · obtain ⟨t, rfl⟩ : ∃ t, k = r1 + t := ⟨k - r1, by omega⟩
      rw [if_neg c, Nat.add_sub_cancel_left] at c2
      exact z1 t (by omega) i hi c1 c2
  · intro i hi j hj c1 c2
    have := z2 i hi (j - r1) (by omega) c1 (by omega)
    rwa [show r1 + (j - r1) = j by omega] at this

/-- rows moved up: rows `m1, m1+1, …` of the upper factor become rows `r1, r1+1, …` -/
def moved (e r1 m1 t : ℕ) (V : ℕ → ℕ → K) : ℕ → ℕ → K := fun i j =>
  if r1 ≤ i ∧ i < r1 + t ∧ i + e ≤ j then V (m1 + (i - r1)) j
  else if m1 ≤ i ∧ i < m1 + t ∧ r1 + (i - m1) + e ≤ j then 0
  else V i j

/-- one more row -/
lemma moved_succ {e r1 m1 t : ℕ} {V : ℕ → ℕ → K} (h : r1 < m1) (i j : ℕ) :
    moved e r1 m1 (t + 1) V i j =
      if i = r1 + t ∧ r1 + t + e ≤ j then moved e r1 m1 t V (m1 + t) j
      else if i = m1 + t ∧ r1 + t + e ≤ j then 0 else moved e r1 m1 t V i j := by
  have z : moved e r1 m1 t V (m1 + t) j = V (m1 + t) j := by
    unfold moved; rw [if_neg (by omega), if_neg (by omega)]
  rw [z]
  by_cases c1 : i = r1 + t ∧ r1 + t + e ≤ j
  · rw [if_pos c1]
    unfold moved
    rw [if_pos (by omega)]
    congr 1; omega
  · rw [if_neg c1]
    by_cases c2 : i = m1 + t ∧ r1 + t + e ≤ j
    · rw [if_pos c2]
      unfold moved
      rw [if_neg (by omega), if_pos (by omega)]
    · rw [if_neg c2]
      unfold moved
      by_cases c3 : r1 ≤ i ∧ i < r1 + t ∧ i + e ≤ j
      · rw [if_pos c3, if_pos (by omega)]
      · rw [if_neg c3, if_neg (by omega)]
        by_cases c4 : m1 ≤ i ∧ i < m1 + t ∧ r1 + (i - m1) + e ≤ j
        · rw [if_pos c4, if_pos (by omega)]
        · rw [if_neg c4, if_neg (by omega)]

/-- The recursive step, with the rows moved up. -/
theorem Cup.comb_moved {d : Diag} {m1 m2 n r1 r2 : ℕ} {X Y1 B S Y2 V : ℕ → ℕ → K} {p1 p2 q1 q2 : ℕ → ℕ}
    (h1 : Cup d m1 n X Y1 p1 q1 r1) (h2 : Cup d m2 (n - r1) S Y2 p2 q2 r2)
    (hB : ∀ i < m2, ∀ j < r1, ∑ k ∈ range r1, B i k * luU d Y1 k j = X (m1 + i) (p1 j))
    (hS : ∀ i < m2, ∀ j < n - r1, S i j = X (m1 + i) (p1 (r1 + j)) - ∑ k ∈ range r1, B i k * Y1 k (r1 + j))
    (e1 : ∀ i < m1, ∀ k < r1, V i k = Y1 i k)
    (e2 : ∀ k < m1, ∀ j < n - r1, V k (r1 + j) = Y1 k (r1 + p2 j))
    (e3 : ∀ i < m2, ∀ k < r1, V (m1 + i) k = B i k)
    (e4 : ∀ i < m2, ∀ j < n - r1, V (m1 + i) (r1 + j) = Y2 i j) :
    Cup d (m1 + m2) n X (if r1 < m1 then moved (ub d) r1 m1 r2 V else V) (fun j => p1 (afterP r1 p2 j))
      (fun k => if k < r1 then q1 k else m1 + q2 (k - r1)) (r1 + r2) := by
  have rN1 := h1.rN
  have rN2 := h2.rN
  have rM1 := h1.rM
  have rM2 := h2.rM
  have lq := h2.le_q
  have hub : ub d ≤ 1 := by cases d <;> simp [ub]
  have zt : ∀ k, r1 ≤ k → k < m1 → ∀ j < n - r1, V k (r1 + j) = 0 := fun k c1 c2 j hj => by
    have := h2.pP.1 j hj
    rw [e2 k c2 j hj, h1.zero k c2 _ (by omega) c1 (by omega)]
  by_cases c : r1 < m1
  · rw [if_pos c]
    have keep : ∀ i j, i < r1 ∨ j < r1 → moved (ub d) r1 m1 r2 V i j = V i j := fun i j h => by
      unfold moved; rw [if_neg (by omega), if_neg (by omega)]
    refine h1.comb h2 hB hS (fun i hi k hk => ?_) (fun k hk j hj => ?_) (fun i hi k hk => ?_) (fun k hk j hj h => ?_) (fun i hi k hk h => ?_)
      (fun k hk i hi h h' => ?_) (fun i hi j hj h h' => ?_)
    · rw [keep _ _ (Or.inr hk)]; exact e1 i hi k hk
    · rw [keep _ _ (Or.inl hk)]; exact e2 k (by omega) j hj
    · rw [keep _ _ (Or.inr hk)]; exact e3 i hi k hk
    · unfold moved
      rw [if_pos (by omega), ← e4 k (by omega) j hj]
      congr 1; omega
    · have := lq k hk
      unfold moved
      rw [if_neg (by omega), if_neg (by omega)]
      exact e4 i hi k (by omega)
    · have lk := lq k hk
      unfold moved
      by_cases cs : m1 ≤ i ∧ i < m1 + r2 ∧ r1 + (i - m1) + ub d ≤ r1 + k
      · rw [if_neg (by omega), if_pos cs]
      · rw [if_neg (by omega), if_neg cs]
        by_cases ci : i < m1
        · exact zt i (by omega) ci k (by omega)
        · have := e4 (i - m1) (by omega) k (by omega)
          rw [show m1 + (i - m1) = i by omega] at this
          rw [this]
          by_cases cr : i - m1 < r2
          · exact h2.low k hk _ (by omega) (by omega) (by omega)
          · exact h2.low k hk _ (by omega) (by omega) (by omega)
    · unfold moved
      by_cases cs : m1 ≤ i ∧ i < m1 + r2 ∧ r1 + (i - m1) + ub d ≤ r1 + j
      · rw [if_neg (by omega), if_pos cs]
      · rw [if_neg (by omega), if_neg cs]
        by_cases ci : i < m1
        · exact zt i (by omega) ci j hj
        · have := e4 (i - m1) (by omega) j hj
          rw [show m1 + (i - m1) = i by omega] at this
          rw [this]
          exact h2.zero _ (by omega) j hj (by omega) h'
  · rw [if_neg c]
    obtain rfl : r1 = m1 := by omega
    refine h1.comb h2 hB hS e1 e2 e3 (fun k hk j hj _ => e4 k (by omega) j hj) (fun i hi k hk _ => e4 i hi k (by omega))
      (fun k hk i hi h h' => ?_) (fun i hi j hj h h' => ?_)
    · have lk := lq k hk
      have := e4 (i - r1) (by omega) k (by omega)
      rw [show r1 + (i - r1) = i by omega] at this
      rw [this]
      exact h2.low k hk _ (by omega) (by omega) (by omega)
    · have := e4 (i - r1) (by omega) j hj
      rw [show r1 + (i - r1) = i by omega] at this
      rw [this]
      exact h2.zero _ (by omega) j hj (by omega) h'

end Verif.Lud
