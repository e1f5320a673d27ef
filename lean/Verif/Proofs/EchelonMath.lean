import Verif.Spec.Echelon
import Verif.Proofs.PluqMath

/-!
# Reduced echelon forms, the algebra
-/

namespace Verif.Pluq

open Finset Verif.Spec Verif.Spec.Perm

variable {K : Type} [Field K]

lemma transOf_sum {M rb cb R i : ℕ} (V : ℕ → ℕ → K) (f : ℕ → K) (hi : i < M) (hR : rb + R ≤ M) :
    ∑ k ∈ range M, transOf rb cb R V i k * f k =
      (if rb ≤ i ∧ i < rb + R then 0 else f i) + ∑ l ∈ range R, V i (cb + l) * f (rb + l) := by
  have e : ∀ k ∈ range M, transOf rb cb R V i k * f k =
      (if k = i then (if rb ≤ i ∧ i < rb + R then 0 else f i) else 0) + if rb ≤ k ∧ k < rb + R then V i (cb + (k - rb)) * f k else 0 := by
    intro k _
    unfold transOf
    by_cases h : rb ≤ k ∧ k < rb + R
    · rw [if_pos h, if_pos h]
      by_cases hk : k = i
      · subst hk; rw [if_pos rfl, if_pos h, zero_add]
      · rw [if_neg hk, zero_add]
    · rw [if_neg h, if_neg h]
      by_cases hk : k = i
      · subst hk; rw [if_pos rfl, if_pos rfl, if_neg h, one_mul, add_zero]
      · rw [if_neg (Ne.symm hk), if_neg hk, zero_mul, add_zero]
  rw [sum_congr rfl e, sum_add_distrib, sum_ite_eq' , if_pos (mem_range.2 hi)]
  congr 1
  obtain ⟨c, rfl⟩ := Nat.exists_eq_add_of_le hR
  rw [sum_range_add, sum_range_add]
  have z1 : ∑ k ∈ range rb, (if rb ≤ k ∧ k < rb + R then V i (cb + (k - rb)) * f k else 0) = 0 :=
    sum_eq_zero (fun k hk => if_neg (by have := mem_range.1 hk; omega))
  have z2 : ∑ k ∈ range c, (if rb ≤ rb + R + k ∧ rb + R + k < rb + R then V i (cb + (rb + R + k - rb)) * f (rb + R + k) else 0) = 0 :=
    sum_eq_zero (fun k hk => if_neg (by omega))
  rw [z1, z2, zero_add, add_zero]
  exact sum_congr rfl (fun l hl => by
    have := mem_range.1 hl
    rw [if_pos (by omega), Nat.add_sub_cancel_left])

/-- State of a slice of the Gauss–Jordan elimination: the columns `cb … cb+cs-1` of the matrix `X`, rows `rb …` not yet used as pivots. -/
structure GJ (M cs rb cb R : ℕ) (X V : ℕ → ℕ → K) (p q : ℕ → ℕ) : Prop where
  rM : rb + R ≤ M
  rN : R ≤ cs
  pP : IsPermArray p M
  fixP : ∀ i < rb, p i = i
  pQ : IsPermArray q cs
  eq : ∀ i < M, ∀ j < cs, ∑ k ∈ range M, transOf rb cb R V i k * X (p k) (cb + q j) = reducedOf rb cb R V i j
  zero : ∀ i < M, ∀ j < cs, rb + R ≤ i → R ≤ j → V i (cb + j) = 0
  mono : ∀ i < R, ∀ j < cs, R ≤ j → q j < q i → V (rb + i) (cb + j) = 0

lemma GJ.isReduced {M N R : ℕ} {X V : ℕ → ℕ → K} {p q : ℕ → ℕ} (h : GJ M N 0 0 R X V p q) : IsReduced M N R X V p q :=
  ⟨by have := h.rM; omega, h.rN, h.pP, h.pQ, fun i hi j hj => by have := h.eq i hi j hj; rwa [Nat.zero_add] at this,
    fun i hi j hj hR hq => by have := h.mono i hi j hj hR hq; rwa [Nat.zero_add, Nat.zero_add] at this⟩

lemma transOf_congr {M rb cb R i k : ℕ} {V V' : ℕ → ℕ → K} (hk : k < M) (h : ∀ l < R, V i (cb + l) = V' i (cb + l)) :
    transOf rb cb R V i k = transOf rb cb R V' i k := by
  unfold transOf
  split_ifs with h1
  · exact h _ (by omega)
  · rfl
  · rfl

lemma reducedOf_lt {rb cb R i j : ℕ} (V : ℕ → ℕ → K) (h : j < R) : reducedOf rb cb R V i j = if i = rb + j then 1 else 0 := if_pos h

lemma reducedOf_ge {rb cb R i j : ℕ} (V : ℕ → ℕ → K) (h : R ≤ j) : reducedOf rb cb R V i j = if i < rb + R then V i (cb + j) else 0 :=
  if_neg (by omega)

lemma reducedOf_congr {rb cb R i j cs : ℕ} {V V' : ℕ → ℕ → K} (hj : j < cs) (h : ∀ l < cs, V i (cb + l) = V' i (cb + l)) :
    reducedOf rb cb R V i j = reducedOf rb cb R V' i j := by
  unfold reducedOf
  split_ifs with h1
  · rfl
  · rfl
  · exact h j hj
  · rfl

lemma GJ.congrV {M cs rb cb R : ℕ} {X V V' : ℕ → ℕ → K} {p q : ℕ → ℕ} (h : GJ M cs rb cb R X V p q)
    (e : ∀ i < M, ∀ j < cs, V i (cb + j) = V' i (cb + j)) : GJ M cs rb cb R X V' p q := by
  have hN := h.rN
  have hM := h.rM
  refine ⟨h.rM, h.rN, h.pP, h.fixP, h.pQ, fun i hi j hj => ?_, fun i hi j hj h1 h2 => by rw [← e i hi j hj]; exact h.zero i hi j hj h1 h2,
    fun i hi j hj h1 h2 => by rw [← e _ (by omega) j hj]; exact h.mono i hi j hj h1 h2⟩
  rw [← reducedOf_congr (V := V) hj (fun l hl => e i hi l hl), ← h.eq i hi j hj]
  exact sum_congr rfl (fun k hk => by rw [transOf_congr (V := V') (V' := V) (mem_range.1 hk) (fun l hl => (e i hi l (by omega)).symm)])

lemma GJ.congrX {M cs rb cb R : ℕ} {X X' V : ℕ → ℕ → K} {p q : ℕ → ℕ} (h : GJ M cs rb cb R X V p q)
    (e : ∀ i < M, ∀ j < cs, X i (cb + j) = X' i (cb + j)) : GJ M cs rb cb R X' V p q :=
  ⟨h.rM, h.rN, h.pP, h.fixP, h.pQ, fun i hi j hj => by
    rw [← h.eq i hi j hj]
    exact sum_congr rfl (fun k hk => by rw [e _ (h.pP.1 k (mem_range.1 hk)) _ (h.pQ.1 j hj)]), h.zero, h.mono⟩

/-! ### two slices -/

/-- the order of the columns after two slices -/
def gjQ (c1 r1 r2 : ℕ) (q1 q2 : ℕ → ℕ) (j : ℕ) : ℕ :=
  if j < r1 then q1 j else if j < r1 + r2 then c1 + q2 (j - r1) else if j < c1 + r2 then q1 (j - r2) else c1 + q2 (j - c1)

lemma gjQ_perm {c1 c2 r1 r2 : ℕ} {q1 q2 : ℕ → ℕ} (h1 : IsPermArray q1 c1) (h2 : IsPermArray q2 c2) (hr1 : r1 ≤ c1) (hr2 : r2 ≤ c2) :
    IsPermArray (gjQ c1 r1 r2 q1 q2) (c1 + c2) := by
  refine ⟨fun j hj => ?_, ?_⟩
  · unfold gjQ
    split_ifs
    · have := h1.1 j (by omega); omega
    · have := h2.1 (j - r1) (by omega); omega
    · have := h1.1 (j - r2) (by omega); omega
    · have := h2.1 (j - c1) (by omega); omega
  · intro j hj j' hj' e
    have b1 : ∀ a < c1, q1 a < c1 := h1.1
    have b2 : ∀ a < c2, q2 a < c2 := h2.1
    unfold gjQ at e
    split_ifs at e with a1 a2 a3 a4 a5 a6 a7 a8 a9 a10 a11 a12
    all_goals first
      | (have := h1.2 _ (by omega) _ (by omega) e; omega)
      | (have := h2.2 _ (by omega) _ (by omega) (Nat.add_left_cancel e); omega)
      | (exfalso
         first
          | (have := b1 j (by omega); omega)
          | (have := b1 j' (by omega); omega)
          | (have := b1 (j - r2) (by omega); omega)
          | (have := b1 (j' - r2) (by omega); omega))

variable {M c1 c2 rb cb r1 r2 : ℕ} {X X' V1 V2 V4 : ℕ → ℕ → K} {p1 p2 q1 q2 : ℕ → ℕ}

/-- the matrix after two slices -/
structure GJComp (M c1 c2 rb cb r1 r2 : ℕ) (V1 V2 V4 : ℕ → ℕ → K) (p2 : ℕ → ℕ) : Prop where
  a : ∀ i < M, ∀ l < r1, V4 i (cb + l) = ∑ k ∈ range M, transOf (rb + r1) (cb + c1) r2 V2 i k * V1 (p2 k) (cb + l)
  b : ∀ i < M, ∀ l < r2, V4 i (cb + (r1 + l)) = V2 i (cb + c1 + l)
  c : ∀ i < M, ∀ l < c1 - r1, V4 i (cb + (r1 + r2 + l)) = if i < rb + r1 then V1 i (cb + (r1 + l)) else 0
  d : ∀ i < M, ∀ l < c2 - r2, V4 i (cb + (c1 + r2 + l)) = V2 i (cb + c1 + (r2 + l))

lemma GJ.comp (h1 : GJ M c1 rb cb r1 X V1 p1 q1)
    (hX : ∀ i < M, ∀ j < c2, X' i (cb + c1 + j) = ∑ k ∈ range M, transOf rb cb r1 V1 i k * X (p1 k) (cb + c1 + j))
    (h2 : GJ M c2 (rb + r1) (cb + c1) r2 X' V2 p2 q2) (hV : GJComp M c1 c2 rb cb r1 r2 V1 V2 V4 p2) :
    GJ M (c1 + c2) rb cb (r1 + r2) X V4 (p1 ∘ p2) (gjQ c1 r1 r2 q1 q2) := by
  have hr1 := h1.rN
  have hr2 := h2.rN
  have hM1 := h1.rM
  have hM2 := h2.rM
  have p2lt := h2.pP.1
  have p2ge : ∀ k < M, rb + r1 ≤ k → rb + r1 ≤ p2 k := by
    intro k hk hge
    by_contra hc
    have := h2.fixP (p2 k) (by omega)
    have := h2.pP.2 _ (p2lt k hk) _ hk this
    omega
  -- the transformation is the product
  have key : ∀ z : ℕ → K, ∀ i < M, ∑ k ∈ range M, transOf rb cb (r1 + r2) V4 i k * z (p2 k) =
      ∑ k ∈ range M, transOf (rb + r1) (cb + c1) r2 V2 i k * ∑ l ∈ range M, transOf rb cb r1 V1 (p2 k) l * z l := by
    intro z i hi
    have inner : ∀ k ∈ range M, transOf (rb + r1) (cb + c1) r2 V2 i k * ∑ l ∈ range M, transOf rb cb r1 V1 (p2 k) l * z l =
        transOf (rb + r1) (cb + c1) r2 V2 i k * (if rb ≤ k ∧ k < rb + r1 then 0 else z (p2 k)) +
        transOf (rb + r1) (cb + c1) r2 V2 i k * ∑ l ∈ range r1, V1 (p2 k) (cb + l) * z (rb + l) := by
      intro k hk
      have hk := mem_range.1 hk
      rw [transOf_sum V1 z (p2lt k hk) (by omega), mul_add]
      congr 2
      by_cases hc : k < rb + r1
      · rw [h2.fixP k hc]
      · rw [if_neg (by have := p2ge k hk (by omega); omega), if_neg (by omega)]
    rw [sum_congr rfl inner, sum_add_distrib, transOf_sum V2 (fun k => if rb ≤ k ∧ k < rb + r1 then 0 else z (p2 k)) hi (by omega),
      transOf_sum V4 (fun k => z (p2 k)) hi (by omega), sum_range_add]
    have e1 : ∑ l ∈ range r1, V4 i (cb + l) * z (p2 (rb + l)) =
        ∑ k ∈ range M, transOf (rb + r1) (cb + c1) r2 V2 i k * ∑ l ∈ range r1, V1 (p2 k) (cb + l) * z (rb + l) := by
      have : ∀ k ∈ range M, transOf (rb + r1) (cb + c1) r2 V2 i k * ∑ l ∈ range r1, V1 (p2 k) (cb + l) * z (rb + l) =
          ∑ l ∈ range r1, transOf (rb + r1) (cb + c1) r2 V2 i k * V1 (p2 k) (cb + l) * z (rb + l) := by
        intro k _
        rw [mul_sum]; exact sum_congr rfl (fun l _ => by rw [mul_assoc])
      rw [sum_congr rfl this, sum_comm]
      refine sum_congr rfl (fun l hl => ?_)
      have hl := mem_range.1 hl
      rw [h2.fixP (rb + l) (by omega), hV.a i hi l hl, sum_mul]
    have e2 : ∑ l ∈ range r2, V4 i (cb + (r1 + l)) * z (p2 (rb + (r1 + l))) =
        ∑ l ∈ range r2, V2 i (cb + c1 + l) * (if rb ≤ rb + r1 + l ∧ rb + r1 + l < rb + r1 then 0 else z (p2 (rb + r1 + l))) := by
      refine sum_congr rfl (fun l hl => ?_)
      rw [hV.b i hi l (mem_range.1 hl), if_neg (by omega), ← Nat.add_assoc rb]
    rw [e1, e2]
    have e3 : (if rb ≤ i ∧ i < rb + (r1 + r2) then (0 : K) else z (p2 i)) =
        if rb + r1 ≤ i ∧ i < rb + r1 + r2 then 0 else if rb ≤ i ∧ i < rb + r1 then 0 else z (p2 i) := by
      by_cases a1 : rb ≤ i ∧ i < rb + (r1 + r2)
      · rw [if_pos a1]
        by_cases a2 : rb + r1 ≤ i ∧ i < rb + r1 + r2
        · rw [if_pos a2]
        · rw [if_neg a2, if_pos (by omega)]
      · rw [if_neg a1, if_neg (by omega), if_neg (by omega)]
    rw [e3]
    ring
  -- columns of the first slice
  have col1 : ∀ i < M, ∀ j < c1, ∑ k ∈ range M, transOf rb cb (r1 + r2) V4 i k * X (p1 (p2 k)) (cb + q1 j) = reducedOf rb cb r1 V1 i j := by
    intro i hi j hj
    rw [key (fun l => X (p1 l) (cb + q1 j)) i hi]
    have big : ∀ k, rb + r1 ≤ k → reducedOf rb cb r1 V1 k j = 0 := by
      intro k hk
      unfold reducedOf
      split_ifs <;> first | omega | rfl
    have : ∀ k ∈ range M, transOf (rb + r1) (cb + c1) r2 V2 i k * ∑ l ∈ range M, transOf rb cb r1 V1 (p2 k) l * X (p1 l) (cb + q1 j) =
        transOf (rb + r1) (cb + c1) r2 V2 i k * reducedOf rb cb r1 V1 k j := by
      intro k hk
      have hk := mem_range.1 hk
      rw [h1.eq _ (p2lt k hk) j hj]
      by_cases hc : k < rb + r1
      · rw [h2.fixP k hc]
      · rw [big k (by omega), big _ (p2ge k hk (by omega))]
    rw [sum_congr rfl this, transOf_sum V2 _ hi (by omega), sum_eq_zero, add_zero]
    · split_ifs with hc
      · exact (big i hc.1).symm
      · rfl
    · intro l _
      rw [big _ (by omega), mul_zero]
  -- columns of the second slice
  have col2 : ∀ i < M, ∀ j < c2, ∑ k ∈ range M, transOf rb cb (r1 + r2) V4 i k * X (p1 (p2 k)) (cb + (c1 + q2 j)) =
      reducedOf (rb + r1) (cb + c1) r2 V2 i j := by
    intro i hi j hj
    rw [key (fun l => X (p1 l) (cb + (c1 + q2 j))) i hi, ← h2.eq i hi j hj]
    refine sum_congr rfl (fun k hk => ?_)
    rw [hX _ (p2lt k (mem_range.1 hk)) _ (h2.pQ.1 j hj)]
    simp only [Nat.add_assoc]
  refine ⟨by omega, by omega, ⟨fun i hi => h1.pP.1 _ (p2lt i hi), fun i hi j hj e => h2.pP.2 _ hi _ hj (h1.pP.2 _ (p2lt i hi) _ (p2lt j hj) e)⟩,
    fun i hi => by simp only [Function.comp]; rw [h2.fixP i (by omega), h1.fixP i hi], gjQ_perm h1.pQ h2.pQ hr1 hr2, ?_, ?_, ?_⟩
  · intro i hi j hj
    simp only [Function.comp]
    unfold gjQ
    by_cases j1 : j < r1
    · rw [if_pos j1, col1 i hi j (by omega), reducedOf_lt _ j1, reducedOf_lt _ (by omega)]
    · rw [if_neg j1]
      by_cases j2 : j < r1 + r2
      · rw [if_pos j2, col2 i hi (j - r1) (by omega), reducedOf_lt _ (by omega), reducedOf_lt _ (by omega)]
        exact if_congr (by omega) rfl rfl
      · rw [if_neg j2]
        by_cases j3 : j < c1 + r2
        · rw [if_pos j3, col1 i hi (j - r2) (by omega), reducedOf_ge _ (by omega), reducedOf_ge _ (by omega)]
          have := hV.c i hi (j - r1 - r2) (by omega)
          rw [show r1 + r2 + (j - r1 - r2) = j by omega, show r1 + (j - r1 - r2) = j - r2 by omega] at this
          rw [this]
          by_cases i1 : i < rb + r1
          · rw [if_pos i1, if_pos (by omega)]
          · rw [if_neg i1, ite_self]
        · rw [if_neg j3, col2 i hi (j - c1) (by omega), reducedOf_ge _ (by omega), reducedOf_ge _ (by omega)]
          have := hV.d i hi (j - c1 - r2) (by omega)
          rw [show c1 + r2 + (j - c1 - r2) = j by omega, show r2 + (j - c1 - r2) = j - c1 by omega] at this
          rw [this]
          exact if_congr (by omega) rfl rfl
  · intro i hi j hj h3 h4
    by_cases j3 : j < c1 + r2
    · have := hV.c i hi (j - r1 - r2) (by omega)
      rw [show r1 + r2 + (j - r1 - r2) = j by omega] at this
      rw [this, if_neg (by omega)]
    · have := hV.d i hi (j - c1 - r2) (by omega)
      rw [show c1 + r2 + (j - c1 - r2) = j by omega, show r2 + (j - c1 - r2) = j - c1 by omega] at this
      rw [this]
      exact h2.zero i hi _ (by omega) (by omega) (by omega)
  · intro i hi j hj h3 h4
    have b1 : ∀ a < c1, q1 a < c1 := h1.pQ.1
    by_cases j3 : j < c1 + r2
    · have := hV.c (rb + i) (by omega) (j - r1 - r2) (by omega)
      rw [show r1 + r2 + (j - r1 - r2) = j by omega, show r1 + (j - r1 - r2) = j - r2 by omega] at this
      rw [this]
      split_ifs with hc
      · unfold gjQ at h4
        rw [if_neg (by omega), if_neg (by omega), if_pos j3, if_pos (by omega)] at h4
        exact h1.mono i (by omega) _ (by omega) (by omega) h4
      · rfl
    · have := hV.d (rb + i) (by omega) (j - c1 - r2) (by omega)
      rw [show c1 + r2 + (j - c1 - r2) = j by omega, show r2 + (j - c1 - r2) = j - c1 by omega] at this
      rw [this]
      unfold gjQ at h4
      rw [if_neg (by omega), if_neg (by omega), if_neg j3] at h4
      by_cases hi1 : i < r1
      · rw [if_pos hi1] at h4
        have := b1 i (by omega)
        omega
      · rw [if_neg hi1, if_pos (by omega)] at h4
        have := h2.mono (i - r1) (by omega) (j - c1) (by omega) (by omega) (by omega)
        rwa [show rb + r1 + (i - r1) = rb + i by omega] at this

/-! ### base case -/

/-- the rows above a slice -/
lemma GJ.extend {M cs rb cb R : ℕ} {X V : ℕ → ℕ → K} {σ q : ℕ → ℕ} (hb : rb ≤ M)
    (h : GJ (M - rb) cs 0 0 R (fun i j => X (rb + i) (cb + j)) (fun i j => V (rb + i) (cb + j)) σ q)
    (h1 : ∀ i < rb, ∀ l < R, V i (cb + l) = - ∑ k ∈ range R, X i (cb + q k) * V (rb + k) (cb + l))
    (h2 : ∀ i < rb, ∀ j < cs, R ≤ j → V i (cb + j) = X i (cb + q j) - ∑ k ∈ range R, X i (cb + q k) * V (rb + k) (cb + j)) :
    GJ M cs rb cb R X V (fun i => if i < rb then i else rb + σ (i - rb)) q := by
  have hM := h.rM
  have hN := h.rN
  have σlt := h.pP.1
  -- rows of the slice
  have low : ∀ k < M - rb, ∀ j < cs, (if k < R then 0 else X (rb + σ k) (cb + q j)) +
      ∑ l ∈ range R, V (rb + k) (cb + l) * X (rb + σ l) (cb + q j) = reducedOf rb cb R V (rb + k) j := by
    intro k hk j hj
    have := h.eq k hk j hj
    rw [transOf_sum _ _ hk (by omega)] at this
    have e : reducedOf 0 0 R (fun i j => V (rb + i) (cb + j)) k j = reducedOf rb cb R V (rb + k) j := by
      unfold reducedOf
      simp only [Nat.zero_add]
      split_ifs <;> first | rfl | omega
    rw [← e, ← this]
    simp only [Nat.zero_add, Nat.zero_le, true_and]
  refine ⟨by omega, h.rN, ⟨fun i hi => ?_, fun i hi j hj e => ?_⟩, fun i hi => if_pos hi, h.pQ, fun i hi j hj => ?_, fun i hi j hj h3 h4 => ?_, ?_⟩
  · show (if i < rb then i else rb + σ (i - rb)) < M
    split_ifs with hc
    · exact hi
    · have := σlt (i - rb) (by omega); omega
  · have e : (if i < rb then i else rb + σ (i - rb)) = (if j < rb then j else rb + σ (j - rb)) := e
    split_ifs at e with a1 a2
    · exact e
    · omega
    · omega
    · have := h.pP.2 _ (by omega) _ (by omega) (Nat.add_left_cancel e); omega
  · rw [transOf_sum _ _ hi (by omega)]
    have e0 : ∀ l ∈ range R, V i (cb + l) * X (if rb + l < rb then rb + l else rb + σ (rb + l - rb)) (cb + q j) =
        V i (cb + l) * X (rb + σ l) (cb + q j) := by
      intro l _
      rw [if_neg (by omega), Nat.add_sub_cancel_left]
    rw [sum_congr rfl e0]
    by_cases hc : i < rb
    · rw [if_neg (by omega), if_pos hc]
      have e1 : ∑ l ∈ range R, V i (cb + l) * X (rb + σ l) (cb + q j) = - ∑ k ∈ range R, X i (cb + q k) * reducedOf rb cb R V (rb + k) j := by
        have a1 : ∀ l ∈ range R, V i (cb + l) * X (rb + σ l) (cb + q j) =
            ∑ k ∈ range R, - (X i (cb + q k) * (V (rb + k) (cb + l) * X (rb + σ l) (cb + q j))) := by
          intro l hl
          rw [h1 i hc l (mem_range.1 hl), neg_mul, sum_mul, ← sum_neg_distrib]
          exact sum_congr rfl (fun k _ => by ring)
        rw [sum_congr rfl a1, sum_comm, ← sum_neg_distrib]
        refine sum_congr rfl (fun k hk => ?_)
        have hk := mem_range.1 hk
        rw [← low k (by omega) j hj, if_pos hk, zero_add, mul_sum, sum_neg_distrib]
      rw [e1]
      unfold reducedOf
      by_cases hj' : j < R
      · rw [if_pos hj', if_neg (by omega)]
        simp only [hj', if_true]
        rw [sum_eq_single j (fun k _ hk => by rw [if_neg (by omega), mul_zero]) (fun hh => absurd (mem_range.2 hj') hh), if_pos rfl, mul_one]
        ring
      · rw [if_neg hj', if_pos (by omega), h2 i hc j hj (by omega)]
        have : ∑ k ∈ range R, X i (cb + q k) * (if j < R then (if rb + k = rb + j then (1 : K) else 0) else if rb + k < rb + R then V (rb + k) (cb + j) else 0) =
            ∑ k ∈ range R, X i (cb + q k) * V (rb + k) (cb + j) :=
          sum_congr rfl (fun k hk => by rw [if_neg hj', if_pos (by have := mem_range.1 hk; omega)])
        rw [this]; ring
    · have := low (i - rb) (by omega) j hj
      rw [show rb + (i - rb) = i by omega] at this
      rw [← this, if_neg hc]
      congr 1
      exact if_congr (by omega) rfl rfl
  · have := h.zero (i - rb) (by omega) j hj (by omega) h4
    simpa only [show rb + (i - rb) = i by omega, Nat.zero_add] using this
  · intro i hi j hj h3 h4
    have := h.mono i hi j hj h3 h4
    simpa only [Nat.zero_add] using this

/-! ### from a PLUQ decomposition -/

/-- a decomposition of the transposed matrix -/
lemma Fac.transp {M N R : ℕ} {X V : ℕ → ℕ → K} {p q : ℕ → ℕ} (h : Fac .nonUnit M N X V p q R) :
    Fac .unit N M (fun i j => X j i) (fun i j => V j i) q p R := by
  have eL : ∀ i k, luL .unit (fun i j => V j i) i k = luU .nonUnit V k i := by
    intro i k
    simp only [luL, luU, tri]
    by_cases e : i = k
    · subst e; simp
    · rw [if_neg e, if_neg (Ne.symm e)]
  have eU : ∀ k j, luU .unit (fun i j => V j i) k j = luL .nonUnit V j k := by
    intro k j
    simp only [luL, luU, tri]
    by_cases e : k = j
    · subst e; simp
    · rw [if_neg e, if_neg (Ne.symm e)]
  refine ⟨⟨h.rN, h.rM, h.piv, fun i hi j hj => ?_⟩, h.pQ, h.pP, fun i hi j hj h1 h2 => h.zero j hj i hi h2 h1, fun k hk i hi hp => ?_,
    fun k hk j hj hq => ?_, h.incQ, h.incP⟩
  · rw [h.fac j hj i hi]
    exact sum_congr rfl (fun k _ => by rw [eL, eU, mul_comm])
  · rw [eL]; exact h.monoU k hk i hi hp
  · rw [eU]; exact h.monoL k hk j hj hq

/-- The part of a decomposition that matters for the row echelon form. -/
structure RowFac (M N : ℕ) (X V : ℕ → ℕ → K) (p q : ℕ → ℕ) (r : ℕ) : Prop extends IsPLUQ .unit M N X V p q r where
  pP : IsPermArray p M
  pQ : IsPermArray q N
  zero : ∀ i < M, ∀ j < N, r ≤ i → r ≤ j → V i j = 0
  monoU : ∀ k < r, ∀ j < N, q j < q k → luU .unit V k j = 0

lemma Fac.row {M N R : ℕ} {X V : ℕ → ℕ → K} {p q : ℕ → ℕ} (h : Fac .unit M N X V p q R) : RowFac M N X V p q R :=
  ⟨h.toIsPLUQ, h.pP, h.pQ, h.zero, h.monoU⟩

section
variable {M N R : ℕ} {X V0 V : ℕ → ℕ → K} {p q : ℕ → ℕ} {Li Ui : ℕ → ℕ → K} {d : Diag}

lemma _root_.Verif.Spec.IsPLUQ.liY (h : IsPLUQ d M N X V0 p q R) (hLi : ∀ i < R, ∀ j < R, ∑ l ∈ range R, Li i l * luL d V0 l j = if i = j then 1 else 0) :
    ∀ k < R, ∀ j < N, ∑ l ∈ range R, Li k l * X (p l) (q j) = luU d V0 k j := by
  intro k hk j hj
  have hr := h.rM
  have e : ∀ l ∈ range R, Li k l * X (p l) (q j) = ∑ t ∈ range R, Li k l * luL d V0 l t * luU d V0 t j := by
    intro l hl
    rw [h.fac l (by have := mem_range.1 hl; omega) j hj, mul_sum]
    exact sum_congr rfl (fun t _ => by rw [mul_assoc])
  rw [sum_congr rfl e, sum_comm]
  have e2 : ∀ t ∈ range R, ∑ l ∈ range R, Li k l * luL d V0 l t * luU d V0 t j = if k = t then luU d V0 t j else 0 := by
    intro t ht
    rw [← sum_mul, hLi k hk t (mem_range.1 ht)]
    split_ifs
    · rw [one_mul]
    · rw [zero_mul]
  rw [sum_congr rfl e2, sum_ite_eq, if_pos (mem_range.2 hk)]

/-- the rows below the pivots -/
lemma _root_.Verif.Spec.IsPLUQ.below (h : IsPLUQ d M N X V0 p q R) (hLi : ∀ i < R, ∀ j < R, ∑ l ∈ range R, Li i l * luL d V0 l j = if i = j then 1 else 0)
    {i : ℕ} (hi : i < M) (hR : R ≤ i) {v : ℕ → K} (hv : ∀ l < R, v l = - ∑ k ∈ range R, V0 i k * Li k l) {j : ℕ} (hj : j < N) :
    X (p i) (q j) + ∑ l ∈ range R, v l * X (p l) (q j) = 0 := by
  have e : ∀ l ∈ range R, v l * X (p l) (q j) = ∑ k ∈ range R, - (V0 i k * (Li k l * X (p l) (q j))) := by
    intro l hl
    rw [hv l (mem_range.1 hl), neg_mul, sum_mul, ← sum_neg_distrib]
    exact sum_congr rfl (fun k _ => by ring)
  rw [sum_congr rfl e, sum_comm, h.fac i hi j hj, ← sum_add_distrib]
  refine sum_eq_zero (fun k hk => ?_)
  have hk := mem_range.1 hk
  rw [sum_neg_distrib, ← mul_sum, h.liY hLi k hk j hj, luL_lt (by omega)]
  ring

/-- the row echelon form with its transformation -/
lemma RowFac.echelon (h : RowFac M N X V0 p q R)
    (hLi : ∀ i < R, ∀ j < R, ∑ l ∈ range R, tri .lower .nonUnit V i l * luL .unit V0 l j = if i = j then 1 else 0)
    (hU : ∀ i < R, ∀ j < N, i < j → V i j = V0 i j)
    (hB : ∀ i < M, ∀ l < R, R ≤ i → V i l = - ∑ k ∈ range R, V0 i k * tri .lower .nonUnit V k l) : IsEchelon M N R X V p q := by
  have hr := h.rM
  have hr' := h.rN
  have eU : ∀ i < R, ∀ j < N, tri .upper .unit V i j = luU .unit V0 i j := by
    intro i hi j hj
    unfold luU tri
    by_cases e : i = j
    · rw [if_pos e, if_pos e]
    · rw [if_neg e, if_neg e]
      by_cases l : i < j
      · simp only [l, if_true]; exact hU i hi j hj l
      · simp only [l, if_false]
  refine ⟨h.rM, h.rN, h.pP, h.pQ, fun i hi j hj => ?_, fun i hi hz => ?_, fun i hi j hj hq => ?_⟩
  · have e : ∀ k ∈ range M, rowTransOf R V i k * X (p k) (q j) =
        (transOf 0 0 R (fun a b => tri .lower .nonUnit V a b) i k) * X (p k) (q j) := by
      intro k _
      unfold rowTransOf transOf
      simp only [Nat.zero_le, true_and, Nat.zero_add, Nat.sub_zero]
    rw [sum_congr rfl e, transOf_sum _ (fun k => X (p k) (q j)) hi (by omega)]
    simp only [Nat.zero_le, true_and, Nat.zero_add]
    unfold rowEchOf
    by_cases hc : i < R
    · rw [if_pos hc, if_pos hc, zero_add, h.liY hLi i hc j hj, eU i hc j hj]
    · rw [if_neg hc, if_neg hc]
      refine h.below hLi hi (by omega) (fun l hl => ?_) hj
      rw [← hB i hi l hl (by omega)]
      unfold tri
      rw [if_neg (by omega)]
      simp only [show l < i by omega, if_true]
  · have := hLi i hi i hi
    rw [if_pos rfl, sum_eq_single i (fun l hl hne => ?_) (fun hh => absurd (mem_range.2 hi) hh), luL_diag_unit] at this
    · simp only [tri, if_true, hz, zero_mul] at this
      exact zero_ne_one this
    · by_cases hc : l < i
      · rw [luL_gt hc, mul_zero]
      · have : tri .lower .nonUnit V i l = 0 := by
          unfold tri
          rw [if_neg (Ne.symm hne)]
          simp only [hc, if_false]
        rw [this, zero_mul]
  · unfold rowEchOf
    rw [if_pos hi, eU i hi j hj]
    exact h.monoU i hi j hj hq

/-- the inverse of `U` is triangular for the order of the columns -/
lemma RowFac.ui_mono (h : RowFac M N X V0 p q R)
    (hUi : ∀ i < R, ∀ j < R, ∑ l ∈ range R, Ui i l * luU .unit V0 l j = if i = j then 1 else 0) {i : ℕ} (hi : i < R) :
    ∀ n, ∀ k < R, q k = n → q k < q i → Ui i k = 0 := by
  have hr' := h.rN
  intro n
  induction n using Nat.strong_induction_on with
  | _ n ih =>
    intro k hk hn hlt
    have := hUi i hi k hk
    rw [if_neg (by intro e; subst e; omega), sum_eq_single k (fun l hl hne => ?_) (fun hh => absurd (mem_range.2 hk) hh), luU_diag_unit, mul_one] at this
    · exact this
    · have hl := mem_range.1 hl
      by_cases hc : q k < q l
      · rw [h.monoU l hl k (by omega) hc, mul_zero]
      · have hne' : q l ≠ q k := fun e => hne (h.pQ.2 _ (by omega) _ (by omega) e)
        rw [ih (q l) (by omega) l hl rfl (by omega), zero_mul]

lemma RowFac.ui_mono' (h : RowFac M N X V0 p q R)
    (hUi : ∀ i < R, ∀ j < R, ∑ l ∈ range R, Ui i l * luU .unit V0 l j = if i = j then 1 else 0) {i j : ℕ} (hi : i < R) (hj : j < N) (hq : q j < q i) :
    ∑ k ∈ range R, Ui i k * luU .unit V0 k j = 0 := by
  refine sum_eq_zero (fun k hk => ?_)
  have hk := mem_range.1 hk
  by_cases hc : q j < q k
  · rw [h.monoU k hk j hj hc, mul_zero]
  · rw [h.ui_mono hUi hi _ k hk rfl (by omega), zero_mul]

/-- the reduced row echelon form with its transformation -/
lemma RowFac.reduced (h : RowFac M N X V0 p q R)
    (hLi : ∀ i < R, ∀ j < R, ∑ l ∈ range R, Li i l * luL .unit V0 l j = if i = j then 1 else 0)
    (hUi : ∀ i < R, ∀ j < R, ∑ l ∈ range R, Ui i l * luU .unit V0 l j = if i = j then 1 else 0)
    (hA : ∀ i < R, ∀ l < R, V i l = ∑ k ∈ range R, Ui i k * Li k l)
    (hB : ∀ i < M, ∀ l < R, R ≤ i → V i l = - ∑ k ∈ range R, V0 i k * Li k l)
    (hT : ∀ i < R, ∀ j < N, R ≤ j → V i j = ∑ k ∈ range R, Ui i k * V0 k j)
    (hz : ∀ i < M, ∀ j < N, R ≤ i → R ≤ j → V i j = V0 i j) : GJ M N 0 0 R X V p q := by
  have hr := h.rM
  have hr' := h.rN
  have hT' : ∀ i < R, ∀ j < N, R ≤ j → V i j = ∑ k ∈ range R, Ui i k * luU .unit V0 k j := by
    intro i hi j hj hR
    rw [hT i hi j hj hR]
    exact sum_congr rfl (fun k hk => by rw [luU_lt (by have := mem_range.1 hk; omega)])
  refine ⟨by omega, h.rN, h.pP, fun i hi => by omega, h.pQ, fun i hi j hj => ?_, fun i hi j hj h1 h2 => ?_, fun i hi j hj hR hq => ?_⟩
  · rw [transOf_sum _ _ hi (by omega)]
    simp only [Nat.zero_le, true_and, Nat.zero_add]
    by_cases hc : i < R
    · rw [if_pos hc, zero_add]
      have e : ∀ l ∈ range R, V i l * X (p l) (q j) = ∑ k ∈ range R, Ui i k * (Li k l * X (p l) (q j)) := by
        intro l hl
        rw [hA i hc l (mem_range.1 hl), sum_mul]
        exact sum_congr rfl (fun k _ => by rw [mul_assoc])
      rw [sum_congr rfl e, sum_comm]
      have e2 : ∀ k ∈ range R, ∑ l ∈ range R, Ui i k * (Li k l * X (p l) (q j)) = Ui i k * luU .unit V0 k j := by
        intro k hk
        rw [← mul_sum, h.liY hLi k (mem_range.1 hk) j hj]
      rw [sum_congr rfl e2]
      by_cases hj' : j < R
      · rw [hUi i hc j hj', reducedOf_lt _ hj', Nat.zero_add]
      · rw [reducedOf_ge _ (by omega), if_pos (by omega), Nat.zero_add, hT' i hc j hj (by omega)]
    · rw [if_neg hc, h.below hLi hi (by omega) (fun l hl => hB i hi l hl (by omega)) hj]
      by_cases hj' : j < R
      · rw [reducedOf_lt _ hj', if_neg (by omega)]
      · rw [reducedOf_ge _ (by omega), if_neg (by omega)]
  · rw [Nat.zero_add] at h1 ⊢
    rw [hz i hi j hj h1 h2, h.zero i hi j hj h1 h2]
  · rw [Nat.zero_add, Nat.zero_add, hT' i hi j hj hR]
    exact h.ui_mono' hUi hi hj hq

/-- the reduced row echelon form without transformation -/
lemma RowFac.reducedNT (h : RowFac M N X V0 p q R)
    (hT : ∀ i < R, ∀ j < N, R ≤ j → ∑ k ∈ range R, luU .unit V0 i k * V k j = V0 i j)
    (hV : ∀ i < M, ∀ j < N, R ≤ i ∨ j < R → V i j = V0 i j) : IsReducedNT M N R X V p q := by
  have hr := h.rM
  have hr' := h.rN
  have eL : ∀ i < M, ∀ k < R, tri .lower .nonUnit V i k = luL .unit V0 i k := by
    intro i hi k hk
    unfold luL tri
    by_cases e : i = k
    · rw [if_pos e, if_pos e]; exact hV i hi i (by omega) (by omega)
    · rw [if_neg e, if_neg e]; simp only [hV i hi k (by omega) (Or.inr hk)]
  have eU : ∀ k < R, ∀ l < R, tri .upper .unit V k l = luU .unit V0 k l := by
    intro k hk l hl
    unfold luU tri
    by_cases e : k = l
    · rw [if_pos e, if_pos e]
    · rw [if_neg e, if_neg e]; simp only [hV k (by omega) l (by omega) (Or.inr hl)]
  have hm : ∀ n, ∀ i < R, R - i = n → ∀ j < N, R ≤ j → q j < q i → V i j = 0 := by
    intro n
    induction n using Nat.strong_induction_on with
    | _ n ih =>
      intro i hi hn j hj hR hq
      have := hT i hi j hj hR
      rw [← luU_lt (d := .unit) (V := V0) (show i < j by omega), h.monoU i hi j hj hq,
        sum_eq_single i (fun l hl hne => ?_) (fun hh => absurd (mem_range.2 hi) hh), luU_diag_unit, one_mul] at this
      · exact this
      · have hl := mem_range.1 hl
        by_cases hc : l < i
        · rw [luU_gt hc, zero_mul]
        · by_cases hq' : q l < q i
          · rw [h.monoU i hi l (by omega) hq', zero_mul]
          · rw [ih (R - l) (by omega) l hl rfl j hj hR (by omega), mul_zero]
  refine ⟨h.rM, h.rN, h.pP, h.pQ, fun i hi j hj => ?_, fun i hi => ?_, fun i hi j hj => hm _ i hi rfl j hj⟩
  · rw [h.fac i hi j hj]
    refine sum_congr rfl (fun k hk => ?_)
    have hk := mem_range.1 hk
    rw [eL i hi k hk]
    congr 1
    by_cases hj' : j < R
    · rw [sum_eq_single j (fun l _ hne => by rw [reducedOf_lt _ hj', if_neg (by omega), mul_zero]) (fun hh => absurd (mem_range.2 hj') hh),
        reducedOf_lt _ hj', if_pos (by omega), mul_one, eU k hk j hj']
    · have e : ∀ l ∈ range R, tri .upper .unit V k l * reducedOf 0 0 R V l j = luU .unit V0 k l * V l j := by
        intro l hl
        have hl := mem_range.1 hl
        rw [reducedOf_ge _ (by omega), if_pos (by omega), eU k hk l hl, Nat.zero_add]
      rw [sum_congr rfl e, hT k hk j hj (by omega), luU_lt (by omega)]
  · rw [hV i (by omega) i (by omega) (Or.inr hi)]; exact h.piv i hi

end

end Verif.Pluq
