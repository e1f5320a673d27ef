import Verif.Proofs.PluqMath
import Verif.Proofs.PluqArr

/-!
# Combination of the four recursive calls of the PLUQ decomposition, the algebra
-/

namespace Verif.Pluq

open Finset Verif.Spec Verif.Spec.Perm Verif.Perm Verif.FF

variable {K : Type} [Field K]

section
variable {d : Diag} {V V' : ℕ → ℕ → K} {a b i j k : ℕ}

lemma luL_shift (h : k ≤ i → V (a + i) (a + k) = V' i k) : luL d V (a + i) (a + k) = luL d V' i k := by
  rcases Nat.lt_trichotomy k i with hk | rfl | hk
  · rw [luL_lt (by omega), luL_lt hk, h hk.le]
  · cases d
    · rw [luL_diag_nonUnit, luL_diag_nonUnit]
    · rw [luL_diag_unit, luL_diag_unit, h le_rfl]
  · rw [luL_gt (by omega), luL_gt hk]

lemma luU_shift (h : k ≤ j → V (a + k) (a + j) = V' k j) : luU d V (a + k) (a + j) = luU d V' k j := by
  rcases Nat.lt_trichotomy k j with hk | rfl | hk
  · rw [luU_lt (by omega), luU_lt hk, h hk.le]
  · cases d
    · rw [luU_diag_nonUnit, luU_diag_nonUnit, h le_rfl]
    · rw [luU_diag_unit, luU_diag_unit]
  · rw [luU_gt (by omega), luU_gt hk]

end

lemma sPerm_cases (a t b i : ℕ) : (i < a ∧ sPerm a t b i = i) ∨ (a ≤ i ∧ i < a + b ∧ sPerm a t b i = i + t) ∨
    (a + b ≤ i ∧ i < a + b + t ∧ sPerm a t b i + b = i) ∨ (a + b + t ≤ i ∧ sPerm a t b i = i) := by
  unfold sPerm; split_ifs <;> omega

lemma tPerm_cases {N2 R1 R2 R3 R4 : ℕ} (j : ℕ) (h : R1 + R3 ≤ N2) :
    (j < R1 ∧ tPerm N2 R1 R2 R3 R4 j = j) ∨ (R1 ≤ j ∧ j < R1 + R2 ∧ tPerm N2 R1 R2 R3 R4 j = N2 + (j - R1)) ∨
    (R1 + R2 ≤ j ∧ j < R1 + R2 + R3 ∧ tPerm N2 R1 R2 R3 R4 j + R2 = j) ∨
    (R1 + R2 + R3 ≤ j ∧ j < R1 + R2 + R3 + R4 ∧ tPerm N2 R1 R2 R3 R4 j = N2 + R2 + (j - (R1 + R2 + R3))) ∨
    (R1 + R2 + R3 + R4 ≤ j ∧ j < N2 + R2 + R4 ∧ tPerm N2 R1 R2 R3 R4 j + R2 + R4 = j) ∨
    (N2 + R2 + R4 ≤ j ∧ tPerm N2 R1 R2 R3 R4 j = j) := by
  unfold tPerm; split_ifs <;> omega

lemma shiftPerm_lo {R i : ℕ} {σ : ℕ → ℕ} (h : i < R) : shiftPerm R i σ = i := if_pos h
lemma shiftPerm_hi {R i : ℕ} {σ : ℕ → ℕ} (h : R ≤ i) : shiftPerm R i σ = R + σ (i - R) := if_neg (by omega)

lemma Fac0.zero' {d : Diag} {M N r : ℕ} {X V : ℕ → ℕ → K} {p q : ℕ → ℕ} (h : Fac0 d M N X V p q r) (i : ℕ) (h1 : r ≤ i) (hi : i < M)
    (j : ℕ) (h2 : r ≤ j) (hj : j < N) : V i j = 0 := h.zero i hi j hj h1 h2

/-- the data of the four calls -/
structure Dat (K : Type) where
  (m1 m2 n1 n2 R1 R2 R3 R4 : ℕ)
  (V1 V2 V3 V4 D E I O : ℕ → ℕ → K)
  (p1 p2 p3 p4 q1 q2 q3 q4 : ℕ → ℕ)

namespace Dat
variable (B : Dat K)

/-- the block of row 2 and column 1 eliminated by the first call -/
def F (X : ℕ → ℕ → K) (i j : ℕ) : K := X (B.p1 (B.R1 + i)) (B.n1 + j) - ∑ k ∈ range B.R1, B.V1 (B.R1 + i) k * B.D k j
def G (X : ℕ → ℕ → K) (i j : ℕ) : K := X (B.m1 + i) (B.q1 (B.R1 + j)) - ∑ k ∈ range B.R1, B.E i k * B.V1 k (B.R1 + j)
def H (X : ℕ → ℕ → K) (i j : ℕ) : K := X (B.m1 + i) (B.n1 + j) - ∑ k ∈ range B.R1, B.E i k * B.D k j
def R (X : ℕ → ℕ → K) (i j : ℕ) : K := B.H X (B.p3 (B.R3 + i)) (B.q2 (B.R2 + j)) - ∑ k ∈ range B.R2, B.I (B.R3 + i) k * B.V2 k (B.R2 + j)
  - ∑ k ∈ range B.R3, B.V3 (B.R3 + i) k * B.O k j

/-- what the steps of the algorithm establish -/
structure Good (d : Diag) (X : ℕ → ℕ → K) : Prop where
  f1 : Fac0 d B.m1 B.n1 X B.V1 B.p1 B.q1 B.R1
  hD : ∀ i < B.R1, ∀ j < B.n2, ∑ k ∈ range B.R1, luL d B.V1 i k * B.D k j = X (B.p1 i) (B.n1 + j)
  hE : ∀ i < B.m2, ∀ j < B.R1, ∑ k ∈ range B.R1, B.E i k * luU d B.V1 k j = X (B.m1 + i) (B.q1 j)
  f2 : Fac0 d (B.m1 - B.R1) B.n2 (B.F X) B.V2 B.p2 B.q2 B.R2
  f3 : Fac0 d B.m2 (B.n1 - B.R1) (B.G X) B.V3 B.p3 B.q3 B.R3
  hI : ∀ i < B.m2, ∀ j < B.R2, ∑ k ∈ range B.R2, B.I i k * luU d B.V2 k j = B.H X (B.p3 i) (B.q2 j)
  hO : ∀ i < B.R3, ∀ j < B.n2 - B.R2, ∑ k ∈ range B.R3, luL d B.V3 i k * B.O k j =
    B.H X (B.p3 i) (B.q2 (B.R2 + j)) - ∑ k ∈ range B.R2, B.I i k * B.V2 k (B.R2 + j)
  f4 : Fac0 d (B.m2 - B.R3) (B.n2 - B.R2) (B.R X) B.V4 B.p4 B.q4 B.R4

/-- the same when the four decompositions reveal the rank profile matrix -/
structure GoodR (d : Diag) (X : ℕ → ℕ → K) : Prop extends B.Good d X where
  r1 : Fac d B.m1 B.n1 X B.V1 B.p1 B.q1 B.R1
  r2 : Fac d (B.m1 - B.R1) B.n2 (B.F X) B.V2 B.p2 B.q2 B.R2
  r3 : Fac d B.m2 (B.n1 - B.R1) (B.G X) B.V3 B.p3 B.q3 B.R3
  r4 : Fac d (B.m2 - B.R3) (B.n2 - B.R2) (B.R X) B.V4 B.p4 B.q4 B.R4

def ii (i : ℕ) : ℕ := shiftPerm B.R1 i B.p2
def jj (j : ℕ) : ℕ := shiftPerm B.R1 j B.q3
def ii2 (i : ℕ) : ℕ := shiftPerm B.R3 i B.p4
def jj2 (j : ℕ) : ℕ := shiftPerm B.R2 j B.q4

/-- row and column permutation before the blocks are moved -/
def pp (i : ℕ) : ℕ := pairPerm B.m1 (fun i => B.p1 (B.ii i)) (fun i => B.p3 (B.ii2 i)) i
def qq (j : ℕ) : ℕ := pairPerm B.n1 (fun j => B.q1 (B.jj j)) (fun j => B.q2 (B.jj2 j)) j

/-- contents of the matrix before the blocks are moved -/
def pre (i j : ℕ) : K :=
  if i < B.m1 then
    if j < B.n1 then B.V1 (B.ii i) (B.jj j)
    else if i < B.R1 then B.D i (B.q2 (B.jj2 (j - B.n1))) else B.V2 (i - B.R1) (B.jj2 (j - B.n1))
  else
    if j < B.n1 then (if j < B.R1 then B.E (B.p3 (B.ii2 (i - B.m1))) j else B.V3 (B.ii2 (i - B.m1)) (j - B.R1))
    else if j - B.n1 < B.R2 then B.I (B.ii2 (i - B.m1)) (j - B.n1)
    else if i - B.m1 < B.R3 then B.O (i - B.m1) (B.q4 (j - B.n1 - B.R2)) else B.V4 (i - B.m1 - B.R3) (j - B.n1 - B.R2)

/-- the four groups of columns of the lower factor -/
def l1 (d : Diag) (i k : ℕ) : K := if i < B.m1 then luL d B.V1 (B.ii i) k else B.E (B.p3 (B.ii2 (i - B.m1))) k
def l2 (d : Diag) (i k : ℕ) : K :=
  if i < B.m1 then (if i < B.R1 then 0 else luL d B.V2 (i - B.R1) k) else B.I (B.ii2 (i - B.m1)) k
def l3 (d : Diag) (i k : ℕ) : K := if i < B.m1 then 0 else luL d B.V3 (B.ii2 (i - B.m1)) k
def l4 (d : Diag) (i k : ℕ) : K := if i < B.m1 then 0 else if i - B.m1 < B.R3 then 0 else luL d B.V4 (i - B.m1 - B.R3) k

/-- the four groups of rows of the upper factor -/
def u1 (d : Diag) (k j : ℕ) : K := if j < B.n1 then luU d B.V1 k (B.jj j) else B.D k (B.q2 (B.jj2 (j - B.n1)))
def u2 (d : Diag) (k j : ℕ) : K := if j < B.n1 then 0 else luU d B.V2 k (B.jj2 (j - B.n1))
def u3 (d : Diag) (k j : ℕ) : K :=
  if j < B.n1 then (if j < B.R1 then 0 else luU d B.V3 k (j - B.R1))
  else if j - B.n1 < B.R2 then 0 else B.O k (B.q4 (j - B.n1 - B.R2))
def u4 (d : Diag) (k j : ℕ) : K := if j < B.n1 then 0 else if j - B.n1 < B.R2 then 0 else luU d B.V4 k (j - B.n1 - B.R2)

variable {B} {d : Diag} {X : ℕ → ℕ → K}

namespace Good
variable (g : B.Good d X)
include g

lemma ii_lt {i : ℕ} (h : i < B.m1) : B.ii i < B.m1 ∧ (B.R1 ≤ i → B.R1 ≤ B.ii i) ∧ (i < B.R1 → B.ii i = i) := by
  rcases Nat.lt_or_ge i B.R1 with c | c
  · rw [ii, shiftPerm_lo c]; omega
  · rw [ii, shiftPerm_hi c]; have := g.f2.pP.1 (i - B.R1) (by omega); omega

lemma jj_lt {j : ℕ} (h : j < B.n1) : B.jj j < B.n1 ∧ (B.R1 ≤ j → B.R1 ≤ B.jj j) ∧ (j < B.R1 → B.jj j = j) := by
  rcases Nat.lt_or_ge j B.R1 with c | c
  · rw [jj, shiftPerm_lo c]; omega
  · rw [jj, shiftPerm_hi c]; have := g.f3.pQ.1 (j - B.R1) (by omega); omega

lemma ii2_lt {i : ℕ} (h : i < B.m2) : B.ii2 i < B.m2 ∧ (B.R3 ≤ i → B.R3 ≤ B.ii2 i) ∧ (i < B.R3 → B.ii2 i = i) := by
  rcases Nat.lt_or_ge i B.R3 with c | c
  · rw [ii2, shiftPerm_lo c]; omega
  · rw [ii2, shiftPerm_hi c]; have := g.f4.pP.1 (i - B.R3) (by omega); omega

lemma jj2_lt {j : ℕ} (h : j < B.n2) : B.jj2 j < B.n2 ∧ (B.R2 ≤ j → B.R2 ≤ B.jj2 j) ∧ (j < B.R2 → B.jj2 j = j) := by
  rcases Nat.lt_or_ge j B.R2 with c | c
  · rw [jj2, shiftPerm_lo c]; omega
  · rw [jj2, shiftPerm_hi c]; have := g.f4.pQ.1 (j - B.R2) (by omega); omega

/-- the product of the factors -/
lemma prod {i j : ℕ} (hi : i < B.m1 + B.m2) (hj : j < B.n1 + B.n2) : X (B.pp i) (B.qq j) =
    ∑ k ∈ range B.R1, B.l1 d i k * B.u1 d k j + ∑ k ∈ range B.R2, B.l2 d i k * B.u2 d k j +
    ∑ k ∈ range B.R3, B.l3 d i k * B.u3 d k j + ∑ k ∈ range B.R4, B.l4 d i k * B.u4 d k j := by
  have hR1 := g.f1.rM
  have hR2 := g.f2.rN
  have hR3 := g.f3.rM
  rcases Nat.lt_or_ge i B.m1 with ci | ci
  · obtain ⟨a1, a2, a3⟩ := g.ii_lt ci
    rcases Nat.lt_or_ge j B.n1 with cj | cj
    · obtain ⟨b1, b2, b3⟩ := g.jj_lt cj
      simp only [pp, qq, pairPerm, if_pos ci, if_pos cj, l1, l3, l4, u1, u2, zero_mul, mul_zero, sum_const_zero, add_zero]
      exact g.f1.fac _ a1 _ b1
    · obtain ⟨b1, b2, b3⟩ := g.jj2_lt (j := j - B.n1) (by omega)
      simp only [pp, qq, pairPerm, if_pos ci, if_neg (show ¬ j < B.n1 by omega), l1, l2, l3, l4, u1, u2, zero_mul, mul_zero,
        sum_const_zero, add_zero]
      have hq := g.f2.pQ.1 _ b1
      rcases Nat.lt_or_ge i B.R1 with c | c
      · simp only [if_pos c, zero_mul, sum_const_zero, add_zero, a3 c]
        exact (g.hD i c _ hq).symm
      · simp only [if_neg (show ¬ i < B.R1 by omega)]
        rw [← g.f2.fac (i - B.R1) (by omega) _ b1, F, show B.ii i = B.R1 + B.p2 (i - B.R1) from shiftPerm_hi c]
        rw [show ∑ k ∈ range B.R1, luL d B.V1 (B.R1 + B.p2 (i - B.R1)) k * B.D k (B.q2 (B.jj2 (j - B.n1))) =
          ∑ k ∈ range B.R1, B.V1 (B.R1 + B.p2 (i - B.R1)) k * B.D k (B.q2 (B.jj2 (j - B.n1))) from
          sum_congr rfl (fun k hk => by have := mem_range.1 hk; rw [luL_lt (by omega)])]
        ring
  · obtain ⟨a1, a2, a3⟩ := g.ii2_lt (i := i - B.m1) (by omega)
    have hp := g.f3.pP.1 _ a1
    rcases Nat.lt_or_ge j B.n1 with cj | cj
    · obtain ⟨b1, b2, b3⟩ := g.jj_lt cj
      simp only [pp, qq, pairPerm, if_neg (show ¬ i < B.m1 by omega), if_pos cj, l1, l2, l3, l4, u1, u2, u3, u4, mul_zero,
        sum_const_zero, add_zero]
      rcases Nat.lt_or_ge j B.R1 with c | c
      · simp only [if_pos c, mul_zero, sum_const_zero, add_zero, b3 c]
        exact (g.hE _ hp j c).symm
      · simp only [if_neg (show ¬ j < B.R1 by omega)]
        rw [← g.f3.fac _ a1 (j - B.R1) (by omega), G, show B.jj j = B.R1 + B.q3 (j - B.R1) from shiftPerm_hi c]
        rw [show ∑ k ∈ range B.R1, B.E (B.p3 (B.ii2 (i - B.m1))) k * luU d B.V1 k (B.R1 + B.q3 (j - B.R1)) =
          ∑ k ∈ range B.R1, B.E (B.p3 (B.ii2 (i - B.m1))) k * B.V1 k (B.R1 + B.q3 (j - B.R1)) from
          sum_congr rfl (fun k hk => by have := mem_range.1 hk; rw [luU_lt (by omega)])]
        ring
    · obtain ⟨b1, b2, b3⟩ := g.jj2_lt (j := j - B.n1) (by omega)
      simp only [pp, qq, pairPerm, if_neg (show ¬ i < B.m1 by omega), if_neg (show ¬ j < B.n1 by omega), l1, l2, l3, l4, u1, u2, u3, u4]
      have hX : X (B.m1 + B.p3 (B.ii2 (i - B.m1))) (B.n1 + B.q2 (B.jj2 (j - B.n1))) = B.H X (B.p3 (B.ii2 (i - B.m1))) (B.q2 (B.jj2 (j - B.n1))) +
          ∑ k ∈ range B.R1, B.E (B.p3 (B.ii2 (i - B.m1))) k * B.D k (B.q2 (B.jj2 (j - B.n1))) := by rw [H]; ring
      rw [hX]
      rcases Nat.lt_or_ge (j - B.n1) B.R2 with c | c
      · simp only [if_pos c, mul_zero, sum_const_zero, add_zero, b3 c]
        rw [g.hI _ a1 _ c]; ring
      · have ej : B.jj2 (j - B.n1) = B.R2 + B.q4 (j - B.n1 - B.R2) := shiftPerm_hi c
        have hq4 := g.f4.pQ.1 (j - B.n1 - B.R2) (by omega)
        simp only [if_neg (show ¬ j - B.n1 < B.R2 by omega), ej]
        have hU : ∑ k ∈ range B.R2, B.I (B.ii2 (i - B.m1)) k * luU d B.V2 k (B.R2 + B.q4 (j - B.n1 - B.R2)) =
            ∑ k ∈ range B.R2, B.I (B.ii2 (i - B.m1)) k * B.V2 k (B.R2 + B.q4 (j - B.n1 - B.R2)) :=
          sum_congr rfl (fun k hk => by have := mem_range.1 hk; rw [luU_lt (by omega)])
        rw [hU]
        rcases Nat.lt_or_ge (i - B.m1) B.R3 with c' | c'
        · simp only [if_pos c', zero_mul, sum_const_zero, add_zero, a3 c']
          rw [g.hO _ c' _ hq4]; ring
        · simp only [if_neg (show ¬ i - B.m1 < B.R3 by omega)]
          have ei : B.ii2 (i - B.m1) = B.R3 + B.p4 (i - B.m1 - B.R3) := shiftPerm_hi c'
          rw [ei, ← g.f4.fac (i - B.m1 - B.R3) (by omega) (j - B.n1 - B.R2) (by omega), R]
          rw [show ∑ k ∈ range B.R3, luL d B.V3 (B.R3 + B.p4 (i - B.m1 - B.R3)) k * B.O k (B.q4 (j - B.n1 - B.R2)) =
            ∑ k ∈ range B.R3, B.V3 (B.R3 + B.p4 (i - B.m1 - B.R3)) k * B.O k (B.q4 (j - B.n1 - B.R2)) from
            sum_congr rfl (fun k hk => by have := mem_range.1 hk; rw [luL_lt (by omega)])]
          ring

/-- row and column moves of the blocks -/
abbrev _root_.Verif.Pluq.Dat.s (B : Dat K) (i : ℕ) : ℕ := sPerm (B.R1 + B.R2) (B.m1 - (B.R1 + B.R2)) (B.R3 + B.R4) i
abbrev _root_.Verif.Pluq.Dat.t (B : Dat K) (j : ℕ) : ℕ := tPerm B.n1 B.R1 B.R2 B.R3 B.R4 j

lemma bounds : B.R1 + B.R2 ≤ B.m1 ∧ B.R1 + B.R3 ≤ B.n1 ∧ B.R3 + B.R4 ≤ B.m2 ∧ B.R2 + B.R4 ≤ B.n2 := by
  have h1 := g.f1.rM; have h2 := g.f1.rN; have h3 := g.f2.rM; have h4 := g.f2.rN
  have h5 := g.f3.rM; have h6 := g.f3.rN; have h7 := g.f4.rM; have h8 := g.f4.rN
  omega

section
variable {V : ℕ → ℕ → K} (hV : ∀ i < B.m1 + B.m2, ∀ j < B.n1 + B.n2, V i j = B.pre (B.s i) (B.t j))
include hV

lemma s_facts {i : ℕ} (hi : i < B.m1 + B.m2) :
    (i < B.R1 + B.R2 ∧ B.s i = i) ∨ (B.R1 + B.R2 ≤ i ∧ i < B.R1 + B.R2 + B.R3 + B.R4 ∧ B.s i + (B.R1 + B.R2) = i + B.m1) ∨
    (B.R1 + B.R2 + B.R3 + B.R4 ≤ i ∧ i < B.m1 + B.R3 + B.R4 ∧ B.s i + (B.R3 + B.R4) = i) ∨
    (B.m1 + B.R3 + B.R4 ≤ i ∧ B.s i = i) := by
  obtain ⟨b1, b2, b3, b4⟩ := g.bounds
  have := sPerm_cases (B.R1 + B.R2) (B.m1 - (B.R1 + B.R2)) (B.R3 + B.R4) i
  unfold Dat.s
  omega

lemma row1 {k : ℕ} (hk : k < B.R1) : B.s k = k ∧ B.t k = k := by
  obtain ⟨b1, b2, b3, b4⟩ := g.bounds
  have := sPerm_cases (B.R1 + B.R2) (B.m1 - (B.R1 + B.R2)) (B.R3 + B.R4) k
  have := tPerm_cases (R2 := B.R2) (R4 := B.R4) k b2
  unfold Dat.s Dat.t
  omega

lemma row2 {k : ℕ} (hk : k < B.R2) : B.s (B.R1 + k) = B.R1 + k ∧ B.t (B.R1 + k) = B.n1 + k := by
  obtain ⟨b1, b2, b3, b4⟩ := g.bounds
  have := sPerm_cases (B.R1 + B.R2) (B.m1 - (B.R1 + B.R2)) (B.R3 + B.R4) (B.R1 + k)
  have := tPerm_cases (R2 := B.R2) (R4 := B.R4) (B.R1 + k) b2
  unfold Dat.s Dat.t
  omega

lemma row3 {k : ℕ} (hk : k < B.R3) : B.s (B.R1 + B.R2 + k) = B.m1 + k ∧ B.t (B.R1 + B.R2 + k) = B.R1 + k := by
  obtain ⟨b1, b2, b3, b4⟩ := g.bounds
  have := sPerm_cases (B.R1 + B.R2) (B.m1 - (B.R1 + B.R2)) (B.R3 + B.R4) (B.R1 + B.R2 + k)
  have := tPerm_cases (R2 := B.R2) (R4 := B.R4) (B.R1 + B.R2 + k) b2
  unfold Dat.s Dat.t
  omega

lemma row4 {k : ℕ} (hk : k < B.R4) :
    B.s (B.R1 + B.R2 + B.R3 + k) = B.m1 + (B.R3 + k) ∧ B.t (B.R1 + B.R2 + B.R3 + k) = B.n1 + (B.R2 + k) := by
  obtain ⟨b1, b2, b3, b4⟩ := g.bounds
  have := sPerm_cases (B.R1 + B.R2) (B.m1 - (B.R1 + B.R2)) (B.R3 + B.R4) (B.R1 + B.R2 + B.R3 + k)
  have := tPerm_cases (R2 := B.R2) (R4 := B.R4) (B.R1 + B.R2 + B.R3 + k) b2
  unfold Dat.s Dat.t
  omega

lemma L1 {i k : ℕ} (hi : i < B.m1 + B.m2) (hk : k < B.R1) : luL d V i k = B.l1 d (B.s i) k := by
  obtain ⟨b1, b2, b3, b4⟩ := g.bounds
  have hs := g.s_facts hV hi
  have v := hV i hi k (by omega)
  rw [(g.row1 hV hk).2] at v
  generalize B.s i = i' at *
  unfold pre at v
  unfold l1
  rw [if_pos (show k < B.n1 by omega), if_pos (show k < B.n1 by omega), if_pos hk, (g.jj_lt (j := k) (by omega)).2.2 hk] at v
  by_cases c : i' < B.m1
  · rw [if_pos c] at v ⊢
    obtain ⟨e1, e2, e3⟩ := g.ii_lt c
    by_cases c' : i < B.R1
    · obtain rfl : i' = i := by omega
      rw [e3 c'] at v ⊢
      have := luL_shift (d := d) (V := V) (V' := B.V1) (a := 0) (i := i') (k := k) (fun _ => by simpa using v)
      simpa using this
    · have := e2 (by omega)
      rw [luL_lt (by omega), luL_lt (by omega), v]
  · rw [if_neg c] at v ⊢
    rw [luL_lt (by omega), v]

lemma L2 {i k : ℕ} (hi : i < B.m1 + B.m2) (hk : k < B.R2) : luL d V i (B.R1 + k) = B.l2 d (B.s i) k := by
  obtain ⟨b1, b2, b3, b4⟩ := g.bounds
  have hs := g.s_facts hV hi
  have v := hV i hi (B.R1 + k) (by omega)
  rw [(g.row2 hV hk).2] at v
  generalize B.s i = i' at *
  unfold pre at v
  unfold l2
  rw [if_neg (show ¬ B.n1 + k < B.n1 by omega), if_neg (show ¬ B.n1 + k < B.n1 by omega), Nat.add_sub_cancel_left, (g.jj2_lt (j := k) (by omega)).2.2 hk, if_pos hk] at v
  by_cases c : i' < B.m1
  · rw [if_pos c] at v ⊢
    by_cases c' : i' < B.R1
    · rw [if_pos c', luL_gt (by omega)]
    · rw [if_neg c'] at v ⊢
      by_cases c2 : i < B.R1 + B.R2
      · obtain rfl : i' = i := by omega
        obtain ⟨a, rfl⟩ : ∃ a, i' = B.R1 + a := ⟨i' - B.R1, by omega⟩
        rw [Nat.add_sub_cancel_left] at v ⊢
        exact luL_shift (fun _ => v)
      · rw [luL_lt (by omega), luL_lt (by omega), v]
  · rw [if_neg c] at v ⊢
    rw [luL_lt (by omega), v]

lemma L3 {i k : ℕ} (hi : i < B.m1 + B.m2) (hk : k < B.R3) : luL d V i (B.R1 + B.R2 + k) = B.l3 d (B.s i) k := by
  obtain ⟨b1, b2, b3, b4⟩ := g.bounds
  have hs := g.s_facts hV hi
  have v := hV i hi (B.R1 + B.R2 + k) (by omega)
  rw [(g.row3 hV hk).2] at v
  generalize B.s i = i' at *
  unfold pre at v
  unfold l3
  rw [if_pos (show B.R1 + k < B.n1 by omega), if_pos (show B.R1 + k < B.n1 by omega), if_neg (show ¬ B.R1 + k < B.R1 by omega), Nat.add_sub_cancel_left] at v
  by_cases c : i' < B.m1
  · rw [if_pos c] at v ⊢
    by_cases c' : i < B.R1 + B.R2
    · rw [luL_gt (by omega)]
    · rw [luL_lt (by omega), v]
      obtain ⟨e1, e2, e3⟩ := g.ii_lt c
      obtain ⟨o1, o2, o3⟩ := g.jj_lt (j := B.R1 + k) (by omega)
      exact g.f1.zero' _ (e2 (by omega)) e1 _ (o2 (by omega)) o1
  · rw [if_neg c] at v ⊢
    obtain ⟨e1, e2, e3⟩ := g.ii2_lt (i := i' - B.m1) (by omega)
    by_cases c' : i < B.R1 + B.R2 + B.R3
    · obtain ⟨a, rfl⟩ : ∃ a, i = B.R1 + B.R2 + a := ⟨i - (B.R1 + B.R2), by omega⟩
      rw [show i' - B.m1 = a by omega] at *
      rw [e3 (by omega)] at v ⊢
      exact luL_shift (fun _ => v)
    · have := e2 (by omega)
      rw [luL_lt (by omega), luL_lt (by omega), v]

lemma L4 {i k : ℕ} (hi : i < B.m1 + B.m2) (hk : k < B.R4) : luL d V i (B.R1 + B.R2 + B.R3 + k) = B.l4 d (B.s i) k := by
  obtain ⟨b1, b2, b3, b4⟩ := g.bounds
  have hs := g.s_facts hV hi
  have v := hV i hi (B.R1 + B.R2 + B.R3 + k) (by omega)
  rw [(g.row4 hV hk).2] at v
  generalize B.s i = i' at *
  unfold pre at v
  unfold l4
  rw [if_neg (show ¬ B.n1 + (B.R2 + k) < B.n1 by omega), if_neg (show ¬ B.n1 + (B.R2 + k) < B.n1 by omega), Nat.add_sub_cancel_left, if_neg (show ¬ B.R2 + k < B.R2 by omega),
    Nat.add_sub_cancel_left] at v
  by_cases c : i' < B.m1
  · rw [if_pos c] at v ⊢
    by_cases c' : i < B.R1 + B.R2
    · rw [luL_gt (by omega)]
    · rw [luL_lt (by omega), v, if_neg (by omega)]
      obtain ⟨o1, o2, o3⟩ := g.jj2_lt (j := B.R2 + k) (by omega)
      exact g.f2.zero' _ (by omega) (by omega) _ (o2 (by omega)) o1
  · rw [if_neg c] at v ⊢
    by_cases c' : i' - B.m1 < B.R3
    · rw [if_pos c', luL_gt (by omega)]
    · rw [if_neg c'] at v ⊢
      by_cases c2 : i < B.R1 + B.R2 + B.R3 + B.R4
      · obtain ⟨a, rfl⟩ : ∃ a, i = B.R1 + B.R2 + B.R3 + a := ⟨i - (B.R1 + B.R2 + B.R3), by omega⟩
        rw [show i' - B.m1 - B.R3 = a by omega] at *
        exact luL_shift (fun _ => v)
      · rw [luL_lt (by omega), luL_lt (by omega), v]

lemma U1 {j k : ℕ} (hj : j < B.n1 + B.n2) (hk : k < B.R1) : luU d V k j = B.u1 d k (B.t j) := by
  obtain ⟨b1, b2, b3, b4⟩ := g.bounds
  have ht := tPerm_cases (R2 := B.R2) (R4 := B.R4) j b2
  have v := hV k (by omega) j hj
  rw [(g.row1 hV hk).1] at v
  unfold Dat.t at v ⊢
  generalize tPerm B.n1 B.R1 B.R2 B.R3 B.R4 j = j' at *
  unfold pre at v
  unfold u1
  rw [if_pos (show k < B.m1 by omega), (g.ii_lt (i := k) (by omega)).2.2 hk, if_pos hk] at v
  by_cases c : j' < B.n1
  · rw [if_pos c] at v ⊢
    obtain ⟨e1, e2, e3⟩ := g.jj_lt c
    by_cases c' : j < B.R1
    · obtain rfl : j' = j := by omega
      rw [e3 c'] at v ⊢
      have := luU_shift (d := d) (V := V) (V' := B.V1) (a := 0) (j := j') (k := k) (fun _ => by simpa using v)
      simpa using this
    · have := e2 (by omega)
      rw [luU_lt (by omega), luU_lt (by omega), v]
  · rw [if_neg c] at v ⊢
    rw [luU_lt (by omega), v]

lemma U2 {j k : ℕ} (hj : j < B.n1 + B.n2) (hk : k < B.R2) : luU d V (B.R1 + k) j = B.u2 d k (B.t j) := by
  obtain ⟨b1, b2, b3, b4⟩ := g.bounds
  have ht := tPerm_cases (R2 := B.R2) (R4 := B.R4) j b2
  have v := hV (B.R1 + k) (by omega) j hj
  rw [(g.row2 hV hk).1] at v
  unfold Dat.t at v ⊢
  generalize tPerm B.n1 B.R1 B.R2 B.R3 B.R4 j = j' at *
  unfold pre at v
  unfold u2
  rw [if_pos (show B.R1 + k < B.m1 by omega), if_neg (show ¬ B.R1 + k < B.R1 by omega), Nat.add_sub_cancel_left] at v
  by_cases c : j' < B.n1
  · rw [if_pos c] at v ⊢
    by_cases c' : j < B.R1
    · rw [luU_gt (by omega)]
    · rw [luU_lt (by omega), v]
      obtain ⟨e1, e2, e3⟩ := g.ii_lt (i := B.R1 + k) (by omega)
      obtain ⟨o1, o2, o3⟩ := g.jj_lt c
      exact g.f1.zero' _ (e2 (by omega)) e1 _ (o2 (by omega)) o1
  · rw [if_neg c] at v ⊢
    obtain ⟨e1, e2, e3⟩ := g.jj2_lt (j := j' - B.n1) (by omega)
    by_cases c' : j < B.R1 + B.R2
    · obtain ⟨a, rfl⟩ : ∃ a, j = B.R1 + a := ⟨j - B.R1, by omega⟩
      rw [show j' - B.n1 = a by omega] at *
      rw [e3 (by omega)] at v ⊢
      exact luU_shift (fun _ => v)
    · have := e2 (by omega)
      rw [luU_lt (by omega), luU_lt (by omega), v]

lemma U3 {j k : ℕ} (hj : j < B.n1 + B.n2) (hk : k < B.R3) : luU d V (B.R1 + B.R2 + k) j = B.u3 d k (B.t j) := by
  obtain ⟨b1, b2, b3, b4⟩ := g.bounds
  have ht := tPerm_cases (R2 := B.R2) (R4 := B.R4) j b2
  have v := hV (B.R1 + B.R2 + k) (by omega) j hj
  rw [(g.row3 hV hk).1] at v
  unfold Dat.t at v ⊢
  generalize tPerm B.n1 B.R1 B.R2 B.R3 B.R4 j = j' at *
  unfold pre at v
  unfold u3
  rw [if_neg (show ¬ B.m1 + k < B.m1 by omega), Nat.add_sub_cancel_left, (g.ii2_lt (i := k) (by omega)).2.2 hk, if_pos hk] at v
  by_cases c : j' < B.n1
  · rw [if_pos c] at v ⊢
    by_cases c' : j' < B.R1
    · rw [if_pos c', luU_gt (by omega)]
    · rw [if_neg c'] at v ⊢
      by_cases c2 : j < B.R1 + B.R2 + B.R3
      · obtain ⟨a, rfl⟩ : ∃ a, j = B.R1 + B.R2 + a := ⟨j - (B.R1 + B.R2), by omega⟩
        rw [show j' - B.R1 = a by omega] at *
        exact luU_shift (fun _ => v)
      · rw [luU_lt (by omega), luU_lt (by omega), v]
  · rw [if_neg c] at v ⊢
    by_cases c' : j' - B.n1 < B.R2
    · rw [if_pos c', luU_gt (by omega)]
    · rw [if_neg c'] at v ⊢
      rw [luU_lt (by omega), v]

lemma U4 {j k : ℕ} (hj : j < B.n1 + B.n2) (hk : k < B.R4) : luU d V (B.R1 + B.R2 + B.R3 + k) j = B.u4 d k (B.t j) := by
  obtain ⟨b1, b2, b3, b4⟩ := g.bounds
  have ht := tPerm_cases (R2 := B.R2) (R4 := B.R4) j b2
  have v := hV (B.R1 + B.R2 + B.R3 + k) (by omega) j hj
  rw [(g.row4 hV hk).1] at v
  unfold Dat.t at v ⊢
  generalize tPerm B.n1 B.R1 B.R2 B.R3 B.R4 j = j' at *
  unfold pre at v
  unfold u4
  rw [if_neg (show ¬ B.m1 + (B.R3 + k) < B.m1 by omega), Nat.add_sub_cancel_left, if_neg (show ¬ B.R3 + k < B.R3 by omega), Nat.add_sub_cancel_left] at v
  by_cases c : j' < B.n1
  · rw [if_pos c] at v ⊢
    by_cases c' : j < B.R1 + B.R2 + B.R3
    · rw [luU_gt (by omega)]
    · rw [luU_lt (by omega), v, if_neg (by omega)]
      obtain ⟨e1, e2, e3⟩ := g.ii2_lt (i := B.R3 + k) (by omega)
      exact g.f3.zero' _ (e2 (by omega)) e1 _ (by omega) (by omega)
  · rw [if_neg c] at v ⊢
    by_cases c' : j' - B.n1 < B.R2
    · rw [if_pos c', luU_gt (by omega)]
    · rw [if_neg c'] at v ⊢
      by_cases c2 : j < B.R1 + B.R2 + B.R3 + B.R4
      · obtain ⟨a, rfl⟩ : ∃ a, j = B.R1 + B.R2 + B.R3 + a := ⟨j - (B.R1 + B.R2 + B.R3), by omega⟩
        rw [show j' - B.n1 - B.R2 = a by omega] at *
        exact luU_shift (fun _ => v)
      · rw [luU_lt (by omega), luU_lt (by omega), v]

lemma zeroV {i j : ℕ} (hi : i < B.m1 + B.m2) (hj : j < B.n1 + B.n2) (ri : B.R1 + B.R2 + B.R3 + B.R4 ≤ i) (rj : B.R1 + B.R2 + B.R3 + B.R4 ≤ j) :
    V i j = 0 := by
  obtain ⟨b1, b2, b3, b4⟩ := g.bounds
  have hs := g.s_facts hV hi
  have ht := tPerm_cases (R2 := B.R2) (R4 := B.R4) j b2
  rw [hV i hi j hj]
  unfold Dat.t
  generalize tPerm B.n1 B.R1 B.R2 B.R3 B.R4 j = j' at *
  generalize B.s i = i' at *
  unfold pre
  by_cases c : i' < B.m1
  · rw [if_pos c]
    by_cases c' : j' < B.n1
    · rw [if_pos c']
      obtain ⟨e1, e2, e3⟩ := g.ii_lt c
      obtain ⟨o1, o2, o3⟩ := g.jj_lt c'
      exact g.f1.zero' _ (e2 (by omega)) e1 _ (o2 (by omega)) o1
    · rw [if_neg c', if_neg (by omega)]
      obtain ⟨o1, o2, o3⟩ := g.jj2_lt (j := j' - B.n1) (by omega)
      exact g.f2.zero' _ (by omega) (by omega) _ (o2 (by omega)) o1
  · rw [if_neg c]
    by_cases c' : j' < B.n1
    · rw [if_pos c', if_neg (by omega)]
      obtain ⟨o1, o2, o3⟩ := g.ii2_lt (i := i' - B.m1) (by omega)
      exact g.f3.zero' _ (o2 (by omega)) o1 _ (by omega) (by omega)
    · rw [if_neg c', if_neg (by omega), if_neg (by omega)]
      exact g.f4.zero' _ (by omega) (by omega) _ (by omega) (by omega)

lemma pivV {k : ℕ} (hk : k < B.R1 + B.R2 + B.R3 + B.R4) : V k k ≠ 0 := by
  obtain ⟨b1, b2, b3, b4⟩ := g.bounds
  by_cases c1 : k < B.R1
  · rw [hV k (by omega) k (by omega), (g.row1 hV c1).1, (g.row1 hV c1).2, pre, if_pos (by omega), if_pos (by omega),
      (g.ii_lt (i := k) (by omega)).2.2 c1, (g.jj_lt (j := k) (by omega)).2.2 c1]
    exact g.f1.piv k c1
  by_cases c2 : k < B.R1 + B.R2
  · obtain ⟨a, rfl⟩ : ∃ a, k = B.R1 + a := ⟨k - B.R1, by omega⟩
    have ha : a < B.R2 := by omega
    rw [hV _ (by omega) _ (by omega), (g.row2 hV ha).1, (g.row2 hV ha).2, pre, if_pos (by omega), if_neg (by omega), if_neg (by omega),
      Nat.add_sub_cancel_left, Nat.add_sub_cancel_left, (g.jj2_lt (j := a) (by omega)).2.2 ha]
    exact g.f2.piv a ha
  by_cases c3 : k < B.R1 + B.R2 + B.R3
  · obtain ⟨a, rfl⟩ : ∃ a, k = B.R1 + B.R2 + a := ⟨k - (B.R1 + B.R2), by omega⟩
    have ha : a < B.R3 := by omega
    rw [hV _ (by omega) _ (by omega), (g.row3 hV ha).1, (g.row3 hV ha).2, pre, if_neg (by omega), if_pos (by omega), if_neg (by omega),
      Nat.add_sub_cancel_left, Nat.add_sub_cancel_left, (g.ii2_lt (i := a) (by omega)).2.2 ha]
    exact g.f3.piv a ha
  · obtain ⟨a, rfl⟩ : ∃ a, k = B.R1 + B.R2 + B.R3 + a := ⟨k - (B.R1 + B.R2 + B.R3), by omega⟩
    have ha : a < B.R4 := by omega
    rw [hV _ (by omega) _ (by omega), (g.row4 hV ha).1, (g.row4 hV ha).2, pre, if_neg (by omega), if_neg (by omega), if_neg (by omega), if_neg (by omega),
      Nat.add_sub_cancel_left, Nat.add_sub_cancel_left, Nat.add_sub_cancel_left, Nat.add_sub_cancel_left]
    exact g.f4.piv a ha

omit hV in
lemma pp_perm : IsPermArray B.pp (B.m1 + B.m2) := by
  have h1 := g.f1.rM
  have h3 := g.f3.rM
  refine pairPerm_perm (n := B.m1) (IsPermArray.comp g.f1.pP (shiftPerm_isPerm h1 g.f2.pP)) ?_ (by omega)
  rw [Nat.add_sub_cancel_left]
  exact IsPermArray.comp g.f3.pP (shiftPerm_isPerm h3 g.f4.pP)

omit hV in
lemma qq_perm : IsPermArray B.qq (B.n1 + B.n2) := by
  have h1 := g.f1.rN
  have h3 := g.f2.rN
  refine pairPerm_perm (n := B.n1) (IsPermArray.comp g.f1.pQ (shiftPerm_isPerm h1 g.f3.pQ)) ?_ (by omega)
  rw [Nat.add_sub_cancel_left]
  exact IsPermArray.comp g.f2.pQ (shiftPerm_isPerm h3 g.f4.pQ)

/-- the combination is a decomposition -/
theorem combine0 : Fac0 d (B.m1 + B.m2) (B.n1 + B.n2) X V (fun i => B.pp (B.s i)) (fun j => B.qq (B.t j)) (B.R1 + B.R2 + B.R3 + B.R4) := by
  obtain ⟨b1, b2, b3, b4⟩ := g.bounds
  have sP : IsPermArray B.s (B.m1 + B.m2) := sPerm_perm (by omega)
  have tP : IsPermArray B.t (B.n1 + B.n2) := tPerm_perm b2 (by omega)
  refine ⟨⟨by omega, by omega, fun k hk => g.pivV hV hk, fun i hi j hj => ?_⟩, IsPermArray.comp g.pp_perm sP, IsPermArray.comp g.qq_perm tP,
    fun i hi j hj h1 h2 => g.zeroV hV hi hj h1 h2⟩
  · rw [g.prod (sP.1 i hi) (tP.1 j hj), sum_range_add, sum_range_add, sum_range_add]
    refine congrArg₂ _ (congrArg₂ _ (congrArg₂ _ ?_ ?_) ?_) ?_ <;> refine sum_congr rfl (fun k hk => ?_) <;> have hk := mem_range.1 hk
    · rw [g.L1 hV hi hk, g.U1 hV hj hk]
    · rw [g.L2 hV hi hk, g.U2 hV hj hk]
    · rw [g.L3 hV hi hk, g.U3 hV hj hk]
    · rw [g.L4 hV hi hk, g.U4 hV hj hk]

end
end Good

namespace GoodR
variable (g : B.GoodR d X)
include g

omit g in
/-- an increasing function reflects the order -/
lemma inc_lt {σ : ℕ → ℕ} {R n a b : ℕ} (h : ∀ i i', R ≤ i → i < i' → i' < n → σ i < σ i') (ha : R ≤ a) (hb : R ≤ b) (ha' : a < n) (hlt : σ a < σ b) :
    a < b := by
  rcases Nat.lt_trichotomy a b with c | rfl | c
  · exact c
  · omega
  · have := h b a hb c ha'; omega

lemma mono_l1 {i k : ℕ} (hi : i < B.m1 + B.m2) (hk : k < B.R1) (h : B.pp i < B.p1 k) : B.l1 d i k = 0 := by
  have hR1 := g.f1.rM
  unfold pp pairPerm at h
  unfold l1
  split_ifs at h ⊢ with c
  · exact g.r1.monoL k hk _ (g.ii_lt c).1 h
  · have := g.f1.pP.1 k (by omega); omega

lemma mono_l2 {i k : ℕ} (hi : i < B.m1 + B.m2) (hk : k < B.R2) (h : B.pp i < B.p1 (B.R1 + B.p2 k)) : B.l2 d i k = 0 := by
  have hR1 := g.f1.rM
  have hR2 := g.f2.rM
  have hp2 := g.f2.pP.1 k (by omega)
  unfold pp pairPerm at h
  unfold l2
  by_cases c : i < B.m1
  · rw [if_pos c] at h ⊢
    by_cases c' : i < B.R1
    · rw [if_pos c']
    · rw [if_neg c']
      have e : B.ii i = B.R1 + B.p2 (i - B.R1) := shiftPerm_hi (by omega)
      simp only [e] at h
      have := inc_lt g.r1.incP (by omega) (by omega) (by have := g.f2.pP.1 (i - B.R1) (by omega); omega) h
      exact g.r2.monoL k hk _ (by omega) (by omega)
  · rw [if_neg c] at h
    have := g.f1.pP.1 (B.R1 + B.p2 k) (by omega); omega

lemma mono_l3 {i k : ℕ} (hi : i < B.m1 + B.m2) (hk : k < B.R3) (h : B.pp i < B.m1 + B.p3 k) : B.l3 d i k = 0 := by
  unfold pp pairPerm at h
  unfold l3
  by_cases c : i < B.m1
  · rw [if_pos c]
  · rw [if_neg c] at h ⊢
    have h : B.m1 + B.p3 (B.ii2 (i - B.m1)) < B.m1 + B.p3 k := h
    exact g.r3.monoL k hk _ (g.ii2_lt (by omega)).1 (by omega)

lemma mono_l4 {i k : ℕ} (hi : i < B.m1 + B.m2) (hk : k < B.R4) (h : B.pp i < B.m1 + B.p3 (B.R3 + B.p4 k)) : B.l4 d i k = 0 := by
  unfold pp pairPerm at h
  unfold l4
  by_cases c : i < B.m1
  · rw [if_pos c]
  · rw [if_neg c] at h ⊢
    by_cases c' : i - B.m1 < B.R3
    · rw [if_pos c']
    · rw [if_neg c']
      have e : B.ii2 (i - B.m1) = B.R3 + B.p4 (i - B.m1 - B.R3) := shiftPerm_hi (by omega)
      simp only [e] at h
      have := inc_lt g.r3.incP (by omega) (by omega) (by have := g.f4.pP.1 (i - B.m1 - B.R3) (by omega); omega) (show B.p3 (B.R3 + B.p4 (i - B.m1 - B.R3)) < B.p3 (B.R3 + B.p4 k) by omega)
      exact g.r4.monoL k hk _ (by omega) (by omega)

lemma mono_u1 {j k : ℕ} (hj : j < B.n1 + B.n2) (hk : k < B.R1) (h : B.qq j < B.q1 k) : B.u1 d k j = 0 := by
  have hR1 := g.f1.rN
  unfold qq pairPerm at h
  unfold u1
  split_ifs at h ⊢ with c
  · exact g.r1.monoU k hk _ (g.jj_lt c).1 h
  · have := g.f1.pQ.1 k (by omega); omega

lemma mono_u2 {j k : ℕ} (hj : j < B.n1 + B.n2) (hk : k < B.R2) (h : B.qq j < B.n1 + B.q2 k) : B.u2 d k j = 0 := by
  unfold qq pairPerm at h
  unfold u2
  by_cases c : j < B.n1
  · rw [if_pos c]
  · rw [if_neg c] at h ⊢
    have h : B.n1 + B.q2 (B.jj2 (j - B.n1)) < B.n1 + B.q2 k := h
    exact g.r2.monoU k hk _ (g.jj2_lt (by omega)).1 (by omega)

lemma mono_u3 {j k : ℕ} (hj : j < B.n1 + B.n2) (hk : k < B.R3) (h : B.qq j < B.q1 (B.R1 + B.q3 k)) : B.u3 d k j = 0 := by
  have hR1 := g.f1.rN
  have hR3 := g.f3.rN
  have hq3 := g.f3.pQ.1 k (by omega)
  unfold qq pairPerm at h
  unfold u3
  by_cases c : j < B.n1
  · rw [if_pos c] at h ⊢
    by_cases c' : j < B.R1
    · rw [if_pos c']
    · rw [if_neg c']
      have e : B.jj j = B.R1 + B.q3 (j - B.R1) := shiftPerm_hi (by omega)
      simp only [e] at h
      have := inc_lt g.r1.incQ (by omega) (by omega) (by have := g.f3.pQ.1 (j - B.R1) (by omega); omega) h
      exact g.r3.monoU k hk _ (by omega) (by omega)
  · rw [if_neg c] at h
    have := g.f1.pQ.1 (B.R1 + B.q3 k) (by omega); omega

lemma mono_u4 {j k : ℕ} (hj : j < B.n1 + B.n2) (hk : k < B.R4) (h : B.qq j < B.n1 + B.q2 (B.R2 + B.q4 k)) : B.u4 d k j = 0 := by
  unfold qq pairPerm at h
  unfold u4
  by_cases c : j < B.n1
  · rw [if_pos c]
  · rw [if_neg c] at h ⊢
    by_cases c' : j - B.n1 < B.R2
    · rw [if_pos c']
    · rw [if_neg c']
      have e : B.jj2 (j - B.n1) = B.R2 + B.q4 (j - B.n1 - B.R2) := shiftPerm_hi (by omega)
      simp only [e] at h
      have := inc_lt g.r2.incQ (by omega) (by omega) (by have := g.f4.pQ.1 (j - B.n1 - B.R2) (by omega); omega) (show B.q2 (B.R2 + B.q4 (j - B.n1 - B.R2)) < B.q2 (B.R2 + B.q4 k) by omega)
      exact g.r4.monoU k hk _ (by omega) (by omega)

section
variable {V : ℕ → ℕ → K} (hV : ∀ i < B.m1 + B.m2, ∀ j < B.n1 + B.n2, V i j = B.pre (B.s i) (B.t j))
include hV

/-- the combination is a decomposition of the same kind -/
theorem combine : Fac d (B.m1 + B.m2) (B.n1 + B.n2) X V (fun i => B.pp (B.s i)) (fun j => B.qq (B.t j)) (B.R1 + B.R2 + B.R3 + B.R4) := by
  obtain ⟨b1, b2, b3, b4⟩ := g.bounds
  have sP : IsPermArray B.s (B.m1 + B.m2) := sPerm_perm (by omega)
  have tP : IsPermArray B.t (B.n1 + B.n2) := tPerm_perm b2 (by omega)
  have g0 := g.toGood.combine0 hV
  refine ⟨g0.toIsPLUQ, g0.pP, g0.pQ, g0.zero, fun k hk i hi h => ?_, fun k hk j hj h => ?_, fun i i' h1 h2 h3 => ?_, fun j j' h1 h2 h3 => ?_⟩
  · by_cases c1 : k < B.R1
    · rw [g.L1 hV hi c1]
      refine g.mono_l1 (sP.1 i hi) c1 (lt_of_lt_of_eq h ?_)
      rw [(g.row1 hV c1).1, pp, pairPerm, if_pos (by omega), (g.ii_lt (i := k) (by omega)).2.2 c1]
    by_cases c2 : k < B.R1 + B.R2
    · obtain ⟨a, rfl⟩ : ∃ a, k = B.R1 + a := ⟨k - B.R1, by omega⟩
      have ha : a < B.R2 := by omega
      rw [g.L2 hV hi ha]
      refine g.mono_l2 (sP.1 i hi) ha (lt_of_lt_of_eq h ?_)
      rw [(g.row2 hV ha).1, pp, pairPerm, if_pos (by omega), ii, shiftPerm_hi (by omega), Nat.add_sub_cancel_left]
    by_cases c3 : k < B.R1 + B.R2 + B.R3
    · obtain ⟨a, rfl⟩ : ∃ a, k = B.R1 + B.R2 + a := ⟨k - (B.R1 + B.R2), by omega⟩
      have ha : a < B.R3 := by omega
      rw [g.L3 hV hi ha]
      refine g.mono_l3 (sP.1 i hi) ha (lt_of_lt_of_eq h ?_)
      rw [(g.row3 hV ha).1, pp, pairPerm, if_neg (by omega), ii2, shiftPerm_lo (by omega), Nat.add_sub_cancel_left]
    · obtain ⟨a, rfl⟩ : ∃ a, k = B.R1 + B.R2 + B.R3 + a := ⟨k - (B.R1 + B.R2 + B.R3), by omega⟩
      have ha : a < B.R4 := by omega
      rw [g.L4 hV hi ha]
      refine g.mono_l4 (sP.1 i hi) ha (lt_of_lt_of_eq h ?_)
      rw [(g.row4 hV ha).1, pp, pairPerm, if_neg (by omega), ii2, Nat.add_sub_cancel_left, shiftPerm_hi (by omega), Nat.add_sub_cancel_left]
  · by_cases c1 : k < B.R1
    · rw [g.U1 hV hj c1]
      refine g.mono_u1 (tP.1 j hj) c1 (lt_of_lt_of_eq h ?_)
      rw [(g.row1 hV c1).2, qq, pairPerm, if_pos (by omega), (g.jj_lt (j := k) (by omega)).2.2 c1]
    by_cases c2 : k < B.R1 + B.R2
    · obtain ⟨a, rfl⟩ : ∃ a, k = B.R1 + a := ⟨k - B.R1, by omega⟩
      have ha : a < B.R2 := by omega
      rw [g.U2 hV hj ha]
      refine g.mono_u2 (tP.1 j hj) ha (lt_of_lt_of_eq h ?_)
      rw [(g.row2 hV ha).2, qq, pairPerm, if_neg (by omega), jj2, shiftPerm_lo (by omega), Nat.add_sub_cancel_left]
    by_cases c3 : k < B.R1 + B.R2 + B.R3
    · obtain ⟨a, rfl⟩ : ∃ a, k = B.R1 + B.R2 + a := ⟨k - (B.R1 + B.R2), by omega⟩
      have ha : a < B.R3 := by omega
      rw [g.U3 hV hj ha]
      refine g.mono_u3 (tP.1 j hj) ha (lt_of_lt_of_eq h ?_)
      rw [(g.row3 hV ha).2, qq, pairPerm, if_pos (by omega), jj, shiftPerm_hi (by omega), Nat.add_sub_cancel_left]
    · obtain ⟨a, rfl⟩ : ∃ a, k = B.R1 + B.R2 + B.R3 + a := ⟨k - (B.R1 + B.R2 + B.R3), by omega⟩
      have ha : a < B.R4 := by omega
      rw [g.U4 hV hj ha]
      refine g.mono_u4 (tP.1 j hj) ha (lt_of_lt_of_eq h ?_)
      rw [(g.row4 hV ha).2, qq, pairPerm, if_neg (by omega), jj2, Nat.add_sub_cancel_left, shiftPerm_hi (by omega), Nat.add_sub_cancel_left]
  · have hs := g.s_facts hV (i := i) (by omega)
    have hs' := g.s_facts hV (i := i') (by omega)
    have w := sP.1 i' h3
    show B.pp (B.s i) < B.pp (B.s i')
    generalize B.s i = a at *
    generalize B.s i' = a' at *
    simp only [pp, pairPerm]
    by_cases c : a < B.m1
    · rw [if_pos c]
      have := g.f1.pP.1 _ (g.ii_lt c).1
      by_cases c' : a' < B.m1
      · rw [if_pos c', ii, ii, shiftPerm_hi (by omega), shiftPerm_hi (by omega)]
        refine g.r1.incP _ _ (by omega) ?_ ?_
        · have := g.r2.incP (a - B.R1) (a' - B.R1) (by omega) (by omega) (by omega); omega
        · have := g.f2.pP.1 (a' - B.R1) (by omega); omega
      · rw [if_neg c']; omega
    · rw [if_neg c, if_neg (by omega), ii2, ii2, shiftPerm_hi (by omega), shiftPerm_hi (by omega)]
      refine Nat.add_lt_add_left (g.r3.incP _ _ (by omega) ?_ ?_) _
      · have := g.r4.incP (a - B.m1 - B.R3) (a' - B.m1 - B.R3) (by omega) (by omega) (by omega); omega
      · have := g.f4.pP.1 (a' - B.m1 - B.R3) (by omega); omega
  · have ht := tPerm_cases (R2 := B.R2) (R4 := B.R4) j b2
    have ht' := tPerm_cases (R2 := B.R2) (R4 := B.R4) j' b2
    have w := tP.1 j' h3
    show B.qq (B.t j) < B.qq (B.t j')
    unfold Dat.t at w ⊢
    generalize tPerm B.n1 B.R1 B.R2 B.R3 B.R4 j = a at *
    generalize tPerm B.n1 B.R1 B.R2 B.R3 B.R4 j' = a' at *
    simp only [qq, pairPerm]
    by_cases c : a < B.n1
    · rw [if_pos c]
      have := g.f1.pQ.1 _ (g.jj_lt c).1
      by_cases c' : a' < B.n1
      · rw [if_pos c', jj, jj, shiftPerm_hi (by omega), shiftPerm_hi (by omega)]
        refine g.r1.incQ _ _ (by omega) ?_ ?_
        · have := g.r3.incQ (a - B.R1) (a' - B.R1) (by omega) (by omega) (by omega); omega
        · have := g.f3.pQ.1 (a' - B.R1) (by omega); omega
      · rw [if_neg c']; omega
    · rw [if_neg c, if_neg (by omega), jj2, jj2, shiftPerm_hi (by omega), shiftPerm_hi (by omega)]
      refine Nat.add_lt_add_left (g.r2.incQ _ _ (by omega) ?_ ?_) _
      · have := g.r4.incQ (a - B.n1 - B.R2) (a' - B.n1 - B.R2) (by omega) (by omega) (by omega); omega
      · have := g.f4.pQ.1 (a' - B.n1 - B.R2) (by omega); omega

end
end GoodR
end Dat
end Verif.Pluq
