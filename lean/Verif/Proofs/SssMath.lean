import Verif.Spec.Sss
import Mathlib.Algebra.BigOperators.Ring.Finset
import Mathlib.Algebra.BigOperators.Group.Finset.Sigma
import Mathlib.Tactic.Ring

/-!
# Products with a sequentially semi-separable matrix, block by block
-/

namespace Verif.Spec

open Finset

variable {K : Type} [CommRing K] (G : Sss K) (s : ℕ) (alpha : K) (B : ℕ → ℕ → K)

/-- what the generators below the diagonal carry from the blocks `0, …, j` of `B` -/
def lowT : ℕ → ℕ → ℕ → K
  | 0 => fun i c => alpha * ∑ l ∈ range s, G.Q i l * B l c
  | j+1 => fun i c => ∑ l ∈ range s, G.R (j * s + i) l * lowT j l c + alpha * ∑ l ∈ range s, G.Q ((j + 1) * s + i) l * B ((j + 1) * s + l) c

/-- what the generators above the diagonal carry from the last `d + 1` blocks of `B` -/
def upX (k ls : ℕ) : ℕ → ℕ → ℕ → K
  | 0 => fun i c => alpha * ∑ l ∈ range ls, G.V ((k - 2) * s + i) l * B ((k - 1) * s + l) c
  | d+1 => fun i c => ∑ l ∈ range s, G.W ((k - 3 - d) * s + i) l * upX k ls d l c +
      alpha * ∑ l ∈ range s, G.V ((k - 3 - d) * s + i) l * B ((k - 2 - d) * s + l) c

variable {G s alpha B}

lemma divs {s b l : ℕ} (hl : l < s) : (b * s + l) / s = b := by
  rw [Nat.mul_comm, Nat.mul_add_div (by omega), Nat.div_eq_of_lt hl, Nat.add_zero]

lemma mods {s b l : ℕ} (hl : l < s) : (b * s + l) % s = l := by
  rw [Nat.mul_comm, Nat.mul_add_mod, Nat.mod_eq_of_lt hl]

lemma lowT_eq (j i c : ℕ) :
    lowT G s alpha B j i c = alpha * ∑ x ∈ range ((j + 1) * s), rqChain G s (x / s) (j - x / s) i (x % s) * B x c := by
  induction j generalizing i with
  | zero =>
    simp only [lowT, Nat.zero_add, Nat.one_mul]
    congr 1
    refine sum_congr rfl (fun l hl => ?_)
    have hl := mem_range.1 hl
    rw [Nat.div_eq_of_lt hl, Nat.mod_eq_of_lt hl]
    simp only [Nat.sub_self, rqChain, Nat.zero_mul, Nat.zero_add]
  | succ j ih =>
    rw [show (j + 1 + 1) * s = (j + 1) * s + s by ring, sum_range_add, mul_add]
    simp only [lowT]
    congr 1
    · simp only [ih]
      rw [mul_sum]
      simp only [mul_sum]
      rw [sum_comm]
      refine sum_congr rfl (fun x hx => ?_)
      have hx : x / s < j + 1 := Nat.div_lt_of_lt_mul (by rw [Nat.mul_comm]; exact mem_range.1 hx)
      rw [show j + 1 - x / s = (j - x / s) + 1 by omega]
      simp only [rqChain]
      rw [sum_mul, mul_sum]
      refine sum_congr rfl (fun l _ => ?_)
      rw [show x / s + (j - x / s) = j by omega]
      ring
    · congr 1
      refine sum_congr rfl (fun l hl => ?_)
      have hl := mem_range.1 hl
      rw [divs hl, mods hl, Nat.sub_self]
      rfl

lemma upX_eq {k ls : ℕ} (h1 : 0 < ls) (h2 : ls ≤ s) (d i c : ℕ) (hd : d + 2 ≤ k) :
    upX G s alpha B k ls d i c = alpha * ∑ y ∈ range (ls + d * s),
      wvChain G s (((k - 1 - d) * s + y) / s - 1) (((k - 1 - d) * s + y) / s - 1 - (k - 2 - d)) i (((k - 1 - d) * s + y) % s) *
        B ((k - 1 - d) * s + y) c := by
  induction d generalizing i with
  | zero =>
    simp only [upX, Nat.zero_mul, Nat.add_zero, Nat.sub_zero]
    congr 1
    refine sum_congr rfl (fun l hl => ?_)
    have hl := mem_range.1 hl
    rw [divs (by omega), mods (by omega), show k - 1 - 1 - (k - 2) = 0 by omega]
    simp only [wvChain]
    rw [show k - 1 - 1 = k - 2 by omega]
  | succ d ih =>
    rw [show ls + (d + 1) * s = s + (ls + d * s) by ring, sum_range_add, mul_add]
    simp only [upX]
    rw [add_comm]
    congr 1
    · congr 1
      refine sum_congr rfl (fun l hl => ?_)
      have hl := mem_range.1 hl
      rw [divs hl, mods hl, show k - 1 - (d + 1) - 1 - (k - 2 - (d + 1)) = 0 by omega]
      simp only [wvChain]
      rw [show k - 1 - (d + 1) - 1 = k - 3 - d by omega, show k - 1 - (d + 1) = k - 2 - d by omega]
    · simp only [ih _ (by omega : d + 2 ≤ k)]
      rw [mul_sum]
      simp only [mul_sum]
      rw [sum_comm]
      refine sum_congr rfl (fun y hy => ?_)
      have e : (k - 1 - (d + 1)) * s + (s + y) = (k - 1 - d) * s + y := by
        rw [show k - 1 - d = k - 1 - (d + 1) + 1 by omega]; ring
      rw [e]
      have hq : k - 1 - d ≤ ((k - 1 - d) * s + y) / s := by
        rw [Nat.le_div_iff_mul_le (by omega)]; omega
      generalize ((k - 1 - d) * s + y) / s = q at hq ⊢
      rw [show q - 1 - (k - 2 - (d + 1)) = (q - 1 - (k - 2 - d)) + 1 by omega]
      simp only [wvChain]
      rw [sum_mul, mul_sum]
      refine sum_congr rfl (fun l _ => ?_)
      rw [show q - 1 - (q - 1 - (k - 2 - d) + 1) = k - 3 - d by omega]
      ring

/-- the product with the whole matrix -/
lemma sss_total {N k ls : ℕ} (h1 : 0 < ls) (h2 : ls ≤ s) (hN : N = (k - 1) * s + ls) (hk : 0 < k) (i c : ℕ) (hi : i < N) :
    alpha * ∑ x ∈ range N, sssMat G s i x * B x c =
      alpha * (∑ y ∈ range (min s (N - i / s * s)), G.D i y * B (i / s * s + y) c) +
      (if 0 < i / s then ∑ l ∈ range s, G.P ((i / s - 1) * s + i % s) l * lowT G s alpha B (i / s - 1) l c else 0) +
      (if i / s + 1 < k then ∑ l ∈ range s, G.U i l * upX G s alpha B k ls (k - 2 - i / s) l c else 0) := by
  have hs : 0 < s := by omega
  have hie : i / s * s + i % s = i := by rw [Nat.mul_comm]; exact Nat.div_add_mod i s
  have him : i % s < s := Nat.mod_lt _ hs
  have hbk : i / s < k := by
    by_contra hc
    have : k * s ≤ i / s * s := Nat.mul_le_mul_right _ (by omega)
    have e : k * s = (k - 1) * s + s := by
      conv_lhs => rw [show k = k - 1 + 1 by omega]
      ring
    omega
  have hsplit : N = i / s * s + (min s (N - i / s * s) + (N - i / s * s - min s (N - i / s * s))) := by omega
  conv_lhs => rw [hsplit]
  rw [sum_range_add, sum_range_add, mul_add, mul_add]
  have e1 : alpha * ∑ x ∈ range (i / s * s), sssMat G s i x * B x c =
      if 0 < i / s then ∑ l ∈ range s, G.P ((i / s - 1) * s + i % s) l * lowT G s alpha B (i / s - 1) l c else 0 := by
    rcases Nat.eq_zero_or_pos (i / s) with h0 | h0
    · rw [if_neg (by omega), h0]; simp
    · rw [if_pos h0]
      simp only [lowT_eq]
      rw [show i / s - 1 + 1 = i / s by omega]
      simp only [mul_sum]
      rw [sum_comm]
      refine sum_congr rfl (fun x hx => ?_)
      have hx : x / s < i / s := Nat.div_lt_of_lt_mul (by rw [Nat.mul_comm]; exact mem_range.1 hx)
      unfold sssMat
      rw [if_pos hx, sum_mul, mul_sum]
      refine sum_congr rfl (fun l _ => ?_)
      ring
  have e2 : ∑ y ∈ range (min s (N - i / s * s)), sssMat G s i (i / s * s + y) * B (i / s * s + y) c =
      ∑ y ∈ range (min s (N - i / s * s)), G.D i y * B (i / s * s + y) c := by
    refine sum_congr rfl (fun y hy => ?_)
    have hy := mem_range.1 hy
    unfold sssMat
    rw [divs (by omega), mods (by omega), if_neg (by omega), if_neg (by omega)]
  have e3 : alpha * ∑ x ∈ range (N - i / s * s - min s (N - i / s * s)),
      sssMat G s i (i / s * s + (min s (N - i / s * s) + x)) * B (i / s * s + (min s (N - i / s * s) + x)) c =
      if i / s + 1 < k then ∑ l ∈ range s, G.U i l * upX G s alpha B k ls (k - 2 - i / s) l c else 0 := by
    by_cases hc : i / s + 1 < k
    · rw [if_pos hc]
      have hm : (i / s + 1) * s ≤ (k - 1) * s := Nat.mul_le_mul_right _ (by omega)
      have hm' : (i / s + 1) * s = i / s * s + s := by ring
      have hmin : min s (N - i / s * s) = s := by omega
      rw [hmin]
      have hr : N - i / s * s - s = ls + (k - 2 - i / s) * s := by
        have : (k - 1) * s = (k - 2 - i / s) * s + (i / s + 1) * s := by
          rw [← Nat.add_mul]; congr 1; omega
        omega
      rw [hr]
      have hd : k - 2 - i / s + 2 ≤ k := (fun q (hq : q + 1 < k) => (by omega : k - 2 - q + 2 ≤ k)) _ hc
      simp only [upX_eq h1 h2 _ _ _ hd]
      simp only [mul_sum]
      rw [sum_comm]
      refine sum_congr rfl (fun y hy => ?_)
      have hkk : k - 1 - (k - 2 - i / s) = i / s + 1 := by omega
      rw [hkk, show k - 2 - (k - 2 - i / s) = i / s by omega, show i / s * s + (s + y) = (i / s + 1) * s + y by ring]
      have hq : i / s + 1 ≤ ((i / s + 1) * s + y) / s := by
        rw [Nat.le_div_iff_mul_le hs]; omega
      unfold sssMat
      rw [if_neg (by omega), if_pos (by omega), sum_mul, mul_sum, hie]
      refine sum_congr rfl (fun l _ => ?_)
      ring
    · rw [if_neg hc]
      have hik : i / s = k - 1 := by omega
      rw [hik, show N - (k - 1) * s - min s (N - (k - 1) * s) = 0 by omega]
      simp
  rw [e1, e2, e3]
  ring

end Verif.Spec
