import Verif.Model.Reduce

namespace Verif.Reduce
open Verif.FP

lemma quotient_err (prec p : ℕ) (hp : 1 ≤ p) (A : ℤ) (hA : |A| + p ≤ 2 ^ prec) :
    |rnd prec (A * rnd prec (1 / p)) - A / p| * p < 2 := by
  have hp0 : (0:ℚ) < p := by exact_mod_cast hp
  set u : ℚ := 1 / 2 ^ prec with hu
  have hupos : 0 < u := by positivity
  have h1 : |rnd prec (1 / (p:ℚ)) - 1 / p| ≤ u / p := by
    have := rnd_err prec (1 / (p:ℚ))
    rw [abs_of_pos (by positivity : (0:ℚ) < 1 / p)] at this
    calc _ ≤ _ := this
      _ = u / p := by rw [hu]; ring
  set i := rnd prec (1 / (p:ℚ)) with hi
  have h2 := rnd_err prec (A * i)
  have hA' : |(A:ℚ)| + p ≤ 2 ^ prec := by exact_mod_cast hA
  have hAu : |(A:ℚ)| * u + p * u ≤ 1 := by
    have := mul_le_mul_of_nonneg_right hA' hupos.le
    rw [add_mul] at this
    calc _ ≤ _ := this
      _ = 1 := by rw [hu]; field_simp
  have habs : |i| ≤ 1 / p + u / p := by
    have := abs_sub_abs_le_abs_sub i (1 / (p:ℚ))
    rw [abs_of_pos (by positivity : (0:ℚ) < 1 / p)] at this
    linarith
  have h3 : |rnd prec (A * i) - A * i| ≤ |(A:ℚ)| * (1 / p + u / p) * u := by
    calc _ ≤ _ := h2
      _ = |(A:ℚ)| * |i| * u := by rw [abs_mul, hu]; ring
      _ ≤ _ := by gcongr
  have h4 : |A * i - A / p| ≤ |(A:ℚ)| * (u / p) := by
    rw [show (A:ℚ) * i - A / p = A * (i - 1 / p) by ring, abs_mul]
    gcongr
  have h5 : |rnd prec (A * i) - A / p| ≤ |(A:ℚ)| * (1 / p + u / p) * u + |(A:ℚ)| * (u / p) :=
    (abs_sub_le _ (A * i) _).trans (add_le_add h3 h4)
  calc |rnd prec (A * i) - A / p| * p ≤ (|(A:ℚ)| * (1 / p + u / p) * u + |(A:ℚ)| * (u / p)) * p := by gcongr
    _ = |(A:ℚ)| * u * (2 + u) := by field_simp; ring
    _ ≤ (1 - p * u) * (2 + u) := by gcongr; linarith
    _ < 2 := by
      have : (1:ℚ) ≤ p := by exact_mod_cast hp
      nlinarith [mul_pos hupos hupos]

theorem reduceHelperF_spec (prec p : ℕ) (hp : 2 ≤ p) (hprec : 1 ≤ prec) (min max : ℤ) (hmm : max - min = p - 1)
    (hmin : min ≤ 0) (hmax : 1 ≤ max) (A : ℤ) (hA : |A| + p < 2 ^ prec) :
    ∃ r : ℤ, reduceHelperF prec p min max A = r ∧ min ≤ r ∧ r ≤ max ∧ (p:ℤ) ∣ A - r := by
  have hp0 : (0:ℚ) < p := by exact_mod_cast (by omega : 0 < p)
  have herr := quotient_err prec p (by omega) A hA.le
  unfold reduceHelperF reduceF
  set q := rnd prec (A * rnd prec (1 / p)) with hq
  set n := ⌊q⌋ with hn
  have hn1 : (n:ℚ) ≤ q := Int.floor_le q
  have hn2 : q < n + 1 := Int.lt_floor_add_one q
  have hd : |q * p - A| < 2 := by
    have : q * p - A = (q - A / p) * p := by field_simp
    rw [this, abs_mul, abs_of_pos hp0]; exact herr
  rw [abs_lt] at hd
  have hr1 : -1 ≤ A - n * p := by
    have : (-2:ℚ) < A - n * p := by
      have := mul_le_mul_of_nonneg_right hn1 hp0.le
      linarith
    have : (-2:ℤ) < A - n * p := by exact_mod_cast this
    omega
  have hr2 : A - n * p ≤ p + 1 := by
    have : (A - n * p : ℚ) < p + 2 := by
      have := mul_lt_mul_of_pos_right hn2 hp0
      linarith
    have : A - n * p < (p:ℤ) + 2 := by exact_mod_cast this
    omega
  have hAb := abs_lt.1 (show |A| < 2 ^ prec - p by linarith)
  have hnp : |n * p| ≤ 2 ^ prec := by
    rw [abs_le]; constructor <;> linarith
  have e1 : rnd prec ((n:ℚ) * p) = ((n * p : ℤ) : ℚ) := by
    have := rnd_int prec hprec (n * p) hnp
    push_cast at this ⊢; exact this
  have hp1 : (p : ℤ) + 1 ≤ 2 ^ prec := by have := abs_nonneg A; omega
  have e2 : rnd prec ((A:ℚ) - ((n * p : ℤ) : ℚ)) = ((A - n * p : ℤ) : ℚ) := by
    have := rnd_int prec hprec (A - n * p) (by rw [abs_le]; constructor <;> linarith)
    push_cast at this ⊢; exact this
  simp only [← hn, e1, e2]
  generalize hrr : A - n * p = r at hr1 hr2 ⊢
  have hdvd : (p:ℤ) ∣ A - r := ⟨n, by rw [← hrr]; ring⟩
  by_cases h1 : r < min
  · have hr : r = -1 := by omega
    have h1' : (r : ℚ) < (min : ℚ) := by exact_mod_cast h1
    have e3 : rnd prec ((r : ℚ) + p) = ((r + p : ℤ) : ℚ) := by
      have := rnd_int prec hprec (r + p) (by rw [abs_le]; constructor <;> linarith)
      push_cast at this ⊢; exact this
    have h2 : ¬ (((r + p : ℤ) : ℚ) > (max : ℚ)) := by
      rw [gt_iff_lt, Int.cast_lt]; omega
    rw [if_pos h1', e3, if_neg h2]
    exact ⟨r + p, rfl, by omega, by omega, by
      rw [show A - (r + p) = (A - r) - p by ring]; exact dvd_sub hdvd (dvd_refl _)⟩
  · have h1' : ¬ ((r : ℚ) < (min : ℚ)) := by rw [Int.cast_lt]; exact h1
    rw [if_neg h1']
    by_cases h2 : r > max
    · have h2' : (r : ℚ) > (max : ℚ) := by exact_mod_cast h2
      have e3 : rnd prec ((r : ℚ) - p) = ((r - p : ℤ) : ℚ) := by
        have := rnd_int prec hprec (r - p) (by rw [abs_le]; constructor <;> linarith)
        push_cast at this ⊢; exact this
      rw [if_pos h2', e3]
      exact ⟨r - p, rfl, by omega, by omega, by
        rw [show A - (r - p) = (A - r) + p by ring]; exact dvd_add hdvd (dvd_refl _)⟩
    · have h2' : ¬ ((r : ℚ) > (max : ℚ)) := by rw [gt_iff_lt, Int.cast_lt]; exact h2
      rw [if_neg h2']
      exact ⟨r, rfl, by omega, by omega, hdvd⟩

theorem reduce64_spec (p : ℕ) (hp : 2 ≤ p) (hp' : p ≤ 2 ^ 38) (min max : ℤ) (hmm : max - min = p - 1)
    (hmin : min ≤ 0) (hmax : 1 ≤ max) (A : ℤ) (hA1 : -2 ^ 63 ≤ A) (hA2 : A < 2 ^ 63) :
    ∃ r : ℤ, reduce64 p min max A = r ∧ min ≤ r ∧ r ≤ max ∧ (p:ℤ) ∣ A - r := by
  unfold reduce64
  set q := A / 2 ^ 50 with hq
  set s := A % 2 ^ 50 with hs
  set w : ℤ := 2 ^ 50 % p with hw
  have hA : A = 2 ^ 50 * q + s := by rw [hq, hs]; exact (Int.mul_ediv_add_emod A (2^50)).symm
  have hs1 : 0 ≤ s := Int.emod_nonneg _ (by norm_num)
  have hs2 : s < 2 ^ 50 := Int.emod_lt_of_pos _ (by norm_num)
  have hq1 : -2 ^ 13 ≤ q := by omega
  have hq2 : q < 2 ^ 13 := by omega
  have hp0 : (0:ℤ) < p := by exact_mod_cast (by omega : 0 < p)
  have hw1 : 0 ≤ w := Int.emod_nonneg _ hp0.ne'
  have hw2 : w < p := Int.emod_lt_of_pos _ hp0
  have hp'' : (p:ℤ) ≤ 2 ^ 38 := by exact_mod_cast hp'
  have hqw : |q * w| ≤ 2 ^ 13 * 2 ^ 38 := by
    rw [abs_mul]
    have : |q| ≤ 2 ^ 13 := by rw [abs_le]; constructor <;> linarith
    have : |w| ≤ 2 ^ 38 := by rw [abs_le]; constructor <;> linarith
    gcongr
  rw [abs_le] at hqw
  have hb : |q * w + s| + p < 2 ^ 53 := by
    have : |q * w + s| ≤ 2 ^ 51 + 2 ^ 50 := by rw [abs_le]; constructor <;> linarith
    linarith
  have hrn : rnd 53 ((q * w + s : ℤ) : ℚ) = ((q * w + s : ℤ) : ℚ) :=
    rnd_int 53 (by norm_num) _ (by linarith)
  obtain ⟨r, h1, h2, h3, h4⟩ := reduceHelperF_spec 53 p hp (by norm_num) min max hmm hmin hmax (q * w + s) hb
  refine ⟨r, ?_, h2, h3, ?_⟩
  · show reduceHelperF 53 p min max (rnd 53 ((q * w + s : ℤ) : ℚ)) = r
    rw [hrn]; exact h1
  · have : (p:ℤ) ∣ 2 ^ 50 - w := Int.dvd_self_sub_emod
    rw [hA, show 2 ^ 50 * q + s - r = (2 ^ 50 - w) * q + (q * w + s - r) by ring]
    exact dvd_add (Dvd.dvd.mul_right this q) h4

end Verif.Reduce
