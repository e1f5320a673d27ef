import Verif.Proofs.Reduce
import Mathlib.Data.Int.ModEq

/-!
# C35, C36: modular reduction of machine words
-/

namespace Verif.Props
open Verif Verif.FP Verif.Reduce

/-- C35 (full statement: `reduce` returns the canonical representative for every integer exactly
representable in the element type).  Proved for the representation `[0,p)` and every integer with
`|A| + p < 2^prec`, with all the roundings of the code.  Missing: the last `p` integers below
`2^prec`, where the property is false (`C35_violated`). -/
theorem C35_reduce_positive_partial (prec p : ℕ) (hp : 2 ≤ p) (hprec : 1 ≤ prec) (A : ℤ)
    (hA : |A| + p < 2 ^ prec) :
    reduceHelperF prec p 0 (p - 1) A = ((A % p : ℤ) : ℚ) := by
  obtain ⟨r, h1, h2, h3, h4⟩ :=
    reduceHelperF_spec prec p hp hprec 0 (p - 1) (by ring) le_rfl (by omega) A hA
  have : ((p - 1 : ℤ) : ℚ) = (p:ℚ) - 1 := by push_cast; ring
  have hr : r = A % p := by
    have : A % p = r % p := (Int.emod_eq_emod_iff_emod_sub_eq_zero.2 (Int.emod_eq_zero_of_dvd h4))
    rw [this, Int.emod_eq_of_lt h2 (by omega)]
  rw [← hr]; exact_mod_cast h1

/-- C35 for the balanced representation: the result is the representative of `A` modulo `p` of absolute
value at most `(p-1)/2` (same range of `A`, same missing part). -/
theorem C35_reduce_balanced_partial (prec p : ℕ) (hp : 3 ≤ p) (hodd : p % 2 = 1) (hprec : 1 ≤ prec) (A : ℤ)
    (hA : |A| + p < 2 ^ prec) :
    ∃ r : ℤ, reduceHelperF prec p (-((p - 1) / 2)) ((p - 1) / 2) A = r ∧ 2 * |r| ≤ p - 1 ∧
      r ≡ A [ZMOD p] := by
  obtain ⟨r, h1, h2, h3, h4⟩ :=
    reduceHelperF_spec prec p (by omega) hprec (-((p - 1) / 2)) ((p - 1) / 2) (by omega) (by omega) (by omega) A hA
  refine ⟨r, h1, ?_, (Int.modEq_iff_dvd.2 h4)⟩
  rcases abs_cases r with ⟨h, _⟩ | ⟨h, _⟩ <;> rw [h] <;> omega

lemma reduce_witness : reduceHelperF 53 7 (-3) 3 ((-(2 ^ 53 - 1) : ℤ) : ℚ) = -2 := by
  have h1 : rnd 53 (1 / ((7 : ℕ) : ℚ)) = 5146971002709138 / 2 ^ 55 := by
    rw [rnd_eval 53 _ (-3) (by norm_num) (by norm_num), roundEven_of_lt _ 5146971002709138 (by norm_num [abs_lt])]
    norm_num
  have h2 : rnd 53 (((-(2 ^ 53 - 1) : ℤ) : ℚ) * (5146971002709138 / 2 ^ 55)) = -5146971002709137 / 2 ^ 2 := by
    rw [rnd_eval 53 _ 50 (by norm_num) (by norm_num), roundEven_of_lt _ (-5146971002709137) (by norm_num [abs_lt])]
    norm_num
  have h3 : ⌊(-5146971002709137 / 2 ^ 2 : ℚ)⌋ = -1286742750677285 := by
    rw [Int.floor_eq_iff]; norm_num
  have h4 : rnd 53 (((-1286742750677285 : ℤ) : ℚ) * ((7 : ℕ) : ℚ)) = -9007199254740996 := by
    rw [rnd_eval 53 _ 53 (by norm_num) (by norm_num), roundEven_tie _ (-4503599627370498) (by decide) (by norm_num)]
    norm_num
  have h5 : rnd 53 (((-(2 ^ 53 - 1) : ℤ) : ℚ) - -9007199254740996) = ((5 : ℤ) : ℚ) := by
    rw [← rnd_int 53 (by norm_num) 5 (by norm_num)]; congr 1; norm_num
  have h6 : rnd 53 (((5 : ℤ) : ℚ) - ((7 : ℕ) : ℚ)) = ((-2 : ℤ) : ℚ) := by
    rw [← rnd_int 53 (by norm_num) (-2) (by norm_num)]; congr 1; norm_num
  unfold reduceHelperF reduceF
  simp only [h1, h2, h3, h4, h5]
  have h7 : ¬ (((5 : ℤ) : ℚ) < ((-3 : ℤ) : ℚ)) := by norm_num
  have h8 : ((5 : ℤ) : ℚ) > ((3 : ℤ) : ℚ) := by norm_num
  rw [if_neg h7, if_pos h8, h6]
  norm_num

/-- The property fails within `p` of `2^53`: for `ModularBalanced<double>` with `p = 7`,
`A = -(2^53-1)` (which `limits<double>` declares storable) reduces to `-2`, but `A ≡ -3`. -/
theorem C35_violated :
    reduceHelperF 53 7 (-3) 3 ((-(2 ^ 53 - 1) : ℤ) : ℚ) = -2 ∧ ¬ ((-2 : ℤ) ≡ -(2 ^ 53 - 1) [ZMOD 7]) :=
  ⟨reduce_witness, by decide⟩

/-- Non-vacuity: a 50-bit operand and a 26-bit modulus (double), negative. -/
example : reduceHelperF 53 67108859 0 (67108859 - 1) ((-1125899906842623 : ℤ) : ℚ)
    = ((-1125899906842623 % 67108859 : ℤ) : ℚ) := by
  have := C35_reduce_positive_partial 53 67108859 (by norm_num) (by norm_num) (-1125899906842623) (by norm_num)
  exact_mod_cast this

/-- C36. For every modulus up to `2^38` (the code only promises `2^33`), positive or balanced, and every
64-bit signed operand, the reduction through the split at `2^50` returns the canonical representative. -/
theorem C36_reduce64 (p : ℕ) (hp : 2 ≤ p) (hp' : p ≤ 2 ^ 38) (A : ℤ) (hA1 : -2 ^ 63 ≤ A) (hA2 : A < 2 ^ 63) :
    reduce64 p 0 (p - 1) A = ((A % p : ℤ) : ℚ) := by
  obtain ⟨r, h1, h2, h3, h4⟩ := reduce64_spec p hp hp' 0 (p - 1) (by ring) le_rfl (by omega) A hA1 hA2
  have hr : r = A % p := by
    have : A % p = r % p := (Int.emod_eq_emod_iff_emod_sub_eq_zero.2 (Int.emod_eq_zero_of_dvd h4))
    rw [this, Int.emod_eq_of_lt h2 (by omega)]
  rw [← hr]; exact h1

theorem C36_reduce64_balanced (p : ℕ) (hp : 3 ≤ p) (hodd : p % 2 = 1) (hp' : p ≤ 2 ^ 38) (A : ℤ)
    (hA1 : -2 ^ 63 ≤ A) (hA2 : A < 2 ^ 63) :
    ∃ r : ℤ, reduce64 p (-((p - 1) / 2)) ((p - 1) / 2) A = r ∧ 2 * |r| ≤ p - 1 ∧ r ≡ A [ZMOD p] := by
  obtain ⟨r, h1, h2, h3, h4⟩ := reduce64_spec p (by omega) hp' (-((p - 1) / 2)) ((p - 1) / 2) (by omega)
    (by omega) (by omega) A hA1 hA2
  refine ⟨r, h1, ?_, (Int.modEq_iff_dvd.2 h4)⟩
  rcases abs_cases r with ⟨h, _⟩ | ⟨h, _⟩ <;> rw [h] <;> omega

/-- Non-vacuity: extreme operand, 33-bit modulus. -/
example : reduce64 8589934583 0 (8589934583 - 1) (-2 ^ 63) = ((-2 ^ 63 % 8589934583 : ℤ) : ℚ) :=
  C36_reduce64 8589934583 (by norm_num) (by norm_num) _ (by norm_num) (by norm_num)

/-- The remainder-based reduction used for the other integer types, for every operand. -/
theorem C36_reduceInt (p : ℕ) (hp : 1 ≤ p) (A : ℤ) : reduceInt false p 0 (p - 1) A = A % p := by
  have hp0 : (0:ℤ) < p := by exact_mod_cast hp
  simp only [reduceInt, reduceT, Bool.not_false, if_true]
  have h1 := Int.emod_nonneg A hp0.ne'
  have h2 := Int.emod_lt_of_pos A hp0
  have h3 := Int.tmod_eq_emod (a := A) (b := p)
  rw [h3]
  split_ifs <;> simp at * <;> omega

theorem C36_reduceInt_balanced (p : ℕ) (hp : 3 ≤ p) (hodd : p % 2 = 1) (A : ℤ) :
    2 * |reduceInt true p (-((p - 1) / 2)) ((p - 1) / 2) A| ≤ p - 1 ∧
      reduceInt true p (-((p - 1) / 2)) ((p - 1) / 2) A ≡ A [ZMOD p] := by
  have hp0 : (0:ℤ) < p := by exact_mod_cast (by omega : 0 < p)
  simp only [reduceInt, reduceT]
  have h1 := Int.tmod_lt_of_pos A hp0
  have h2 : -(p:ℤ) < A.tmod p := by have := Int.lt_tmod_of_pos A hp0; omega
  have h3 : (p:ℤ) ∣ A - A.tmod p := Int.dvd_self_sub_tmod
  constructor
  · rcases abs_cases (_ : ℤ) with ⟨h, _⟩ | ⟨h, _⟩ <;> rw [h] <;> simp <;> split_ifs <;> omega
  · rw [Int.modEq_iff_dvd]
    simp
    split_ifs
    · omega
    · rw [show A - (A.tmod p - p) = A - A.tmod p + p by ring]; exact dvd_add h3 (dvd_refl _)
    · rw [show A - (A.tmod p + p) = A - A.tmod p - p by ring]; exact dvd_sub h3 (dvd_refl _)
    · exact h3

end Verif.Props
