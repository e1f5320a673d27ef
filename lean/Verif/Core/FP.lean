import Mathlib.Data.Int.Log
import Mathlib.Data.Rat.Floor
import Mathlib.Algebra.Order.Floor.Ring
import Mathlib.Algebra.Order.Field.Power
import Mathlib.Tactic.Linarith
import Mathlib.Tactic.FieldSimp
import Mathlib.Tactic.Positivity
import Mathlib.Tactic.NormNum
import Mathlib.Tactic.Ring

/-!
# Binary floating point

Round-to-nearest, ties-to-even, with a mantissa of `p` bits (`p = 53`: `double`, `p = 24`: `float`).
Simplification: the exponent range is unbounded (no overflow, no subnormals); every value occurring in
the modelled code is far from both ends of the range.
-/

namespace Verif.FP

/-- Nearest integer, ties to even. -/
def roundEven (q : ℚ) : ℤ :=
  if q - ⌊q⌋ < 1/2 then ⌊q⌋
  else if 1/2 < q - ⌊q⌋ then ⌊q⌋ + 1
  else if ⌊q⌋ % 2 = 0 then ⌊q⌋ else ⌊q⌋ + 1

/-- The rational `x` rounded to a `p`-bit mantissa. -/
def rnd (p : ℕ) (x : ℚ) : ℚ :=
  if x = 0 then 0
  else (roundEven (x * 2 ^ ((p : ℤ) - 1 - Int.log 2 |x|)) : ℚ) * 2 ^ (Int.log 2 |x| - ((p : ℤ) - 1))

lemma roundEven_err (q : ℚ) : |(roundEven q : ℚ) - q| ≤ 1/2 := by
  have h1 := Int.floor_le q
  have h2 := Int.lt_floor_add_one q
  unfold roundEven
  split_ifs with a b c <;> rw [abs_le] <;> push_cast <;> constructor <;> linarith

lemma roundEven_int (n : ℤ) : roundEven n = n := by
  unfold roundEven; simp

lemma roundEven_of_lt (q : ℚ) (n : ℤ) (h : |q - n| < 1/2) : roundEven q = n := by
  rw [abs_lt] at h
  by_cases h0 : (n:ℚ) ≤ q
  · have hf : ⌊q⌋ = n := by rw [Int.floor_eq_iff]; constructor <;> linarith
    unfold roundEven; rw [hf, if_pos (by linarith)]
  · push Not at h0
    have hf : ⌊q⌋ = n - 1 := by rw [Int.floor_eq_iff]; push_cast; constructor <;> linarith
    unfold roundEven; rw [hf, if_neg (by push_cast; linarith), if_pos (by push_cast; linarith)]; ring

lemma roundEven_tie (q : ℚ) (n : ℤ) (he : n % 2 = 0) (h : q = n + 1/2 ∨ q = n - 1/2) : roundEven q = n := by
  rcases h with h | h
  · have hf : ⌊q⌋ = n := by rw [Int.floor_eq_iff]; constructor <;> linarith
    unfold roundEven
    rw [hf, if_neg (by linarith), if_neg (by linarith), if_pos he]
  · have hf : ⌊q⌋ = n - 1 := by rw [Int.floor_eq_iff]; push_cast; constructor <;> linarith
    unfold roundEven
    rw [hf, if_neg (by push_cast; linarith), if_neg (by push_cast; linarith), if_neg (by omega)]; ring

/-- Relative error of one rounding. -/
lemma rnd_err (p : ℕ) (x : ℚ) : |rnd p x - x| ≤ |x| / 2 ^ p := by
  unfold rnd
  split_ifs with h
  · simp [h]
  · have hx : 0 < |x| := abs_pos.mpr h
    set e := Int.log 2 |x| with he
    have hlow : (2:ℚ) ^ e ≤ |x| := by
      have := Int.zpow_log_le_self (b := 2) (by norm_num) hx
      simpa using this
    have hpos : (0:ℚ) < 2 ^ (e - ((p:ℤ) - 1)) := by positivity
    have hinv : (2:ℚ) ^ ((p : ℤ) - 1 - e) * 2 ^ (e - ((p:ℤ) - 1)) = 1 := by
      rw [← zpow_add₀ (by norm_num)]; simp
    have herr := roundEven_err (x * 2 ^ ((p : ℤ) - 1 - e))
    have : (roundEven (x * 2 ^ ((p : ℤ) - 1 - e)) : ℚ) * 2 ^ (e - ((p:ℤ) - 1)) - x
        = ((roundEven (x * 2 ^ ((p : ℤ) - 1 - e)) : ℚ) - x * 2 ^ ((p : ℤ) - 1 - e)) * 2 ^ (e - ((p:ℤ) - 1)) := by
      rw [sub_mul, mul_assoc, hinv, mul_one]
    rw [this, abs_mul, abs_of_pos hpos]
    have h3 : (2:ℚ) ^ (e - ((p:ℤ) - 1)) = 2 ^ e * 2 / 2 ^ p := by
      rw [show e - ((p:ℤ) - 1) = e + 1 - (p:ℤ) by ring, zpow_sub₀ (by norm_num), zpow_add₀ (by norm_num)]
      simp
    calc _ ≤ 1/2 * (2:ℚ) ^ (e - ((p:ℤ) - 1)) := mul_le_mul_of_nonneg_right herr hpos.le
      _ = 2 ^ e / 2 ^ p := by rw [h3]; ring
      _ ≤ |x| / 2 ^ p := by gcongr

/-- Evaluation of a rounding from the binade of its argument. -/
lemma rnd_eval (p : ℕ) (x : ℚ) (e : ℤ) (h1 : (2:ℚ) ^ e ≤ |x|) (h2 : |x| < 2 ^ (e + 1)) :
    rnd p x = (roundEven (x * 2 ^ ((p : ℤ) - 1 - e)) : ℚ) * 2 ^ (e - ((p : ℤ) - 1)) := by
  have hx : 0 < |x| := lt_of_lt_of_le (by positivity) h1
  have hlog : Int.log 2 |x| = e := by
    apply le_antisymm
    · have := (Int.lt_zpow_iff_log_lt (b := 2) (by norm_num) hx (x := e + 1)).1 (by simpa using h2)
      omega
    · exact (Int.zpow_le_iff_le_log (b := 2) (by norm_num) hx).1 (by simpa using h1)
  unfold rnd
  rw [if_neg (by simpa using hx.ne'), hlog]

/-- Integers of at most `p` bits (and `±2^p`) are represented exactly. -/
lemma rnd_int (p : ℕ) (hp : 1 ≤ p) (n : ℤ) (h : |n| ≤ 2 ^ p) : rnd p (n : ℚ) = n := by
  unfold rnd
  split_ifs with h0
  · rw [h0]
  · have hx : 0 < |(n:ℚ)| := abs_pos.mpr h0
    have hle : |(n:ℚ)| ≤ 2 ^ p := by exact_mod_cast h
    set e := Int.log 2 |(n:ℚ)| with he
    have hlow : (2:ℚ) ^ e ≤ |(n:ℚ)| := by
      have := Int.zpow_log_le_self (b := 2) (by norm_num) hx
      simpa using this
    have hep : e ≤ p := by
      by_contra hlt
      push Not at hlt
      have h1 : (2:ℚ) ^ (p:ℤ) < 2 ^ e := zpow_lt_zpow_right₀ (by norm_num) hlt
      rw [zpow_natCast] at h1
      linarith
    have hinv : (2:ℚ) ^ ((p : ℤ) - 1 - e) * 2 ^ (e - ((p:ℤ) - 1)) = 1 := by
      rw [← zpow_add₀ (by norm_num)]; simp
    have hint : ∃ z : ℤ, (n:ℚ) * 2 ^ ((p : ℤ) - 1 - e) = z := by
      rcases lt_or_eq_of_le hep with hlt | heq
      · refine ⟨n * 2 ^ ((p : ℤ) - 1 - e).toNat, ?_⟩
        push_cast
        congr 1
        rw [← zpow_natCast, Int.toNat_of_nonneg (by omega)]
      · -- |n| = 2^p
        have hn : |(n:ℚ)| = 2 ^ p := le_antisymm hle (by rw [← zpow_natCast, ← heq]; exact hlow)
        have hn' : |n| = 2 ^ p := by exact_mod_cast hn
        rcases p with _ | p
        · -- p = 0 : e = 0 and |n| = 1, no integer below: handled by contradiction-free computation
          exfalso
          omega
        · rcases abs_eq (show (0:ℤ) ≤ 2 ^ (p+1) by positivity) |>.1 hn' with h1 | h1
          · refine ⟨2 ^ p, ?_⟩
            rw [h1, heq]; push_cast
            rw [show ((p:ℤ) + 1 - 1 - (p + 1)) = -1 by ring, zpow_neg_one, pow_succ]; field_simp
          · refine ⟨-2 ^ p, ?_⟩
            rw [h1, heq]; push_cast
            rw [show ((p:ℤ) + 1 - 1 - (p + 1)) = -1 by ring, zpow_neg_one, pow_succ]; field_simp
    obtain ⟨z, hz⟩ := hint
    rw [hz, roundEven_int, ← hz, mul_assoc, hinv, mul_one]

lemma roundEven_neg (q : ℚ) : roundEven (-q) = - roundEven q := by
  have h1 := Int.floor_le q
  have h2 := Int.lt_floor_add_one q
  by_cases a : q - ⌊q⌋ < 1/2
  · have e : roundEven q = ⌊q⌋ := by unfold roundEven; rw [if_pos a]
    rw [e]; apply roundEven_of_lt; push_cast; rw [abs_lt]; constructor <;> linarith
  · by_cases b : 1/2 < q - ⌊q⌋
    · have e : roundEven q = ⌊q⌋ + 1 := by unfold roundEven; rw [if_neg a, if_pos b]
      rw [e]; apply roundEven_of_lt; push_cast; rw [abs_lt]; constructor <;> linarith
    · have ht : q = ⌊q⌋ + 1/2 := by linarith
      by_cases c : ⌊q⌋ % 2 = 0
      · have e : roundEven q = ⌊q⌋ := by unfold roundEven; rw [if_neg a, if_neg b, if_pos c]
        rw [e]; apply roundEven_tie _ _ (by omega); right; push_cast; linarith
      · have e : roundEven q = ⌊q⌋ + 1 := by unfold roundEven; rw [if_neg a, if_neg b, if_neg c]
        rw [e]; apply roundEven_tie _ _ (by omega); left; push_cast; linarith

lemma rnd_neg (p : ℕ) (x : ℚ) : rnd p (-x) = - rnd p x := by
  unfold rnd
  by_cases h : x = 0
  · simp [h]
  · rw [if_neg h, if_neg (by simpa using h), abs_neg, neg_mul, roundEven_neg]; push_cast; ring

lemma le_roundEven (n : ℤ) (q : ℚ) (h : (n:ℚ) ≤ q) : n ≤ roundEven q := by
  have := abs_le.1 (roundEven_err q)
  by_contra hlt
  push Not at hlt
  have : (roundEven q : ℚ) ≤ n - 1 := by exact_mod_cast Int.le_sub_one_of_lt hlt
  linarith

lemma roundEven_le (n : ℤ) (q : ℚ) (h : q ≤ (n:ℚ)) : roundEven q ≤ n := by
  have := abs_le.1 (roundEven_err q)
  by_contra hlt
  push Not at hlt
  have : (n : ℚ) + 1 ≤ roundEven q := by exact_mod_cast hlt
  linarith

lemma rnd_zero (p : ℕ) : rnd p 0 = 0 := by simp [rnd]

lemma rnd_nonneg (p : ℕ) (x : ℚ) (h : 0 ≤ x) : 0 ≤ rnd p x := by
  unfold rnd
  split_ifs
  · exact le_rfl
  · have := le_roundEven 0 (x * 2 ^ ((p : ℤ) - 1 - Int.log 2 |x|)) (by push_cast; positivity)
    have h' : (0:ℚ) ≤ (roundEven (x * 2 ^ ((p : ℤ) - 1 - Int.log 2 |x|)) : ℚ) := by exact_mod_cast this
    positivity

/-- The binade of a positive rational. -/
lemma exists_binade (x : ℚ) (h : 0 < x) : ∃ l : ℤ, (2:ℚ) ^ l ≤ x ∧ x < 2 ^ (l + 1) := by
  refine ⟨Int.log 2 x, ?_, ?_⟩
  · simpa using Int.zpow_log_le_self (b := 2) (by norm_num) h
  · simpa using Int.lt_zpow_succ_log_self (b := 2) (by norm_num) x

lemma rnd_pow (p : ℕ) (hp : 1 ≤ p) (e : ℤ) : rnd p ((2:ℚ) ^ e) = 2 ^ e := by
  have hpos : (0:ℚ) < 2 ^ e := by positivity
  have h2 : (2:ℚ) ^ (e + 1) = 2 ^ e * 2 := by rw [zpow_add₀ (by norm_num)]; simp
  rw [rnd_eval p _ e (by rw [abs_of_pos hpos]) (by rw [abs_of_pos hpos, h2]; linarith)]
  rw [← zpow_add₀ (by norm_num), show e + ((p:ℤ) - 1 - e) = ((p - 1 : ℕ) : ℤ) by omega, zpow_natCast]
  rw [show ((2:ℚ) ^ (p-1)) = (((2:ℤ) ^ (p-1) : ℤ) : ℚ) by push_cast; rfl, roundEven_int]
  push_cast
  rw [← zpow_natCast, ← zpow_add₀ (by norm_num)]; congr 1; omega

lemma rnd_ge_pow (p : ℕ) (hp : 1 ≤ p) (x : ℚ) (e : ℤ) (h : (2:ℚ) ^ e ≤ x) : (2:ℚ) ^ e ≤ rnd p x := by
  have hx : 0 < x := lt_of_lt_of_le (by positivity) h
  obtain ⟨l, h1, h2⟩ := exists_binade x hx
  have hel : e ≤ l := by
    have : (2:ℚ) ^ e < 2 ^ (l + 1) := lt_of_le_of_lt h h2
    have := (zpow_lt_zpow_iff_right₀ (by norm_num : (1:ℚ) < 2)).1 this
    omega
  rw [rnd_eval p x l (by rwa [abs_of_pos hx]) (by rwa [abs_of_pos hx])]
  have h3 : (((2:ℤ) ^ (p-1) : ℤ) : ℚ) ≤ x * 2 ^ ((p:ℤ) - 1 - l) := by
    have : (((2:ℤ) ^ (p-1) : ℤ) : ℚ) = 2 ^ l * 2 ^ ((p:ℤ) - 1 - l) := by
      rw [← zpow_add₀ (by norm_num)]; push_cast; rw [← zpow_natCast]; congr 1; omega
    rw [this]; gcongr
  have h4 := le_roundEven _ _ h3
  have h5 : (((2:ℤ) ^ (p-1) : ℤ) : ℚ) ≤ (roundEven (x * 2 ^ ((p:ℤ) - 1 - l)) : ℚ) := by exact_mod_cast h4
  calc (2:ℚ) ^ e ≤ 2 ^ l := zpow_le_zpow_right₀ (by norm_num) hel
    _ = (((2:ℤ) ^ (p-1) : ℤ) : ℚ) * 2 ^ (l - ((p:ℤ) - 1)) := by
        push_cast; rw [← zpow_natCast, ← zpow_add₀ (by norm_num)]; congr 1; omega
    _ ≤ _ := by gcongr

lemma rnd_le_pow (p : ℕ) (hp : 1 ≤ p) (x : ℚ) (e : ℤ) (h0 : 0 ≤ x) (h : x ≤ (2:ℚ) ^ e) : rnd p x ≤ (2:ℚ) ^ e := by
  rcases h0.eq_or_lt with rfl | hx
  · rw [rnd_zero]; positivity
  rcases h.eq_or_lt with rfl | hlt
  · rw [rnd_pow p hp]
  obtain ⟨l, h1, h2⟩ := exists_binade x hx
  have hel : l < e := (zpow_lt_zpow_iff_right₀ (by norm_num : (1:ℚ) < 2)).1 (lt_of_le_of_lt h1 hlt)
  rw [rnd_eval p x l (by rwa [abs_of_pos hx]) (by rwa [abs_of_pos hx])]
  have h3 : x * 2 ^ ((p:ℤ) - 1 - l) ≤ (((2:ℤ) ^ p : ℤ) : ℚ) := by
    have : (((2:ℤ) ^ p : ℤ) : ℚ) = 2 ^ (l + 1) * 2 ^ ((p:ℤ) - 1 - l) := by
      rw [← zpow_add₀ (by norm_num)]; push_cast; rw [← zpow_natCast]; congr 1; ring
    rw [this]; gcongr
  have h4 := roundEven_le _ _ h3
  have h5 : (roundEven (x * 2 ^ ((p:ℤ) - 1 - l)) : ℚ) ≤ (((2:ℤ) ^ p : ℤ) : ℚ) := by exact_mod_cast h4
  calc _ ≤ (((2:ℤ) ^ p : ℤ) : ℚ) * 2 ^ (l - ((p:ℤ) - 1)) := by gcongr
    _ = (2:ℚ) ^ (l + 1) := by
        push_cast; rw [← zpow_natCast, ← zpow_add₀ (by norm_num)]; congr 1; ring
    _ ≤ 2 ^ e := zpow_le_zpow_right₀ (by norm_num) (by omega)

/-- Error of one rounding in terms of the binade. -/
lemma rnd_err_binade (p : ℕ) (x : ℚ) (l : ℤ) (h1 : (2:ℚ) ^ l ≤ x) (h2 : x < 2 ^ (l + 1)) :
    |rnd p x - x| ≤ 2 ^ l / 2 ^ p := by
  have hx : 0 < x := lt_of_lt_of_le (by positivity) h1
  rw [rnd_eval p x l (by rwa [abs_of_pos hx]) (by rwa [abs_of_pos hx])]
  have hinv : (2:ℚ) ^ ((p : ℤ) - 1 - l) * 2 ^ (l - ((p:ℤ) - 1)) = 1 := by
    rw [← zpow_add₀ (by norm_num)]; simp
  have herr := roundEven_err (x * 2 ^ ((p : ℤ) - 1 - l))
  have hpos : (0:ℚ) < 2 ^ (l - ((p:ℤ) - 1)) := by positivity
  have : (roundEven (x * 2 ^ ((p : ℤ) - 1 - l)) : ℚ) * 2 ^ (l - ((p:ℤ) - 1)) - x
      = ((roundEven (x * 2 ^ ((p : ℤ) - 1 - l)) : ℚ) - x * 2 ^ ((p : ℤ) - 1 - l)) * 2 ^ (l - ((p:ℤ) - 1)) := by
    rw [sub_mul, mul_assoc, hinv, mul_one]
  rw [this, abs_mul, abs_of_pos hpos]
  have h3 : (2:ℚ) ^ (l - ((p:ℤ) - 1)) = 2 ^ l * 2 / 2 ^ p := by
    rw [show l - ((p:ℤ) - 1) = l + 1 - (p:ℤ) by ring, zpow_sub₀ (by norm_num), zpow_add₀ (by norm_num)]
    simp
  calc _ ≤ 1/2 * (2:ℚ) ^ (l - ((p:ℤ) - 1)) := mul_le_mul_of_nonneg_right herr hpos.le
    _ = 2 ^ l / 2 ^ p := by rw [h3]; ring

/-- An integer below a rounded quotient of `p`-bit integers is below the exact quotient. -/
lemma mul_le_of_le_rnd_div (p : ℕ) (hp : 1 ≤ p) (a d k : ℤ) (ha : 0 ≤ a) (ha' : a ≤ 2 ^ p) (hd : 0 < d)
    (hk : (k:ℚ) ≤ rnd p ((a:ℚ) / d)) : k * d ≤ a := by
  by_contra hlt
  push Not at hlt
  have hdq : (0:ℚ) < d := by exact_mod_cast hd
  rcases ha.eq_or_lt with rfl | hapos
  · simp [rnd_zero] at hk
    have : (k:ℤ) ≤ 0 := by exact_mod_cast hk
    nlinarith
  have haq : (0:ℚ) < a := by exact_mod_cast hapos
  have hq : 0 < (a:ℚ) / d := by positivity
  obtain ⟨l, h1, h2⟩ := exists_binade _ hq
  have herr := (abs_le.1 (rnd_err_binade p _ l h1 h2)).2
  have hlt' : (a:ℚ) + 1 ≤ k * d := by exact_mod_cast hlt
  have hkd : (a:ℚ) / d + 1 / d ≤ k := by rw [← add_div, div_le_iff₀ hdq]; exact hlt'
  have hle : 1 / (d:ℚ) ≤ 2 ^ l / 2 ^ p := by linarith
  have hpp : (0:ℚ) < 2 ^ p := by positivity
  have hle2 : (2:ℚ) ^ p / d ≤ 2 ^ l := by
    rw [div_le_div_iff₀ hdq hpp] at hle
    rw [div_le_iff₀ hdq]; linarith
  have haq' : (a:ℚ) ≤ 2 ^ p := by exact_mod_cast ha'
  have : (a:ℚ) / d = 2 ^ l := by
    apply le_antisymm _ h1
    calc (a:ℚ) / d ≤ 2 ^ p / d := by gcongr
      _ ≤ _ := hle2
  rw [this, rnd_pow p hp, ← this] at hk
  have : (0:ℚ) < 1 / d := by positivity
  linarith

lemma roundEven_mono (q r : ℚ) (h : q ≤ r) : roundEven q ≤ roundEven r := by
  have hf : ⌊q⌋ ≤ ⌊r⌋ := Int.floor_le_floor h
  have h2 := Int.lt_floor_add_one q
  rcases hf.eq_or_lt with he | hlt
  · unfold roundEven
    rw [← he]
    split_ifs <;> first | omega | (exfalso; linarith)
  · have e1 : roundEven q ≤ ⌊q⌋ + 1 := roundEven_le _ _ (by push_cast; linarith)
    have e2 : ⌊r⌋ ≤ roundEven r := le_roundEven _ _ (Int.floor_le r)
    omega

lemma rnd_mono_pos (p : ℕ) (hp : 1 ≤ p) (x y : ℚ) (hx : 0 < x) (h : x ≤ y) : rnd p x ≤ rnd p y := by
  have hy : 0 < y := lt_of_lt_of_le hx h
  obtain ⟨l, h1, h2⟩ := exists_binade x hx
  obtain ⟨l', h1', h2'⟩ := exists_binade y hy
  have hll : l ≤ l' := by
    have := (zpow_lt_zpow_iff_right₀ (by norm_num : (1:ℚ) < 2)).1 (lt_of_le_of_lt (h1.trans h) h2')
    omega
  rcases hll.eq_or_lt with rfl | hlt
  · rw [rnd_eval p x l (by rwa [abs_of_pos hx]) (by rwa [abs_of_pos hx]),
      rnd_eval p y l (by rwa [abs_of_pos hy]) (by rwa [abs_of_pos hy])]
    have := roundEven_mono (x * 2 ^ ((p : ℤ) - 1 - l)) (y * 2 ^ ((p : ℤ) - 1 - l)) (by gcongr)
    gcongr
  · calc rnd p x ≤ 2 ^ (l + 1) := rnd_le_pow p hp x _ hx.le h2.le
      _ ≤ 2 ^ l' := zpow_le_zpow_right₀ (by norm_num) (by omega)
      _ ≤ rnd p y := rnd_ge_pow p hp y _ h1'

lemma rnd_mono (p : ℕ) (hp : 1 ≤ p) (x y : ℚ) (h : x ≤ y) : rnd p x ≤ rnd p y := by
  have nonpos : ∀ z : ℚ, z ≤ 0 → rnd p z ≤ 0 := by
    intro z hz
    have := rnd_nonneg p (-z) (by linarith)
    rw [rnd_neg] at this; linarith
  rcases lt_or_ge 0 x with hx | hx
  · exact rnd_mono_pos p hp x y hx h
  · rcases lt_or_ge y 0 with hy | hy
    · have := rnd_mono_pos p hp (-y) (-x) (by linarith) (by linarith)
      rw [rnd_neg, rnd_neg] at this; linarith
    · exact (nonpos x hx).trans (rnd_nonneg p y hy)

end Verif.FP
