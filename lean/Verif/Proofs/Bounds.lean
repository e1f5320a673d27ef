import Verif.Model.Bounds
import Mathlib.Algebra.Order.BigOperators.Group.Finset
import Mathlib.Algebra.BigOperators.Ring.Finset
import Mathlib.Tactic.GCongr

namespace Verif.Bounds
open Verif Verif.FP Finset

/-! ### Sums of bounded products -/

lemma abs_sum_mul_le {ι : Type} (S : Finset ι) (x y : ι → ℤ) (X Y : ℤ) (hX : 0 ≤ X)
    (hx : ∀ i ∈ S, |x i| ≤ X) (hy : ∀ i ∈ S, |y i| ≤ Y) : |∑ i ∈ S, x i * y i| ≤ S.card * (X * Y) := by
  calc |∑ i ∈ S, x i * y i| ≤ ∑ i ∈ S, |x i * y i| := abs_sum_le_sum_abs _ _
    _ ≤ ∑ _i ∈ S, X * Y := by
        apply sum_le_sum; intro i hi; rw [abs_mul]
        exact mul_le_mul (hx i hi) (hy i hi) (abs_nonneg _) hX
    _ = _ := by simp

/-! ### DotProdBoundClassic -/

/-- Largest absolute value of a reduced element. -/
def cInt (balanced : Bool) (p : ℕ) : ℕ := if balanced then (p - 1) / 2 else p - 1

lemma factor_exact (balanced : Bool) (p : ℕ) (hp : p ≤ 2 ^ 53) :
    computeFactorClassic balanced p = (cInt balanced p : ℚ) := by
  unfold computeFactorClassic cInt
  cases balanced
  · have := rnd_int 53 (by norm_num) ((p - 1 : ℕ) : ℤ) (by rw [abs_of_nonneg (by positivity)]; norm_cast; omega)
    simpa using this
  · have := rnd_int 53 (by norm_num) (((p - 1) / 2 : ℕ) : ℤ) (by rw [abs_of_nonneg (by positivity)]; norm_cast; omega)
    rw [if_pos rfl]
    exact_mod_cast this

/-- Multiple of `c` reserved for the `beta*C` term. -/
def betaMag (balanced : Bool) (p : ℕ) (beta : ℤ) : ℤ :=
  if beta = 0 then 0 else if beta = 1 ∨ beta = mOne balanced p then 1 else |beta|

lemma rnd_lt_of_large (x : ℚ) (hx : (2:ℚ)^53 ≤ x) : (2:ℚ) ^ 53 ≤ rnd 53 x := by
  have := rnd_ge_pow 53 (by norm_num) x 53 (by exact_mod_cast hx)
  exact_mod_cast this

lemma dotProd_spec (sizeMax : ℕ) (balanced : Bool) (p prec : ℕ) (hp : 1 ≤ p) (hp' : p ≤ 2 ^ 53) (hprec : prec ≤ 53)
    (beta : ℤ) (hb : |beta| ≤ cInt balanced p) (k : ℕ) (hk : 1 < k)
    (h : dotProdBoundClassic sizeMax balanced p (2 ^ prec - 1) beta = .ok k) :
    betaMag balanced p beta * cInt balanced p + k * (cInt balanced p * cInt balanced p) ≤ 2 ^ prec := by
  unfold dotProdBoundClassic at h
  rw [if_neg (by omega)] at h
  simp only [factor_exact balanced p hp'] at h
  set c := cInt balanced p with hc
  have hcp : c ≤ 2 ^ 53 := by rw [hc]; unfold cInt; split_ifs <;> omega
  have hpow : (2:ℤ) ^ prec ≤ 2 ^ 53 := pow_le_pow_right₀ (by norm_num) hprec
  have hpow0 : (1:ℤ) ≤ 2 ^ prec := one_le_pow₀ (by norm_num)
  have hL : rnd 53 (rnd 53 (((2 ^ prec - 1 : ℤ)) : ℚ) + 1) = ((2 ^ prec : ℤ) : ℚ) := by
    rw [rnd_int 53 (by norm_num) _ (by rw [abs_of_nonneg (by linarith)]; linarith)]
    rw [show (((2 ^ prec - 1 : ℤ) : ℚ) + 1) = ((2 ^ prec : ℤ) : ℚ) by push_cast; ring]
    rw [rnd_int 53 (by norm_num) _ (by rw [abs_of_nonneg (by linarith)]; linarith)]
  rw [hL] at h
  have hbq : rnd 53 (beta : ℚ) = beta := rnd_int 53 (by norm_num) _ (by
    have : ((c:ℕ):ℤ) ≤ 2 ^ 53 := by exact_mod_cast hcp
    linarith)
  rw [hbq] at h
  by_cases hcc : (c:ℤ) * c ≤ 2 ^ 53
  · -- everything is exact, except the last division
    have hbc : |beta| * c ≤ (c:ℤ) * c := by gcongr
    have hcc1 : (c:ℤ) ≤ c * c := by
      rcases Nat.eq_zero_or_pos c with h0 | h0
      · simp [h0]
      · have : (1:ℤ) ≤ c := by exact_mod_cast h0
        nlinarith
    have hcplt : (if beta = 0 then (0:ℚ) else if beta = 1 ∨ beta = mOne balanced p then (c:ℚ)
        else rnd 53 (|(beta:ℚ)| * c)) = ((betaMag balanced p beta * c : ℤ) : ℚ) := by
      unfold betaMag
      split_ifs
      · simp
      · simp
      · have : (|(beta:ℚ)| * c) = ((|beta| * c : ℤ) : ℚ) := by push_cast; rfl
        rw [this]
        apply rnd_int 53 (by norm_num); rw [abs_of_nonneg (by positivity)]; linarith
    rw [hcplt] at h
    have hbm : 0 ≤ betaMag balanced p beta * c ∧ betaMag balanced p beta * c ≤ (c:ℤ) * c := by
      unfold betaMag
      split_ifs
      · simp; positivity
      · simpa using hcc1
      · exact ⟨by positivity, hbc⟩
    have hnum : rnd 53 (((2 ^ prec : ℤ) : ℚ) - ((betaMag balanced p beta * c : ℤ) : ℚ))
        = ((2 ^ prec - betaMag balanced p beta * c : ℤ) : ℚ) := by
      rw [← rnd_int 53 (by norm_num) (2 ^ prec - betaMag balanced p beta * c)]
      · congr 1; push_cast; ring
      · rw [abs_le]; constructor <;> linarith
    have hden : rnd 53 ((c:ℚ) * c) = ((c * c : ℤ) : ℚ) := by
      rw [← rnd_int 53 (by norm_num) ((c:ℤ) * c)]
      · congr 1; push_cast; ring
      · rw [abs_of_nonneg (by positivity)]; exact hcc
    rw [hnum, hden] at h
    by_cases hc0 : c = 0
    · simp [hc0] at h
    have hcpos : (0:ℤ) < c * c := by positivity
    rw [if_neg (by exact_mod_cast hcpos.ne')] at h
    split_ifs at h with h1
    · simp at h; omega
    · simp only [Except.ok.injEq] at h
      push Not at h1
      set q := ⌊rnd 53 (((2 ^ prec - betaMag balanced p beta * c : ℤ) : ℚ) / ((c * c : ℤ) : ℚ))⌋ with hq
      have hkq : (k:ℤ) ≤ q := by
        rw [← h]; push_cast
        exact (min_le_left _ _).trans (by omega)
      have hfl : (q:ℚ) ≤ rnd 53 (((2 ^ prec - betaMag balanced p beta * c : ℤ) : ℚ) / ((c * c : ℤ) : ℚ)) :=
        Int.floor_le _
      have hnn : 0 ≤ 2 ^ prec - betaMag balanced p beta * c := by
        by_contra hneg
        push Not at hneg
        have : rnd 53 (((2 ^ prec - betaMag balanced p beta * c : ℤ) : ℚ) / ((c * c : ℤ) : ℚ)) ≤ 0 := by
          rw [← neg_nonneg, ← rnd_neg]
          apply rnd_nonneg
          rw [← neg_div]
          apply div_nonneg
          · rw [neg_nonneg]; exact_mod_cast hneg.le
          · exact_mod_cast hcpos.le
        have : (q:ℚ) ≤ 0 := hfl.trans this
        have : q ≤ 0 := by exact_mod_cast this
        omega
      have := mul_le_of_le_rnd_div 53 (by norm_num) _ (c * c) q hnn (by linarith) hcpos hfl
      have h3 : (k:ℤ) * (c * c) ≤ q * (c * c) := by gcongr
      linarith
  · -- `c*c > 2^53`: the quotient is below 2
    exfalso
    push Not at hcc
    have hccq : (2:ℚ) ^ 53 ≤ (c:ℚ) * c := by exact_mod_cast hcc.le
    have hden := rnd_lt_of_large _ hccq
    have hdpos : (0:ℚ) < rnd 53 ((c:ℚ) * c) := lt_of_lt_of_le (by positivity) hden
    rw [if_neg hdpos.ne'] at h
    set cplt : ℚ := (if beta = 0 then (0:ℚ) else if beta = 1 ∨ beta = mOne balanced p then (c:ℚ)
        else rnd 53 (|(beta:ℚ)| * c)) with hcplt
    have hcplt0 : 0 ≤ cplt := by
      rw [hcplt]; split_ifs
      · exact le_rfl
      · positivity
      · apply rnd_nonneg; positivity
    have hnum : rnd 53 (((2 ^ prec : ℤ) : ℚ) - cplt) ≤ 2 ^ 53 := by
      by_cases hs : 0 ≤ ((2 ^ prec : ℤ) : ℚ) - cplt
      · have : ((2 ^ prec : ℤ) : ℚ) ≤ 2 ^ 53 := by exact_mod_cast hpow
        have := rnd_le_pow 53 (by norm_num) _ 53 hs (by
          rw [show (2:ℚ) ^ (53:ℤ) = 2 ^ 53 by norm_num]; linarith)
        exact_mod_cast this
      · push Not at hs
        have : rnd 53 (((2 ^ prec : ℤ) : ℚ) - cplt) ≤ 0 := by
          rw [← neg_nonneg, ← rnd_neg]; apply rnd_nonneg; linarith
        linarith [show (0:ℚ) ≤ 2 ^ 53 by positivity]
    have hquo : rnd 53 (rnd 53 (((2 ^ prec : ℤ) : ℚ) - cplt) / rnd 53 ((c:ℚ) * c)) ≤ 1 := by
      by_cases hs : 0 ≤ rnd 53 (((2 ^ prec : ℤ) : ℚ) - cplt)
      · have := rnd_le_pow 53 (by norm_num) (rnd 53 (((2 ^ prec : ℤ) : ℚ) - cplt) / rnd 53 ((c:ℚ) * c)) 0 (by positivity)
          (by rw [zpow_zero, div_le_one hdpos]; linarith)
        simpa using this
      · push Not at hs
        have : rnd 53 (rnd 53 (((2 ^ prec : ℤ) : ℚ) - cplt) / rnd 53 ((c:ℚ) * c)) ≤ 0 := by
          rw [← neg_nonneg, ← rnd_neg]; apply rnd_nonneg
          rw [← neg_div]; apply div_nonneg (by linarith) hdpos.le
        linarith
    rw [if_pos] at h
    · simp at h; omega
    · have := (Int.floor_le (rnd 53 (rnd 53 (((2 ^ prec : ℤ) : ℚ) - cplt) / rnd 53 ((c:ℚ) * c)))).trans hquo
      exact_mod_cast this

/-! ### TRSMBound -/

lemma rnd_nat_of_lt (x : ℕ) (h : rnd 53 (x:ℚ) < 2 ^ 53) : rnd 53 (x:ℚ) = x ∧ x < 2 ^ 53 := by
  have hx : (x:ℚ) < 2 ^ 53 := by
    by_contra hge
    push Not at hge
    have := rnd_lt_of_large _ hge
    linarith
  have hx' : x < 2 ^ 53 := by exact_mod_cast hx
  refine ⟨?_, hx'⟩
  have := rnd_int 53 (by norm_num) (x:ℤ) (by rw [abs_of_nonneg (by positivity)]; exact_mod_cast hx'.le)
  simpa using this

/-- Loop invariant: the power is the rounding of the exact power of the exact predecessor. -/
lemma trsmBal_spec (p : ℕ) (L : ℤ) (hL : L < 2 ^ 53) (hp : 3 ≤ p) (fuel : ℕ) :
    ∀ (i : ℕ) (p1 : ℚ) (r : ℕ), p1 = rnd 53 ((((p + 1) / 2) ^ i : ℕ) : ℚ) →
      trsmLoopBal p L fuel p1 i = some r → i ≤ r ∧
      (∀ j, i ≤ j → j < r → (((p - 1) / 2 : ℕ) : ℤ) * ((p + 1) / 2 : ℕ) ^ j ≤ L) := by
  induction fuel with
  | zero => intro i p1 r _ h; simp [trsmLoopBal] at h
  | succ fuel ih =>
    intro i p1 r hp1 h
    have hLq : (L:ℚ) < 2 ^ 53 := by exact_mod_cast hL
    unfold trsmLoopBal at h
    split_ifs at h with hcond
    · have hpm : 1 ≤ (p - 1) / 2 := by omega
      have h1 : rnd 53 ((((p - 1) / 2 : ℕ) : ℚ) * p1) < 2 ^ 53 := lt_of_le_of_lt hcond hLq
      have hprod : (((p - 1) / 2 : ℕ) : ℚ) * p1 < 2 ^ 53 := by
        by_contra hge; push Not at hge
        have := rnd_lt_of_large _ hge; linarith
      have hp1lt : p1 < 2 ^ 53 := by
        have : (0:ℚ) ≤ p1 := by rw [hp1]; apply rnd_nonneg; positivity
        have h2 : (1:ℚ) ≤ (((p - 1) / 2 : ℕ) : ℚ) := by exact_mod_cast hpm
        nlinarith
      obtain ⟨hex, hlt⟩ := rnd_nat_of_lt _ (hp1 ▸ hp1lt)
      rw [hex] at hp1
      have hexact : ((((p - 1) / 2) * ((p + 1) / 2) ^ i : ℕ) : ℚ) = (((p - 1) / 2 : ℕ) : ℚ) * p1 := by
        rw [hp1]; push_cast; ring
      have hex2 := rnd_nat_of_lt (((p - 1) / 2) * ((p + 1) / 2) ^ i) (by rw [hexact]; exact h1)
      rw [← hexact, hex2.1] at hcond
      have hstep := ih (i+1) _ r (by
        rw [hp1]; congr 1; rw [pow_succ]; push_cast; ring) h
      refine ⟨by omega, ?_⟩
      intro j hj1 hj2
      rcases Nat.eq_or_lt_of_le hj1 with rfl | hlt'
      · have : (((((p - 1) / 2 * ((p + 1) / 2) ^ i : ℕ) : ℤ)) : ℚ) ≤ (L:ℚ) := by rw [Int.cast_natCast]; exact hcond
        have := Int.cast_le.1 this
        rwa [Nat.cast_mul, Nat.cast_pow] at this
      · exact hstep.2 j hlt' hj2
    · simp at h
      refine ⟨h.le, ?_⟩
      intro j h1 h2; omega

lemma trsmBal_terminates (p : ℕ) (L : ℤ) (hL : L < 2 ^ 53) (hp : 3 ≤ p) (fuel : ℕ) :
    ∀ (i : ℕ) (p1 : ℚ), (2:ℚ) ^ i ≤ p1 → 54 < i + fuel → 1 ≤ fuel → (trsmLoopBal p L fuel p1 i).isSome := by
  induction fuel with
  | zero => intro i p1 _ _ h; omega
  | succ fuel ih =>
    intro i p1 h1 h2 _
    unfold trsmLoopBal
    split_ifs with hcond
    · by_cases hi : i ≤ 53
      · apply ih
        · have hpp : (2:ℚ) ≤ (((p + 1) / 2 : ℕ) : ℚ) := by
            have : 2 ≤ (p + 1) / 2 := by omega
            exact_mod_cast this
          have := rnd_ge_pow 53 (by norm_num) (p1 * (((p + 1) / 2 : ℕ) : ℚ)) ((i + 1 : ℕ) : ℤ)
            (by rw [zpow_natCast, pow_succ]
                have : (0:ℚ) ≤ p1 := le_trans (by positivity) h1
                gcongr)
          rwa [zpow_natCast] at this
        · omega
        · omega
      · exfalso
        have hpm : (1:ℚ) ≤ (((p - 1) / 2 : ℕ) : ℚ) := by
          have : 1 ≤ (p - 1) / 2 := by omega
          exact_mod_cast this
        have h3 : (2:ℚ) ^ 53 ≤ p1 := (pow_le_pow_right₀ (by norm_num) (by omega)).trans h1
        have h4 : (2:ℚ) ^ 53 ≤ (((p - 1) / 2 : ℕ) : ℚ) * p1 := by nlinarith
        have := rnd_lt_of_large _ h4
        have hLq : (L:ℚ) < 2 ^ 53 := by exact_mod_cast hL
        linarith
    · rfl

/-- `(p-1) * (p^i + (p-2)^i)` is even. -/
lemma even_prod (p i : ℕ) (hp : 2 ≤ p) : 2 ∣ (p ^ i + (p - 2) ^ i) * (p - 1) := by
  rcases Nat.even_or_odd p with h | h
  · apply Dvd.dvd.mul_right
    have h2 : Even (p - 2) := by rw [Nat.even_sub hp]; simp [h]
    rcases Nat.eq_zero_or_pos i with rfl | hi
    · simp
    · exact ((h.pow_of_ne_zero (by omega)).add (h2.pow_of_ne_zero (by omega))).two_dvd
  · apply Dvd.dvd.mul_left
    obtain ⟨t, ht⟩ := h
    exact ⟨t, by omega⟩

lemma trsmPos_spec (p : ℕ) (L : ℤ) (hL : L < 2 ^ 53) (hp : 2 ≤ p) (fuel : ℕ) :
    ∀ (i : ℕ) (p1 p2 : ℚ) (r : ℕ), p1 = rnd 53 ((p ^ i : ℕ) : ℚ) → p2 = rnd 53 (((p - 2) ^ i : ℕ) : ℚ) →
      trsmLoopPos p L fuel p1 p2 i = some r → i ≤ r ∧
      (∀ j, i ≤ j → j < r → ((p:ℤ) ^ j + ((p:ℤ) - 2) ^ j) * (p - 1) ≤ 2 * L) := by
  induction fuel with
  | zero => intro i p1 p2 r _ _ h; simp [trsmLoopPos] at h
  | succ fuel ih =>
    intro i p1 p2 r hp1 hp2 h
    have hLq : (L:ℚ) < 2 ^ 53 := by exact_mod_cast hL
    unfold trsmLoopPos at h
    split_ifs at h with hcond
    · have hp1n : (0:ℚ) ≤ p1 := by rw [hp1]; apply rnd_nonneg; positivity
      have hp2n : (0:ℚ) ≤ p2 := by rw [hp2]; apply rnd_nonneg; positivity
      have hpq : (2:ℚ) ≤ p := by exact_mod_cast hp
      have hsub : (((p - 2 : ℕ)) : ℚ) = (p:ℚ) - 2 := by push_cast [hp]; ring
      have hsub1 : (((p - 1 : ℕ)) : ℚ) = (p:ℚ) - 1 := by rw [Nat.cast_sub (by omega)]; simp
      -- the three powers and the test are exact
      have key : p1 = ((p ^ i : ℕ) : ℚ) ∧ p2 = (((p - 2) ^ i : ℕ) : ℚ) ∧
          rnd 53 (rnd 53 (p1 + p2) * (((p : ℚ) - 1) / 2)) = ((p ^ i + (p - 2) ^ i : ℕ) : ℚ) * ((p:ℚ) - 1) / 2 := by
        rcases Nat.eq_or_lt_of_le hp with rfl | hp3
        · -- p = 2: powers of two
          have e1 : p1 = (2:ℚ) ^ (i:ℤ) := by rw [hp1]; push_cast; rw [← zpow_natCast]; exact rnd_pow 53 (by norm_num) _
          rcases Nat.eq_zero_or_pos i with rfl | hi
          · have e2 : p2 = 1 := by
              rw [hp2]; simp; exact_mod_cast rnd_int 53 (by norm_num) 1 (by norm_num)
            refine ⟨by rw [e1]; simp, by rw [e2]; simp, ?_⟩
            rw [e1, e2]; norm_num
            have := rnd_int 53 (by norm_num) 2 (by norm_num)
            have h1 := rnd_int 53 (by norm_num) 1 (by norm_num)
            push_cast at this h1
            rw [this]; norm_num; exact h1
          · have e2 : p2 = 0 := by rw [hp2]; simp [hi.ne', rnd_zero]
            refine ⟨by rw [e1]; simp, by rw [e2]; simp [hi.ne'], ?_⟩
            rw [e1, e2, add_zero, rnd_pow 53 (by norm_num)]
            have : (2:ℚ) ^ (i:ℤ) * (((2:ℕ):ℚ) - 1) / 2 = 2 ^ ((i:ℤ) - 1) := by
              rw [zpow_sub₀ (by norm_num)]; push_cast; norm_num
            rw [show (2:ℚ) ^ (i:ℤ) * ((((2:ℕ):ℚ) - 1) / 2) = (2:ℚ) ^ (i:ℤ) * (((2:ℕ):ℚ) - 1) / 2 by ring, this,
              rnd_pow 53 (by norm_num), ← this]
            simp [hi.ne']
        · have hpm : (1:ℚ) ≤ ((p:ℚ) - 1) / 2 := by
            have : (3:ℚ) ≤ p := by exact_mod_cast hp3
            linarith
          have hrn : 0 ≤ rnd 53 (p1 + p2) := rnd_nonneg _ _ (by linarith)
          have h1 : rnd 53 (rnd 53 (p1 + p2) * (((p : ℚ) - 1) / 2)) < 2 ^ 53 := lt_of_le_of_lt hcond hLq
          have h2 : rnd 53 (p1 + p2) * (((p : ℚ) - 1) / 2) < 2 ^ 53 := by
            by_contra hge; push Not at hge
            have := rnd_lt_of_large _ hge; linarith
          have h3 : rnd 53 (p1 + p2) < 2 ^ 53 := by nlinarith
          have h4 : p1 + p2 < 2 ^ 53 := by
            by_contra hge; push Not at hge
            have := rnd_lt_of_large _ hge; linarith
          obtain ⟨e1, _⟩ := rnd_nat_of_lt (p ^ i) (by rw [← hp1]; linarith)
          obtain ⟨e2, _⟩ := rnd_nat_of_lt ((p - 2) ^ i) (by rw [← hp2]; linarith)
          rw [e1] at hp1; rw [e2] at hp2
          have e3 : p1 + p2 = ((p ^ i + (p - 2) ^ i : ℕ) : ℚ) := by rw [hp1, hp2]; push_cast; ring
          obtain ⟨e4, _⟩ := rnd_nat_of_lt (p ^ i + (p - 2) ^ i) (by rw [← e3]; exact h3)
          refine ⟨hp1, hp2, ?_⟩
          rw [e3, e4] at h1 ⊢
          obtain ⟨t, ht⟩ := even_prod p i hp
          have e5 : ((p ^ i + (p - 2) ^ i : ℕ) : ℚ) * (((p:ℚ) - 1) / 2) = ((t : ℕ) : ℚ) := by
            have : (((p ^ i + (p - 2) ^ i) * (p - 1) : ℕ) : ℚ) = ((2 * t : ℕ) : ℚ) := by rw [ht]
            rw [Nat.cast_mul, hsub1] at this
            push_cast at this ⊢
            linarith
          rw [e5] at h1 ⊢
          rw [(rnd_nat_of_lt t h1).1, ← e5]; ring
      obtain ⟨k1, k2, k3⟩ := key
      rw [k3] at hcond
      have hstep := ih (i+1) _ _ r (by rw [k1]; congr 1; rw [pow_succ]; push_cast; ring)
        (by rw [k2]; congr 1; rw [pow_succ, Nat.cast_mul, hsub]) h
      refine ⟨by omega, ?_⟩
      intro j hj1 hj2
      rcases Nat.eq_or_lt_of_le hj1 with rfl | hlt'
      · have hsub' : ((p - 2 : ℕ) : ℤ) = (p:ℤ) - 2 := by omega
        rw [← hsub']
        have : (((p:ℤ) ^ i + ((p - 2 : ℕ):ℤ) ^ i : ℤ) : ℚ) * ((p:ℚ) - 1) ≤ 2 * (L:ℚ) := by
          push_cast at hcond ⊢; linarith
        exact_mod_cast this
      · exact hstep.2 j hlt' hj2
    · simp at h
      refine ⟨h.le, ?_⟩
      intro j h1 h2; omega

lemma trsmPos_terminates (p : ℕ) (L : ℤ) (hL : L < 2 ^ 53) (hp : 2 ≤ p) (fuel : ℕ) :
    ∀ (i : ℕ) (p1 p2 : ℚ), (2:ℚ) ^ i ≤ p1 → 0 ≤ p2 → 54 < i + fuel → 1 ≤ fuel →
      (trsmLoopPos p L fuel p1 p2 i).isSome := by
  induction fuel with
  | zero => intro i p1 _ _ _ _ h; omega
  | succ fuel ih =>
    intro i p1 p2 h1 hp2 h2 _
    have hpq : (2:ℚ) ≤ p := by exact_mod_cast hp
    unfold trsmLoopPos
    split_ifs with hcond
    · by_cases hi : i ≤ 53
      · apply ih
        · have := rnd_ge_pow 53 (by norm_num) (p1 * (p:ℚ)) ((i + 1 : ℕ) : ℤ)
            (by rw [zpow_natCast, pow_succ]
                have : (0:ℚ) ≤ p1 := le_trans (by positivity) h1
                gcongr)
          rwa [zpow_natCast] at this
        · apply rnd_nonneg; apply mul_nonneg hp2; linarith
        · omega
        · omega
      · exfalso
        have h3 : (2:ℚ) ^ (54:ℤ) ≤ p1 + p2 := by
          have : (2:ℚ) ^ 54 ≤ 2 ^ i := pow_le_pow_right₀ (by norm_num) (by omega)
          rw [show (2:ℚ) ^ (54:ℤ) = 2 ^ 54 by norm_num]
          linarith
        have h4 := rnd_ge_pow 53 (by norm_num) _ _ h3
        have h5 : (2:ℚ) ^ 53 ≤ rnd 53 (p1 + p2) * (((p:ℚ) - 1) / 2) := by
          have : (1:ℚ)/2 ≤ ((p:ℚ) - 1) / 2 := by linarith
          have h6 : (0:ℚ) ≤ rnd 53 (p1 + p2) := le_trans (by positivity) h4
          have h7 : rnd 53 (p1 + p2) * (1/2) ≤ rnd 53 (p1 + p2) * (((p:ℚ) - 1) / 2) := by gcongr
          norm_num at h4
          linarith
        have := rnd_lt_of_large _ h5
        have hLq : (L:ℚ) < 2 ^ 53 := by exact_mod_cast hL
        linarith
    · rfl

/-! Growth of the entries of the solution of a unit triangular system. -/

/-- `2·H_i` and `2·L_i`: bounds for the i-th component with entries in `[0,p-1]`. -/
lemma pos_growth (p : ℤ) (hp : 2 ≤ p) (n : ℕ) (a : ℕ → ℕ → ℤ) (b x : ℕ → ℤ)
    (ha : ∀ i < n, ∀ j < i, 0 ≤ a i j ∧ a i j ≤ p - 1) (hb : ∀ i < n, 0 ≤ b i ∧ b i ≤ p - 1)
    (hx : ∀ i < n, x i = b i - ∑ j ∈ range i, a i j * x j) :
    ∀ i < n, ∀ S ⊆ range i,
      -((p - 1) * (p ^ i - (2 - p) ^ i)) ≤ 2 * -(∑ j ∈ S, a i j * x j) ∧
      2 * (p - 1) + 2 * -(∑ j ∈ S, a i j * x j) ≤ (p - 1) * (p ^ i + (2 - p) ^ i) := by
  -- bounds on sums of bounds
  have geo : ∀ i : ℕ, (p - 1) * ∑ j ∈ range i, ((p - 1) * (p ^ j + (2 - p) ^ j)) = (p - 1) * (p ^ i - (2 - p) ^ i) ∧
      (p - 1) * ∑ j ∈ range i, ((p - 1) * (p ^ j - (2 - p) ^ j)) = (p - 1) * (p ^ i + (2 - p) ^ i) - 2 * (p - 1) := by
    intro i
    induction i with
    | zero => simp; ring
    | succ i ih =>
      rw [sum_range_succ, sum_range_succ]
      constructor
      · rw [mul_add (p - 1) (∑ j ∈ range i, _), ih.1]; ring
      · rw [mul_add (p - 1) (∑ j ∈ range i, _), ih.2]; ring
  intro i
  induction i using Nat.strong_induction_on with
  | _ i ih =>
    intro hi S hS
    -- bounds on the earlier components
    have hxb : ∀ j ∈ range i, -((p - 1) * (p ^ j - (2 - p) ^ j)) ≤ 2 * x j ∧ 2 * x j ≤ (p - 1) * (p ^ j + (2 - p) ^ j) := by
      intro j hj
      rw [mem_range] at hj
      obtain ⟨h1, h2⟩ := ih j hj (by omega) (range j) (Subset.refl _)
      rw [hx j (by omega)]
      have := hb j (by omega)
      constructor <;> linarith
    have hL0 : ∀ j : ℕ, 0 ≤ (p - 1) * (p ^ j - (2 - p) ^ j) := by
      intro j
      have : |2 - p| ^ j ≤ p ^ j := by
        apply pow_le_pow_left₀ (abs_nonneg _); rw [abs_le]; constructor <;> linarith
      have h1 := le_abs_self ((2 - p) ^ j); rw [abs_pow] at h1
      apply mul_nonneg <;> linarith
    have hH0 : ∀ j : ℕ, 0 ≤ (p - 1) * (p ^ j + (2 - p) ^ j) := by
      intro j
      have : |2 - p| ^ j ≤ p ^ j := by
        apply pow_le_pow_left₀ (abs_nonneg _); rw [abs_le]; constructor <;> linarith
      have h1 := neg_abs_le ((2 - p) ^ j); rw [abs_pow] at h1
      apply mul_nonneg <;> linarith
    have hup : 2 * ∑ j ∈ S, a i j * x j ≤ (p - 1) * ∑ j ∈ range i, ((p - 1) * (p ^ j + (2 - p) ^ j)) := by
      rw [mul_sum, mul_sum]
      calc ∑ j ∈ S, 2 * (a i j * x j) ≤ ∑ j ∈ S, (p - 1) * ((p - 1) * (p ^ j + (2 - p) ^ j)) := by
            apply sum_le_sum; intro j hj
            obtain ⟨h1, h2⟩ := ha i hi j (mem_range.1 (hS hj))
            have := hxb j (hS hj)
            have h3 : a i j * (2 * x j) ≤ a i j * ((p - 1) * (p ^ j + (2 - p) ^ j)) := mul_le_mul_of_nonneg_left this.2 h1
            have h4 : a i j * ((p - 1) * (p ^ j + (2 - p) ^ j)) ≤ (p - 1) * ((p - 1) * (p ^ j + (2 - p) ^ j)) :=
              mul_le_mul_of_nonneg_right h2 (hH0 j)
            linarith
        _ ≤ _ := by
            apply sum_le_sum_of_subset_of_nonneg hS
            intro j _ _; exact mul_nonneg (by linarith) (hH0 j)
    have hlo : -((p - 1) * ∑ j ∈ range i, ((p - 1) * (p ^ j - (2 - p) ^ j))) ≤ 2 * ∑ j ∈ S, a i j * x j := by
      rw [mul_sum, mul_sum, ← sum_neg_distrib]
      calc _ ≤ ∑ j ∈ S, -((p - 1) * ((p - 1) * (p ^ j - (2 - p) ^ j))) := by
            rw [sum_neg_distrib, sum_neg_distrib, neg_le_neg_iff]
            apply sum_le_sum_of_subset_of_nonneg hS
            intro j _ _; exact mul_nonneg (by linarith) (hL0 j)
        _ ≤ _ := by
            apply sum_le_sum; intro j hj
            obtain ⟨h1, h2⟩ := ha i hi j (mem_range.1 (hS hj))
            have := hxb j (hS hj)
            have h3 : a i j * -((p - 1) * (p ^ j - (2 - p) ^ j)) ≤ a i j * (2 * x j) := mul_le_mul_of_nonneg_left this.1 h1
            have h4 : a i j * ((p - 1) * (p ^ j - (2 - p) ^ j)) ≤ (p - 1) * ((p - 1) * (p ^ j - (2 - p) ^ j)) :=
              mul_le_mul_of_nonneg_right h2 (hL0 j)
            linarith
    rw [(geo i).1] at hup
    rw [(geo i).2] at hlo
    constructor <;> linarith

/-- Balanced: entries of absolute value at most `m`. -/
lemma bal_growth (m : ℤ) (hm : 0 ≤ m) (n : ℕ) (a : ℕ → ℕ → ℤ) (b x : ℕ → ℤ)
    (ha : ∀ i < n, ∀ j < i, |a i j| ≤ m) (hb : ∀ i < n, |b i| ≤ m)
    (hx : ∀ i < n, x i = b i - ∑ j ∈ range i, a i j * x j) :
    ∀ i < n, ∀ S ⊆ range i, |∑ j ∈ S, a i j * x j| ≤ m * (m + 1) ^ i - m := by
  have geo : ∀ i : ℕ, ∑ j ∈ range i, m * (m * (m + 1) ^ j) = m * (m + 1) ^ i - m := by
    intro i
    induction i with
    | zero => simp
    | succ i ih => rw [sum_range_succ, ih]; ring
  intro i
  induction i using Nat.strong_induction_on with
  | _ i ih =>
    intro hi S hS
    have hxb : ∀ j ∈ range i, |x j| ≤ m * (m + 1) ^ j := by
      intro j hj
      rw [mem_range] at hj
      have h1 := ih j hj (by omega) (range j) (Subset.refl _)
      rw [hx j (by omega)]
      have := hb j (by omega)
      have := abs_sub (b j) (∑ l ∈ range j, a j l * x l)
      linarith
    calc |∑ j ∈ S, a i j * x j| ≤ ∑ j ∈ S, |a i j * x j| := abs_sum_le_sum_abs _ _
      _ ≤ ∑ j ∈ S, m * (m * (m + 1) ^ j) := by
          apply sum_le_sum; intro j hj; rw [abs_mul]
          exact mul_le_mul (ha i hi j (mem_range.1 (hS hj))) (hxb j (hS hj)) (abs_nonneg _) hm
      _ ≤ ∑ j ∈ range i, m * (m * (m + 1) ^ j) := by
          apply sum_le_sum_of_subset_of_nonneg hS; intro j _ _; positivity
      _ = _ := geo i

/-- The guarantee behind `MaxDelayedDim` over floating-point numbers. -/
lemma maxDelayedF_bound (prec sizeMax : ℕ) (hprec : 1 ≤ prec) (H : Helper) (hM0 : 0 ≤ H.maxStorable)
    (hM : H.maxStorable < 2 ^ prec) (hIA : H.A.lo ≤ H.A.hi) (hIB : H.B.lo ≤ H.B.hi) (hIC : H.C.lo ≤ H.C.hi)
    (beta : ℤ) (k : ℕ) (hk : 1 ≤ k) (h : maxDelayedDimF prec sizeMax H beta = .ok k) :
    |beta| * H.C.mag + k * (H.A.mag * H.B.mag) ≤ H.maxStorable := by
  have hmA : 0 ≤ H.A.mag := by unfold Itv.mag; omega
  have hmB : 0 ≤ H.B.mag := by unfold Itv.mag; omega
  have hmC : 0 ≤ H.C.mag := by unfold Itv.mag; omega
  set M := H.maxStorable with hMdef
  unfold maxDelayedDimF at h
  rw [if_neg (by omega)] at h
  have habs : (if beta < 0 then -(beta : ℚ) else (beta:ℚ)) = ((|beta| : ℤ) : ℚ) := by
    split_ifs with hb
    · rw [abs_of_neg hb]; push_cast; rfl
    · rw [abs_of_nonneg (by omega)]
  simp only [habs, ← hMdef] at h
  have hx1 : ((|beta| : ℤ) : ℚ) * (H.C.mag : ℚ) = ((|beta| * H.C.mag : ℤ) : ℚ) := by push_cast; ring
  have hx2 : (H.A.mag : ℚ) * (H.B.mag : ℚ) = ((H.A.mag * H.B.mag : ℤ) : ℚ) := by push_cast; ring
  rw [hx1, hx2] at h
  generalize hX : |beta| * H.C.mag = X at h ⊢
  generalize hD : H.A.mag * H.B.mag = D at h ⊢
  have hX0 : 0 ≤ X := by rw [← hX]; positivity
  have hD0 : 0 ≤ D := by rw [← hD]; positivity
  have one_le_neg : ∀ y : ℚ, y ≤ -1 → rnd prec y ≤ -1 := by
    intro y hy
    have := rnd_ge_pow prec hprec (-y) 0 (by simpa using (by linarith : (1:ℚ) ≤ -y))
    rw [rnd_neg, zpow_zero] at this; linarith
  have hpowq : ((2:ℚ) ^ prec) = (((2:ℤ) ^ prec : ℤ) : ℚ) := by push_cast; rfl
  have hMq : (M:ℚ) + 1 ≤ 2 ^ prec := by rw [hpowq]; exact_mod_cast hM
  split_ifs at h with hd hz
  · simp at h; omega
  · push Not at hd
    simp only [Except.ok.injEq] at h
    -- X is exact
    have hXlt : X < 2 ^ prec := by
      by_contra hge
      push Not at hge
      have h1 : (2:ℚ) ^ prec ≤ rnd prec (X:ℚ) := by
        have := rnd_ge_pow prec hprec (X:ℚ) (prec:ℤ) (by rw [zpow_natCast, hpowq]; exact_mod_cast hge)
        rwa [zpow_natCast] at this
      have := one_le_neg ((M:ℚ) - rnd prec (X:ℚ)) (by linarith)
      linarith [hd.1]
    have hXe : rnd prec (X:ℚ) = X := rnd_int prec hprec X (by rw [abs_of_nonneg hX0]; exact hXlt.le)
    rw [hXe] at hd h
    have hde : rnd prec ((M:ℚ) - X) = ((M - X : ℤ) : ℚ) := by
      rw [← rnd_int prec hprec (M - X) (by rw [abs_le]; constructor <;> linarith)]; push_cast; rfl
    rw [hde] at hd h
    have hMX : 0 ≤ M - X := by exact_mod_cast hd.1
    have hDpos : 0 < D := by
      rcases hD0.eq_or_lt with h0 | h0
      · exfalso; apply hz; rw [← h0]; simp [rnd_zero]
      · exact h0
    have hkfl : (k:ℚ) ≤ rnd prec (((M - X : ℤ) : ℚ) / rnd prec (D:ℚ)) := by
      have h1 := Int.floor_le (rnd prec (((M - X : ℤ) : ℚ) / rnd prec (D:ℚ)))
      have h2 : (k:ℤ) ≤ ⌊rnd prec (((M - X : ℤ) : ℚ) / rnd prec (D:ℚ))⌋ := by omega
      have h3 : ((k:ℤ):ℚ) ≤ (⌊rnd prec (((M - X : ℤ) : ℚ) / rnd prec (D:ℚ))⌋ : ℚ) := by exact_mod_cast h2
      rw [Int.cast_natCast] at h3
      exact h3.trans h1
    have hDlt : D < 2 ^ prec := by
      by_contra hge
      push Not at hge
      have h1 : (2:ℚ) ^ prec ≤ rnd prec (D:ℚ) := by
        have := rnd_ge_pow prec hprec (D:ℚ) (prec:ℤ) (by rw [zpow_natCast, hpowq]; exact_mod_cast hge)
        rwa [zpow_natCast] at this
      have hp0 : (0:ℚ) < 2 ^ prec := by positivity
      have hMXq : (0:ℚ) ≤ ((M - X : ℤ) : ℚ) := by exact_mod_cast hMX
      have h2 : ((M - X : ℤ) : ℚ) / rnd prec (D:ℚ) ≤ (((2 ^ prec - 1 : ℤ)) : ℚ) / ((2 ^ prec : ℤ) : ℚ) := by
        rw [← hpowq]
        apply div_le_div₀ _ _ hp0 h1
        · have : (0:ℤ) ≤ 2 ^ prec - 1 := by linarith
          exact_mod_cast this
        · have : M - X ≤ 2 ^ prec - 1 := by linarith
          exact_mod_cast this
      have h3 := rnd_mono prec hprec _ _ h2
      have h4 := mul_le_of_le_rnd_div prec hprec (2 ^ prec - 1) (2 ^ prec) 1 (by linarith) (by linarith) (by positivity)
        (by have : (1:ℚ) ≤ k := by exact_mod_cast hk
            push_cast at h3 hkfl ⊢; linarith)
      linarith
    have hDe : rnd prec (D:ℚ) = D := rnd_int prec hprec D (by rw [abs_of_nonneg hD0]; exact hDlt.le)
    rw [hDe] at hkfl
    have := mul_le_of_le_rnd_div prec hprec (M - X) D k hMX (by linarith) hDpos (by rw [Int.cast_natCast]; exact hkfl)
    linarith

end Verif.Bounds
