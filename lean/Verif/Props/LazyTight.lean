import Verif.Props.FitTable

/-!
# C08: the listed primes are violated

The lists of `C08_primes_partial` are exact: over each of these fields there are products of elements for which the accumulation reaches `2^prec + 1`.
-/

namespace Verif.Props
open Verif Verif.FP Verif.Bounds Verif.Lazy Finset

/-- the fields of `lazyTight` -/
def tightFields : List FpField :=
  [⟨7, -3, 24⟩, ⟨29, -14, 24⟩, ⟨41, -20, 24⟩, ⟨2273, -1136, 24⟩, ⟨379, 0, 53⟩, ⟨757, -378, 53⟩, ⟨1163, -581, 53⟩, ⟨37225301, -18612650, 53⟩]

/-- The code violates C08 over the field `F`: some products of elements, whatever the order of the summations. -/
def ViolatesC08 (F : FpField) : Prop :=
  ∃ k : ℕ, ∃ a b : ℕ → ℤ, (∀ l < k, Itv.Has F.itv (a l) ∧ Itv.Has F.itv (b l)) ∧
    ∀ (sizeMax : ℕ) (sched : ℕ → ℕ → SumTree), (∀ i n, (sched i n).Covers n) → fgemmDelayed F sizeMax sched k F.one a b 0 0 = .error .inexact

lemma eval_inexact (b : ℕ) (t : SumTree) (v : Option ℕ → ℤ) (e : Fault) (h : t.eval b v = .error e) : e = .inexact := by
  induction t generalizing e with
  | leaf t =>
    simp only [SumTree.eval, chk] at h
    split_ifs at h
    simpa using h.symm
  | node l r ihl ihr =>
    simp only [SumTree.eval, bind, Except.bind] at h
    cases hl : l.eval b v with
    | error e' => rw [hl] at h; simp at h; rw [← h]; exact ihl e' hl
    | ok y =>
      cases hr : r.eval b v with
      | error e' => rw [hl, hr] at h; simp at h; rw [← h]; exact ihr e' hr
      | ok z =>
        rw [hl, hr] at h
        simp only [chk] at h
        split_ifs at h
        simpa using h.symm

lemma kmax_tight {b : ℕ} (hb : 1 ≤ b) {q h r : ℤ} (F : FpField) (hprec : F.prec = b) (hmag : F.itv.mag = h) (h2 : 2 ≤ h) (hq : 2 ≤ q) (hr0 : 0 ≤ r)
    (hd : q * (h * h) + r = 2 ^ b - 1) (hr : r + 1 < h) (sizeMax : ℕ) : maxDelayedDimF b sizeMax (initHelper F) 0 = .ok q.toNat := by
  have hpos : 0 < h * h := by positivity
  have hhh : h ≤ h * h := by nlinarith
  have hqq : q ≤ q * (h * h) := by nlinarith
  have hsq : h * h ≤ q * (h * h) := by nlinarith
  have d1 : rnd b (((2 ^ b - 1 : ℤ)) : ℚ) = ((2 ^ b - 1 : ℤ) : ℚ) := rnd_int b hb _ (by rw [abs_of_nonneg (by omega)]; omega)
  have hposQ : (0 : ℚ) < (h : ℚ) * h := by exact_mod_cast hpos
  have hpowQ : (0 : ℚ) < (2 : ℚ) ^ b := by positivity
  have hfl : ⌊rnd b (((2 ^ b - 1 : ℤ) : ℚ) / ((h : ℚ) * h))⌋ = q := by
    have ey : ((2 ^ b - 1 : ℤ) : ℚ) / ((h : ℚ) * h) = q + r / ((h : ℚ) * h) := by
      rw [← hd, eq_comm, ← sub_eq_zero]; push_cast; field_simp; ring
    have hrQ : (0 : ℚ) ≤ r / ((h : ℚ) * h) := div_nonneg (by exact_mod_cast hr0) hposQ.le
    rw [Int.floor_eq_iff]
    constructor
    · have e : rnd b (q : ℚ) = q := rnd_int b hb q (by rw [abs_of_nonneg (by omega)]; omega)
      rw [← e]
      refine rnd_mono b hb _ _ ?_
      rw [ey]; linarith
    · have hy0 : (0 : ℚ) ≤ ((2 ^ b - 1 : ℤ) : ℚ) / ((h : ℚ) * h) := div_nonneg (by exact_mod_cast (show (0 : ℤ) ≤ 2 ^ b - 1 by omega)) hposQ.le
      have herr := rnd_err b (((2 ^ b - 1 : ℤ) : ℚ) / ((h : ℚ) * h))
      rw [abs_of_nonneg hy0] at herr
      have h3 := (abs_le.1 herr).2
      have h4 : ((2 ^ b - 1 : ℤ) : ℚ) / ((h : ℚ) * h) / 2 ^ b ≤ 1 / ((h : ℚ) * h) := by
        rw [div_div, mul_comm, ← div_div]
        refine div_le_div_of_nonneg_right ?_ hposQ.le
        rw [div_le_one hpowQ]
        push_cast
        linarith
      have h5 : (r : ℚ) / ((h : ℚ) * h) + 1 / ((h : ℚ) * h) < 1 := by
        rw [← add_div, div_lt_one hposQ]
        exact_mod_cast (show r + 1 < h * h by omega)
      rw [ey] at h3 h4 ⊢
      linarith
  have hAB : rnd b ((h : ℚ) * h) = (h : ℚ) * h := by
    have := rnd_int b hb (h * h) (by rw [abs_of_nonneg hpos.le]; omega)
    exact_mod_cast this
  unfold maxDelayedDimF
  have c1 : ¬ ((initHelper F).maxStorable < 0) := by simp only [initHelper, hprec]; omega
  have c2 : ¬ (((2 ^ b - 1 : ℤ) : ℚ) < 0 ∨ (h : ℚ) * h < 0) := by
    push Not
    exact ⟨by exact_mod_cast (show (0 : ℤ) ≤ 2 ^ b - 1 by omega), hposQ.le⟩
  rw [if_neg c1]
  simp only [initHelper, hprec, hmag, lt_irrefl, if_false, Int.cast_zero, zero_mul, rnd_zero, sub_zero, d1, hAB]
  rw [if_neg c2, if_neg hposQ.ne', hfl]

lemma red_of_has {F : FpField} {x : ℤ} (h : Itv.Has F.itv x) : F.red x = x := by
  obtain ⟨h1, h2⟩ := h
  simp only [FpField.itv] at h1 h2
  unfold FpField.red
  rw [Int.emod_eq_of_lt (by omega) (by omega)]
  ring

/-- Without room, `q` products of the largest elements and one more product reach `2^prec + 1`. -/
lemma violates_of_tight {b : ℕ} (hb : 1 ≤ b) {q r : ℕ} {h : ℤ} (F : FpField) (hlo : F.lo ≤ 0) (hprec : F.prec = b) (hmag : F.itv.mag = h)
    (hhi : F.itv.hi = h) (h2 : 2 ≤ h) (hq : 2 ≤ q) (hd : q * (h * h) + r = 2 ^ b - 1) (hr : (r : ℤ) + 1 < h) : ViolatesC08 F := by
  have hlo' : F.itv.lo ≤ 0 := hlo
  have hp3 : 3 ≤ (F.p : ℤ) := by
    have : F.lo + F.p - 1 = h := hhi
    omega
  have hx : ∀ x : ℤ, 0 ≤ x → x ≤ h → Itv.Has F.itv x := fun x h1 h3 => ⟨by omega, by omega⟩
  have hone : F.one = 1 := red_of_has (hx 1 (by norm_num) (by omega))
  have hmne : ∀ x : ℤ, (x = 0 ∨ x = 1) → ¬ x = F.mOne := by
    intro x hx0 hc
    have h1 : F.red (-1) ≡ -1 [ZMOD F.p] := F.red_modEq (-1)
    rw [show F.red (-1) = F.mOne from rfl, ← hc] at h1
    have h3 := (Int.modEq_iff_dvd.1 h1.symm)
    rcases hx0 with rfl | rfl
    · have := Int.le_of_dvd (by norm_num) h3; omega
    · have := Int.le_of_dvd (by norm_num) h3; omega
  refine ⟨q + 1, fun l => if l < q then h else r + 2, fun l => if l < q then h else 1, fun l _ => ⟨?_, ?_⟩, fun sizeMax sched hs => ?_⟩
  · dsimp only
    split_ifs
    · exact hx _ (by omega) le_rfl
    · exact hx _ (by omega) (by omega)
  · dsimp only
    split_ifs
    · exact hx _ (by omega) le_rfl
    · exact hx _ (by omega) (by omega)
  set a : ℕ → ℤ := fun l => if l < q then h else r + 2 with ha
  set c : ℕ → ℤ := fun l => if l < q then h else 1 with hc
  have hpos : 0 < h * h := by positivity
  have hhh : h ≤ h * h := by nlinarith
  have hsq : h * h ≤ q * (h * h) := by nlinarith
  have hk : maxDelayedDimF b sizeMax (initHelper F) 0 = .ok q := by
    have := kmax_tight hb (q := (q : ℤ)) (r := (r : ℤ)) F hprec hmag h2 (by omega) (by omega) hd hr sizeMax
    simpa using this
  have ha1 : a (1 * q + 0) = r + 2 := by simp [ha]
  have hc1 : c (1 * q + 0) = 1 := by simp [hc]
  have hker0 : kernel b (sched 0 1) 1 (fun l => a (1 * q + l)) (fun l => c (1 * q + l)) 0 0 = .ok (r + 2) := by
    rw [kernel_ok b 1 (sched 0 1) (hs 0 1)]
    · simp only [sum_range_one, ha1, hc1]; ring_nf
    · simp only [sum_range_one, ha1, hc1]
      norm_num
      rw [abs_of_nonneg (by omega)]
      omega
  have hker1 : kernel b (sched 1 q) 1 (fun l => a (0 * q + l)) (fun l => c (0 * q + l)) 1 (r + 2) = .error .inexact := by
    cases hh : kernel b (sched 1 q) 1 (fun l => a (0 * q + l)) (fun l => c (0 * q + l)) 1 (r + 2) with
    | ok x =>
      exfalso
      obtain ⟨h1, h3⟩ := eval_bound _ _ _ _ hh
      rw [covers_sum _ q (hs _ _)] at h1
      have h4 : ∑ l ∈ range q, 1 * (a (0 * q + l) * c (0 * q + l)) = q * (h * h) := by
        rw [sum_congr rfl (g := fun _ => h * h)]
        · simp
        · intro l hl; rw [mem_range] at hl; simp [ha, hc, hl]
      simp only at h1
      rw [h4] at h1
      have h5 : x = 2 ^ b + 1 := by omega
      rw [h5, abs_of_nonneg (by positivity)] at h3
      omega
    | error e => rw [eval_inexact _ _ _ _ hh]
  have hexc : Itv.exceeds F.itv F.itv = false := by simp [Itv.exceeds]
  have hred : F.red (r + 2) = r + 2 := red_of_has (hx _ (by omega) (by omega))
  rw [hone]
  unfold fgemmDelayed
  rw [if_neg (by simp)]
  have hH : (initHelper F).A = F.itv ∧ (initHelper F).B = F.itv ∧ (initHelper F).C = F.itv := ⟨rfl, rfl, rfl⟩
  have e1 : ¬ ((1:ℤ) ≠ F.one ∧ (1:ℤ) ≠ F.mOne) := by rw [hone]; simp
  simp only [if_neg e1]
  unfold fgemmLazy
  have e2 : ((1:ℤ) = F.mOne ∨ (1:ℤ) = F.one) := by rw [hone]; simp
  have e3 : ¬ ((1:ℤ) = F.mOne) := hmne 1 (Or.inr rfl)
  have e4 : ¬ ((0:ℤ) = F.mOne) := hmne 0 (Or.inl rfl)
  simp only [if_pos e2, if_neg e3, if_neg e4, hprec, hk, bind, Except.bind, hH.1, hH.2.1, hH.2.2, hexc,
    Bool.false_eq_true, and_false, if_false]
  have e7 : (q + 1) % q = 1 := by rw [Nat.add_mod_left, Nat.mod_eq_of_lt (by omega)]
  have e8 : (q + 1) / q = 1 := Nat.div_eq_of_lt_le (by omega) (by omega)
  have e5 : ¬ (q ≤ (q + 1) / 2) := by omega
  have e6 : ¬ ((q + 1) % q = 0) := by omega
  have e9 : min (q + 1) q = q := by omega
  simp only [if_neg e5, if_neg e6, e8, e9]
  rw [if_neg (by omega)]
  simp only [e7, hker0]
  simp only [iter, bind, Except.bind, pure, Except.pure, hred, zero_add, hker1]

lemma prime_tight53 : Nat.Prime 37225301 := by
  have h : Fit.allP (fun d => Nat.ble 1 (Nat.mod 37225301 d)) 13 2 = true := by decide +kernel
  by_contra hn
  have h1 := Nat.minFac_sq_le_self (n := 37225301) (by norm_num) hn
  have h2 : 2 ≤ Nat.minFac 37225301 := (Nat.minFac_prime (by norm_num)).two_le
  have h3 := Nat.minFac_dvd 37225301
  generalize Nat.minFac 37225301 = d at h1 h2 h3
  have h4 : d ≤ 8191 := le_of_sq (by rw [pow_two] at h1; omega)
  have h5 : 1 ≤ 37225301 % d := Nat.le_of_ble_eq_true (Fit.allP_spec _ _ _ h d h2 (by omega))
  rw [Nat.dvd_iff_mod_eq_zero] at h3
  omega

/-- C08 is violated over every field of `tightFields`: the lists of `C08_primes_partial` are exact.  (`fgemm` and `fgemv` convert `double` to `float` for the
primes below 800, so that 379 and 757 with `double` are reached only by a call with a helper for the delayed mode.) -/
theorem C08_lists_violated : ∀ F ∈ tightFields, F.WF ∧ F.itv.mag * F.itv.mag < 2 ^ F.prec ∧ F.p ∈ lazyTight F ∧ ViolatesC08 F := by
  have key : ∀ (F : FpField) (b q r : ℕ) (h : ℤ), F.WF → 1 ≤ b → F.p ∈ lazyTight F → F.prec = b → F.itv.mag = h → F.itv.hi = h →
      2 ≤ h → 2 ≤ q → q * (h * h) + r = 2 ^ b - 1 → (r : ℤ) + 1 < h →
      F.WF ∧ F.itv.mag * F.itv.mag < 2 ^ F.prec ∧ F.p ∈ lazyTight F ∧ ViolatesC08 F := by
    intro F b q r h hF hb ht hprec hmag hhi h2 hq hd hr
    refine ⟨hF, ?_, ht, violates_of_tight hb F hF.lo_nonpos hprec hmag hhi h2 hq hd hr⟩
    rw [hmag, hprec]
    nlinarith
  intro F hF
  simp only [tightFields, List.mem_cons, List.not_mem_nil, or_false] at hF
  rcases hF with rfl | rfl | rfl | rfl | rfl | rfl | rfl | rfl
  · exact key _ 24 1864135 0 3 ⟨by norm_num, by norm_num, by norm_num, by norm_num⟩ (by norm_num) (by decide) rfl (by decide) (by decide) (by norm_num) (by norm_num) (by norm_num) (by norm_num)
  · exact key _ 24 85598 7 14 ⟨by norm_num, by norm_num, by norm_num, by norm_num⟩ (by norm_num) (by decide) rfl (by decide) (by decide) (by norm_num) (by norm_num) (by norm_num) (by norm_num)
  · exact key _ 24 41943 15 20 ⟨by norm_num, by norm_num, by norm_num, by norm_num⟩ (by norm_num) (by decide) rfl (by decide) (by decide) (by norm_num) (by norm_num) (by norm_num) (by norm_num)
  · exact key _ 24 13 767 1136 ⟨by norm_num, by norm_num, by norm_num, by norm_num⟩ (by norm_num) (by decide) rfl (by decide) (by decide) (by norm_num) (by norm_num) (by norm_num) (by norm_num)
  · exact key _ 53 63038543537 283 378 ⟨by norm_num, by norm_num, by norm_num, by norm_num⟩ (by norm_num) (by decide) rfl (by decide) (by decide) (by norm_num) (by norm_num) (by norm_num) (by norm_num)
  · exact key _ 53 63038543537 283 378 ⟨by norm_num, by norm_num, by norm_num, by norm_num⟩ (by norm_num) (by decide) rfl (by decide) (by decide) (by norm_num) (by norm_num) (by norm_num) (by norm_num)
  · exact key _ 53 26683175055 136 581 ⟨by norm_num, by norm_num, by norm_num, by norm_num⟩ (by norm_num) (by decide) rfl (by decide) (by decide) (by norm_num) (by norm_num) (by norm_num) (by norm_num)
  · exact key _ 53 26 14155991 18612650 ⟨prime_tight53, by norm_num, by norm_num, by norm_num⟩ (by norm_num) (by decide) rfl (by decide) (by decide) (by norm_num) (by norm_num) (by norm_num) (by norm_num)

/-- Over the fields of the library (`float` or `double`, `Modular` or `ModularBalanced`, a prime modulus whose squared largest element is stored exactly), C08 fails
exactly for the primes of `lazyTight`. -/
theorem C08_exact_violated (F : FpField) (hF : F.WF) (hprec : F.prec = 24 ∨ F.prec = 53)
    (hlo : F.lo = 0 ∨ F.lo = (((F.p - 1) / 2 : ℕ) : ℤ) - F.p + 1) (hm : F.itv.mag * F.itv.mag < 2 ^ F.prec) : ViolatesC08 F ↔ F.p ∈ lazyTight F := by
  constructor
  · rintro ⟨k, a, b, hab, hv⟩
    by_contra hp
    have hs : ∀ i n : ℕ, (leftToRight n).Covers n := fun _ n => leftToRight_covers n
    obtain ⟨r, hr, -⟩ := C08_primes_partial F hF hprec hlo hm hp 0 (fun _ n => leftToRight n) hs k F.one 0 0 a b (hF.red_mem 1) hF.zero_mem hF.zero_mem
      (fun l hl => (hab l hl).1) (fun l hl => (hab l hl).2)
    rw [hv 0 (fun _ n => leftToRight n) hs] at hr
    cases hr
  · intro hp
    refine (C08_lists_violated F ?_).2.2.2
    obtain ⟨p, lo, prec⟩ := F
    simp only [lazyTight] at hp hprec hlo
    rcases hprec with rfl | rfl
    · rw [if_pos rfl] at hp
      split_ifs at hp with h0
      · simp at hp
      · have h1 := hlo.resolve_left h0
        simp only [List.mem_cons, List.not_mem_nil, or_false] at hp
        rcases hp with rfl | rfl | rfl | rfl <;> norm_num at h1 <;> subst h1 <;> simp [tightFields]
    · rw [if_neg (by norm_num)] at hp
      split_ifs at hp with h0
      · simp only [List.mem_cons, List.not_mem_nil, or_false] at hp
        subst hp h0
        simp [tightFields]
      · have h1 := hlo.resolve_left h0
        simp only [List.mem_cons, List.not_mem_nil, or_false] at hp
        rcases hp with rfl | rfl | rfl <;> norm_num at h1 <;> subst h1 <;> simp [tightFields]

example : ViolatesC08 ⟨2273, -1136, 24⟩ := (C08_lists_violated _ (by simp [tightFields])).2.2.2

end Verif.Props
