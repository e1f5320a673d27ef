import Verif.Proofs.Bounds

/-!
# C05, C06, C07: bounds for delayed reductions
-/

namespace Verif.Props
open Verif Verif.FP Verif.Bounds Finset

/-- Specification: an integer stored in a field element is reduced. -/
def Reduced (balanced : Bool) (p : ℕ) (x : ℤ) : Prop :=
  if balanced then 2 * |x| ≤ p - 1 else 0 ≤ x ∧ x ≤ p - 1

/-- Specification: the integer by which the delayed product multiplies `C` for a field element `beta`
(`1` and `-1` are used as such, see fgemm_classical.inl:80). -/
def usedCoef (balanced : Bool) (p : ℕ) (beta : ℤ) : ℤ :=
  if beta = 0 then 0 else if beta = 1 then 1 else if beta = mOne balanced p then -1 else beta

lemma Reduced.abs_le {balanced : Bool} {p : ℕ} (hp : 1 ≤ p) {x : ℤ} (h : Reduced balanced p x) :
    |x| ≤ cInt balanced p := by
  unfold Reduced at h; unfold cInt
  cases balanced
  · simp only [Bool.false_eq_true, if_false] at h ⊢
    rw [abs_of_nonneg h.1]; omega
  · simp only [if_true] at h ⊢; omega

/-- C05. Let `k > 1` be the value returned by `DotProdBoundClassic` for a field of characteristic `p` stored
in a type with a `prec`-bit mantissa (53: double, 24: float).  For every set of at most `k` products of reduced
elements and every reduced `c`, the integer `beta*c + ∑ x*y` is at most `2^prec` in absolute value, hence exact;
as this holds for every subset, it covers all partial sums in any order.  All the roundings of the
computation of the bound itself are taken into account. -/
theorem C05_dot_bound_exact (sizeMax : ℕ) (balanced : Bool) (p prec : ℕ) (hp : 1 ≤ p) (hp' : p ≤ 2 ^ 53)
    (hprec : prec ≤ 53) (beta : ℤ) (hbeta : Reduced balanced p beta) (k : ℕ) (hk : 1 < k)
    (h : dotProdBoundClassic sizeMax balanced p (2 ^ prec - 1) beta = .ok k)
    (ι : Type) (S : Finset ι) (hS : S.card ≤ k) (x y : ι → ℤ) (c : ℤ)
    (hx : ∀ i ∈ S, Reduced balanced p (x i)) (hy : ∀ i ∈ S, Reduced balanced p (y i)) (hc : Reduced balanced p c) :
    |usedCoef balanced p beta * c + ∑ i ∈ S, x i * y i| ≤ 2 ^ prec ∧ |∑ i ∈ S, x i * y i| ≤ 2 ^ prec := by
  have hspec := dotProd_spec sizeMax balanced p prec hp hp' hprec beta (hbeta.abs_le hp) k hk h
  have h1 := abs_sum_mul_le S x y (cInt balanced p) (cInt balanced p) (by positivity)
    (fun i hi => (hx i hi).abs_le hp) (fun i hi => (hy i hi).abs_le hp)
  have h2 : (S.card : ℤ) * (cInt balanced p * cInt balanced p) ≤ k * (cInt balanced p * cInt balanced p) := by
    gcongr
  have h3 : |usedCoef balanced p beta| = betaMag balanced p beta := by
    unfold usedCoef betaMag
    split_ifs <;> simp_all
  have h4 : |usedCoef balanced p beta * c| ≤ betaMag balanced p beta * cInt balanced p := by
    rw [abs_mul, h3]; gcongr
    · rw [← h3]; positivity
    · exact hc.abs_le hp
  have h5 := abs_add_le (usedCoef balanced p beta * c) (∑ i ∈ S, x i * y i)
  have h6 := abs_nonneg (usedCoef balanced p beta * c)
  constructor <;> linarith

/-- Non-vacuity: `p = 65537` over double, `beta = 0`: the bound is `2^21`. -/
example : dotProdBoundClassic 0 false 65537 (2 ^ 53 - 1) 0 = .ok (2 ^ 21) := by
  have h1 : rnd 53 (((2:ℤ) ^ 53 - 1 : ℤ) : ℚ) = (((2:ℤ) ^ 53 - 1 : ℤ) : ℚ) := rnd_int 53 (by norm_num) _ (by norm_num)
  have hr : ∀ e : ℕ, rnd 53 ((2:ℚ) ^ e) = 2 ^ e := fun e => by
    have := rnd_pow 53 (by norm_num) (e : ℤ); simpa using this
  have h2 : rnd 53 (9007199254740992 : ℚ) = 9007199254740992 := by have := hr 53; norm_num at this; exact this
  have h3 : rnd 53 (65536 : ℚ) = 65536 := by have := hr 16; norm_num at this; exact this
  have h4 : rnd 53 (4294967296 : ℚ) = 4294967296 := by have := hr 32; norm_num at this; exact this
  have h5 : rnd 53 (2097152 : ℚ) = 2097152 := by have := hr 21; norm_num at this; exact this
  unfold dotProdBoundClassic computeFactorClassic
  simp only [h1]
  norm_num [h2, h3, h4, h5]
  rfl

/-- The value 1 is not a guarantee (it is also returned when even one product does not fit): over float with
`p = 4099`, the bound is 1 and a single product of reduced elements exceeds `2^24`. -/
theorem C05_one_is_no_guarantee :
    dotProdBoundClassic 0 false 4099 (2 ^ 24 - 1) 0 = .ok 1 ∧ Reduced false 4099 4098 ∧
      (2:ℤ) ^ 24 < |4098 * 4098| := by
  refine ⟨?_, by unfold Reduced; norm_num, by norm_num⟩
  have hi : ∀ n : ℤ, |n| ≤ 2 ^ 53 → rnd 53 (n:ℚ) = n := fun n hn => rnd_int 53 (by norm_num) n hn
  have h1 := hi (2 ^ 24 - 1) (by norm_num)
  have h2 : rnd 53 (16777216 : ℚ) = 16777216 := by exact_mod_cast hi 16777216 (by norm_num)
  have h3 : rnd 53 (4098 : ℚ) = 4098 := by exact_mod_cast hi 4098 (by norm_num)
  have h4 : rnd 53 (16793604 : ℚ) = 16793604 := by exact_mod_cast hi 16793604 (by norm_num)
  have h5 : rnd 53 ((16777216 : ℚ) / 16793604) ≤ 1 := by
    have := rnd_le_pow 53 (by norm_num) ((16777216 : ℚ) / 16793604) 0 (by norm_num) (by norm_num)
    simpa using this
  have h6 : ⌊rnd 53 ((16777216 : ℚ) / 16793604)⌋ ≤ 1 := by
    have := (Int.floor_le (rnd 53 ((16777216 : ℚ) / 16793604))).trans h5
    exact_mod_cast this
  norm_num at h1
  norm_num at h6
  unfold dotProdBoundClassic computeFactorClassic
  norm_num [h1, h2, h3, h4, h6]

/-! ## C06 -/

/-- Specification: `x` is the integer solution (no reduction) of the lower unit triangular system `A x = b`
of dimension `n`. -/
def SolvesUnitLower (n : ℕ) (a : ℕ → ℕ → ℤ) (b x : ℕ → ℤ) : Prop :=
  ∀ i < n, x i = b i - ∑ j ∈ range i, a i j * x j

/-- C06 (positive representation). `TRSMBound(Modular<Element>)` terminates for every modulus `2 ≤ p ≤ 2^prec`, and
if it returns `r`, then in the unreduced resolution of any unit triangular system of dimension `n ≤ r` with
reduced entries, every value `b_i - ∑_{j∈S} a_ij x_j` and every `∑_{j∈S} a_ij x_j`, for every set `S` of already
computed components (so: every intermediate value of any order of evaluation), is below `2^prec` in absolute
value. -/
theorem C06_trsm_bound_exact (p prec : ℕ) (hp : 2 ≤ p) (hpp : (p:ℤ) ≤ 2 ^ prec) (hprec : prec ≤ 53) :
    ∃ r, trsmBoundPos 64 p (2 ^ prec - 1) = some r ∧ 1 ≤ r ∧
      ∀ n ≤ r, ∀ (a : ℕ → ℕ → ℤ) (b x : ℕ → ℤ),
        (∀ i < n, ∀ j < i, Reduced false p (a i j)) → (∀ i < n, Reduced false p (b i)) →
        SolvesUnitLower n a b x →
        ∀ i < n, ∀ S ⊆ range i,
          |b i - ∑ j ∈ S, a i j * x j| < 2 ^ prec ∧ |∑ j ∈ S, a i j * x j| < 2 ^ prec := by
  have hpow : (2:ℤ) ^ prec ≤ 2 ^ 53 := pow_le_pow_right₀ (by norm_num) hprec
  have hL : (2:ℤ) ^ prec - 1 < 2 ^ 53 := by linarith
  have hterm := trsmPos_terminates p (2 ^ prec - 1) hL hp 64 0 1 1 (by norm_num) (by norm_num) (by norm_num) (by norm_num)
  obtain ⟨r0, hr0⟩ := Option.isSome_iff_exists.1 hterm
  refine ⟨max 1 r0, by unfold trsmBoundPos; rw [hr0]; rfl, le_max_left _ _, ?_⟩
  have h1 : rnd 53 (1:ℚ) = 1 := by exact_mod_cast rnd_int 53 (by norm_num) 1 (by norm_num)
  have hspec := (trsmPos_spec p (2 ^ prec - 1) hL hp 64 0 1 1 r0 (by simp [h1]) (by simp [h1]) hr0).2
  intro n hn a b x ha hb hx i hi S hS
  simp only [Reduced, Bool.false_eq_true, if_false] at ha hb
  have hpz : (2:ℤ) ≤ p := by exact_mod_cast hp
  obtain ⟨g1, g2⟩ := pos_growth p hpz n a b x ha hb hx i hi S hS
  obtain ⟨b1, b2⟩ := hb i hi
  -- the bound at step i
  have hbound : (p - 1) * ((p:ℤ) ^ i + (p - 2) ^ i) ≤ 2 * (2 ^ prec - 1) := by
    by_cases h : i < r0
    · have := hspec i (by omega) h; linarith
    · have hi0 : i = 0 := by omega
      subst hi0; simp; linarith
  have hA : (p - 1) * ((p:ℤ) ^ i + (2 - p) ^ i) ≤ (p - 1) * ((p:ℤ) ^ i + (p - 2) ^ i) := by
    apply mul_le_mul_of_nonneg_left _ (by linarith)
    have h := le_abs_self ((2 - (p:ℤ)) ^ i)
    rw [abs_pow, abs_sub_comm, abs_of_nonneg (by linarith : (0:ℤ) ≤ p - 2)] at h
    linarith
  have hB : (p - 1) * ((p:ℤ) ^ i - (2 - p) ^ i) ≤ (p - 1) * ((p:ℤ) ^ i + (p - 2) ^ i) := by
    apply mul_le_mul_of_nonneg_left _ (by linarith)
    have h := neg_abs_le ((2 - (p:ℤ)) ^ i)
    rw [abs_pow, abs_sub_comm, abs_of_nonneg (by linarith : (0:ℤ) ≤ p - 2)] at h
    linarith
  constructor <;> rw [abs_lt] <;> constructor <;> linarith

/-- C06 (balanced representation, odd modulus). -/
theorem C06_trsm_bound_exact_balanced (p prec : ℕ) (hp : 3 ≤ p) (hodd : p % 2 = 1) (hpp : (p:ℤ) ≤ 2 ^ prec) (hprec : prec ≤ 53) :
    ∃ r, trsmBoundBal 64 p (2 ^ prec - 1) = some r ∧ 1 ≤ r ∧
      ∀ n ≤ r, ∀ (a : ℕ → ℕ → ℤ) (b x : ℕ → ℤ),
        (∀ i < n, ∀ j < i, Reduced true p (a i j)) → (∀ i < n, Reduced true p (b i)) →
        SolvesUnitLower n a b x →
        ∀ i < n, ∀ S ⊆ range i,
          |b i - ∑ j ∈ S, a i j * x j| < 2 ^ prec ∧ |∑ j ∈ S, a i j * x j| < 2 ^ prec := by
  have hpow : (2:ℤ) ^ prec ≤ 2 ^ 53 := pow_le_pow_right₀ (by norm_num) hprec
  have hL : (2:ℤ) ^ prec - 1 < 2 ^ 53 := by linarith
  have hterm := trsmBal_terminates p (2 ^ prec - 1) hL hp 64 0 1 (by norm_num) (by norm_num) (by norm_num)
  obtain ⟨r0, hr0⟩ := Option.isSome_iff_exists.1 hterm
  refine ⟨max 1 r0, by unfold trsmBoundBal; rw [hr0]; rfl, le_max_left _ _, ?_⟩
  have h1 : rnd 53 (1:ℚ) = 1 := by exact_mod_cast rnd_int 53 (by norm_num) 1 (by norm_num)
  have hspec := (trsmBal_spec p (2 ^ prec - 1) hL hp 64 0 1 r0 (by simp [h1]) hr0).2
  intro n hn a b x ha hb hx i hi S hS
  set m : ℕ := (p - 1) / 2 with hm
  have hm1 : (p + 1) / 2 = m + 1 := by omega
  have hbd : ∀ z : ℤ, Reduced true p z → |z| ≤ m := by
    intro z hz; simp only [Reduced, if_true] at hz; omega
  have g := bal_growth m (by positivity) n a b x (fun i hi j hj => hbd _ (ha i hi j hj)) (fun i hi => hbd _ (hb i hi)) hx i hi S hS
  have hbound : (m:ℤ) * (m + 1) ^ i ≤ 2 ^ prec - 1 := by
    by_cases h : i < r0
    · have := hspec i (by omega) h
      rw [hm1] at this; exact_mod_cast this
    · have hi0 : i = 0 := by omega
      subst hi0; simp; omega
  have hbi := hbd _ (hb i hi)
  have := abs_sub (b i) (∑ j ∈ S, a i j * x j)
  constructor <;> linarith

/-- Non-vacuity: a modulus for which the bound is larger than 1 (`p = 67108865`, double, dimension 2). -/
example : ∃ r, trsmBoundPos 64 67108865 (2 ^ 53 - 1) = some r ∧ 2 ≤ r := by
  have hr : ∀ n : ℤ, |n| ≤ 2 ^ 53 → rnd 53 (n:ℚ) = n := fun n hn => rnd_int 53 (by norm_num) n hn
  have h2 : rnd 53 (2:ℚ) = 2 := by exact_mod_cast hr 2 (by norm_num)
  have h3 : rnd 53 (67108864:ℚ) = 67108864 := by exact_mod_cast hr 67108864 (by norm_num)
  have h4 : rnd 53 (67108865:ℚ) = 67108865 := by exact_mod_cast hr 67108865 (by norm_num)
  have h5 : rnd 53 (67108863:ℚ) = 67108863 := by exact_mod_cast hr 67108863 (by norm_num)
  have h6 : rnd 53 (134217728:ℚ) = 134217728 := by exact_mod_cast hr 134217728 (by norm_num)
  have h7 : rnd 53 (4503599627370496:ℚ) = 4503599627370496 := by exact_mod_cast hr 4503599627370496 (by norm_num)
  obtain ⟨r, hr', -⟩ := C06_trsm_bound_exact 67108865 53 (by norm_num) (by norm_num) le_rfl
  refine ⟨r, hr', ?_⟩
  unfold trsmBoundPos trsmLoopPos at hr'
  norm_num [h2, h3, h4, h5] at hr'
  unfold trsmLoopPos at hr'
  norm_num [h6, h7] at hr'
  obtain ⟨a, ha, rfl⟩ := hr'
  have e2 : ∀ (p1 p2 : ℚ), 0 ≤ p1 → True := fun _ _ _ => trivial
  have mono : ∀ fuel p1 p2 i a, trsmLoopPos 67108865 9007199254740991 fuel p1 p2 i = some a → i ≤ a := by
    intro fuel
    induction fuel with
    | zero => intro p1 p2 i a h; simp [trsmLoopPos] at h
    | succ f ih =>
      intro p1 p2 i a h
      unfold trsmLoopPos at h
      split_ifs at h
      · exact (Nat.le_succ i).trans (ih _ _ _ _ h)
      · simp at h; omega
  have := mono _ _ _ _ _ ha
  omega

/-- `TRSMBound` over the balanced ring modulo 2 does not terminate: it exceeds any number of iterations. -/
theorem C06_balanced_two_diverges (fuel : ℕ) : trsmBoundBal fuel 2 (2 ^ 53 - 1) = none := by
  have : ∀ fuel p1 i, trsmLoopBal 2 (2 ^ 53 - 1) fuel p1 i = none := by
    intro fuel
    induction fuel with
    | zero => intro p1 i; rfl
    | succ f ih =>
      intro p1 i
      unfold trsmLoopBal
      rw [if_pos (by norm_num [rnd_zero]), ih]
  unfold trsmBoundBal; rw [this]; rfl

/-! ## C07 -/

/-- Specification: membership in a closed interval. -/
def Itv.Has (I : Itv) (x : ℤ) : Prop := I.lo ≤ x ∧ x ≤ I.hi

lemma Itv.Has.abs_le {I : Itv} {x : ℤ} (h : Itv.Has I x) : |x| ≤ I.mag := by
  unfold Itv.Has at h; unfold Itv.mag; rw [_root_.abs_le]; constructor <;> omega

lemma maxDelayed_sum {ι : Type} (H : Helper) (beta : ℤ) (k : ℕ) (M : ℤ)
    (hk : |beta| * H.C.mag + k * (H.A.mag * H.B.mag) ≤ M) (hA : 0 ≤ H.A.mag * H.B.mag)
    (S : Finset ι) (hS : S.card ≤ k) (a b : ι → ℤ) (c : ℤ)
    (ha : ∀ i ∈ S, Itv.Has H.A (a i)) (hb : ∀ i ∈ S, Itv.Has H.B (b i)) (hc : Itv.Has H.C c) (alpha : ℤ)
    (hal : |alpha| = 1) : |beta * c + alpha * ∑ i ∈ S, a i * b i| ≤ M := by
  have h1 : |∑ i ∈ S, a i * b i| ≤ S.card * (H.A.mag * H.B.mag) := by
    rcases S.eq_empty_or_nonempty with rfl | ⟨i, hi⟩
    · simp
    · exact abs_sum_mul_le S a b _ _ ((abs_nonneg _).trans (ha i hi).abs_le)
        (fun i hi => (ha i hi).abs_le) (fun i hi => (hb i hi).abs_le)
  have h2 : (S.card : ℤ) * (H.A.mag * H.B.mag) ≤ k * (H.A.mag * H.B.mag) := by gcongr
  have h3 : |beta * c| ≤ |beta| * H.C.mag := by rw [abs_mul]; gcongr; exact hc.abs_le
  have h4 := abs_add_le (beta * c) (alpha * ∑ i ∈ S, a i * b i)
  rw [abs_mul alpha, hal, one_mul] at h4
  linarith

/-- C07, `MaxDelayedDim` over `double`/`float` (all operations rounded): if it returns `k ≥ 1` and the entries lie
in the declared intervals, then `beta*c ± ∑_{S} a*b` is at most `MaxStorableValue` in absolute value for every set
`S` of at most `k` indices. -/
theorem C07_maxDelayedDim_float (prec sizeMax : ℕ) (hprec : 1 ≤ prec) (H : Helper) (hM0 : 0 ≤ H.maxStorable)
    (hM : H.maxStorable < 2 ^ prec) (hIA : H.A.lo ≤ H.A.hi) (hIB : H.B.lo ≤ H.B.hi) (hIC : H.C.lo ≤ H.C.hi)
    (beta : ℤ) (k : ℕ) (hk : 1 ≤ k) (h : maxDelayedDimF prec sizeMax H beta = .ok k)
    (ι : Type) (S : Finset ι) (hS : S.card ≤ k) (a b : ι → ℤ) (c : ℤ)
    (ha : ∀ i ∈ S, Itv.Has H.A (a i)) (hb : ∀ i ∈ S, Itv.Has H.B (b i)) (hc : Itv.Has H.C c) (alpha : ℤ)
    (hal : |alpha| = 1) :
    |beta * c + alpha * ∑ i ∈ S, a i * b i| ≤ H.maxStorable := by
  refine maxDelayed_sum H beta k _ (maxDelayedF_bound prec sizeMax hprec H hM0 hM hIA hIB hIC beta k hk h)
    (mul_nonneg ?_ ?_) S hS a b c ha hb hc alpha hal <;> unfold Itv.mag <;> omega

/-- C07, `MaxDelayedDim` over exact integers. -/
theorem C07_maxDelayedDim_int (sizeMax : ℕ) (H : Helper) (hM0 : 0 ≤ H.maxStorable)
    (hIA : H.A.lo ≤ H.A.hi) (hIB : H.B.lo ≤ H.B.hi)
    (beta : ℤ) (k : ℕ) (hk : 1 ≤ k) (h : maxDelayedDimZ sizeMax H beta = .ok k)
    (ι : Type) (S : Finset ι) (hS : S.card ≤ k) (a b : ι → ℤ) (c : ℤ)
    (ha : ∀ i ∈ S, Itv.Has H.A (a i)) (hb : ∀ i ∈ S, Itv.Has H.B (b i)) (hc : Itv.Has H.C c) (alpha : ℤ)
    (hal : |alpha| = 1) :
    |beta * c + alpha * ∑ i ∈ S, a i * b i| ≤ H.maxStorable := by
  have hmA : 0 ≤ H.A.mag := by unfold Itv.mag; omega
  have hmB : 0 ≤ H.B.mag := by unfold Itv.mag; omega
  refine maxDelayed_sum H beta k _ ?_ (by positivity) S hS a b c ha hb hc alpha hal
  unfold maxDelayedDimZ at h
  rw [if_neg (by omega)] at h
  simp only at h
  split_ifs at h with hd hz
  · simp at h; omega
  · push Not at hd
    simp only [Except.ok.injEq] at h
    have h0 := Int.ediv_nonneg hd.1 hd.2
    have hk' : (k:ℤ) ≤ (H.maxStorable - |beta| * H.C.mag) / (H.A.mag * H.B.mag) := by omega
    have h1 := Int.ediv_mul_le (H.maxStorable - |beta| * H.C.mag) hz
    have h2 : (k:ℤ) * (H.A.mag * H.B.mag) ≤ (H.maxStorable - |beta| * H.C.mag) / (H.A.mag * H.B.mag) * (H.A.mag * H.B.mag) := by
      gcongr
    linarith

/-- Non-vacuity: `ModularBalanced<float>` with `p = 7`, reduced operands, `beta = 0`. -/
example : maxDelayedDimZ 0 ⟨⟨-3, 3⟩, ⟨-3, 3⟩, ⟨-3, 3⟩, ⟨-3, 3⟩, ⟨0, 0⟩, 2 ^ 24 - 1⟩ 1 = .ok 0 ∧
    maxDelayedDimZ (2 ^ 64 - 1) ⟨⟨-3, 3⟩, ⟨-3, 3⟩, ⟨-3, 3⟩, ⟨-3, 3⟩, ⟨0, 0⟩, 2 ^ 24 - 1⟩ 1 = .ok 1864134 := by
  decide +kernel

lemma prod_mem (A B : Itv) (hA : A.lo ≤ 0 ∧ 0 ≤ A.hi) (hB : B.lo ≤ 0 ∧ 0 ≤ B.hi) (a b : ℤ) (ha : Itv.Has A a) (hb : Itv.Has B b) :
    min (A.lo * B.hi) (A.hi * B.lo) ≤ a * b ∧ a * b ≤ max (A.lo * B.lo) (A.hi * B.hi) := by
  unfold Itv.Has at ha hb
  rcases le_total 0 a with h | h <;> rcases le_total 0 b with h' | h'
  · exact ⟨min_le_of_left_le (by nlinarith), le_max_of_le_right (by nlinarith)⟩
  · exact ⟨min_le_of_right_le (by nlinarith), le_max_of_le_right (by nlinarith)⟩
  · exact ⟨min_le_of_left_le (by nlinarith), le_max_of_le_left (by nlinarith)⟩
  · exact ⟨min_le_of_left_le (by nlinarith), le_max_of_le_left (by nlinarith)⟩

/-- C07, `setOutBounds`: for operand intervals containing 0, every value `beta*c + alpha*∑_S a*b` with at most `k`
products lies in the output interval. -/
theorem C07_setOutBounds_sound (H : Helper) (k : ℕ) (alpha beta : ℤ)
    (hA : Itv.Has H.A 0) (hB : Itv.Has H.B 0)
    (ι : Type) (S : Finset ι) (hS : S.card ≤ k) (a b : ι → ℤ) (c : ℤ)
    (ha : ∀ i ∈ S, Itv.Has H.A (a i)) (hb : ∀ i ∈ S, Itv.Has H.B (b i)) (hc : Itv.Has H.C c) :
    Itv.Has (setOutBounds H k alpha beta).Out (beta * c + alpha * ∑ i ∈ S, a i * b i) := by
  set mn := min (H.A.lo * H.B.hi) (H.A.hi * H.B.lo) with hmn
  set mx := max (H.A.lo * H.B.lo) (H.A.hi * H.B.hi) with hmx
  have hmn0 : mn ≤ 0 := by have := (prod_mem H.A H.B hA hB 0 0 hA hB).1; rwa [zero_mul] at this
  have hmx0 : 0 ≤ mx := by have := (prod_mem H.A H.B hA hB 0 0 hA hB).2; rwa [zero_mul] at this
  have hlo : (k:ℤ) * mn ≤ ∑ i ∈ S, a i * b i := by
    calc (k:ℤ) * mn ≤ S.card * mn := mul_le_mul_of_nonpos_right (by exact_mod_cast hS) hmn0
      _ = ∑ _i ∈ S, mn := by simp
      _ ≤ _ := sum_le_sum fun i hi => (prod_mem H.A H.B hA hB _ _ (ha i hi) (hb i hi)).1
  have hhi : ∑ i ∈ S, a i * b i ≤ (k:ℤ) * mx := by
    calc _ ≤ ∑ _i ∈ S, mx := sum_le_sum fun i hi => (prod_mem H.A H.B hA hB _ _ (ha i hi) (hb i hi)).2
      _ = S.card * mx := by simp
      _ ≤ _ := by gcongr
  obtain ⟨c1, c2⟩ := hc
  unfold setOutBounds Itv.Has
  simp only [← hmn, ← hmx]
  by_cases hal : alpha > 0
  · rw [if_pos hal]
    have e1 : alpha * (k * mn) ≤ alpha * ∑ i ∈ S, a i * b i := mul_le_mul_of_nonneg_left hlo hal.le
    have e2 : alpha * ∑ i ∈ S, a i * b i ≤ alpha * (k * mx) := mul_le_mul_of_nonneg_left hhi hal.le
    by_cases hbe : beta < 0
    · simp only [if_pos hbe]
      constructor <;> nlinarith
    · simp only [if_neg hbe]
      push Not at hbe
      constructor <;> nlinarith
  · rw [if_neg hal]
    push Not at hal
    have e1 : alpha * ∑ i ∈ S, a i * b i ≤ alpha * (k * mn) := mul_le_mul_of_nonpos_left hlo hal
    have e2 : alpha * (k * mx) ≤ alpha * ∑ i ∈ S, a i * b i := mul_le_mul_of_nonpos_left hhi hal
    by_cases hbe : beta < 0
    · simp only [if_pos hbe]
      constructor <;> nlinarith
    · simp only [if_neg hbe]
      push Not at hbe
      constructor <;> nlinarith

/-- The hypothesis that the operand intervals contain 0 is needed: with entries in `[2,3]` the declared lower
bound exceeds the value of a product. -/
theorem C07_setOutBounds_needs_zero :
    ¬ Itv.Has (setOutBounds ⟨⟨0, 6⟩, ⟨2, 3⟩, ⟨2, 3⟩, ⟨0, 6⟩, ⟨0, 0⟩, 100⟩ 1 1 0).Out (2 * 2) := by
  unfold Itv.Has; decide +kernel

/-- Non-vacuity of `C07_setOutBounds_sound`. -/
example : (setOutBounds ⟨⟨-3, 3⟩, ⟨-3, 3⟩, ⟨-3, 2⟩, ⟨-3, 3⟩, ⟨0, 0⟩, 100⟩ 5 (-1) 2).Out = ⟨-51, 51⟩ := by decide +kernel

/-- C07, `NeedPreAddReduction`: with operands in the intervals left by the call (which are the field's intervals
exactly when it asks for a reduction), the sum lies in the announced interval; and the announced interval is
storable as soon as the sum of two reduced elements is. -/
theorem C07_needPreAdd_sound (F o1 o2 : Itv) (M : ℤ) :
    let r := needPreAdd F M o1 o2
    (r.op1 = if r.reduce then F else o1) ∧ (r.op2 = if r.reduce then F else o2) ∧
    (∀ x y, Itv.Has r.op1 x → Itv.Has r.op2 y → Itv.Has r.out (x + y)) ∧
    (-M ≤ 2 * F.lo → 2 * F.hi ≤ M → -M ≤ r.out.lo ∧ r.out.hi ≤ M) := by
  unfold needPreAdd Itv.Has
  split_ifs with h <;> simp <;> (try push Not at h) <;> refine ⟨?_, ?_⟩ <;> intros <;> omega

/-- C07, `NeedPreSubReduction`. -/
theorem C07_needPreSub_sound (F o1 o2 : Itv) (M : ℤ) :
    let r := needPreSub F M o1 o2
    (r.op1 = if r.reduce then F else o1) ∧ (r.op2 = if r.reduce then F else o2) ∧
    (∀ x y, Itv.Has r.op1 x → Itv.Has r.op2 y → Itv.Has r.out (x - y)) ∧
    (F.hi - F.lo ≤ M → -M ≤ r.out.lo ∧ r.out.hi ≤ M) := by
  unfold needPreSub Itv.Has
  split_ifs with h <;> simp <;> (try push Not at h) <;> refine ⟨?_, ?_⟩ <;> intros <;> omega

/-- C07, `NeedDoublePreAddReduction` (`op1 + beta*op2`, only `op1` may be reduced). -/
theorem C07_needDoublePreAdd_sound (F o1 o2 : Itv) (M beta : ℤ) :
    let r := needDoublePreAdd F M o1 o2 beta
    (r.op1 = if r.reduce then F else o1) ∧ r.op2 = o2 ∧
    (∀ x y, Itv.Has r.op1 x → Itv.Has r.op2 y → Itv.Has r.out (x + beta * y)) ∧
    (r.reduce = false → -M ≤ r.out.lo ∧ r.out.hi ≤ M) := by
  have key : ∀ y, Itv.Has o2 y → min (beta * o2.lo) (beta * o2.hi) ≤ beta * y ∧
      beta * y ≤ max (beta * o2.lo) (beta * o2.hi) := by
    intro y hy
    rcases le_total 0 beta with h | h
    · exact ⟨min_le_of_left_le (mul_le_mul_of_nonneg_left hy.1 h), le_max_of_le_right (mul_le_mul_of_nonneg_left hy.2 h)⟩
    · exact ⟨min_le_of_right_le (mul_le_mul_of_nonpos_left hy.2 h), le_max_of_le_left (mul_le_mul_of_nonpos_left hy.1 h)⟩
  unfold needDoublePreAdd
  generalize min (beta * o2.lo) (beta * o2.hi) = lo at *
  generalize max (beta * o2.lo) (beta * o2.hi) = hi at *
  by_cases h : o1.hi > M - hi ∨ -o1.lo > M + lo <;> simp only [h, if_true, if_false]
  · simp only [if_true, true_and, reduceCtorEq, IsEmpty.forall_iff, and_true]
    intro x y hx hy; have := key y hy; unfold Itv.Has at *; simp only; constructor <;> linarith
  · push Not at h
    simp only [Bool.false_eq_true, if_false, true_and]
    refine ⟨?_, fun _ => ⟨by linarith, by linarith⟩⟩
    intro x y hx hy; have := key y hy; unfold Itv.Has at *; simp only; constructor <;> linarith

/-- C07, `NeedPreAxpyReduction` (`op1 + x*op2`, floating-point quotients rounded): for operand intervals whose
first one contains 0 and is storable, the value lies in the announced interval; when no reduction is requested
the announced interval is storable. -/
theorem C07_needPreAxpy_sound (prec : ℕ) (hprec : 1 ≤ prec) (F o1 o2 : Itv) (M x : ℤ) (hM : M < 2 ^ prec)
    (h1 : Itv.Has o1 0) (h1lo : -M ≤ o1.lo) (h1hi : o1.hi ≤ M) :
    let r := needPreAxpy prec F M o1 o2 x
    (r.op1 = if r.reduce then F else o1) ∧ (r.op2 = if r.reduce then F else o2) ∧
    (∀ u v, Itv.Has r.op1 u → Itv.Has r.op2 v → Itv.Has r.out (u + x * v)) ∧
    (r.reduce = false → -M ≤ r.out.lo ∧ r.out.hi ≤ M) := by
  unfold Itv.Has at h1
  have hq : ∀ (a d k : ℤ), 0 ≤ a → a ≤ M → 0 < d → (k:ℚ) ≤ rnd prec ((a:ℚ) / d) → k * d ≤ a :=
    fun a d k ha ha' hd hk => mul_le_of_le_rnd_div prec hprec a d k ha (by linarith) hd hk
  unfold needPreAxpy
  by_cases hx : x < 0
  · simp only [if_pos hx]
    by_cases h : (o2.lo : ℚ) < rnd prec (((M - o1.hi : ℤ) : ℚ) / x) ∨ (o2.hi : ℚ) > rnd prec (((-M - o1.lo : ℤ) : ℚ) / x)
    · simp only [if_pos h]
      simp only [if_true, true_and, reduceCtorEq, IsEmpty.forall_iff, and_true]
      intro u v hu hv; unfold Itv.Has at *; simp only
      constructor <;> nlinarith
    · simp only [if_neg h]
      push Not at h
      simp only [Bool.false_eq_true, if_false, true_and]
      refine ⟨?_, fun _ => ?_⟩
      · intro u v hu hv; unfold Itv.Has at *; simp only; constructor <;> nlinarith
      · obtain ⟨ha, hb⟩ := h
        -- first: rnd ((M - o1.hi)/x) ≤ o2.lo
        have e1 : (((-o2.lo : ℤ)) : ℚ) ≤ rnd prec (((M - o1.hi : ℤ) : ℚ) / ((-x : ℤ) : ℚ)) := by
          rw [show (((M - o1.hi : ℤ) : ℚ) / ((-x : ℤ) : ℚ)) = -(((M - o1.hi : ℤ) : ℚ) / (x : ℚ)) by
            push_cast; rw [div_neg], rnd_neg]; push_cast at ha ⊢; linarith
        have e2 : ((o2.hi : ℤ) : ℚ) ≤ rnd prec (((M + o1.lo : ℤ) : ℚ) / ((-x : ℤ) : ℚ)) := by
          rw [show (((M + o1.lo : ℤ) : ℚ) / ((-x : ℤ) : ℚ)) = (((-M - o1.lo : ℤ) : ℚ) / (x : ℚ)) by
            push_cast; rw [div_neg, ← neg_div]; congr 1; ring]; exact hb
        have f1 := hq _ _ _ (by linarith) (by linarith) (by linarith) e1
        have f2 := hq _ _ _ (by linarith) (by linarith) (by linarith) e2
        constructor <;> nlinarith
  · simp only [if_neg hx]
    push Not at hx
    by_cases h : x ≠ 0 ∧ ((o2.hi : ℚ) > rnd prec (((M - o1.hi : ℤ) : ℚ) / x) ∨ (o2.lo : ℚ) < rnd prec (((-M - o1.lo : ℤ) : ℚ) / x))
    · simp only [if_pos h]
      simp only [if_true, true_and, reduceCtorEq, IsEmpty.forall_iff, and_true]
      intro u v hu hv; unfold Itv.Has at *; simp only
      constructor <;> nlinarith
    · simp only [if_neg h]
      simp only [Bool.false_eq_true, if_false, true_and]
      refine ⟨?_, fun _ => ?_⟩
      · intro u v hu hv; unfold Itv.Has at *; simp only; constructor <;> nlinarith
      · rcases hx.eq_or_lt with h0 | hpos
        · rw [← h0]; simp only [zero_mul, add_zero]; exact ⟨h1lo, h1hi⟩
        · have h' : ¬ ((o2.hi : ℚ) > rnd prec (((M - o1.hi : ℤ) : ℚ) / x) ∨ (o2.lo : ℚ) < rnd prec (((-M - o1.lo : ℤ) : ℚ) / x)) :=
            fun hc => h ⟨hpos.ne', hc⟩
          push Not at h'
          obtain ⟨ha, hb⟩ := h'
          have e2 : ((-o2.lo : ℤ) : ℚ) ≤ rnd prec (((M + o1.lo : ℤ) : ℚ) / (x : ℚ)) := by
            rw [show (((M + o1.lo : ℤ) : ℚ) / (x : ℚ)) = -(((-M - o1.lo : ℤ) : ℚ) / (x : ℚ)) by
              rw [← neg_div]; congr 1; push_cast; ring, rnd_neg]; push_cast at hb ⊢; linarith
          have f1 := hq _ _ _ (by linarith) (by linarith) hpos ha
          have f2 := hq _ _ _ (by linarith) (by linarith) hpos e2
          constructor <;> nlinarith

/-- Non-vacuity of the `NeedPre*` theorems: both outcomes occur. -/
example : (needPreAdd ⟨-3, 3⟩ 100 ⟨-40, 50⟩ ⟨-60, 50⟩).reduce = false ∧
    (needPreAdd ⟨-3, 3⟩ 100 ⟨-40, 50⟩ ⟨-61, 50⟩).reduce = true ∧
    (needPreSub ⟨-3, 3⟩ 100 ⟨-40, 50⟩ ⟨-50, 60⟩).reduce = false ∧
    (needDoublePreAdd ⟨-3, 3⟩ 100 ⟨-40, 50⟩ ⟨-25, 20⟩ (-2)).reduce = false := by decide +kernel

end Verif.Props
