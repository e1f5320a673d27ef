import Verif.Proofs.LazyGemm
import Mathlib.Tactic.NormNum.Prime

/-!
# C08: classical product with delayed reductions
-/

namespace Verif.Props
open Verif Verif.FP Verif.Bounds Verif.Lazy Finset

/-- C08 (full statement: for every modulus, `alpha`, `beta`, inner dimension and reduced operands, every intermediate
value is exact and the result is `alpha*A*B + beta*C` reduced).  Proved for every order of the BLAS summations,
under `Safe`: when `beta = 0` and there are several blocks, one more reduced element must fit on top of a block
(`C08_violated` shows that the condition cannot be dropped). -/
theorem C08_lazy_fgemm_partial (F : FpField) (hF : F.WF) (sizeMax : ℕ) (sched : ℕ → ℕ → SumTree)
    (hsched : ∀ i n, (sched i n).Covers n) (k : ℕ) (alpha beta c : ℤ) (a b : ℕ → ℤ)
    (halpha : Itv.Has F.itv alpha) (hbeta : Itv.Has F.itv beta) (hc : Itv.Has F.itv c)
    (ha : ∀ l < k, Itv.Has F.itv (a l)) (hb : ∀ l < k, Itv.Has F.itv (b l)) (hsafe : Safe F sizeMax k beta) :
    ∃ r, fgemmDelayed F sizeMax sched k alpha a b beta c = .ok r ∧ Itv.Has F.itv r ∧
      r ≡ alpha * (∑ l ∈ range k, a l * b l) + beta * c [ZMOD F.p] := by
  haveI := Fact.mk hF.prime
  unfold fgemmDelayed
  by_cases h0 : k = 0 ∨ alpha = 0
  · rw [if_pos h0]
    refine ⟨_, rfl, hF.red_mem _, (F.red_modEq _).trans ?_⟩
    rcases h0 with rfl | rfl <;> simp
  · rw [if_neg h0]
    push Not at h0
    by_cases h1 : alpha = F.one ∨ alpha = F.mOne
    · have h1' : ¬ (alpha ≠ F.one ∧ alpha ≠ F.mOne) := by tauto
      simp only [if_neg h1']
      obtain ⟨v, O, hv, hO, hm⟩ := fgemmLazy_spec F hF sizeMax sched hsched k (by omega) alpha h1 a b beta c ha hb hc hbeta hsafe
      simp only [hv, bind, Except.bind, scalAndReduce, if_pos h1]
      exact ⟨_, rfl, hF.red_mem _, (F.red_modEq _).trans hm⟩
    · have h1' : alpha ≠ F.one ∧ alpha ≠ F.mOne := by tauto
      simp only [if_pos h1']
      have hane : ¬ ((alpha : ZMod F.p) = 0) := fun h => h0.2 (hF.eq_zero_of_cast alpha halpha h)
      have hdiv := hF.div_spec beta alpha hane
      have hsafe' : Safe F sizeMax k (F.div beta alpha) := by
        intro hz
        apply hsafe
        rw [hz] at hdiv
        apply hF.eq_zero_of_cast beta hbeta
        rw [← hdiv]; simp
      obtain ⟨v, O, hv, hO, hm⟩ := fgemmLazy_spec F hF sizeMax sched hsched k (by omega) F.one (Or.inl rfl) a b
        (F.div beta alpha) c ha hb hc (hF.red_mem _) hsafe'
      have hm' : alpha * v ≡ alpha * (∑ l ∈ range k, a l * b l) + beta * c [ZMOD F.p] := by
        rw [← ZMod.intCast_eq_intCast_iff] at hm ⊢
        have hone : ((F.one : ℤ) : ZMod F.p) = 1 := by
          have := (ZMod.intCast_eq_intCast_iff _ _ _).2 (F.red_modEq 1)
          simpa [FpField.one] using this
        push_cast at hm ⊢
        rw [hm, hone, ← hdiv]; push_cast; ring
      simp only [hv, bind, Except.bind, scalAndReduce, if_neg h1]
      by_cases hbig : (O.mag : ℚ) > rnd F.prec (((2 ^ F.prec - 1 : ℤ) : ℚ) / |alpha|)
      · rw [if_pos hbig]
        refine ⟨_, rfl, hF.red_mem _, (F.red_modEq _).trans (Int.ModEq.trans ?_ hm')⟩
        exact (F.red_modEq v).mul_left _
      · rw [if_neg hbig]
        push Not at hbig
        have hpos : 0 < |alpha| := abs_pos.2 h0.2
        have hpow : (1:ℤ) ≤ 2 ^ F.prec := one_le_pow₀ (by norm_num)
        have hfit := mul_le_of_le_rnd_div F.prec hF.prec_pos (2 ^ F.prec - 1) |alpha| O.mag (by linarith) (by linarith)
          hpos hbig
        have : |alpha * v| ≤ 2 ^ F.prec := by
          rw [abs_mul]
          have := hO.abs_le
          nlinarith
        unfold chk
        rw [if_pos this]
        exact ⟨_, rfl, hF.red_mem _, (F.red_modEq _).trans hm'⟩

/-- With `beta ≠ 0` there is no condition. -/
theorem C08_lazy_fgemm_beta_nonzero (F : FpField) (hF : F.WF) (sizeMax : ℕ) (sched : ℕ → ℕ → SumTree)
    (hsched : ∀ i n, (sched i n).Covers n) (k : ℕ) (alpha beta c : ℤ) (a b : ℕ → ℤ)
    (halpha : Itv.Has F.itv alpha) (hbeta : Itv.Has F.itv beta) (hne : beta ≠ 0) (hc : Itv.Has F.itv c)
    (ha : ∀ l < k, Itv.Has F.itv (a l)) (hb : ∀ l < k, Itv.Has F.itv (b l)) :
    ∃ r, fgemmDelayed F sizeMax sched k alpha a b beta c = .ok r ∧ Itv.Has F.itv r ∧
      r ≡ alpha * (∑ l ∈ range k, a l * b l) + beta * c [ZMOD F.p] :=
  C08_lazy_fgemm_partial F hF sizeMax sched hsched k alpha beta c a b halpha hbeta hc ha hb (fun h => absurd h hne)

/-- `ModularBalanced<float>` with `p = 7`. -/
def F7 : FpField := ⟨7, -3, 24⟩

lemma F7_wf : F7.WF := ⟨by norm_num [F7], by norm_num [F7], by norm_num [F7], by norm_num [F7]⟩

/-- Non-vacuity: the field of the counterexample satisfies the hypotheses of the theorem (here with
`beta = 1`), and `Modular<double>` with `p = 65537` too. -/
example : F7.WF ∧ Itv.Has F7.itv 1 ∧ (⟨65537, 0, 53⟩ : FpField).WF :=
  ⟨F7_wf, by unfold Itv.Has; decide, ⟨by norm_num, by norm_num, by norm_num, by norm_num⟩⟩

/-- A schedule: left to right, the term `beta*c` first. -/
def leftToRight : ℕ → SumTree
  | 0 => .leaf none
  | n+1 => .node (leftToRight n) (.leaf (some n))

lemma leftToRight_covers (n : ℕ) : (leftToRight n).Covers n := by
  unfold SumTree.Covers
  induction n with
  | zero => simp [leftToRight, SumTree.leaves]
  | succ n ih =>
    simp only [leftToRight, SumTree.leaves, List.range_succ, List.map_append, List.map_cons, List.map_nil]
    exact ih.append_right _

/-- Operands of the counterexample: 1864135 products equal to 9 and one equal to 2. -/
def vioA (l : ℕ) : ℤ := if l < 1864135 then 3 else 2
def vioB (l : ℕ) : ℤ := if l < 1864135 then 3 else 1

/-- The code violates C08: over `ModularBalanced<float>` modulo 7, with `beta = 0`, `alpha = 1`, and 1864136 reduced
products, whatever the summation order the floating-point accumulation reaches `2^24 + 1`, which is not
representable. -/
theorem C08_violated (sizeMax : ℕ) (sched : ℕ → ℕ → SumTree) (hsched : ∀ i n, (sched i n).Covers n) :
    (∀ l < 1864136, Itv.Has F7.itv (vioA l) ∧ Itv.Has F7.itv (vioB l)) ∧
    fgemmDelayed F7 sizeMax sched 1864136 1 vioA vioB 0 0 = .error .inexact ∧
    rnd 24 ((2:ℚ) ^ 24 + 1) ≠ 2 ^ 24 + 1 := by
  refine ⟨?_, ?_, ?_⟩
  · intro l _; unfold Itv.Has vioA vioB F7 FpField.itv; simp only; split_ifs <;> norm_num
  · have hone : F7.one = 1 := by decide
    have hmone : F7.mOne = -1 := by decide
    have hk : maxDelayedDimF 24 sizeMax (initHelper F7) 0 = .ok 1864135 := by
      have h1 : rnd 24 (9:ℚ) = 9 := by exact_mod_cast rnd_int 24 (by norm_num) 9 (by norm_num)
      have h2 : rnd 24 (16777215:ℚ) = 16777215 := by exact_mod_cast rnd_int 24 (by norm_num) 16777215 (by norm_num)
      have h3 : rnd 24 (1864135:ℚ) = 1864135 := by exact_mod_cast rnd_int 24 (by norm_num) 1864135 (by norm_num)
      have hmag : (⟨-3, 3⟩ : Itv).mag = 3 := by decide
      unfold maxDelayedDimF initHelper F7 FpField.itv
      norm_num [hmag, rnd_zero, h1, h2, h3]
      rfl
    have hker0 : kernel 24 (sched 0 1) 1 (fun l => vioA (1 * 1864135 + l)) (fun l => vioB (1 * 1864135 + l)) 0 0 = .ok 2 := by
      rw [kernel_ok 24 1 (sched 0 1) (hsched 0 1)]
      · simp [vioA, vioB]
      · simp [vioA, vioB]
    have hker1 : kernel 24 (sched 1 1864135) 1 (fun l => vioA (0 * 1864135 + l)) (fun l => vioB (0 * 1864135 + l)) 1 2
        = .error .inexact := by
      cases h : kernel 24 (sched 1 1864135) 1 (fun l => vioA (0 * 1864135 + l)) (fun l => vioB (0 * 1864135 + l)) 1 2 with
      | ok x =>
        exfalso
        obtain ⟨h1, h2⟩ := eval_bound _ _ _ _ h
        rw [covers_sum _ 1864135 (hsched _ _)] at h1
        have h3 : ∑ l ∈ range 1864135, 1 * (vioA (0 * 1864135 + l) * vioB (0 * 1864135 + l)) = 1864135 * 9 := by
          rw [sum_congr rfl (g := fun _ => (9:ℤ))]
          · simp
          · intro l hl; rw [mem_range] at hl; simp [vioA, vioB, hl]
        simp only at h1
        rw [h3] at h1
        rw [h1] at h2
        norm_num at h2
      | error e =>
        have : ∀ (t : SumTree) (v : Option ℕ → ℤ) (e : Fault), t.eval 24 v = .error e → e = .inexact := by
          intro t v
          induction t with
          | leaf t =>
            intro e h
            simp only [SumTree.eval, chk] at h
            split_ifs at h
            simpa using h.symm
          | node l r ihl ihr =>
            intro e h
            simp only [SumTree.eval, bind, Except.bind] at h
            cases hl : l.eval 24 v with
            | error e' => rw [hl] at h; simp at h; rw [← h]; exact ihl e' hl
            | ok y =>
              cases hr : r.eval 24 v with
              | error e' => rw [hl, hr] at h; simp at h; rw [← h]; exact ihr e' hr
              | ok z =>
                rw [hl, hr] at h
                simp only [chk] at h
                split_ifs at h
                simpa using h.symm
        rw [this _ _ _ h]
    have hexc : Itv.exceeds F7.itv F7.itv = false := by decide
    have hprec : F7.prec = 24 := rfl
    have hred : F7.red 2 = 2 := by decide
    unfold fgemmDelayed
    rw [if_neg (by norm_num)]
    have hH : (initHelper F7).A = F7.itv ∧ (initHelper F7).B = F7.itv ∧ (initHelper F7).C = F7.itv := ⟨rfl, rfl, rfl⟩
    have e1 : ¬ ((1:ℤ) ≠ F7.one ∧ (1:ℤ) ≠ F7.mOne) := by rw [hone]; simp
    simp only [if_neg e1]
    unfold fgemmLazy
    have e2 : ((1:ℤ) = F7.mOne ∨ (1:ℤ) = F7.one) := by rw [hone]; simp
    have e3 : ¬ ((1:ℤ) = F7.mOne) := by rw [hmone]; norm_num
    have e4 : ¬ ((0:ℤ) = F7.mOne) := by rw [hmone]; norm_num
    simp only [if_pos e2, if_neg e3, if_neg e4, hprec, hk, bind, Except.bind, hH.1, hH.2.1, hH.2.2, hexc,
      Bool.false_eq_true, and_false, if_false]
    have e5 : ¬ (1864135 ≤ 1864136 / 2) := by norm_num
    have e6 : ¬ (1864136 % 1864135 = 0) := by norm_num
    have e7 : (1864136 % 1864135) = 1 := by norm_num
    have e8 : (1864136 / 1864135) = 1 := by norm_num
    have e9 : min 1864136 1864135 = 1864135 := by norm_num
    simp only [if_neg e5, if_neg e6, e8, e9]
    rw [if_neg (by norm_num)]
    simp only [e7, hker0]
    simp only [iter, bind, Except.bind, pure, Except.pure, hred, zero_add, hker1]
  · have : rnd 24 ((2:ℚ) ^ 24 + 1) = 2 ^ 24 := by
      rw [rnd_eval 24 _ 24 (by norm_num) (by norm_num), roundEven_tie _ (2 ^ 23) (by norm_num) (by left; norm_num)]
      norm_num
    rw [this]; norm_num

end Verif.Props
