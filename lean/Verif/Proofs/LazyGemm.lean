import Verif.Model.LazyGemm
import Verif.Props.Bounds
import Mathlib.Algebra.BigOperators.Intervals
import Mathlib.Algebra.Order.BigOperators.Group.List
import Mathlib.Data.Int.ModEq
import Mathlib.Algebra.Field.ZMod

namespace Verif.Lazy
open Verif Verif.FP Verif.Bounds Verif.Props Finset

/-! ### Sum trees -/

lemma abs_list_sum_le (l : List (Option ℕ)) (v : Option ℕ → ℤ) :
    |(l.map v).sum| ≤ (l.map (fun t => |v t|)).sum := by
  induction l with
  | nil => simp
  | cons a l ih =>
    simp only [List.map_cons, List.sum_cons]
    have := abs_add_le (v a) (l.map v).sum
    linarith

lemma list_abs_nonneg (l : List (Option ℕ)) (v : Option ℕ → ℤ) : 0 ≤ (l.map (fun t => |v t|)).sum := by
  apply List.sum_nonneg
  intro x hx
  obtain ⟨t, _, rfl⟩ := List.mem_map.1 hx
  exact abs_nonneg _

lemma eval_ok (prec : ℕ) (v : Option ℕ → ℤ) (t : SumTree) (h : (t.leaves.map (fun t => |v t|)).sum ≤ 2 ^ prec) :
    t.eval prec v = .ok (t.leaves.map v).sum := by
  induction t with
  | leaf t => simp [SumTree.leaves] at h ⊢; simp [SumTree.eval, chk, h]
  | node l r ihl ihr =>
    simp only [SumTree.leaves, List.map_append, List.sum_append] at h ⊢
    have h1 := list_abs_nonneg l.leaves v
    have h2 := list_abs_nonneg r.leaves v
    simp only [SumTree.eval, ihl (by linarith), ihr (by linarith)]
    have h3 := abs_list_sum_le l.leaves v
    have h4 := abs_list_sum_le r.leaves v
    have h5 := abs_add_le (l.leaves.map v).sum (r.leaves.map v).sum
    simp only [bind, Except.bind, chk]
    rw [if_pos (by linarith)]

lemma eval_bound (prec : ℕ) (v : Option ℕ → ℤ) (t : SumTree) (x : ℤ) (h : t.eval prec v = .ok x) :
    x = (t.leaves.map v).sum ∧ |x| ≤ 2 ^ prec := by
  induction t generalizing x with
  | leaf t =>
    simp only [SumTree.eval, chk] at h
    split_ifs at h with h1
    simp only [Except.ok.injEq] at h
    subst h; simp [SumTree.leaves, h1]
  | node l r ihl ihr =>
    simp only [SumTree.eval, bind, Except.bind] at h
    cases hl : l.eval prec v with
    | error e => simp [hl] at h
    | ok y =>
      cases hr : r.eval prec v with
      | error e => simp [hl, hr] at h
      | ok z =>
        simp only [hl, hr, chk] at h
        split_ifs at h with h1
        simp only [Except.ok.injEq] at h
        subst h
        refine ⟨?_, h1⟩
        rw [(ihl y hl).1, (ihr z hr).1]; simp [SumTree.leaves]

lemma covers_sum (t : SumTree) (k : ℕ) (h : t.Covers k) (v : Option ℕ → ℤ) :
    (t.leaves.map v).sum = v none + ∑ l ∈ range k, v (some l) := by
  rw [(h.map v).sum_eq]
  simp only [List.map_cons, List.sum_cons, List.map_map]
  congr 1

/-- The BLAS kernel is exact whenever the sum of the absolute values fits. -/
lemma kernel_ok (prec k : ℕ) (t : SumTree) (ht : t.Covers k) (alpha : ℤ) (a b : ℕ → ℤ) (beta c : ℤ)
    (h : |beta * c| + ∑ l ∈ range k, |alpha * (a l * b l)| ≤ 2 ^ prec) :
    kernel prec t alpha a b beta c = .ok (beta * c + alpha * ∑ l ∈ range k, a l * b l) := by
  unfold kernel
  rw [eval_ok]
  · rw [covers_sum t k ht]; simp only; rw [mul_sum]
  · rw [covers_sum t k ht (fun t => |_|)]; exact h

lemma sum_abs_le (k : ℕ) (alpha : ℤ) (hal : |alpha| = 1) (a b : ℕ → ℤ) (m : ℤ) (hm : 0 ≤ m)
    (ha : ∀ l < k, |a l| ≤ m) (hb : ∀ l < k, |b l| ≤ m) : ∑ l ∈ range k, |alpha * (a l * b l)| ≤ k * (m * m) := by
  calc _ ≤ ∑ _l ∈ range k, m * m := by
        apply sum_le_sum; intro l hl; rw [abs_mul, hal, one_mul, abs_mul]
        exact mul_le_mul (ha l (mem_range.1 hl)) (hb l (mem_range.1 hl)) (abs_nonneg _) hm
    _ = _ := by simp

/-! ### The field -/

/-- Well-formed: prime modulus, representatives around 0, all exactly stored. -/
structure FpField.WF (F : FpField) : Prop where
  prime : Nat.Prime F.p
  lo_nonpos : F.lo ≤ 0
  hi_nonneg : 0 ≤ F.lo + F.p - 1
  prec_pos : 1 ≤ F.prec

namespace FpField
variable {F : FpField}

lemma WF.p_pos (h : F.WF) : 2 ≤ F.p := h.prime.two_le

lemma WF.red_mem (h : F.WF) (x : ℤ) : Itv.Has F.itv (F.red x) := by
  have hp : (0:ℤ) < F.p := by have := h.p_pos; omega
  have h1 := Int.emod_nonneg (x - F.lo) hp.ne'
  have h2 := Int.emod_lt_of_pos (x - F.lo) hp
  unfold Itv.Has FpField.itv FpField.red
  constructor <;> simp only <;> linarith

lemma red_modEq (F : FpField) (x : ℤ) : F.red x ≡ x [ZMOD F.p] := by
  unfold FpField.red
  have : F.lo + (x - F.lo) % F.p ≡ F.lo + (x - F.lo) [ZMOD F.p] := (Int.mod_modEq _ _).add_left _
  simpa using this

lemma WF.red_unique (h : F.WF) (x y : ℤ) (hx : Itv.Has F.itv x) (hxy : x ≡ y [ZMOD F.p]) : F.red y = x := by
  have hp : (0:ℤ) < F.p := by have := h.p_pos; omega
  have h1 : (y - F.lo) % F.p = (x - F.lo) % F.p := (hxy.sub_right F.lo).symm
  unfold Itv.Has FpField.itv at hx
  simp only at hx
  unfold FpField.red
  rw [h1, Int.emod_eq_of_lt (by linarith) (by linarith)]; ring

lemma WF.zero_mem (h : F.WF) : Itv.Has F.itv 0 := ⟨h.lo_nonpos, h.hi_nonneg⟩

lemma WF.mag_pos (h : F.WF) : 1 ≤ F.itv.mag := by
  have := h.p_pos
  unfold Itv.mag FpField.itv; simp only
  omega

lemma WF.div_spec (h : F.WF) (x y : ℤ) (hy : ¬ ((y:ZMod F.p) = 0)) : ((F.div x y : ℤ) : ZMod F.p) * y = x := by
  haveI := Fact.mk h.prime
  have h1 : ((F.div x y : ℤ) : ZMod F.p) = x * (y : ZMod F.p)⁻¹ := by
    unfold FpField.div
    have := (ZMod.intCast_eq_intCast_iff _ _ _).2 (F.red_modEq (x * ((y : ZMod F.p)⁻¹).val))
    rw [this]; push_cast; rw [ZMod.natCast_zmod_val]
  rw [h1, mul_assoc, inv_mul_cancel₀ hy, mul_one]

lemma WF.eq_zero_of_cast (h : F.WF) (x : ℤ) (hx : Itv.Has F.itv x) (h0 : (x : ZMod F.p) = 0) : x = 0 := by
  have h1 : x ≡ 0 [ZMOD F.p] := (ZMod.intCast_eq_intCast_iff _ _ _).1 (by simpa using h0)
  have e1 := h.red_unique x 0 hx h1
  have e2 := h.red_unique 0 0 h.zero_mem (Int.ModEq.refl _)
  rw [← e1, e2]

end FpField

/-- MaxDelayedDim on reduced operands never faults. -/
lemma maxDelayed_init_ok (F : FpField) (hF : F.WF) (sizeMax : ℕ) (beta : ℤ) :
    ∃ k, maxDelayedDimF F.prec sizeMax (initHelper F) beta = .ok k := by
  unfold maxDelayedDimF
  by_cases h1 : (initHelper F).maxStorable < 0
  · rw [if_pos h1]; exact ⟨_, rfl⟩
  · rw [if_neg h1]
    dsimp only
    generalize (if beta < 0 then -(beta:ℚ) else (beta:ℚ)) = ab
    split_ifs with h2 h3
    · exact ⟨_, rfl⟩
    · exfalso
      have hm := hF.mag_pos
      have : (1:ℚ) ≤ (F.itv.mag : ℚ) * F.itv.mag := by
        have : (1:ℚ) ≤ (F.itv.mag : ℚ) := by exact_mod_cast hm
        nlinarith
      have := rnd_ge_pow F.prec hF.prec_pos _ 0 (by simpa using this)
      simp only [initHelper] at h3
      rw [h3] at this; norm_num at this
    · exact ⟨_, rfl⟩

/-- The condition under which the block size chosen from `beta` is safe for all the blocks. -/
def Safe (F : FpField) (sizeMax k : ℕ) (beta : ℤ) : Prop :=
  beta = 0 → ∀ kmax, maxDelayedDimF F.prec sizeMax (initHelper F) 0 = .ok kmax →
    k ≤ kmax ∨ kmax * (F.itv.mag * F.itv.mag) + F.itv.mag ≤ 2 ^ F.prec

lemma fgemmLazy_spec (F : FpField) (hF : F.WF) (sizeMax : ℕ) (sched : ℕ → ℕ → SumTree)
    (hsched : ∀ i n, (sched i n).Covers n) (k : ℕ) (hk : 1 ≤ k) (alpha : ℤ) (hal : alpha = F.one ∨ alpha = F.mOne)
    (a b : ℕ → ℤ) (beta c : ℤ) (ha : ∀ l < k, Itv.Has F.itv (a l)) (hb : ∀ l < k, Itv.Has F.itv (b l))
    (hc : Itv.Has F.itv c) (hbeta : Itv.Has F.itv beta) (hsafe : Safe F sizeMax k beta) :
    ∃ v O, fgemmLazy F sizeMax (initHelper F) sched k alpha a b beta c = .ok (v, O) ∧ Itv.Has O v ∧
      v ≡ alpha * (∑ l ∈ range k, a l * b l) + beta * c [ZMOD F.p] := by
  set m := F.itv.mag with hm
  have hm1 : 1 ≤ m := hF.mag_pos
  have habs : ∀ x, Itv.Has F.itv x → |x| ≤ m := fun x hx => hx.abs_le
  set alphadf : ℤ := if alpha = F.mOne then -1 else 1 with hadf
  have hadf1 : |alphadf| = 1 := by rw [hadf]; split_ifs <;> simp
  have hadfm : alphadf ≡ alpha [ZMOD F.p] := by
    rw [hadf]; split_ifs with h
    · rw [h]; exact (F.red_modEq (-1)).symm
    · rcases hal with h' | h'
      · rw [h']; exact (F.red_modEq 1).symm
      · exact absurd h' h
  have hal' : alpha = F.mOne ∨ alpha = F.one := hal.symm
  set betadf : ℤ := if beta = F.mOne then -1 else beta with hbdf
  have hbdfm : betadf ≡ beta [ZMOD F.p] := by
    rw [hbdf]; split_ifs with h
    · rw [h]; exact (F.red_modEq (-1)).symm
    · exact Int.ModEq.refl _
  obtain ⟨kmax, hkmax⟩ := maxDelayed_init_ok F hF sizeMax betadf
  have hpowpos : (1:ℤ) ≤ 2 ^ F.prec := one_le_pow₀ (by norm_num)
  have hnoexc : Itv.exceeds F.itv F.itv = false := by simp [Itv.exceeds]
  unfold fgemmLazy
  simp only [if_pos hal', ← hbdf, ← hadf, hkmax]
  simp only [bind, Except.bind]
  have hHe : (initHelper F).A = F.itv ∧ (initHelper F).B = F.itv ∧ (initHelper F).C = F.itv := ⟨rfl, rfl, rfl⟩
  simp only [hHe.1, hHe.2.1, hHe.2.2, hnoexc, Bool.false_eq_true, and_false, if_false]
  have hH1 : (⟨(initHelper F).F, F.itv, F.itv, F.itv, (initHelper F).Out, (initHelper F).maxStorable⟩ : Helper)
      = initHelper F := rfl
  simp only [hH1, hkmax, ite_self]
  by_cases hk0 : kmax = 0
  · simp only [if_pos hk0]
    refine ⟨_, _, rfl, hF.red_mem _, F.red_modEq _⟩
  · simp only [if_neg hk0]
    have hkpos : 1 ≤ kmax := by omega
    have hmagnn : F.itv.lo ≤ F.itv.hi := le_trans hF.zero_mem.1 hF.zero_mem.2
    have hbound : |betadf| * m + kmax * (m * m) ≤ 2 ^ F.prec - 1 :=
      maxDelayedF_bound F.prec sizeMax hF.prec_pos (initHelper F) (by simp only [initHelper]; linarith)
        (by simp only [initHelper]; linarith) hmagnn hmagnn hmagnn betadf kmax hkpos hkmax
    -- block structure
    obtain ⟨nb, rem, hnbeq, hremeq, hkdec, hremle, hk2⟩ : ∃ nb rem,
        (if k % kmax = 0 then usub (k / kmax) 1 else Except.ok (k / kmax)) = .ok nb ∧
        (if k % kmax = 0 then kmax else k % kmax) = rem ∧ k = nb * min k kmax + rem ∧ rem ≤ kmax ∧
        (1 ≤ nb → min k kmax = kmax ∧ ¬ k ≤ kmax) := by
      have hdm := Nat.div_add_mod k kmax
      have hmod := Nat.mod_lt k hkpos
      by_cases hz : k % kmax = 0
      · have hq1 : 1 ≤ k / kmax := by
          rcases Nat.eq_zero_or_pos (k / kmax) with h0 | h0
          · rw [h0, hz] at hdm; simp at hdm; omega
          · exact h0
        obtain ⟨q, hq⟩ : ∃ q, k / kmax = q + 1 := ⟨k / kmax - 1, by omega⟩
        rw [hz, hq] at hdm
        have hge : kmax ≤ k := by nlinarith
        refine ⟨q, kmax, ?_, by simp [hz], ?_, le_rfl, ?_⟩
        · simp [hz, usub, hq]
        · rw [min_eq_right hge]; nlinarith
        · intro h1; refine ⟨min_eq_right hge, ?_⟩
          intro hle; nlinarith
      · refine ⟨k / kmax, k % kmax, by simp [hz], by simp [hz], ?_, hmod.le, ?_⟩
        · rcases Nat.eq_zero_or_pos (k / kmax) with h0 | h0
          · rw [h0] at hdm ⊢; simp at hdm ⊢; omega
          · have hge : kmax * 1 ≤ kmax * (k / kmax) := Nat.mul_le_mul_left _ h0
            rw [min_eq_right (by omega)]; rw [mul_comm] at hdm; omega
        · intro h1
          have hge : kmax * 1 ≤ kmax * (k / kmax) := Nat.mul_le_mul_left _ h1
          refine ⟨min_eq_right (by omega), ?_⟩
          omega
    simp only [hnbeq, hremeq]
    set k2 := min k kmax with hk2def
    have hk2le : k2 ≤ kmax := min_le_right _ _
    -- first kernel
    have hker0 := kernel_ok F.prec rem (sched 0 rem) (hsched 0 rem) alphadf (fun l => a (nb * k2 + l))
      (fun l => b (nb * k2 + l)) betadf c (by
        have h1 := sum_abs_le rem alphadf hadf1 (fun l => a (nb * k2 + l)) (fun l => b (nb * k2 + l)) m (by linarith)
          (fun l hl => habs _ (ha _ (by omega))) (fun l hl => habs _ (hb _ (by omega)))
        have h2 : |betadf * c| ≤ |betadf| * m := by rw [abs_mul]; gcongr; exact habs c hc
        have h3 : (rem:ℤ) * (m * m) ≤ kmax * (m * m) := by gcongr
        linarith)
    rw [hker0]
    simp only
    -- the remaining blocks
    have hloop : Ok (iter nb (fun i (s : ℤ × Helper) => do
        let c1 := F.red s.1
        let Hi : Helper := { s.2 with C := F.itv }
        let c2 ← kernel F.prec (sched (i + 1) k2) alphadf (fun l => a (i * k2 + l)) (fun l => b (i * k2 + l)) 1 c1
        Except.ok (c2, setOutBounds Hi k2 alphadf 1))
        (betadf * c + alphadf * ∑ l ∈ range rem, a (nb * k2 + l) * b (nb * k2 + l),
          setOutBounds (initHelper F) rem alphadf betadf))
        (fun s => s.2.A = F.itv ∧ s.2.B = F.itv ∧ Itv.Has s.2.Out s.1 ∧
          s.1 ≡ betadf * c + alphadf * ((∑ l ∈ range rem, a (nb * k2 + l) * b (nb * k2 + l)) +
            ∑ l ∈ range (nb * k2), a l * b l) [ZMOD F.p]) := by
      apply Ok_iter (fun i (s : ℤ × Helper) => s.2.A = F.itv ∧ s.2.B = F.itv ∧ Itv.Has s.2.Out s.1 ∧
          s.1 ≡ betadf * c + alphadf * ((∑ l ∈ range rem, a (nb * k2 + l) * b (nb * k2 + l)) +
            ∑ l ∈ range (i * k2), a l * b l) [ZMOD F.p])
      · refine ⟨?_, ?_, ?_, ?_⟩
        · unfold setOutBounds; simp only; split_ifs <;> rfl
        · unfold setOutBounds; simp only; split_ifs <;> rfl
        · exact C07_setOutBounds_sound (initHelper F) rem alphadf betadf hF.zero_mem hF.zero_mem ℕ (range rem) (by simp)
            _ _ c (fun l hl => ha _ (by have := mem_range.1 hl; omega)) (fun l hl => hb _ (by have := mem_range.1 hl; omega)) hc
        · simp
      · rintro i ⟨v, H'⟩ hi ⟨hHA, hHB, hHO, hv⟩
        simp only at hHA hHB hHO hv
        have hnb1 : 1 ≤ nb := by omega
        obtain ⟨hk2e, hknle⟩ := hk2 hnb1
        have hidx : ∀ l < k2, i * k2 + l < k := by
          intro l hl
          have : (i + 1) * k2 ≤ nb * k2 := Nat.mul_le_mul_right _ hi
          rw [Nat.add_mul] at this; omega
        have hroom : m + kmax * (m * m) ≤ 2 ^ F.prec := by
          by_cases hb0 : beta = 0
          · have hbd0 : betadf = 0 := by
              rw [hbdf]; split_ifs with h
              · exfalso
                have h1 := (F.red_modEq (-1)).symm
                rw [← FpField.mOne, ← h, hb0] at h1
                have := Int.modEq_zero_iff_dvd.1 h1
                have h2 := hF.p_pos
                have := Int.le_of_dvd (by norm_num) ((dvd_neg).1 this)
                omega
              · exact hb0
            rcases hsafe hb0 kmax (by rw [← hbd0]; exact hkmax) with h | h
            · omega
            · linarith
          · have : betadf ≠ 0 := by rw [hbdf]; split_ifs <;> simp [hb0]
            have h1 : 1 ≤ |betadf| := Int.one_le_abs this
            nlinarith
        have hker := kernel_ok F.prec k2 (sched (i+1) k2) (hsched _ _) alphadf (fun l => a (i * k2 + l))
          (fun l => b (i * k2 + l)) 1 (F.red v) (by
            have h1 := sum_abs_le k2 alphadf hadf1 (fun l => a (i * k2 + l)) (fun l => b (i * k2 + l)) m (by linarith)
              (fun l hl => habs _ (ha _ (hidx l hl))) (fun l hl => habs _ (hb _ (hidx l hl)))
            have h2 : |1 * F.red v| ≤ m := by rw [one_mul]; exact habs _ (hF.red_mem v)
            have h3 : (k2:ℤ) * (m * m) ≤ kmax * (m * m) := by gcongr
            linarith)
        simp only [Ok_bind, hker, Ok_ok]
        refine ⟨?_, ?_, ?_, ?_⟩
        · unfold setOutBounds; simp only; split_ifs <;> exact hHA
        · unfold setOutBounds; simp only; split_ifs <;> exact hHB
        · exact C07_setOutBounds_sound { H' with C := F.itv } k2 alphadf 1 (by simp only [hHA]; exact hF.zero_mem)
            (by simp only [hHB]; exact hF.zero_mem) ℕ (range k2) (by simp)
            _ _ (F.red v) (fun l hl => by simp only [hHA]; exact ha _ (hidx l (mem_range.1 hl)))
            (fun l hl => by simp only [hHB]; exact hb _ (hidx l (mem_range.1 hl))) (hF.red_mem v)
        · have e : range ((i+1) * k2) = range (i * k2 + k2) := by rw [Nat.succ_mul]
          rw [e, sum_range_add]
          have h1 : (1:ℤ) * F.red v + alphadf * ∑ l ∈ range k2, a (i * k2 + l) * b (i * k2 + l) ≡
              v + alphadf * ∑ l ∈ range k2, a (i * k2 + l) * b (i * k2 + l) [ZMOD F.p] := by
            rw [one_mul]; exact (F.red_modEq v).add_right _
          refine h1.trans ((hv.add_right _).trans ?_)
          unfold Int.ModEq; congr 1; ring
    obtain ⟨⟨v, H'⟩, hit, hA', hB', hO', hv'⟩ := hloop
    simp only [bind, Except.bind] at hit
    rw [hit]
    simp only [if_pos hal']
    refine ⟨v, H'.Out, rfl, hO', hv'.trans ?_⟩
    have hsum : ∑ l ∈ range k, a l * b l = (∑ l ∈ range (nb * k2), a l * b l) +
        ∑ l ∈ range rem, a (nb * k2 + l) * b (nb * k2 + l) := by
      conv_lhs => rw [hkdec]
      rw [sum_range_add]
    rw [hsum, add_comm (betadf * c)]
    refine Int.ModEq.add ?_ (hbdfm.mul_right c)
    rw [add_comm (∑ l ∈ range rem, _)]
    exact hadfm.mul_right _

end Verif.Lazy
