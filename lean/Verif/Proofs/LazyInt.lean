import Verif.Model.LazyInt
import Verif.Proofs.Delayed

/-!
# Delayed products over fields of 64-bit integers: proofs
-/

namespace Verif.Conv

open Verif Verif.FP Verif.Bounds Verif.Lazy Verif.FF Verif.Props Finset

lemma kernel64_ok (k : ℕ) (alpha : ℤ) (a b : ℕ → ℤ) (beta c : ℤ) (h : |beta * c| + ∑ l ∈ range k, |alpha * (a l * b l)| ≤ max64) :
    kernel64 k alpha a b beta c = .ok (beta * c + alpha * ∑ l ∈ range k, a l * b l) := by
  unfold kernel64; rw [if_pos h]

lemma blocks64_ok (F : FpField) (hF : F.WF) (kmax k : ℕ) (hk : 1 ≤ k) (hkpos : 1 ≤ kmax) (alphadf : ℤ) (hadf1 : |alphadf| = 1) (a b : ℕ → ℤ)
    (betadf c : ℤ) (ha : ∀ l < k, Itv.Has F.itv (a l)) (hb : ∀ l < k, Itv.Has F.itv (b l)) (hc : Itv.Has F.itv c)
    (hbound : |betadf| * F.itv.mag + kmax * (F.itv.mag * F.itv.mag) ≤ max64)
    (hsafe : betadf = 0 → k ≤ kmax ∨ kmax * (F.itv.mag * F.itv.mag) + F.itv.mag ≤ max64) :
    Ok (blocks64 F kmax k alphadf a b betadf c) (fun s => Itv.Has s.2.Out s.1 ∧
      s.1 ≡ betadf * c + alphadf * ∑ l ∈ range k, a l * b l [ZMOD F.p]) := by
  set m := F.itv.mag with hm
  have hm1 : 1 ≤ m := hF.mag_pos
  have habs : ∀ x, Itv.Has F.itv x → |x| ≤ m := fun x hx => hx.abs_le
  unfold blocks64
  -- block structure
  obtain ⟨nb, rem, hnbeq, hremeq, hkdec, hremle, hk2⟩ : ∃ nb rem,
      (if k % kmax = 0 then usub (k / kmax) 1 else Except.ok (k / kmax)) = .ok nb ∧
      (if k % kmax = 0 then kmax else k % kmax) = rem ∧ k = nb * min k kmax + rem ∧ rem ≤ kmax ∧
      (1 ≤ nb → min k kmax = kmax ∧ ¬ k ≤ kmax) := by
    have hdm := Nat.div_add_mod k kmax
    have hmod := Nat.mod_lt k hkpos
    by_cases hz : k % kmax = 0
    · have hq1 : 1 ≤ k / kmax := by
        rcases Nat.eq_zero_or_pos (k / kmax) with h0 | h0
        · rw [h0, hz] at hdm; simp at hdm; omega
        · exact h0
      obtain ⟨q, hq⟩ : ∃ q, k / kmax = q + 1 := ⟨k / kmax - 1, by omega⟩
      rw [hz, hq] at hdm
      have hge : kmax ≤ k := by nlinarith
      refine ⟨q, kmax, ?_, by simp [hz], ?_, le_rfl, ?_⟩
      · simp [hz, usub, hq]
      · rw [min_eq_right hge]; nlinarith
      · intro h1; refine ⟨min_eq_right hge, ?_⟩
        intro hle; nlinarith
    · refine ⟨k / kmax, k % kmax, by simp [hz], by simp [hz], ?_, hmod.le, ?_⟩
      · rcases Nat.eq_zero_or_pos (k / kmax) with h0 | h0
        · rw [h0] at hdm ⊢; simp at hdm ⊢; omega
        · have hge : kmax * 1 ≤ kmax * (k / kmax) := Nat.mul_le_mul_left _ h0
          rw [min_eq_right (by omega)]; rw [mul_comm] at hdm; omega
      · intro h1
        have hge : kmax * 1 ≤ kmax * (k / kmax) := Nat.mul_le_mul_left _ h1
        refine ⟨min_eq_right (by omega), ?_⟩
        omega
  simp only [hnbeq, hremeq]
  set k2 := min k kmax with hk2def
  have hk2le : k2 ≤ kmax := min_le_right _ _
  have hker0 := kernel64_ok rem alphadf (fun l => a (nb * k2 + l))
    (fun l => b (nb * k2 + l)) betadf c (by
      have h1 := sum_abs_le rem alphadf hadf1 (fun l => a (nb * k2 + l)) (fun l => b (nb * k2 + l)) m (by linarith)
        (fun l hl => habs _ (ha _ (by omega))) (fun l hl => habs _ (hb _ (by omega)))
      have h2 : |betadf * c| ≤ |betadf| * m := by rw [abs_mul]; gcongr; exact habs c hc
      have h3 : (rem:ℤ) * (m * m) ≤ kmax * (m * m) := by gcongr
      linarith)
  -- the remaining blocks
  have hloop : Ok (iter nb (fun i (s : ℤ × Helper) => do
      let c1 := F.red s.1
      let Hi : Helper := { s.2 with C := F.itv }
      let c2 ← kernel64 k2 alphadf (fun l => a (i * k2 + l)) (fun l => b (i * k2 + l)) 1 c1
      Except.ok (c2, setOutBounds Hi k2 alphadf 1))
      (betadf * c + alphadf * ∑ l ∈ range rem, a (nb * k2 + l) * b (nb * k2 + l),
        setOutBounds ⟨F.itv, F.itv, F.itv, F.itv, ⟨0, 0⟩, max64⟩ rem alphadf betadf))
      (fun s => s.2.A = F.itv ∧ s.2.B = F.itv ∧ Itv.Has s.2.Out s.1 ∧
        s.1 ≡ betadf * c + alphadf * ((∑ l ∈ range rem, a (nb * k2 + l) * b (nb * k2 + l)) +
          ∑ l ∈ range (nb * k2), a l * b l) [ZMOD F.p]) := by
    apply Ok_iter (fun i (s : ℤ × Helper) => s.2.A = F.itv ∧ s.2.B = F.itv ∧ Itv.Has s.2.Out s.1 ∧
        s.1 ≡ betadf * c + alphadf * ((∑ l ∈ range rem, a (nb * k2 + l) * b (nb * k2 + l)) +
          ∑ l ∈ range (i * k2), a l * b l) [ZMOD F.p])
    · refine ⟨?_, ?_, ?_, ?_⟩
      · unfold setOutBounds; simp only; split_ifs <;> rfl
      · unfold setOutBounds; simp only; split_ifs <;> rfl
      · exact C07_setOutBounds_sound ⟨F.itv, F.itv, F.itv, F.itv, ⟨0, 0⟩, max64⟩ rem alphadf betadf hF.zero_mem hF.zero_mem ℕ (range rem) (by simp)
          _ _ c (fun l hl => ha _ (by have := mem_range.1 hl; omega)) (fun l hl => hb _ (by have := mem_range.1 hl; omega)) hc
      · simp
    · rintro i ⟨v, H'⟩ hi ⟨hHA, hHB, hHO, hv⟩
      simp only at hHA hHB hHO hv
      have hnb1 : 1 ≤ nb := by omega
      obtain ⟨hk2e, hknle⟩ := hk2 hnb1
      have hidx : ∀ l < k2, i * k2 + l < k := by
        intro l hl
        have : (i + 1) * k2 ≤ nb * k2 := Nat.mul_le_mul_right _ hi
        rw [Nat.add_mul] at this; omega
      have hroom : m + kmax * (m * m) ≤ max64 := by
        by_cases hb0 : betadf = 0
        · rcases hsafe hb0 with h | h
          · omega
          · linarith
        · have h1 : 1 ≤ |betadf| := Int.one_le_abs hb0
          nlinarith
      have hker := kernel64_ok k2 alphadf (fun l => a (i * k2 + l))
        (fun l => b (i * k2 + l)) 1 (F.red v) (by
          have h1 := sum_abs_le k2 alphadf hadf1 (fun l => a (i * k2 + l)) (fun l => b (i * k2 + l)) m (by linarith)
            (fun l hl => habs _ (ha _ (hidx l hl))) (fun l hl => habs _ (hb _ (hidx l hl)))
          have h2 : |1 * F.red v| ≤ m := by rw [one_mul]; exact habs _ (hF.red_mem v)
          have h3 : (k2:ℤ) * (m * m) ≤ kmax * (m * m) := by gcongr
          linarith)
      simp only [Ok_bind, hker, Ok_ok]
      refine ⟨?_, ?_, ?_, ?_⟩
      · unfold setOutBounds; simp only; split_ifs <;> exact hHA
      · unfold setOutBounds; simp only; split_ifs <;> exact hHB
      · exact C07_setOutBounds_sound { H' with C := F.itv } k2 alphadf 1 (by simp only [hHA]; exact hF.zero_mem)
          (by simp only [hHB]; exact hF.zero_mem) ℕ (range k2) (by simp)
          _ _ (F.red v) (fun l hl => by simp only [hHA]; exact ha _ (hidx l (mem_range.1 hl)))
          (fun l hl => by simp only [hHB]; exact hb _ (hidx l (mem_range.1 hl))) (hF.red_mem v)
      · have e : range ((i+1) * k2) = range (i * k2 + k2) := by rw [Nat.succ_mul]
        rw [e, sum_range_add]
        have h1 : (1:ℤ) * F.red v + alphadf * ∑ l ∈ range k2, a (i * k2 + l) * b (i * k2 + l) ≡
            v + alphadf * ∑ l ∈ range k2, a (i * k2 + l) * b (i * k2 + l) [ZMOD F.p] := by
          rw [one_mul]; exact (F.red_modEq v).add_right _
        refine h1.trans ((hv.add_right _).trans ?_)
        unfold Int.ModEq; congr 1; ring
  simp only [bind, Except.bind] at hloop ⊢
  rw [hker0]
  refine hloop.mono (fun s hs => ⟨hs.2.2.1, hs.2.2.2.trans ?_⟩)
  have hsum : ∑ l ∈ range k, a l * b l = (∑ l ∈ range (nb * k2), a l * b l) +
      ∑ l ∈ range rem, a (nb * k2 + l) * b (nb * k2 + l) := by
    conv_lhs => rw [hkdec]
    rw [sum_range_add]
  rw [hsum, add_comm (∑ l ∈ range rem, _)]

/-- a dot product of length `k` is computed in one block, or there is room for an element on top of the largest block -/
def Safe64 (m : ℤ) (k : ℕ) : Prop := k * (m * m) ≤ max64 ∨ m ≤ max64 % (m * m)

lemma chk64_ok {v : ℤ} (h : |v| ≤ max64) : chk64 v = .ok v := by unfold chk64; rw [if_pos h]

lemma maxDelayedDim64_ok (F : FpField) (hF : F.WF) (hmm : F.itv.mag * F.itv.mag ≤ max64) (beta : ℤ) (hbeta : |beta| ≤ F.itv.mag) :
    ∃ kmax, maxDelayedDim64 F beta = .ok kmax ∧ |beta| * F.itv.mag + kmax * (F.itv.mag * F.itv.mag) ≤ max64 ∧
      (beta = 0 → ∀ k, Safe64 F.itv.mag k → k ≤ kmax ∨ kmax * (F.itv.mag * F.itv.mag) + F.itv.mag ≤ max64) := by
  have m1 := hF.mag_pos
  unfold maxDelayedDim64
  generalize F.itv.mag = m at *
  have hpos : 0 < m * m := by nlinarith
  have h0 := abs_nonneg beta
  have hb : |beta| * m ≤ m * m := mul_le_mul_of_nonneg_right hbeta (by omega)
  have hb0 : 0 ≤ |beta| * m := mul_nonneg h0 (by omega)
  rw [chk64_ok (show |(|beta| * m)| ≤ max64 by rw [abs_of_nonneg hb0]; omega)]
  simp only [bind, Except.bind]
  rw [chk64_ok (show |max64 - |beta| * m| ≤ max64 by rw [abs_of_nonneg (by omega)]; omega)]
  simp only
  rw [chk64_ok (show |m * m| ≤ max64 by rw [abs_of_nonneg hpos.le]; omega)]
  simp only
  rw [if_neg (show ¬ (max64 - |beta| * m < 0 ∨ m * m < 0) by omega), if_neg hpos.ne']
  have hq : 0 ≤ (max64 - |beta| * m) / (m * m) := Int.ediv_nonneg (by omega) hpos.le
  have hle : (max64 - |beta| * m) / (m * m) * (m * m) ≤ max64 - |beta| * m := Int.ediv_mul_le _ hpos.ne'
  refine ⟨_, rfl, ?_, ?_⟩
  · rw [Int.toNat_of_nonneg hq]; omega
  · intro hz k hk
    rw [hz, abs_zero, zero_mul, sub_zero] at hq hle ⊢
    rcases hk with hk | hk
    · left
      have : (k : ℤ) ≤ max64 / (m * m) := (Int.le_ediv_iff_mul_le hpos).2 hk
      omega
    · right
      rw [Int.toNat_of_nonneg hq]
      have := Int.emod_add_mul_ediv max64 (m * m)
      nlinarith

lemma fgemmLazy64_ok (F : FpField) (hF : F.WF) (hmm : F.itv.mag * F.itv.mag ≤ max64) (k : ℕ) (hk : 1 ≤ k) (alpha : ℤ) (a b : ℕ → ℤ) (beta c : ℤ)
    (hal : Itv.Has F.itv alpha) (hal0 : alpha ≠ 0) (ha : ∀ l < k, Itv.Has F.itv (a l)) (hb : ∀ l < k, Itv.Has F.itv (b l)) (hc : Itv.Has F.itv c)
    (hbeta : Itv.Has F.itv beta) (hsafe : beta = 0 → Safe64 F.itv.mag k) :
    Ok (fgemmLazy64 F k alpha a b beta c) (fun r => Itv.Has r.2 r.1 ∧ r.1 ≡ alpha * (∑ l ∈ range k, a l * b l) + beta * c [ZMOD F.p]) := by
  have m1 := hF.mag_pos
  have hane : ¬ ((alpha : ZMod F.p) = 0) := fun h => hal0 (hF.eq_zero_of_cast alpha hal h)
  have hdiv := hF.div_spec beta alpha hane
  unfold fgemmLazy64
  dsimp only
  set alphadf : ℤ := if alpha = F.mOne then -1 else 1 with hadf
  have hadf1 : |alphadf| = 1 := by rw [hadf]; split_ifs <;> simp
  set betadf0 : ℤ := if alpha = F.mOne ∨ alpha = F.one then beta else F.div beta alpha with hb0
  have hb0m : Itv.Has F.itv betadf0 := by rw [hb0]; split_ifs; exacts [hbeta, hF.red_mem _]
  have hb0z : betadf0 = 0 → beta = 0 := by
    rw [hb0]; split_ifs with h
    · exact id
    · intro hz
      rw [hz] at hdiv
      apply hF.eq_zero_of_cast beta hbeta
      rw [← hdiv]; simp
  set betadf : ℤ := if betadf0 = F.mOne then -1 else betadf0 with hbdf
  have hbdfm : betadf ≡ betadf0 [ZMOD F.p] := by
    rw [hbdf]; split_ifs with h
    · rw [h]; exact (F.red_modEq (-1)).symm
    · exact Int.ModEq.refl _
  have hbdfz : betadf = 0 → beta = 0 := by
    rw [hbdf]; split_ifs
    · intro h; exact absurd h (by norm_num)
    · exact hb0z
  have hbdfa : |betadf| ≤ F.itv.mag := by
    rw [hbdf]; split_ifs
    · simpa using m1
    · exact hb0m.abs_le
  obtain ⟨kmax, e, h1, h2⟩ := maxDelayedDim64_ok F hF hmm betadf hbdfa
  rw [e]
  simp only [bind, Except.bind]
  by_cases hk0 : kmax = 0
  · rw [if_pos hk0]
    exact ⟨_, rfl, hF.red_mem _, F.red_modEq _⟩
  rw [if_neg hk0]
  obtain ⟨⟨v, H⟩, hv, hO, hm⟩ := blocks64_ok F hF kmax k hk (by omega) alphadf hadf1 a b betadf c ha hb hc h1
    (fun hz => h2 hz k (hsafe (hbdfz hz)))
  rw [hv]
  simp only at hO hm ⊢
  have hm2 : v ≡ betadf0 * c + alphadf * ∑ l ∈ range k, a l * b l [ZMOD F.p] := hm.trans ((hbdfm.mul_right c).add_right _)
  have hone : ((F.one : ℤ) : ZMod F.p) = 1 := by
    have := (ZMod.intCast_eq_intCast_iff _ _ _).2 (F.red_modEq 1)
    simpa [FpField.one] using this
  by_cases hu : alpha = F.mOne ∨ alpha = F.one
  · rw [if_pos hu]
    refine ⟨_, rfl, hO, hm2.trans ?_⟩
    rw [hb0, if_pos hu, add_comm]
    refine Int.ModEq.add_right _ (Int.ModEq.mul_right _ ?_)
    rw [hadf]; split_ifs with h
    · rw [h]; exact (F.red_modEq (-1)).symm
    · rw [hu.resolve_left h]; exact (F.red_modEq 1).symm
  · rw [if_neg hu]
    have hadf' : alphadf = 1 := by rw [hadf, if_neg (fun h => hu (Or.inl h))]
    have hm' : alpha * v ≡ alpha * (∑ l ∈ range k, a l * b l) + beta * c [ZMOD F.p] := by
      rw [hb0, if_neg hu, hadf'] at hm2
      rw [← ZMod.intCast_eq_intCast_iff] at hm2 ⊢
      push_cast at hm2 ⊢
      rw [hm2, ← hdiv]; ring
    have hpos : 0 < |alpha| := abs_pos.2 hal0
    -- the value that is scaled, with its interval
    have key : ∀ (w : ℤ) (O : Itv), Itv.Has O w → alpha * w ≡ alpha * v [ZMOD F.p] →
        Itv.Has (if alpha > 0 then (⟨alpha * O.lo, alpha * O.hi⟩ : Itv) else ⟨alpha * O.hi, alpha * O.lo⟩) (alpha * w) ∧
        alpha * w ≡ alpha * (∑ l ∈ range k, a l * b l) + beta * c [ZMOD F.p] := by
      intro w O hw hmod
      refine ⟨?_, hmod.trans hm'⟩
      obtain ⟨w1, w2⟩ := hw
      split_ifs with hp
      · exact ⟨mul_le_mul_of_nonneg_left w1 hp.le, mul_le_mul_of_nonneg_left w2 hp.le⟩
      · exact ⟨mul_le_mul_of_nonpos_left w2 (by omega), mul_le_mul_of_nonpos_left w1 (by omega)⟩
    by_cases hbig : H.Out.mag > max64 / |alpha|
    · simp only [if_pos hbig]
      have hfit : |alpha * F.red v| ≤ max64 := by
        rw [abs_mul]
        exact (mul_le_mul hal.abs_le (hF.red_mem v).abs_le (abs_nonneg _) (by omega)).trans hmm
      rw [chk64_ok hfit]
      exact ⟨_, rfl, key _ _ (hF.red_mem v) ((F.red_modEq v).mul_left _)⟩
    · simp only [if_neg hbig]
      have hfit : |alpha * v| ≤ max64 := by
        rw [abs_mul]
        have h3 : |v| ≤ H.Out.mag := hO.abs_le
        have h4 : |v| ≤ max64 / |alpha| := by omega
        have h5 := (Int.le_ediv_iff_mul_le hpos).1 h4
        rw [mul_comm]; exact h5
      rw [chk64_ok hfit]
      exact ⟨_, rfl, key _ _ hO rfl⟩

lemma fgemvEntry64_ok (F : FpField) (hF : F.WF) (hmm : F.itv.mag * F.itv.mag ≤ max64) (k : ℕ) (hk : 1 ≤ k) (alpha : ℤ) (a b : ℕ → ℤ) (beta c : ℤ)
    (hal : Itv.Has F.itv alpha) (hal0 : alpha ≠ 0) (ha : ∀ l < k, Itv.Has F.itv (a l)) (hb : ∀ l < k, Itv.Has F.itv (b l)) (hc : Itv.Has F.itv c)
    (hbeta : Itv.Has F.itv beta) (hsafe : beta = 0 → Safe64 F.itv.mag k) :
    Ok (fgemvEntry64 F k alpha a b beta c) (fun r => Itv.Has F.itv r ∧ r ≡ alpha * (∑ l ∈ range k, a l * b l) + beta * c [ZMOD F.p]) := by
  obtain ⟨r, hr, -, hm⟩ := fgemmLazy64_ok F hF hmm k hk alpha a b beta c hal hal0 ha hb hc hbeta hsafe
  unfold fgemvEntry64
  rw [hr]
  exact ⟨_, rfl, hF.red_mem _, (F.red_modEq _).trans hm⟩

lemma one_ne_zero64 {F : FpField} (hF : F.WF) : F.one ≠ 0 := by
  intro h
  have h1 := F.red_modEq 1
  rw [show F.red 1 = F.one from rfl, h] at h1
  have h2 := Int.le_of_dvd (by norm_num) (Int.modEq_zero_iff_dvd.1 h1.symm)
  have := hF.p_pos
  omega

lemma fgemmEntry64_ok (F : FpField) (hF : F.WF) (hmm : F.itv.mag * F.itv.mag ≤ max64) (k : ℕ) (hk : 1 ≤ k) (alpha : ℤ) (a b : ℕ → ℤ) (beta c : ℤ)
    (hal : Itv.Has F.itv alpha) (hal0 : alpha ≠ 0) (ha : ∀ l < k, Itv.Has F.itv (a l)) (hb : ∀ l < k, Itv.Has F.itv (b l)) (hc : Itv.Has F.itv c)
    (hbeta : Itv.Has F.itv beta) (hsafe : beta = 0 → Safe64 F.itv.mag k) :
    Ok (fgemmEntry64 F k alpha a b beta c) (fun r => Itv.Has F.itv r ∧ r ≡ alpha * (∑ l ∈ range k, a l * b l) + beta * c [ZMOD F.p]) := by
  have hane : ¬ ((alpha : ZMod F.p) = 0) := fun h => hal0 (hF.eq_zero_of_cast alpha hal h)
  have hdiv := hF.div_spec beta alpha hane
  have hone : ((F.one : ℤ) : ZMod F.p) = 1 := by
    have := (ZMod.intCast_eq_intCast_iff _ _ _).2 (F.red_modEq 1)
    simpa [FpField.one] using this
  unfold fgemmEntry64
  by_cases hu : alpha = F.one ∨ alpha = F.mOne
  · have hu' : ¬ (alpha ≠ F.one ∧ alpha ≠ F.mOne) := by tauto
    simp only [if_neg hu']
    obtain ⟨r, hr, -, hm⟩ := fgemmLazy64_ok F hF hmm k hk alpha a b beta c hal hal0 ha hb hc hbeta hsafe
    simp only [hr, bind, Except.bind, scalAndReduce64, if_pos hu]
    exact ⟨_, rfl, hF.red_mem _, (F.red_modEq _).trans hm⟩
  · have hu' : alpha ≠ F.one ∧ alpha ≠ F.mOne := by tauto
    simp only [if_pos hu']
    obtain ⟨⟨v, O⟩, hr, hO, hm⟩ := fgemmLazy64_ok F hF hmm k hk F.one a b (F.div beta alpha) c (hF.red_mem _) (one_ne_zero64 hF) ha hb hc (hF.red_mem _)
      (fun hz => hsafe (by
        rw [hz] at hdiv
        apply hF.eq_zero_of_cast beta hbeta
        rw [← hdiv]; simp))
    have hm' : alpha * v ≡ alpha * (∑ l ∈ range k, a l * b l) + beta * c [ZMOD F.p] := by
      rw [← ZMod.intCast_eq_intCast_iff] at hm ⊢
      push_cast at hm ⊢
      rw [hm, hone, ← hdiv]; ring
    simp only [hr, bind, Except.bind, scalAndReduce64, if_neg hu]
    by_cases hbig : O.mag > max64 / |alpha|
    · rw [if_pos hbig]
      exact ⟨_, rfl, hF.red_mem _, (F.red_modEq _).trans (((F.red_modEq v).mul_left _).trans hm')⟩
    · rw [if_neg hbig]
      have h3 : |v| ≤ O.mag := hO.abs_le
      have h4 : |v| ≤ max64 / |alpha| := by omega
      have h5 := (Int.le_ediv_iff_mul_le (abs_pos.2 hal0)).1 h4
      rw [chk64_ok (show |alpha * v| ≤ max64 by rw [abs_mul, mul_comm]; exact h5)]
      exact ⟨_, rfl, hF.red_mem _, (F.red_modEq _).trans hm'⟩

lemma fgemmArr64_ok (G : FpField) (e : ℕ → ℤ → (ℕ → ℤ) → (ℕ → ℤ) → ℤ → ℤ → Except Fault ℤ) (ta tb : Tr)
    (m n k : ℕ) (alpha : ℤ) (A : Arr ℤ) (lda : ℕ) (B : Arr ℤ) (ldb : ℕ) (beta : ℤ) (C : Arr ℤ) (ldc : ℕ)
    (he : ∀ a b : ℕ → ℤ, ∀ c, (∀ l < k, Itv.Has G.itv (a l)) → (∀ l < k, Itv.Has G.itv (b l)) → Itv.Has G.itv c →
      Ok (e k alpha a b beta c) (fun r => Itv.Has G.itv r ∧ r ≡ alpha * (∑ l ∈ range k, a l * b l) + beta * c [ZMOD G.p]))
    (lA : ∀ i < m, ∀ l < k, adr ta lda i l < A.len) (lB : ∀ l < k, ∀ j < n, adr tb ldb l j < B.len)
    (lC : ∀ i < m, ∀ j < n, i * ldc + j < C.len) (hld : n ≤ ldc) (hA : ∀ i < m, ∀ l < k, Itv.Has G.itv (A.get (adr ta lda i l)))
    (hB : ∀ l < k, ∀ j < n, Itv.Has G.itv (B.get (adr tb ldb l j))) (hC : ∀ i < m, ∀ j < n, Itv.Has G.itv (C.get (i * ldc + j))) :
    Ok (fgemmArr64 e ta tb m n k alpha A lda B ldb beta C ldc) (fun D => D.len = C.len ∧ (∀ i < m, ∀ j < n,
      Itv.Has G.itv (D.get (i * ldc + j)) ∧
      D.get (i * ldc + j) ≡ alpha * (∑ l ∈ range k, A.get (adr ta lda i l) * B.get (adr tb ldb l j)) + beta * C.get (i * ldc + j) [ZMOD G.p]) ∧
      ∀ x, (∀ i < m, ∀ j < n, x ≠ i * ldc + j) → D.get x = C.get x) := by
  unfold fgemmArr64
  set f : ℕ → ℕ → ℤ → Except Fault ℤ := fun i j c => do
    let a ← rdVec k A (fun l => adr ta lda i l)
    let b ← rdVec k B (fun l => adr tb ldb l j)
    e k alpha a b beta c with hf
  have key : ∀ i < m, ∀ j < n, Ok (f i j (C.get (i * ldc + j))) (fun r => Itv.Has G.itv r ∧
      r ≡ alpha * (∑ l ∈ range k, A.get (adr ta lda i l) * B.get (adr tb ldb l j)) + beta * C.get (i * ldc + j) [ZMOD G.p]) := by
    intro i hi j hj
    simp only [hf, Ok_bind]
    refine (rdVec_ok k A _ (fun l hl => lA i hi l hl)).mono (fun a ha => (rdVec_ok k B _ (fun l hl => lB l hl j hj)).mono (fun b hb => ?_))
    have hsum : ∑ l ∈ range k, A.get (adr ta lda i l) * B.get (adr tb ldb l j) = ∑ l ∈ range k, a l * b l :=
      sum_congr rfl (fun l hl => by rw [mem_range] at hl; rw [ha l hl, hb l hl])
    rw [hsum]
    exact he a b _ (fun l hl => by rw [ha l hl]; exact hA i hi l hl) (fun l hl => by rw [hb l hl]; exact hB l hl j hj) (hC i hi j hj)
  refine (Ok_upd2 m n (fun i j => i * ldc + j) f (fun i j => outOf (f i j (C.get (i * ldc + j)))) C
    (fun i hi j hj => (outOf_spec (key i hi j hj)).1) lC (fun i _ j hj i' _ j' hj' h => addr_inj hld hj hj' h)).mono
    (fun D h => ⟨h.1, fun i hi j hj => ?_, h.2.2⟩)
  rw [h.2.1 i hi j hj]
  exact (outOf_spec (key i hi j hj)).2

lemma fscal64_ok (F : WordField) (hF : F.WF) (N : ℕ) (alpha : ℤ) (y : Arr ℤ) (incy : ℕ) (sY : Arr ℤ) (hl : sY.len = N) (ly : ∀ j < N, j * incy < y.len) :
    Ok (fscal64 F N alpha y incy sY) (fun B => B.len = N ∧ ∀ j < N, Itv.Has F.itv (B.get j) ∧ B.get j ≡ alpha * y.get (j * incy) [ZMOD F.p]) := by
  unfold fscal64
  refine (Ok_fill2 N 1 (fun j _ => j) (fun j _ => do let x ← y.rd (j * incy); pure (F.red (alpha * x))) (fun j _ => F.red (alpha * y.get (j * incy))) sY
    (fun j hj _ _ => ?_) (fun j hj _ _ => by rw [hl]; exact hj) (fun i _ j hj i' _ j' hj' h => ⟨h, by omega⟩)).mono
    (fun B h => ⟨by rw [h.1, hl], fun j hj => ?_⟩)
  · simp only [Arr.rd, if_pos (ly j hj), bind, Except.bind, pure, Except.pure]
  · have e : B.get j = F.red (alpha * y.get (j * incy)) := h.2.1 j hj 0 (by norm_num)
    rw [e]
    exact ⟨hF.red_mem _, F.red_modEq _⟩

end Verif.Conv
