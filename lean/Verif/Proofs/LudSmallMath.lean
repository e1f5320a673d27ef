import Verif.Proofs.LudMath

/-!
# The iterative CUP decomposition, the algebra
-/

namespace Verif.Lud

open Finset Verif.Spec Verif.Spec.Perm Verif.Pluq

variable {K : Type} [Field K]

/-- `k` pivots have been found in the first `rowp` rows; the rows of the upper factor are still in place -/
structure SmallInv (d : Diag) (M N : ℕ) (X V : ℕ → ℕ → K) (p q : ℕ → ℕ) (rowp k : ℕ) : Prop where
  kr : k ≤ rowp
  rM : rowp ≤ M
  kN : k ≤ N
  pP : IsPermArray p N
  inc : ∀ a b, a < b → b < k → q a < q b
  qr : ∀ a < k, q a < rowp
  piv : ∀ a < k, V (q a) a ≠ 0
  fac : ∀ i < M, ∀ j < N, X i (p j) = ∑ a ∈ range k, cupC d V q i a * luU d (fun x => V (q x)) a j + if rowp ≤ i ∧ k ≤ j then V i j else 0
  zer : ∀ i < rowp, (∀ a < k, q a ≠ i) → ∀ j < N, (∀ a < k, q a < i → a < j) → V i j = 0

variable {d : Diag} {M N rowp k : ℕ} {X V : ℕ → ℕ → K} {p q : ℕ → ℕ}

lemma SmallInv.start (X : ℕ → ℕ → K) {p : ℕ → ℕ} (q : ℕ → ℕ) (hp : ∀ j, p j = j) : SmallInv d M N X X p q 0 0 :=
  ⟨le_rfl, by omega, by omega, ⟨fun j hj => by rw [hp]; exact hj, fun i _ j _ e => by rwa [hp, hp] at e⟩, fun _ _ _ h => by omega, fun _ h => by omega,
    fun _ h => by omega, fun i _ j _ => by rw [hp, range_zero, sum_empty, zero_add, if_pos (by omega)], fun _ h => by omega⟩

/-- rows of zeros are skipped -/
lemma SmallInv.skip (h : SmallInv d M N X V p q rowp k) {r : ℕ} (h1 : rowp ≤ r) (h2 : r ≤ M)
    (hz : ∀ i, rowp ≤ i → i < r → ∀ j < N, k ≤ j → V i j = 0) : SmallInv d M N X V p q r k := by
  refine ⟨h.kr.trans h1, h2, h.kN, h.pP, h.inc, fun a ha => by have := h.qr a ha; omega, h.piv, fun i hi j hj => ?_, fun i hi hn j hj hh => ?_⟩
  · rw [h.fac i hi j hj]
    congr 1
    by_cases c1 : r ≤ i ∧ k ≤ j
    · rw [if_pos c1, if_pos (by omega)]
    · rw [if_neg c1]
      by_cases c2 : rowp ≤ i ∧ k ≤ j
      · rw [if_pos c2]; exact hz i c2.1 (by omega) j hj c2.2
      · rw [if_neg c2]
  · by_cases c : i < rowp
    · exact h.zer i c hn j hj hh
    · refine hz i (by omega) hi j hj ?_
      rcases Nat.eq_zero_or_pos k with ck | ck
      · omega
      · have := h.qr (k - 1) (by omega)
        have := hh (k - 1) (by omega) (by omega)
        omega

/-- one elimination -/
lemma SmallInv.pivot (h : SmallInv d M N X V p q rowp k) {c : ℕ} {V3 : ℕ → ℕ → K} {p' q' : ℕ → ℕ} (h1 : rowp < M) (h2 : k ≤ c) (h3 : c < N)
    (hn : V rowp c ≠ 0) (hp : ∀ j < N, p' j = p (Equiv.swap k c j)) (hq : ∀ a < k, q' a = q a) (hq' : q' k = rowp)
    (e1 : ∀ i < M, ∀ j < N, i < rowp ∨ j < k → V3 i j = V i (Equiv.swap k c j)) (e2 : V3 rowp k = V rowp c)
    (e3 : d = .unit → (∀ j < N, k < j → V rowp c * V3 rowp j = V rowp (Equiv.swap k c j)) ∧ ∀ i < M, rowp < i → V3 i k = V i c)
    (e4 : d = .nonUnit → (∀ j < N, k < j → V3 rowp j = V rowp (Equiv.swap k c j)) ∧ ∀ i < M, rowp < i → V3 i k * V rowp c = V i c)
    (e5 : ∀ i < M, ∀ j < N, rowp < i → k < j → V3 i j = V i (Equiv.swap k c j) - V3 i k * V3 rowp j) :
    SmallInv d M N X V3 p' q' (rowp + 1) (k + 1) := by
  have hkN : k < N := by omega
  have hkr := h.kr
  have sl : ∀ j < k, Equiv.swap k c j = j := fun j hj => Equiv.swap_apply_of_ne_of_ne (by omega) (by omega)
  have sN : ∀ j < N, Equiv.swap k c j < N := fun j hj => by rw [Equiv.swap_apply_def]; split_ifs <;> omega
  have sg : ∀ j, k ≤ j → k ≤ Equiv.swap k c j := fun j hj => by rw [Equiv.swap_apply_def]; split_ifs <;> omega
  have sk : Equiv.swap k c k = c := Equiv.swap_apply_left k c
  have qlt : ∀ a < k, q a < M := fun a ha => by have := h.qr a ha; omega
  refine ⟨by omega, by omega, by omega, ⟨fun j hj => ?_, fun i hi j hj e => ?_⟩, fun a b hab hb => ?_, fun a ha => ?_, fun a ha => ?_,
    fun i hi j hj => ?_, fun i hi hne j hj hh => ?_⟩
  · rw [hp j hj]; exact h.pP.1 _ (sN j hj)
  · rw [hp i hi, hp j hj] at e
    exact (Equiv.swap k c).injective (h.pP.2 _ (sN i hi) _ (sN j hj) e)
  · by_cases cb : b < k
    · rw [hq a (by omega), hq b cb]; exact h.inc a b hab cb
    · obtain rfl : b = k := by omega
      rw [hq a hab, hq']; exact h.qr a hab
  · by_cases ca : a < k
    · rw [hq a ca]; have := h.qr a ca; omega
    · obtain rfl : a = k := by omega
      omega
  · by_cases ca : a < k
    · rw [hq a ca, e1 _ (qlt a ca) a (by omega) (Or.inl (h.qr a ca)), sl a ca]; exact h.piv a ca
    · obtain rfl : a = k := by omega
      rw [hq', e2]; exact hn
  · rw [hp j hj, h.fac i hi _ (sN j hj), sum_range_succ, add_assoc]
    congr 1
    · refine sum_congr rfl (fun a ha => ?_)
      have ha := mem_range.1 ha
      have hqa := h.qr a ha
      congr 1
      · refine cupC_congr (by rw [hq a ha]) (by rw [hq a ha]) (fun _ => ?_)
        rw [e1 i hi a (by omega) (Or.inr ha), sl a ha]
      · refine luU_congr' ?_ ?_ (fun _ => ?_)
        · by_cases cj : j < k
          · rw [sl j cj]
          · have := sg j (by omega); omega
        · by_cases cj : j < k
          · rw [sl j cj]
          · have := sg j (by omega); omega
        · rw [hq a ha, e1 _ (qlt a ha) j hj (Or.inl hqa)]
    · rcases Nat.lt_or_ge j k with cj | cj
      · rw [if_neg (by rw [sl j cj]; omega), if_neg (by omega), luU_gt cj, mul_zero, add_zero]
      rcases Nat.lt_trichotomy i rowp with ci | ci | ci
      · rw [if_neg (by omega), if_neg (by omega), cupC_lt (by omega), zero_mul, add_zero]
      · subst ci
        rw [if_pos ⟨le_rfl, sg j cj⟩, if_neg (by omega), add_zero]
        rcases Nat.eq_or_lt_of_le cj with ce | ce
        · subst ce
          rw [sk]
          cases d
          · rw [← hq', cupC_eq_nonUnit, luU_diag_nonUnit, one_mul, hq', e2]
          · rw [← hq', cupC_eq_unit, luU_diag_unit, mul_one, hq', e2]
        · rw [luU_lt ce, hq']
          cases d
          · rw [← hq', cupC_eq_nonUnit, one_mul, hq', (e4 rfl).1 j hj ce]
          · rw [← hq', cupC_eq_unit, hq', e2, (e3 rfl).1 j hj ce]
      · rw [if_pos ⟨by omega, sg j cj⟩, cupC_gt (by omega)]
        rcases Nat.eq_or_lt_of_le cj with ce | ce
        · subst ce
          rw [sk, if_neg (by omega), add_zero]
          cases d
          · rw [luU_diag_nonUnit, hq', e2, (e4 rfl).2 i hi ci]
          · rw [luU_diag_unit, mul_one, (e3 rfl).2 i hi ci]
        · rw [luU_lt ce, hq', if_pos (by omega), e5 i hi j hj ci ce, add_sub_cancel]
  · have ci : i ≠ rowp := fun e => hne k (by omega) (by rw [hq', e])
    have ci : i < rowp := by omega
    rw [e1 i (by omega) j hj (Or.inl ci)]
    refine h.zer i ci (fun a ha => by rw [← hq a ha]; exact hne a (by omega)) _ (sN j hj) (fun a ha hai => ?_)
    have := hh a (by omega) (by rw [hq a ha]; exact hai)
    by_cases cj : j < k
    · rw [sl j cj]; exact this
    · have := sg j (by omega); omega

open Classical in
/-- rows `q 0, q 1, …` of the upper factor become rows `0, 1, …` -/
noncomputable def movedQ (e : ℕ) (q : ℕ → ℕ) (t : ℕ) (V : ℕ → ℕ → K) : ℕ → ℕ → K := fun i j =>
  if i < t ∧ i + e ≤ j then V (q i) j
  else if ∃ a < t, q a = i ∧ a < i ∧ a + e ≤ j then 0
  else V i j

lemma movedQ_zero {e : ℕ} : movedQ e q 0 V = V := by
  funext i j
  unfold movedQ
  rw [if_neg (by omega), if_neg (by rintro ⟨a, ha, _⟩; omega)]

/-- the next row to be moved is still in place -/
lemma movedQ_src {e t R : ℕ} (hi : ∀ a b, a < b → b < R → q a < q b) (hl : ∀ a < R, a ≤ q a) (ht : t < R) (j : ℕ) :
    movedQ e q t V (q t) j = V (q t) j := by
  have := hl t ht
  unfold movedQ
  rw [if_neg (by omega), if_neg]
  rintro ⟨a, ha, hh, _⟩
  have := hi a t ha ht
  omega

lemma movedQ_succ {e t R : ℕ} (hi : ∀ a b, a < b → b < R → q a < q b) (hl : ∀ a < R, a ≤ q a) (ht : t < R) (i j : ℕ) :
    movedQ e q (t + 1) V i j = if i = t ∧ t + e ≤ j then V (q t) j
      else if i = q t ∧ t < q t ∧ t + e ≤ j then 0 else movedQ e q t V i j := by
  have hlt := hl t ht
  unfold movedQ
  by_cases c1 : i = t ∧ t + e ≤ j
  · rw [if_pos c1, if_pos (by omega), c1.1]
  · rw [if_neg c1]
    by_cases c0 : i < t ∧ i + e ≤ j
    · rw [if_pos (show i < t + 1 ∧ i + e ≤ j by omega), if_neg (by omega), if_pos c0]
    · rw [if_neg (show ¬ (i < t + 1 ∧ i + e ≤ j) by omega), if_neg c0]
      by_cases c2 : i = q t ∧ t < q t ∧ t + e ≤ j
      · rw [if_pos c2, if_pos ⟨t, by omega, by omega, by omega, by omega⟩]
      · rw [if_neg c2]
        by_cases c3 : ∃ a < t, q a = i ∧ a < i ∧ a + e ≤ j
        · obtain ⟨a, ha, hh⟩ := c3
          rw [if_pos ⟨a, by omega, hh⟩, if_pos ⟨a, ha, hh⟩]
        · rw [if_neg c3, if_neg]
          rintro ⟨a, ha, h1, h2, h3⟩
          by_cases ca : a = t
          · subst ca; omega
          · exact c3 ⟨a, by omega, h1, h2, h3⟩

/-- the result of the iterative elimination -/
theorem SmallInv.cup (h : SmallInv d M N X V p q M k) : Cup d M N X (movedQ (ub d) q k V) p q k := by
  have hub : ub d ≤ 1 := by cases d <;> simp [ub]
  have hl : ∀ a < k, a ≤ q a := by
    intro a
    induction a with
    | zero => intro _; omega
    | succ a ih =>
      intro ha
      have := h.inc a (a + 1) (by omega) ha
      have := ih (by omega)
      omega
  have inc' : ∀ a < k, ∀ b < k, q a < q b → a < b := fun a ha b hb hab => by
    by_contra c
    rcases Nat.eq_or_lt_of_le (not_lt.1 c) with e | e
    · subst e; omega
    · have := h.inc b a e ha; omega
  have cC : ∀ i, ∀ a < k, q a + 1 ≤ i + ub d → movedQ (ub d) q k V i a = V i a := by
    intro i a ha hi
    have := hl a ha
    unfold movedQ
    rw [if_neg (by omega), if_neg]
    rintro ⟨b, hb, e1, e2, e3⟩
    have : ¬ b < a := fun hba => by have := h.inc b a hba ha; omega
    obtain rfl : b = a := by omega
    omega
  have cU : ∀ a < k, ∀ j, a + ub d ≤ j → movedQ (ub d) q k V a j = V (q a) j := fun a ha j hj => if_pos ⟨ha, hj⟩
  have zr : ∀ i < M, ∀ j < N, ¬ (i < k ∧ i + ub d ≤ j) → (∀ a < k, q a < i → a < j) → (∀ a < k, q a = i → a < i ∧ a + ub d ≤ j) → movedQ (ub d) q k V i j = 0 := by
    intro i hi j hj h0 h1 h2
    unfold movedQ
    rw [if_neg h0]
    by_cases c : ∃ a < k, q a = i ∧ a < i ∧ a + ub d ≤ j
    · rw [if_pos c]
    · rw [if_neg c]
      exact h.zer i hi (fun a ha e => c ⟨a, ha, e, h2 a ha e⟩) j hj h1
  refine ⟨⟨h.kN, h.qr, h.inc, fun a ha => ?_, fun i hi j hj => ?_⟩, h.pP, fun a ha i hi c1 c2 => ?_, fun i hi j hj c1 c2 => ?_⟩
  · have := h.piv a ha
    cases d
    · simp only []
      rw [cU a ha a (by simp [ub])]; exact this
    · simp only []
      rw [cC _ a ha (by simp [ub])]; exact this
  · rw [h.fac i hi j hj, if_neg (by omega), add_zero]
    refine sum_congr rfl (fun a ha => ?_)
    have ha := mem_range.1 ha
    rw [cupC_congr (V := V) (V' := movedQ (ub d) q k V) (q' := q) (i' := i) (k' := a) Iff.rfl Iff.rfl (fun c => (cC i a ha c).symm),
      luU_congr' (V := fun x => V (q x)) (V' := movedQ (ub d) q k V) (k' := a) (j' := j) Iff.rfl Iff.rfl (fun c => (cU a ha j c).symm)]
  · refine zr i hi a (by have := h.kN; omega) (by omega) (fun b hb hbi => ?_) (fun b hb hbi => ?_)
    · exact inc' b hb a ha (by omega)
    · have := hl b hb
      rcases Nat.eq_or_lt_of_le (show i ≤ q a by omega) with e | e
      · have : ¬ a < b := fun hab => by have := h.inc a b hab hb; omega
        have : ¬ b < a := fun hab => by have := h.inc b a hab ha; omega
        omega
      · have := inc' b hb a ha (by omega)
        omega
  · exact zr i hi j hj (by omega) (fun b hb _ => by omega) (fun b hb hbi => by omega)

end Verif.Lud
