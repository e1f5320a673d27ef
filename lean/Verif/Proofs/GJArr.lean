import Verif.Model.Echelon
import Verif.Proofs.EchelonMath
import Verif.Proofs.PluqArr
import Verif.Proofs.PluqStep

/-!
# Index arrays of the Gauss–Jordan elimination
-/

namespace Verif.FF

open Verif.Spec.Perm Verif.Pluq Verif.Perm

/-- A transposition array which only uses the first `e` indices. -/
structure QOk (Q : Arr ℕ) (N e : ℕ) : Prop where
  le : e ≤ N
  len : Q.len = N
  tr : IsTranspArray Q.get e
  fix : ∀ j, e ≤ j → j < N → Q.get j = j

lemma ofSwaps_stop {P : ℕ → ℕ} {n : ℕ} : ∀ {k}, (∀ j, n ≤ j → j < n + k → P j = j) → ofSwaps P (n + k) = ofSwaps P n
  | 0, _ => rfl
  | k+1, h => by
    have := ofSwaps_stop (P := P) (n := n) (k := k) (fun j h1 h2 => h j h1 (by omega))
    rw [← Nat.add_assoc, ofSwaps, h (n + k) (by omega) (by omega), Equiv.swap_self, ← this]
    rfl

lemma ofSwaps_still {P : ℕ → ℕ} {n t : ℕ} : ∀ {k}, (∀ j, n ≤ j → j < n + k → P j ≠ t ∧ j ≠ t) → ofSwaps P (n + k) t = ofSwaps P n t
  | 0, _ => rfl
  | k+1, h => by
    have := ofSwaps_still (P := P) (n := n) (t := t) (k := k) (fun j h1 h2 => h j h1 (by omega))
    have hk := h (n + k) (by omega) (by omega)
    rw [← Nat.add_assoc, ofSwaps, Equiv.Perm.mul_apply, Equiv.swap_apply_of_ne_of_ne (Ne.symm hk.2) (Ne.symm hk.1), this]

lemma ofSwaps_small {P : ℕ → ℕ} {n : ℕ} (hP : IsTranspArray P n) : ∀ k ≤ n, ∀ x, k ≤ x → ofSwaps P k x = x ∨ ofSwaps P k x < k := by
  intro k
  induction k with
  | zero => intro _ x _; left; rfl
  | succ k ih =>
    intro hk x hx
    rw [ofSwaps, Equiv.Perm.mul_apply]
    by_cases h : x = P k
    · subst h
      rw [Equiv.swap_apply_right]
      rcases ih (by omega) k le_rfl with e | e <;> right <;> omega
    · rw [Equiv.swap_apply_of_ne_of_ne (by omega) h]
      rcases ih (by omega) x (by omega) with e | e
      · left; exact e
      · right; omega

lemma QOk.total {Q : Arr ℕ} {N e : ℕ} (h : QOk Q N e) : IsTranspArray Q.get N := by
  intro i hi
  have := h.le
  by_cases hc : i < e
  · have := h.tr i hc; omega
  · rw [h.fix i (by omega) hi]; omega

lemma QOk.eq {Q : Arr ℕ} {N e : ℕ} (h : QOk Q N e) : ofSwaps Q.get N = ofSwaps Q.get e := by
  obtain ⟨k, rfl⟩ := Nat.exists_eq_add_of_le h.le
  exact ofSwaps_stop (fun j h1 h2 => h.fix j h1 h2)

lemma QOk.ge {Q : Arr ℕ} {N e : ℕ} (h : QOk Q N e) {x : ℕ} (hx : e ≤ x) : ofSwaps Q.get N x = x := by
  rw [h.eq]; exact ofSwaps_ge (fun i hi => (h.tr i hi).2) e le_rfl x hx

lemma QOk.lt {Q : Arr ℕ} {N e : ℕ} (h : QOk Q N e) {x : ℕ} (hx : x < e) : ofSwaps Q.get N x < e := by
  rw [h.eq]; exact (ofSwaps_lt (fun i hi => (h.tr i hi).2) e le_rfl x).1 hx

lemma QOk.of_fix {Q : Arr ℕ} {N e : ℕ} (he : e ≤ N) (hl : Q.len = N) (ht : IsTranspArray Q.get N)
    (hf : ∀ x, e ≤ x → x < N → ofSwaps Q.get N x = x) : QOk Q N e := by
  have h1 : ∀ j, e ≤ j → j < N → Q.get j = j := by
    intro j h1 h2
    have a := ofSwaps_stable ht N h2 le_rfl
    rw [hf j h1 h2] at a
    have := ht j h2
    rcases ofSwaps_small ht j (by omega) (Q.get j) this.1 with e' | e' <;> omega
  refine ⟨he, hl, ?_, h1⟩
  have key : ∀ n, ∀ i < e, e - i = n → Q.get i < e := by
    intro n
    induction n using Nat.strong_induction_on with
    | _ n ih =>
      intro i hi hn
      by_contra hc
      have b := ht i (by omega)
      obtain ⟨k, hk⟩ := Nat.exists_eq_add_of_le (show i + 1 ≤ e by omega)
      obtain ⟨k', hk'⟩ := Nat.exists_eq_add_of_le he
      have s0 : ofSwaps Q.get N = ofSwaps Q.get e := by
        rw [hk']; exact ofSwaps_stop (fun j h2 h3 => h1 j h2 (by omega))
      have s : ofSwaps Q.get N (Q.get i) = ofSwaps Q.get (i + 1) (Q.get i) := by
        rw [s0, hk]
        refine ofSwaps_still (fun j h2 h3 => ?_)
        have := ih (e - j) (by omega) j (by omega) rfl
        omega
      rw [hf _ (by omega) b.2, ofSwaps, Equiv.Perm.mul_apply, Equiv.swap_apply_right] at s
      rcases ofSwaps_small ht i (by omega) i le_rfl with e' | e' <;> omega
  intro i hi
  have := ht i (by omega)
  exact ⟨this.1, key _ i hi rfl⟩

lemma QOk.mono {Q : Arr ℕ} {N e e' : ℕ} (h : QOk Q N e) (h1 : e ≤ e') (h2 : e' ≤ N) : QOk Q N e' := by
  refine ⟨h2, h.len, fun i hi => ?_, fun j hj hN => h.fix j (by omega) hN⟩
  by_cases hc : i < e
  · have := h.tr i hc; omega
  · rw [h.fix i (by omega) (by omega)]; omega

lemma ofSwaps_append (P : ℕ → ℕ) (b : ℕ) : ∀ k, ofSwaps P (b + k) = ofSwaps P b * swapsFrom P b k
  | 0 => rfl
  | k+1 => by rw [← Nat.add_assoc, ofSwaps, ofSwaps_append P b k, swapsFrom, mul_assoc]

lemma swapsFrom_shift {P q : ℕ → ℕ} {b : ℕ} : ∀ {k}, (∀ i < k, P (b + i) = b + q i) → ∀ x, swapsFrom P b k x = shiftPerm b x (ofSwaps q k)
  | 0, _, x => by
    simp only [swapsFrom, ofSwaps, shiftPerm, Equiv.Perm.coe_one, id]
    split_ifs <;> omega
  | k+1, h, x => by
    have ih := swapsFrom_shift (P := P) (q := q) (b := b) (k := k) (fun i hi => h i (by omega))
    have hk := h k (Nat.lt_succ_self k)
    rw [swapsFrom, Equiv.Perm.mul_apply, ih, ofSwaps, hk]
    by_cases hx : x < b
    · rw [Equiv.swap_apply_of_ne_of_ne (by omega) (by omega)]
      simp only [shiftPerm, if_pos hx]
    · obtain ⟨y, rfl⟩ := Nat.exists_eq_add_of_le (not_lt.1 hx)
      have e : Equiv.swap (b + k) (b + q k) (b + y) = b + Equiv.swap k (q k) y := by
        rw [Equiv.swap_apply_def, Equiv.swap_apply_def]
        split_ifs <;> omega
      rw [e]
      simp only [shiftPerm, if_neg (show ¬ b + Equiv.swap k (q k) y < b by omega), if_neg hx, Nat.add_sub_cancel_left, Equiv.Perm.mul_apply]

/-- What a call on the slice `cb … cb + cs - 1` does to the column array. -/
structure QRes (Q Q' : Arr ℕ) (N cb cs : ℕ) (q : ℕ → ℕ) : Prop where
  ok : QOk Q' N (cb + cs)
  lo : ∀ j < cb, ofSwaps Q'.get N j = ofSwaps Q.get N j
  hi : ∀ j < cs, ofSwaps Q'.get N (cb + j) = cb + q j

lemma QRes.refl {Q : Arr ℕ} {N cb cs : ℕ} (h : QOk Q N cb) (h2 : cb + cs ≤ N) : QRes Q Q N cb cs (fun j => j) :=
  ⟨h.mono (by omega) h2, fun _ _ => rfl, fun j _ => h.ge (by omega)⟩

lemma QRes.base {Q Q' q : Arr ℕ} {N cb cs : ℕ} (h : QOk Q N cb) (hl : cb + cs ≤ N) (hq : IsTranspArray q.get cs) (hlen : Q'.len = N)
    (hQ' : ∀ i, Q'.get i = if cb ≤ i ∧ i < cb + cs then q.get (i - cb) + cb else Q.get i) : QRes Q Q' N cb cs (ofSwaps q.get cs) := by
  have ok : QOk Q' N (cb + cs) := by
    refine ⟨hl, hlen, fun i hi => ?_, fun j h1 h2 => ?_⟩
    · rw [hQ']
      by_cases hc : cb ≤ i
      · rw [if_pos ⟨hc, hi⟩]; have := hq (i - cb) (by omega); omega
      · rw [if_neg (by omega)]; have := h.tr i (by omega); omega
    · rw [hQ', if_neg (by omega)]; exact h.fix j (by omega) h2
  have e1 : ofSwaps Q'.get cb = ofSwaps Q.get cb := ofSwaps_congr (fun j hj => by rw [hQ', if_neg (by omega)])
  have e2 : ∀ x, swapsFrom Q'.get cb cs x = shiftPerm cb x (ofSwaps q.get cs) :=
    swapsFrom_shift (fun i hi => by rw [hQ', if_pos (by omega), Nat.add_sub_cancel_left, Nat.add_comm])
  refine ⟨ok, fun j hj => ?_, fun j hj => ?_⟩
  · rw [ok.eq, ofSwaps_append, Equiv.Perm.mul_apply, e2, e1, h.eq]
    simp only [shiftPerm, if_pos hj]
  · rw [ok.eq, ofSwaps_append, Equiv.Perm.mul_apply, e2, e1]
    simp only [shiftPerm]
    rw [if_neg (by omega), Nat.add_sub_cancel_left]
    exact ofSwaps_ge (fun i hi => (h.tr i hi).2) cb le_rfl _ (by omega)

/-- two slices without a move -/
lemma QRes.comp {Q Q1 Q2 : Arr ℕ} {N cb c1 c2 r1 r2 : ℕ} {q1 q2 : ℕ → ℕ} (h1 : QRes Q Q1 N cb c1 q1) (h2 : QRes Q1 Q2 N (cb + c1) c2 q2)
    (hr1 : r1 ≤ c1) (hc : ¬ (r1 < c1 ∧ r2 ≠ 0)) : QRes Q Q2 N cb (c1 + c2) (gjQ c1 r1 r2 q1 q2) := by
  have key : ∀ j, gjQ c1 r1 r2 q1 q2 j = if j < c1 then q1 j else c1 + q2 (j - c1) := by
    intro j
    unfold gjQ
    have : r1 = c1 ∨ r2 = 0 := by omega
    rcases this with rfl | rfl
    · split_ifs <;> first | rfl | omega
    · simp only [Nat.add_zero, Nat.sub_zero]
      split_ifs <;> first | rfl | omega
  refine ⟨by rw [← Nat.add_assoc]; exact h2.ok, fun j hj => by rw [h2.lo j (by omega), h1.lo j hj], fun j hj => ?_⟩
  rw [key]
  by_cases hj1 : j < c1
  · rw [if_pos hj1, h2.lo _ (by omega), h1.hi j hj1]
  · rw [if_neg hj1]
    have := h2.hi (j - c1) (by omega)
    rw [show cb + c1 + (j - c1) = cb + j by omega] at this
    rw [this]; omega

/-- the index array after the move -/
lemma gaussJordanMoveQ_spec (jk : List ℕ → ℕ → ℕ) {Q Q1 Q2 : Arr ℕ} {N cb c1 c2 r1 r2 : ℕ} {q1 q2 : ℕ → ℕ} (h1 : QRes Q Q1 N cb c1 q1)
    (h2 : QRes Q1 Q2 N (cb + c1) c2 q2) (hr1 : r1 ≤ c1) (hr2 : r2 ≤ c2) :
    Ok (gaussJordanMoveQ jk N cb c1 r1 r2 Q2) (fun Q3 => QRes Q Q3 N cb (c1 + c2) (gjQ c1 r1 r2 q1 q2)) := by
  have hN := h2.ok.le
  have tr := h2.ok.total
  obtain ⟨mv, hmv⟩ : ∃ mv : ℕ → ℕ, ∀ i, mv i = if cb + r1 + r2 ≤ i ∧ i < cb + c1 + r2 then i - r2 else
    if cb + r1 ≤ i ∧ i < cb + r1 + r2 then cb + c1 + (i - (cb + r1)) else i := ⟨_, fun _ => rfl⟩
  have hmv1 : ∀ i < N, mv i < N := by
    intro i hi; rw [hmv]; split_ifs <;> omega
  have hmv2 : ∀ i, i < N → ∀ j, j < N → mv i = mv j → i = j := by
    intro i hi j hj; rw [hmv, hmv]; split_ifs <;> omega
  unfold gaussJordanMoveQ
  simp only [Ok_bind]
  refine (LAPACKPerm2MathPerm_spec N _ Q2 rfl h2.ok.len (fun i hi => (tr i hi).2)).mono ?_
  rintro A ⟨lA, eA⟩
  refine (copyTo_spec A (cb + r1) (Arr.mk' (c1 - r1) (jk [1])) 0 (c1 - r1) (by omega) (by simp [Arr.mk'])).mono ?_
  rintro T ⟨lT, eT⟩
  refine (copyForward_spec A (cb + c1) (cb + r1) r2 (by omega) (by omega)).mono ?_
  rintro B ⟨lB, eB⟩
  refine (copyTo_spec T 0 B (cb + r1 + r2) (c1 - r1) (by rw [lT]; simp [Arr.mk']) (by omega)).mono ?_
  rintro C ⟨lC, eC⟩
  have key : ∀ i < N, C.get i = ofSwaps Q2.get N (mv i) := by
    intro i hi
    rw [← eA _ (hmv1 i hi), eC, eT, eB, hmv]
    by_cases a : cb + r1 + r2 ≤ i ∧ i < cb + c1 + r2
    · rw [if_pos (by omega), if_pos (by omega), if_pos a]; congr 1; omega
    · rw [if_neg (by omega), if_neg a]
      by_cases b : cb + r1 ≤ i ∧ i < cb + r1 + r2
      · rw [if_pos b, if_pos b]
      · rw [if_neg b, if_neg b]
  have hperm : IsPermArray C.get N := by
    refine ⟨fun i hi => ?_, fun i hi j hj e => ?_⟩
    · rw [key i hi]; exact (ofSwaps_lt (fun i hi => (tr i hi).2) N le_rfl _).1 (hmv1 i hi)
    · rw [key i hi, key j hj] at e
      exact hmv2 i hi j hj ((ofSwaps Q2.get N).injective e)
  refine (MathPerm2LAPACKPerm_spec N Q2 C (jk [2]) (jk [3]) h2.ok.len (by omega) hperm).mono ?_
  rintro L ⟨lL, tL, eL⟩
  refine ⟨QOk.of_fix (by omega) lL tL (fun x hx hN => ?_), fun j hj => ?_, fun j hj => ?_⟩
  · rw [← eL x hN, key x hN, hmv, if_neg (by omega), if_neg (by omega)]; exact h2.ok.ge (by omega)
  · rw [← eL j (by omega), key j (by omega), hmv, if_neg (by omega), if_neg (by omega), h2.lo j (by omega), h1.lo j hj]
  · rw [← eL _ (by omega), key _ (by omega), hmv, gjQ]
    by_cases a : cb + r1 + r2 ≤ cb + j ∧ cb + j < cb + c1 + r2
    · rw [if_pos a, show cb + j - r2 = cb + (j - r2) by omega, h2.lo _ (by omega), h1.hi _ (by omega), if_neg (by omega), if_neg (by omega), if_pos (by omega)]
    · rw [if_neg a]
      by_cases b : cb + r1 ≤ cb + j ∧ cb + j < cb + r1 + r2
      · rw [if_pos b, show cb + j - (cb + r1) = j - r1 by omega, h2.hi _ (by omega), if_neg (by omega), if_pos (by omega)]; omega
      · rw [if_neg b]
        by_cases c : j < r1
        · rw [if_pos c, h2.lo _ (by omega), h1.hi _ (by omega)]
        · rw [if_neg c, if_neg (by omega), if_neg (by omega)]
          have := h2.hi (j - c1) (by omega)
          rw [show cb + c1 + (j - c1) = cb + j by omega] at this
          rw [this]; omega

end Verif.FF
