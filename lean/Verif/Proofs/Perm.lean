import Verif.Model.Perm
import Verif.Spec.Perm

namespace Verif.Perm
open Verif Verif.Spec.Perm

lemma update_update_swap {α : Type} (g : ℕ → α) (i j : ℕ) :
    Function.update (Function.update g i (g j)) j (g i) = g ∘ Equiv.swap i j := by
  funext x
  simp only [Function.update_apply, Function.comp, Equiv.swap_apply_def]
  by_cases h1 : x = j
  · subst h1; by_cases h2 : x = i <;> simp [h2]
  · by_cases h2 : x = i
    · subst h2; simp [h1]
    · simp [h1, h2]

lemma Ok_aswap {α : Type} (A : Arr α) (i j : ℕ) (Q : Arr α → Prop) (hi : i < A.len) (hj : j < A.len)
    (hQ : Q ⟨A.len, A.get ∘ Equiv.swap i j⟩) : Ok (aswap A i j) Q := by
  simp only [aswap, Ok_bind, Ok_rd, Ok_wr]
  refine ⟨hi, hj, hi, hj, ?_⟩
  rwa [update_update_swap]

lemma ofSwaps_lt {P : ℕ → ℕ} {n : ℕ} (hP : ∀ i < n, P i < n) : ∀ k ≤ n, ∀ x, x < n ↔ ofSwaps P k x < n := by
  intro k
  induction k with
  | zero => intro _ x; simp [ofSwaps]
  | succ k ih =>
    intro hk x
    have h1 := hP k (by omega)
    rw [ofSwaps, Equiv.Perm.mul_apply, ← ih (by omega), Equiv.swap_apply_def]
    split_ifs <;> omega

lemma ofSwaps_congr {P P' : ℕ → ℕ} {k : ℕ} (h : ∀ i < k, P i = P' i) : ofSwaps P k = ofSwaps P' k := by
  induction k with
  | zero => rfl
  | succ k ih => rw [ofSwaps, ofSwaps, ih (fun i hi => h i (by omega)), h k (by omega)]

lemma ofSwaps_ge {P : ℕ → ℕ} {n : ℕ} (hP : ∀ i < n, P i < n) : ∀ k ≤ n, ∀ x, n ≤ x → ofSwaps P k x = x := by
  intro k
  induction k with
  | zero => intro _ x _; rfl
  | succ k ih =>
    intro hk x hx
    have h1 := hP k (by omega)
    rw [ofSwaps, Equiv.Perm.mul_apply, Equiv.swap_apply_of_ne_of_ne (by omega) (by omega), ih (by omega) x hx]

lemma iter_id_spec (N : ℕ) (A : Arr ℕ) (hA : N ≤ A.len) :
    Ok (iter N (fun i M => Arr.wr M i i) A) (fun M => M.len = A.len ∧ ∀ i < N, M.get i = i) := by
  refine (Ok_iter (fun k (M : Arr ℕ) => M.len = A.len ∧ ∀ i < k, M.get i = i) ⟨rfl, by simp⟩ ?_)
  intro k M hk ⟨hl, hM⟩
  simp only [Ok_wr]
  refine ⟨by omega, hl, fun i hi => ?_⟩
  by_cases h : i = k
  · subst h; simp
  · simp only [Function.update_of_ne h]; exact hM i (by omega)

theorem LAPACKPerm2MathPerm_spec' (N : ℕ) (A P : Arr ℕ) (hA : N ≤ A.len) (hP : P.len = N)
    (hb : ∀ i < N, P.get i < N) :
    Ok (LAPACKPerm2MathPerm A P N) (fun M => M.len = A.len ∧ ∀ i < N, M.get i = ofSwaps P.get N i) := by
  simp only [LAPACKPerm2MathPerm, Ok_bind]
  refine (iter_id_spec N A hA).mono ?_
  intro M ⟨hl, hM⟩
  refine Ok_iter (fun k (M : Arr ℕ) => M.len = A.len ∧ ∀ i < N, M.get i = ofSwaps P.get k i) ⟨hl, by simpa [ofSwaps] using hM⟩ ?_
  intro k M hk ⟨hl, hM⟩
  simp only [Ok_bind, Ok_rd]
  refine ⟨by omega, ?_⟩
  rw [Ok_ite]
  have hpk := hb k hk
  refine ⟨fun h => ?_, fun h => ?_⟩
  · refine Ok_aswap _ _ _ _ (by omega) (by omega) ⟨hl, fun i hi => ?_⟩
    have : Equiv.swap k (P.get k) i < N := by rw [Equiv.swap_apply_def]; split_ifs <;> omega
    rw [ofSwaps, Equiv.Perm.mul_apply, ← hM _ this]; rfl
  · push Not at h
    simp only [Ok_pure]
    refine ⟨hl, fun i hi => ?_⟩
    rw [ofSwaps, Equiv.Perm.mul_apply, h, Equiv.swap_self]
    exact hM i hi

theorem LAPACKPerm2MathPerm_spec (N : ℕ) (A P : Arr ℕ) (hA : A.len = N) (hP : P.len = N)
    (hb : ∀ i < N, P.get i < N) :
    Ok (LAPACKPerm2MathPerm A P N) (fun M => M.len = N ∧ ∀ i < N, M.get i = ofSwaps P.get N i) :=
  (LAPACKPerm2MathPerm_spec' N A P hA.ge hP hb).mono (fun _ h => ⟨h.1.trans hA, h.2⟩)

lemma upd_Tinv {N k j : ℕ} (Ti : ℕ → ℕ) (σ : Equiv.Perm ℕ) (hTi : ∀ i < N, Ti i = σ.symm i) :
    ∀ i < N, Function.update (Function.update Ti (σ k) j) (σ j) k i = (σ * Equiv.swap k j).symm i := by
  intro i hi
  have : (σ * Equiv.swap k j).symm i = Equiv.swap k j (σ.symm i) := rfl
  rw [this, Equiv.swap_apply_def]
  simp only [Function.update_apply]
  by_cases h1 : i = σ j
  · subst h1
    by_cases h2 : j = k <;> simp [h2]
  · have h1' : σ.symm i ≠ j := fun h => h1 (by rw [← h]; simp)
    by_cases h2 : i = σ k
    · subst h2; simp [h1]
    · have h2' : σ.symm i ≠ k := fun h => h2 (by rw [← h]; simp)
      simp only [h1, h2, h1', h2', if_false]
      exact hTi i hi

/-- the array `MathP` may be longer than the number of entries used -/
theorem MathPerm2LAPACKPerm_spec' (N : ℕ) (L M : Arr ℕ) (j1 j2 : ℕ → ℕ) (hL : L.len = N) (hM : N ≤ M.len)
    (hp : IsPermArray M.get N) :
    Ok (MathPerm2LAPACKPerm L M N j1 j2) (fun L => L.len = N ∧ IsTranspArray L.get N ∧
      ∀ i < N, M.get i = ofSwaps L.get N i) := by
  simp only [MathPerm2LAPACKPerm, Ok_bind]
  have h1 : Ok (iter N (fun i (x : Arr ℕ × Arr ℕ) => match x with | (T, Tinv) => do
      let T ← Arr.wr T i i
      let Tinv ← Arr.wr Tinv i i
      pure (T, Tinv)) (Arr.mk' N j1, Arr.mk' N j2)) (fun x => x.1.len = N ∧ x.2.len = N ∧
        (∀ i < N, x.1.get i = i) ∧ ∀ i < N, x.2.get i = i) := by
    refine Ok_iter (fun k (x : Arr ℕ × Arr ℕ) => x.1.len = N ∧ x.2.len = N ∧
        (∀ i < k, x.1.get i = i) ∧ ∀ i < k, x.2.get i = i) ⟨rfl, rfl, by simp, by simp⟩ ?_
    rintro k ⟨T, Ti⟩ hk ⟨a, b, c, d⟩
    dsimp only at a b c d
    simp only [Ok_bind, Ok_wr, Ok_pure]
    refine ⟨by omega, by omega, a, b, fun i hi => ?_, fun i hi => ?_⟩ <;>
    · by_cases h : i = k
      · subst h; simp
      · simp only [Function.update_of_ne h]
        first | exact c i (by omega) | exact d i (by omega)
  refine h1.mono ?_
  rintro ⟨T, Ti⟩ ⟨hT, hTi, gT, gTi⟩
  dsimp only at hT hTi gT gTi ⊢
  have h2 := Ok_iter (n := N) (f := (fun i (x : Arr ℕ × Arr ℕ × Arr ℕ) => match x with
    | (LapackP, T, Tinv) => do
      let mi ← M.rd i
      let j ← Tinv.rd mi
      let LapackP ← LapackP.wr i j
      let tmp ← T.rd j
      let ti ← T.rd i
      let T ← T.wr j ti
      let Tinv ← Tinv.wr ti j
      let T ← T.wr i tmp
      let Tinv ← Tinv.wr tmp i
      pure (LapackP, T, Tinv))) (s := (L, T, Ti))
    (fun k x => x.1.len = N ∧ x.2.1.len = N ∧ x.2.2.len = N ∧
      (∀ i < k, i ≤ x.1.get i ∧ x.1.get i < N) ∧
      (∀ i < k, M.get i = ofSwaps x.1.get k i) ∧
      (∀ i, i < N ↔ ofSwaps x.1.get k i < N) ∧
      (∀ i < N, x.2.1.get i = ofSwaps x.1.get k i) ∧
      (∀ i < N, x.2.2.get i = (ofSwaps x.1.get k).symm i))
    ⟨hL, hT, hTi, by simp, by simp, by simp [ofSwaps], gT, gTi⟩ (by
      rintro k ⟨L, T, Ti⟩ hk ⟨a, b, c, d, e, f, g, h⟩
      dsimp only at a b c d e f g h
      simp only [Ok_bind, Ok_rd, Ok_wr, Ok_pure]
      set σ := ofSwaps L.get k with hσ
      have hMk := hp.1 k hk
      set j := Ti.get (M.get k) with hj
      have hj' : j = σ.symm (M.get k) := h _ hMk
      have hσj : σ j = M.get k := by rw [hj']; simp
      have hjN : j < N := (f j).2 (by omega)
      have hjk : k ≤ j := by
        by_contra hlt
        push Not at hlt
        have := e j hlt
        rw [hσj] at this
        exact absurd (hp.2 j hjN k hk this) (by omega)
      have hTk := g k hk
      have hTj := g j hjN
      have hσk : σ k < N := (f k).1 hk
      have hnew : ofSwaps (Function.update L.get k j) (k+1) = σ * Equiv.swap k j := by
        rw [ofSwaps, Function.update_self, hσ]
        congr 1
        exact ofSwaps_congr (fun i hi => by rw [Function.update_of_ne (by omega)])
      refine ⟨by omega, by omega, by omega, by omega, by omega, by omega, by omega, by omega, by omega, a, b, c, ?_, ?_, ?_, ?_, ?_⟩
      · intro i hi
        by_cases h0 : i = k
        · subst h0; simp; omega
        · rw [Function.update_of_ne h0]; exact d i (by omega)
      · intro i hi
        rw [hnew, Equiv.Perm.mul_apply]
        by_cases h0 : i = k
        · subst h0; simp [hσj]
        · rw [Equiv.swap_apply_of_ne_of_ne h0 (by omega)]; exact e i (by omega)
      · intro i
        rw [hnew, Equiv.Perm.mul_apply, ← f, Equiv.swap_apply_def]
        split_ifs <;> omega
      · intro i hi
        rw [hnew]
        have := congrFun (update_update_swap T.get j k) i
        rw [this, Equiv.swap_comm, Equiv.Perm.mul_apply]
        apply g
        rw [Equiv.swap_apply_def]; split_ifs <;> omega
      · intro i hi
        rw [hnew, hTk, hTj]
        exact upd_Tinv Ti.get σ h i hi)
  refine h2.mono ?_
  rintro ⟨L, T, Ti⟩ ⟨a, b, c, d, e, f, g, h⟩
  simp only [Ok_pure]
  exact ⟨a, d, e⟩

theorem MathPerm2LAPACKPerm_spec (N : ℕ) (L M : Arr ℕ) (j1 j2 : ℕ → ℕ) (hL : L.len = N) (hM : M.len = N)
    (hp : IsPermArray M.get N) :
    Ok (MathPerm2LAPACKPerm L M N j1 j2) (fun L => L.len = N ∧ IsTranspArray L.get N ∧
      ∀ i < N, M.get i = ofSwaps L.get N i) := MathPerm2LAPACKPerm_spec' N L M j1 j2 hL hM.ge hp

/-- Entry `i` of a transposition array is determined by the permutation. -/
lemma ofSwaps_stable {P : ℕ → ℕ} {n : ℕ} (hP : IsTranspArray P n) {i : ℕ} :
    ∀ k, i < k → k ≤ n → ofSwaps P k i = ofSwaps P i (P i) := by
  intro k
  induction k with
  | zero => intro h; omega
  | succ k ih =>
    intro hi hk
    rw [ofSwaps, Equiv.Perm.mul_apply]
    by_cases h : i = k
    · subst h; simp
    · have := (hP k (by omega)).1
      rw [Equiv.swap_apply_of_ne_of_ne h (by omega)]
      exact ih (by omega) (by omega)

lemma transp_unique {P P' : ℕ → ℕ} {n : ℕ} (hP : IsTranspArray P n) (hP' : IsTranspArray P' n)
    (h : ∀ i < n, ofSwaps P n i = ofSwaps P' n i) : ∀ i < n, P i = P' i := by
  intro i
  induction i using Nat.strong_induction_on with
  | _ i ih =>
    intro hi
    have h1 := h i hi
    rw [ofSwaps_stable hP n hi le_rfl, ofSwaps_stable hP' n hi le_rfl,
      ofSwaps_congr (P := P) (P' := P') (fun j hj => ih j hj (by omega))] at h1
    exact (ofSwaps P' i).injective h1

lemma ofSwaps_isPerm {P : ℕ → ℕ} {n : ℕ} (hP : ∀ i < n, P i < n) : IsPermArray (ofSwaps P n) n :=
  ⟨fun i hi => (ofSwaps_lt hP n le_rfl i).1 hi, fun _ _ _ _ h => (ofSwaps P n).injective h⟩

/-- The permutation acting as `σ` on the entries `R, R+1, …` and fixing the first `R`. -/
def shiftPerm (R : ℕ) (i : ℕ) (σ : ℕ → ℕ) : ℕ := if i < R then i else R + σ (i - R)

theorem composePermutationsMLM_spec' (N R : ℕ) (M P2 : Arr ℕ) (hM : N ≤ M.len) (hR : R ≤ N)
    (hP : P2.len = N - R) (hb : ∀ i < N - R, P2.get i < N - R) :
    Ok (composePermutationsMLM M P2 R N) (fun M' => M'.len = M.len ∧
      ∀ i < N, M'.get i = M.get (shiftPerm R i (ofSwaps P2.get (N - R)))) := by
  refine Ok_iter (fun k (M' : Arr ℕ) => M'.len = M.len ∧ ∀ i < N, M'.get i = M.get (shiftPerm R i (ofSwaps P2.get k))) ⟨rfl, ?_⟩ ?_
  · intro i hi
    simp only [shiftPerm, ofSwaps, Equiv.Perm.coe_one, id]
    split_ifs with h
    · rfl
    · congr 1; omega
  · intro k M' hk ⟨hl, hg⟩
    have hpk := hb k hk
    have e : R + k - R = k := by omega
    simp only [Ok_bind, Ok_rd, e]
    refine ⟨by omega, ?_⟩
    have key : ∀ i < N, M'.get (Equiv.swap (R + k) (P2.get k + R) i) =
        M.get (shiftPerm R i (ofSwaps P2.get (k+1))) := by
      intro i hi
      have h3 : Equiv.swap (R + k) (P2.get k + R) i < N := by
        rw [Equiv.swap_apply_def]; split_ifs <;> omega
      rw [hg _ h3]
      congr 1
      simp only [shiftPerm, ofSwaps, Equiv.Perm.mul_apply]
      by_cases hiR : i < R
      · rw [Equiv.swap_apply_of_ne_of_ne (by omega) (by omega)]; simp [hiR]
      · obtain ⟨d, rfl⟩ := Nat.exists_eq_add_of_le (not_lt.mp hiR)
        have h4 : Equiv.swap (R + k) (P2.get k + R) (R + d) = R + Equiv.swap k (P2.get k) d := by
          simp only [Equiv.swap_apply_def]
          split_ifs <;> omega
        rw [h4]
        simp
    rw [Ok_ite]
    refine ⟨fun h => ?_, fun h => ?_⟩
    · simp only [Ok_bind, Ok_rd, Ok_wr]
      refine ⟨by omega, by omega, by omega, by omega, hl, fun i hi => ?_⟩
      rw [update_update_swap]
      exact key i hi
    · push Not at h
      simp only [Ok_pure]
      refine ⟨hl, fun i hi => ?_⟩
      rw [← key i hi, h, Nat.add_comm, Equiv.swap_self]
      rfl

theorem composePermutationsMLM_spec (N R : ℕ) (M P2 : Arr ℕ) (hM : M.len = N) (hR : R ≤ N)
    (hP : P2.len = N - R) (hb : ∀ i < N - R, P2.get i < N - R) :
    Ok (composePermutationsMLM M P2 R N) (fun M' => M'.len = N ∧
      ∀ i < N, M'.get i = M.get (shiftPerm R i (ofSwaps P2.get (N - R)))) :=
  (composePermutationsMLM_spec' N R M P2 hM.ge hR hP hb).mono (fun _ h => ⟨h.1.trans hM, h.2⟩)

theorem composePermutationsLLM_spec' (N R : ℕ) (A P1 P2 : Arr ℕ) (hA : N ≤ A.len) (hR : R ≤ N)
    (hP1 : P1.len = N) (hb1 : ∀ i < N, P1.get i < N)
    (hP : P2.len = N - R) (hb : ∀ i < N - R, P2.get i < N - R) :
    Ok (composePermutationsLLM A P1 P2 R N) (fun M' => M'.len = A.len ∧
      ∀ i < N, M'.get i = ofSwaps P1.get N (shiftPerm R i (ofSwaps P2.get (N - R)))) := by
  simp only [composePermutationsLLM, Ok_bind]
  refine (iter_id_spec N A hA).mono fun M ⟨hl, _⟩ => ?_
  refine (LAPACKPerm2MathPerm_spec' N M P1 (by omega) hP1 hb1).mono fun M1 ⟨hl1, h1⟩ => ?_
  refine (composePermutationsMLM_spec' N R M1 P2 (by omega) hR hP hb).mono fun M2 ⟨hl2, h2⟩ => ⟨by omega, ?_⟩
  intro i hi
  rw [h2 i hi]
  apply h1
  unfold shiftPerm
  split_ifs with h
  · exact hi
  · have := (ofSwaps_lt hb _ le_rfl (i - R)).1 (by omega)
    omega

theorem composePermutationsLLM_spec (N R : ℕ) (A P1 P2 : Arr ℕ) (hA : A.len = N) (hR : R ≤ N)
    (hP1 : P1.len = N) (hb1 : ∀ i < N, P1.get i < N)
    (hP : P2.len = N - R) (hb : ∀ i < N - R, P2.get i < N - R) :
    Ok (composePermutationsLLM A P1 P2 R N) (fun M' => M'.len = N ∧
      ∀ i < N, M'.get i = ofSwaps P1.get N (shiftPerm R i (ofSwaps P2.get (N - R)))) :=
  (composePermutationsLLM_spec' N R A P1 P2 hA.ge hR hP1 hb1 hP hb).mono (fun _ h => ⟨h.1.trans hA, h.2⟩)

lemma shiftPerm_isPerm {N R : ℕ} {σ : ℕ → ℕ} (hR : R ≤ N) (h : IsPermArray σ (N - R)) :
    IsPermArray (fun i => shiftPerm R i σ) N := by
  constructor
  · intro i hi
    simp only [shiftPerm]
    split_ifs with h0
    · exact hi
    · have := h.1 (i - R) (by omega); omega
  · intro i hi j hj e
    simp only [shiftPerm] at e
    split_ifs at e with h1 h2 h2
    · exact e
    · omega
    · omega
    · have := h.2 (i - R) (by omega) (j - R) (by omega) (by omega); omega

theorem composePermutationsLLL_spec (N R : ℕ) (P1 P2 : Arr ℕ) (jk j1 j2 : ℕ → ℕ) (hR : R ≤ N)
    (hP1 : P1.len = N) (hb1 : ∀ i < N, P1.get i < N)
    (hP : P2.len = N - R) (hb : ∀ i < N - R, P2.get i < N - R) :
    Ok (composePermutationsLLL P1 P2 R N jk j1 j2) (fun L => L.len = N ∧ IsTranspArray L.get N ∧
      ∀ i < N, ofSwaps L.get N i = ofSwaps P1.get N (shiftPerm R i (ofSwaps P2.get (N - R)))) := by
  simp only [composePermutationsLLL, Ok_bind]
  refine (composePermutationsLLM_spec N R _ P1 P2 rfl hR hP1 hb1 hP hb).mono fun M ⟨hl, hM⟩ => ?_
  have hperm : IsPermArray M.get N := by
    have hs := shiftPerm_isPerm hR (ofSwaps_isPerm hb)
    have h1 := ofSwaps_isPerm hb1
    constructor
    · intro i hi; rw [hM i hi]; exact h1.1 _ (hs.1 i hi)
    · intro i hi j hj e
      rw [hM i hi, hM j hj] at e
      exact hs.2 i hi j hj ((ofSwaps P1.get N).injective e)
  refine (MathPerm2LAPACKPerm_spec N P1 M j1 j2 hP1 hl hperm).mono fun L ⟨a, b, c⟩ => ⟨a, b, ?_⟩
  intro i hi
  rw [← c i hi, hM i hi]

/-! ## cyclic shift of an index array -/

lemma copyMove_spec {α : Type} (A : Arr α) (src dst n : ℕ) (h1 : src + n ≤ A.len) (h2 : dst + n ≤ A.len) :
    Ok (copyMove A src dst n) (fun B => B.len = A.len ∧
      ∀ i, B.get i = if dst ≤ i ∧ i < dst + n then A.get (src + (i - dst)) else A.get i) := by
  simp only [copyMove, Ok_bind]
  refine (Ok_iter (fun k b => b = (List.range k).map (fun i => A.get (src + i))) rfl ?_).mono ?_
  · intro k b hk hb
    simp only [Ok_bind, Ok_rd, Ok_pure]
    refine ⟨by omega, ?_⟩
    rw [List.range_succ, List.map_append, hb]; rfl
  · intro b hb
    refine Ok_iter (fun k (B : Arr α) => B.len = A.len ∧
      ∀ i, B.get i = if dst ≤ i ∧ i < dst + k then A.get (src + (i - dst)) else A.get i) ⟨rfl, ?_⟩ ?_
    · intro i; rw [if_neg (by omega)]
    · intro k B hk ⟨hl, hB⟩
      have : b[k]? = some (A.get (src + k)) := by
        rw [hb, List.getElem?_map, List.getElem?_range hk]; rfl
      rw [this]
      simp only [Ok_wr]
      refine ⟨by omega, hl, fun i => ?_⟩
      rw [Function.update_apply]
      by_cases h : i = dst + k
      · subst h; simp
      · rw [if_neg h, hB]
        by_cases h3 : dst ≤ i ∧ i < dst + k
        · rw [if_pos h3, if_pos (by omega)]
        · rw [if_neg h3, if_neg (by omega)]

theorem cyclic_shift_mathPerm_spec {α : Type} (P : Arr α) (s : ℕ) (hs : 1 ≤ s) (hl : s ≤ P.len) :
    Ok (cyclic_shift_mathPerm copyMove P s) (fun B => B.len = P.len ∧
      ∀ i, B.get i = if i = 0 then P.get (s-1) else if i < s then P.get (i-1) else P.get i) := by
  simp only [cyclic_shift_mathPerm, Ok_bind, Ok_usub, Ok_rd]
  refine ⟨hs, by omega, ?_⟩
  refine (copyMove_spec P 0 1 (s-1) (by omega) (by omega)).mono ?_
  intro B ⟨hBl, hB⟩
  simp only [Ok_wr]
  refine ⟨by omega, hBl, fun i => ?_⟩
  rw [Function.update_apply]
  split_ifs with h0 h1
  · rfl
  · rw [hB, if_pos (by omega)]; congr 1; omega
  · rw [hB, if_neg (by omega)]

end Verif.Perm
