import Verif.Model.Danilevski
import Verif.Proofs.CharPolyMath
import Verif.Proofs.Crout
import Verif.Proofs.ApplyP
import Verif.Proofs.Src

/-!
# Danilevski's algorithm
-/

namespace Verif.FF

open Finset Polynomial
open Verif.Spec

section math
variable {K : Type} [Field K] {n k : ℕ} {V V' : ℕ → ℕ → K}

/-- the matrix the algorithm works on: the first `k` columns are those of a companion matrix, whatever is stored there -/
def shiftM (k : ℕ) (V : ℕ → ℕ → K) : ℕ → ℕ → K := fun i j => if j < k then (if i = j + 1 then 1 else 0) else V i j

lemma shiftM_lt {i j : ℕ} (h : j < k) : shiftM k V i j = if i = j + 1 then 1 else 0 := if_pos h

lemma shiftM_ge {i j : ℕ} (h : ¬ j < k) : shiftM k V i j = V i j := if_neg h

/-- product with the identity in which one column is replaced -/
lemma mul_colT {c : ℕ} (hc : c < n) (v : ℕ → K) (X : ℕ → ℕ → K) {i : ℕ} (hi : i < n) (j : ℕ) :
    mul n (fun i j => if j = c then v i else if i = j then 1 else 0) X i j = (if i = c then 0 else X i j) + v i * X c j := by
  unfold mul
  have e : ∀ l, (if l = c then v i else if i = l then (1 : K) else 0) * X l j =
      (if l = i then (if i = c then 0 else X i j) else 0) + (if l = c then v i * X c j else 0) := by
    intro l
    by_cases h1 : l = c
    · subst h1
      by_cases h2 : l = i
      · subst h2; simp
      · simp [h2]
    · by_cases h2 : l = i
      · subst h2; simp [h1]
      · have : i ≠ l := fun h => h2 h.symm
        simp [h1, h2, this]
  simp only [e]
  rw [sum_add_distrib, sum_ite_eq', sum_ite_eq', if_pos (mem_range.2 hi), if_pos (mem_range.2 hc)]

lemma mul_colT' {c : ℕ} (v : ℕ → K) (X : ℕ → ℕ → K) (i : ℕ) {j : ℕ} (hj : j < n) :
    mul n X (fun i j => if j = c then v i else if i = j then 1 else 0) i j = if j = c then ∑ l ∈ range n, X i l * v l else X i j := by
  unfold mul
  by_cases h : j = c
  · simp only [if_pos h]
  · simp only [if_neg h]
    rw [sum_eq_single j]
    · simp
    · intro b _ hb; simp [hb]
    · intro h; exact absurd (mem_range.2 hj) h

/-- one elimination step is a similarity -/
lemma dan_similar (hk : k + 1 < n) (hp : V (k + 1) k ≠ 0)
    (h1 : ∀ j, k + 1 < j → j < n → V' (k + 1) j = (V (k + 1) k)⁻¹ * V (k + 1) j)
    (h2 : ∀ i < n, i ≠ k + 1 → ∀ j, k + 1 < j → j < n → V' i j = V i j - V i k * V' (k + 1) j)
    (h3 : ∀ i < n, V' i (k + 1) = (if i = k + 1 then V (k + 1) (k + 1) else V i (k + 1) * V (k + 1) k - V i k * V (k + 1) (k + 1)) +
      (∑ l ∈ range (n - k - 2), V' i (k + 2 + l) * V (k + 2 + l) k) + (if 1 ≤ i ∧ i ≤ k + 1 then V (i - 1) k else 0)) :
    chi n (shiftM k V) = chi n (shiftM (k + 1) V') := by
  refine chi_similar (T := fun i j => if j = k + 1 then V i k else if i = j then 1 else 0) ?_ ?_
  · rw [det_col (n := n) hk (v := fun i => V i k) (fun _ _ _ _ => rfl)]
    exact hp
  intro i hi j hj
  rw [mul_colT' (fun l => V l k) _ i hj, mul_colT hk (fun l => V l k) _ hi]
  by_cases hj1 : j = k + 1
  · rw [if_pos hj1]
    subst hj1
    have hn : n = k + (1 + (1 + (n - k - 2))) := by omega
    have hs : ∑ l ∈ range n, shiftM k V i l * V l k = (if 1 ≤ i ∧ i ≤ k then V (i - 1) k else 0) + (V i k * V k k + (V i (k + 1) * V (k + 1) k +
        ∑ l ∈ range (n - k - 2), V i (k + 2 + l) * V (k + 2 + l) k)) := by
      conv_lhs => rw [hn]
      rw [sum_range_add, sum_range_add, sum_range_add]
      congr 1
      · by_cases c : 1 ≤ i ∧ i ≤ k
        · rw [if_pos c, sum_eq_single (i - 1)]
          · rw [shiftM, if_pos (by omega), if_pos (by omega), one_mul]
          · intro b hb hb'
            rw [shiftM, if_pos (mem_range.1 hb), if_neg (by omega), zero_mul]
          · intro h; exact absurd (mem_range.2 (by omega)) h
        · rw [if_neg c]
          refine sum_eq_zero (fun b hb => ?_)
          have := mem_range.1 hb
          rw [shiftM, if_pos (by omega), if_neg (by omega), zero_mul]
      · rw [sum_range_one, sum_range_one]
        simp only [shiftM, Nat.add_zero]
        rw [if_neg (by omega), if_neg (by omega)]
        congr 2
        refine sum_congr rfl (fun l _ => ?_)
        rw [if_neg (by omega), show k + (1 + (1 + l)) = k + 2 + l by omega]
    have e0 : ∀ i, shiftM (k + 1) V' i (k + 1) = V' i (k + 1) := fun i => if_neg (lt_irrefl _)
    rw [hs, e0, e0, h3 (k + 1) hk, if_pos rfl, if_pos (show 1 ≤ k + 1 ∧ k + 1 ≤ k + 1 by omega), Nat.add_sub_cancel]
    have e1 : ∀ l ∈ range (n - k - 2), V' (k + 1) (k + 2 + l) * V (k + 2 + l) k = (V (k + 1) k)⁻¹ * (V (k + 1) (k + 2 + l) * V (k + 2 + l) k) := by
      intro l hl
      have := mem_range.1 hl
      rw [h1 _ (by omega) (by omega), mul_assoc]
    by_cases hi1 : i = k + 1
    · subst hi1
      rw [if_pos rfl, if_neg (show ¬ (1 ≤ k + 1 ∧ k + 1 ≤ k) by omega), sum_congr rfl e1, ← mul_sum]
      field_simp
      ring
    · rw [if_neg hi1, h3 i hi, if_neg hi1]
      have e2 : ∀ l ∈ range (n - k - 2), V' i (k + 2 + l) * V (k + 2 + l) k =
          V i (k + 2 + l) * V (k + 2 + l) k - V i k * (V' (k + 1) (k + 2 + l) * V (k + 2 + l) k) := by
        intro l hl
        have := mem_range.1 hl
        rw [h2 i hi hi1 _ (by omega) (by omega)]
        ring
      rw [sum_congr rfl e2, sum_sub_distrib, ← mul_sum]
      have e3 : (if 1 ≤ i ∧ i ≤ k + 1 then V (i - 1) k else 0) = if 1 ≤ i ∧ i ≤ k then V (i - 1) k else 0 := if_congr (by omega) rfl rfl
      rw [e3]
      ring
  · rw [if_neg hj1]
    by_cases hjk : j < k
    · rw [shiftM_lt hjk, shiftM_lt (show j < k + 1 by omega), shiftM_lt (show j < k + 1 by omega), if_neg (show ¬ k + 1 = j + 1 by omega), mul_zero,
        add_zero]
      by_cases hi1 : i = k + 1
      · rw [if_pos hi1, if_neg (by omega)]
      · rw [if_neg hi1]
    by_cases hjk' : j = k
    · subst hjk'
      rw [shiftM_ge (show ¬ j < j from lt_irrefl _), shiftM_lt (show j < j + 1 by omega), shiftM_lt (show j < j + 1 by omega), if_pos rfl]
      by_cases hi1 : i = j + 1
      · rw [if_pos hi1]; ring
      · rw [if_neg hi1, if_neg hi1]; ring
    · rw [shiftM_ge hjk, shiftM_ge (show ¬ j < k + 1 by omega), shiftM_ge (show ¬ j < k + 1 by omega)]
      by_cases hi1 : i = k + 1
      · subst hi1
        rw [if_pos rfl, h1 j (by omega) hj]
        field_simp
        ring
      · rw [if_neg hi1, h2 i hi hi1 j (by omega) hj]
        ring

/-- a completed companion block -/
lemma dan_block {d e : ℕ} (hd : 0 < d) (hz : ∀ i < e, V (d + i) (d - 1) = 0) :
    chi (d + e) (shiftM (d - 1) V) = (X ^ d - ∑ i ∈ range d, C (V i (d - 1)) * X ^ i) * chi e (shiftM 0 (blk V d d)) := by
  rw [chi_block (d := d) (e := e)]
  · congr 1
    · rw [chi_companion hd]
      · simp only [shiftM, if_neg (lt_irrefl _)]
      · intro j hj i hi
        rw [shiftM, if_pos (by omega)]
    · refine chi_congr (fun i hi j hj => ?_)
      simp only [blk, shiftM]
      rw [if_neg (by omega), if_neg (by omega)]
  · intro i hi j hj
    simp only [shiftM]
    by_cases h : j < d - 1
    · rw [if_pos h, if_neg (by omega)]
    · rw [if_neg h, show j = d - 1 by omega, hz i hi]

/-- exchange of two rows and columns beyond the companion columns -/
lemma dan_swap {a b : ℕ} (ha : k < a) (hb : k < b) (ha' : a < n) (hb' : b < n)
    (h : ∀ i < n, ∀ j < n, k ≤ j → V' i j = V (Equiv.swap a b i) (Equiv.swap a b j)) : chi n (shiftM k V') = chi n (shiftM k V) := by
  rw [← chi_swap (f := shiftM k V) ha' hb']
  refine chi_congr (fun i hi j hj => ?_)
  simp only [shiftM]
  by_cases c : j < k
  · rw [if_pos c, Equiv.swap_apply_of_ne_of_ne (show j ≠ a by omega) (by omega), if_pos c]
    refine if_congr ?_ rfl rfl
    rw [Equiv.swap_apply_def]
    split_ifs <;> omega
  · have : ¬ Equiv.swap a b j < k := by
      rw [Equiv.swap_apply_def]
      split_ifs <;> omega
    rw [if_neg c, if_neg this, h i hi j hj (by omega)]

end math

variable {K : Type} [Field K] [DecidableEq K] {m0 m : Mem K} {W : Win} {V : ℕ → ℕ → K} {N A lda k : ℕ}

/-- rank-one update inside a window -/
lemma gerG_on (h : On m0 m W V) {a b a2 b2 i0 j0 r c : ℕ} (hx1 : a + r ≤ W.r) (hx2 : b < W.c) (hy1 : a2 < W.r) (hy2 : b2 + c ≤ W.c)
    (hr : i0 + r ≤ W.r) (hc : j0 + c ≤ W.c) (d1 : a + r ≤ i0 ∨ i0 + r ≤ a ∨ b < j0 ∨ j0 + c ≤ b)
    (d2 : a2 < i0 ∨ i0 + r ≤ a2 ∨ b2 + c ≤ j0 ∨ j0 + c ≤ b2) :
    Run (fger r c (-1) (W.adr a b) W.ld (W.adr a2 b2) 1 (W.adr i0 j0) W.ld) m
      (fun _ m' => On m0 m' W (upd i0 j0 r c (fun i j => V (i0 + i) (j0 + j) - V (a + i) b * V a2 (b2 + j)) V)) := by
  have hld := h.ld
  have hx := h.vw_col (i := a) (j := b) (n := r) hx1 hx2
  have hy := h.vw_row (i := a2) (j := b2) (n := c) hy1 hy2
  have hb : OkIn m (W.sub i0 j0 r c) := h.ok'.of_sub hr hc
  refine (fger_spec (-1) hb (by omega) hx hy ?_ ?_).mono ?_
  · rintro x hx1 ⟨i, hi, j, hj, e⟩
    have hi : i < r := hi
    have hj : j < c := hj
    obtain ⟨t, ht, e'⟩ := vw_col_Has.1 hx1
    have e : x = (W.sub i0 j0 r c).adr i j := e
    rw [Win.sub_adr, e'] at e
    have := h.inj _ (by omega) _ (by omega) _ (by omega) _ (by omega) e
    omega
  · rintro x hx1 ⟨i, hi, j, hj, e⟩
    have hi : i < r := hi
    have hj : j < c := hj
    obtain ⟨t, ht, e'⟩ := vw_row_Has.1 hx1
    have e : x = (W.sub i0 j0 r c).adr i j := e
    rw [Win.sub_adr, e'] at e
    have := h.inj _ (by omega) _ (by omega) _ (by omega) _ (by omega) e
    omega
  · intro _ m' s
    refine h.upd hr hc (Step.congr s (fun i hi j hj => ?_))
    have hi : i < r := hi
    have hj : j < c := hj
    rw [show m.mat ⟨W.adr i0 j0, W.ld, r, c⟩ i j = V (i0 + i) (j0 + j) from h.blk hr hc hi hj,
      Win.adr_add_row, Nat.mul_one, Win.adr_add_col, h.val (by omega) hx2, h.val hy1 (by omega), neg_one_mul, sub_eq_add_neg]

/-- matrix–vector product added to a column, all inside a window -/
lemma gemvC_on (cat : Cat) (h : On m0 m W V) {a b a2 b2 i0 j0 r c : ℕ} (ha : a + r ≤ W.r) (hb : b + c ≤ W.c) (hx1 : a2 + c ≤ W.r) (hx2 : b2 < W.c)
    (hr : i0 + r ≤ W.r) (hc : j0 < W.c) (d1 : a + r ≤ i0 ∨ i0 + r ≤ a ∨ b + c ≤ j0 ∨ j0 < b) (d2 : a2 + c ≤ i0 ∨ i0 + r ≤ a2 ∨ b2 ≠ j0) :
    Run (fgemv cat .no r c 1 (W.adr a b) W.ld (W.adr a2 b2) W.ld 1 (W.adr i0 j0) W.ld) m
      (fun _ m' => On m0 m' W (upd i0 j0 r 1 (fun i _ => V (i0 + i) j0 + ∑ l ∈ range c, V (a + i) (b + l) * V (a2 + l) b2) V)) := by
  have hld := h.ld
  refine (fgemv_spec cat .no (Xd := c) (Yd := r) (1 : K) 1 rfl rfl (Or.inr rfl) h.wf' (h.ok'.of_sub ha hb) (by omega) (h.vw_col hx1 hx2)
    (h.vw_col hr hc) (by omega) ?_ ?_).mono (fun _ m' s => h.colStep hr hc (s.congr (fun i hi _ _ => ?_)))
  · rintro x ⟨i, hi, j, hj, e⟩ hy
    have hi : i < r := hi
    have hj : j < c := hj
    obtain ⟨t, ht, e'⟩ := vw_col_Has.1 hy
    have e : x = (W.sub a b r c).adr i j := e
    rw [Win.sub_adr, e'] at e
    have := h.inj _ (by omega) _ (by omega) _ (by omega) _ (by omega) e
    omega
  · intro x hx hy
    obtain ⟨t, ht, e⟩ := vw_col_Has.1 hx
    obtain ⟨t', ht', e'⟩ := vw_col_Has.1 hy
    rw [e] at e'
    have := h.inj _ (by omega) _ (by omega) _ (by omega) _ (by omega) e'
    omega
  · have hi : i < r := hi
    rw [Win.adr_add_row, h.val (by omega) hc, one_mul, one_mul, add_comm]
    congr 1
    refine sum_congr rfl (fun l hl => ?_)
    have hl := mem_range.1 hl
    rw [Win.adr_add_row, h.val (by omega) hx2]
    congr 1
    have : opAdr .no (W.adr a b) W.ld i l = W.adr (a + i) (b + l) := by simp only [opAdr, Win.adr]; ring
    rw [this, h.val (by omega) (by omega)]

lemma danScan_spec (h : On m0 m ⟨A, lda, N, N⟩ V) (hk : k < N) : ∀ left, k + left < N →
    Run (danScan N A lda k left) m (fun i m' => m' = m ∧ N - left ≤ i ∧ (∀ r, N - left ≤ r → r < i → V r k = 0) ∧ (i = N ∨ i < N ∧ V i k ≠ 0)) := by
  intro left
  induction left with
  | zero =>
    intro _
    rw [danScan, Run_pure]
    exact ⟨rfl, by omega, fun r h1 h2 => by omega, Or.inl rfl⟩
  | succ left ih =>
    intro hl
    rw [danScan, Run_bind, Run_load]
    have e : A + (N - (left + 1)) * lda + k = (Win.mk A lda N N).adr (N - (left + 1)) k := by simp only [Win.adr]
    have h1 : N - (left + 1) < N := by omega
    rw [e]
    refine ⟨h.okc h1 hk, ?_⟩
    rw [h.val h1 hk]
    rif c
    · refine (ih (by omega)).mono ?_
      rintro i m' ⟨rfl, g1, g2, g3⟩
      refine ⟨rfl, by omega, fun r h1 h2 => ?_, g3⟩
      by_cases e : r = N - (left + 1)
      · rw [e]; exact c
      · exact g2 r (by omega) h2
    · rw [Run_pure]
      exact ⟨rfl, le_rfl, fun r h1 h2 => by omega, Or.inr ⟨h1, c⟩⟩

lemma danCoeffs_spec (h : On m0 m ⟨A, lda, N, N⟩ V) (hk : k < N) {dt : ℕ} : ∀ d, dt + d ≤ N →
    Run (danCoeffs (A + k + dt * lda) lda d) m (fun l m' => m' = m ∧ l = (List.range d).map (fun i => - V (dt + i) k)) := by
  intro d
  induction d with
  | zero => intro _; rw [danCoeffs, Run_pure]; exact ⟨rfl, rfl⟩
  | succ d ih =>
    intro hd
    rw [danCoeffs, Run_bind]
    refine (ih (by omega)).mono ?_
    rintro l m' ⟨rfl, rfl⟩
    rw [Run_bind, Run_load, Run_pure]
    have h1 : dt + d < N := by omega
    rw [show A + k + dt * lda + d * lda = (Win.mk A lda N N).adr (dt + d) k by simp only [Win.adr]; ring]
    refine ⟨h.okc h1 hk, rfl, ?_⟩
    rw [h.val h1 hk, List.range_succ, List.map_append, List.map_singleton]

/-- the exchange of rows and columns that brings the pivot in place -/
lemma danSwap_on (h : On m0 m ⟨A, lda, N, N⟩ V) {dt i : ℕ} (hdt : dt ≤ k) (hi : k + 1 ≤ i) (hi' : i < N) (hp : V i k ≠ 0) :
    Run (if i > k + 1 then do
      vswap (N - k) (A + i * lda + k) 1 (A + (k + 1) * lda + k) 1
      vswap N (A + i) lda (A + k + 1) lda
    else pure () : Prog K Unit) m (fun _ m' => ∃ V', On m0 m' ⟨A, lda, N, N⟩ V' ∧ V' (k + 1) k ≠ 0 ∧
      chi (N - dt) (shiftM (k - dt) (blk V' dt dt)) = chi (N - dt) (shiftM (k - dt) (blk V dt dt))) := by
  rif c
  · rw [Run_bind]
    have s1 := swapRow_on (i0 := 0) (j0 := k) (r := N) (c := N - k) (a := i) (b := k + 1) h (by simp) (by simp only []; omega) hi' (by omega) (by omega)
    have e1 : ∀ r, (Win.mk A lda N N).adr (0 + r) k = A + r * lda + k := fun r => by simp only [Win.adr, Nat.zero_add]
    rw [e1, e1] at s1
    refine s1.mono (fun _ m1 g1 => ?_)
    have s2 := swapCol_on (i0 := 0) (j0 := 0) (r := N) (c := N) (a := i) (b := k + 1) g1 (by simp) (by simp) hi' (by omega) (by omega)
    have e2 : ∀ c, (Win.mk A lda N N).adr 0 (0 + c) = A + c := fun r => by simp only [Win.adr, Nat.zero_add, Nat.zero_mul, Nat.add_zero]
    rw [e2, e2, ← Nat.add_assoc] at s2
    refine s2.mono (fun _ m2 g2 => ⟨_, g2, ?_, ?_⟩)
    · rw [permCols, upd_in' (by omega), permRows, upd_in' (by simp only [Nat.sub_zero, Nat.zero_add]; rw [Equiv.swap_apply_of_ne_of_ne] <;> omega)]
      simp only [Nat.sub_zero, Nat.zero_add]
      rw [Equiv.swap_apply_left, Equiv.swap_apply_of_ne_of_ne (by omega) (by omega), show k + (k - k) = k by omega]
      exact hp
    · refine dan_swap (a := k + 1 - dt) (b := i - dt) (by omega) (by omega) (by omega) (by omega) (fun x hx y hy hky => ?_)
      have key : ∀ z, dt + Equiv.swap (k + 1 - dt) (i - dt) z = Equiv.swap (k + 1) i (dt + z) := by
        intro z
        rw [Equiv.swap_apply_def, Equiv.swap_apply_def]
        split_ifs <;> omega
      have hlt : ∀ z, z < N → Equiv.swap (k + 1) i z < N := by
        intro z hz
        rw [Equiv.swap_apply_def]
        split_ifs <;> omega
      have hge : ∀ z, k ≤ z → k ≤ Equiv.swap (k + 1) i z := by
        intro z hz
        rw [Equiv.swap_apply_def]
        split_ifs <;> omega
      have a1 := hlt (dt + y) (by omega)
      have a2 := hge (dt + y) (by omega)
      simp only [blk]
      rw [permCols, upd_in' (by omega), permRows, upd_in' (by simp only [Nat.sub_zero, Nat.zero_add]; omega)]
      simp only [Nat.sub_zero, Nat.zero_add]
      rw [key, key, show k + (Equiv.swap (k + 1) i (dt + y) - k) = Equiv.swap (k + 1) i (dt + y) by omega]
  · rw [Run_pure]
    obtain rfl : i = k + 1 := by omega
    exact ⟨V, h, hp, rfl⟩

/-- the loop that adds the last companion column -/
lemma danShift_on (h : On m0 m ⟨A, lda, N, N⟩ V) {dt : ℕ} (hdt : dt ≤ k) (hk : k + 1 < N) :
    Run (loop (k + 1 - dt) fun t => (do
      let u ← load (A + dt * lda + k + t * lda)
      let x ← load (A + dt * lda + k + t * lda + lda + 1)
      store (A + dt * lda + k + t * lda + lda + 1) (x + u) : Prog K Unit)) m
    (fun _ m' => On m0 m' ⟨A, lda, N, N⟩ (upd (dt + 1) (k + 1) (k + 1 - dt) 1 (fun t _ => V (dt + 1 + t) (k + 1) + V (dt + t) k) V)) := by
  refine (Run_loop (I := fun t m' => On m0 m' ⟨A, lda, N, N⟩ (upd (dt + 1) (k + 1) t 1 (fun t _ => V (dt + 1 + t) (k + 1) + V (dt + t) k) V)) ?_ ?_)
  · exact h.congr (fun i hi j hj => (upd_out (by omega)).symm)
  · intro t m1 ht g
    have e1 : A + dt * lda + k + t * lda = (Win.mk A lda N N).adr (dt + t) k := by simp only [Win.adr]; ring
    have e2 : A + dt * lda + k + t * lda + lda + 1 = (Win.mk A lda N N).adr (dt + 1 + t) (k + 1) := by simp only [Win.adr]; ring
    have a1 : dt + t < N := by omega
    have a2 : dt + 1 + t < N := by omega
    have a3 : k < N := by omega
    rw [Run_bind, Run_load]
    rw [e1]
    refine ⟨g.okc a1 a3, ?_⟩
    rw [← e1, e2, Run_bind, Run_load]
    refine ⟨g.okc a2 hk, ?_⟩
    rw [Run_store]
    refine ⟨g.okc a2 hk, ?_⟩
    rw [e1, g.val a1 a3, g.val a2 hk, upd_out (i := dt + t) (by omega), upd_out (i := dt + 1 + t) (by omega)]
    refine (g.set a2 hk).congr (fun i hi j hj => ?_)
    by_cases c1 : i = dt + 1 + t ∧ j = k + 1
    · obtain ⟨rfl, rfl⟩ := c1
      rw [upd_in' (by omega), upd_in' (by omega), show dt + 1 + t - (dt + 1) = t by omega]
    · rw [upd_out (by omega)]
      by_cases c2 : dt + 1 ≤ i ∧ i < dt + 1 + t ∧ j = k + 1
      · rw [upd_in' (by omega), upd_in' (by omega)]
      · rw [upd_out (by omega), upd_out (by omega)]

/-- the updates of one elimination step, put together -/
lemma dan_final {V0 V1 V2 V3 V4 V5 V6 : ℕ → ℕ → K} {dt : ℕ} (hdt : dt ≤ k) (hk : k + 1 < N) (hp : V0 (k + 1) k ≠ 0)
    (e1 : V1 = upd (k + 1) (k + 1) 1 (N - k - 1) (fun _ t => (V0 (k + 1) k)⁻¹ * V0 (k + 1) (k + 1 + t)) V0)
    (e2 : V2 = upd dt (k + 1) (N - dt) 1 (fun t _ => V0 (k + 1) k * V1 (dt + t) (k + 1)) V1)
    (e3 : V3 = upd dt (k + 1) (k + 1 - dt) (N - k - 1) (fun i j => V2 (dt + i) (k + 1 + j) - V2 (dt + i) k * V2 (k + 1) (k + 1 + j)) V2)
    (e4 : V4 = upd (k + 2) (k + 1) (N - k - 2) (N - k - 1) (fun i j => V3 (k + 2 + i) (k + 1 + j) - V3 (k + 2 + i) k * V3 (k + 1) (k + 1 + j)) V3)
    (e5 : V5 = upd dt (k + 1) (N - dt) 1 (fun i _ => V4 (dt + i) (k + 1) + ∑ l ∈ range (N - k - 2), V4 (dt + i) (k + 2 + l) * V4 (k + 2 + l) k) V4)
    (e6 : V6 = upd (dt + 1) (k + 1) (k + 1 - dt) 1 (fun t _ => V5 (dt + 1 + t) (k + 1) + V5 (dt + t) k) V5) :
    chi (N - dt) (shiftM (k - dt) (blk V0 dt dt)) = chi (N - dt) (shiftM (k + 1 - dt) (blk V6 dt dt)) := by
  have c1 : ∀ i, V1 i k = V0 i k := fun i => by rw [e1, upd_out (by omega)]
  have c2 : ∀ i, V2 i k = V0 i k := fun i => by rw [e2, upd_out (by omega), c1]
  have c3 : ∀ i, V3 i k = V0 i k := fun i => by rw [e3, upd_out (by omega), c2]
  have c4 : ∀ i, V4 i k = V0 i k := fun i => by rw [e4, upd_out (by omega), c3]
  have c5 : ∀ i, V5 i k = V0 i k := fun i => by rw [e5, upd_out (by omega), c4]
  -- columns beyond k + 1
  have r6 : ∀ i j, k + 1 < j → V6 i j = V4 i j := fun i j hj => by rw [e6, upd_out (by omega), e5, upd_out (by omega)]
  have r2 : ∀ i j, k + 1 < j → V2 i j = V1 i j := fun i j hj => by rw [e2, upd_out (by omega)]
  have p1 : ∀ j, k + 1 < j → j < N → V1 (k + 1) j = (V0 (k + 1) k)⁻¹ * V0 (k + 1) j := fun j hj hN => by
    rw [e1, upd_in' (by omega), show k + 1 + (j - (k + 1)) = j by omega]
  have p4 : ∀ j, k + 1 ≤ j → V4 (k + 1) j = V2 (k + 1) j := fun j hj => by rw [e4, upd_out (by omega), e3, upd_out (by omega)]
  have q1 : ∀ i j, i ≠ k + 1 → V1 i j = V0 i j := fun i j hi => by rw [e1, upd_out (by omega)]
  have q4 : ∀ i, dt ≤ i → i < N → i ≠ k + 1 → ∀ j, k + 1 ≤ j → j < N → V4 i j = V2 i j - V0 i k * V2 (k + 1) j := by
    intro i hi hiN hne j hj hjN
    by_cases c : i < k + 1
    · rw [e4, upd_out (by omega), e3, upd_in' (by omega), show dt + (i - dt) = i by omega, show k + 1 + (j - (k + 1)) = j by omega, c2]
    · rw [e4, upd_in' (by omega), show k + 2 + (i - (k + 2)) = i by omega, show k + 1 + (j - (k + 1)) = j by omega, c3, e3, upd_out (by omega),
        upd_out (by omega)]
  rw [show k + 1 - dt = k - dt + 1 by omega]
  refine dan_similar (by omega) ?_ ?_ ?_ ?_
  · simp only [blk]
    rw [show dt + (k - dt + 1) = k + 1 by omega, show dt + (k - dt) = k by omega]
    exact hp
  · intro j hj hjn
    simp only [blk]
    rw [show dt + (k - dt + 1) = k + 1 by omega, show dt + (k - dt) = k by omega, r6 _ _ (by omega), p4 _ (by omega), r2 _ _ (by omega),
      p1 _ (by omega) (by omega)]
  · intro i hi hne j hj hjn
    simp only [blk]
    rw [show dt + (k - dt + 1) = k + 1 by omega, show dt + (k - dt) = k by omega, r6 _ _ (by omega), q4 _ (by omega) (by omega) (by omega) _ (by omega)
      (by omega), r6 _ _ (by omega), p4 _ (by omega), r2 _ _ (by omega), r2 _ _ (by omega), q1 _ _ (by omega)]
  · intro i hi
    simp only [blk]
    have hsum : ∀ x, ∑ l ∈ range (N - dt - (k - dt) - 2), V6 x (dt + (k - dt + 2 + l)) * V0 (dt + (k - dt + 2 + l)) (dt + (k - dt)) =
        ∑ l ∈ range (N - k - 2), V4 x (k + 2 + l) * V4 (k + 2 + l) k := by
      intro x
      rw [show N - dt - (k - dt) - 2 = N - k - 2 by omega]
      refine sum_congr rfl (fun l _ => ?_)
      rw [show dt + (k - dt + 2 + l) = k + 2 + l by omega, show dt + (k - dt) = k by omega, r6 _ _ (by omega), c4]
    rw [hsum, show dt + (k - dt + 1) = k + 1 by omega, show dt + (k - dt) = k by omega]
    have d2 : ∀ x, dt ≤ x → x < N → V2 x (k + 1) = V0 (k + 1) k * V1 x (k + 1) := fun x h1 h2 => by
      rw [e2, upd_in' (by omega), show dt + (x - dt) = x by omega]
    have d2' : V2 (k + 1) (k + 1) = V0 (k + 1) (k + 1) := by
      rw [d2 _ (by omega) hk, e1, upd_in' (by omega), show k + 1 + (k + 1 - (k + 1)) = k + 1 by omega, mul_inv_cancel_left₀ hp]
    have d4 : V4 (dt + i) (k + 1) = if i = k - dt + 1 then V0 (k + 1) (k + 1) else V0 (dt + i) (k + 1) * V0 (k + 1) k - V0 (dt + i) k * V0 (k + 1) (k + 1) := by
      by_cases c : i = k - dt + 1
      · rw [if_pos c, c, show dt + (k - dt + 1) = k + 1 by omega, p4 _ le_rfl, d2']
      · rw [if_neg c, q4 _ (by omega) (by omega) (by omega) _ le_rfl hk, d2', d2 _ (by omega) (by omega), q1 _ _ (by omega), mul_comm (V0 (k + 1) k)]
    have d5 : ∀ x, dt ≤ x → x < N → V5 x (k + 1) = V4 x (k + 1) + ∑ l ∈ range (N - k - 2), V4 x (k + 2 + l) * V4 (k + 2 + l) k := fun x h1 h2 => by
      rw [e5, upd_in' (by omega), show dt + (x - dt) = x by omega]
    rw [← d4]
    by_cases c : 1 ≤ i ∧ i ≤ k - dt + 1
    · rw [if_pos c, e6, upd_in' (by omega), show dt + 1 + (dt + i - (dt + 1)) = dt + i by omega, d5 _ (by omega) (by omega), c5,
        show dt + (dt + i - (dt + 1)) = dt + (i - 1) by omega]
    · rw [if_neg c, e6, upd_out (by omega), d5 _ (by omega) (by omega), add_zero]

lemma danElim_on (cat : Cat) (h : On m0 m ⟨A, lda, N, N⟩ V) {dt i : ℕ} (hdt : dt ≤ k) (hi : k + 1 ≤ i) (hi' : i < N) (hp : V i k ≠ 0) :
    Run (danElim cat N A lda k dt i) m (fun _ m' => ∃ V', On m0 m' ⟨A, lda, N, N⟩ V' ∧
      chi (N - dt) (shiftM (k - dt) (blk V dt dt)) = chi (N - dt) (shiftM (k + 1 - dt) (blk V' dt dt))) := by
  unfold danElim
  have hk : k + 1 < N := by omega
  simp only []
  rw [Run_bind]
  refine (danSwap_on h hdt hi hi' hp).mono ?_
  rintro _ m1 ⟨V0, g, hp0, hchi⟩
  have ad : ∀ i j, (Win.mk A lda N N).adr i j = A + i * lda + j := fun i j => rfl
  have k1 : k < N := by omega
  rw [Run_bind, Run_load, ← ad]
  refine ⟨g.okc hk k1, ?_⟩
  rw [g.val hk k1, Run_bind, Run_liftE]
  refine (Ok_invE _ _).2 ⟨hp0, ?_⟩
  rw [Run_bind, ad, Nat.add_assoc (A + (k + 1) * lda), ← ad]
  refine (scalRow_on cat g (row := k + 1) (c := k + 1) (n := N - k - 1) _ hk (by simp only []; omega)).mono (fun _ m2 g => ?_)
  rw [Run_bind, Run_load, ← ad]
  refine ⟨g.okc hk k1, ?_⟩
  rw [g.val hk k1, upd_out (by omega), Run_bind, Nat.add_assoc (A + dt * lda), ← ad]
  refine (scalCol_on cat g (row := dt) (c := k + 1) (n := N - dt) _ (by simp only []; omega) hk).mono (fun _ m3 g => ?_)
  have eX : A + k + 1 + dt * lda = (Win.mk A lda N N).adr dt (k + 1) := by rw [ad]; ring
  rw [Run_bind, eX, ← ad dt k]
  refine (gerG_on g (a := dt) (b := k) (a2 := k + 1) (b2 := k + 1) (i0 := dt) (j0 := k + 1) (r := k + 1 - dt) (c := N - k - 1) (by simp only []; omega) k1
    hk (by simp only []; omega) (by simp only []; omega) (by simp only []; omega) (by omega) (by omega)).mono (fun _ m4 g => ?_)
  rw [Run_bind]
  have e4 : (Win.mk A lda N N).adr (k + 1) k + lda = (Win.mk A lda N N).adr (k + 2) k := by rw [ad, ad]; ring
  have e4' : (Win.mk A lda N N).adr (k + 1) k + lda + 1 = (Win.mk A lda N N).adr (k + 2) (k + 1) := by rw [ad, ad]; ring
  have e5 : (Win.mk A lda N N).adr dt k + 2 = (Win.mk A lda N N).adr dt (k + 2) := rfl
  rw [e4', e4, e5]
  rif c
  · rw [Run_bind]
    refine (gerG_on g (a := k + 2) (b := k) (a2 := k + 1) (b2 := k + 1) (i0 := k + 2) (j0 := k + 1) (r := N - k - 2) (c := N - k - 1)
      (by simp only []; omega) k1 hk (by simp only []; omega) (by simp only []; omega) (by simp only []; omega) (by omega) (by omega)).mono (fun _ m5 g => ?_)
    refine (gemvC_on cat g (a := dt) (b := k + 2) (a2 := k + 2) (b2 := k) (i0 := dt) (j0 := k + 1) (r := N - dt) (c := N - k - 2)
      (by simp only []; omega) (by simp only []; omega) (by simp only []; omega) k1 (by simp only []; omega) hk (by omega) (by omega)).mono (fun _ m6 g => ?_)
    refine (danShift_on g hdt hk).mono (fun _ m7 g => ⟨_, g, ?_⟩)
    rw [← hchi]
    exact dan_final hdt hk hp0 rfl rfl rfl rfl rfl rfl
  · rw [Run_pure]
    refine (danShift_on g hdt hk).mono (fun _ m7 g => ⟨_, g, ?_⟩)
    rw [← hchi]
    refine dan_final hdt hk hp0 rfl rfl rfl rfl ?_ rfl
    have n0 : N - k - 2 = 0 := by omega
    have key : ∀ f Y : ℕ → ℕ → K, upd (k + 2) (k + 1) (N - k - 2) (N - k - 1) f Y = Y := fun f Y => by
      funext i j
      rw [upd_out (by omega)]
    funext i j
    rw [key, n0]
    by_cases c : dt ≤ i ∧ i < N ∧ j = k + 1
    · obtain ⟨c1, c2, rfl⟩ := c
      conv_rhs => rw [upd_in' (by omega), range_zero, sum_empty, add_zero, show dt + (i - dt) = i by omega]
    · conv_rhs => rw [upd_out (by omega)]

/-- the state of the loop on `k` -/
structure DanInv (m0 : Mem K) (W : Win) (X : ℕ → ℕ → K) (N k : ℕ) (s : ℕ × List (List K)) (m : Mem K) : Prop where
  le : s.1 ≤ k
  last : k < N ∨ s.1 = N
  monic : ∀ l ∈ s.2, ∃ c : List K, c ≠ [] ∧ l = c ++ [1]
  mat : ∃ V, On m0 m W V ∧ prodOf s.2 * chi (N - s.1) (shiftM (k - s.1) (blk V s.1 s.1)) = chi N X

lemma danStep_spec (cat : Cat) {Y : ℕ → ℕ → K} {s : ℕ × List (List K)} (hk : k < N) (hI : DanInv m0 ⟨A, lda, N, N⟩ Y N k s m) :
    Run (danStep cat N A lda k s) m (DanInv m0 ⟨A, lda, N, N⟩ Y N (k + 1)) := by
  obtain ⟨dt, L⟩ := s
  obtain ⟨hle, -, hmon, V, h, hchi⟩ := hI
  simp only at hle hmon hchi
  unfold danStep
  rw [Run_bind]
  refine (danScan_spec h hk _ (by omega)).mono ?_
  rintro i _ ⟨rfl, h1, h2, h3⟩
  rw [show N - (N - (k + 1)) = k + 1 by omega] at h1 h2
  rw [Run_bind]
  rif c
  · rw [Run_bind]
    refine (danElim_on cat h hle h1 c (h3.resolve_left (by omega)).2).mono ?_
    rintro _ m1 ⟨V', g, hg⟩
    rw [Run_pure]
    rw [if_neg (by omega), Run_pure]
    exact ⟨by simp only []; omega, Or.inl (by omega), hmon, V', g, by simp only []; rw [← hg, hchi]⟩
  · rw [Run_pure]
    obtain rfl : i = N := by omega
    rw [if_pos rfl, Run_bind]
    refine (danCoeffs_spec h hk (dt := dt) (k + 1 - dt) (by omega)).mono ?_
    rintro l _ ⟨rfl, rfl⟩
    rw [Run_pure]
    have hb := dan_block (V := blk V dt dt) (d := k + 1 - dt) (e := i - (k + 1)) (by omega) (fun r hr => by
      simp only [blk]
      rw [show dt + (k + 1 - dt - 1) = k by omega]
      exact h2 _ (by omega) (by omega))
    refine ⟨by simp only []; omega, by simp only []; omega, ?_, V, h, ?_⟩
    · intro l hl
      rcases List.mem_cons.1 hl with rfl | hl
      · refine ⟨_, ?_, rfl⟩
        have : k + 1 - dt ≠ 0 := by omega
        simpa [List.map_eq_nil_iff, List.range_eq_nil] using this
      · exact hmon l hl
    · simp only []
      rw [← hchi, show i - dt = k + 1 - dt + (i - (k + 1)) by omega, show k - dt = k + 1 - dt - 1 by omega, hb]
      simp only [prodOf, List.map_cons, List.prod_cons]
      rw [polyOf_companion]
      simp only [blk]
      rw [show dt + (k + 1 - dt - 1) = k by omega, show dt + (k + 1 - dt) = k + 1 by omega, show k + 1 - (k + 1) = 0 by omega]
      have e : blk (blk V dt dt) (k + 1 - dt) (k + 1 - dt) = blk V (k + 1) (k + 1) := by
        funext a b
        simp only [blk]
        rw [show dt + (k + 1 - dt + a) = k + 1 + a by omega, show dt + (k + 1 - dt + b) = k + 1 + b by omega]
      rw [e]
      ring

/-- `Danilevski` -/
theorem danilevski_spec (cat : Cat) (h : On m0 m ⟨A, lda, N, N⟩ V) :
    Run (danilevski cat N A lda) m (fun L m' => (∃ V', On m0 m' ⟨A, lda, N, N⟩ V') ∧ (∀ l ∈ L, ∃ c : List K, c ≠ [] ∧ l = c ++ [1]) ∧
      prodOf L = chi N V) := by
  unfold danilevski
  rw [Run_bind]
  refine (Run_iter (DanInv m0 ⟨A, lda, N, N⟩ V N) ?_ (fun k s m hk hI => danStep_spec cat hk hI)).mono ?_
  · refine ⟨le_rfl, by simp only []; omega, by simp, V, h, ?_⟩
    simp only [prodOf, List.map_nil, List.prod_nil, one_mul, Nat.sub_zero]
    exact chi_congr (fun i _ j _ => by rw [shiftM_ge (by omega), blk, Nat.zero_add, Nat.zero_add])
  · rintro ⟨dt, L⟩ m' ⟨h1, h2, h3, V', g, h4⟩
    rw [Run_pure]
    simp only at h1 h2 h3 h4
    refine ⟨⟨V', g⟩, h3, ?_⟩
    obtain rfl : dt = N := by omega
    rw [← h4, Nat.sub_self, chi_zero, mul_one]

end Verif.FF
