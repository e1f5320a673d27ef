import Verif.Model.ApplyP
import Verif.Proofs.OnWin
import Verif.Proofs.Perm

/-!
# Permutations applied to blocks of a matrix
-/

namespace Verif.FF

open Finset Verif.Spec.Perm

variable {K : Type}

/-- rows of the block at `(i0, j0)` of size `r × c` permuted: new row `i` is old row `σ i` -/
def permRows (i0 j0 r c : ℕ) (σ : ℕ → ℕ) (V : ℕ → ℕ → K) : ℕ → ℕ → K := upd i0 j0 r c (fun i j => V (i0 + σ i) (j0 + j)) V

/-- columns permuted: new column `j` is old column `σ j` -/
def permCols (i0 j0 r c : ℕ) (σ : ℕ → ℕ) (V : ℕ → ℕ → K) : ℕ → ℕ → K := upd i0 j0 r c (fun i j => V (i0 + i) (j0 + σ j)) V

section
variable {i0 j0 r c c' : ℕ} {σ τ : ℕ → ℕ} {V : ℕ → ℕ → K}

lemma permRows_comp (hτ : ∀ i < r, τ i < r) :
    permRows i0 j0 r c τ (permRows i0 j0 r c σ V) = permRows i0 j0 r c (σ ∘ τ) V := by
  funext i j
  simp only [permRows, upd]
  by_cases h : i0 ≤ i ∧ i < i0 + r ∧ j0 ≤ j ∧ j < j0 + c
  · have := hτ (i - i0) (by omega)
    rw [if_pos h, if_pos h, if_pos (by omega), Nat.add_sub_cancel_left, Nat.add_sub_cancel_left]; rfl
  · rw [if_neg h, if_neg h, if_neg h]

lemma permCols_comp (hτ : ∀ i < c, τ i < c) :
    permCols i0 j0 r c τ (permCols i0 j0 r c σ V) = permCols i0 j0 r c (σ ∘ τ) V := by
  funext i j
  simp only [permCols, upd]
  by_cases h : i0 ≤ i ∧ i < i0 + r ∧ j0 ≤ j ∧ j < j0 + c
  · have := hτ (j - j0) (by omega)
    rw [if_pos h, if_pos h, if_pos (by omega), Nat.add_sub_cancel_left, Nat.add_sub_cancel_left]; rfl
  · rw [if_neg h, if_neg h, if_neg h]

lemma permRows_id : permRows i0 j0 r c id V = V := by
  funext i j
  simp only [permRows, upd, id]
  split_ifs with h
  · congr 1 <;> omega
  · rfl

lemma permCols_id : permCols i0 j0 r c id V = V := by
  funext i j
  simp only [permCols, upd, id]
  split_ifs with h
  · congr 1 <;> omega
  · rfl

lemma permRows_empty : permRows i0 j0 r 0 σ V = V := by
  funext i j
  simp only [permRows, upd]
  rw [if_neg (by omega)]

lemma permCols_empty : permCols i0 j0 0 c σ V = V := by
  funext i j
  simp only [permCols, upd]
  rw [if_neg (by omega)]

/-- the rows of two blocks side by side are permuted -/
lemma permRows_append : permRows i0 (j0 + c) r c' σ (permRows i0 j0 r c σ V) = permRows i0 j0 r (c + c') σ V := by
  funext i j
  simp only [permRows, upd]
  by_cases h : i0 ≤ i ∧ i < i0 + r ∧ j0 + c ≤ j ∧ j < j0 + c + c'
  · rw [if_pos h, if_neg (by omega), if_pos (by omega)]; congr 1; omega
  · rw [if_neg h]
    by_cases h' : i0 ≤ i ∧ i < i0 + r ∧ j0 ≤ j ∧ j < j0 + c
    · rw [if_pos h', if_pos (by omega)]
    · rw [if_neg h', if_neg (by omega)]

lemma permCols_append {r' : ℕ} : permCols (i0 + r) j0 r' c σ (permCols i0 j0 r c σ V) = permCols i0 j0 (r + r') c σ V := by
  funext i j
  simp only [permCols, upd]
  by_cases h : i0 + r ≤ i ∧ i < i0 + r + r' ∧ j0 ≤ j ∧ j < j0 + c
  · rw [if_pos h, if_neg (by omega), if_pos (by omega)]; congr 1; omega
  · rw [if_neg h]
    by_cases h' : i0 ≤ i ∧ i < i0 + r ∧ j0 ≤ j ∧ j < j0 + c
    · rw [if_pos h', if_pos (by omega)]
    · rw [if_neg h', if_neg (by omega)]

lemma permRows_congr (h : ∀ i < r, σ i = τ i) : permRows i0 j0 r c σ V = permRows i0 j0 r c τ V := by
  funext i j
  simp only [permRows, upd]
  split_ifs with h'
  · rw [h (i - i0) (by omega)]
  · rfl

lemma permCols_congr (h : ∀ i < c, σ i = τ i) : permCols i0 j0 r c σ V = permCols i0 j0 r c τ V := by
  funext i j
  simp only [permCols, upd]
  split_ifs with h'
  · rw [h (j - j0) (by omega)]
  · rfl

end

lemma Win.adr_add_row (W : Win) (i j p : ℕ) : W.adr i j + p * W.ld = W.adr (i + p) j := by simp only [Win.adr]; ring
lemma Win.adr_add_col (W : Win) (i j p : ℕ) : W.adr i j + p = W.adr i (j + p) := by simp only [Win.adr]; ring

section
variable {m0 m : Mem K} {W : Win} {V : ℕ → ℕ → K} {i0 j0 r c a b : ℕ}

lemma On.vw_row (h : On m0 m W V) {i j n : ℕ} (hi : i < W.r) (hj : j + n ≤ W.c) : OkIn m (vw (W.adr i j) 1 n) := by
  rintro x ⟨t, ht, z, hz, rfl⟩
  have ht : t < n := ht
  obtain rfl : z = 0 := by simpa using hz
  simp only [Win.adr_mk, Nat.mul_one, Nat.add_zero, Win.adr_add_col]
  exact h.ok'.adr hi (by omega)

lemma On.vw_col (h : On m0 m W V) {i j n : ℕ} (hi : i + n ≤ W.r) (hj : j < W.c) : OkIn m (vw (W.adr i j) W.ld n) := by
  rintro x ⟨t, ht, z, hz, rfl⟩
  have ht : t < n := ht
  obtain rfl : z = 0 := by simpa using hz
  simp only [Win.adr_mk, Nat.add_zero, Win.adr_add_row]
  exact h.ok'.adr (by omega) hj

lemma vw_row_Has {W : Win} {i j n x : ℕ} : (vw (W.adr i j) 1 n).Has x ↔ ∃ t < n, x = W.adr i (j + t) := by
  constructor
  · rintro ⟨t, ht, z, hz, rfl⟩
    obtain rfl : z = 0 := by simpa using hz
    exact ⟨t, ht, by simp only [Win.adr_mk, Nat.mul_one, Nat.add_zero, Win.adr_add_col]⟩
  · rintro ⟨t, ht, rfl⟩
    exact ⟨t, ht, 0, Nat.one_pos, by simp only [Win.adr_mk, Nat.mul_one, Nat.add_zero, Win.adr_add_col]⟩

lemma vw_col_Has {W : Win} {i j n x : ℕ} : (vw (W.adr i j) W.ld n).Has x ↔ ∃ t < n, x = W.adr (i + t) j := by
  constructor
  · rintro ⟨t, ht, z, hz, rfl⟩
    obtain rfl : z = 0 := by simpa using hz
    exact ⟨t, ht, by simp only [Win.adr_mk, Nat.add_zero, Win.adr_add_row]⟩
  · rintro ⟨t, ht, rfl⟩
    exact ⟨t, ht, 0, Nat.one_pos, by simp only [Win.adr_mk, Nat.add_zero, Win.adr_add_row]⟩

/-- New contents of the window given by the values of all its cells. -/
lemma On.of_vals {m' : Mem K} {V' : ℕ → ℕ → K} (h : On m0 m W V) (hok : m'.ok = m.ok) (hn : m.next ≤ m'.next)
    (hv : ∀ i < W.r, ∀ j < W.c, m'.val (W.adr i j) = V' i j) (hf : ∀ a, m.ok a = true → ¬ W.Has a → m'.val a = m.val a) :
    On m0 m' W V' := h.trans ⟨h.wf', h.ok', h.ld, ⟨hok, hn, hv, hf⟩⟩

variable [CommRing K] [DecidableEq K]

/-- exchange of two rows of a block -/
lemma swapRow_on (h : On m0 m W V) (hr : i0 + r ≤ W.r) (hc : j0 + c ≤ W.c) (ha : a < r) (hb : b < r) (hab : a ≠ b) :
    Run (vswap c (W.adr (i0 + a) j0) 1 (W.adr (i0 + b) j0) 1) m
      (fun _ m' => On m0 m' W (permRows i0 j0 r c (Equiv.swap b a) V)) := by
  have hd : (vw (W.adr (i0 + a) j0) 1 c).Disj (vw (W.adr (i0 + b) j0) 1 c) := by
    intro x h1 h2
    obtain ⟨t, ht, rfl⟩ := vw_row_Has.1 h1
    obtain ⟨s, hs, e⟩ := vw_row_Has.1 h2
    have := h.inj _ (by omega) _ (by omega) _ (by omega) _ (by omega) e
    omega
  refine (vswap_spec (h.vw_row (by omega) hc) (h.vw_row (by omega) hc) hd Nat.one_pos Nat.one_pos).mono ?_
  rintro _ m' ⟨h1, h2, h3, h4, h5⟩
  simp only [Nat.mul_one, Win.adr_add_col] at h3 h4
  refine h.of_vals h1 h2.ge ?_ ?_
  · intro i hi j hj
    simp only [permRows, upd, Equiv.swap_apply_def]
    by_cases hin : i0 ≤ i ∧ i < i0 + r ∧ j0 ≤ j ∧ j < j0 + c
    · rw [if_pos hin]
      by_cases e1 : i - i0 = b
      · rw [if_pos e1]
        have := h4 (j - j0) (by omega)
        rw [show j0 + (j - j0) = j by omega, ← e1, show i0 + (i - i0) = i by omega] at this
        rw [this, h.val (by omega) (by omega), show j0 + (j - j0) = j by omega]
      · rw [if_neg e1]
        by_cases e2 : i - i0 = a
        · rw [if_pos e2]
          have := h3 (j - j0) (by omega)
          rw [show j0 + (j - j0) = j by omega, ← e2, show i0 + (i - i0) = i by omega] at this
          rw [this, h.val (by omega) (by omega), show j0 + (j - j0) = j by omega]
        · rw [if_neg e2, show i0 + (i - i0) = i by omega, show j0 + (j - j0) = j by omega, ← h.val hi hj]
          refine h5 _ ?_ ?_ <;> rw [vw_row_Has] <;> rintro ⟨t, ht, e⟩ <;>
            have := h.inj _ hi _ hj _ (by omega) _ (by omega) e <;> omega
    · rw [if_neg hin, ← h.val hi hj]
      refine h5 _ ?_ ?_ <;> rw [vw_row_Has] <;> rintro ⟨t, ht, e⟩ <;>
        have := h.inj _ hi _ hj _ (by omega) _ (by omega) e <;> omega
  · intro x hx hn
    refine h5 x ?_ ?_ <;> rw [vw_row_Has] <;> rintro ⟨t, ht, rfl⟩ <;> exact hn (Win.Has_adr (by omega) (by omega))

/-- exchange of two columns of a block -/
lemma swapCol_on (h : On m0 m W V) (hr : i0 + r ≤ W.r) (hc : j0 + c ≤ W.c) (ha : a < c) (hb : b < c) (hab : a ≠ b) :
    Run (vswap r (W.adr i0 (j0 + a)) W.ld (W.adr i0 (j0 + b)) W.ld) m
      (fun _ m' => On m0 m' W (permCols i0 j0 r c (Equiv.swap b a) V)) := by
  have hd : (vw (W.adr i0 (j0 + a)) W.ld r).Disj (vw (W.adr i0 (j0 + b)) W.ld r) := by
    intro x h1 h2
    obtain ⟨t, ht, rfl⟩ := vw_col_Has.1 h1
    obtain ⟨s, hs, e⟩ := vw_col_Has.1 h2
    have := h.inj _ (by omega) _ (by omega) _ (by omega) _ (by omega) e
    omega
  have hld := h.ld
  refine (vswap_spec (h.vw_col hr (by omega)) (h.vw_col hr (by omega)) hd (by omega) (by omega)).mono ?_
  rintro _ m' ⟨h1, h2, h3, h4, h5⟩
  simp only [Win.adr_add_row] at h3 h4
  refine h.of_vals h1 h2.ge ?_ ?_
  · intro i hi j hj
    simp only [permCols, upd, Equiv.swap_apply_def]
    by_cases hin : i0 ≤ i ∧ i < i0 + r ∧ j0 ≤ j ∧ j < j0 + c
    · rw [if_pos hin]
      by_cases e1 : j - j0 = b
      · rw [if_pos e1]
        have := h4 (i - i0) (by omega)
        rw [show i0 + (i - i0) = i by omega, ← e1, show j0 + (j - j0) = j by omega] at this
        rw [this, h.val (by omega) (by omega), show i0 + (i - i0) = i by omega]
      · rw [if_neg e1]
        by_cases e2 : j - j0 = a
        · rw [if_pos e2]
          have := h3 (i - i0) (by omega)
          rw [show i0 + (i - i0) = i by omega, ← e2, show j0 + (j - j0) = j by omega] at this
          rw [this, h.val (by omega) (by omega), show i0 + (i - i0) = i by omega]
        · rw [if_neg e2, show i0 + (i - i0) = i by omega, show j0 + (j - j0) = j by omega, ← h.val hi hj]
          refine h5 _ ?_ ?_ <;> rw [vw_col_Has] <;> rintro ⟨t, ht, e⟩ <;>
            have := h.inj _ hi _ hj _ (by omega) _ (by omega) e <;> omega
    · rw [if_neg hin, ← h.val hi hj]
      refine h5 _ ?_ ?_ <;> rw [vw_col_Has] <;> rintro ⟨t, ht, e⟩ <;>
        have := h.inj _ hi _ hj _ (by omega) _ (by omega) e <;> omega
  · intro x hx hn
    refine h5 x ?_ ?_ <;> rw [vw_col_Has] <;> rintro ⟨t, ht, rfl⟩ <;> exact hn (Win.Has_adr (by omega) (by omega))

end

/-! ### `applyP` -/

/-- product of the exchanges number `b`, `b+1`, …, `b+k-1` -/
def swapsFrom (P : ℕ → ℕ) (b : ℕ) : ℕ → Equiv.Perm ℕ
  | 0 => 1
  | k+1 => swapsFrom P b k * Equiv.swap (b + k) (P (b + k))

/-- the same exchanges in the reverse order, from number `e-1` down -/
def swapsDown (P : ℕ → ℕ) (e : ℕ) : ℕ → Equiv.Perm ℕ
  | 0 => 1
  | k+1 => swapsDown P e k * Equiv.swap (e - 1 - k) (P (e - 1 - k))

lemma swapsFrom_zero (P : ℕ → ℕ) (k : ℕ) : swapsFrom P 0 k = ofSwaps P k := by
  induction k with
  | zero => rfl
  | succ k ih => rw [swapsFrom, ofSwaps, ih, Nat.zero_add]

lemma swapsFrom_first (P : ℕ → ℕ) (b k : ℕ) : swapsFrom P b (k+1) = Equiv.swap b (P b) * swapsFrom P (b+1) k := by
  induction k with
  | zero => simp [swapsFrom]
  | succ k ih => rw [swapsFrom, ih, swapsFrom, mul_assoc, Nat.add_right_comm]; rfl

lemma swapsDown_eq (P : ℕ → ℕ) (b : ℕ) : ∀ k, swapsDown P (b + k) k = (swapsFrom P b k)⁻¹ := by
  have key : ∀ k e, k ≤ e → swapsDown P e k = (swapsFrom P (e - k) k)⁻¹ := by
    intro k
    induction k with
    | zero => intro e _; simp [swapsDown, swapsFrom]
    | succ k ih =>
      intro e he
      rw [swapsDown, ih e (by omega), swapsFrom_first, mul_inv_rev, Equiv.swap_inv, show e - (k+1) + 1 = e - k by omega,
        show e - 1 - k = e - (k+1) by omega]
  intro k
  rw [key k (b + k) (by omega), Nat.add_sub_cancel]

lemma swap_lt {n x a b : ℕ} (ha : a < n) (hb : b < n) (hx : x < n) : Equiv.swap a b x < n := by
  rw [Equiv.swap_apply_def]; split_ifs <;> omega

/-- the permutation performed by `applyP` between `ibeg` and `iend` -/
def appliedPerm (side : Side) (ta : Tr) (P : ℕ → ℕ) (ibeg iend : ℕ) : Equiv.Perm ℕ := match side, ta with
  | .right, .yes => swapsFrom P ibeg (iend - ibeg)
  | .right, .no => swapsDown P iend (iend - ibeg)
  | .left, .no => swapsFrom P ibeg (iend - ibeg)
  | .left, .yes => swapsDown P iend (iend - ibeg)

lemma swapsFrom_lt {P : ℕ → ℕ} {b r : ℕ} : ∀ {k}, b + k ≤ r → (∀ i < b + k, P i < r) → ∀ {x}, x < r → swapsFrom P b k x < r
  | 0, _, _, _, hx => hx
  | k+1, hk, hp, _, hx => by
    rw [swapsFrom, Equiv.Perm.mul_apply]
    exact swapsFrom_lt (by omega) (fun i hi => hp i (by omega)) (swap_lt (by omega) (hp _ (by omega)) hx)

lemma swapsDown_lt {P : ℕ → ℕ} {e r : ℕ} : ∀ {k}, e ≤ r → k ≤ e → (∀ i < e, P i < r) → ∀ {x}, x < r → swapsDown P e k x < r
  | 0, _, _, _, _, hx => hx
  | k+1, he, hk, hp, _, hx => by
    rw [swapsDown, Equiv.Perm.mul_apply]
    exact swapsDown_lt he (by omega) hp (swap_lt (by omega) (hp _ (by omega)) hx)

lemma appliedPerm_lt {side : Side} {ta : Tr} {P : ℕ → ℕ} {ibeg iend r : ℕ} (he : iend ≤ r) (hp : ∀ i < iend, P i < r) {x : ℕ}
    (hx : x < r) : appliedPerm side ta P ibeg iend x < r := by
  rcases Nat.le_total ibeg iend with hb | hb
  · cases side <;> cases ta <;> simp only [appliedPerm]
    · exact swapsFrom_lt (by omega) (fun i hi => hp i (by omega)) hx
    · exact swapsDown_lt he (by omega) hp hx
    · exact swapsDown_lt he (by omega) hp hx
    · exact swapsFrom_lt (by omega) (fun i hi => hp i (by omega)) hx
  · rw [← Nat.sub_eq_zero_iff_le] at hb
    cases side <;> cases ta <;> simp only [appliedPerm, hb, swapsFrom, swapsDown] <;> exact hx

section
variable [CommRing K] [DecidableEq K]
variable {m0 m : Mem K} {W : Win} {V : ℕ → ℕ → K} {i0 j0 r c : ℕ} {P : Arr ℕ} {ibeg iend : ℕ}

lemma applyPStep_row (h : On m0 m W V) (hr : i0 + r ≤ W.r) (hc : j0 + c ≤ W.c) {i : ℕ} (hP : i < P.len) (hi : i < r)
    (hp : P.get i < r) : Run (applyPStep .left c (W.adr i0 j0) W.ld P i) m
      (fun _ m' => On m0 m' W (permRows i0 j0 r c (Equiv.swap i (P.get i)) V)) := by
  simp only [applyPStep, Run_bind, Run_liftE, Ok_rd]
  refine ⟨hP, ?_⟩
  rif e
  · rw [Win.adr_add_row, Win.adr_add_row]
    exact swapRow_on h hr hc hp hi e
  · rw [Run_pure, not_not.1 e, Equiv.swap_self]
    rw [show ((Equiv.refl ℕ : Equiv.Perm ℕ) : ℕ → ℕ) = id from rfl, permRows_id]
    exact h

lemma applyPStep_col (h : On m0 m W V) (hr : i0 + r ≤ W.r) (hc : j0 + c ≤ W.c) {i : ℕ} (hP : i < P.len) (hi : i < c)
    (hp : P.get i < c) : Run (applyPStep .right r (W.adr i0 j0) W.ld P i) m
      (fun _ m' => On m0 m' W (permCols i0 j0 r c (Equiv.swap i (P.get i)) V)) := by
  simp only [applyPStep, Run_bind, Run_liftE, Ok_rd]
  refine ⟨hP, ?_⟩
  rif e
  · rw [Nat.mul_one, Nat.mul_one, Win.adr_add_col, Win.adr_add_col]
    exact swapCol_on h hr hc hp hi e
  · rw [Run_pure, not_not.1 e, Equiv.swap_self]
    rw [show ((Equiv.refl ℕ : Equiv.Perm ℕ) : ℕ → ℕ) = id from rfl, permCols_id]
    exact h

lemma applyPBlock_row (ta : Tr) (h : On m0 m W V) (hr : i0 + r ≤ W.r) (hc : j0 + c ≤ W.c) (he : iend ≤ r) (hP : iend ≤ P.len)
    (hp : ∀ i < iend, P.get i < r) : Run (applyPBlock .left ta c ibeg iend (W.adr i0 j0) W.ld P) m
      (fun _ m' => On m0 m' W (permRows i0 j0 r c (appliedPerm .left ta P.get ibeg iend) V)) := by
  cases ta with
  | no =>
    refine Run_loop (fun k m' => On m0 m' W (permRows i0 j0 r c (swapsFrom P.get ibeg k) V)) ?_ ?_
    · rw [swapsFrom, Equiv.Perm.coe_one, permRows_id]; exact h
    · intro k m' hk h'
      refine (applyPStep_row h' hr hc (i := ibeg + k) (by omega) (by omega) (hp _ (by omega))).mono (fun _ m'' h'' => ?_)
      rw [permRows_comp (fun i hi => swap_lt (by omega) (hp _ (by omega)) hi)] at h''
      exact h''
  | yes =>
    refine Run_loop (fun k m' => On m0 m' W (permRows i0 j0 r c (swapsDown P.get iend k) V)) ?_ ?_
    · rw [swapsDown, Equiv.Perm.coe_one, permRows_id]; exact h
    · intro k m' hk h'
      refine (applyPStep_row h' hr hc (i := iend - 1 - k) (by omega) (by omega) (hp _ (by omega))).mono (fun _ m'' h'' => ?_)
      rw [permRows_comp (fun i hi => swap_lt (by omega) (hp _ (by omega)) hi)] at h''
      exact h''

lemma applyPBlock_col (ta : Tr) (h : On m0 m W V) (hr : i0 + r ≤ W.r) (hc : j0 + c ≤ W.c) (he : iend ≤ c) (hP : iend ≤ P.len)
    (hp : ∀ i < iend, P.get i < c) : Run (applyPBlock .right ta r ibeg iend (W.adr i0 j0) W.ld P) m
      (fun _ m' => On m0 m' W (permCols i0 j0 r c (appliedPerm .right ta P.get ibeg iend) V)) := by
  cases ta with
  | yes =>
    refine Run_loop (fun k m' => On m0 m' W (permCols i0 j0 r c (swapsFrom P.get ibeg k) V)) ?_ ?_
    · rw [swapsFrom, Equiv.Perm.coe_one, permCols_id]; exact h
    · intro k m' hk h'
      refine (applyPStep_col h' hr hc (i := ibeg + k) (by omega) (by omega) (hp _ (by omega))).mono (fun _ m'' h'' => ?_)
      rw [permCols_comp (fun i hi => swap_lt (by omega) (hp _ (by omega)) hi)] at h''
      exact h''
  | no =>
    refine Run_loop (fun k m' => On m0 m' W (permCols i0 j0 r c (swapsDown P.get iend k) V)) ?_ ?_
    · rw [swapsDown, Equiv.Perm.coe_one, permCols_id]; exact h
    · intro k m' hk h'
      refine (applyPStep_col h' hr hc (i := iend - 1 - k) (by omega) (by omega) (hp _ (by omega))).mono (fun _ m'' h'' => ?_)
      rw [permCols_comp (fun i hi => swap_lt (by omega) (hp _ (by omega)) hi)] at h''
      exact h''

/-- `applyP` on the rows of a block -/
lemma applyP_row (ta : Tr) (h : On m0 m W V) (hr : i0 + r ≤ W.r) (hc : j0 + c ≤ W.c) (he : iend ≤ r) (hP : iend ≤ P.len)
    (hp : ∀ i < iend, P.get i < r) : Run (applyP .left ta c ibeg iend (W.adr i0 j0) W.ld P) m
      (fun _ m' => On m0 m' W (permRows i0 j0 r c (appliedPerm .left ta P.get ibeg iend) V)) := by
  have hdm := Nat.div_add_mod c 32
  simp only [applyP, Run_bind]
  refine (Run_loop (fun k m' => On m0 m' W (permRows i0 j0 r (k * 32) (appliedPerm .left ta P.get ibeg iend) V)) ?_ ?_).mono ?_
  · rw [Nat.zero_mul, permRows_empty]; exact h
  · intro k m' hk h'
    rw [Nat.mul_one, Win.adr_add_col]
    refine (applyPBlock_row ta h' hr (c := 32) (j0 := j0 + k * 32) (by omega) he hP hp).mono (fun _ m'' h'' => ?_)
    rw [permRows_append] at h''
    rw [Nat.succ_mul]; exact h''
  · intro _ m' h'
    rw [Nat.mul_one, Win.adr_add_col]
    refine (applyPBlock_row ta h' hr (c := c % 32) (j0 := j0 + c / 32 * 32) (by omega) he hP hp).mono (fun _ m'' h'' => ?_)
    rw [permRows_append, show c / 32 * 32 + c % 32 = c by omega] at h''
    exact h''

/-- `applyP` on the columns of a block -/
lemma applyP_col (ta : Tr) (h : On m0 m W V) (hr : i0 + r ≤ W.r) (hc : j0 + c ≤ W.c) (he : iend ≤ c) (hP : iend ≤ P.len)
    (hp : ∀ i < iend, P.get i < c) : Run (applyP .right ta r ibeg iend (W.adr i0 j0) W.ld P) m
      (fun _ m' => On m0 m' W (permCols i0 j0 r c (appliedPerm .right ta P.get ibeg iend) V)) := by
  have hdm := Nat.div_add_mod r 32
  simp only [applyP, Run_bind]
  refine (Run_loop (fun k m' => On m0 m' W (permCols i0 j0 (k * 32) c (appliedPerm .right ta P.get ibeg iend) V)) ?_ ?_).mono ?_
  · rw [Nat.zero_mul, permCols_empty]; exact h
  · intro k m' hk h'
    rw [← Nat.mul_assoc, Win.adr_add_row]
    refine (applyPBlock_col ta h' (r := 32) (i0 := i0 + k * 32) (by omega) hc he hP hp).mono (fun _ m'' h'' => ?_)
    rw [permCols_append] at h''
    rw [Nat.succ_mul]; exact h''
  · intro _ m' h'
    rw [← Nat.mul_assoc, Win.adr_add_row]
    refine (applyPBlock_col ta h' (r := r % 32) (i0 := i0 + r / 32 * 32) (by omega) hc he hP hp).mono (fun _ m'' h'' => ?_)
    rw [permCols_append, show r / 32 * 32 + r % 32 = r by omega] at h''
    exact h''

end
end Verif.FF
