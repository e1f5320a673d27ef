import Verif.Proofs.LudSmallMath
import Verif.Proofs.LudBase

/-!
# `LUdivine_small` and `LUdivine`
-/

namespace Verif.FF

open Finset Verif.Perm Verif.Spec Verif.Spec.Perm Verif.Pluq Verif.Lud

variable {K : Type} [Field K] [DecidableEq K]
variable {m0 m m' : Mem K} {W : Win} {X V : ℕ → ℕ → K} {d : Diag}

lemma smallScan_spec (h : On m0 m W V) {k : ℕ} (hk : k < W.c) : ∀ (f rowp colp : ℕ), rowp < W.r → k ≤ colp → colp < W.c →
    (W.r - 1 - rowp) * (W.c - k) + (W.c - colp) ≤ f → (∀ j, k ≤ j → j < colp → V rowp j = 0) →
    Run (smallScan W.r W.c W.p W.ld k f rowp colp) m (fun y m' => m' = m ∧ rowp ≤ y.1 ∧ y.1 < W.r ∧ k ≤ y.2 ∧
      (∀ i, rowp ≤ i → i < y.1 → ∀ j < W.c, k ≤ j → V i j = 0) ∧ (∀ j, k ≤ j → j < y.2 → j < W.c → V y.1 j = 0) ∧
      ((y.2 < W.c ∧ V y.1 y.2 ≠ 0) ∨ (y.2 = W.c ∧ y.1 + 1 = W.r))) := by
  intro f
  induction f with
  | zero => intro rowp colp h1 h2 h3 h4; omega
  | succ f ih =>
    intro rowp colp h1 h2 h3 h4 h5
    unfold smallScan
    have ea : W.p + rowp * W.ld + colp = W.adr rowp colp := by simp only [Win.adr]
    rw [ea, Run_bind, Run_load]
    refine ⟨h.okc h1 h3, ?_⟩
    rw [h.val h1 h3]
    rif c
    · have z : ∀ j, k ≤ j → j < colp + 1 → V rowp j = 0 := fun j hj hj' => by
        by_cases e : j = colp
        · rw [e]; exact c
        · exact h5 j hj (by omega)
      rif c1
      · rif c2
        · rw [Run_pure]
          exact ⟨rfl, le_rfl, h1, by simp only []; omega, fun i hi hi' => by simp only [] at hi'; omega, fun j hj _ hj' => z j hj (by omega), Or.inr ⟨c1, c2⟩⟩
        · have : (W.r - 1 - rowp) * (W.c - k) = (W.r - 1 - (rowp + 1)) * (W.c - k) + (W.c - k) := by
            rw [show W.r - 1 - rowp = (W.r - 1 - (rowp + 1)) + 1 by omega, Nat.succ_mul]
          refine (ih (rowp + 1) k (by omega) le_rfl hk (by omega) (fun j hj hj' => by omega)).mono ?_
          rintro y m' ⟨e1, e2, e3, e4, e5, e6⟩
          refine ⟨e1, by omega, e3, e4, fun i hi hi' j hj hjk => ?_, e6⟩
          by_cases e : i = rowp
          · rw [e]; exact z j hjk (by omega)
          · exact e5 i (by omega) hi' j hj hjk
      · exact (ih rowp (colp + 1) h1 (by omega) (by omega) (by omega) z)
    · rw [Run_pure]
      exact ⟨rfl, le_rfl, h1, h2, fun i hi hi' => by simp only [] at hi'; omega, fun j hj hj' _ => h5 j hj hj', Or.inl ⟨h3, c⟩⟩

/-- exchange of two columns of the whole window, possibly the same -/
lemma swapCols_on (h : On m0 m W V) {a b : ℕ} (ha : a < W.c) (hb : b < W.c) :
    Run (vswap W.r (W.p + a) W.ld (W.p + b) W.ld) m (fun _ m' => On m0 m' W (permCols 0 0 W.r W.c (Equiv.swap a b) V)) := by
  have e : ∀ x, W.p + x = W.adr 0 (0 + x) := fun x => by simp only [Win.adr]; ring
  by_cases c : a = b
  · subst c
    rw [Equiv.swap_self, show ((Equiv.refl ℕ : Equiv.Perm ℕ) : ℕ → ℕ) = id from rfl, permCols_id]
    unfold vswap
    rw [cnt_pos (by have := h.ld; omega)]
    refine Run_loop (fun _ m' => On m0 m' W V) h ?_
    intro i m' hi h'
    have ea : W.p + a + i * W.ld = W.adr i a := by simp only [Win.adr]; ring
    rw [ea, Run_bind, Run_load]
    refine ⟨h'.okc hi ha, ?_⟩
    rw [h'.val hi ha, Run_bind, Run_load]
    refine ⟨h'.okc hi ha, ?_⟩
    rw [h'.val hi ha, Run_bind, Run_store]
    refine ⟨h'.okc hi ha, ?_⟩
    have h2 := h'.set (x := V i a) hi ha
    rw [Run_store]
    refine ⟨h2.okc hi ha, (h2.set hi ha).congr (fun i' _ j' _ => ?_)⟩
    by_cases c1 : i ≤ i' ∧ i' < i + 1 ∧ a ≤ j' ∧ j' < a + 1
    · rw [upd_in' c1]
      obtain ⟨rfl, rfl⟩ : i' = i ∧ j' = a := by omega
      rfl
    · rw [upd_out (by omega), upd_out (by omega)]
  · rw [e, e, Equiv.swap_comm]
    exact swapCol_on h (by omega) (by omega) ha hb c

/-- rank-one update of a block by a column and a row of the window -/
lemma ger_on (h : On m0 m W V) {i j : ℕ} (hi : i < W.r) (hj : j < W.c) :
    Run (fger (W.r - i - 1) (W.c - j - 1) (-1) (W.adr (i + 1) j) W.ld (W.adr i (j + 1)) 1 (W.adr (i + 1) (j + 1)) W.ld) m
      (fun _ m' => On m0 m' W (upd (i + 1) (j + 1) (W.r - i - 1) (W.c - j - 1)
        (fun a b => V (i + 1 + a) (j + 1 + b) - V (i + 1 + a) j * V i (j + 1 + b)) V)) := by
  have hld := h.ld
  have hx := h.vw_col (i := i + 1) (j := j) (n := W.r - i - 1) (by omega) hj
  have hy := h.vw_row (i := i) (j := j + 1) (n := W.c - j - 1) hi (by omega)
  have hb : OkIn m (W.sub (i + 1) (j + 1) (W.r - i - 1) (W.c - j - 1)) := h.ok'.of_sub (by omega) (by omega)
  refine (fger_spec (-1) hb (by omega) hx hy ?_ ?_).mono ?_
  · rintro x hx1 ⟨a, ha, b, hb, e⟩
    have ha : a < W.r - i - 1 := ha
    have hb : b < W.c - j - 1 := hb
    obtain ⟨t, ht, e'⟩ := vw_col_Has.1 hx1
    have e : x = (W.sub (i + 1) (j + 1) (W.r - i - 1) (W.c - j - 1)).adr a b := e
    rw [Win.sub_adr, e'] at e
    have := h.inj _ (by omega) _ (by omega) _ (by omega) _ (by omega) e
    omega
  · rintro x hx1 ⟨a, ha, b, hb, e⟩
    have ha : a < W.r - i - 1 := ha
    have hb : b < W.c - j - 1 := hb
    obtain ⟨t, ht, e'⟩ := vw_row_Has.1 hx1
    have e : x = (W.sub (i + 1) (j + 1) (W.r - i - 1) (W.c - j - 1)).adr a b := e
    rw [Win.sub_adr, e'] at e
    have := h.inj _ (by omega) _ (by omega) _ (by omega) _ (by omega) e
    omega
  · intro _ m' s
    refine h.upd (by omega) (by omega) (Step.congr s (fun a ha b hb => ?_))
    have ha : a < W.r - i - 1 := ha
    have hb : b < W.c - j - 1 := hb
    rw [show m.mat ⟨W.adr (i + 1) (j + 1), W.ld, W.r - i - 1, W.c - j - 1⟩ a b = V (i + 1 + a) (j + 1 + b) from h.blk (by omega) (by omega) ha hb,
      Win.adr_add_row, Nat.mul_one, Win.adr_add_col, h.val (by omega) hj, h.val hi (by omega), neg_one_mul, sub_eq_add_neg]

/-- result of the elimination loop -/
def SmallPost (d : Diag) (m0 : Mem K) (W : Win) (X : ℕ → ℕ → K) (lP lQ : ℕ) (y : ℕ × Arr ℕ × Arr ℕ) (m' : Mem K) : Prop :=
  y.2.1.len = lP ∧ y.2.2.len = lQ ∧ (∀ i < y.1, i ≤ y.2.1.get i) ∧ (∀ i < y.1, y.2.1.get i < W.c) ∧ ∃ V, On m0 m' W V ∧
    SmallInv d W.r W.c X V (ofSwaps y.2.1.get y.1) y.2.2.get W.r y.1

lemma smallElim_spec (cat : Cat) : ∀ (f rowp k : ℕ) (m : Mem K) (V : ℕ → ℕ → K) (P Q : Arr ℕ), On m0 m W V → W.r - rowp < f →
    min W.r W.c ≤ P.len → W.r ≤ Q.len → (∀ i < k, i ≤ P.get i) → (∀ i < k, P.get i < W.c) →
    SmallInv d W.r W.c X V (ofSwaps P.get k) Q.get rowp k →
    Run (smallElim cat d W.r W.c W.p W.ld f rowp k P Q) m (SmallPost d m0 W X P.len Q.len) := by
  intro f
  induction f with
  | zero => intro rowp k m V P Q _ h1; omega
  | succ f ih =>
    intro rowp k m V P Q h h1 hP hQ p1 p2 inv
    have hkr := inv.kr
    unfold smallElim
    rif c0
    · obtain ⟨c0, c0'⟩ := c0
      rw [Run_bind]
      have hf : (W.r - 1 - rowp) * (W.c - k) + (W.c - k) ≤ W.r * W.c + 1 := by
        rw [← Nat.succ_mul]
        exact (Nat.mul_le_mul (by omega) (by omega)).trans (Nat.le_succ _)
      refine (smallScan_spec h c0' (W.r * W.c + 1) rowp k c0 le_rfl c0' hf (fun j hj hj' => by omega)).mono ?_
      rintro ⟨r', c'⟩ m1 ⟨rfl, s1, s2, s3, s4, s5, s6⟩
      simp only [] at s1 s2 s3 s4 s5 s6 ⊢
      rif c1
      · rw [Run_pure]
        refine ⟨rfl, rfl, p1, p2, V, h, inv.skip (by omega) le_rfl (fun i hi hi' j hj hjk => ?_)⟩
        by_cases e : i < r'
        · exact s4 i hi e j hj hjk
        · obtain rfl : i = r' := by omega
          exact s5 j hjk (by omega) hj
      · have s6 : c' < W.c ∧ V r' c' ≠ 0 := by
          rcases s6 with s6 | s6
          · exact s6
          · exact absurd ⟨s6.2, s6.1⟩ c1
        obtain ⟨s6, s7⟩ := s6
        have inv' := inv.skip s1 (by omega) s4
        rw [Run_bind, Run_liftE]
        refine (Ok_wr _ _ _ _).2 ⟨by omega, ?_⟩
        rw [Run_bind, Run_liftE]
        refine (Ok_wr _ _ _ _).2 ⟨by omega, ?_⟩
        rw [Run_bind]
        refine (swapCols_on h c0' s6).mono (fun _ m2 h2 => ?_)
        have v1 : ∀ i < W.r, ∀ j < W.c, permCols 0 0 W.r W.c (Equiv.swap k c') V i j = V i (Equiv.swap k c' j) := fun i hi j hj => by
          unfold permCols
          rw [upd_in' (by omega)]; simp
        generalize permCols 0 0 W.r W.c (Equiv.swap k c') V = V1 at *
        have vp : V1 r' k = V r' c' := by rw [v1 r' s2 k c0', Equiv.swap_apply_left]
        have ea : W.p + r' * W.ld + k = W.adr r' k := by simp only [Win.adr]
        have ea1 : W.adr r' k + 1 = W.adr r' (k + 1) := by simp only [Win.adr]; ring
        have ea2 : W.adr r' k + W.ld = W.adr (r' + 1) k := by simp only [Win.adr]; ring
        have ea3 : W.adr r' k + (W.ld + 1) = W.adr (r' + 1) (k + 1) := by simp only [Win.adr]; ring
        simp only [ea, ea1, ea2, ea3]
        rw [Run_bind, Run_load]
        refine ⟨h2.okc s2 c0', ?_⟩
        rw [h2.val s2 c0', vp, Run_bind, Run_liftE]
        refine (Ok_invE _ _).2 ⟨s7, ?_⟩
        rw [Run_bind]
        have sc : Run (match d with
            | .unit => vscalin cat (W.c - k - 1) (V r' c')⁻¹ (W.adr r' (k + 1)) 1
            | .nonUnit => vscalin cat (W.r - r' - 1) (V r' c')⁻¹ (W.adr (r' + 1) k) W.ld) m2 (fun _ m' => ∃ V2, On m0 m' W V2 ∧
              (∀ i < W.r, ∀ j < W.c, i < r' ∨ j < k ∨ (r' < i ∧ k < j) → V2 i j = V1 i j) ∧ V2 r' k = V1 r' k ∧
              (d = .unit → (∀ j < W.c, k < j → V r' c' * V2 r' j = V1 r' j) ∧ ∀ i < W.r, r' < i → V2 i k = V1 i k) ∧
              (d = .nonUnit → (∀ j < W.c, k < j → V2 r' j = V1 r' j) ∧ ∀ i < W.r, r' < i → V2 i k * V r' c' = V1 i k)) := by
          cases d with
          | unit =>
            refine (scalRow_on cat h2 _ s2 (by omega)).mono (fun _ m3 h3 => ⟨_, h3, fun i hi j hj hh => ?_, ?_, fun _ => ⟨fun j hj hk => ?_, fun i hi hr => ?_⟩,
              fun hh => by simp at hh⟩)
            · rw [upd_out (by omega)]
            · rw [upd_out (by omega)]
            · rw [upd_in' (by omega), ← mul_assoc, mul_inv_cancel₀ s7, one_mul, show k + 1 + (j - (k + 1)) = j by omega]
            · rw [upd_out (by omega)]
          | nonUnit =>
            refine (scalCol_on cat h2 _ (by omega) c0').mono (fun _ m3 h3 => ⟨_, h3, fun i hi j hj hh => ?_, ?_, fun hh => by simp at hh,
              fun _ => ⟨fun j hj hk => ?_, fun i hi hr => ?_⟩⟩)
            · rw [upd_out (by omega)]
            · rw [upd_out (by omega)]
            · rw [upd_out (by omega)]
            · rw [upd_in' (by omega), mul_comm, ← mul_assoc, mul_inv_cancel₀ s7, one_mul, show r' + 1 + (i - (r' + 1)) = i by omega]
        refine sc.mono ?_
        rintro _ m3 ⟨V2, h3, y1, y2, y3, y4⟩
        rw [Run_bind]
        refine (ger_on h3 s2 c0').mono (fun _ m4 h4 => ?_)
        have e1 : ∀ i, ∀ j, i ≤ r' ∨ j ≤ k → upd (r' + 1) (k + 1) (W.r - r' - 1) (W.c - k - 1) (fun a b => V2 (r' + 1 + a) (k + 1 + b) - V2 (r' + 1 + a) k * V2 r' (k + 1 + b)) V2 i j =
            V2 i j := fun i j hh => by rw [upd_out (by omega)]
        have e2 : ∀ i < W.r, ∀ j < W.c, r' < i → k < j → upd (r' + 1) (k + 1) (W.r - r' - 1) (W.c - k - 1) (fun a b => V2 (r' + 1 + a) (k + 1 + b) - V2 (r' + 1 + a) k * V2 r' (k + 1 + b)) V2 i j =
            V2 i j - V2 i k * V2 r' j := fun i hi j hj hh hh' => by
          rw [upd_in' (by omega), show r' + 1 + (i - (r' + 1)) = i by omega, show k + 1 + (j - (k + 1)) = j by omega]
        generalize upd (r' + 1) (k + 1) (W.r - r' - 1) (W.c - k - 1) (fun a b => V2 (r' + 1 + a) (k + 1 + b) - V2 (r' + 1 + a) k * V2 r' (k + 1 + b)) V2 = V3 at *
        refine ih (r' + 1) (k + 1) m4 V3 ⟨P.len, Function.update P.get k c'⟩ ⟨Q.len, Function.update Q.get k r'⟩ h4 (by omega) hP hQ (fun i hi => ?_) (fun i hi => ?_) ?_
        · simp only [Function.update_apply]
          split_ifs with e
          · omega
          · exact p1 i (by omega)
        · simp only [Function.update_apply]
          split_ifs with e
          · omega
          · exact p2 i (by omega)
        · refine inv'.pivot s2 s3 s6 s7 (fun j hj => ?_) (fun a ha => ?_) ?_ (fun i hi j hj hh => ?_) ?_ (fun hd => ⟨fun j hj hk => ?_, fun i hi hr => ?_⟩)
            (fun hd => ⟨fun j hj hk => ?_, fun i hi hr => ?_⟩) (fun i hi j hj hr hk => ?_)
          · rw [ofSwaps, Equiv.Perm.mul_apply]
            simp only [Function.update_self]
            rw [ofSwaps_congr (P := Function.update P.get k c') (P' := P.get) (fun i hi => Function.update_of_ne (by omega) _ _)]
          · simp only []
            rw [Function.update_of_ne (by omega)]
          · simp
          · rw [e1 i j (by omega), y1 i hi j hj (by omega), v1 i hi j hj]
          · rw [e1 _ _ (by omega), y2, vp]
          · rw [e1 _ _ (by omega), (y3 hd).1 j hj hk, v1 r' s2 j hj]
          · rw [e1 _ _ (by omega), (y3 hd).2 i hi hr, v1 i hi k c0', Equiv.swap_apply_left]
          · rw [e1 _ _ (by omega), (y4 hd).1 j hj hk, v1 r' s2 j hj]
          · rw [e1 _ _ (by omega), (y4 hd).2 i hi hr, v1 i hi k c0', Equiv.swap_apply_left]
          · rw [e2 i hi j hj hr hk, e1 i k (by omega), e1 r' j (by omega), y1 i hi j hj (by omega), v1 i hi j hj]
    · rw [Run_pure]
      have := inv.rM
      refine ⟨rfl, rfl, p1, p2, V, h, inv.skip inv.rM le_rfl (fun i hi hi' j hj hjk => by omega)⟩

omit [DecidableEq K] in
lemma smallShift_ub : smallShift d = ub d := by cases d <;> rfl

lemma smallMove_spec {Q : Arr ℕ} {t R : ℕ} (h : On m0 m W (movedQ (ub d) Q.get t V)) (hinc : ∀ a b, a < b → b < R → Q.get a < Q.get b)
    (hl : ∀ a < R, a ≤ Q.get a) (hq : ∀ a < R, Q.get a < W.r) (hQ : R ≤ Q.len) (hR : R ≤ W.c) (ht : t < R) :
    Run (smallMove d W.c W.p W.ld Q t) m (fun _ m' => On m0 m' W (movedQ (ub d) Q.get (t + 1) V)) := by
  have hub : ub d ≤ 1 := by cases d <;> simp [ub]
  have hlt := hl t ht
  have hqt := hq t ht
  unfold smallMove
  simp only [smallShift_ub]
  rw [Run_bind, Run_liftE]
  refine (Ok_rd _ _ _).2 ⟨by omega, ?_⟩
  rif c
  · have ea : W.p + ub d + t * (W.ld + 1) = W.adr t (t + ub d) := by simp only [Win.adr]; ring
    have eb : W.adr t (t + ub d) + (Q.get t - t) * W.ld = W.adr (Q.get t) (t + ub d) := by
      rw [Win.adr_add_row]; congr 1; omega
    rw [ea, eb, Run_bind]
    refine (moveRow_on h (by omega) (by omega) hqt (by omega) (Or.inl (by omega))).mono (fun _ m1 h1 => ?_)
    have h1' : OnL .no m0 m1 W (upd t (t + ub d) 1 (W.c - ub d - t) (fun _ s => movedQ (ub d) Q.get t V (Q.get t) (t + ub d + s))
      (movedQ (ub d) Q.get t V)) := h1
    have z := zeroL_on h1' (i := Q.get t) (j := t + ub d) (n := W.c - ub d - t) hqt (by simp only [lc]; omega)
    simp only [ladr, luCol, Nat.mul_one] at z
    refine z.mono (fun _ m2 h2 => ?_)
    refine On.congr h2 (fun i hi j hj => ?_)
    simp only [op]
    rw [movedQ_succ hinc hl ht]
    by_cases c1 : i = t ∧ t + ub d ≤ j
    · rw [if_pos c1, upd_out (by omega), upd_in' (by omega), movedQ_src hinc hl ht, show t + ub d + (j - (t + ub d)) = j by omega]
    · rw [if_neg c1]
      by_cases c2 : i = Q.get t ∧ t < Q.get t ∧ t + ub d ≤ j
      · rw [if_pos c2, upd_in' (by omega)]
      · rw [if_neg c2, upd_out (by omega), upd_out (by omega)]
  · rw [Run_pure]
    have e : Q.get t = t := by omega
    refine h.congr (fun i hi j hj => ?_)
    rw [movedQ_succ hinc hl ht]
    by_cases c1 : i = t ∧ t + ub d ≤ j
    · rw [if_pos c1, c1.1]
      have := movedQ_src (e := ub d) (V := V) hinc hl ht j
      rw [e] at this
      rw [this, e]
    · rw [if_neg c1, if_neg (by omega)]

theorem ludSmall_spec (cat : Cat) {P Q : Arr ℕ} (h : OnL .no m0 m W X) (hP : min W.r W.c ≤ P.len) (hQ : W.r ≤ Q.len) :
    Run (ludSmall cat d W.r W.c W.p W.ld P Q) m (LudPost false d .no m0 W X P.len Q.len) := by
  have h' : On m0 m W X := h
  unfold ludSmall
  rif c0
  · rw [Run_pure]
    refine ⟨rfl, rfl, fun i hi => by simp only [] at hi; omega, fun i hi => by simp only [] at hi; omega, ⟨X, h, fun _ => ?_⟩, fun hh => by simp at hh, fun hh => by simp at hh⟩
    exact cup_zero (fun j _ => rfl) (fun i hi j hj => by simp only [lr, lc] at hi hj; omega) (fun i hi j hj => by simp only [lr, lc] at hi hj; omega)
  · rw [Run_bind]
    refine (smallElim_spec cat (X := X) (d := d) (W.r + 1) 0 0 m X P Q h' (by omega) hP hQ (fun i hi => by omega) (fun i hi => by omega)
      (SmallInv.start X _ (fun j => rfl))).mono ?_
    rintro ⟨R, P1, Q1⟩ m1 ⟨l1, l2, p1, p2, V, h1, inv⟩
    simp only [] at l1 l2 p1 p2 inv ⊢
    have cup := inv.cup
    have rM := cup.rM
    rw [Run_bind]
    refine (Run_loop (fun t m' => On m0 m' W (movedQ (ub d) Q1.get t V)) (by rw [movedQ_zero]; exact h1) ?_).mono ?_
    · intro t m' ht ht'
      exact smallMove_spec ht' inv.inc cup.le_q inv.qr (by omega) inv.kN ht
    · intro _ m2 h2
      rw [Run_pure]
      exact ⟨l1, l2, p1, p2, ⟨_, h2, fun _ => cup⟩, fun hh => by simp at hh, fun hh => by simp at hh⟩

theorem ludRec_spec (cat : Cat) {g : GemmFn K} {ts : TrsmFn K} (hg : GemmOk g) (ht : TrsmOk ts) {cutoff lda : ℕ} {ta : Tr} {sing : Bool}
    (hcut : cutoff ≤ 1 ∨ (ta = .no ∧ sing = false)) (hex : sing = true → AllCup K d) :
    ∀ fuel, LudOk (ludRec cat g ts cutoff ta d sing lda fuel) sing d ta lda fuel := by
  intro fuel
  induction fuel with
  | zero => intro m0 m W V P Q _ h; omega
  | succ fuel ih =>
    intro m0 m W V P Q hl hb hP hQ h
    unfold ludRec
    rif c0
    · rw [Run_pure]
      refine ⟨rfl, rfl, fun i hi => by simp only [] at hi; omega, fun i hi => by simp only [] at hi; omega, ⟨V, h, fun _ => ?_⟩, fun hh hh' _ hh'' => by omega,
        fun _ _ hh => absurd rfl hh⟩
      exact cup_zero (fun j _ => rfl) (fun i hi j hj => by omega) (fun i hi j hj => by omega)
    · rif c1
      · obtain ⟨rfl, rfl⟩ : ta = .no ∧ sing = false := by
          rcases hcut with e | e
          · omega
          · exact e
        subst hl
        exact ludSmall_spec cat h hP hQ
      · rif c2
        · subst hl
          exact ludBase_spec cat h c2 (by omega) hQ
        · subst hl
          refine ludStep_spec hg ht hex ?_ h (by omega) hP hQ
          intro m0 m W' V P Q e1 e2
          exact ih m0 m W' V P Q e1 (by omega)

end Verif.FF
