import Verif.Proofs.EchelonGet2

/-!
# The accessors to echelon forms in place
-/

namespace Verif.FF

open Finset Verif.Spec Verif.Spec.Perm Verif.Pluq Verif.Perm

variable {K : Type} [Field K] [DecidableEq K] {m0 m : Mem K} {W : Win} {f : ℕ → ℕ → K} {P : Arr ℕ}

lemma getEchelonFormIn_tile_upper (jk : ℕ → ℕ → ℕ) (d : Diag) (h : On m0 m W f) {R : ℕ} (hRM : R ≤ W.r) (hRN : R ≤ W.c) (hP : P.len = W.c)
    (hp : ∀ i < W.c, P.get i < W.c) :
    Run (getEchelonFormIn jk .tile .upper d W.r W.c R P W.p W.ld) m (fun _ m' => On m0 m' W (fun i j =>
      if i < R then tri .upper d f (ech (ofSwaps P.get W.c) R i) ((ofSwaps P.get W.c)⁻¹ j) else 0)) := by
  unfold getEchelonFormIn
  rw [if_neg (by simp), Run_bind]
  refine (getTriangularIn_upper d h hRM hRN).mono (fun _ m1 h1 => ?_)
  simp only []
  rw [Run_bind]
  refine (colsNo_on h1 le_rfl le_rfl hP.ge hp).mono (fun _ m2 h2 => ?_)
  refine (applyLPerm_rows jk h2 hRM le_rfl hRN hP hp).mono (fun _ m3 h3 => h3.congr (fun i hi j hj => ?_))
  rw [if_pos hj]
  generalize (ofSwaps P.get W.c)⁻¹ j = y
  by_cases c : i < R
  · have e := ech_lt (q := ofSwaps P.get W.c) c
    rw [if_pos (by omega), if_pos e, if_pos c]
  · rw [ech_ge (by omega), if_neg c]
    simp [c]

lemma getEchelonFormIn_tile_lower (jk : ℕ → ℕ → ℕ) (d : Diag) (h : On m0 m W f) {R : ℕ} (hRM : R ≤ W.r) (hRN : R ≤ W.c) (hP : P.len = W.r)
    (hp : ∀ i < W.r, P.get i < W.r) :
    Run (getEchelonFormIn jk .tile .lower d W.r W.c R P W.p W.ld) m (fun _ m' => On m0 m' W (fun i j =>
      if j < R then tri .lower d f ((ofSwaps P.get W.r)⁻¹ i) (ech (ofSwaps P.get W.r) R j) else 0)) := by
  unfold getEchelonFormIn
  rw [if_neg (by simp), Run_bind]
  refine (getTriangularIn_lower d h hRM hRN).mono (fun _ m1 h1 => ?_)
  simp only []
  rw [Run_bind]
  refine (rowsYes_on h1 le_rfl le_rfl hP.ge hp).mono (fun _ m2 h2 => ?_)
  refine (applyLPerm_cols jk h2 hRN le_rfl hRM hP hp).mono (fun _ m3 h3 => h3.congr (fun i hi j hj => ?_))
  rw [if_pos hi]
  generalize (ofSwaps P.get W.r)⁻¹ i = y
  by_cases c : j < R
  · have e := ech_lt (q := ofSwaps P.get W.r) c
    rw [if_pos (by omega), if_pos e, if_pos c]
  · rw [ech_ge (by omega), if_neg c]
    simp [c]

lemma unitAt_on (d : Diag) {V : ℕ → ℕ → K} (h : On m0 m W V) {i j : ℕ} (hi : i < W.r) (hj : j < W.c) :
    Run (unitAt d (W.adr i j)) m (fun _ m' => On m0 m' W (upd i j 1 1 (fun _ _ => match d with | .unit => 1 | .nonUnit => V i j) V)) := by
  cases d with
  | unit => exact storeAt_on h 1 hi hj
  | nonUnit =>
    simp only [unitAt, Run_pure]
    refine h.congr (fun a ha b hb => ?_)
    simp only [upd]
    split_ifs with c
    · obtain rfl : i = a := (by omega)
      obtain rfl : j = b := (by omega)
      rfl
    · rfl

lemma getEchelonFormIn_slab_upper (jk : ℕ → ℕ → ℕ) (d : Diag) (h : On m0 m W f) {R : ℕ} (hR : R ≤ W.r) (hP : R ≤ P.len)
    (hp : ∀ i < R, P.get i < W.c) :
    Run (getEchelonFormIn jk .slab .upper d W.r W.c R P W.p W.ld) m (fun _ m' => On m0 m' W (fun i j =>
      if i < R then echRow d f P.get i j else 0)) := by
  unfold getEchelonFormIn
  rw [if_pos (by simp)]
  simp only []
  rw [Run_bind]
  refine (Run_loop (fun k m' => On m0 m' W (fun i j => if i < k then echRow d f P.get i j else f i j)) ?_ ?_).mono ?_
  · exact h.congr (fun i hi j hj => by rw [if_neg (by omega)])
  · intro i m1 hi h1
    have hpi := hp i hi
    rw [Run_bind, Run_liftE, Ok_rd]
    refine ⟨by omega, ?_⟩
    generalize hpe : P.get i = piv at hpi ⊢
    rw [Run_bind]
    have t0 := zeroRow_on h1 (row := i) (c := 0) (n := piv) (by omega) (by omega)
    refine t0.mono (fun _ m2 h2 => ?_)
    refine (unitAt_on d h2 (i := i) (j := piv) (by omega) hpi).mono (fun _ m3 h3 => h3.congr (fun a ha b hb => ?_))
    by_cases c : a = i
    · subst c
      simp only [upd, echRow, hpe]
      cases d <;> simp only [] <;> split_ifs <;> first | rfl | (exfalso; omega) | (subst_vars; rfl) | (congr 1; omega)
    · simp only [upd]
      rw [if_neg (by omega), if_neg (by omega)]
      split_ifs <;> first | rfl | (exfalso; omega)
  · rintro - m1 h1
    refine (fzero_on h1 R 0 (W.r - R) W.c (by omega) (by omega) rfl).mono (fun _ m2 h2 => h2.congr (fun a ha b hb => ?_))
    simp only [upd]
    split_ifs <;> first | rfl | (exfalso; omega)

lemma getEchelonFormIn_slab_lower (jk : ℕ → ℕ → ℕ) (d : Diag) (h : On m0 m W f) {R : ℕ} (hR : R ≤ W.c) (hP : R ≤ P.len)
    (hp : ∀ i < R, P.get i < W.r) :
    Run (getEchelonFormIn jk .slab .lower d W.r W.c R P W.p W.ld) m (fun _ m' => On m0 m' W (fun i j =>
      if j < R then echRow d (fun a b => f b a) P.get j i else 0)) := by
  unfold getEchelonFormIn
  rw [if_pos (by simp)]
  simp only []
  rw [Run_bind]
  refine (Run_loop (fun k m' => On m0 m' W (fun i j => if j < k then echRow d (fun a b => f b a) P.get j i else f i j)) ?_ ?_).mono ?_
  · exact h.congr (fun i hi j hj => by rw [if_neg (by omega)])
  · intro i m1 hi h1
    have hpi := hp i hi
    rw [Run_bind, Run_liftE, Ok_rd]
    refine ⟨by omega, ?_⟩
    generalize hpe : P.get i = piv at hpi ⊢
    rw [Run_bind]
    have t0 := zeroCol_on h1 (row := 0) (c := i) (n := piv) (by omega) (by omega)
    simp only [Win.adr, Nat.zero_mul, Nat.add_zero] at t0
    refine t0.mono (fun _ m2 h2 => ?_)
    rw [show W.p + i + piv * W.ld = W.adr piv i by simp only [Win.adr]; ring]
    refine (unitAt_on d h2 (i := piv) (j := i) hpi (by omega)).mono (fun _ m3 h3 => h3.congr (fun b hb a ha => ?_))
    by_cases c : a = i
    · subst c
      simp only [upd, echRow, hpe]
      cases d <;> simp only [] <;> split_ifs <;> first | rfl | (exfalso; omega) | (subst_vars; rfl) | (congr 1; omega)
    · simp only [upd]
      rw [if_neg (by omega), if_neg (by omega)]
      split_ifs <;> first | rfl | (exfalso; omega)
  · rintro - m1 h1
    refine (fzero_on (B := W.p + R) h1 0 R W.r (W.c - R) (by omega) (by omega) (by simp only [Win.adr]; omega)).mono
      (fun _ m2 h2 => h2.congr (fun a ha b hb => ?_))
    simp only [upd]
    split_ifs <;> first | rfl | (exfalso; omega)

lemma getReducedEchelonFormIn_upper (jk : ℕ → ℕ → ℕ) (tag : EchTag) (h : On m0 m W f) {R : ℕ} (hRM : R ≤ W.r) (hRN : R ≤ W.c)
    (hP : (if tag = .slab then R else W.c) ≤ P.len) (hP' : tag ≠ .slab → P.len = W.c)
    (hp : ∀ i < (if tag = .slab then R else W.c), P.get i < W.c) :
    Run (getReducedEchelonFormIn jk tag .upper W.r W.c R P W.p W.ld) m (fun _ m' => On m0 m' W (fun i j =>
      if i < R then reducedOf 0 0 R f (ordOf (tag ≠ .slab) (ofSwaps P.get W.c) R i) ((ofSwaps P.get (if tag = .slab then R else W.c))⁻¹ j)
        else 0)) := by
  have hmx : (if tag = .slab then R else W.c) ≤ W.c := by split_ifs <;> omega
  unfold getReducedEchelonFormIn
  rw [Run_bind]
  refine (fidentity_on (B := W.p) h 0 0 R R 1 (by omega) (by omega) (by simp [Win.adr])).mono (fun _ m1 h1 => ?_)
  simp only []
  have h2 : On m0 m1 W (fun i j => if i < R then reducedOf 0 0 R f i j else f i j) := h1.congr (fun i hi j hj => by
    simp only [upd, reducedOf, Nat.zero_add, Nat.sub_zero]
    split_ifs <;> first | rfl | (exfalso; omega))
  rw [Run_bind]
  refine (colsNo_on h2 hmx hRM hP (fun i hi => hp i hi)).mono (fun _ m3 h3 => ?_)
  generalize (ofSwaps P.get (if tag = .slab then R else W.c))⁻¹ = τ at h3 ⊢
  rw [Run_bind]
  refine (fzero_on h3 R 0 (W.r - R) W.c (by omega) (by omega) rfl).mono (fun _ m4 h4 => ?_)
  have h4 : On m0 m4 W (fun i j => if i < R then reducedOf 0 0 R f i (τ j) else 0) := h4.congr (fun a ha b hb => by
    simp only [upd]
    split_ifs <;> first | rfl | (exfalso; omega))
  by_cases c : tag = .slab
  · rw [if_neg (by simp [c]), Run_pure]
    exact h4.congr (fun i hi j hj => by rw [ordOf_neg (by simpa using c)])
  · have c' : tag = .tile ∨ tag = .gjTile := by cases tag <;> simp_all
    rw [if_pos c']
    rw [if_neg c] at hp
    refine (applyLPerm_rows jk h4 hRM le_rfl hRN (hP' c) hp).mono (fun _ m5 h5 => h5.congr (fun i hi j hj => ?_))
    rw [if_pos hj, ordOf_pos (by simpa using c)]
    by_cases ci : i < R
    · rw [if_pos (ech_lt ci), if_pos ci]
    · rw [ech_ge (by omega)]

lemma getReducedEchelonFormIn_lower (jk : ℕ → ℕ → ℕ) (tag : EchTag) (h : On m0 m W f) {R : ℕ} (hRM : R ≤ W.r) (hRN : R ≤ W.c)
    (hP : (if tag = .slab then R else W.r) ≤ P.len) (hP' : tag ≠ .slab → P.len = W.r)
    (hp : ∀ i < (if tag = .slab then R else W.r), P.get i < W.r) :
    Run (getReducedEchelonFormIn jk tag .lower W.r W.c R P W.p W.ld) m (fun _ m' => On m0 m' W (fun i j =>
      if j < R then reducedOf 0 0 R (fun a b => f b a) (ordOf (tag ≠ .slab) (ofSwaps P.get W.r) R j)
          ((ofSwaps P.get (if tag = .slab then R else W.r))⁻¹ i) else 0)) := by
  have hmx : (if tag = .slab then R else W.r) ≤ W.r := by split_ifs <;> omega
  unfold getReducedEchelonFormIn
  rw [Run_bind]
  refine (fidentity_on (B := W.p) h 0 0 R R 1 (by omega) (by omega) (by simp [Win.adr])).mono (fun _ m1 h1 => ?_)
  simp only []
  have h2 : On m0 m1 W (fun i j => if j < R then reducedOf 0 0 R (fun a b => f b a) j i else f i j) := h1.congr (fun i hi j hj => by
    simp only [upd, reducedOf, Nat.zero_add, Nat.sub_zero]
    split_ifs <;> first | rfl | (exfalso; omega))
  rw [Run_bind]
  refine (rowsYes_on h2 hmx hRN hP (fun i hi => hp i hi)).mono (fun _ m3 h3 => ?_)
  generalize (ofSwaps P.get (if tag = .slab then R else W.r))⁻¹ = τ at h3 ⊢
  rw [Run_bind]
  refine (fzero_on (B := W.p + R) h3 0 R W.r (W.c - R) (by omega) (by omega) (by simp only [Win.adr]; omega)).mono (fun _ m4 h4 => ?_)
  have h4 : On m0 m4 W (fun i j => if j < R then reducedOf 0 0 R (fun a b => f b a) j (τ i) else 0) := h4.congr (fun a ha b hb => by
    simp only [upd]
    split_ifs <;> first | rfl | (exfalso; omega))
  by_cases c : tag = .slab
  · rw [if_neg (by simp [c]), Run_pure]
    exact h4.congr (fun i hi j hj => by rw [ordOf_neg (by simpa using c)])
  · rw [if_pos c]
    rw [if_neg c] at hp
    refine (applyLPerm_cols jk h4 hRN le_rfl hRM (hP' c) hp).mono (fun _ m5 h5 => h5.congr (fun i hi j hj => ?_))
    rw [if_pos hi, ordOf_pos (by simpa using c)]
    by_cases ci : j < R
    · rw [if_pos (ech_lt ci), if_pos ci]
    · rw [ech_ge (by omega)]

end Verif.FF
