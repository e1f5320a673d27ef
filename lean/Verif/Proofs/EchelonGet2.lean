import Verif.Proofs.EchelonGet

/-!
# The accessors: permutations and the forms themselves
-/

namespace Verif.FF

open Finset Verif.Spec Verif.Spec.Perm Verif.Pluq Verif.Perm

variable {K : Type} [Field K] [DecidableEq K] {m0 m : Mem K} {S W : Win} {V U f : ℕ → ℕ → K} {P Q : Arr ℕ}

lemma rowsNo_on (h : On m0 m W V) {n c : ℕ} (hn : n ≤ W.r) (hc : c ≤ W.c) (hP : n ≤ P.len) (hp : ∀ i < n, P.get i < W.r) :
    Run (applyP .left .no c 0 n W.p W.ld P) m (fun _ m' => On m0 m' W (fun i j => if j < c then V (ofSwaps P.get n i) j else V i j)) := by
  have t := applyP_row (ibeg := 0) (iend := n) (i0 := 0) (j0 := 0) (r := W.r) (c := c) .no h (by omega) (by omega) hn hP hp
  simp only [appliedPerm, Nat.sub_zero, swapsFrom_zero, Win.adr, Nat.zero_mul, Nat.add_zero] at t
  exact t.mono (fun _ m' h' => h'.congr (fun i hi j hj => permRows_zero hi))

lemma rowsYes_on (h : On m0 m W V) {n c : ℕ} (hn : n ≤ W.r) (hc : c ≤ W.c) (hP : n ≤ P.len) (hp : ∀ i < n, P.get i < W.r) :
    Run (applyP .left .yes c 0 n W.p W.ld P) m
      (fun _ m' => On m0 m' W (fun i j => if j < c then V ((ofSwaps P.get n)⁻¹ i) j else V i j)) := by
  have t := applyP_row (ibeg := 0) (iend := n) (i0 := 0) (j0 := 0) (r := W.r) (c := c) .yes h (by omega) (by omega) hn hP hp
  have e := swapsDown_eq P.get 0 n
  rw [Nat.zero_add, swapsFrom_zero] at e
  simp only [appliedPerm, Nat.sub_zero, e, Win.adr, Nat.zero_mul, Nat.add_zero] at t
  exact t.mono (fun _ m' h' => h'.congr (fun i hi j hj => permRows_zero hi))

lemma colsNo_on (h : On m0 m W V) {n r : ℕ} (hn : n ≤ W.c) (hr : r ≤ W.r) (hP : n ≤ P.len) (hp : ∀ i < n, P.get i < W.c) :
    Run (applyP .right .no r 0 n W.p W.ld P) m
      (fun _ m' => On m0 m' W (fun i j => if i < r then V i ((ofSwaps P.get n)⁻¹ j) else V i j)) := by
  have t := applyP_col (ibeg := 0) (iend := n) (i0 := 0) (j0 := 0) (r := r) (c := W.c) .no h (by omega) (by omega) hn hP hp
  have e := swapsDown_eq P.get 0 n
  rw [Nat.zero_add, swapsFrom_zero] at e
  simp only [appliedPerm, Nat.sub_zero, e, Win.adr, Nat.zero_mul, Nat.add_zero] at t
  exact t.mono (fun _ m' h' => h'.congr (fun i hi j hj => permCols_zero hj))

lemma colsYes_on (h : On m0 m W V) {n r : ℕ} (hn : n ≤ W.c) (hr : r ≤ W.r) (hP : n ≤ P.len) (hp : ∀ i < n, P.get i < W.c) :
    Run (applyP .right .yes r 0 n W.p W.ld P) m (fun _ m' => On m0 m' W (fun i j => if i < r then V i (ofSwaps P.get n j) else V i j)) := by
  have t := applyP_col (ibeg := 0) (iend := n) (i0 := 0) (j0 := 0) (r := r) (c := W.c) .yes h (by omega) (by omega) hn hP hp
  simp only [appliedPerm, Nat.sub_zero, swapsFrom_zero, Win.adr, Nat.zero_mul, Nat.add_zero] at t
  exact t.mono (fun _ m' h' => h'.congr (fun i hi j hj => permCols_zero hj))

/-- the rows in the order of the pivots -/
lemma applyLPerm_rows (jk : ℕ → ℕ → ℕ) (h : On m0 m W V) {n R c : ℕ} (hR : R ≤ W.r) (hc : c ≤ W.c) (hRn : R ≤ n) (hP : P.len = n)
    (hp : ∀ i < n, P.get i < n) :
    Run (applyLPerm jk .left c n R W.p W.ld P) m
      (fun _ m' => On m0 m' W (fun i j => if j < c then V (ech (ofSwaps P.get n) R i) j else V i j)) := by
  unfold applyLPerm
  rw [Run_bind, Run_liftE]
  refine (pluqToEchelonPermutation_spec jk hP hp hRn rfl).mono ?_
  intro L ⟨l1, l2, l3⟩
  refine (rowsNo_on (P := L) h hR hc l1.ge (fun i hi => (l2 i hi).trans_le hR)).mono (fun _ m' h' => h'.congr (fun i hi j hj => ?_))
  rw [l3]

lemma applyLPerm_cols (jk : ℕ → ℕ → ℕ) (h : On m0 m W V) {n R r : ℕ} (hR : R ≤ W.c) (hr : r ≤ W.r) (hRn : R ≤ n) (hP : P.len = n)
    (hp : ∀ i < n, P.get i < n) :
    Run (applyLPerm jk .right r n R W.p W.ld P) m
      (fun _ m' => On m0 m' W (fun i j => if i < r then V i (ech (ofSwaps P.get n) R j) else V i j)) := by
  unfold applyLPerm
  rw [Run_bind, Run_liftE]
  refine (pluqToEchelonPermutation_spec jk hP hp hRn rfl).mono ?_
  intro L ⟨l1, l2, l3⟩
  refine (colsYes_on (P := L) h hR hr l1.ge (fun i hi => (l2 i hi).trans_le hR)).mono (fun _ m' h' => h'.congr (fun i hi j hj => ?_))
  rw [l3]

lemma swaps_inv_lt {n N : ℕ} (h : ∀ k < n, P.get k < N) (hn : n ≤ N) {x : ℕ} (hx : x < N) : (ofSwaps P.get n)⁻¹ x < N := by
  obtain ⟨s, hs⟩ := perm_surj (swaps_perm h hn)
  obtain ⟨a, b⟩ := hs x hx
  rw [← b]
  simpa using a

/-! ### echelon forms -/

/-- row `i` of an echelon form whose pivots are in the columns `q i`, with the pivot one or stored -/
def echRow (d : Diag) (f : ℕ → ℕ → K) (q : ℕ → ℕ) (i j : ℕ) : K :=
  if j < q i then 0 else if j = q i then (match d with | .unit => 1 | .nonUnit => f i j) else f i j

lemma echRow_unit (f : ℕ → ℕ → K) (q : ℕ → ℕ) : echRow .unit f q = slabRow f q := rfl

/-- tile, row echelon form, out of place -/
lemma getEchelonForm_tile_upper (jk : ℕ → ℕ → ℕ) (d : Diag) (onz : Bool) (h : On m0 m W U) (hS : Src m0 S f) (hd : S.Disj W) {M R : ℕ}
    (hR : R ≤ S.r) (hN : S.c = W.c) (hRN : R ≤ W.c) (hRM : R ≤ M) (hRW : (if onz then R else M) ≤ W.r) (hP : P.len = W.c)
    (hp : ∀ i < W.c, P.get i < W.c) :
    Run (getEchelonForm jk .tile .upper d M W.c R P S.p S.ld W.p W.ld onz) m (fun _ m' => On m0 m' W (fun i j =>
      if i < R then tri .upper d f (ech (ofSwaps P.get W.c) R i) ((ofSwaps P.get W.c)⁻¹ j) else if onz = false ∧ i < M then 0 else U i j)) := by
  have hRW' : R ≤ W.r := by split_ifs at hRW <;> omega
  unfold getEchelonForm
  rw [if_neg (by simp), Run_bind]
  refine (getTriangular_upper d onz h hS hd hR hRN hN.ge le_rfl hRM hRW).mono (fun _ m1 h1 => ?_)
  simp only []
  rw [Run_bind]
  refine (colsNo_on h1 le_rfl hRW hP.ge hp).mono (fun _ m2 h2 => ?_)
  refine (applyLPerm_rows jk h2 hRW' le_rfl hRN hP hp).mono (fun _ m3 h3 => h3.congr (fun i hi j hj => ?_))
  have hj' := swaps_inv_lt hp le_rfl hj
  rw [if_pos hj]
  generalize (ofSwaps P.get W.c)⁻¹ j = y at hj' ⊢
  by_cases c : i < R
  · have e := ech_lt (q := ofSwaps P.get W.c) c
    have : ech (ofSwaps P.get W.c) R i < (if onz then R else M) := by split_ifs <;> omega
    rw [if_pos this, if_pos ⟨e, hj'⟩, if_pos c]
  · rw [ech_ge (by omega), if_neg c]
    cases onz
    · by_cases c' : i < M
      · simp [c, c', hj']
      · simp [c, c']
    · simp [c]

/-- tile, column echelon form, out of place -/
lemma getEchelonForm_tile_lower (jk : ℕ → ℕ → ℕ) (d : Diag) (onz : Bool) (h : On m0 m W U) (hS : Src m0 S f) (hd : S.Disj W) {N R : ℕ}
    (hR : R ≤ S.c) (hM : S.r = W.r) (hRM : R ≤ W.r) (hRN : R ≤ N) (hRW : (if onz then R else N) ≤ W.c) (hP : P.len = W.r)
    (hp : ∀ i < W.r, P.get i < W.r) :
    Run (getEchelonForm jk .tile .lower d W.r N R P S.p S.ld W.p W.ld onz) m (fun _ m' => On m0 m' W (fun i j =>
      if j < R then tri .lower d f ((ofSwaps P.get W.r)⁻¹ i) (ech (ofSwaps P.get W.r) R j) else if onz = false ∧ j < N then 0 else U i j)) := by
  have hRW' : R ≤ W.c := by split_ifs at hRW <;> omega
  unfold getEchelonForm
  rw [if_neg (by simp), Run_bind]
  refine (getTriangular_lower d onz h hS hd hM.ge hRM hRN hR le_rfl hRW).mono (fun _ m1 h1 => ?_)
  simp only []
  rw [Run_bind]
  refine (rowsYes_on h1 le_rfl hRW hP.ge hp).mono (fun _ m2 h2 => ?_)
  refine (applyLPerm_cols jk h2 hRW' le_rfl hRM hP hp).mono (fun _ m3 h3 => h3.congr (fun i hi j hj => ?_))
  have hi' := swaps_inv_lt hp le_rfl hi
  rw [if_pos hi]
  generalize (ofSwaps P.get W.r)⁻¹ i = y at hi' ⊢
  by_cases c : j < R
  · have e := ech_lt (q := ofSwaps P.get W.r) c
    have : ech (ofSwaps P.get W.r) R j < (if onz then R else N) := by split_ifs <;> omega
    rw [if_pos this, if_pos ⟨hi', e⟩, if_pos c]
  · rw [ech_ge (by omega), if_neg c]
    cases onz
    · by_cases c' : j < N
      · simp [c, c', hi']
      · simp [c, c']
    · simp [c]

/-- slab, row echelon form, out of place -/
lemma getEchelonForm_slab_upper (jk : ℕ → ℕ → ℕ) (d : Diag) (onz : Bool) (h : On m0 m W U) (hS : Src m0 S f) (hd : S.Disj W) {M R : ℕ}
    (hR : R ≤ S.r) (hN : S.c = W.c) (hRM : R ≤ M) (hRW : (if onz then R else M) ≤ W.r) (hP : R ≤ P.len)
    (hp : ∀ i < R, P.get i < W.c) :
    Run (getEchelonForm jk .slab .upper d M W.c R P S.p S.ld W.p W.ld onz) m (fun _ m' => On m0 m' W (fun i j =>
      if i < R then echRow d f P.get i j else if onz = false ∧ i < M then 0 else U i j)) := by
  have hRW' : R ≤ W.r := by split_ifs at hRW <;> omega
  unfold getEchelonForm
  rw [if_pos (by simp)]
  simp only []
  rw [Run_bind]
  refine (Run_loop (fun k m' => On m0 m' W (fun i j => if i < k then echRow d f P.get i j else U i j)) ?_ ?_).mono ?_
  · exact h.congr (fun i hi j hj => by rw [if_neg (by omega)])
  · intro i m1 hi h1
    have hpi := hp i hi
    unfold echRowTo
    rw [Run_bind, Run_liftE, Ok_rd]
    refine ⟨by omega, ?_⟩
    generalize hpe : P.get i = piv at hpi ⊢
    rw [Run_bind]
    have t0 := zeroRow_on h1 (row := i) (c := 0) (n := piv) (by omega) (by omega)
    refine t0.mono (fun _ m2 h2 => ?_)
    cases d
    case unit =>
      simp only []
      rw [Run_bind]
      have t1 := storeAt_on h2 (i := i) (j := piv) 1 (by omega) (by omega)
      refine t1.mono (fun _ m3 h3 => ?_)
      have t2 := copyRow_on h3 hS hd (a := i) (b := piv + 1) (i := i) (j := piv + 1) (n := W.c - piv - 1) (by omega) (by omega) (by omega) (by omega)
      refine t2.mono (fun _ m4 h4 => h4.congr (fun a ha b hb => ?_))
      by_cases c : a = i
      · subst c
        simp only [upd, echRow, hpe]
        split_ifs <;> first | rfl | (exfalso; omega) | (congr 1; omega)
      · simp only [upd]
        rw [if_neg (by omega), if_neg (by omega), if_neg (by omega)]
        split_ifs <;> first | rfl | (exfalso; omega)
    case nonUnit =>
      have t2 := copyRow_on h2 hS hd (a := i) (b := piv) (i := i) (j := piv) (n := W.c - piv) (by omega) (by omega) (by omega) (by omega)
      refine t2.mono (fun _ m4 h4 => h4.congr (fun a ha b hb => ?_))
      by_cases c : a = i
      · subst c
        simp only [upd, echRow, hpe]
        split_ifs <;> first | rfl | (exfalso; omega) | (congr 1; omega)
      · simp only [upd]
        rw [if_neg (by omega), if_neg (by omega)]
        split_ifs <;> first | rfl | (exfalso; omega)
  · rintro - m1 h1
    cases onz
    · have t := fzero_on h1 R 0 (M - R) W.c (by simp at hRW; omega) (by omega) rfl
      refine t.mono (fun _ m2 h2 => h2.congr (fun a ha b hb => ?_))
      simp only [upd, true_and]
      split_ifs <;> first | rfl | (exfalso; omega)
    · rw [if_pos rfl, Run_pure]
      exact h1.congr (fun i hi j hj => by simp)

/-- slab, column echelon form, out of place -/
lemma getEchelonForm_slab_lower (jk : ℕ → ℕ → ℕ) (d : Diag) (onz : Bool) (h : On m0 m W U) (hS : Src m0 S f) (hd : S.Disj W) {N R : ℕ}
    (hR : R ≤ S.c) (hM : S.r = W.r) (hRN : R ≤ N) (hRW : (if onz then R else N) ≤ W.c) (hP : R ≤ P.len)
    (hp : ∀ i < R, P.get i < W.r) :
    Run (getEchelonForm jk .slab .lower d W.r N R P S.p S.ld W.p W.ld onz) m (fun _ m' => On m0 m' W (fun i j =>
      if j < R then echRow d (fun a b => f b a) P.get j i else if onz = false ∧ j < N then 0 else U i j)) := by
  have hRW' : R ≤ W.c := by split_ifs at hRW <;> omega
  unfold getEchelonForm
  rw [if_pos (by simp)]
  simp only []
  rw [Run_bind]
  refine (Run_loop (fun k m' => On m0 m' W (fun i j => if j < k then echRow d (fun a b => f b a) P.get j i else U i j)) ?_ ?_).mono ?_
  · exact h.congr (fun i hi j hj => by rw [if_neg (by omega)])
  · intro i m1 hi h1
    have hpi := hp i hi
    unfold echColTo
    rw [Run_bind, Run_liftE, Ok_rd]
    refine ⟨by omega, ?_⟩
    generalize hpe : P.get i = piv at hpi ⊢
    rw [Run_bind]
    have t0 := zeroCol_on h1 (row := 0) (c := i) (n := piv) (by omega) (by omega)
    simp only [Win.adr, Nat.zero_mul, Nat.add_zero] at t0
    refine t0.mono (fun _ m2 h2 => ?_)
    have ea : ∀ (T : Win) (t : ℕ), T.p + i + t * T.ld = T.adr t i := fun T t => by simp only [Win.adr]; ring
    simp only [ea]
    cases d
    case unit =>
      simp only []
      rw [Run_bind]
      have t1 := storeAt_on h2 (i := piv) (j := i) 1 (by omega) (by omega)
      refine t1.mono (fun _ m3 h3 => ?_)
      have t2 := copyCol_on h3 hS hd (a := piv + 1) (b := i) (i := piv + 1) (j := i) (n := W.r - piv - 1) (by omega) (by omega) (by omega) (by omega)
      refine t2.mono (fun _ m4 h4 => h4.congr (fun b hb a ha => ?_))
      by_cases c : a = i
      · subst c
        simp only [upd, echRow, hpe]
        split_ifs <;> first | rfl | (exfalso; omega) | (congr 1; omega)
      · simp only [upd]
        rw [if_neg (by omega), if_neg (by omega), if_neg (by omega)]
        split_ifs <;> first | rfl | (exfalso; omega)
    case nonUnit =>
      simp only []
      have t2 := copyCol_on h2 hS hd (a := piv) (b := i) (i := piv) (j := i) (n := W.r - piv) (by omega) (by omega) (by omega) (by omega)
      refine t2.mono (fun _ m4 h4 => h4.congr (fun b hb a ha => ?_))
      by_cases c : a = i
      · subst c
        simp only [upd, echRow, hpe]
        split_ifs <;> first | rfl | (exfalso; omega) | (congr 1; omega)
      · simp only [upd]
        rw [if_neg (by omega), if_neg (by omega)]
        split_ifs <;> first | rfl | (exfalso; omega)
  · rintro - m1 h1
    cases onz
    · have t := fzero_on (B := W.p + R) h1 0 R W.r (N - R) (by omega) (by simp at hRW; omega) (by simp only [Win.adr]; omega)
      refine t.mono (fun _ m2 h2 => h2.congr (fun a ha b hb => ?_))
      simp only [upd, true_and]
      split_ifs <;> first | rfl | (exfalso; omega)
    · rw [if_pos rfl, Run_pure]
      exact h1.congr (fun i hi j hj => by simp)

/-! ### transformations -/

/-- the transformation stored below the diagonal -/
def trans (d : Diag) (R : ℕ) (f : ℕ → ℕ → K) (i k : ℕ) : K := if k < R then tri .lower d f i k else if i = k then 1 else 0

lemma trans_nonUnit (R : ℕ) (f : ℕ → ℕ → K) : trans .nonUnit R f = rowTransOf R f := rfl

/-- the order of the rows -/
def ordOf (b : Bool) (q : Equiv.Perm ℕ) (R i : ℕ) : ℕ := if b then ech q R i else i

lemma ordOf_pos {b : Bool} (h : b = true) {q : Equiv.Perm ℕ} {R i : ℕ} : ordOf b q R i = ech q R i := by rw [ordOf, if_pos h]
lemma ordOf_neg {b : Bool} (h : b = false) {q : Equiv.Perm ℕ} {R i : ℕ} : ordOf b q R i = i := by rw [ordOf, if_neg (by simp [h])]

lemma tri_tr (d : Diag) (f : ℕ → ℕ → K) (i j : ℕ) : tri .upper d f i j = tri .lower d (fun a b => f b a) j i := by
  unfold tri
  by_cases e : i = j
  · subst e; rfl
  · rw [if_neg e, if_neg (Ne.symm e)]

/-- transformation of a row echelon form -/
lemma getEchelonTransform_upper (jk : ℕ → ℕ → ℕ) (tag : EchTag) (d : Diag) (h : On m0 m W U) (hS : Src m0 S f) (hd : S.Disj W) {N R : ℕ}
    (hM : S.r = W.r) (hW : W.c = W.r) (hRM : R ≤ W.r) (hRN : R ≤ N) (hRS : R ≤ S.c) (hP : (if tag = .tile then W.r else R) ≤ P.len)
    (hp : ∀ i < (if tag = .tile then W.r else R), P.get i < W.r) (hQ : tag = .tile → Q.len = N ∧ ∀ i < N, Q.get i < N) :
    Run (getEchelonTransform jk tag .upper d W.r N R P Q S.p S.ld W.p W.ld) m (fun _ m' => On m0 m' W (fun i k =>
      trans (otherDiag d) R f (ordOf (tag = .tile) (ofSwaps Q.get N) R i) ((ofSwaps P.get (if tag = .tile then W.r else R))⁻¹ k))) := by
  have hmx : (if tag = .tile then W.r else R) ≤ W.r := by split_ifs <;> omega
  unfold getEchelonTransform
  simp only []
  rw [Run_bind]
  refine (getTriangular_lower _ true h hS hd hM.ge hRM hRN hRS le_rfl (by simp; omega)).mono (fun _ m1 h1 => ?_)
  rw [Run_bind]
  refine (fidentity_on h1 R R (W.r - R) (W.r - R) 1 (by omega) (by omega) rfl).mono (fun _ m2 h2 => ?_)
  rw [Run_bind]
  refine (fzero_on (B := W.p + R) h2 0 R R (W.r - R) (by omega) (by omega) (by simp only [Win.adr]; omega)).mono (fun _ m3 h3 => ?_)
  have h3 : On m0 m3 W (trans (otherDiag d) R f) := h3.congr (fun i hi j hj => by
    simp only [upd, trans, Bool.true_eq_false, false_and, if_false]
    split_ifs <;> first | rfl | (exfalso; omega))
  rw [Run_bind]
  refine (colsNo_on h3 (by omega) le_rfl hP (fun i hi => by rw [hW]; exact hp i hi)).mono (fun _ m4 h4 => ?_)
  generalize (ofSwaps P.get (if tag = .tile then W.r else R))⁻¹ = τ at h4 ⊢
  by_cases c : tag = .tile
  · rw [if_pos c]
    obtain ⟨hQ1, hQ2⟩ := hQ c
    refine (applyLPerm_rows jk h4 hRM (by omega) hRN hQ1 hQ2).mono (fun _ m5 h5 => h5.congr (fun i hi j hj => ?_))
    have := (ech_perm (ofSwaps Q.get N) hRM).1 i hi
    rw [if_pos (by omega), if_pos this, ordOf_pos (by simpa using c)]
  · rw [if_neg c, Run_pure]
    exact h4.congr (fun i hi j hj => by rw [if_pos hi, ordOf_neg (by simpa using c)])

/-- transformation of a column echelon form -/
lemma getEchelonTransform_lower (jk : ℕ → ℕ → ℕ) (tag : EchTag) (d : Diag) (h : On m0 m W U) (hS : Src m0 S f) (hd : S.Disj W) {M R : ℕ}
    (hN : S.c = W.r) (hW : W.c = W.r) (hRN : R ≤ W.r) (hRM : R ≤ M) (hRS : R ≤ S.r) (hP : (if tag = .tile then W.r else R) ≤ P.len)
    (hp : ∀ i < (if tag = .tile then W.r else R), P.get i < W.r) (hQ : tag = .tile → Q.len = M ∧ ∀ i < M, Q.get i < M) :
    Run (getEchelonTransform jk tag .lower d M W.r R P Q S.p S.ld W.p W.ld) m (fun _ m' => On m0 m' W (fun k i =>
      trans (otherDiag d) R (fun a b => f b a) (ordOf (tag = .tile) (ofSwaps Q.get M) R i)
        ((ofSwaps P.get (if tag = .tile then W.r else R))⁻¹ k))) := by
  have hmx : (if tag = .tile then W.r else R) ≤ W.r := by split_ifs <;> omega
  unfold getEchelonTransform
  simp only []
  rw [Run_bind]
  refine (getTriangular_upper _ true h hS hd hRS hRN hN.ge hW.ge hRM (by simp; omega)).mono (fun _ m1 h1 => ?_)
  rw [Run_bind]
  refine (fidentity_on h1 R R (W.r - R) (W.r - R) 1 (by omega) (by omega) rfl).mono (fun _ m2 h2 => ?_)
  rw [Run_bind]
  refine (fzero_on h2 R 0 (W.r - R) R (by omega) (by omega) rfl).mono (fun _ m3 h3 => ?_)
  have h3 : On m0 m3 W (fun i j => trans (otherDiag d) R (fun a b => f b a) j i) := h3.congr (fun i hi j hj => by
    simp only [upd, trans, Bool.true_eq_false, false_and, if_false, tri_tr]
    split_ifs <;> first | rfl | (exfalso; omega))
  rw [Run_bind]
  refine (rowsYes_on h3 (by omega) hW.ge hP (fun i hi => hp i hi)).mono (fun _ m4 h4 => ?_)
  generalize (ofSwaps P.get (if tag = .tile then W.r else R))⁻¹ = τ at h4 ⊢
  by_cases c : tag = .tile
  · rw [if_pos c]
    obtain ⟨hQ1, hQ2⟩ := hQ c
    refine (applyLPerm_cols jk h4 (by omega) le_rfl hRM hQ1 hQ2).mono (fun _ m5 h5 => h5.congr (fun i hi j hj => ?_))
    have := (ech_perm (ofSwaps Q.get M) (hRN.trans hW.ge)).1 j hj
    rw [if_pos hi, if_pos (by omega), ordOf_pos (by simpa using c)]
  · rw [if_neg c, Run_pure]
    exact h4.congr (fun i hi j hj => by rw [if_pos (by omega), ordOf_neg (by simpa using c)])

/-! ### reduced forms -/

/-- reduced row echelon form, out of place -/
lemma getReducedEchelonForm_upper (jk : ℕ → ℕ → ℕ) (tag : EchTag) (onz : Bool) (h : On m0 m W U) (hS : Src m0 S f) (hd : S.Disj W) {M R : ℕ}
    (hR : R ≤ S.r) (hN : S.c = W.c) (hRN : R ≤ W.c) (hRM : R ≤ M) (hRW : (if onz then R else M) ≤ W.r)
    (hP : (if tag = .slab then R else W.c) ≤ P.len) (hP' : tag ≠ .slab → P.len = W.c)
    (hp : ∀ i < (if tag = .slab then R else W.c), P.get i < W.c) :
    Run (getReducedEchelonForm jk tag .upper M W.c R P S.p S.ld W.p W.ld onz) m (fun _ m' => On m0 m' W (fun i j =>
      if i < R then reducedOf 0 0 R f (ordOf (tag ≠ .slab) (ofSwaps P.get W.c) R i) ((ofSwaps P.get (if tag = .slab then R else W.c))⁻¹ j)
        else if onz = false ∧ i < M then 0 else U i j)) := by
  have hmx : (if tag = .slab then R else W.c) ≤ W.c := by split_ifs <;> omega
  have hRW' : R ≤ W.r := by split_ifs at hRW <;> omega
  unfold getReducedEchelonForm
  rw [Run_bind]
  refine (fidentity_on (B := W.p) h 0 0 R R 1 (by omega) (by omega) (by simp [Win.adr])).mono (fun _ m1 h1 => ?_)
  simp only []
  rw [Run_bind]
  refine (fassign_at (A := S.p + R) (B := W.p + R) h1 (hS.on h1 hd) hd 0 R 0 R R (W.c - R) (by omega) (by omega) (by omega) (by omega)
    (by simp only [Win.adr]; omega) (by simp only [Win.adr]; omega)).mono (fun _ m2 h2 => ?_)
  have h2 : On m0 m2 W (fun i j => if i < R then reducedOf 0 0 R f i j else U i j) := h2.congr (fun i hi j hj => by
    simp only [upd, reducedOf, blk, Nat.zero_add, Nat.sub_zero]
    split_ifs <;> first | rfl | (exfalso; omega) | (congr 1; omega))
  rw [Run_bind]
  refine (colsNo_on h2 hmx hRW' hP (fun i hi => hp i hi)).mono (fun _ m3 h3 => ?_)
  generalize (ofSwaps P.get (if tag = .slab then R else W.c))⁻¹ = τ at h3 ⊢
  rw [Run_bind]
  have t : Run (if onz then pure () else fzero (M - R) W.c (W.p + R * W.ld) W.ld) m3 (fun _ m' => On m0 m' W (fun i j =>
      if i < R then reducedOf 0 0 R f i (τ j) else if onz = false ∧ i < M then 0 else U i j)) := by
    cases onz
    · have t := fzero_on h3 R 0 (M - R) W.c (by simp at hRW; omega) (by omega) rfl
      refine t.mono (fun _ m2 h2 => h2.congr (fun a ha b hb => ?_))
      simp only [upd, true_and]
      split_ifs <;> first | rfl | (exfalso; omega)
    · rw [if_pos rfl, Run_pure]
      refine h3.congr (fun i hi j hj => ?_)
      simp only [Bool.true_eq_false, false_and, if_false]
      split_ifs <;> rfl
  refine t.mono (fun _ m4 h4 => ?_)
  by_cases c : tag = .slab
  · rw [if_neg (by simp [c]), Run_pure]
    exact h4.congr (fun i hi j hj => by rw [ordOf_neg (by simpa using c)])
  · have c' : tag = .tile ∨ tag = .gjTile := by cases tag <;> simp_all
    rw [if_pos c']
    rw [if_neg c] at hp
    refine (applyLPerm_rows jk h4 hRW' le_rfl hRN (hP' c) hp).mono (fun _ m5 h5 => h5.congr (fun i hi j hj => ?_))
    rw [if_pos hj, ordOf_pos (by simpa using c)]
    by_cases ci : i < R
    · rw [if_pos (ech_lt ci), if_pos ci]
    · rw [ech_ge (by omega)]

/-- reduced column echelon form, out of place -/
lemma getReducedEchelonForm_lower (jk : ℕ → ℕ → ℕ) (tag : EchTag) (onz : Bool) (h : On m0 m W U) (hS : Src m0 S f) (hd : S.Disj W) {N R : ℕ}
    (hR : R ≤ S.c) (hM : S.r = W.r) (hRM : R ≤ W.r) (hRN : R ≤ N) (hRW : (if onz then R else N) ≤ W.c)
    (hP : (if tag = .slab then R else W.r) ≤ P.len) (hP' : tag = .tile → P.len = W.r)
    (hp : ∀ i < (if tag = .slab then R else W.r), P.get i < W.r) :
    Run (getReducedEchelonForm jk tag .lower W.r N R P S.p S.ld W.p W.ld onz) m (fun _ m' => On m0 m' W (fun i j =>
      if j < R then reducedOf 0 0 R (fun a b => f b a) (ordOf (tag = .tile) (ofSwaps P.get W.r) R j)
          ((ofSwaps P.get (if tag = .slab then R else W.r))⁻¹ i)
        else if onz = false ∧ j < N then 0 else U i j)) := by
  have hmx : (if tag = .slab then R else W.r) ≤ W.r := by split_ifs <;> omega
  have hRW' : R ≤ W.c := by split_ifs at hRW <;> omega
  unfold getReducedEchelonForm
  rw [Run_bind]
  refine (fidentity_on (B := W.p) h 0 0 R R 1 (by omega) (by omega) (by simp [Win.adr])).mono (fun _ m1 h1 => ?_)
  simp only []
  rw [Run_bind]
  refine (fassign_at h1 (hS.on h1 hd) hd R 0 R 0 (W.r - R) R (by omega) (by omega) (by omega) (by omega) rfl rfl).mono (fun _ m2 h2 => ?_)
  have h2 : On m0 m2 W (fun i j => if j < R then reducedOf 0 0 R (fun a b => f b a) j i else U i j) := h2.congr (fun i hi j hj => by
    simp only [upd, reducedOf, blk, Nat.zero_add, Nat.sub_zero]
    split_ifs <;> first | rfl | (exfalso; omega) | (congr 1; omega))
  rw [Run_bind]
  refine (rowsYes_on h2 hmx hRW' hP (fun i hi => hp i hi)).mono (fun _ m3 h3 => ?_)
  generalize (ofSwaps P.get (if tag = .slab then R else W.r))⁻¹ = τ at h3 ⊢
  rw [Run_bind]
  have t : Run (if onz then pure () else fzero W.r (N - R) (W.p + R) W.ld) m3 (fun _ m' => On m0 m' W (fun i j =>
      if j < R then reducedOf 0 0 R (fun a b => f b a) j (τ i) else if onz = false ∧ j < N then 0 else U i j)) := by
    cases onz
    · have t := fzero_on (B := W.p + R) h3 0 R W.r (N - R) (by omega) (by simp at hRW; omega) (by simp only [Win.adr]; omega)
      refine t.mono (fun _ m2 h2 => h2.congr (fun a ha b hb => ?_))
      simp only [upd, true_and]
      split_ifs <;> first | rfl | (exfalso; omega)
    · rw [if_pos rfl, Run_pure]
      refine h3.congr (fun i hi j hj => ?_)
      simp only [Bool.true_eq_false, false_and, if_false]
      split_ifs <;> rfl
  refine t.mono (fun _ m4 h4 => ?_)
  by_cases c : tag = .tile
  · rw [if_pos c]
    rw [if_neg (by simp [c])] at hp
    refine (applyLPerm_cols jk h4 hRW' le_rfl hRM (hP' c) hp).mono (fun _ m5 h5 => h5.congr (fun i hi j hj => ?_))
    rw [if_pos hi, ordOf_pos (by simpa using c)]
    by_cases ci : j < R
    · rw [if_pos (ech_lt ci), if_pos ci]
    · rw [ech_ge (by omega)]
  · rw [if_neg c, Run_pure]
    exact h4.congr (fun i hi j hj => by rw [ordOf_neg (by simpa using c)])

/-- transformation of a reduced row echelon form -/
lemma getReducedEchelonTransform_upper (jk : ℕ → ℕ → ℕ) (tag : EchTag) (h : On m0 m W U) (hS : Src m0 S f) (hd : S.Disj W) {N R : ℕ}
    (hM : S.r = W.r) (hW : W.c = W.r) (hRM : R ≤ W.r) (hRN : R ≤ N) (hRS : R ≤ S.c) (hP : (if tag = .slab then R else W.r) ≤ P.len)
    (hp : ∀ i < (if tag = .slab then R else W.r), P.get i < W.r) (hQ : tag ≠ .slab → Q.len = N ∧ ∀ i < N, Q.get i < N) :
    Run (getReducedEchelonTransform jk tag .upper W.r N R P Q S.p S.ld W.p W.ld) m (fun _ m' => On m0 m' W (fun i k =>
      transOf 0 0 R f (ordOf (tag ≠ .slab) (ofSwaps Q.get N) R i) ((ofSwaps P.get (if tag = .slab then R else W.r))⁻¹ k))) := by
  have hmx : (if tag = .slab then R else W.r) ≤ W.r := by split_ifs <;> omega
  have emx : (if tag = .tile ∨ tag = .gjTile then W.r else R) = if tag = .slab then R else W.r := by cases tag <;> simp
  unfold getReducedEchelonTransform
  simp only []
  rw [Run_bind]
  refine (fidentity_on h R R (W.r - R) (W.r - R) 1 (by omega) (by omega) rfl).mono (fun _ m1 h1 => ?_)
  rw [Run_bind]
  refine (fassign_at (A := S.p) (B := W.p) h1 (hS.on h1 hd) hd 0 0 0 0 W.r R (by omega) (by omega) (by omega) (by omega)
    (by simp [Win.adr]) (by simp [Win.adr])).mono (fun _ m2 h2 => ?_)
  rw [Run_bind]
  refine (fzero_on (B := W.p + R) h2 0 R R (W.r - R) (by omega) (by omega) (by simp only [Win.adr]; omega)).mono (fun _ m3 h3 => ?_)
  have h3 : On m0 m3 W (transOf 0 0 R f) := h3.congr (fun i hi j hj => by
    simp only [upd, transOf, blk, Nat.zero_add, Nat.sub_zero, Nat.zero_le, true_and]
    split_ifs <;> first | rfl | (exfalso; omega))
  rw [Run_bind, emx]
  refine (colsNo_on h3 (by omega) le_rfl hP (fun i hi => by rw [hW]; exact hp i hi)).mono (fun _ m4 h4 => ?_)
  generalize (ofSwaps P.get (if tag = .slab then R else W.r))⁻¹ = τ at h4 ⊢
  by_cases c : tag = .slab
  · rw [if_neg (by simpa using c), Run_pure]
    exact h4.congr (fun i hi j hj => by rw [if_pos hi, ordOf_neg (by simpa using c)])
  · rw [if_pos c]
    obtain ⟨hQ1, hQ2⟩ := hQ c
    refine (applyLPerm_rows jk h4 hRM (by omega) hRN hQ1 hQ2).mono (fun _ m5 h5 => h5.congr (fun i hi j hj => ?_))
    have := (ech_perm (ofSwaps Q.get N) hRM).1 i hi
    rw [if_pos (by omega), if_pos this, ordOf_pos (by simpa using c)]

/-- transformation of a reduced column echelon form -/
lemma getReducedEchelonTransform_lower (jk : ℕ → ℕ → ℕ) (tag : EchTag) (h : On m0 m W U) (hS : Src m0 S f) (hd : S.Disj W) {M R : ℕ}
    (hN : S.c = W.r) (hW : W.c = W.r) (hRN : R ≤ W.r) (hRM : R ≤ M) (hRS : R ≤ S.r) (hP : (if tag = .slab then R else W.r) ≤ P.len)
    (hp : ∀ i < (if tag = .slab then R else W.r), P.get i < W.r) (hQ : tag = .tile → Q.len = M ∧ ∀ i < M, Q.get i < M) :
    Run (getReducedEchelonTransform jk tag .lower M W.r R P Q S.p S.ld W.p W.ld) m (fun _ m' => On m0 m' W (fun k i =>
      transOf 0 0 R (fun a b => f b a) (ordOf (tag = .tile) (ofSwaps Q.get M) R i) ((ofSwaps P.get (if tag = .slab then R else W.r))⁻¹ k))) := by
  have hmx : (if tag = .slab then R else W.r) ≤ W.r := by split_ifs <;> omega
  have emx : (if tag = .tile ∨ tag = .gjTile then W.r else R) = if tag = .slab then R else W.r := by cases tag <;> simp
  unfold getReducedEchelonTransform
  simp only []
  rw [Run_bind]
  refine (fidentity_on h R R (W.r - R) (W.r - R) 1 (by omega) (by omega) rfl).mono (fun _ m1 h1 => ?_)
  rw [Run_bind]
  refine (fassign_at (A := S.p) (B := W.p) h1 (hS.on h1 hd) hd 0 0 0 0 R W.r (by omega) (by omega) (by omega) (by omega)
    (by simp [Win.adr]) (by simp [Win.adr])).mono (fun _ m2 h2 => ?_)
  rw [Run_bind]
  refine (fzero_on h2 R 0 (W.r - R) R (by omega) (by omega) rfl).mono (fun _ m3 h3 => ?_)
  have h3 : On m0 m3 W (fun i j => transOf 0 0 R (fun a b => f b a) j i) := h3.congr (fun i hi j hj => by
    simp only [upd, transOf, blk, Nat.zero_add, Nat.sub_zero, Nat.zero_le, true_and]
    split_ifs <;> first | rfl | (exfalso; omega))
  rw [Run_bind, emx]
  refine (rowsYes_on h3 (by omega) hW.ge hP (fun i hi => hp i hi)).mono (fun _ m4 h4 => ?_)
  generalize (ofSwaps P.get (if tag = .slab then R else W.r))⁻¹ = τ at h4 ⊢
  by_cases c : tag = .tile
  · rw [if_pos c]
    obtain ⟨hQ1, hQ2⟩ := hQ c
    refine (applyLPerm_cols jk h4 (by omega) le_rfl hRM hQ1 hQ2).mono (fun _ m5 h5 => h5.congr (fun i hi j hj => ?_))
    have := (ech_perm (ofSwaps Q.get M) (hRN.trans hW.ge)).1 j hj
    rw [if_pos hi, if_pos (by omega), ordOf_pos (by simpa using c)]
  · rw [if_neg c, Run_pure]
    exact h4.congr (fun i hi j hj => by rw [if_pos (by omega), ordOf_neg (by simpa using c)])

end Verif.FF
