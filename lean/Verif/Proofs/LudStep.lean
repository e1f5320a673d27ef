import Verif.Proofs.LudOn
import Verif.Proofs.LudRank

/-!
# The recursive step of LUdivine
-/

namespace Verif.FF

open Finset Verif.Perm Verif.Spec Verif.Spec.Perm Verif.Pluq Verif.Lud

variable {K : Type} [Field K] [DecidableEq K]
variable {ta : Tr} {m0 m m' : Mem K} {W : Win} {X V : ℕ → ℕ → K} {d : Diag} {sing : Bool}

/-- every matrix has a CUP decomposition -/
def AllCup (K : Type) [Field K] (d : Diag) : Prop := ∀ (m n : ℕ) (X : ℕ → ℕ → K), ∃ V p q r, Cup d m n X V p q r

/-- what `LUdivine` has computed; `sing`: with the tag `FfpackSingular` -/
structure LudPost (sing : Bool) (d : Diag) (ta : Tr) (m0 : Mem K) (W : Win) (X : ℕ → ℕ → K) (lP lQ : ℕ) (y : ℕ × Arr ℕ × Arr ℕ) (m' : Mem K) : Prop where
  lenP : y.2.1.len = lP
  lenQ : y.2.2.len = lQ
  low : ∀ i < y.1, i ≤ y.2.1.get i
  lt : ∀ i < y.1, y.2.1.get i < lc ta W
  dec : ∃ Y, OnL ta m0 m' W Y ∧ ((sing = true → y.1 ≠ 0) → Cup d (lr ta W) (lc ta W) X Y (ofSwaps y.2.1.get y.1) y.2.2.get y.1)
  zero : sing = true → lr ta W ≤ lc ta W → y.1 = 0 → lr ta W ≠ 0 → rk X (lr ta W) (lc ta W) < lr ta W
  full : sing = true → lr ta W ≤ lc ta W → y.1 ≠ 0 → y.1 = lr ta W

/-- contract of the recursive calls on matrices with less than `bound` rows -/
def LudOk (rec : LudFn K) (sing : Bool) (d : Diag) (ta : Tr) (lda bound : ℕ) : Prop := ∀ (m0 m : Mem K) (W : Win) (V : ℕ → ℕ → K) (P Q : Arr ℕ),
  W.ld = lda → lr ta W < bound → min (lr ta W) (lc ta W) ≤ P.len → lr ta W ≤ Q.len → OnL ta m0 m W V →
  Run (rec (lr ta W) (lc ta W) W.p P Q) m (LudPost sing d ta m0 W V P.len Q.len)

/-- a rank deficient top makes the matrix rank deficient -/
lemma rk_top (hex : AllCup K d) {m1 m2 n : ℕ} (h : rk X m1 n < m1) : rk X (m1 + m2) n < m1 + m2 := by
  obtain ⟨Y, p, q, r, hc⟩ := hex (m1 + m2) n X
  rw [hc.rank_eq]
  by_contra c
  have hr := hc.rM
  have hr : r = m1 + m2 := by omega
  subst hr
  have hq : ∀ t, ∀ k, k + t + 1 = m1 + m2 → q k = k := by
    intro t
    induction t with
    | zero => intro k hk; have := hc.le_q k (by omega); have := hc.qM k (by omega); omega
    | succ t ih =>
      intro k hk
      have := hc.le_q k (by omega)
      have := hc.inc k (k + 1) (by omega) (by omega)
      have := ih (k + 1) (by omega)
      omega
  have e := hc.rank_rows (a := m1) (by omega)
  have : pivRows q (m1 + m2) m1 = range m1 := by
    ext k
    simp only [pivRows, mem_filter, mem_range]
    constructor
    · rintro ⟨h1, h2⟩
      have := hq (m1 + m2 - 1 - k) k (by omega)
      omega
    · intro h1
      have := hq (m1 + m2 - 1 - k) k (by omega)
      omega
  rw [this, card_range] at e
  omega

omit [DecidableEq K] in
/-- a rank deficient Schur complement makes the matrix rank deficient -/
lemma rk_schur (hex : AllCup K d) {m1 m2 n : ℕ} {Y1 B S : ℕ → ℕ → K} {p1 q1 : ℕ → ℕ}
    (h1 : Cup d m1 n X Y1 p1 q1 m1) (hB : ∀ i < m2, ∀ j < m1, ∑ k ∈ range m1, B i k * luU d Y1 k j = X (m1 + i) (p1 j))
    (hS : ∀ i < m2, ∀ j < n - m1, S i j = X (m1 + i) (p1 (m1 + j)) - ∑ k ∈ range m1, B i k * Y1 k (m1 + j))
    (h : rk S m2 (n - m1) < m2) : rk X (m1 + m2) n < m1 + m2 := by
  obtain ⟨Y2, p2, q2, r2, h2⟩ := hex m2 (n - m1) S
  rw [h2.rank_eq] at h
  have := h1.comb_moved h2 hB hS (V := fun i j => if i < m1 then (if j < m1 then Y1 i j else Y1 i (m1 + p2 (j - m1)))
      else if j < m1 then B (i - m1) j else Y2 (i - m1) (j - m1))
    (fun i hi k hk => by rw [if_pos hi, if_pos hk]) (fun k hk j hj => by rw [if_pos hk, if_neg (by omega), Nat.add_sub_cancel_left])
    (fun i hi k hk => by rw [if_neg (by omega), if_pos hk, Nat.add_sub_cancel_left])
    (fun i hi j hj => by rw [if_neg (by omega), if_neg (by omega), Nat.add_sub_cancel_left, Nat.add_sub_cancel_left])
  rw [this.rank_eq]
  omega

/-- the rows of the upper factor are moved up -/
lemma ludMoves_spec {Nup R R2 : ℕ} {Q : Arr ℕ} (h : OnL ta m0 m W V) (hr : Nup + R2 ≤ lr ta W) (hR : R < Nup) (hc : R + R2 ≤ lc ta W)
    (hQ : lr ta W ≤ Q.len) :
    Run (iter R2 (fun t Q => ludMove ta d (lc ta W) Nup R W.p W.ld t Q) Q) m (fun Q' m' => Q'.len = Q.len ∧
      (∀ i < R, Q'.get i = Q.get i) ∧ (∀ s < R2, Q'.get (R + s) = Q.get (Nup + s)) ∧ OnL ta m0 m' W (moved (ub d) R Nup R2 V)) := by
  refine (Run_iter (fun t Q' m' => Q'.len = Q.len ∧ (∀ i < R, Q'.get i = Q.get i) ∧ (∀ s < t, Q'.get (R + s) = Q.get (Nup + s)) ∧
    (∀ s, t ≤ s → Q'.get (Nup + s) = Q.get (Nup + s)) ∧ OnL ta m0 m' W (moved (ub d) R Nup t V)) ?_ ?_).mono ?_
  · refine ⟨rfl, fun _ _ => rfl, fun s hs => by omega, fun _ _ => rfl, h.congr (fun i _ j _ => ?_)⟩
    unfold moved
    rw [if_neg (by omega), if_neg (by omega)]
  · rintro t Q' m' ht ⟨l, q1, q2, q3, h'⟩
    refine (ludMove_spec (d := d) h' (by omega) hR (by omega) (by omega)).mono ?_
    rintro Q'' m'' ⟨l', e, h''⟩
    refine ⟨by omega, fun i hi => ?_, fun s hs => ?_, fun s hs => ?_, h''.congr (fun i _ j _ => (moved_succ hR i j).symm)⟩
    · rw [e, Function.comp_apply, Equiv.swap_apply_of_ne_of_ne (by omega) (by omega)]; exact q1 i hi
    · rw [e, Function.comp_apply]
      by_cases c : s = t
      · rw [c, Equiv.swap_apply_left]; exact q3 t le_rfl
      · by_cases c' : R + s = Nup + t
        · omega
        · rw [Equiv.swap_apply_of_ne_of_ne (by omega) c']; exact q2 s (by omega)
    · rw [e, Function.comp_apply, Equiv.swap_apply_of_ne_of_ne (by omega) (by omega)]; exact q3 s (by omega)
  · rintro Q' m' ⟨l, q1, q2, _, h'⟩
    exact ⟨l, q1, q2, h'⟩

/-- a recursive call on a block -/
lemma ludRec_on {rec : LudFn K} {bound : ℕ} (hrec : LudOk rec sing d ta W.ld bound) (h : OnL ta m0 m W V) {r c A : ℕ} (i0 j0 : ℕ)
    {P Q : Arr ℕ} (hA : A = ladr ta W i0 j0) (hr : i0 + r ≤ lr ta W) (hc : j0 + c ≤ lc ta W) (hb : r < bound) (hP : min r c ≤ P.len) (hQ : r ≤ Q.len) :
    Run (rec r c A P Q) m (fun y m' => y.2.1.len = P.len ∧ y.2.2.len = Q.len ∧ (∀ i < y.1, i ≤ y.2.1.get i) ∧ (∀ i < y.1, y.2.1.get i < c) ∧
      (∃ Y, OnL ta m0 m' W (upd i0 j0 r c Y V) ∧
        ((sing = true → y.1 ≠ 0) → Cup d r c (blk V i0 j0) Y (ofSwaps y.2.1.get y.1) y.2.2.get y.1)) ∧
      (sing = true → r ≤ c → y.1 = 0 → r ≠ 0 → rk (blk V i0 j0) r c < r) ∧ (sing = true → r ≤ c → y.1 ≠ 0 → y.1 = r)) := by
  subst hA
  have t := hrec m m (lsub ta W i0 j0 r c) (blk V i0 j0) P Q lsub_ld (by rw [lr_lsub]; exact hb) (by rw [lr_lsub, lc_lsub]; exact hP)
    (by rw [lr_lsub]; exact hQ) (h.sub hr hc)
  rw [lsub_p, lr_lsub, lc_lsub] at t
  refine t.mono ?_
  rintro y m' ⟨e1, e2, e3, e4, ⟨Y, s, hC⟩, e6, e7⟩
  rw [lc_lsub] at e4
  simp only [lr_lsub, lc_lsub] at hC e6 e7
  exact ⟨e1, e2, e3, e4, ⟨Y, h.upd hr hc s, hC⟩, e6, e7⟩

theorem ludStep_spec {g : GemmFn K} {ts : TrsmFn K} (hg : GemmOk g) (ht : TrsmOk ts) {rec : LudFn K} {P Q : Arr ℕ}
    (hex : sing = true → AllCup K d) (hrec : LudOk rec sing d ta W.ld (lr ta W)) (h : OnL ta m0 m W X) (h2 : 2 ≤ lr ta W)
    (hP : min (lr ta W) (lc ta W) ≤ P.len) (hQ : lr ta W ≤ Q.len) :
    Run (ludStep g ts rec ta d sing (lr ta W) (lc ta W) W.p W.ld P Q) m (LudPost sing d ta m0 W X P.len Q.len) := by
  have hN1 : lr ta W / 2 + (lr ta W - lr ta W / 2) = lr ta W := by omega
  have hN2 : lr ta W / 2 < lr ta W := by omega
  have hN3 : lr ta W - lr ta W / 2 < lr ta W := by omega
  have hN4 : lr ta W / 2 ≠ 0 := by omega
  have hN5 : lr ta W - lr ta W / 2 ≠ 0 := by omega
  unfold ludStep
  simp only []
  generalize lr ta W / 2 = Nup at *
  generalize hnd : lr ta W - Nup = Ndown at *
  rw [Run_bind]
  refine (ludRec_on hrec h 0 0 (by rw [← ladr_eq]; ring) (by omega) (by omega) hN2 (by omega) (by omega)).mono ?_
  rintro ⟨R, P1, Q1⟩ m1 ⟨lP, lQ, pl, pu, ⟨Y1, h1, hC1⟩, sz, sf⟩
  simp only [] at lP lQ pl pu h1 hC1 sz sf ⊢
  have bX : blk X 0 0 = X := by funext i j; simp [blk]
  rw [bX] at hC1 sz
  rif c0
  · obtain ⟨rfl, hs⟩ := c0
    rw [Run_pure]
    refine ⟨lP, lQ, fun i hi => by simp only [] at hi; omega, fun i hi => by simp only [] at hi; omega, ⟨_, h1, fun hh => absurd rfl (hh hs)⟩, fun _ hle _ _ => ?_,
      fun _ _ hh => absurd rfl hh⟩
    have := rk_top (m2 := Ndown) (hex hs) (sz hs (by omega) rfl hN4)
    rwa [hN1] at this
  have hC1 := hC1 (fun hs hR => c0 ⟨hR, hs⟩)
  have rN := hC1.rN
  have rM := hC1.rM
  have v1 : ∀ i < Nup, ∀ j < lc ta W, upd 0 0 Nup (lc ta W) Y1 X i j = Y1 i j := fun i hi j hj => by rw [upd_in' (by omega)]; rfl
  have v2 : ∀ i, ∀ j, upd 0 0 Nup (lc ta W) Y1 X (Nup + i) j = X (Nup + i) j := fun i j => by rw [upd_out (by omega)]
  generalize upd 0 0 Nup (lc ta W) Y1 X = V1 at *
  have p1lt : ∀ j < lc ta W, ofSwaps P1.get R j < lc ta W := hC1.pP.1
  rw [Run_bind]
  have upd1 : Run (if R = 0 then pure () else ludUpdate g ts ta d (lc ta W) Nup Ndown R W.p W.ld P1) m1 (fun _ m' => ∃ B S,
      OnL ta m0 m' W (upd Nup R Ndown (lc ta W - R) S (upd Nup 0 Ndown R B V1)) ∧
      (∀ i < Ndown, ∀ j < R, ∑ k ∈ range R, B i k * luU d Y1 k j = X (Nup + i) (ofSwaps P1.get R j)) ∧
      ∀ i < Ndown, ∀ j < lc ta W - R, S i j = X (Nup + i) (ofSwaps P1.get R (R + j)) - ∑ k ∈ range R, B i k * Y1 k (R + j)) := by
    rif cR
    · subst cR
      rw [Run_pure]
      refine ⟨fun _ _ => 0, fun i j => X (Nup + i) j, h1.congr (fun i hi j hj => ?_), fun i _ j hj => by omega, fun i _ j _ => ?_⟩
      · by_cases c1 : Nup ≤ i ∧ i < Nup + Ndown ∧ 0 ≤ j ∧ j < 0 + (lc ta W - 0)
        · rw [upd_in' c1, ← v2]; congr 1 <;> omega
        · rw [upd_out (by omega), upd_out (by omega)]
      · simp [ofSwaps]
    · refine (ludUpdate_spec hg ht h1 hN1 rM rN (by omega) pu (fun hd i hi => ?_)).mono ?_
      · have := hC1.piv i hi
        subst hd
        rw [v1 i (by omega) i (by omega)]; exact this
      · rintro _ m2 ⟨B, S, h2, hB, hS⟩
        refine ⟨B, S, h2, fun i hi j hj => ?_, fun i hi j hj => ?_⟩
        · rw [← v2, ← hB i hi j hj]
          refine sum_congr rfl (fun k hk => ?_)
          have hk := mem_range.1 hk
          rw [luU_congr (V := Y1) (V' := V1) (fun _ => (v1 k (by omega) j (by omega)).symm)]
        · rw [hS i hi j hj, v2]
          congr 1
          refine sum_congr rfl (fun k hk => ?_)
          have hk := mem_range.1 hk
          rw [v1 k (by omega) _ (by omega)]
  refine upd1.mono ?_
  rintro _ m2 ⟨B, S, h2', hB, hS⟩
  have w1 : ∀ i < Nup, ∀ j < lc ta W, upd Nup R Ndown (lc ta W - R) S (upd Nup 0 Ndown R B V1) i j = Y1 i j := fun i hi j hj => by
    rw [upd_out (by omega), upd_out (by omega), v1 i hi j hj]
  have w2 : ∀ i < Ndown, ∀ j < R, upd Nup R Ndown (lc ta W - R) S (upd Nup 0 Ndown R B V1) (Nup + i) j = B i j := fun i hi j hj => by
    rw [upd_out (by omega), upd_in' (by omega), Nat.add_sub_cancel_left, Nat.sub_zero]
  have w3 : ∀ i < Ndown, ∀ j < lc ta W - R, upd Nup R Ndown (lc ta W - R) S (upd Nup 0 Ndown R B V1) (Nup + i) (R + j) = S i j :=
    fun i hi j hj => upd_in hi hj
  generalize upd Nup R Ndown (lc ta W - R) S (upd Nup 0 Ndown R B V1) = V2 at *
  clear upd1
  have et1 : tailA P1 R = .ok ⟨P1.len - R, fun i => P1.get (R + i)⟩ := if_pos (by omega)
  have et2 : tailA Q1 Nup = .ok ⟨Q1.len - Nup, fun i => Q1.get (Nup + i)⟩ := if_pos (by omega)
  rw [et1, et2, Run_bind, Run_liftE, Ok_ok, Run_bind, Run_liftE, Ok_ok, Run_bind]
  refine (ludRec_on hrec h2' Nup R (ladr_eq _ _ _ _) (by omega) (by omega) hN3 (by simp only []; omega) (by simp only []; omega)).mono ?_
  rintro ⟨R2, P2, Q2⟩ m3 ⟨lP2, lQ2, pl2, pu2, ⟨Y2, h3, hC2⟩, sz2, sf2⟩
  simp only [] at lP2 lQ2 pl2 pu2 h3 hC2 sz2 sf2 ⊢
  have hR2c : R2 ≤ lc ta W - R := by
    rcases Nat.eq_zero_or_pos R2 with c | c
    · omega
    · have := pl2 (R2 - 1) (by omega); have := pu2 (R2 - 1) (by omega); omega
  unfold ludFinish
  rw [Run_bind, Run_liftE]
  have hR2r : R2 ≤ Ndown := by
    rcases Nat.eq_zero_or_pos R2 with c | c
    · omega
    · exact (hC2 (fun _ => by omega)).rM
  refine (addFrom_spec (spliceA P1 R P2) R (R + R2) R (by simp only [spliceA]; omega)).mono ?_
  rintro P' ⟨lP', eP'⟩
  simp only [spliceA] at lP' eP'
  have pa : ∀ i < R, P'.get i = P1.get i := fun i hi => by rw [eP', if_neg (by omega), if_pos hi]
  have pb : ∀ i < R2, P'.get (R + i) = R + P2.get i := fun i hi => by
    rw [eP', if_pos (by omega), if_neg (by omega), Nat.add_sub_cancel_left, Nat.add_comm]
  have plow : ∀ i < R + R2, i ≤ P'.get i := fun i hi => by
    by_cases c : i < R
    · rw [pa i c]; exact pl i c
    · have e := pb (i - R) (by omega)
      have := pl2 (i - R) (by omega)
      rw [show R + (i - R) = i by omega] at e
      omega
  have plt : ∀ i < R + R2, P'.get i < lc ta W := fun i hi => by
    by_cases c : i < R
    · rw [pa i c]; exact pu i c
    · have e := pb (i - R) (by omega)
      have := pu2 (i - R) (by omega)
      rw [show R + (i - R) = i by omega] at e
      omega
  have bS : ∀ i < Ndown, ∀ j < lc ta W - R, blk V2 Nup R i j = S i j := fun i hi j hj => w3 i hi j hj
  rif c1
  · obtain ⟨rfl, hs⟩ := c1
    rw [Run_pure]
    refine ⟨by simp only []; omega, by simp only [spliceA]; omega, fun i hi => by simp only [] at hi; omega, fun i hi => by simp only [] at hi; omega,
      ⟨_, h3, fun hh => absurd rfl (hh hs)⟩, fun _ hle _ _ => ?_, fun _ _ hh => absurd rfl hh⟩
    have hRN : R = Nup := sf hs (by omega) (fun c => c0 ⟨c, hs⟩)
    subst hRN
    have := sz2 hs (by omega) rfl hN5
    have := rk_schur (X := X) (S := blk V2 R R) (hex hs) hC1 hB (fun i hi j hj => by rw [bS i hi j hj, hS i hi j hj]) this
    rwa [hN1] at this
  have hC2 := hC2 (fun hs hR => c1 ⟨hR, hs⟩)
  have hC2 : Cup d Ndown (lc ta W - R) S Y2 (ofSwaps P2.get R2) Q2.get R2 := hC2.congr bS (fun _ _ _ _ => rfl) (fun _ _ => rfl) (fun _ _ => rfl)
  have u1 : ∀ i < Nup, ∀ j < lc ta W, upd Nup R Ndown (lc ta W - R) Y2 V2 i j = Y1 i j := fun i hi j hj => by
    rw [upd_out (by omega), w1 i hi j hj]
  have u2 : ∀ i < Ndown, ∀ j < R, upd Nup R Ndown (lc ta W - R) Y2 V2 (Nup + i) j = B i j := fun i hi j hj => by
    rw [upd_out (by omega), w2 i hi j hj]
  have u3 : ∀ i < Ndown, ∀ j < lc ta W - R, upd Nup R Ndown (lc ta W - R) Y2 V2 (Nup + i) (R + j) = Y2 i j :=
    fun i hi j hj => upd_in hi hj
  generalize upd Nup R Ndown (lc ta W - R) Y2 V2 = V3 at *
  rw [Run_bind]
  have top : Run (if R2 = 0 then pure () else ludPermTop ta Nup R R2 W.p W.ld P') m3 (fun _ m' =>
      OnL ta m0 m' W (permCols 0 0 Nup (lc ta W) (swapsFrom P'.get R R2) V3)) := by
    rif cR
    · subst cR
      rw [Run_pure, swapsFrom, Equiv.Perm.coe_one, permCols_id]
      exact h3
    · exact ludPermTop_spec h3 (by omega) (by omega) (by omega) plt
  refine top.mono (fun _ m4 h4 => ?_)
  have sh : ∀ x, swapsFrom P'.get R R2 x = afterP R (ofSwaps P2.get R2) x := fun x => swapsFrom_shift pb x
  have alt : ∀ x < lc ta W, afterP R (ofSwaps P2.get R2) x < lc ta W := (afterP_perm rN hC2.pP).1
  have x1 : ∀ i < Nup, ∀ j < lc ta W, permCols 0 0 Nup (lc ta W) (swapsFrom P'.get R R2) V3 i j = Y1 i (afterP R (ofSwaps P2.get R2) j) :=
    fun i hi j hj => by
      unfold permCols
      rw [upd_in' (by omega), Nat.zero_add, Nat.zero_add, Nat.sub_zero, Nat.sub_zero, sh, u1 i hi _ (alt j hj)]
  have x2 : ∀ i, ∀ j, permCols 0 0 Nup (lc ta W) (swapsFrom P'.get R R2) V3 (Nup + i) j = V3 (Nup + i) j := fun i j => by
    unfold permCols
    rw [upd_out (by omega)]
  generalize permCols 0 0 Nup (lc ta W) (swapsFrom P'.get R R2) V3 = V4 at *
  have comb := hC1.comb_moved hC2 hB hS (V := V4)
    (fun i hi k hk => by rw [x1 i hi k (by omega), afterP, if_pos hk])
    (fun k hk j hj => by rw [x1 k hk _ (by omega), afterP, if_neg (by omega), Nat.add_sub_cancel_left])
    (fun i hi k hk => by rw [x2, u2 i hi k hk]) (fun i hi j hj => by rw [x2, u3 i hi j hj])
  rw [hN1] at comb
  rw [Run_bind, Run_liftE]
  refine (addFrom_spec (spliceA Q1 Nup Q2) Nup (Nup + R2) Nup (by simp only [spliceA]; omega)).mono ?_
  rintro Q' ⟨lQ', eQ'⟩
  simp only [spliceA] at lQ' eQ'
  have qa : ∀ i < Nup, Q'.get i = Q1.get i := fun i hi => by rw [eQ', if_neg (by omega), if_pos hi]
  have qb : ∀ i < R2, Q'.get (Nup + i) = Nup + Q2.get i := fun i hi => by
    rw [eQ', if_pos (by omega), if_neg (by omega), Nat.add_sub_cancel_left, Nat.add_comm]
  rw [Run_bind]
  have mv : Run (if R < Nup then iter R2 (fun t Q => ludMove ta d (lc ta W) Nup R W.p W.ld t Q) Q' else pure Q') m4 (fun Q'' m' =>
      Q''.len = Q'.len ∧ (∀ i < R, Q''.get i = Q'.get i) ∧ (∀ s < R2, Q''.get (R + s) = Q'.get (Nup + s)) ∧
      OnL ta m0 m' W (if R < Nup then moved (ub d) R Nup R2 V4 else V4)) := by
    rif cR
    · rw [if_pos cR]
      exact ludMoves_spec h4 (by omega) cR (by omega) (by omega)
    · rw [Run_pure, if_neg cR]
      have : R = Nup := by omega
      subst this
      exact ⟨rfl, fun _ _ => rfl, fun _ _ => rfl, h4⟩
  refine mv.mono ?_
  rintro Q'' m5 ⟨lQ'', q1, q2, h5⟩
  rw [Run_pure]
  refine ⟨by simp only []; omega, by simp only []; omega, plow, plt, ⟨_, h5, fun _ => comb.congr (fun _ _ _ _ => rfl) (fun _ _ _ _ => rfl) (fun j hj => ?_) (fun k hk => ?_)⟩,
    fun hs hle hz _ => ?_, fun hs hle _ => ?_⟩
  · simp only []
    rw [ofSwaps_append, Equiv.Perm.mul_apply, sh, ofSwaps_congr (P := P'.get) (P' := P1.get) pa]
  · simp only []
    by_cases c : k < R
    · rw [if_pos c, q1 k c, qa k (by omega)]
    · have := q2 (k - R) (by omega)
      rw [show R + (k - R) = k by omega] at this
      rw [if_neg c, this, qb _ (by omega)]
  · simp only [] at hz
    exact absurd ⟨by omega, hs⟩ c0
  · simp only []
    have a1 := sf hs (by omega) (fun c => c0 ⟨c, hs⟩)
    have a2 := sf2 hs (by omega) (fun c => c1 ⟨c, hs⟩)
    omega

end Verif.FF
