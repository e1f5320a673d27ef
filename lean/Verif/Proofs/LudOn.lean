import Verif.Model.LUdivine
import Verif.Proofs.LudMath
import Verif.Proofs.At
import Verif.Proofs.GJArr

/-!
# Kernels of LUdivine on a matrix or its transpose

`OnL ta m0 m W V`: the window contains `V` (`ta = no`) or its transpose (`ta = yes`).
-/

namespace Verif.FF

open Finset Verif.Perm Verif.Spec Verif.Spec.Perm Verif.Pluq Verif.Lud

section
variable {K : Type}

/-- number of rows of the matrix to decompose -/
def lr (ta : Tr) (W : Win) : ℕ := match ta with
  | .no => W.r
  | .yes => W.c

/-- number of columns of the matrix to decompose -/
def lc (ta : Tr) (W : Win) : ℕ := match ta with
  | .no => W.c
  | .yes => W.r

/-- address of an entry of the matrix to decompose -/
def ladr (ta : Tr) (W : Win) (i j : ℕ) : ℕ := match ta with
  | .no => W.adr i j
  | .yes => W.adr j i

/-- a block of the matrix to decompose -/
def lsub (ta : Tr) (W : Win) (i0 j0 r c : ℕ) : Win := match ta with
  | .no => W.sub i0 j0 r c
  | .yes => W.sub j0 i0 c r

/-- the state of a block algorithm on a matrix or its transpose -/
def OnL (ta : Tr) (m0 m : Mem K) (W : Win) (V : ℕ → ℕ → K) : Prop := On m0 m W (op ta V)

lemma ladr_eq (ta : Tr) (W : Win) (i j : ℕ) : W.p + i * luRow ta W.ld + j * luCol ta W.ld = ladr ta W i j := by
  cases ta <;> simp only [ladr, luRow, luCol, Win.adr] <;> ring

lemma op_upd {ta : Tr} {i0 j0 r c : ℕ} {g V : ℕ → ℕ → K} : op ta (upd i0 j0 r c g V) = match ta with
    | .no => upd i0 j0 r c g V
    | .yes => upd j0 i0 c r (fun i j => g j i) (op .yes V) := by
  cases ta with
  | no => rfl
  | yes =>
    funext i j
    simp only [op, upd]
    by_cases h : i0 ≤ j ∧ j < i0 + r ∧ j0 ≤ i ∧ i < j0 + c
    · rw [if_pos h, if_pos (by omega)]
    · rw [if_neg h, if_neg (by omega)]

variable {ta : Tr} {m0 m m' : Mem K} {W : Win} {V V' g : ℕ → ℕ → K} {i0 j0 r c i j n : ℕ}

lemma OnL.congr (h : OnL ta m0 m W V) (e : ∀ i < lr ta W, ∀ j < lc ta W, V i j = V' i j) : OnL ta m0 m W V' := by
  cases ta with
  | no => exact On.congr h e
  | yes => exact On.congr h (fun i hi j hj => e j hj i hi)

lemma OnL.trans (h : OnL ta m0 m W V) (h' : OnL ta m m' W V') : OnL ta m0 m' W V' := On.trans h h'
lemma OnL.here (h : OnL ta m0 m W V) : OnL ta m m W V := On.here h

lemma OnL.val (h : OnL ta m0 m W V) (hi : i < lr ta W) (hj : j < lc ta W) : m.val (ladr ta W i j) = V i j := by
  cases ta with
  | no => exact On.val h hi hj
  | yes => exact On.val h hj hi

lemma OnL.okc (h : OnL ta m0 m W V) (hi : i < lr ta W) (hj : j < lc ta W) : m.ok (ladr ta W i j) = true := by
  cases ta with
  | no => exact On.okc h hi hj
  | yes => exact On.okc h hj hi

lemma OnL.set {x : K} (h : OnL ta m0 m W V) (hi : i < lr ta W) (hj : j < lc ta W) :
    OnL ta m0 (m.set (ladr ta W i j) x) W (upd i j 1 1 (fun _ _ => x) V) := by
  unfold OnL
  rw [op_upd]
  cases ta with
  | no => exact On.set h hi hj
  | yes => exact On.set h hj hi

lemma OnL.sub (h : OnL ta m0 m W V) (hr : i0 + r ≤ lr ta W) (hc : j0 + c ≤ lc ta W) :
    OnL ta m m (lsub ta W i0 j0 r c) (blk V i0 j0) := by
  cases ta with
  | no => exact On.sub h hr hc
  | yes => exact On.sub h hc hr

lemma OnL.upd (h : OnL ta m0 m W V) (hr : i0 + r ≤ lr ta W) (hc : j0 + c ≤ lc ta W) (s : OnL ta m m' (lsub ta W i0 j0 r c) g) :
    OnL ta m0 m' W (upd i0 j0 r c g V) := by
  unfold OnL
  rw [op_upd]
  cases ta with
  | no => exact On.upd h hr hc s.step
  | yes => exact On.upd h hc hr s.step

lemma lr_lsub : lr ta (lsub ta W i0 j0 r c) = r := by cases ta <;> rfl
lemma lc_lsub : lc ta (lsub ta W i0 j0 r c) = c := by cases ta <;> rfl
lemma lsub_ld : (lsub ta W i0 j0 r c).ld = W.ld := by cases ta <;> rfl
lemma lsub_p : (lsub ta W i0 j0 r c).p = ladr ta W i0 j0 := by cases ta <;> rfl

end

variable {K : Type} [Field K] [DecidableEq K]
variable {ta : Tr} {m0 m m' : Mem K} {W : Win} {V V' g : ℕ → ℕ → K} {i0 j0 r c i j n : ℕ}

omit [Field K] [DecidableEq K] in
/-- `fassign` between column segments of one window: different columns -/
lemma movColL_on (h : On m0 m W V) {i j i' j' n : ℕ} (hi : i + n ≤ W.r) (hj : j < W.c) (hi' : i' + n ≤ W.r) (hj' : j' < W.c)
    (hs : j ≠ j') :
    Run (vassign n (W.adr i' j') W.ld (W.adr i j) W.ld) m
      (fun _ m' => On m0 m' W (upd i j n 1 (fun t _ => V (i' + t) j') V)) := by
  have hld := h.ld
  refine (vassign_fwd (h.vw_col hi' hj') (h.vw_col hi hj) ?_ (by omega)).mono (fun _ m' s => ?_)
  · intro t ht s hs' e
    rw [Win.adr_add_row, Win.adr_add_row] at e
    have := h.inj _ (by omega) _ hj' _ (by omega) _ hj e
    omega
  · refine h.colStep hi hj (s.congr (fun t ht _ _ => ?_))
    have ht : t < n := ht
    rw [Win.adr_add_row]
    exact h.val (by omega) hj'

omit [Field K] [DecidableEq K] in
/-- a line of the matrix is copied to another line -/
lemma moveL_on (h : OnL ta m0 m W V) {i j i' j' n : ℕ} (hi : i < lr ta W) (hj : j + n ≤ lc ta W) (hi' : i' < lr ta W) (hj' : j' + n ≤ lc ta W)
    (hs : i ≠ i') : Run (vassign n (ladr ta W i' j') (luCol ta W.ld) (ladr ta W i j) (luCol ta W.ld)) m
      (fun _ m' => OnL ta m0 m' W (upd i j 1 n (fun _ t => V i' (j' + t)) V)) := by
  unfold OnL
  rw [op_upd]
  cases ta with
  | no => exact moveRow_on h hi hj hi' hj' (Or.inl hs)
  | yes => exact movColL_on h hj hi hj' hi' hs

/-- a line of the matrix is set to zero -/
lemma zeroL_on (h : OnL ta m0 m W V) {i j n : ℕ} (hi : i < lr ta W) (hj : j + n ≤ lc ta W) :
    Run (loop n fun s => store (ladr ta W i j + s * luCol ta W.ld) 0) m
      (fun _ m' => OnL ta m0 m' W (upd i j 1 n (fun _ _ => 0) V)) := by
  have ea : ∀ s, ladr ta W i j + s * luCol ta W.ld = ladr ta W i (j + s) := by
    intro s; rw [← ladr_eq, ← ladr_eq]; ring
  have ed : ∀ a b : ℕ, j + a < lc ta W → j + b < lc ta W → ladr ta W i (j + a) = ladr ta W i (j + b) → a = b := by
    intro a b ha hb e
    cases ta with
    | no => have := h.inj _ hi _ ha _ hi _ hb e; omega
    | yes => have := h.inj _ ha _ hi _ hb _ hi e; omega
  refine (Run_loop (fun k m' => OnL ta m0 m' W (upd i j 1 k (fun _ _ => 0) V)) ?_ ?_).mono (fun _ _ h => h)
  · exact h.congr (fun i' _ j' _ => by rw [upd_out (by omega)])
  · intro k m' hk h'
    rw [ea, Run_store]
    refine ⟨h'.okc hi (by omega), (h'.set hi (by omega)).congr (fun i' _ j' _ => ?_)⟩
    unfold upd
    by_cases c1 : i ≤ i' ∧ i' < i + 1 ∧ j + k ≤ j' ∧ j' < j + k + 1
    · rw [if_pos c1, if_pos (by omega)]
    · rw [if_neg c1]
      by_cases c2 : i ≤ i' ∧ i' < i + 1 ∧ j ≤ j' ∧ j' < j + k
      · rw [if_pos c2, if_pos (by omega)]
      · rw [if_neg c2, if_neg (by omega)]

/-- scaling of a piece of a row -/
lemma scalL_on (cat : Cat) (h : OnL ta m0 m W V) {i j n : ℕ} (a : K) (hi : i < lr ta W) (hj : j + n ≤ lc ta W) :
    Run (vscalin cat n a (ladr ta W i j) (luCol ta W.ld)) m
      (fun _ m' => OnL ta m0 m' W (upd i j 1 n (fun _ t => a * V i (j + t)) V)) := by
  unfold OnL
  rw [op_upd]
  cases ta with
  | no => exact scalRow_on cat h a hi hj
  | yes => exact scalCol_on cat h a hj hi

/-- scaling of a piece of a column -/
lemma scalLc_on (cat : Cat) (h : OnL ta m0 m W V) {i j n : ℕ} (a : K) (hi : i + n ≤ lr ta W) (hj : j < lc ta W) :
    Run (vscalin cat n a (ladr ta W i j) (luRow ta W.ld)) m
      (fun _ m' => OnL ta m0 m' W (upd i j n 1 (fun t _ => a * V (i + t) j) V)) := by
  unfold OnL
  rw [op_upd]
  cases ta with
  | no => exact scalCol_on cat h a hi hj
  | yes => exact scalRow_on cat h a hj hi

omit [Field K] [DecidableEq K] in
lemma op_permCols {σ : ℕ → ℕ} : op .yes (permCols i0 j0 r c σ V) = permRows j0 i0 c r σ (op .yes V) := op_upd

/-- update of the lower block -/
lemma ludUpdate_spec {g : GemmFn K} {ts : TrsmFn K} (hg : GemmOk g) (ht : TrsmOk ts) {d : Diag} {Nup Ndown R : ℕ} {P : Arr ℕ}
    (h : OnL ta m0 m W V) (hr : Nup + Ndown = lr ta W) (hR : R ≤ Nup) (hc : R ≤ lc ta W) (hP : R ≤ P.len)
    (hp : ∀ i < R, P.get i < lc ta W) (hd : d = .nonUnit → ∀ i < R, V i i ≠ 0) :
    Run (ludUpdate g ts ta d (lc ta W) Nup Ndown R W.p W.ld P) m (fun _ m' => ∃ B S,
      OnL ta m0 m' W (upd Nup R Ndown (lc ta W - R) S (upd Nup 0 Ndown R B V)) ∧
      (∀ i < Ndown, ∀ j < R, ∑ k ∈ range R, B i k * luU d V k j = V (Nup + i) (ofSwaps P.get R j)) ∧
      ∀ i < Ndown, ∀ j < lc ta W - R, S i j = V (Nup + i) (ofSwaps P.get R (R + j)) - ∑ k ∈ range R, B i k * V k (R + j)) := by
  have hlt : ∀ j < lc ta W, ofSwaps P.get R j < lc ta W := by
    intro j hj
    rw [← swapsFrom_zero]
    exact swapsFrom_lt (by omega) (fun i hi => hp i (by omega)) hj
  cases ta with
  | no =>
    simp only [lr, lc] at hr hc hp hlt ⊢
    simp only [ludUpdate]
    have e0 : W.p + Nup * luRow .no W.ld = W.adr Nup 0 := by simp only [luRow, Win.adr]; ring
    have e1 : W.p = W.adr 0 0 := by simp only [Win.adr]; ring
    have e2 : W.p + R * luCol .no W.ld = W.adr 0 R := by simp only [luCol, Win.adr]; ring
    have e3 : W.adr Nup 0 + R * luCol .no W.ld = W.adr Nup R := by simp only [luCol, Win.adr]; ring
    rw [e0, e2, e3, Run_bind]
    have h0 : On m0 m W V := h
    refine (applyP_col (ibeg := 0) (iend := R) (i0 := Nup) (j0 := 0) (r := Ndown) (c := W.c) .yes h0 (by omega) (by omega) hc hP hp).mono
      (fun _ m1 h1 => ?_)
    simp only [appliedPerm, Nat.sub_zero, swapsFrom_zero] at h1
    rw [Run_bind]
    have a1 : ∀ k < Nup, ∀ j, permCols Nup 0 Ndown W.c (ofSwaps P.get R) V k j = V k j := fun k hk j => by
      unfold permCols; rw [upd_out (by omega)]
    have a2 : ∀ i < Ndown, ∀ j < W.c, permCols Nup 0 Ndown W.c (ofSwaps P.get R) V (Nup + i) j = V (Nup + i) (ofSwaps P.get R j) :=
      fun i hi j hj => by
        unfold permCols; rw [upd_in' (by omega)]; congr 1 <;> simp
    generalize permCols Nup 0 Ndown W.c (ofSwaps P.get R) V = V1 at *
    have t := trsm_on (side := .right) (u := .upper) (ta := .no) (d := d) (a := 0) (b := 0) (i0 := Nup) (j0 := 0) (r := Ndown) (c := R) ht h1 1
      (by simp only [sideDim]; omega) (by simp only [sideDim]; omega) (by omega) (by omega) (by simp only [sideDim]; omega)
      (fun hu i hi => by simp only [sideDim] at hi; rw [Nat.zero_add, a1 i (by omega)]; exact hd hu i hi)
    rw [← e1] at t
    refine t.mono ?_
    rintro _ m2 ⟨B, h2, hB⟩
    have hB' : ∀ i < Ndown, ∀ j < R, ∑ k ∈ range R, B i k * luU d V k j = V (Nup + i) (ofSwaps P.get R j) := by
      intro i hi j hj
      have := hB i hi j hj
      rw [Nat.zero_add, a2 i hi j (by omega), one_mul] at this
      rw [← this]
      simp only [Spec.sideMul, Spec.mul, Spec.op, Spec.sideDim]
      refine sum_congr rfl (fun k hk => ?_)
      have hk := mem_range.1 hk
      congr 1
      refine luU_congr (V := V) (V' := blk V1 0 0) (fun _ => ?_)
      rw [blk, Nat.zero_add, Nat.zero_add, a1 k (by omega)]
    rif cR
    · have t := gemm_on hg h2 (k := R) (r := Ndown) (c := W.c - R) (a1 := Nup) (b1 := 0) (a2 := 0) (b2 := R) (i0 := Nup) (j0 := R) (-1) 1
        (by omega) (by omega) (by omega) (by omega) (by omega) (by omega) (by omega) (by omega)
      refine t.mono (fun _ m3 h3 => ⟨B, fun i j => V (Nup + i) (ofSwaps P.get R (R + j)) - ∑ k ∈ range R, B i k * V k (R + j),
        On.congr h3 (fun i hi j hj => ?_), hB', fun i hi j hj => rfl⟩)
      simp only [op]
      by_cases c1 : Nup ≤ i ∧ i < Nup + Ndown ∧ R ≤ j ∧ j < R + (W.c - R)
      · rw [upd_in' c1, upd_in' c1, upd_out (by omega), one_mul, neg_one_mul, ← sub_eq_neg_add]
        congr 1
        · rw [← a2 _ (by omega) _ (by omega)]
        · refine sum_congr rfl (fun k hk => ?_)
          have hk := mem_range.1 hk
          rw [upd_in' (by omega), upd_out (by omega), Nat.zero_add, a1 k (by omega), Nat.add_sub_cancel_left, Nat.sub_zero]
      · rw [upd_out (by omega), upd_out (i0 := Nup) (j0 := R) (by omega)]
        by_cases c2 : Nup ≤ i ∧ i < Nup + Ndown ∧ 0 ≤ j ∧ j < 0 + R
        · rw [upd_in' c2, upd_in' c2]
        · rw [upd_out (by omega), upd_out (by omega), a1 i (by omega)]
    · rw [Run_pure]
      refine ⟨B, fun i j => V (Nup + i) (ofSwaps P.get R (R + j)) - ∑ k ∈ range R, B i k * V k (R + j), On.congr h2 (fun i hi j hj => ?_), hB',
        fun _ _ _ _ => rfl⟩
      simp only [op]
      rw [upd_out (i0 := Nup) (j0 := R) (by omega)]
      by_cases c2 : Nup ≤ i ∧ i < Nup + Ndown ∧ 0 ≤ j ∧ j < 0 + R
      · rw [upd_in' c2, upd_in' c2]
      · rw [upd_out (by omega), upd_out (by omega), a1 i (by omega)]
  | yes =>
    simp only [lr, lc] at hr hc hp hlt ⊢
    simp only [ludUpdate]
    have e0 : W.p + Nup * luRow .yes W.ld = W.adr 0 Nup := by simp only [luRow, Win.adr]; ring
    have e1 : W.p = W.adr 0 0 := by simp only [Win.adr]; ring
    have e2 : W.p + R * luCol .yes W.ld = W.adr R 0 := by simp only [luCol, Win.adr]; ring
    have e3 : W.adr 0 Nup + R * luCol .yes W.ld = W.adr R Nup := by simp only [luCol, Win.adr]; ring
    rw [e0, e2, e3, Run_bind]
    have h0 : On m0 m W (fun i j => V j i) := h
    refine (applyP_row (ibeg := 0) (iend := R) (i0 := 0) (j0 := Nup) (r := W.r) (c := Ndown) .no h0 (by omega) (by omega) hc hP hp).mono
      (fun _ m1 h1 => ?_)
    simp only [appliedPerm, Nat.sub_zero, swapsFrom_zero] at h1
    rw [Run_bind]
    have a1 : ∀ k < Nup, ∀ j, permRows 0 Nup W.r Ndown (ofSwaps P.get R) (fun i j => V j i) j k = V k j := fun k hk j => by
      unfold permRows; rw [upd_out (by omega)]
    have a2 : ∀ i < Ndown, ∀ j < W.r, permRows 0 Nup W.r Ndown (ofSwaps P.get R) (fun i j => V j i) j (Nup + i) = V (Nup + i) (ofSwaps P.get R j) :=
      fun i hi j hj => by
        unfold permRows; rw [upd_in' (by omega)]; congr 1 <;> simp
    generalize permRows 0 Nup W.r Ndown (ofSwaps P.get R) (fun i j => V j i) = V1 at *
    have t := trsm_on (side := .left) (u := .lower) (ta := .no) (d := d) (a := 0) (b := 0) (i0 := 0) (j0 := Nup) (r := R) (c := Ndown) ht h1 1
      (by simp only [sideDim]; omega) (by simp only [sideDim]; omega) (by omega) (by omega) (by simp only [sideDim]; omega)
      (fun hu i hi => by simp only [sideDim] at hi; rw [Nat.zero_add, a1 i (by omega)]; exact hd hu i hi)
    rw [← e1] at t
    refine t.mono ?_
    rintro _ m2 ⟨B, h2, hB⟩
    have hB' : ∀ i < Ndown, ∀ j < R, ∑ k ∈ range R, B k i * luU d V k j = V (Nup + i) (ofSwaps P.get R j) := by
      intro i hi j hj
      have := hB j hj i hi
      rw [Nat.zero_add, a2 i hi j (by omega), one_mul] at this
      rw [← this]
      simp only [Spec.sideMul, Spec.mul, Spec.op, Spec.sideDim]
      refine sum_congr rfl (fun k hk => ?_)
      have hk := mem_range.1 hk
      rw [mul_comm]
      congr 1
      have ek : blk V1 0 0 j k = V k j := by rw [blk, Nat.zero_add, Nat.zero_add, a1 k (by omega)]
      have ej : blk V1 0 0 j j = V j j := by rw [blk, Nat.zero_add, a1 j (by omega)]
      rcases Nat.lt_trichotomy k j with c1 | c1 | c1
      · rw [luU_lt c1, ← ek]
        cases d <;> simp only [tri] <;> split_ifs <;> first | rfl | omega
      · subst c1
        cases d
        · rw [luU_diag_nonUnit, ← ek]; simp [tri]
        · rw [luU_diag_unit]; simp [tri]
      · rw [luU_gt c1]
        cases d <;> simp only [tri] <;> split_ifs <;> first | rfl | omega
    rif cR
    · have t := gemm_on hg h2 (k := R) (r := W.r - R) (c := Ndown) (a1 := R) (b1 := 0) (a2 := 0) (b2 := Nup) (i0 := R) (j0 := Nup) (-1) 1
        (by omega) (by omega) (by omega) (by omega) (by omega) (by omega) (by omega) (by omega)
      refine t.mono (fun _ m3 h3 => ⟨fun i k => B k i, fun i j => V (Nup + i) (ofSwaps P.get R (R + j)) - ∑ k ∈ range R, B k i * V k (R + j), On.congr h3 (fun j hj i hi => ?_), hB', fun i hi j hj => rfl⟩)
      simp only [op]
      by_cases c1 : Nup ≤ i ∧ i < Nup + Ndown ∧ R ≤ j ∧ j < R + (W.r - R)
      · rw [upd_in' (by omega), upd_in' c1, upd_out (by omega), one_mul, neg_one_mul, ← sub_eq_neg_add]
        congr 1
        · rw [← a2 _ (by omega) _ (by omega)]
        · refine sum_congr rfl (fun k hk => ?_)
          have hk := mem_range.1 hk
          rw [upd_out (by omega), upd_in' (by omega), Nat.zero_add, a1 k (by omega), Nat.add_sub_cancel_left, Nat.sub_zero, mul_comm]
      · rw [upd_out (by omega), upd_out (i0 := Nup) (j0 := R) (by omega)]
        by_cases c2 : Nup ≤ i ∧ i < Nup + Ndown ∧ 0 ≤ j ∧ j < 0 + R
        · rw [upd_in' (by omega), upd_in' c2]
        · rw [upd_out (by omega), upd_out (by omega), a1 i (by omega)]
    · rw [Run_pure]
      refine ⟨fun i k => B k i, fun i j => V (Nup + i) (ofSwaps P.get R (R + j)) - ∑ k ∈ range R, B k i * V k (R + j), On.congr h2 (fun j hj i hi => ?_), hB',
        fun _ _ _ _ => rfl⟩
      simp only [op]
      rw [upd_out (i0 := Nup) (j0 := R) (by omega)]
      by_cases c2 : Nup ≤ i ∧ i < Nup + Ndown ∧ 0 ≤ j ∧ j < 0 + R
      · rw [upd_in' (by omega), upd_in' c2]
      · rw [upd_out (by omega), upd_out (by omega), a1 i (by omega)]

/-- permutation of the upper block -/
lemma ludPermTop_spec {Nup R R2 : ℕ} {P : Arr ℕ} (h : OnL ta m0 m W V) (hr : Nup ≤ lr ta W) (hc : R + R2 ≤ lc ta W) (hP : R + R2 ≤ P.len)
    (hp : ∀ i < R + R2, P.get i < lc ta W) :
    Run (ludPermTop ta Nup R R2 W.p W.ld P) m (fun _ m' => OnL ta m0 m' W (permCols 0 0 Nup (lc ta W) (swapsFrom P.get R R2) V)) := by
  have e1 : W.p = W.adr 0 0 := by simp only [Win.adr]; ring
  cases ta with
  | no =>
    simp only [lr, lc] at hr hc hp ⊢
    have h0 : On m0 m W V := h
    have := applyP_col (ibeg := R) (iend := R + R2) (i0 := 0) (j0 := 0) (r := Nup) (c := W.c) .yes h0 (by omega) (by omega) hc hP hp
    simp only [appliedPerm, Nat.add_sub_cancel_left, ← e1] at this
    exact this
  | yes =>
    simp only [lr, lc] at hr hc hp ⊢
    have h0 : On m0 m W (op .yes V) := h
    have := applyP_row (ibeg := R) (iend := R + R2) (i0 := 0) (j0 := 0) (r := W.r) (c := Nup) .no h0 (by omega) (by omega) hc hP hp
    simp only [appliedPerm, Nat.add_sub_cancel_left, ← e1] at this
    unfold OnL
    rw [op_permCols]
    exact this

/-- one row of the upper factor is moved up -/
lemma ludMove_spec {d : Diag} {Nup R t : ℕ} {Q : Arr ℕ} (h : OnL ta m0 m W V) (hr : Nup + t < lr ta W) (hR : R < Nup) (hc : R + t < lc ta W)
    (hQ : lr ta W ≤ Q.len) :
    Run (ludMove ta d (lc ta W) Nup R W.p W.ld t Q) m (fun Q' m' => Q'.len = Q.len ∧ Q'.get = Q.get ∘ Equiv.swap (R + t) (Nup + t) ∧
      OnL ta m0 m' W (fun i j => if i = R + t ∧ R + t + ub d ≤ j then V (Nup + t) j
        else if i = Nup + t ∧ R + t + ub d ≤ j then 0 else V i j)) := by
  have key : ∀ j0, R + t + ub d = j0 → ∀ i < lr ta W, ∀ j < lc ta W,
      upd (Nup + t) j0 1 (lc ta W - j0) (fun _ _ => 0) (upd (R + t) j0 1 (lc ta W - j0) (fun _ s => V (Nup + t) (j0 + s)) V) i j =
        if i = R + t ∧ R + t + ub d ≤ j then V (Nup + t) j else if i = Nup + t ∧ R + t + ub d ≤ j then 0 else V i j := by
    intro j0 hj0 i hi j hj
    rw [hj0]
    by_cases c1 : i = R + t ∧ j0 ≤ j
    · rw [if_pos c1, upd_out (by omega), upd_in' (by omega), show j0 + (j - j0) = j by omega]
    · rw [if_neg c1]
      by_cases c2 : i = Nup + t ∧ j0 ≤ j
      · rw [if_pos c2, upd_in' (by omega)]
      · rw [if_neg c2, upd_out (by omega), upd_out (by omega)]
  cases d with
  | nonUnit =>
    simp only [ludMove]
    have e1 : W.p + (R + t) * (W.ld + 1) = ladr ta W (R + t) (R + t) := by cases ta <;> simp only [ladr, Win.adr] <;> ring
    rw [e1, ladr_eq, Run_bind]
    refine (moveL_on h (by omega) (by omega) hr (by omega) (by omega)).mono (fun _ m1 h1 => ?_)
    rw [Run_bind]
    refine (zeroL_on h1 hr (by omega)).mono (fun _ m2 h2 => ?_)
    rw [Run_liftE]
    exact Ok_aswap _ _ _ _ (by omega) (by omega) ⟨rfl, rfl, h2.congr (key _ rfl)⟩
  | unit =>
    simp only [ludMove]
    rw [show R + 1 + t - 1 = R + t by omega, ladr_eq, ladr_eq, Run_bind]
    refine (moveL_on h (by omega) (by omega) hr (by omega) (by omega)).mono (fun _ m1 h1 => ?_)
    rw [Run_bind]
    refine (zeroL_on h1 hr (by omega)).mono (fun _ m2 h2 => ?_)
    rw [Run_liftE]
    exact Ok_aswap _ _ _ _ (by omega) (by omega) ⟨rfl, rfl, h2.congr (key _ (by simp only [ub]; omega))⟩

end Verif.FF
