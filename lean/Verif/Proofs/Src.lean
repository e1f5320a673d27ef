import Verif.Proofs.At

/-!
# Kernels that read other matrices

`Src m S f`: the window `S` is readable in `m` and contains `f`.  Sources disjoint from the matrix being modified keep their
contents.
-/

namespace Verif.FF

open Finset Verif.Spec Verif.Spec.Perm

variable {K : Type}

structure Src (m : Mem K) (S : Win) (f : ℕ → ℕ → K) : Prop where
  ok : OkIn m S
  ld : S.c ≤ S.ld
  val : ∀ i < S.r, ∀ j < S.c, m.val (S.adr i j) = f i j

variable {m0 m m' : Mem K} {S T W : Win} {f V U : ℕ → ℕ → K} {r c a b i0 j0 : ℕ}

lemma Src.step {g : ℕ → ℕ → K} (h : Src m S f) (s : Step m m' T g) (hd : S.Disj T) : Src m' S f :=
  ⟨h.ok.step s, h.ld, fun i hi j hj => by
    rw [s.frame _ (h.ok.adr hi hj) (hd _ (Win.Has_adr hi hj)), h.val i hi j hj]⟩

lemma Src.on (h : Src m0 S f) (s : On m0 m T U) (hd : S.Disj T) : Src m S f := h.step s.step hd

lemma Src.congr {f' : ℕ → ℕ → K} (h : Src m S f) (e : ∀ i < S.r, ∀ j < S.c, f i j = f' i j) : Src m S f' :=
  ⟨h.ok, h.ld, fun i hi j hj => (h.val i hi j hj).trans (e i hi j hj)⟩

lemma Src.sub (h : Src m S f) (a b : ℕ) (ha : a + r ≤ S.r) (hb : b + c ≤ S.c) : Src m (S.sub a b r c) (blk f a b) := by
  refine ⟨h.ok.of_sub ha hb, ?_, fun i hi j hj => ?_⟩
  · have := h.ld
    simp only [Win.sub]; omega
  · have hi : i < r := hi
    have hj : j < c := hj
    rw [Win.sub_adr]; exact h.val _ (by omega) _ (by omega)

lemma On.src (h : On m0 m W V) : Src m W V := ⟨h.ok', h.ld, fun _ hi _ hj => h.val hi hj⟩

/-- copy of a source into a block -/
lemma fassign_src [Field K] [DecidableEq K] (h : On m0 m W V) (hS : Src m S f) (hd : S.Disj W) (hr : i0 + S.r ≤ W.r) (hc : j0 + S.c ≤ W.c) {B : ℕ}
    (hB : B = W.adr i0 j0) :
    Run (fassign S.r S.c S.p S.ld B W.ld) m (fun _ m' => On m0 m' W (upd i0 j0 S.r S.c f V)) := by
  subst hB
  have hld := h.ld
  have hs : S.Disj (W.sub i0 j0 S.r S.c) := hd.sub_right hr hc
  refine (fassign_spec h.wf' hS.ok (h.ok'.of_sub hr hc) (by omega) (Win.Disj.safe hs rfl rfl)).mono (fun _ m' s => ?_)
  exact h.upd hr hc (s.congr (fun i hi j hj => hS.val i hi j hj))

section
variable [Field K] [DecidableEq K]

lemma fzero_on (h : On m0 m W V) (i0 j0 r c : ℕ) (hr : i0 + r ≤ W.r) (hc : j0 + c ≤ W.c) {B : ℕ} (hB : B = W.adr i0 j0) :
    Run (fzero r c B W.ld) m (fun _ m' => On m0 m' W (upd i0 j0 r c (fun _ _ => 0) V)) := by
  subst hB
  have hld := h.ld
  exact (fzero_spec h.wf' (h.ok'.of_sub hr hc) (by omega)).mono (fun _ m' s => h.upd hr hc s)

lemma fidentity_on (h : On m0 m W V) (i0 j0 r c : ℕ) (d : K) (hr : i0 + r ≤ W.r) (hc : j0 + c ≤ W.c) {B : ℕ} (hB : B = W.adr i0 j0) :
    Run (fidentity r c B W.ld d) m (fun _ m' => On m0 m' W (upd i0 j0 r c (fun i j => if i = j then d else 0) V)) := by
  subst hB
  have hld := h.ld
  exact (fidentity_spec d h.wf' (h.ok'.of_sub hr hc) (by omega)).mono (fun _ m' s => h.upd hr hc s)

lemma fiszero_on (h : On m0 m W V) (i0 j0 r c : ℕ) (hr : i0 + r ≤ W.r) (hc : j0 + c ≤ W.c) {B : ℕ} (hB : B = W.adr i0 j0) :
    Run (fiszero r c B W.ld) m (fun b m' => m' = m ∧ (b = true ↔ ∀ i < r, ∀ j < c, V (i0 + i) (j0 + j) = 0)) := by
  subst hB
  refine (fiszero_spec (A := W.adr i0 j0) (lda := W.ld) (M := r) (N := c) (h.ok'.of_sub hr hc)).mono ?_
  rintro b m' ⟨rfl, e⟩
  refine ⟨rfl, e.trans ?_⟩
  have key : ∀ i < r, ∀ j < c, m'.mat ⟨W.adr i0 j0, W.ld, r, c⟩ i j = V (i0 + i) (j0 + j) := fun i hi j hj => h.blk hr hc hi hj
  constructor
  · intro hh i hi j hj; rw [← key i hi j hj]; exact hh i hi j hj
  · intro hh i hi j hj; rw [key i hi j hj]; exact hh i hi j hj

omit [DecidableEq K] in
/-- product of two sources -/
lemma gemm_src {g : GemmFn K} (hg : GemmOk g) (h : On m0 m W V) {X Y : Win} {x y : ℕ → ℕ → K} (sx : Src m X x) (sy : Src m Y y)
    (i0 j0 : ℕ) (hk : X.c = Y.r) (hr : i0 + X.r ≤ W.r) (hc : j0 + Y.c ≤ W.c) (dx : X.Disj (W.sub i0 j0 X.r Y.c))
    (dy : Y.Disj (W.sub i0 j0 X.r Y.c)) (alpha beta : K) {B : ℕ} (hB : B = W.adr i0 j0) :
    Run (g .no .no X.r Y.c Y.r alpha X.p X.ld Y.p Y.ld beta B W.ld) m
      (fun _ m' => On m0 m' W (upd i0 j0 X.r Y.c (fun i j =>
        alpha * (∑ l ∈ range Y.r, x i l * y l j) + beta * V (i0 + i) (j0 + j)) V)) := by
  subst hB
  have hld := h.ld
  have P : GPre m .no .no X.r Y.c Y.r X.p X.ld Y.p Y.ld (W.adr i0 j0) W.ld :=
    ⟨h.wf', by rw [← hk]; exact sx.ok, sy.ok, h.ok'.of_sub hr hc, by simp only [opc]; rw [← hk]; exact sx.ld, sy.ld,
      by omega, by rw [← hk]; exact dx, dy⟩
  refine (hg _ _ _ _ _ m alpha _ _ _ _ beta _ _ P).mono (fun _ m' s => h.upd hr hc (Step.congr s (fun i hi j hj => ?_)))
  have hi : i < X.r := hi
  have hj : j < Y.c := hj
  unfold gval
  rw [show m.mat ⟨W.adr i0 j0, W.ld, X.r, Y.c⟩ i j = V (i0 + i) (j0 + j) from h.blk hr hc hi hj]
  congr 2
  refine sum_congr rfl (fun l hl => ?_)
  have hl := mem_range.1 hl
  exact congrArg₂ (· * ·) (sx.val i hi l (by omega)) (sy.val l hl j hj)

omit [Field K] [DecidableEq K] in
lemma Src.tri [Field K] {e : Uplo} {d : Diag} {ta : Tr} {B : Win} (hS : Src m S f) (hw : WF m) (hB : OkIn m B) (hl : B.c ≤ B.ld) (hsq : S.c = S.r)
    (hd : S.Disj B) : TrPre m e d ta S.r S.p S.ld B := by
  have key : ∀ i j, i < S.r → j < S.r → ∃ i' < S.r, ∃ j' < S.r, opAdr ta S.p S.ld i j = S.adr i' j' := by
    intro i j hi hj
    cases ta with
    | no => exact ⟨i, hi, j, hj, rfl⟩
    | yes => exact ⟨j, hj, i, hi, rfl⟩
  refine ⟨hw, hB, hl, by rw [← hsq]; exact hS.ld, fun i hi j hj _ => ?_, fun i hi j hj _ => ?_⟩
  · obtain ⟨i', hi', j', hj', e⟩ := key i j hi hj
    rw [e]; exact hS.ok.adr hi' (by omega)
  · obtain ⟨i', hi', j', hj', e⟩ := key i j hi hj
    rw [e]; exact hd _ (Win.Has_adr hi' (by omega))

omit [DecidableEq K] in
/-- solve with a triangle read from elsewhere -/
lemma trsm_src {t : TrFn K} (ht : TrsmOk t) (h : On m0 m W V) (hS : Src m S f) (hsq : S.c = S.r) (side : Side) (u : Uplo) (d : Diag) (alpha : K)
    (i0 j0 r c : ℕ) (hn : Spec.sideDim side r c = S.r)
    (hr : i0 + r ≤ W.r) (hc : j0 + c ≤ W.c) (hd : S.Disj (W.sub i0 j0 r c)) (hnz : d = .nonUnit → ∀ i < S.r, f i i ≠ 0) {B : ℕ} (hB : B = W.adr i0 j0) :
    Run (t side u .no d r c alpha S.p S.ld B W.ld) m (fun _ m' => ∃ X, On m0 m' W (upd i0 j0 r c X V) ∧
      ∀ i < r, ∀ j < c, Spec.sideMul side S.r (Spec.tri u d f) X i j = alpha * V (i0 + i) (j0 + j)) := by
  subst hB
  have hld := h.ld
  have pre : TrPre m (effUplo u .no) d .no (Spec.sideDim side r c) S.p S.ld (W.sub i0 j0 r c) := by
    rw [hn]
    exact hS.tri h.wf' (h.ok'.of_sub hr hc) (by simp only [Win.sub]; omega) hsq hd
  have nz : DiagNZ m d .no (Spec.sideDim side r c) S.p S.ld := by
    intro hu i hi
    rw [hn] at hi
    have := hS.val i hi i (by omega)
    show m.val (S.adr i i) ≠ 0
    rw [this]; exact hnz hu i hi
  refine (ht m side u .no d r c alpha S.p S.ld (W.adr i0 j0) W.ld pre nz).mono (fun _ m' s => ?_)
  obtain ⟨X, s, hX⟩ := s
  refine ⟨X, h.upd hr hc s, fun i hi j hj => ?_⟩
  have := hX i hi j hj
  rw [show m.mat ⟨W.adr i0 j0, W.ld, r, c⟩ i j = V (i0 + i) (j0 + j) from h.blk hr hc hi hj] at this
  rw [← this, hn]
  refine sideMul_congr (r := r) (c := c) hn.symm hi hj (fun i hi j hj => ?_) (fun _ _ _ _ => rfl)
  exact tri_congr (fun i hi j hj => (hS.val i hi j (by omega)).symm) hi hj

omit [DecidableEq K] in
/-- product with a triangle read from elsewhere -/
lemma trmm_src {t : TrFn K} (ht : TrmmOk t) (h : On m0 m W V) (hS : Src m S f) (hsq : S.c = S.r) (side : Side) (u : Uplo) (d : Diag) (alpha : K)
    (i0 j0 r c : ℕ) (hn : Spec.sideDim side r c = S.r)
    (hr : i0 + r ≤ W.r) (hc : j0 + c ≤ W.c) (hd : S.Disj (W.sub i0 j0 r c)) {B : ℕ} (hB : B = W.adr i0 j0) :
    Run (t side u .no d r c alpha S.p S.ld B W.ld) m (fun _ m' => On m0 m' W (upd i0 j0 r c (fun i j =>
      alpha * Spec.sideMul side S.r (Spec.tri u d f) (blk V i0 j0) i j) V)) := by
  subst hB
  have hld := h.ld
  have pre : TrPre m (effUplo u .no) d .no (Spec.sideDim side r c) S.p S.ld (W.sub i0 j0 r c) := by
    rw [hn]
    exact hS.tri h.wf' (h.ok'.of_sub hr hc) (by simp only [Win.sub]; omega) hsq hd
  refine (ht m side u .no d r c alpha S.p S.ld (W.adr i0 j0) W.ld pre).mono (fun _ m' s => ?_)
  refine h.upd hr hc (Step.congr s (fun i hi j hj => ?_))
  congr 1
  rw [hn]
  refine sideMul_congr (r := r) (c := c) hn.symm hi hj (fun i hi j hj => ?_) (fun i hi j hj => h.blk hr hc hi hj)
  exact tri_congr (fun i hi j hj => hS.val i hi j (by omega)) hi hj

omit [DecidableEq K] in
/-- solve with a triangle inside a source, blocks given by address -/
lemma trsm_at {t : TrFn K} (ht : TrsmOk t) (h : On m0 m W V) (hS : Src m S f) (hd : S.Disj W) (side : Side) (u : Uplo) (d : Diag) (alpha : K)
    (a b i0 j0 r c n : ℕ) (hn : Spec.sideDim side r c = n) (ha : a + n ≤ S.r) (hb : b + n ≤ S.c)
    (hr : i0 + r ≤ W.r) (hc : j0 + c ≤ W.c) (hnz : d = .nonUnit → ∀ i < n, f (a + i) (b + i) ≠ 0) {A B : ℕ} (hA : A = S.adr a b)
    (hB : B = W.adr i0 j0) :
    Run (t side u .no d r c alpha A S.ld B W.ld) m (fun _ m' => ∃ X, On m0 m' W (upd i0 j0 r c X V) ∧
      ∀ i < r, ∀ j < c, Spec.sideMul side n (Spec.tri u d (blk f a b)) X i j = alpha * V (i0 + i) (j0 + j)) := by
  subst hA
  exact trsm_src ht h (hS.sub (r := n) (c := n) a b ha hb) rfl side u d alpha i0 j0 r c hn hr hc ((hd.sub_left ha hb).sub_right hr hc) hnz hB

omit [DecidableEq K] in
/-- product with a triangle inside a source, blocks given by address -/
lemma trmm_at {t : TrFn K} (ht : TrmmOk t) (h : On m0 m W V) (hS : Src m S f) (hd : S.Disj W) (side : Side) (u : Uplo) (d : Diag) (alpha : K)
    (a b i0 j0 r c n : ℕ) (hn : Spec.sideDim side r c = n) (ha : a + n ≤ S.r) (hb : b + n ≤ S.c)
    (hr : i0 + r ≤ W.r) (hc : j0 + c ≤ W.c) {A B : ℕ} (hA : A = S.adr a b) (hB : B = W.adr i0 j0) :
    Run (t side u .no d r c alpha A S.ld B W.ld) m (fun _ m' => On m0 m' W (upd i0 j0 r c (fun i j =>
      alpha * Spec.sideMul side n (Spec.tri u d (blk f a b)) (blk V i0 j0) i j) V)) := by
  subst hA
  exact trmm_src ht h (hS.sub (r := n) (c := n) a b ha hb) rfl side u d alpha i0 j0 r c hn hr hc ((hd.sub_left ha hb).sub_right hr hc) hB

omit [DecidableEq K] in
/-- product of blocks of two sources, blocks given by address -/
lemma gemm_at {g : GemmFn K} (hg : GemmOk g) (h : On m0 m W V) {X Y : Win} {x y : ℕ → ℕ → K} (sx : Src m X x) (sy : Src m Y y)
    (ax bx ay bY i0 j0 r c k : ℕ) (hx1 : ax + r ≤ X.r) (hx2 : bx + k ≤ X.c) (hy1 : ay + k ≤ Y.r) (hy2 : bY + c ≤ Y.c)
    (hr : i0 + r ≤ W.r) (hc : j0 + c ≤ W.c) (dx : (X.sub ax bx r k).Disj (W.sub i0 j0 r c))
    (dy : (Y.sub ay bY k c).Disj (W.sub i0 j0 r c)) (alpha beta : K) {A B C : ℕ} (hA : A = X.adr ax bx) (hB : B = Y.adr ay bY)
    (hC : C = W.adr i0 j0) :
    Run (g .no .no r c k alpha A X.ld B Y.ld beta C W.ld) m
      (fun _ m' => On m0 m' W (upd i0 j0 r c (fun i j =>
        alpha * (∑ l ∈ range k, x (ax + i) (bx + l) * y (ay + l) (bY + j)) + beta * V (i0 + i) (j0 + j)) V)) := by
  subst hA hB
  exact gemm_src hg h (sx.sub (r := r) (c := k) ax bx hx1 hx2) (sy.sub (r := k) (c := c) ay bY hy1 hy2) i0 j0 rfl hr hc dx dy alpha beta hC

/-- copy of a block of a source, given by address -/
lemma fassign_at (h : On m0 m W V) (hS : Src m S f) (hd : S.Disj W) (a b i0 j0 r c : ℕ) (ha : a + r ≤ S.r) (hb : b + c ≤ S.c)
    (hr : i0 + r ≤ W.r) (hc : j0 + c ≤ W.c) {A B : ℕ} (hA : A = S.adr a b) (hB : B = W.adr i0 j0) :
    Run (fassign r c A S.ld B W.ld) m (fun _ m' => On m0 m' W (upd i0 j0 r c (blk f a b) V)) := by
  subst hA
  exact fassign_src h (hS.sub (r := r) (c := c) a b ha hb) (hd.sub_left ha hb) hr hc hB

/-- rows of a block permuted back by a whole array -/
lemma rowsPinv_on {P : Arr ℕ} (h : On m0 m W V) (i0 j0 : ℕ) {A : ℕ} (hA : A = W.adr i0 j0) (hr : i0 + r ≤ W.r) (hc : j0 + c ≤ W.c)
    (hP : P.len = r) (hp : ∀ i < r, P.get i < r) : Run (applyP .left .yes c 0 r A W.ld P) m
      (fun _ m' => On m0 m' W (permRows i0 j0 r c ((ofSwaps P.get r)⁻¹ : Equiv.Perm ℕ) V)) := by
  subst hA
  have := applyP_row (ibeg := 0) (iend := r) .yes h hr hc le_rfl hP.ge hp
  have e := swapsDown_eq P.get 0 r
  rw [Nat.zero_add, swapsFrom_zero] at e
  simpa only [appliedPerm, Nat.sub_zero, e] using this

/-- columns of a block permuted back by a whole array -/
lemma colsPinv_on {P : Arr ℕ} (h : On m0 m W V) (i0 j0 : ℕ) {A : ℕ} (hA : A = W.adr i0 j0) (hr : i0 + r ≤ W.r) (hc : j0 + c ≤ W.c)
    (hP : P.len = c) (hp : ∀ i < c, P.get i < c) : Run (applyP .right .no r 0 c A W.ld P) m
      (fun _ m' => On m0 m' W (permCols i0 j0 r c ((ofSwaps P.get c)⁻¹ : Equiv.Perm ℕ) V)) := by
  subst hA
  have := applyP_col (ibeg := 0) (iend := c) .no h hr hc le_rfl hP.ge hp
  have e := swapsDown_eq P.get 0 c
  rw [Nat.zero_add, swapsFrom_zero] at e
  simpa only [appliedPerm, Nat.sub_zero, e] using this

omit [Field K] [DecidableEq K] in
/-- two blocks of a matrix -/
lemma On.disj2 (h : On m0 m W V) (a b a2 b2 : ℕ) {r c r2 c2 : ℕ} (hr : a + r ≤ W.r) (hc : b + c ≤ W.c) (hr2 : a2 + r2 ≤ W.r) (hc2 : b2 + c2 ≤ W.c)
    (hs : a + r ≤ a2 ∨ a2 + r2 ≤ a ∨ b + c ≤ b2 ∨ b2 + c2 ≤ b) : (W.sub a b r c).Disj (W.sub a2 b2 r2 c2) :=
  Win.sub_Disj h.inj hr hc hr2 hc2 hs

end

end Verif.FF
