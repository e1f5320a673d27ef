import Verif.Model.Checkers
import Verif.Proofs.Src
import Verif.Proofs.Level2
import Verif.Proofs.ApplyP
import Verif.Proofs.SolveMath

/-!
# Programs with scratch vectors; the checkers
-/

namespace Verif.FF

open Finset Verif.Spec Verif.Spec.Perm

variable {K : Type}

/-- Since `m0` the program has allocated the cells `T`, changed at most the window `W` of the old cells, and not freed any old
cell. -/
structure Ext (m0 m : Mem K) (T : ℕ → Prop) (W : Win) : Prop where
  wf0 : WF m0
  wf : WF m
  next : m0.next ≤ m.next
  ok : ∀ a, m.ok a = true ↔ m0.ok a = true ∨ T a
  new : ∀ a, T a → m0.next ≤ a
  frame : ∀ a, m0.ok a = true → ¬ W.Has a → m.val a = m0.val a

section
variable {m0 m m' : Mem K} {T T' : ℕ → Prop} {W S V : Win} {f g : ℕ → ℕ → K} {n p a : ℕ}

lemma _root_.Verif.WF.lt' (h : WF m) (ha : m.ok a = true) : a < m.next := by
  by_contra hc
  rw [h a (by omega)] at ha
  exact absurd ha (by simp)

lemma Ext.start (h : WF m) (W : Win) : Ext m m (fun _ => False) W :=
  ⟨h, h, le_rfl, fun a => by simp, fun _ h => h.elim, fun _ _ _ => rfl⟩

/-- old windows are still there -/
lemma Ext.okin (h : Ext m0 m T W) (hS : OkIn m0 S) : OkIn m S := fun a ha => (h.ok a).2 (Or.inl (hS a ha))

/-- the first cell of a scratch vector -/
lemma Ext.has (h : Ext m0 m T W) (hS : OkIn m0 S) (hp : m0.next ≤ p) (inc : ℕ) : S.Disj (vw p inc n) := by
  rintro a ha ⟨i, hi, j, hj, rfl⟩
  have := WF.lt' h.wf0 (hS _ ha)
  simp only [Win.adr] at this
  omega

/-- disjoint scratch vectors -/
lemma vw_disj {q k : ℕ} (h : p + n ≤ q ∨ q + k ≤ p) : (vw p 1 n).Disj (vw q 1 k) := by
  rintro a ⟨i, hi, j, hj, rfl⟩ ⟨i', hi', j', hj', e⟩
  simp only [Win.adr] at *
  omega

lemma Ext.alloc (h : Ext m0 m T W) (n : ℕ) : Run (alloc n) m (fun p m' => p = m.next ∧ m'.next = p + n ∧
    Ext m0 m' (fun a => T a ∨ p ≤ a ∧ a < p + n) W ∧ OkIn m' (vw p 1 n) ∧ ∀ S f, Src m S f → Src m' S f) := by
  rw [Run_alloc]
  refine ⟨rfl, rfl, ⟨h.wf0, h.wf.grow n, le_trans h.next (Nat.le_add_right _ _), fun a => ?_, fun a ha => ?_, h.frame⟩, ?_, ?_⟩
  · simp only [Bool.or_eq_true, Bool.and_eq_true, decide_eq_true_eq, h.ok a]; tauto
  · rcases ha with ha | ha
    · exact h.new a ha
    · have := h.next; omega
  · rintro a ⟨i, hi, j, hj, rfl⟩
    have hi : i < n := hi
    obtain rfl : j = 0 := by simpa using hj
    simp [Win.adr, hi]
  · rintro S f ⟨h1, h2, h3⟩
    exact ⟨fun a ha => by simp [h1 a ha], h2, h3⟩

lemma Ext.free (h : Ext m0 m T W) {p n : ℕ} (hp : m0.next ≤ p) : Run (free p n) m (fun _ m' => m'.next = m.next ∧ m'.val = m.val ∧
    Ext m0 m' (fun a => T a ∧ ¬ (p ≤ a ∧ a < p + n)) W ∧
    ∀ S f, Src m S f → S.Disj (vw p 1 n) → Src m' S f) := by
  rw [Run_free]
  refine ⟨rfl, rfl, ⟨h.wf0, fun a ha => ?_, h.next, fun a => ?_, fun a ha => h.new a ha.1, h.frame⟩, ?_⟩
  · simp only at ha ⊢
    rw [h.wf a ha]; rfl
  · simp only [Bool.and_eq_true, Bool.not_eq_true', Bool.and_eq_false_iff, decide_eq_false_iff_not, h.ok a]
    constructor
    · rintro ⟨h1 | h1, h2⟩
      · exact Or.inl h1
      · exact Or.inr ⟨h1, by tauto⟩
    · rintro (h1 | h1)
      · have := WF.lt' h.wf0 h1
        exact ⟨Or.inl h1, Or.inl (by omega)⟩
      · exact ⟨Or.inr h1.1, by tauto⟩
  · rintro S f ⟨h1, h2, h3⟩ hd
    refine ⟨fun a ha => ?_, h2, h3⟩
    have h4 := hd a ha
    simp only [Bool.and_eq_true, Bool.not_eq_true', Bool.and_eq_false_iff, decide_eq_false_iff_not, h1 a ha, true_and]
    by_contra hc
    apply h4
    refine ⟨a - p, ?_, 0, Nat.one_pos, ?_⟩ <;> simp only [Win.adr] <;> omega

/-- a scratch vector has been written -/
lemma Ext.step (h : Ext m0 m T W) (s : Step m m' V g) (hV : ∀ a, V.Has a → m0.next ≤ a) : Ext m0 m' T W :=
  ⟨h.wf0, h.wf.step s, le_trans h.next s.next, fun a => by rw [s.ok, h.ok a], h.new, fun a ha hW => by
    rw [s.frame a ((h.ok a).2 (Or.inl ha)) (fun hc => ?_), h.frame a ha hW]
    have := hV a hc
    have := WF.lt' h.wf0 ha
    omega⟩

lemma vw_new {q : ℕ} (h : q ≤ p) : ∀ a, (vw p 1 n).Has a → q ≤ a := by
  rintro a ⟨i, hi, j, hj, rfl⟩
  simp only [Win.adr]; omega

/-- the body has rewritten `W` -/
lemma Ext.body (h : Ext m0 m T W) (s : Step m m' W g) : Ext m0 m' T W :=
  ⟨h.wf0, h.wf.step s, le_trans h.next s.next, fun a => by rw [s.ok, h.ok a], h.new, fun a ha hW => by
    rw [s.frame a ((h.ok a).2 (Or.inl ha)) hW, h.frame a ha hW]⟩

/-- all scratch vectors are freed -/
lemma Ext.done (h : Ext m0 m T W) (hT : ∀ a, ¬ T a) : m.ok = m0.ok ∧ ∀ a, m0.ok a = true → ¬ W.Has a → m.val a = m0.val a :=
  ⟨funext (fun a => Bool.eq_iff_iff.2 ((h.ok a).trans (by simp [hT a]))), h.frame⟩

/-- contents of the window written -/
lemma Src.of_step (hW : OkIn m W) (hl : W.c ≤ W.ld) (s : Step m m' W g) : Src m' W g := ⟨hW.step s, hl, s.val⟩

lemma Src.of_ok (hW : OkIn m W) (hl : W.c ≤ W.ld) : Src m W (m.mat W) := ⟨hW, hl, fun _ _ _ _ => rfl⟩

lemma Src.vec {x : ℕ → ℕ → K} (h : Src m (vw p 1 n) x) {i : ℕ} (hi : i < n) : m.val (p + i) = x i 0 := by
  have := h.val i hi 0 Nat.one_pos
  simpa only [Win.adr, Nat.mul_one, Nat.add_zero] using this

lemma frand_spec {rnd : ℕ → K} (hX : OkIn m (vw p 1 n)) : Run (frand rnd n p) m (fun _ m' => Step m m' (vw p 1 n) (fun i _ => rnd i)) := by
  unfold frand
  have : Run (loop n fun i => store (p + i * 1) (rnd i)) m (fun _ m' => Step m m' (vw p 1 n) (fun i _ => rnd i)) := by
    refine Run_vec rnd hX (vw_Inj Nat.one_pos) ?_
    intro t ht m' h1 h2
    simp only [Run_store, h1, OkIn_vw hX ht, and_self]
  simpa only [Nat.mul_one] using this

end

section
variable [Field K] [DecidableEq K] {m0 m m' : Mem K} {S : Win} {f x y : ℕ → ℕ → K} {X Y Xd Yd : ℕ}

/-- `fgemv` on sources -/
lemma fgemv_src (cat : Cat) (t : Tr) (a b : ℕ) (alpha beta : K) (hm : WF m) {A lda : ℕ} (hA : Src m (aw t a b A lda) f) (hX : Src m (vw X 1 b) x)
    (hY : OkIn m (vw Y 1 a)) (hy : beta = 0 ∨ Src m (vw Y 1 a) y) (h0 : b ≠ 0 ∨ t = .no) (dA : (aw t a b A lda).Disj (vw Y 1 a))
    (dX : (vw X 1 b).Disj (vw Y 1 a)) :
    Run (fgemv cat t (opr t a b) (opc t a b) alpha A lda X 1 beta Y 1) m (fun _ m' => Step m m' (vw Y 1 a) (fun i _ =>
      alpha * (∑ k ∈ range b, Spec.op t f i k * x k 0) + beta * y i 0)) := by
  have key := fgemv_spec cat t (M := opr t a b) (N := opc t a b) (A := A) (lda := lda) (X := X) (incX := 1) (Y := Y) (incY := 1)
    (Xd := b) (Yd := a) alpha beta (by cases t <;> rfl) (by cases t <;> rfl)
    (by cases t with
      | no => exact Or.inr rfl
      | yes => left; simpa [opr] using h0) hm hA.ok hA.ld hX.ok hY Nat.one_pos dA dX
  refine key.mono (fun _ m' s => s.congr (fun i hi j hj => ?_))
  have hi : i < a := hi
  congr 1
  · congr 1
    refine sum_congr rfl (fun k hk => ?_)
    have hk := mem_range.1 hk
    rw [Nat.mul_one, hX.vec hk]
    congr 1
    cases t with
    | no => exact hA.val i hi k hk
    | yes => exact hA.val k hk i hi
  · rcases hy with rfl | hy
    · rw [zero_mul, zero_mul]
    · rw [Nat.mul_one, hy.vec hi]

/-- the accumulating test of `freivalds` -/
lemma allzero_spec {n : ℕ} (hX : OkIn m (vw X 1 n)) :
    Run (iter n (fun j pass => do
      let e ← load (X + j)
      pure (pass && decide (e = 0))) true) m (fun b m' => m' = m ∧ (b = true ↔ ∀ i < n, m.val (X + i) = 0)) := by
  refine Run_iter (fun k b m' => m' = m ∧ (b = true ↔ ∀ i < k, m.val (X + i) = 0)) ⟨rfl, by simp⟩ ?_
  rintro k b m' hk ⟨rfl, hb⟩
  have := OkIn_vw hX hk
  rw [Nat.mul_one] at this
  simp only [Run_bind, Run_load, Run_pure, this, true_and, Bool.and_eq_true, decide_eq_true_eq, hb]
  constructor
  · rintro ⟨h1, h2⟩ i hi
    rcases Nat.lt_succ_iff_lt_or_eq.1 hi with h' | rfl
    · exact h1 i h'
    · exact h2
  · intro h
    exact ⟨fun i hi => h i (by omega), h k (by omega)⟩

omit [DecidableEq K] in
/-- `y = op(B) v`, `x = alpha op(A) y - C v` -/
lemma residual_eq (k n : ℕ) (alpha : K) (a b c : ℕ → ℕ → K) (v : ℕ → K) (i : ℕ) :
    alpha * (∑ l ∈ range k, a i l * ∑ j ∈ range n, b l j * v j) - ∑ j ∈ range n, c i j * v j =
      ∑ j ∈ range n, (alpha * Spec.mul k a b i j - c i j) * v j := by
  have : ∑ l ∈ range k, a i l * ∑ j ∈ range n, b l j * v j = ∑ j ∈ range n, Spec.mul k a b i j * v j := by
    simp only [Spec.mul, Finset.mul_sum, Finset.sum_mul]
    rw [Finset.sum_comm]
    exact sum_congr rfl (fun j _ => sum_congr rfl (fun l _ => by ring))
  rw [this, Finset.mul_sum, ← Finset.sum_sub_distrib]
  exact sum_congr rfl (fun j _ => by ring)

theorem freivalds_spec (cat : Cat) (rnd : ℕ → K) (ta tb : Tr) {M n k A lda B ldb C ldc : ℕ} (alpha : K) {fa fb fc : ℕ → ℕ → K} (hm : WF m)
    (sA : Src m (aw ta M k A lda) fa) (sB : Src m (aw tb k n B ldb) fb) (sC : Src m ⟨C, ldc, M, n⟩ fc) (hk : k ≠ 0 ∨ ta = .no)
    (hn : n ≠ 0 ∨ tb = .no) :
    Run (freivalds cat rnd ta tb M n k alpha A lda B ldb C ldc) m (fun b m' => m'.ok = m.ok ∧ (∀ a, m.ok a = true → m'.val a = m.val a) ∧
      (b = true ↔ ∀ i < M, ∑ j ∈ range n, (alpha * Spec.mul k (Spec.op ta fa) (Spec.op tb fb) i j - fc i j) * rnd j = 0)) := by
  unfold freivalds
  have e0 := Ext.start hm ⟨0, 0, 0, 0⟩
  rw [Run_bind]
  refine (e0.alloc n).mono ?_
  rintro v m1 ⟨hv, n1, e1, okv, k1⟩
  rw [Run_bind]
  refine (e1.alloc k).mono ?_
  rintro y m2 ⟨hy, n2, e2, oky, k2⟩
  rw [Run_bind]
  refine (e2.alloc M).mono ?_
  rintro x m3 ⟨hx, n3, e3, okx, k3⟩
  have okv3 : OkIn m3 (vw v 1 n) := (k3 _ _ (k2 _ _ (Src.of_ok okv le_rfl))).ok
  have oky3 : OkIn m3 (vw y 1 k) := (k3 _ _ (Src.of_ok oky le_rfl)).ok
  have pv : m.next ≤ v := by omega
  have py : m.next ≤ y := by omega
  have px : m.next ≤ x := by omega
  have dA : ∀ p q, m.next ≤ p → (aw ta M k A lda).Disj (vw p 1 q) := fun p q h => e3.has sA.ok h 1
  have dB : ∀ p q, m.next ≤ p → (aw tb k n B ldb).Disj (vw p 1 q) := fun p q h => e3.has sB.ok h 1
  have dC : ∀ p q, m.next ≤ p → (Win.mk C ldc M n).Disj (vw p 1 q) := fun p q h => e3.has sC.ok h 1
  have sA := k3 _ _ (k2 _ _ (k1 _ _ sA))
  have sB := k3 _ _ (k2 _ _ (k1 _ _ sB))
  have sC := k3 _ _ (k2 _ _ (k1 _ _ sC))
  rw [Run_bind]
  refine (frand_spec (rnd := rnd) okv3).mono ?_
  rintro - m4 s4
  have e4 := e3.step s4 (vw_new pv)
  have sv := Src.of_step okv3 le_rfl s4
  have sA := sA.step s4 (dA _ _ pv)
  have sB := sB.step s4 (dB _ _ pv)
  have sC := sC.step s4 (dC _ _ pv)
  rw [Run_bind]
  refine (fgemv_src (y := fun _ _ => 0) cat tb k n 1 0 e4.wf sB sv (oky3.step s4) (Or.inl rfl) hn (dB _ _ py) (vw_disj (by omega))).mono ?_
  rintro - m5 s5
  have e5 := e4.step s5 (vw_new py)
  have sy := Src.of_step (oky3.step s4) le_rfl s5
  have sv := sv.step s5 (vw_disj (by omega))
  have sA := sA.step s5 (dA _ _ py)
  have sC := sC.step s5 (dC _ _ py)
  rw [Run_bind]
  refine (fgemv_src (y := fun _ _ => 0) cat ta M k alpha 0 e5.wf sA sy ((okx.step s4).step s5) (Or.inl rfl) hk (dA _ _ px) (vw_disj (by omega))).mono ?_
  rintro - m6 s6
  have e6 := e5.step s6 (vw_new px)
  have sx := Src.of_step ((okx.step s4).step s5) le_rfl s6
  have sv := sv.step s6 (vw_disj (by omega))
  have sC := sC.step s6 (dC _ _ px)
  rw [Run_bind]
  refine (fgemv_src cat .no M n (-1) 1 e6.wf sC sv sx.ok (Or.inr sx) (Or.inr rfl) (dC _ _ px) (vw_disj (by omega))).mono ?_
  rintro - m7 s7
  have e7 := e6.step s7 (vw_new px)
  have sx := Src.of_step sx.ok le_rfl s7
  rw [Run_bind]
  refine (allzero_spec sx.ok).mono ?_
  rintro b m8 ⟨rfl, hb⟩
  rw [Run_bind]
  refine (e7.free (n := k) py).mono ?_
  rintro - m9 ⟨-, -, e9, -⟩
  rw [Run_bind]
  refine (e9.free (n := n) pv).mono ?_
  rintro - m10 ⟨-, -, e10, -⟩
  rw [Run_bind]
  refine (e10.free (n := M) px).mono ?_
  rintro - m11 ⟨-, -, e11, -⟩
  rw [Run_pure]
  obtain ⟨h1, h2⟩ := e11.done (fun a => by simp only [false_or]; omega)
  refine ⟨h1, fun a ha => h2 a ha (fun ⟨i, hi, _⟩ => absurd hi (Nat.not_lt_zero _)), hb.trans (forall₂_congr (fun i hi => ?_))⟩
  rw [sx.vec hi, ← residual_eq]
  simp only [one_mul, zero_mul, add_zero, Spec.op, neg_one_mul]
  rw [neg_add_eq_sub]

/-- the scratch vectors of a checker -/
structure Scr (m0 m : Mem K) (v w n M : ℕ) (W : Win) : Prop where
  ext : Ext m0 m (fun a => v ≤ a ∧ a < v + n ∨ w ≤ a ∧ a < w + M) W
  pv : m0.next ≤ v
  pw : v + n ≤ w
  hi : w + M ≤ m.next
  okv : OkIn m (vw v 1 n)
  okw : OkIn m (vw w 1 M)

omit [Field K] [DecidableEq K] in
lemma Scr.pw' {v w n M : ℕ} {W : Win} (h : Scr m0 m v w n M W) : m0.next ≤ w := by have := h.pv; have := h.pw; omega

omit [Field K] [DecidableEq K] in
/-- a step on one of the vectors -/
lemma Scr.step {v w n M : ℕ} {W V : Win} {g : ℕ → ℕ → K} (h : Scr m0 m v w n M W) (s : Step m m' V g) (hV : ∀ a, V.Has a → m0.next ≤ a) :
    Scr m0 m' v w n M W :=
  ⟨h.ext.step s hV, h.pv, h.pw, le_trans h.hi s.next, h.okv.step s, h.okw.step s⟩

omit [Field K] [DecidableEq K] in
lemma Scr.body {v w n M : ℕ} {W : Win} {g : ℕ → ℕ → K} (h : Scr m0 m v w n M W) (s : Step m m' W g) : Scr m0 m' v w n M W :=
  ⟨h.ext.body s, h.pv, h.pw, le_trans h.hi s.next, h.okv.step s, h.okw.step s⟩

omit [Field K] [DecidableEq K] in
/-- the old cells are allocated and, outside the window, unchanged -/
lemma Ext.src {T : ℕ → Prop} {W : Win} (h : Ext m0 m T W) (hS : Src m0 S f) (hd : S.Disj W) : Src m S f :=
  ⟨h.okin hS.ok, hS.ld, fun i hi j hj => by
    rw [h.frame _ (hS.ok.adr hi hj) (hd _ (Win.Has_adr hi hj)), hS.val i hi j hj]⟩

omit [Field K] [DecidableEq K] in
lemma Ext.weaken {T : ℕ → Prop} (h : Ext m0 m T ⟨0, 0, 0, 0⟩) (W : Win) : Ext m0 m T W :=
  ⟨h.wf0, h.wf, h.next, h.ok, h.new, fun a ha _ => h.frame a ha (fun ⟨i, hi, _⟩ => absurd hi (Nat.not_lt_zero _))⟩

theorem checkInit_spec (cat : Cat) (rnd : ℕ → K) {M n X ldx : ℕ} (c : K) {fx : ℕ → ℕ → K} (hm : WF m) (sX : Src m ⟨X, ldx, M, n⟩ fx) (W : Win) :
    Run (checkInit cat rnd M n c X ldx) m (fun p m' => Scr m m' p.1 p.2 n M W ∧ Src m' (vw p.1 1 n) (fun j _ => rnd j) ∧
      Src m' (vw p.2 1 M) (fun i _ => c * ∑ j ∈ range n, fx i j * rnd j) ∧ ∀ a, m.ok a = true → m'.val a = m.val a) := by
  unfold checkInit
  have e0 := Ext.start hm ⟨0, 0, 0, 0⟩
  rw [Run_bind]
  refine (e0.alloc n).mono ?_
  rintro v m1 ⟨hv, n1, e1, okv, k1⟩
  rw [Run_bind]
  refine (e1.alloc M).mono ?_
  rintro w m2 ⟨hw, n2, e2, okw, k2⟩
  have okv : OkIn m2 (vw v 1 n) := (k2 _ _ (Src.of_ok okv le_rfl)).ok
  have pv : m.next ≤ v := by omega
  have pw : m.next ≤ w := by omega
  have dX : ∀ p q, m.next ≤ p → (Win.mk X ldx M n).Disj (vw p 1 q) := fun p q h => e2.has sX.ok h 1
  have sX := k2 _ _ (k1 _ _ sX)
  rw [Run_bind]
  refine (vzero_spec okv Nat.one_pos).mono ?_
  rintro - m3 s3
  have e3 := e2.step s3 (vw_new pv)
  have sX := sX.step s3 (dX _ _ pv)
  rw [Run_bind]
  refine (vzero_spec (okw.step s3) Nat.one_pos).mono ?_
  rintro - m4 s4
  have e4 := e3.step s4 (vw_new pw)
  have sX := sX.step s4 (dX _ _ pw)
  rw [Run_bind]
  refine (frand_spec (rnd := rnd) ((okv.step s3).step s4)).mono ?_
  rintro - m5 s5
  have e5 := e4.step s5 (vw_new pv)
  have sX := sX.step s5 (dX _ _ pv)
  have sv := Src.of_step ((okv.step s3).step s4) le_rfl s5
  have okw := ((okw.step s3).step s4).step s5
  rw [Run_bind]
  refine (fgemv_src (y := fun _ _ => 0) cat .no M n c 0 e5.wf sX sv okw (Or.inl rfl) (Or.inr rfl) (dX _ _ pw) (vw_disj (by omega))).mono ?_
  rintro - m6 s6
  have e6 := e5.step s6 (vw_new pw)
  have sw := Src.of_step okw le_rfl s6
  have sv := sv.step s6 (vw_disj (by omega))
  rw [Run_pure]
  have hn := s3.next
  have hn := s4.next
  have hn := s5.next
  have hn := s6.next
  refine ⟨⟨Ext.weaken ?_ W, pv, by omega, ?_, sv.ok, sw.ok⟩, sv, sw.congr (fun i _ j _ => ?_), fun a ha => ?_⟩
  · exact ⟨e6.wf0, e6.wf, e6.next, fun a => by rw [e6.ok a]; simp only [false_or], fun a ha => by omega, e6.frame⟩
  · show w + M ≤ m6.next
    omega
  · simp only [zero_mul, add_zero, Spec.op]
  · exact e6.frame a ha (fun ⟨i, hi, _⟩ => absurd hi (Nat.not_lt_zero _))

omit [Field K] [DecidableEq K] in
lemma checkDone_spec {v w n M : ℕ} {W : Win} (h : Scr m0 m v w n M W) :
    Run (checkDone M n v w) m (fun _ m' => m'.ok = m0.ok ∧ m0.next ≤ m'.next ∧ m'.val = m.val ∧ ∀ a, m0.ok a = true → ¬ W.Has a → m'.val a = m0.val a) := by
  unfold checkDone
  rw [Run_bind]
  refine (h.ext.free (n := n) h.pv).mono ?_
  rintro - m1 ⟨n1, v1, e1, -⟩
  refine (e1.free (n := M) h.pw').mono ?_
  rintro - m2 ⟨n2, v2, e2, -⟩
  obtain ⟨h1, h2⟩ := e2.done (fun a => by omega)
  exact ⟨h1, e2.next, v2.trans v1, h2⟩

/-- the empty window -/
abbrev emptyWin : Win := ⟨0, 0, 0, 0⟩

lemma emptyWin_has {a : ℕ} : ¬ emptyWin.Has a := fun ⟨_, hi, _⟩ => absurd hi (Nat.not_lt_zero _)

omit [Field K] [DecidableEq K] in
/-- start again from the present contents -/
lemma Scr.rebase {v w n M : ℕ} {W : Win} (h : Scr m0 m v w n M W) : Scr { m0 with val := m.val } m v w n M emptyWin :=
  ⟨⟨h.ext.wf0, h.ext.wf, h.ext.next, h.ext.ok, h.ext.new, fun _ _ _ => rfl⟩, h.pv, h.pw, h.hi, h.okv, h.okw⟩

omit [Field K] [DecidableEq K] in
lemma Scr.join {v w n M : ℕ} {W : Win} (h : Scr m0 m v w n M W) (h' : Scr { m0 with val := m.val } m' v w n M emptyWin) : Scr m0 m' v w n M W :=
  ⟨⟨h.ext.wf0, h'.ext.wf, h'.ext.next, h'.ext.ok, h'.ext.new, fun a ha hW => (h'.ext.frame a ha emptyWin_has).trans (h.ext.frame a ha hW)⟩,
    h'.pv, h'.pw, h'.hi, h'.okv, h'.okw⟩

omit [Field K] [DecidableEq K] in
lemma Scr.src {v w n M : ℕ} (h : Scr m0 m v w n M emptyWin) (hS : Src m0 S f) : Src m S f := h.ext.src hS (fun _ _ => emptyWin_has)

theorem checkFgemm_spec (cat : Cat) (ta tb : Tr) {v w M n k A lda B ldb C ldc : ℕ} (alpha : K) {xv xw fa fb fc : ℕ → ℕ → K}
    (h : Scr m0 m v w n M emptyWin) (sv : Src m (vw v 1 n) xv) (sw : Src m (vw w 1 M) xw)
    (sA : Src m0 (aw ta M k A lda) fa) (sB : Src m0 (aw tb k n B ldb) fb)
    (sC : Src m0 ⟨C, ldc, M, n⟩ fc) (hk : k ≠ 0 ∨ ta = .no) (hn : n ≠ 0 ∨ tb = .no) :
    Run (checkFgemm cat v w ta tb M n k alpha A lda B ldb C ldc) m (fun b m' => Scr m0 m' v w n M emptyWin ∧
      (b = true ↔ ∀ i < M, alpha * (∑ l ∈ range k, Spec.op ta fa i l * ∑ j ∈ range n, Spec.op tb fb l j * xv j 0) -
        (∑ j ∈ range n, fc i j * xv j 0 - xw i 0) = 0)) := by
  unfold checkFgemm
  have pv := h.pv
  have pw := h.pw'
  have hvw := h.pw
  have dA : ∀ p q, m0.next ≤ p → (aw ta M k A lda).Disj (vw p 1 q) := fun p q hp => h.ext.has sA.ok hp 1
  have dB : ∀ p q, m0.next ≤ p → (aw tb k n B ldb).Disj (vw p 1 q) := fun p q hp => h.ext.has sB.ok hp 1
  have dC : ∀ p q, m0.next ≤ p → (Win.mk C ldc M n).Disj (vw p 1 q) := fun p q hp => h.ext.has sC.ok hp 1
  rw [Run_bind]
  refine (fgemv_src cat .no M n 1 (-1) h.ext.wf (h.src sC) sv sw.ok (Or.inr sw) (Or.inr rfl) (dC _ _ pw) (vw_disj (by omega))).mono ?_
  rintro - m1 s1
  have h1 := h.step s1 (vw_new pw)
  have sw := Src.of_step sw.ok le_rfl s1
  have sv := sv.step s1 (vw_disj (by omega))
  rw [Run_bind]
  refine (h1.ext.alloc k).mono ?_
  rintro w2 m2 ⟨hw2, n2, e2, okw2, k2⟩
  have sv := k2 _ _ sv
  have sw := k2 _ _ sw
  have hi1 := h1.hi
  have pw2 : m0.next ≤ w2 := by omega
  rw [Run_bind]
  refine (vzero_spec okw2 Nat.one_pos).mono ?_
  rintro - m3 s3
  have e3 := e2.step s3 (vw_new pw2)
  have sv := sv.step s3 (vw_disj (by omega))
  have sw := sw.step s3 (vw_disj (by omega))
  have okw2 := okw2.step s3
  rw [Run_bind]
  refine (fgemv_src (y := fun _ _ => 0) cat tb k n 1 0 e3.wf (e3.src sB (fun _ _ => emptyWin_has)) sv okw2 (Or.inl rfl) hn (dB _ _ pw2) (vw_disj (by omega))).mono ?_
  rintro - m4 s4
  have e4 := e3.step s4 (vw_new pw2)
  have sw2 := Src.of_step okw2 le_rfl s4
  have sv := sv.step s4 (vw_disj (by omega))
  have sw := sw.step s4 (vw_disj (by omega))
  rw [Run_bind]
  refine (fgemv_src cat ta M k alpha (-1) e4.wf (e4.src sA (fun _ _ => emptyWin_has)) sw2 sw.ok (Or.inr sw) hk (dA _ _ pw) (vw_disj (by omega))).mono ?_
  rintro - m5 s5
  have e5 := e4.step s5 (vw_new pw)
  have sv := sv.step s5 (vw_disj (by omega))
  have sw := Src.of_step sw.ok le_rfl s5
  rw [Run_bind]
  refine (e5.free (n := k) pw2).mono ?_
  rintro - m6 ⟨n6, -, e6, k6⟩
  have sv := k6 _ _ sv (vw_disj (by omega))
  have sw := k6 _ _ sw (vw_disj (by omega))
  refine (viszero_spec sw.ok).mono ?_
  rintro b m7 ⟨rfl, hb⟩
  have hn2 := s3.next
  have hn3 := s4.next
  have hn4 := s5.next
  refine ⟨⟨⟨e6.wf0, e6.wf, e6.next, fun a => ?_, fun a ha => by omega, e6.frame⟩, pv, hvw, by omega, sv.ok, sw.ok⟩,
    hb.trans (forall₂_congr (fun i hi => ?_))⟩
  · rw [e6.ok a]
    refine or_congr_right ?_
    omega
  · rw [Nat.mul_one, sw.vec hi]
    simp only [one_mul, zero_mul, add_zero, Spec.op, neg_one_mul]
    rw [← sub_eq_add_neg, sub_eq_add_neg (∑ j ∈ range n, fc i j * xv j 0)]

/-- `p`, run in any memory that extends `m0` and agrees with it, changes nothing but `W` and leaves there one of the contents `Q`,
returning the corresponding value. -/
def Writes {α : Type} (p : Prog K α) (m0 : Mem K) (W : Win) (Q : α → (ℕ → ℕ → K) → Prop) : Prop :=
  ∀ m, WF m → m0.next ≤ m.next → (∀ a, m0.ok a = true → m.ok a = true ∧ m.val a = m0.val a) →
    Run p m (fun x m' => ∃ Z, Q x Z ∧ Step m m' W Z)

theorem fgemmChecked_spec (cat : Cat) (rnd : ℕ → K) {g : GemmFn K} (ta tb : Tr) {M n k A lda B ldb C ldc : ℕ} (alpha beta : K)
    {fa fb fc : ℕ → ℕ → K} {Q : (ℕ → ℕ → K) → Prop} (hm : WF m)
    (sA : Src m (aw ta M k A lda) fa) (sB : Src m (aw tb k n B ldb) fb) (sC : Src m ⟨C, ldc, M, n⟩ fc)
    (dA : (aw ta M k A lda).Disj ⟨C, ldc, M, n⟩) (dB : (aw tb k n B ldb).Disj ⟨C, ldc, M, n⟩)
    (hM : M ≠ 0) (hn : n ≠ 0) (hk : k ≠ 0) (ha : alpha ≠ 0)
    (hg : Writes (g ta tb M n k alpha A lda B ldb beta C ldc) m ⟨C, ldc, M, n⟩ (fun _ => Q)) :
    Run (fgemmChecked cat rnd g ta tb M n k alpha A lda B ldb beta C ldc) m (fun b m' => ∃ Z, Q Z ∧ Step m m' ⟨C, ldc, M, n⟩ Z ∧
      (b = true ↔ ∀ i < M, ∑ j ∈ range n,
        (alpha * Spec.mul k (Spec.op ta fa) (Spec.op tb fb) i j + beta * fc i j - Z i j) * rnd j = 0)) := by
  unfold fgemmChecked
  rw [if_neg (by tauto), if_neg (by tauto), Run_bind]
  refine (checkInit_spec cat rnd beta hm sC ⟨C, ldc, M, n⟩).mono ?_
  rintro ⟨v, w⟩ m1 ⟨h1, sv, sw, keep⟩
  simp only [] at h1 sv sw ⊢
  have pv := h1.pv
  have pw := h1.pw'
  rw [Run_bind]
  refine (hg m1 h1.ext.wf h1.ext.next (fun a ha => ⟨(h1.ext.ok a).2 (Or.inl ha), keep a ha⟩)).mono ?_
  rintro - m2 ⟨Z, hQ, s2⟩
  have h2 := h1.body s2
  have dv : (vw v 1 n).Disj ⟨C, ldc, M, n⟩ := (h1.ext.has sC.ok pv 1).symm
  have dw : (vw w 1 M).Disj ⟨C, ldc, M, n⟩ := (h1.ext.has sC.ok pw 1).symm
  have sv := sv.step s2 dv
  have sw := sw.step s2 dw
  have hr := h2.rebase
  have sA' : Src { m with val := m2.val } (aw ta M k A lda) fa := ⟨sA.ok, sA.ld, (h2.ext.src sA dA).val⟩
  have sB' : Src { m with val := m2.val } (aw tb k n B ldb) fb := ⟨sB.ok, sB.ld, (h2.ext.src sB dB).val⟩
  have sC' : Src { m with val := m2.val } ⟨C, ldc, M, n⟩ Z := ⟨sC.ok, sC.ld, s2.val⟩
  rw [Run_bind]
  refine (checkFgemm_spec cat ta tb alpha hr sv sw sA' sB' sC' (Or.inl hk) (Or.inl hn)).mono ?_
  rintro b m3 ⟨h3, hb⟩
  have hj := h2.join h3
  rw [Run_bind]
  refine (checkDone_spec hj).mono ?_
  rintro - m4 ⟨o4, n4, v4, f4⟩
  rw [Run_pure]
  refine ⟨Z, hQ, ⟨o4, n4, fun i hi j hj' => ?_, f4⟩, hb.trans (forall₂_congr (fun i hi => ?_))⟩
  · rw [v4]
    exact (h3.src sC').val i hi j hj'
  · rw [← sub_add, residual_eq, Finset.mul_sum, ← Finset.sum_add_distrib]
    refine Eq.congr (sum_congr rfl (fun j _ => ?_)) rfl
    ring

omit [DecidableEq K] in
/-- triangular matrix times vector -/
lemma trmm_vec {t : TrFn K} (ht : TrmmOk t) (u : Uplo) (ta : Tr) (d : Diag) {k A lda v : ℕ} (hm : WF m) (hA : Src m ⟨A, lda, k, k⟩ f)
    (hv : Src m (vw v 1 k) x) (dA : (Win.mk A lda k k).Disj (vw v 1 k)) :
    Run (t .left u ta d k 1 1 A lda v 1) m (fun _ m' => Step m m' (vw v 1 k) (fun i _ =>
      ∑ l ∈ range k, Spec.op ta (Spec.tri u d f) i l * x l 0)) := by
  refine (ht m .left u ta d k 1 1 A lda v 1 (hA.tri hm hv.ok le_rfl rfl dA)).mono (fun _ m' s => Step.congr s (fun i hi j hj => ?_))
  have hi : i < k := hi
  obtain rfl : j = 0 := by simpa using hj
  simp only [Spec.sideMul, Spec.sideDim, Spec.mul, one_mul]
  refine sum_congr rfl (fun l hl => ?_)
  have hl := mem_range.1 hl
  exact congrArg₂ (· * ·) (op_tri_congr ta (fun i hi j hj => hA.val i hi j hj) hi hl) (hv.val l hl 0 Nat.one_pos)

theorem checkFtrsm_spec (cat : Cat) {tm : TrFn K} (ht : TrmmOk tm) (side : Side) (u : Uplo) (ta : Tr) (d : Diag) {v w M n A lda X ldx : ℕ}
    {xv xw fa fx : ℕ → ℕ → K} (h : Scr m0 m v w n M emptyWin) (sv : Src m (vw v 1 n) xv) (sw : Src m (vw w 1 M) xw)
    (sA : Src m0 ⟨A, lda, Spec.sideDim side M n, Spec.sideDim side M n⟩ fa) (sX : Src m0 ⟨X, ldx, M, n⟩ fx) :
    Run (checkFtrsm cat tm v w side u ta d M n A lda X ldx) m (fun b m' => Scr m0 m' v w n M emptyWin ∧
      (b = true ↔ ∀ i < M, ∑ j ∈ range n,
        Spec.sideMul side (Spec.sideDim side M n) (Spec.op ta (Spec.tri u d fa)) fx i j * xv j 0 - xw i 0 = 0)) := by
  have pv := h.pv
  have pw := h.pw'
  have hvw := h.pw
  have dA : ∀ p q, m0.next ≤ p → (Win.mk A lda (Spec.sideDim side M n) (Spec.sideDim side M n)).Disj (vw p 1 q) := fun p q hp => h.ext.has sA.ok hp 1
  have dX : ∀ p q, m0.next ≤ p → (Win.mk X ldx M n).Disj (vw p 1 q) := fun p q hp => h.ext.has sX.ok hp 1
  have fin : ∀ (m5 : Mem K) (v1 k : ℕ) (z : ℕ → K), m0.next ≤ v1 → w + M ≤ v1 → w + M ≤ m5.next →
      Ext m0 m5 (fun a => (v ≤ a ∧ a < v + n ∨ w ≤ a ∧ a < w + M) ∨ v1 ≤ a ∧ a < v1 + k) emptyWin → OkIn m5 (vw v 1 n) →
      Src m5 (vw w 1 M) (fun i _ => z i) →
      Run (do free v1 k; fiszero M 1 w 1) m5 (fun b m' => Scr m0 m' v w n M emptyWin ∧ (b = true ↔ ∀ i < M, z i = 0)) := by
    intro m5 v1 k z hv1 hw1 hx e5 okv sw
    rw [Run_bind]
    refine (e5.free (n := k) hv1).mono ?_
    rintro - m6 ⟨n6, -, e6, k6⟩
    have sv := k6 _ _ (Src.of_ok okv le_rfl) (vw_disj (by omega))
    have sw := k6 _ _ sw (vw_disj (by omega))
    refine (fiszero_spec (lda := 1) sw.ok).mono ?_
    rintro b m7 ⟨rfl, hb⟩
    refine ⟨⟨⟨e6.wf0, e6.wf, e6.next, fun a => ?_, fun a ha => by omega, e6.frame⟩, pv, hvw, by omega, sv.ok, sw.ok⟩, hb.trans ?_⟩
    · rw [e6.ok a]
      refine or_congr_right ?_
      omega
    · constructor
      · intro hh i hi
        rw [← hh i hi 0 Nat.one_pos]
        exact (sw.val i hi 0 Nat.one_pos).symm
      · intro hh i hi j hj
        obtain rfl : j = 0 := by omega
        exact (sw.val i hi 0 Nat.one_pos).trans (hh i hi)
  unfold checkFtrsm
  simp only []
  cases side with
  | left =>
    simp only [Spec.sideDim] at sA dA ⊢
    rw [Run_bind]
    refine (h.ext.alloc M).mono ?_
    rintro v1 m1 ⟨hv1, n1, e1, okv1, k1⟩
    have hi := h.hi
    have pv1 : m0.next ≤ v1 := by omega
    have sv := k1 _ _ sv
    have sw := k1 _ _ sw
    rw [Run_bind]
    refine (vzero_spec okv1 Nat.one_pos).mono ?_
    rintro - m2 s2
    have e2 := e1.step s2 (vw_new pv1)
    have sv := sv.step s2 (vw_disj (by omega))
    have sw := sw.step s2 (vw_disj (by omega))
    have okv1 := okv1.step s2
    rw [Run_bind]
    refine (fgemv_src (y := fun _ _ => 0) cat .no M n 1 0 e2.wf (e2.src sX (fun _ _ => emptyWin_has)) sv okv1 (Or.inl rfl) (Or.inr rfl) (dX _ _ pv1) (vw_disj (by omega))).mono ?_
    rintro - m3 s3
    have e3 := e2.step s3 (vw_new pv1)
    have sv := sv.step s3 (vw_disj (by omega))
    have sw := sw.step s3 (vw_disj (by omega))
    have s1 := Src.of_step okv1 le_rfl s3
    rw [Run_bind]
    refine (trmm_vec ht u ta d e3.wf (e3.src sA (fun _ _ => emptyWin_has)) s1 (dA _ _ pv1)).mono ?_
    rintro - m4 s4
    have e4 := e3.step s4 (vw_new pv1)
    have sv := sv.step s4 (vw_disj (by omega))
    have sw := sw.step s4 (vw_disj (by omega))
    have s1 := Src.of_step s1.ok le_rfl s4
    rw [Run_bind]
    refine (vsubin_spec cat s1.ok sw.ok (Win.Disj.safe (vw_disj (by omega)) rfl rfl) Nat.one_pos (Or.inr ⟨rfl, rfl⟩)).mono ?_
    rintro - m5 s5
    have e5 := e4.step s5 (vw_new pw)
    have sv := sv.step s5 (vw_disj (by omega))
    have hn2 := s2.next
    have hn3 := s3.next
    have hn4 := s4.next
    have hn5 := s5.next
    refine (fin m5 v1 M _ pv1 (by omega) (by omega) e5 sv.ok (Src.of_step sw.ok le_rfl s5)).mono ?_
    rintro b m6 ⟨h6, hb⟩
    refine ⟨h6, hb.trans (forall₂_congr (fun i hi => ?_))⟩
    rw [Nat.mul_one, sw.vec hi, s1.vec hi, sub_eq_zero, sub_eq_zero, eq_comm]
    refine Eq.congr ?_ rfl
    simp only [one_mul, zero_mul, add_zero, Spec.op, Spec.sideMul, Spec.mul, Finset.mul_sum, Finset.sum_mul]
    rw [Finset.sum_comm]
    exact sum_congr rfl (fun j _ => sum_congr rfl (fun l _ => by ring))
  | right =>
    simp only [Spec.sideDim] at sA dA ⊢
    rw [Run_bind]
    refine (h.ext.alloc n).mono ?_
    rintro v1 m1 ⟨hv1, n1, e1, okv1, k1⟩
    have hi := h.hi
    have pv1 : m0.next ≤ v1 := by omega
    have sv := k1 _ _ sv
    have sw := k1 _ _ sw
    rw [Run_bind]
    refine (vzero_spec okv1 Nat.one_pos).mono ?_
    rintro - m2 s2
    have e2 := e1.step s2 (vw_new pv1)
    have sv := sv.step s2 (vw_disj (by omega))
    have sw := sw.step s2 (vw_disj (by omega))
    rw [Run_bind]
    refine (trmm_vec ht u ta d e2.wf (e2.src sA (fun _ _ => emptyWin_has)) sv (dA _ _ pv)).mono ?_
    rintro - m3 s3
    have e3 := e2.step s3 (vw_new pv)
    have sw := sw.step s3 (vw_disj (by omega))
    have sv := Src.of_step sv.ok le_rfl s3
    rw [Run_bind]
    refine (fgemv_src cat .no M n 1 (-1) e3.wf (e3.src sX (fun _ _ => emptyWin_has)) sv sw.ok (Or.inr sw) (Or.inr rfl) (dX _ _ pw) (vw_disj (by omega))).mono ?_
    rintro - m4 s4
    have e4 := e3.step s4 (vw_new pw)
    have sv := sv.step s4 (vw_disj (by omega))
    have hn2 := s2.next
    have hn3 := s3.next
    have hn4 := s4.next
    refine (fin m4 v1 n _ pv1 (by omega) (by omega) e4 sv.ok (Src.of_step sw.ok le_rfl s4)).mono ?_
    rintro b m6 ⟨h6, hb⟩
    refine ⟨h6, hb.trans (forall₂_congr (fun i hi => ?_))⟩
    rw [one_mul, neg_one_mul, ← sub_eq_add_neg]
    refine Eq.congr (congrArg (· - _) ?_) rfl
    simp only [Spec.op, Spec.sideMul, Spec.mul, Finset.mul_sum, Finset.sum_mul]
    rw [Finset.sum_comm]
    exact sum_congr rfl (fun j _ => sum_congr rfl (fun l _ => by ring))

theorem ftrsmChecked_spec (cat : Cat) (rnd : ℕ → K) {tm ts : TrFn K} (ht : TrmmOk tm) (side : Side) (u : Uplo) (ta : Tr) (d : Diag)
    {M n A lda B ldb : ℕ} (alpha : K) {fa fb : ℕ → ℕ → K} {Q : (ℕ → ℕ → K) → Prop} (hm : WF m)
    (sA : Src m ⟨A, lda, Spec.sideDim side M n, Spec.sideDim side M n⟩ fa) (sB : Src m ⟨B, ldb, M, n⟩ fb)
    (dA : (Win.mk A lda (Spec.sideDim side M n) (Spec.sideDim side M n)).Disj ⟨B, ldb, M, n⟩)
    (hs : Writes (ts side u ta d M n alpha A lda B ldb) m ⟨B, ldb, M, n⟩ (fun _ => Q)) :
    Run (ftrsmChecked cat rnd tm ts side u ta d M n alpha A lda B ldb) m (fun b m' => ∃ Z, Q Z ∧ Step m m' ⟨B, ldb, M, n⟩ Z ∧
      (b = true ↔ ∀ i < M, ∑ j ∈ range n,
        (Spec.sideMul side (Spec.sideDim side M n) (Spec.op ta (Spec.tri u d fa)) Z i j - alpha * fb i j) * rnd j = 0)) := by
  unfold ftrsmChecked
  rw [Run_bind]
  refine (checkInit_spec cat rnd alpha hm sB ⟨B, ldb, M, n⟩).mono ?_
  rintro ⟨v, w⟩ m1 ⟨h1, sv, sw, keep⟩
  simp only [] at h1 sv sw ⊢
  have pv := h1.pv
  have pw := h1.pw'
  rw [Run_bind]
  refine (hs m1 h1.ext.wf h1.ext.next (fun a ha => ⟨(h1.ext.ok a).2 (Or.inl ha), keep a ha⟩)).mono ?_
  rintro - m2 ⟨Z, hQ, s2⟩
  have h2 := h1.body s2
  have sv := sv.step s2 (h1.ext.has sB.ok pv 1).symm
  have sw := sw.step s2 (h1.ext.has sB.ok pw 1).symm
  have hr := h2.rebase
  have sA' : Src { m with val := m2.val } ⟨A, lda, Spec.sideDim side M n, Spec.sideDim side M n⟩ fa := ⟨sA.ok, sA.ld, (h2.ext.src sA dA).val⟩
  have sB' : Src { m with val := m2.val } ⟨B, ldb, M, n⟩ Z := ⟨sB.ok, sB.ld, s2.val⟩
  rw [Run_bind]
  refine (checkFtrsm_spec cat ht side u ta d hr sv sw sA' sB').mono ?_
  rintro b m3 ⟨h3, hb⟩
  have hj := h2.join h3
  rw [Run_bind]
  refine (checkDone_spec hj).mono ?_
  rintro - m4 ⟨o4, n4, v4, f4⟩
  rw [Run_pure]
  refine ⟨Z, hQ, ⟨o4, n4, fun i hi j hj' => ?_, f4⟩, hb.trans (forall₂_congr (fun i hi => ?_))⟩
  · rw [v4]
    exact (h3.src sB').val i hi j hj'
  · rw [Finset.mul_sum, ← Finset.sum_sub_distrib]
    refine Eq.congr (sum_congr rfl (fun j _ => ?_)) rfl
    ring

theorem invertChecked_spec (cat : Cat) (rnd : ℕ → K) {body : Prog K ℕ} {M A lda : ℕ} {fa : ℕ → ℕ → K} {Q : ℕ → (ℕ → ℕ → K) → Prop} (hm : WF m)
    (sA : Src m ⟨A, lda, M, M⟩ fa) (hM : M ≠ 0) (hb : Writes body m ⟨A, lda, M, M⟩ Q) :
    Run (invertChecked cat rnd body M A lda) m (fun x m' => ∃ Z, Q x.2 Z ∧ Step m m' ⟨A, lda, M, M⟩ Z ∧
      (x.1 = true ↔ x.2 ≠ 0 ∨ ∀ i < M, ∑ j ∈ range M, (Spec.mul M Z fa i j - if i = j then 1 else 0) * rnd j = 0)) := by
  unfold invertChecked
  rw [Run_bind]
  refine (checkInit_spec cat rnd 1 hm sA ⟨A, lda, M, M⟩).mono ?_
  rintro ⟨v, w⟩ m1 ⟨h1, sv, sw, keep⟩
  simp only [] at h1 sv sw ⊢
  rw [if_neg hM]
  have pv := h1.pv
  have pw := h1.pw'
  have hvw := h1.pw
  rw [Run_bind]
  refine (hb m1 h1.ext.wf h1.ext.next (fun a ha => ⟨(h1.ext.ok a).2 (Or.inl ha), keep a ha⟩)).mono ?_
  rintro nul m2 ⟨Z, hQ, s2⟩
  have h2 := h1.body s2
  have sv := sv.step s2 (h1.ext.has sA.ok pv 1).symm
  have sw := sw.step s2 (h1.ext.has sA.ok pw 1).symm
  have hr := h2.rebase
  have sA' : Src { m with val := m2.val } ⟨A, lda, M, M⟩ Z := ⟨sA.ok, sA.ld, s2.val⟩
  unfold checkInvert
  simp only [Run_bind]
  refine (fgemv_src cat .no M M 1 (-1) h2.ext.wf (hr.src sA') sw sv.ok (Or.inr sv) (Or.inr rfl) (h1.ext.has sA.ok pv 1) (vw_disj (by omega))).mono ?_
  rintro - m3 s3
  have h3 := hr.step s3 (vw_new pv)
  have sv := Src.of_step sv.ok le_rfl s3
  refine (fiszero_spec (lda := 1) sv.ok).mono ?_
  rintro b m4 ⟨rfl, hb⟩
  rw [Run_pure]
  refine (checkDone_spec (h2.join h3)).mono ?_
  rintro - m5 ⟨o4, n4, v4, f4⟩
  rw [Run_pure]
  refine ⟨Z, hQ, ⟨o4, n4, fun i hi j hj' => ?_, f4⟩, ?_⟩
  · rw [v4]
    exact (h3.src sA').val i hi j hj'
  · simp only [Bool.or_eq_true, decide_eq_true_eq, hb]
    rw [or_comm]
    refine or_congr_right ?_
    have key : ∀ i < M, m4.mat ⟨v, 1, M, 1⟩ i 0 = ∑ j ∈ range M, (Spec.mul M Z fa i j - if i = j then 1 else 0) * rnd j := by
      intro i hi
      refine (sv.val i hi 0 Nat.one_pos).trans ?_
      simp only [one_mul, Spec.op, neg_one_mul, sub_mul, Finset.sum_sub_distrib, ite_mul, zero_mul, Finset.sum_ite_eq, mem_range, if_pos hi, ← sub_eq_add_neg]
      congr 1
      simp only [Spec.mul, Finset.mul_sum, Finset.sum_mul]
      rw [Finset.sum_comm]
      exact sum_congr rfl (fun j _ => sum_congr rfl (fun l _ => by ring))
    constructor
    · intro hh i hi
      rw [← key i hi]; exact hh i hi 0 Nat.one_pos
    · intro hh i hi j hj
      obtain rfl : j = 0 := by omega
      rw [key i hi]; exact hh i hi

omit [Field K] [DecidableEq K] in
lemma blk0 (V : ℕ → ℕ → K) : blk V 0 0 = V := by
  funext i j
  simp only [blk, Nat.zero_add]

/-- the vector computed by the PLUQ checker -/
def pluqVec (d : Diag) (n r : ℕ) (fa : ℕ → ℕ → K) (x : ℕ → K) (i : ℕ) : K :=
  ∑ k ∈ range r, luL d fa i k * ∑ j ∈ range n, luU d fa k j * x j

lemma checkPluq_mid {g : GemmFn K} (hg : GemmOk g) {tm : TrFn K} (ht : TrmmOk tm) (d : Diag) {M n r A lda u N : ℕ} {fa V : ℕ → ℕ → K}
    {W : Win} (h : On m0 m W V) (hW : W = ⟨u, 1, N, 1⟩) (hMN : M ≤ N) (hnN : n ≤ N) (hrM : r ≤ M) (hrn : r ≤ n) (sA : Src m0 ⟨A, lda, M, n⟩ fa)
    (dA : (Win.mk A lda M n).Disj W) :
    Run (do
      tm .left .upper .no d r 1 1 A lda u 1
      let _ ← (if r < n then g .no .no r 1 (n - r) 1 (A + r) lda (u + r) 1 1 u 1 else pure ())
      let _ ← (if r < M then g .no .no (M - r) 1 r 1 (A + r * lda) lda u 1 0 (u + r) 1 else pure ())
      tm .left .lower .no (oppDiag d) r 1 1 A lda u 1) m
      (fun _ m' => ∃ V', On m0 m' W V' ∧ ∀ i < M, V' i 0 = pluqVec d n r fa (fun j => V j 0) i) := by
  subst hW
  have e1 : ∀ a, Win.adr ⟨u, 1, N, 1⟩ a 0 = u + a := fun a => by simp [Win.adr]
  rw [Run_bind]
  refine (trmm_at ht h (sA.on h dA) dA .left .upper d 1 0 0 0 0 r 1 r rfl (by simpa using hrM) (by simpa using hrn) (by simp; omega) (by simp) (A := A) (B := u)
    (by simp [Win.adr]) (by simp [Win.adr])).mono ?_
  rintro - m1 h1
  obtain ⟨V1, hV1⟩ : ∃ V1, V1 = upd 0 0 r 1 (fun i j => 1 * Spec.sideMul .left r (Spec.tri .upper d (blk fa 0 0)) (blk V 0 0) i j) V := ⟨_, rfl⟩
  rw [← hV1] at h1
  have v1 : ∀ i < r, V1 i 0 = ∑ l ∈ range r, Spec.tri .upper d fa i l * V l 0 := by
    intro i hi
    rw [hV1, upd_in' (by omega)]
    simp only [Spec.sideMul, Spec.mul, one_mul, Nat.sub_zero, blk0]
  have v1' : ∀ i, r ≤ i → V1 i 0 = V i 0 := fun i hi => by rw [hV1, upd_out (r := r) (i0 := 0) (by omega)]
  rw [Run_bind]
  have gem1 : Run (if r < n then g .no .no r 1 (n - r) 1 (A + r) lda (u + r) 1 1 u 1 else pure ()) m1
      (fun _ m' => ∃ V2, On m0 m' ⟨u, 1, N, 1⟩ V2 ∧ ∀ i < r, V2 i 0 = ∑ j ∈ range n, luU d fa i j * V j 0) := by
    have split : ∀ i < r, ∑ j ∈ range n, luU d fa i j * V j 0 = ∑ l ∈ range r, Spec.tri .upper d fa i l * V l 0 + ∑ l ∈ range (n - r), fa i (r + l) * V (r + l) 0 := by
      intro i hi
      obtain ⟨k, rfl⟩ := Nat.exists_eq_add_of_le hrn
      rw [Finset.sum_range_add, Nat.add_sub_cancel_left]
      congr 1
      refine sum_congr rfl (fun l _ => ?_)
      simp only [luU, Spec.tri]
      rw [if_neg (by omega), if_pos (by omega)]
    split_ifs with hlt
    · refine (gemm_at hg h1 (sA.on h1 dA) h1.src 0 r r 0 0 0 r 1 (n - r) (by simpa using hrM) (by simp; omega) (by simp; omega) (by simp) (by simp; omega) (by simp)
        ((dA.sub_left (by simpa using hrM) (by simp; omega)).sub_right (by simp; omega) (by simp))
        (h1.disj2 r 0 0 0 (by simp; omega) (by simp) (by simp; omega) (by simp) (Or.inr (Or.inl (by omega)))) 1 1 (A := A + r) (B := u + r) (C := u)
        (by simp [Win.adr]) (by simp [Win.adr]) (by simp [Win.adr])).mono ?_
      rintro - m2 h2
      refine ⟨_, h2, fun i hi => ?_⟩
      rw [upd_in' (by omega), split i hi]
      simp only [one_mul, Nat.zero_add, Nat.sub_zero, Nat.add_zero]
      rw [v1 i hi, add_comm]
      congr 1
      exact sum_congr rfl (fun l _ => by rw [v1' _ (by omega)])
    · rw [Run_pure]
      refine ⟨V1, h1, fun i hi => ?_⟩
      rw [v1 i hi, split i hi, show n - r = 0 by omega]; simp
  refine gem1.mono ?_
  rintro - m2 ⟨V2, h2, v2⟩
  rw [Run_bind]
  have gem2 : Run (if r < M then g .no .no (M - r) 1 r 1 (A + r * lda) lda u 1 0 (u + r) 1 else pure ()) m2
      (fun _ m' => ∃ V3, On m0 m' ⟨u, 1, N, 1⟩ V3 ∧ (∀ i < r, V3 i 0 = V2 i 0) ∧ ∀ i < M, r ≤ i → V3 i 0 = ∑ l ∈ range r, fa i l * V2 l 0) := by
    split_ifs with hlt
    · refine (gemm_at hg h2 (sA.on h2 dA) h2.src r 0 0 0 r 0 (M - r) 1 r (by simp; omega) (by simpa using hrn) (by simp; omega) (by simp) (by simp; omega) (by simp)
        ((dA.sub_left (by simp; omega) (by simpa using hrn)).sub_right (by simp; omega) (by simp))
        (h2.disj2 0 0 r 0 (by simp; omega) (by simp) (by simp; omega) (by simp) (Or.inl (by omega))) 1 0 (A := A + r * lda) (B := u) (C := u + r)
        (by simp [Win.adr]) (by simp [Win.adr]) (by simp [Win.adr])).mono ?_
      rintro - m3 h3
      refine ⟨_, h3, fun i hi => by rw [upd_out (r := M - r) (i0 := r) (by omega)], fun i hi hri => ?_⟩
      rw [upd_in' (by omega)]
      simp only [one_mul, zero_mul, add_zero, Nat.zero_add, Nat.sub_zero, Nat.add_zero]
      refine sum_congr rfl (fun l _ => ?_)
      rw [show r + (i - r) = i by omega]
    · rw [Run_pure]
      exact ⟨V2, h2, fun _ _ => rfl, fun i hi hri => by omega⟩
  refine gem2.mono ?_
  rintro - m3 ⟨V3, h3, v3, v3'⟩
  refine (trmm_at ht h3 (sA.on h3 dA) dA .left .lower (oppDiag d) 1 0 0 0 0 r 1 r rfl (by simpa using hrM) (by simpa using hrn) (by simp; omega) (by simp) (A := A) (B := u)
    (by simp [Win.adr]) (by simp [Win.adr])).mono ?_
  rintro - m4 h4
  refine ⟨_, h4, fun i hi => ?_⟩
  have eL : luL d fa = Spec.tri .lower (oppDiag d) fa := by cases d <;> rfl
  unfold pluqVec
  rw [eL]
  rcases Nat.lt_or_ge i r with hir | hir
  · rw [upd_in' (by omega)]
    simp only [Spec.sideMul, Spec.mul, one_mul, Nat.sub_zero, blk0]
    refine sum_congr rfl (fun l hl => ?_)
    have hl := mem_range.1 hl
    rw [v3 l hl, v2 l hl]
  · rw [upd_out (r := r) (i0 := 0) (by omega), v3' i hi hir]
    refine sum_congr rfl (fun l hl => ?_)
    have hl := mem_range.1 hl
    rw [v2 l hl]
    congr 1
    simp only [Spec.tri]
    rw [if_neg (by omega), if_pos (by omega)]

theorem checkPluq_spec {g : GemmFn K} (hg : GemmOk g) {tm : TrFn K} (ht : TrmmOk tm) (d : Diag) {v w M n r A lda : ℕ} {P Q : Arr ℕ}
    {xv xw fa : ℕ → ℕ → K} (h : Scr m0 m v w n M emptyWin) (sv : Src m (vw v 1 n) xv) (sw : Src m (vw w 1 M) xw)
    (sA : Src m0 ⟨A, lda, M, n⟩ fa) (hrM : r ≤ M) (hrn : r ≤ n) (hP : P.len = M) (hp : ∀ i < M, P.get i < M) (hQ : Q.len = n)
    (hq : ∀ i < n, Q.get i < n) :
    Run (checkPluq g tm v w d M n A lda r P Q) m (fun b m' => Scr m0 m' v w n M emptyWin ∧
      (b = true ↔ ∀ i < M, xw i 0 = pluqVec d n r fa (fun j => xv (ofSwaps Q.get n j) 0) ((ofSwaps P.get M)⁻¹ i))) := by
  unfold checkPluq
  have pv := h.pv
  have pw := h.pw'
  have hvw := h.pw
  rw [Run_bind]
  refine (h.ext.alloc (max M n)).mono ?_
  rintro u m1 ⟨hu, n1, e1, oku, k1⟩
  have hi := h.hi
  have pu : m0.next ≤ u := by omega
  have sv := k1 _ _ sv
  have sw := k1 _ _ sw
  have dA : (Win.mk A lda M n).Disj (vw u 1 (max M n)) := h.ext.has sA.ok pu 1
  have sA1 := e1.src sA (fun _ _ => emptyWin_has)
  have o1 : On m1 m1 (vw u 1 (max M n)) _ := On.start e1.wf oku le_rfl
  have du : (vw v 1 n).Disj (vw u 1 (max M n)) := vw_disj (by omega)
  have dw : (vw w 1 M).Disj (vw u 1 (max M n)) := vw_disj (by omega)
  rw [Run_bind]
  refine (fassign_at o1 sv du 0 0 0 0 n 1 (by simp) (by simp) (by simp) (by simp) (A := v) (B := u) (by simp [Win.adr]) (by simp [Win.adr])).mono ?_
  rintro - m2 o2
  rw [Run_bind]
  refine (rowsP_on o2 0 0 (by simp [Win.adr]) (by simp) (by simp) hQ hq (c := 1)).mono ?_
  rintro - m3 o3
  have hV : ∀ j < n, permRows 0 0 n 1 (ofSwaps Q.get n) (upd 0 0 n 1 (blk xv 0 0) (m1.mat (vw u 1 (max M n)))) j 0 = xv (ofSwaps Q.get n j) 0 := by
    intro j hj
    have := (Perm.ofSwaps_lt hq n le_rfl j).1 hj
    rw [permRows, upd_in' (by omega)]
    simp only [Nat.sub_zero, Nat.zero_add]
    rw [upd_in' (by omega), blk0, Nat.sub_zero]
  generalize hV1 : permRows 0 0 n 1 (ofSwaps Q.get n) (upd 0 0 n 1 (blk xv 0 0) (m1.mat (vw u 1 (max M n)))) = V1 at o3 hV
  have mid := checkPluq_mid hg ht d o3 rfl (le_max_left M n) (le_max_right M n) hrM hrn sA1 dA
  simp only [Run_bind] at mid ⊢
  refine mid.mono ?_
  rintro - m4 t
  refine t.mono ?_
  rintro - m5 t
  refine t.mono ?_
  rintro - m6 t
  refine t.mono ?_
  rintro - m7 ⟨V2, o7, hV2⟩
  refine (rowsPinv_on o7 0 0 (A := u) (by simp [Win.adr]) (by simp) (by simp) hP hp (c := 1)).mono ?_
  rintro - m8 o8
  have sw8 := sw.on o8 dw
  have sv8 := sv.on o8 du
  refine (vequal_spec sw8.ok (n := M) (Y := u) (incY := 1) (OkIn_vw_of (fun i hi => OkIn_vw o8.ok' (by omega)))).mono ?_
  rintro b m9 ⟨rfl, hb⟩
  have e9 := e1.step o8.step (vw_new pu)
  refine (e9.free (n := max M n) pu).mono ?_
  rintro - m10 ⟨n10, -, e10, k10⟩
  have sv10 := k10 _ _ sv8 du
  have sw10 := k10 _ _ sw8 dw
  have hn := o8.step.next
  rw [Run_pure]
  refine ⟨⟨⟨e10.wf0, e10.wf, e10.next, fun a => ?_, fun a ha => by omega, e10.frame⟩, pv, hvw, by omega, sv10.ok, sw10.ok⟩, hb.trans (forall₂_congr (fun i hi => ?_))⟩
  · rw [e10.ok a]
    refine or_congr_right ?_
    omega
  · have hlt : (ofSwaps P.get M)⁻¹ i < M := by
      have := Perm.ofSwaps_lt hp M le_rfl ((ofSwaps P.get M)⁻¹ i)
      rw [show (ofSwaps P.get M) ((ofSwaps P.get M)⁻¹ i) = i from (ofSwaps P.get M).apply_symm_apply i] at this
      exact this.2 hi
    have hu := o8.val (i := i) (j := 0) (by simp [hi]) (by simp)
    rw [permRows, upd_in' (by omega)] at hu
    simp only [Win.adr, Nat.mul_one, Nat.add_zero, Nat.sub_zero, Nat.zero_add] at hu
    rw [Nat.mul_one, sw8.vec hi, hu, hV2 _ hlt]
    refine Eq.congr rfl ?_
    unfold pluqVec
    refine sum_congr rfl (fun k _ => ?_)
    congr 1
    refine sum_congr rfl (fun j hj => ?_)
    show luU d fa k j * V1 j 0 = _
    rw [hV j (mem_range.1 hj)]

/-- the matrix described by the output of `PLUQ` -/
def pluqMat (d : Diag) (M n r : ℕ) (P Q : ℕ → ℕ) (Z : ℕ → ℕ → K) (i j : ℕ) : K :=
  ∑ k ∈ range r, luL d Z ((ofSwaps P M)⁻¹ i) k * luU d Z k ((ofSwaps Q n)⁻¹ j)

theorem pluqChecked_spec (cat : Cat) (rnd : ℕ → K) {g : GemmFn K} (hg : GemmOk g) {tm : TrFn K} (ht : TrmmOk tm) {body : Prog K (ℕ × Arr ℕ × Arr ℕ)}
    (d : Diag) {M n A lda : ℕ} {fa : ℕ → ℕ → K} {Q : ℕ × Arr ℕ × Arr ℕ → (ℕ → ℕ → K) → Prop} (hm : WF m)
    (sA : Src m ⟨A, lda, M, n⟩ fa) (hb : Writes body m ⟨A, lda, M, n⟩ Q)
    (hQ : ∀ x Z, Q x Z → x.1 ≤ M ∧ x.1 ≤ n ∧ x.2.1.len = M ∧ (∀ i < M, x.2.1.get i < M) ∧ x.2.2.len = n ∧ ∀ i < n, x.2.2.get i < n) :
    Run (pluqChecked cat rnd g tm body d M n A lda) m (fun x m' => ∃ Z, Q x.2 Z ∧ Step m m' ⟨A, lda, M, n⟩ Z ∧
      (x.1 = true ↔ ∀ i < M, ∑ j ∈ range n, (fa i j - pluqMat d M n x.2.1 x.2.2.1.get x.2.2.2.get Z i j) * rnd j = 0)) := by
  unfold pluqChecked
  rw [Run_bind]
  refine (checkInit_spec cat rnd 1 hm sA ⟨A, lda, M, n⟩).mono ?_
  rintro ⟨v, w⟩ m1 ⟨h1, sv, sw, keep⟩
  simp only [] at h1 sv sw ⊢
  have pv := h1.pv
  have pw := h1.pw'
  rw [Run_bind]
  refine (hb m1 h1.ext.wf h1.ext.next (fun a ha => ⟨(h1.ext.ok a).2 (Or.inl ha), keep a ha⟩)).mono ?_
  rintro ⟨r, P, R⟩ m2 ⟨Z, hQZ, s2⟩
  obtain ⟨hrM, hrn, hP, hp, hR, hq⟩ := hQ _ _ hQZ
  simp only [] at hrM hrn hP hp hR hq ⊢
  have h2 := h1.body s2
  have sv := sv.step s2 (h1.ext.has sA.ok pv 1).symm
  have sw := sw.step s2 (h1.ext.has sA.ok pw 1).symm
  have hr := h2.rebase
  have sA' : Src { m with val := m2.val } ⟨A, lda, M, n⟩ Z := ⟨sA.ok, sA.ld, s2.val⟩
  rw [Run_bind]
  refine (checkPluq_spec hg ht d hr sv sw sA' hrM hrn hP hp hR hq).mono ?_
  rintro b m3 ⟨h3, hb⟩
  rw [Run_bind]
  refine (checkDone_spec (h2.join h3)).mono ?_
  rintro - m4 ⟨o4, n4, v4, f4⟩
  rw [Run_pure]
  refine ⟨Z, hQZ, ⟨o4, n4, fun i hi j hj' => ?_, f4⟩, hb.trans (forall₂_congr (fun i hi => ?_))⟩
  · rw [v4]
    exact (h3.src sA').val i hi j hj'
  · rw [← sub_eq_zero]
    refine Eq.congr ?_ rfl
    simp only [sub_mul, Finset.sum_sub_distrib, one_mul]
    congr 1
    unfold pluqVec pluqMat
    simp only [Finset.sum_mul]
    rw [Finset.sum_comm]
    refine sum_congr rfl (fun k _ => ?_)
    rw [Finset.mul_sum, ← Pluq.sum_perm (Perm.ofSwaps_isPerm hq) (fun j => luL d Z ((ofSwaps P.get M)⁻¹ i) k * luU d Z k ((ofSwaps R.get n)⁻¹ j) * rnd j)]
    refine sum_congr rfl (fun j _ => ?_)
    rw [show (ofSwaps R.get n)⁻¹ (ofSwaps R.get n j) = j from (ofSwaps R.get n).symm_apply_apply j, mul_assoc]

end

end Verif.FF
