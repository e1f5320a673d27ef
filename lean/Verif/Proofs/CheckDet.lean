import Verif.Model.CheckDet
import Verif.Proofs.Checkers
import Verif.Proofs.Det
import Verif.Proofs.Fsytrf

/-!
# The checkers of the determinant and of the characteristic polynomial
-/

namespace Verif.FF

open Finset Verif.Spec Verif.Spec.Perm Verif.Pluq

variable {K : Type} [Field K] [DecidableEq K] {m0 m m' : Mem K}

/-! ### two views of the same cells -/

omit [Field K] [DecidableEq K] in
lemma Src.two {u n : ℕ} {x : ℕ → ℕ → K} (h : Src m (vw u 1 (n * 2)) x) : Src m ⟨u, 2, n, 2⟩ (fun i j => x (i * 2 + j) 0) := by
  have e : ∀ i < n, ∀ j < 2, Win.adr ⟨u, 2, n, 2⟩ i j = u + (i * 2 + j) := fun i _ j _ => by simp only [Win.adr]; omega
  refine ⟨?_, le_rfl, fun i hi j hj => ?_⟩
  · rintro a ⟨i, hi, j, hj, rfl⟩
    simp only [] at hi hj
    rw [e i hi j hj]
    have := OkIn_vw h.ok (i := i * 2 + j) (by omega)
    rwa [Nat.mul_one] at this
  · simp only [] at hi hj
    rw [e i hi j hj, h.vec (by omega)]

omit [Field K] [DecidableEq K] in
lemma Src.asRow {w n : ℕ} {x : ℕ → ℕ → K} (h : Src m (vw w 1 n) x) : Src m ⟨w, n, 1, n⟩ (fun _ j => x j 0) := by
  have e : ∀ j, Win.adr ⟨w, n, 1, n⟩ 0 j = w + j := fun j => by simp [Win.adr]
  refine ⟨?_, le_rfl, fun i hi j hj => ?_⟩
  · rintro a ⟨i, hi, j, hj, rfl⟩
    simp only [] at hi hj
    obtain rfl : i = 0 := by omega
    rw [e]
    have := OkIn_vw h.ok hj
    rwa [Nat.mul_one] at this
  · simp only [] at hi hj
    obtain rfl : i = 0 := by omega
    rw [e, h.vec hj]

lemma has_two {u n q : ℕ} (h : q ≤ u) : ∀ a, Win.Has ⟨u, 2, n, 2⟩ a → q ≤ a := by
  rintro a ⟨i, hi, j, hj, rfl⟩
  simp only [Win.adr]; omega

lemma has_row {w n q : ℕ} (h : q ≤ w) : ∀ a, Win.Has ⟨w, n, 1, n⟩ a → q ≤ a := by
  rintro a ⟨i, hi, j, hj, rfl⟩
  simp only [Win.adr]; omega

lemma disj_new {S T : Win} (hw : WF m0) (hS : OkIn m0 S) (hT : ∀ a, T.Has a → m0.next ≤ a) : S.Disj T := fun a ha hc => by
  have := WF.lt' hw (hS a ha)
  have := hT a hc
  omega

lemma two_row {u w n : ℕ} (h : u + n * 2 ≤ w) : Win.Disj ⟨u, 2, n, 2⟩ ⟨w, n, 1, n⟩ := by
  rintro a ⟨i, hi, j, hj, rfl⟩ ⟨i', hi', j', hj', e⟩
  simp only [] at hi hj hi' hj'
  obtain rfl : i' = 0 := by omega
  simp only [Win.adr] at e
  omega

/-! ### construction -/

lemma vdot_two {u t n c : ℕ} {x y : ℕ → ℕ → K} (hu : Src m ⟨u, 2, n, 2⟩ x) (ht : Src m (vw t 1 n) y) (hc : c < 2) :
    Run (vdot n (u + c) 2 t 1) m (fun d m' => m' = m ∧ d = ∑ j ∈ range n, x j c * y j 0) := by
  have e : ∀ i < n, m.val (u + c + i * 2) = x i c := fun i hi => by
    rw [← hu.val i hi c hc]; congr 1; simp only [Win.adr]; omega
  refine (vdot_spec (X := u + c) (incX := 2) (Y := t) (incY := 1) (OkIn_vw_of (fun i hi => ?_)) ht.ok (by omega)).mono ?_
  · have := hu.ok.adr (i := i) (j := c) hi hc
    rwa [show Win.adr ⟨u, 2, n, 2⟩ i c = u + c + i * 2 by simp only [Win.adr]; omega] at this
  rintro d m' ⟨rfl, rfl⟩
  refine ⟨rfl, sum_congr rfl (fun i hi => ?_)⟩
  have hi := mem_range.1 hi
  rw [e i hi, Nat.mul_one, ht.vec hi]

lemma vdot_two' {u t n c : ℕ} {x y : ℕ → ℕ → K} (hu : Src m ⟨u, 2, n, 2⟩ x) (ht : Src m ⟨t, n, 1, n⟩ y) (hc : c < 2) :
    Run (vdot n t 1 (u + c) 2) m (fun d m' => m' = m ∧ d = ∑ j ∈ range n, y 0 j * x j c) := by
  have e : ∀ i < n, m.val (u + c + i * 2) = x i c := fun i hi => by
    rw [← hu.val i hi c hc]; congr 1; simp only [Win.adr]; omega
  have e' : ∀ i < n, m.val (t + i * 1) = y 0 i := fun i hi => by
    rw [← ht.val 0 Nat.one_pos i hi]; congr 1; simp only [Win.adr]; omega
  refine (vdot_spec (X := t) (incX := 1) (Y := u + c) (incY := 2) (OkIn_vw_of (fun i hi => ?_)) (OkIn_vw_of (fun i hi => ?_)) Nat.one_pos).mono ?_
  · have := ht.ok.adr (i := 0) (j := i) Nat.one_pos hi
    rwa [show Win.adr ⟨t, n, 1, n⟩ 0 i = t + i * 1 by simp only [Win.adr]; omega] at this
  · have := hu.ok.adr (i := i) (j := c) hi hc
    rwa [show Win.adr ⟨u, 2, n, 2⟩ i c = u + c + i * 2 by simp only [Win.adr]; omega] at this
  rintro d m' ⟨rfl, rfl⟩
  refine ⟨rfl, sum_congr rfl (fun i hi => ?_)⟩
  have hi := mem_range.1 hi
  rw [e i hi, e' i hi]

theorem checkDetInit_spec (cat : Cat) (rnd : ℕ → K) {n A lda : ℕ} {fa : ℕ → ℕ → K} (hm : WF m) (sA : Src m ⟨A, lda, n, n⟩ fa) (W : Win) :
    Run (checkDetInit cat rnd n A lda) m (fun p m' => Scr m m' p.1 p.2.1 (n * 2) n W ∧ Src m' (vw p.1 1 (n * 2)) (fun j _ => rnd j) ∧
      Src m' (vw p.2.1 1 n) (fun i _ => rnd (n * 2 + i)) ∧ (∀ a, m.ok a = true → m'.val a = m.val a) ∧
      p.2.2.1 = ∑ j ∈ range n, rnd (j * 2) * ∑ i ∈ range n, fa i j * rnd (n * 2 + i) ∧
      p.2.2.2 = ∑ j ∈ range n, rnd (j * 2 + 1) * ∑ i ∈ range n, fa i j * rnd (n * 2 + i)) := by
  unfold checkDetInit
  have e0 := Ext.start hm ⟨0, 0, 0, 0⟩
  rw [Run_bind]
  refine (e0.alloc (n * 2)).mono ?_
  rintro u m1 ⟨hu, n1, e1, oku, k1⟩
  rw [Run_bind]
  refine (e1.alloc n).mono ?_
  rintro w m2 ⟨hw, n2, e2, okw, k2⟩
  have oku : OkIn m2 (vw u 1 (n * 2)) := (k2 _ _ (Src.of_ok oku le_rfl)).ok
  have pu : m.next ≤ u := by omega
  have pw : m.next ≤ w := by omega
  have dA : ∀ p q, m.next ≤ p → (Win.mk A lda n n).Disj (vw p 1 q) := fun p q h => e2.has sA.ok h 1
  have sA := k2 _ _ (k1 _ _ sA)
  rw [Run_bind]
  refine (vzero_spec oku Nat.one_pos).mono ?_
  rintro - m3 s3
  have e3 := e2.step s3 (vw_new pu)
  have sA := sA.step s3 (dA _ _ pu)
  rw [Run_bind]
  refine (vzero_spec (okw.step s3) Nat.one_pos).mono ?_
  rintro - m4 s4
  have e4 := e3.step s4 (vw_new pw)
  have sA := sA.step s4 (dA _ _ pw)
  rw [Run_bind]
  refine (frand_spec (rnd := rnd) ((oku.step s3).step s4)).mono ?_
  rintro - m5 s5
  have e5 := e4.step s5 (vw_new pu)
  have sA := sA.step s5 (dA _ _ pu)
  have su := Src.of_step ((oku.step s3).step s4) le_rfl s5
  have okw := ((okw.step s3).step s4).step s5
  rw [Run_bind]
  refine (frand_spec (rnd := fun j => rnd (n * 2 + j)) okw).mono ?_
  rintro - m6 s6
  have e6 := e5.step s6 (vw_new pw)
  have sA := sA.step s6 (dA _ _ pw)
  have sw := Src.of_step okw le_rfl s6
  have su := su.step s6 (vw_disj (by omega))
  have g3 := s3.next
  have g4 := s4.next
  have g5 := s5.next
  have g6 := s6.next
  rw [Run_bind]
  refine (e6.alloc n).mono ?_
  rintro t m7 ⟨ht, n7, e7, okt, k7⟩
  have pt : m.next ≤ t := by omega
  have sA := k7 _ _ sA
  have sw := k7 _ _ sw
  have su := k7 _ _ su
  rw [Run_bind]
  refine (vzero_spec okt Nat.one_pos).mono ?_
  rintro - m8 s8
  have e8 := e7.step s8 (vw_new pt)
  have sA := sA.step s8 (dA _ _ pt)
  have sw := sw.step s8 (vw_disj (by omega))
  have su := su.step s8 (vw_disj (by omega))
  have okt := okt.step s8
  have g8 := s8.next
  rw [Run_bind]
  have gv : Run (fgemv cat .yes n n 1 A lda w 1 0 t 1) m8 (fun _ m' => Step m8 m' (vw t 1 n) (fun j _ => ∑ i ∈ range n, fa i j * rnd (n * 2 + i))) := by
    by_cases hn : n = 0
    · subst hn
      unfold fgemv
      rw [if_pos rfl, Run_pure]
      exact Step.refl (fun i hi => absurd hi (Nat.not_lt_zero _))
    · have := fgemv_src (y := fun _ _ => 0) cat .yes n n 1 0 e8.wf (A := A) (lda := lda) (f := fa) sA sw okt (Or.inl rfl) (Or.inl hn) (dA _ _ pt) (vw_disj (by omega))
      refine this.mono ?_
      rintro - m' s
      refine s.congr (fun i _ j _ => ?_)
      simp only [zero_mul, add_zero, one_mul, Spec.op]
  refine gv.mono ?_
  rintro - m9 s9
  have e9 := e8.step s9 (vw_new pt)
  have sw := sw.step s9 (vw_disj (by omega))
  have su := su.step s9 (vw_disj (by omega))
  have st := Src.of_step okt le_rfl s9
  have g9 := s9.next
  rw [Run_bind]
  refine (vdot_two (c := 0) su.two st (by omega)).mono ?_
  rintro du m10 ⟨rfl, hdu⟩
  rw [Run_bind]
  refine (vdot_two (c := 1) su.two st (by omega)).mono ?_
  rintro dv m11 ⟨rfl, hdv⟩
  rw [Run_bind]
  refine (e9.free (n := n) pt).mono ?_
  rintro - m12 ⟨n12, v12, e12, k12⟩
  have su := k12 _ _ su (vw_disj (by omega))
  have sw := k12 _ _ sw (vw_disj (by omega))
  rw [Run_pure]
  refine ⟨⟨Ext.weaken ?_ W, pu, by simp only []; omega, ?_, su.ok, sw.ok⟩, su, sw, fun a ha => ?_, hdu, hdv⟩
  · refine ⟨e12.wf0, e12.wf, e12.next, fun a => ?_, fun a ha => ?_, e12.frame⟩
    · rw [e12.ok a]
      refine or_congr_right ?_
      simp only [false_or]
      omega
    · simp only [] at ha
      omega
  · show w + n ≤ m12.next
    omega
  · exact e12.frame a ha (fun ⟨i, hi, _⟩ => absurd hi (Nat.not_lt_zero _))

/-! ### check -/

/-- on one row the leading dimension does not matter -/
lemma applyP_one_row {n w ld ld' : ℕ} {P : Arr ℕ} (h : 0 < ld) (h' : 0 < ld') :
    (applyP .right .yes 1 0 n w ld P : Prog K Unit) = applyP .right .yes 1 0 n w ld' P := by
  have e : ∀ i, (applyPStep .right 1 w ld P i : Prog K Unit) = applyPStep .right 1 w ld' P i := by
    intro i
    unfold applyPStep vswap
    simp only [cnt_pos h, cnt_pos h']
    congr 1
    funext p
    split_ifs
    · simp only [loop, iter, Nat.zero_mul]
    · rfl
  unfold applyP
  simp only [show 1 / 32 = 0 from rfl, show 1 % 32 = 1 from rfl, Nat.zero_mul, Nat.add_zero]
  unfold applyPBlock
  simp only [e, loop]

omit [Field K] [DecidableEq K] in
lemma countMoved_spec {n c : ℕ} {P : Arr ℕ} (hP : P.len = n) : Ok (countMoved n P c) (fun r => r = c + exch P.get n) := by
  refine Ok_iter (fun k r => r = c + exch P.get k) (by simp [exch]) ?_
  rintro k r hk rfl
  simp only [Ok_bind, Ok_rd, Ok_pure]
  refine ⟨by omega, ?_⟩
  rw [exch_succ]
  split_ifs <;> omega

omit [DecidableEq K] in
lemma checkDetDiag_spec {n A lda : ℕ} {fa : ℕ → ℕ → K} (h : Src m ⟨A, lda, n, n⟩ fa) :
    Run (checkDetDiag n A lda) m (fun x m' => m' = m ∧ x = ∏ k ∈ range n, fa k k) := by
  refine Run_iter (fun k x m' => m' = m ∧ x = ∏ k ∈ range k, fa k k) ⟨rfl, by simp⟩ ?_
  rintro k x m' hk ⟨rfl, rfl⟩
  have e : A + k * (lda + 1) = Win.adr ⟨A, lda, n, n⟩ k k := by rw [Win.adr]; ring
  rw [Run_bind, Run_load, e]
  refine ⟨h.ok.adr hk hk, ?_⟩
  rw [Run_pure, h.val k hk k hk, prod_range_succ]
  exact ⟨rfl, rfl⟩

/-- the bilinear form computed by the determinant checker -/
def detForm (n : ℕ) (fa : ℕ → ℕ → K) (P Q : ℕ → ℕ) (w x : ℕ → K) : K :=
  ∑ k ∈ range n, (∑ i ∈ range n, w (ofSwaps P n i) * luL .nonUnit fa i k) * ∑ j ∈ range n, luU .nonUnit fa k j * x (ofSwaps Q n j)

theorem checkDet_spec {tm : TrFn K} (ht : TrmmOk tm) {u w n A lda : ℕ} {du dv dt : K} {P Q : Arr ℕ} {xu xw fa : ℕ → ℕ → K}
    (h : Scr m0 m u w (n * 2) n emptyWin) (su : Src m (vw u 1 (n * 2)) xu) (sw : Src m (vw w 1 n) xw) (sA : Src m0 ⟨A, lda, n, n⟩ fa)
    (hP : P.len = n) (hp : ∀ i < n, P.get i < n) (hQ : Q.len = n) (hq : ∀ i < n, Q.get i < n) :
    Run (checkDet tm u w du dv n dt A lda P Q) m (fun b m' => Scr m0 m' u w (n * 2) n emptyWin ∧
      (b = true ↔ detForm n fa P.get Q.get (fun i => xw i 0) (fun j => xu (j * 2) 0) = du ∧
        detForm n fa P.get Q.get (fun i => xw i 0) (fun j => xu (j * 2 + 1) 0) = dv ∧
        (-1) ^ (exch P.get n + exch Q.get n) * ∏ k ∈ range n, fa k k = dt)) := by
  unfold checkDet
  have pu := h.pv
  have pw := h.pw'
  have huw := h.pw
  have nu : ∀ a, Win.Has ⟨u, 2, n, 2⟩ a → m0.next ≤ a := has_two pu
  have nw : ∀ a, Win.Has ⟨w, n, 1, n⟩ a → m0.next ≤ a := has_row pw
  have dAu : (Win.mk A lda n n).Disj ⟨u, 2, n, 2⟩ := disj_new h.ext.wf0 sA.ok nu
  have dAw : (Win.mk A lda n n).Disj ⟨w, n, 1, n⟩ := disj_new h.ext.wf0 sA.ok nw
  have duw : Win.Disj ⟨u, 2, n, 2⟩ ⟨w, n, 1, n⟩ := two_row huw
  have hA : Src m ⟨A, lda, n, n⟩ fa := h.src sA
  rw [Run_bind]
  have o0 := su.two.toOn h.ext.wf
  have w0 := sw.asRow
  refine (rowsP_on o0 0 0 (A := u) (r := n) (c := 2) (by simp [Win.adr]) (by simp) (by simp) hQ hq).mono ?_
  rintro - m1 o1
  have h1 := h.step o1.step nu
  have w1 := w0.on o1 duw.symm
  have hA1 := hA.on o1 dAu
  have u1 := o1.src
  rw [Run_bind]
  have step2 : Run (applyP .right .yes 1 0 n w 1 P) m1 (fun _ m' => On m1 m' ⟨w, n, 1, n⟩ (permCols 0 0 1 n (ofSwaps P.get n) (fun _ j => xw j 0))) := by
    rcases Nat.eq_zero_or_pos n with rfl | hn
    · have e : (applyP .right .yes 1 0 0 w 1 P : Prog K Unit) = pure () := rfl
      rw [e, Run_pure]
      exact ⟨h1.ext.wf, w1.ok, le_rfl, Step.refl (fun _ _ j hj => absurd hj (Nat.not_lt_zero _))⟩
    · rw [applyP_one_row (ld' := n) Nat.one_pos hn]
      exact colsP_on (w1.toOn h1.ext.wf) 0 0 (A := w) (r := 1) (c := n) (by simp [Win.adr]) (by simp) (by simp) hP hp
  refine step2.mono ?_
  rintro - m2 o2
  have h2 := h1.step o2.step nw
  have u2 := u1.on o2 duw
  have hA2 := hA1.on o2 dAw
  have w2 := o2.src
  rw [Run_bind]
  refine (trmm_at ht (u2.toOn h2.ext.wf) hA2 dAu .left .upper .nonUnit 1 0 0 0 0 n 2 n rfl (by simp) (by simp) (by simp) (by simp) (A := A) (B := u)
    (by simp [Win.adr]) (by simp [Win.adr])).mono ?_
  rintro - m3 o3
  have h3 := h2.step o3.step nu
  have w3 := w2.on o3 duw.symm
  have hA3 := hA2.on o3 dAu
  have u3 := o3.src
  rw [Run_bind]
  refine (trmm_at ht (w3.toOn h3.ext.wf) hA3 dAw .right .lower .unit 1 0 0 0 0 1 n n rfl (by simp) (by simp) (by simp) (by simp) (A := A) (B := w)
    (by simp [Win.adr]) (by simp [Win.adr])).mono ?_
  rintro - m4 o4
  have h4 := h3.step o4.step nw
  have u4 := u3.on o4 duw
  have hA4 := hA3.on o4 dAw
  have w4 := o4.src
  have vu : ∀ k < n, ∀ c < 2, upd 0 0 n 2 (fun i j => 1 * Spec.sideMul .left n (Spec.tri .upper .nonUnit (blk fa 0 0)) (blk (permRows 0 0 n 2 (ofSwaps Q.get n) fun i j => xu (i * 2 + j) 0) 0 0) i j)
      (permRows 0 0 n 2 (ofSwaps Q.get n) fun i j => xu (i * 2 + j) 0) k c = ∑ j ∈ range n, luU .nonUnit fa k j * xu (ofSwaps Q.get n j * 2 + c) 0 := by
    intro k hk c hc
    rw [upd_in' (by omega)]
    simp only [Spec.sideMul, Spec.mul, one_mul, Nat.sub_zero, blk0]
    refine sum_congr rfl (fun j hj => ?_)
    have hj := mem_range.1 hj
    rw [permRows, upd_in' (by omega)]
    simp only [Nat.sub_zero, Nat.zero_add]
    rfl
  have vw' : ∀ k < n, upd 0 0 1 n (fun i j => 1 * Spec.sideMul .right n (Spec.tri .lower .unit (blk fa 0 0)) (blk (permCols 0 0 1 n (ofSwaps P.get n) fun _ j => xw j 0) 0 0) i j)
      (permCols 0 0 1 n (ofSwaps P.get n) fun _ j => xw j 0) 0 k = ∑ i ∈ range n, xw (ofSwaps P.get n i) 0 * luL .nonUnit fa i k := by
    intro k hk
    rw [upd_in' (by omega)]
    simp only [Spec.sideMul, Spec.mul, one_mul, Nat.sub_zero, blk0]
    refine sum_congr rfl (fun j hj => ?_)
    have hj := mem_range.1 hj
    rw [permCols, upd_in' (by omega)]
    simp only [Nat.sub_zero, Nat.zero_add]
    rfl
  have form : ∀ c < 2, ∀ z, z = ∑ k ∈ range n, upd 0 0 1 n (fun i j => 1 * Spec.sideMul .right n (Spec.tri .lower .unit (blk fa 0 0)) (blk (permCols 0 0 1 n (ofSwaps P.get n) fun _ j => xw j 0) 0 0) i j)
      (permCols 0 0 1 n (ofSwaps P.get n) fun _ j => xw j 0) 0 k * upd 0 0 n 2 (fun i j => 1 * Spec.sideMul .left n (Spec.tri .upper .nonUnit (blk fa 0 0)) (blk (permRows 0 0 n 2 (ofSwaps Q.get n) fun i j => xu (i * 2 + j) 0) 0 0) i j)
      (permRows 0 0 n 2 (ofSwaps Q.get n) fun i j => xu (i * 2 + j) 0) k c → z = detForm n fa P.get Q.get (fun i => xw i 0) (fun j => xu (j * 2 + c) 0) := by
    rintro c hc z rfl
    refine sum_congr rfl (fun k hk => ?_)
    have hk := mem_range.1 hk
    rw [vw' k hk, vu k hk c hc]
  rw [Run_bind]
  refine (vdot_two' (c := 0) u4 w4 (by omega)).mono ?_
  rintro zu m5 ⟨rfl, hzu⟩
  rw [Run_bind]
  refine (vdot_two' (c := 1) u4 w4 (by omega)).mono ?_
  rintro zv m6 ⟨rfl, hzv⟩
  have hzu := form 0 (by omega) zu hzu
  have hzv := form 1 (by omega) zv hzv
  simp only [Nat.add_zero] at hzu
  rw [← hzu, ← hzv]
  split_ifs with hz
  swap
  · rw [Run_pure]
    exact ⟨h4, by simp; tauto⟩
  · rw [Run_bind]
    refine (checkDetDiag_spec hA4).mono ?_
    rintro dd m7 ⟨rfl, rfl⟩
    rw [Run_bind]
    refine (Run_liftE _ _ _).2 ((countMoved_spec hP).mono ?_)
    rintro c1 rfl
    rw [Run_bind]
    refine (Run_liftE _ _ _).2 ((countMoved_spec hQ).mono ?_)
    rintro c2 rfl
    rw [Run_pure]
    refine ⟨h4, ?_⟩
    rw [Nat.zero_add, decide_eq_true_iff]
    have e : (if (exch P.get n + exch Q.get n) % 2 = 1 then -∏ k ∈ range n, fa k k else ∏ k ∈ range n, fa k k) = (-1) ^ (exch P.get n + exch Q.get n) * ∏ k ∈ range n, fa k k := by
      split_ifs with hc
      · rw [(Nat.odd_iff.2 hc).neg_one_pow]; ring
      · rw [(Nat.even_iff.2 (by omega)).neg_one_pow, one_mul]
    rw [e]
    tauto

theorem detChecked_spec (cat : Cat) (rnd : ℕ → K) {tm : TrFn K} (ht : TrmmOk tm) {body : Prog K (K × Arr ℕ × Arr ℕ)}
    {n A lda : ℕ} {fa : ℕ → ℕ → K} {R : K × Arr ℕ × Arr ℕ → (ℕ → ℕ → K) → Prop} (hm : WF m)
    (sA : Src m ⟨A, lda, n, n⟩ fa) (hb : Writes body m ⟨A, lda, n, n⟩ R)
    (hR : ∀ x Z, R x Z → x.2.1.len = n ∧ (∀ i < n, x.2.1.get i < n) ∧ x.2.2.len = n ∧ ∀ i < n, x.2.2.get i < n) :
    Run (detChecked cat rnd tm body n A lda) m (fun x m' => ∃ Z, R x.2 Z ∧ Step m m' ⟨A, lda, n, n⟩ Z ∧
      (x.1 = true ↔ (∀ c < 2, ∑ i ∈ range n, rnd (n * 2 + i) * ∑ j ∈ range n, (fa i j - pluqMat .nonUnit n n n x.2.2.1.get x.2.2.2.get Z i j) * rnd (j * 2 + c) = 0) ∧
        (-1) ^ (exch x.2.2.1.get n + exch x.2.2.2.get n) * ∏ k ∈ range n, Z k k = x.2.1)) := by
  unfold detChecked
  rw [Run_bind]
  refine (checkDetInit_spec cat rnd hm sA ⟨A, lda, n, n⟩).mono ?_
  rintro ⟨u, w, du, dv⟩ m1 ⟨h1, su, sw, keep, hdu, hdv⟩
  simp only [] at h1 su sw hdu hdv ⊢
  have pu := h1.pv
  have pw := h1.pw'
  rw [Run_bind]
  refine (hb m1 h1.ext.wf h1.ext.next (fun a ha => ⟨(h1.ext.ok a).2 (Or.inl ha), keep a ha⟩)).mono ?_
  rintro ⟨dt, P, Q⟩ m2 ⟨Z, hQZ, s2⟩
  obtain ⟨hP, hp, hQ, hq⟩ := hR _ _ hQZ
  simp only [] at hP hp hQ hq ⊢
  have h2 := h1.body s2
  have su := su.step s2 (h1.ext.has sA.ok pu 1).symm
  have sw := sw.step s2 (h1.ext.has sA.ok pw 1).symm
  have hr := h2.rebase
  have sA' : Src { m with val := m2.val } ⟨A, lda, n, n⟩ Z := ⟨sA.ok, sA.ld, s2.val⟩
  rw [Run_bind]
  refine (checkDet_spec ht hr su sw sA' hP hp hQ hq).mono ?_
  rintro b m3 ⟨h3, hb⟩
  have e5 := (checkDone_spec (h2.join h3))
  unfold checkDone at e5
  rw [Run_bind] at e5 ⊢
  refine e5.mono ?_
  rintro - m4 e5
  rw [Run_bind]
  refine e5.mono ?_
  rintro - m5 ⟨o4, n4, v4, f4⟩
  rw [Run_pure]
  refine ⟨Z, hQZ, ⟨o4, n4, fun i hi j hj' => ?_, f4⟩, hb.trans ?_⟩
  · rw [v4]
    exact (h3.src sA').val i hi j hj'
  · have key : ∀ c < 2, ∀ d, d = ∑ j ∈ range n, rnd (j * 2 + c) * ∑ i ∈ range n, fa i j * rnd (n * 2 + i) →
        (detForm n Z P.get Q.get (fun i => rnd (n * 2 + i)) (fun j => rnd (j * 2 + c)) = d ↔
          ∑ i ∈ range n, rnd (n * 2 + i) * ∑ j ∈ range n, (fa i j - pluqMat .nonUnit n n n P.get Q.get Z i j) * rnd (j * 2 + c) = 0) := by
      rintro c - d rfl
      have e1 : ∑ j ∈ range n, rnd (j * 2 + c) * ∑ i ∈ range n, fa i j * rnd (n * 2 + i) = ∑ i ∈ range n, rnd (n * 2 + i) * ∑ j ∈ range n, fa i j * rnd (j * 2 + c) := by
        simp only [Finset.mul_sum]
        rw [Finset.sum_comm]
        exact sum_congr rfl (fun i _ => sum_congr rfl (fun j _ => by ring))
      have e2 : detForm n Z P.get Q.get (fun i => rnd (n * 2 + i)) (fun j => rnd (j * 2 + c)) =
          ∑ i ∈ range n, rnd (n * 2 + i) * ∑ j ∈ range n, pluqMat .nonUnit n n n P.get Q.get Z i j * rnd (j * 2 + c) := by
        have f1 : ∀ k, ∑ i ∈ range n, rnd (n * 2 + ofSwaps P.get n i) * luL .nonUnit Z i k = ∑ i ∈ range n, rnd (n * 2 + i) * luL .nonUnit Z ((ofSwaps P.get n)⁻¹ i) k := by
          intro k
          rw [← Pluq.sum_perm (Perm.ofSwaps_isPerm hp) (fun i => rnd (n * 2 + i) * luL .nonUnit Z ((ofSwaps P.get n)⁻¹ i) k)]
          refine sum_congr rfl (fun i _ => ?_)
          rw [show (ofSwaps P.get n)⁻¹ (ofSwaps P.get n i) = i from (ofSwaps P.get n).symm_apply_apply i]
        have f2 : ∀ k, ∑ j ∈ range n, luU .nonUnit Z k j * rnd (ofSwaps Q.get n j * 2 + c) = ∑ j ∈ range n, luU .nonUnit Z k ((ofSwaps Q.get n)⁻¹ j) * rnd (j * 2 + c) := by
          intro k
          rw [← Pluq.sum_perm (Perm.ofSwaps_isPerm hq) (fun j => luU .nonUnit Z k ((ofSwaps Q.get n)⁻¹ j) * rnd (j * 2 + c))]
          refine sum_congr rfl (fun i _ => ?_)
          rw [show (ofSwaps Q.get n)⁻¹ (ofSwaps Q.get n i) = i from (ofSwaps Q.get n).symm_apply_apply i]
        unfold detForm pluqMat
        simp only [f1, f2]
        simp only [Finset.sum_mul, Finset.mul_sum]
        rw [Finset.sum_comm]
        refine Eq.trans ?_ Finset.sum_comm
        refine sum_congr rfl (fun i _ => ?_)
        rw [Finset.sum_comm]
        refine sum_congr rfl (fun j _ => sum_congr rfl (fun k _ => by ring))
      rw [e1, e2, eq_comm, ← sub_eq_zero, ← Finset.sum_sub_distrib]
      refine Eq.congr (sum_congr rfl (fun i _ => ?_)) rfl
      simp only [sub_mul, Finset.sum_sub_distrib, mul_sub]
    have k0 := key 0 (by omega) du (by simpa only [Nat.add_zero] using hdu)
    have k1 := key 1 (by omega) dv hdv
    simp only [Nat.add_zero] at k0
    have : (∀ c < 2, ∑ i ∈ range n, rnd (n * 2 + i) * ∑ j ∈ range n, (fa i j - pluqMat .nonUnit n n n P.get Q.get Z i j) * rnd (j * 2 + c) = 0) ↔
        ∑ i ∈ range n, rnd (n * 2 + i) * ∑ j ∈ range n, (fa i j - pluqMat .nonUnit n n n P.get Q.get Z i j) * rnd (j * 2) = 0 ∧
        ∑ i ∈ range n, rnd (n * 2 + i) * ∑ j ∈ range n, (fa i j - pluqMat .nonUnit n n n P.get Q.get Z i j) * rnd (j * 2 + 1) = 0 := by
      constructor
      · intro h
        exact ⟨by simpa only [Nat.add_zero] using h 0 (by omega), h 1 (by omega)⟩
      · rintro ⟨h0, h1⟩ c hc
        rcases Nat.lt_or_ge c 1 with h | h
        · obtain rfl : c = 0 := by omega
          simpa only [Nat.add_zero] using h0
        · obtain rfl : c = 1 := by omega
          exact h1
    rw [this, k0, k1, and_assoc]

end Verif.FF
