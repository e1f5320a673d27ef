import Verif.Model.Echelon
import Verif.Proofs.EchelonMath
import Verif.Proofs.Src
import Verif.Proofs.PluqStep
import Verif.Spec.Mat
import Verif.Proofs.Ftrtr

/-!
# Echelon forms: correctness of the tile versions
-/

namespace Verif.FF

open Finset Verif.Spec Verif.Spec.Perm Verif.Pluq Verif.Perm

variable {K : Type} [Field K] [DecidableEq K] {m0 m : Mem K} {W : Win} {V X : ℕ → ℕ → K}

/-- contracts of the kernels -/
structure KitOk (k : Kit K) : Prop where
  g : GemmOk k.g
  ts : TrsmOk k.ts
  tm : TrmmOk k.tm
  tt : 1 ≤ k.tt
  bc : 1 ≤ k.bc

omit [Field K] [DecidableEq K] in
lemma Win.sub_corner (W : Win) (n : ℕ) : W.sub 0 0 n n = ⟨W.p, W.ld, n, n⟩ := by simp [Win.sub, Win.adr]

lemma ftrtri_blk {t : TrFn K} (ht : TrmmOk t) {thr : ℕ} (hthr : 1 ≤ thr) {u : Uplo} {d : Diag} (h : On m0 m W V) (n : ℕ) (hr : n ≤ W.r) (hc : n ≤ W.c)
    (hz : d = .nonUnit → ∀ i < n, V i i ≠ 0) :
    Run (ftrtri t u d W.ld thr (n + 1) n W.p) m (fun _ m' => ∃ Z, On m0 m' W (upd 0 0 n n Z V) ∧ InvF u d n V Z) := by
  have hs := h.sub (i0 := 0) (j0 := 0) (r := n) (c := n) (by omega) (by omega)
  have hb : blk V 0 0 = V := by funext i j; simp [blk]
  rw [Win.sub_corner, hb] at hs
  refine (ftrtri_on ht hthr (n + 1) n W.p m V (Nat.lt_succ_self _) hs hz).mono ?_
  rintro _ m' ⟨Z, s, hZ⟩
  refine ⟨Z, h.upd (by omega) (by omega) ?_, hZ⟩
  rw [Win.sub_corner]; exact s.step

lemma ftrtrm_blk {t : TrFn K} {g : GemmFn K} (ht : TrmmOk t) (hg : GemmOk g) {side : Side} {d : Diag} (h : On m0 m W V) (n : ℕ) (hr : n ≤ W.r) (hc : n ≤ W.c) :
    Run (ftrtrm t g side d W.ld (n + 1) n W.p) m (fun _ m' => On m0 m' W (upd 0 0 n n (trtrm side d n V) V)) := by
  have hs := h.sub (i0 := 0) (j0 := 0) (r := n) (c := n) (by omega) (by omega)
  have hb : blk V 0 0 = V := by funext i j; simp [blk]
  rw [Win.sub_corner, hb] at hs
  refine (ftrtrm_on ht hg (n + 1) n W.p m V (Nat.lt_succ_self _) hs).mono ?_
  rintro _ m' s
  refine h.upd (by omega) (by omega) ?_
  rw [Win.sub_corner]; exact s.step

omit [DecidableEq K] in
/-- a left inverse is a right inverse -/
lemma inv_comm {n : ℕ} {A B : ℕ → ℕ → K} (h : ∀ i < n, ∀ j < n, ∑ l ∈ range n, A i l * B l j = if i = j then 1 else 0) :
    ∀ i < n, ∀ j < n, ∑ l ∈ range n, B i l * A l j = if i = j then 1 else 0 := by
  have h1 : toMat n n A * toMat n n B = 1 := by
    ext i j
    rw [Matrix.mul_apply, Matrix.one_apply]
    have := h i i.2 j j.2
    rw [Finset.sum_range] at this
    simp only [toMat, Matrix.of_apply]
    rw [this]
    exact if_congr (by rw [Fin.ext_iff]) rfl rfl
  have h2 := mul_eq_one_comm.1 h1
  intro i hi j hj
  have := congrFun (congrFun h2 ⟨i, hi⟩) ⟨j, hj⟩
  rw [Matrix.mul_apply, Matrix.one_apply] at this
  rw [Finset.sum_range]
  simp only [toMat, Matrix.of_apply] at this
  rw [this]
  exact if_congr (by rw [Fin.ext_iff]) rfl rfl

/-! ### rows -/

/-- inversion of the lower factor and of the rows below -/
lemma rowTrans_on {k : Kit K} (hk : KitOk k) (h : On m0 m W V) (r : ℕ) (hr : r ≤ W.r) (hc : r ≤ W.c) (hz : ∀ i < r, V i i ≠ 0) :
    Run (do
      ftrtri k.tm .lower .nonUnit W.ld k.tt (r + 1) r W.p
      k.tm .right .lower .no .nonUnit (W.r - r) r (-1) W.p W.ld (W.p + r * W.ld) W.ld) m
      (fun _ m' => ∃ Z, On m0 m' W Z ∧ (∀ i < r, ∀ j < r, ∑ l ∈ range r, tri .lower .nonUnit Z i l * tri .lower .nonUnit V l j = if i = j then 1 else 0) ∧
        (∀ i < r, ∀ j < W.c, i < j → Z i j = V i j) ∧
        (∀ i < W.r, ∀ l < r, r ≤ i → Z i l = - ∑ k ∈ range r, V i k * tri .lower .nonUnit Z k l) ∧
        (∀ i < W.r, ∀ j < W.c, r ≤ i → r ≤ j → Z i j = V i j)) := by
  rw [Run_bind]
  refine (ftrtri_blk hk.tm hk.tt h r hr hc (fun _ => hz)).mono ?_
  rintro _ m1 ⟨Z, h1, hI⟩
  have := trmm_on (side := .right) (u := .lower) (ta := .no) (d := .nonUnit) (r := W.r - r) (c := r) (a := 0) (b := 0) (i0 := r) (j0 := 0) hk.tm h1 (-1)
    (by simp only [sideDim]; omega) (by simp only [sideDim]; omega) (by omega) (by omega) (by simp only [sideDim]; omega)
  rw [show W.adr 0 0 = W.p by simp [Win.adr], show W.adr r 0 = W.p + r * W.ld by simp [Win.adr]] at this
  refine this.mono (fun _ m2 h2 => ?_)
  obtain ⟨Y, hY⟩ : ∃ Y, Y = fun i j => -1 * sideMul .right (sideDim .right (W.r - r) r)
      (op .no (tri .lower .nonUnit (blk (upd 0 0 r r Z V) 0 0))) (blk (upd 0 0 r r Z V) r 0) i j := ⟨_, rfl⟩
  rw [← hY] at h2
  refine ⟨_, h2, ?_⟩
  have e1 : ∀ i < r, ∀ j < r, upd r 0 (W.r - r) r Y (upd 0 0 r r Z V) i j = Z i j := by
    intro i hi j hj
    rw [upd_out (by omega), upd_in' (by omega), Nat.sub_zero, Nat.sub_zero]
  refine ⟨?_, ?_, ?_, ?_⟩
  · intro i hi j hj
    rw [← hI.2 i hi j hj]
    exact sum_congr rfl (fun l hl => by rw [tri_congr e1 hi (mem_range.1 hl)])
  · intro i hi j hj hij
    rw [upd_out (by omega)]
    by_cases hj' : j < r
    · rw [upd_in' (by omega), Nat.sub_zero, Nat.sub_zero]
      exact hI.1 i hi j hj' (by simp only [inT, below]; omega)
    · rw [upd_out (by omega)]
  · intro i hi l hl hri
    rw [upd_in' (by omega), congrFun (congrFun hY (i - r)) (l - 0)]
    simp only [sideMul, mul, sideDim, op, Nat.sub_zero]
    rw [neg_one_mul]
    congr 1
    refine sum_congr rfl (fun k hk' => ?_)
    have hk' := mem_range.1 hk'
    rw [tri_congr e1 hk' hl]
    congr 1
    · simp only [blk, Nat.zero_add]
      rw [upd_out (by omega), show r + (i - r) = i by omega]
    · refine tri_congr (n := r) (fun a ha b hb => ?_) hk' hl
      simp only [blk, Nat.zero_add]
      rw [upd_in' (by omega), Nat.sub_zero, Nat.sub_zero]
  · intro i hi j hj hri hrj
    rw [upd_out (by omega), upd_out (by omega)]

/-- what is known of the index arrays -/
def ArrOk (P : Arr ℕ) (n : ℕ) : Prop := P.len = n ∧ IsTranspArray P.get n

theorem rowEchelonForm_spec {k : Kit K} (hk : KitOk k) (jk : List ℕ → ℕ → ℕ) {P Qt : Arr ℕ} (h : On m0 m W X) (hP : P.len = W.r) (hQ : Qt.len = W.c) :
    Run (rowEchelonForm k jk true W.r W.c W.p W.ld P Qt) m (fun y m' => ArrOk y.2.1 W.r ∧ ArrOk y.2.2 W.c ∧
      ∃ V0 V, On m0 m' W V ∧ Fac .unit W.r W.c X V0 (ofSwaps y.2.1.get W.r) (ofSwaps y.2.2.get W.c) y.1 ∧
        (∀ i < y.1, ∀ j < y.1, ∑ l ∈ range y.1, tri .lower .nonUnit V i l * tri .lower .nonUnit V0 l j = if i = j then 1 else 0) ∧
        (∀ i < y.1, ∀ j < W.c, i < j → V i j = V0 i j) ∧
        (∀ i < W.r, ∀ l < y.1, y.1 ≤ i → V i l = - ∑ k ∈ range y.1, V0 i k * tri .lower .nonUnit V k l) ∧
        (∀ i < W.r, ∀ j < W.c, y.1 ≤ i → y.1 ≤ j → V i j = V0 i j)) := by
  unfold rowEchelonForm
  rw [Run_bind]
  refine (pluq_spec k.cat hk.g hk.ts k.thr jk .unit h hP hQ).mono ?_
  rintro ⟨r, P', Q'⟩ m1 ⟨a1, a2, a3, a4, V0, h1, hF⟩
  simp only [if_true]
  have := rowTrans_on hk h1 r hF.rM hF.rN hF.piv
  rw [Run_bind] at this
  simp only [Run_bind]
  refine this.mono (fun _ _ hx => hx.mono ?_)
  rintro _ m2 ⟨Z, h2, b1, b2, b3, b4⟩
  rw [Run_pure]
  exact ⟨⟨a1, a3⟩, ⟨a2, a4⟩, V0, Z, h2, hF, b1, b2, b3, b4⟩

/-- reduction of the echelon form, with transformation -/
lemma redTail_on {k : Kit K} (hk : KitOk k) (h : On m0 m W V) (r : ℕ) (hr : r ≤ W.r) (hc : r ≤ W.c) :
    Run (do
      ftrtri k.tm .upper .unit W.ld k.tt (r + 1) r W.p
      k.tm .left .upper .no .unit r (W.c - r) 1 W.p W.ld (W.p + r) W.ld
      ftrtrm k.tm k.g .left .unit W.ld (r + 1) r W.p) m
      (fun _ m' => ∃ Z Ui : ℕ → ℕ → K, On m0 m' W Z ∧ (∀ i < r, ∀ j < r, ∑ l ∈ range r, Ui i l * tri .upper .unit V l j = if i = j then 1 else 0) ∧
        (∀ i < r, ∀ l < r, Z i l = ∑ k ∈ range r, Ui i k * tri .lower .nonUnit V k l) ∧
        (∀ i < r, ∀ j < W.c, r ≤ j → Z i j = ∑ k ∈ range r, Ui i k * V k j) ∧
        (∀ i < W.r, ∀ j < W.c, r ≤ i → Z i j = V i j)) := by
  simp only [Run_bind]
  refine (ftrtri_blk hk.tm hk.tt h r hr hc (fun hh => by cases hh)).mono ?_
  rintro _ m1 ⟨Z, h1, hI⟩
  have := trmm_on (side := .left) (u := .upper) (ta := .no) (d := .unit) (r := r) (c := W.c - r) (a := 0) (b := 0) (i0 := 0) (j0 := r) hk.tm h1 1
    (by simp only [sideDim]; omega) (by simp only [sideDim]; omega) (by omega) (by omega) (by simp only [sideDim]; omega)
  rw [show W.adr 0 0 = W.p by simp [Win.adr], show W.adr 0 r = W.p + r by simp [Win.adr]] at this
  refine this.mono (fun _ m2 h2 => ?_)
  obtain ⟨Y, hY⟩ : ∃ Y, Y = fun i j => 1 * sideMul .left (sideDim .left r (W.c - r))
      (op .no (tri .upper .unit (blk (upd 0 0 r r Z V) 0 0))) (blk (upd 0 0 r r Z V) 0 r) i j := ⟨_, rfl⟩
  rw [← hY] at h2
  refine (ftrtrm_blk (side := .left) (d := .unit) hk.tm hk.g h2 r hr hc).mono (fun _ m3 h3 => ?_)
  have e1 : ∀ i < r, ∀ j < r, upd 0 r r (W.c - r) Y (upd 0 0 r r Z V) i j = Z i j := by
    intro i hi j hj
    rw [upd_out (by omega), upd_in' (by omega), Nat.sub_zero, Nat.sub_zero]
  have e2 : ∀ i < r, ∀ j < r, blk (upd 0 0 r r Z V) 0 0 i j = Z i j := by
    intro i hi j hj
    simp only [blk, Nat.zero_add]
    rw [upd_in' (by omega), Nat.sub_zero, Nat.sub_zero]
  refine ⟨_, tri .upper .unit Z, h3, hI.2, ?_, ?_, ?_⟩
  · intro i hi l hl
    rw [upd_in' (by omega), Nat.sub_zero, Nat.sub_zero]
    simp only [trtrm, otherDiag]
    refine sum_congr rfl (fun k hk' => ?_)
    have hk' := mem_range.1 hk'
    rw [tri_congr e1 hi hk', tri_congr e1 hk' hl]
    congr 1
    unfold tri
    by_cases e : k = l
    · rw [if_pos e, if_pos e]
      exact hI.1 k hk' k hk' (by simp [inT, below])
    · rw [if_neg e, if_neg e]
      by_cases e' : l < k
      · simp only [e', if_true]
        exact hI.1 k hk' l hl (by simp only [inT, below]; omega)
      · simp only [e', if_false]
  · intro i hi j hj hrj
    rw [upd_out (by omega), upd_in' (by omega), congrFun (congrFun hY (i - 0)) (j - r)]
    simp only [sideMul, mul, sideDim, op, Nat.sub_zero]
    rw [one_mul]
    refine sum_congr rfl (fun k hk' => ?_)
    have hk' := mem_range.1 hk'
    rw [tri_congr e2 hi hk']
    congr 1
    simp only [blk, Nat.zero_add]
    rw [upd_out (by omega), show r + (j - r) = j by omega]
  · intro i hi j hj hri
    rw [upd_out (by omega), upd_out (by omega), upd_out (by omega)]

/-- `ReducedRowEchelonForm`, tile version, with transformation -/
theorem reducedRowEchelonForm_spec {k : Kit K} (hk : KitOk k) (jk : List ℕ → ℕ → ℕ) {P Qt : Arr ℕ} (h : On m0 m W X) (hP : P.len = W.r)
    (hQ : Qt.len = W.c) :
    Run (reducedRowEchelonForm k jk true W.r W.c W.p W.ld P Qt) m (fun y m' => ArrOk y.2.1 W.r ∧ ArrOk y.2.2 W.c ∧
      ∃ V, On m0 m' W V ∧ GJ W.r W.c 0 0 y.1 X V (ofSwaps y.2.1.get W.r) (ofSwaps y.2.2.get W.c)) := by
  unfold reducedRowEchelonForm
  simp only [Run_bind, Run_liftE]
  refine (iota_spec Qt W.c hQ.ge).mono (fun Qt hQt => ?_)
  refine (iota_spec P W.r hP.ge).mono (fun P hP' => ?_)
  refine (rowEchelonForm_spec hk jk h (hP'.1.trans hP) (hQt.1.trans hQ)).mono ?_
  rintro ⟨r, P', Q'⟩ m1 ⟨a1, a2, V0, V, h1, hF, b1, b2, b3, b4⟩
  simp only [if_true] at *
  have hr := hF.rM
  have hc := hF.rN
  have := redTail_on hk h1 r hF.rM hF.rN
  simp only [Run_bind] at this ⊢
  refine this.mono (fun _ _ hx => hx.mono (fun _ _ hy => hy.mono ?_))
  rintro _ m2 ⟨Z, Ui, h2, c1, c2, c3, c4⟩
  rw [Run_pure]
  refine ⟨a1, a2, Z, h2, hF.row.reduced (Li := tri .lower .nonUnit V) (Ui := Ui) b1 (fun i hi j hj => ?_) c2 (fun i hi l hl hri => ?_)
    (fun i hi j hj hrj => ?_) (fun i hi j hj hri hrj => ?_)⟩
  · rw [← c1 i hi j hj]
    refine sum_congr rfl (fun l hl => ?_)
    have hl := mem_range.1 hl
    congr 1
    unfold luU tri
    by_cases e : l = j
    · rw [if_pos e, if_pos e]
    · rw [if_neg e, if_neg e]
      by_cases e' : l < j
      · simp only [e', if_true]; exact (b2 l hl j (by omega) e').symm
      · simp only [e', if_false]
  · rw [c4 i hi l (by omega) hri, b3 i hi l hl hri]
  · rw [c3 i hi j hj hrj]
    refine sum_congr rfl (fun l hl => ?_)
    have hl := mem_range.1 hl
    rw [b2 l hl j hj (by omega)]
  · rw [c4 i hi j hj hri, b4 i hi j hj hri hrj]

/-- `ReducedRowEchelonForm`, tile version, without transformation -/
theorem reducedRowEchelonFormNT_spec {k : Kit K} (hk : KitOk k) (jk : List ℕ → ℕ → ℕ) {P Qt : Arr ℕ} (h : On m0 m W X) (hP : P.len = W.r)
    (hQ : Qt.len = W.c) :
    Run (reducedRowEchelonForm k jk false W.r W.c W.p W.ld P Qt) m (fun y m' => ArrOk y.2.1 W.r ∧ ArrOk y.2.2 W.c ∧
      ∃ V, On m0 m' W V ∧ IsReducedNT W.r W.c y.1 X V (ofSwaps y.2.1.get W.r) (ofSwaps y.2.2.get W.c)) := by
  unfold reducedRowEchelonForm rowEchelonForm
  simp only [Run_bind, Run_liftE]
  refine (iota_spec Qt W.c hQ.ge).mono (fun Qt hQt => ?_)
  refine (iota_spec P W.r hP.ge).mono (fun P hP' => ?_)
  refine (pluq_spec k.cat hk.g hk.ts k.thr jk .unit h (hP'.1.trans hP) (hQt.1.trans hQ)).mono ?_
  rintro ⟨r, P', Q'⟩ m1 ⟨a1, a2, a3, a4, V0, h1, hF⟩
  simp only [Bool.false_eq_true, if_false, Run_pure, Run_bind] at *
  have hr := hF.rM
  have hc := hF.rN
  have := trsm_on (side := .left) (u := .upper) (ta := .no) (d := .unit) (r := r) (c := W.c - r) (a := 0) (b := 0) (i0 := 0) (j0 := r) hk.ts h1 1
    (by simp only [sideDim]; omega) (by simp only [sideDim]; omega) (by omega) (by omega) (by simp only [sideDim]; omega) (by intro hh; cases hh)
  rw [show W.adr 0 0 = W.p by simp [Win.adr], show W.adr 0 r = W.p + r by simp [Win.adr]] at this
  refine this.mono ?_
  rintro _ m2 ⟨Y, h2, hY⟩
  refine ⟨⟨a1, a3⟩, ⟨a2, a4⟩, _, h2, hF.row.reducedNT (fun i hi j hj hrj => ?_) (fun i hi j hj hh => ?_)⟩
  · have := hY i hi (j - r) (by omega)
    simp only [sideMul, mul, sideDim, op, Nat.zero_add, one_mul] at this
    rw [show r + (j - r) = j by omega] at this
    rw [← this]
    refine sum_congr rfl (fun l hl => ?_)
    have hl := mem_range.1 hl
    rw [upd_in' (by omega), Nat.sub_zero]
    congr 1
    unfold luU
    exact tri_congr (n := r) (fun a _ b _ => by simp [blk]) hi hl
  · rw [upd_out (by omega)]

/-! ### columns -/

omit [DecidableEq K] in
lemma tri_tr_lower (d : Diag) (V : ℕ → ℕ → K) (i j : ℕ) : tri .lower d (fun i j => V j i) i j = tri .upper d V j i := by
  unfold tri
  by_cases e : i = j
  · subst e; rw [if_pos rfl]
  · rw [if_neg e, if_neg (Ne.symm e)]

omit [DecidableEq K] in
lemma tri_tr_upper (d : Diag) (V : ℕ → ℕ → K) (i j : ℕ) : tri .upper d (fun i j => V j i) i j = tri .lower d V j i := by
  unfold tri
  by_cases e : i = j
  · subst e; rw [if_pos rfl]
  · rw [if_neg e, if_neg (Ne.symm e)]

/-- inversion of the upper factor and of the columns to the right -/
lemma colTrans_on {k : Kit K} (hk : KitOk k) (h : On m0 m W V) (r : ℕ) (hr : r ≤ W.r) (hc : r ≤ W.c) (hz : ∀ i < r, V i i ≠ 0) :
    Run (do
      ftrtri k.tm .upper .nonUnit W.ld k.tt (r + 1) r W.p
      k.tm .left .upper .no .nonUnit r (W.c - r) (-1) W.p W.ld (W.p + r) W.ld) m
      (fun _ m' => ∃ Z, On m0 m' W Z ∧ (∀ i < r, ∀ j < r, ∑ l ∈ range r, tri .upper .nonUnit Z i l * tri .upper .nonUnit V l j = if i = j then 1 else 0) ∧
        (∀ i < W.r, ∀ j < r, j < i → Z i j = V i j) ∧
        (∀ i < r, ∀ j < W.c, r ≤ j → Z i j = - ∑ k ∈ range r, tri .upper .nonUnit Z i k * V k j) ∧
        (∀ i < W.r, ∀ j < W.c, r ≤ i → r ≤ j → Z i j = V i j)) := by
  rw [Run_bind]
  refine (ftrtri_blk hk.tm hk.tt h r hr hc (fun _ => hz)).mono ?_
  rintro _ m1 ⟨Z, h1, hI⟩
  have := trmm_on (side := .left) (u := .upper) (ta := .no) (d := .nonUnit) (r := r) (c := W.c - r) (a := 0) (b := 0) (i0 := 0) (j0 := r) hk.tm h1 (-1)
    (by simp only [sideDim]; omega) (by simp only [sideDim]; omega) (by omega) (by omega) (by simp only [sideDim]; omega)
  rw [show W.adr 0 0 = W.p by simp [Win.adr], show W.adr 0 r = W.p + r by simp [Win.adr]] at this
  refine this.mono (fun _ m2 h2 => ?_)
  obtain ⟨Y, hY⟩ : ∃ Y, Y = fun i j => -1 * sideMul .left (sideDim .left r (W.c - r))
      (op .no (tri .upper .nonUnit (blk (upd 0 0 r r Z V) 0 0))) (blk (upd 0 0 r r Z V) 0 r) i j := ⟨_, rfl⟩
  rw [← hY] at h2
  refine ⟨_, h2, ?_⟩
  have e1 : ∀ i < r, ∀ j < r, upd 0 r r (W.c - r) Y (upd 0 0 r r Z V) i j = Z i j := by
    intro i hi j hj
    rw [upd_out (by omega), upd_in' (by omega), Nat.sub_zero, Nat.sub_zero]
  refine ⟨?_, ?_, ?_, ?_⟩
  · intro i hi j hj
    rw [← hI.2 i hi j hj]
    exact sum_congr rfl (fun l hl => by rw [tri_congr e1 hi (mem_range.1 hl)])
  · intro i hi j hj hij
    rw [upd_out (by omega)]
    by_cases hi' : i < r
    · rw [upd_in' (by omega), Nat.sub_zero, Nat.sub_zero]
      exact hI.1 i hi' j hj (by simp only [inT, below]; omega)
    · rw [upd_out (by omega)]
  · intro i hi j hj hrj
    rw [upd_in' (by omega), congrFun (congrFun hY (i - 0)) (j - r)]
    simp only [sideMul, mul, sideDim, op, Nat.sub_zero]
    rw [neg_one_mul]
    congr 1
    refine sum_congr rfl (fun k hk' => ?_)
    have hk' := mem_range.1 hk'
    rw [tri_congr e1 hi hk']
    congr 1
    · refine tri_congr (n := r) (fun a ha b hb => ?_) hi hk'
      simp only [blk, Nat.zero_add]
      rw [upd_in' (by omega), Nat.sub_zero, Nat.sub_zero]
    · simp only [blk, Nat.zero_add]
      rw [upd_out (by omega), show r + (j - r) = j by omega]
  · intro i hi j hj hri hrj
    rw [upd_out (by omega), upd_out (by omega)]

theorem columnEchelonForm_spec {k : Kit K} (hk : KitOk k) (jk : List ℕ → ℕ → ℕ) {P Qt : Arr ℕ} (h : On m0 m W X) (hP : P.len = W.c) (hQ : Qt.len = W.r) :
    Run (columnEchelonForm k jk true W.r W.c W.p W.ld P Qt) m (fun y m' => ArrOk y.2.1 W.c ∧ ArrOk y.2.2 W.r ∧
      ∃ V0 V, On m0 m' W V ∧ Fac .nonUnit W.r W.c X V0 (ofSwaps y.2.2.get W.r) (ofSwaps y.2.1.get W.c) y.1 ∧
        (∀ i < y.1, ∀ j < y.1, ∑ l ∈ range y.1, tri .upper .nonUnit V i l * tri .upper .nonUnit V0 l j = if i = j then 1 else 0) ∧
        (∀ i < W.r, ∀ j < y.1, j < i → V i j = V0 i j) ∧
        (∀ i < y.1, ∀ j < W.c, y.1 ≤ j → V i j = - ∑ k ∈ range y.1, tri .upper .nonUnit V i k * V0 k j) ∧
        (∀ i < W.r, ∀ j < W.c, y.1 ≤ i → y.1 ≤ j → V i j = V0 i j)) := by
  unfold columnEchelonForm
  rw [Run_bind]
  refine (pluq_spec k.cat hk.g hk.ts k.thr jk .nonUnit h hQ hP).mono ?_
  rintro ⟨r, Q', P'⟩ m1 ⟨a1, a2, a3, a4, V0, h1, hF⟩
  simp only [if_true]
  have := colTrans_on hk h1 r hF.rM hF.rN hF.piv
  rw [Run_bind] at this
  simp only [Run_bind]
  refine this.mono (fun _ _ hx => hx.mono ?_)
  rintro _ m2 ⟨Z, h2, b1, b2, b3, b4⟩
  rw [Run_pure]
  exact ⟨⟨a2, a4⟩, ⟨a1, a3⟩, V0, Z, h2, hF, b1, b2, b3, b4⟩

/-- reduction of the column echelon form, with transformation -/
lemma redColTail_on {k : Kit K} (hk : KitOk k) (h : On m0 m W V) (r : ℕ) (hr : r ≤ W.r) (hc : r ≤ W.c) :
    Run (do
      ftrtri k.tm .lower .unit W.ld k.tt (r + 1) r W.p
      k.tm .right .lower .no .unit (W.r - r) r 1 W.p W.ld (W.p + r * W.ld) W.ld
      ftrtrm k.tm k.g .left .nonUnit W.ld (r + 1) r W.p) m
      (fun _ m' => ∃ Z Li : ℕ → ℕ → K, On m0 m' W Z ∧ (∀ i < r, ∀ j < r, ∑ l ∈ range r, Li i l * tri .lower .unit V l j = if i = j then 1 else 0) ∧
        (∀ i < r, ∀ l < r, Z i l = ∑ k ∈ range r, tri .upper .nonUnit V i k * Li k l) ∧
        (∀ i < W.r, ∀ j < r, r ≤ i → Z i j = ∑ k ∈ range r, V i k * Li k j) ∧
        (∀ i < W.r, ∀ j < W.c, r ≤ j → Z i j = V i j)) := by
  simp only [Run_bind]
  refine (ftrtri_blk hk.tm hk.tt h r hr hc (fun hh => by cases hh)).mono ?_
  rintro _ m1 ⟨Z, h1, hI⟩
  have := trmm_on (side := .right) (u := .lower) (ta := .no) (d := .unit) (r := W.r - r) (c := r) (a := 0) (b := 0) (i0 := r) (j0 := 0) hk.tm h1 1
    (by simp only [sideDim]; omega) (by simp only [sideDim]; omega) (by omega) (by omega) (by simp only [sideDim]; omega)
  rw [show W.adr 0 0 = W.p by simp [Win.adr], show W.adr r 0 = W.p + r * W.ld by simp [Win.adr]] at this
  refine this.mono (fun _ m2 h2 => ?_)
  obtain ⟨Y, hY⟩ : ∃ Y, Y = fun i j => 1 * sideMul .right (sideDim .right (W.r - r) r)
      (op .no (tri .lower .unit (blk (upd 0 0 r r Z V) 0 0))) (blk (upd 0 0 r r Z V) r 0) i j := ⟨_, rfl⟩
  rw [← hY] at h2
  refine (ftrtrm_blk (side := .left) (d := .nonUnit) hk.tm hk.g h2 r hr hc).mono (fun _ m3 h3 => ?_)
  have e1 : ∀ i < r, ∀ j < r, upd r 0 (W.r - r) r Y (upd 0 0 r r Z V) i j = Z i j := by
    intro i hi j hj
    rw [upd_out (by omega), upd_in' (by omega), Nat.sub_zero, Nat.sub_zero]
  have e2 : ∀ i < r, ∀ j < r, blk (upd 0 0 r r Z V) 0 0 i j = Z i j := by
    intro i hi j hj
    simp only [blk, Nat.zero_add]
    rw [upd_in' (by omega), Nat.sub_zero, Nat.sub_zero]
  refine ⟨_, tri .lower .unit Z, h3, hI.2, ?_, ?_, ?_⟩
  · intro i hi l hl
    rw [upd_in' (by omega), Nat.sub_zero, Nat.sub_zero]
    simp only [trtrm, otherDiag]
    refine sum_congr rfl (fun k hk' => ?_)
    have hk' := mem_range.1 hk'
    rw [tri_congr e1 hi hk', tri_congr e1 hk' hl]
    congr 1
    unfold tri
    by_cases e : i = k
    · rw [if_pos e, if_pos e]
      exact hI.1 i hi i hi (by simp [inT, below])
    · rw [if_neg e, if_neg e]
      by_cases e' : i < k
      · simp only [e', if_true]
        exact hI.1 i hi k hk' (by simp only [inT, below]; omega)
      · simp only [e', if_false]
  · intro i hi j hj hri
    rw [upd_out (by omega), upd_in' (by omega), congrFun (congrFun hY (i - r)) (j - 0)]
    simp only [sideMul, mul, sideDim, op, Nat.sub_zero]
    rw [one_mul]
    refine sum_congr rfl (fun k hk' => ?_)
    have hk' := mem_range.1 hk'
    rw [tri_congr e2 hk' hj]
    congr 1
    simp only [blk, Nat.zero_add]
    rw [upd_out (by omega), show r + (i - r) = i by omega]
  · intro i hi j hj hrj
    rw [upd_out (by omega), upd_out (by omega), upd_out (by omega)]

/-- `ColumnEchelonForm` with transformation, on the transposed matrix -/
theorem columnEchelonForm_tr {k : Kit K} (hk : KitOk k) (jk : List ℕ → ℕ → ℕ) {P Qt : Arr ℕ} (h : On m0 m W X) (hP : P.len = W.c) (hQ : Qt.len = W.r) :
    Run (columnEchelonForm k jk true W.r W.c W.p W.ld P Qt) m (fun y m' => ArrOk y.2.1 W.c ∧ ArrOk y.2.2 W.r ∧
      ∃ V, On m0 m' W V ∧ IsEchelon W.c W.r y.1 (fun i j => X j i) (fun i j => V j i) (ofSwaps y.2.1.get W.c) (ofSwaps y.2.2.get W.r)) := by
  refine (columnEchelonForm_spec hk jk h hP hQ).mono ?_
  rintro ⟨r, P', Q'⟩ m1 ⟨a1, a2, V0, V, h1, hF, b1, b2, b3, b4⟩
  refine ⟨a1, a2, V, h1, hF.transp.row.echelon (fun i hi j hj => ?_) (fun i hi j hj hij => b2 j hj i hi hij) (fun i hi l hl hri => ?_)⟩
  · have := inv_comm b1 j hj i hi
    rw [if_congr (show i = j ↔ j = i from eq_comm) rfl rfl, ← this]
    refine sum_congr rfl (fun l _ => ?_)
    rw [tri_tr_lower, show luL .unit (fun i j => V0 j i) l j = tri .upper .nonUnit V0 j l from tri_tr_lower _ _ _ _, mul_comm]
  · have := b3 l hl i hi hri
    rw [this]
    congr 1
    exact sum_congr rfl (fun k _ => by rw [tri_tr_lower, mul_comm])

/-- `ReducedColumnEchelonForm` with transformation -/
theorem reducedColumnEchelonForm_spec {k : Kit K} (hk : KitOk k) (jk : List ℕ → ℕ → ℕ) {P Qt : Arr ℕ} (h : On m0 m W X) (hP : P.len = W.c)
    (hQ : Qt.len = W.r) :
    Run (reducedColumnEchelonForm k jk true W.r W.c W.p W.ld P Qt) m (fun y m' => ArrOk y.2.1 W.c ∧ ArrOk y.2.2 W.r ∧
      ∃ V, On m0 m' W V ∧ GJ W.c W.r 0 0 y.1 (fun i j => X j i) (fun i j => V j i) (ofSwaps y.2.1.get W.c) (ofSwaps y.2.2.get W.r)) := by
  unfold reducedColumnEchelonForm
  simp only [Run_bind]
  refine (columnEchelonForm_spec hk jk h hP hQ).mono ?_
  rintro ⟨r, P', Q'⟩ m1 ⟨a1, a2, V0, V, h1, hF, b1, b2, b3, b4⟩
  simp only [if_true] at *
  have hr := hF.rM
  have hc := hF.rN
  have := redColTail_on hk h1 r hF.rM hF.rN
  simp only [Run_bind] at this ⊢
  refine this.mono (fun _ _ hx => hx.mono (fun _ _ hy => hy.mono ?_))
  rintro _ m2 ⟨Z, Li, h2, c1, c2, c3, c4⟩
  rw [Run_pure]
  have eV : ∀ i < r, ∀ l < r, tri .lower .unit V i l = tri .lower .unit V0 i l := by
    intro l hl j hj
    unfold tri
    by_cases e : l = j
    · rw [if_pos e, if_pos e]
    · rw [if_neg e, if_neg e]
      by_cases e' : j < l
      · simp only [e', if_true]; exact b2 l (by omega) j hj e'
      · simp only [e', if_false]
  have c1' : ∀ i < r, ∀ j < r, ∑ l ∈ range r, Li i l * tri .lower .unit V0 l j = if i = j then 1 else 0 := by
    intro i hi j hj
    rw [← c1 i hi j hj]
    exact sum_congr rfl (fun l hl => by rw [eV l (mem_range.1 hl) j hj])
  refine ⟨a1, a2, Z, h2, hF.transp.row.reduced (Li := fun i j => tri .upper .nonUnit V j i) (Ui := fun i j => Li j i) (fun i hi j hj => ?_)
    (fun i hi j hj => ?_) (fun i hi l hl => ?_) (fun i hi l hl hri => ?_) (fun i hi j hj hrj => ?_) (fun i hi j hj hri hrj => ?_)⟩
  · have := inv_comm b1 j hj i hi
    rw [if_congr (show i = j ↔ j = i from eq_comm) rfl rfl, ← this]
    refine sum_congr rfl (fun l _ => ?_)
    rw [show luL .unit (fun i j => V0 j i) l j = tri .upper .nonUnit V0 j l from tri_tr_lower _ _ _ _, mul_comm]
  · have := inv_comm c1' j hj i hi
    rw [if_congr (show i = j ↔ j = i from eq_comm) rfl rfl, ← this]
    refine sum_congr rfl (fun l _ => ?_)
    rw [show luU .unit (fun i j => V0 j i) l j = tri .lower .unit V0 j l from tri_tr_upper _ _ _ _, mul_comm]
  · rw [c2 l hl i hi]
    exact sum_congr rfl (fun k _ => mul_comm _ _)
  · have := c4 l (by omega) i hi hri
    rw [this, b3 l hl i hi hri]
    congr 1
    exact sum_congr rfl (fun k _ => mul_comm _ _)
  · have := c3 j hj i hi hrj
    rw [this]
    refine sum_congr rfl (fun k hk' => ?_)
    have hk' := mem_range.1 hk'
    rw [b2 j hj k hk' (by omega), mul_comm]
  · have := c4 j hj i hi hri
    rw [this, b4 j hj i hi hrj hri]

/-- `ReducedColumnEchelonForm` without transformation -/
theorem reducedColumnEchelonFormNT_spec {k : Kit K} (hk : KitOk k) (jk : List ℕ → ℕ → ℕ) {P Qt : Arr ℕ} (h : On m0 m W X) (hP : P.len = W.c)
    (hQ : Qt.len = W.r) :
    Run (reducedColumnEchelonForm k jk false W.r W.c W.p W.ld P Qt) m (fun y m' => ArrOk y.2.1 W.c ∧ ArrOk y.2.2 W.r ∧
      ∃ V, On m0 m' W V ∧ IsReducedNT W.c W.r y.1 (fun i j => X j i) (fun i j => V j i) (ofSwaps y.2.1.get W.c) (ofSwaps y.2.2.get W.r)) := by
  unfold reducedColumnEchelonForm columnEchelonForm
  simp only [Run_bind]
  refine (pluq_spec k.cat hk.g hk.ts k.thr jk .nonUnit h hQ hP).mono ?_
  rintro ⟨r, Q', P'⟩ m1 ⟨a1, a2, a3, a4, V0, h1, hF⟩
  simp only [Bool.false_eq_true, if_false, Run_pure, Run_bind] at *
  have hr := hF.rM
  have hc := hF.rN
  have := trsm_on (side := .right) (u := .lower) (ta := .no) (d := .unit) (r := W.r - r) (c := r) (a := 0) (b := 0) (i0 := r) (j0 := 0) hk.ts h1 1
    (by simp only [sideDim]; omega) (by simp only [sideDim]; omega) (by omega) (by omega) (by simp only [sideDim]; omega) (by intro hh; cases hh)
  rw [show W.adr 0 0 = W.p by simp [Win.adr], show W.adr r 0 = W.p + r * W.ld by simp [Win.adr]] at this
  refine this.mono ?_
  rintro _ m2 ⟨Y, h2, hY⟩
  refine ⟨⟨a2, a4⟩, ⟨a1, a3⟩, _, h2, hF.transp.row.reducedNT (fun i hi j hj hrj => ?_) (fun i hi j hj hh => ?_)⟩
  · have := hY (j - r) (by omega) i hi
    simp only [sideMul, mul, sideDim, op, Nat.zero_add, one_mul] at this
    rw [show r + (j - r) = j by omega] at this
    rw [← this]
    refine sum_congr rfl (fun l hl => ?_)
    have hl := mem_range.1 hl
    rw [upd_in' (by omega), Nat.sub_zero, show luU .unit (fun i j => V0 j i) i l = tri .lower .unit V0 l i from tri_tr_upper _ _ _ _, mul_comm]
    congr 1
    exact tri_congr (n := r) (fun a _ b _ => by simp [blk]) hl hi
  · show upd _ _ _ _ _ _ j i = V0 j i
    rw [upd_out (by omega)]

/-- `RowEchelonForm` with transformation -/
theorem rowEchelonForm_tr {k : Kit K} (hk : KitOk k) (jk : List ℕ → ℕ → ℕ) {P Qt : Arr ℕ} (h : On m0 m W X) (hP : P.len = W.r) (hQ : Qt.len = W.c) :
    Run (rowEchelonForm k jk true W.r W.c W.p W.ld P Qt) m (fun y m' => ArrOk y.2.1 W.r ∧ ArrOk y.2.2 W.c ∧
      ∃ V, On m0 m' W V ∧ IsEchelon W.r W.c y.1 X V (ofSwaps y.2.1.get W.r) (ofSwaps y.2.2.get W.c)) := by
  refine (rowEchelonForm_spec hk jk h hP hQ).mono ?_
  rintro ⟨r, P', Q'⟩ m1 ⟨a1, a2, V0, V, h1, hF, b1, b2, b3, b4⟩
  exact ⟨a1, a2, V, h1, hF.row.echelon b1 b2 b3⟩

end Verif.FF
