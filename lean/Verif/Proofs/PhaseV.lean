import Verif.Model.PPluq
import Verif.Proofs.ParElem
import Verif.Proofs.ParLevel
import Verif.Proofs.ParGemm
import Verif.Proofs.At
import Verif.Proofs.PluqMath

/-!
# A group of tasks on blocks of a matrix
-/

namespace Verif.ParV
open Verif.FF Verif.Par Verif.Perm Finset Verif.Spec Verif.Spec.Perm Verif.Pluq

variable {K ν : Type}

/-- weaker postcondition -/
lemma wp_monoQ (p : VProc K ν) : ∀ {W R T : ℕ → Prop} {v : ℕ → K} {Q Q' : ν → (ℕ → K) → Prop}, (∀ x v, Q x v → Q' x v) →
    wp p W R T v Q → wp p W R T v Q' := by
  induction p with
  | ret => intro W R T v Q Q' hq h; exact hq _ _ h
  | fault => intro W R T v Q Q' _ h; exact h
  | rd i k ih => intro W R T v Q Q' hq h; exact ⟨h.1, ih _ hq h.2⟩
  | wr i x k ih => intro W R T v Q Q' hq h; exact ⟨h.1, ih hq h.2⟩
  | alloc n k ih => intro W R T v Q Q' hq h p c hp; exact ih _ hq (h p c hp)
  | free p n k ih => intro W R T v Q Q' hq h; exact ⟨h.1, ih hq h.2⟩
  | par n ts k _ ih =>
    rintro W R T v Q Q' hq ⟨T0, Wc, Rc, Tc, Qc, h1, h2, h3, h4, h5, h6, h7, h8⟩
    exact ⟨T0, Wc, Rc, Tc, Qc, h1, h2, h3, h4, h5, h6, h7, fun x v' e q => ih _ hq (h8 x v' e q)⟩

/-- more cells to read -/
lemma wp_monoR (p : VProc K ν) : ∀ {W R R' T : ℕ → Prop} {v : ℕ → K} {Q : ν → (ℕ → K) → Prop}, (∀ i, R i → R' i) →
    wp p W R T v Q → wp p W R' T v Q := by
  induction p with
  | ret => intro W R R' T v Q _ h; exact h
  | fault => intro W R R' T v Q _ h; exact h
  | rd i k ih => intro W R R' T v Q hR h; exact ⟨h.1.imp id (Or.imp (hR _) id), ih _ hR h.2⟩
  | wr i x k ih => intro W R R' T v Q hR h; exact ⟨h.1, ih hR h.2⟩
  | alloc n k ih =>
    intro W R R' T v Q hR h p c hp
    exact ih _ hR (h p c (fun i hi hc => hp i hi (hc.imp id (Or.imp (hR _) id))))
  | free p n k ih => intro W R R' T v Q hR h; exact ⟨h.1, ih hR h.2⟩
  | par n ts k _ ih =>
    rintro W R R' T v Q hR ⟨T0, Wc, Rc, Tc, Qc, h1, h2, h3, h4, h5, h6, h7, h8⟩
    exact ⟨T0, Wc, Rc, Tc, Qc, h1, h2, h3, fun j i hi => (h4 j i hi).imp id (Or.imp (hR _) id), h5, h6, h7,
      fun x v' e q => ih _ hR (h8 x v' (fun i hi => e i (hi.imp id (Or.imp (hR _) id))) q)⟩

lemma wp_liftV {α : Type} {e : Except Fault α} {k : α → VProc K Res} {P : α → Prop} {W R T : ℕ → Prop} {v : ℕ → K} {Q : Res → (ℕ → K) → Prop} (h : Ok e P)
    (hk : ∀ a, P a → wp (k a) W R T v Q) : wp (liftV e k) W R T v Q := by
  obtain ⟨a, rfl, ha⟩ := h
  exact hk a ha

/-- block of a matrix: first row, first column, numbers of rows and of columns -/
structure Rect where
  i : ℕ
  j : ℕ
  h : ℕ
  w : ℕ

/-- entry in the block -/
def Rect.Has (r : Rect) (a b : ℕ) : Prop := r.i ≤ a ∧ a < r.i + r.h ∧ r.j ≤ b ∧ b < r.j + r.w

/-- the block is in the window -/
def Rect.Ins (r : Rect) (W : Win) : Prop := r.i + r.h ≤ W.r ∧ r.j + r.w ≤ W.c

/-- disjoint blocks -/
def Rect.Apart (r s : Rect) : Prop := r.i + r.h ≤ s.i ∨ s.i + s.h ≤ r.i ∨ r.j + r.w ≤ s.j ∨ s.j + s.w ≤ r.j

/-- the window of a block -/
def rwin (W : Win) (r : Rect) : Win := W.sub r.i r.j r.h r.w

lemma rwin_has {W : Win} {r : Rect} (h : r.Ins W) {x : ℕ} (hx : (rwin W r).Has x) : W.Has x := Win.sub_Has h.1 h.2 hx

lemma rwin_disj {W : Win} (hi : W.Inj) {r s : Rect} (hr : r.Ins W) (hs : s.Ins W) (h : r.Apart s) : (rwin W r).Disj (rwin W s) :=
  Win.sub_Disj hi hr.1 hr.2 hs.1 hs.2 h

lemma rwin_iff {W : Win} (hi : W.Inj) {r : Rect} (hr : r.Ins W) {a b : ℕ} (ha : a < W.r) (hb : b < W.c) : (rwin W r).Has (W.adr a b) ↔ r.Has a b := by
  constructor
  · rintro ⟨i, hi', j, hj', e⟩
    have hi' : i < r.h := hi'
    have hj' : j < r.w := hj'
    have e : W.adr a b = W.adr (r.i + i) (r.j + j) := by rw [e]; simp only [rwin, Win.sub, Win.adr]; ring
    obtain ⟨rfl, rfl⟩ := hi a ha b hb (r.i + i) (by have := hr.1; omega) (r.j + j) (by have := hr.2; omega) e
    exact ⟨by omega, by omega, by omega, by omega⟩
  · rintro ⟨h1, h2, h3, h4⟩
    refine ⟨a - r.i, by simp only [rwin, Win.sub]; omega, b - r.j, by simp only [rwin, Win.sub]; omega, ?_⟩
    have e1 : a = r.i + (a - r.i) := by omega
    have e2 : b = r.j + (b - r.j) := by omega
    conv_lhs => rw [e1, e2]
    simp only [rwin, Win.sub, Win.adr]; ring

/-- what a task does: the block that it writes, the blocks that it reads, what is known of its value and of the new contents of its block -/
structure Job (K ν : Type) where
  out : Rect
  rd : List Rect
  post : ν → (ℕ → ℕ → K) → Prop

/-- the task `t` does the job on the matrix `W`, contents `v` -/
def Does (W : Win) (v : ℕ → K) (t : VProc K ν) (J : Job K ν) : Prop :=
  wp t (rwin W J.out).Has (fun x => ∃ r ∈ J.rd, (rwin W r).Has x) (fun _ => False) v (fun x v' => ∃ Y, J.post x Y ∧ Vals (rwin W J.out) Y v')

/-- the blocks of the jobs are in the matrix and no task touches the block written by another one -/
structure Fit {n : ℕ} (W : Win) (J : Fin n → Job K ν) : Prop where
  out : ∀ j, (J j).out.Ins W
  rd : ∀ j, ∀ r ∈ (J j).rd, r.Ins W
  apart : ∀ j l, j ≠ l → (J j).out.Apart (J l).out ∧ ∀ r ∈ (J j).rd, r.Apart (J l).out

lemma wp_phase {n : ℕ} {ts : Fin n → VProc K ν} {k : (Fin n → ν) → VProc K ν} {W : Win} (hi : W.Inj) {v : ℕ → K} {T : ℕ → Prop} {Q : ν → (ℕ → K) → Prop}
    {V : ℕ → ℕ → K} (J : Fin n → Job K ν) (h : Vals W V v) (hJ : Fit W J) (ht : ∀ j, Does W v (ts j) (J j))
    (hk : ∀ (x : Fin n → ν) (v' : ℕ → K) (Y : Fin n → ℕ → ℕ → K), (∀ j, (J j).post (x j) (Y j)) → (∀ a < W.r, ∀ b < W.c, (∀ j, ¬ (J j).out.Has a b) → v' (W.adr a b) = V a b) →
      (∀ j a b, (J j).out.Has a b → v' (W.adr a b) = Y j (a - (J j).out.i) (b - (J j).out.j)) → (∀ i, T i → ¬ W.Has i → v' i = v i) →
      wp (k x) W.Has (fun _ => False) T v' Q) : wp (.par n ts k) W.Has (fun _ => False) T v Q := by
  refine ⟨T, fun j => (rwin W (J j).out).Has, fun j x => ∃ r ∈ (J j).rd, (rwin W r).Has x, fun _ _ => False,
    fun j x v' => ∃ Y, (J j).post x Y ∧ Vals (rwin W (J j).out) Y v', fun _ h => h, fun _ _ h => h.elim, fun j i hh => Or.inl (rwin_has (hJ.out j) hh),
    fun j i ⟨r, hr, hh⟩ => Or.inl (rwin_has (hJ.rd j r hr) hh), fun j l i e => ⟨fun hh => ?_, fun hh => ?_, fun hh => hh.1⟩, fun j x v1 v2 e hh => ?_, ht, ?_⟩
  · exact rwin_disj hi (hJ.out j) (hJ.out l) (hJ.apart j l e).1 i hh.1 hh.2
  · obtain ⟨⟨r, hr, h1⟩, h2⟩ := hh
    exact rwin_disj hi (hJ.rd j r hr) (hJ.out l) ((hJ.apart j l e).2 r hr) i h1 h2
  · obtain ⟨Y, h1, h2⟩ := hh
    exact ⟨Y, h1, fun a ha b hb => by rw [e _ (Or.inl (Win.Has_adr ha hb))]; exact h2 a ha b hb⟩
  · intro x v' hf hq
    choose Y hY1 hY2 using hq
    refine hk x v' Y hY1 (fun a ha b hb hn => ?_) (fun j a b hab => ?_) (fun i hT hW => hf i (Or.inr (Or.inr hT)) (fun j hj => hW (rwin_has (hJ.out j) hj)))
    · rw [← h a ha b hb]
      exact hf _ (Or.inl (Win.Has_adr ha hb)) (fun j hj => hn j ((rwin_iff hi (hJ.out j) ha hb).1 hj))
    · obtain ⟨h1, h2, h3, h4⟩ := hab
      rw [← hY2 j (a - (J j).out.i) (by simp only [rwin, Win.sub]; omega) (b - (J j).out.j) (by simp only [rwin, Win.sub]; omega)]
      congr 1
      have e1 : a = (J j).out.i + (a - (J j).out.i) := by omega
      have e2 : b = (J j).out.j + (b - (J j).out.j) := by omega
      conv_lhs => rw [e1, e2]
      simp only [rwin, Win.sub, Win.adr]; ring

/-- the contents after a job -/
def Job.upd (J : Job K ν) (Y V : ℕ → ℕ → K) : ℕ → ℕ → K := FF.upd J.out.i J.out.j J.out.h J.out.w Y V

lemma Job.upd_in {J : Job K ν} {Y V : ℕ → ℕ → K} {a b : ℕ} (h : J.out.Has a b) : J.upd Y V a b = Y (a - J.out.i) (b - J.out.j) := upd_in' h

lemma Job.upd_out {J : Job K ν} {Y V : ℕ → ℕ → K} {a b : ℕ} (h : ¬ J.out.Has a b) : J.upd Y V a b = V a b := by
  refine FF.upd_out ?_
  unfold Rect.Has at h
  omega

section
variable {W : Win} {v : ℕ → K} {T : ℕ → Prop} {Q : ν → (ℕ → K) → Prop} {V : ℕ → ℕ → K} {t0 t1 t2 t3 t4 : VProc K ν}

lemma wp_phase1 (hi : W.Inj) {k : (Fin 1 → ν) → VProc K ν} (J0 : Job K ν) (h : Vals W V v) (hJ : Fit W ![J0]) (h0 : Does W v t0 J0)
    (hk : ∀ x v' Y0, J0.post (x 0) Y0 → Vals W (J0.upd Y0 V) v' → (∀ i, T i → ¬ W.Has i → v' i = v i) → wp (k x) W.Has (fun _ => False) T v' Q) :
    wp (.par 1 ![t0] k) W.Has (fun _ => False) T v Q := by
  refine wp_phase hi ![J0] h hJ (fun j => by fin_cases j; exact h0) (fun x v' Y h1 h2 h3 h4 => hk x v' (Y 0) (h1 0) (fun a ha b hb => ?_) h4)
  by_cases c : J0.out.Has a b
  · rw [J0.upd_in c]; exact h3 0 a b c
  · rw [J0.upd_out c]; exact h2 a ha b hb (fun j => by fin_cases j; exact c)

lemma wp_phase2 (hi : W.Inj) {k : (Fin 2 → ν) → VProc K ν} (J0 J1 : Job K ν) (h : Vals W V v) (hJ : Fit W ![J0, J1]) (h0 : Does W v t0 J0) (h1 : Does W v t1 J1)
    (hk : ∀ x v' Y0 Y1, J0.post (x 0) Y0 → J1.post (x 1) Y1 → Vals W (J1.upd Y1 (J0.upd Y0 V)) v' → (∀ i, T i → ¬ W.Has i → v' i = v i) →
      wp (k x) W.Has (fun _ => False) T v' Q) :
    wp (.par 2 ![t0, t1] k) W.Has (fun _ => False) T v Q := by
  refine wp_phase hi ![J0, J1] h hJ (fun j => by fin_cases j; exacts [h0, h1])
    (fun x v' Y g1 g2 g3 g4 => hk x v' (Y 0) (Y 1) (g1 0) (g1 1) (fun a ha b hb => ?_) g4)
  by_cases c1 : J1.out.Has a b
  · rw [J1.upd_in c1]; exact g3 1 a b c1
  rw [J1.upd_out c1]
  by_cases c : J0.out.Has a b
  · rw [J0.upd_in c]; exact g3 0 a b c
  · rw [J0.upd_out c]; exact g2 a ha b hb (fun j => by fin_cases j; exacts [c, c1])

lemma wp_phase3 (hi : W.Inj) {k : (Fin 3 → ν) → VProc K ν} (J0 J1 J2 : Job K ν) (h : Vals W V v) (hJ : Fit W ![J0, J1, J2]) (h0 : Does W v t0 J0)
    (h1 : Does W v t1 J1) (h2 : Does W v t2 J2)
    (hk : ∀ x v' Y0 Y1 Y2, J0.post (x 0) Y0 → J1.post (x 1) Y1 → J2.post (x 2) Y2 → Vals W (J2.upd Y2 (J1.upd Y1 (J0.upd Y0 V))) v' →
      (∀ i, T i → ¬ W.Has i → v' i = v i) → wp (k x) W.Has (fun _ => False) T v' Q) :
    wp (.par 3 ![t0, t1, t2] k) W.Has (fun _ => False) T v Q := by
  refine wp_phase hi ![J0, J1, J2] h hJ (fun j => by fin_cases j; exacts [h0, h1, h2])
    (fun x v' Y g1 g2 g3 g4 => hk x v' (Y 0) (Y 1) (Y 2) (g1 0) (g1 1) (g1 2) (fun a ha b hb => ?_) g4)
  by_cases c2 : J2.out.Has a b
  · rw [J2.upd_in c2]; exact g3 2 a b c2
  rw [J2.upd_out c2]
  by_cases c1 : J1.out.Has a b
  · rw [J1.upd_in c1]; exact g3 1 a b c1
  rw [J1.upd_out c1]
  by_cases c : J0.out.Has a b
  · rw [J0.upd_in c]; exact g3 0 a b c
  · rw [J0.upd_out c]; exact g2 a ha b hb (fun j => by fin_cases j; exacts [c, c1, c2])

lemma wp_phase5 (hi : W.Inj) {k : (Fin 5 → ν) → VProc K ν} (J0 J1 J2 J3 J4 : Job K ν) (h : Vals W V v) (hJ : Fit W ![J0, J1, J2, J3, J4]) (h0 : Does W v t0 J0)
    (h1 : Does W v t1 J1) (h2 : Does W v t2 J2) (h3 : Does W v t3 J3) (h4 : Does W v t4 J4)
    (hk : ∀ x v' Y0 Y1 Y2 Y3 Y4, J0.post (x 0) Y0 → J1.post (x 1) Y1 → J2.post (x 2) Y2 → J3.post (x 3) Y3 → J4.post (x 4) Y4 →
      Vals W (J4.upd Y4 (J3.upd Y3 (J2.upd Y2 (J1.upd Y1 (J0.upd Y0 V))))) v' →
      (∀ i, T i → ¬ W.Has i → v' i = v i) → wp (k x) W.Has (fun _ => False) T v' Q) :
    wp (.par 5 ![t0, t1, t2, t3, t4] k) W.Has (fun _ => False) T v Q := by
  refine wp_phase hi ![J0, J1, J2, J3, J4] h hJ (fun j => by fin_cases j; exacts [h0, h1, h2, h3, h4])
    (fun x v' Y g1 g2 g3 g4 => hk x v' (Y 0) (Y 1) (Y 2) (Y 3) (Y 4) (g1 0) (g1 1) (g1 2) (g1 3) (g1 4) (fun a ha b hb => ?_) g4)
  by_cases c4 : J4.out.Has a b
  · rw [J4.upd_in c4]; exact g3 4 a b c4
  rw [J4.upd_out c4]
  by_cases c3 : J3.out.Has a b
  · rw [J3.upd_in c3]; exact g3 3 a b c3
  rw [J3.upd_out c3]
  by_cases c2 : J2.out.Has a b
  · rw [J2.upd_in c2]; exact g3 2 a b c2
  rw [J2.upd_out c2]
  by_cases c1 : J1.out.Has a b
  · rw [J1.upd_in c1]; exact g3 1 a b c1
  rw [J1.upd_out c1]
  by_cases c : J0.out.Has a b
  · rw [J0.upd_in c]; exact g3 0 a b c
  · rw [J0.upd_out c]; exact g2 a ha b hb (fun j => by fin_cases j; exacts [c, c1, c2, c3, c4])
end

/-! ## The tasks of the decomposition -/

section
variable [Field K] [DecidableEq K]
variable {W : Win} {v : ℕ → K} {V : ℕ → ℕ → K} {i0 j0 r c A B : ℕ}

omit [DecidableEq K] [Field K] in
/-- a parallel function as a task -/
lemma wp_tk {p : Proc K} {w : Win} {Rs Rs' : ℕ → Prop} {g : ℕ → ℕ → K} (h : TaskOk p w Rs v g) (hR : ∀ x, Rs x → Rs' x) {post : Res → (ℕ → ℕ → K) → Prop}
    (hp : ∀ x, post x g) : wp (tk p) w.Has Rs' (fun _ => False) v (fun x v' => ∃ Y, post x Y ∧ Vals w Y v') :=
  wp_monoR _ hR (up_wp p h (fun _ h' => ⟨g, hp _, h'⟩))

omit [DecidableEq K] [Field K] in
lemma vals_at (h : Vals W V v) {x : ℕ → ℕ → K} (f : At V i0 j0 r c x) (hr : i0 + r ≤ W.r) (hc : j0 + c ≤ W.c) {i j : ℕ} (hi : i < r) (hj : j < c) :
    v (W.adr i0 j0 + i * W.ld + j) = x i j := by
  rw [← f i hi j hj, ← h (i0 + i) (by omega) (j0 + j) (by omega)]
  congr 1; simp only [Win.adr]; ring

lemma does_rows {P : Arr ℕ} (h : Vals W V v) (hl : W.c ≤ W.ld) (t : ℕ) {x : ℕ → ℕ → K} (f : At V i0 j0 r c x) (hA : A = W.adr i0 j0) (hr : i0 + r ≤ W.r)
    (hc : j0 + c ≤ W.c) (hP : P.len = r) (hp : ∀ i < r, P.get i < r) :
    Does W v (tkRows t r c A W.ld P) ⟨⟨i0, j0, r, c⟩, [], fun _ Y => ∀ i < r, ∀ j < c, Y i j = x (ofSwaps P.get r i) j⟩ := by
  subst hA
  refine wp_tk (papplyP_left_ok (v := v) (r := r) (fun e => by cases e) (by omega) le_rfl hP.ge hp) (fun x h => h.elim) (fun _ i hi j hj => ?_)
  simp only [appliedPerm, swapsFrom_zero]
  exact vals_at h f hr hc ((ofSwaps_isPerm hp).1 i hi) hj

lemma does_cols {P : Arr ℕ} (h : Vals W V v) (hl : W.c ≤ W.ld) (t : ℕ) {x : ℕ → ℕ → K} (f : At V i0 j0 r c x) (hA : A = W.adr i0 j0) (hr : i0 + r ≤ W.r)
    (hc : j0 + c ≤ W.c) (hP : P.len = c) (hp : ∀ i < c, P.get i < c) :
    Does W v (tkCols t r c A W.ld P) ⟨⟨i0, j0, r, c⟩, [], fun _ Y => ∀ i < r, ∀ j < c, Y i j = x i (ofSwaps P.get c j)⟩ := by
  subst hA
  refine wp_tk (papplyP_right_ok (v := v) (c := c) (fun e => by cases e) (by omega) le_rfl hP.ge hp) (fun x h => h.elim) (fun _ i hi j hj => ?_)
  simp only [appliedPerm, swapsFrom_zero]
  exact vals_at h f hr hc hi ((ofSwaps_isPerm hp).1 j hj)

lemma triCells_rect {u : Uplo} {d : Diag} {n a b : ℕ} {x : ℕ} (h : triCells u d n (W.adr a b) W.ld x) : (rwin W ⟨a, b, n, n⟩).Has x := by
  obtain ⟨i, hi, j, hj, _, e⟩ := h
  exact ⟨i, hi, j, hj, by rw [e]; simp only [rwin, Win.sub, Win.adr]⟩

lemma does_solveL (hi : W.Inj) (h : Vals W V v) (hl : W.c ≤ W.ld) {d : Diag} (t a b i0 j0 : ℕ) {f x : ℕ → ℕ → K} (f1 : At V a b r r f) (f2 : At V i0 j0 r c x)
    (hA : A = W.adr a b) (hB : B = W.adr i0 j0) (ha : a + r ≤ W.r) (hb : b + r ≤ W.c) (hr : i0 + r ≤ W.r) (hc : j0 + c ≤ W.c)
    (hs : a + r ≤ i0 ∨ i0 + r ≤ a ∨ b + r ≤ j0 ∨ j0 + c ≤ b) (hd : ∀ i < r, f i i ≠ 0) :
    Does W v (tkL d t r c A W.ld B W.ld) ⟨⟨i0, j0, r, c⟩, [⟨a, b, r, r⟩], fun _ Y => ∀ i < r, ∀ j < c, ∑ k ∈ range r, luL d f i k * Y k j = x i j⟩ := by
  subst hA hB
  obtain ⟨X, h1, h2⟩ := pftrsm_ok (v := v) (side := .left) (u := .lower) (ta := .no) (d := otherDiag d) (p := .Threads) (t := t) (M := r) (N := c)
    (A := W.adr a b) (lda := W.ld) (B := W.adr i0 j0) (ldb := W.ld) 1 (fun e => by cases e) (by omega) (by simp only [Spec.sideDim]; omega)
    (fun x hx => rwin_disj hi (r := ⟨a, b, r, r⟩) (s := ⟨i0, j0, r, c⟩) ⟨ha, hb⟩ ⟨hr, hc⟩ hs x (triCells_rect hx))
    (fun _ i hi' => by simp only [Spec.sideDim] at hi'; rw [vals_at h f1 ha hb hi' hi']; exact hd i hi')
  refine wp_tk h1 (fun x hx => ⟨_, List.mem_singleton.2 rfl, triCells_rect hx⟩) (fun _ i hi' j hj => ?_)
  rw [← vals_at h f2 hr hc hi' hj, ← one_mul (v _), ← h2 i hi' j hj]
  simp only [Spec.sideMul, Spec.mul, Spec.op, Spec.sideDim, triV, luL_eq]
  refine sum_congr rfl (fun k hk => ?_)
  rw [luL_congr (V := f) (V' := fun i j => v (W.adr a b + i * W.ld + j)) (fun _ => (vals_at h f1 ha hb hi' (mem_range.1 hk)).symm)]

lemma does_solveU (hi : W.Inj) (h : Vals W V v) (hl : W.c ≤ W.ld) {d : Diag} (t a b i0 j0 : ℕ) {f x : ℕ → ℕ → K} (f1 : At V a b c c f) (f2 : At V i0 j0 r c x)
    (hA : A = W.adr a b) (hB : B = W.adr i0 j0) (ha : a + c ≤ W.r) (hb : b + c ≤ W.c) (hr : i0 + r ≤ W.r) (hc : j0 + c ≤ W.c)
    (hs : a + c ≤ i0 ∨ i0 + r ≤ a ∨ b + c ≤ j0 ∨ j0 + c ≤ b) (hd : ∀ i < c, f i i ≠ 0) :
    Does W v (tkU d t r c A W.ld B W.ld) ⟨⟨i0, j0, r, c⟩, [⟨a, b, c, c⟩], fun _ Y => ∀ i < r, ∀ j < c, ∑ k ∈ range c, Y i k * luU d f k j = x i j⟩ := by
  subst hA hB
  obtain ⟨X, h1, h2⟩ := pftrsm_ok (v := v) (side := .right) (u := .upper) (ta := .no) (d := d) (p := .Threads) (t := t) (M := r) (N := c)
    (A := W.adr a b) (lda := W.ld) (B := W.adr i0 j0) (ldb := W.ld) 1 (fun e => by cases e) (by omega) (by simp only [Spec.sideDim]; omega)
    (fun x hx => rwin_disj hi (r := ⟨a, b, c, c⟩) (s := ⟨i0, j0, r, c⟩) ⟨ha, hb⟩ ⟨hr, hc⟩ hs x (triCells_rect hx))
    (fun _ i hi' => by simp only [Spec.sideDim] at hi'; rw [vals_at h f1 ha hb hi' hi']; exact hd i hi')
  refine wp_tk h1 (fun x hx => ⟨_, List.mem_singleton.2 rfl, triCells_rect hx⟩) (fun _ i hi' j hj => ?_)
  rw [← vals_at h f2 hr hc hi' hj, ← one_mul (v _), ← h2 i hi' j hj]
  simp only [Spec.sideMul, Spec.mul, Spec.op, Spec.sideDim, triV]
  refine sum_congr rfl (fun k hk => ?_)
  rw [luU_congr (V := f) (V' := fun i j => v (W.adr a b + i * W.ld + j)) (fun _ => (vals_at h f1 ha hb (mem_range.1 hk) hj).symm)]; rfl

/-- subtraction of a product -/
lemma does_subMul (hi : W.Inj) (h : Vals W V v) (hl : W.c ≤ W.ld) (gthr nt a1 b1 a2 b2 i0 j0 : ℕ) {k : ℕ} {A1 A2 : ℕ} {x y z : ℕ → ℕ → K}
    (f1 : At V a1 b1 r k x) (f2 : At V a2 b2 k c y) (f3 : At V i0 j0 r c z)
    (hA1 : A1 = W.adr a1 b1) (hA2 : A2 = W.adr a2 b2) (hB : B = W.adr i0 j0) (ha1 : a1 + r ≤ W.r)
    (hb1 : b1 + k ≤ W.c) (ha2 : a2 + k ≤ W.r) (hb2 : b2 + c ≤ W.c) (hr : i0 + r ≤ W.r) (hc : j0 + c ≤ W.c)
    (s1 : a1 + r ≤ i0 ∨ i0 + r ≤ a1 ∨ b1 + k ≤ j0 ∨ j0 + c ≤ b1) (s2 : a2 + k ≤ i0 ∨ i0 + r ≤ a2 ∨ b2 + c ≤ j0 ∨ j0 + c ≤ b2) :
    Does W v (tkGemm gthr nt r c k A1 W.ld A2 W.ld B W.ld) ⟨⟨i0, j0, r, c⟩, [⟨a1, b1, r, k⟩, ⟨a2, b2, k, c⟩],
      fun _ Y => ∀ i < r, ∀ j < c, Y i j = z i j - ∑ l ∈ range k, x i l * y l j⟩ := by
  subst hA1 hA2 hB
  have src : ∀ x, (Call.mk .no .no r c k (-1 : K) (W.adr a1 b1) W.ld (W.adr a2 b2) W.ld 1 (W.adr i0 j0) W.ld).src x →
      (rwin W ⟨a1, b1, r, k⟩).Has x ∨ (rwin W ⟨a2, b2, k, c⟩).Has x := fun x hx => hx
  have hp : (Call.mk .no .no r c k (-1 : K) (W.adr a1 b1) W.ld (W.adr a2 b2) W.ld 1 (W.adr i0 j0) W.ld).Pre :=
    ⟨by simp only [opc]; omega, by simp only [opc]; omega, by simp only []; omega, fun x hx => (src x hx).elim
      (rwin_disj hi (r := ⟨a1, b1, r, k⟩) (s := ⟨i0, j0, r, c⟩) ⟨ha1, hb1⟩ ⟨hr, hc⟩ s1 x)
      (rwin_disj hi (r := ⟨a2, b2, k, c⟩) (s := ⟨i0, j0, r, c⟩) ⟨ha2, hb2⟩ ⟨hr, hc⟩ s2 x)⟩
  refine wp_tk ((pfgemm2DA_ok seqGemm_ok (Nat.lt_succ_self nt)).task (v := v) hp (fun _ h => h)) (fun x hx => ?_) (fun _ i hi' j hj => ?_)
  · rcases src x hx with hx | hx
    · exact ⟨_, by simp, hx⟩
    · exact ⟨_, List.mem_cons_of_mem _ (List.mem_singleton.2 rfl), hx⟩
  · simp only [Call.val, Call.dot, opAdr, Call.win, Win.adr, Nat.zero_add]
    have e := vals_at h f3 hr hc hi' hj
    simp only [Win.adr] at e
    rw [e, one_mul, neg_one_mul, ← sub_eq_neg_add]
    congr 1
    refine sum_congr rfl (fun l hl => ?_)
    have hl := mem_range.1 hl
    have e1 := vals_at h f1 ha1 hb1 hi' hl
    have e2 := vals_at h f2 ha2 hb2 hl hj
    simp only [Win.adr] at e1 e2
    rw [e1, e2]
end

end Verif.ParV
