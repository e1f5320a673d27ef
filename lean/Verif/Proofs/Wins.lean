import Verif.Proofs.Luk

/-!
# Algorithms working on several matrices

`Wins m0 m W V`: starting from `m0` only the pairwise disjoint windows `W i` have been modified, and they now contain `V i`.
-/

namespace Verif.FF

open Finset

variable {K ι : Type}

structure Wins (m0 m : Mem K) (W : ι → Win) (V : ι → ℕ → ℕ → K) : Prop where
  wf : WF m0
  okin : ∀ i, OkIn m0 (W i)
  ld : ∀ i, (W i).c ≤ (W i).ld
  disj : ∀ i j, i ≠ j → (W i).Disj (W j)
  ok : m.ok = m0.ok
  next : m0.next ≤ m.next
  val : ∀ i, ∀ a < (W i).r, ∀ b < (W i).c, m.val ((W i).adr a b) = V i a b
  frame : ∀ a, m0.ok a = true → (∀ i, ¬ (W i).Has a) → m.val a = m0.val a

/-- one more window -/
def ocons {α : Type} (x : α) (f : ι → α) : Option ι → α
  | none => x
  | some i => f i

namespace Wins

variable {m0 m m' : Mem K} {W : ι → Win} {V V' : ι → ℕ → ℕ → K}

lemma wf' (h : Wins m0 m W V) : WF m := fun a ha => by rw [h.ok]; exact h.wf a (le_trans h.next ha)

lemma on (h : Wins m0 m W V) (i : ι) : On m m (W i) (V i) :=
  ⟨h.wf', fun a ha => by rw [h.ok]; exact h.okin i a ha, h.ld i, Step.refl (h.val i)⟩

lemma src (h : Wins m0 m W V) (i : ι) : Src m (W i) (V i) := (h.on i).src

lemma put [DecidableEq ι] {f : ℕ → ℕ → K} (h : Wins m0 m W V) (i : ι) (s : On m m' (W i) f) : Wins m0 m' W (Function.update V i f) := by
  refine ⟨h.wf, h.okin, h.ld, h.disj, s.step.ok.trans h.ok, h.next.trans s.step.next, fun j a ha b hb => ?_, fun a ha hn => ?_⟩
  · by_cases e : j = i
    · subst e
      rw [Function.update_self]; exact s.step.val a ha b hb
    · rw [Function.update_of_ne e, s.step.frame _ (by rw [h.ok]; exact (h.okin j).adr ha hb) (h.disj j i e _ (Win.Has_adr ha hb)),
        h.val j a ha b hb]
  · rw [s.step.frame a (by rw [h.ok]; exact ha) (hn i), h.frame a ha hn]

lemma congr (h : Wins m0 m W V) (e : ∀ i, ∀ a < (W i).r, ∀ b < (W i).c, V i a b = V' i a b) : Wins m0 m W V' :=
  ⟨h.wf, h.okin, h.ld, h.disj, h.ok, h.next, fun i a ha b hb => (h.val i a ha b hb).trans (e i a ha b hb), h.frame⟩

lemma here (h : Wins m0 m W V) : Wins m m W V :=
  ⟨h.wf', fun i => (h.on i).ok, h.ld, h.disj, rfl, le_rfl, h.val, fun _ _ _ => rfl⟩

lemma trans (h : Wins m0 m W V) (h' : Wins m m' W V') : Wins m0 m' W V' :=
  ⟨h.wf, h.okin, h.ld, h.disj, h'.ok.trans h.ok, h.next.trans h'.next, h'.val, fun a ha hn => by
    rw [h'.frame a (by rw [h.ok]; exact ha) hn, h.frame a ha hn]⟩

/-- a source disjoint from all windows -/
lemma keep {S : Win} {f : ℕ → ℕ → K} (h : Wins m0 m W V) (s : Src m0 S f) (hd : ∀ i, S.Disj (W i)) : Src m S f :=
  ⟨fun a ha => by rw [h.ok]; exact s.ok a ha, s.ld, fun i hi j hj => by
    rw [h.frame _ (s.ok.adr hi hj) (fun k => hd k _ (Win.Has_adr hi hj)), s.val i hi j hj]⟩

lemma one {W : Win} {V : ℕ → ℕ → K} (h : On m0 m W V) : Wins m0 m (fun _ : Unit => W) (fun _ => V) :=
  ⟨h.wf, fun _ => h.ok, fun _ => h.ld, fun _ _ e => absurd rfl e, h.step.ok, h.step.next, fun _ => h.step.val,
    fun a ha hn => h.step.frame a ha (hn ())⟩

lemma unone {W : Win} {V : Unit → ℕ → ℕ → K} (h : Wins m0 m (fun _ : Unit => W) V) : On m0 m W (V ()) :=
  ⟨h.wf, h.okin (), h.ld (), h.ok, h.next, h.val (), fun a ha hn => h.frame a ha (fun _ => hn)⟩

/-- after `fflas_new` -/
lemma push {N : ℕ} (r c : ℕ) (h : Wins m0 m W V) (hN : r * c = N) :
    ∃ U, Wins (m.grow N) (m.grow N) (ocons ⟨m.next, c, r, c⟩ W) (ocons U V) := by
  subst hN
  refine ⟨fun i j => (m.grow (r * c)).val ((Win.mk m.next c r c).adr i j), h.wf'.grow _, ?_, ?_, ?_, rfl, le_rfl, ?_, fun _ _ _ => rfl⟩
  · rintro (_ | i)
    · exact OkIn.grow_new m r c
    · exact ((h.on i).ok).grow _
  · rintro (_ | i)
    · exact le_rfl
    · exact h.ld i
  · rintro (_ | i) (_ | j) e
    · exact absurd rfl e
    · exact (Disj_new h.wf' (h.on j).ok).symm
    · exact Disj_new h.wf' (h.on i).ok
    · exact h.disj i j (fun q => e (by rw [q]))
  · rintro (_ | i) a ha b hb
    · rfl
    · exact h.val i a ha b hb

/-- after `fflas_delete` -/
lemma pop {N r c : ℕ} {V' : Option ι → ℕ → ℕ → K} (h : Wins m0 m W V) (hN : r * c = N)
    (h2 : Wins (m.grow N) m' (ocons ⟨m.next, c, r, c⟩ W) V') : Wins m0 (m'.drop m.next N) W (fun i => V' (some i)) := by
  subst hN
  have s := Step.of_temp (m1 := m') (n := r * c) (W := ⟨0, 0, 0, 0⟩) (g := fun _ _ => m.val 0) (m := { m with val := m'.val }) h.wf'
    h2.ok h2.next (fun i hi => absurd hi (by simp)) (fun _ _ _ => rfl)
  refine ⟨h.wf, h.okin, h.ld, h.disj, s.ok.trans h.ok, h.next.trans s.next, fun i a ha b hb => h2.val (some i) a ha b hb, fun a ha hn => ?_⟩
  have ha' : m.ok a = true := by rw [h.ok]; exact ha
  show m'.val a = _
  rw [h2.frame a (by simp [Mem.grow, ha']) ?_]
  · exact h.frame a ha hn
  · rintro (_ | i)
    · rintro ⟨i, hi, j, hj, rfl⟩
      rw [h.wf' _ (by simp only [ocons, Win.adr]; omega)] at ha'
      exact absurd ha' (by simp)
    · exact hn i

end Wins

lemma Mem.drop_comm (m : Mem K) (p n q k : ℕ) : (m.drop p n).drop q k = (m.drop q k).drop p n := by
  simp only [Mem.drop]
  congr 1
  funext i
  exact Bool.and_right_comm _ _ _

variable [Field K] [DecidableEq K] [DecidableEq ι] {m0 m : Mem K} {W : ι → Win} {V : ι → ℕ → ℕ → K}

omit [DecidableEq K] in
/-- `fgemm` writing a block of one of the windows -/
lemma Wins.gemm {g : GemmFn K} (hg : GemmOk g) (h : Wins m0 m W V) (i : ι) {X Y : Win} {x y : ℕ → ℕ → K} (sx : Src m X x) (sy : Src m Y y)
    (i0 j0 : ℕ) (hk : X.c = Y.r) (hr : i0 + X.r ≤ (W i).r) (hc : j0 + Y.c ≤ (W i).c) (dx : X.Disj (W i)) (dy : Y.Disj (W i)) (alpha beta : K)
    {B ldb : ℕ} (hB : B = (W i).adr i0 j0) (hld : ldb = (W i).ld) :
    Run (g .no .no X.r Y.c Y.r alpha X.p X.ld Y.p Y.ld beta B ldb) m
      (fun _ m' => Wins m0 m' W (Function.update V i (upd i0 j0 X.r Y.c (fun a b =>
        alpha * (∑ l ∈ range Y.r, x a l * y l b) + beta * V i (i0 + a) (j0 + b)) (V i)))) := by
  subst hld
  refine (gemm_src hg (h.on i) sx sy i0 j0 hk hr hc (dx.sub_right hr hc) (dy.sub_right hr hc) alpha beta hB).mono (fun _ m' s => h.put i s)

/-- `fassign` into a block of one of the windows -/
lemma Wins.assign (h : Wins m0 m W V) (i : ι) {X : Win} {x : ℕ → ℕ → K} (sx : Src m X x) (i0 j0 : ℕ) (hr : i0 + X.r ≤ (W i).r)
    (hc : j0 + X.c ≤ (W i).c) (dx : X.Disj (W i)) {B ldb : ℕ} (hB : B = (W i).adr i0 j0) (hld : ldb = (W i).ld) :
    Run (fassign X.r X.c X.p X.ld B ldb) m (fun _ m' => Wins m0 m' W (Function.update V i (upd i0 j0 X.r X.c x (V i)))) := by
  subst hld
  exact (fassign_src (h.on i) sx dx hr hc hB).mono (fun _ m' s => h.put i s)

end Verif.FF
