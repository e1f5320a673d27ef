import Verif.Proofs.FsytrfRpm
import Verif.Proofs.RandMat

/-!
# `fsytrf_UP_RPM_BC_Crout`: the pivots put in place
-/

namespace Verif.FF

open Finset Verif.Perm

variable {K : Type} [Field K] [DecidableEq K]
variable {m0 m m1 m2 : Mem K} {W T X : Win} {V V' Y U U' τ : ℕ → ℕ → K} {N A lda D row i k : ℕ} {mate : ℕ → ℕ}

section
omit [DecidableEq K]

lemma On2.ofTemp {n : ℕ} (h : On2 m0 m W V T U) (hX : ∀ a, X.Has a → m.next ≤ a) (s1 : On (m.grow n) m1 X τ) : On2 m1 m1 W V T U := by
  have hwf := h.left.wf
  have nx : ∀ a, m.ok a = true → ¬ X.Has a := fun a ha q => by
    have := hwf a (hX a q)
    rw [ha] at this; exact absurd this (by simp)
  have ok1 : m1.ok = (m.grow n).ok := s1.step.ok
  have aW := h.left.ok
  have aT := h.right.ok
  refine ⟨s1.wf', fun a ha => by rw [ok1]; exact grow_ok' (aW a ha), fun a ha => by rw [ok1]; exact grow_ok' (aT a ha), h.ldW, h.ldT, h.disj, rfl, le_rfl,
    fun i hi j hj => ?_, fun i hi j hj => ?_, fun _ _ _ _ => rfl⟩
  · have o := aW.adr hi hj
    rw [s1.step.frame _ (grow_ok' o) (nx _ o)]
    exact h.valW i hi j hj
  · have o := aT.adr hi hj
    rw [s1.step.frame _ (grow_ok' o) (nx _ o)]
    exact h.valT i hi j hj

lemma On2.temp2 {n : ℕ} (h : On2 m0 m W V T U) (hX : ∀ a, X.Has a → m.next ≤ a) (s1 : On (m.grow n) m1 X τ) (s2 : On2 m1 m2 W V' T U') :
    On2 m0 (m2.drop m.next n) W V' T U' := by
  have hwf := h.left.wf
  have ok1 : m1.ok = (m.grow n).ok := s1.step.ok
  have s := Step.of_temp (m1 := m2) (n := n) (W := ⟨0, 0, 0, 0⟩) (g := fun _ _ => m.val 0)
    hwf (s2.ok.trans s1.step.ok)
    (s1.step.next.trans s2.next) (fun i hi => absurd hi (by simp)) (m := { m with val := m2.val })
    (fun _ _ _ => rfl)
  refine ⟨h.wf, h.okW, h.okT, h.ldW, h.ldT, h.disj, s.ok.trans h.ok, h.next.trans s.next, s2.valW, s2.valT, ?_⟩
  intro a ha hw ht
  have ha' : m.ok a = true := by rw [h.ok]; exact ha
  show m2.val _ = _
  rw [s2.frame a (by rw [ok1]; exact grow_ok' ha') hw ht, s1.step.frame a (grow_ok' ha') (fun q => ?_)]
  · exact h.frame a ha hw ht
  · have := hwf a (hX a q)
    rw [ha'] at this; exact absurd this (by simp)

lemma On2.runW {α : Type} {p : Prog K α} (h : On2 m0 m W V T U) (hp : Run p m (fun _ m' => On m m' W V')) : Run p m (fun _ m' => On2 m0 m' W V' T U) :=
  hp.mono (fun _ _ s => h.ofW s)

lemma fassign_one {n B Z l : ℕ} {Q : Unit → Mem K → Prop} (h : Run (vassign n B 1 Z 1) m Q) : Run (fassign 1 n B l Z l) m Q := by
  unfold fassign
  by_cases c1 : n = 0
  · subst c1
    rw [if_pos (Or.inr rfl)]
    simpa [vassign, loop] using h
  · rw [if_neg (by omega)]
    by_cases c2 : l = n ∧ l = n
    · rw [if_pos c2, Nat.one_mul]; exact h
    · rw [if_neg c2]
      simpa [loop] using h

/-- rows moved down, last one first -/
lemma moveDown_on (h : On m0 m W V) {r0 n w c c' : ℕ} {f g : ℕ → ℕ} (hr : r0 + n < W.r ∨ n = 0) (hc : c + w ≤ W.c) (hc' : c' + w ≤ W.c)
    (hf : ∀ t < n, f t = W.adr (r0 + (n - 1 - t)) c) (hg : ∀ t < n, g t = W.adr (r0 + (n - 1 - t) + 1) c') :
    Run (loop n fun t => fassign 1 w (f t) W.ld (g t) W.ld) m (fun _ m' => On m0 m' W (upd (r0 + 1) c' n w (fun i j => V (r0 + i) (c + j)) V)) := by
  refine (Run_loop (fun t m' => On m0 m' W (upd (r0 + 1 + (n - t)) c' t w (fun i j => V (r0 + (n - t) + i) (c + j)) V)) ?_ ?_).mono (fun _ m' h' => ?_)
  · exact h.congr (fun a _ b _ => by rw [upd_out (by omega)])
  · intro t m' ht h'
    rw [hf t ht, hg t ht]
    refine fassign_one ((moveRow_on h' (by omega) hc' (by omega) hc (by omega)).mono (fun _ m2 h2 => h2.congr (fun a _ b _ => ?_)))
    by_cases q : c' ≤ b ∧ b < c' + w
    · rcases (show a = r0 + (n - 1 - t) + 1 ∨ (r0 + 1 + (n - t) ≤ a ∧ a < r0 + 1 + n) ∨ (a < r0 + (n - 1 - t) + 1 ∨ r0 + 1 + n ≤ a) by omega) with e | e | e
      · rw [upd_in' (by omega), upd_out (by omega), upd_in' (by omega)]
        congr 1; omega
      · rw [upd_out (by omega), upd_in' (by omega), upd_in' (by omega)]
        congr 1; omega
      · rw [upd_out (by omega), upd_out (by omega), upd_out (by omega)]
    · rw [upd_out (by omega), upd_out (by omega), upd_out (by omega)]
  · refine h'.congr (fun a _ b _ => ?_)
    simp only [Nat.sub_self, Nat.add_zero]

end

lemma shiftAt_spec {P : Arr ℕ} {off s : ℕ} (hs : 0 < s) (hl : off + s ≤ P.len) :
    Ok (shiftAt copyMove P off s) (fun B => B.len = P.len ∧ ∀ j, B.get j = P.get (rho1 off (off + s - 1) j)) := by
  unfold shiftAt
  simp only [Ok_bind, Ok_usub, Ok_rd]
  refine ⟨by omega, by omega, ?_⟩
  refine (copyMove_spec P off (off + 1) (s - 1) (by omega) (by omega)).mono ?_
  rintro B ⟨hB, hg⟩
  rw [Ok_wr]
  refine ⟨by omega, hB, fun j => ?_⟩
  show Function.update B.get off _ j = _
  by_cases e : j = off
  · subst e
    rw [Function.update_self, rho1, if_pos rfl]
    congr 1; omega
  · rw [Function.update_of_ne e, hg, rho1, if_neg e]
    split_ifs <;> first | rfl | (congr 1; omega) | omega

lemma rpmOne_spec {s : RpmSt} (h : On2 m0 m ⟨A, lda, N, N⟩ V (vw D 1 N) Y) (hP : s.P.len = N) (hr : s.rank ≤ row) (hN : row < N) (hx : V row row ≠ 0) :
    Run (rpmOne copyMove N A lda (D + s.rank) row s) m (fun s' m' => ∃ V' Y', On2 m0 m' ⟨A, lda, N, N⟩ V' (vw D 1 N) Y' ∧
      (s'.rank = s.rank + 1 ∧ s'.tb = s.tb ∧ s'.P.len = N ∧ ∀ i < N, s'.P.get i = s.P.get (rho1 s.rank row i)) ∧
      (∀ l < s.rank, ∀ j < N, V' l j = V l (rho1 s.rank row j)) ∧ V' s.rank s.rank = V row row ∧
      (∀ j, s.rank < j → j ≤ row → V' s.rank j = 0) ∧ (∀ j, row < j → j < N → V' s.rank j = V row j) ∧
      (∀ i j, row < i → i < N → j < N → V' i j = V i j) ∧ (∀ l < N, l ≠ s.rank → Y' l 0 = Y l 0) ∧ Y' s.rank 0 = (V row row)⁻¹) := by
  obtain ⟨rank, P, tb⟩ := s
  simp only at hP hr ⊢
  have hl : N ≤ lda := h.ldW
  unfold rpmOne
  simp only []
  have eC : A + row * (lda + 1) = (Win.mk A lda N N).adr row row := by simp only [Win.adr]; ring
  have eD : D + rank = (vw D 1 N).adr rank 0 := by simp only [Win.adr, vw]; ring
  rw [Run_bind, Run_load, eC]
  refine ⟨h.left.okc hN hN, ?_⟩
  rw [h.left.val hN hN, Run_bind, Run_liftE, Ok_invE]
  refine ⟨hx, ?_⟩
  rw [Run_bind, Run_store, eD]
  refine ⟨h.right.okc (show rank < N by omega) Nat.one_pos, ?_⟩
  have g := h.ofT (h.right.set (x := (V row row)⁻¹) (i := rank) (j := 0) (show rank < N by omega) Nat.one_pos)
  have y1 : ∀ l < N, l ≠ rank → (upd rank 0 1 1 (fun _ _ => (V row row)⁻¹) Y) l 0 = Y l 0 := fun l _ hl => upd_out (by omega)
  have y2 : (upd rank 0 1 1 (fun _ _ => (V row row)⁻¹) Y) rank 0 = (V row row)⁻¹ := upd_in' (by omega)
  by_cases c : rank < row
  · rw [if_pos c]
    simp only [Run_bind]
    have e1 : A + rank = (Win.mk A lda N N).adr 0 rank := by simp only [Win.adr]; ring
    have e2 : A + rank * (lda + 1) = (Win.mk A lda N N).adr rank rank := by simp only [Win.adr]; ring
    have e3 : A + rank * lda + row + 1 = (Win.mk A lda N N).adr rank (row + 1) := by simp only [Win.adr]; ring
    rw [e1, e2, e3]
    have k1 := cyclicShiftCol_on (i0 := 0) (j0 := rank) (r := rank) (c := row - rank + 1) g.left (by show 0 + rank ≤ N; omega) (by show rank + (row - rank + 1) ≤ N; omega)
    refine (g.runW k1).mono (fun _ m1 g1 => ?_)
    unfold permCols at g1
    obtain ⟨V1, h1⟩ : ∃ V1, V1 = upd 0 rank rank (row - rank + 1) (fun i j => V (0 + i) (rank + rot (row - rank + 1) j)) V := ⟨_, rfl⟩
    rw [← h1] at g1
    rw [Run_liftE]
    refine (shiftAt_spec (P := P) (off := rank) (s := row - rank + 1) (by omega) (by omega)).mono ?_
    rintro P' ⟨hP', hg⟩
    rw [Run_load]
    refine ⟨g1.left.okc hN hN, ?_⟩
    rw [g1.left.val hN hN, Run_store]
    refine ⟨g1.left.okc (show rank < N by omega) (show rank < N by omega), ?_⟩
    have g2 := g1.ofW (g1.left.set (x := V1 row row) (i := rank) (j := rank) (show rank < N by omega) (show rank < N by omega))
    obtain ⟨V2, h2⟩ : ∃ V2, V2 = upd rank rank 1 1 (fun _ _ => V1 row row) V1 := ⟨_, rfl⟩
    rw [← h2] at g2
    obtain ⟨V3, h3⟩ : ∃ V3 : ℕ → ℕ → K, V3 = fun a b => if a = rank ∧ rank + 1 ≤ b ∧ b < rank + 1 + (row - rank) then 0 else V2 a b := ⟨_, rfl⟩
    have k3 := vzero_to (V' := V3) g2.left (i := rank) (j := rank + 1) (n := row - rank) (show rank < N by omega) (show rank + 1 + (row - rank) ≤ N by omega)
      (fun a _ b _ => by rw [h3]) (A := (Win.mk A lda N N).adr rank rank + 1) (by simp only [Win.adr]; ring)
    refine (g2.runW k3).mono (fun _ m3 g3 => ?_)
    have k4 := moveRow_on g3.left (i := rank) (j := row + 1) (i' := row) (j' := row + 1) (n := N - row - 1) (show rank < N by omega)
      (show row + 1 + (N - row - 1) ≤ N by omega) hN (show row + 1 + (N - row - 1) ≤ N by omega) (by omega)
    rw [show (Win.mk A lda N N).adr row (row + 1) = (Win.mk A lda N N).adr row row + 1 by simp only [Win.adr]; ring] at k4
    refine (g3.runW k4).mono (fun _ m4 g4 => ?_)
    obtain ⟨V4, h4⟩ : ∃ V4, V4 = upd rank (row + 1) 1 (N - row - 1) (fun _ t => V3 row (row + 1 + t)) V3 := ⟨_, rfl⟩
    rw [← h4] at g4
    obtain ⟨V5, h5⟩ : ∃ V5 : ℕ → ℕ → K, V5 = fun a b => if a = row ∧ row ≤ b ∧ b < row + (N - row) then 0 else V4 a b := ⟨_, rfl⟩
    have k5 := vzero_to (V' := V5) g4.left (i := row) (j := row) (n := N - row) hN (show row + (N - row) ≤ N by omega)
      (fun a _ b _ => by rw [h5]) rfl
    refine (g4.runW k5).mono (fun _ m5 g5 => ?_)
    rw [Run_pure, Run_pure]
    refine ⟨V5, _, g5, ⟨rfl, rfl, hP'.trans hP, fun i hi => ?_⟩, fun l hl j hj => ?_, ?_, fun j a1 a2 => ?_, fun j a1 a2 => ?_, fun i j a1 a2 a3 => ?_, y1, y2⟩
    · show P'.get i = _
      rw [hg]
      congr 2; omega
    · simp only [h5]
      rw [if_neg (by omega), h4, upd_out (by omega)]
      simp only [h3]
      rw [if_neg (by omega), h2, upd_out (by omega), h1]
      unfold rho1
      by_cases q : rank ≤ j ∧ j ≤ row
      · rw [upd_in' (by omega)]
        unfold rot
        split_ifs <;> first | omega | (congr 1 <;> omega)
      · rw [upd_out (by omega), if_neg (by omega), if_neg (by omega)]
    · simp only [h5]
      rw [if_neg (by omega), h4, upd_out (by omega)]
      simp only [h3]
      rw [if_neg (by omega), h2, upd_in' (by omega), h1, upd_out (by omega)]
    · simp only [h5]
      rw [if_neg (by omega), h4, upd_out (by omega)]
      simp only [h3]
      rw [if_pos ⟨trivial, by omega, by omega⟩]
    · simp only [h5]
      have ej : row + 1 + (j - (row + 1)) = j := by omega
      rw [if_neg (by omega), h4, upd_in' (by omega), ej]
      simp only [h3]
      rw [if_neg (by omega), h2, upd_out (by omega), h1, upd_out (by omega)]
    · simp only [h5]
      rw [if_neg (by omega), h4, upd_out (by omega)]
      simp only [h3]
      rw [if_neg (by omega), h2, upd_out (by omega), h1, upd_out (by omega)]
  · obtain rfl : rank = row := by omega
    rw [if_neg c, Run_bind, Run_pure, Run_pure]
    have ρ : ∀ i, rho1 rank rank i = i := fun i => by unfold rho1; split_ifs <;> omega
    exact ⟨V, _, g, ⟨rfl, rfl, hP, fun i _ => by rw [ρ]⟩, fun l _ j _ => by rw [ρ], rfl, fun j a1 a2 => by omega, fun j _ _ => rfl, fun i j _ _ _ => rfl, y1, y2⟩

end Verif.FF
