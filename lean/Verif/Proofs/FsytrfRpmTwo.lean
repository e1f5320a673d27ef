import Verif.Proofs.FsytrfRpmStep

/-!
# `fsytrf_UP_RPM_BC_Crout`: pivots off the diagonal
-/

namespace Verif.FF

open Finset Verif.Perm

variable {K : Type} [Field K] [DecidableEq K]
variable {m0 m : Mem K} {V Y : ℕ → ℕ → K} {N A lda D row i k rank : ℕ}

lemma rpmTwoHead_spec {two : K} (h2 : two ≠ 0) (h : On2 m0 m ⟨A, lda, N, N⟩ V (vw D 1 N) Y) (hr : rank ≤ row) (hi : 0 < i) (hk : k = row + i) (hN : k < N)
    (hx : V row k ≠ 0) :
    Run (rpmTwoHead two A lda (D + rank) row i rank) m (fun _ m' => On2 m0 m' ⟨A, lda, N, N⟩
      (upd rank (rank + 1) 1 1 (fun _ _ => V k k * two⁻¹) (upd rank rank 1 1 (fun _ _ => V row k) V)) (vw D 1 N)
      (upd rank 0 1 1 (fun _ _ => (V row k)⁻¹) Y)) := by
  have a1 : rank < N := by omega
  have a2 : rank + 1 < N := by omega
  have a3 : row < N := by omega
  unfold rpmTwoHead
  simp only [Run_bind]
  have e1 : A + row * (lda + 1) + i = (Win.mk A lda N N).adr row k := by simp only [Win.adr, hk]; ring
  have e2 : A + rank * (lda + 1) = (Win.mk A lda N N).adr rank rank := by simp only [Win.adr]; ring
  have e3 : A + (row + i) * (lda + 1) = (Win.mk A lda N N).adr k k := by simp only [Win.adr, hk]; ring
  have e4 : (Win.mk A lda N N).adr rank rank + 1 = (Win.mk A lda N N).adr rank (rank + 1) := by simp only [Win.adr]; ring
  have eD : D + rank = (vw D 1 N).adr rank 0 := by simp only [Win.adr, vw]; ring
  rw [e1, e2, e3, e4, eD, Run_load]
  refine ⟨h.left.okc a3 hN, ?_⟩
  rw [h.left.val a3 hN, Run_store]
  refine ⟨h.left.okc a1 a1, ?_⟩
  have g := h.ofW (h.left.set (x := V row k) (i := rank) (j := rank) a1 a1)
  rw [Run_load]
  refine ⟨g.left.okc a3 hN, ?_⟩
  rw [g.left.val a3 hN, upd_out (by omega), Run_liftE, Ok_invE]
  refine ⟨hx, ?_⟩
  rw [Run_store]
  refine ⟨g.right.okc a1 Nat.one_pos, ?_⟩
  have g' := g.ofT (g.right.set (x := (V row k)⁻¹) (i := rank) (j := 0) a1 Nat.one_pos)
  rw [Run_load]
  refine ⟨g'.left.okc hN hN, ?_⟩
  rw [g'.left.val hN hN, upd_out (by omega), Run_liftE, Ok_invE]
  refine ⟨h2, ?_⟩
  rw [Run_store]
  refine ⟨g'.left.okc a1 a2, ?_⟩
  exact g'.ofW (g'.left.set (x := V k k * two⁻¹) (i := rank) (j := rank + 1) a1 a2)

lemma rpmTwoMid_spec (h : On2 m0 m ⟨A, lda, N, N⟩ V (vw D 1 N) Y) (hr : rank ≤ row) (hi : 0 < i) (hk : k = row + i) (hN : k < N) :
    Run (rpmTwoMid N A lda (D + rank) row i rank) m (fun _ m' => ∃ V', On2 m0 m' ⟨A, lda, N, N⟩ V' (vw D 1 N) (upd (rank + 1) 0 1 1 (fun _ _ => Y rank 0) Y) ∧
      (∀ l < rank, ∀ j < N, V' l j = V l j) ∧ (∀ j, rank ≤ j → j ≤ row + 1 → V' rank j = V rank j) ∧
      (∀ j, row + 2 ≤ j → j ≤ k → V' rank j = V k (j - 1)) ∧ (∀ j, k < j → j < N → V' rank j = V k j) ∧
      V' (rank + 1) (rank + 1) = V rank rank ∧ (∀ j, rank + 2 ≤ j → j ≤ k → V' (rank + 1) j = 0) ∧
      (rank < row → ∀ j, k < j → j < N → V' row j = V row j) ∧
      (∀ a b, row + 2 ≤ a → a ≤ k → row + 2 ≤ b → b ≤ k → V' a b = V (a - 1) (b - 1)) ∧
      (∀ a b, row + 2 ≤ a → a ≤ k → k < b → b < N → V' a b = V (a - 1) b) ∧
      (∀ a b, k < a → a < N → b < N → V' a b = V a b)) := by
  have a1 : rank < N := by omega
  have a2 : rank + 1 < N := by omega
  have a3 : row < N := by omega
  unfold rpmTwoMid
  simp only [Run_bind]
  obtain ⟨H, hH⟩ : ∃ H, H = N - row - (i - 1) - 2 := ⟨_, rfl⟩
  have eH : k + 1 + H = N := by omega
  have e1 : A + row * (lda + 1) + i * lda + 1 = (Win.mk A lda N N).adr k (row + 1) := by simp only [Win.adr, hk]; ring
  have e2 : A + rank * lda + row + 2 = (Win.mk A lda N N).adr rank (row + 2) := by simp only [Win.adr]; ring
  have e3 : A + row * (lda + 1) + i * lda + 2 + (i - 1) = (Win.mk A lda N N).adr k (k + 1) := by
    obtain ⟨q, rfl⟩ : ∃ q, i = q + 1 := ⟨i - 1, by omega⟩
    simp only [Win.adr, hk, Nat.add_sub_cancel]; ring
  have e4 : A + rank * lda + N - H = (Win.mk A lda N N).adr rank (k + 1) := by simp only [Win.adr]; omega
  have e5 : A + rank * (lda + 1) = (Win.mk A lda N N).adr rank rank := by simp only [Win.adr]; ring
  have e6 : A + (rank + 1) * (lda + 1) = (Win.mk A lda N N).adr (rank + 1) (rank + 1) := by simp only [Win.adr]; ring
  have e7 : (Win.mk A lda N N).adr (rank + 1) (rank + 1) + 1 = (Win.mk A lda N N).adr (rank + 1) (rank + 2) := by simp only [Win.adr]; ring
  have eD : D + rank = (vw D 1 N).adr rank 0 := by simp only [Win.adr, vw]; ring
  have eD' : (vw D 1 N).adr rank 0 + 1 = (vw D 1 N).adr (rank + 1) 0 := by simp only [Win.adr, vw]; ring
  rw [← hH, e1, e2, e3, e4, e5, e6, e7, eD, eD']
  have k1 := moveRow_on h.left (i := rank) (j := row + 2) (i' := k) (j' := row + 1) (n := i - 1) a1 (show row + 2 + (i - 1) ≤ N by omega) hN
    (show row + 1 + (i - 1) ≤ N by omega) (by omega)
  refine (h.runW k1).mono (fun _ m1 g1 => ?_)
  obtain ⟨V1, h1⟩ : ∃ V1, V1 = upd rank (row + 2) 1 (i - 1) (fun _ t => V k (row + 1 + t)) V := ⟨_, rfl⟩
  rw [← h1] at g1
  have k2 := moveRow_on g1.left (i := rank) (j := k + 1) (i' := k) (j' := k + 1) (n := H) a1 (show k + 1 + H ≤ N by omega) hN
    (show k + 1 + H ≤ N by omega) (by omega)
  refine (g1.runW k2).mono (fun _ m2 g2 => ?_)
  obtain ⟨V2, h2⟩ : ∃ V2, V2 = upd rank (k + 1) 1 H (fun _ t => V1 k (k + 1 + t)) V1 := ⟨_, rfl⟩
  rw [← h2] at g2
  have k3 := moveDown_on g2.left (r0 := row + 1) (n := i - 1) (w := i - 1) (c := row + 1) (c' := row + 2)
    (f := fun t => A + row * (lda + 1) + (i - 1 - t) * lda + 1) (g := fun t => A + row * (lda + 1) + (i - 1 - t + 1) * lda + 2)
    (by show row + 1 + (i - 1) < N ∨ _; omega) (by show row + 1 + (i - 1) ≤ N; omega) (by show row + 2 + (i - 1) ≤ N; omega)
    (fun t ht => by
      rw [show row + 1 + (i - 1 - 1 - t) = row + (i - 1 - t) by omega]
      simp only [Win.adr]; ring)
    (fun t ht => by
      rw [show row + 1 + (i - 1 - 1 - t) = row + (i - 1 - t) by omega]
      simp only [Win.adr]; ring)
  refine (g2.runW k3).mono (fun _ m3 g3 => ?_)
  obtain ⟨V3, h3⟩ : ∃ V3, V3 = upd (row + 1 + 1) (row + 2) (i - 1) (i - 1) (fun a b => V2 (row + 1 + a) (row + 1 + b)) V2 := ⟨_, rfl⟩
  rw [← h3] at g3
  have k4 := moveDown_on g3.left (r0 := row + 1) (n := i - 1) (w := H) (c := k + 1) (c' := k + 1)
    (f := fun t => A + row * (lda + 1) + (i - 1 - t) * lda + i + 1) (g := fun t => A + row * (lda + 1) + (i - 1 - t + 1) * lda + i + 1)
    (by show row + 1 + (i - 1) < N ∨ _; omega) (by show k + 1 + H ≤ N; omega) (by show k + 1 + H ≤ N; omega)
    (fun t ht => by
      rw [show row + 1 + (i - 1 - 1 - t) = row + (i - 1 - t) by omega]
      simp only [Win.adr, hk]; ring)
    (fun t ht => by
      rw [show row + 1 + (i - 1 - 1 - t) = row + (i - 1 - t) by omega]
      simp only [Win.adr, hk]; ring)
  refine (g3.runW k4).mono (fun _ m4 g4 => ?_)
  obtain ⟨V4, h4⟩ : ∃ V4, V4 = upd (row + 1 + 1) (k + 1) (i - 1) H (fun a b => V3 (row + 1 + a) (k + 1 + b)) V3 := ⟨_, rfl⟩
  rw [← h4] at g4
  rw [Run_load]
  refine ⟨g4.left.okc a1 a1, ?_⟩
  rw [g4.left.val a1 a1, Run_store]
  refine ⟨g4.left.okc a2 a2, ?_⟩
  have g5 := g4.ofW (g4.left.set (x := V4 rank rank) (i := rank + 1) (j := rank + 1) a2 a2)
  obtain ⟨V5, h5⟩ : ∃ V5, V5 = upd (rank + 1) (rank + 1) 1 1 (fun _ _ => V4 rank rank) V4 := ⟨_, rfl⟩
  rw [← h5] at g5
  rw [Run_load]
  refine ⟨g5.right.okc a1 Nat.one_pos, ?_⟩
  rw [g5.right.val a1 Nat.one_pos, Run_store]
  refine ⟨g5.right.okc a2 Nat.one_pos, ?_⟩
  have g6 := g5.ofT (g5.right.set (x := Y rank 0) (i := rank + 1) (j := 0) a2 Nat.one_pos)
  have k7 := vzero_to (V' := upd (rank + 1) (rank + 2) 1 (row - rank + (i - 1)) (fun _ _ => 0) V5) g6.left (i := rank + 1) (j := rank + 2) (n := row - rank + (i - 1)) a2
    (show rank + 2 + (row - rank + (i - 1)) ≤ N by omega) (fun a _ b _ => by
      by_cases q : a = rank + 1 ∧ rank + 2 ≤ b ∧ b < rank + 2 + (row - rank + (i - 1))
      · rw [if_pos q, upd_in' (by omega)]
      · rw [if_neg q, upd_out (by omega)]) rfl
  refine (g6.runW k7).mono (fun _ m7 g7 => ?_)
  refine ⟨_, g7, fun l hl j hj => ?_, fun j q1 q2 => ?_, fun j q1 q2 => ?_, fun j q1 q2 => ?_, ?_, fun j q1 q2 => ?_, fun c j q1 q2 => ?_, fun a b q1 q2 q3 q4 => ?_,
    fun a b q1 q2 q3 q4 => ?_, fun a b q1 q2 q3 => ?_⟩
  · rw [upd_out (by omega), h5, upd_out (by omega), h4, upd_out (by omega), h3, upd_out (by omega), h2, upd_out (by omega), h1, upd_out (by omega)]
  · rw [upd_out (by omega), h5, upd_out (by omega), h4, upd_out (by omega), h3, upd_out (by omega), h2, upd_out (by omega), h1, upd_out (by omega)]
  · rw [upd_out (by omega), h5, upd_out (by omega), h4, upd_out (by omega), h3, upd_out (by omega), h2, upd_out (by omega), h1, upd_in' (by omega)]
    congr 1; omega
  · rw [upd_out (by omega), h5, upd_out (by omega), h4, upd_out (by omega), h3, upd_out (by omega), h2, upd_in' (by omega), h1, upd_out (by omega)]
    congr 1; omega
  · rw [upd_out (by omega), h5, upd_in' (by omega), h4, upd_out (by omega), h3, upd_out (by omega), h2, upd_out (by omega), h1, upd_out (by omega)]
  · rw [upd_in' (by omega)]
  · rw [upd_out (by omega), h5, upd_out (by omega), h4, upd_out (by omega), h3, upd_out (by omega), h2, upd_out (by omega), h1, upd_out (by omega)]
  · rw [upd_out (by omega), h5, upd_out (by omega), h4, upd_out (by omega), h3, upd_in' (by omega), h2, upd_out (by omega), h1, upd_out (by omega)]
    congr 1 <;> omega
  · rw [upd_out (by omega), h5, upd_out (by omega), h4, upd_in' (by omega), h3, upd_out (by omega), h2, upd_out (by omega), h1, upd_out (by omega)]
    congr 1 <;> omega
  · rw [upd_out (by omega), h5, upd_out (by omega), h4, upd_out (by omega), h3, upd_out (by omega), h2, upd_out (by omega), h1, upd_out (by omega)]


/-- what is known once the rows have been moved -/
structure RpmMoved (N row k rank : ℕ) (V V' : ℕ → ℕ → K) : Prop where
  low : ∀ l < rank, ∀ j < N, V' l j = V l j
  r0 : V' rank rank = V rank rank
  r1 : V' rank (rank + 1) = V rank (rank + 1)
  rz : ∀ j, rank + 2 ≤ j → j ≤ row + 1 → V' rank j = 0
  rE : ∀ j, row + 2 ≤ j → j ≤ k → V' rank j = V k (j - 1)
  rG : ∀ j, k < j → j < N → V' rank j = V k j
  s0 : V' (rank + 1) (rank + 1) = V rank rank
  sz : ∀ j, rank + 2 ≤ j → j ≤ k → V' (rank + 1) j = 0
  sC : ∀ j, k < j → j < N → V' (rank + 1) j = V row j
  bD : ∀ a b, row + 2 ≤ a → a ≤ k → row + 2 ≤ b → b ≤ k → V' a b = V (a - 1) (b - 1)
  bF : ∀ a b, row + 2 ≤ a → a ≤ k → k < b → b < N → V' a b = V (a - 1) b
  bH : ∀ a b, k < a → a < N → b < N → V' a b = V a b

lemma rpmTwoMove_spec (h : On2 m0 m ⟨A, lda, N, N⟩ V (vw D 1 N) Y) (hr : rank ≤ row) (hi : 0 < i) (hk : k = row + i) (hN : k < N) :
    Run (if row = rank then do
      let tmp ← alloc (N - row - (i - 1) - 2)
      vassign (N - row - (i - 1) - 2) (A + row * (lda + 1) + i + 1) 1 tmp 1
      rpmTwoMid N A lda (D + rank) row i rank
      (if row ≠ rank + 1 then vassign (N - row - (i - 1) - 2) tmp 1 (A + (rank + 1) * lda + row + i + 1) 1 else pure ())
      free tmp (N - row - (i - 1) - 2)
    else do
      vzero (row - rank) (A + rank * (lda + 1) + 2) 1
      rpmTwoMid N A lda (D + rank) row i rank
      (if row ≠ rank + 1 then vassign (N - row - (i - 1) - 2) (A + row * (lda + 1) + i + 1) 1 (A + (rank + 1) * lda + row + i + 1) 1 else pure ())) m
      (fun _ m' => ∃ V', On2 m0 m' ⟨A, lda, N, N⟩ V' (vw D 1 N) (upd (rank + 1) 0 1 1 (fun _ _ => Y rank 0) Y) ∧ RpmMoved N row k rank V V') := by
  have a1 : rank < N := by omega
  have a2 : rank + 1 < N := by omega
  have a3 : row < N := by omega
  obtain ⟨H, hH⟩ : ∃ H, H = N - row - (i - 1) - 2 := ⟨_, rfl⟩
  have eH : k + 1 + H = N := by omega
  have e1 : A + row * (lda + 1) + i + 1 = (Win.mk A lda N N).adr row (k + 1) := by simp only [Win.adr, hk]; ring
  have e2 : A + (rank + 1) * lda + row + i + 1 = (Win.mk A lda N N).adr (rank + 1) (k + 1) := by simp only [Win.adr, hk]; ring
  rw [← hH, e1, e2]
  by_cases c : row = rank
  · subst c
    rw [if_pos rfl, Run_bind, Run_alloc]
    change Run _ (m.grow H) _
    have hW := h.left
    have okX : OkIn (m.grow H) ⟨m.next, H, 1, H⟩ := OkIn.grow_le m (by omega)
    have dX : ∀ a, (Win.mk m.next H 1 H).Has a → m.next ≤ a := by
      rintro a ⟨i, _, j, _, rfl⟩
      simp only [Win.adr]; omega
    have dS : ∀ {W : Win}, OkIn m W → (Win.mk m.next H 1 H).Disj W := fun hw a hx ha => by
      have := hW.wf' a (dX a hx)
      rw [hw a ha] at this; exact absurd this (by simp)
    have hwg := hW.wf'.grow H
    rw [Run_bind]
    have k1 := assignRow_on (i := 0) (j := 0) (n := H) (X := (Win.mk A lda N N).adr row (k + 1)) (incX := 1) (On.start hwg okX le_rfl) Nat.one_pos (by simp)
      ((hW.vw_row a3 (show k + 1 + H ≤ N by omega)).grow H) (fun t ht hh => by
        rw [Nat.mul_one, Win.adr_add_col] at hh
        exact dS hW.ok' _ hh (Win.Has_adr a3 (show k + 1 + t < N by omega)))
    rw [show (Win.mk m.next H 1 H).adr 0 0 = m.next by simp [Win.adr]] at k1
    refine k1.mono (fun _ m1 s1 => ?_)
    have s1' : On (m.grow H) m1 ⟨m.next, H, 1, H⟩ (fun _ t => V row (k + 1 + t)) := s1.congr (fun a ha b hb => by
      have ha : a < 1 := ha
      have hb : b < H := hb
      rw [upd_in' (by omega), Nat.mul_one, Win.adr_add_col, Nat.sub_zero]
      exact hW.val a3 (show k + 1 + b < N by omega))
    have g := h.ofTemp dX s1'
    rw [Run_bind]
    refine (rpmTwoMid_spec g hr hi hk hN).mono ?_
    rintro _ m2 ⟨V', g2, f1, f2, f3, f4, f5, f6, f7, f8, f9, f10⟩
    have hS := (s1'.src.on2 g2 (dS hW.ok') (dS h.right.ok')).toOn g2.left.wf'
    rw [Run_bind, if_pos (by omega)]
    have k3 := assignRow_on (i := row + 1) (j := k + 1) (n := H) (X := m.next) (incX := 1) g2.left a2 (show k + 1 + H ≤ N by omega)
      (by have := hS.vw_row (i := 0) (j := 0) (n := H) Nat.one_pos (by simp)
          rwa [show (Win.mk m.next H 1 H).adr 0 0 = m.next by simp [Win.adr]] at this)
      (fun t ht hh => dS hW.ok' (m.next + t * 1) ⟨0, Nat.one_pos, t, ht, by simp [Win.adr]⟩ hh)
    refine (g2.runW k3).mono (fun _ m3 g3 => ?_)
    rw [Run_free]
    have g4 := h.temp2 dX s1' g3
    refine ⟨_, g4, ?_⟩
    refine ⟨fun l hl j hj => ?_, ?_, ?_, fun j q1 q2 => ?_, fun j q1 q2 => ?_, fun j q1 q2 => ?_, ?_, fun j q1 q2 => ?_, fun j q1 q2 => ?_, fun a b q1 q2 q3 q4 => ?_,
      fun a b q1 q2 q3 q4 => ?_, fun a b q1 q2 q3 => ?_⟩
    · rw [upd_out (by omega), f1 l hl j hj]
    · rw [upd_out (by omega), f2 row le_rfl (by omega)]
    · rw [upd_out (by omega), f2 _ (by omega) (by omega)]
    · omega
    · rw [upd_out (by omega), f3 j q1 q2]
    · rw [upd_out (by omega), f4 j q1 q2]
    · rw [upd_out (by omega), f5]
    · rw [upd_out (by omega), f6 j q1 q2]
    · rw [upd_in' (by omega)]
      have := hS.val (i := 0) (j := j - (k + 1)) Nat.one_pos (show j - (k + 1) < H by omega)
      rw [show (Win.mk m.next H 1 H).adr 0 (j - (k + 1)) = m.next + (j - (k + 1)) * 1 by simp [Win.adr]] at this
      rw [this]
      congr 1; omega
    · rw [upd_out (by omega), f8 a b q1 q2 q3 q4]
    · rw [upd_out (by omega), f9 a b q1 q2 q3 q4]
    · rw [upd_out (by omega), f10 a b q1 q2 q3]
  · rw [if_neg c, Run_bind]
    have k1 := vzero_to (V' := upd rank (rank + 2) 1 (row - rank) (fun _ _ => 0) V) h.left (i := rank) (j := rank + 2) (n := row - rank) a1
      (show rank + 2 + (row - rank) ≤ N by omega) (fun a _ b _ => by
        by_cases q : a = rank ∧ rank + 2 ≤ b ∧ b < rank + 2 + (row - rank)
        · rw [if_pos q, upd_in' (by omega)]
        · rw [if_neg q, upd_out (by omega)]) (A := A + rank * (lda + 1) + 2) (by simp only [Win.adr]; ring)
    refine (h.runW k1).mono (fun _ m1 g1 => ?_)
    obtain ⟨V1, h1⟩ : ∃ V1, V1 = upd rank (rank + 2) 1 (row - rank) (fun _ _ => 0) V := ⟨_, rfl⟩
    rw [← h1] at g1
    rw [Run_bind]
    refine (rpmTwoMid_spec g1 hr hi hk hN).mono ?_
    rintro _ m2 ⟨V', g2, f1, f2, f3, f4, f5, f6, f7, f8, f9, f10⟩
    have k3 : Run (if row ≠ rank + 1 then vassign H ((Win.mk A lda N N).adr row (k + 1)) 1 ((Win.mk A lda N N).adr (rank + 1) (k + 1)) 1 else pure ()) m2
        (fun _ m' => On m2 m' ⟨A, lda, N, N⟩ (upd (rank + 1) (k + 1) 1 H (fun _ t => V' row (k + 1 + t)) V')) := by
      by_cases c' : row ≠ rank + 1
      · rw [if_pos c']
        exact moveRow_on g2.left (i := rank + 1) (j := k + 1) (i' := row) (j' := k + 1) (n := H) a2 (show k + 1 + H ≤ N by omega) a3
          (show k + 1 + H ≤ N by omega) (by omega)
      · rw [if_neg c', Run_pure]
        refine g2.left.congr (fun a _ b _ => ?_)
        by_cases q : a = row ∧ k + 1 ≤ b ∧ b < k + 1 + H
        · rw [upd_in' (by omega), q.1]
          congr 1; omega
        · rw [upd_out (by omega)]
    refine (g2.runW k3).mono (fun _ m3 g3 => ?_)
    refine ⟨_, g3, ?_⟩
    refine ⟨fun l hl j hj => ?_, ?_, ?_, fun j q1 q2 => ?_, fun j q1 q2 => ?_, fun j q1 q2 => ?_, ?_, fun j q1 q2 => ?_, fun j q1 q2 => ?_, fun a b q1 q2 q3 q4 => ?_,
      fun a b q1 q2 q3 q4 => ?_, fun a b q1 q2 q3 => ?_⟩
    · rw [upd_out (by omega), f1 l hl j hj, h1, upd_out (by omega)]
    · rw [upd_out (by omega), f2 rank le_rfl (by omega), h1, upd_out (by omega)]
    · rw [upd_out (by omega), f2 _ (by omega) (by omega), h1, upd_out (by omega)]
    · rw [upd_out (by omega), f2 _ (by omega) (by omega), h1, upd_in' (by omega)]
    · rw [upd_out (by omega), f3 j q1 q2, h1, upd_out (by omega)]
    · rw [upd_out (by omega), f4 j q1 q2, h1, upd_out (by omega)]
    · rw [upd_out (by omega), f5, h1, upd_out (by omega)]
    · rw [upd_out (by omega), f6 j q1 q2]
    · rw [upd_in' (by omega), show k + 1 + (j - (k + 1)) = j by omega, f7 (by omega) j q1 q2, h1, upd_out (by omega)]
    · rw [upd_out (by omega), f8 a b q1 q2 q3 q4, h1, upd_out (by omega)]
    · rw [upd_out (by omega), f9 a b q1 q2 q3 q4, h1, upd_out (by omega)]
    · rw [upd_out (by omega), f10 a b q1 q2 q3, h1, upd_out (by omega)]

lemma rot_rho1 {rank row j : ℕ} (h1 : rank ≤ j) (h2 : j ≤ row) : rank + rot (row - rank + 1) (j - rank) = rho1 rank row j := by
  unfold rot rho1
  split_ifs <;> omega

lemma rot_rho2 {rank row k c j : ℕ} (hr : rank < row) (hk : row < k) (hc : c = k - rank) (h1 : rank + 1 ≤ j) (h2 : j ≤ k) :
    rho1 rank row (rank + 1 + rot c (j - (rank + 1))) = rho2 rank row k j := by
  subst hc
  rcases (show j = rank + 1 ∨ (rank + 2 ≤ j ∧ j < row + 2) ∨ row + 2 ≤ j by omega) with q | q | q
  · have e : rot (k - rank) (j - (rank + 1)) = k - rank - 1 := by unfold rot; rw [if_pos (by omega)]
    rw [e, rho1, rho2, if_neg (by omega), if_neg (by omega), if_neg (by omega), if_pos q]; omega
  · have e : rot (k - rank) (j - (rank + 1)) = j - (rank + 1) - 1 := by unfold rot; rw [if_neg (by omega), if_pos (by omega)]
    rw [e, rho1, rho2, if_neg (by omega), if_pos (by omega), if_neg (by omega), if_neg (by omega), if_neg (by omega), if_pos q.2]; omega
  · have e : rot (k - rank) (j - (rank + 1)) = j - (rank + 1) - 1 := by unfold rot; rw [if_neg (by omega), if_pos (by omega)]
    rw [e, rho1, rho2, if_neg (by omega), if_neg (by omega), if_neg (by omega), if_neg (by omega), if_neg (by omega), if_neg (by omega), if_pos h2]; omega

lemma rot_rho2' {rank k c j : ℕ} (hk : rank < k) (hc : c = k - rank) (h1 : rank + 1 ≤ j) (h2 : j ≤ k) :
    rank + 1 + rot c (j - (rank + 1)) = rho2 rank rank k j := by
  subst hc
  rcases (show j = rank + 1 ∨ rank + 2 ≤ j by omega) with q | q
  · have e : rot (k - rank) (j - (rank + 1)) = k - rank - 1 := by unfold rot; rw [if_pos (by omega)]
    rw [e, rho2, if_neg (by omega), if_pos q]; omega
  · have e : rot (k - rank) (j - (rank + 1)) = j - (rank + 1) - 1 := by unfold rot; rw [if_neg (by omega), if_pos (by omega)]
    rw [e, rho2, if_neg (by omega), if_neg (by omega), if_neg (by omega), if_neg (by omega), if_pos h2]; omega

lemma rho12 {rank row k j : ℕ} (hr : rank ≤ row) (hk : row < k) (h : j < rank + 1 ∨ k < j) : rho1 rank row j = rho2 rank row k j := by
  unfold rho1 rho2
  split_ifs <;> omega

lemma rho1_refl (rank j : ℕ) : rho1 rank rank j = j := by
  unfold rho1
  split_ifs <;> omega

lemma rpmTwoTail_spec (cat : Cat) (h : On2 m0 m ⟨A, lda, N, N⟩ V (vw D 1 N) Y) (hr : rank ≤ row) (hi : 0 < i) (hk : k = row + i) (hN : k < N) :
    Run (rpmTwoTail cat N A lda (D + rank) row i rank) m (fun _ m' => ∃ V', On2 m0 m' ⟨A, lda, N, N⟩ V' (vw D 1 N) Y ∧
      (∀ l < rank, ∀ j < N, V' l j = V l (rho2 rank row k j)) ∧ (∀ j, rank ≤ j → j ≤ k → V' rank j = V rank j) ∧
      (∀ j, k < j → j < N → V' rank j = V rank j - V rank (rank + 1) * Y rank 0 * V (rank + 1) j) ∧
      (∀ j, j < N → V' (rank + 1) j = V (rank + 1) j) ∧ (∀ a b, row + 2 ≤ a → a < N → b < N → V' a b = V a b)) := by
  have a1 : rank < N := by omega
  have a2 : rank + 1 < N := by omega
  have a3 : row < N := by omega
  obtain ⟨H, hH⟩ : ∃ H, H = N - row - (i - 1) - 2 := ⟨_, rfl⟩
  have eH : k + 1 + H = N := by omega
  have e1 : A + (rank + 1) * lda + row + i + 1 = (Win.mk A lda N N).adr (rank + 1) (k + 1) := by simp only [Win.adr, hk]; ring
  have e2 : A + rank * lda + N - H = (Win.mk A lda N N).adr rank (k + 1) := by simp only [Win.adr]; omega
  have e3 : A + rank * (lda + 1) + 1 = (Win.mk A lda N N).adr rank (rank + 1) := by simp only [Win.adr]; ring
  have e4 : A + row * (lda + 1) + lda + 1 = (Win.mk A lda N N).adr (row + 1) (row + 1) := by simp only [Win.adr]; ring
  have e5 : A + rank + 1 = (Win.mk A lda N N).adr 0 (rank + 1) := by simp only [Win.adr]; ring
  have e6 : A + rank = (Win.mk A lda N N).adr 0 rank := by simp only [Win.adr]; ring
  have eD : D + rank = (vw D 1 N).adr rank 0 := by simp only [Win.adr, vw]; ring
  unfold rpmTwoTail
  simp only []
  rw [← hH, e1, e2, e3, e4, e5, e6, eD, Run_bind]
  have L1 : Run (if rank < row then vzero (i - 1 + 1) ((Win.mk A lda N N).adr (row + 1) (row + 1)) 1 else pure ()) m (fun _ m' => ∃ V1,
      On2 m0 m' ⟨A, lda, N, N⟩ V1 (vw D 1 N) Y ∧ ∀ a b, a ≤ row ∨ a = rank + 1 ∨ row + 2 ≤ a → V1 a b = V a b) := by
    by_cases c : rank < row
    · rw [if_pos c]
      have k1 := vzero_to (V' := upd (row + 1) (row + 1) 1 (i - 1 + 1) (fun _ _ => 0) V) h.left (i := row + 1) (j := row + 1) (n := i - 1 + 1) (show row + 1 < N by omega)
        (show row + 1 + (i - 1 + 1) ≤ N by omega) (fun a _ b _ => by
          by_cases q : a = row + 1 ∧ row + 1 ≤ b ∧ b < row + 1 + (i - 1 + 1)
          · rw [if_pos q, upd_in' (by omega)]
          · rw [if_neg q, upd_out (by omega)]) rfl
      exact (h.runW k1).mono (fun _ m1 g1 => ⟨_, g1, fun a b q => by rw [upd_out (by omega)]⟩)
    · rw [if_neg c, Run_pure]
      exact ⟨V, h, fun _ _ _ => rfl⟩
  refine L1.mono ?_
  rintro _ m1 ⟨V1, g1, h1⟩
  rw [Run_bind, Run_load]
  refine ⟨g1.left.okc a1 a2, ?_⟩
  rw [Run_bind, Run_load]
  refine ⟨g1.right.okc a1 Nat.one_pos, ?_⟩
  rw [g1.left.val a1 a2, g1.right.val a1 Nat.one_pos, Run_bind, h1 rank _ (by omega)]
  have k2 : Run (vaxpy cat H (-(V rank (rank + 1) * Y rank 0)) ((Win.mk A lda N N).adr (rank + 1) (k + 1)) 1 ((Win.mk A lda N N).adr rank (k + 1)) 1) m1
      (fun _ m' => On m1 m' ⟨A, lda, N, N⟩ (upd rank (k + 1) 1 H (fun _ t => V1 rank (k + 1 + t) - V rank (rank + 1) * Y rank 0 * V1 (rank + 1) (k + 1 + t)) V1)) := by
    refine (vaxpy_spec cat (-(V rank (rank + 1) * Y rank 0)) g1.left.wf' (g1.left.vw_row a2 (show k + 1 + H ≤ N by omega)) (g1.left.vw_row a1 (show k + 1 + H ≤ N by omega)) ?_
      Nat.one_pos Nat.one_pos (Or.inr (Or.inl ⟨rfl, rfl⟩))).mono (fun _ m' s =>
        g1.left.rowStep (g := fun t => V1 rank (k + 1 + t) - V rank (rank + 1) * Y rank 0 * V1 (rank + 1) (k + 1 + t)) a1 (show k + 1 + H ≤ N by omega) (s.congr (fun t ht z hz => ?_)))
    · refine Win.Disj.safe (fun a ha hb => ?_) rfl rfl
      obtain ⟨p, hp, z, hz, rfl⟩ := ha
      obtain ⟨p', hp', z', hz', e⟩ := hb
      have hp : p < H := hp
      have hp' : p' < H := hp'
      obtain rfl : z = 0 := by simpa [vw] using hz
      obtain rfl : z' = 0 := by simpa [vw] using hz'
      rw [show (vw ((Win.mk A lda N N).adr (rank + 1) (k + 1)) 1 H).adr p 0 = (Win.mk A lda N N).adr (rank + 1) (k + 1 + p) by simp only [Win.adr, vw]; ring,
        show (vw ((Win.mk A lda N N).adr rank (k + 1)) 1 H).adr p' 0 = (Win.mk A lda N N).adr rank (k + 1 + p') by simp only [Win.adr, vw]; ring] at e
      have := g1.left.inj _ a2 _ (show k + 1 + p < N by omega) _ a1 _ (show k + 1 + p' < N by omega) e
      omega
    · have ht : t < H := ht
      rw [Nat.mul_one, Win.adr_add_col, Win.adr_add_col, g1.left.val a2 (show k + 1 + t < N by omega), g1.left.val a1 (show k + 1 + t < N by omega)]
      ring
  refine (g1.runW k2).mono (fun _ m2 g2 => ?_)
  obtain ⟨V2, h2⟩ : ∃ V2, V2 = upd rank (k + 1) 1 H (fun _ t => V1 rank (k + 1 + t) - V rank (rank + 1) * Y rank 0 * V1 (rank + 1) (k + 1 + t)) V1 := ⟨_, rfl⟩
  rw [← h2] at g2
  have fin : ∀ V' : ℕ → ℕ → K, (∀ l < rank, ∀ j < N, V' l j = V2 l (rho2 rank row k j)) → (∀ a b, rank ≤ a → V' a b = V2 a b) →
      (∀ l < rank, ∀ j < N, V' l j = V l (rho2 rank row k j)) ∧ (∀ j, rank ≤ j → j ≤ k → V' rank j = V rank j) ∧
      (∀ j, k < j → j < N → V' rank j = V rank j - V rank (rank + 1) * Y rank 0 * V (rank + 1) j) ∧
      (∀ j, j < N → V' (rank + 1) j = V (rank + 1) j) ∧ (∀ a b, row + 2 ≤ a → a < N → b < N → V' a b = V a b) := by
    intro V' p1 p2
    refine ⟨fun l hl j hj => ?_, fun j q1 q2 => ?_, fun j q1 q2 => ?_, fun j q1 => ?_, fun a b q1 q2 q3 => ?_⟩
    · rw [p1 l hl j hj, h2, upd_out (by omega), h1 _ _ (by omega)]
    · rw [p2 _ _ le_rfl, h2, upd_out (by omega), h1 _ _ (by omega)]
    · rw [p2 _ _ le_rfl, h2, upd_in' (by omega), h1 _ _ (by omega), h1 _ _ (by omega), show k + 1 + (j - (k + 1)) = j by omega]
    · rw [p2 _ _ (by omega), h2, upd_out (by omega), h1 _ _ (by omega)]
    · rw [p2 _ _ (by omega), h2, upd_out (by omega), h1 _ _ (by omega)]
  by_cases c : row = rank
  · subst c
    rw [if_pos rfl]
    have k3 := cyclicShiftCol_on (i0 := 0) (j0 := row + 1) (r := row) (c := row + i - row) g2.left (by show 0 + row ≤ N; omega) (by show row + 1 + (row + i - row) ≤ N; omega)
    refine (g2.runW k3).mono (fun _ m3 g3 => ?_)
    refine ⟨_, g3, fin _ (fun l hl j hj => ?_) (fun a b q => ?_)⟩
    · unfold permCols
      by_cases q : row + 1 ≤ j ∧ j ≤ k
      · rw [upd_in' (by omega), rot_rho2' (k := k) (by omega) (by omega) q.1 q.2, Nat.zero_add, Nat.sub_zero]
      · rw [upd_out (by omega), ← rho12 (j := j) (k := k) (le_refl row) (by omega) (by omega), rho1_refl]
    · unfold permCols
      rw [upd_out (by omega)]
  · rw [if_neg c, Run_bind]
    have k3 := cyclicShiftCol_on (i0 := 0) (j0 := rank) (r := rank) (c := row - rank + 1) g2.left (by show 0 + rank ≤ N; omega) (by show rank + (row - rank + 1) ≤ N; omega)
    refine (g2.runW k3).mono (fun _ m3 g3 => ?_)
    obtain ⟨V3, h3⟩ : ∃ V3, V3 = permCols 0 rank rank (row - rank + 1) (rot (row - rank + 1)) V2 := ⟨_, rfl⟩
    rw [← h3] at g3
    have k4 := cyclicShiftCol_on (i0 := 0) (j0 := rank + 1) (r := rank) (c := row + i - rank) g3.left (by show 0 + rank ≤ N; omega) (by show rank + 1 + (row + i - rank) ≤ N; omega)
    refine (g3.runW k4).mono (fun _ m4 g4 => ?_)
    have w3 : ∀ l < rank, ∀ j, V3 l j = V2 l (rho1 rank row j) := fun l hl j => by
      rw [h3]
      unfold permCols
      by_cases q : rank ≤ j ∧ j ≤ row
      · rw [upd_in' (by omega), rot_rho1 q.1 q.2, Nat.zero_add, Nat.sub_zero]
      · rw [upd_out (by omega), rho1, if_neg (by omega), if_neg (by omega)]
    refine ⟨_, g4, fin _ (fun l hl j hj => ?_) (fun a b q => ?_)⟩
    · unfold permCols
      by_cases q : rank + 1 ≤ j ∧ j ≤ k
      · rw [upd_in' (by omega), w3 _ (by omega), rot_rho2 (k := k) (by omega) (by omega) (by omega) q.1 q.2, Nat.zero_add, Nat.sub_zero]
      · rw [upd_out (by omega), w3 _ (by omega), rho12 (k := k) hr (by omega) (by omega)]
    · unfold permCols
      rw [upd_out (by omega), h3]
      unfold permCols
      rw [upd_out (by omega)]

lemma rpmTwoPerm_spec {s : RpmSt} (hP : s.P.len = N) (hT : s.tb.len = N) (hr : s.rank ≤ row) (hi : 0 < i) (hk : k = row + i) (hN : k < N) :
    Ok (rpmTwoPerm copyMove row i s) (fun s' => s'.rank = s.rank + 2 ∧ s'.P.len = N ∧ s'.tb.len = N ∧ (∀ j < N, s'.P.get j = s.P.get (rho2 s.rank row k j)) ∧
      ∀ j, s'.tb.get j = if j = s.rank ∨ j = s.rank + 1 then true else s.tb.get j) := by
  unfold rpmTwoPerm
  simp only [Ok_bind, Ok_rd]
  refine ⟨by omega, by omega, ?_⟩
  refine (copyMove_spec s.P (row + 1) (row + 2) (i - 1) (by omega) (by omega)).mono ?_
  rintro P1 ⟨l1, p1⟩
  refine (copyMove_spec P1 s.rank (s.rank + 2) (row - s.rank) (by omega) (by omega)).mono ?_
  rintro P2 ⟨l2, p2⟩
  simp only [Ok_wr, Ok_pure]
  refine ⟨by omega, by omega, by omega, by omega, trivial, by omega, by omega, fun j hj => ?_, fun j => ?_⟩
  · show Function.update (Function.update P2.get s.rank _) (s.rank + 1) _ j = _
    unfold rho2
    by_cases q1 : j = s.rank + 1
    · subst q1
      rw [Function.update_self, if_neg (by omega), if_pos rfl, hk]
    · rw [Function.update_of_ne q1]
      by_cases q2 : j = s.rank
      · subst q2
        rw [Function.update_self, if_pos rfl]
      · rw [Function.update_of_ne q2, if_neg q2, if_neg q1, p2]
        simp only [p1]
        split_ifs <;> first | omega | rfl | (congr 1; omega)
  · show Function.update (Function.update s.tb.get s.rank true) (s.rank + 1) true j = _
    by_cases q1 : j = s.rank + 1
    · subst q1; rw [Function.update_self, if_pos (by omega)]
    · rw [Function.update_of_ne q1]
      by_cases q2 : j = s.rank
      · subst q2; rw [Function.update_self, if_pos (by omega)]
      · rw [Function.update_of_ne q2, if_neg (by omega)]

lemma rpmTwo_spec (cat : Cat) {two : K} (h2 : two ≠ 0) {s : RpmSt} (h : On2 m0 m ⟨A, lda, N, N⟩ V (vw D 1 N) Y) (hP : s.P.len = N) (hT : s.tb.len = N)
    (hr : s.rank ≤ row) (hi : 0 < i) (hk : k = row + i) (hN : k < N) (hx : V row k ≠ 0) :
    Run (rpmTwo cat copyMove two N A lda (D + s.rank) row i s) m (fun s' m' => ∃ V' Y', On2 m0 m' ⟨A, lda, N, N⟩ V' (vw D 1 N) Y' ∧
      (s'.rank = s.rank + 2 ∧ s'.P.len = N ∧ s'.tb.len = N ∧ (∀ j < N, s'.P.get j = s.P.get (rho2 s.rank row k j)) ∧
        ∀ j, s'.tb.get j = if j = s.rank ∨ j = s.rank + 1 then true else s.tb.get j) ∧
      (∀ l < s.rank, ∀ j < N, V' l j = V l (rho2 s.rank row k j)) ∧
      V' s.rank s.rank = V row k ∧ V' s.rank (s.rank + 1) = V k k * two⁻¹ ∧ (∀ j, s.rank + 2 ≤ j → j ≤ row + 1 → V' s.rank j = 0) ∧
      (∀ j, row + 2 ≤ j → j ≤ k → V' s.rank j = V k (j - 1)) ∧ (∀ j, k < j → j < N → V' s.rank j = V k j - V k k * two⁻¹ * (V row k)⁻¹ * V row j) ∧
      V' (s.rank + 1) (s.rank + 1) = V row k ∧ (∀ j, s.rank + 2 ≤ j → j ≤ k → V' (s.rank + 1) j = 0) ∧ (∀ j, k < j → j < N → V' (s.rank + 1) j = V row j) ∧
      (∀ a b, row + 2 ≤ a → a ≤ b → b < N → V' a b = V (rho2 s.rank row k a) (rho2 s.rank row k b)) ∧
      (∀ l < N, l ≠ s.rank → l ≠ s.rank + 1 → Y' l 0 = Y l 0) ∧ Y' s.rank 0 = (V row k)⁻¹ ∧ Y' (s.rank + 1) 0 = (V row k)⁻¹) := by
  unfold rpmTwo
  simp only []
  obtain ⟨rank, hrank⟩ : ∃ r, r = s.rank := ⟨_, rfl⟩
  rw [← hrank] at hr ⊢
  rw [Run_bind]
  refine (rpmTwoHead_spec h2 h hr hi hk hN hx).mono (fun _ m1 g1 => ?_)
  obtain ⟨V1, h1⟩ : ∃ V1, V1 = upd rank (rank + 1) 1 1 (fun _ _ => V k k * two⁻¹) (upd rank rank 1 1 (fun _ _ => V row k) V) := ⟨_, rfl⟩
  rw [← h1] at g1
  rw [Run_bind]
  refine (rpmTwoMove_spec g1 hr hi hk hN).mono ?_
  rintro _ m2 ⟨V2, g2, f⟩
  rw [Run_bind]
  refine (rpmTwoTail_spec cat g2 hr hi hk hN).mono ?_
  rintro _ m3 ⟨V3, g3, t1, t2, t3, t4, t5⟩
  rw [Run_liftE]
  refine (rpmTwoPerm_spec hP hT (hrank ▸ hr) hi hk hN).mono ?_
  rintro s' ⟨p1, p2, p3, p4, p5⟩
  rw [← hrank] at p1 p4 p5
  have far : ∀ a b, a ≠ rank ∨ (b ≠ rank ∧ b ≠ rank + 1) → V1 a b = V a b := fun a b q => by
    rw [h1, upd_out (by omega), upd_out (by omega)]
  have ρlow : ∀ j < N, rho2 rank row k j < N := fun j hj => by unfold rho2; split_ifs <;> omega
  refine ⟨V3, _, g3, ⟨p1, p2, p3, p4, p5⟩, fun l hl j hj => ?_, ?_, ?_, fun j q1 q2 => ?_, fun j q1 q2 => ?_, fun j q1 q2 => ?_, ?_, fun j q1 q2 => ?_, fun j q1 q2 => ?_,
    fun a b q1 q2 q3 => ?_, fun l hl q1 q2 => ?_, ?_, ?_⟩
  · rw [t1 l hl j hj, f.low l hl _ (ρlow j hj), far _ _ (by omega)]
  · rw [t2 _ le_rfl (by omega), f.r0, h1, upd_out (by omega), upd_in' (by omega)]
  · rw [t2 _ (by omega) (by omega), f.r1, h1, upd_in' (by omega)]
  · rw [t2 _ (by omega) (by omega), f.rz j q1 q2]
  · rw [t2 _ (by omega) (by omega), f.rE j q1 q2, far _ _ (by omega)]
  · rw [t3 j q1 q2, f.rG j q1 q2, f.r1, f.sC j q1 q2, far k j (by omega), far row j (by omega), h1, upd_in' (by omega), upd_out (by omega), upd_in' (by omega)]
  · rw [t4 _ (by omega), f.s0, h1, upd_out (by omega), upd_in' (by omega)]
  · rw [t4 _ (by omega), f.sz j q1 q2]
  · rw [t4 _ (by omega), f.sC j q1 q2, far _ _ (by omega)]
  · rw [t5 a b q1 (by omega) q3]
    by_cases c1 : k < a
    · rw [f.bH a b c1 (by omega) q3, far _ _ (by omega)]
      congr 1 <;> (unfold rho2; split_ifs <;> omega)
    · by_cases c2 : k < b
      · rw [f.bF a b q1 (by omega) c2 q3, far _ _ (by omega)]
        congr 1 <;> (unfold rho2; split_ifs <;> omega)
      · rw [f.bD a b q1 (by omega) (by omega) (by omega), far _ _ (by omega)]
        congr 1 <;> (unfold rho2; split_ifs <;> omega)
  · rw [upd_out (by omega), upd_out (by omega)]
  · rw [upd_out (by omega), upd_in' (by omega)]
  · rw [upd_in' (by omega), upd_in' (by omega)]

end Verif.FF
