import Verif.Proofs.PPluqParts

/-!
# The recursive step of the parallel PLUQ decomposition, and the whole recursion
-/

namespace Verif.ParV
open Verif.FF Verif.Par Verif.Perm Finset Verif.Spec Verif.Spec.Perm Verif.Pluq

variable {K : Type} [Field K] [DecidableEq K]
variable {W : Win} {v : ℕ → K} {V : ℕ → ℕ → K}

set_option maxHeartbeats 2000000 in
/-- the recursive step -/
lemma ppluqStep_spec (gthr : ℕ) {rec : PPluqFn K} (jk : List ℕ → ℕ → ℕ) (nt : ℕ) {d : Diag} {X : ℕ → ℕ → K}
    (hrec : PRecOk rec d W.ld (W.r + W.c)) (h : Vals W X v) (hl : W.c ≤ W.ld) {P Q : Arr ℕ} (hP : P.len = W.r) (hQ : Q.len = W.c) (h1 : 0 < W.r) (h2 : 0 < W.c)
    (h12 : 1 < W.r ∨ 1 < W.c) : wp (ppluqStep gthr rec jk nt d W.r W.c W.p W.ld P Q) W.Has (fun _ => False) (fun _ => False) v (PPost d W X) := by
  have hi : W.Inj := Win.Inj_of_le (Or.inl hl)
  unfold ppluqStep
  dsimp only
  obtain ⟨m1, hm1⟩ : ∃ m1, W.r / 2 = m1 := ⟨_, rfl⟩
  obtain ⟨n1, hn1⟩ : ∃ n1, W.c / 2 = n1 := ⟨_, rfl⟩
  obtain ⟨m2, hm2⟩ : ∃ m2, W.r - m1 = m2 := ⟨_, rfl⟩
  obtain ⟨n2, hn2⟩ : ∃ n2, W.c - n1 = n2 := ⟨_, rfl⟩
  obtain ⟨ht, hht⟩ : ∃ t, max (nt / 2) 1 = t := ⟨_, rfl⟩
  obtain ⟨qt, hqt⟩ : ∃ t, max (nt / 4) 1 = t := ⟨_, rfl⟩
  simp only [hm1, hn1, hm2, hn2, hht, hqt]
  have hM : m1 + m2 = W.r := by omega
  have hN : n1 + n2 = W.c := by omega
  have T0 : ∀ a b h w, At X a b h w (fun i j => X (a + i) (b + j)) := fun a b h w i _ j _ => rfl
  -- first call
  refine wp_phase1 hi _ h (by rw [fit_iff]; simp [Fin.forall_fin_succ, Rect.Ins, Rect.Apart]; omega)
    (does_rec hrec h hl _ _ _ _ 0 0 ((T0 0 0 m1 n1).congr (f' := X) (fun i _ j _ => by rw [Nat.zero_add, Nat.zero_add])) (by simp [Win.adr]) (by omega) (by omega) (by omega))
    ?_
  intro x v' V1 p1 hh hfr
  clear hfr h
  simp only [Job.upd] at p1 hh
  rename' v' => v
  obtain ⟨⟨R1, P1, Q1⟩, hx1⟩ : ∃ y, x 0 = y := ⟨_, rfl⟩
  simp only [hx1] at p1 ⊢
  clear hx1
  obtain ⟨lP1, lQ1, bP1, bQ1, f1⟩ := p1
  have rM1 := f1.rM
  have rN1 := f1.rN
  have T11 : At (upd 0 0 m1 n1 V1 X) 0 0 m1 n1 V1 := At.new
  have T12 := (T0 0 n1 m1 n2).out (i0 := 0) (j0 := 0) (r := m1) (c := n1) (g := V1) (by omega)
  have T21 := (T0 m1 0 m2 n1).out (i0 := 0) (j0 := 0) (r := m1) (c := n1) (g := V1) (by omega)
  have T22 := (T0 m1 n1 m2 n2).out (i0 := 0) (j0 := 0) (r := m1) (c := n1) (g := V1) (by omega)
  clear T0
  generalize upd 0 0 m1 n1 V1 X = V at *
  have Ta := T11.sub 0 0 (h' := R1) (w' := R1) (by omega) (by omega)
  have Tb := T11.sub 0 R1 (h' := R1) (w' := n1 - R1) (by omega) (by omega)
  have Tc := T11.sub R1 0 (h' := m1 - R1) (w' := R1) (by omega) (by omega)
  have Td := T11.sub R1 R1 (h' := m1 - R1) (w' := n1 - R1) (by omega) (by omega)
  clear T11
  simp only [Nat.zero_add] at Ta Tb Tc Td T12 T21
  -- permutations
  refine wp_phase2 hi _ _ hh (by rw [fit_iff]; simp [Fin.forall_fin_succ, Rect.Ins, Rect.Apart]; omega)
    (does_rows hh hl _ T12 (by simp [Win.adr]) (by omega) (by omega) lP1 bP1)
    (does_cols hh hl _ T21 (by simp [Win.adr]) (by omega) (by omega) lQ1 bQ1)
    ?_
  intro x v' Y0 Y1 y0 y1 hc hfr
  clear hfr hh
  simp only [Job.upd] at y0 y1 hc
  rename' v' => v
  replace Ta := Ta.out (i0 := 0) (j0 := n1) (r := m1) (c := n2) (g := Y0) (by omega)
  replace Tb := Tb.out (i0 := 0) (j0 := n1) (r := m1) (c := n2) (g := Y0) (by omega)
  replace Tc := Tc.out (i0 := 0) (j0 := n1) (r := m1) (c := n2) (g := Y0) (by omega)
  replace Td := Td.out (i0 := 0) (j0 := n1) (r := m1) (c := n2) (g := Y0) (by omega)
  replace T21 := T21.out (i0 := 0) (j0 := n1) (r := m1) (c := n2) (g := Y0) (by omega)
  replace T22 := T22.out (i0 := 0) (j0 := n1) (r := m1) (c := n2) (g := Y0) (by omega)
  clear T12
  have T12 := (At.new (a := 0) (b := n1) (h := m1) (w := n2) (g := Y0) (V := V)).congr y0
  generalize upd 0 n1 m1 n2 Y0 V = V at *
  replace Ta := Ta.out (i0 := m1) (j0 := 0) (r := m2) (c := n1) (g := Y1) (by omega)
  replace Tb := Tb.out (i0 := m1) (j0 := 0) (r := m2) (c := n1) (g := Y1) (by omega)
  replace Tc := Tc.out (i0 := m1) (j0 := 0) (r := m2) (c := n1) (g := Y1) (by omega)
  replace Td := Td.out (i0 := m1) (j0 := 0) (r := m2) (c := n1) (g := Y1) (by omega)
  replace T12 := T12.out (i0 := m1) (j0 := 0) (r := m2) (c := n1) (g := Y1) (by omega)
  replace T22 := T22.out (i0 := m1) (j0 := 0) (r := m2) (c := n1) (g := Y1) (by omega)
  clear T21
  have T21 := (At.new (a := m1) (b := 0) (h := m2) (w := n1) (g := Y1) (V := V)).congr y1
  generalize upd m1 0 m2 n1 Y1 V = V at *
  clear y0 y1
  have piv1 : ∀ i < R1, V1 i i ≠ 0 := f1.piv
  have TD := T12.sub 0 0 (h' := R1) (w' := n2) (by omega) (by omega)
  have TF := T12.sub R1 0 (h' := m1 - R1) (w' := n2) (by omega) (by omega)
  have TE := T21.sub 0 0 (h' := m2) (w' := R1) (by omega) (by omega)
  have TG := T21.sub 0 R1 (h' := m2) (w' := n1 - R1) (by omega) (by omega)
  clear T12 T21
  simp only [Nat.zero_add, Nat.add_zero] at TD TF TE TG
  -- triangular solves
  refine wp_phase2 hi _ _ hc (by rw [fit_iff]; simp [Fin.forall_fin_succ, Rect.Ins, Rect.Apart]; omega)
    (does_solveL hi hc hl _ 0 0 0 n1 Ta TD (by simp [Win.adr]) (by simp [Win.adr]) (by omega) (by omega) (by omega) (by omega) (by omega) piv1)
    (does_solveU hi hc hl _ 0 0 m1 0 Ta TE (by simp [Win.adr]) (by simp [Win.adr]) (by omega) (by omega) (by omega) (by omega) (by omega) piv1)
    ?_
  intro x v' D E eD eE he hfr
  clear hfr hc
  simp only [Job.upd] at eD eE he
  rename' v' => v
  replace Ta := Ta.out (i0 := 0) (j0 := n1) (r := R1) (c := n2) (g := D) (by omega)
  replace Tb := Tb.out (i0 := 0) (j0 := n1) (r := R1) (c := n2) (g := D) (by omega)
  replace Tc := Tc.out (i0 := 0) (j0 := n1) (r := R1) (c := n2) (g := D) (by omega)
  replace Td := Td.out (i0 := 0) (j0 := n1) (r := R1) (c := n2) (g := D) (by omega)
  replace TF := TF.out (i0 := 0) (j0 := n1) (r := R1) (c := n2) (g := D) (by omega)
  replace TE := TE.out (i0 := 0) (j0 := n1) (r := R1) (c := n2) (g := D) (by omega)
  replace TG := TG.out (i0 := 0) (j0 := n1) (r := R1) (c := n2) (g := D) (by omega)
  replace T22 := T22.out (i0 := 0) (j0 := n1) (r := R1) (c := n2) (g := D) (by omega)
  clear TD
  have TD := At.new (a := 0) (b := n1) (h := R1) (w := n2) (g := D) (V := V)
  generalize upd 0 n1 R1 n2 D V = V at *
  replace Ta := Ta.out (i0 := m1) (j0 := 0) (r := m2) (c := R1) (g := E) (by omega)
  replace Tb := Tb.out (i0 := m1) (j0 := 0) (r := m2) (c := R1) (g := E) (by omega)
  replace Tc := Tc.out (i0 := m1) (j0 := 0) (r := m2) (c := R1) (g := E) (by omega)
  replace Td := Td.out (i0 := m1) (j0 := 0) (r := m2) (c := R1) (g := E) (by omega)
  replace TD := TD.out (i0 := m1) (j0 := 0) (r := m2) (c := R1) (g := E) (by omega)
  replace TF := TF.out (i0 := m1) (j0 := 0) (r := m2) (c := R1) (g := E) (by omega)
  replace TG := TG.out (i0 := m1) (j0 := 0) (r := m2) (c := R1) (g := E) (by omega)
  replace T22 := T22.out (i0 := m1) (j0 := 0) (r := m2) (c := R1) (g := E) (by omega)
  clear TE
  have TE := At.new (a := m1) (b := 0) (h := m2) (w := R1) (g := E) (V := V)
  generalize upd m1 0 m2 R1 E V = V at *
  -- Schur complements
  refine wp_phase2 hi _ _ he (by rw [fit_iff]; simp [Fin.forall_fin_succ, Rect.Ins, Rect.Apart]; omega)
    (does_subMul hi he hl _ _ R1 0 0 n1 R1 n1 Tc TD TF (by simp [Win.adr]) (by simp [Win.adr]) (by simp [Win.adr]; ring) (by omega) (by omega) (by omega) (by omega) (by omega) (by omega) (by omega) (by omega))
    (does_subMul hi he hl _ _ m1 0 0 R1 m1 R1 TE Tb TG (by simp [Win.adr]) (by simp [Win.adr]) (by simp [Win.adr]) (by omega) (by omega) (by omega) (by omega) (by omega) (by omega) (by omega) (by omega))
    ?_
  intro x v' F G eF eG hg hfr
  clear hfr he
  simp only [Job.upd] at eF eG hg
  rename' v' => v
  replace Ta := Ta.out (i0 := R1) (j0 := n1) (r := (m1 - R1)) (c := n2) (g := F) (by omega)
  replace Tb := Tb.out (i0 := R1) (j0 := n1) (r := (m1 - R1)) (c := n2) (g := F) (by omega)
  replace Tc := Tc.out (i0 := R1) (j0 := n1) (r := (m1 - R1)) (c := n2) (g := F) (by omega)
  replace Td := Td.out (i0 := R1) (j0 := n1) (r := (m1 - R1)) (c := n2) (g := F) (by omega)
  replace TD := TD.out (i0 := R1) (j0 := n1) (r := (m1 - R1)) (c := n2) (g := F) (by omega)
  replace TE := TE.out (i0 := R1) (j0 := n1) (r := (m1 - R1)) (c := n2) (g := F) (by omega)
  replace TG := TG.out (i0 := R1) (j0 := n1) (r := (m1 - R1)) (c := n2) (g := F) (by omega)
  replace T22 := T22.out (i0 := R1) (j0 := n1) (r := (m1 - R1)) (c := n2) (g := F) (by omega)
  clear TF
  have TF := At.new (a := R1) (b := n1) (h := (m1 - R1)) (w := n2) (g := F) (V := V)
  generalize upd R1 n1 (m1 - R1) n2 F V = V at *
  replace Ta := Ta.out (i0 := m1) (j0 := R1) (r := m2) (c := (n1 - R1)) (g := G) (by omega)
  replace Tb := Tb.out (i0 := m1) (j0 := R1) (r := m2) (c := (n1 - R1)) (g := G) (by omega)
  replace Tc := Tc.out (i0 := m1) (j0 := R1) (r := m2) (c := (n1 - R1)) (g := G) (by omega)
  replace Td := Td.out (i0 := m1) (j0 := R1) (r := m2) (c := (n1 - R1)) (g := G) (by omega)
  replace TD := TD.out (i0 := m1) (j0 := R1) (r := m2) (c := (n1 - R1)) (g := G) (by omega)
  replace TF := TF.out (i0 := m1) (j0 := R1) (r := m2) (c := (n1 - R1)) (g := G) (by omega)
  replace TE := TE.out (i0 := m1) (j0 := R1) (r := m2) (c := (n1 - R1)) (g := G) (by omega)
  replace T22 := T22.out (i0 := m1) (j0 := R1) (r := m2) (c := (n1 - R1)) (g := G) (by omega)
  clear TG
  have TG := At.new (a := m1) (b := R1) (h := m2) (w := (n1 - R1)) (g := G) (V := V)
  generalize upd m1 R1 m2 (n1 - R1) G V = V at *
  -- second and third call
  refine wp_phase3 hi _ _ _ hg (by rw [fit_iff]; simp [Fin.forall_fin_succ, Rect.Ins, Rect.Apart]; omega)
    (does_rec hrec hg hl _ _ _ _ R1 n1 TF (by simp [Win.adr]; ring) (by omega) (by omega) (by omega))
    (does_rec hrec hg hl _ _ _ _ m1 R1 TG (by simp [Win.adr]) (by omega) (by omega) (by omega))
    (does_subMul hi hg hl _ _ m1 0 0 n1 m1 n1 TE TD T22 (by simp [Win.adr]) (by simp [Win.adr]) (by simp [Win.adr]) (by omega) (by omega) (by omega) (by omega) (by omega) (by omega) (by omega) (by omega))
    ?_
  intro x v' V2 V3 H p2 p3 eH hj hfr
  clear hfr hg
  simp only [Job.upd] at p2 p3 eH hj
  rename' v' => v
  obtain ⟨⟨R2, P2, Q2⟩, hx2⟩ : ∃ y, x 0 = y := ⟨_, rfl⟩
  simp only [hx2] at p2 ⊢
  clear hx2
  obtain ⟨lP2, lQ2, bP2, bQ2, f2⟩ := p2
  obtain ⟨⟨R3, P3, Q3⟩, hx3⟩ : ∃ y, x 1 = y := ⟨_, rfl⟩
  simp only [hx3] at p3 ⊢
  clear hx3
  obtain ⟨lP3, lQ3, bP3, bQ3, f3⟩ := p3
  have rM2 := f2.rM
  have rN2 := f2.rN
  have rM3 := f3.rM
  have rN3 := f3.rN
  replace Ta := Ta.out (i0 := R1) (j0 := n1) (r := (m1 - R1)) (c := n2) (g := V2) (by omega)
  replace Tb := Tb.out (i0 := R1) (j0 := n1) (r := (m1 - R1)) (c := n2) (g := V2) (by omega)
  replace Tc := Tc.out (i0 := R1) (j0 := n1) (r := (m1 - R1)) (c := n2) (g := V2) (by omega)
  replace Td := Td.out (i0 := R1) (j0 := n1) (r := (m1 - R1)) (c := n2) (g := V2) (by omega)
  replace TD := TD.out (i0 := R1) (j0 := n1) (r := (m1 - R1)) (c := n2) (g := V2) (by omega)
  replace TE := TE.out (i0 := R1) (j0 := n1) (r := (m1 - R1)) (c := n2) (g := V2) (by omega)
  replace TG := TG.out (i0 := R1) (j0 := n1) (r := (m1 - R1)) (c := n2) (g := V2) (by omega)
  replace T22 := T22.out (i0 := R1) (j0 := n1) (r := (m1 - R1)) (c := n2) (g := V2) (by omega)
  clear TF
  have TF := At.new (a := R1) (b := n1) (h := (m1 - R1)) (w := n2) (g := V2) (V := V)
  generalize upd R1 n1 (m1 - R1) n2 V2 V = V at *
  replace Ta := Ta.out (i0 := m1) (j0 := R1) (r := m2) (c := (n1 - R1)) (g := V3) (by omega)
  replace Tb := Tb.out (i0 := m1) (j0 := R1) (r := m2) (c := (n1 - R1)) (g := V3) (by omega)
  replace Tc := Tc.out (i0 := m1) (j0 := R1) (r := m2) (c := (n1 - R1)) (g := V3) (by omega)
  replace Td := Td.out (i0 := m1) (j0 := R1) (r := m2) (c := (n1 - R1)) (g := V3) (by omega)
  replace TD := TD.out (i0 := m1) (j0 := R1) (r := m2) (c := (n1 - R1)) (g := V3) (by omega)
  replace TF := TF.out (i0 := m1) (j0 := R1) (r := m2) (c := (n1 - R1)) (g := V3) (by omega)
  replace TE := TE.out (i0 := m1) (j0 := R1) (r := m2) (c := (n1 - R1)) (g := V3) (by omega)
  replace T22 := T22.out (i0 := m1) (j0 := R1) (r := m2) (c := (n1 - R1)) (g := V3) (by omega)
  clear TG
  have TG := At.new (a := m1) (b := R1) (h := m2) (w := (n1 - R1)) (g := V3) (V := V)
  generalize upd m1 R1 m2 (n1 - R1) V3 V = V at *
  replace Ta := Ta.out (i0 := m1) (j0 := n1) (r := m2) (c := n2) (g := H) (by omega)
  replace Tb := Tb.out (i0 := m1) (j0 := n1) (r := m2) (c := n2) (g := H) (by omega)
  replace Tc := Tc.out (i0 := m1) (j0 := n1) (r := m2) (c := n2) (g := H) (by omega)
  replace Td := Td.out (i0 := m1) (j0 := n1) (r := m2) (c := n2) (g := H) (by omega)
  replace TD := TD.out (i0 := m1) (j0 := n1) (r := m2) (c := n2) (g := H) (by omega)
  replace TF := TF.out (i0 := m1) (j0 := n1) (r := m2) (c := n2) (g := H) (by omega)
  replace TE := TE.out (i0 := m1) (j0 := n1) (r := m2) (c := n2) (g := H) (by omega)
  replace TG := TG.out (i0 := m1) (j0 := n1) (r := m2) (c := n2) (g := H) (by omega)
  clear T22
  have TH := At.new (a := m1) (b := n1) (h := m2) (w := n2) (g := H) (V := V)
  generalize upd m1 n1 m2 n2 H V = V at *
  refine wp_phase1 hi _ hj (by rw [fit_iff]; simp [Fin.forall_fin_succ, Rect.Ins, Rect.Apart]; omega)
    (does_colsRows hj hl _ TH (by simp [Win.adr]) (by omega) (by omega) lQ2 bQ2 lP3 bP3)
    ?_
  intro x v' Y0 y0 hk hfr
  clear hfr hj
  simp only [Job.upd] at y0 hk
  rename' v' => v
  replace Ta := Ta.out (i0 := m1) (j0 := n1) (r := m2) (c := n2) (g := Y0) (by omega)
  replace Tb := Tb.out (i0 := m1) (j0 := n1) (r := m2) (c := n2) (g := Y0) (by omega)
  replace Tc := Tc.out (i0 := m1) (j0 := n1) (r := m2) (c := n2) (g := Y0) (by omega)
  replace Td := Td.out (i0 := m1) (j0 := n1) (r := m2) (c := n2) (g := Y0) (by omega)
  replace TD := TD.out (i0 := m1) (j0 := n1) (r := m2) (c := n2) (g := Y0) (by omega)
  replace TF := TF.out (i0 := m1) (j0 := n1) (r := m2) (c := n2) (g := Y0) (by omega)
  replace TE := TE.out (i0 := m1) (j0 := n1) (r := m2) (c := n2) (g := Y0) (by omega)
  replace TG := TG.out (i0 := m1) (j0 := n1) (r := m2) (c := n2) (g := Y0) (by omega)
  clear TH
  have TH := (At.new (a := m1) (b := n1) (h := m2) (w := n2) (g := Y0) (V := V)).congr y0
  generalize upd m1 n1 m2 n2 Y0 V = V at *
  clear y0
  have piv2 : ∀ i < R2, V2 i i ≠ 0 := f2.piv
  have piv3 : ∀ i < R3, V3 i i ≠ 0 := f3.piv
  have TI := TH.sub 0 0 (h' := m2) (w' := R2) (by omega) (by omega)
  have TO := TH.sub 0 R2 (h' := R3) (w' := n2 - R2) (by omega) (by omega)
  have TR := TH.sub R3 R2 (h' := m2 - R3) (w' := n2 - R2) (by omega) (by omega)
  clear TH
  simp only [Nat.zero_add, Nat.add_zero] at TI TO TR
  have TF2 := TF.sub 0 0 (h' := R2) (w' := R2) (by omega) (by omega)
  simp only [Nat.zero_add, Nat.add_zero] at TF2
  refine wp_phase5 hi _ _ _ _ _ hk (by rw [fit_iff]; simp [Fin.forall_fin_succ, Rect.Ins, Rect.Apart]; omega)
    (does_rows hk hl _ TE (by simp [Win.adr]) (by omega) (by omega) lP3 bP3)
    (does_rows hk hl _ Tc (by simp [Win.adr]) (by omega) (by omega) lP2 bP2)
    (does_cols hk hl _ TD (by simp [Win.adr]) (by omega) (by omega) lQ2 bQ2)
    (does_cols hk hl _ Tb (by simp [Win.adr]) (by omega) (by omega) lQ3 bQ3)
    (does_solveU hi hk hl _ R1 n1 m1 n1 TF2 TI (by simp [Win.adr]; ring) (by simp [Win.adr]) (by omega) (by omega) (by omega) (by omega) (by omega) piv2)
    ?_
  intro x v' Y0 Y1 Y2 Y3 I y0 y1 y2 y3 eI hr hfr
  clear hfr hk
  simp only [Job.upd] at y0 y1 y2 y3 eI hr
  rename' v' => v
  clear TF2
  replace Ta := Ta.out (i0 := m1) (j0 := 0) (r := m2) (c := R1) (g := Y0) (by omega)
  replace Tb := Tb.out (i0 := m1) (j0 := 0) (r := m2) (c := R1) (g := Y0) (by omega)
  replace Tc := Tc.out (i0 := m1) (j0 := 0) (r := m2) (c := R1) (g := Y0) (by omega)
  replace Td := Td.out (i0 := m1) (j0 := 0) (r := m2) (c := R1) (g := Y0) (by omega)
  replace TD := TD.out (i0 := m1) (j0 := 0) (r := m2) (c := R1) (g := Y0) (by omega)
  replace TF := TF.out (i0 := m1) (j0 := 0) (r := m2) (c := R1) (g := Y0) (by omega)
  replace TG := TG.out (i0 := m1) (j0 := 0) (r := m2) (c := R1) (g := Y0) (by omega)
  replace TI := TI.out (i0 := m1) (j0 := 0) (r := m2) (c := R1) (g := Y0) (by omega)
  replace TO := TO.out (i0 := m1) (j0 := 0) (r := m2) (c := R1) (g := Y0) (by omega)
  replace TR := TR.out (i0 := m1) (j0 := 0) (r := m2) (c := R1) (g := Y0) (by omega)
  clear TE
  have TE := (At.new (a := m1) (b := 0) (h := m2) (w := R1) (g := Y0) (V := V)).congr y0
  generalize upd m1 0 m2 R1 Y0 V = V at *
  replace Ta := Ta.out (i0 := R1) (j0 := 0) (r := (m1 - R1)) (c := R1) (g := Y1) (by omega)
  replace Tb := Tb.out (i0 := R1) (j0 := 0) (r := (m1 - R1)) (c := R1) (g := Y1) (by omega)
  replace Td := Td.out (i0 := R1) (j0 := 0) (r := (m1 - R1)) (c := R1) (g := Y1) (by omega)
  replace TD := TD.out (i0 := R1) (j0 := 0) (r := (m1 - R1)) (c := R1) (g := Y1) (by omega)
  replace TF := TF.out (i0 := R1) (j0 := 0) (r := (m1 - R1)) (c := R1) (g := Y1) (by omega)
  replace TE := TE.out (i0 := R1) (j0 := 0) (r := (m1 - R1)) (c := R1) (g := Y1) (by omega)
  replace TG := TG.out (i0 := R1) (j0 := 0) (r := (m1 - R1)) (c := R1) (g := Y1) (by omega)
  replace TI := TI.out (i0 := R1) (j0 := 0) (r := (m1 - R1)) (c := R1) (g := Y1) (by omega)
  replace TO := TO.out (i0 := R1) (j0 := 0) (r := (m1 - R1)) (c := R1) (g := Y1) (by omega)
  replace TR := TR.out (i0 := R1) (j0 := 0) (r := (m1 - R1)) (c := R1) (g := Y1) (by omega)
  clear Tc
  have Tc := (At.new (a := R1) (b := 0) (h := (m1 - R1)) (w := R1) (g := Y1) (V := V)).congr y1
  generalize upd R1 0 (m1 - R1) R1 Y1 V = V at *
  replace Ta := Ta.out (i0 := 0) (j0 := n1) (r := R1) (c := n2) (g := Y2) (by omega)
  replace Tb := Tb.out (i0 := 0) (j0 := n1) (r := R1) (c := n2) (g := Y2) (by omega)
  replace Tc := Tc.out (i0 := 0) (j0 := n1) (r := R1) (c := n2) (g := Y2) (by omega)
  replace Td := Td.out (i0 := 0) (j0 := n1) (r := R1) (c := n2) (g := Y2) (by omega)
  replace TF := TF.out (i0 := 0) (j0 := n1) (r := R1) (c := n2) (g := Y2) (by omega)
  replace TE := TE.out (i0 := 0) (j0 := n1) (r := R1) (c := n2) (g := Y2) (by omega)
  replace TG := TG.out (i0 := 0) (j0 := n1) (r := R1) (c := n2) (g := Y2) (by omega)
  replace TI := TI.out (i0 := 0) (j0 := n1) (r := R1) (c := n2) (g := Y2) (by omega)
  replace TO := TO.out (i0 := 0) (j0 := n1) (r := R1) (c := n2) (g := Y2) (by omega)
  replace TR := TR.out (i0 := 0) (j0 := n1) (r := R1) (c := n2) (g := Y2) (by omega)
  clear TD
  have TD := (At.new (a := 0) (b := n1) (h := R1) (w := n2) (g := Y2) (V := V)).congr y2
  generalize upd 0 n1 R1 n2 Y2 V = V at *
  replace Ta := Ta.out (i0 := 0) (j0 := R1) (r := R1) (c := (n1 - R1)) (g := Y3) (by omega)
  replace Tc := Tc.out (i0 := 0) (j0 := R1) (r := R1) (c := (n1 - R1)) (g := Y3) (by omega)
  replace Td := Td.out (i0 := 0) (j0 := R1) (r := R1) (c := (n1 - R1)) (g := Y3) (by omega)
  replace TD := TD.out (i0 := 0) (j0 := R1) (r := R1) (c := (n1 - R1)) (g := Y3) (by omega)
  replace TF := TF.out (i0 := 0) (j0 := R1) (r := R1) (c := (n1 - R1)) (g := Y3) (by omega)
  replace TE := TE.out (i0 := 0) (j0 := R1) (r := R1) (c := (n1 - R1)) (g := Y3) (by omega)
  replace TG := TG.out (i0 := 0) (j0 := R1) (r := R1) (c := (n1 - R1)) (g := Y3) (by omega)
  replace TI := TI.out (i0 := 0) (j0 := R1) (r := R1) (c := (n1 - R1)) (g := Y3) (by omega)
  replace TO := TO.out (i0 := 0) (j0 := R1) (r := R1) (c := (n1 - R1)) (g := Y3) (by omega)
  replace TR := TR.out (i0 := 0) (j0 := R1) (r := R1) (c := (n1 - R1)) (g := Y3) (by omega)
  clear Tb
  have Tb := (At.new (a := 0) (b := R1) (h := R1) (w := (n1 - R1)) (g := Y3) (V := V)).congr y3
  generalize upd 0 R1 R1 (n1 - R1) Y3 V = V at *
  replace Ta := Ta.out (i0 := m1) (j0 := n1) (r := m2) (c := R2) (g := I) (by omega)
  replace Tb := Tb.out (i0 := m1) (j0 := n1) (r := m2) (c := R2) (g := I) (by omega)
  replace Tc := Tc.out (i0 := m1) (j0 := n1) (r := m2) (c := R2) (g := I) (by omega)
  replace Td := Td.out (i0 := m1) (j0 := n1) (r := m2) (c := R2) (g := I) (by omega)
  replace TD := TD.out (i0 := m1) (j0 := n1) (r := m2) (c := R2) (g := I) (by omega)
  replace TF := TF.out (i0 := m1) (j0 := n1) (r := m2) (c := R2) (g := I) (by omega)
  replace TE := TE.out (i0 := m1) (j0 := n1) (r := m2) (c := R2) (g := I) (by omega)
  replace TG := TG.out (i0 := m1) (j0 := n1) (r := m2) (c := R2) (g := I) (by omega)
  replace TO := TO.out (i0 := m1) (j0 := n1) (r := m2) (c := R2) (g := I) (by omega)
  replace TR := TR.out (i0 := m1) (j0 := n1) (r := m2) (c := R2) (g := I) (by omega)
  clear TI
  have TI := At.new (a := m1) (b := n1) (h := m2) (w := R2) (g := I) (V := V)
  generalize upd m1 n1 m2 R2 I V = V at *
  clear y0 y1 y2 y3
  have TG3 := TG.sub 0 0 (h' := R3) (w' := R3) (by omega) (by omega)
  have TI3 := TI.sub 0 0 (h' := R3) (w' := R2) (by omega) (by omega)
  have TI4 := TI.sub R3 0 (h' := m2 - R3) (w' := R2) (by omega) (by omega)
  have TF2 := TF.sub 0 R2 (h' := R2) (w' := n2 - R2) (by omega) (by omega)
  simp only [Nat.zero_add, Nat.add_zero] at TG3 TI3 TI4 TF2
  refine wp_ppluqO hi hl hr gthr nt (m1 := m1) (n1 := n1) (R1 := R1) (by simp [Win.adr]) (by simp [Win.adr]) (by simp [Win.adr]; ring) (by omega) (by omega)
    hM hN (by omega) (by omega) TG3 TI3 TO TF2 TI4 TR piv3 ?_
  intro v' O Ra eO eRa hs
  clear hr TG3 TI3 TI4 TF2
  replace Ta := Ta.out (i0 := m1) (j0 := (n1 + R2)) (r := R3) (c := (n2 - R2)) (g := O) (by omega)
  replace Tb := Tb.out (i0 := m1) (j0 := (n1 + R2)) (r := R3) (c := (n2 - R2)) (g := O) (by omega)
  replace Tc := Tc.out (i0 := m1) (j0 := (n1 + R2)) (r := R3) (c := (n2 - R2)) (g := O) (by omega)
  replace Td := Td.out (i0 := m1) (j0 := (n1 + R2)) (r := R3) (c := (n2 - R2)) (g := O) (by omega)
  replace TD := TD.out (i0 := m1) (j0 := (n1 + R2)) (r := R3) (c := (n2 - R2)) (g := O) (by omega)
  replace TF := TF.out (i0 := m1) (j0 := (n1 + R2)) (r := R3) (c := (n2 - R2)) (g := O) (by omega)
  replace TE := TE.out (i0 := m1) (j0 := (n1 + R2)) (r := R3) (c := (n2 - R2)) (g := O) (by omega)
  replace TG := TG.out (i0 := m1) (j0 := (n1 + R2)) (r := R3) (c := (n2 - R2)) (g := O) (by omega)
  replace TI := TI.out (i0 := m1) (j0 := (n1 + R2)) (r := R3) (c := (n2 - R2)) (g := O) (by omega)
  replace TR := TR.out (i0 := m1) (j0 := (n1 + R2)) (r := R3) (c := (n2 - R2)) (g := O) (by omega)
  clear TO
  have TO := At.new (a := m1) (b := (n1 + R2)) (h := R3) (w := (n2 - R2)) (g := O) (V := V)
  generalize upd m1 (n1 + R2) R3 (n2 - R2) O V = V at *
  replace Ta := Ta.out (i0 := (m1 + R3)) (j0 := (n1 + R2)) (r := (m2 - R3)) (c := (n2 - R2)) (g := Ra) (by omega)
  replace Tb := Tb.out (i0 := (m1 + R3)) (j0 := (n1 + R2)) (r := (m2 - R3)) (c := (n2 - R2)) (g := Ra) (by omega)
  replace Tc := Tc.out (i0 := (m1 + R3)) (j0 := (n1 + R2)) (r := (m2 - R3)) (c := (n2 - R2)) (g := Ra) (by omega)
  replace Td := Td.out (i0 := (m1 + R3)) (j0 := (n1 + R2)) (r := (m2 - R3)) (c := (n2 - R2)) (g := Ra) (by omega)
  replace TD := TD.out (i0 := (m1 + R3)) (j0 := (n1 + R2)) (r := (m2 - R3)) (c := (n2 - R2)) (g := Ra) (by omega)
  replace TF := TF.out (i0 := (m1 + R3)) (j0 := (n1 + R2)) (r := (m2 - R3)) (c := (n2 - R2)) (g := Ra) (by omega)
  replace TE := TE.out (i0 := (m1 + R3)) (j0 := (n1 + R2)) (r := (m2 - R3)) (c := (n2 - R2)) (g := Ra) (by omega)
  replace TG := TG.out (i0 := (m1 + R3)) (j0 := (n1 + R2)) (r := (m2 - R3)) (c := (n2 - R2)) (g := Ra) (by omega)
  replace TI := TI.out (i0 := (m1 + R3)) (j0 := (n1 + R2)) (r := (m2 - R3)) (c := (n2 - R2)) (g := Ra) (by omega)
  replace TO := TO.out (i0 := (m1 + R3)) (j0 := (n1 + R2)) (r := (m2 - R3)) (c := (n2 - R2)) (g := Ra) (by omega)
  clear TR
  have TR := At.new (a := (m1 + R3)) (b := (n1 + R2)) (h := (m2 - R3)) (w := (n2 - R2)) (g := Ra) (V := V)
  generalize upd (m1 + R3) (n1 + R2) (m2 - R3) (n2 - R2) Ra V = V at *
  have TG3 := TG.sub R3 0 (h' := m2 - R3) (w' := R3) (by omega) (by omega)
  simp only [Nat.zero_add, Nat.add_zero] at TG3
  rename' v' => v
  refine wp_phase1 hi _ hs (by rw [fit_iff]; simp [Fin.forall_fin_succ, Rect.Ins, Rect.Apart]; omega)
    (does_subMul hi hs hl _ _ (m1 + R3) R1 m1 (n1 + R2) (m1 + R3) (n1 + R2) TG3 TO TR (by simp [Win.adr]; ring) (by simp [Win.adr]; ring) (by simp [Win.adr]; ring) (by omega) (by omega) (by omega) (by omega) (by omega) (by omega) (by omega) (by omega))
    ?_
  intro x v' Rb eRb hv hfr
  clear hfr hs
  simp only [Job.upd] at eRb hv
  rename' v' => v
  clear TG3
  replace Ta := Ta.out (i0 := (m1 + R3)) (j0 := (n1 + R2)) (r := (m2 - R3)) (c := (n2 - R2)) (g := Rb) (by omega)
  replace Tb := Tb.out (i0 := (m1 + R3)) (j0 := (n1 + R2)) (r := (m2 - R3)) (c := (n2 - R2)) (g := Rb) (by omega)
  replace Tc := Tc.out (i0 := (m1 + R3)) (j0 := (n1 + R2)) (r := (m2 - R3)) (c := (n2 - R2)) (g := Rb) (by omega)
  replace Td := Td.out (i0 := (m1 + R3)) (j0 := (n1 + R2)) (r := (m2 - R3)) (c := (n2 - R2)) (g := Rb) (by omega)
  replace TD := TD.out (i0 := (m1 + R3)) (j0 := (n1 + R2)) (r := (m2 - R3)) (c := (n2 - R2)) (g := Rb) (by omega)
  replace TF := TF.out (i0 := (m1 + R3)) (j0 := (n1 + R2)) (r := (m2 - R3)) (c := (n2 - R2)) (g := Rb) (by omega)
  replace TE := TE.out (i0 := (m1 + R3)) (j0 := (n1 + R2)) (r := (m2 - R3)) (c := (n2 - R2)) (g := Rb) (by omega)
  replace TG := TG.out (i0 := (m1 + R3)) (j0 := (n1 + R2)) (r := (m2 - R3)) (c := (n2 - R2)) (g := Rb) (by omega)
  replace TI := TI.out (i0 := (m1 + R3)) (j0 := (n1 + R2)) (r := (m2 - R3)) (c := (n2 - R2)) (g := Rb) (by omega)
  replace TO := TO.out (i0 := (m1 + R3)) (j0 := (n1 + R2)) (r := (m2 - R3)) (c := (n2 - R2)) (g := Rb) (by omega)
  clear TR
  have TR := At.new (a := (m1 + R3)) (b := (n1 + R2)) (h := (m2 - R3)) (w := (n2 - R2)) (g := Rb) (V := V)
  generalize upd (m1 + R3) (n1 + R2) (m2 - R3) (n2 - R2) Rb V = V at *
  -- fourth call
  refine wp_phase1 hi _ hv (by rw [fit_iff]; simp [Fin.forall_fin_succ, Rect.Ins, Rect.Apart]; omega)
    (does_rec hrec hv hl _ _ _ _ (m1 + R3) (n1 + R2) TR (by simp [Win.adr]; ring) (by omega) (by omega) (by omega))
    ?_
  intro x v' V4 p4 hw hfr
  clear hfr hv
  simp only [Job.upd] at p4 hw
  rename' v' => v
  obtain ⟨⟨R4, P4, Q4⟩, hx4⟩ : ∃ y, x 0 = y := ⟨_, rfl⟩
  simp only [hx4] at p4 ⊢
  clear hx4
  obtain ⟨lP4, lQ4, bP4, bQ4, f4⟩ := p4
  have rM4 := f4.rM
  have rN4 := f4.rN
  replace Ta := Ta.out (i0 := (m1 + R3)) (j0 := (n1 + R2)) (r := (m2 - R3)) (c := (n2 - R2)) (g := V4) (by omega)
  replace Tb := Tb.out (i0 := (m1 + R3)) (j0 := (n1 + R2)) (r := (m2 - R3)) (c := (n2 - R2)) (g := V4) (by omega)
  replace Tc := Tc.out (i0 := (m1 + R3)) (j0 := (n1 + R2)) (r := (m2 - R3)) (c := (n2 - R2)) (g := V4) (by omega)
  replace Td := Td.out (i0 := (m1 + R3)) (j0 := (n1 + R2)) (r := (m2 - R3)) (c := (n2 - R2)) (g := V4) (by omega)
  replace TD := TD.out (i0 := (m1 + R3)) (j0 := (n1 + R2)) (r := (m2 - R3)) (c := (n2 - R2)) (g := V4) (by omega)
  replace TF := TF.out (i0 := (m1 + R3)) (j0 := (n1 + R2)) (r := (m2 - R3)) (c := (n2 - R2)) (g := V4) (by omega)
  replace TE := TE.out (i0 := (m1 + R3)) (j0 := (n1 + R2)) (r := (m2 - R3)) (c := (n2 - R2)) (g := V4) (by omega)
  replace TG := TG.out (i0 := (m1 + R3)) (j0 := (n1 + R2)) (r := (m2 - R3)) (c := (n2 - R2)) (g := V4) (by omega)
  replace TI := TI.out (i0 := (m1 + R3)) (j0 := (n1 + R2)) (r := (m2 - R3)) (c := (n2 - R2)) (g := V4) (by omega)
  replace TO := TO.out (i0 := (m1 + R3)) (j0 := (n1 + R2)) (r := (m2 - R3)) (c := (n2 - R2)) (g := V4) (by omega)
  clear TR
  have TR := At.new (a := (m1 + R3)) (b := (n1 + R2)) (h := (m2 - R3)) (w := (n2 - R2)) (g := V4) (V := V)
  generalize upd (m1 + R3) (n1 + R2) (m2 - R3) (n2 - R2) V4 V = V at *
  have TX := fun i (_ : i < m2 - R3) j (_ : j < n1 + R2) => (rfl : V (m1 + R3 + i) (0 + j) = (fun i j => V (m1 + R3 + i) (0 + j)) i j)
  have TY := fun i (_ : i < m1 + R3) j (_ : j < n2 - R2) => (rfl : V (0 + i) (n1 + R2 + j) = (fun i j => V (0 + i) (n1 + R2 + j)) i j)
  refine wp_phase2 hi _ _ hw (by rw [fit_iff]; simp [Fin.forall_fin_succ, Rect.Ins, Rect.Apart]; omega)
    (does_rows hw hl _ TX (by simp [Win.adr]; ring) (by omega) (by omega) lP4 bP4)
    (does_cols hw hl _ TY (by simp [Win.adr]; ring) (by omega) (by omega) lQ4 bQ4)
    ?_
  intro x v' Y0 Y1 y0 y1 hx hfr
  clear hfr hw
  simp only [Job.upd] at y0 y1 hx
  rename' v' => v
  clear TX TY
  have hmy : Vals W (permCols 0 (n1 + R2) (m1 + R3) (n2 - R2) (ofSwaps Q4.get (n2 - R2)) (permRows (m1 + R3) 0 (m2 - R3) (n1 + R2) (ofSwaps P4.get (m2 - R3)) V)) v := by
    intro a ha b hb
    rw [hx a ha b hb]
    simp only [permCols, permRows]
    by_cases c1 : a < m1 + R3 ∧ n1 + R2 ≤ b
    · rw [upd_in' (by omega), upd_in' (by omega), y1 _ (by omega) _ (by omega), upd_out (by omega)]
    rw [upd_out (i0 := 0) (by omega), upd_out (i0 := 0) (by omega)]
    by_cases c2 : m1 + R3 ≤ a ∧ b < n1 + R2
    · rw [upd_in' (by omega), upd_in' (by omega), y0 _ (by omega) _ (by omega)]
    · rw [upd_out (by omega), upd_out (by omega)]
  clear hx y0 y1
  replace Ta := Ta.outR (i0 := (m1 + R3)) (j0 := 0) (r := (m2 - R3)) (c := (n1 + R2)) (σ := (ofSwaps P4.get (m2 - R3))) (by omega)
  replace Tb := Tb.outR (i0 := (m1 + R3)) (j0 := 0) (r := (m2 - R3)) (c := (n1 + R2)) (σ := (ofSwaps P4.get (m2 - R3))) (by omega)
  replace Tc := Tc.outR (i0 := (m1 + R3)) (j0 := 0) (r := (m2 - R3)) (c := (n1 + R2)) (σ := (ofSwaps P4.get (m2 - R3))) (by omega)
  replace Td := Td.outR (i0 := (m1 + R3)) (j0 := 0) (r := (m2 - R3)) (c := (n1 + R2)) (σ := (ofSwaps P4.get (m2 - R3))) (by omega)
  replace TD := TD.outR (i0 := (m1 + R3)) (j0 := 0) (r := (m2 - R3)) (c := (n1 + R2)) (σ := (ofSwaps P4.get (m2 - R3))) (by omega)
  replace TF := TF.outR (i0 := (m1 + R3)) (j0 := 0) (r := (m2 - R3)) (c := (n1 + R2)) (σ := (ofSwaps P4.get (m2 - R3))) (by omega)
  replace TO := TO.outR (i0 := (m1 + R3)) (j0 := 0) (r := (m2 - R3)) (c := (n1 + R2)) (σ := (ofSwaps P4.get (m2 - R3))) (by omega)
  replace TR := TR.outR (i0 := (m1 + R3)) (j0 := 0) (r := (m2 - R3)) (c := (n1 + R2)) (σ := (ofSwaps P4.get (m2 - R3))) (by omega)
  replace TE := TE.rows (i0 := (m1 + R3)) (j0 := 0) (r := (m2 - R3)) (c := (n1 + R2)) (σ := (ofSwaps P4.get (m2 - R3))) R3 (by omega) (by omega) (by omega) (by omega) f4.pP.1
  replace TG := TG.rows (i0 := (m1 + R3)) (j0 := 0) (r := (m2 - R3)) (c := (n1 + R2)) (σ := (ofSwaps P4.get (m2 - R3))) R3 (by omega) (by omega) (by omega) (by omega) f4.pP.1
  replace TI := TI.rows (i0 := (m1 + R3)) (j0 := 0) (r := (m2 - R3)) (c := (n1 + R2)) (σ := (ofSwaps P4.get (m2 - R3))) R3 (by omega) (by omega) (by omega) (by omega) f4.pP.1
  generalize permRows (m1 + R3) 0 (m2 - R3) (n1 + R2) (ofSwaps P4.get (m2 - R3)) V = V at *
  replace Ta := Ta.outC (i0 := 0) (j0 := (n1 + R2)) (r := (m1 + R3)) (c := (n2 - R2)) (σ := (ofSwaps Q4.get (n2 - R2))) (by omega)
  replace Tb := Tb.outC (i0 := 0) (j0 := (n1 + R2)) (r := (m1 + R3)) (c := (n2 - R2)) (σ := (ofSwaps Q4.get (n2 - R2))) (by omega)
  replace Tc := Tc.outC (i0 := 0) (j0 := (n1 + R2)) (r := (m1 + R3)) (c := (n2 - R2)) (σ := (ofSwaps Q4.get (n2 - R2))) (by omega)
  replace Td := Td.outC (i0 := 0) (j0 := (n1 + R2)) (r := (m1 + R3)) (c := (n2 - R2)) (σ := (ofSwaps Q4.get (n2 - R2))) (by omega)
  replace TE := TE.outC (i0 := 0) (j0 := (n1 + R2)) (r := (m1 + R3)) (c := (n2 - R2)) (σ := (ofSwaps Q4.get (n2 - R2))) (by omega)
  replace TG := TG.outC (i0 := 0) (j0 := (n1 + R2)) (r := (m1 + R3)) (c := (n2 - R2)) (σ := (ofSwaps Q4.get (n2 - R2))) (by omega)
  replace TI := TI.outC (i0 := 0) (j0 := (n1 + R2)) (r := (m1 + R3)) (c := (n2 - R2)) (σ := (ofSwaps Q4.get (n2 - R2))) (by omega)
  replace TR := TR.outC (i0 := 0) (j0 := (n1 + R2)) (r := (m1 + R3)) (c := (n2 - R2)) (σ := (ofSwaps Q4.get (n2 - R2))) (by omega)
  replace TD := TD.cols (i0 := 0) (j0 := (n1 + R2)) (r := (m1 + R3)) (c := (n2 - R2)) (σ := (ofSwaps Q4.get (n2 - R2))) R2 (by omega) (by omega) (by omega) (by omega) f4.pQ.1
  replace TF := TF.cols (i0 := 0) (j0 := (n1 + R2)) (r := (m1 + R3)) (c := (n2 - R2)) (σ := (ofSwaps Q4.get (n2 - R2))) R2 (by omega) (by omega) (by omega) (by omega) f4.pQ.1
  replace TO := TO.cols0 (i0 := 0) (r := (m1 + R3)) (σ := (ofSwaps Q4.get (n2 - R2))) (by omega) (by omega) f4.pQ.1
  generalize permCols 0 (n1 + R2) (m1 + R3) (n2 - R2) (ofSwaps Q4.get (n2 - R2)) V = V at *
  -- moves
  refine wp_ppluqS hi hl hmy jk nt rfl rfl rfl (by omega) (by omega) (by omega) lP1 lP2 (by omega) (by omega) bP1 bP2 (by rwa [hm2]) (by rwa [hm2]) rfl ?_
  intro MP va lMP eMP pMP hz
  rw [hm2] at eMP pMP
  clear hmy
  refine wp_ppluqT hi hl hz jk _ rfl rfl rfl (by omega) (by omega) (by omega) lQ1 lQ3 (by omega) (by omega) bQ1 bQ3 (by rwa [hn2]) (by rwa [hn2]) rfl ?_
  intro MQ vb lMQ eMQ pMQ hz'
  rw [hn2] at eMQ pMQ
  clear hz
  refine wp_liftV (MathPerm2LAPACKPerm_spec W.c Q MQ (jk [14]) (jk [15]) hQ lMQ ⟨fun i hi => by rw [eMQ i hi]; exact pMQ.1 i hi, fun i hi j hj hh =>
      pMQ.2 i hi j hj ((eMQ i hi).symm.trans (hh.trans (eMQ j hj)))⟩) ?_
  rintro Q' ⟨b1, b2, b3'⟩
  refine wp_liftV (MathPerm2LAPACKPerm_spec W.r P MP (jk [10]) (jk [11]) hP lMP ⟨fun i hi => by rw [eMP i hi]; exact pMP.1 i hi, fun i hi j hj hh =>
      pMP.2 i hi j hj ((eMP i hi).symm.trans (hh.trans (eMP j hj)))⟩) ?_
  rintro P' ⟨a1, a2, a3'⟩
  have a3 := fun i hi => (eMP i hi).symm.trans (a3' i hi)
  have b3 := fun i hi => (eMQ i hi).symm.trans (b3' i hi)
  refine ⟨a1, b1, a2, b2, _, hz', ?_⟩
  let B : Dat K := ⟨m1, m2, n1, n2, R1, R2, R3, R4, V1, V2, V3, V4, D, E, I, O, ofSwaps P1.get m1, ofSwaps P2.get (m1 - R1), ofSwaps P3.get m2,
    ofSwaps P4.get (m2 - R3), ofSwaps Q1.get n1, ofSwaps Q2.get n2, ofSwaps Q3.get (n1 - R1), ofSwaps Q4.get (n2 - R2)⟩
  have eH' : ∀ i < m2, ∀ j < n2, H i j = B.H X i j := eH
  have r2 := f2.congrX (X' := B.F X) eF
  have r3 := f3.congrX (X' := B.G X) eG
  have r4 : Fac0 d (m2 - R3) (n2 - R2) (B.R X) V4 (ofSwaps P4.get (m2 - R3)) (ofSwaps Q4.get (n2 - R2)) R4 := f4.congrX (fun i hi j hj => by
    rw [eRb i hi j hj, eRa i hi j hj, eH' _ (f3.pP.1 (R3 + i) (by omega)) _ (f2.pQ.1 (R2 + j) (by omega))]
    rfl)
  have good : B.Good d X := by
    refine ⟨f1, eD, eE, r2, r3, fun i hi j hj => ?_, fun i hi j hj => ?_, r4⟩
    · rw [eI i hi j hj]
      exact eH' _ (f3.pP.1 i hi) _ (f2.pQ.1 j (by have : j < R2 := hj; omega))
    · rw [eO i hi j hj]
      exact congrArg (· - _) (eH' _ (f3.pP.1 i (by have : i < R3 := hi; omega)) _ (f2.pQ.1 (R2 + j) (by have : j < n2 - R2 := hj; omega)))
  have key : ∀ i < m1 + m2, ∀ j < n1 + n2, V i j = B.pre i j := by
    intro i hi j hj
    have q4 := f4.pQ.1
    have p4 := f4.pP.1
    unfold Dat.pre Dat.ii Dat.jj Dat.ii2 Dat.jj2
    simp only [B]
    by_cases ci : i < m1
    · rw [if_pos ci]
      by_cases cj : j < n1
      · rw [if_pos cj]
        by_cases di : i < R1
        · rw [shiftPerm_lo di]
          by_cases dj : j < R1
          · rw [shiftPerm_lo dj]
            simpa using Ta i di j dj
          · rw [shiftPerm_hi (by omega)]
            have := Tb i di (j - R1) (by omega)
            rwa [Nat.zero_add, show R1 + (j - R1) = j by omega] at this
        · rw [shiftPerm_hi (by omega)]
          by_cases dj : j < R1
          · rw [shiftPerm_lo dj]
            have := Tc (i - R1) (by omega) j dj
            rwa [Nat.zero_add, show R1 + (i - R1) = i by omega] at this
          · rw [shiftPerm_hi (by omega)]
            have := Td (i - R1) (by omega) (j - R1) (by omega)
            rw [show R1 + (i - R1) = i by omega, show R1 + (j - R1) = j by omega] at this
            have p2 := f2.pP.1 (i - R1) (by omega)
            have q3 := f3.pQ.1 (j - R1) (by omega)
            rw [this, f1.zero _ (by omega) _ (by omega) (by omega) (by omega)]
            exact f1.zero _ (by omega) _ (by omega) (by omega) (by omega)
      · rw [if_neg cj]
        by_cases di : i < R1
        · rw [if_pos di]
          have := TD i di (j - n1) (by omega)
          rwa [Nat.zero_add, show n1 + (j - n1) = j by omega] at this
        · rw [if_neg di]
          have := TF (i - R1) (by omega) (j - n1) (by omega)
          rwa [show R1 + (i - R1) = i by omega, show n1 + (j - n1) = j by omega] at this
    · rw [if_neg ci]
      by_cases cj : j < n1
      · rw [if_pos cj]
        by_cases dj : j < R1
        · rw [if_pos dj]
          have := TE (i - m1) (by omega) j dj
          rwa [Nat.zero_add, show m1 + (i - m1) = i by omega] at this
        · rw [if_neg dj]
          have := TG (i - m1) (by omega) (j - R1) (by omega)
          rwa [show m1 + (i - m1) = i by omega, show R1 + (j - R1) = j by omega] at this
      · rw [if_neg cj]
        by_cases dj : j - n1 < R2
        · rw [if_pos dj]
          have := TI (i - m1) (by omega) (j - n1) dj
          rwa [show m1 + (i - m1) = i by omega, show n1 + (j - n1) = j by omega] at this
        · rw [if_neg dj]
          by_cases di : i - m1 < R3
          · rw [if_pos di]
            have := TO (i - m1) di (j - n1 - R2) (by omega)
            rwa [show m1 + (i - m1) = i by omega, show n1 + R2 + (j - n1 - R2) = j by omega] at this
          · rw [if_neg di]
            have := TR (i - m1 - R3) (by omega) (j - n1 - R2) (by omega)
            rwa [show m1 + R3 + (i - m1 - R3) = i by omega, show n1 + R2 + (j - n1 - R2) = j by omega] at this
  have sP : IsPermArray (sPerm (R1 + R2) (m1 - (R1 + R2)) (R3 + R4)) (m1 + m2) := sPerm_perm (by omega)
  have tP : IsPermArray (tPerm n1 R1 R2 R3 R4) (n1 + n2) := tPerm_perm (by omega) (by omega)
  have fin := good.combine0 (V := fun i j => V (sPerm (R1 + R2) (m1 - (R1 + R2)) (R3 + R4) i) (tPerm n1 R1 R2 R3 R4 j))
    (fun i hi j hj => key _ (sP.1 i hi) _ (tP.1 j hj))
  rw [show B.m1 + B.m2 = W.r from hM, show B.n1 + B.n2 = W.c from hN] at fin
  exact fin.congrP a3 b3

omit [DecidableEq K] in
lemma ppost_of {d : Diag} {X : ℕ → ℕ → K} {P Q : Arr ℕ} {rk : ℕ} {p q : ℕ → ℕ} (lP : P.len = W.r) (lQ : Q.len = W.c) (tP : IsTranspArray P.get W.r)
    (tQ : IsTranspArray Q.get W.c) (hF : Fac0 d W.r W.c X (fun i j => v (W.adr i j)) p q rk) (hp : ∀ i < W.r, p i = ofSwaps P.get W.r i)
    (hq : ∀ i < W.c, q i = ofSwaps Q.get W.c i) : PPost d W X (rk, P, Q) v :=
  ⟨lP, lQ, tP, tQ, _, fun _ _ _ _ => rfl, hF.congrP hp hq⟩

/-- a single row or column as a part of a task -/
lemma wp_line (s : Bool) {A inc n : ℕ} {k : ℕ → VProc K Res} {Q : Res → (ℕ → K) → Prop} (hinc : 0 < inc) (hW : ∀ x, (vw A inc n).Has x ↔ W.Has x)
    (h0 : ∀ v', (∀ i < n, v (A + i * inc) = 0) → (∀ i < n, v' (A + i * inc) = v (A + i * inc)) → wp (k n) W.Has (fun _ => False) (fun _ => False) v' Q)
    (h1 : ∀ p v', p < n → v (A + p * inc) ≠ 0 → (∀ i < p, v (A + i * inc) = 0) → (∀ i < n, v' (A + i * inc) = lineVal s (fun i => v (A + i * inc)) p i) →
      wp (k p) W.Has (fun _ => False) (fun _ => False) v' Q) :
    wp (Cut.tr (pluqLine s n A inc) k) W.Has (fun _ => False) (fun _ => False) v Q := by
  refine wp_cutW (pluqLine s n A inc) (W' := vw A inc n) (post := fun p Y => ∃ y, (Y = fun i _ => y i) ∧ ((p = n ∧ (∀ i < n, v (A + i * inc) = 0) ∧ y = fun i => v (A + i * inc)) ∨
      (p < n ∧ v (A + p * inc) ≠ 0 ∧ (∀ i < p, v (A + i * inc) = 0) ∧ y = lineVal s (fun i => v (A + i * inc)) p))) hinc hW (fun m _ o => ?_) (fun p Y v' hp hV => ?_)
  · refine (pluqLine_spec (x := fun i => v (A + i * inc)) s hinc (o.congr (fun i hi j hj => ?_))).mono ?_
    · have hj : j < 1 := hj
      obtain rfl : j = 0 := by omega
      simp [Win.adr]
    · rintro p m' ⟨y, o', hh⟩
      exact ⟨_, ⟨y, rfl, hh⟩, o'⟩
  · obtain ⟨y, rfl, hh⟩ := hp
    have hv : ∀ i < n, v' (A + i * inc) = y i := fun i hi => hV i hi 0 Nat.one_pos
    rcases hh with ⟨rfl, hz, rfl⟩ | ⟨hp, hnz, hz, rfl⟩
    · exact h0 v' hz hv
    · exact h1 p v' hp hnz hz hv

/-- the whole recursion -/
lemma ppluqRec_spec (junk : ℕ → K) (gthr thr lda : ℕ) (d : Diag) : ∀ fuel, PRecOk (ppluqRec junk gthr thr lda fuel) d lda fuel
  | 0 => fun _ _ _ _ _ _ _ _ hb => absurd hb (Nat.not_lt_zero _)
  | fuel+1 => by
    intro jk nt W v P Q hld hl hb hP hQ
    have ih := ppluqRec_spec junk gthr thr lda d fuel
    unfold ppluqRec
    refine wp_liftV (iota_spec P W.r hP.ge) ?_
    rintro P' ⟨lP, eP⟩
    refine wp_liftV (iota_spec Q W.c hQ.ge) ?_
    rintro Q' ⟨lQ, eQ⟩
    replace lP := lP.trans hP
    replace lQ := lQ.trans hQ
    have tP : IsTranspArray P'.get W.r := fun i hi => by rw [eP i hi]; omega
    have tQ : IsTranspArray Q'.get W.c := fun i hi => by rw [eQ i hi]; omega
    have iP : ∀ i, ofSwaps P'.get W.r i = i := fun i => ofSwaps_id eP i
    have iQ : ∀ i, ofSwaps Q'.get W.c i = i := fun i => ofSwaps_id eQ i
    have idP : ∀ i < W.r, i = ofSwaps P'.get W.r i := fun i _ => (iP i).symm
    have idQ : ∀ i < W.c, i = ofSwaps Q'.get W.c i := fun i _ => (iQ i).symm
    split_ifs with h0 h1 h2 h3 h4
    · exact ppost_of lP lQ tP tQ (fac0_zero (fun i hi j hj => by omega)) idP idQ
    · have e1 : W.r = 1 := by omega
      have e2 : W.c = 1 := by omega
      refine ⟨Or.inl ⟨0, by omega, 0, by omega, by simp [Win.adr]⟩, ppost_of (p := fun i => i) (q := fun i => i) lP lQ tP tQ ?_ idP idQ⟩
      have ea : W.adr 0 0 = W.p := by simp [Win.adr]
      split_ifs with hz
      · refine fac0_zero (fun i hi j hj => ?_)
        obtain rfl : i = 0 := by omega
        obtain rfl : j = 0 := by omega
        rw [ea]; exact hz
      · rw [e1, e2]
        refine ⟨⟨le_rfl, le_rfl, fun k hk => ?_, fun i hi j hj => ?_⟩, idp _, idp _, fun i hi j hj _ _ => by omega⟩
        · obtain rfl : k = 0 := by omega
          rw [ea]; exact hz
        · obtain rfl : i = 0 := by omega
          obtain rfl : j = 0 := by omega
          rw [sum_range_one, lu_diag]
    · -- a row
      have ea : ∀ j, W.p + j * 1 = W.adr 0 j := fun j => by simp [Win.adr]
      refine wp_line _ Nat.one_pos (fun x => ?_) (fun v' hz hv => ?_) (fun p v' hp hnz hz hv => ?_)
      · constructor
        · rintro ⟨i, hi, j, hj, rfl⟩
          have hj : j < 1 := hj
          obtain rfl : j = 0 := by omega
          exact ⟨0, by omega, i, hi, by simp [Win.adr]⟩
        · rintro ⟨i, hi, j, hj, rfl⟩
          obtain rfl : i = 0 := by omega
          exact ⟨j, hj, 0, Nat.one_pos, by simp [Win.adr]⟩
      · rw [if_pos rfl]
        refine ppost_of lP lQ tP tQ ((fac0_zero (fun i hi j hj => ?_)).congrV (fun i hi j hj => ?_)) idP idQ
        · obtain rfl : i = 0 := by omega
          rw [← ea]; exact hz j hj
        · obtain rfl : i = 0 := by omega
          rw [← ea]; exact (hv j hj).symm
      · rw [if_neg (by omega)]
        have F : Fac0 d W.r W.c (fun i j => v (W.adr i j)) (fun i j => v' (W.adr i j)) (fun i => i) (fun i => Equiv.swap 0 p i) 1 := by
          rw [h2]
          exact fac0_row (x := fun i => v (W.p + i * 1)) hp (fun j _ => by rw [ea]) hnz hz (fun j hj => by rw [← ea]; exact hv j hj)
        split_ifs with hp0
        · subst hp0
          exact ppost_of lP lQ tP tQ F idP (fun i _ => by rw [iQ, Equiv.swap_self]; rfl)
        · refine wp_liftV (P := fun R => R.len = W.c ∧ R.get 0 = p ∧ ∀ i, 0 < i → i < W.c → R.get i = i) ((Ok_wr _ _ _ _).2 ⟨by omega, lQ, by simp, fun i hi hi' => ?_⟩) ?_
          · dsimp only; rw [Function.update_of_ne (by omega)]; exact eQ i hi'
          · rintro R ⟨lR, r0, ri⟩
            refine ppost_of lP lR tP (fun i hi => ?_) F idP (fun i _ => (ofSwaps_first r0 (by omega) ri i).symm)
            by_cases c : i = 0
            · subst c; rw [r0]; omega
            · rw [ri i (by omega) hi]; omega
    · -- a column
      have ea : ∀ j, W.p + j * lda = W.adr j 0 := fun j => by simp [Win.adr, hld]
      refine wp_line _ (by omega) (fun x => ?_) (fun v' hz hv => ?_) (fun p v' hp hnz hz hv => ?_)
      · constructor
        · rintro ⟨i, hi, j, hj, rfl⟩
          have hj : j < 1 := hj
          obtain rfl : j = 0 := by omega
          exact ⟨i, hi, 0, by omega, by simp [Win.adr, hld]⟩
        · rintro ⟨i, hi, j, hj, rfl⟩
          obtain rfl : j = 0 := by omega
          exact ⟨i, hi, 0, Nat.one_pos, by simp [Win.adr, hld]⟩
      · rw [if_pos rfl]
        refine ppost_of lP lQ tP tQ ((fac0_zero (fun i hi j hj => ?_)).congrV (fun i hi j hj => ?_)) idP idQ
        · obtain rfl : j = 0 := by omega
          rw [← ea]; exact hz i hi
        · obtain rfl : j = 0 := by omega
          rw [← ea]; exact (hv i hi).symm
      · rw [if_neg (by omega)]
        have F : Fac0 d W.r W.c (fun i j => v (W.adr i j)) (fun i j => v' (W.adr i j)) (fun i => Equiv.swap 0 p i) (fun i => i) 1 := by
          rw [h3]
          exact fac0_col (x := fun i => v (W.p + i * lda)) hp (fun j _ => by rw [ea]) hnz hz (fun j hj => by rw [← ea]; exact hv j hj)
        split_ifs with hp0
        · subst hp0
          exact ppost_of lP lQ tP tQ F (fun i _ => by rw [iP, Equiv.swap_self]; rfl) idQ
        · refine wp_liftV (P := fun R => R.len = W.r ∧ R.get 0 = p ∧ ∀ i, 0 < i → i < W.r → R.get i = i) ((Ok_wr _ _ _ _).2 ⟨by omega, lP, by simp, fun i hi hi' => ?_⟩) ?_
          · dsimp only; rw [Function.update_of_ne (by omega)]; exact eP i hi'
          · rintro R ⟨lR, r0, ri⟩
            refine ppost_of lR lQ (fun i hi => ?_) tQ F (fun i _ => (ofSwaps_first r0 (by omega) ri i).symm) idQ
            by_cases c : i = 0
            · subst c; rw [r0]; omega
            · rw [ri i (by omega) hi]; omega
    · subst hld
      obtain ⟨m, hwf, hmv, hok⟩ := exists_mem v (FinS.has W)
      refine wp_cut _ m hmv (fun i hi => Or.inl ((hok i).1 hi)) (pluqCrout_spec (V := fun i j => v (W.adr i j)) (cyclicShiftRowV_on junk) .generic jk d
        ⟨hwf, fun a ha => (hok a).2 ha, hl, Step.refl (fun _ _ _ _ => by show m.val _ = _; rw [hmv])⟩ lP lQ) ?_
      rintro ⟨rk, P1, Q1⟩ m' ⟨e1, e2, e3, e4, Y, o, hF⟩ _ _
      exact ⟨e1, e2, e3, e4, Y, fun i hi j hj => o.val hi hj, hF.weak⟩
    · subst hld
      exact ppluqStep_spec gthr jk nt (fun jk nt W' v P Q e1 e2 e3 => ih jk nt W' v P Q e1 e2 (by omega)) (fun _ _ _ _ => rfl) hl lP lQ (by omega) (by omega) (by omega)

theorem ppluq_spec (junk : ℕ → K) (gthr thr : ℕ) (jk : List ℕ → ℕ → ℕ) (nt : ℕ) (d : Diag) {P Q : Arr ℕ} (hl : W.c ≤ W.ld) (hP : P.len = W.r) (hQ : Q.len = W.c) :
    wp (ppluq junk gthr thr jk nt d W.r W.c W.p W.ld P Q) W.Has (fun _ => False) (fun _ => False) v (PPost d W (fun i j => v (W.adr i j))) :=
  ppluqRec_spec junk gthr thr W.ld d (W.r + W.c + 1) jk nt W v P Q rfl hl (Nat.lt_succ_self _) hP hQ

end Verif.ParV
