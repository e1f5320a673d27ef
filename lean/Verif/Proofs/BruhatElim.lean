import Verif.Proofs.BruhatRank
import Verif.Proofs.PluqStep
import Verif.Proofs.SssBuildMath
import Verif.Proofs.EchelonGet

/-!
# `LTBruhatGen`: elimination with the leading block
-/

namespace Verif.FF

open Finset Verif.Spec Verif.Spec.Perm Verif.Pluq Verif.Perm Verif.Bruhat

variable {K : Type} [Field K] [DecidableEq K] {m0 m : Mem K} {W : Win} {X V : ℕ → ℕ → K}

/-- what is in memory after the elimination -/
structure Elim (d : Diag) (n1 n2 r1 : ℕ) (X V1 V D E F G : ℕ → ℕ → K) (σ τ : Equiv.Perm ℕ) : Prop where
  tA : At V 0 0 n1 n2 (fun i j => V1 (σ⁻¹ i) (τ⁻¹ j))
  tD : At V 0 n2 r1 n1 D
  tF : At V r1 n2 (n1 - r1) n1 F
  tE : At V n1 0 n2 r1 E
  tG : At V n1 r1 n2 (n2 - r1) G
  eD : ∀ i < r1, ∀ j < n1, ∑ k ∈ range r1, luL d V1 i k * D k j = X (σ i) (n2 + j)
  eE : ∀ i < n2, ∀ j < r1, ∑ k ∈ range r1, E i k * luU d V1 k j = X (n1 + i) (τ j)
  eF : ∀ i < n1 - r1, ∀ j < n1, F i j = X (σ (r1 + i)) (n2 + j) - ∑ l ∈ range r1, V1 (r1 + i) l * D l j
  eG : ∀ i < n2, ∀ j < n2 - r1, G i j = X (n1 + i) (τ (r1 + j)) - ∑ l ∈ range r1, E i l * V1 l (r1 + j)

lemma ltElim_on {g : GemmFn K} {ts : TrsmFn K} (hg : GemmOk g) (ht : TrsmOk ts) {d : Diag} {N A n1 n2 r1 : ℕ} {P1 Q1 : Arr ℕ} {V1 : ℕ → ℕ → K}
    (h : On m0 m W V) (hN2 : N / 2 = n2) (hN1 : N - N / 2 = n1) (hA : A = W.p) (hr : W.r = N) (hc : W.c = N)
    (T1 : At V 0 0 n1 n2 V1) (T2 : At V 0 n2 n1 n1 (fun i j => X i (n2 + j))) (T3 : At V n1 0 n2 n2 (fun i j => X (n1 + i) j))
    (lP : P1.len = n1) (lQ : Q1.len = n2) (bP : ∀ i < n1, P1.get i < n1) (bQ : ∀ i < n2, Q1.get i < n2)
    (f1 : Fac d n1 n2 X V1 (ofSwaps P1.get n1) (ofSwaps Q1.get n2) r1) :
    Run (ltElim g ts d N A W.ld r1 P1 Q1) m (fun _ m' => ∃ V' D E F G, On m0 m' W V' ∧
      Elim d n1 n2 r1 X V1 V' D E F G (ofSwaps P1.get n1) (ofSwaps Q1.get n2)) := by
  have hNN : n1 + n2 = N := by omega
  have r1M := f1.rM
  have r1N := f1.rN
  unfold ltElim
  simp only []
  rw [hN1, hN2]
  subst hA
  have iP : ∀ i < n1, (ofSwaps P1.get n1)⁻¹ i < n1 := fun i hi => inv_lt f1.pP hi
  have iQ : ∀ i < n2, (ofSwaps Q1.get n2)⁻¹ i < n2 := fun i hi => inv_lt f1.pQ hi
  generalize hσ : ofSwaps P1.get n1 = σ at *
  generalize hτ : ofSwaps Q1.get n2 = τ at *
  simp only [Run_bind]
  -- permutations
  refine (rowsP_on h 0 n2 (by simp [Win.adr]) (by omega) (by omega) lP bP).mono (fun _ ma ha => ?_)
  rw [hσ] at ha
  clear h
  replace T1 := T1.outR (i0 := 0) (j0 := n2) (r := n1) (c := n1) (σ := σ) (by omega)
  replace T2 := T2.rows0 (j0 := n2) (c := n1) (σ := σ) (by omega) (by omega) f1.pP.1
  replace T3 := T3.outR (i0 := 0) (j0 := n2) (r := n1) (c := n1) (σ := σ) (by omega)
  generalize permRows 0 n2 n1 n1 σ V = V at *
  refine (colsP_on ha n1 0 (by simp [Win.adr]) (by omega) (by omega) lQ bQ).mono (fun _ mb hb => ?_)
  rw [hτ] at hb
  clear ha
  replace T1 := T1.outC (i0 := n1) (j0 := 0) (r := n2) (c := n2) (σ := τ) (by omega)
  replace T2 := T2.outC (i0 := n1) (j0 := 0) (r := n2) (c := n2) (σ := τ) (by omega)
  replace T3 := T3.cols0 (i0 := n1) (r := n2) (σ := τ) (by omega) (by omega) f1.pQ.1
  generalize permCols n1 0 n2 n2 τ V = V at *
  have piv1 : ∀ i < r1, V1 i i ≠ 0 := f1.piv
  have Ta := T1.sub 0 0 (h' := r1) (w' := r1) (by omega) (by omega)
  have TD := T2.sub 0 0 (h' := r1) (w' := n1) (by omega) (by omega)
  have TF := T2.sub r1 0 (h' := n1 - r1) (w' := n1) (by omega) (by omega)
  have TE := T3.sub 0 0 (h' := n2) (w' := r1) (by omega) (by omega)
  have TG := T3.sub 0 r1 (h' := n2) (w' := n2 - r1) (by omega) (by omega)
  clear T2 T3
  simp only [Nat.zero_add, Nat.add_zero] at Ta TD TF TE TG
  -- triangular solves
  refine (solveL_on ht hb (d := d) 0 0 0 n2 Ta TD (by simp [Win.adr]) (by simp [Win.adr]) (by omega) (by omega) (by omega) (by omega) (by omega) piv1).mono ?_
  rintro _ mc ⟨D, hcc, eD⟩
  clear hb
  replace Ta := Ta.out (i0 := 0) (j0 := n2) (r := r1) (c := n1) (g := D) (by omega)
  replace T1 := T1.out (i0 := 0) (j0 := n2) (r := r1) (c := n1) (g := D) (by omega)
  replace TF := TF.out (i0 := 0) (j0 := n2) (r := r1) (c := n1) (g := D) (by omega)
  replace TE := TE.out (i0 := 0) (j0 := n2) (r := r1) (c := n1) (g := D) (by omega)
  replace TG := TG.out (i0 := 0) (j0 := n2) (r := r1) (c := n1) (g := D) (by omega)
  clear TD
  have TD : At (upd 0 n2 r1 n1 D V) 0 n2 r1 n1 D := At.new
  generalize upd 0 n2 r1 n1 D V = V at *
  refine (solveU_on ht hcc (d := d) 0 0 n1 0 Ta TE (by simp [Win.adr]) (by simp [Win.adr]) (by omega) (by omega) (by omega) (by omega) (by omega) piv1).mono ?_
  rintro _ md ⟨E, hd, eE⟩
  clear hcc
  replace T1 := T1.out (i0 := n1) (j0 := 0) (r := n2) (c := r1) (g := E) (by omega)
  replace TF := TF.out (i0 := n1) (j0 := 0) (r := n2) (c := r1) (g := E) (by omega)
  replace TG := TG.out (i0 := n1) (j0 := 0) (r := n2) (c := r1) (g := E) (by omega)
  replace TD := TD.out (i0 := n1) (j0 := 0) (r := n2) (c := r1) (g := E) (by omega)
  clear TE Ta
  have TE : At (upd n1 0 n2 r1 E V) n1 0 n2 r1 E := At.new
  generalize upd n1 0 n2 r1 E V = V at *
  -- products
  have Tm := T1.sub r1 0 (h' := n1 - r1) (w' := r1) (by omega) (by omega)
  have Tv := T1.sub 0 r1 (h' := r1) (w' := n2 - r1) (by omega) (by omega)
  simp only [Nat.zero_add] at Tm Tv
  refine (subMul_on hg hd r1 0 0 n2 r1 n2 Tm TD TF (by simp [Win.adr]) (by simp [Win.adr]) (by simp [Win.adr]; ring) (by omega) (by omega) (by omega)
    (by omega) (by omega) (by omega) (by omega) (by omega)).mono ?_
  rintro _ me ⟨F, he, eF⟩
  clear hd Tm
  replace T1 := T1.out (i0 := r1) (j0 := n2) (r := n1 - r1) (c := n1) (g := F) (by omega)
  replace Tv := Tv.out (i0 := r1) (j0 := n2) (r := n1 - r1) (c := n1) (g := F) (by omega)
  replace TD := TD.out (i0 := r1) (j0 := n2) (r := n1 - r1) (c := n1) (g := F) (by omega)
  replace TE := TE.out (i0 := r1) (j0 := n2) (r := n1 - r1) (c := n1) (g := F) (by omega)
  replace TG := TG.out (i0 := r1) (j0 := n2) (r := n1 - r1) (c := n1) (g := F) (by omega)
  clear TF
  have TF : At (upd r1 n2 (n1 - r1) n1 F V) r1 n2 (n1 - r1) n1 F := At.new
  generalize upd r1 n2 (n1 - r1) n1 F V = V at *
  refine (subMul_on hg he n1 0 0 r1 n1 r1 TE Tv TG (by simp [Win.adr]) (by simp [Win.adr]) (by simp [Win.adr]) (by omega) (by omega) (by omega)
    (by omega) (by omega) (by omega) (by omega) (by omega)).mono ?_
  rintro _ mf ⟨G, hf, eG⟩
  clear he Tv
  replace T1 := T1.out (i0 := n1) (j0 := r1) (r := n2) (c := n2 - r1) (g := G) (by omega)
  replace TD := TD.out (i0 := n1) (j0 := r1) (r := n2) (c := n2 - r1) (g := G) (by omega)
  replace TE := TE.out (i0 := n1) (j0 := r1) (r := n2) (c := n2 - r1) (g := G) (by omega)
  replace TF := TF.out (i0 := n1) (j0 := r1) (r := n2) (c := n2 - r1) (g := G) (by omega)
  clear TG
  have TG : At (upd n1 r1 n2 (n2 - r1) G V) n1 r1 n2 (n2 - r1) G := At.new
  generalize upd n1 r1 n2 (n2 - r1) G V = V at *
  -- factors put back
  refine (rowsPinv_on hf 0 0 (by simp [Win.adr]) (by omega) (by omega) lP bP).mono (fun _ mg hgg => ?_)
  rw [hσ] at hgg
  clear hf
  replace T1 := T1.rows0 (j0 := 0) (c := n2) (σ := (σ⁻¹ : Equiv.Perm ℕ)) (by omega) (by omega) iP
  replace TD := TD.outR (i0 := 0) (j0 := 0) (r := n1) (c := n2) (σ := (σ⁻¹ : Equiv.Perm ℕ)) (by omega)
  replace TE := TE.outR (i0 := 0) (j0 := 0) (r := n1) (c := n2) (σ := (σ⁻¹ : Equiv.Perm ℕ)) (by omega)
  replace TF := TF.outR (i0 := 0) (j0 := 0) (r := n1) (c := n2) (σ := (σ⁻¹ : Equiv.Perm ℕ)) (by omega)
  replace TG := TG.outR (i0 := 0) (j0 := 0) (r := n1) (c := n2) (σ := (σ⁻¹ : Equiv.Perm ℕ)) (by omega)
  generalize permRows 0 0 n1 n2 (σ⁻¹ : Equiv.Perm ℕ) V = V at *
  refine (colsPinv_on hgg 0 0 (by simp [Win.adr]) (by omega) (by omega) lQ bQ).mono (fun _ mh hh => ?_)
  rw [hτ] at hh
  clear hgg
  replace T1 := T1.cols0 (i0 := 0) (r := n1) (σ := (τ⁻¹ : Equiv.Perm ℕ)) (by omega) (by omega) iQ
  replace TD := TD.outC (i0 := 0) (j0 := 0) (r := n1) (c := n2) (σ := (τ⁻¹ : Equiv.Perm ℕ)) (by omega)
  replace TE := TE.outC (i0 := 0) (j0 := 0) (r := n1) (c := n2) (σ := (τ⁻¹ : Equiv.Perm ℕ)) (by omega)
  replace TF := TF.outC (i0 := 0) (j0 := 0) (r := n1) (c := n2) (σ := (τ⁻¹ : Equiv.Perm ℕ)) (by omega)
  replace TG := TG.outC (i0 := 0) (j0 := 0) (r := n1) (c := n2) (σ := (τ⁻¹ : Equiv.Perm ℕ)) (by omega)
  exact ⟨_, D, E, F, G, hh, T1, TD, TF, TE, TG, eD, eE, eF, eG⟩

end Verif.FF
