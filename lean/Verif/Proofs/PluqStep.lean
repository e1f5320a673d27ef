import Verif.Proofs.At
import Verif.Proofs.PluqComb

/-!
# The recursive step of the PLUQ decomposition
-/

namespace Verif.FF

open Finset Verif.Perm Verif.Spec Verif.Spec.Perm Verif.Pluq

variable {K : Type} [Field K] [DecidableEq K]
variable {m0 m : Mem K} {W : Win} {V : ℕ → ℕ → K}

/-- contract of the recursive calls on matrices with `M + N < bound` -/
def RecOk (rec : PluqFn K) (d : Diag) (lda bound : ℕ) : Prop := ∀ (jk : List ℕ → ℕ → ℕ) (m0 m : Mem K) (W : Win) (V : ℕ → ℕ → K) (P Q : Arr ℕ),
  W.ld = lda → W.r + W.c < bound → P.len = W.r → Q.len = W.c → On m0 m W V → Run (rec jk d W.r W.c W.p P Q) m (PluqPost d m0 W V)

omit [DecidableEq K] in
/-- a recursive call on a block -/
lemma rec_on {rec : PluqFn K} {d : Diag} {bound : ℕ} (hrec : RecOk rec d W.ld bound) (h : On m0 m W V) (jk : List ℕ → ℕ → ℕ) (j1 j2 : ℕ → ℕ)
    {r c A : ℕ} (i0 j0 : ℕ) {x : ℕ → ℕ → K} (f : At V i0 j0 r c x) (hA : A = W.adr i0 j0) (hr : i0 + r ≤ W.r) (hc : j0 + c ≤ W.c) (hb : r + c < bound) :
    Run (rec jk d r c A (Arr.mk' r j1) (Arr.mk' c j2)) m (fun y m' =>
      y.2.1.len = r ∧ y.2.2.len = c ∧ (∀ i < r, y.2.1.get i < r) ∧ (∀ j < c, y.2.2.get j < c) ∧
      ∃ Y, On m0 m' W (upd i0 j0 r c Y V) ∧ Fac d r c x Y (ofSwaps y.2.1.get r) (ofSwaps y.2.2.get c) y.1) := by
  subst hA
  refine (hrec jk m m (W.sub i0 j0 r c) (blk V i0 j0) (Arr.mk' r j1) (Arr.mk' c j2) rfl hb rfl rfl (h.sub hr hc)).mono ?_
  rintro y m' ⟨e1, e2, e3, e4, Y, s, hF⟩
  exact ⟨e1, e2, fun i hi => (e3 i hi).2, fun j hj => (e4 j hj).2, Y, h.upd hr hc s.step, hF.congrX f⟩

/-- rows of the factors and the row permutation -/
lemma pluqS_on (h : On m0 m W V) (jk : List ℕ → ℕ → ℕ) {A M N M2 R1 R2 R3 R4 : ℕ} {P P1 P2 P3 P4 : Arr ℕ} (hA : A = W.p) (hM : M = W.r) (hN : N = W.c)
    (hP : P.len = M) (h1 : M2 ≤ M) (h2 : R1 + R2 ≤ M2) (h3 : R3 + R4 ≤ M - M2)
    (l1 : P1.len = M2) (l2 : P2.len = M2 - R1) (l3 : P3.len = M - M2) (l4 : P4.len = M - M2 - R3)
    (b1 : ∀ i < M2, P1.get i < M2) (b2 : ∀ i < M2 - R1, P2.get i < M2 - R1) (b3 : ∀ i < M - M2, P3.get i < M - M2)
    (b4 : ∀ i < M - M2 - R3, P4.get i < M - M2 - R3) {π : ℕ → ℕ}
    (hπ : π = pairPerm M2 (fun i => ofSwaps P1.get M2 (shiftPerm R1 i (ofSwaps P2.get (M2 - R1))))
        (fun i => ofSwaps P3.get (M - M2) (shiftPerm R3 i (ofSwaps P4.get (M - M2 - R3))))) :
    Run (pluqS jk M N M2 R1 R2 R3 R4 A W.ld P P1 P2 P3 P4) m (fun P' m' => P'.len = M ∧ IsTranspArray P'.get M ∧
      (∀ i < M, π (sPerm (R1 + R2) (M2 - (R1 + R2)) (R3 + R4) i) = ofSwaps P'.get M i) ∧
      On m0 m' W (fun i j => V (sPerm (R1 + R2) (M2 - (R1 + R2)) (R3 + R4) i) j)) := by
  have hpi : IsPermArray π M := by
    rw [hπ]
    exact pairPerm_perm (IsPermArray.comp (ofSwaps_isPerm b1) (shiftPerm_isPerm (by omega) (ofSwaps_isPerm b2)))
      (IsPermArray.comp (ofSwaps_isPerm b3) (shiftPerm_isPerm (by omega) (ofSwaps_isPerm b4))) h1
  have sP : IsPermArray (sPerm (R1 + R2) (M2 - (R1 + R2)) (R3 + R4)) M := sPerm_perm (by omega)
  have mp := mathPair_spec (jk [8]) (n := M) (n1 := M2) (R1 := R1) (R3 := R3) h1 (by omega) (by omega) l1 l2 l3 l4 b1 b2 b3 b4
  rw [← hπ] at mp
  unfold pluqS
  simp only [Run_bind, Run_liftE]
  simp only [Ok_bind] at mp
  refine mp.mono (fun X hX => hX.mono (fun Y hY => hY.mono (fun Z hZ => ?_)))
  obtain ⟨lZ, eZ⟩ := hZ
  have fin : ∀ (Z' : Arr ℕ) (m' : Mem K), Z'.len = M → (∀ i < M, Z'.get i = π (sPerm (R1 + R2) (M2 - (R1 + R2)) (R3 + R4) i)) →
      On m0 m' W (fun i j => V (sPerm (R1 + R2) (M2 - (R1 + R2)) (R3 + R4) i) j) →
      Ok (MathPerm2LAPACKPerm P Z' M (jk [10]) (jk [11])) (fun P' => P'.len = M ∧ IsTranspArray P'.get M ∧
      (∀ i < M, π (sPerm (R1 + R2) (M2 - (R1 + R2)) (R3 + R4) i) = ofSwaps P'.get M i) ∧
      On m0 m' W (fun i j => V (sPerm (R1 + R2) (M2 - (R1 + R2)) (R3 + R4) i) j)) := by
    intro Z' m' l e hm'
    have hp := IsPermArray.comp hpi sP
    refine (MathPerm2LAPACKPerm_spec M P Z' (jk [10]) (jk [11]) hP l ⟨fun i hi => by rw [e i hi]; exact hp.1 i hi, fun i hi j hj hh =>
      hp.2 i hi j hj ((e i hi).symm.trans (hh.trans (e j hj)))⟩).mono ?_
    rintro P' ⟨p1, p2, p3⟩
    exact ⟨p1, p2, fun i hi => by rw [← p3 i hi, e i hi], hm'⟩
  rif hc
  · simp only [Run_bind, Run_liftE]
    refine (permApplyS_spec Z (jk [9]) h2 (by omega)).mono ?_
    rintro Z' ⟨lZ', eZ'⟩
    have ea : A = W.adr 0 0 := by simp [hA, Win.adr]
    rw [ea, hN]
    refine (matrixApplyS_on h (by omega) (by omega) h2).mono (fun _ m' h' => ?_)
    try rw [Run_pure]
    refine fin _ _ (by omega) (fun i hi => by rw [eZ', eZ _ (sP.1 i hi)]) (h'.congr (fun i hi j hj => ?_))
    simp only [permRows]
    by_cases c : i < M2 + R3 + R4
    · rw [upd_in' (by omega)]; simp
    · rw [upd_out (by omega)]
      congr 1
      unfold sPerm
      rw [if_neg (by omega), if_neg (by omega), if_neg (by omega)]
  · try rw [Run_pure]
    have hs : ∀ i, sPerm (R1 + R2) (M2 - (R1 + R2)) (R3 + R4) i = i := fun i => by
      unfold sPerm; split_ifs <;> omega
    refine fin _ _ lZ (fun i hi => by rw [eZ i hi, hs]) (h.congr (fun i _ j _ => by rw [hs]))

/-- columns of the factors and the column permutation -/
lemma pluqT_on (h : On m0 m W V) (jk : List ℕ → ℕ → ℕ) {A M N N2 R1 R2 R3 R4 : ℕ} {Q Q1 Q2 Q3 Q4 : Arr ℕ} (hA : A = W.p) (hM : M = W.r) (hN : N = W.c)
    (hQ : Q.len = N) (h1 : N2 ≤ N) (h2 : R1 + R3 ≤ N2) (h3 : R2 + R4 ≤ N - N2)
    (l1 : Q1.len = N2) (l3 : Q3.len = N2 - R1) (l2 : Q2.len = N - N2) (l4 : Q4.len = N - N2 - R2)
    (b1 : ∀ i < N2, Q1.get i < N2) (b3 : ∀ i < N2 - R1, Q3.get i < N2 - R1) (b2 : ∀ i < N - N2, Q2.get i < N - N2)
    (b4 : ∀ i < N - N2 - R2, Q4.get i < N - N2 - R2) {π : ℕ → ℕ}
    (hπ : π = pairPerm N2 (fun i => ofSwaps Q1.get N2 (shiftPerm R1 i (ofSwaps Q3.get (N2 - R1))))
        (fun i => ofSwaps Q2.get (N - N2) (shiftPerm R2 i (ofSwaps Q4.get (N - N2 - R2))))) :
    Run (pluqT jk M N N2 R1 R2 R3 R4 A W.ld Q Q1 Q2 Q3 Q4) m (fun Q' m' => Q'.len = N ∧ IsTranspArray Q'.get N ∧
      (∀ i < N, π (tPerm N2 R1 R2 R3 R4 i) = ofSwaps Q'.get N i) ∧
      On m0 m' W (fun i j => V i (tPerm N2 R1 R2 R3 R4 j))) := by
  have hpi : IsPermArray π N := by
    rw [hπ]
    exact pairPerm_perm (IsPermArray.comp (ofSwaps_isPerm b1) (shiftPerm_isPerm (by omega) (ofSwaps_isPerm b3)))
      (IsPermArray.comp (ofSwaps_isPerm b2) (shiftPerm_isPerm (by omega) (ofSwaps_isPerm b4))) h1
  have sP : IsPermArray (tPerm N2 R1 R2 R3 R4) N := tPerm_perm h2 (by omega)
  have mp := mathPair_spec (jk [12]) (n := N) (n1 := N2) (R1 := R1) (R3 := R2) h1 (by omega) (by omega) l1 l3 l2 l4 b1 b3 b2 b4
  rw [← hπ] at mp
  unfold pluqT
  simp only [Run_bind, Run_liftE]
  simp only [Ok_bind] at mp
  refine mp.mono (fun X hX => hX.mono (fun Y hY => hY.mono (fun Z hZ => ?_)))
  obtain ⟨lZ, eZ⟩ := hZ
  have fin : ∀ (Z' : Arr ℕ) (m' : Mem K), Z'.len = N → (∀ i < N, Z'.get i = π (tPerm N2 R1 R2 R3 R4 i)) →
      On m0 m' W (fun i j => V i (tPerm N2 R1 R2 R3 R4 j)) →
      Ok (MathPerm2LAPACKPerm Q Z' N (jk [14]) (jk [15])) (fun P' => P'.len = N ∧ IsTranspArray P'.get N ∧
      (∀ i < N, π (tPerm N2 R1 R2 R3 R4 i) = ofSwaps P'.get N i) ∧
      On m0 m' W (fun i j => V i (tPerm N2 R1 R2 R3 R4 j))) := by
    intro Z' m' l e hm'
    have hp := IsPermArray.comp hpi sP
    refine (MathPerm2LAPACKPerm_spec N Q Z' (jk [14]) (jk [15]) hQ l ⟨fun i hi => by rw [e i hi]; exact hp.1 i hi, fun i hi j hj hh =>
      hp.2 i hi j hj ((e i hi).symm.trans (hh.trans (e j hj)))⟩).mono ?_
    rintro P' ⟨p1, p2, p3⟩
    exact ⟨p1, p2, fun i hi => by rw [← p3 i hi, e i hi], hm'⟩
  rif hc
  · simp only [Run_bind, Run_liftE]
    refine (permApplyT_spec Z (jk [13]) h2 (by omega)).mono ?_
    rintro Z' ⟨lZ', eZ'⟩
    have ea : A = W.adr 0 0 := by simp [hA, Win.adr]
    rw [ea, hM]
    refine (matrixApplyT_on h (by omega) (by omega) h2).mono (fun _ m' h' => ?_)
    try rw [Run_pure]
    refine fin _ _ (by omega) (fun i hi => by rw [eZ', eZ _ (sP.1 i hi)]) (h'.congr (fun i hi j hj => ?_))
    simp only [permCols]
    by_cases c : j < N2 + R2 + R4
    · rw [upd_in' (by omega)]; simp
    · rw [upd_out (by omega)]
      congr 1
      unfold tPerm
      rw [if_neg (by omega), if_neg (by omega), if_neg (by omega), if_neg (by omega), if_neg (by omega)]
  · try rw [Run_pure]
    have hs : ∀ i, tPerm N2 R1 R2 R3 R4 i = i := fun i => by
      unfold tPerm; split_ifs <;> omega
    refine fin _ _ lZ (fun i hi => by rw [eZ i hi, hs]) (h.congr (fun i _ j _ => by rw [hs]))

lemma pluqStep_spec {g : GemmFn K} {ts : TrsmFn K} {rec : PluqFn K} (hg : GemmOk g) (ht : TrsmOk ts) (jk : List ℕ → ℕ → ℕ) {d : Diag} {X : ℕ → ℕ → K}
    (hrec : RecOk rec d W.ld (W.r + W.c)) (h : On m0 m W X) {P Q : Arr ℕ} (hP : P.len = W.r) (hQ : Q.len = W.c) (h1 : 0 < W.r) (h2 : 0 < W.c)
    (h12 : 1 < W.r ∨ 1 < W.c) : Run (pluqStep g ts rec jk d W.r W.c W.p W.ld P Q) m (PluqPost d m0 W X) := by
  unfold pluqStep
  simp only [Run_bind]
  obtain ⟨m1, hm1⟩ : ∃ m1, W.r / 2 = m1 := ⟨_, rfl⟩
  obtain ⟨n1, hn1⟩ : ∃ n1, W.c / 2 = n1 := ⟨_, rfl⟩
  obtain ⟨m2, hm2⟩ : ∃ m2, W.r - m1 = m2 := ⟨_, rfl⟩
  obtain ⟨n2, hn2⟩ : ∃ n2, W.c - n1 = n2 := ⟨_, rfl⟩
  rw [hm1, hn1, hm2, hn2]
  have hM : m1 + m2 = W.r := by omega
  have hN : n1 + n2 = W.c := by omega
  have T0 : ∀ a b h w, At X a b h w (fun i j => X (a + i) (b + j)) := fun a b h w i _ j _ => rfl
  -- first call
  refine (rec_on hrec h _ _ _ 0 0 ((T0 0 0 m1 n1).congr (f' := X) (fun i _ j _ => by rw [Nat.zero_add, Nat.zero_add])) (by simp [Win.adr]) (by omega) (by omega) (by omega)).mono ?_
  rintro ⟨R1, P1, Q1⟩ ma ⟨lP1, lQ1, bP1, bQ1, V1, hh, f1⟩
  clear h
  simp only [] at lP1 lQ1 bP1 bQ1 f1 ⊢
  have rM1 := f1.rM
  have rN1 := f1.rN
  have T11 : At (upd 0 0 m1 n1 V1 X) 0 0 m1 n1 V1 := At.new
  have T12 := (T0 0 n1 m1 n2).out (i0 := 0) (j0 := 0) (r := m1) (c := n1) (g := V1) (by omega)
  have T21 := (T0 m1 0 m2 n1).out (i0 := 0) (j0 := 0) (r := m1) (c := n1) (g := V1) (by omega)
  have T22 := (T0 m1 n1 m2 n2).out (i0 := 0) (j0 := 0) (r := m1) (c := n1) (g := V1) (by omega)
  clear T0
  generalize upd 0 0 m1 n1 V1 X = V at *
  have Ta := T11.sub 0 0 (h' := R1) (w' := R1) (by omega) (by omega)
  have Tb := T11.sub 0 R1 (h' := R1) (w' := n1 - R1) (by omega) (by omega)
  have Tc := T11.sub R1 0 (h' := m1 - R1) (w' := R1) (by omega) (by omega)
  have Td := T11.sub R1 R1 (h' := m1 - R1) (w' := n1 - R1) (by omega) (by omega)
  clear T11
  simp only [Nat.zero_add] at Ta Tb Tc Td T12 T21
  -- permutations
  refine (rowsP_on hh 0 n1 (by simp [Win.adr]) (by omega) (by omega) lP1 bP1).mono (fun _ mb hb => ?_)
  clear hh
  replace Ta := Ta.outR (i0 := 0) (j0 := n1) (r := m1) (c := n2) (σ := ofSwaps P1.get m1) (by omega)
  replace Tb := Tb.outR (i0 := 0) (j0 := n1) (r := m1) (c := n2) (σ := ofSwaps P1.get m1) (by omega)
  replace Tc := Tc.outR (i0 := 0) (j0 := n1) (r := m1) (c := n2) (σ := ofSwaps P1.get m1) (by omega)
  replace Td := Td.outR (i0 := 0) (j0 := n1) (r := m1) (c := n2) (σ := ofSwaps P1.get m1) (by omega)
  replace T12 := T12.rows0 (j0 := n1) (c := n2) (σ := ofSwaps P1.get m1) (by omega) (by omega) f1.pP.1
  replace T21 := T21.outR (i0 := 0) (j0 := n1) (r := m1) (c := n2) (σ := ofSwaps P1.get m1) (by omega)
  replace T22 := T22.outR (i0 := 0) (j0 := n1) (r := m1) (c := n2) (σ := ofSwaps P1.get m1) (by omega)
  generalize permRows 0 n1 m1 n2 (ofSwaps P1.get m1) V = V at *
  refine (colsP_on hb m1 0 (by simp [Win.adr]) (by omega) (by omega) lQ1 bQ1).mono (fun _ mc hc => ?_)
  clear hb
  replace Ta := Ta.outC (i0 := m1) (j0 := 0) (r := m2) (c := n1) (σ := ofSwaps Q1.get n1) (by omega)
  replace Tb := Tb.outC (i0 := m1) (j0 := 0) (r := m2) (c := n1) (σ := ofSwaps Q1.get n1) (by omega)
  replace Tc := Tc.outC (i0 := m1) (j0 := 0) (r := m2) (c := n1) (σ := ofSwaps Q1.get n1) (by omega)
  replace Td := Td.outC (i0 := m1) (j0 := 0) (r := m2) (c := n1) (σ := ofSwaps Q1.get n1) (by omega)
  replace T12 := T12.outC (i0 := m1) (j0 := 0) (r := m2) (c := n1) (σ := ofSwaps Q1.get n1) (by omega)
  replace T21 := T21.cols0 (i0 := m1) (r := m2) (σ := ofSwaps Q1.get n1) (by omega) (by omega) f1.pQ.1
  replace T22 := T22.outC (i0 := m1) (j0 := 0) (r := m2) (c := n1) (σ := ofSwaps Q1.get n1) (by omega)
  generalize permCols m1 0 m2 n1 (ofSwaps Q1.get n1) V = V at *
  have piv1 : ∀ i < R1, V1 i i ≠ 0 := f1.piv
  have TD := T12.sub 0 0 (h' := R1) (w' := n2) (by omega) (by omega)
  have TF := T12.sub R1 0 (h' := m1 - R1) (w' := n2) (by omega) (by omega)
  have TE := T21.sub 0 0 (h' := m2) (w' := R1) (by omega) (by omega)
  have TG := T21.sub 0 R1 (h' := m2) (w' := n1 - R1) (by omega) (by omega)
  clear T12 T21
  simp only [Nat.zero_add, Nat.add_zero] at TD TF TE TG
  -- triangular solves
  refine (solveL_on ht hc 0 0 0 n1 Ta TD (by simp [Win.adr]) (by simp [Win.adr]) (by omega) (by omega) (by omega) (by omega) (by omega) piv1).mono ?_
  rintro _ md ⟨D, hd, eD⟩
  clear hc
  replace Ta := Ta.out (i0 := 0) (j0 := n1) (r := R1) (c := n2) (g := D) (by omega)
  replace Tb := Tb.out (i0 := 0) (j0 := n1) (r := R1) (c := n2) (g := D) (by omega)
  replace Tc := Tc.out (i0 := 0) (j0 := n1) (r := R1) (c := n2) (g := D) (by omega)
  replace Td := Td.out (i0 := 0) (j0 := n1) (r := R1) (c := n2) (g := D) (by omega)
  replace TF := TF.out (i0 := 0) (j0 := n1) (r := R1) (c := n2) (g := D) (by omega)
  replace TE := TE.out (i0 := 0) (j0 := n1) (r := R1) (c := n2) (g := D) (by omega)
  replace TG := TG.out (i0 := 0) (j0 := n1) (r := R1) (c := n2) (g := D) (by omega)
  replace T22 := T22.out (i0 := 0) (j0 := n1) (r := R1) (c := n2) (g := D) (by omega)
  clear TD
  have TD : At (upd 0 n1 R1 n2 D V) 0 n1 R1 n2 D := At.new
  generalize upd 0 n1 R1 n2 D V = V at *
  refine (solveU_on ht hd 0 0 m1 0 Ta TE (by simp [Win.adr]) (by simp [Win.adr]) (by omega) (by omega) (by omega) (by omega) (by omega) piv1).mono ?_
  rintro _ me ⟨E, he, eE⟩
  clear hd
  replace Ta := Ta.out (i0 := m1) (j0 := 0) (r := m2) (c := R1) (g := E) (by omega)
  replace Tb := Tb.out (i0 := m1) (j0 := 0) (r := m2) (c := R1) (g := E) (by omega)
  replace Tc := Tc.out (i0 := m1) (j0 := 0) (r := m2) (c := R1) (g := E) (by omega)
  replace Td := Td.out (i0 := m1) (j0 := 0) (r := m2) (c := R1) (g := E) (by omega)
  replace TF := TF.out (i0 := m1) (j0 := 0) (r := m2) (c := R1) (g := E) (by omega)
  replace TD := TD.out (i0 := m1) (j0 := 0) (r := m2) (c := R1) (g := E) (by omega)
  replace TG := TG.out (i0 := m1) (j0 := 0) (r := m2) (c := R1) (g := E) (by omega)
  replace T22 := T22.out (i0 := m1) (j0 := 0) (r := m2) (c := R1) (g := E) (by omega)
  clear TE
  have TE : At (upd m1 0 m2 R1 E V) m1 0 m2 R1 E := At.new
  generalize upd m1 0 m2 R1 E V = V at *
  -- Schur complements
  refine (subMul_on hg he R1 0 0 n1 R1 n1 Tc TD TF (by simp [Win.adr]) (by simp [Win.adr]) (by simp [Win.adr]; ring) (by omega) (by omega) (by omega) (by omega)
    (by omega) (by omega) (by omega) (by omega)).mono ?_
  rintro _ mf ⟨F, hf, eF⟩
  clear he
  replace Ta := Ta.out (i0 := R1) (j0 := n1) (r := (m1 - R1)) (c := n2) (g := F) (by omega)
  replace Tb := Tb.out (i0 := R1) (j0 := n1) (r := (m1 - R1)) (c := n2) (g := F) (by omega)
  replace Tc := Tc.out (i0 := R1) (j0 := n1) (r := (m1 - R1)) (c := n2) (g := F) (by omega)
  replace Td := Td.out (i0 := R1) (j0 := n1) (r := (m1 - R1)) (c := n2) (g := F) (by omega)
  replace TD := TD.out (i0 := R1) (j0 := n1) (r := (m1 - R1)) (c := n2) (g := F) (by omega)
  replace TE := TE.out (i0 := R1) (j0 := n1) (r := (m1 - R1)) (c := n2) (g := F) (by omega)
  replace TG := TG.out (i0 := R1) (j0 := n1) (r := (m1 - R1)) (c := n2) (g := F) (by omega)
  replace T22 := T22.out (i0 := R1) (j0 := n1) (r := (m1 - R1)) (c := n2) (g := F) (by omega)
  clear TF
  have TF : At (upd R1 n1 (m1 - R1) n2 F V) R1 n1 (m1 - R1) n2 F := At.new
  generalize upd R1 n1 (m1 - R1) n2 F V = V at *
  refine (subMul_on hg hf m1 0 0 R1 m1 R1 TE Tb TG (by simp [Win.adr]) (by simp [Win.adr]) (by simp [Win.adr]) (by omega) (by omega) (by omega) (by omega)
    (by omega) (by omega) (by omega) (by omega)).mono ?_
  rintro _ mg ⟨G, hgg, eG⟩
  clear hf
  replace Ta := Ta.out (i0 := m1) (j0 := R1) (r := m2) (c := (n1 - R1)) (g := G) (by omega)
  replace Tb := Tb.out (i0 := m1) (j0 := R1) (r := m2) (c := (n1 - R1)) (g := G) (by omega)
  replace Tc := Tc.out (i0 := m1) (j0 := R1) (r := m2) (c := (n1 - R1)) (g := G) (by omega)
  replace Td := Td.out (i0 := m1) (j0 := R1) (r := m2) (c := (n1 - R1)) (g := G) (by omega)
  replace TD := TD.out (i0 := m1) (j0 := R1) (r := m2) (c := (n1 - R1)) (g := G) (by omega)
  replace TE := TE.out (i0 := m1) (j0 := R1) (r := m2) (c := (n1 - R1)) (g := G) (by omega)
  replace TF := TF.out (i0 := m1) (j0 := R1) (r := m2) (c := (n1 - R1)) (g := G) (by omega)
  replace T22 := T22.out (i0 := m1) (j0 := R1) (r := m2) (c := (n1 - R1)) (g := G) (by omega)
  clear TG
  have TG : At (upd m1 R1 m2 (n1 - R1) G V) m1 R1 m2 (n1 - R1) G := At.new
  generalize upd m1 R1 m2 (n1 - R1) G V = V at *
  refine (subMul_on hg hgg m1 0 0 n1 m1 n1 TE TD T22 (by simp [Win.adr]) (by simp [Win.adr]) (by simp [Win.adr]) (by omega) (by omega) (by omega) (by omega)
    (by omega) (by omega) (by omega) (by omega)).mono ?_
  rintro _ mh ⟨H, hH, eH⟩
  clear hgg
  replace Ta := Ta.out (i0 := m1) (j0 := n1) (r := m2) (c := n2) (g := H) (by omega)
  replace Tb := Tb.out (i0 := m1) (j0 := n1) (r := m2) (c := n2) (g := H) (by omega)
  replace Tc := Tc.out (i0 := m1) (j0 := n1) (r := m2) (c := n2) (g := H) (by omega)
  replace Td := Td.out (i0 := m1) (j0 := n1) (r := m2) (c := n2) (g := H) (by omega)
  replace TD := TD.out (i0 := m1) (j0 := n1) (r := m2) (c := n2) (g := H) (by omega)
  replace TE := TE.out (i0 := m1) (j0 := n1) (r := m2) (c := n2) (g := H) (by omega)
  replace TF := TF.out (i0 := m1) (j0 := n1) (r := m2) (c := n2) (g := H) (by omega)
  replace TG := TG.out (i0 := m1) (j0 := n1) (r := m2) (c := n2) (g := H) (by omega)
  clear T22
  have TH : At (upd m1 n1 m2 n2 H V) m1 n1 m2 n2 H := At.new
  generalize upd m1 n1 m2 n2 H V = V at *
  -- second and third call
  refine (rec_on hrec hH _ _ _ R1 n1 TF (by simp [Win.adr]; ring) (by omega) (by omega) (by omega)).mono ?_
  rintro ⟨R2, P2, Q2⟩ mi ⟨lP2, lQ2, bP2, bQ2, V2, hi, f2⟩
  clear hH
  simp only [] at lP2 lQ2 bP2 bQ2 f2 ⊢
  replace Ta := Ta.out (i0 := R1) (j0 := n1) (r := (m1 - R1)) (c := n2) (g := V2) (by omega)
  replace Tb := Tb.out (i0 := R1) (j0 := n1) (r := (m1 - R1)) (c := n2) (g := V2) (by omega)
  replace Tc := Tc.out (i0 := R1) (j0 := n1) (r := (m1 - R1)) (c := n2) (g := V2) (by omega)
  replace Td := Td.out (i0 := R1) (j0 := n1) (r := (m1 - R1)) (c := n2) (g := V2) (by omega)
  replace TD := TD.out (i0 := R1) (j0 := n1) (r := (m1 - R1)) (c := n2) (g := V2) (by omega)
  replace TE := TE.out (i0 := R1) (j0 := n1) (r := (m1 - R1)) (c := n2) (g := V2) (by omega)
  replace TG := TG.out (i0 := R1) (j0 := n1) (r := (m1 - R1)) (c := n2) (g := V2) (by omega)
  replace TH := TH.out (i0 := R1) (j0 := n1) (r := (m1 - R1)) (c := n2) (g := V2) (by omega)
  clear TF
  have TF : At (upd R1 n1 (m1 - R1) n2 V2 V) R1 n1 (m1 - R1) n2 V2 := At.new
  generalize upd R1 n1 (m1 - R1) n2 V2 V = V at *
  refine (rec_on hrec hi _ _ _ m1 R1 TG (by simp [Win.adr]) (by omega) (by omega) (by omega)).mono ?_
  rintro ⟨R3, P3, Q3⟩ mj ⟨lP3, lQ3, bP3, bQ3, V3, hj, f3⟩
  clear hi
  simp only [] at lP3 lQ3 bP3 bQ3 f3 ⊢
  replace Ta := Ta.out (i0 := m1) (j0 := R1) (r := m2) (c := (n1 - R1)) (g := V3) (by omega)
  replace Tb := Tb.out (i0 := m1) (j0 := R1) (r := m2) (c := (n1 - R1)) (g := V3) (by omega)
  replace Tc := Tc.out (i0 := m1) (j0 := R1) (r := m2) (c := (n1 - R1)) (g := V3) (by omega)
  replace Td := Td.out (i0 := m1) (j0 := R1) (r := m2) (c := (n1 - R1)) (g := V3) (by omega)
  replace TD := TD.out (i0 := m1) (j0 := R1) (r := m2) (c := (n1 - R1)) (g := V3) (by omega)
  replace TE := TE.out (i0 := m1) (j0 := R1) (r := m2) (c := (n1 - R1)) (g := V3) (by omega)
  replace TF := TF.out (i0 := m1) (j0 := R1) (r := m2) (c := (n1 - R1)) (g := V3) (by omega)
  replace TH := TH.out (i0 := m1) (j0 := R1) (r := m2) (c := (n1 - R1)) (g := V3) (by omega)
  clear TG
  have TG : At (upd m1 R1 m2 (n1 - R1) V3 V) m1 R1 m2 (n1 - R1) V3 := At.new
  generalize upd m1 R1 m2 (n1 - R1) V3 V = V at *
  have rM2 := f2.rM
  have rN2 := f2.rN
  have rM3 := f3.rM
  have rN3 := f3.rN
  refine (colsP_on hj m1 n1 (by simp [Win.adr]) (by omega) (by omega) lQ2 bQ2).mono (fun _ mk hmk => ?_)
  clear hj
  replace Ta := Ta.outC (i0 := m1) (j0 := n1) (r := m2) (c := n2) (σ := (ofSwaps Q2.get n2)) (by omega)
  replace Tb := Tb.outC (i0 := m1) (j0 := n1) (r := m2) (c := n2) (σ := (ofSwaps Q2.get n2)) (by omega)
  replace Tc := Tc.outC (i0 := m1) (j0 := n1) (r := m2) (c := n2) (σ := (ofSwaps Q2.get n2)) (by omega)
  replace Td := Td.outC (i0 := m1) (j0 := n1) (r := m2) (c := n2) (σ := (ofSwaps Q2.get n2)) (by omega)
  replace TD := TD.outC (i0 := m1) (j0 := n1) (r := m2) (c := n2) (σ := (ofSwaps Q2.get n2)) (by omega)
  replace TE := TE.outC (i0 := m1) (j0 := n1) (r := m2) (c := n2) (σ := (ofSwaps Q2.get n2)) (by omega)
  replace TF := TF.outC (i0 := m1) (j0 := n1) (r := m2) (c := n2) (σ := (ofSwaps Q2.get n2)) (by omega)
  replace TG := TG.outC (i0 := m1) (j0 := n1) (r := m2) (c := n2) (σ := (ofSwaps Q2.get n2)) (by omega)
  replace TH := TH.cols0 (i0 := m1) (r := m2) (σ := (ofSwaps Q2.get n2)) (by omega) (by omega) f2.pQ.1
  generalize permCols m1 n1 m2 n2 (ofSwaps Q2.get n2) V = V at *
  refine (rowsP_on hmk m1 n1 (by simp [Win.adr]) (by omega) (by omega) lP3 bP3).mono (fun _ ml hml => ?_)
  clear hmk
  replace Ta := Ta.outR (i0 := m1) (j0 := n1) (r := m2) (c := n2) (σ := (ofSwaps P3.get m2)) (by omega)
  replace Tb := Tb.outR (i0 := m1) (j0 := n1) (r := m2) (c := n2) (σ := (ofSwaps P3.get m2)) (by omega)
  replace Tc := Tc.outR (i0 := m1) (j0 := n1) (r := m2) (c := n2) (σ := (ofSwaps P3.get m2)) (by omega)
  replace Td := Td.outR (i0 := m1) (j0 := n1) (r := m2) (c := n2) (σ := (ofSwaps P3.get m2)) (by omega)
  replace TD := TD.outR (i0 := m1) (j0 := n1) (r := m2) (c := n2) (σ := (ofSwaps P3.get m2)) (by omega)
  replace TE := TE.outR (i0 := m1) (j0 := n1) (r := m2) (c := n2) (σ := (ofSwaps P3.get m2)) (by omega)
  replace TF := TF.outR (i0 := m1) (j0 := n1) (r := m2) (c := n2) (σ := (ofSwaps P3.get m2)) (by omega)
  replace TG := TG.outR (i0 := m1) (j0 := n1) (r := m2) (c := n2) (σ := (ofSwaps P3.get m2)) (by omega)
  replace TH := TH.rows0 (j0 := n1) (c := n2) (σ := (ofSwaps P3.get m2)) (by omega) (by omega) f3.pP.1
  generalize permRows m1 n1 m2 n2 (ofSwaps P3.get m2) V = V at *
  refine (rowsP_on hml m1 0 (by simp [Win.adr]) (by omega) (by omega) lP3 bP3).mono (fun _ mn hmn => ?_)
  clear hml
  replace Ta := Ta.outR (i0 := m1) (j0 := 0) (r := m2) (c := R1) (σ := (ofSwaps P3.get m2)) (by omega)
  replace Tb := Tb.outR (i0 := m1) (j0 := 0) (r := m2) (c := R1) (σ := (ofSwaps P3.get m2)) (by omega)
  replace Tc := Tc.outR (i0 := m1) (j0 := 0) (r := m2) (c := R1) (σ := (ofSwaps P3.get m2)) (by omega)
  replace Td := Td.outR (i0 := m1) (j0 := 0) (r := m2) (c := R1) (σ := (ofSwaps P3.get m2)) (by omega)
  replace TD := TD.outR (i0 := m1) (j0 := 0) (r := m2) (c := R1) (σ := (ofSwaps P3.get m2)) (by omega)
  replace TH := TH.outR (i0 := m1) (j0 := 0) (r := m2) (c := R1) (σ := (ofSwaps P3.get m2)) (by omega)
  replace TF := TF.outR (i0 := m1) (j0 := 0) (r := m2) (c := R1) (σ := (ofSwaps P3.get m2)) (by omega)
  replace TG := TG.outR (i0 := m1) (j0 := 0) (r := m2) (c := R1) (σ := (ofSwaps P3.get m2)) (by omega)
  replace TE := TE.rows0 (j0 := 0) (c := R1) (σ := (ofSwaps P3.get m2)) (by omega) (by omega) f3.pP.1
  generalize permRows m1 0 m2 R1 (ofSwaps P3.get m2) V = V at *
  refine (rowsP_on hmn R1 0 (by simp [Win.adr]) (by omega) (by omega) lP2 bP2).mono (fun _ mo hmo => ?_)
  clear hmn
  replace Ta := Ta.outR (i0 := R1) (j0 := 0) (r := (m1 - R1)) (c := R1) (σ := (ofSwaps P2.get (m1 - R1))) (by omega)
  replace Tb := Tb.outR (i0 := R1) (j0 := 0) (r := (m1 - R1)) (c := R1) (σ := (ofSwaps P2.get (m1 - R1))) (by omega)
  replace Td := Td.outR (i0 := R1) (j0 := 0) (r := (m1 - R1)) (c := R1) (σ := (ofSwaps P2.get (m1 - R1))) (by omega)
  replace TD := TD.outR (i0 := R1) (j0 := 0) (r := (m1 - R1)) (c := R1) (σ := (ofSwaps P2.get (m1 - R1))) (by omega)
  replace TE := TE.outR (i0 := R1) (j0 := 0) (r := (m1 - R1)) (c := R1) (σ := (ofSwaps P2.get (m1 - R1))) (by omega)
  replace TH := TH.outR (i0 := R1) (j0 := 0) (r := (m1 - R1)) (c := R1) (σ := (ofSwaps P2.get (m1 - R1))) (by omega)
  replace TF := TF.outR (i0 := R1) (j0 := 0) (r := (m1 - R1)) (c := R1) (σ := (ofSwaps P2.get (m1 - R1))) (by omega)
  replace TG := TG.outR (i0 := R1) (j0 := 0) (r := (m1 - R1)) (c := R1) (σ := (ofSwaps P2.get (m1 - R1))) (by omega)
  replace Tc := Tc.rows0 (j0 := 0) (c := R1) (σ := (ofSwaps P2.get (m1 - R1))) (by omega) (by omega) f2.pP.1
  generalize permRows R1 0 (m1 - R1) R1 (ofSwaps P2.get (m1 - R1)) V = V at *
  refine (colsP_on hmo 0 n1 (by simp [Win.adr]) (by omega) (by omega) lQ2 bQ2).mono (fun _ mp hmp => ?_)
  clear hmo
  replace Ta := Ta.outC (i0 := 0) (j0 := n1) (r := R1) (c := n2) (σ := (ofSwaps Q2.get n2)) (by omega)
  replace Tb := Tb.outC (i0 := 0) (j0 := n1) (r := R1) (c := n2) (σ := (ofSwaps Q2.get n2)) (by omega)
  replace Tc := Tc.outC (i0 := 0) (j0 := n1) (r := R1) (c := n2) (σ := (ofSwaps Q2.get n2)) (by omega)
  replace Td := Td.outC (i0 := 0) (j0 := n1) (r := R1) (c := n2) (σ := (ofSwaps Q2.get n2)) (by omega)
  replace TE := TE.outC (i0 := 0) (j0 := n1) (r := R1) (c := n2) (σ := (ofSwaps Q2.get n2)) (by omega)
  replace TH := TH.outC (i0 := 0) (j0 := n1) (r := R1) (c := n2) (σ := (ofSwaps Q2.get n2)) (by omega)
  replace TF := TF.outC (i0 := 0) (j0 := n1) (r := R1) (c := n2) (σ := (ofSwaps Q2.get n2)) (by omega)
  replace TG := TG.outC (i0 := 0) (j0 := n1) (r := R1) (c := n2) (σ := (ofSwaps Q2.get n2)) (by omega)
  replace TD := TD.cols0 (i0 := 0) (r := R1) (σ := (ofSwaps Q2.get n2)) (by omega) (by omega) f2.pQ.1
  generalize permCols 0 n1 R1 n2 (ofSwaps Q2.get n2) V = V at *
  refine (colsP_on hmp 0 R1 (by simp [Win.adr]) (by omega) (by omega) lQ3 bQ3).mono (fun _ mq hmq => ?_)
  clear hmp
  replace Ta := Ta.outC (i0 := 0) (j0 := R1) (r := R1) (c := (n1 - R1)) (σ := (ofSwaps Q3.get (n1 - R1))) (by omega)
  replace Tc := Tc.outC (i0 := 0) (j0 := R1) (r := R1) (c := (n1 - R1)) (σ := (ofSwaps Q3.get (n1 - R1))) (by omega)
  replace Td := Td.outC (i0 := 0) (j0 := R1) (r := R1) (c := (n1 - R1)) (σ := (ofSwaps Q3.get (n1 - R1))) (by omega)
  replace TD := TD.outC (i0 := 0) (j0 := R1) (r := R1) (c := (n1 - R1)) (σ := (ofSwaps Q3.get (n1 - R1))) (by omega)
  replace TE := TE.outC (i0 := 0) (j0 := R1) (r := R1) (c := (n1 - R1)) (σ := (ofSwaps Q3.get (n1 - R1))) (by omega)
  replace TH := TH.outC (i0 := 0) (j0 := R1) (r := R1) (c := (n1 - R1)) (σ := (ofSwaps Q3.get (n1 - R1))) (by omega)
  replace TF := TF.outC (i0 := 0) (j0 := R1) (r := R1) (c := (n1 - R1)) (σ := (ofSwaps Q3.get (n1 - R1))) (by omega)
  replace TG := TG.outC (i0 := 0) (j0 := R1) (r := R1) (c := (n1 - R1)) (σ := (ofSwaps Q3.get (n1 - R1))) (by omega)
  replace Tb := Tb.cols0 (i0 := 0) (r := R1) (σ := (ofSwaps Q3.get (n1 - R1))) (by omega) (by omega) f3.pQ.1
  generalize permCols 0 R1 R1 (n1 - R1) (ofSwaps Q3.get (n1 - R1)) V = V at *
  have piv2 : ∀ i < R2, V2 i i ≠ 0 := f2.piv
  have piv3 : ∀ i < R3, V3 i i ≠ 0 := f3.piv
  have TI := TH.sub 0 0 (h' := m2) (w' := R2) (by omega) (by omega)
  have TO := TH.sub 0 R2 (h' := R3) (w' := n2 - R2) (by omega) (by omega)
  have TR := TH.sub R3 R2 (h' := m2 - R3) (w' := n2 - R2) (by omega) (by omega)
  clear TH
  simp only [Nat.zero_add, Nat.add_zero] at TI TO TR
  have TF2 := TF.sub 0 0 (h' := R2) (w' := R2) (by omega) (by omega)
  simp only [Nat.zero_add, Nat.add_zero] at TF2
  refine (solveU_on ht hmq R1 n1 m1 n1 TF2 TI (by simp [Win.adr]; ring) (by simp [Win.adr]) (by omega) (by omega) (by omega) (by omega) (by omega) piv2).mono ?_
  rintro _ mr ⟨I, hr, eI⟩
  clear hmq TF2
  replace Ta := Ta.out (i0 := m1) (j0 := n1) (r := m2) (c := R2) (g := I) (by omega)
  replace Tb := Tb.out (i0 := m1) (j0 := n1) (r := m2) (c := R2) (g := I) (by omega)
  replace Tc := Tc.out (i0 := m1) (j0 := n1) (r := m2) (c := R2) (g := I) (by omega)
  replace Td := Td.out (i0 := m1) (j0 := n1) (r := m2) (c := R2) (g := I) (by omega)
  replace TD := TD.out (i0 := m1) (j0 := n1) (r := m2) (c := R2) (g := I) (by omega)
  replace TE := TE.out (i0 := m1) (j0 := n1) (r := m2) (c := R2) (g := I) (by omega)
  replace TF := TF.out (i0 := m1) (j0 := n1) (r := m2) (c := R2) (g := I) (by omega)
  replace TG := TG.out (i0 := m1) (j0 := n1) (r := m2) (c := R2) (g := I) (by omega)
  replace TO := TO.out (i0 := m1) (j0 := n1) (r := m2) (c := R2) (g := I) (by omega)
  replace TR := TR.out (i0 := m1) (j0 := n1) (r := m2) (c := R2) (g := I) (by omega)
  clear TI
  have TI : At (upd m1 n1 m2 R2 I V) m1 n1 m2 R2 I := At.new
  generalize upd m1 n1 m2 R2 I V = V at *
  have TG3 := TG.sub 0 0 (h' := R3) (w' := R3) (by omega) (by omega)
  have TI3 := TI.sub 0 0 (h' := R3) (w' := R2) (by omega) (by omega)
  have TF2 := TF.sub 0 R2 (h' := R2) (w' := n2 - R2) (by omega) (by omega)
  simp only [Nat.zero_add, Nat.add_zero] at TG3 TI3 TF2
  refine (pluqO_on hg ht hr (m1 := m1) (n1 := n1) (R1 := R1) (by simp [Win.adr]) (by simp [Win.adr]) (by simp [Win.adr]; ring) (by omega) (by omega)
    (by omega) (by omega) TG3 TI3 TO TF2 piv3).mono ?_
  rintro _ mt ⟨O, hs, eO⟩
  clear hr TG3 TI3 TF2
  replace Ta := Ta.out (i0 := m1) (j0 := (n1 + R2)) (r := R3) (c := (n2 - R2)) (g := O) (by omega)
  replace Tb := Tb.out (i0 := m1) (j0 := (n1 + R2)) (r := R3) (c := (n2 - R2)) (g := O) (by omega)
  replace Tc := Tc.out (i0 := m1) (j0 := (n1 + R2)) (r := R3) (c := (n2 - R2)) (g := O) (by omega)
  replace Td := Td.out (i0 := m1) (j0 := (n1 + R2)) (r := R3) (c := (n2 - R2)) (g := O) (by omega)
  replace TD := TD.out (i0 := m1) (j0 := (n1 + R2)) (r := R3) (c := (n2 - R2)) (g := O) (by omega)
  replace TE := TE.out (i0 := m1) (j0 := (n1 + R2)) (r := R3) (c := (n2 - R2)) (g := O) (by omega)
  replace TF := TF.out (i0 := m1) (j0 := (n1 + R2)) (r := R3) (c := (n2 - R2)) (g := O) (by omega)
  replace TG := TG.out (i0 := m1) (j0 := (n1 + R2)) (r := R3) (c := (n2 - R2)) (g := O) (by omega)
  replace TI := TI.out (i0 := m1) (j0 := (n1 + R2)) (r := R3) (c := (n2 - R2)) (g := O) (by omega)
  replace TR := TR.out (i0 := m1) (j0 := (n1 + R2)) (r := R3) (c := (n2 - R2)) (g := O) (by omega)
  clear TO
  have TO : At (upd m1 (n1 + R2) R3 (n2 - R2) O V) m1 (n1 + R2) R3 (n2 - R2) O := At.new
  generalize upd m1 (n1 + R2) R3 (n2 - R2) O V = V at *
  have TI3 := TI.sub R3 0 (h' := m2 - R3) (w' := R2) (by omega) (by omega)
  have TF2 := TF.sub 0 R2 (h' := R2) (w' := n2 - R2) (by omega) (by omega)
  have TG3 := TG.sub R3 0 (h' := m2 - R3) (w' := R3) (by omega) (by omega)
  simp only [Nat.zero_add, Nat.add_zero] at TG3 TI3 TF2
  refine (subMul_on hg hs (m1 + R3) n1 R1 (n1 + R2) (m1 + R3) (n1 + R2) TI3 TF2 TR (by simp [Win.adr]; ring) (by simp [Win.adr]; ring)
    (by simp [Win.adr]; ring) (by omega) (by omega) (by omega) (by omega) (by omega) (by omega) (by omega) (by omega)).mono ?_
  rintro _ mu ⟨Ra, hu, eRa⟩
  clear hs TI3 TF2
  replace Ta := Ta.out (i0 := (m1 + R3)) (j0 := (n1 + R2)) (r := (m2 - R3)) (c := (n2 - R2)) (g := Ra) (by omega)
  replace Tb := Tb.out (i0 := (m1 + R3)) (j0 := (n1 + R2)) (r := (m2 - R3)) (c := (n2 - R2)) (g := Ra) (by omega)
  replace Tc := Tc.out (i0 := (m1 + R3)) (j0 := (n1 + R2)) (r := (m2 - R3)) (c := (n2 - R2)) (g := Ra) (by omega)
  replace Td := Td.out (i0 := (m1 + R3)) (j0 := (n1 + R2)) (r := (m2 - R3)) (c := (n2 - R2)) (g := Ra) (by omega)
  replace TD := TD.out (i0 := (m1 + R3)) (j0 := (n1 + R2)) (r := (m2 - R3)) (c := (n2 - R2)) (g := Ra) (by omega)
  replace TE := TE.out (i0 := (m1 + R3)) (j0 := (n1 + R2)) (r := (m2 - R3)) (c := (n2 - R2)) (g := Ra) (by omega)
  replace TF := TF.out (i0 := (m1 + R3)) (j0 := (n1 + R2)) (r := (m2 - R3)) (c := (n2 - R2)) (g := Ra) (by omega)
  replace TG := TG.out (i0 := (m1 + R3)) (j0 := (n1 + R2)) (r := (m2 - R3)) (c := (n2 - R2)) (g := Ra) (by omega)
  replace TI := TI.out (i0 := (m1 + R3)) (j0 := (n1 + R2)) (r := (m2 - R3)) (c := (n2 - R2)) (g := Ra) (by omega)
  replace TO := TO.out (i0 := (m1 + R3)) (j0 := (n1 + R2)) (r := (m2 - R3)) (c := (n2 - R2)) (g := Ra) (by omega)
  replace TG3 := TG3.out (i0 := (m1 + R3)) (j0 := (n1 + R2)) (r := (m2 - R3)) (c := (n2 - R2)) (g := Ra) (by omega)
  clear TR
  have TR : At (upd (m1 + R3) (n1 + R2) (m2 - R3) (n2 - R2) Ra V) (m1 + R3) (n1 + R2) (m2 - R3) (n2 - R2) Ra := At.new
  generalize upd (m1 + R3) (n1 + R2) (m2 - R3) (n2 - R2) Ra V = V at *
  refine (subMul_on hg hu (m1 + R3) R1 m1 (n1 + R2) (m1 + R3) (n1 + R2) TG3 TO TR (by simp [Win.adr]; ring) (by simp [Win.adr]; ring)
    (by simp [Win.adr]; ring) (by omega) (by omega) (by omega) (by omega) (by omega) (by omega) (by omega) (by omega)).mono ?_
  rintro _ mv ⟨Rb, hv, eRb⟩
  clear hu TG3
  replace Ta := Ta.out (i0 := (m1 + R3)) (j0 := (n1 + R2)) (r := (m2 - R3)) (c := (n2 - R2)) (g := Rb) (by omega)
  replace Tb := Tb.out (i0 := (m1 + R3)) (j0 := (n1 + R2)) (r := (m2 - R3)) (c := (n2 - R2)) (g := Rb) (by omega)
  replace Tc := Tc.out (i0 := (m1 + R3)) (j0 := (n1 + R2)) (r := (m2 - R3)) (c := (n2 - R2)) (g := Rb) (by omega)
  replace Td := Td.out (i0 := (m1 + R3)) (j0 := (n1 + R2)) (r := (m2 - R3)) (c := (n2 - R2)) (g := Rb) (by omega)
  replace TD := TD.out (i0 := (m1 + R3)) (j0 := (n1 + R2)) (r := (m2 - R3)) (c := (n2 - R2)) (g := Rb) (by omega)
  replace TE := TE.out (i0 := (m1 + R3)) (j0 := (n1 + R2)) (r := (m2 - R3)) (c := (n2 - R2)) (g := Rb) (by omega)
  replace TF := TF.out (i0 := (m1 + R3)) (j0 := (n1 + R2)) (r := (m2 - R3)) (c := (n2 - R2)) (g := Rb) (by omega)
  replace TG := TG.out (i0 := (m1 + R3)) (j0 := (n1 + R2)) (r := (m2 - R3)) (c := (n2 - R2)) (g := Rb) (by omega)
  replace TI := TI.out (i0 := (m1 + R3)) (j0 := (n1 + R2)) (r := (m2 - R3)) (c := (n2 - R2)) (g := Rb) (by omega)
  replace TO := TO.out (i0 := (m1 + R3)) (j0 := (n1 + R2)) (r := (m2 - R3)) (c := (n2 - R2)) (g := Rb) (by omega)
  clear TR
  have TR : At (upd (m1 + R3) (n1 + R2) (m2 - R3) (n2 - R2) Rb V) (m1 + R3) (n1 + R2) (m2 - R3) (n2 - R2) Rb := At.new
  generalize upd (m1 + R3) (n1 + R2) (m2 - R3) (n2 - R2) Rb V = V at *
  -- fourth call
  refine (rec_on hrec hv _ _ _ (m1 + R3) (n1 + R2) TR (by simp [Win.adr]; ring) (by omega) (by omega) (by omega)).mono ?_
  rintro ⟨R4, P4, Q4⟩ mw ⟨lP4, lQ4, bP4, bQ4, V4, hw, f4⟩
  clear hv
  simp only [] at lP4 lQ4 bP4 bQ4 f4 ⊢
  have rM4 := f4.rM
  have rN4 := f4.rN
  replace Ta := Ta.out (i0 := (m1 + R3)) (j0 := (n1 + R2)) (r := (m2 - R3)) (c := (n2 - R2)) (g := V4) (by omega)
  replace Tb := Tb.out (i0 := (m1 + R3)) (j0 := (n1 + R2)) (r := (m2 - R3)) (c := (n2 - R2)) (g := V4) (by omega)
  replace Tc := Tc.out (i0 := (m1 + R3)) (j0 := (n1 + R2)) (r := (m2 - R3)) (c := (n2 - R2)) (g := V4) (by omega)
  replace Td := Td.out (i0 := (m1 + R3)) (j0 := (n1 + R2)) (r := (m2 - R3)) (c := (n2 - R2)) (g := V4) (by omega)
  replace TD := TD.out (i0 := (m1 + R3)) (j0 := (n1 + R2)) (r := (m2 - R3)) (c := (n2 - R2)) (g := V4) (by omega)
  replace TE := TE.out (i0 := (m1 + R3)) (j0 := (n1 + R2)) (r := (m2 - R3)) (c := (n2 - R2)) (g := V4) (by omega)
  replace TF := TF.out (i0 := (m1 + R3)) (j0 := (n1 + R2)) (r := (m2 - R3)) (c := (n2 - R2)) (g := V4) (by omega)
  replace TG := TG.out (i0 := (m1 + R3)) (j0 := (n1 + R2)) (r := (m2 - R3)) (c := (n2 - R2)) (g := V4) (by omega)
  replace TI := TI.out (i0 := (m1 + R3)) (j0 := (n1 + R2)) (r := (m2 - R3)) (c := (n2 - R2)) (g := V4) (by omega)
  replace TO := TO.out (i0 := (m1 + R3)) (j0 := (n1 + R2)) (r := (m2 - R3)) (c := (n2 - R2)) (g := V4) (by omega)
  clear TR
  have TR : At (upd (m1 + R3) (n1 + R2) (m2 - R3) (n2 - R2) V4 V) (m1 + R3) (n1 + R2) (m2 - R3) (n2 - R2) V4 := At.new
  generalize upd (m1 + R3) (n1 + R2) (m2 - R3) (n2 - R2) V4 V = V at *
  refine (rowsP_on hw (m1 + R3) 0 (by simp [Win.adr]; ring) (by omega) (by omega) lP4 bP4).mono (fun _ mx hmx => ?_)
  clear hw
  replace Ta := Ta.outR (i0 := (m1 + R3)) (j0 := 0) (r := (m2 - R3)) (c := (n1 + R2)) (σ := (ofSwaps P4.get (m2 - R3))) (by omega)
  replace Tb := Tb.outR (i0 := (m1 + R3)) (j0 := 0) (r := (m2 - R3)) (c := (n1 + R2)) (σ := (ofSwaps P4.get (m2 - R3))) (by omega)
  replace Tc := Tc.outR (i0 := (m1 + R3)) (j0 := 0) (r := (m2 - R3)) (c := (n1 + R2)) (σ := (ofSwaps P4.get (m2 - R3))) (by omega)
  replace Td := Td.outR (i0 := (m1 + R3)) (j0 := 0) (r := (m2 - R3)) (c := (n1 + R2)) (σ := (ofSwaps P4.get (m2 - R3))) (by omega)
  replace TD := TD.outR (i0 := (m1 + R3)) (j0 := 0) (r := (m2 - R3)) (c := (n1 + R2)) (σ := (ofSwaps P4.get (m2 - R3))) (by omega)
  replace TF := TF.outR (i0 := (m1 + R3)) (j0 := 0) (r := (m2 - R3)) (c := (n1 + R2)) (σ := (ofSwaps P4.get (m2 - R3))) (by omega)
  replace TO := TO.outR (i0 := (m1 + R3)) (j0 := 0) (r := (m2 - R3)) (c := (n1 + R2)) (σ := (ofSwaps P4.get (m2 - R3))) (by omega)
  replace TR := TR.outR (i0 := (m1 + R3)) (j0 := 0) (r := (m2 - R3)) (c := (n1 + R2)) (σ := (ofSwaps P4.get (m2 - R3))) (by omega)
  replace TE := TE.rows (i0 := (m1 + R3)) (j0 := 0) (r := (m2 - R3)) (c := (n1 + R2)) (σ := (ofSwaps P4.get (m2 - R3))) R3 (by omega) (by omega) (by omega) (by omega) f4.pP.1
  replace TG := TG.rows (i0 := (m1 + R3)) (j0 := 0) (r := (m2 - R3)) (c := (n1 + R2)) (σ := (ofSwaps P4.get (m2 - R3))) R3 (by omega) (by omega) (by omega) (by omega) f4.pP.1
  replace TI := TI.rows (i0 := (m1 + R3)) (j0 := 0) (r := (m2 - R3)) (c := (n1 + R2)) (σ := (ofSwaps P4.get (m2 - R3))) R3 (by omega) (by omega) (by omega) (by omega) f4.pP.1
  generalize permRows (m1 + R3) 0 (m2 - R3) (n1 + R2) (ofSwaps P4.get (m2 - R3)) V = V at *
  refine (colsP_on hmx 0 (n1 + R2) (by simp [Win.adr]; ring) (by omega) (by omega) lQ4 bQ4).mono (fun _ my hmy => ?_)
  clear hmx
  replace Ta := Ta.outC (i0 := 0) (j0 := (n1 + R2)) (r := (m1 + R3)) (c := (n2 - R2)) (σ := (ofSwaps Q4.get (n2 - R2))) (by omega)
  replace Tb := Tb.outC (i0 := 0) (j0 := (n1 + R2)) (r := (m1 + R3)) (c := (n2 - R2)) (σ := (ofSwaps Q4.get (n2 - R2))) (by omega)
  replace Tc := Tc.outC (i0 := 0) (j0 := (n1 + R2)) (r := (m1 + R3)) (c := (n2 - R2)) (σ := (ofSwaps Q4.get (n2 - R2))) (by omega)
  replace Td := Td.outC (i0 := 0) (j0 := (n1 + R2)) (r := (m1 + R3)) (c := (n2 - R2)) (σ := (ofSwaps Q4.get (n2 - R2))) (by omega)
  replace TE := TE.outC (i0 := 0) (j0 := (n1 + R2)) (r := (m1 + R3)) (c := (n2 - R2)) (σ := (ofSwaps Q4.get (n2 - R2))) (by omega)
  replace TG := TG.outC (i0 := 0) (j0 := (n1 + R2)) (r := (m1 + R3)) (c := (n2 - R2)) (σ := (ofSwaps Q4.get (n2 - R2))) (by omega)
  replace TI := TI.outC (i0 := 0) (j0 := (n1 + R2)) (r := (m1 + R3)) (c := (n2 - R2)) (σ := (ofSwaps Q4.get (n2 - R2))) (by omega)
  replace TR := TR.outC (i0 := 0) (j0 := (n1 + R2)) (r := (m1 + R3)) (c := (n2 - R2)) (σ := (ofSwaps Q4.get (n2 - R2))) (by omega)
  replace TD := TD.cols (i0 := 0) (j0 := (n1 + R2)) (r := (m1 + R3)) (c := (n2 - R2)) (σ := (ofSwaps Q4.get (n2 - R2))) R2 (by omega) (by omega) (by omega) (by omega) f4.pQ.1
  replace TF := TF.cols (i0 := 0) (j0 := (n1 + R2)) (r := (m1 + R3)) (c := (n2 - R2)) (σ := (ofSwaps Q4.get (n2 - R2))) R2 (by omega) (by omega) (by omega) (by omega) f4.pQ.1
  replace TO := TO.cols0 (i0 := 0) (r := (m1 + R3)) (σ := (ofSwaps Q4.get (n2 - R2))) (by omega) (by omega) f4.pQ.1
  generalize permCols 0 (n1 + R2) (m1 + R3) (n2 - R2) (ofSwaps Q4.get (n2 - R2)) V = V at *
  -- moves
  refine (pluqS_on hmy jk rfl rfl rfl hP (by omega) (by omega) (by omega) lP1 lP2 (by omega) (by omega) bP1 bP2 (by rwa [hm2]) (by rwa [hm2]) rfl).mono ?_
  rintro P' mz ⟨a1, a2, a3, hz⟩
  rw [hm2] at a3
  refine (pluqT_on hz jk rfl rfl rfl hQ (by omega) (by omega) (by omega) lQ1 lQ3 (by omega) (by omega) bQ1 bQ3 (by rwa [hn2]) (by rwa [hn2]) rfl).mono ?_
  rintro Q' mz' ⟨b1, b2, b3, hz'⟩
  rw [hn2] at b3
  rw [Run_pure]
  refine ⟨a1, b1, a2, b2, _, hz', ?_⟩
  let B : Dat K := ⟨m1, m2, n1, n2, R1, R2, R3, R4, V1, V2, V3, V4, D, E, I, O, ofSwaps P1.get m1, ofSwaps P2.get (m1 - R1), ofSwaps P3.get m2,
    ofSwaps P4.get (m2 - R3), ofSwaps Q1.get n1, ofSwaps Q2.get n2, ofSwaps Q3.get (n1 - R1), ofSwaps Q4.get (n2 - R2)⟩
  have eH' : ∀ i < m2, ∀ j < n2, H i j = B.H X i j := eH
  have r2 := f2.congrX (X' := B.F X) eF
  have r3 := f3.congrX (X' := B.G X) eG
  have r4 : Fac d (m2 - R3) (n2 - R2) (B.R X) V4 (ofSwaps P4.get (m2 - R3)) (ofSwaps Q4.get (n2 - R2)) R4 := f4.congrX (fun i hi j hj => by
    rw [eRb i hi j hj, eRa i hi j hj, eH' _ (f3.pP.1 (R3 + i) (by omega)) _ (f2.pQ.1 (R2 + j) (by omega))]
    rfl)
  have good : B.GoodR d X := by
    refine ⟨⟨f1.weak, eD, eE, r2.weak, r3.weak, fun i hi j hj => ?_, fun i hi j hj => ?_, r4.weak⟩, f1, r2, r3, r4⟩
    · rw [eI i hi j hj]
      exact eH' _ (f3.pP.1 i hi) _ (f2.pQ.1 j (by have : j < R2 := hj; omega))
    · rw [eO i hi j hj]
      exact congrArg (· - _) (eH' _ (f3.pP.1 i (by have : i < R3 := hi; omega)) _ (f2.pQ.1 (R2 + j) (by have : j < n2 - R2 := hj; omega)))
  have key : ∀ i < m1 + m2, ∀ j < n1 + n2, V i j = B.pre i j := by
    intro i hi j hj
    have q4 := f4.pQ.1
    have p4 := f4.pP.1
    unfold Dat.pre Dat.ii Dat.jj Dat.ii2 Dat.jj2
    simp only [B]
    by_cases ci : i < m1
    · rw [if_pos ci]
      by_cases cj : j < n1
      · rw [if_pos cj]
        by_cases di : i < R1
        · rw [shiftPerm_lo di]
          by_cases dj : j < R1
          · rw [shiftPerm_lo dj]
            simpa using Ta i di j dj
          · rw [shiftPerm_hi (by omega)]
            have := Tb i di (j - R1) (by omega)
            rwa [Nat.zero_add, show R1 + (j - R1) = j by omega] at this
        · rw [shiftPerm_hi (by omega)]
          by_cases dj : j < R1
          · rw [shiftPerm_lo dj]
            have := Tc (i - R1) (by omega) j dj
            rwa [Nat.zero_add, show R1 + (i - R1) = i by omega] at this
          · rw [shiftPerm_hi (by omega)]
            have := Td (i - R1) (by omega) (j - R1) (by omega)
            rw [show R1 + (i - R1) = i by omega, show R1 + (j - R1) = j by omega] at this
            have p2 := f2.pP.1 (i - R1) (by omega)
            have q3 := f3.pQ.1 (j - R1) (by omega)
            rw [this, f1.zero _ (by omega) _ (by omega) (by omega) (by omega)]
            exact f1.zero _ (by omega) _ (by omega) (by omega) (by omega)
      · rw [if_neg cj]
        by_cases di : i < R1
        · rw [if_pos di]
          have := TD i di (j - n1) (by omega)
          rwa [Nat.zero_add, show n1 + (j - n1) = j by omega] at this
        · rw [if_neg di]
          have := TF (i - R1) (by omega) (j - n1) (by omega)
          rwa [show R1 + (i - R1) = i by omega, show n1 + (j - n1) = j by omega] at this
    · rw [if_neg ci]
      by_cases cj : j < n1
      · rw [if_pos cj]
        by_cases dj : j < R1
        · rw [if_pos dj]
          have := TE (i - m1) (by omega) j dj
          rwa [Nat.zero_add, show m1 + (i - m1) = i by omega] at this
        · rw [if_neg dj]
          have := TG (i - m1) (by omega) (j - R1) (by omega)
          rwa [show m1 + (i - m1) = i by omega, show R1 + (j - R1) = j by omega] at this
      · rw [if_neg cj]
        by_cases dj : j - n1 < R2
        · rw [if_pos dj]
          have := TI (i - m1) (by omega) (j - n1) dj
          rwa [show m1 + (i - m1) = i by omega, show n1 + (j - n1) = j by omega] at this
        · rw [if_neg dj]
          by_cases di : i - m1 < R3
          · rw [if_pos di]
            have := TO (i - m1) di (j - n1 - R2) (by omega)
            rwa [show m1 + (i - m1) = i by omega, show n1 + R2 + (j - n1 - R2) = j by omega] at this
          · rw [if_neg di]
            have := TR (i - m1 - R3) (by omega) (j - n1 - R2) (by omega)
            rwa [show m1 + R3 + (i - m1 - R3) = i by omega, show n1 + R2 + (j - n1 - R2) = j by omega] at this
  have sP : IsPermArray (sPerm (R1 + R2) (m1 - (R1 + R2)) (R3 + R4)) (m1 + m2) := sPerm_perm (by omega)
  have tP : IsPermArray (tPerm n1 R1 R2 R3 R4) (n1 + n2) := tPerm_perm (by omega) (by omega)
  have fin := good.combine (V := fun i j => V (sPerm (R1 + R2) (m1 - (R1 + R2)) (R3 + R4) i) (tPerm n1 R1 R2 R3 R4 j))
    (fun i hi j hj => key _ (sP.1 i hi) _ (tP.1 j hj))
  rw [show B.m1 + B.m2 = W.r from hM, show B.n1 + B.n2 = W.c from hN] at fin
  exact fin.congrP a3 b3

lemma ofSwaps_id {P : ℕ → ℕ} : ∀ {n : ℕ}, (∀ i < n, P i = i) → ∀ x, ofSwaps P n x = x
  | 0, _, _ => rfl
  | n+1, h, x => by
    rw [ofSwaps, h n (Nat.lt_succ_self n), Equiv.swap_self]
    exact ofSwaps_id (fun i hi => h i (by omega)) x

/-- the whole recursion -/
lemma pluqRec_spec (cat : Cat) {g : GemmFn K} {ts : TrsmFn K} (hg : GemmOk g) (ht : TrsmOk ts) (thr lda : ℕ) (d : Diag) :
    ∀ fuel, RecOk (pluqRec cat g ts thr lda fuel) d lda fuel
  | 0 => fun _ _ _ _ _ _ _ _ hb => absurd hb (Nat.not_lt_zero _)
  | fuel+1 => by
    intro jk m0 m W V P Q hld hb hP hQ h
    have ih := pluqRec_spec cat hg ht thr lda d fuel
    unfold pluqRec
    simp only [Run_bind, Run_liftE]
    refine (iota_spec P W.r hP.ge).mono ?_
    rintro P' ⟨lP, eP⟩
    refine (iota_spec Q W.c hQ.ge).mono ?_
    rintro Q' ⟨lQ, eQ⟩
    have tP : IsTranspArray P'.get W.r := fun i hi => by rw [eP i hi]; omega
    have tQ : IsTranspArray Q'.get W.c := fun i hi => by rw [eQ i hi]; omega
    have iP : ∀ i, ofSwaps P'.get W.r i = i := fun i => ofSwaps_id eP i
    have iQ : ∀ i, ofSwaps Q'.get W.c i = i := fun i => ofSwaps_id eQ i
    rif h0
    · rw [Run_pure]
      refine ⟨lP.trans hP, lQ.trans hQ, tP, tQ, V, h, ⟨⟨Nat.zero_le _, Nat.zero_le _, fun k hk => absurd hk (Nat.not_lt_zero _), fun i hi j hj => by omega⟩,
        ofSwaps_isPerm (fun i hi => (tP i hi).2), ofSwaps_isPerm (fun i hi => (tQ i hi).2), fun i hi j hj _ _ => by omega,
        fun k hk => absurd hk (Nat.not_lt_zero _), fun k hk => absurd hk (Nat.not_lt_zero _), fun i i' _ h1 _ => by simp only [iP]; exact h1,
        fun i i' _ h1 _ => by simp only [iQ]; exact h1⟩⟩
    · rif h1
      · have e1 : W.r = 1 := by omega
        have e2 : W.c = 1 := by omega
        have ea : W.p = W.adr 0 0 := by simp [Win.adr]
        rw [ea]
        simp only [Run_bind, Run_load, Run_pure]
        refine ⟨h.okc (by omega) (by omega), lP.trans hP, lQ.trans hQ, tP, tQ, V, h, ?_⟩
        rw [h.val (by omega) (by omega), e1, e2]
        refine Fac.congrP (p := fun i => i) (q := fun i => i) ?_ (fun i _ => by rw [← e1, iP]) (fun i _ => by rw [← e2, iQ])
        simp only []
        split_ifs with hz
        · refine ⟨⟨Nat.zero_le _, Nat.zero_le _, fun k hk => absurd hk (Nat.not_lt_zero _), fun i hi j hj => ?_⟩, ⟨fun i hi => hi, fun i _ j _ e => e⟩,
            ⟨fun i hi => hi, fun i _ j _ e => e⟩, fun i hi j hj _ _ => ?_, fun k hk => absurd hk (Nat.not_lt_zero _),
            fun k hk => absurd hk (Nat.not_lt_zero _), fun i i' _ h1 _ => h1, fun i i' _ h1 _ => h1⟩
          · obtain rfl : i = 0 := by omega
            obtain rfl : j = 0 := by omega
            simpa using hz
          · obtain rfl : i = 0 := by omega
            obtain rfl : j = 0 := by omega
            exact hz
        · refine ⟨⟨le_rfl, le_rfl, fun k hk => ?_, fun i hi j hj => ?_⟩, ⟨fun i hi => hi, fun i _ j _ e => e⟩,
            ⟨fun i hi => hi, fun i _ j _ e => e⟩, fun i hi j hj _ _ => by omega, fun k hk i hi h1 => by omega,
            fun k hk i hi h1 => by omega, fun i i' _ h1 _ => h1, fun i i' _ h1 _ => h1⟩
          · obtain rfl : k = 0 := by omega
            exact hz
          · obtain rfl : i = 0 := by omega
            obtain rfl : j = 0 := by omega
            rw [sum_range_one, lu_diag]
      · rif h2
        · subst hld
          exact pluqCrout_spec cyclicShiftRow_on cat jk d h (lP.trans hP) (lQ.trans hQ)
        · subst hld
          exact pluqStep_spec hg ht jk (fun jk m0 m W' V P Q e1 e2 => ih jk m0 m W' V P Q e1 (by omega)) h (lP.trans hP) (lQ.trans hQ) (by omega) (by omega)
            (by omega)

theorem pluq_spec (cat : Cat) {g : GemmFn K} {ts : TrsmFn K} (hg : GemmOk g) (ht : TrsmOk ts) (thr : ℕ) (jk : List ℕ → ℕ → ℕ) (d : Diag) {P Q : Arr ℕ}
    (h : On m0 m W V) (hP : P.len = W.r) (hQ : Q.len = W.c) :
    Run (pluq cat g ts thr jk d W.r W.c W.p W.ld P Q) m (PluqPost d m0 W V) :=
  pluqRec_spec cat hg ht thr W.ld d (W.r + W.c + 1) jk m0 m W V P Q rfl (Nat.lt_succ_self _) hP hQ h


end Verif.FF
