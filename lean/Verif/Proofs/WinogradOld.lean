import Verif.Model.WinogradOld
import Verif.Proofs.Winograd3

/-!
# The schedule `WinogradAcc_3_23`
-/

namespace Verif.FF

open Finset

variable {K : Type} [Field K] [DecidableEq K]

section
variable {m : Mem K} {ta tb : Tr} {mr nr kr A lda B ldb C ldc : ℕ} {alpha : K}

lemma winogradAccOld_ok (cat : Cat) {g : GemmFn K} (hg : GemmAt g ta tb mr nr kr) (beta : K)
    (h : GPre m ta tb (2 * mr) (2 * nr) (2 * kr) A lda B ldb C ldc) :
    Run (winogradAccOld cat g ta tb mr nr kr alpha A lda B ldb beta C ldc) m (fun _ m' => Step m m' ⟨C, ldc, 2 * mr, 2 * nr⟩
      (gval m ta tb (2 * mr) (2 * nr) (2 * kr) alpha A lda B ldb beta C ldc)) := by
  unfold winogradAccOld
  simp only [Run_bind]
  obtain ⟨σ0, h0⟩ : ∃ σ0 : WB → ℕ → ℕ → K, σ0 = fun v => m.mat (wfam ta tb mr nr kr A lda B ldb C ldc noWin noWin noWin v) :=
    ⟨_, rfl⟩
  have s : St m ⟨C, ldc, 2 * mr, 2 * nr⟩ [] (wfam ta tb mr nr kr A lda B ldb C ldc noWin noWin noWin) σ0 m :=
    St.start h.wf _ _ _ (fun _ _ _ _ _ => by rw [h0])
  have F0 := wfam_ok (l := []) h (TmpOk.no m _) (TmpOk.no m _) (TmpOk.no m _) (fun _ _ => noWin_Has) (fun _ _ => noWin_Has) (fun _ _ => noWin_Has)
  refine (s.k_gemm F0 hg alpha beta .a12 .b21 .c11 trivial (by decide) (by decide) rfl rfl rfl rfl rfl rfl).mono ?_
  rintro _ m1' ⟨σ1, e1, f1, s⟩
  refine (s.alloc (max mr kr * nr)).mono ?_
  rintro X3 m1 ⟨hX3, -, s⟩
  have b3 : InBlk ⟨X3, ldTmp tb (max mr kr) nr, opr tb kr nr, opc tb kr nr⟩ (X3, max mr kr * nr) := by
    refine InBlk.mk (fun i hi j hj => ?_)
    cases tb
    · exact lt_of_lt_of_le (flat_lt hi hj) (Nat.mul_le_mul_right _ (le_max_right _ _))
    · rw [Nat.mul_comm (max mr kr) nr]
      exact flat_lt hi (lt_of_lt_of_le hj (le_max_right _ _))
  have hl3 : opc tb kr nr ≤ ldTmp tb (max mr kr) nr := by
    cases tb
    · exact le_rfl
    · exact le_max_right _ _
  have b3' : InBlk ⟨X3, nr, mr, nr⟩ (X3, max mr kr * nr) := InBlk.mk (fun i hi j hj =>
    lt_of_lt_of_le (flat_lt hi hj) (Nat.mul_le_mul_right _ (le_max_left _ _)))
  have F1 := wfam_ok (X1 := noWin) (X2 := noWin) (l := [(X3, max mr kr * nr)]) h (TmpOk.no m _) (TmpOk.no m _)
    (TmpOk.blk h.wf (by simp) hX3 b3 hl3) (fun _ _ => noWin_Has) (fun _ h => absurd h noWin_Has) (fun _ h => absurd h noWin_Has)
  obtain ⟨σ2, f2, s⟩ := setX3 s ⟨X3, ldTmp tb (max mr kr) nr, opr tb kr nr, opc tb kr nr⟩
  refine (s.k_fsub F1 cat .b22 .b12 .x3 trivial rfl rfl rfl rfl).mono ?_
  rintro _ m3' ⟨σ3, e3, f3, s⟩
  refine (s.alloc (mr * kr)).mono ?_
  rintro X2 m3 ⟨hX2, hX32, s⟩
  have hX32 : X3 + max mr kr * nr ≤ X2 := hX32 (X3, max mr kr * nr) (by simp)
  have b2 : InBlk ⟨X2, opc ta mr kr, opr ta mr kr, opc ta mr kr⟩ (X2, mr * kr) := by
    have := InBlk.full X2 (opr ta mr kr) (opc ta mr kr)
    rwa [opr_mul_opc] at this
  have F2 := wfam_ok (X1 := noWin) (l := [(X2, mr * kr), (X3, max mr kr * nr)]) h (TmpOk.no m _)
    (TmpOk.blk h.wf (by simp) hX2 b2 le_rfl) (TmpOk.blk h.wf (by simp) hX3 b3 hl3) (fun _ h => absurd h noWin_Has)
    (fun _ h => absurd h noWin_Has) (b3.disj b2 hX32).symm
  obtain ⟨σ4, f4, s⟩ := setX2 s ⟨X2, opc ta mr kr, opr ta mr kr, opc ta mr kr⟩
  refine (s.k_fsub F2 cat .a11 .a21 .x2 trivial rfl rfl rfl rfl).mono ?_
  rintro _ m5' ⟨σ5, e5, f5, s⟩
  refine (s.k_fsubin F2 cat .c12 .c22 trivial rfl rfl).mono ?_
  rintro _ m6' ⟨σ6, e6, f6, s⟩
  refine (s.k_fsubin F2 cat .c22 .c21 trivial rfl rfl).mono ?_
  rintro _ m7' ⟨σ7, e7, f7, s⟩
  refine (s.k_gemm F2 hg alpha beta .x2 .x3 .c22 trivial (by decide) (by decide) rfl rfl rfl rfl rfl rfl).mono ?_
  rintro _ m8' ⟨σ8, e8, f8, s⟩
  refine (s.k_fsub F2 cat .b12 .b11 .x3 trivial rfl rfl rfl rfl).mono ?_
  rintro _ m9' ⟨σ9, e9, f9, s⟩
  refine (s.k_fadd F2 cat .a21 .a22 .x2 trivial rfl rfl rfl rfl).mono ?_
  rintro _ m10' ⟨σ10, e10, f10, s⟩
  refine (s.k_gemm F2 hg alpha beta .x2 .x3 .c12 trivial (by decide) (by decide) rfl rfl rfl rfl rfl rfl).mono ?_
  rintro _ m11' ⟨σ11, e11, f11, s⟩
  refine (s.k_fsub F2 cat .b22 .x3 .x3 trivial rfl rfl rfl rfl).mono ?_
  rintro _ m12' ⟨σ12, e12, f12, s⟩
  refine (s.k_fsubin F2 cat .a11 .x2 trivial rfl rfl).mono ?_
  rintro _ m13' ⟨σ13, e13, f13, s⟩
  refine (s.alloc (mr * nr)).mono ?_
  rintro X1 m5 ⟨hX1, hX1n, s⟩
  have hX21 : X2 + mr * kr ≤ X1 := hX1n (X2, mr * kr) (by simp)
  have hX31 : X3 + max mr kr * nr ≤ X1 := hX1n (X3, max mr kr * nr) (by simp)
  have b1 := InBlk.full X1 mr nr
  have F3 := wfam_ok (l := [(X1, mr * nr), (X2, mr * kr), (X3, max mr kr * nr)]) h
    (TmpOk.blk h.wf (by simp) hX1 b1 le_rfl)
    (TmpOk.blk h.wf (by simp) hX2 b2 le_rfl) (TmpOk.blk h.wf (by simp) hX3 b3 hl3) (b2.disj b1 hX21).symm
    (b3.disj b1 hX31).symm (b3.disj b2 hX32).symm
  have F4 := wfam_ok (l := [(X1, mr * nr), (X2, mr * kr), (X3, max mr kr * nr)]) h
    (TmpOk.blk h.wf (by simp) hX1 b1 le_rfl)
    (TmpOk.blk h.wf (by simp) hX2 b2 le_rfl) (TmpOk.blk h.wf (by simp) hX3 b3' le_rfl) (b2.disj b1 hX21).symm
    (b3'.disj b1 hX31).symm (b3'.disj b2 hX32).symm
  have F5 := wfam_ok (X1 := noWin) (l := [(X2, mr * kr), (X3, max mr kr * nr)]) h (TmpOk.no m _)
    (TmpOk.blk h.wf (by simp) hX2 b2 le_rfl) (TmpOk.blk h.wf (by simp) hX3 b3' le_rfl) (fun _ h => absurd h noWin_Has)
    (fun _ h => absurd h noWin_Has) (b3'.disj b2 hX32).symm
  have F6 := wfam_ok (X1 := noWin) (X3 := noWin) (l := [(X2, mr * kr)]) h (TmpOk.no m _)
    (TmpOk.blk h.wf (by simp) hX2 b2 le_rfl) (TmpOk.no m _) (fun _ h => absurd h noWin_Has)
    (fun _ h => absurd h noWin_Has) (fun _ _ => noWin_Has)
  obtain ⟨σ14, f14, s⟩ := setX1 s ⟨X1, nr, mr, nr⟩
  refine (s.k_gemm F3 hg alpha 0 .x2 .x3 .x1 trivial (by decide) (by decide) rfl rfl rfl rfl rfl rfl).mono ?_
  rintro _ m15' ⟨σ15, e15, f15, s⟩
  refine (s.k_fsubin F3 cat .b21 .x3 trivial rfl rfl).mono ?_
  rintro _ m16' ⟨σ16, e16, f16, s⟩
  refine (s.k_fsub F3 cat .a12 .x2 .x2 trivial rfl rfl rfl rfl).mono ?_
  rintro _ m17' ⟨σ17, e17, f17, s⟩
  refine (s.k_gemm F3 hg alpha (-beta) .a22 .x3 .c21 trivial (by decide) (by decide) rfl rfl rfl rfl rfl rfl).mono ?_
  rintro _ m18' ⟨σ18, e18, f18, s⟩
  obtain ⟨σ19, f19, s⟩ := setX3 s ⟨X3, nr, mr, nr⟩
  refine (s.k_gemm F4 hg alpha 0 .a11 .b11 .x3 trivial (by decide) (by decide) rfl rfl rfl rfl rfl rfl).mono ?_
  rintro _ m20' ⟨σ20, e20, f20, s⟩
  refine (s.k_faddin F4 cat .x3 .c11 trivial rfl rfl).mono ?_
  rintro _ m21' ⟨σ21, e21, f21, s⟩
  refine (s.k_faddin F4 cat .x3 .x1 trivial rfl rfl).mono ?_
  rintro _ m22' ⟨σ22, e22, f22, s⟩
  refine (s.k_fadd F4 cat .x1 .c22 .x3 trivial rfl rfl rfl rfl).mono ?_
  rintro _ m23' ⟨σ23, e23, f23, s⟩
  refine (s.k_fadd F4 cat .c12 .x3 .c22 trivial rfl rfl rfl rfl).mono ?_
  rintro _ m24' ⟨σ24, e24, f24, s⟩
  refine (s.k_faddin F4 cat .x1 .c12 trivial rfl rfl).mono ?_
  rintro _ m25' ⟨σ25, e25, f25, s⟩
  refine (St.free (l1 := []) (l2 := [(X2, mr * kr), (X3, max mr kr * nr)]) s h.wf (by simpa using ⟨Or.inl hX21, Or.inl hX31⟩)).mono ?_
  intro _ m29 s
  obtain ⟨σ26, f26, s⟩ := setX1 s noWin
  refine (s.k_fsub F5 cat .x3 .c21 .c21 trivial rfl rfl rfl rfl).mono ?_
  rintro _ m27' ⟨σ27, e27, f27, s⟩
  refine (St.free (l1 := [(X2, mr * kr)]) (l2 := []) s h.wf (by simpa using Or.inr hX32)).mono ?_
  intro _ m30 s
  obtain ⟨σ28, f28, s⟩ := setX3 s noWin
  refine (s.k_gemm F6 hg alpha 1 .x2 .b22 .c12 trivial (by decide) (by decide) rfl rfl rfl rfl rfl rfl).mono ?_
  rintro _ m29' ⟨σ29, e29, f29, s⟩
  refine (St.free (l1 := []) (l2 := []) s h.wf (by simp)).mono ?_
  intro _ m33 s
  refine wfinish s h0 ?_ ?_ ?_ ?_ <;> intro i j <;>
    simp only [e1, f1, f2, e3, f3, f4, e5, f5, e6, f6, e7, f7, e8, f8, e9, f9, e10, f10, e11, f11, e12, f12, e13, f13, f14, e15, f15, e16, f16, e17, f17, e18, f18, f19, e20, f20, e21, f21, e22, f22, e23, f23, e24, f24, e25, f25, f26, e27, f27, f28, e29, f29, ne_eq, reduceCtorEq, not_false_eq_true, op_add, op_sub, mul_addL, mul_addR, mul_subL, mul_subR] <;>
    ring

end

lemma winogradCalcOld_ok (cat : Cat) {g : GemmFn K} {m : Mem K} {ta tb : Tr} {mr nr kr A lda B ldb C ldc : ℕ} {alpha beta : K}
    (hg : GemmAt g ta tb mr nr kr) (h : GPre m ta tb (2 * mr) (2 * nr) (2 * kr) A lda B ldb C ldc) :
    Run (winogradCalcOld cat g ta tb mr nr kr alpha A lda B ldb beta C ldc) m (fun _ m' => Step m m' ⟨C, ldc, 2 * mr, 2 * nr⟩
      (gval m ta tb (2 * mr) (2 * nr) (2 * kr) alpha A lda B ldb beta C ldc)) := by
  unfold winogradCalcOld
  rif hb
  · subst hb; exact winograd_ok cat hg h
  · exact winogradAccOld_ok cat hg beta h

/-- Winograd `fgemm` is correct on every call, for every recursion level and every threshold of at least 2. -/
lemma gemmWinoOld_ok (cat : Cat) (th : ℕ) (hth : 2 ≤ th) (fuel : ℕ) : ∀ (lev : Option ℕ) (ta tb : Tr) (m n k : ℕ),
    winoFuel lev m n k ≤ fuel → GemmAt (gemmWinoOld (K := K) cat th fuel lev) ta tb m n k := by
  induction fuel with
  | zero => intro lev ta tb m n k h; cases lev <;> simp [winoFuel] at h
  | succ fuel ih =>
    intro lev ta tb m n k hf mem alpha A lda B ldb beta C ldc h
    unfold gemmWinoOld
    rif h0
    · exact gemm_empty h0
    rif hk
    · exact gemm_exit cat h (Or.inl hk)
    push Not at h0
    have hmin : 0 < min m (min k n) := by omega
    have hst := winogradSteps_le th hth _ hmin
    generalize hw : lev.getD (winogradSteps th (min m (min k n))) = W
    cases W with
    | zero => exact gemmClassic_ok cat _ _ _ _ _ _ _ _ _ _ _ _ _ _ h
    | succ w =>
      simp only [Run_bind]
      have lm := half_le m w
      have ln := half_le n w
      have lk := half_le k w
      have hpos : lev = none → 0 < (m >>> (w+1)) <<< w ∧ 0 < (n >>> (w+1)) <<< w ∧ 0 < (k >>> (w+1)) <<< w ∧ w + 2 ≤ m := by
        rintro rfl
        simp only [Option.getD_none] at hw
        rw [hw] at hst
        have := Nat.lt_two_pow_self (n := w+1)
        exact ⟨half_pos (by omega), half_pos (by omega), half_pos (by omega), by omega⟩
      generalize (m >>> (w+1)) <<< w = m2 at *
      generalize (n >>> (w+1)) <<< w = n2 at *
      generalize (k >>> (w+1)) <<< w = k2 at *
      have hsub : GPre mem ta tb (2 * m2) (2 * n2) (2 * k2) A lda B ldb C ldc := by
        have := h.sub (i0 := 0) (j0 := 0) (l0 := 0) (m' := 2 * m2) (n' := 2 * n2) (k' := 2 * k2) (by omega) (by omega) (by omega)
        rwa [← q11_eq, ← q11_eq, Nat.zero_mul, Nat.add_zero] at this
      have hcalc : GemmAt (gemmWinoOld (K := K) cat th fuel (some w)) ta tb m2 n2 k2 := by
        refine ih _ _ _ _ _ _ ?_
        cases lev with
        | none =>
          have := hpos rfl
          simp only [winoFuel] at hf ⊢; omega
        | some w' =>
          simp only [Option.getD_some] at hw
          simp only [winoFuel] at hf ⊢; omega
      refine (winogradCalcOld_ok cat hcalc hsub).mono (fun _ m1 s1 => ?_)
      refine peeling_ok h lm ln lk (fun m' n' k' h1 h2 h3 h4 => ih _ _ _ _ _ _ ?_) s1
      cases lev with
      | none =>
        have := hpos rfl
        simp only [winoFuel] at hf ⊢; omega
      | some w' =>
        simp only [winoFuel] at hf ⊢; omega

end Verif.FF
