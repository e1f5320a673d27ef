import Verif.Proofs.Winograd

/-!
# The two schedules
-/

namespace Verif.FF

open Finset

variable {K : Type} [Field K] [DecidableEq K]

section
variable {m m' : Mem K} {ta tb : Tr} {mr nr kr A lda B ldb C ldc : ℕ} {D : Win} {l : List (ℕ × ℕ)} {X1 X2 X3 : Win}
  {σ : WB → ℕ → ℕ → K}

omit [Field K] [DecidableEq K] in
lemma setX1 (s : St m D l (wfam ta tb mr nr kr A lda B ldb C ldc X1 X2 X3) σ m') (X : Win) :
    ∃ σ', (∀ v, v ≠ .x1 → σ' v = σ v) ∧ St m D l (wfam ta tb mr nr kr A lda B ldb C ldc X X2 X3) σ' m' := by
  refine ⟨Function.update σ .x1 (m'.mat X), fun _ hv => Function.update_of_ne hv _ _, s.remap _ _ (fun v => ?_)⟩
  by_cases e : v = .x1
  · subst e; intro i _ j _; rw [Function.update_self]; rfl
  · rw [Function.update_of_ne e]
    have := s.holds v
    cases v <;> first | contradiction | exact this

omit [Field K] [DecidableEq K] in
lemma setX2 (s : St m D l (wfam ta tb mr nr kr A lda B ldb C ldc X1 X2 X3) σ m') (X : Win) :
    ∃ σ', (∀ v, v ≠ .x2 → σ' v = σ v) ∧ St m D l (wfam ta tb mr nr kr A lda B ldb C ldc X1 X X3) σ' m' := by
  refine ⟨Function.update σ .x2 (m'.mat X), fun _ hv => Function.update_of_ne hv _ _, s.remap _ _ (fun v => ?_)⟩
  by_cases e : v = .x2
  · subst e; intro i _ j _; rw [Function.update_self]; rfl
  · rw [Function.update_of_ne e]
    have := s.holds v
    cases v <;> first | contradiction | exact this

omit [Field K] [DecidableEq K] in
lemma setX3 (s : St m D l (wfam ta tb mr nr kr A lda B ldb C ldc X1 X2 X3) σ m') (X : Win) :
    ∃ σ', (∀ v, v ≠ .x3 → σ' v = σ v) ∧ St m D l (wfam ta tb mr nr kr A lda B ldb C ldc X1 X2 X) σ' m' := by
  refine ⟨Function.update σ .x3 (m'.mat X), fun _ hv => Function.update_of_ne hv _ _, s.remap _ _ (fun v => ?_)⟩
  by_cases e : v = .x3
  · subst e; intro i _ j _; rw [Function.update_self]; rfl
  · rw [Function.update_of_ne e]
    have := s.holds v
    cases v <;> first | contradiction | exact this

end

section split
variable (m : Mem K) (ta tb : Tr) (mr nr kr A lda B ldb : ℕ)

omit [Field K] [DecidableEq K] in
lemma opAdr_q {t : Tr} {A lda mr kr i l : ℕ} : opAdr t A lda i (kr + l) = opAdr t (q12 t A lda mr kr) lda i l ∧
    opAdr t A lda (mr + i) l = opAdr t (q21 t A lda mr kr) lda i l ∧
    opAdr t A lda (mr + i) (kr + l) = opAdr t (q22 t A lda mr kr) lda i l := by
  cases t <;> refine ⟨?_, ?_, ?_⟩ <;> simp only [opAdr, q12, q21, q22] <;> ring

omit [DecidableEq K] in
/-- block product: `A`-blocks at `pa, pa'`, `B`-blocks at `pb, pb'` -/
lemma split_mul {i j i' j' pa pa' pb pb' : ℕ} (ha : ∀ l, opAdr ta A lda i l = opAdr ta pa lda i' l)
    (ha' : ∀ l, opAdr ta A lda i (kr + l) = opAdr ta pa' lda i' l) (hb : ∀ l, opAdr tb B ldb l j = opAdr tb pb ldb l j')
    (hb' : ∀ l, opAdr tb B ldb (kr + l) j = opAdr tb pb' ldb l j') :
    Spec.mul (2 * kr) (Spec.op ta (m.mat (aw ta (2 * mr) (2 * kr) A lda))) (Spec.op tb (m.mat (aw tb (2 * kr) (2 * nr) B ldb))) i j
    = Spec.mul kr (Spec.op ta (m.mat ⟨pa, lda, opr ta mr kr, opc ta mr kr⟩)) (Spec.op tb (m.mat ⟨pb, ldb, opr tb kr nr, opc tb kr nr⟩)) i' j'
    + Spec.mul kr (Spec.op ta (m.mat ⟨pa', lda, opr ta mr kr, opc ta mr kr⟩)) (Spec.op tb (m.mat ⟨pb', ldb, opr tb kr nr, opc tb kr nr⟩)) i' j' := by
  unfold Spec.mul
  rw [two_mul, sum_range_add]
  congr 1
  · refine sum_congr rfl (fun l _ => ?_)
    rw [op_mat, op_mat, ha, hb]
    exact congrArg₂ _ (op_mat ta m mr kr pa lda i' l).symm (op_mat tb m kr nr pb ldb l j').symm
  · refine sum_congr rfl (fun l _ => ?_)
    rw [op_mat, op_mat, ha', hb']
    exact congrArg₂ _ (op_mat ta m mr kr pa' lda i' l).symm (op_mat tb m kr nr pb' ldb l j').symm

end split

/-- what remains to check at the end of a schedule -/
lemma wfinish {m m' : Mem K} {ta tb : Tr} {mr nr kr A lda B ldb C ldc : ℕ} {X1 X2 X3 : Win} {alpha beta : K}
    {σ σ0 : WB → ℕ → ℕ → K} (s : St m ⟨C, ldc, 2 * mr, 2 * nr⟩ [] (wfam ta tb mr nr kr A lda B ldb C ldc X1 X2 X3) σ m')
    (h0 : σ0 = fun v => m.mat (wfam ta tb mr nr kr A lda B ldb C ldc noWin noWin noWin v))
    (h11 : ∀ i j, σ .c11 i j = alpha * (Spec.mul kr (Spec.op ta (σ0 .a11)) (Spec.op tb (σ0 .b11)) i j
      + Spec.mul kr (Spec.op ta (σ0 .a12)) (Spec.op tb (σ0 .b21)) i j) + beta * σ0 .c11 i j)
    (h12 : ∀ i j, σ .c12 i j = alpha * (Spec.mul kr (Spec.op ta (σ0 .a11)) (Spec.op tb (σ0 .b12)) i j
      + Spec.mul kr (Spec.op ta (σ0 .a12)) (Spec.op tb (σ0 .b22)) i j) + beta * σ0 .c12 i j)
    (h21 : ∀ i j, σ .c21 i j = alpha * (Spec.mul kr (Spec.op ta (σ0 .a21)) (Spec.op tb (σ0 .b11)) i j
      + Spec.mul kr (Spec.op ta (σ0 .a22)) (Spec.op tb (σ0 .b21)) i j) + beta * σ0 .c21 i j)
    (h22 : ∀ i j, σ .c22 i j = alpha * (Spec.mul kr (Spec.op ta (σ0 .a21)) (Spec.op tb (σ0 .b12)) i j
      + Spec.mul kr (Spec.op ta (σ0 .a22)) (Spec.op tb (σ0 .b22)) i j) + beta * σ0 .c22 i j) :
    Step m m' ⟨C, ldc, 2 * mr, 2 * nr⟩ (gval m ta tb (2 * mr) (2 * nr) (2 * kr) alpha A lda B ldb beta C ldc) := by
  refine s.finish (fun i hi j hj => ?_)
  have hi : i < 2 * mr := hi
  have hj : j < 2 * nr := hj
  subst h0
  unfold gval
  by_cases ci : i < mr <;> by_cases cj : j < nr
  · have e := (s.holds .c11 i ci j cj).trans (h11 i j)
    rw [split_mul m ta tb mr nr kr A lda B ldb (fun _ => rfl) (fun _ => opAdr_q.1) (fun _ => rfl) (fun _ => opAdr_q.2.1)]
    exact e
  · obtain ⟨j', rfl⟩ : ∃ j', j = nr + j' := ⟨j - nr, by omega⟩
    have e := (s.holds .c12 i ci j' (by simp only [wfam]; omega)).trans (h12 i j')
    rw [split_mul m ta tb mr nr kr A lda B ldb (fun _ => rfl) (fun _ => opAdr_q.1) (fun _ => opAdr_q.1) (fun _ => opAdr_q.2.2)]
    simp only [wfam, Mem.mat, Win.adr_mk] at e ⊢
    rw [show C + i * ldc + (nr + j') = C + nr + i * ldc + j' by ring]
    exact e
  · obtain ⟨i', rfl⟩ : ∃ i', i = mr + i' := ⟨i - mr, by omega⟩
    have e := (s.holds .c21 i' (by simp only [wfam]; omega) j cj).trans (h21 i' j)
    rw [split_mul m ta tb mr nr kr A lda B ldb (fun _ => opAdr_q.2.1) (fun _ => opAdr_q.2.2) (fun _ => rfl) (fun _ => opAdr_q.2.1)]
    simp only [wfam, Mem.mat, Win.adr_mk] at e ⊢
    rw [show C + (mr + i') * ldc + j = C + mr * ldc + i' * ldc + j by ring]
    exact e
  · obtain ⟨i', rfl⟩ : ∃ i', i = mr + i' := ⟨i - mr, by omega⟩
    obtain ⟨j', rfl⟩ : ∃ j', j = nr + j' := ⟨j - nr, by omega⟩
    have e := (s.holds .c22 i' (by simp only [wfam]; omega) j' (by simp only [wfam]; omega)).trans (h22 i' j')
    rw [split_mul m ta tb mr nr kr A lda B ldb (fun _ => opAdr_q.2.1) (fun _ => opAdr_q.2.2) (fun _ => opAdr_q.1) (fun _ => opAdr_q.2.2)]
    simp only [wfam, Mem.mat, Win.adr_mk] at e ⊢
    rw [show C + (mr + i') * ldc + (nr + j') = C + mr * ldc + nr + i' * ldc + j' by ring]
    exact e

lemma InBlk.full (p r c : ℕ) : InBlk ⟨p, c, r, c⟩ (p, r * c) := InBlk.mk (fun _ hi _ hj => flat_lt hi hj)

lemma opr_mul_opc (t : Tr) (m k : ℕ) : opr t m k * opc t m k = m * k := by
  cases t
  · rfl
  · exact Nat.mul_comm _ _

section wino
variable {m : Mem K} {ta tb : Tr} {mr nr kr A lda B ldb C ldc : ℕ} {alpha : K}

lemma winograd_ok (cat : Cat) {g : GemmFn K} (hg : GemmAt g ta tb mr nr kr)
    (h : GPre m ta tb (2 * mr) (2 * nr) (2 * kr) A lda B ldb C ldc) :
    Run (winograd cat g ta tb mr nr kr alpha A lda B ldb C ldc) m (fun _ m' => Step m m' ⟨C, ldc, 2 * mr, 2 * nr⟩
      (gval m ta tb (2 * mr) (2 * nr) (2 * kr) alpha A lda B ldb 0 C ldc)) := by
  unfold winograd
  simp only [Run_bind]
  obtain ⟨σ0, h0⟩ : ∃ σ0 : WB → ℕ → ℕ → K, σ0 = fun v => m.mat (wfam ta tb mr nr kr A lda B ldb C ldc noWin noWin noWin v) :=
    ⟨_, rfl⟩
  have s : St m ⟨C, ldc, 2 * mr, 2 * nr⟩ [] (wfam ta tb mr nr kr A lda B ldb C ldc noWin noWin noWin) σ0 m :=
    St.start h.wf _ _ _ (fun _ _ _ _ _ => by rw [h0])
  refine (s.alloc (kr * nr)).mono ?_
  rintro X2 m1 ⟨hX2, -, s⟩
  obtain ⟨σ1, f1, s⟩ := setX2 s ⟨X2, opc tb kr nr, opr tb kr nr, opc tb kr nr⟩
  have b2 : InBlk ⟨X2, opc tb kr nr, opr tb kr nr, opc tb kr nr⟩ (X2, kr * nr) := by
    have := InBlk.full X2 (opr tb kr nr) (opc tb kr nr)
    rwa [opr_mul_opc] at this
  have F := wfam_ok h (TmpOk.no m [(X2, kr * nr)]) (TmpOk.blk h.wf (by simp) hX2 b2 le_rfl) (TmpOk.no m _)
    (fun _ h => absurd h noWin_Has) (fun _ h => absurd h noWin_Has) (fun _ _ => noWin_Has)
  refine (s.k_fsub F cat .b22 .b12 .x2 trivial rfl rfl rfl rfl).mono ?_
  rintro _ m2 ⟨σ2, e2, f2, s⟩
  refine (s.alloc (mr * max nr kr)).mono ?_
  rintro X1 m3 ⟨hX1, hX12, s⟩
  have hX12 : X2 + kr * nr ≤ X1 := hX12 (X2, kr * nr) (by simp)
  have b1 : InBlk ⟨X1, ldTmp ta mr (max nr kr), opr ta mr kr, opc ta mr kr⟩ (X1, mr * max nr kr) := by
    refine InBlk.mk (fun i hi j hj => ?_)
    cases ta
    · exact flat_lt hi (lt_of_lt_of_le hj (le_max_right _ _))
    · exact lt_of_lt_of_le (flat_lt hi hj) (by
        rw [Nat.mul_comm]; exact Nat.mul_le_mul_left _ (le_max_right _ _))
  have hl1 : opc ta mr kr ≤ ldTmp ta mr (max nr kr) := by
    cases ta
    · exact le_max_right _ _
    · exact le_rfl
  have b1' : InBlk ⟨X1, nr, mr, nr⟩ (X1, mr * max nr kr) := InBlk.mk (fun i hi j hj =>
    lt_of_lt_of_le (flat_lt hi hj) (Nat.mul_le_mul_left _ (le_max_left _ _)))
  have F := wfam_ok (X1 := ⟨X1, ldTmp ta mr (max nr kr), opr ta mr kr, opc ta mr kr⟩)
    (l := [(X1, mr * max nr kr), (X2, kr * nr)]) h (TmpOk.blk h.wf (by simp) hX1 b1 hl1)
    (TmpOk.blk h.wf (by simp) hX2 b2 le_rfl) (TmpOk.no m _) (b2.disj b1 hX12).symm (fun _ _ => noWin_Has) (fun _ _ => noWin_Has)
  have F' := wfam_ok (X1 := ⟨X1, nr, mr, nr⟩)
    (l := [(X1, mr * max nr kr), (X2, kr * nr)]) h (TmpOk.blk h.wf (by simp) hX1 b1' le_rfl)
    (TmpOk.blk h.wf (by simp) hX2 b2 le_rfl) (TmpOk.no m _) (b2.disj b1' hX12).symm (fun _ _ => noWin_Has) (fun _ _ => noWin_Has)
  have F'' := wfam_ok (X1 := ⟨X1, nr, mr, nr⟩)
    (l := [(X1, mr * max nr kr)]) h (TmpOk.blk h.wf (by simp) hX1 b1' le_rfl)
    (TmpOk.no m _) (TmpOk.no m _) (fun _ _ => noWin_Has) (fun _ _ => noWin_Has) (fun _ _ => noWin_Has)
  obtain ⟨σ3, f3, s⟩ := setX1 s ⟨X1, ldTmp ta mr (max nr kr), opr ta mr kr, opc ta mr kr⟩
  refine (s.k_fsub F cat .a11 .a21 .x1 trivial rfl rfl rfl rfl).mono ?_
  rintro _ m4 ⟨σ4, e4, f4, s⟩
  refine (s.k_gemm F hg alpha 0 .x1 .x2 .c21 trivial (by decide) (by decide) rfl rfl rfl rfl rfl rfl).mono ?_
  rintro _ m5 ⟨σ5, e5, f5, s⟩
  refine (s.k_fsub F cat .b12 .b11 .x2 trivial rfl rfl rfl rfl).mono ?_
  rintro _ m6 ⟨σ6, e6, f6, s⟩
  refine (s.k_fadd F cat .a21 .a22 .x1 trivial rfl rfl rfl rfl).mono ?_
  rintro _ m7 ⟨σ7, e7, f7, s⟩
  refine (s.k_gemm F hg alpha 0 .x1 .x2 .c22 trivial (by decide) (by decide) rfl rfl rfl rfl rfl rfl).mono ?_
  rintro _ m8 ⟨σ8, e8, f8, s⟩
  refine (s.k_fsub F cat .b22 .x2 .x2 trivial rfl rfl rfl rfl).mono ?_
  rintro _ m9 ⟨σ9, e9, f9, s⟩
  refine (s.k_fsubin F cat .a11 .x1 trivial rfl rfl).mono ?_
  rintro _ m10 ⟨σ10, e10, f10, s⟩
  refine (s.k_gemm F hg alpha 0 .x1 .x2 .c12 trivial (by decide) (by decide) rfl rfl rfl rfl rfl rfl).mono ?_
  rintro _ m11 ⟨σ11, e11, f11, s⟩
  refine (s.k_fsub F cat .a12 .x1 .x1 trivial rfl rfl rfl rfl).mono ?_
  rintro _ m12 ⟨σ12, e12, f12, s⟩
  refine (s.k_gemm F hg alpha 0 .x1 .b22 .c11 trivial (by decide) (by decide) rfl rfl rfl rfl rfl rfl).mono ?_
  rintro _ m13 ⟨σ13, e13, f13, s⟩
  obtain ⟨σ14, f14, s⟩ := setX1 s ⟨X1, nr, mr, nr⟩
  refine (s.k_gemm F' hg alpha 0 .a11 .b11 .x1 trivial (by decide) (by decide) rfl rfl rfl rfl rfl rfl).mono ?_
  rintro _ m14 ⟨σ15, e15, f15, s⟩
  refine (s.k_faddin F' cat .x1 .c12 trivial rfl rfl).mono ?_
  rintro _ m15 ⟨σ16, e16, f16, s⟩
  refine (s.k_faddin F' cat .c12 .c21 trivial rfl rfl).mono ?_
  rintro _ m16 ⟨σ17, e17, f17, s⟩
  refine (s.k_faddin F' cat .c22 .c12 trivial rfl rfl).mono ?_
  rintro _ m17 ⟨σ18, e18, f18, s⟩
  refine (s.k_faddin F' cat .c21 .c22 trivial rfl rfl).mono ?_
  rintro _ m18 ⟨σ19, e19, f19, s⟩
  refine (s.k_faddin F' cat .c11 .c12 trivial rfl rfl).mono ?_
  rintro _ m19 ⟨σ20, e20, f20, s⟩
  refine (s.k_fsubin F' cat .b21 .x2 trivial rfl rfl).mono ?_
  rintro _ m20 ⟨σ21, e21, f21, s⟩
  refine (s.k_gemm F' hg alpha 0 .a22 .x2 .c11 trivial (by decide) (by decide) rfl rfl rfl rfl rfl rfl).mono ?_
  rintro _ m21 ⟨σ22, e22, f22, s⟩
  refine (St.free (l1 := [(X1, mr * max nr kr)]) (l2 := []) s h.wf (by simpa using Or.inr hX12)).mono ?_
  intro _ m22 s
  obtain ⟨σ23, f23, s⟩ := setX2 s noWin
  refine (s.k_fsubin F'' cat .c11 .c21 trivial rfl rfl).mono ?_
  rintro _ m23 ⟨σ24, e24, f24, s⟩
  refine (s.k_gemm F'' hg alpha 0 .a12 .b21 .c11 trivial (by decide) (by decide) rfl rfl rfl rfl rfl rfl).mono ?_
  rintro _ m24 ⟨σ25, e25, f25, s⟩
  refine (s.k_faddin F'' cat .x1 .c11 trivial rfl rfl).mono ?_
  rintro _ m25 ⟨σ26, e26, f26, s⟩
  refine (St.free (l1 := []) (l2 := []) s h.wf (by simp)).mono ?_
  intro _ m26 s
  refine wfinish s h0 ?_ ?_ ?_ ?_ <;> intro i j <;>
    simp only [f1, e2, f2, f3, e4, f4, e5, f5, e6, f6, e7, f7, e8, f8, e9, f9, e10, f10, e11, f11, e12, f12, e13, f13, f14, e15, f15, e16, f16, e17, f17, e18, f18, e19, f19, e20, f20, e21, f21, e22, f22, f23, e24, f24, e25, f25, e26, f26, ne_eq, reduceCtorEq, not_false_eq_true, op_add, op_sub, mul_addL, mul_addR, mul_subL, mul_subR] <;>
    ring

lemma winogradAcc_ok (cat : Cat) {g : GemmFn K} (hg : GemmAt g ta tb mr nr kr) (beta : K)
    (h : GPre m ta tb (2 * mr) (2 * nr) (2 * kr) A lda B ldb C ldc) :
    Run (winogradAcc cat g ta tb mr nr kr alpha A lda B ldb beta C ldc) m (fun _ m' => Step m m' ⟨C, ldc, 2 * mr, 2 * nr⟩
      (gval m ta tb (2 * mr) (2 * nr) (2 * kr) alpha A lda B ldb beta C ldc)) := by
  unfold winogradAcc
  simp only [Run_bind]
  obtain ⟨σ0, h0⟩ : ∃ σ0 : WB → ℕ → ℕ → K, σ0 = fun v => m.mat (wfam ta tb mr nr kr A lda B ldb C ldc noWin noWin noWin v) :=
    ⟨_, rfl⟩
  have s : St m ⟨C, ldc, 2 * mr, 2 * nr⟩ [] (wfam ta tb mr nr kr A lda B ldb C ldc noWin noWin noWin) σ0 m :=
    St.start h.wf _ _ _ (fun _ _ _ _ _ => by rw [h0])
  refine (s.alloc (max mr kr * nr)).mono ?_
  rintro X3 m1 ⟨hX3, -, s⟩
  have b3 : InBlk ⟨X3, ldTmp tb (max mr kr) nr, opr tb kr nr, opc tb kr nr⟩ (X3, max mr kr * nr) := by
    refine InBlk.mk (fun i hi j hj => ?_)
    cases tb
    · exact lt_of_lt_of_le (flat_lt hi hj) (Nat.mul_le_mul_right _ (le_max_right _ _))
    · rw [Nat.mul_comm (max mr kr) nr]
      exact flat_lt hi (lt_of_lt_of_le hj (le_max_right _ _))
  have hl3 : opc tb kr nr ≤ ldTmp tb (max mr kr) nr := by
    cases tb
    · exact le_rfl
    · exact le_max_right _ _
  have F1 := wfam_ok (X1 := noWin) (X2 := noWin) (l := [(X3, max mr kr * nr)]) h (TmpOk.no m _) (TmpOk.no m _)
    (TmpOk.blk h.wf (by simp) hX3 b3 hl3) (fun _ _ => noWin_Has) (fun _ h => absurd h noWin_Has) (fun _ h => absurd h noWin_Has)
  obtain ⟨σ1, f1, s⟩ := setX3 s ⟨X3, ldTmp tb (max mr kr) nr, opr tb kr nr, opc tb kr nr⟩
  refine (s.k_fsub F1 cat .b12 .b11 .x3 trivial rfl rfl rfl rfl).mono ?_
  rintro _ m10 ⟨σ2, e2, f2, s⟩
  refine (s.alloc (mr * kr)).mono ?_
  rintro X2 m3 ⟨hX2, hX32, s⟩
  have hX32 : X3 + max mr kr * nr ≤ X2 := hX32 (X3, max mr kr * nr) (by simp)
  have b2 : InBlk ⟨X2, opc ta mr kr, opr ta mr kr, opc ta mr kr⟩ (X2, mr * kr) := by
    have := InBlk.full X2 (opr ta mr kr) (opc ta mr kr)
    rwa [opr_mul_opc] at this
  have F2 := wfam_ok (X1 := noWin) (l := [(X2, mr * kr), (X3, max mr kr * nr)]) h (TmpOk.no m _)
    (TmpOk.blk h.wf (by simp) hX2 b2 le_rfl) (TmpOk.blk h.wf (by simp) hX3 b3 hl3) (fun _ h => absurd h noWin_Has)
    (fun _ h => absurd h noWin_Has) (b3.disj b2 hX32).symm
  obtain ⟨σ3, f3, s⟩ := setX2 s ⟨X2, opc ta mr kr, opr ta mr kr, opc ta mr kr⟩
  refine (s.k_fadd F2 cat .a21 .a22 .x2 trivial rfl rfl rfl rfl).mono ?_
  rintro _ m11 ⟨σ4, e4, f4, s⟩
  refine (s.alloc (mr * nr)).mono ?_
  rintro X1 m5 ⟨hX1, hX1n, s⟩
  have hX21 : X2 + mr * kr ≤ X1 := hX1n (X2, mr * kr) (by simp)
  have hX31 : X3 + max mr kr * nr ≤ X1 := hX1n (X3, max mr kr * nr) (by simp)
  have b1 := InBlk.full X1 mr nr
  have F := wfam_ok (l := [(X1, mr * nr), (X2, mr * kr), (X3, max mr kr * nr)]) h
    (TmpOk.blk h.wf (by simp) hX1 b1 le_rfl)
    (TmpOk.blk h.wf (by simp) hX2 b2 le_rfl) (TmpOk.blk h.wf (by simp) hX3 b3 hl3) (b2.disj b1 hX21).symm
    (b3.disj b1 hX31).symm (b3.disj b2 hX32).symm
  have F' := wfam_ok (l := [(X1, mr * nr)]) h (TmpOk.blk h.wf (by simp) hX1 b1 le_rfl) (TmpOk.no m _) (TmpOk.no m _)
    (fun _ _ => noWin_Has) (fun _ _ => noWin_Has) (fun _ _ => noWin_Has)
  obtain ⟨σ5, f5, s⟩ := setX1 s ⟨X1, nr, mr, nr⟩
  refine (s.k_gemm F hg alpha 0 .x2 .x3 .x1 trivial (by decide) (by decide) rfl rfl rfl rfl rfl rfl).mono ?_
  rintro _ m12 ⟨σ6, e6, f6, s⟩
  refine (s.k_faddmul F cat beta .x1 .c22 trivial (by decide) rfl rfl).mono ?_
  rintro _ m13 ⟨σ7, e7, f7, s⟩
  refine (s.k_faddmul F cat beta .x1 .c12 trivial (by decide) rfl rfl).mono ?_
  rintro _ m14 ⟨σ8, e8, f8, s⟩
  refine (s.k_gemm F hg alpha 0 .a11 .b11 .x1 trivial (by decide) (by decide) rfl rfl rfl rfl rfl rfl).mono ?_
  rintro _ m15 ⟨σ9, e9, f9, s⟩
  refine (s.k_gemm F hg alpha beta .a12 .b21 .c11 trivial (by decide) (by decide) rfl rfl rfl rfl rfl rfl).mono ?_
  rintro _ m16 ⟨σ10, e10, f10, s⟩
  refine (s.k_faddin F cat .x1 .c11 trivial rfl rfl).mono ?_
  rintro _ m17 ⟨σ11, e11, f11, s⟩
  refine (s.k_fsub F cat .b22 .x3 .x3 trivial rfl rfl rfl rfl).mono ?_
  rintro _ m18 ⟨σ12, e12, f12, s⟩
  refine (s.k_fsubin F cat .a11 .x2 trivial rfl rfl).mono ?_
  rintro _ m19 ⟨σ13, e13, f13, s⟩
  refine (s.k_gemm F hg alpha 1 .x2 .x3 .x1 trivial (by decide) (by decide) rfl rfl rfl rfl rfl rfl).mono ?_
  rintro _ m20 ⟨σ14, e14, f14, s⟩
  refine (s.k_faddin F cat .x1 .c12 trivial rfl rfl).mono ?_
  rintro _ m21 ⟨σ15, e15, f15, s⟩
  refine (s.k_fsubin F cat .b21 .x3 trivial rfl rfl).mono ?_
  rintro _ m22 ⟨σ16, e16, f16, s⟩
  refine (s.k_fsub F cat .a12 .x2 .x2 trivial rfl rfl rfl rfl).mono ?_
  rintro _ m23 ⟨σ17, e17, f17, s⟩
  refine (s.k_gemm F hg alpha (-beta) .a22 .x3 .c21 trivial (by decide) (by decide) rfl rfl rfl rfl rfl rfl).mono ?_
  rintro _ m24 ⟨σ18, e18, f18, s⟩
  refine (s.k_gemm F hg alpha 1 .x2 .b22 .c12 trivial (by decide) (by decide) rfl rfl rfl rfl rfl rfl).mono ?_
  rintro _ m25 ⟨σ19, e19, f19, s⟩
  refine (s.k_fsub F cat .b22 .b12 .x3 trivial rfl rfl rfl rfl).mono ?_
  rintro _ m26 ⟨σ20, e20, f20, s⟩
  refine (s.k_fsub F cat .a11 .a21 .x2 trivial rfl rfl rfl rfl).mono ?_
  rintro _ m27 ⟨σ21, e21, f21, s⟩
  refine (s.k_gemm F hg alpha 1 .x2 .x3 .x1 trivial (by decide) (by decide) rfl rfl rfl rfl rfl rfl).mono ?_
  rintro _ m28 ⟨σ22, e22, f22, s⟩
  refine (St.free (l1 := [(X1, mr * nr)]) (l2 := [(X3, max mr kr * nr)]) s h.wf (by simpa using ⟨Or.inr hX21, Or.inl hX32⟩)).mono ?_
  intro _ m29 s
  refine (St.free (l1 := [(X1, mr * nr)]) (l2 := []) s h.wf (by simpa using Or.inr hX31)).mono ?_
  intro _ m30 s
  obtain ⟨σ23, f23, s⟩ := setX2 s noWin
  obtain ⟨σ24, f24, s⟩ := setX3 s noWin
  refine (s.k_faddin F' cat .x1 .c22 trivial rfl rfl).mono ?_
  rintro _ m31 ⟨σ25, e25, f25, s⟩
  refine (s.k_fsub F' cat .x1 .c21 .c21 trivial rfl rfl rfl rfl).mono ?_
  rintro _ m32 ⟨σ26, e26, f26, s⟩
  refine (St.free (l1 := []) (l2 := []) s h.wf (by simp)).mono ?_
  intro _ m33 s
  refine wfinish s h0 ?_ ?_ ?_ ?_ <;> intro i j <;>
    simp only [f1, e2, f2, f3, e4, f4, f5, e6, f6, e7, f7, e8, f8, e9, f9, e10, f10, e11, f11, e12, f12, e13, f13, e14, f14, e15, f15, e16, f16, e17, f17, e18, f18, e19, f19, e20, f20, e21, f21, e22, f22, f23, f24, e25, f25, e26, f26, ne_eq, reduceCtorEq, not_false_eq_true, op_add, op_sub, mul_addL, mul_addR, mul_subL, mul_subR] <;>
    ring

end wino

end Verif.FF
