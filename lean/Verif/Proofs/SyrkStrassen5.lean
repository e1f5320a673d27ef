import Verif.Proofs.SyrkStrassen4

/-!
# Correctness of the two schedules of the Strassen-like rank-k update
-/

namespace Verif.FF

open Finset Verif.Spec

variable {K : Type} [Field K] [DecidableEq K]

variable {m : Mem K} {u : Uplo} {t : Tr} {n2 k2 A lda C ldc : ℕ} {X V : ℕ → ℕ → K} {x y alpha beta : K}

/-- hypotheses on the memory -/
lemma gpre_of (h : On m m ⟨C, ldc, 2 * n2, 2 * n2⟩ V) (hA : OSrc m t (2 * n2) (2 * k2) A lda X)
    (hd : (aw t (2 * n2) (2 * k2) A lda).Disj ⟨C, ldc, 2 * n2, 2 * n2⟩) : GPre m t (oppTr t) (2 * n2) (2 * n2) (2 * k2) A lda A lda C ldc :=
  ⟨h.wf, hA.ok, by rw [aw_flip]; exact hA.ok, h.ok, hA.ld, by have := hA.ld; cases t <;> exact this, h.ld, hd, by rw [aw_flip]; exact hd⟩

/-- schedule without accumulation, `S1`, `S2`, `S4` in `C` -/
lemma strassen0_small (cat : Cat) {g : GemmFn K} (hg : GemmOk g) {rec : SyrkFn K} (hr : SyrkAt rec n2 k2) (hxy : x * x + y * y = -1)
    (hk : 2 * (k2 / 2) = k2) (hkn : k2 ≤ n2) (h : On m m ⟨C, ldc, 2 * n2, 2 * n2⟩ V) (hA : OSrc m t (2 * n2) (2 * k2) A lda X)
    (hd : (aw t (2 * n2) (2 * k2) A lda).Disj ⟨C, ldc, 2 * n2, 2 * n2⟩) :
    Run (strassen0 cat g rec x y u t (2 * n2) (2 * k2) alpha A lda C ldc) m (fun _ m' => ∃ V', On m m' ⟨C, ldc, 2 * n2, 2 * n2⟩ V' ∧
      ∀ i < 2 * n2, ∀ j < 2 * n2, inHalf u i j → V' i j = syVal (2 * k2) alpha 0 X V i j) := by
  have G := gpre_of h hA hd
  have lc : n2 ≤ ldc := by have : 2 * n2 ≤ ldc := h.ld; omega
  have la : ∀ P, (aw t n2 k2 P ldc).c ≤ (aw t n2 k2 P ldc).ld := fun P => le_trans (by cases t <;> simp only [aw, opc] <;> omega) lc
  have nn : ∀ W : Win, W.Disj noWin := fun W _ _ => noWin_Has
  unfold strassen0
  have ek : 2 * k2 / 2 = k2 := by omega
  have en : 2 * n2 / 2 = n2 := by omega
  have eb : decide (2 * k2 > 2 * n2) = false := by simp; omega
  simp only [ek, en, eb, newIf, freeIf, Bool.false_eq_true, if_false, pure_bind]
  -- first phase
  obtain ⟨σ0, s0, x0, -⟩ := sstart u h hA (aw t n2 k2 C ldc) (aw t n2 k2 (cDead u C ldc n2) ldc) (aw t n2 k2 (cLive u C ldc n2) ldc)
    ⟨C + n2 * ldc + n2, ldc, n2, n2⟩ noWin noWin noWin
  have F0 := sfam_ok u G (TmpOk.no m []) (TmpOk.no m []) (TmpOk.no m []) (nn _) (nn _) (nn _) (w11 := aw t n2 k2 C ldc)
    (wd := aw t n2 k2 (cDead u C ldc n2) ldc) (wl := aw t n2 k2 (cLive u C ldc n2) ldc) (w22 := ⟨C + n2 * ldc + n2, ldc, n2, n2⟩)
    (aw_small hkn) (aw_small hkn) (aw_small hkn) (fun _ h => h) (la _) (la _) (la _) lc
  have F1 := sfam_ok u G (TmpOk.no m []) (TmpOk.no m []) (TmpOk.no m []) (nn _) (nn _) (nn _) (w11 := aw t n2 k2 C ldc)
    (wd := ⟨cDead u C ldc n2, ldc, n2, n2⟩) (wl := aw t n2 k2 (cLive u C ldc n2) ldc) (w22 := ⟨C + n2 * ldc + n2, ldc, n2, n2⟩)
    (aw_small hkn) (fun _ h => h) (aw_small hkn) (fun _ h => h) (la _) lc (la _) lc
  have F2 := sfam_ok u G (TmpOk.no m []) (TmpOk.no m []) (TmpOk.no m []) (nn _) (nn _) (nn _) (w11 := aw t n2 k2 C ldc)
    (wd := ⟨cDead u C ldc n2, ldc, n2, n2⟩) (wl := ⟨cLive u C ldc n2, ldc, n2, n2⟩) (w22 := ⟨C + n2 * ldc + n2, ldc, n2, n2⟩)
    (aw_small hkn) (fun _ h => h) (fun _ h => h) (fun _ h => h) (la _) lc lc lc
  have F3 := sfam_ok u G (TmpOk.no m []) (TmpOk.no m []) (TmpOk.no m []) (nn _) (nn _) (nn _) (w11 := ⟨C, ldc, n2, n2⟩)
    (wd := ⟨cDead u C ldc n2, ldc, n2, n2⟩) (wl := ⟨cLive u C ldc n2, ldc, n2, n2⟩) (w22 := ⟨C + n2 * ldc + n2, ldc, n2, n2⟩)
    (fun _ h => h) (fun _ h => h) (fun _ h => h) (fun _ h => h) lc lc lc lc
  rw [Run_bind, Run_pure, Run_bind, Run_pure]
  rw [Run_bind]
  refine (s0.k_S1S2 F0 cat (x := x) (y := y) (a11 := .a11) (a21 := .a21) (a22 := .a22) (s1 := .cl) (s2 := .cd) trivial trivial (by decide) (by decide)
    (by decide) (by decide) (by decide) (by decide) (by decide) hk rfl rfl rfl rfl rfl).mono ?_
  rintro _ m1 ⟨σ1, e1, e2, o1, s1⟩
  have g1 : ∀ i < n2, ∀ l < k2, op t (σ1 .cl) i l = sS1 x y n2 k2 X i l := fun i hi l hl => by
    rw [e1 i hi l hl, yrot_congr hk (x0.a21 i hi) hl, yrot_congr hk (x0.a11 i hi) hl]; rfl
  have g2 : ∀ i < n2, ∀ l < k2, op t (σ1 .cd) i l = sS2 x y n2 k2 X i l := fun i hi l hl => by
    rw [e2 i hi l hl, yrot_congr hk (x0.a21 i hi) hl, x0.a22 i hi l hl]; rfl
  have x1 : XA t n2 k2 X σ1 := x0.congr (o1 _ (by decide) (by decide)) (o1 _ (by decide) (by decide)) (o1 _ (by decide) (by decide))
    (o1 _ (by decide) (by decide))
  rw [Run_bind]
  refine (s1.k_gemmU F0 hg (u := u) alpha 0 (a := SB.cd) (b := SB.cl) (k := SB.c22) trivial (by decide) (by decide) rfl rfl rfl).mono ?_
  rintro _ m2 ⟨σ2, e3, o2, s2⟩
  have p4 : ∀ i < n2, ∀ j < n2, σ2 .c22 i j = alpha * spr u k2 (sS2 x y n2 k2 X) (sS1 x y n2 k2 X) i j := fun i hi j hj => by
    rw [e3 i hi j hj, spr_congr g2 g1 hi hj]; ring
  -- second phase
  obtain ⟨σ3, o3, s3⟩ := s2.refam (sfam t n2 k2 A lda (aw t n2 k2 C ldc) ⟨cDead u C ldc n2, ldc, n2, n2⟩ (aw t n2 k2 (cLive u C ldc n2) ldc)
    ⟨C + n2 * ldc + n2, ldc, n2, n2⟩ noWin noWin noWin)
  have x3 : XA t n2 k2 X σ3 := x1.congr (by rw [o3 _ rfl, o2 _ (by decide)]) (by rw [o3 _ rfl, o2 _ (by decide)])
    (by rw [o3 _ rfl, o2 _ (by decide)]) (by rw [o3 _ rfl, o2 _ (by decide)])
  rw [Run_bind, Run_pure, Run_bind]
  refine (s3.k_subin' F1 cat (a := SB.a22) (k := SB.cl) trivial rfl rfl).mono ?_
  rintro _ m4 ⟨σ4, e4, o4, s4⟩
  have g3 : ∀ i < n2, ∀ l < k2, op t (σ4 .cl) i l = sS3 x y n2 k2 X i l := fun i hi l hl => by
    rw [op_pt t (φ := fun a b => a - b) e4, o3 .cl rfl, o2 .cl (by decide), g1 i hi l hl, x3.a22 i hi l hl]; rfl
  rw [Run_bind]
  refine (s4.k_syrk F1 hr (u := u) alpha 0 (a := SB.cl) (k := SB.cd) trivial (by decide) (Or.inl rfl) rfl rfl).mono ?_
  rintro _ m5 ⟨σ5, e5, o5, s5⟩
  have p5 : ∀ i < n2, ∀ j < n2, inHalf u i j → σ5 .cd i j = alpha * sdot k2 (sS3 x y n2 k2 X) (sS3 x y n2 k2 X) i j := fun i hi j hj c => by
    rw [e5 i hi j hj c, sdot_congr (g3 i hi) (g3 j hj)]; ring
  rw [Run_bind]
  refine (s5.k_add' F1 cat (a := SB.cl) (b := SB.a12) (k := SB.c11) trivial rfl rfl rfl).mono ?_
  rintro _ m6 ⟨σ6, e6, o6, s6⟩
  have g4 : ∀ i < n2, ∀ l < k2, op t (σ6 .c11) i l = sS4 x y n2 k2 X i l := fun i hi l hl => by
    rw [op_pt t (φ := fun a b => a + b) e6, o5 .cl (by decide), g3 i hi l hl, o5 .a12 (by decide), o4 .a12 (by decide), x3.a12 i hi l hl]; rfl
  -- third phase
  obtain ⟨σ7, o7, s7⟩ := s6.refam (sfam t n2 k2 A lda (aw t n2 k2 C ldc) ⟨cDead u C ldc n2, ldc, n2, n2⟩ ⟨cLive u C ldc n2, ldc, n2, n2⟩
    ⟨C + n2 * ldc + n2, ldc, n2, n2⟩ noWin noWin noWin)
  have x7 : XA t n2 k2 X σ7 := x3.congr (by rw [o7 _ rfl, o6 _ (by decide), o5 _ (by decide), o4 _ (by decide)])
    (by rw [o7 _ rfl, o6 _ (by decide), o5 _ (by decide), o4 _ (by decide)])
    (by rw [o7 _ rfl, o6 _ (by decide), o5 _ (by decide), o4 _ (by decide)])
    (by rw [o7 _ rfl, o6 _ (by decide), o5 _ (by decide), o4 _ (by decide)])
  rw [Run_bind]
  refine (s7.k_gemmU F2 hg (u := u) alpha 0 (a := SB.a22) (b := SB.c11) (k := SB.cl) trivial (by decide) (by decide) rfl rfl rfl).mono ?_
  rintro _ m8 ⟨σ8, e8, o8, s8⟩
  have p3 : ∀ i < n2, ∀ j < n2, σ8 .cl i j = alpha * spr u k2 (xb22 n2 k2 X) (sS4 x y n2 k2 X) i j := fun i hi j hj => by
    rw [e8 i hi j hj, spr_congr x7.a22 (by rw [o7 _ rfl]; exact g4) hi hj]; ring
  -- last phase
  obtain ⟨σ9, o9, s9⟩ := s8.refam (sfam t n2 k2 A lda ⟨C, ldc, n2, n2⟩ ⟨cDead u C ldc n2, ldc, n2, n2⟩ ⟨cLive u C ldc n2, ldc, n2, n2⟩
    ⟨C + n2 * ldc + n2, ldc, n2, n2⟩ noWin noWin noWin)
  have x9 : XA t n2 k2 X σ9 := x7.congr (by rw [o9 _ rfl, o8 _ (by decide)]) (by rw [o9 _ rfl, o8 _ (by decide)])
    (by rw [o9 _ rfl, o8 _ (by decide)]) (by rw [o9 _ rfl, o8 _ (by decide)])
  have q22 : σ9 .c22 = σ2 .c22 := by rw [o9 _ rfl, o8 _ (by decide), o7 _ rfl, o6 _ (by decide), o5 _ (by decide), o4 _ (by decide), o3 _ rfl]
  have ql : σ9 .cl = σ8 .cl := o9 _ rfl
  have qd : σ9 .cd = σ5 .cd := by rw [o9 _ rfl, o8 _ (by decide), o7 _ rfl, o6 _ (by decide)]
  rw [Run_bind, Run_pure]
  refine (tail_k s9 F3 cat hr (u := u) (t := t) (alpha := alpha) (a11 := .a11) (a12 := .a12) (c11 := .c11) (cd := .cd) (cl := .cl) (c22 := .c22)
    trivial trivial trivial trivial (by decide) (by decide) (by decide) (by decide) (by decide) (by decide) (by decide) (by decide) (by decide)
    (by decide) (by decide) rfl rfl rfl rfl rfl rfl (p5 := fun i j => alpha * sdot k2 (sS3 x y n2 k2 X) (sS3 x y n2 k2 X) i j)
    (fun i j => by rw [sdot_comm]) (by rw [qd]; exact p5)).mono ?_
  rintro _ m10 ⟨σ10, f1, f2, f3, s10⟩
  refine sfinish u h s10 (fun i hi j hj c => ?_) (fun i hi j hj => ?_) (fun i hi j hj c => ?_)
  · rw [f1 i hi j hj c, sdot_congr (x9.a11 i hi) (x9.a11 j hj), sdot_congr (x9.a12 i hi) (x9.a12 j hj), syVal_11]; ring
  · rw [f2 i hi j hj, sdot_congr (x9.a11 i hi) (x9.a11 j hj), q22, p4 j hj i hi, ql, p3 i hi j hj, ← close_live (x := x) (y := y) hxy hk]; ring
  · rw [f3 i hi j hj c, sdot_congr (x9.a11 i hi) (x9.a11 j hj), q22, p4 j hj i hi, p4 i hi j hj, ← close_22 (u := u) (x := x) (y := y) hxy hk]; ring

omit [Field K] [DecidableEq K] in
lemma blkS (t : Tr) (n2 k2 P : ℕ) : InBlk (aw t n2 k2 P (ldTmp t n2 k2)) (P, n2 * k2) := by
  have := InBlk.full P (opr t n2 k2) (opc t n2 k2)
  rw [opr_mul_opc] at this
  cases t <;> exact this

omit [Field K] [DecidableEq K] in
lemma fitS (t : Tr) (n2 k2 P : ℕ) : (aw t n2 k2 P (ldTmp t n2 k2)).c ≤ (aw t n2 k2 P (ldTmp t n2 k2)).ld := by cases t <;> exact le_rfl

omit [Field K] [DecidableEq K] in
lemma blkT (t : Tr) (n2 k2 P : ℕ) : InBlk (aw t n2 k2 P (ldTmp t n2 (max n2 k2))) (P, n2 * max n2 k2) := by
  refine InBlk.mk (fun i hi j hj => ?_)
  cases t
  · exact flat_lt hi (lt_of_lt_of_le hj (le_max_right _ _))
  · exact lt_of_lt_of_le (flat_lt hi hj) (by rw [Nat.mul_comm]; exact Nat.mul_le_mul_left _ (le_max_right _ _))

omit [Field K] [DecidableEq K] in
lemma fitT (t : Tr) (n2 k2 P : ℕ) : (aw t n2 k2 P (ldTmp t n2 (max n2 k2))).c ≤ (aw t n2 k2 P (ldTmp t n2 (max n2 k2))).ld := by
  cases t
  · exact le_max_right _ _
  · exact le_rfl

omit [Field K] [DecidableEq K] in
lemma blkT' (t : Tr) (n2 k2 P : ℕ) : InBlk ⟨P, ldTmp t n2 (max n2 k2), n2, n2⟩ (P, n2 * max n2 k2) := by
  refine InBlk.mk (fun i hi j hj => ?_)
  cases t
  · exact flat_lt hi (lt_of_lt_of_le hj (le_max_left _ _))
  · exact lt_of_lt_of_le (flat_lt hi hj) (Nat.mul_le_mul_left _ (le_max_left _ _))

omit [Field K] [DecidableEq K] in
lemma fitT' (t : Tr) (n2 k2 : ℕ) : n2 ≤ ldTmp t n2 (max n2 k2) := by
  cases t
  · exact le_max_left _ _
  · exact le_rfl

/-- schedule without accumulation, `S1`, `S2`, `S4` in temporaries -/
lemma strassen0_big (cat : Cat) {g : GemmFn K} (hg : GemmOk g) {rec : SyrkFn K} (hr : SyrkAt rec n2 k2) (hxy : x * x + y * y = -1)
    (hk : 2 * (k2 / 2) = k2) (hkn : ¬ k2 ≤ n2) (h : On m m ⟨C, ldc, 2 * n2, 2 * n2⟩ V) (hA : OSrc m t (2 * n2) (2 * k2) A lda X)
    (hd : (aw t (2 * n2) (2 * k2) A lda).Disj ⟨C, ldc, 2 * n2, 2 * n2⟩) :
    Run (strassen0 cat g rec x y u t (2 * n2) (2 * k2) alpha A lda C ldc) m (fun _ m' => ∃ V', On m m' ⟨C, ldc, 2 * n2, 2 * n2⟩ V' ∧
      ∀ i < 2 * n2, ∀ j < 2 * n2, inHalf u i j → V' i j = syVal (2 * k2) alpha 0 X V i j) := by
  have G := gpre_of h hA hd
  have lc : n2 ≤ ldc := by have : 2 * n2 ≤ ldc := h.ld; omega
  have nn : ∀ W : Win, W.Disj noWin := fun W _ _ => noWin_Has
  unfold strassen0
  have ek : 2 * k2 / 2 = k2 := by omega
  have en : 2 * n2 / 2 = n2 := by omega
  have eb : decide (2 * k2 > 2 * n2) = true := by simp; omega
  simp only [ek, en, eb, newIf, freeIf, if_true]
  obtain ⟨σ0, s0, x0, -⟩ := sstart u h hA ⟨C, ldc, n2, n2⟩ ⟨cDead u C ldc n2, ldc, n2, n2⟩ ⟨cLive u C ldc n2, ldc, n2, n2⟩
    ⟨C + n2 * ldc + n2, ldc, n2, n2⟩ noWin noWin noWin
  rw [Run_bind]
  refine (s0.alloc (n2 * k2)).mono ?_
  rintro S1 m1 ⟨hS1, -, s1⟩
  rw [Run_bind]
  refine (s1.alloc (n2 * k2)).mono ?_
  rintro S2 m2 ⟨hS2, h12, s2⟩
  have h12 : S1 + n2 * k2 ≤ S2 := h12 (S1, n2 * k2) (by simp)
  obtain ⟨σ1, o1, s3⟩ := s2.refam (sfam t n2 k2 A lda ⟨C, ldc, n2, n2⟩ ⟨cDead u C ldc n2, ldc, n2, n2⟩ ⟨cLive u C ldc n2, ldc, n2, n2⟩
    ⟨C + n2 * ldc + n2, ldc, n2, n2⟩ (aw t n2 k2 S1 (ldTmp t n2 k2)) (aw t n2 k2 S2 (ldTmp t n2 k2)) noWin)
  have F0 := sfam_ok u G (l := [(S2, n2 * k2), (S1, n2 * k2)]) (TmpOk.blk h.wf (by simp) hS1 (blkS t n2 k2 S1) (fitS t n2 k2 S1))
    (TmpOk.blk h.wf (by simp) hS2 (blkS t n2 k2 S2) (fitS t n2 k2 S2)) (TmpOk.no m _) ((blkS t n2 k2 S1).disj (blkS t n2 k2 S2) h12) (nn _) (nn _)
    (w11 := ⟨C, ldc, n2, n2⟩) (wd := ⟨cDead u C ldc n2, ldc, n2, n2⟩) (wl := ⟨cLive u C ldc n2, ldc, n2, n2⟩) (w22 := ⟨C + n2 * ldc + n2, ldc, n2, n2⟩)
    (fun _ h => h) (fun _ h => h) (fun _ h => h) (fun _ h => h) lc lc lc lc
  have F1 := sfam_ok u G (l := [(S1, n2 * k2)]) (TmpOk.blk h.wf (by simp) hS1 (blkS t n2 k2 S1) (fitS t n2 k2 S1))
    (TmpOk.no m _) (TmpOk.no m _) (nn _) (nn _) (nn _)
    (w11 := ⟨C, ldc, n2, n2⟩) (wd := ⟨cDead u C ldc n2, ldc, n2, n2⟩) (wl := ⟨cLive u C ldc n2, ldc, n2, n2⟩) (w22 := ⟨C + n2 * ldc + n2, ldc, n2, n2⟩)
    (fun _ h => h) (fun _ h => h) (fun _ h => h) (fun _ h => h) lc lc lc lc
  have F3 := sfam_ok u G (TmpOk.no m []) (TmpOk.no m []) (TmpOk.no m []) (nn _) (nn _) (nn _) (w11 := ⟨C, ldc, n2, n2⟩)
    (wd := ⟨cDead u C ldc n2, ldc, n2, n2⟩) (wl := ⟨cLive u C ldc n2, ldc, n2, n2⟩) (w22 := ⟨C + n2 * ldc + n2, ldc, n2, n2⟩)
    (fun _ h => h) (fun _ h => h) (fun _ h => h) (fun _ h => h) lc lc lc lc
  have x1 : XA t n2 k2 X σ1 := x0.congr (o1 _ rfl) (o1 _ rfl) (o1 _ rfl) (o1 _ rfl)
  rw [Run_bind]
  refine (s3.k_S1S2 F0 cat (x := x) (y := y) (a11 := .a11) (a21 := .a21) (a22 := .a22) (s1 := .x1) (s2 := .x2) trivial trivial (by decide) (by decide)
    (by decide) (by decide) (by decide) (by decide) (by decide) hk rfl rfl rfl rfl rfl).mono ?_
  rintro _ m3 ⟨σ2, e1, e2, o2, s4⟩
  have g1 : ∀ i < n2, ∀ l < k2, op t (σ2 .x1) i l = sS1 x y n2 k2 X i l := fun i hi l hl => by
    rw [e1 i hi l hl, yrot_congr hk (x1.a21 i hi) hl, yrot_congr hk (x1.a11 i hi) hl]; rfl
  have g2 : ∀ i < n2, ∀ l < k2, op t (σ2 .x2) i l = sS2 x y n2 k2 X i l := fun i hi l hl => by
    rw [e2 i hi l hl, yrot_congr hk (x1.a21 i hi) hl, x1.a22 i hi l hl]; rfl
  rw [Run_bind]
  refine (s4.k_gemmU F0 hg (u := u) alpha 0 (a := SB.x2) (b := SB.x1) (k := SB.c22) trivial (by decide) (by decide) rfl rfl rfl).mono ?_
  rintro _ m4 ⟨σ3, e3, o3, s5⟩
  have p4 : ∀ i < n2, ∀ j < n2, σ3 .c22 i j = alpha * spr u k2 (sS2 x y n2 k2 X) (sS1 x y n2 k2 X) i j := fun i hi j hj => by
    rw [e3 i hi j hj, spr_congr g2 g1 hi hj]; ring
  rw [Run_bind]
  refine (St.free (l1 := []) s5 h.wf (by simp; omega)).mono ?_
  intro _ m5 s6
  obtain ⟨σ4, o4, s7⟩ := St.refam s6 (sfam t n2 k2 A lda ⟨C, ldc, n2, n2⟩ ⟨cDead u C ldc n2, ldc, n2, n2⟩ ⟨cLive u C ldc n2, ldc, n2, n2⟩
    ⟨C + n2 * ldc + n2, ldc, n2, n2⟩ (aw t n2 k2 S1 (ldTmp t n2 k2)) noWin noWin)
  have x4 : XA t n2 k2 X σ4 := x1.congr (by rw [o4 _ rfl, o3 _ (by decide), o2 _ (by decide) (by decide)])
    (by rw [o4 _ rfl, o3 _ (by decide), o2 _ (by decide) (by decide)]) (by rw [o4 _ rfl, o3 _ (by decide), o2 _ (by decide) (by decide)])
    (by rw [o4 _ rfl, o3 _ (by decide), o2 _ (by decide) (by decide)])
  rw [Run_bind]
  refine (s7.k_subin' F1 cat (a := SB.a22) (k := SB.x1) trivial rfl rfl).mono ?_
  rintro _ m6 ⟨σ5, e5, o5, s8⟩
  have g3 : ∀ i < n2, ∀ l < k2, op t (σ5 .x1) i l = sS3 x y n2 k2 X i l := fun i hi l hl => by
    rw [op_pt t (φ := fun a b => a - b) e5, o4 .x1 rfl, o3 .x1 (by decide), g1 i hi l hl, x4.a22 i hi l hl]; rfl
  rw [Run_bind]
  refine (s8.k_syrk F1 hr (u := u) alpha 0 (a := SB.x1) (k := SB.cd) trivial (by decide) (Or.inl rfl) rfl rfl).mono ?_
  rintro _ m7 ⟨σ6, e6, o6, s9⟩
  have p5 : ∀ i < n2, ∀ j < n2, inHalf u i j → σ6 .cd i j = alpha * sdot k2 (sS3 x y n2 k2 X) (sS3 x y n2 k2 X) i j := fun i hi j hj c => by
    rw [e6 i hi j hj c, sdot_congr (g3 i hi) (g3 j hj)]; ring
  rw [Run_bind]
  refine (s9.k_add' F1 cat (a := SB.x1) (b := SB.a12) (k := SB.x1) trivial rfl rfl rfl).mono ?_
  rintro _ m8 ⟨σ7, e7, o7, s10⟩
  have g4 : ∀ i < n2, ∀ l < k2, op t (σ7 .x1) i l = sS4 x y n2 k2 X i l := fun i hi l hl => by
    rw [op_pt t (φ := fun a b => a + b) e7, o6 .x1 (by decide), g3 i hi l hl, o6 .a12 (by decide), o5 .a12 (by decide), x4.a12 i hi l hl]; rfl
  have x7 : XA t n2 k2 X σ7 := x4.congr (by rw [o7 _ (by decide), o6 _ (by decide), o5 _ (by decide)])
    (by rw [o7 _ (by decide), o6 _ (by decide), o5 _ (by decide)]) (by rw [o7 _ (by decide), o6 _ (by decide), o5 _ (by decide)])
    (by rw [o7 _ (by decide), o6 _ (by decide), o5 _ (by decide)])
  rw [Run_bind]
  refine (s10.k_gemmU F1 hg (u := u) alpha 0 (a := SB.a22) (b := SB.x1) (k := SB.cl) trivial (by decide) (by decide) rfl rfl rfl).mono ?_
  rintro _ m9 ⟨σ8, e8, o8, s11⟩
  have p3 : ∀ i < n2, ∀ j < n2, σ8 .cl i j = alpha * spr u k2 (xb22 n2 k2 X) (sS4 x y n2 k2 X) i j := fun i hi j hj => by
    rw [e8 i hi j hj, spr_congr x7.a22 g4 hi hj]; ring
  rw [Run_bind]
  refine (St.free (l1 := []) (l2 := []) s11 h.wf (by simp)).mono ?_
  intro _ m10 s12
  obtain ⟨σ9, o9, s13⟩ := St.refam s12 (sfam t n2 k2 A lda ⟨C, ldc, n2, n2⟩ ⟨cDead u C ldc n2, ldc, n2, n2⟩ ⟨cLive u C ldc n2, ldc, n2, n2⟩
    ⟨C + n2 * ldc + n2, ldc, n2, n2⟩ noWin noWin noWin)
  have x9 : XA t n2 k2 X σ9 := x7.congr (by rw [o9 _ rfl, o8 _ (by decide)]) (by rw [o9 _ rfl, o8 _ (by decide)])
    (by rw [o9 _ rfl, o8 _ (by decide)]) (by rw [o9 _ rfl, o8 _ (by decide)])
  have q22 : σ9 .c22 = σ3 .c22 := by rw [o9 _ rfl, o8 _ (by decide), o7 _ (by decide), o6 _ (by decide), o5 _ (by decide), o4 _ rfl]
  have ql : σ9 .cl = σ8 .cl := o9 _ rfl
  have qd : σ9 .cd = σ6 .cd := by rw [o9 _ rfl, o8 _ (by decide), o7 _ (by decide)]
  refine (tail_k s13 F3 cat hr (u := u) (t := t) (alpha := alpha) (a11 := .a11) (a12 := .a12) (c11 := .c11) (cd := .cd) (cl := .cl) (c22 := .c22)
    trivial trivial trivial trivial (by decide) (by decide) (by decide) (by decide) (by decide) (by decide) (by decide) (by decide) (by decide)
    (by decide) (by decide) rfl rfl rfl rfl rfl rfl (p5 := fun i j => alpha * sdot k2 (sS3 x y n2 k2 X) (sS3 x y n2 k2 X) i j)
    (fun i j => by rw [sdot_comm]) (by rw [qd]; exact p5)).mono ?_
  rintro _ m10 ⟨σ10, f1, f2, f3, s14⟩
  refine sfinish u h s14 (fun i hi j hj c => ?_) (fun i hi j hj => ?_) (fun i hi j hj c => ?_)
  · rw [f1 i hi j hj c, sdot_congr (x9.a11 i hi) (x9.a11 j hj), sdot_congr (x9.a12 i hi) (x9.a12 j hj), syVal_11]; ring
  · rw [f2 i hi j hj, sdot_congr (x9.a11 i hi) (x9.a11 j hj), q22, p4 j hj i hi, ql, p3 i hi j hj, ← close_live (x := x) (y := y) hxy hk]; ring
  · rw [f3 i hi j hj c, sdot_congr (x9.a11 i hi) (x9.a11 j hj), q22, p4 j hj i hi, p4 i hi j hj, ← close_22 (u := u) (x := x) (y := y) hxy hk]; ring

/-- the schedule without accumulation -/
lemma strassen0_ok (cat : Cat) {g : GemmFn K} (hg : GemmOk g) {rec : SyrkFn K} (hr : SyrkAt rec n2 k2) (hxy : x * x + y * y = -1)
    (hk : 2 * (k2 / 2) = k2) (h : On m m ⟨C, ldc, 2 * n2, 2 * n2⟩ V) (hA : OSrc m t (2 * n2) (2 * k2) A lda X)
    (hd : (aw t (2 * n2) (2 * k2) A lda).Disj ⟨C, ldc, 2 * n2, 2 * n2⟩) :
    Run (strassen0 cat g rec x y u t (2 * n2) (2 * k2) alpha A lda C ldc) m (fun _ m' => ∃ V', On m m' ⟨C, ldc, 2 * n2, 2 * n2⟩ V' ∧
      ∀ i < 2 * n2, ∀ j < 2 * n2, inHalf u i j → V' i j = syVal (2 * k2) alpha 0 X V i j) := by
  by_cases c : k2 ≤ n2
  · exact strassen0_small cat hg hr hxy hk c h hA hd
  · exact strassen0_big cat hg hr hxy hk c h hA hd

end Verif.FF
