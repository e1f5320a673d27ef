import Verif.Proofs.SyrkStrassen5

/-!
# The schedule with accumulation of the Strassen-like rank-k update
-/

namespace Verif.FF

open Finset Verif.Spec

variable {K : Type} [Field K] [DecidableEq K]

variable {m m' : Mem K} {u : Uplo} {t : Tr} {n2 k2 A lda C ldc T D : ℕ} {X V : ℕ → ℕ → K} {x y alpha beta : K}

omit [Field K] [DecidableEq K] in
lemma blkD (n2 D : ℕ) : InBlk ⟨D, n2, 1, n2⟩ (D, n2) := by
  have := InBlk.full D 1 n2
  rwa [Nat.one_mul] at this

/-- from `S3` on -/
lemma accRest (cat : Cat) {g : GemmFn K} (hg : GemmOk g) {rec : SyrkFn K} (hr : SyrkAt rec n2 k2) (hxy : x * x + y * y = -1)
    (hk : 2 * (k2 / 2) = k2) (hn : 0 < n2) (h : On m m ⟨C, ldc, 2 * n2, 2 * n2⟩ V) (hA : OSrc m t (2 * n2) (2 * k2) A lda X)
    (hd : (aw t (2 * n2) (2 * k2) A lda).Disj ⟨C, ldc, 2 * n2, 2 * n2⟩) (hT : m.next ≤ T) (hTD : T + n2 * max n2 k2 ≤ D)
    {σ : SB → ℕ → ℕ → K}
    (s : St m ⟨C, ldc, 2 * n2, 2 * n2⟩ [(D, n2), (T, n2 * max n2 k2)] (sfam t n2 k2 A lda ⟨C, ldc, n2, n2⟩ ⟨cDead u C ldc n2, ldc, n2, n2⟩
      ⟨cLive u C ldc n2, ldc, n2, n2⟩ ⟨C + n2 * ldc + n2, ldc, n2, n2⟩ (aw t n2 k2 T (ldTmp t n2 (max n2 k2))) noWin ⟨D, n2, 1, n2⟩) σ m')
    (xa : XA t n2 k2 X σ) (g1 : ∀ i < n2, ∀ l < k2, op t (σ .x1) i l = sS1 x y n2 k2 X i l)
    (p4 : ∀ i < n2, ∀ j < n2, σ .c22 i j = alpha * spr u k2 (sS2 x y n2 k2 X) (sS1 x y n2 k2 X) i j)
    (c11 : ∀ i < n2, ∀ j < n2, inHalf u i j → σ .c11 i j = V i j)
    (cl : ∀ i < n2, ∀ j < n2, σ .cl i j = liveVal u n2 V i j)
    {f : ℕ → ℕ → K} (hf : ∀ i < n2, ∀ j < n2, ¬ inHalf u i j → σ .c11 i j = savedV u n2 f i j) (hdg : ∀ i < n2, σ .x3 0 i = f i i)
    (hfV : ∀ i < n2, ∀ j < n2, f i j = V (n2 + i) (n2 + j)) :
    Run (do
      fsubin cat (opr t n2 k2) (opc t n2 k2) (q22 t A lda n2 k2) lda T (ldTmp t n2 (max n2 k2))
      rec u t n2 k2 alpha T (ldTmp t n2 (max n2 k2)) 0 (cDead u C ldc n2) ldc
      faddin cat (opr t n2 k2) (opc t n2 k2) (q12 t A lda n2 k2) lda T (ldTmp t n2 (max n2 k2))
      gemmU g u t n2 k2 alpha (q22 t A lda n2 k2) lda T (ldTmp t n2 (max n2 k2)) beta (cLive u C ldc n2) ldc
      strassenAccTail cat rec u t n2 k2 alpha A lda beta C ldc T (ldTmp t n2 (max n2 k2)) D
      free T (n2 * max n2 k2)) m' (fun _ m' => ∃ V', On m m' ⟨C, ldc, 2 * n2, 2 * n2⟩ V' ∧
      ∀ i < 2 * n2, ∀ j < 2 * n2, inHalf u i j → V' i j = syVal (2 * k2) alpha beta X V i j) := by
  have G := gpre_of h hA hd
  have lc : n2 ≤ ldc := by have : 2 * n2 ≤ ldc := h.ld; omega
  have nn : ∀ W : Win, W.Disj noWin := fun W _ _ => noWin_Has
  have hD : m.next ≤ D := by omega
  have F1 := sfam_ok u G (l := [(D, n2), (T, n2 * max n2 k2)]) (TmpOk.blk h.wf (by simp) hT (blkT t n2 k2 T) (fitT t n2 k2 T))
    (TmpOk.no m _) (TmpOk.blk h.wf (by simp) hD (blkD n2 D) le_rfl) (nn _) ((blkT t n2 k2 T).disj (blkD n2 D) hTD) (nn _).symm
    (w11 := ⟨C, ldc, n2, n2⟩) (wd := ⟨cDead u C ldc n2, ldc, n2, n2⟩) (wl := ⟨cLive u C ldc n2, ldc, n2, n2⟩) (w22 := ⟨C + n2 * ldc + n2, ldc, n2, n2⟩)
    (fun _ h => h) (fun _ h => h) (fun _ h => h) (fun _ h => h) lc lc lc lc
  have F2 := sfam_ok u G (l := [(D, n2), (T, n2 * max n2 k2)]) (TmpOk.blk h.wf (by simp) hT (blkT' t n2 k2 T) (fitT' t n2 k2))
    (TmpOk.no m _) (TmpOk.blk h.wf (by simp) hD (blkD n2 D) le_rfl) (nn _) ((blkT' t n2 k2 T).disj (blkD n2 D) hTD) (nn _).symm
    (w11 := ⟨C, ldc, n2, n2⟩) (wd := ⟨cDead u C ldc n2, ldc, n2, n2⟩) (wl := ⟨cLive u C ldc n2, ldc, n2, n2⟩) (w22 := ⟨C + n2 * ldc + n2, ldc, n2, n2⟩)
    (fun _ h => h) (fun _ h => h) (fun _ h => h) (fun _ h => h) lc lc lc lc
  have F3 := sfam_ok u G (l := [(T, n2 * max n2 k2)]) (TmpOk.blk h.wf (by simp) hT (blkT' t n2 k2 T) (fitT' t n2 k2))
    (TmpOk.no m _) (TmpOk.no m _) (nn _) (nn _) (nn _)
    (w11 := ⟨C, ldc, n2, n2⟩) (wd := ⟨cDead u C ldc n2, ldc, n2, n2⟩) (wl := ⟨cLive u C ldc n2, ldc, n2, n2⟩) (w22 := ⟨C + n2 * ldc + n2, ldc, n2, n2⟩)
    (fun _ h => h) (fun _ h => h) (fun _ h => h) (fun _ h => h) lc lc lc lc
  rw [Run_bind]
  refine (s.k_subin' F1 cat (a := SB.a22) (k := SB.x1) trivial rfl rfl).mono ?_
  rintro _ m1 ⟨σ1, e1, o1, s1⟩
  have g3 : ∀ i < n2, ∀ l < k2, op t (σ1 .x1) i l = sS3 x y n2 k2 X i l := fun i hi l hl => by
    rw [op_pt t (φ := fun a b => a - b) e1, g1 i hi l hl, xa.a22 i hi l hl]; rfl
  rw [Run_bind]
  refine (s1.k_syrk F1 hr (u := u) alpha 0 (a := SB.x1) (k := SB.cd) trivial (by decide) (Or.inl rfl) rfl rfl).mono ?_
  rintro _ m2 ⟨σ2, e2, o2, s2⟩
  have p5 : ∀ i < n2, ∀ j < n2, inHalf u i j → σ2 .cd i j = alpha * sdot k2 (sS3 x y n2 k2 X) (sS3 x y n2 k2 X) i j := fun i hi j hj c => by
    rw [e2 i hi j hj c, sdot_congr (g3 i hi) (g3 j hj)]; ring
  rw [Run_bind]
  refine (s2.k_addin' F1 cat (a := SB.a12) (k := SB.x1) trivial rfl rfl).mono ?_
  rintro _ m3 ⟨σ3, e3, o3, s3⟩
  have g4 : ∀ i < n2, ∀ l < k2, op t (σ3 .x1) i l = sS4 x y n2 k2 X i l := fun i hi l hl => by
    rw [op_pt t (φ := fun a b => a + b) e3, o2 .x1 (by decide), g3 i hi l hl, o2 .a12 (by decide), o1 .a12 (by decide), xa.a12 i hi l hl, add_comm]; rfl
  have x3 : XA t n2 k2 X σ3 := xa.congr (by rw [o3 _ (by decide), o2 _ (by decide), o1 _ (by decide)])
    (by rw [o3 _ (by decide), o2 _ (by decide), o1 _ (by decide)]) (by rw [o3 _ (by decide), o2 _ (by decide), o1 _ (by decide)])
    (by rw [o3 _ (by decide), o2 _ (by decide), o1 _ (by decide)])
  rw [Run_bind]
  refine (s3.k_gemmU F1 hg (u := u) alpha beta (a := SB.a22) (b := SB.x1) (k := SB.cl) trivial (by decide) (by decide) rfl rfl rfl).mono ?_
  rintro _ m4 ⟨σ4, e4, o4, s4⟩
  have p3 : ∀ i < n2, ∀ j < n2, σ4 .cl i j = alpha * spr u k2 (xb22 n2 k2 X) (sS4 x y n2 k2 X) i j + beta * liveVal u n2 V i j := fun i hi j hj => by
    rw [e4 i hi j hj, spr_congr x3.a22 g4 hi hj, o3 .cl (by decide), o2 .cl (by decide), o1 .cl (by decide), cl i hi j hj]
  obtain ⟨σ5, o5, s5⟩ := s4.refam (sfam t n2 k2 A lda ⟨C, ldc, n2, n2⟩ ⟨cDead u C ldc n2, ldc, n2, n2⟩ ⟨cLive u C ldc n2, ldc, n2, n2⟩
    ⟨C + n2 * ldc + n2, ldc, n2, n2⟩ ⟨T, ldTmp t n2 (max n2 k2), n2, n2⟩ noWin ⟨D, n2, 1, n2⟩)
  have x5 : XA t n2 k2 X σ5 := x3.congr (by rw [o5 _ rfl, o4 _ (by decide)]) (by rw [o5 _ rfl, o4 _ (by decide)])
    (by rw [o5 _ rfl, o4 _ (by decide)]) (by rw [o5 _ rfl, o4 _ (by decide)])
  have q22 : σ5 .c22 = σ .c22 := by rw [o5 _ rfl, o4 _ (by decide), o3 _ (by decide), o2 _ (by decide), o1 _ (by decide)]
  have q11 : σ5 .c11 = σ .c11 := by rw [o5 _ rfl, o4 _ (by decide), o3 _ (by decide), o2 _ (by decide), o1 _ (by decide)]
  have q3 : σ5 .x3 = σ .x3 := by rw [o5 _ rfl, o4 _ (by decide), o3 _ (by decide), o2 _ (by decide), o1 _ (by decide)]
  have ql : σ5 .cl = σ4 .cl := o5 _ rfl
  have qd : σ5 .cd = σ2 .cd := by rw [o5 _ rfl, o4 _ (by decide), o3 _ (by decide)]
  rw [Run_bind]
  refine (accTail_k h.wf s5 F2 F3 (by simp; omega) cat hr (u := u) (t := t) (alpha := alpha) (beta := beta) hn (a11 := .a11) (a12 := .a12) (w := .x1)
    (d := .x3) (c11 := .c11) (cd := .cd)
    (cl := .cl) (c22 := .c22) trivial trivial trivial trivial trivial (fun v hv => by cases v <;> first | rfl | exact absurd rfl hv)
    (by decide) (by decide) (by decide) (by decide) (by decide) (by decide) (by decide) (by decide) (by decide)
    (by decide) (by decide) (by decide) (by decide) (by decide) (by decide) (by decide) (by decide) (by decide) (by decide) (by decide)
    (by decide) (by decide) (by decide) (by decide) (by decide) rfl rfl rfl rfl rfl rfl rfl rfl
    (p5 := fun i j => alpha * sdot k2 (sS3 x y n2 k2 X) (sS3 x y n2 k2 X) i j)
    (fun i j => by rw [sdot_comm]) (by rw [qd]; exact p5) (f := f) (by rw [q11]; exact hf) (by rw [q3]; exact hdg)).mono ?_
  rintro _ m6 ⟨σ6, f1, f2, f3, s6⟩
  refine (St.free (l1 := []) (l2 := []) s6 h.wf (by simp)).mono ?_
  intro _ m7 s7
  refine sfinish u h s7 (fun i hi j hj c => ?_) (fun i hi j hj => ?_) (fun i hi j hj c => ?_)
  · rw [f1 i hi j hj c, sdot_congr (x5.a11 i hi) (x5.a11 j hj), sdot_congr (x5.a12 i hi) (x5.a12 j hj), q11, c11 i hi j hj c, syVal_11]; ring
  · rw [f2 i hi j hj, sdot_congr (x5.a11 i hi) (x5.a11 j hj), q22, p4 j hj i hi, ql, p3 i hi j hj, ← close_live (x := x) (y := y) hxy hk]
  · rw [f3 i hi j hj c, sdot_congr (x5.a11 i hi) (x5.a11 j hj), q22, p4 j hj i hi, p4 i hi j hj, hfV i hi j hj,
      ← close_22 (u := u) (x := x) (y := y) hxy hk]

lemma strassenAcc_ok (cat : Cat) {g : GemmFn K} (hg : GemmOk g) {rec : SyrkFn K} (hr : SyrkAt rec n2 k2) (hxy : x * x + y * y = -1)
    (hk : 2 * (k2 / 2) = k2) (hn : 0 < n2) (h : On m m ⟨C, ldc, 2 * n2, 2 * n2⟩ V) (hA : OSrc m t (2 * n2) (2 * k2) A lda X)
    (hd : (aw t (2 * n2) (2 * k2) A lda).Disj ⟨C, ldc, 2 * n2, 2 * n2⟩) :
    Run (strassenAcc cat g rec x y u t (2 * n2) (2 * k2) alpha A lda beta C ldc) m (fun _ m' => ∃ V', On m m' ⟨C, ldc, 2 * n2, 2 * n2⟩ V' ∧
      ∀ i < 2 * n2, ∀ j < 2 * n2, inHalf u i j → V' i j = syVal (2 * k2) alpha beta X V i j) := by
  have G := gpre_of h hA hd
  have lc : n2 ≤ ldc := by have : 2 * n2 ≤ ldc := h.ld; omega
  have la : k2 ≤ n2 → ∀ P, (aw t n2 k2 P ldc).c ≤ (aw t n2 k2 P ldc).ld := fun _ P => le_trans (by cases t <;> simp only [aw, opc] <;> omega) lc
  have nn : ∀ W : Win, W.Disj noWin := fun W _ _ => noWin_Has
  unfold strassenAcc
  have ek : 2 * k2 / 2 = k2 := by omega
  have en : 2 * n2 / 2 = n2 := by omega
  simp only [ek, en]
  by_cases hkn : k2 ≤ n2
  · have eb : decide (2 * k2 > 2 * n2) = false := by simp; omega
    simp only [eb, newIf, freeIf, Bool.false_eq_true, if_false]
    obtain ⟨σ0, s0, x0, i1, i2, i3⟩ := sstart u h hA ⟨C, ldc, n2, n2⟩ (aw t n2 k2 (cDead u C ldc n2) ldc) ⟨cLive u C ldc n2, ldc, n2, n2⟩
      ⟨C + n2 * ldc + n2, ldc, n2, n2⟩ noWin noWin noWin
    have i1 := i1 rfl
    have i2 := i2 rfl
    have i3 := i3 rfl
    rw [Run_bind]
    refine (s0.alloc (n2 * max n2 k2)).mono ?_
    rintro T m1 ⟨hT, -, s1⟩
    rw [Run_bind, Run_pure]
    obtain ⟨σ1, o1, s2⟩ := s1.refam (sfam t n2 k2 A lda ⟨C, ldc, n2, n2⟩ (aw t n2 k2 (cDead u C ldc n2) ldc) ⟨cLive u C ldc n2, ldc, n2, n2⟩
      ⟨C + n2 * ldc + n2, ldc, n2, n2⟩ (aw t n2 k2 T (ldTmp t n2 (max n2 k2))) noWin noWin)
    have x1 : XA t n2 k2 X σ1 := x0.congr (o1 _ rfl) (o1 _ rfl) (o1 _ rfl) (o1 _ rfl)
    have F0 := sfam_ok u G (l := [(T, n2 * max n2 k2)]) (TmpOk.blk h.wf (by simp) hT (blkT t n2 k2 T) (fitT t n2 k2 T))
      (TmpOk.no m _) (TmpOk.no m _) (nn _) (nn _) (nn _)
      (w11 := ⟨C, ldc, n2, n2⟩) (wd := aw t n2 k2 (cDead u C ldc n2) ldc) (wl := ⟨cLive u C ldc n2, ldc, n2, n2⟩) (w22 := ⟨C + n2 * ldc + n2, ldc, n2, n2⟩)
      (fun _ h => h) (aw_small hkn) (fun _ h => h) (fun _ h => h) lc (la hkn _) lc lc
    rw [Run_bind]
    refine (s2.k_S1S2 F0 cat (x := x) (y := y) (a11 := .a11) (a21 := .a21) (a22 := .a22) (s1 := .x1) (s2 := .cd) trivial trivial (by decide) (by decide)
      (by decide) (by decide) (by decide) (by decide) (by decide) hk rfl rfl rfl rfl rfl).mono ?_
    rintro _ m3 ⟨σ2, e1, e2, o2, s3⟩
    have g1 : ∀ i < n2, ∀ l < k2, op t (σ2 .x1) i l = sS1 x y n2 k2 X i l := fun i hi l hl => by
      rw [e1 i hi l hl, yrot_congr hk (x1.a21 i hi) hl, yrot_congr hk (x1.a11 i hi) hl]; rfl
    have g2 : ∀ i < n2, ∀ l < k2, op t (σ2 .cd) i l = sS2 x y n2 k2 X i l := fun i hi l hl => by
      rw [e2 i hi l hl, yrot_congr hk (x1.a21 i hi) hl, x1.a22 i hi l hl]; rfl
    rw [Run_bind]
    refine (s3.k_saveTri F0 u (a := SB.c22) (k := SB.c11) trivial (by decide) rfl rfl).mono ?_
    rintro _ m4 ⟨σ3, e3, o3, s4⟩
    rw [Run_bind]
    refine (s4.alloc n2).mono ?_
    rintro D m5 ⟨hD, hTD, s5⟩
    have hTD : T + n2 * max n2 k2 ≤ D := hTD (T, n2 * max n2 k2) (by simp)
    obtain ⟨σ4, o4, s6⟩ := s5.refam (sfam t n2 k2 A lda ⟨C, ldc, n2, n2⟩ (aw t n2 k2 (cDead u C ldc n2) ldc) ⟨cLive u C ldc n2, ldc, n2, n2⟩
      ⟨C + n2 * ldc + n2, ldc, n2, n2⟩ (aw t n2 k2 T (ldTmp t n2 (max n2 k2))) noWin ⟨D, n2, 1, n2⟩)
    have F1 := sfam_ok u G (l := [(D, n2), (T, n2 * max n2 k2)]) (TmpOk.blk h.wf (by simp) hT (blkT t n2 k2 T) (fitT t n2 k2 T))
      (TmpOk.no m _) (TmpOk.blk h.wf (by simp) hD (blkD n2 D) le_rfl) (nn _) ((blkT t n2 k2 T).disj (blkD n2 D) hTD) (nn _).symm
      (w11 := ⟨C, ldc, n2, n2⟩) (wd := aw t n2 k2 (cDead u C ldc n2) ldc) (wl := ⟨cLive u C ldc n2, ldc, n2, n2⟩) (w22 := ⟨C + n2 * ldc + n2, ldc, n2, n2⟩)
      (fun _ h => h) (aw_small hkn) (fun _ h => h) (fun _ h => h) lc (la hkn _) lc lc
    rw [Run_bind]
    refine (s6.k_saveDiag F1 (a := SB.c22) (k := SB.x3) trivial (by decide) rfl rfl).mono ?_
    rintro _ m6 ⟨σ5, e5, o5, s7⟩
    have r22 : σ4 .c22 = σ0 .c22 := by rw [o4 _ rfl, o3 _ (by decide), o2 _ (by decide) (by decide), o1 _ rfl]
    rw [Run_bind]
    refine (s7.k_gemmU F1 hg (u := u) alpha 0 (a := SB.cd) (b := SB.x1) (k := SB.c22) trivial (by decide) (by decide) rfl rfl rfl).mono ?_
    rintro _ m7 ⟨σ6, e6, o6, s8⟩
    rw [Run_bind, Run_pure]
    obtain ⟨σ7, o7, s9⟩ := s8.refam (sfam t n2 k2 A lda ⟨C, ldc, n2, n2⟩ ⟨cDead u C ldc n2, ldc, n2, n2⟩ ⟨cLive u C ldc n2, ldc, n2, n2⟩
      ⟨C + n2 * ldc + n2, ldc, n2, n2⟩ (aw t n2 k2 T (ldTmp t n2 (max n2 k2))) noWin ⟨D, n2, 1, n2⟩)
    have kk : ∀ v, v ≠ .c11 → v ≠ .x3 → v ≠ .c22 → v ≠ .cd → v ≠ .x1 → σ7 v = σ0 v := fun v v1 v2 v3 v4 v5 => by
      rw [o7 v (by cases v <;> first | rfl | contradiction), o6 v v3, o5 v v2, o4 v (by cases v <;> first | rfl | contradiction), o3 v v1,
        o2 v v5 v4, o1 v (by cases v <;> first | rfl | contradiction)]
    have q11 : σ7 .c11 = σ3 .c11 := by rw [o7 _ rfl, o6 _ (by decide), o5 _ (by decide), o4 _ rfl]
    have r11 : σ2 .c11 = σ0 .c11 := by rw [o2 _ (by decide) (by decide), o1 _ rfl]
    have r22' : σ2 .c22 = σ0 .c22 := by rw [o2 _ (by decide) (by decide), o1 _ rfl]
    refine accRest cat hg hr hxy hk hn h hA hd hT hTD s9
      (x0.congr (kk _ (by decide) (by decide) (by decide) (by decide) (by decide)) (kk _ (by decide) (by decide) (by decide) (by decide) (by decide))
        (kk _ (by decide) (by decide) (by decide) (by decide) (by decide)) (kk _ (by decide) (by decide) (by decide) (by decide) (by decide)))
      ?_ ?_ ?_ ?_ (f := σ0 .c22) ?_ ?_ i3
    · rw [o7 _ rfl, o6 _ (by decide), o5 _ (by decide), o4 _ rfl, o3 _ (by decide)]; exact g1
    · intro i hi j hj
      rw [o7 _ rfl, e6 i hi j hj, spr_congr (p' := sS2 x y n2 k2 X) (q' := sS1 x y n2 k2 X) (by rw [o5 _ (by decide), o4 _ rfl, o3 _ (by decide)]; exact g2)
        (by rw [o5 _ (by decide), o4 _ rfl, o3 _ (by decide)]; exact g1) hi hj]; ring
    · intro i hi j hj c
      rw [q11, e3]
      simp only [if_pos c]
      rw [r11, i1 i hi j hj]
    · rw [kk .cl (by decide) (by decide) (by decide) (by decide) (by decide)]; exact i2
    · intro i hi j hj c
      rw [q11, e3]
      simp only [if_neg c]
      rw [r22']
    · intro i hi
      rw [o7 _ rfl, o6 _ (by decide), e5]
      simp only
      rw [r22]
  · have eb : decide (2 * k2 > 2 * n2) = true := by simp; omega
    simp only [eb, newIf, freeIf, if_true]
    obtain ⟨σ0, s0, x0, i1, i2, i3⟩ := sstart u h hA ⟨C, ldc, n2, n2⟩ ⟨cDead u C ldc n2, ldc, n2, n2⟩ ⟨cLive u C ldc n2, ldc, n2, n2⟩
      ⟨C + n2 * ldc + n2, ldc, n2, n2⟩ noWin noWin noWin
    have i1 := i1 rfl
    have i2 := i2 rfl
    have i3 := i3 rfl
    rw [Run_bind]
    refine (s0.alloc (n2 * max n2 k2)).mono ?_
    rintro T m1 ⟨hT, -, s1⟩
    rw [Run_bind]
    refine (s1.alloc (n2 * k2)).mono ?_
    rintro S2 m2 ⟨hS, hTS, s1⟩
    have hTS : T + n2 * max n2 k2 ≤ S2 := hTS (T, n2 * max n2 k2) (by simp)
    obtain ⟨σ1, o1, s2⟩ := s1.refam (sfam t n2 k2 A lda ⟨C, ldc, n2, n2⟩ ⟨cDead u C ldc n2, ldc, n2, n2⟩ ⟨cLive u C ldc n2, ldc, n2, n2⟩
      ⟨C + n2 * ldc + n2, ldc, n2, n2⟩ (aw t n2 k2 T (ldTmp t n2 (max n2 k2))) (aw t n2 k2 S2 (ldTmp t n2 k2)) noWin)
    have x1 : XA t n2 k2 X σ1 := x0.congr (o1 _ rfl) (o1 _ rfl) (o1 _ rfl) (o1 _ rfl)
    have F0 := sfam_ok u G (l := [(S2, n2 * k2), (T, n2 * max n2 k2)]) (TmpOk.blk h.wf (by simp) hT (blkT t n2 k2 T) (fitT t n2 k2 T))
      (TmpOk.blk h.wf (by simp) hS (blkS t n2 k2 S2) (fitS t n2 k2 S2)) (TmpOk.no m _) ((blkT t n2 k2 T).disj (blkS t n2 k2 S2) hTS) (nn _) (nn _)
      (w11 := ⟨C, ldc, n2, n2⟩) (wd := ⟨cDead u C ldc n2, ldc, n2, n2⟩) (wl := ⟨cLive u C ldc n2, ldc, n2, n2⟩) (w22 := ⟨C + n2 * ldc + n2, ldc, n2, n2⟩)
      (fun _ h => h) (fun _ h => h) (fun _ h => h) (fun _ h => h) lc lc lc lc
    rw [Run_bind]
    refine (s2.k_S1S2 F0 cat (x := x) (y := y) (a11 := .a11) (a21 := .a21) (a22 := .a22) (s1 := .x1) (s2 := .x2) trivial trivial (by decide) (by decide)
      (by decide) (by decide) (by decide) (by decide) (by decide) hk rfl rfl rfl rfl rfl).mono ?_
    rintro _ m3 ⟨σ2, e1, e2, o2, s3⟩
    have g1 : ∀ i < n2, ∀ l < k2, op t (σ2 .x1) i l = sS1 x y n2 k2 X i l := fun i hi l hl => by
      rw [e1 i hi l hl, yrot_congr hk (x1.a21 i hi) hl, yrot_congr hk (x1.a11 i hi) hl]; rfl
    have g2 : ∀ i < n2, ∀ l < k2, op t (σ2 .x2) i l = sS2 x y n2 k2 X i l := fun i hi l hl => by
      rw [e2 i hi l hl, yrot_congr hk (x1.a21 i hi) hl, x1.a22 i hi l hl]; rfl
    rw [Run_bind]
    refine (s3.k_saveTri F0 u (a := SB.c22) (k := SB.c11) trivial (by decide) rfl rfl).mono ?_
    rintro _ m4 ⟨σ3, e3, o3, s4⟩
    rw [Run_bind]
    refine (s4.alloc n2).mono ?_
    rintro D m5 ⟨hD, hTD', s5⟩
    have hTD : T + n2 * max n2 k2 ≤ D := hTD' (T, n2 * max n2 k2) (by simp)
    have hSD : S2 + n2 * k2 ≤ D := hTD' (S2, n2 * k2) (by simp)
    obtain ⟨σ4, o4, s6⟩ := s5.refam (sfam t n2 k2 A lda ⟨C, ldc, n2, n2⟩ ⟨cDead u C ldc n2, ldc, n2, n2⟩ ⟨cLive u C ldc n2, ldc, n2, n2⟩
      ⟨C + n2 * ldc + n2, ldc, n2, n2⟩ (aw t n2 k2 T (ldTmp t n2 (max n2 k2))) (aw t n2 k2 S2 (ldTmp t n2 k2)) ⟨D, n2, 1, n2⟩)
    have F1 := sfam_ok u G (l := [(D, n2), (S2, n2 * k2), (T, n2 * max n2 k2)]) (TmpOk.blk h.wf (by simp) hT (blkT t n2 k2 T) (fitT t n2 k2 T))
      (TmpOk.blk h.wf (by simp) hS (blkS t n2 k2 S2) (fitS t n2 k2 S2)) (TmpOk.blk h.wf (by simp) hD (blkD n2 D) le_rfl)
      ((blkT t n2 k2 T).disj (blkS t n2 k2 S2) hTS) ((blkT t n2 k2 T).disj (blkD n2 D) hTD) ((blkS t n2 k2 S2).disj (blkD n2 D) hSD)
      (w11 := ⟨C, ldc, n2, n2⟩) (wd := ⟨cDead u C ldc n2, ldc, n2, n2⟩) (wl := ⟨cLive u C ldc n2, ldc, n2, n2⟩) (w22 := ⟨C + n2 * ldc + n2, ldc, n2, n2⟩)
      (fun _ h => h) (fun _ h => h) (fun _ h => h) (fun _ h => h) lc lc lc lc
    rw [Run_bind]
    refine (s6.k_saveDiag F1 (a := SB.c22) (k := SB.x3) trivial (by decide) rfl rfl).mono ?_
    rintro _ m6 ⟨σ5, e5, o5, s7⟩
    have r22 : σ4 .c22 = σ0 .c22 := by rw [o4 _ rfl, o3 _ (by decide), o2 _ (by decide) (by decide), o1 _ rfl]
    rw [Run_bind]
    refine (s7.k_gemmU F1 hg (u := u) alpha 0 (a := SB.x2) (b := SB.x1) (k := SB.c22) trivial (by decide) (by decide) rfl rfl rfl).mono ?_
    rintro _ m7 ⟨σ6, e6, o6, s8⟩
    rw [Run_bind]
    refine (St.free (l1 := [(D, n2)]) (l2 := [(T, n2 * max n2 k2)]) s8 h.wf (by simp; omega)).mono ?_
    intro _ m8 s8'
    obtain ⟨σ7, o7, s9⟩ := St.refam s8' (sfam t n2 k2 A lda ⟨C, ldc, n2, n2⟩ ⟨cDead u C ldc n2, ldc, n2, n2⟩ ⟨cLive u C ldc n2, ldc, n2, n2⟩
      ⟨C + n2 * ldc + n2, ldc, n2, n2⟩ (aw t n2 k2 T (ldTmp t n2 (max n2 k2))) noWin ⟨D, n2, 1, n2⟩)
    have kk : ∀ v, v ≠ .c11 → v ≠ .x3 → v ≠ .c22 → v ≠ .x2 → v ≠ .x1 → σ7 v = σ0 v := fun v v1 v2 v3 v4 v5 => by
      rw [o7 v (by cases v <;> first | rfl | contradiction), o6 v v3, o5 v v2, o4 v (by cases v <;> first | rfl | contradiction), o3 v v1,
        o2 v v5 v4, o1 v (by cases v <;> first | rfl | contradiction)]
    have q11 : σ7 .c11 = σ3 .c11 := by rw [o7 _ rfl, o6 _ (by decide), o5 _ (by decide), o4 _ rfl]
    have r11 : σ2 .c11 = σ0 .c11 := by rw [o2 _ (by decide) (by decide), o1 _ rfl]
    have r22' : σ2 .c22 = σ0 .c22 := by rw [o2 _ (by decide) (by decide), o1 _ rfl]
    refine accRest cat hg hr hxy hk hn h hA hd hT hTD s9
      (x0.congr (kk _ (by decide) (by decide) (by decide) (by decide) (by decide)) (kk _ (by decide) (by decide) (by decide) (by decide) (by decide))
        (kk _ (by decide) (by decide) (by decide) (by decide) (by decide)) (kk _ (by decide) (by decide) (by decide) (by decide) (by decide)))
      ?_ ?_ ?_ ?_ (f := σ0 .c22) ?_ ?_ i3
    · rw [o7 _ rfl, o6 _ (by decide), o5 _ (by decide), o4 _ rfl, o3 _ (by decide)]; exact g1
    · intro i hi j hj
      rw [o7 _ rfl, e6 i hi j hj, spr_congr (p' := sS2 x y n2 k2 X) (q' := sS1 x y n2 k2 X) (by rw [o5 _ (by decide), o4 _ rfl, o3 _ (by decide)]; exact g2)
        (by rw [o5 _ (by decide), o4 _ rfl, o3 _ (by decide)]; exact g1) hi hj]; ring
    · intro i hi j hj c
      rw [q11, e3]
      simp only [if_pos c]
      rw [r11, i1 i hi j hj]
    · rw [kk .cl (by decide) (by decide) (by decide) (by decide) (by decide)]; exact i2
    · intro i hi j hj c
      rw [q11, e3]
      simp only [if_neg c]
      rw [r22']
    · intro i hi
      rw [o7 _ rfl, o6 _ (by decide), e5]
      simp only
      rw [r22]

/-- `fsyrk_strassen` at any level, for dimensions that are multiples of `2^(level+1)` (of anything at level 0) -/
lemma fsyrkStrassen_ok (cat : Cat) {g : GemmFn K} (hg : GemmOk g) {base : SyrkFn K} (hb : ∀ n k, SyrkAt base n k) (hxy : x * x + y * y = -1) :
    ∀ lev n k, (lev = 0 ∨ (2 ^ (lev + 1) ∣ n ∧ 2 ^ (lev + 1) ∣ k)) → SyrkAt (fsyrkStrassen cat g base x y lev) n k := by
  intro lev
  induction lev with
  | zero => exact fun n k _ => hb n k
  | succ lev ih =>
    intro n k hnk
    obtain ⟨n4, hn⟩ := (hnk.resolve_left (by omega)).1
    obtain ⟨k4, hk⟩ := (hnk.resolve_left (by omega)).2
    have e : 2 ^ (lev + 1 + 1) = 2 * 2 ^ (lev + 1) := by rw [pow_succ]; ring
    have e' : 2 ^ (lev + 1) = 2 * 2 ^ lev := by rw [pow_succ]; ring
    obtain ⟨n2, rfl⟩ : ∃ n2, n = 2 * n2 := ⟨2 ^ (lev + 1) * n4, by rw [hn, e]; ring⟩
    obtain ⟨k2, rfl⟩ : ∃ k2, k = 2 * k2 := ⟨2 ^ (lev + 1) * k4, by rw [hk, e]; ring⟩
    have hn2 : n2 = 2 ^ (lev + 1) * n4 := by
      refine Nat.eq_of_mul_eq_mul_left (show 0 < 2 by omega) ?_
      rw [hn, e]; ring
    have hk2 : k2 = 2 ^ (lev + 1) * k4 := by
      refine Nat.eq_of_mul_eq_mul_left (show 0 < 2 by omega) ?_
      rw [hk, e]; ring
    have hk4 : 2 * (k2 / 2) = k2 := by
      rw [hk2, e', Nat.mul_assoc]
      omega
    have hr := ih n2 k2 (Or.inr ⟨⟨n4, hn2⟩, ⟨k4, hk2⟩⟩)
    intro m u t alpha A lda beta C ldc X V hbn h hA hd
    show Run (if beta = 0 then _ else _) m _
    by_cases c : beta = 0
    · rw [if_pos c]
      subst c
      exact strassen0_ok cat hg hr hxy hk4 h hA hd
    · rw [if_neg c]
      exact strassenAcc_ok cat hg hr hxy hk4 (by have := hbn.resolve_left c; omega) h hA hd

end Verif.FF
