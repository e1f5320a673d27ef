import Verif.Proofs.PPluq
import Verif.Spec.ParV
import Verif.Props.EchelonGet

/-!
# Property C107: the parallel PLUQ decomposition
-/

namespace Verif.Props

open Verif.FF Verif.Spec Verif.Spec.Perm Finset Verif.ParV Verif.Par

variable {K : Type} [Field K] [DecidableEq K] {m : Mem K} {M N A lda : ℕ} {P Q : Arr ℕ}

/-- C107: `PLUQ` with a parallel helper (and `pPLUQ`), for every matrix, every number of threads, every threshold of the recursion and of
the splitting of the products, whatever was in the arrays obtained from the allocator, and **for every schedule of the tasks**: no fault, no
race, no deadlock, no infinite execution; at the end the matrix holds a decomposition of the original one, the value is the rank, and
nothing else changed. -/
theorem C107_ppluq (junk : ℕ → K) (gthr thr : ℕ) (jk : List ℕ → ℕ → ℕ) (nt : ℕ) (d : Diag) (h : Rect m M N A lda) (hP : P.len = M) (hQ : Q.len = N) :
    EveryExec (ppluq junk gthr thr jk nt d M N A lda P Q) m (Win.Has ⟨A, lda, M, N⟩) (fun x m' =>
      x.2.1.len = M ∧ x.2.2.len = N ∧ x.1 = rk (m.mat ⟨A, lda, M, N⟩) M N ∧
      Decomposes d M N (m.mat ⟨A, lda, M, N⟩) (m'.mat ⟨A, lda, M, N⟩) x.2.1.get x.2.2.get x.1) := by
  have E := everyExec h.wf h.ok (ppluq_spec (W := ⟨A, lda, M, N⟩) (v := m.val) junk gthr thr jk nt d h.ld hP hQ)
  refine ⟨E.1, E.2, E.3, E.4, E.5, fun x m' s => ?_, E.7⟩
  obtain ⟨h1, h2, h3, h4, Y, hY, hF⟩ := E.result x m' s
  have hF' := hF.congrV (V' := m'.mat ⟨A, lda, M, N⟩) (fun i hi j hj => (hY i hi j hj).symm)
  have D : Decomposes d M N (m.mat ⟨A, lda, M, N⟩) (m'.mat ⟨A, lda, M, N⟩) x.2.1.get x.2.2.get x.1 :=
    ⟨hF'.rM, hF'.rN, h3, h4, hF'.piv, hF'.zero, fun i hi j hj => by
      rw [applySwaps_eq, applySwaps_eq]
      exact hF'.fac i hi j hj⟩
  exact ⟨h1, h2, C20_decomposition_rank D, D⟩

/-- `Det` after the decomposition, ffpack.inl:130-150 -/
def detTail (N A lda : ℕ) (x : ℕ × Arr ℕ × Arr ℕ) : Prog K K :=
  if x.1 < N then pure 0
  else do
    let det ← mulDiag N A lda
    let count ← liftE (countExchanges N x.2.1 x.2.2)
    pure (if count % 2 = 1 then -det else det)

lemma detTail_spec {X : ℕ → ℕ → K} {x : ℕ × Arr ℕ × Arr ℕ} (ok : OkIn m ⟨A, lda, N, N⟩) (h1 : x.2.1.len = N) (h2 : x.2.2.len = N)
    (D : Decomposes .nonUnit N N X (m.mat ⟨A, lda, N, N⟩) x.2.1.get x.2.2.get x.1) :
    Run (detTail N A lda x) m (fun y m' => m' = m ∧ y = (toMat N N X).det) := by
  obtain ⟨R, P', Q'⟩ := x
  have er : R = rk X N N := C20_decomposition_rank D
  dsimp only at h1 h2 D er
  unfold detTail
  dsimp only
  split_ifs with hR
  · rw [Run_pure]
    refine ⟨rfl, ?_⟩
    by_contra hne
    have := Matrix.rank_of_det_ne_zero (Ne.symm hne)
    rw [rk] at er
    simp at *
    omega
  · have e : R = N := by have := D.rM; omega
    subst e
    rw [Run_bind]
    have md : Run (mulDiag R A lda) m (fun x m' => m' = m ∧ x = ∏ k ∈ range R, m.mat ⟨A, lda, R, R⟩ k k) := by
      refine Run_iter (fun k x m' => m' = m ∧ x = ∏ k ∈ range k, m.mat ⟨A, lda, R, R⟩ k k) ⟨rfl, by simp⟩ ?_
      rintro k x m' hk ⟨rfl, rfl⟩
      have e : A + k * (lda + 1) = Win.adr ⟨A, lda, R, R⟩ k k := by rw [Win.adr]; ring
      rw [Run_bind, Run_load, e]
      refine ⟨ok.adr hk hk, ?_⟩
      rw [Run_pure, prod_range_succ]
      exact ⟨rfl, rfl⟩
    refine md.mono ?_
    rintro x m'' ⟨rfl, rfl⟩
    rw [Run_bind]
    refine (Run_liftE _ _ _).2 ((countExchanges_spec h1 h2).mono ?_)
    rintro c rfl
    rw [Run_pure]
    refine ⟨rfl, ?_⟩
    rw [det_of_fac (fun i hi => (D.tP i hi).2) (fun i hi => (D.tQ i hi).2) ⟨D.rM, D.rN, D.piv, fun i hi j hj => by
      have := D.fac i hi j hj
      rwa [applySwaps_eq, applySwaps_eq] at this⟩]
    split_ifs with hc
    · rw [(Nat.odd_iff.2 hc).neg_one_pow]; ring
    · rw [(Nat.even_iff.2 (by omega)).neg_one_pow, one_mul]

/-- C107, `pDet`: after every execution of the parallel decomposition the rest of `Det` computes the determinant. -/
theorem C107_pdet (junk : ℕ → K) (gthr thr : ℕ) (jk : List ℕ → ℕ → ℕ) (nt : ℕ) (h : Rect m N N A lda) (hP : P.len = N) (hQ : Q.len = N) {x : Res} {m' : Mem K}
    (s : Steps (ppluq junk gthr thr jk nt .nonUnit N N A lda P Q, m) (.ret x, m')) :
    Run (detTail N A lda x) m' (fun y m'' => m'' = m' ∧ y = (toMat N N (m.mat ⟨A, lda, N, N⟩)).det) := by
  have E := C107_ppluq junk gthr thr jk nt .nonUnit h hP hQ
  obtain ⟨h1, h2, _, D⟩ := E.result x m' s
  exact detTail_spec (fun a ha => (E.frame x m' s a (h.ok a ha)).1) h1 h2 D

/-! ### A concrete case: the 4 × 5 matrix `pex`, rank 3, recursion down to single lines -/

example : EveryExec (ppluq (fun _ => 5) 2 2 (fun l i => l.sum + i) 4 .nonUnit 4 5 0 6 (Arr.mk' 4 (fun _ => 9)) (Arr.mk' 5 (fun _ => 8))) pex
    (Win.Has ⟨0, 6, 4, 5⟩) (fun x m' => x.2.1.len = 4 ∧ x.2.2.len = 5 ∧ x.1 = rk (pex.mat ⟨0, 6, 4, 5⟩) 4 5 ∧
      Decomposes .nonUnit 4 5 (pex.mat ⟨0, 6, 4, 5⟩) (m'.mat ⟨0, 6, 4, 5⟩) x.2.1.get x.2.2.get x.1) :=
  C107_ppluq _ _ _ _ _ _ pex_rect rfl rfl

/-- the sequential schedule -/
abbrev pexPar (thr : ℕ) : Prog ℚ Res :=
  (ppluq (fun _ => 5) 2 thr (fun l i => l.sum + i) 4 .nonUnit 4 5 0 6 (Arr.mk' 4 (fun _ => 9)) (Arr.mk' 5 (fun _ => 8))).seq

example : (result (pexPar 2) pex).map (fun x => x.1) = some 3 ∧ after (pexPar 2) pex 5 = some 77 := by decide +kernel

/-! ### Property C108: rank profiles and echelon forms with a parallel helper -/

/-- what the parallel functions leave when they do not split the work: one task runs the base case of the sequential code -/
lemma ppluq_base (junk : ℕ → K) (gthr thr : ℕ) (jk : List ℕ → ℕ → ℕ) (nt : ℕ) (d : Diag) (h : Rect m M N A lda) (hP : P.len = M) (hQ : Q.len = N)
    (hM : 1 < M) (hN : 1 < N) (ht : min M N < thr) :
    EveryExec (ppluq junk gthr thr jk nt d M N A lda P Q) m (Win.Has ⟨A, lda, M, N⟩) (fun x _ => x.2.1.len = M ∧ x.2.2.len = N ∧
      IsTranspArray x.2.1.get M ∧ IsTranspArray x.2.2.get N ∧ ∃ Y, Pluq.Fac d M N (m.mat ⟨A, lda, M, N⟩) Y (ofSwaps x.2.1.get M) (ofSwaps x.2.2.get N) x.1) := by
  refine everyExec (Q := fun (x : Res) _ => x.2.1.len = M ∧ x.2.2.len = N ∧ IsTranspArray x.2.1.get M ∧ IsTranspArray x.2.2.get N ∧
    ∃ Y, Pluq.Fac d M N (m.mat ⟨A, lda, M, N⟩) Y (ofSwaps x.2.1.get M) (ofSwaps x.2.2.get N) x.1) h.wf h.ok ?_
  unfold ppluq ppluqRec
  refine wp_liftV (iota_spec P M hP.ge) ?_
  rintro P1 ⟨lP, eP⟩
  refine wp_liftV (iota_spec Q N hQ.ge) ?_
  rintro Q1 ⟨lQ, eQ⟩
  rw [if_neg (by omega), if_neg (by omega), if_neg (by omega), if_neg (by omega), if_pos ht]
  obtain ⟨m1, hwf, hmv, hok⟩ := exists_mem m.val (FinS.has ⟨A, lda, M, N⟩)
  refine wp_cut _ m1 hmv (fun i hi => Or.inl ((hok i).1 hi)) (pluqCrout_spec (W := ⟨A, lda, M, N⟩) (V := m.mat ⟨A, lda, M, N⟩) (cyclicShiftRowV_on junk) .generic jk d
    ⟨hwf, fun a ha => (hok a).2 ha, h.ld, Step.refl (fun _ _ _ _ => by show m1.val _ = _; rw [hmv]; rfl)⟩ (by simpa [lP] using hP) (by simpa [lQ] using hQ)) ?_
  rintro ⟨rk, P1, Q1⟩ m' ⟨e1, e2, e3, e4, Y, o, hF⟩ _ _
  exact ⟨e1, e2, e3, e4, Y, hF⟩

/-- C108 for matrices below the threshold of the recursion (both dimensions at least 2): `pColumnRankProfile` and `pRowRankProfile`, whose
lists are computed from the permutations by `RankProfileFromLU`, give the rank profiles.  Missing: the matrices which are split, where it
is false, and single lines. -/
theorem C108_rankProfiles_partial (junk : ℕ → K) (gthr thr : ℕ) (jk : List ℕ → ℕ → ℕ) (nt : ℕ) (jr jc : ℕ → ℕ) (d : Diag) (h : Rect m M N A lda) (hP : P.len = M) (hQ : Q.len = N)
    (hM : 1 < M) (hN : 1 < N) (ht : min M N < thr) :
    EveryExec (ppluq junk gthr thr jk nt d M N A lda P Q) m (Win.Has ⟨A, lda, M, N⟩) (fun x _ =>
      Ok (rankProfileFromLU x.2.1 M x.1 (Arr.mk' x.1 jr) jc .tile) (fun B => IsRowRankProfile M N (m.mat ⟨A, lda, M, N⟩) B.toList) ∧
      Ok (rankProfileFromLU x.2.2 N x.1 (Arr.mk' x.1 jr) jc .tile) (fun B => IsColRankProfile M N (m.mat ⟨A, lda, M, N⟩) B.toList)) := by
  have E := ppluq_base junk gthr thr jk nt d h hP hQ hM hN ht
  refine ⟨E.1, E.2, E.3, E.4, E.5, fun x m' s => ?_, E.7⟩
  obtain ⟨h1, h2, h3, h4, V, h6⟩ := E.result x m' s
  refine ⟨(rankProfileFromLU_spec jc h1 h3 h6.rM le_rfl).mono ?_, (rankProfileFromLU_spec jc h2 h4 h6.rN le_rfl).mono ?_⟩
  · rintro B ⟨b1, b2, b3⟩
    have e : B.toList = pre B x.1 := by rw [Arr.toList, b1]; rfl
    rw [e]
    refine ⟨b2, fun y => ?_⟩
    rw [b3]
    constructor
    · rintro ⟨k, hk, rfl⟩
      have hlt := h6.pP.1 k (lt_of_lt_of_le hk h6.rM)
      exact ⟨hlt, (row_jump h6 le_rfl hlt).2 ⟨k, hk, rfl, h6.pQ.1 k (lt_of_lt_of_le hk h6.rN)⟩⟩
    · rintro ⟨hx, hj⟩
      obtain ⟨k, hk, e, _⟩ := (row_jump h6 le_rfl hx).1 hj
      exact ⟨k, hk, e⟩
  · rintro B ⟨b1, b2, b3⟩
    have e : B.toList = pre B x.1 := by rw [Arr.toList, b1]; rfl
    rw [e]
    refine ⟨b2, fun y => ?_⟩
    rw [b3]
    constructor
    · rintro ⟨k, hk, rfl⟩
      have hlt := h6.pQ.1 k (lt_of_lt_of_le hk h6.rN)
      exact ⟨hlt, (col_jump h6 le_rfl hlt).2 ⟨k, hk, h6.pP.1 k (lt_of_lt_of_le hk h6.rM), rfl⟩⟩
    · rintro ⟨hx, hj⟩
      obtain ⟨k, hk, _, e⟩ := (col_jump h6 le_rfl hx).1 hj
      exact ⟨k, hk, e⟩

example : EveryExec (ppluq (fun _ => 5) 2 30 (fun l i => l.sum + i) 4 .nonUnit 4 5 0 6 (Arr.mk' 4 (fun _ => 9)) (Arr.mk' 5 (fun _ => 8))) pex
    (Win.Has ⟨0, 6, 4, 5⟩) (fun x _ =>
      Ok (rankProfileFromLU x.2.1 4 x.1 (Arr.mk' x.1 (fun _ => 0)) (fun _ => 0) .tile) (fun B => IsRowRankProfile 4 5 (pex.mat ⟨0, 6, 4, 5⟩) B.toList) ∧
      Ok (rankProfileFromLU x.2.2 5 x.1 (Arr.mk' x.1 (fun _ => 0)) (fun _ => 0) .tile) (fun B => IsColRankProfile 4 5 (pex.mat ⟨0, 6, 4, 5⟩) B.toList)) :=
  C108_rankProfiles_partial _ _ _ _ _ _ _ _ pex_rect rfl rfl (by decide) (by decide) (by decide)

/-- a 3 × 8 matrix with the rows 00000001, 00001100, 00001010, and room for another one behind it -/
def rpx : Mem ℚ := memOf ([0,0,0,0,0,0,0,1, 0,0,0,0,1,1,0,0, 0,0,0,0,1,0,1,0] ++ List.replicate 24 99)

lemma rpx_rect : Rect rpx 3 8 0 8 := ⟨WF_memOf _, OkIn_memOf (by decide), by decide⟩

/-- the column rank profile of `rpx` is 4, 5, 7 -/
lemma rpx_profile : IsColRankProfile 3 8 (rpx.mat ⟨0, 8, 3, 8⟩) [4, 5, 7] := by
  have h := C41_columnRankProfile .generic (gemmClassic_ok .generic) (ftrsm_TrsmOk .generic (gemmClassic_ok .generic)) 2 (fun _ _ => 7) rpx_rect
  obtain ⟨x, m', e, _, h2⟩ := h
  have r : (result (columnRankProfile .generic (gemmClassic .generic) (ftrsm .generic (gemmClassic .generic)) 2 (fun _ _ => 7) 3 8 0 8) rpx).map
      (fun x => x.2.toList) = some [4, 5, 7] := by decide +kernel
  rw [result, e] at r
  have : x.2.toList = [4, 5, 7] := by simpa using r
  rwa [this] at h2

/-- the parallel decomposition of `rpx` -/
abbrev rpxRun (d : Diag) : VProc ℚ Res := ppluq (fun _ => 0) 2 3 (fun _ _ => 7) 2 d 3 8 0 8 (Arr.mk' 3 (fun _ => 9)) (Arr.mk' 8 (fun _ => 9))

/-- C108: the parallel decomposition does **not** reveal the rank profile, although `pColumnRankProfile` (ffpack_rankprofiles.inl:88-113)
takes it from there as in the sequential case: for a line with one pivot it exchanges the pivot with the first column instead of
rotating the columns.  The list computed for `rpx` is 5, 6, 7; the column rank profile is 4, 5, 7. -/
theorem C108_columnRankProfile_violated : ∃ x m', Steps (rpxRun .nonUnit, rpx) (.ret x, m') ∧
    ∃ B : Arr ℕ, rankProfileFromLU x.2.2 8 x.1 (Arr.mk' x.1 (fun _ => 0)) (fun _ => 0) .tile = .ok B ∧ B.toList = [5, 6, 7] ∧
      ¬ IsColRankProfile 3 8 (rpx.mat ⟨0, 8, 3, 8⟩) B.toList := by
  have r : (result (rpxRun .nonUnit).seq rpx).map (fun x => (rankProfileFromLU x.2.2 8 x.1 (Arr.mk' x.1 (fun _ => 0)) (fun _ => 0) .tile).toOption.map Arr.toList) =
      some (some [5, 6, 7]) := by decide +kernel
  generalize rpxRun .nonUnit = p at r
  cases hs : p.seq rpx with
  | error e => rw [result, hs] at r; simp at r
  | ok y =>
    obtain ⟨x, m'⟩ := y
    rw [result, hs] at r
    cases hb : rankProfileFromLU x.2.2 8 x.1 (Arr.mk' x.1 (fun _ => 0)) (fun _ => 0) .tile with
    | error e => simp [hb, Except.toOption] at r
    | ok B =>
      have hB : B.toList = [5, 6, 7] := by simpa [hb, Except.toOption] using r
      refine ⟨x, m', (seq_steps p rpx_rect.wf hs).1, B, hb, hB, ?_⟩
      rw [hB]
      intro hc
      have := (hc.2 4).2 ((rpx_profile.2 4).1 (by simp))
      simp at this

/-- C108: `pRowEchelonForm` (tile recursive, without the transformation, ffpack_echelonforms.inl:93-129) followed by `getEchelonForm`: the
matrix obtained for `rpx` is not in row echelon form; its first two rows begin in the same column. -/
theorem C108_rowEchelonForm_violated : ∃ x m', Steps (rpxRun .unit, rpx) (.ret x, m') ∧
    ∃ m'', getEchelonForm (fun _ _ => 9) .tile .upper .unit 3 8 x.1 x.2.2 0 8 24 8 false m' = .ok ((), m'') ∧ x.1 = 3 ∧
      ¬ ∃ T c, IsRowEchelonForm 3 8 3 (rpx.mat ⟨0, 8, 3, 8⟩) T (m''.mat ⟨24, 8, 3, 8⟩) c := by
  have r : (((rpxRun .unit).seq >>= fun x => getEchelonForm (fun _ _ => 9) .tile .upper .unit 3 8 x.1 x.2.2 0 8 24 8 false >>= fun _ => pure x.1) rpx).toOption.map
      (fun y => (y.1, (List.range 16).map (fun i => y.2.val (24 + i)))) = some (3, [0, 0, 0, 0, 1, 1, 0, 0, 0, 0, 0, 0, 1, 0, 1, 0]) := by decide +kernel
  generalize rpxRun .unit = p at r
  cases hb : (p.seq >>= fun x => getEchelonForm (fun _ _ => 9) .tile .upper .unit 3 8 x.1 x.2.2 0 8 24 8 false >>= fun _ => pure x.1) rpx with
  | error e => rw [hb] at r; simp [Except.toOption] at r
  | ok y =>
    obtain ⟨R, m''⟩ := y
    obtain ⟨x, m', h1, h2⟩ := bind_ok hb
    obtain ⟨u, m3, h3, h4⟩ := bind_ok h2
    obtain ⟨rfl, rfl⟩ : x.1 = R ∧ m3 = m'' := by simpa [pure, Prog.pure] using h4
    rw [hb] at r
    simp only [Except.toOption, Option.map_some, Option.some.injEq, Prod.mk.injEq] at r
    obtain ⟨r1, r2⟩ := r
    refine ⟨x, m', (seq_steps p rpx_rect.wf h1).1, m3, h3, r1, ?_⟩
    rintro ⟨T, c, hE⟩
    have v : ∀ i < 2, ∀ j < 8, m3.mat ⟨24, 8, 3, 8⟩ i j = [0, 0, 0, 0, 1, 1, 0, 0, 0, 0, 0, 0, 1, 0, 1, 0].getD (8 * i + j) 0 := by
      intro i hi j hj
      have := congrArg (fun l => l.getD (8 * i + j) 0) r2
      rw [← this, List.getD_eq_getElem?_getD, List.getElem?_map, List.getElem?_range (by omega)]
      show m3.val (24 + i * 8 + j) = m3.val (24 + (8 * i + j))
      congr 1
      omega
    have key : ∀ i < 2, c i = 4 := by
      intro i hi
      have a := hE.piv i (by omega)
      have b := hE.left i (by omega)
      have cN := hE.cN i (by omega)
      rw [v i hi _ cN] at a
      by_contra hc
      have hc' : c i < 4 ∨ 4 < c i := by omega
      rcases hc' with h | h
      · interval_cases i <;> interval_cases (c _) <;> simp at a
      · have := b 4 h
        rw [v i hi 4 (by omega)] at this
        interval_cases i <;> simp at this
    have := hE.inc 0 1 (by omega) (by omega)
    rw [key 0 (by omega), key 1 (by omega)] at this
    omega

end Verif.Props
