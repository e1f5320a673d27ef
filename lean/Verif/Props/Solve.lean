import Verif.Proofs.Solve
import Verif.Props.Pluq

/-!
# Properties C22, C24, C43: linear systems, null space basis, random null vectors
-/

namespace Verif.Props

open Verif.FF Verif.Spec Verif.Spec.Perm Verif.Pluq Finset

variable {K : Type} [Field K] [DecidableEq K] {m : Mem K} {M N c A lda B ldb X ldx : ℕ} {P Q : Arr ℕ} {g : GemmFn K} {ts : TrsmFn K}

/-- The program changed nothing but (possibly) the cells of `W`, and which cells can be accessed. -/
structure Only (m m' : Mem K) (W : Win) : Prop where
  ok : m'.ok = m.ok
  frame : ∀ a, m.ok a = true → ¬ W.Has a → m'.val a = m.val a

/-- the same for two windows -/
structure Only2 (m m' : Mem K) (W T : Win) : Prop where
  ok : m'.ok = m.ok
  frame : ∀ a, m.ok a = true → ¬ W.Has a → ¬ T.Has a → m'.val a = m.val a

omit [Field K] [DecidableEq K] in
lemma On.only {m0 m : Mem K} {W : Win} {V : ℕ → ℕ → K} (h : On m0 m W V) : Only m0 m W := ⟨h.step.ok, h.step.frame⟩

omit [Field K] [DecidableEq K] in
lemma On2.only {m0 m : Mem K} {W T : Win} {V U : ℕ → ℕ → K} (h : On2 m0 m W V T U) : Only2 m0 m W T := ⟨h.ok, h.frame⟩

omit [DecidableEq K] in
lemma Decomposes.lu {d : Diag} {X V : ℕ → ℕ → K} {P Q : ℕ → ℕ} {r : ℕ} (h : Decomposes d M N X V P Q r) :
    LU M N r X (luL d V) (luU d V) (ofSwaps P M) (ofSwaps Q N) :=
  ⟨h.rM, h.rN, Perm.ofSwaps_isPerm (fun i hi => (h.tP i hi).2), Perm.ofSwaps_isPerm (fun i hi => (h.tQ i hi).2),
    fun k hk => (luDiag (h.piv k hk)).1, fun k hk => (luDiag (h.piv k hk)).2,
    fun i _ k _ hik => by simp only [luL, tri]; rw [if_neg (by omega), if_neg (by omega)],
    fun k _ j _ hjk => by simp only [luU, tri]; rw [if_neg (by omega), if_neg (by omega)],
    fun i hi j hj => by have := h.fac i hi j hj; rwa [applySwaps_eq, applySwaps_eq] at this⟩

/-- number of rows / columns of the matrix of right-hand sides -/
abbrev rhsRows (s : Side) (M c : ℕ) : ℕ := match s with
  | .left => M
  | .right => c
abbrev rhsCols (s : Side) (N c : ℕ) : ℕ := match s with
  | .left => c
  | .right => N

omit [DecidableEq K] in
lemma answer_mem {s : Side} {info : ℕ} {A B Z Z' : ℕ → ℕ → K} (h : Answer s M N c A B Z info)
    (e : ∀ i < rhsRows s N c, ∀ j < rhsCols s M c, Z i j = Z' i j) : Answer s M N c A B Z' info := by
  rcases h with ⟨h0, h⟩ | h
  · refine Or.inl ⟨h0, ?_⟩
    cases s with
    | left =>
      intro i hi j hj
      rw [← h i hi j hj]
      exact sum_congr rfl (fun k hk => by rw [e k (mem_range.1 hk) j hj])
    | right =>
      intro i hi j hj
      rw [← h i hi j hj]
      exact sum_congr rfl (fun k hk => by rw [e i hi k (mem_range.1 hk)])
  · exact Or.inr h

/-- C22: `fgetrs` in place.  Given a decomposition of the square matrix `Y` (from `PLUQ` or elsewhere) in `A`, `P`, `Q`, it solves
`Y Z = B` (`Z Y = B`) for an `M × N` matrix `B`, or reports that there is no solution. -/
theorem C22_fgetrs (hg : GemmOk g) (ht : TrsmOk ts) (s : Side) (hB : Rect m M N B ldb) (hA : Rect m (sideDim s M N) (sideDim s M N) A lda)
    (hd : (Win.mk A lda (sideDim s M N) (sideDim s M N)).Disj ⟨B, ldb, M, N⟩) {Y : ℕ → ℕ → K} {R : ℕ}
    (hP : P.len = sideDim s M N) (hQ : Q.len = sideDim s M N)
    (dec : Decomposes .nonUnit (sideDim s M N) (sideDim s M N) Y (m.mat ⟨A, lda, sideDim s M N, sideDim s M N⟩) P.get Q.get R) :
    Run (fgetrs g ts s M N R A lda P Q B ldb) m (fun info m' => Only m m' ⟨B, ldb, M, N⟩ ∧
      Answer s (sideDim s M N) (sideDim s M N) (rhsCols s M N) Y (m.mat ⟨B, ldb, M, N⟩) (m'.mat ⟨B, ldb, M, N⟩) info) := by
  cases s with
  | left =>
    refine (fgetrs_left_on (W := ⟨B, ldb, M, N⟩) hg ht hB.on hA.on.src hd rfl rfl hP dec.tP hQ dec.tQ dec.lu).mono ?_
    rintro info m' ⟨Z, h, e⟩
    exact ⟨On.only h, answer_mem e (fun i hi j hj => (h.mat hi hj).symm)⟩
  | right =>
    refine (fgetrs_right_on (W := ⟨B, ldb, M, N⟩) hg ht hB.on hA.on.src hd rfl rfl hP dec.tP hQ dec.tQ dec.lu).mono ?_
    rintro info m' ⟨Z, h, e⟩
    exact ⟨On.only h, answer_mem e (fun i hi j hj => (h.mat hi hj).symm)⟩

/-- C22: `fgetrs` with a separate solution, `Y` of size `M × N`, `c` right-hand sides. -/
theorem C22_fgetrs_X (hg : GemmOk g) (ht : TrsmOk ts) (s : Side) (hA : Rect m M N A lda) (hX : Rect m (rhsRows s N c) (rhsCols s M c) X ldx)
    (hB : Rect m (rhsRows s M c) (rhsCols s N c) B ldb)
    (hd : (Win.mk A lda M N).Disj ⟨X, ldx, rhsRows s N c, rhsCols s M c⟩)
    (hdB : (Win.mk B ldb (rhsRows s M c) (rhsCols s N c)).Disj ⟨X, ldx, rhsRows s N c, rhsCols s M c⟩) {Y : ℕ → ℕ → K} {R : ℕ}
    (hP : P.len = M) (hQ : Q.len = N) (dec : Decomposes .nonUnit M N Y (m.mat ⟨A, lda, M, N⟩) P.get Q.get R) :
    Run (fgetrsX g ts s M N c R A lda P Q X ldx B ldb) m (fun info m' => Only m m' ⟨X, ldx, rhsRows s N c, rhsCols s M c⟩ ∧
      Answer s M N c Y (m.mat ⟨B, ldb, rhsRows s M c, rhsCols s N c⟩) (m'.mat ⟨X, ldx, rhsRows s N c, rhsCols s M c⟩) info) := by
  cases s with
  | left =>
    refine (fgetrsX_left_on (T := ⟨X, ldx, N, c⟩) hg ht hX.on hA.on.src hd hB.on.src hdB rfl rfl rfl rfl rfl hP dec.tP hQ dec.tQ dec.lu).mono ?_
    rintro info m' ⟨Z, h, e⟩
    exact ⟨On.only h, answer_mem e (fun i hi j hj => (h.mat hi hj).symm)⟩
  | right =>
    refine (fgetrsX_right_on (T := ⟨X, ldx, c, M⟩) hg ht hX.on hA.on.src hd hB.on.src hdB rfl rfl rfl rfl rfl hP dec.tP hQ dec.tQ dec.lu).mono ?_
    rintro info m' ⟨Z, h, e⟩
    exact ⟨On.only h, answer_mem e (fun i hi j hj => (h.mat hi hj).symm)⟩

/-- C22: `fgesv` in place returns the rank of the square matrix in `A` and solves the system or reports that there is no solution;
it changes only `A` and `B`. -/
theorem C22_fgesv (cat : Cat) (hg : GemmOk g) (ht : TrsmOk ts) (thr : ℕ) (jk : List ℕ → ℕ → ℕ) (s : Side) (hB : Rect m M N B ldb)
    (hA : Rect m (sideDim s M N) (sideDim s M N) A lda)
    (hd : (Win.mk A lda (sideDim s M N) (sideDim s M N)).Disj ⟨B, ldb, M, N⟩) :
    Run (fgesv cat g ts thr jk s M N A lda B ldb) m (fun x m' =>
      Only2 m m' ⟨A, lda, sideDim s M N, sideDim s M N⟩ ⟨B, ldb, M, N⟩ ∧
      x.1 = rk (m.mat ⟨A, lda, sideDim s M N, sideDim s M N⟩) (sideDim s M N) (sideDim s M N) ∧
      Answer s (sideDim s M N) (sideDim s M N) (rhsCols s M N) (m.mat ⟨A, lda, sideDim s M N, sideDim s M N⟩)
        (m.mat ⟨B, ldb, M, N⟩) (m'.mat ⟨B, ldb, M, N⟩) x.2) := by
  have h2 : On2 m m ⟨A, lda, sideDim s M N, sideDim s M N⟩ (m.mat ⟨A, lda, sideDim s M N, sideDim s M N⟩) ⟨B, ldb, M, N⟩ (m.mat ⟨B, ldb, M, N⟩) :=
    ⟨hA.wf, hA.ok, hB.ok, hA.ld, hB.ld, hd, rfl, le_rfl, fun _ _ _ _ => rfl, fun _ _ _ _ => rfl, fun _ _ _ _ => rfl⟩
  have e : (match s with | .left => M | .right => N) = sideDim s M N := by cases s <;> rfl
  simp only [fgesv, Run_bind, e]
  refine (pluq_spec cat hg ht thr (fun l => jk (2 :: l)) .nonUnit h2.left rfl rfl).mono ?_
  rintro ⟨r, P, Q⟩ m1 ⟨p1, p2, p3, p4, V, p5, p6⟩
  simp only [] at p1 p2 p3 p4 p6 ⊢
  replace h2 := h2.ofW p5
  have rw1 := p6.rank_eq.symm
  cases s with
  | left =>
    refine (fgetrs_left_on (W := ⟨B, ldb, M, N⟩) (P := P) (Q := Q) (R := r) hg ht h2.right h2.left.src hd rfl rfl p1 p3 p2 p4 p6.lu).mono ?_
    rintro info m' ⟨Z, h, e⟩
    replace h2 := h2.ofT h
    rw [Run_pure]
    exact ⟨On2.only h2, rw1, answer_mem e (fun i hi j hj => (h.mat hi hj).symm)⟩
  | right =>
    refine (fgetrs_right_on (W := ⟨B, ldb, M, N⟩) (P := P) (Q := Q) (R := r) hg ht h2.right h2.left.src hd rfl rfl p1 p3 p2 p4 p6.lu).mono ?_
    rintro info m' ⟨Z, h, e⟩
    replace h2 := h2.ofT h
    rw [Run_pure]
    exact ⟨On2.only h2, rw1, answer_mem e (fun i hi j hj => (h.mat hi hj).symm)⟩

/-- C22: `fgesv` with a separate solution. -/
theorem C22_fgesv_X (cat : Cat) (hg : GemmOk g) (ht : TrsmOk ts) (thr : ℕ) (jk : List ℕ → ℕ → ℕ) (s : Side) (hA : Rect m M N A lda)
    (hX : Rect m (rhsRows s N c) (rhsCols s M c) X ldx) (hB : Rect m (rhsRows s M c) (rhsCols s N c) B ldb)
    (hd : (Win.mk A lda M N).Disj ⟨X, ldx, rhsRows s N c, rhsCols s M c⟩)
    (hdAB : (Win.mk B ldb (rhsRows s M c) (rhsCols s N c)).Disj ⟨A, lda, M, N⟩)
    (hdB : (Win.mk B ldb (rhsRows s M c) (rhsCols s N c)).Disj ⟨X, ldx, rhsRows s N c, rhsCols s M c⟩) :
    Run (fgesvX cat g ts thr jk s M N c A lda X ldx B ldb) m (fun x m' =>
      Only2 m m' ⟨A, lda, M, N⟩ ⟨X, ldx, rhsRows s N c, rhsCols s M c⟩ ∧ x.1 = rk (m.mat ⟨A, lda, M, N⟩) M N ∧
      Answer s M N c (m.mat ⟨A, lda, M, N⟩) (m.mat ⟨B, ldb, rhsRows s M c, rhsCols s N c⟩)
        (m'.mat ⟨X, ldx, rhsRows s N c, rhsCols s M c⟩) x.2) := by
  have h2 : On2 m m ⟨A, lda, M, N⟩ (m.mat ⟨A, lda, M, N⟩) ⟨X, ldx, rhsRows s N c, rhsCols s M c⟩ (m.mat ⟨X, ldx, rhsRows s N c, rhsCols s M c⟩) :=
    ⟨hA.wf, hA.ok, hX.ok, hA.ld, hX.ld, hd, rfl, le_rfl, fun _ _ _ _ => rfl, fun _ _ _ _ => rfl, fun _ _ _ _ => rfl⟩
  simp only [fgesvX, Run_bind]
  refine (pluq_spec cat hg ht thr (fun l => jk (2 :: l)) .nonUnit h2.left rfl rfl).mono ?_
  rintro ⟨r, P, Q⟩ m1 ⟨p1, p2, p3, p4, V, p5, p6⟩
  simp only [] at p1 p2 p3 p4 p6 ⊢
  replace h2 := h2.ofW p5
  have rw1 := p6.rank_eq.symm
  have sB := hB.on.src.on p5 hdAB
  cases s with
  | left =>
    refine (fgetrsX_left_on (T := ⟨X, ldx, N, c⟩) (P := P) (Q := Q) (R := r) hg ht h2.right h2.left.src hd sB hdB rfl rfl rfl rfl rfl p1 p3 p2 p4 p6.lu).mono ?_
    rintro info m' ⟨Z, h, e⟩
    replace h2 := h2.ofT h
    rw [Run_pure]
    exact ⟨On2.only h2, rw1, answer_mem e (fun i hi j hj => (h.mat hi hj).symm)⟩
  | right =>
    refine (fgetrsX_right_on (T := ⟨X, ldx, c, M⟩) (P := P) (Q := Q) (R := r) hg ht h2.right h2.left.src hd sB hdB rfl rfl rfl rfl rfl p1 p3 p2 p4 p6.lu).mono ?_
    rintro info m' ⟨Z, h, e⟩
    replace h2 := h2.ofT h
    rw [Run_pure]
    exact ⟨On2.only h2, rw1, answer_mem e (fun i hi j hj => (h.mat hi hj).symm)⟩

/-- C22 with concrete kernels -/
theorem C22_fgesv_X_winograd (cat : Cat) (th : ℕ) (hth : 2 ≤ th) (thr : ℕ) (jk : List ℕ → ℕ → ℕ) (s : Side) (hA : Rect m M N A lda)
    (hX : Rect m (rhsRows s N c) (rhsCols s M c) X ldx) (hB : Rect m (rhsRows s M c) (rhsCols s N c) B ldb)
    (hd : (Win.mk A lda M N).Disj ⟨X, ldx, rhsRows s N c, rhsCols s M c⟩)
    (hdAB : (Win.mk B ldb (rhsRows s M c) (rhsCols s N c)).Disj ⟨A, lda, M, N⟩)
    (hdB : (Win.mk B ldb (rhsRows s M c) (rhsCols s N c)).Disj ⟨X, ldx, rhsRows s N c, rhsCols s M c⟩) :
    Run (fgesvX cat (gemmAuto cat th) (ftrsm cat (gemmAuto cat th)) thr jk s M N c A lda X ldx B ldb) m (fun x m' =>
      Only2 m m' ⟨A, lda, M, N⟩ ⟨X, ldx, rhsRows s N c, rhsCols s M c⟩ ∧ x.1 = rk (m.mat ⟨A, lda, M, N⟩) M N ∧
      Answer s M N c (m.mat ⟨A, lda, M, N⟩) (m.mat ⟨B, ldb, rhsRows s M c, rhsCols s N c⟩)
        (m'.mat ⟨X, ldx, rhsRows s N c, rhsCols s M c⟩) x.2) :=
  C22_fgesv_X cat (gemmAuto_ok cat th hth) (ftrsm_TrsmOk cat (gemmAuto_ok cat th hth)) thr jk s hA hX hB hd hdAB hdB

/-- C22: `Solve` for one right-hand side with any strides: the solution when the matrix is invertible, otherwise `x` is left alone. -/
theorem C22_solve (cat : Cat) (hg : GemmOk g) (ht : TrsmOk ts) (thr : ℕ) (jk : List ℕ → ℕ → ℕ) {x incx b incb : ℕ} (hA : Rect m M M A lda)
    (hx : Rect m M 1 x incx) (hb : Rect m M 1 b incb) (hd : (Win.mk A lda M M).Disj ⟨x, incx, M, 1⟩)
    (hdAb : (Win.mk b incb M 1).Disj ⟨A, lda, M, M⟩) (hdb : (Win.mk b incb M 1).Disj ⟨x, incx, M, 1⟩) :
    Run (solve cat g ts thr jk M A lda x incx b incb) m (fun done m' =>
      (done = true ↔ rk (m.mat ⟨A, lda, M, M⟩) M M = M) ∧
      (done = true → Only2 m m' ⟨A, lda, M, M⟩ ⟨x, incx, M, 1⟩ ∧
        ∀ i < M, ∑ j ∈ range M, m.val (A + i * lda + j) * m'.val (x + j * incx) = m.val (b + i * incb)) ∧
      (done = false → Only m m' ⟨A, lda, M, M⟩)) := by
  have h2 : On2 m m ⟨A, lda, M, M⟩ (m.mat ⟨A, lda, M, M⟩) ⟨x, incx, M, 1⟩ (m.mat ⟨x, incx, M, 1⟩) :=
    ⟨hA.wf, hA.ok, hx.ok, hA.ld, hx.ld, hd, rfl, le_rfl, fun _ _ _ _ => rfl, fun _ _ _ _ => rfl, fun _ _ _ _ => rfl⟩
  simp only [solve]
  rw [Run_bind]
  refine (pluq_spec cat hg ht thr (fun l => jk (2 :: l)) .nonUnit h2.left rfl rfl).mono ?_
  rintro ⟨r, P, Q⟩ m1 ⟨p1, p2, p3, p4, V, p5, p6⟩
  simp only [] at p1 p2 p3 p4 p6 ⊢
  have rw1 : rk (m.mat ⟨A, lda, M, M⟩) M M = r := p6.rank_eq
  have hr : r ≤ M := p6.rM
  rw [rw1]
  split_ifs with hrM
  · rw [Run_pure]
    exact ⟨by simp; omega, by simp, fun _ => On.only p5⟩
  · obtain rfl : r = M := by omega
    have sB := hb.on.src.on p5 hdAb
    replace h2 := h2.ofW p5
    refine (solve_tail_on (T := ⟨x, incx, r, 1⟩) (P := P) (Q := Q) h2.right rfl rfl h2.left.src hd sB hdb rfl rfl rfl rfl p1 p3 p2 p4 p6.lu).mono ?_
    rintro done m' ⟨rfl, Z, h, e⟩
    replace h2 := h2.ofT h
    refine ⟨by simp, fun _ => ⟨On2.only h2, fun i hi => ?_⟩, by simp⟩
    have := e i hi
    simp only [Mem.mat, Win.adr, Nat.add_zero] at this
    rw [← this]
    refine sum_congr rfl (fun j hj => ?_)
    have := h.val (i := j) (j := 0) (mem_range.1 hj) Nat.one_pos
    simp only [Win.adr, Nat.add_zero] at this
    rw [this]

/-! ### null spaces -/

/-- a freshly allocated window: its cells could not be accessed before and can be accessed now -/
def Fresh (m m' : Mem K) (T : Win) : Prop := ∀ a, T.Has a → m.ok a = false ∧ m'.ok a = true

/-- the matrix whose null space is taken -/
abbrev nullOf (s : Side) (X : ℕ → ℕ → K) : ℕ → ℕ → K := match s with
  | .right => X
  | .left => fun i j => X j i

omit [Field K] [DecidableEq K] in
lemma fresh_of {m0 m m' : Mem K} {W : Win} {V Z : ℕ → ℕ → K} {r c : ℕ} (h : On m0 m W V) (h2 : On2 (m.grow (r * c)) m' W V ⟨m.next, c, r, c⟩ Z) :
    Fresh m0 m' ⟨m.next, c, r, c⟩ := by
  intro a ha
  have ge : m.next ≤ a := by
    obtain ⟨i, hi, j, hj, rfl⟩ := ha
    simp only [Win.adr]; omega
  refine ⟨?_, ?_⟩
  · rw [← h.step.ok]; exact h.wf' a ge
  · rw [h2.ok]; exact h2.okT a ha

omit [Field K] [DecidableEq K] in
lemma grow_frame {m0 m m' : Mem K} {W : Win} {V Z : ℕ → ℕ → K} {r c : ℕ} (h : On m0 m W V) (h2 : On2 (m.grow (r * c)) m' W V ⟨m.next, c, r, c⟩ Z) :
    ∀ a, m0.ok a = true → m'.ok a = true ∧ (¬ W.Has a → m'.val a = m0.val a) := by
  intro a ha
  have ha' : m.ok a = true := by rw [h.step.ok]; exact ha
  have hg : (m.grow (r * c)).ok a = true := by simp [Mem.grow, ha']
  refine ⟨by rw [h2.ok]; exact hg, fun hn => ?_⟩
  rw [h2.frame a hg hn, ← h.step.frame a ha hn]
  · rfl
  · intro hh
    have := (fresh_of h h2 a hh).1
    rw [ha] at this; cases this

/-- C24: `NullSpaceBasis`.  The dimension is the number of columns (rows) minus the rank; when it is zero no matrix is returned and the
null space is `{0}`, otherwise the returned matrix is new and contains a basis, as columns (right) or rows (left). -/
theorem C24_nullSpaceBasis (cat : Cat) (hg : GemmOk g) (ht : TrsmOk ts) (thr : ℕ) (jk : List ℕ → ℕ → ℕ) (s : Side) (hA : Rect m M N A lda) :
    Run (nullSpaceBasis cat g ts thr jk s M N A lda) m (fun x m' =>
      x.1 = sideDim s M N - rk (m.mat ⟨A, lda, M, N⟩) M N ∧
      (∀ a, m.ok a = true → m'.ok a = true ∧ (¬ (Win.mk A lda M N).Has a → m'.val a = m.val a)) ∧
      (x.2 = none → x.1 = 0 ∧ IsNullBasis (sideDim s N M) (sideDim s M N) 0 (nullOf s (m.mat ⟨A, lda, M, N⟩)) (fun _ _ => 0)) ∧
      ∀ NS ldn, x.2 = some (NS, ldn) → match s with
        | .right => ldn = x.1 ∧ Fresh m m' ⟨NS, ldn, N, x.1⟩ ∧ IsNullBasis M N x.1 (m.mat ⟨A, lda, M, N⟩) (m'.mat ⟨NS, ldn, N, x.1⟩)
        | .left => ldn = M ∧ Fresh m m' ⟨NS, ldn, x.1, M⟩ ∧
            IsNullBasis N M x.1 (fun i j => m.mat ⟨A, lda, M, N⟩ j i) (fun i j => m'.mat ⟨NS, ldn, x.1, M⟩ j i)) := by
  simp only [nullSpaceBasis]
  rw [Run_bind]
  refine (pluq_spec cat hg ht thr (fun l => jk (2 :: l)) .nonUnit hA.on rfl rfl).mono ?_
  rintro ⟨r, P, Q⟩ m1 ⟨p1, p2, p3, p4, V, p5, p6⟩
  simp only [] at p1 p2 p3 p4 p6 ⊢
  have rw1 : rk (m.mat ⟨A, lda, M, N⟩) M N = r := p6.rank_eq
  have hrM : r ≤ M := p6.rM
  have hrN : r ≤ N := p6.rN
  have ncongr : ∀ {a b d : ℕ} {X B B' : ℕ → ℕ → K}, IsNullBasis a b d X B → (∀ i < b, ∀ j < d, B i j = B' i j) → IsNullBasis a b d X B' := by
    intro a b d X B B' hb e
    have key : ∀ y : ℕ → K, ∀ j < b, ∑ c ∈ range d, B j c * y c = ∑ c ∈ range d, B' j c * y c := fun y j hj =>
      sum_congr rfl (fun c hc => by rw [e j hj c (mem_range.1 hc)])
    refine ⟨fun x => (hb.1 x).trans ⟨?_, ?_⟩, fun y hy => hb.2 y (fun j hj => by rw [key y j hj]; exact hy j hj)⟩
    · rintro ⟨y, hy⟩; exact ⟨y, fun j hj => by rw [hy j hj, key y j hj]⟩
    · rintro ⟨y, hy⟩; exact ⟨y, fun j hj => by rw [hy j hj, key y j hj]⟩
  rw [rw1]
  cases s with
  | right =>
    simp only [sideDim]
    rw [Run_bind]
    refine (Run_liftE _ _ _).2 ((Ok_usub _ _ _).2 ⟨hrN, ?_⟩)
    rif h0
    · rw [Run_pure]
      refine ⟨rfl, fun a ha => ⟨by rw [p5.step.ok]; exact ha, p5.step.frame a ha⟩, fun _ => ⟨h0, ?_⟩, by simp⟩
      have := isNullBasis_of (NS := fun _ _ => 0) (T := fun _ _ => 0) p6.lu (fun k _ c hc => by simp only [] at *; omega)
        (fun k _ c hc => by simp only [] at *; omega)
      rwa [h0] at this
    · refine (nullSpace_right_on (Q := Q) (R := r) ht p5 p2 p4 p6.lu h0).mono ?_
      rintro x m' ⟨rfl, Z, h3, h4⟩
      refine ⟨rfl, grow_frame p5 h3, by simp, ?_⟩
      intro NS ldn e
      simp only [Option.some.injEq, Prod.mk.injEq] at e
      obtain ⟨rfl, rfl⟩ := e
      exact ⟨rfl, fresh_of p5 h3, ncongr h4 (fun i hi j hj => (h3.valT i hi j hj).symm)⟩
  | left =>
    simp only [sideDim]
    rw [Run_bind]
    refine (Run_liftE _ _ _).2 ((Ok_usub _ _ _).2 ⟨hrM, ?_⟩)
    rif h0
    · rw [Run_pure]
      refine ⟨rfl, fun a ha => ⟨by rw [p5.step.ok]; exact ha, p5.step.frame a ha⟩, fun _ => ⟨h0, ?_⟩, by simp⟩
      have := isNullBasis_of (NS := fun _ _ => 0) (T := fun _ _ => 0) p6.lu.transpose (fun k _ c hc => by simp only [] at *; omega)
        (fun k _ c hc => by simp only [] at *; omega)
      rwa [h0] at this
    · refine (nullSpace_left_on (P := P) (R := r) ht p5 p1 p3 p6.lu h0).mono ?_
      rintro x m' ⟨rfl, Z, h3, h4⟩
      refine ⟨rfl, grow_frame p5 h3, by simp, ?_⟩
      intro NS ldn e
      simp only [Option.some.injEq, Prod.mk.injEq] at e
      obtain ⟨rfl, rfl⟩ := e
      exact ⟨rfl, fresh_of p5 h3, ncongr h4 (fun i hi j hj => (h3.valT j hj i hi).symm)⟩

/-- C43, partial: `RandomNullSpaceVector` for `incX = 1`: the result is in the null space, and the random values are among its
entries (so it is non-zero when one of them is).  For other strides see `C43_randomNullSpaceVector_violated`. -/
theorem C43_randomNullSpaceVector_partial (cat : Cat) (hg : GemmOk g) (ht : TrsmOk ts) (thr : ℕ) (jk : List ℕ → ℕ → ℕ) (rnd : ℕ → K) (s : Side)
    (hA : Rect m M N A lda) (hX : Rect m (sideDim s M N) 1 X 1) (hd : (Win.mk A lda M N).Disj ⟨X, 1, sideDim s M N, 1⟩) :
    Run (randomNullSpaceVector cat g ts thr jk rnd s M N A lda X 1) m (fun _ m' =>
      Only2 m m' ⟨A, lda, M, N⟩ ⟨X, 1, sideDim s M N, 1⟩ ∧
      (∀ i < sideDim s N M, ∑ j ∈ range (sideDim s M N), nullOf s (m.mat ⟨A, lda, M, N⟩) i j * m'.val (X + j) = 0) ∧
      ∀ c < sideDim s M N - rk (m.mat ⟨A, lda, M, N⟩) M N, ∃ j < sideDim s M N, m'.val (X + j) = rnd c) := by
  have h2 : On2 m m ⟨A, lda, M, N⟩ (m.mat ⟨A, lda, M, N⟩) ⟨X, 1, sideDim s M N, 1⟩ (m.mat ⟨X, 1, sideDim s M N, 1⟩) :=
    ⟨hA.wf, hA.ok, hX.ok, hA.ld, hX.ld, hd, rfl, le_rfl, fun _ _ _ _ => rfl, fun _ _ _ _ => rfl, fun _ _ _ _ => rfl⟩
  simp only [randomNullSpaceVector]
  rw [Run_bind]
  refine (pluq_spec cat hg ht thr (fun l => jk (2 :: l)) .nonUnit h2.left rfl rfl).mono ?_
  rintro ⟨r, P, Q⟩ m1 ⟨p1, p2, p3, p4, V, p5, p6⟩
  simp only [] at p1 p2 p3 p4 p6 ⊢
  have rw1 : rk (m.mat ⟨A, lda, M, N⟩) M N = r := p6.rank_eq
  replace h2 := h2.ofW p5
  rw [rw1]
  have ev : ∀ {m' : Mem K} {n : ℕ} {Z : ℕ → ℕ → K}, On m1 m' ⟨X, 1, n, 1⟩ Z → ∀ j < n, m'.val (X + j) = Z j 0 := by
    intro m' n Z h j hj
    have := h.val (i := j) (j := 0) hj Nat.one_pos
    simpa [Win.adr] using this
  cases s with
  | right =>
    refine (nullVec_right_on (S := ⟨A, lda, M, N⟩) (T := ⟨X, 1, N, 1⟩) (Q := Q) (R := r) cat rnd h2.right rfl rfl rfl h2.left.src hd p2 p4 p6.lu).mono ?_
    rintro _ m' ⟨Z, h3, h4, j0, h5⟩
    refine ⟨On2.only (h2.ofT h3), fun i hi => ?_, fun c hc => ⟨j0 c, (h5 c hc).1, by rw [ev h3 _ (h5 c hc).1]; exact (h5 c hc).2⟩⟩
    rw [← h4 i hi]
    exact sum_congr rfl (fun j hj => by rw [ev h3 j (mem_range.1 hj)])
  | left =>
    refine (nullVec_left_on (S := ⟨A, lda, M, N⟩) (T := ⟨X, 1, M, 1⟩) (P := P) (R := r) cat rnd h2.right rfl rfl rfl h2.left.src hd p1 p3 p6.lu).mono ?_
    rintro _ m' ⟨Z, h3, h4, j0, h5⟩
    refine ⟨On2.only (h2.ofT h3), fun i hi => ?_, fun c hc => ⟨j0 c, (h5 c hc).1, by rw [ev h3 _ (h5 c hc).1]; exact (h5 c hc).2⟩⟩
    rw [← h4 i hi]
    exact sum_congr rfl (fun j hj => by rw [ev h3 j (mem_range.1 hj)])

/-! ### concrete runs -/

abbrev exG : GemmFn ℚ := gemmClassic .modular
abbrev exT : TrsmFn ℚ := ftrsm .modular exG

/-- C43 fails for `incX = 2`: the product of the matrix `(0 1)` with the returned vector is the random value, and the cell between the two
entries, which does not belong to the vector, is overwritten.  (The last `applyP` uses the stride `1` instead of `incX`.) -/
theorem C43_randomNullSpaceVector_violated :
    ∃ (m : Mem ℚ) (A X : ℕ), Rect m 1 2 A 2 ∧ Rect m 2 1 X 2 ∧ (Win.mk A 2 1 2).Disj ⟨X, 2, 2, 1⟩ ∧
      Run (randomNullSpaceVector .modular exG exT 1 (fun _ i => i) (fun _ => 5) .right 1 2 A 2 X 2) m (fun _ m' =>
        ∑ j ∈ range 2, m.val (A + j) * m'.val (X + 2 * j) ≠ 0 ∧
        m.ok (X + 1) = true ∧ ¬ (Win.mk A 2 1 2).Has (X + 1) ∧ ¬ (Win.mk X 2 2 1).Has (X + 1) ∧ m'.val (X + 1) ≠ m.val (X + 1)) := by
  refine ⟨memOf [0, 1, 10, 20, 30], 0, 2, ⟨WF_memOf _, OkIn_memOf (by decide), by decide⟩, ⟨WF_memOf _, OkIn_memOf (by decide), by decide⟩,
    Win.Ends.disj (by decide), ?_⟩
  have h : ∃ x m', randomNullSpaceVector .modular exG exT 1 (fun _ i => i) (fun _ => 5) .right 1 2 0 2 2 2 (memOf [0, 1, 10, 20, 30]) = .ok (x, m') ∧
      m'.val 2 = 20 ∧ m'.val 3 = 0 ∧ m'.val 4 = 5 := by
    have e : after (randomNullSpaceVector .modular exG exT 1 (fun _ i => i) (fun _ => 5) .right 1 2 0 2 2 2) (memOf [0, 1, 10, 20, 30]) 2 = some 20 ∧
        after (randomNullSpaceVector .modular exG exT 1 (fun _ i => i) (fun _ => 5) .right 1 2 0 2 2 2) (memOf [0, 1, 10, 20, 30]) 3 = some 0 ∧
        after (randomNullSpaceVector .modular exG exT 1 (fun _ i => i) (fun _ => 5) .right 1 2 0 2 2 2) (memOf [0, 1, 10, 20, 30]) 4 = some 5 := by
      decide +kernel
    unfold after at e
    split at e
    · rename_i x m' hx
      simp only [Option.some.injEq] at e
      exact ⟨x, m', hx, e⟩
    · simp at e
  obtain ⟨x, m', e, e2, e3, e4⟩ := h
  refine ⟨x, m', e, ?_, by decide, by rintro ⟨i, hi, j, hj, h⟩; simp only [Win.adr] at h hi hj; omega,
    by rintro ⟨i, hi, j, hj, h⟩; simp only [Win.adr] at h hi hj; omega, ?_⟩
  · simp [sum_range_succ, e2, e4, memOf]
  · simp [e3, memOf]

/-- `2 x + 4 y = 2, x + 2 y = 1, x + y = 3` is solved by `(5, -2)`; the third equation of the second system contradicts the first. -/
def sex : Mem ℚ := memOf [2, 4,  1, 2,  1, 1,   2, 8, 1, 5, 3, 5,   0, 0, 0, 0]

example : Rect sex 3 2 0 2 ∧ Rect sex 2 1 12 2 ∧ Rect sex 3 1 6 2 ∧ (Win.mk 0 2 3 2).Disj ⟨12, 2, 2, 1⟩ ∧ (Win.mk 12 2 2 1).Ends 16 :=
  ⟨⟨WF_memOf _, OkIn_memOf (by decide), by decide⟩, ⟨WF_memOf _, OkIn_memOf (by decide), by decide⟩, ⟨WF_memOf _, OkIn_memOf (by decide), by decide⟩,
    Win.Ends.disj (by decide), by decide⟩
example : result (fgesvX .modular exG exT 1 (fun _ i => i) .left 3 2 1 0 2 12 2 6 2) sex = some (2, 0) := by decide +kernel
example : after (fgesvX .modular exG exT 1 (fun _ i => i) .left 3 2 1 0 2 12 2 6 2) sex 12 = some 5 := by decide +kernel
example : after (fgesvX .modular exG exT 1 (fun _ i => i) .left 3 2 1 0 2 12 2 6 2) sex 14 = some (-2) := by decide +kernel
example : result (fgesvX .modular exG exT 1 (fun _ i => i) .left 3 2 1 0 2 12 2 7 2) sex = some (2, 1) := by decide +kernel

/-- a `2 × 2` system in place, from the right: `(x y) (0 2; 3 1) = (6 8)`, solution `(3, 2)` -/
example : result (fgesv .modular exG exT 1 (fun _ i => i) .right 1 2 0 2 4 2) (memOf [0, 2, 3, 1, 6, 8] : Mem ℚ) = some (2, 0) ∧
    after (fgesv .modular exG exT 1 (fun _ i => i) .right 1 2 0 2 4 2) (memOf [0, 2, 3, 1, 6, 8] : Mem ℚ) 4 = some 3 ∧
    after (fgesv .modular exG exT 1 (fun _ i => i) .right 1 2 0 2 4 2) (memOf [0, 2, 3, 1, 6, 8] : Mem ℚ) 5 = some 2 := by decide +kernel

/-- hypotheses of `C22_fgetrs` for the same matrix as decomposed by `pluq`: `(0 2; 3 1)` with the column exchange `Q = [1, 1]` -/
example : Decomposes .nonUnit 2 2 (fun i j => ([[0, 2], [3, 1]] : List (List ℚ)).getD i [] |>.getD j 0)
    (fun i j => ([[2, 0], [1/2, 3]] : List (List ℚ)).getD i [] |>.getD j 0) (fun i => i) (fun i => [1, 1].getD i 0) 2 := by
  refine ⟨by decide, by decide, ?_, ?_, ?_, ?_, ?_⟩
  · intro i hi; exact ⟨le_rfl, hi⟩
  · intro i hi
    rcases i with _ | _ | i
    · decide
    · decide
    · omega
  · intro k hk
    rcases k with _ | _ | k
    · decide
    · decide
    · omega
  · intro i hi; omega
  · intro i hi j hj
    rcases i with _ | _ | i <;> rcases j with _ | _ | j <;> first | omega | (simp [sum_range_succ, luL, luU, tri, applySwaps, exchange] <;> norm_num)

/-- `Solve` with strides: `(0 2; 3 1) (x, y) = (4, 5)`, solution `(1, 2)` -/
example : result (solve .modular exG exT 1 (fun _ i => i) 2 0 2 4 3 8 1) (memOf [0, 2, 3, 1, 0, 0, 0, 0, 4, 5] : Mem ℚ) = some true ∧
    after (solve .modular exG exT 1 (fun _ i => i) 2 0 2 4 3 8 1) (memOf [0, 2, 3, 1, 0, 0, 0, 0, 4, 5] : Mem ℚ) 4 = some 1 ∧
    after (solve .modular exG exT 1 (fun _ i => i) 2 0 2 4 3 8 1) (memOf [0, 2, 3, 1, 0, 0, 0, 0, 4, 5] : Mem ℚ) 7 = some 2 := by decide +kernel

/-- the null space of `(0 2 4; 0 1 2)` has dimension 2; the basis is stored at address 9 (6 to 8 were used and freed by `pluq`) -/
example : result (nullSpaceBasis .modular exG exT 1 (fun _ i => i) .right 2 3 0 3) (memOf [0, 2, 4, 0, 1, 2] : Mem ℚ) = some (2, some (9, 2)) ∧
    (List.range 6).map (fun i => after (nullSpaceBasis .modular exG exT 1 (fun _ i => i) .right 2 3 0 3) (memOf [0, 2, 4, 0, 1, 2] : Mem ℚ) (9 + i)) =
      [1, 0, 0, -2, 0, 1].map some := by decide +kernel
example : result (nullSpaceBasis .modular exG exT 1 (fun _ i => i) .left 2 3 0 3) (memOf [0, 2, 4, 0, 1, 2] : Mem ℚ) = some (1, some (9, 2)) ∧
    (List.range 2).map (fun i => after (nullSpaceBasis .modular exG exT 1 (fun _ i => i) .left 2 3 0 3) (memOf [0, 2, 4, 0, 1, 2] : Mem ℚ) (9 + i)) =
      [-(1/2), 1].map some := by decide +kernel

example : (List.range 3).map (fun i => after (randomNullSpaceVector .modular exG exT 1 (fun _ i => i) (fun k => (k : ℚ) + 5) .right 2 3 0 3 6 1)
    (memOf [0, 2, 4, 0, 1, 2, 9, 9, 9] : Mem ℚ) (6 + i)) = [5, -12, 6].map some := by decide +kernel

end Verif.Props
