import Verif.Model.LudUse
import Verif.Proofs.Ludivine
import Verif.Proofs.FsyrkDiag
import Verif.Proofs.Echelon
import Verif.Proofs.Checkers
import Verif.Proofs.RankProfile

/-!
# Functions that call LUdivine
-/

namespace Verif.FF

open Finset Verif.Perm Verif.Spec Verif.Spec.Perm Verif.Pluq Verif.Lud

section
variable {K : Type} [Field K] [DecidableEq K]
variable {m0 m m' : Mem K} {W S : Win} {X V f : ℕ → ℕ → K} {g : GemmFn K} {ts : TrsmFn K}

lemma exchangeAll_spec {X P : Arr ℕ} {R n : ℕ} (hX : n ≤ X.len) (hx : ∀ i < n, X.get i = i) (hP : R ≤ P.len) (hR : R ≤ n)
    (hb : ∀ i < R, P.get i < n) : Ok (exchangeAll X P R) (fun Y => Y.len = X.len ∧ ∀ i < n, Y.get i = ofSwaps P.get R i) := by
  unfold exchangeAll
  refine Ok_iter (fun k (Y : Arr ℕ) => Y.len = X.len ∧ ∀ i < n, Y.get i = ofSwaps P.get k i) ⟨rfl, fun i hi => by rw [hx i hi]; rfl⟩ ?_
  intro k Y hk ⟨hl, hY⟩
  simp only [Ok_bind, Ok_rd]
  refine ⟨by omega, ?_⟩
  rw [Ok_ite]
  have hpk := hb k hk
  refine ⟨fun h => ?_, fun h => ?_⟩
  · refine Ok_aswap _ _ _ _ (by omega) (by omega) ⟨hl, fun i hi => ?_⟩
    have : Equiv.swap k (P.get k) i < n := by rw [Equiv.swap_apply_def]; split_ifs <;> omega
    rw [ofSwaps, Equiv.Perm.mul_apply, ← hY _ this]; rfl
  · push Not at h
    simp only [Ok_pure]
    refine ⟨hl, fun i hi => ?_⟩
    rw [ofSwaps, Equiv.Perm.mul_apply, ← h, Equiv.swap_self]
    exact hY i hi

/-- what `rowIndices` returns: the rank, the row rank profile and the columns of an invertible submatrix -/
structure IndPost (M N : ℕ) (X : ℕ → ℕ → K) (R : ℕ) (rows cols : Arr ℕ) : Prop where
  rank : R = rk X M N
  lenR : rows.len = M
  lenC : cols.len = N
  prof : IsRowRankProfile M N X (pre rows R)
  cols_lt : ∀ j < R, cols.get j < N
  cols_ne : ∀ i < R, ∀ j < R, cols.get i = cols.get j → i = j
  minor : (toMat R R (fun i j => X (rows.get i) (cols.get j))).det ≠ 0

omit [DecidableEq K] in
lemma IndPost.of_cup {d : Diag} {M N R : ℕ} {Y : ℕ → ℕ → K} {p q : ℕ → ℕ} {rows cols : Arr ℕ} (h : Cup d M N X Y p q R) (hr : rows.len = M)
    (hc : cols.len = N) (er : ∀ i < R, rows.get i = q i) (ec : ∀ j < R, cols.get j = p j) : IndPost M N X R rows cols := by
  have rN := h.rN
  refine ⟨h.rank_eq.symm, hr, hc, ?_, fun j hj => ?_, fun i hi j hj e => ?_, ?_⟩
  · have : pre rows R = (List.range R).map q := by
      unfold pre
      exact List.map_congr_left (fun i hi => er i (List.mem_range.1 hi))
    rw [this]; exact h.profile
  · rw [ec j hj]; exact h.pP.1 j (by omega)
  · rw [ec i hi, ec j hj] at e
    exact h.pP.2 i (by omega) j (by omega) e
  · have : toMat R R (fun i j => X (rows.get i) (cols.get j)) = toMat R R (fun i j => X (q i) (p j)) := by
      ext i j
      simp only [toMat, Matrix.of_apply]
      rw [er i i.2, ec j j.2]
    rw [this]
    exact h.minor le_rfl

theorem rowIndices_spec (cat : Cat) (hg : GemmOk g) (ht : TrsmOk ts) (cutoff : ℕ) (jk : List ℕ → ℕ → ℕ) (h : On m0 m W X) :
    Run (rowIndices cat g ts cutoff jk W.r W.c W.p W.ld) m (fun y m' => ∃ Y, On m0 m' W Y ∧ IndPost W.r W.c X y.1 y.2.1 y.2.2) := by
  unfold rowIndices
  rw [Run_bind]
  refine (ludivine_spec (ta := .no) (sing := false) (P := Arr.mk' W.c (jk [0])) (Q := Arr.mk' W.r (jk [1])) cat hg ht (Or.inr ⟨rfl, rfl⟩)
    (by simp [Arr.mk']) (by simp [Arr.mk', lr]) h).mono ?_
  rintro ⟨R, P, Q⟩ m1 ⟨l1, l2, low, lt, ⟨Y, hY, hc⟩, -, -⟩
  have hc := hc (by simp)
  simp only [Arr.mk'] at l1 l2 low lt hc ⊢
  have rM := hc.rM
  have rN := hc.rN
  simp only [lr, lc] at rM rN lt hc
  rw [Run_bind, Run_liftE]
  refine (copyTo_spec Q 0 (⟨W.r, jk [2]⟩ : Arr ℕ) 0 R (by omega) (by simp only []; omega)).mono (fun rows hrows => ?_)
  rw [Run_bind, Run_liftE]
  refine (iota_spec (⟨W.c, jk [3]⟩ : Arr ℕ) W.c le_rfl).mono (fun cols hcols => ?_)
  rw [Run_bind, Run_liftE]
  refine (exchangeAll_spec (n := W.c) hcols.1.ge hcols.2 (by omega) rN lt).mono (fun cols' hc' => ?_)
  rw [Run_pure]
  refine ⟨Y, hY, IndPost.of_cup hc hrows.1 (hc'.1.trans hcols.1) (fun i hi => ?_) (fun j hj => hc'.2 j (by omega))⟩
  rw [hrows.2 i, if_pos (by omega)]
  simp

theorem colIndices_spec (cat : Cat) (hg : GemmOk g) (ht : TrsmOk ts) {cutoff : ℕ} (hc : cutoff ≤ 1) (jk : List ℕ → ℕ → ℕ) (h : On m0 m W X)
    (hsq : W.r = W.c) :
    Run (colIndices cat g ts cutoff jk W.r W.c W.p W.ld) m (fun y m' => ∃ Y, On m0 m' W Y ∧ IndPost W.c W.r (fun i j => X j i) y.1 y.2.2 y.2.1) := by
  have h' : OnL .yes m0 m W (fun i j => X j i) := h
  unfold colIndices
  rw [Run_bind]
  refine (ludivine_spec (ta := .yes) (sing := false) (P := Arr.mk' W.r (jk [0])) (Q := Arr.mk' W.c (jk [1])) cat hg ht (Or.inl hc)
    (by simp [Arr.mk']) (by simp [Arr.mk', lr]) h').mono ?_
  rintro ⟨R, P, Q⟩ m1 ⟨l1, l2, low, lt, ⟨Y, hY, hc⟩, -, -⟩
  have hc := hc (by simp)
  simp only [Arr.mk'] at l1 l2 low lt hc ⊢
  have rM := hc.rM
  have rN := hc.rN
  simp only [lr, lc] at rM rN lt hc
  rw [Run_bind, Run_liftE]
  refine (copyTo_spec Q 0 (⟨W.c, jk [2]⟩ : Arr ℕ) 0 R (by omega) (by simp only []; omega)).mono (fun cols hcols => ?_)
  rw [Run_bind, Run_liftE]
  refine (iota_spec (⟨W.r, jk [3]⟩ : Arr ℕ) W.c hsq.ge).mono (fun rows hrows => ?_)
  rw [Run_bind, Run_liftE]
  refine (exchangeAll_spec (n := W.r) hrows.1.ge (fun i hi => hrows.2 i (by omega)) (by omega) rN lt).mono (fun rows' hr' => ?_)
  rw [Run_pure]
  refine ⟨_, hY, IndPost.of_cup hc hcols.1 (hr'.1.trans hrows.1) (fun i hi => ?_) (fun j hj => hr'.2 j (by omega))⟩
  rw [hcols.2 i, if_pos (by omega)]
  simp

/-- the matrix with the given rows and columns is written to a new block -/
lemma submatrix_spec {R T A lda : ℕ} {rows cols : Arr ℕ} {U : ℕ → ℕ → K} (h : On m0 m ⟨T, R, R, R⟩ U) (hS : Src m ⟨A, lda, W.r, W.c⟩ f)
    (hd : (Win.mk A lda W.r W.c).Disj ⟨T, R, R, R⟩) (hr : R ≤ rows.len) (hc : R ≤ cols.len) (hrow : ∀ i < R, rows.get i < W.r)
    (hcol : ∀ j < R, cols.get j < W.c) :
    Run (submatrix R A lda T rows cols) m (fun _ m' => On m0 m' ⟨T, R, R, R⟩ (fun i j => f (rows.get i) (cols.get j))) := by
  unfold submatrix
  refine (Run_loop (fun t m' => Src m' ⟨A, lda, W.r, W.c⟩ f ∧ On m0 m' ⟨T, R, R, R⟩ (fun i j => if i < t then f (rows.get i) (cols.get j) else U i j))
    ⟨hS, h.congr (fun i _ j _ => by simp)⟩ ?_).mono (fun _ m' hm => hm.2.congr (fun i hi j _ => if_pos hi))
  rintro i m1 hi ⟨s1, o1⟩
  refine (Run_loop (fun t m' => Src m' ⟨A, lda, W.r, W.c⟩ f ∧
    On m0 m' ⟨T, R, R, R⟩ (fun a j => if a < i ∨ a = i ∧ j < t then f (rows.get a) (cols.get j) else U a j))
    ⟨s1, o1.congr (fun a _ j _ => by simp)⟩ ?_).mono (fun _ m' hm => ⟨hm.1, hm.2.congr (fun a ha j hj => ?_)⟩)
  · rintro j m2 hj ⟨s2, o2⟩
    simp only [Run_bind, Run_liftE]
    refine (Ok_rd _ _ _).2 ⟨by omega, (Ok_rd _ _ _).2 ⟨by omega, ?_⟩⟩
    have ra := hrow i hi
    have cb := hcol j hj
    have eA : A + rows.get i * lda + cols.get j = (Win.mk A lda W.r W.c).adr (rows.get i) (cols.get j) := rfl
    have eT : T + i * R + j = (Win.mk T R R R).adr i j := rfl
    rw [Run_load]
    refine ⟨by rw [eA]; exact s2.ok.adr ra cb, ?_⟩
    rw [Run_store]
    refine ⟨by rw [eT]; exact o2.okc hi hj, ?_⟩
    have o3 := o2.set (x := m2.val (A + rows.get i * lda + cols.get j)) (i := i) (j := j) hi hj
    refine ⟨?_, ?_⟩
    · refine s2.step (T := ⟨T, R, R, R⟩) (o2.here.set (x := m2.val (A + rows.get i * lda + cols.get j)) (i := i) (j := j) hi hj).step hd
    · refine o3.congr (fun a ha b hb => ?_)
      have e : m2.val (A + rows.get i * lda + cols.get j) = f (rows.get i) (cols.get j) := by rw [eA]; exact s2.val _ ra _ cb
      rw [e]
      unfold upd
      by_cases c : a = i ∧ b = j
      · obtain ⟨rfl, rfl⟩ := c
        rw [if_pos (by omega), if_pos (by omega)]
      · rw [if_neg (by omega)]
        simp only []
        by_cases c2 : a < i ∨ a = i ∧ b < j
        · rw [if_pos c2, if_pos (by omega)]
        · rw [if_neg c2, if_neg (by omega)]
  · have ha : a < R := ha
    have hj : j < R := hj
    by_cases c : a < i + 1
    · rw [if_pos c, if_pos (by omega)]
    · rw [if_neg c, if_neg (by omega)]

omit [Field K] [DecidableEq K] in
lemma okin_block {p r c n : ℕ} (h : OkIn m (vw p 1 n)) (e : n = r * c) : OkIn m ⟨p, c, r, c⟩ := by
  subst e
  rintro a ⟨i, hi, j, hj, rfl⟩
  simp only [] at hi hj
  have : (i + 1) * c ≤ r * c := Nat.mul_le_mul_right _ hi
  rw [Nat.succ_mul] at this
  refine h _ ⟨i * c + j, by simp only [vw]; omega, 0, by simp [vw], ?_⟩
  simp only [vw, Win.adr]; ring

/-- what the functions extracting a submatrix do: `x` is the rank and a new block containing the submatrix; the old memory is unchanged -/
structure SubPost (m m' : Mem K) (X : ℕ → ℕ → K) (R T : ℕ) (rows cols : ℕ → ℕ) : Prop where
  ok : ∀ a, m'.ok a = true ↔ m.ok a = true ∨ T ≤ a ∧ a < T + R * R
  new : ∀ a, T ≤ a → m.ok a = false
  frame : ∀ a, m.ok a = true → m'.val a = m.val a
  val : ∀ i < R, ∀ j < R, m'.val (T + i * R + j) = X (rows i) (cols j)

/-- the common part of `RowRankProfileSubmatrix` and `ColRankProfileSubmatrix` -/
lemma submatrixOf_spec {A lda M N : ℕ} {ind : ℕ → Prog K (ℕ × Arr ℕ × Arr ℕ)} {I : ℕ → Arr ℕ → Arr ℕ → Prop}
    (hi : ∀ A2 m1, On m1 m1 ⟨A2, N, M, N⟩ X → Run (ind A2) m1 (fun y m' => ∃ Y, On m1 m' ⟨A2, N, M, N⟩ Y ∧ I y.1 y.2.1 y.2.2))
    (hI : ∀ R rows cols, I R rows cols → R ≤ rows.len ∧ R ≤ cols.len ∧ (∀ i < R, rows.get i < M) ∧ ∀ j < R, cols.get j < N)
    (hm : WF m) (hS : Src m ⟨A, lda, M, N⟩ X) :
    Run (do
      let A2 ← alloc (M * N)
      fassign M N A lda A2 N
      let (R, rows, cols) ← ind A2
      let T ← alloc (R * R)
      submatrix R A lda T rows cols
      free A2 (M * N)
      pure (R, T)) m (fun y m' => ∃ rows cols, I y.1 rows cols ∧ SubPost m m' X y.1 y.2 rows.get cols.get) := by
  have e0 := Ext.start hm ⟨0, 0, 0, 0⟩
  rw [Run_bind]
  refine (e0.alloc (M * N)).mono ?_
  rintro A2 m1 ⟨hA2, n1, e1, k1, t1⟩
  have hb := okin_block k1 rfl
  have o1 : On m1 m1 ⟨A2, N, M, N⟩ (m1.mat ⟨A2, N, M, N⟩) := On.start e1.wf hb le_rfl
  have newA : ∀ a, (Win.mk A2 N M N).Has a → m.next ≤ a := by rintro a ⟨i, _, j, _, rfl⟩; simp only [Win.adr]; omega
  have dA : (Win.mk A lda M N).Disj ⟨A2, N, M, N⟩ := fun a ha hc => by
    have := WF.lt' hm (hS.ok a ha)
    have := newA a hc
    omega
  have sA := t1 _ _ hS
  rw [Run_bind]
  refine (fassign_src (i0 := 0) (j0 := 0) (B := A2) o1 sA dA (by simp) (by simp) (by simp [Win.adr])).mono (fun _ m2 o2 => ?_)
  have o2' : On m1 m2 ⟨A2, N, M, N⟩ X := o2.congr (fun i hi j hj => by
    rw [upd_in' (by simp only [] at hi hj ⊢; omega)]; simp)
  have e2 := e1.step o2'.step newA
  have sA2 := sA.on o2' dA
  rw [Run_bind]
  refine (hi A2 m2 o2'.here).mono ?_
  rintro ⟨R, rows, cols⟩ m3 ⟨Y, o3, hII⟩
  have e3 := e2.step o3.step newA
  have sA3 := sA2.on o3 dA
  obtain ⟨hl1, hl2, hl3, hl4⟩ := hI _ _ _ hII
  rw [Run_bind]
  refine (e3.alloc (R * R)).mono ?_
  rintro T m4 ⟨hT, n4, e4, k4, t4⟩
  have okT := okin_block k4 rfl
  have o4 : On m4 m4 ⟨T, R, R, R⟩ (m4.mat ⟨T, R, R, R⟩) := On.start e4.wf okT le_rfl
  have n3 : m2.next ≤ m3.next := o3.step.next
  have n2 : m1.next ≤ m2.next := o2'.step.next
  have newT : ∀ a, (Win.mk T R R R).Has a → m.next ≤ a := by rintro a ⟨i, _, j, _, rfl⟩; simp only [Win.adr]; omega
  have dT : (Win.mk A lda M N).Disj ⟨T, R, R, R⟩ := fun a ha hc => by
    have := WF.lt' hm (hS.ok a ha)
    have := newT a hc
    omega
  have sA4 := t4 _ _ sA3
  rw [Run_bind]
  refine (submatrix_spec (W := ⟨A, lda, M, N⟩) o4 sA4 dT hl1 hl2 hl3 hl4).mono (fun _ m5 o5 => ?_)
  have e5 := e4.step o5.step newT
  rw [Run_bind]
  refine (e5.free (p := A2) (n := M * N) (by omega)).mono ?_
  rintro _ m6 ⟨n6, v6, e6, -⟩
  rw [Run_pure]
  refine ⟨rows, cols, hII, ?_, ?_, ?_, ?_⟩
  · intro a
    rw [e6.ok a]
    simp only [false_or]
    constructor
    · rintro (h | ⟨h1 | h1, h2⟩)
      · exact Or.inl h
      · exact absurd h1 h2
      · exact Or.inr h1
    · rintro (h | h)
      · exact Or.inl h
      · refine Or.inr ⟨Or.inr h, ?_⟩
        omega
  · intro a ha
    simp only [] at ha
    exact hm a (by omega)
  · intro a ha
    exact e6.frame a ha (fun ⟨i, hi, _⟩ => absurd hi (Nat.not_lt_zero _))
  · intro i hi j hj
    rw [v6]
    exact o5.val (i := i) (j := j) hi hj

end
end Verif.FF

namespace Verif.FF

open Finset Verif.Perm Verif.Spec Verif.Spec.Perm Verif.Pluq Verif.Lud

variable {K : Type} [Field K] [DecidableEq K]
variable {m0 m m' : Mem K} {W S : Win} {X V f : ℕ → ℕ → K} {g : GemmFn K} {ts : TrsmFn K}

/-- `IsSingular` -/
theorem isSingular_spec (cat : Cat) (hg : GemmOk g) (ht : TrsmOk ts) {cutoff : ℕ} (hc : cutoff ≤ 1) (jk : List ℕ → ℕ → ℕ) (h : On m0 m W X) :
    Run (isSingular cat g ts cutoff jk W.r W.c W.p W.ld) m (fun b m' => (∃ Y, On m0 m' W Y) ∧ (b = false ↔ W.r = W.c ∧ rk X W.r W.c = W.r)) := by
  unfold isSingular
  rif c0
  · rw [Run_pure]
    refine ⟨⟨X, h⟩, iff_of_true rfl ⟨by omega, ?_⟩⟩
    have : rk X W.r W.c ≤ W.r := by
      have := Matrix.rank_le_card_height (toMat W.r W.c X)
      rwa [Fintype.card_fin] at this
    omega
  rif c1
  · rw [Run_pure]
    exact ⟨⟨X, h⟩, iff_of_false (by simp) (by omega)⟩
  rif c2
  · rw [Run_pure]
    exact ⟨⟨X, h⟩, iff_of_false (by simp) (by omega)⟩
  push Not at c2
  rw [Run_bind]
  refine (ludivine_spec (ta := .no) (sing := true) (P := Arr.mk' W.c (jk [0])) (Q := Arr.mk' W.r (jk [1])) cat hg ht (Or.inl hc)
    (by simp [Arr.mk']) (by simp [Arr.mk', lr]) h).mono ?_
  rintro ⟨R, P, Q⟩ m1 ⟨-, -, low, lt, ⟨Y, hY, hcup⟩, zero, full⟩
  simp only [lr, lc, forall_const, true_implies] at zero full hcup ⊢
  rw [Run_pure]
  refine ⟨⟨Y, hY⟩, ?_⟩
  by_cases c : R = 0
  · have := zero c2.le c (by omega)
    simp only [c, decide_true, Bool.true_eq_false, false_iff]
    omega
  · have h1 := full c2.le c
    have h2 := (hcup c).rank_eq
    simp only [c, decide_false, true_iff]
    exact ⟨c2, h2.trans h1⟩

/-- the lower triangular part with unit diagonal of one matrix written to another, ffpack_invert.inl:119-126 -/
lemma unitLower_on {n T ldt U ldu : ℕ} {Y : ℕ → ℕ → K} (h : On2 m0 m ⟨U, ldu, n, n⟩ V ⟨T, ldt, n, n⟩ Y) :
    Run (unitLowerTo n U ldu T ldt) m
      (fun _ m' => On2 m0 m' ⟨U, ldu, n, n⟩ V ⟨T, ldt, n, n⟩ (tri .lower .unit V)) := by
  unfold unitLowerTo
  rw [Run_bind]
  refine (Run_loop (fun t m' => On2 m0 m' ⟨U, ldu, n, n⟩ V ⟨T, ldt, n, n⟩ (fun i j => if i < t ∧ i ≤ j then (if i = j then 1 else 0) else Y i j))
    (h.congr (fun _ _ _ _ => rfl) (fun i _ j _ => by simp)) ?_).mono ?_
  · intro i m1 hi h1
    rw [Run_bind]
    refine (Run_loop (fun t m' => On2 m0 m' ⟨U, ldu, n, n⟩ V ⟨T, ldt, n, n⟩
      (fun a j => if a < i ∧ a ≤ j then (if a = j then 1 else 0) else if a = i ∧ i ≤ j ∧ j < i + t then 0 else Y a j))
      (h1.congr (fun _ _ _ _ => rfl) (fun a _ j _ => ?_)) ?_).mono ?_
    · by_cases c : a < i ∧ a ≤ j
      · rw [if_pos c, if_pos c]
      · rw [if_neg c, if_neg c, if_neg (by omega)]
    · intro t m2 ht h2
      rw [show T + i * ldt + (i + t) = (Win.mk T ldt n n).adr i (i + t) from rfl, Run_store]
      have hi' : i < (Win.mk T ldt n n).r := hi
      have hj' : i + t < (Win.mk T ldt n n).c := by simp only []; omega
      refine ⟨h2.right.okc hi' hj', (h2.ofT (h2.right.set hi' hj')).congr (fun _ _ _ _ => rfl) (fun a ha j hj => ?_)⟩
      by_cases c : a = i ∧ j = i + t
      · rw [upd_in' (by omega), if_neg (by omega), if_pos (by omega)]
      · rw [upd_out (by omega)]
        by_cases c2 : a < i ∧ a ≤ j
        · rw [if_pos c2, if_pos c2]
        · rw [if_neg c2, if_neg c2]
          by_cases c3 : a = i ∧ i ≤ j ∧ j < i + t
          · rw [if_pos c3, if_pos (by omega)]
          · rw [if_neg c3, if_neg (by omega)]
    · intro _ m2 h2
      rw [show T + i * (ldt + 1) = (Win.mk T ldt n n).adr i i by simp only [Win.adr]; ring, Run_store]
      have hi' : i < (Win.mk T ldt n n).r := hi
      have hj' : i < (Win.mk T ldt n n).c := hi
      refine ⟨h2.right.okc hi' hj', (h2.ofT (h2.right.set hi' hj')).congr (fun _ _ _ _ => rfl) (fun a ha j hj => ?_)⟩
      have hj : j < n := hj
      by_cases c : a = i ∧ j = i
      · rw [upd_in' (by omega), if_pos (by omega), if_pos (by omega)]
      · rw [upd_out (by omega)]
        by_cases c2 : a < i ∧ a ≤ j
        · rw [if_pos c2, if_pos (show a < i + 1 ∧ a ≤ j by omega)]
        · rw [if_neg c2]
          by_cases c3 : a = i ∧ i ≤ j
          · rw [if_pos (by omega), if_pos (by omega), if_neg (by omega)]
          · rw [if_neg (by omega), if_neg (by omega)]
  · intro _ m1 h1
    refine (Run_loop (fun t m' => On2 m0 m' ⟨U, ldu, n, n⟩ V ⟨T, ldt, n, n⟩
      (fun i j => if i ≤ j then (if i = j then 1 else 0) else if i < t + 1 then V i j else Y i j))
      (h1.congr (fun _ _ _ _ => rfl) (fun i hi j hj => ?_)) ?_).mono ?_
    · have hi : i < n := hi
      have hj : j < n := hj
      by_cases c : i ≤ j
      · rw [if_pos ⟨hi, c⟩, if_pos c]
      · rw [if_neg (by omega), if_neg c, if_neg (by omega)]
    · intro t m2 ht h2
      have t0 := assignRow2_on h2.right h2.left h2.disj.symm (i := t + 1) (j := 0) (n := t + 1) (a := t + 1) (b := 0) (by simp only []; omega)
        (by simp only []; omega) (by simp only []; omega) (by simp only []; omega)
      simp only [Win.adr, Nat.add_zero] at t0
      refine t0.mono (fun _ m3 h3 => (h2.ofT h3).congr (fun _ _ _ _ => rfl) (fun a ha j hj => ?_))
      have ha : a < n := ha
      have hj : j < n := hj
      by_cases c : a = t + 1 ∧ j < t + 1
      · rw [upd_in' (by omega), if_neg (by omega), if_pos (by omega)]
        congr 1 <;> omega
      · rw [upd_out (by omega)]
        by_cases c2 : a ≤ j
        · rw [if_pos c2, if_pos c2]
        · rw [if_neg c2, if_neg c2]
          by_cases c3 : a < t + 1
          · rw [if_pos c3, if_pos (by omega)]
          · rw [if_neg c3, if_neg (by omega)]
    · intro _ m2 h2
      refine h2.congr (fun _ _ _ _ => rfl) (fun i hi j hj => ?_)
      have hi : i < n := hi
      have hj : j < n := hj
      unfold tri
      by_cases c : i = j
      · subst c; rw [if_pos le_rfl, if_pos rfl, if_pos rfl]
      · by_cases c2 : i ≤ j
        · rw [if_pos c2, if_neg c, if_neg c]; simp only []; rw [if_neg (by omega)]
        · rw [if_neg c2, if_pos (by omega), if_neg c]; simp only []; rw [if_pos (by omega)]

end Verif.FF

namespace Verif.FF

open Finset Verif.Perm Verif.Spec Verif.Spec.Perm Verif.Pluq Verif.Lud

section
variable {K : Type} [Field K]

lemma _root_.Verif.Spec.IsCUP.q_id {d : Diag} {M N r : ℕ} {X V : ℕ → ℕ → K} {p q : ℕ → ℕ} (h : IsCUP d M N X V p q r) (hr : r = M) :
    ∀ k < M, q k = k := by
  subst hr
  have : ∀ t, ∀ k, k + t + 1 = r → q k = k := by
    intro t
    induction t with
    | zero => intro k hk; have := h.le_q k (by omega); have := h.qM k (by omega); omega
    | succ t ih =>
      intro k hk
      have h1 := ih (k + 1) (by omega)
      have h2 := h.inc k (k + 1) (by omega) (by omega)
      have := h.le_q k (by omega)
      omega
  exact fun k hk => this (r - k - 1) k (by omega)

end

section
variable {K : Type} [Field K] [DecidableEq K]
variable {m0 m m' : Mem K} {W S : Win} {X V f : ℕ → ℕ → K} {g : GemmFn K} {ts tm : TrsmFn K}

/-- `Invert2`: the nullity, and the inverse in the second matrix if the nullity is zero -/
theorem invert2_spec (cat : Cat) (hg : GemmOk g) (ht : TrsmOk ts) (hm : TrmmOk tm) {cutoff tt : ℕ} (htt : 1 ≤ tt) (jk : List ℕ → ℕ → ℕ)
    {n A lda T ldt : ℕ} {Y : ℕ → ℕ → K} (h : On2 m0 m ⟨A, lda, n, n⟩ X ⟨T, ldt, n, n⟩ Y) :
    Run (invert2 cat g ts tm cutoff tt jk n A lda T ldt) m (fun y m' => y = n - rk X n n ∧ ∃ V Z, On2 m0 m' ⟨A, lda, n, n⟩ V ⟨T, ldt, n, n⟩ Z ∧
      (y = 0 → ∀ i < n, ∀ j < n, ∑ l ∈ range n, X i l * Z l j = if i = j then 1 else 0) ∧
      (y ≠ 0 → ∀ i < n, ∀ j < n, Z i j = Y i j)) := by
  unfold invert2
  rif c0
  · rw [Run_pure]
    subst c0
    exact ⟨by simp, X, Y, h, fun _ i hi => absurd hi (by omega), fun hc => absurd rfl hc⟩
  rw [Run_bind]
  have t0 := ludivine_spec (ta := .no) (sing := false) (d := .nonUnit) (cutoff := cutoff) (P := Arr.mk' n (jk [0])) (Q := Arr.mk' n (jk [1])) cat hg ht
    (Or.inr ⟨rfl, rfl⟩) (by simp [Arr.mk']) (by simp [Arr.mk', lr]) (W := ⟨A, lda, n, n⟩) (V := X) (m0 := m) (m := m) h.left
  simp only [] at t0
  refine t0.mono ?_
  rintro ⟨R, P, Q⟩ m1 ⟨lenP, lenQ, low, lt, ⟨V, hV, hcup⟩, -, -⟩
  have hcup := hcup (by simp)
  simp only [lr, lc, Arr.mk'] at *
  have hV : On m m1 ⟨A, lda, n, n⟩ V := hV
  have h1 := h.ofW hV
  have er := hcup.rank_eq
  have rM := hcup.rM
  rif c1
  · rw [Run_pure]
    exact ⟨by rw [er], V, Y, h1, fun hc => absurd hc (by omega), fun _ _ _ _ _ => rfl⟩
  obtain rfl : R = n := by omega
  have hq := hcup.q_id rfl
  rw [Run_bind]
  have tz := fzero_on h1.right 0 0 R R (by simp) (by simp) (B := T) (by simp [Win.adr])
  simp only [] at tz
  refine tz.mono ?_
  intro _ m2 hz
  have h2 := h1.ofT hz
  rw [Run_bind]
  have tt0 := ftrtri_blk hm htt h2.left R (u := .lower) (d := .unit) (by simp) (by simp) (by simp)
  simp only [] at tt0
  refine tt0.mono ?_
  rintro _ m3 ⟨Li, hL, hLi⟩
  have h3 := h2.ofW hL
  rw [Run_bind]
  refine (unitLower_on h3).mono ?_
  intro _ m4 h4
  have eU : ∀ i < R, ∀ j < R, i ≤ j → upd 0 0 R R Li V i j = V i j := by
    intro i hi j hj hij
    rw [upd_in' (by omega)]
    refine hLi.1 i hi j hj ?_
    unfold inT
    rintro (hc | ⟨-, hc⟩)
    · simp only [below] at hc; omega
    · simp at hc
  have eL : ∀ i < R, ∀ j < R, tri .lower .unit (upd 0 0 R R Li V) i j = tri .lower .unit Li i j := by
    intro i hi j hj
    unfold tri
    simp only [upd_in' (show 0 ≤ i ∧ i < 0 + R ∧ 0 ≤ j ∧ j < 0 + R by omega)]
    rfl
  rw [Run_bind]
  have tr := trsm_at ht h4.right h4.left.src h4.disj .left .upper .nonUnit 1 0 0 0 0 R R R rfl (by simp) (by simp) (by simp) (by simp)
    (A := A) (B := T) (by
      intro _ i hi
      simp only [Nat.zero_add]
      rw [eU i hi i hi le_rfl]
      exact hcup.piv i hi) (by simp [Win.adr]) (by simp [Win.adr])
  simp only [] at tr
  refine tr.mono ?_
  rintro _ m5 ⟨Xs, hX, eX⟩
  have h5 := h4.ofT hX
  rw [Run_bind]
  have tp := rowsPinv_on (r := R) (c := R) (P := P) h5.right 0 0 (A := T) (by simp [Win.adr]) (by simp) (by simp) lenP lt
  simp only [] at tp
  refine tp.mono ?_
  intro _ m6 h6
  rw [Run_pure]
  refine ⟨by omega, _, _, h5.ofT h6, fun _ i hi j hj => ?_, fun hc => absurd rfl hc⟩
  have pl := ofSwaps_lt lt R le_rfl
  rw [← sum_perm hcup.pP]
  have e1 : ∀ l ∈ range R, X i (ofSwaps P.get R l) * permRows 0 0 R R ((ofSwaps P.get R)⁻¹ : Equiv.Perm ℕ)
      (upd 0 0 R R Xs (tri .lower .unit (upd 0 0 R R Li V))) (ofSwaps P.get R l) j
      = ∑ k ∈ range R, tri .lower .unit V i k * (tri .upper .nonUnit V k l * Xs l j) := by
    intro l hl
    have hl := mem_range.1 hl
    have := (pl l).1 hl
    have e : permRows 0 0 R R ((ofSwaps P.get R)⁻¹ : Equiv.Perm ℕ)
      (upd 0 0 R R Xs (tri .lower .unit (upd 0 0 R R Li V))) (ofSwaps P.get R l) j = Xs l j := by
      unfold permRows
      rw [upd_in' (by omega)]
      simp only [Nat.sub_zero, Nat.zero_add]
      rw [show ((ofSwaps P.get R)⁻¹ : Equiv.Perm ℕ) (ofSwaps P.get R l) = l from (ofSwaps P.get R).symm_apply_apply l]
      rw [upd_in' (by omega)]
      rfl
    rw [e, hcup.fac i hi l hl, sum_mul]
    refine sum_congr rfl (fun k hk => ?_)
    have hk := mem_range.1 hk
    rw [mul_assoc]
    congr 1
    unfold cupC tri
    rw [hq k hk]
    by_cases c : i = k
    · subst c; simp
    · by_cases c2 : i < k
      · rw [if_pos c2, if_neg c]; simp only []; rw [if_neg (by omega)]
      · rw [if_neg c2, if_neg c, if_neg c]; simp only []; rw [if_pos (by omega)]
  rw [sum_congr rfl e1, sum_comm]
  rw [← inv_comm hLi.2 i hi j hj]
  refine sum_congr rfl (fun k hk => ?_)
  have hk := mem_range.1 hk
  rw [← mul_sum]
  congr 1
  have := eX k hk j hj
  rw [one_mul, Nat.zero_add, Nat.zero_add, eL k hk j hj] at this
  rw [← this]
  simp only [sideMul, mul]
  refine sum_congr rfl (fun l hl => ?_)
  have hl := mem_range.1 hl
  congr 1
  unfold tri
  by_cases c : k = l
  · subst c; simp only [blk, Nat.zero_add, if_true]; rw [eU k hk k hk le_rfl]
  · rw [if_neg c, if_neg c]
    simp only [blk, Nat.zero_add]
    by_cases c2 : k < l
    · rw [if_pos c2, if_pos c2, eU k hk l hl c2.le]
    · rw [if_neg c2, if_neg c2]

end

end Verif.FF
