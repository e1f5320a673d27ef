import Verif.Proofs.Monotonic
import Verif.Props.Solve

/-!
# Property C45: MonotonicApplyP
-/

namespace Verif.Props

open Verif.FF Verif.Perm Verif.Spec.Perm Finset

variable {K : Type} [CommRing K] [DecidableEq K] {m : Mem K} {len R M A lda : ℕ} {P : Arr ℕ} {junk : ℕ → ℕ}

/-- the line that the exchanges of `P` bring to position `i` -/
def pivotLine (P : ℕ → ℕ) (len i : ℕ) : ℕ := applySwaps P (fun x => x) len i

/-- `x` is not one of the first `R` lines selected by `P` -/
def NotPivot (P : ℕ → ℕ) (len R x : ℕ) : Prop := ∀ i < R, pivotLine P len i ≠ x

instance (P : ℕ → ℕ) (len R x : ℕ) : Decidable (NotPivot P len R x) := by unfold NotPivot; infer_instance

/-- `U` is `V` with the `R` lines selected by `P` first, in the order of `P`, followed by the other lines in their original order:
a line that is not a pivot goes behind the pivots and the non-pivots that precede it. -/
structure Monotonic (P : ℕ → ℕ) (len R : ℕ) (V U : ℕ → K) : Prop where
  piv : ∀ i < R, U i = V (pivotLine P len i)
  rest : ∀ x < len, NotPivot P len R x → U (R + ((range x).filter (fun y => NotPivot P len R y)).card) = V x

/-- the positions in `Monotonic` are positions of the array, and follow the order of the lines -/
theorem C45_positions (hP : ∀ i < len, P.get i < len) (hR : R ≤ len) {x y : ℕ} (hx : x < len) (hy : y < len)
    (nx : NotPivot P.get len R x) (ny : NotPivot P.get len R y) (hxy : x < y) :
    R + ((range x).filter (fun z => NotPivot P.get len R z)).card < R + ((range y).filter (fun z => NotPivot P.get len R z)).card ∧
    R + ((range y).filter (fun z => NotPivot P.get len R z)).card < len := by
  have lt : ∀ {x y}, x < y → NotPivot P.get len R x →
      ((range x).filter (fun z => NotPivot P.get len R z)).card < ((range y).filter (fun z => NotPivot P.get len R z)).card := by
    intro x y hxy nx
    refine card_lt_card ((ssubset_iff_of_subset (filter_subset_filter _ (range_mono hxy.le))).2 ⟨x, ?_, ?_⟩)
    · simp [hxy, nx]
    · simp
  refine ⟨by have := lt hxy nx; omega, ?_⟩
  have h1 := lt hy ny
  have h2 : R + ((range len).filter (fun z => NotPivot P.get len R z)).card ≤ len := by
    have hp := ofSwaps_isPerm hP
    have e : ∀ i, pivotLine P.get len i = ofSwaps P.get len i := fun i => by simp [pivotLine, applySwaps_eq]
    have c1 : ((range R).image (pivotLine P.get len)).card = R := by
      rw [card_image_of_injOn, card_range]
      intro i hi j hj h
      rw [e, e] at h
      have hi : i < R := by simpa using hi
      have hj : j < R := by simpa using hj
      exact hp.2 i (by omega) j (by omega) h
    have d : Disjoint ((range R).image (pivotLine P.get len)) ((range len).filter (fun z => NotPivot P.get len R z)) := by
      rw [disjoint_left]
      intro z hz hn
      obtain ⟨i, hi, rfl⟩ := mem_image.1 hz
      exact (mem_filter.1 hn).2 i (by simpa using hi) rfl
    have sub : (range R).image (pivotLine P.get len) ∪ (range len).filter (fun z => NotPivot P.get len R z) ⊆ range len := by
      intro z hz
      rcases mem_union.1 hz with h | h
      · obtain ⟨i, hi, rfl⟩ := mem_image.1 h
        have hi : i < R := by simpa using hi
        rw [e]
        exact mem_range.2 (hp.1 i (by omega))
      · exact (mem_filter.1 h).1
    have := card_le_card sub
    rw [card_union_of_disjoint d, c1, card_range] at this
    exact this
  omega

/-- the common statement on lines: `lda` between lines, `incA` between entries -/
lemma monotonic_lines {side : Side} {ta : Tr} {ll ii : ℕ} (cmp : Bool)
    (hc : monoCompress side ta = cmp) (hll : monoLd side lda = ll) (hii : monoInc side lda = ii)
    (hlin : 0 < len → Lines m A ll ii len M) (hR : R ≤ len) (hP : P.len = len) (hp : ∀ i < len, P.get i < len) (h31 : len ≤ 2 ^ 31) :
    Run (monotonicApplyP side ta M 0 len A lda P R junk) m (fun _ m' => m'.ok = m.ok ∧
      (∀ k < M, if cmp then Monotonic P.get len R (fun i => m.val (A + i * ll + k * ii)) (fun i => m'.val (A + i * ll + k * ii))
        else Monotonic P.get len R (fun i => m'.val (A + i * ll + k * ii)) (fun i => m.val (A + i * ll + k * ii))) ∧
      ∀ a, m.ok a = true → (∀ i < len, ∀ k < M, a ≠ A + i * ll + k * ii) → m'.val a = m.val a) := by
  unfold monotonicApplyP
  simp only []
  rw [Run_bind]
  refine (Run_liftE _ _ _).2 ((Ok_usub _ _ _).2 ⟨Nat.zero_le _, ?_⟩)
  rw [Nat.sub_zero, Run_bind]
  refine (Run_liftE _ _ _).2 ((iter_id_spec len _ le_rfl).mono ?_)
  rintro X ⟨hXl, _⟩
  have hXl : X.len = len := hXl
  rw [Run_bind]
  refine (Run_liftE _ _ _).2 ((LAPACKPerm2MathPerm_spec len X P hXl hP hp).mono ?_)
  rintro MathP ⟨hMl, hM⟩
  have hperm := ofSwaps_isPerm hp
  have e : ∀ i < len, MathP.get i = pivotLine P.get len i := fun i hi => by simp [pivotLine, applySwaps_eq, hM i hi]
  rw [Run_bind]
  refine (Run_liftE _ _ _).2 ((markPivots_spec hR hMl (fun i hi => by rw [hM i (by omega)]; exact hperm.1 i (by omega)) ?_).mono ?_)
  · intro i hi j hj h
    rw [hM i (by omega), hM j (by omega)] at h
    exact hperm.2 i (by omega) j (by omega) h
  rintro ⟨ispiv, cnt, mx⟩ ⟨h1, h2⟩
  have h1 : cnt = mvCnt MathP.get R := h1
  subst h1
  simp only []
  rif c
  · rw [Run_pure]
    have hid : ∀ i < R, pivotLine P.get len i = i := by
      intro i hi
      by_contra hne
      rw [← e i (by omega)] at hne
      have := mvCnt_lt MathP.get hi hne
      omega
    have hmon : ∀ V : ℕ → K, Monotonic P.get len R V V := by
      intro V
      refine ⟨fun i hi => by rw [hid i hi], fun x hx nx => ?_⟩
      have hx2 : R ≤ x := by
        by_contra h
        exact nx x (by omega) (hid x (by omega))
      congr 1
      have : (range x).filter (fun y => NotPivot P.get len R y) = Ico R x := by
        ext y
        simp only [mem_filter, mem_range, mem_Ico]
        constructor
        · rintro ⟨hy, ny⟩
          refine ⟨?_, hy⟩
          by_contra h
          exact ny y (by omega) (hid y (by omega))
        · rintro ⟨h1, h2⟩
          refine ⟨h2, fun i hi h => ?_⟩
          rw [hid i hi] at h
          omega
      rw [this, Nat.card_Ico]
      omega
    refine ⟨rfl, fun k _ => ?_, fun _ _ _ => rfl⟩
    split_ifs <;> exact hmon _
  · have mk := h2 c
    simp only at mk
    have hlen : 0 < len := by have := mk.mlt; omega
    rw [Run_bind]
    refine (Run_liftE _ _ _).2 ((Ok_iter (fun _ _ => True) trivial ?_).mono fun _ _ => ?_)
    · intro t _ ht _
      simp only [Ok_bind, Ok_rd, Ok_pure]
      exact ⟨by omega, trivial⟩
    have key := monotonicBlocks_spec cmp (hlin hlen) mk (by have := mk.mlt; omega)
    have hnp : ∀ x, ispiv.get x = false ↔ NotPivot P.get len R x := by
      intro x
      rw [← Bool.not_eq_true, mk.iff]
      constructor
      · intro h i hi hh
        exact h ⟨i, hi, by rw [e i (by omega)]; exact hh⟩
      · rintro h ⟨i, hi, hh⟩
        exact h i hi (by rw [← e i (by omega)]; exact hh)
    have hcnt : ∀ x, npCnt ispiv.get x = ((range x).filter (fun y => NotPivot P.get len R y)).card := by
      intro x
      unfold npCnt
      congr 1
      exact filter_congr fun y _ => hnp y
    have hpos : ∀ x < len, ispiv.get x = false → R + npCnt ispiv.get x < len := by
      intro x hx hp
      have := npCnt_lt ispiv.get hx hp
      have := mk.count mk.mlt
      omega
    rw [hc, hll, hii]
    refine key.mono ?_
    rintro _ m' ⟨U, q, r⟩
    refine ⟨q.ok, fun k hk => ?_, q.frame⟩
    unfold Moved Arranged at r
    cases cmp
    · simp only [Bool.false_eq_true, if_false] at r ⊢
      constructor
      · intro i hi
        rw [r.1 i hi k hk, e i (by omega)]
        exact (q.val _ (by rw [← e i (by omega)]; exact mk.lt i hi) k hk).symm
      · intro x hx nx
        rw [← hcnt, r.2 x hx ((hnp x).2 nx) k hk]
        exact (q.val _ hx k hk).symm
    · simp only [if_true] at r ⊢
      constructor
      · intro i hi
        rw [← e i (by omega), ← r.1 i hi k hk]
        exact q.val _ (by omega) k hk
      · intro x hx nx
        rw [← hcnt, ← r.2 x hx ((hnp x).2 nx) k hk]
        exact q.val _ (hpos x hx ((hnp x).2 nx)) k hk

/-- C45 (rows): `FflasLeft, FflasNoTrans` brings the pivot rows to the front and keeps the others in order; `FflasTrans` undoes it. -/
theorem C45_monotonicApplyP_rows (ta : Tr) (h : Rect m len M A lda) (hR : R ≤ len) (hP : P.len = len) (hp : ∀ i < len, P.get i < len)
    (h31 : len ≤ 2 ^ 31) :
    Run (monotonicApplyP .left ta M 0 len A lda P R junk) m (fun _ m' => Only m m' ⟨A, lda, len, M⟩ ∧
      ∀ k < M, match ta with
        | .no => Monotonic P.get len R (fun i => m.mat ⟨A, lda, len, M⟩ i k) (fun i => m'.mat ⟨A, lda, len, M⟩ i k)
        | .yes => Monotonic P.get len R (fun i => m'.mat ⟨A, lda, len, M⟩ i k) (fun i => m.mat ⟨A, lda, len, M⟩ i k)) := by
  have hI : (Win.mk A lda len M).Inj := Win.Inj_of_le (Or.inl h.ld)
  have L : Lines m A lda 1 len M := by
    refine ⟨h.wf, ?_, ?_, Nat.one_pos⟩
    · intro i hi k hk
      simp only [ln, Nat.mul_one]
      exact h.ok _ ⟨i, hi, k, hk, rfl⟩
    · intro i hi k hk i' hi' k' hk' e
      simp only [ln, Nat.mul_one] at e
      exact hI i hi k hk i' hi' k' hk' e
  refine (monotonic_lines (ll := lda) (ii := 1) (ta = .no) (by cases ta <;> rfl) rfl rfl (fun _ => L) hR hP hp h31).mono ?_
  rintro _ m' ⟨q1, q2, q3⟩
  refine ⟨⟨q1, fun a ha hn => q3 a ha ?_⟩, fun k hk => ?_⟩
  · rintro i hi k hk rfl
    exact hn ⟨i, hi, k, hk, by simp [Win.adr]⟩
  · have := q2 k hk
    simp only [Nat.mul_one] at this
    cases ta
    · simp only [reduceCtorEq, decide_true, decide_false, if_true, Bool.false_eq_true, if_false] at this
      exact this
    · simp only [reduceCtorEq, decide_true, decide_false, if_true, Bool.false_eq_true, if_false] at this
      exact this

/-- C45 (columns): `FflasRight, FflasTrans` brings the pivot columns to the front, `FflasNoTrans` undoes it. -/
theorem C45_monotonicApplyP_cols (ta : Tr) (h : Rect m M len A lda) (hR : R ≤ len) (hP : P.len = len) (hp : ∀ i < len, P.get i < len)
    (h31 : len ≤ 2 ^ 31) :
    Run (monotonicApplyP .right ta M 0 len A lda P R junk) m (fun _ m' => Only m m' ⟨A, lda, M, len⟩ ∧
      ∀ k < M, match ta with
        | .yes => Monotonic P.get len R (fun i => m.mat ⟨A, lda, M, len⟩ k i) (fun i => m'.mat ⟨A, lda, M, len⟩ k i)
        | .no => Monotonic P.get len R (fun i => m'.mat ⟨A, lda, M, len⟩ k i) (fun i => m.mat ⟨A, lda, M, len⟩ k i)) := by
  have hI : (Win.mk A lda M len).Inj := Win.Inj_of_le (Or.inl h.ld)
  have ea : ∀ i k, A + i * 1 + k * lda = A + k * lda + i := by intro i k; omega
  have L : 0 < len → Lines m A 1 lda len M := by
    intro hl
    refine ⟨h.wf, ?_, ?_, lt_of_lt_of_le hl h.ld⟩
    · intro i hi k hk
      simp only [ln, ea]
      exact h.ok _ ⟨k, hk, i, hi, rfl⟩
    · intro i hi k hk i' hi' k' hk' e
      simp only [ln, ea] at e
      exact (hI k hk i hi k' hk' i' hi' e).symm
  refine (monotonic_lines (ll := 1) (ii := lda) (ta = .yes) (by cases ta <;> rfl) rfl rfl L hR hP hp h31).mono ?_
  rintro _ m' ⟨q1, q2, q3⟩
  refine ⟨⟨q1, fun a ha hn => q3 a ha ?_⟩, fun k hk => ?_⟩
  · rintro i hi k hk rfl
    exact hn ⟨k, hk, i, hi, by rw [ea]; rfl⟩
  · have := q2 k hk
    simp only [ea] at this
    cases ta
    · simp only [reduceCtorEq, decide_true, decide_false, if_true, Bool.false_eq_true, if_false] at this
      exact this
    · simp only [reduceCtorEq, decide_true, decide_false, if_true, Bool.false_eq_true, if_false] at this
      exact this

/-! ### Concrete cases -/

/-- a `5 × 2` matrix with leading dimension 3 -/
def mox : Mem ℤ := memOf [10,11,0, 20,21,0, 30,31,0, 40,41,0, 50,51,0]

example : Rect mox 5 2 0 3 := ⟨WF_memOf _, OkIn_memOf (by decide), by decide⟩

/-- pivots: rows 3 and 1, as exchanges -/
def moP : Arr ℕ := Arr.ofList [3, 1, 2, 3, 4]

example : moP.len = 5 ∧ ∀ i < 5, moP.get i < 5 := ⟨rfl, by decide⟩

example : (List.range 15).map (after (monotonicApplyP .left .no 2 0 5 0 3 moP 2 (fun _ => 7)) mox) =
    [40,41,0, 20,21,0, 10,11,0, 30,31,0, 50,51,0].map some := by decide +kernel

/-- and back -/
example : (List.range 15).map (after (do
      monotonicApplyP .left .no 2 0 5 0 3 moP 2 (fun _ => 7)
      monotonicApplyP .left .yes 2 0 5 0 3 moP 2 (fun _ => 7)) mox) = (List.range 15).map (fun i => some (mox.val i)) := by decide +kernel

/-- columns of the `2 × 3` matrix with leading dimension 6 -/
example : (List.range 12).map (after (monotonicApplyP .right .yes 2 0 3 0 6 (Arr.ofList [2, 1, 2]) 1 (fun _ => 7)) mox) =
    [0,10,11, 20,21,0, 0,30,31, 40,41,0].map some := by decide +kernel

/-- The parameter `ibeg` only changes the number of lines: rows `0 .. iend-ibeg-1` are permuted, not rows `ibeg .. iend-1` (unlike
`applyP`). -/
example : (List.range 15).map (after (monotonicApplyP .left .no 2 1 4 0 3 (Arr.ofList [0, 1, 3, 3]) 3 (fun _ => 7)) mox) =
    (List.range 15).map (after (monotonicApplyP .left .no 2 0 3 0 3 (Arr.ofList [0, 1, 3, 3]) 3 (fun _ => 7)) mox) := by decide +kernel

end Verif.Props
