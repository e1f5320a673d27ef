import Verif.Proofs.Shift
import Verif.Core.HeapEx
import Verif.Proofs.Perm
import Mathlib.Data.Rat.Defs
import Mathlib.Algebra.Field.Rat

/-!
# Properties C16 and C18: permutations and cyclic shifts of rows and columns
-/

namespace Verif.Props

open Verif.FF Verif.Spec.Perm

variable {K : Type} [CommRing K] [DecidableEq K] {m : Mem K} {r c A lda ibeg iend : ℕ} {P : Arr ℕ}

/-- calling conditions for an operation in place on an `r × c` matrix -/
structure Rect (m : Mem K) (r c A lda : ℕ) : Prop where
  wf : WF m
  ok : OkIn m ⟨A, lda, r, c⟩
  ld : c ≤ lda

omit [CommRing K] [DecidableEq K] in
lemma Rect.on (h : Rect m r c A lda) : On m m ⟨A, lda, r, c⟩ (m.mat ⟨A, lda, r, c⟩) := On.start h.wf h.ok h.ld

/-- the exchanges `ibeg .. iend-1` of `P` performed upwards or downwards on a vector -/
def exchanged {α : Type} (up : Bool) (P : ℕ → ℕ) (ibeg iend : ℕ) (v : ℕ → α) : ℕ → α :=
  if up then exchangesUp P ibeg v (iend - ibeg) else exchangesDown P iend v (iend - ibeg)

lemma exchangesUp_eq {α : Type} (P : ℕ → ℕ) (b : ℕ) (v : ℕ → α) : ∀ k, exchangesUp P b v k = v ∘ swapsFrom P b k
  | 0 => rfl
  | k+1 => by rw [exchangesUp, exchangesUp_eq P b v k, exchange_eq, swapsFrom]; rfl

lemma exchangesDown_eq {α : Type} (P : ℕ → ℕ) (e : ℕ) (v : ℕ → α) : ∀ k, exchangesDown P e v k = v ∘ swapsDown P e k
  | 0 => rfl
  | k+1 => by rw [exchangesDown, exchangesDown_eq P e v k, exchange_eq, swapsDown]; rfl

lemma exchanged_left {α : Type} (ta : Tr) (P : ℕ → ℕ) (v : ℕ → α) :
    exchanged (ta = .no) P ibeg iend v = v ∘ appliedPerm .left ta P ibeg iend := by
  cases ta
  · simp only [exchanged, decide_true, if_true, exchangesUp_eq, appliedPerm]
  · simp only [exchanged, reduceCtorEq, decide_false, Bool.false_eq_true, if_false, exchangesDown_eq, appliedPerm]

lemma exchanged_right {α : Type} (ta : Tr) (P : ℕ → ℕ) (v : ℕ → α) :
    exchanged (ta = .yes) P ibeg iend v = v ∘ appliedPerm .right ta P ibeg iend := by
  cases ta
  · simp only [exchanged, reduceCtorEq, decide_false, Bool.false_eq_true, if_false, exchangesDown_eq, appliedPerm]
  · simp only [exchanged, decide_true, if_true, exchangesUp_eq, appliedPerm]

/-- C16 (rows): `applyP(FflasLeft, ta, c, ibeg, iend, A, lda, P)` performs the exchanges of `P` on every column, upwards for
`NoTrans` and downwards for `Trans`, whatever the number of columns (the code works on blocks of 32); nothing else changes. -/
theorem C16_applyP_rows (ta : Tr) (h : Rect m r c A lda) (he : iend ≤ r) (hP : iend ≤ P.len) (hp : ∀ i < iend, P.get i < r) :
    Run (applyP .left ta c ibeg iend A lda P) m (fun _ m' => Step m m' ⟨A, lda, r, c⟩
      (fun i j => exchanged (ta = .no) P.get ibeg iend (fun x => m.mat ⟨A, lda, r, c⟩ x j) i)) := by
  have := applyP_row (i0 := 0) (j0 := 0) (r := r) (c := c) (ibeg := ibeg) ta h.on (by simp) (by simp) he hP hp
  simp only [Win.adr_mk, Nat.zero_mul, Nat.add_zero] at this
  refine this.mono (fun _ m' h' => h'.step.congr (fun i hi j hj => ?_))
  have hi : i < r := hi
  have hj : j < c := hj
  simp only [permRows]
  rw [upd_in' (by omega), exchanged_left]
  simp only [Nat.zero_add, Nat.sub_zero, Function.comp]

/-- C16 (columns): `applyP(FflasRight, ta, r, ibeg, iend, A, lda, P)` performs the exchanges of `P` on every row, upwards for
`Trans` and downwards for `NoTrans`. -/
theorem C16_applyP_cols (ta : Tr) (h : Rect m r c A lda) (he : iend ≤ c) (hP : iend ≤ P.len) (hp : ∀ i < iend, P.get i < c) :
    Run (applyP .right ta r ibeg iend A lda P) m (fun _ m' => Step m m' ⟨A, lda, r, c⟩
      (fun i j => exchanged (ta = .yes) P.get ibeg iend (fun x => m.mat ⟨A, lda, r, c⟩ i x) j)) := by
  have := applyP_col (i0 := 0) (j0 := 0) (r := r) (c := c) (ibeg := ibeg) ta h.on (by simp) (by simp) he hP hp
  simp only [Win.adr_mk, Nat.zero_mul, Nat.add_zero] at this
  refine this.mono (fun _ m' h' => h'.step.congr (fun i hi j hj => ?_))
  have hi : i < r := hi
  have hj : j < c := hj
  simp only [permCols]
  rw [upd_in' (by omega), exchanged_right]
  simp only [Nat.zero_add, Nat.sub_zero, Function.comp]

/-- The exchanges downwards undo the exchanges upwards, and conversely. -/
theorem C16_exchanged_inverse {α : Type} (P : ℕ → ℕ) (v : ℕ → α) (h : ibeg ≤ iend) (up : Bool) :
    exchanged (!up) P ibeg iend (exchanged up P ibeg iend v) = v := by
  obtain ⟨k, rfl⟩ := Nat.exists_eq_add_of_le h
  cases up
  · simp only [exchanged, Bool.not_false, if_true, Bool.false_eq_true, if_false, exchangesUp_eq, exchangesDown_eq,
      Nat.add_sub_cancel_left, swapsDown_eq]
    funext x; simp
  · simp only [exchanged, Bool.not_true, if_true, Bool.false_eq_true, if_false, exchangesUp_eq, exchangesDown_eq,
      Nat.add_sub_cancel_left, swapsDown_eq]
    funext x; simp

/-- For `ibeg = 0` the upward exchanges are those a transposition array stands for (`applySwaps`, C15). -/
theorem C16_exchanged_applySwaps {α : Type} (P : ℕ → ℕ) (v : ℕ → α) : exchanged true P 0 iend v = applySwaps P v iend := by
  simp only [exchanged, if_true, exchangesUp_eq, Nat.sub_zero, swapsFrom_zero, applySwaps_eq]

/-- C16: `Trans` after `NoTrans` (or `NoTrans` after `Trans`) restores the whole memory that is allocated. -/
theorem C16_applyP_undo_rows (ta : Tr) (h : Rect m r c A lda) (hb : ibeg ≤ iend) (he : iend ≤ r) (hP : iend ≤ P.len)
    (hp : ∀ i < iend, P.get i < r) :
    Run (do
      applyP .left ta c ibeg iend A lda P
      applyP .left (if ta = .no then .yes else .no) c ibeg iend A lda P) m
      (fun _ m' => m'.ok = m.ok ∧ ∀ a, m.ok a = true → m'.val a = m.val a) := by
  rw [Run_bind]
  refine (C16_applyP_rows (ibeg := ibeg) ta h he hP hp).mono (fun _ m1 s1 => ?_)
  have h1 : Rect m1 r c A lda := ⟨h.wf.step s1, h.ok.step s1, h.ld⟩
  refine (C16_applyP_rows (ibeg := ibeg) _ h1 he hP hp).mono (fun _ m2 s2 => ?_)
  refine ⟨s2.ok.trans s1.ok, fun a ha => ?_⟩
  by_cases hw : (Win.mk A lda r c).Has a
  · obtain ⟨i, hi, j, hj, rfl⟩ := hw
    rw [s2.val i hi j hj]
    have hj : j < c := hj
    have e := C16_exchanged_inverse (ibeg := ibeg) (iend := iend) P.get (fun x => m.mat ⟨A, lda, r, c⟩ x j) hb (ta = .no)
    have e2 : decide ((if ta = Tr.no then Tr.yes else Tr.no) = Tr.no) = !decide (ta = .no) := by cases ta <;> rfl
    rw [e2]
    have e3 : ∀ x < r, m1.mat ⟨A, lda, r, c⟩ x j = exchanged (ta = .no) P.get ibeg iend (fun x => m.mat ⟨A, lda, r, c⟩ x j) x :=
      fun x hx => s1.val x hx j hj
    refine Eq.trans ?_ (congrFun e i)
    have e4 := exchanged_left (ibeg := ibeg) (iend := iend) (if ta = Tr.no then Tr.yes else Tr.no) P.get
      (fun x => m1.mat ⟨A, lda, r, c⟩ x j)
    have e5 := exchanged_left (ibeg := ibeg) (iend := iend) (if ta = Tr.no then Tr.yes else Tr.no) P.get
      (exchanged (ta = .no) P.get ibeg iend (fun x => m.mat ⟨A, lda, r, c⟩ x j))
    rw [e2] at e4 e5
    rw [e4, e5]
    simp only [Function.comp]
    exact e3 _ (appliedPerm_lt he hp hi)
  · rw [s2.frame a (by rw [s1.ok]; exact ha) hw, s1.frame a ha hw]

/-- C16, the same for columns. -/
theorem C16_applyP_undo_cols (ta : Tr) (h : Rect m r c A lda) (hb : ibeg ≤ iend) (he : iend ≤ c) (hP : iend ≤ P.len)
    (hp : ∀ i < iend, P.get i < c) :
    Run (do
      applyP .right ta r ibeg iend A lda P
      applyP .right (if ta = .no then .yes else .no) r ibeg iend A lda P) m
      (fun _ m' => m'.ok = m.ok ∧ ∀ a, m.ok a = true → m'.val a = m.val a) := by
  rw [Run_bind]
  refine (C16_applyP_cols (ibeg := ibeg) ta h he hP hp).mono (fun _ m1 s1 => ?_)
  have h1 : Rect m1 r c A lda := ⟨h.wf.step s1, h.ok.step s1, h.ld⟩
  refine (C16_applyP_cols (ibeg := ibeg) _ h1 he hP hp).mono (fun _ m2 s2 => ?_)
  refine ⟨s2.ok.trans s1.ok, fun a ha => ?_⟩
  by_cases hw : (Win.mk A lda r c).Has a
  · obtain ⟨i, hi, j, hj, rfl⟩ := hw
    rw [s2.val i hi j hj]
    have hi : i < r := hi
    have hj : j < c := hj
    have e := C16_exchanged_inverse (ibeg := ibeg) (iend := iend) P.get (fun x => m.mat ⟨A, lda, r, c⟩ i x) hb (ta = .yes)
    have e2 : decide ((if ta = Tr.no then Tr.yes else Tr.no) = Tr.yes) = !decide (ta = .yes) := by cases ta <;> rfl
    rw [e2]
    have e3 : ∀ x < c, m1.mat ⟨A, lda, r, c⟩ i x = exchanged (ta = .yes) P.get ibeg iend (fun x => m.mat ⟨A, lda, r, c⟩ i x) x :=
      fun x hx => s1.val i hi x hx
    refine Eq.trans ?_ (congrFun e j)
    have e4 := exchanged_right (ibeg := ibeg) (iend := iend) (if ta = Tr.no then Tr.yes else Tr.no) P.get
      (fun x => m1.mat ⟨A, lda, r, c⟩ i x)
    have e5 := exchanged_right (ibeg := ibeg) (iend := iend) (if ta = Tr.no then Tr.yes else Tr.no) P.get
      (exchanged (ta = .yes) P.get ibeg iend (fun x => m.mat ⟨A, lda, r, c⟩ i x))
    rw [e2] at e4 e5
    rw [e4, e5]
    simp only [Function.comp]
    exact e3 _ (appliedPerm_lt he hp hj)
  · rw [s2.frame a (by rw [s1.ok]; exact ha) hw, s1.frame a ha hw]

/-! ### C18 -/

/-- the new vector has the last entry first and the others one place further -/
def rotated {α : Type} (n : ℕ) (v : ℕ → α) (i : ℕ) : α := if i = 0 then v (n - 1) else v (i - 1)

/-- C18: `cyclic_shift_row`. -/
theorem C18_cyclic_shift_row (h : Rect m r c A lda) :
    Run (cyclicShiftRow A r c lda) m (fun _ m' => Step m m' ⟨A, lda, r, c⟩
      (fun i j => rotated r (fun x => m.mat ⟨A, lda, r, c⟩ x j) i)) := by
  have := cyclicShiftRow_on (i0 := 0) (j0 := 0) (r := r) (c := c) h.on (by simp) (by simp)
  simp only [Win.adr_mk, Nat.zero_mul, Nat.add_zero] at this
  refine this.mono (fun _ m' h' => h'.step.congr (fun i hi j hj => ?_))
  have hi : i < r := hi
  have hj : j < c := hj
  simp only [permRows]
  rw [upd_in' (by omega), rotated, rot]
  simp only [Nat.zero_add, Nat.sub_zero, if_pos hi]
  split <;> rfl

/-- C18: `cyclic_shift_col`. -/
theorem C18_cyclic_shift_col (h : Rect m r c A lda) :
    Run (cyclicShiftCol A r c lda) m (fun _ m' => Step m m' ⟨A, lda, r, c⟩
      (fun i j => rotated c (fun x => m.mat ⟨A, lda, r, c⟩ i x) j)) := by
  have := cyclicShiftCol_on (i0 := 0) (j0 := 0) (r := r) (c := c) h.on (by simp) (by simp)
  simp only [Win.adr_mk, Nat.zero_mul, Nat.add_zero] at this
  refine this.mono (fun _ m' h' => h'.step.congr (fun i hi j hj => ?_))
  have hi : i < r := hi
  have hj : j < c := hj
  simp only [permCols]
  rw [upd_in' (by omega), rotated, rot]
  simp only [Nat.zero_add, Nat.sub_zero, if_pos hj]
  split <;> rfl

/-- C18: `cyclic_shift_row_col` shifts rows and columns, for every shape except a single row of at least 3 columns. -/
theorem C18_cyclic_shift_row_col_partial (h : Rect m r c A lda) (h1 : r ≠ 1 ∨ c ≤ 2) :
    Run (cyclicShiftRowCol A r c lda) m (fun _ m' => Step m m' ⟨A, lda, r, c⟩
      (fun i j => rotated r (fun x => rotated c (fun y => m.mat ⟨A, lda, r, c⟩ x y) j) i)) := by
  have := cyclicShiftRowCol_on (i0 := 0) (j0 := 0) (r := r) (c := c) h.on (by simp) (by simp) h1
  simp only [Win.adr_mk, Nat.zero_mul, Nat.add_zero] at this
  refine this.mono (fun _ m' h' => h'.step.congr (fun i hi j hj => ?_))
  have hi : i < r := hi
  have hj : j < c := hj
  simp only [permBoth]
  rw [upd_in' (by omega), rotated, rotated, rotated, rot, rot]
  simp only [Nat.zero_add, Nat.sub_zero, if_pos hi, if_pos hj]
  split <;> split <;> rfl

/-- C18 fails on a single row of 3 entries: the forward copy smears the first entry.  `[1,2,3]` becomes `[3,1,1]`. -/
theorem C18_cyclic_shift_row_col_violated :
    (List.range 3).map (after (cyclicShiftRowCol 0 1 3 3) (memOf [1, 2, 3] : Mem ℚ)) = [some 3, some 1, some 1] ∧
    rotated 3 (fun i => ((memOf [1, 2, 3] : Mem ℚ)).val i) 2 = 2 := by decide +kernel

/-- C18: `cyclic_shift_mathPerm` rotates the first `s` entries, provided `std::copy` behaves like `memmove` on the overlapping
ranges it is given (the C++ standard does not promise it). -/
theorem C18_cyclic_shift_mathPerm_partial {α : Type} (P : Arr α) (s : ℕ) (hs : 1 ≤ s) (hl : s ≤ P.len) :
    ∃ B, Perm.cyclic_shift_mathPerm Perm.copyMove P s = .ok B ∧ B.len = P.len ∧
      (∀ i < s, B.get i = rotated s P.get i) ∧ ∀ i, s ≤ i → B.get i = P.get i := by
  obtain ⟨B, e, h1, h2⟩ := Perm.cyclic_shift_mathPerm_spec P s hs hl
  refine ⟨B, e, h1, fun i hi => ?_, fun i hi => ?_⟩
  · rw [h2, rotated]; simp only [if_pos hi]
  · rw [h2, if_neg (by omega), if_neg (by omega)]

/-- With a `std::copy` that copies forwards the shift is wrong from 3 entries on, and the empty shift reads before the array. -/
theorem C18_cyclic_shift_mathPerm_violated :
    ((Perm.cyclic_shift_mathPerm Perm.copyForward (Arr.ofList [0, 1, 2]) 3).toOption.map (fun B => (List.range 3).map B.get)) =
      some [2, 0, 0] ∧
    (List.range 3).map (rotated 3 (Arr.ofList [0, 1, 2]).get) = [2, 0, 1] ∧
    (Perm.cyclic_shift_mathPerm Perm.copyMove (Arr.ofList ([] : List ℕ)) 0).toOption.isNone := by decide +kernel

/-! ### concrete cases -/

/-- exchanges on a `3 × 2` matrix -/
example : Rect (memOf [1, 2, 3, 4, 5, 6] : Mem ℚ) 3 2 0 2 :=
  ⟨WF_memOf _, OkIn_memOf (by decide), by decide⟩

example : (List.range 6).map (after (applyP .left .no 2 0 2 0 2 (Arr.ofList [2, 2])) (memOf [1, 2, 3, 4, 5, 6] : Mem ℚ)) =
    [some 5, some 6, some 1, some 2, some 3, some 4] := by decide +kernel

example : (List.range 4).map (after (cyclicShiftRowCol 0 2 2 2) (memOf [1, 2, 3, 4] : Mem ℚ)) =
    [some 4, some 3, some 2, some 1] := by decide +kernel

example : (List.range 6).map (after (cyclicShiftCol 0 2 3 3) (memOf [1, 2, 3, 4, 5, 6] : Mem ℚ)) =
    [some 3, some 1, some 2, some 6, some 4, some 5] := by decide +kernel

end Verif.Props
