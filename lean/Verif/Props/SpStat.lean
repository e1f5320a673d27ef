import Verif.Model.SpStat
import Mathlib.Algebra.BigOperators.Group.Finset.Basic
import Mathlib.Algebra.BigOperators.Intervals
import Mathlib.Algebra.Order.BigOperators.Group.Finset
import Mathlib.Data.ZMod.Basic
import Mathlib.Tactic.Linarith
import Mathlib.Tactic.Ring

/-!
# Property C125: the statistics of a sparse matrix

`getStat` of a matrix in compressed rows.  The counts of the values and of the columns are right; the row statistics contain an additional empty row, the
dense rows and columns are never counted, and the averages are wrong from `2^31` entries on.
-/

namespace Verif.Props

open Verif Verif.SpStat Finset

variable {K : Type} [Ring K] [DecidableEq K]

/-- a matrix in compressed rows -/
structure CsrInput (row col : Arr ℕ) (val : Arr K) (rowdim coldim nnz : ℕ) : Prop where
  rowLen : rowdim + 1 ≤ row.len
  colLen : nnz ≤ col.len
  valLen : nnz ≤ val.len
  first : row.get 0 = 0
  last : row.get rowdim = nnz
  mono : ∀ i < rowdim, row.get i ≤ row.get (i + 1)
  inside : ∀ k < nnz, col.get k < coldim
  rpos : 0 < rowdim
  cpos : 0 < coldim

/-- the entries in column `j` -/
def inColumn (col : Arr ℕ) (nnz j : ℕ) : ℕ := #{k ∈ range nnz | col.get k = j}

/-- the entries in row `i` -/
def inRow (row : Arr ℕ) (i : ℕ) : ℕ := row.get (i + 1) - row.get i

/-- `x` is the smallest of the numbers `f 0, …, f (n - 1)` -/
def IsMinOf (f : ℕ → ℕ) (n : ℕ) (x : ℤ) : Prop := (∀ j < n, x ≤ f j) ∧ ∃ j < n, x = f j

/-- `x` is the largest of the numbers `f 0, …, f (n - 1)` -/
def IsMaxOf (f : ℕ → ℕ) (n : ℕ) (x : ℤ) : Prop := (∀ j < n, (f j : ℤ) ≤ x) ∧ ∃ j < n, x = f j

lemma foldl_min (l : List ℤ) (x : ℤ) : (∀ y ∈ x :: l, l.foldl min x ≤ y) ∧ l.foldl min x ∈ x :: l := by
  induction l generalizing x with
  | nil => simp
  | cons a l ih =>
    obtain ⟨h1, h2⟩ := ih (min x a)
    simp only [List.foldl_cons]
    refine ⟨fun y hy => ?_, ?_⟩
    · have h3 := h1 (min x a) (by simp)
      simp only [List.mem_cons] at hy
      rcases hy with rfl | rfl | hy
      · exact h3.trans (min_le_left _ _)
      · exact h3.trans (min_le_right _ _)
      · exact h1 y (by simp [hy])
    · rcases List.mem_cons.1 h2 with h | h
      · rw [h]; rcases min_choice x a with e | e <;> simp [e]
      · simp [h]

lemma foldl_max (l : List ℤ) (x : ℤ) : (∀ y ∈ x :: l, y ≤ l.foldl max x) ∧ l.foldl max x ∈ x :: l := by
  induction l generalizing x with
  | nil => simp
  | cons a l ih =>
    obtain ⟨h1, h2⟩ := ih (max x a)
    simp only [List.foldl_cons]
    refine ⟨fun y hy => ?_, ?_⟩
    · have h3 := h1 (max x a) (by simp)
      simp only [List.mem_cons] at hy
      rcases hy with rfl | rfl | hy
      · exact (le_max_left _ _).trans h3
      · exact (le_max_right _ _).trans h3
      · exact h1 y (by simp [hy])
    · rcases List.mem_cons.1 h2 with h | h
      · rw [h]; rcases max_choice x a with e | e <;> simp [e]
      · simp [h]

lemma minOf_spec {l : List ℤ} (h : l ≠ []) : Ok (minOf l) (fun x => (∀ y ∈ l, x ≤ y) ∧ x ∈ l) := by
  cases l with
  | nil => exact absurd rfl h
  | cons a l => exact ⟨_, rfl, foldl_min l a⟩

lemma maxOf_spec {l : List ℤ} (h : l ≠ []) : Ok (maxOf l) (fun x => (∀ y ∈ l, y ≤ x) ∧ x ∈ l) := by
  cases l with
  | nil => exact absurd rfl h
  | cons a l => exact ⟨_, rfl, foldl_max l a⟩

lemma accInt_spec (l : List ℤ) : accInt l = Int.bmod l.sum (2 ^ 32) := by
  have h : ∀ (l : List ℤ) (s : ℤ), l.foldl (fun s x => Int.bmod (s + x) (2 ^ 32)) (Int.bmod s (2 ^ 32)) = Int.bmod (s + l.sum) (2 ^ 32) := by
    intro l
    induction l with
    | nil => intro s; simp
    | cons a l ih =>
      intro s
      simp only [List.foldl_cons, List.sum_cons]
      rw [Int.bmod_add_bmod, ih, add_assoc]
  have := h l 0
  simpa [accInt] using this

lemma accInt_small {l : List ℤ} (h0 : 0 ≤ l.sum) (h1 : l.sum < 2 ^ 31) : accInt l = l.sum := by
  rw [accInt_spec]
  exact Int.bmod_eq_of_le (by omega) (by omega)

/-- the columns after the loop over the entries -/
lemma entryLoop_spec {row col : Arr ℕ} {val : Arr K} {rowdim coldim nnz : ℕ} (h : CsrInput row col val rowdim coldim nnz) :
    Ok (entryLoop col val nnz (⟨coldim, fun _ => 0⟩, 0, 0, 0)) (fun s => s.1.len = coldim ∧ (∀ j, s.1.get j = inColumn col nnz j) ∧
      s.2.1 = #{k ∈ range nnz | val.get k = 1} ∧ s.2.2.1 = #{k ∈ range nnz | val.get k ≠ 1 ∧ val.get k = -1} ∧
      s.2.2.2 = #{k ∈ range nnz | val.get k ≠ 1 ∧ val.get k ≠ -1}) := by
  unfold entryLoop
  refine Ok_iter (fun n (s : Arr ℤ × ℕ × ℕ × ℕ) => s.1.len = coldim ∧ (∀ j, s.1.get j = inColumn col n j) ∧
      s.2.1 = #{k ∈ range n | val.get k = 1} ∧ s.2.2.1 = #{k ∈ range n | val.get k ≠ 1 ∧ val.get k = -1} ∧
      s.2.2.2 = #{k ∈ range n | val.get k ≠ 1 ∧ val.get k ≠ -1}) ⟨rfl, by simp [inColumn], by simp, by simp, by simp⟩ ?_
  rintro k ⟨cols, a, b, c⟩ hk ⟨h1, h2, h3, h4, h5⟩
  simp only at h1 h2 h3 h4 h5
  have hc := h.inside k hk
  have hcol : ∀ j, Function.update cols.get (col.get k) (cols.get (col.get k) + 1) j = (inColumn col (k + 1) j : ℤ) := by
    intro j
    unfold inColumn at h2 ⊢
    rw [range_add_one, filter_insert]
    by_cases e : col.get k = j
    · subst e
      rw [if_pos rfl, card_insert_of_notMem (by simp), Function.update_self, h2]
      push_cast
      rfl
    · rw [if_neg e, Function.update_of_ne (fun h => e h.symm), h2]
  have hins : ∀ (P : ℕ → Prop) [DecidablePred P], #{i ∈ range (k + 1) | P i} = #{i ∈ range k | P i} + if P k then 1 else 0 := by
    intro P _
    rw [range_add_one, filter_insert]
    by_cases e : P k
    · rw [if_pos e, if_pos e, card_insert_of_notMem (by simp)]
    · rw [if_neg e, if_neg e, add_zero]
  have hlc := h.colLen
  have hlv := h.valLen
  simp only [Ok_bind, Ok_rd, Ok_wr]
  refine ⟨by omega, by omega, by omega, by omega, ?_⟩
  by_cases e1 : val.get k = 1
  · rw [if_pos e1, Ok_pure]
    refine ⟨h1, hcol, ?_, ?_, ?_⟩ <;> simp only [hins, h3, h4, h5, e1] <;> simp
  · by_cases e2 : val.get k = -1
    · rw [if_neg e1, if_pos e2, Ok_pure]
      refine ⟨h1, hcol, ?_, ?_, ?_⟩
      · simp only [hins, h3, if_neg e1]; simp
      · simp only [hins, h4]; rw [if_pos ⟨e1, e2⟩]
      · simp only [hins, h5]; rw [if_neg (fun h => h.2 e2)]; simp
    · rw [if_neg e1, if_neg e2, Ok_pure]
      refine ⟨h1, hcol, ?_, ?_, ?_⟩
      · simp only [hins, h3, if_neg e1]; simp
      · simp only [hins, h4]; rw [if_neg (fun h => e2 h.2)]; simp
      · simp only [hins, h5]; rw [if_pos ⟨e1, e2⟩]

/-- `rows`: one 0, then the lengths of the rows -/
lemma rowLoop_spec {row col : Arr ℕ} {val : Arr K} {rowdim coldim nnz : ℕ} (h : CsrInput row col val rowdim coldim nnz) :
    Ok (rowLoop row rowdim ⟨rowdim + 1, fun _ => 0⟩) (fun v => v.len = rowdim + 1 ∧ v.get 0 = 0 ∧ ∀ i < rowdim, v.get (i + 1) = inRow row i) := by
  unfold rowLoop
  have hl := h.rowLen
  simp only [Ok_bind, Ok_rd, Ok_wr]
  refine ⟨by omega, by omega, ?_⟩
  refine Ok_iter (fun n (v : Arr ℤ) => v.len = rowdim + 1 ∧ v.get 0 = 0 ∧ ∀ i < n, v.get (i + 1) = inRow row i)
    ⟨rfl, by simp [h.first], by simp⟩ ?_
  rintro k v hk ⟨h1, h2, h3⟩
  simp only [Ok_bind, Ok_rd, Ok_wr]
  refine ⟨by omega, by omega, by omega, h1, by rw [Function.update_of_ne (by omega)]; exact h2, fun i hi => ?_⟩
  by_cases e : i = k
  · subst e
    have := h.mono i hk
    simp only [Function.update_self, inRow]
    omega
  · rw [Function.update_of_ne (by omega)]
    exact h3 i (by omega)

lemma elems_rows {v : Arr ℤ} {row : Arr ℕ} {n : ℕ} (h1 : v.len = n + 1) (h2 : v.get 0 = 0) (h3 : ∀ i < n, v.get (i + 1) = inRow row i) :
    elems v = 0 :: (List.range n).map (fun i => (inRow row i : ℤ)) := by
  unfold elems
  rw [h1, List.range_succ_eq_map, List.map_cons, h2, List.map_map]
  congr 1
  exact List.map_congr_left (fun i hi => h3 i (List.mem_range.1 hi))

lemma elems_cols {v : Arr ℤ} {f : ℕ → ℕ} {n : ℕ} (h1 : v.len = n) (h2 : ∀ j, v.get j = f j) : elems v = (List.range n).map (fun i => (f i : ℤ)) := by
  unfold elems
  rw [h1]
  exact List.map_congr_left (fun i _ => h2 i)

lemma sum_list (f : ℕ → ℕ) (n : ℕ) : ((List.range n).map (fun i => (f i : ℤ))).sum = ((∑ i ∈ range n, f i : ℕ) : ℤ) := by
  induction n with
  | zero => simp
  | succ n ih => rw [List.range_succ, List.map_append, List.sum_append, ih, sum_range_succ]; simp

lemma sum_columns {col : Arr ℕ} {coldim nnz : ℕ} (h : ∀ k < nnz, col.get k < coldim) : ∑ j ∈ range coldim, inColumn col nnz j = nnz := by
  have := card_eq_sum_card_fiberwise (s := range nnz) (t := range coldim) (f := col.get) (fun k hk => by
    simp only [coe_range, Set.mem_Iio] at hk ⊢; exact h k hk)
  rw [card_range] at this
  exact this.symm

lemma sum_rows {row : Arr ℕ} {n : ℕ} (h : ∀ i < n, row.get i ≤ row.get (i + 1)) : row.get 0 + ∑ i ∈ range n, inRow row i = row.get n := by
  induction n with
  | zero => simp
  | succ n ih =>
    rw [sum_range_succ, ← add_assoc, ih (fun i hi => h i (by omega))]
    have := h n (by omega)
    unfold inRow
    omega

lemma count_zero (f : ℕ → ℕ) (n : ℕ) : (((List.range n).map (fun i => (f i : ℤ))).filter (fun x => x == 0)).length = #{j ∈ range n | f j = 0} := by
  induction n with
  | zero => simp
  | succ n ih =>
    rw [List.range_succ, List.map_append, List.filter_append, List.length_append, ih, range_add_one, filter_insert]
    by_cases e : f n = 0
    · rw [if_pos e, card_insert_of_notMem (by simp)]; simp [e]
    · rw [if_neg e]; simp [e]

lemma foldl_sq (f : ℕ → ℕ) (n : ℕ) (a : ℤ) :
    ((List.range n).map (fun i => (f i : ℤ))).foldl (fun s x => s + (x - a) * (x - a)) 0 = ∑ i ∈ range n, ((f i : ℤ) - a) ^ 2 := by
  induction n with
  | zero => simp
  | succ n ih => rw [List.range_succ, List.map_append, List.foldl_append, ih, sum_range_succ]; simp; ring

/-- everything `getStat` computes -/
lemma getStat_spec {row col : Arr ℕ} {val : Arr K} {rowdim coldim nnz : ℕ} (h : CsrInput row col val rowdim coldim nnz) :
    Ok (getStat row col val rowdim coldim nnz) (fun s =>
      (s.nOnes = #{k ∈ range nnz | val.get k = 1} ∧ s.nMOnes = #{k ∈ range nnz | val.get k ≠ 1 ∧ val.get k = -1} ∧
        s.nOthers = #{k ∈ range nnz | val.get k ≠ 1 ∧ val.get k ≠ -1}) ∧
      (s.nEmptyCols = #{j ∈ range coldim | inColumn col nnz j = 0} ∧ IsMinOf (inColumn col nnz) coldim s.minCol ∧ IsMaxOf (inColumn col nnz) coldim s.maxCol ∧
        IsMaxOf (inRow row) rowdim s.maxRow) ∧
      (s.averageCol = Int.bmod nnz (2 ^ 32) % 2 ^ 64 / coldim ∧ s.averageRow = Int.bmod nnz (2 ^ 32) % 2 ^ 64 / rowdim) ∧
      (nnz < 2 ^ 31 → s.deviationCol = Nat.sqrt ((∑ j ∈ range coldim, ((inColumn col nnz j : ℤ) - (nnz / coldim : ℕ)) ^ 2).toNat / coldim)) ∧
      (s.nEmptyRows = #{i ∈ range rowdim | inRow row i = 0} + 1 ∧ s.minRow = 0 ∧ s.nDenseRows = 0 ∧ s.nDenseCols = 0)) := by
  unfold getStat
  rw [Ok_bind]
  refine (entryLoop_spec h).mono ?_
  rintro ⟨cols, a, b, c⟩ ⟨c1, c2, c3, c4, c5⟩
  simp only at c1 c2 c3 c4 c5
  simp only [Ok_bind]
  refine (rowLoop_spec h).mono ?_
  rintro rows ⟨r1, r2, r3⟩
  have er := elems_rows r1 r2 r3
  have ec := elems_cols c1 c2
  have hcp := h.cpos
  have hrp := h.rpos
  have sc : (elems cols).sum = (nnz : ℤ) := by rw [ec, sum_list, sum_columns h.inside]
  have sr : (elems rows).sum = (nnz : ℤ) := by
    have := sum_rows h.mono
    rw [h.first, h.last, zero_add] at this
    rw [er, List.sum_cons, sum_list, this, zero_add]
  have lc : (elems cols).length = coldim := by rw [ec]; simp
  have lr : (elems rows).length = rowdim + 1 := by rw [er]; simp
  have nc : elems cols ≠ [] := fun e => by rw [e] at lc; simp at lc; omega
  have nr : elems rows ≠ [] := fun e => by rw [e] at lr; simp at lr
  refine (minOf_spec nr).mono (fun mr hmr => (maxOf_spec nr).mono (fun xr hxr => (minOf_spec nc).mono (fun mc hmc => (maxOf_spec nc).mono (fun xc hxc => ?_))))
  unfold divU computeDeviation
  rw [if_neg (by omega), if_neg (by omega), if_neg (by omega), if_neg (by omega)]
  simp only [Ok_ok, Ok_pure]
  have mem_c : ∀ x, x ∈ elems cols ↔ ∃ j < coldim, x = (inColumn col nnz j : ℤ) := by
    intro x; rw [ec]; simp [eq_comm]
  have mem_r : ∀ x, x ∈ elems rows ↔ x = 0 ∨ ∃ i < rowdim, x = (inRow row i : ℤ) := by
    intro x; rw [er]; simp [eq_comm]
  refine ⟨⟨c3, c4, c5⟩, ⟨?_, ⟨fun j hj => hmc.1 _ ((mem_c _).2 ⟨j, hj, rfl⟩), (mem_c _).1 hmc.2⟩, ⟨fun j hj => hxc.1 _ ((mem_c _).2 ⟨j, hj, rfl⟩), (mem_c _).1 hxc.2⟩,
    fun j hj => hxr.1 _ ((mem_r _).2 (Or.inr ⟨j, hj, rfl⟩)), ?_⟩, ⟨by rw [accInt_spec, sc], by rw [accInt_spec, sr]⟩, fun hn => ?_, ?_, ?_, ?_, ?_⟩
  · unfold countIf
    rw [List.drop_zero, c1, ← lc, List.take_length, ec, count_zero, List.length_map, List.length_range]
  · rcases (mem_r _).1 hxr.2 with e | e
    · refine ⟨0, hrp, ?_⟩
      have := hxr.1 _ ((mem_r _).2 (Or.inr ⟨0, hrp, rfl⟩))
      omega
    · exact e
  · rw [accInt_small (by omega) (by omega), sc, lc]
    have e1 : (nnz : ℤ).tdiv coldim = ((nnz / coldim : ℕ) : ℤ) := by rw [Int.tdiv_eq_ediv_of_nonneg (by omega)]; rfl
    rw [e1, ec, foldl_sq]
    have e2 : (0 : ℤ) ≤ ∑ i ∈ range coldim, ((inColumn col nnz i : ℤ) - (nnz / coldim : ℕ)) ^ 2 := sum_nonneg (fun _ _ => sq_nonneg _)
    obtain ⟨t, ht⟩ := Int.eq_ofNat_of_zero_le e2
    rw [ht, Int.tdiv_eq_ediv_of_nonneg (by omega), ← Int.natCast_div, Int.toNat_natCast, Int.toNat_natCast]
  · unfold countIf
    rw [List.drop_zero, r1, ← lr, List.take_length, er, List.filter_cons_of_pos (by simp), List.length_cons, count_zero]
  · have h1 := hmr.1 0 ((mem_r _).2 (Or.inl rfl))
    rcases (mem_r _).1 hmr.2 with e | ⟨i, _, e⟩
    · exact e
    · omega
  · simp [countIf]
  · simp [countIf]

/-- C125, the part that holds: the entries equal to 1, to -1 (and not 1) and the others are counted, the number of empty columns, the smallest and the
largest number of entries in a column and the largest in a row are right; below `2^31` entries the averages and the deviation of the columns too. -/
theorem C125_getStat_partial {row col : Arr ℕ} {val : Arr K} {rowdim coldim nnz : ℕ} (h : CsrInput row col val rowdim coldim nnz) :
    Ok (getStat row col val rowdim coldim nnz) (fun s =>
      s.nOnes = #{k ∈ range nnz | val.get k = 1} ∧ s.nMOnes = #{k ∈ range nnz | val.get k ≠ 1 ∧ val.get k = -1} ∧ s.nOnes + s.nMOnes + s.nOthers = nnz ∧
      s.nEmptyCols = #{j ∈ range coldim | ∀ k < nnz, col.get k ≠ j} ∧ IsMinOf (inColumn col nnz) coldim s.minCol ∧ IsMaxOf (inColumn col nnz) coldim s.maxCol ∧
      IsMaxOf (inRow row) rowdim s.maxRow ∧
      (nnz < 2 ^ 31 → s.averageCol = (nnz / coldim : ℕ) ∧ s.averageRow = (nnz / rowdim : ℕ) ∧
        s.deviationCol = Nat.sqrt ((∑ j ∈ range coldim, ((inColumn col nnz j : ℤ) - (nnz / coldim : ℕ)) ^ 2).toNat / coldim))) := by
  refine (getStat_spec h).mono ?_
  rintro s ⟨⟨h1, h2, h3⟩, ⟨h4, h5, h6, h7⟩, ⟨h8, h9⟩, h10, -⟩
  refine ⟨h1, h2, ?_, ?_, h5, h6, h7, fun hn => ⟨?_, ?_, h10 hn⟩⟩
  · rw [h1, h2, h3, add_assoc]
    have e1 := card_filter_add_card_filter_not (s := range nnz) (fun k => val.get k = 1)
    have e2 := card_filter_add_card_filter_not (s := (range nnz).filter (fun k => ¬ val.get k = 1)) (fun k => val.get k = -1)
    rw [filter_filter, filter_filter] at e2
    rw [card_range] at e1
    simp only [ne_eq] at *
    omega
  · rw [h4]
    congr 1
    refine filter_congr (fun j _ => ?_)
    unfold inColumn
    rw [card_eq_zero, filter_eq_empty_iff]
    simp
  · rw [h8, Int.bmod_eq_of_le (by omega) (by omega), Int.emod_eq_of_lt (by omega) (by omega)]; rfl
  · rw [h9, Int.bmod_eq_of_le (by omega) (by omega), Int.emod_eq_of_lt (by omega) (by omega)]; rfl

/-- C125 is violated for the rows of every matrix: one empty row too many is counted and the smallest number of entries in a row is always 0. -/
theorem C125_rows_violated {row col : Arr ℕ} {val : Arr K} {rowdim coldim nnz : ℕ} (h : CsrInput row col val rowdim coldim nnz) :
    Ok (getStat row col val rowdim coldim nnz) (fun s =>
      s.nEmptyRows = #{i ∈ range rowdim | inRow row i = 0} + 1 ∧ s.minRow = 0 ∧ ((∀ i < rowdim, 0 < inRow row i) → ¬ IsMinOf (inRow row) rowdim s.minRow)) := by
  refine (getStat_spec h).mono ?_
  rintro s ⟨-, -, -, -, h1, h2, -, -⟩
  refine ⟨h1, h2, fun hp => ?_⟩
  rintro ⟨-, i, hi, e⟩
  have := hp i hi
  omega

/-- C125 is violated for the dense rows and columns (at least half of the entries): none is ever counted. -/
theorem C125_dense_violated {row col : Arr ℕ} {val : Arr K} {rowdim coldim nnz : ℕ} (h : CsrInput row col val rowdim coldim nnz) :
    Ok (getStat row col val rowdim coldim nnz) (fun s => s.nDenseRows = 0 ∧ s.nDenseCols = 0) :=
  (getStat_spec h).mono (fun _ hs => hs.2.2.2.2.2.2)

/-- C125 is violated for the averages from `2^31` entries on: they are above `2^63 / coldim`. -/
theorem C125_average_violated {row col : Arr ℕ} {val : Arr K} {rowdim coldim nnz : ℕ} (h : CsrInput row col val rowdim coldim nnz)
    (h1 : 2 ^ 31 ≤ nnz) (h2 : nnz < 2 ^ 32) :
    Ok (getStat row col val rowdim coldim nnz) (fun s => s.averageCol = ((2 ^ 64 - 2 ^ 32 + nnz) / coldim : ℕ) ∧ s.averageRow = ((2 ^ 64 - 2 ^ 32 + nnz) / rowdim : ℕ)) := by
  refine (getStat_spec h).mono ?_
  rintro s ⟨-, -, ⟨h3, h4⟩, -⟩
  have e : Int.bmod (nnz : ℤ) (2 ^ 32) % 2 ^ 64 = ((2 ^ 64 - 2 ^ 32 + nnz : ℕ) : ℤ) := by
    have : Int.bmod (nnz : ℤ) (2 ^ 32) = (nnz : ℤ) - 2 ^ 32 := by
      rw [Int.bmod_def]
      rw [Int.emod_eq_of_lt (by omega) (by push_cast; omega), if_neg (by push_cast; omega)]
      push_cast
      rfl
    rw [this]
    omega
  exact ⟨by rw [h3, e]; rfl, by rw [h4, e]; rfl⟩

section examples

/-- two rows `(1, 4, 0)` and `(0, 2, 0)` modulo 5 -/
def statRow : Arr ℕ := ⟨3, fun i => [0, 2, 3].getD i 0⟩
def statCol : Arr ℕ := ⟨3, fun i => [0, 1, 1].getD i 0⟩
def statVal : Arr (ZMod 5) := ⟨3, fun i => [1, 4, 2].getD i 0⟩

lemma statInput : CsrInput statRow statCol statVal 2 3 3 :=
  ⟨by decide, by decide, by decide, by decide, by decide, by decide, by decide, by decide, by decide⟩

example : (getStat statRow statCol statVal 2 3 3).toOption.map (fun s => (s.nOnes, s.nMOnes, s.nOthers, s.nEmptyCols)) = some (1, 1, 1, 1) := by decide +kernel

/-- no row is empty, but one is counted; both rows and one column have at least half of the entries -/
theorem C125_example_violated : (getStat statRow statCol statVal 2 3 3).toOption.map (fun s => (s.nEmptyRows, s.minRow, s.nDenseRows, s.nDenseCols)) =
    some (1, 0, 0, 0) ∧ inRow statRow 0 = 2 ∧ inRow statRow 1 = 1 ∧ inColumn statCol 3 1 = 2 := by decide +kernel

/-- the deviation of the rows is not 0 although both rows have three entries -/
theorem C125_deviation_violated :
    (getStat (K := ZMod 5) ⟨3, fun i => 3 * i⟩ ⟨6, fun i => i % 3⟩ ⟨6, fun _ => 1⟩ 2 3 6).toOption.map (fun s => (s.deviationRow, s.deviationCol)) = some (1, 0) ∧
    inRow ⟨3, fun i => 3 * i⟩ 0 = inRow ⟨3, fun i => 3 * i⟩ 1 := by decide +kernel

/-- `2^31` entries in one column -/
example : CsrInput (K := ZMod 5) ⟨2, fun i => if i = 0 then 0 else 2 ^ 31⟩ ⟨2 ^ 31, fun _ => 0⟩ ⟨2 ^ 31, fun _ => 1⟩ 1 1 (2 ^ 31) :=
  ⟨by decide, le_rfl, le_rfl, rfl, rfl, fun i _ => by dsimp only; split_ifs <;> omega, fun _ _ => Nat.one_pos, Nat.one_pos, Nat.one_pos⟩

end examples

end Verif.Props
