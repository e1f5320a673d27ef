import Verif.Proofs.ReadSparse

/-!
# Property C104: reading sparse matrices

`readSmsFormat` gives the compressed rows of the matrix in the file, whether the file announces the number of entries or ends with
"0 0 0", and whether the entries are sorted or not.
-/

namespace Verif.Props

open Verif.MatIO Verif.ReadSparse

variable {K : Type} [Ring K] [DecidableEq K]

/-- `g` is the `m × n` matrix with the entries `L` (row, column, value, indices from 1) in compressed rows: the `k`-th entry is in the part of row
`i` exactly if it is an entry of that row -/
structure IsCsr (g : Csr K) (m n : ℕ) (L : List (ℕ × ℕ × ℤ)) : Prop where
  rowdim : g.m = m
  coldim : g.n = n
  nnz : g.nnz = L.length
  lens : g.row.len = m + 1 ∧ g.col.len = L.length ∧ g.val.len = L.length
  first : g.row.get 0 = 0
  last : g.row.get m = L.length
  rows : ∀ k e, L[k]? = some e → ∀ i < m, (g.row.get i ≤ k ∧ k < g.row.get (i + 1)) ↔ e.1 = i + 1
  ents : ∀ k e, L[k]? = some e → g.col.get k = e.2.1 - 1 ∧ g.val.get k = (e.2.2 : K)

/-- C104, partial: entries sorted by rows (`sorted = true`).  After empty lines and comments, the line of dimensions and the entries; `nnz` is the
number of entries announced, or `none` if the end is "0 0 0".  The matrix consists of the entries that are not zero in the field.  Missing:
entries that are zero in the field, if the number of entries is announced or asserts are compiled (`C104_zero_violated`); `sorted = false`
(`C104_unsorted_violated`). -/
theorem C104_sorted_partial (dbg : Bool) {m n : ℕ} {nnz : Option ℕ} {cs ls : List (List ℕ)} {es : List (ℕ × ℕ × ℤ)}
    (hcs : ∀ s ∈ cs, Skipped s) (hm : 0 < m ∧ m < 2 ^ 64) (hn : 0 < n ∧ n < 2 ^ 64) (hes : ∀ e ∈ es, Good m n e)
    (hsort : es.Pairwise fun a b => a.1 ≤ b.1) (hnnz : ∀ k, nnz = some k → k = es.length ∧ 0 < k ∧ k < 2 ^ 64)
    (hz : (∀ e ∈ es, (e.2.2 : K) ≠ 0) ∨ (nnz = none ∧ dbg = false)) (hend : nnz = none → ∃ l', ls = lineOf (0, 0, 0) :: l') :
    ∃ g : Csr K, readSms dbg (cs ++ headLine m n nnz :: (es.map lineOf ++ ls)) = .ok g ∧ IsCsr g m n (kept K es) := by
  obtain ⟨s, e1, h⟩ := entriesLoop_ok (K := K) dbg (m := m) (n := n) (nnz := nnz) (ls := ls) es []
    ⟨⟨m + 1, fun _ => 0⟩, ⟨nnz.getD 0, fun _ => 0⟩, ⟨nnz.getD 0, fun _ => (0 : K)⟩, 0⟩
    ⟨rfl, rfl, by simp [kept], by simp [kept], by simp [kept], by simp [kept], by simp [kept]⟩ hes (fun k hk => by
      obtain ⟨a, b, _⟩ := hnnz k hk
      refine ⟨by simp [a], ?_⟩
      rcases hz with hz | ⟨hz, _⟩
      · simpa using hz
      · rw [hz] at hk; cases hk) hend
  rw [List.nil_append] at h
  have hlen : nnz.getD s.dat.len = (kept K es).length := by
    rw [h.dlen]
    cases hk : nnz with
    | none => rfl
    | some k =>
      obtain ⟨a, b, _⟩ := hnnz k hk
      simp only [Option.getD_some]
      rcases hz with hz | ⟨hz, _⟩
      · rw [kept_self hz, a]
      · rw [hz] at hk; cases hk
  have hclen : nnz.getD (kept K es).length = (kept K es).length := by
    cases hk : nnz with
    | none => rfl
    | some k => rw [hk] at hlen; simpa using hlen
  obtain ⟨R, e2, r1, r2⟩ := prefixSums_ok (m := m) (row := s.row) (by rw [h.rlen]; omega)
  have hrow : ∀ j ≤ m, R.get j = (kept K es).countP fun e => decide (e.1 ≤ j) := by
    intro j hj
    rw [r2 j hj, ← sum_countP]
    exact Finset.sum_congr rfl fun t _ => h.row t
  have hsk : (kept K es).Pairwise fun a b => a.1 ≤ b.1 := hsort.filter _
  have hgood : ∀ e ∈ kept K es, Good m n e := fun e he => hes e (List.mem_of_mem_filter he)
  refine ⟨⟨m, n, (kept K es).length, R, ⟨(kept K es).length, s.colid.get⟩, ⟨(kept K es).length, s.dat.get⟩⟩, ?_, ?_⟩
  · unfold readSms
    rw [header_skip hcs, header_line hm.2]
    simp only [bind, Except.bind]
    rw [dims_line hm.2 hn.2 (fun k hk => (hnnz k hk).2.2)]
    simp only []
    rw [if_neg (by omega), if_neg (by intro hk; have := hnnz 0 hk; omega), e1]
    simp only []
    rw [hlen, if_neg]
    · simp only [copyN, h.clen, h.dlen, hclen, le_refl, if_true, e2]
      rfl
    · rintro ⟨h1, h2⟩
      rcases hz with hz | ⟨_, hz⟩
      · rw [kept_self hz, h.i] at h2; exact h2 rfl
      · rw [hz] at h1; cases h1
  · refine ⟨rfl, rfl, rfl, ⟨by rw [← h.rlen]; exact r1, rfl, rfl⟩, ?_, ?_, ?_, fun k e he => ⟨h.col k e he, h.dat k e he⟩⟩
    · show R.get 0 = 0
      rw [hrow 0 (by omega), List.countP_eq_zero]
      intro e he
      have := (hgood e he).1
      simp; omega
    · show R.get m = _
      rw [hrow m le_rfl, List.countP_eq_length]
      intro e he
      have := (hgood e he).2.1
      simpa using this
    · intro k e he i hi
      show (R.get i ≤ k ∧ k < R.get (i + 1)) ↔ _
      rw [hrow i (by omega), hrow (i + 1) (by omega), ← not_lt, countP_sorted i _ hsk k e he, countP_sorted (i + 1) _ hsk k e he]
      omega

/-- the files below: "2 2 M" or "2 2 k" and lines -/
def smsFile (nnz : Option ℕ) (m : ℕ) (es : List (ℕ × ℕ × ℤ)) : List (List ℕ) := headLine m 2 nnz :: es.map lineOf

/-- contents of an outcome -/
def csrRes {K : Type} (e : Except SpErr (Csr K)) : Except SpErr (ℕ × List ℕ × List ℕ × List K) := match e with
  | .ok g => .ok (g.m, g.row.toList, g.col.toList, g.val.toList)
  | .error e => .error e

/-- C104 fails for entries that are zero in the field, here 7 modulo 7: with asserts the program is ended; without asserts, if the number of entries is
announced, the remaining entries are not those the rows point to: row 2 contains nothing but the zero left in place of the first entry. -/
theorem C104_zero_violated :
    csrRes (readSms (K := ZMod 7) true (smsFile none 2 [(1, 1, 7), (2, 1, 3), (0, 0, 0)])) = .error .assert ∧
    csrRes (readSms (K := ZMod 7) false (smsFile (some 2) 2 [(1, 2, 7), (2, 1, 3)])) = .ok (2, [0, 0, 1], [0, 0], [0, 3]) := by
  constructor <;> rfl

/-- C104 fails for `sorted = false` with a file that ends with "0 0 0": the arrays have no entries and are written to. -/
theorem C104_unsorted_violated :
    csrRes (readSmsUnsorted (K := ZMod 7) false (smsFile none 2 [(2, 1, 3), (1, 1, 1), (0, 0, 0)])) = .error .oob := by rfl

/-- C104 fails for `sorted = false` if the last rows are empty: the matrix with rows 1 and 2 of 3 becomes a matrix with one row. -/
theorem C104_unsorted_rows_violated :
    csrRes (readSmsUnsorted (K := ZMod 7) true (smsFile (some 2) 3 [(2, 1, 3), (1, 1, 1)])) = .ok (1, [0, 1, 1, 0], [0, 0], [1, 3]) := by rfl

/-- C104 fails for a file with a row index beyond the dimension: the counters are accessed out of bounds. -/
theorem C104_row_index_violated :
    csrRes (readSms (K := ZMod 7) true (smsFile (some 1) 2 [(5, 1, 3)])) = .error .oob := by rfl

/-! ### Concrete cases -/

/-- the hypotheses are met by a `3 × 2` matrix with an empty row, after a comment -/
example : (∀ s ∈ [[37, 65], []], Skipped s) ∧ (∀ e ∈ [((1 : ℕ), (1 : ℕ), (2 : ℤ)), (1, 2, -3), (3, 1, 8)], Good 3 2 e) ∧
    [((1 : ℕ), (1 : ℕ), (2 : ℤ)), (1, 2, -3), (3, 1, 8)].Pairwise (fun a b => a.1 ≤ b.1) := by
  refine ⟨?_, ?_, by decide⟩
  · simp [Skipped]
  · simp [Good, Fits]

example : csrRes (readSms (K := ZMod 7) true ([[37, 65], []] ++ smsFile none 3 [(1, 1, 2), (1, 2, -3), (3, 1, 8), (0, 0, 0)])) =
    .ok (3, [0, 2, 2, 3], [0, 1, 0], [2, 4, 1]) := by rfl

example : csrRes (readSms (K := ZMod 7) true (smsFile (some 3) 3 [(1, 1, 2), (1, 2, -3), (3, 1, 8)])) =
    .ok (3, [0, 2, 2, 3], [0, 1, 0], [2, 4, 1]) := by rfl

end Verif.Props
