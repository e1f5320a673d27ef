import Verif.Core.Arr
import Mathlib.Algebra.Order.Ring.Int
import Mathlib.Data.Nat.Sqrt
import Mathlib.Algebra.Ring.Defs

/-!
# Statistics of a sparse matrix

`getStat` and `computeDeviation`, /repo/fflas-ffpack/fflas/fflas_sparse/utils.h:39-124.  The matrix is given by compressed rows: `row` has `rowdim + 1`
entries (this is what `readSmsFormat` of C104 gives and what the differences at :103-106 use).

Simplifications: the entries of `rows` and `cols` (`int64_t`) and the counters (`uint64_t`) do not overflow; `std::sqrt` followed by the conversion to
`uint64_t` is the integer square root, which is right below `2^52`.  The sum `std::accumulate(…, 0)` is of type `int` and is modelled with its 32 bits.
-/

namespace Verif.SpStat

open Verif

variable {K : Type}

/-- `StatsMatrix`, utils.h:39-69: the members which are set by `getStat` -/
structure Stats where
  nOnes : ℕ
  nMOnes : ℕ
  nOthers : ℕ
  minRow : ℤ
  maxRow : ℤ
  averageRow : ℤ
  deviationRow : ℕ
  minCol : ℤ
  maxCol : ℤ
  averageCol : ℤ
  deviationCol : ℕ
  nDenseRows : ℕ
  nDenseCols : ℕ
  nEmptyRows : ℕ
  nEmptyCols : ℕ
  deriving DecidableEq, Repr

/-- the elements of a `std::vector` -/
def elems (v : Arr ℤ) : List ℤ := (List.range v.len).map v.get

/-- `std::accumulate(begin, end, 0)`, utils.h:74, 115, 116: every partial sum is converted to `int` -/
def accInt (l : List ℤ) : ℤ := l.foldl (fun s x => Int.bmod (s + x) (2 ^ 32)) 0

/-- `*std::minmax_element(begin, end).first`, :109-113; the end of an empty range is not dereferenced -/
def minOf : List ℤ → Except Fault ℤ
  | [] => .error .oob
  | x :: l => .ok (l.foldl min x)

/-- `*std::minmax_element(begin, end).second`, :112, 114 -/
def maxOf : List ℤ → Except Fault ℤ
  | [] => .error .oob
  | x :: l => .ok (l.foldl max x)

/-- an `int` divided by a `uint64_t`, :115-116: the sum is converted to `uint64_t` -/
def divU (x : ℤ) (n : ℕ) : Except Fault ℤ := if n = 0 then .error .divZero else .ok (x % 2 ^ 64 / n)

/-- `computeDeviation`, :71-80 -/
def computeDeviation (l : List ℤ) : Except Fault ℕ :=
  if l.length = 0 then .error .divZero
  else
    let average := (accInt l).tdiv l.length
    let sum := l.foldl (fun s x => s + (x - average) * (x - average)) 0
    .ok (Nat.sqrt (sum.tdiv l.length).toNat)

/-- the loop over the entries, :93-102 -/
def entryLoop [One K] [Neg K] [DecidableEq K] (col : Arr ℕ) (val : Arr K) (nnz : ℕ) (s : Arr ℤ × ℕ × ℕ × ℕ) : Except Fault (Arr ℤ × ℕ × ℕ × ℕ) :=
  iter nnz (fun i s => do
    let c ← col.rd i
    let n ← s.1.rd c
    let cols ← s.1.wr c (n + 1)
    let x ← val.rd i
    if x = 1 then pure (cols, s.2.1 + 1, s.2.2.1, s.2.2.2)
    else if x = -1 then pure (cols, s.2.1, s.2.2.1 + 1, s.2.2.2)
    else pure (cols, s.2.1, s.2.2.1, s.2.2.2 + 1)) s

/-- the loop over the rows, :103-106 -/
def rowLoop (row : Arr ℕ) (rowdim : ℕ) (rows : Arr ℤ) : Except Fault (Arr ℤ) := do
  let r0 ← row.rd 0
  let rows ← rows.wr 0 r0
  iter rowdim (fun i rows => do
    let a ← row.rd (i + 1)
    let b ← row.rd i
    rows.wr (i + 1) ((a : ℤ) - b)) rows

/-- the elements from position `b` to `e` which satisfy the condition: `std::count`, `std::count_if` -/
def countIf (P : ℤ → Bool) (l : List ℤ) (b e : ℕ) : ℕ := (((l.take e).drop b).filter P).length

/-- `getStat`, :82-124.  The dense rows and columns are counted from `begin()` to `begin()`, :119-122. -/
def getStat [One K] [Neg K] [DecidableEq K] (row col : Arr ℕ) (val : Arr K) (rowdim coldim nnz : ℕ) : Except Fault Stats := do
  let (cols, nOnes, nMOnes, nOthers) ← entryLoop col val nnz (⟨coldim, fun _ => 0⟩, 0, 0, 0)
  let rows ← rowLoop row rowdim ⟨rowdim + 1, fun _ => 0⟩
  let minRow ← minOf (elems rows)
  let maxRow ← maxOf (elems rows)
  let minCol ← minOf (elems cols)
  let maxCol ← maxOf (elems cols)
  let averageRow ← divU (accInt (elems rows)) rowdim
  let averageCol ← divU (accInt (elems cols)) coldim
  let deviationRow ← computeDeviation (elems rows)
  let deviationCol ← computeDeviation (elems cols)
  pure ⟨nOnes, nMOnes, nOthers, minRow, maxRow, averageRow, deviationRow, minCol, maxCol, averageCol, deviationCol,
    countIf (fun x => decide ((rowdim : ℤ) ≤ 2 * x)) (elems rows) 0 0, countIf (fun x => decide ((coldim : ℤ) ≤ 2 * x)) (elems cols) 0 0,
    countIf (fun x => x == 0) (elems rows) 0 rows.len, countIf (fun x => x == 0) (elems cols) 0 cols.len⟩

end Verif.SpStat
