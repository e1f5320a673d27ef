import Verif.Model.MatIO

/-!
# Reading sparse matrices

`readSmsFormat`, /repo/fflas-ffpack/fflas/fflas_sparse/read_sparse.h:70-212.  A file is the list of its lines (each ended by a newline; what follows the
last newline is never accepted as an entry, :133).  Widths of `index_t` and `uint64_t` are not modelled.
-/

namespace Verif.ReadSparse

open Verif Verif.MatIO

variable {K : Type}

/-- outcomes other than success -/
inductive SpErr where
  /-- the program is ended by `exit` -/
  | exit
  /-- no line with the dimensions: `std::getline` gives empty lines for ever -/
  | noHeader
  /-- an `assert` fails -/
  | assert
  /-- access outside of an array -/
  | oob
  deriving DecidableEq, Repr

/-- `lign >> d` for an `int64_t` -/
def readInt (l : List ℕ) : Option (ℤ × List ℕ) :=
  let l1 := l.dropWhile isWs
  match l1 with
  | 45 :: l2 => if l2.head?.any isDig then (readNat l2).map fun r => (-(r.1 : ℤ), r.2) else none
  | _ => (readNat l1).map fun r => ((r.1 : ℤ), r.2)

/-- `lign >> l >> c >> d`, read_sparse.h:139 -/
def readTriple (s : List ℕ) : Option (ℕ × ℕ × ℤ) :=
  match readNat s with
  | none => none
  | some (l, s) => match readNat s with
    | none => none
    | some (c, s) => match readInt s with
      | none => none
      | some (d, _) => some (l, c, d)

/-- the first line that is neither empty nor a comment, read_sparse.h:78-94; a line of white space only is taken too -/
def header : List (List ℕ) → Except SpErr (List ℕ × List (List ℕ))
  | [] => .error .noHeader
  | s :: ls =>
    if s = [] then header ls
    else match readWord s with
      | none => .ok (s, ls)
      | some (w, _) => if w.head? = some 37 then header ls else .ok (s, ls)

/-- the dimensions, and the number of entries if the third word is not "M", read_sparse.h:95-110; a word that is not a number counts
as zero (`strtoull`) -/
def dims (s : List ℕ) : Option (ℕ × ℕ × Option ℕ) :=
  match readNat s with
  | none => none
  | some (m, s) => match readNat s with
    | none => none
    | some (n, s) => match readWord s with
      | none => none
      | some (w, _) => some (m, n, if w = [77] then none else some ((readNat w).elim 0 Prod.fst))

/-- state of the loop over the entries: counters of the rows, columns and values (`colid`, `dat`), number of entries read -/
structure St (K : Type) where
  row : Arr ℕ
  colid : Arr ℕ
  dat : Arr K
  i : ℕ

/-- `a.push_back(v)` -/
def push {α : Type} (a : Arr α) (v : α) : Arr α := ⟨a.len + 1, Function.update a.get a.len v⟩

/-- checked access -/
def acc {α : Type} (e : Except Fault α) : Except SpErr α := match e with
  | .error _ => .error .oob
  | .ok a => .ok a

/-- one entry, for `sorted`, read_sparse.h:151-164; `sms`: the number of entries is not known -/
def entry [Ring K] [DecidableEq K] (sms : Bool) (l c : ℕ) (d : ℤ) (s : St K) : Except SpErr (St K) := do
  let v : K := d
  if v ≠ 0 then do
    let x ← acc (s.row.rd l)
    let row ← acc (s.row.wr l (x + 1))
    if sms then pure ⟨row, push s.colid (c - 1), push s.dat v, s.i + 1⟩
    else do
      let colid ← acc (s.colid.wr s.i (c - 1))
      let dat ← acc (s.dat.wr s.i v)
      pure ⟨row, colid, dat, s.i + 1⟩
  else pure { s with i := s.i + 1 }

/-- the loop over the entries, read_sparse.h:126-171; `nnz` is `none` for the format with final line "0 0 0"; `dbg`: asserts are checked -/
def entriesLoop [Ring K] [DecidableEq K] (dbg : Bool) (nnz : Option ℕ) : List (List ℕ) → St K → Except SpErr (St K)
  | [], s => if nnz = some s.i then .ok s else .error .exit
  | line :: ls, s =>
    if nnz = some s.i then .ok s
    else if line = [] then entriesLoop dbg nnz ls s
    else match readTriple line with
      | none => .error .exit
      | some (l, c, d) =>
        if nnz = none ∧ l = 0 ∧ c = 0 ∧ d = 0 then .ok s
        else if dbg ∧ (l = 0 ∨ c = 0) then .error .assert
        else do
          let s ← entry nnz.isNone l c d s
          entriesLoop dbg nnz ls s

/-- what `readSmsFormat` returns -/
structure Csr (K : Type) where
  m : ℕ
  n : ℕ
  nnz : ℕ
  row : Arr ℕ
  col : Arr ℕ
  val : Arr K

/-- the sums of the counters, read_sparse.h:209-211 -/
def prefixSums (m : ℕ) (row : Arr ℕ) : Except SpErr (Arr ℕ) :=
  iter m (fun j row => do
    let x ← acc (row.rd (j + 1))
    let y ← acc (row.rd j)
    acc (row.wr (j + 1) (x + y))) row

/-- copies of the `nnz` columns or values, read_sparse.h:177-178, :201-206 -/
def copyN {α : Type} (k : ℕ) (a : Arr α) : Except SpErr (Arr α) := if k ≤ a.len then .ok ⟨k, a.get⟩ else .error .oob

/-- `readSmsFormat` with `sorted = true` (the default) -/
def readSms [Ring K] [DecidableEq K] (dbg : Bool) (file : List (List ℕ)) : Except SpErr (Csr K) := do
  let (h, ls) ← header file
  match dims h with
  | none => .error .exit
  | some (m, n, nnz) =>
    if m = 0 ∨ n = 0 then .error .exit
    else if nnz = some 0 then .error .exit
    else do
      let k := nnz.getD 0
      let s ← entriesLoop dbg nnz ls ⟨⟨m + 1, fun _ => 0⟩, ⟨k, fun _ => 0⟩, ⟨k, fun _ => (0 : K)⟩, 0⟩
      let nz := nnz.getD s.dat.len
      if dbg ∧ s.i ≠ nz then .error .assert
      else do
        let col ← copyN nz s.colid
        let val ← copyN nz s.dat
        let row ← prefixSums m s.row
        pure ⟨m, n, nz, row, col, val⟩

/-- an entry kept by `sorted = false` -/
structure Ent (K : Type) where
  v : K
  r : ℕ
  c : ℕ

/-- the loop over the entries for `sorted = false`, read_sparse.h:126-171: the entries go to `data`, not to `dat` -/
def unsortedLoop [Ring K] [DecidableEq K] (dbg : Bool) (nnz : Option ℕ) : List (List ℕ) → ℕ → List (Ent K) → Except SpErr (ℕ × List (Ent K))
  | [], i, l => if nnz = some i then .ok (i, l) else .error .exit
  | line :: ls, i, data =>
    if nnz = some i then .ok (i, data)
    else if line = [] then unsortedLoop dbg nnz ls i data
    else match readTriple line with
      | none => .error .exit
      | some (l, c, d) =>
        if nnz = none ∧ l = 0 ∧ c = 0 ∧ d = 0 then .ok (i, data)
        else if dbg ∧ (l = 0 ∨ c = 0) then .error .assert
        else unsortedLoop dbg nnz ls (i + 1) (if (d : K) ≠ 0 then data ++ [⟨d, l - 1, c - 1⟩] else data)

/-- insertion for the order (row, column), read_sparse.h:183-185 -/
def insertEnt (a : Ent K) : List (Ent K) → List (Ent K)
  | [] => [a]
  | b :: l => if a.r < b.r ∨ (a.r = b.r ∧ a.c < b.c) then a :: b :: l else b :: insertEnt a l

/-- `std::sort` -/
def sortEnt (l : List (Ent K)) : List (Ent K) := l.foldl (fun s a => insertEnt a s) []

/-- end of `readSmsFormat` with `sorted = false`, read_sparse.h:174-211: arrays of `nnz` entries are filled with all of `data`; if the last row
is not the row `rowdim`, `rowdim` is changed to the index of the last row -/
def unsortedEnd (m n nnz : ℕ) (data : List (Ent K)) : Except SpErr (Csr K) := do
  let data := sortEnt data
  match data.getLast? with
  | none => .error .oob
  | some e =>
    let m' := if m ≠ e.r + 1 then e.r else m
    if nnz < data.length then .error .oob
    else do
      let row ← data.foldlM (fun row e => do
        let x ← acc (row.rd (e.r + 1))
        acc (row.wr (e.r + 1) (x + 1))) (⟨m + 1, fun _ => 0⟩ : Arr ℕ)
      let row ← prefixSums m' row
      pure ⟨m', n, nnz, row, ⟨nnz, fun j => (data.getD j e).c⟩, ⟨nnz, fun j => (data.getD j e).v⟩⟩

/-- `readSmsFormat` with `sorted = false` -/
def readSmsUnsorted [Ring K] [DecidableEq K] (dbg : Bool) (file : List (List ℕ)) : Except SpErr (Csr K) := do
  let (h, ls) ← header file
  match dims h with
  | none => .error .exit
  | some (m, n, nnz) =>
    if m = 0 ∨ n = 0 then .error .exit
    else if nnz = some 0 then .error .exit
    else do
      let (i, data) ← unsortedLoop dbg nnz ls 0 ([] : List (Ent K))
      let nz := nnz.getD 0
      if dbg ∧ (i ≠ nz ∨ nz ≠ data.length) then .error .assert
      else unsortedEnd m n nz data

end Verif.ReadSparse
