import Verif.Core.Mem

/-!
# Model of `paladin/blockcuts.inl`: 1-D and 2-D loop splitting

Integers are `size_t` in the code and ℕ here.  Every subtraction in the modelled lines has the form
`n - b*(n/b)`, which cannot wrap; every division by a run-time value goes through `udiv`, which
faults on zero.
-/

namespace Verif.BlockCuts
open Verif

/-- `size_t` division; zero divisor is undefined behaviour. -/
def udiv (a b : ℕ) : Except Fault ℕ := if b = 0 then .error .divZero else .ok (a / b)

/-- `StrategyParameter` (blockcuts.inl:45-54); only the three parameters used by the splitters. -/
inductive Param | Fixed | Threads | Grain
  deriving DecidableEq, Repr

/-- `CuttingStrategy` (blockcuts.inl:37-43); `Recursive` has no splitter. -/
inductive Cut | Single | Row | Column | Block
  deriving DecidableEq, Repr

/-- `__FFLASFFPACK_MINBLOCKCUTS` (blockcuts.inl:34). -/
def minBlockCuts : ℕ := 256

/-! ## `ForStrategy1D` -/

/-- Fields of `ForStrategy1D` (blockcuts.inl:374-379). -/
structure FS1D where
  ibeg : ℕ
  iend : ℕ
  current : ℕ
  firstBlockSize : ℕ
  lastBlockSize : ℕ
  changeBS : ℕ
  numBlock : ℕ
  deriving Repr

/-- `ForStrategy1D::build` (blockcuts.inl:335-352), `t` is `H.numthreads()`.
The iteration fields are uninitialised in the code; we set them to 0 and `initialize` always
overwrites them. -/
def FS1D.build (p : Param) (n t : ℕ) : Except Fault FS1D := do
  let numBlock ← match p with
    | .Threads => pure (max t 1)
    | .Grain => do let q ← udiv n t; pure (max q 1)
    | .Fixed => pure (max (n / minBlockCuts) 1)
  let first ← udiv n numBlock
  let (first, numBlock) := if first < 1 then (1, n) else (first, numBlock)
  let change := n - numBlock * first
  let last := first
  let first := if change ≠ 0 then first + 1 else first
  pure { ibeg := 0, iend := 0, current := 0, firstBlockSize := first, lastBlockSize := last,
         changeBS := change, numBlock := numBlock }

/-- `ForStrategy1D::initialize` (blockcuts.inl:354-357). -/
def FS1D.initialize (s : FS1D) : FS1D :=
  { s with ibeg := 0, iend := s.firstBlockSize, current := 0 }

/-- `ForStrategy1D::isTerminated` (blockcuts.inl:358). -/
def FS1D.isTerminated (s : FS1D) : Bool := s.current == s.numBlock

/-- `ForStrategy1D::operator++` (blockcuts.inl:367-371). -/
def FS1D.next (s : FS1D) : FS1D :=
  let current := s.current + 1
  { s with
    ibeg := s.iend
    current := current
    iend := s.iend + (if current < s.changeBS then s.firstBlockSize else s.lastBlockSize) }

/-- The loop `for (it.initialize(); !it.isTerminated(); ++it) body(it.begin(), it.end())`
(parallel.h, `FORBLOCK1D`): the list of `(begin, end)` pairs in iteration order.
`none` means that the loop is still running after `fuel` iterations. -/
def FS1D.run : ℕ → FS1D → Option (List (ℕ × ℕ))
  | 0, s => if s.isTerminated then some [] else none
  | fuel + 1, s =>
    if s.isTerminated then some []
    else (FS1D.run fuel s.next).map (fun l => (s.ibeg, s.iend) :: l)

/-! ## `BlockCuts` and `ForStrategy2D` -/

/-- Table `maxtc` (blockcuts.inl:219). -/
def maxtcTable : List ℕ := [1,2,3,2,5,3,7,4,3,5,11,4,13,7,5,4,17,6,19,5,7,11,23,6,5,13,9,7,29,6,31,8,
  11,17,7,6,37,19,13,8,41,7,43,11,9,23,47,8,7,10,17,13,53,9,11,8,19,29,59,10,61,31,9,8]

/-- Table `maxtr` (blockcuts.inl:220). -/
def maxtrTable : List ℕ := [1,1,1,2,1,2,1,2,3,2,1,3,1,2,3,4,1,3,1,4,3,2,1,4,5,2,3,4,1,5,1,4,3,2,5,6,
  1,2,3,5,1,6,1,4,5,2,1,6,7,5,3,4,1,6,5,7,3,2,1,6,1,2,7,8]

/-- Array read with bounds check (out of bounds is undefined behaviour). -/
def rd (l : List ℕ) (i : ℕ) : Except Fault ℕ :=
  match l[i]? with
  | some x => .ok x
  | none => .error .oob

/-- Inner loop of blockcuts.inl:230, `for( ; newpr < numthreads; ++j, newpr+=i ) {}`:
starting from `j` with `newpr = i*j`, first `j` with `numthreads ≤ i*j`.  `i ≥ 1` here, so at most
`numthreads` iterations; `fuel = numthreads` is never exhausted. -/
def growJ (t i : ℕ) : ℕ → ℕ → ℕ
  | 0, j => j
  | fuel + 1, j => if i * j < t then growJ t i fuel (j + 1) else j

/-- Outer loop of blockcuts.inl:227-236, `for(size_t i=maxt; i>=1; --i)`; returns `(maxtr,maxtc)`. -/
def searchGrid (t maxt : ℕ) : ℕ → ℕ × ℕ
  | 0 => (maxt, maxt)
  | i + 1 =>
    let j := growJ t (i + 1) t maxt
    if (i + 1) * j = t then (i + 1, j) else searchGrid t maxt i

/-- `BlockCuts<Cut,Param>(RBLOCKSIZE, CBLOCKSIZE, m, n, numthreads)`, all ten specialisations
(blockcuts.inl:124-240).  `sqrt` of a double is modelled by the integer square root (exact below
2^52).  `numthreads-1` with `numthreads = 0` wraps to 2^64-1 in the code and reads outside the table:
the fault `oob`.  The assertion `numthreads==1` of `Single` is compiled out in release mode and ignored;
the specialisations `Single/Fixed` and `Single/Grain` do not exist in the code (link error) and are
mapped to the same function. -/
def blockSizes (c : Cut) (p : Param) (m n t : ℕ) : Except Fault (ℕ × ℕ) :=
  match c, p with
  | .Single, _ => .ok (max m 1, max n 1)
  | .Row, .Fixed => .ok (max (min m minBlockCuts) 1, max n 1)
  | .Row, .Grain => .ok (max (min m t) 1, max n 1)
  | .Block, .Grain => .ok (max (min m t) 1, max (min n t) 1)
  | .Column, .Fixed => .ok (max m 1, max (min n minBlockCuts) 1)
  | .Column, .Grain => .ok (max m 1, max (min n t) 1)
  | .Block, .Fixed => .ok (max (min m minBlockCuts) 1, max (min n minBlockCuts) 1)
  | .Row, .Threads => do let q ← udiv m t; pure (max q 1, max n 1)
  | .Column, .Threads => do let q ← udiv n t; pure (max m 1, max q 1)
  | .Block, .Threads =>
    if t < 65 then
      if t = 0 then .error .oob
      else do
        let tr ← rd maxtrTable (t - 1)
        let tc ← rd maxtcTable (t - 1)
        let r ← udiv m tr
        let c ← udiv n tc
        pure (max r 1, max c 1)
    else do
      let g := searchGrid t (Nat.sqrt t) (Nat.sqrt t)
      let r ← udiv m g.1
      let c ← udiv n g.2
      pure (max r 1, max c 1)

/-- Fields of `ForStrategy2D` (blockcuts.inl:453-460). -/
structure FS2D where
  ibeg : ℕ
  iend : ℕ
  jbeg : ℕ
  jend : ℕ
  rowBlockSize : ℕ
  colBlockSize : ℕ
  current : ℕ
  lastRBS : ℕ
  lastCBS : ℕ
  changeRBS : ℕ
  changeCBS : ℕ
  numRowBlock : ℕ
  numColBlock : ℕ
  blocks : ℕ
  deriving Repr

/-- The eleven-argument `BlockCuts` (blockcuts.inl:277-297) and the constructor of `ForStrategy2D`
(blockcuts.inl:385-396). -/
def FS2D.build (c : Cut) (p : Param) (m n t : ℕ) : Except Fault FS2D := do
  let (rbs, cbs) ← blockSizes c p m n t
  let nr ← udiv m rbs
  let nc ← udiv n cbs
  let changeR := m - rbs * nr
  let changeC := n - cbs * nc
  pure { ibeg := 0, iend := 0, jbeg := 0, jend := 0, current := 0
         rowBlockSize := if changeR ≠ 0 then rbs + 1 else rbs
         colBlockSize := if changeC ≠ 0 then cbs + 1 else cbs
         lastRBS := rbs, lastCBS := cbs
         changeRBS := changeR, changeCBS := changeC
         numRowBlock := nr, numColBlock := nc, blocks := nr * nc }

/-- `ForStrategy2D::initialize` (blockcuts.inl:399-403). -/
def FS2D.initialize (s : FS2D) : FS2D :=
  { s with ibeg := 0, iend := s.rowBlockSize, jbeg := 0, jend := s.colBlockSize, current := 0 }

/-- `ForStrategy2D::isTerminated` (blockcuts.inl:404). -/
def FS2D.isTerminated (s : FS2D) : Bool := s.current == s.blocks

/-- `ForStrategy2D::operator++` (blockcuts.inl:412-426).  It is only called when the loop is not
terminated, hence `numColBlock ≠ 0`; the division is nevertheless checked. -/
def FS2D.next (s : FS2D) : Except Fault FS2D := do
  let current := s.current + 1
  let icurr ← udiv current s.numColBlock
  let jcurr := current % s.numColBlock
  if jcurr ≠ 0 then
    pure { s with
      current := current
      jbeg := s.jend
      jend := s.jend + (if jcurr < s.changeCBS then s.colBlockSize else s.lastCBS) }
  else
    pure { s with
      current := current
      ibeg := s.iend
      iend := s.iend + (if icurr < s.changeRBS then s.rowBlockSize else s.lastRBS)
      jbeg := 0
      jend := s.colBlockSize }

/-- A tile `(ibegin, iend, jbegin, jend)`. -/
structure Tile where
  i0 : ℕ
  i1 : ℕ
  j0 : ℕ
  j1 : ℕ
  deriving Repr, DecidableEq

/-- The loop of `FORBLOCK2D` (parallel.h) over a `ForStrategy2D`: the tiles in iteration order.
`ok none` means still running after `fuel` iterations. -/
def FS2D.run : ℕ → FS2D → Except Fault (Option (List Tile))
  | 0, s => if s.isTerminated then .ok (some []) else .ok none
  | fuel + 1, s =>
    if s.isTerminated then .ok (some [])
    else do
      let s' ← s.next
      let r ← FS2D.run fuel s'
      pure (r.map (fun l => ⟨s.ibeg, s.iend, s.jbeg, s.jend⟩ :: l))

end Verif.BlockCuts
