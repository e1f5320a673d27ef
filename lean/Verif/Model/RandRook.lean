import Verif.Core.Arr

/-!
# Random index subsets, permutations and rank profile matrices

/repo/fflas-ffpack/utils/fflas_randommatrix.h.  The values of `rand ()` are a function `d : ℕ → ℕ`: the `c`-th call returns `d c`.  Every
theorem is about all `d`, so about every possible run.
-/

namespace Verif.FF

/-- `RandInt`, fflas_randommatrix.h:183-189, with the value `x` of `rand ()`.  The remainder modulo `b - a` is undefined for `b = a`; for
`b < a` the unsigned difference wraps. -/
def randInt (a b x : ℕ) : Except Fault ℕ :=
  if b < a then .error .underflow else if b = a then .error .divZero else .ok (a + x % (b - a))

/-- `RandomIndexSubset`, fflas_randommatrix.h:301-312: the draw number `i` is `d i`; `junk` is the content of the new array `Q`. -/
def randomIndexSubset (d junk : ℕ → ℕ) (N R : ℕ) (P : Arr ℕ) : Except Fault (Arr ℕ) := do
  let Q ← iter N (fun i (Q : Arr ℕ) => Q.wr i i) (Arr.mk' N junk)
  let s ← iter R (fun i (s : Arr ℕ × Arr ℕ) => do
    let j ← randInt i N (d i)
    let x ← s.2.rd j
    let P ← s.1.wr i x
    let y ← s.2.rd i
    let Q ← s.2.wr j y
    pure (P, Q)) (P, Q)
  pure s.1

/-- `RandomPermutation`, fflas_randommatrix.h:318-322 -/
def randomPermutation (d : ℕ → ℕ) (N : ℕ) (P : Arr ℕ) : Except Fault (Arr ℕ) :=
  iter N (fun i (P : Arr ℕ) => do
    let x ← randInt 0 (N - i) (d i)
    P.wr i (i + x)) P

/-- `RandomRankProfileMatrix`, fflas_randommatrix.h:330-333 -/
def randomRankProfileMatrix (d junk junk' : ℕ → ℕ) (M N R : ℕ) (rows cols : Arr ℕ) : Except Fault (Arr ℕ × Arr ℕ) := do
  let rows ← randomIndexSubset d junk M R rows
  let cols ← randomIndexSubset (fun i => d (R + i)) junk' N R cols
  pure (rows, cols)

/-- the `do … while` of `swapval`, fflas_randommatrix.h:336-342: reads upwards from `i` until `val` is met; the reads are not bounded by `N`,
leaving the array is the fault `oob`, which comes before the fuel is used up. -/
def swapFind (P : Arr ℕ) (val : ℕ) : ℕ → ℕ → Except Fault ℕ
  | 0, _ => .error .fuel
  | fuel + 1, i => do
    let x ← P.rd i
    if x = val then pure i else swapFind P val fuel (i + 1)

/-- `swapval`, fflas_randommatrix.h:335-344 -/
def swapval (k : ℕ) (P : Arr ℕ) (val : ℕ) : Except Fault (Arr ℕ) := do
  let found ← swapFind P val (P.len + 1) k
  let x ← P.rd k
  P.wr found x

/-- the `do … while` loop of `RandomSymmetricRankProfileMatrix`, fflas_randommatrix.h:377-384: `l`, the value `co` and the last `m` with
`rr[m] == co`.  The loop is not bounded: it may use up any amount of fuel.  Also returns the number of calls of `rand ()` so far. -/
def diagPick (d : ℕ → ℕ) (N k : ℕ) (rr cc : Arr ℕ) : ℕ → ℕ → Except Fault (ℕ × ℕ × ℕ × ℕ)
  | 0, _ => .error .fuel
  | fuel + 1, c => do
    let l ← randInt k N (d c)
    let co ← cc.rd l
    let found ← iter (N - k) (fun t (f : Option ℕ) => do
      let x ← rr.rd (k + t)
      pure (if x = co then some (k + t) else f)) none
    match found with
    | some m => pure (l, co, m, c + 1)
    | none => diagPick d N k rr cc fuel (c + 1)

/-- the variables of `RandomSymmetricRankProfileMatrix`; `c` counts the calls of `rand ()` -/
structure SymSt where
  rr : Arr ℕ
  cc : Arr ℕ
  rows : Arr ℕ
  cols : Arr ℕ
  c : ℕ

/-- one iteration of the main loop, fflas_randommatrix.h:356-391 -/
def symStep (d : ℕ → ℕ) (N R fuel k : ℕ) (s : SymSt) : Except Fault SymSt := do
  let i ← randInt k N (d s.c)
  let j ← randInt k N (d (s.c + 1))
  let x ← s.cc.rd j
  let cols ← s.cols.wr k x
  let y ← s.cc.rd k
  let cc ← s.cc.wr j y
  let u ← s.rr.rd i
  let rows ← s.rows.wr k u
  let v ← s.rr.rd k
  let rr ← s.rr.wr i v
  let rk ← rows.rd k
  let ck ← cols.rd k
  if rk ≠ ck ∧ k + 1 < R then do
    let rows ← rows.wr (k + 1) ck
    let cols ← cols.wr (k + 1) rk
    let rr ← swapval (k + 1) rr ck
    let cc ← swapval (k + 1) cc rk
    pure ⟨rr, cc, rows, cols, s.c + 2⟩
  else do
    let k' := if k + 1 < R then k + 1 else k
    let p ← diagPick d N k' rr cc fuel (s.c + 2)
    let cols ← cols.wr k' p.2.1
    let y ← cc.rd k'
    let cc ← cc.wr p.1 y
    let rows ← rows.wr k' p.2.1
    let v ← rr.rd k'
    let rr ← rr.wr p.2.2.1 v
    pure ⟨rr, cc, rows, cols, p.2.2.2⟩

/-- `RandomSymmetricRankProfileMatrix`, fflas_randommatrix.h:350-393.  The loop runs over `k = 0, 2, …`: the `k++` of line 374 is undone by the
`k--` of line 389; at `k = R - 1`, where only the `k--` happens, `k += 2` then makes `k = R` and the loop ends as well. -/
def randomSymmetricRankProfileMatrix (d junk junk' : ℕ → ℕ) (fuel N R : ℕ) (rows cols : Arr ℕ) : Except Fault (Arr ℕ × Arr ℕ) := do
  let rr ← iter N (fun i (Q : Arr ℕ) => Q.wr i i) (Arr.mk' N junk)
  let cc ← iter N (fun i (Q : Arr ℕ) => Q.wr i i) (Arr.mk' N junk')
  let s ← iter ((R + 1) / 2) (fun t s => symStep d N R fuel (2 * t) s) ⟨rr, cc, rows, cols, 0⟩
  pure (s.rows, s.cols)

/-- `compute_valid_moves`, one direction, fflas_randommatrix.h:479-483 and :488-492: the available positions from `lo` to `hi - 1`, in
increasing order. -/
def freeMoves (lo hi : ℕ) (avail : Arr Bool) : Except Fault (List ℕ) :=
  iter (hi - lo) (fun t (l : List ℕ) => do
    let a ← avail.rd (lo + t)
    pure (if a then l ++ [lo + t] else l)) []

/-- the search upwards for a full block, fflas_randommatrix.h:594-601: the first `k' ≥ k` with `T[k'] == t`, among `cnt` of them -/
def fullUp (T : Arr ℤ) (t : ℤ) : ℕ → ℕ → Except Fault (Option ℕ)
  | 0, _ => pure none
  | cnt + 1, k => do
    let x ← T.rd k
    if x = t then pure (some k) else fullUp T t cnt (k + 1)

/-- the search downwards, fflas_randommatrix.h:602-609: the last `k' < k` with `T[k'] == t` -/
def fullDown (T : Arr ℤ) (t : ℤ) : ℕ → Except Fault (Option ℕ)
  | 0 => pure none
  | k + 1 => do
    let x ← T.rd k
    if x = t then pure (some k) else fullDown T t k

/-- `T[k] += x` for `lo ≤ k < lo + cnt` -/
def addRange (A : Arr ℤ) (lo cnt : ℕ) (x : ℤ) : Except Fault (Arr ℤ) :=
  iter cnt (fun i (A : Arr ℤ) => do
    let v ← A.rd (lo + i)
    A.wr (lo + i) (v + x)) A

/-- the variables of `RandomLTQSRankProfileMatrix`.  `after`, `before`, `afterN`, `beforeN` are the arrays `nb_pivot_after_index`,
`nb_pivot_before_index` and those with suffix `_not_moved`.  All counters are integers: the code stores them as `size_t` and hands them to
`valuate` as `int`, so a counter that was decremented below zero is read as a negative number as long as the sizes are below `2 ^ 31`. -/
structure LtqsSt where
  rows : Arr ℕ
  cols : Arr ℕ
  H : Arr ℤ
  T : Arr ℤ
  before : Arr ℤ
  after : Arr ℤ
  beforeN : Arr ℤ
  afterN : Arr ℤ
  availR : Arr Bool
  availC : Arr Bool
  moves : List ℕ
  startUp : ℕ
  h : ℕ
  prevH : Option ℕ
  c : ℕ

/-- the initialisation, fflas_randommatrix.h:534-578; `n - 1` is unsigned.  `cols[i] = n - rows[i] - 2`. -/
def ltqsInit (d junk : ℕ → ℕ) (jz : ℕ → ℤ) (n r : ℕ) (rows cols : Arr ℕ) : Except Fault LtqsSt := do
  if n = 0 then Except.error .underflow
  let zero ← iter (n - 1) (fun i (A : Arr ℤ) => A.wr i 0) (Arr.mk' (n - 1) jz)
  let rows ← randomIndexSubset d junk (n - 1) r rows
  let s ← iter r (fun i (s : Arr ℕ × Arr ℤ × Arr Bool × Arr Bool) => do
    let x ← rows.rd i
    let cols ← s.1.wr i (n - x - 2)
    let T ← s.2.1.wr x 1
    let aR ← s.2.2.1.wr x false
    let aC ← s.2.2.2.wr (n - x - 2) false
    pure (cols, T, aR, aC)) (cols, zero, Arr.mk' (n - 1) (fun _ => true), Arr.mk' (n - 1) (fun _ => true))
  let H := s.2.1
  let h0 ← H.rd 0
  let b ← (Arr.mk' (n - 1) jz).wr 0 h0
  let a ← (Arr.mk' (n - 1) jz).wr 0 (r : ℤ)
  let x ← iter (n - 2) (fun i (x : Arr ℤ × Arr ℤ) => do
    let p ← x.1.rd i
    let h ← H.rd (i + 1)
    let b ← x.1.wr (i + 1) (p + h)
    let a ← x.2.wr (i + 1) (r - p)
    pure (b, a)) (b, a)
  pure ⟨rows, s.1, H, H, x.1, x.2, x.1, x.2, s.2.2.1, s.2.2.2, [], 0, 0, none, r⟩

/-- the test of the valuations, fflas_randommatrix.h:496-499 and :655-661: the `int` result of `valuate` is converted to `size_t` before it is
compared with `t`, so a negative one is large. -/
def ltqsAccept (n t : ℕ) (s : LtqsSt) : Except Fault Bool :=
  iter (n - 1) (fun k (acc : Bool) => if acc then pure true else do
    let T ← s.T.rd k
    let b ← s.before.rd k
    let a ← s.after.rd k
    let bN ← s.beforeN.rd k
    let aN ← s.afterN.rd k
    let h ← s.H.rd k
    let v := T + min ((k : ℤ) + 1 - b) (aN - h) + min ((n : ℤ) - (k + 1) - a) (bN - h)
    pure (decide (v < 0 ∨ (t : ℤ) ≤ v))) false

/-- `nb_pivot_…_not_moved[k]--`, fflas_randommatrix.h:642-649 and :688-695 (the same code when the move is undone) -/
def ltqsNotMoved (n i : ℕ) (s : LtqsSt) : Except Fault LtqsSt := do
  let aN ← addRange s.afterN 0 (i + 1) (-1)
  let bN ← addRange s.beforeN i (n - 1 - i) (-1)
  let H ← s.H.wr i 0
  pure { s with afterN := aN, beforeN := bN, H := H }

/-- the computation of the valid moves, fflas_randommatrix.h:590-611 -/
def ltqsMoves (n t : ℕ) (s : LtqsSt) : Except Fault LtqsSt := do
  let i ← s.rows.rd s.h
  let j ← s.cols.rd s.h
  if s.prevH = some s.h then pure s else do
    let up ← fullUp s.T t (n - 1 - (i + 1)) (i + 1)
    let down ← fullDown s.T t i
    let mj ← freeMoves (match up with | some k => n - k - 1 | none => 0) j s.availC
    let mi ← freeMoves (match down with | some k => k + 1 | none => 0) i s.availR
    pure { s with moves := j :: mj ++ mi, startUp := mj.length + 1 }

/-- the chosen move, fflas_randommatrix.h:614-651: its index in `valid_moves` and the position.  `valid_moves[rand_index]` of an empty vector is
the fault `oob`. -/
def ltqsMove (d : ℕ → ℕ) (n : ℕ) (s : LtqsSt) : Except Fault (ℕ × ℕ × LtqsSt) := do
  let i ← s.rows.rd s.h
  let j ← s.cols.rd s.h
  let x ← (if 1 < s.moves.length then randInt 0 s.moves.length (d s.c) else pure 0)
  let c := if 1 < s.moves.length then s.c + 1 else s.c
  match s.moves[x]? with
  | none => .error .oob
  | some y =>
    if x < s.startUp then do
      let cols ← s.cols.wr s.h y
      let T ← addRange s.T (i + 1) (j - y) 1
      let a ← addRange s.after (i + 1) (j - y) 1
      let s ← ltqsNotMoved n i { s with cols := cols, T := T, after := a, c := c }
      pure (x, y, s)
    else do
      let rows ← s.rows.wr s.h y
      let T ← addRange s.T y (i - y) 1
      let b ← addRange s.before y (i - y) 1
      let s ← ltqsNotMoved n i { s with rows := rows, T := T, before := b, c := c }
      pure (x, y, s)

/-- a rejected move, fflas_randommatrix.h:664-705: `(i, j)` is the position before the move -/
def ltqsUndo (n i j x y : ℕ) (s : LtqsSt) : Except Fault LtqsSt :=
  if x < s.startUp then do
    let cols ← s.cols.wr s.h j
    let T ← addRange s.T (i + 1) (j - y) (-1)
    let a ← addRange s.after (i + 1) (j - y) (-1)
    let s ← ltqsNotMoved n i { s with cols := cols, T := T, after := a, moves := s.moves.eraseIdx x, startUp := s.startUp - 1 }
    pure { s with prevH := some s.h }
  else do
    let rows ← s.rows.wr s.h i
    let T ← addRange s.T y (i - y) (-1)
    let b ← addRange s.before y (i - y) (-1)
    let s ← ltqsNotMoved n i { s with rows := rows, T := T, before := b, moves := s.moves.eraseIdx x }
    pure { s with prevH := some s.h }

/-- an accepted move, fflas_randommatrix.h:708-717 -/
def ltqsKeep (i j x y : ℕ) (s : LtqsSt) : Except Fault LtqsSt :=
  if x < s.startUp then
    if j ≠ y then do
      let aC ← s.availC.wr j true
      let aC ← aC.wr y false
      pure { s with availC := aC, h := s.h + 1 }
    else pure { s with h := s.h + 1 }
  else if i ≠ y then do
    let aR ← s.availR.wr i true
    let aR ← aR.wr y false
    pure { s with availR := aR, h := s.h + 1 }
  else pure { s with h := s.h + 1 }

/-- one iteration of the main loop of `RandomLTQSRankProfileMatrix`, fflas_randommatrix.h:581-717 -/
def ltqsStep (d : ℕ → ℕ) (n t : ℕ) (s : LtqsSt) : Except Fault LtqsSt := do
  let i ← s.rows.rd s.h
  let j ← s.cols.rd s.h
  let s ← ltqsMoves n t s
  let m ← ltqsMove d n s
  let ok ← ltqsAccept n t m.2.2
  if ok then ltqsKeep i j m.1 m.2.1 m.2.2 else ltqsUndo n i j m.1 m.2.1 m.2.2

/-- the main loop, fflas_randommatrix.h:580-718 -/
def ltqsLoop (d : ℕ → ℕ) (n r t : ℕ) : ℕ → LtqsSt → Except Fault LtqsSt
  | 0, _ => .error .fuel
  | fuel + 1, s => if s.h < r then ltqsStep d n t s >>= ltqsLoop d n r t fuel else pure s

/-- `RandomLTQSRankProfileMatrix`, fflas_randommatrix.h:510-725.  Every iteration places a pivot or drops one of at most `n - 1` moves, so the
fuel given is never used up. -/
def randomLTQSRankProfileMatrix (d junk : ℕ → ℕ) (jz : ℕ → ℤ) (n r t : ℕ) (rows cols : Arr ℕ) : Except Fault (Arr ℕ × Arr ℕ) := do
  let s ← ltqsInit d junk jz n r rows cols
  let s ← ltqsLoop d n r t (r * n + 2) s
  pure (s.rows, s.cols)

end Verif.FF
