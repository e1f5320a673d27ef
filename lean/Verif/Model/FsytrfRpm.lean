import Verif.Model.Fsytrf
import Verif.Model.ApplyP
import Verif.Model.Perm

/-!
# Symmetric triangular factorisation revealing the rank profile matrix

/repo/fflas-ffpack/ffpack/ffpack_fsytrf.inl, `fsytrf_UP_RPM_BC_Crout` and `fsytrf_RPM`.  Index arrays are checked arrays, the matrix
and `Dinv` are in the memory of field elements.  The array `twoBlocks` of `int` is used through the sign of its entries
only; it is an array of booleans here (`true`: nonnegative), which assumes indices below `2^31`.
-/

namespace Verif.FF

open Verif.Perm

variable {K : Type} [Field K] [DecidableEq K]

/-- `tmp <- D^-1 b`, ffpack_fsytrf.inl:158-168 and 199-209; `j`, `bj` and `Dj` are the variables of the loop, `fuel` bounds the number of
iterations.  Returns the final value of `Dinvj`. -/
def rpmScale (tb : Arr Bool) (tmp lda incD rank : ℕ) : ℕ → ℕ → ℕ → ℕ → Prog K ℕ
  | 0, j, _, Dj => if j < rank then liftE (.error .fuel) else pure Dj
  | fuel + 1, j, bj, Dj =>
    if j < rank then do
      let t ← liftE (tb.rd j)
      if t = false then do
        let b ← load bj
        let d ← load Dj
        store (tmp + j) (b * d)
        rpmScale tb tmp lda incD rank fuel (j + 1) (bj + lda) (Dj + incD)
      else do
        let b ← load bj
        let d ← load Dj
        store (tmp + (j + 1)) (b * d)
        let b' ← load (bj + lda)
        let d' ← load (Dj + 1)
        store (tmp + j) (b' * d')
        rpmScale tb tmp lda incD rank fuel (j + 2) (bj + 2 * lda) (Dj + 2 * incD)
    else pure Dj

/-- the search for a pivot, ffpack_fsytrf.inl:173-175: the first nonzero entry of the `len` entries at `p`, or the last entry -/
def rpmFind (p len : ℕ) : ℕ → ℕ → Prog K ℕ
  | 0, _ => liftE (.error .fuel)
  | fuel + 1, i => do
    let a ← load (p + i)
    if a = 0 ∧ i + 1 < len then rpmFind p len fuel (i + 1) else pure i

/-- `cyclic_shift_mathPerm (P + off, s)`, ffpack_permutation.inl:556-567, with the copy primitive as a parameter -/
def shiftAt (copy : Arr ℕ → ℕ → ℕ → ℕ → Except Fault (Arr ℕ)) (P : Arr ℕ) (off s : ℕ) : Except Fault (Arr ℕ) := do
  let s1 ← Verif.usub s 1
  let tmp ← P.rd (off + s1)
  let P ← copy P off (off + 1) s1
  P.wr off tmp

/-- the variables `rank`, `MathP` and `twoBlocks` -/
structure RpmSt where
  rank : ℕ
  P : Arr ℕ
  tb : Arr Bool

/-- Crout update of `len` entries at `dst` by the column at `bj0` of the rows done, and the columns at `blk`, ffpack_fsytrf.inl:153-172 and
197-214.  Returns `Dinvj`. -/
def rpmUpdate (cat : Cat) (lda D incD : ℕ) (s : RpmSt) (bj0 blk len dst : ℕ) : Prog K ℕ := do
  let tmp ← alloc s.rank
  let Dj ← rpmScale s.tb tmp lda incD s.rank s.rank 0 bj0 D
  fgemv cat .yes s.rank len (-1) blk lda tmp 1 1 dst 1
  free tmp s.rank
  pure Dj

/-- a pivot on the diagonal, ffpack_fsytrf.inl:178-194; `x` is the pivot -/
def rpmOne (copy : Arr ℕ → ℕ → ℕ → ℕ → Except Fault (Arr ℕ)) (N A lda Dj row : ℕ) (s : RpmSt) : Prog K RpmSt := do
  let C := A + row * (lda + 1)
  let x ← load C
  let xi ← liftE (invE x)
  store Dj xi
  let P ← (if s.rank < row then do
      cyclicShiftCol (A + s.rank) s.rank (row - s.rank + 1) lda
      let P ← liftE (shiftAt copy s.P s.rank (row - s.rank + 1))
      let c ← load C
      store (A + s.rank * (lda + 1)) c
      vzero (row - s.rank) (A + s.rank * (lda + 1) + 1) 1
      vassign (N - row - 1) (C + 1) 1 (A + s.rank * lda + row + 1) 1
      vzero (N - row) C 1
      pure P
    else pure s.P)
  pure ⟨s.rank + 1, P, s.tb⟩

/-- a pivot off the diagonal: the first two entries of the new row, ffpack_fsytrf.inl:236-242 -/
def rpmTwoHead (two : K) (A lda Dj row i rank : ℕ) : Prog K Unit := do
  let C := A + row * (lda + 1)
  let x ← load (C + i)
  store (A + rank * (lda + 1)) x
  let x' ← load (C + i)
  let xi ← liftE (invE x')
  store Dj xi
  let y ← load (A + (row + i) * (lda + 1))
  let h ← liftE (invE two)
  store (A + rank * (lda + 1) + 1) (y * h)

/-- the rows moved, ffpack_fsytrf.inl:255-276 -/
def rpmTwoMid (N A lda Dj row i rank : ℕ) : Prog K Unit := do
  let C := A + row * (lda + 1)
  let Ddim := i - 1
  let Hdim := N - row - Ddim - 2
  vassign Ddim (C + i * lda + 1) 1 (A + rank * lda + row + 2) 1
  vassign Hdim (C + i * lda + 2 + Ddim) 1 (A + rank * lda + N - Hdim) 1
  loop Ddim fun t => fassign 1 Ddim (C + (Ddim - t) * lda + 1) lda (C + (Ddim - t + 1) * lda + 2) lda
  loop Ddim fun t => fassign 1 Hdim (C + (Ddim - t) * lda + i + 1) lda (C + (Ddim - t + 1) * lda + i + 1) lda
  let a ← load (A + rank * (lda + 1))
  store (A + (rank + 1) * (lda + 1)) a
  let d ← load Dj
  store (Dj + 1) d
  vzero (row - rank + Ddim) (A + (rank + 1) * (lda + 1) + 1) 1

/-- the correction of the new row and the shift of the columns of the rows done, ffpack_fsytrf.inl:284-296 -/
def rpmTwoTail (cat : Cat) (N A lda Dj row i rank : ℕ) : Prog K Unit := do
  let C := A + row * (lda + 1)
  let Ddim := i - 1
  let Hdim := N - row - Ddim - 2
  (if rank < row then vzero (Ddim + 1) (C + lda + 1) 1 else pure ())
  let b ← load (A + rank * (lda + 1) + 1)
  let d ← load Dj
  vaxpy cat Hdim (-(b * d)) (A + (rank + 1) * lda + row + i + 1) 1 (A + rank * lda + N - Hdim) 1
  (if row = rank then cyclicShiftCol (A + rank + 1) rank (row + i - rank) lda
   else do
    cyclicShiftCol (A + rank) rank (row - rank + 1) lda
    cyclicShiftCol (A + rank + 1) rank (row + i - rank) lda)

/-- the index arrays, ffpack_fsytrf.inl:297-310 -/
def rpmTwoPerm (copy : Arr ℕ → ℕ → ℕ → ℕ → Except Fault (Arr ℕ)) (row i : ℕ) (s : RpmSt) : Except Fault RpmSt := do
  let rank := s.rank
  let Prow ← s.P.rd row
  let Pi ← s.P.rd (row + i)
  let P ← copy s.P (row + 1) (row + 2) (i - 1)
  let P ← copy P rank (rank + 2) (row - rank)
  let P ← P.wr rank Prow
  let P ← P.wr (rank + 1) Pi
  let tb ← s.tb.wr rank true
  let tb ← tb.wr (rank + 1) true
  pure ⟨rank + 2, P, tb⟩

/-- a pivot off the diagonal, after the update of its row, ffpack_fsytrf.inl:236-310: `i` is its distance to the diagonal -/
def rpmTwo (cat : Cat) (copy : Arr ℕ → ℕ → ℕ → ℕ → Except Fault (Arr ℕ)) (two : K) (N A lda Dj row i : ℕ) (s : RpmSt) : Prog K RpmSt := do
  let rank := s.rank
  let C := A + row * (lda + 1)
  let Hdim := N - row - (i - 1) - 2
  rpmTwoHead two A lda Dj row i rank
  (if row = rank then do
      let tmp ← alloc Hdim
      vassign Hdim (C + i + 1) 1 tmp 1
      rpmTwoMid N A lda Dj row i rank
      (if row ≠ rank + 1 then vassign Hdim tmp 1 (A + (rank + 1) * lda + row + i + 1) 1 else pure ())
      free tmp Hdim
    else do
      vzero (row - rank) (A + rank * (lda + 1) + 2) 1
      rpmTwoMid N A lda Dj row i rank
      (if row ≠ rank + 1 then vassign Hdim (C + i + 1) 1 (A + (rank + 1) * lda + row + i + 1) 1 else pure ()))
  rpmTwoTail cat N A lda Dj row i rank
  liftE (rpmTwoPerm copy row i s)

/-- one turn of the loop on `row`, ffpack_fsytrf.inl:143-312.  Returns the next row. -/
def rpmStep (cat : Cat) (copy : Arr ℕ → ℕ → ℕ → ℕ → Except Fault (Arr ℕ)) (two : K) (N A lda D incD row : ℕ) (s : RpmSt) : Prog K (ℕ × RpmSt) := do
  let C := A + row * (lda + 1)
  let Dj ← rpmUpdate cat lda D incD s (A + row) (A + row) (N - row) C
  let i ← rpmFind C (N - row) (N - row) 0
  let a ← load (C + i)
  if a = 0 then pure (row + 1, s)
  else if i = 0 then do
    let s' ← rpmOne copy N A lda Dj row s
    pure (row + 1, s')
  else do
    vassign (i - 1) (C + lda + i) lda (C + i * lda + 1) 1
    let Dj ← rpmUpdate cat lda D incD s (A + row + i) (A + row + 1) (N - row - 1) (C + i * lda + 1)
    let s' ← rpmTwo cat copy two N A lda Dj row i s
    pure (row + 2, s')

/-- the loop on `row`, ffpack_fsytrf.inl:143-312; `fuel` bounds the number of iterations -/
def rpmLoop (cat : Cat) (copy : Arr ℕ → ℕ → ℕ → ℕ → Except Fault (Arr ℕ)) (two : K) (N A lda D incD : ℕ) : ℕ → ℕ → RpmSt → Prog K RpmSt
  | 0, row, s => if row < N then liftE (.error .fuel) else pure s
  | fuel + 1, row, s =>
    if row < N then do
      let r ← rpmStep cat copy two N A lda D incD row s
      rpmLoop cat copy two N A lda D incD fuel r.1 r.2
    else pure s

/-- `-p - 1` on `size_t` -/
def negCode (p : ℕ) : ℕ := 2 ^ 64 - 1 - p

/-- the loop that marks the 2 x 2 blocks in `P`, ffpack_fsytrf.inl:316-322; `i` is the variable of the loop -/
def rpmMark (tb : Arr Bool) (rank : ℕ) : ℕ → ℕ → Arr ℕ → Except Fault (Arr ℕ)
  | 0, i, P => if i < rank then .error .fuel else .ok P
  | fuel + 1, i, P =>
    if i < rank then do
      let t ← tb.rd i
      if t = true then do
        let a ← P.rd i
        let P ← P.wr i (negCode a)
        let b ← P.rd (i + 1)
        let P ← P.wr (i + 1) (negCode b)
        rpmMark tb rank fuel (i + 2) P
      else rpmMark tb rank fuel (i + 1) P
    else .ok P

/-- `fsytrf_UP_RPM_BC_Crout`, ffpack_fsytrf.inl:126-327.  `copy` is `std::copy` of indices, `junk0`…`junk3` the contents of the new arrays; `P` is
the array passed by the caller.  Returns the rank and `P`. -/
def fsytrfUpRpmBC (cat : Cat) (copy : Arr ℕ → ℕ → ℕ → ℕ → Except Fault (Arr ℕ)) (junk0 junk2 junk3 : ℕ → ℕ) (junk1 : ℕ → Bool) (N A lda D incD : ℕ) (P : Arr ℕ) :
    Prog K (ℕ × Arr ℕ) := do
  let M ← liftE (iter N (fun i (M : Arr ℕ) => M.wr i i) (Arr.mk' N junk0))
  let tb ← liftE (iter N (fun i (T : Arr Bool) => T.wr i false) (Arr.mk' N junk1))
  let s ← rpmLoop cat copy (2 : K) N A lda D incD N 0 ⟨0, M, tb⟩
  let P ← liftE (MathPerm2LAPACKPerm P s.P N junk2 junk3)
  let P ← liftE (rpmMark s.tb s.rank N 0 P)
  fzero (N - s.rank) (N - s.rank) (A + s.rank * (1 + lda)) lda
  pure (s.rank, P)

/-- `fsytrf_RPM`, ffpack_fsytrf.inl:718-738, for a matrix below the threshold (so that `fsytrf_UP_RPM`, :323-329, calls the base case).  The lower
case is `fsytrf_LOW_RPM_BC_Crout` (:118-124), which returns 0 and does nothing. -/
def fsytrfRpm (cat : Cat) (copy : Arr ℕ → ℕ → ℕ → ℕ → Except Fault (Arr ℕ)) (junk0 junk2 junk3 : ℕ → ℕ) (junk1 : ℕ → Bool) (u : Uplo) (N A lda : ℕ) (P : Arr ℕ) :
    Prog K (ℕ × Arr ℕ) := do
  let D ← alloc N
  let r ← (match u with
    | .upper => fsytrfUpRpmBC cat copy junk0 junk2 junk3 junk1 N A lda D 1 P
    | .lower => pure (0, P))
  loop N fun i => do
    let d ← load (D + i)
    vscalin cat (N - i - 1) d (A + i * (lda + 1) + sytInc u lda) (sytInc u lda)
  free D N
  pure r

/-- `(int) P[i] < 0`: the low 32 bits read as a signed number (implementation defined before C++20, this on the compilers the library supports) -/
def intNeg (p : ℕ) : Bool := decide (2 ^ 31 ≤ p % 2 ^ 32)

/-- the loop of `getTridiagonal`, ffpack_fsytrf.inl:746-753; `fuel` bounds the number of iterations -/
def tridiagLoop (A lda T ldt R : ℕ) (P : Arr ℕ) : ℕ → ℕ → Prog K Unit
  | 0, i => if i < R then liftE (.error .fuel) else pure ()
  | fuel + 1, i =>
    if i < R then do
      let p ← liftE (P.rd i)
      if intNeg p = true then do
        let x ← load (A + i * (lda + 1))
        store (T + i * (ldt + 1) + 1) x
        let x ← load (A + i * (lda + 1))
        store (T + i * (ldt + 1) + ldt) x
        tridiagLoop A lda T ldt R P fuel (i + 2)
      else do
        let x ← load (A + i * (lda + 1))
        store (T + i * (ldt + 1)) x
        tridiagLoop A lda T ldt R P fuel (i + 1)
    else pure ()

/-- `getTridiagonal`, ffpack_fsytrf.inl:739-754 -/
def getTridiagonal (N R A lda : ℕ) (P : Arr ℕ) (T ldt : ℕ) : Prog K Unit := do
  fzero N N T ldt
  tridiagLoop A lda T ldt R P R 0

end Verif.FF
