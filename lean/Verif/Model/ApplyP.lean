import Verif.Model.Level1
import Verif.Model.Perm
import Verif.Core.Enums

/-!
# Permutations applied to matrices, cyclic shifts and block permutations

/repo/fflas-ffpack/ffpack/ffpack_permutation.inl.  The matrix is in memory, permutation arrays are values with checked
accesses.  `fswap` and `fassign` on vectors are the scalar loops of `Model/Level1.lean`.
-/

namespace Verif.FF

variable {K : Type}

section
variable [CommRing K] [DecidableEq K]

/-- one exchange of `applyP_block`: rows (Side = Left) or columns (Side = Right) `P[i]` and `i`, `M` entries each -/
def applyPStep (side : Side) (M A lda : ℕ) (P : Arr ℕ) (i : ℕ) : Prog K Unit := do
  let p ← liftE (P.rd i)
  if p ≠ i then
    match side with
    | .right => vswap M (A + p * 1) lda (A + i * 1) lda
    | .left => vswap M (A + p * lda) 1 (A + i * lda) 1
  else pure ()

/-- `applyP_block`, ffpack_permutation.inl:294-322. -/
def applyPBlock (side : Side) (ta : Tr) (M ibeg iend A lda : ℕ) (P : Arr ℕ) : Prog K Unit :=
  match side, ta with
  | .right, .yes => loop (iend - ibeg) fun t => applyPStep side M A lda P (ibeg + t)
  | .right, .no => loop (iend - ibeg) fun t => applyPStep side M A lda P (iend - 1 - t)
  | .left, .no => loop (iend - ibeg) fun t => applyPStep side M A lda P (ibeg + t)
  | .left, .yes => loop (iend - ibeg) fun t => applyPStep side M A lda P (iend - 1 - t)

/-- `applyP`, sequential, ffpack_permutation.inl:325-343: blocks of `FFLASFFPACK_PERM_BKSIZE` (:36) entries. -/
def applyP (side : Side) (ta : Tr) (M ibeg iend A lda : ℕ) (P : Arr ℕ) : Prog K Unit := do
  let bk := 32
  let NB := M / bk
  let last := M % bk
  let incA := match side with
    | .left => 1
    | .right => lda
  let inc := bk * incA
  loop NB fun i => applyPBlock side ta bk ibeg iend (A + i * inc) lda P
  applyPBlock side ta last ibeg iend (A + NB * inc) lda P

/-- `doApplyS`, ffpack_permutation.inl:345-356.  `M2 - R1 - R2` is computed on `size_t`; the callers have
`R1 + R2 ≤ M2`. -/
def doApplyS (A lda tmp width M2 R1 R2 R3 R4 : ℕ) : Prog K Unit := do
  fassign (M2 - R1 - R2) width (A + (R1 + R2) * lda) lda tmp width
  fassign (R3 + R4) width (A + M2 * lda) lda (A + (R1 + R2) * lda) lda
  fassign (M2 - R1 - R2) width tmp width (A + (R1 + R2 + R3 + R4) * lda) lda

/-- `MatrixApplyS`, sequential, ffpack_permutation.inl:364-374. -/
def matrixApplyS (A lda width M2 R1 R2 R3 R4 : ℕ) : Prog K Unit := do
  let t ← liftE (usub M2 (R1 + R2))
  let tmp ← alloc (t * width)
  doApplyS A lda tmp width M2 R1 R2 R3 R4
  free tmp (t * width)

/-- `doApplyT`, ffpack_permutation.inl:401-415. -/
def doApplyT (A lda tmp width N2 R1 R2 R3 R4 : ℕ) : Prog K Unit :=
  loop width fun k => do
    vassign (N2 - R1) (A + R1 + k * lda) 1 (tmp + k * (N2 - R1)) 1
    vassign R2 (A + N2 + k * lda) 1 (A + R1 + k * lda) 1
    vassign R3 (tmp + k * (N2 - R1)) 1 (A + R1 + R2 + k * lda) 1
    vassign R4 (A + N2 + R2 + k * lda) 1 (A + R1 + R2 + R3 + k * lda) 1
    vassign (N2 - R1 - R3) (tmp + R3 + k * (N2 - R1)) 1 (A + R1 + R2 + R3 + R4 + k * lda) 1

/-- `MatrixApplyT`, sequential, ffpack_permutation.inl:425-435. -/
def matrixApplyT (A lda width N2 R1 R2 R3 R4 : ℕ) : Prog K Unit := do
  let t ← liftE (usub N2 R1)
  let tmp ← alloc (t * width)
  doApplyT A lda tmp width N2 R1 R2 R3 R4
  free tmp (t * width)

/-! ### cyclic shifts -/

/-- `cyclic_shift_row`, ffpack_permutation.inl:674-714 (`MEMCOPY` is not defined). -/
def cyclicShiftRow (A m n lda : ℕ) : Prog K Unit :=
  if 1 < m then do
    let mun := m - 1
    let b ← alloc n
    loop n fun i => do
      let x ← load (A + mun * lda + i)
      store (b + i) x
    loop mun fun t => vassign n (A + (mun - t) * lda - lda) 1 (A + (mun - t) * lda) 1
    loop n fun i => do
      let x ← load (b + i)
      store (A + i) x
    free b n
  else pure ()

end

/-- `std::copy_backward(first, first+n, dest+n)` with `dest = first + 1` -/
def copyBackward1 (p n : ℕ) : Prog K Unit :=
  loop n fun t => do
    let x ← load (p + (n - 1 - t))
    store (p + (n - 1 - t) + 1) x

/-- `cyclic_shift_col`, ffpack_permutation.inl:735-750. -/
def cyclicShiftCol (A m n lda : ℕ) : Prog K Unit :=
  if 1 < n then
    let nun := n - 1
    loop m fun i => do
      let tmp ← load (A + i * lda + nun)
      copyBackward1 (A + i * lda) nun
      store (A + i * lda) tmp
  else pure ()

section
variable [CommRing K] [DecidableEq K]

/-- `cyclic_shift_row_col`, ffpack_permutation.inl:569-672 (`MEMCOPY` is not defined).  In the branch `m > 1`, `n = 1` the
code declares `Element_ptr d = *Ai` (:651), which only compiles if the element type converts to the pointer type; it is
modelled with an element. -/
def cyclicShiftRowCol (A m n lda : ℕ) : Prog K Unit :=
  if 1 < m then
    let mun := m - 1
    if 1 < n then do
      let nun := n - 1
      let b ← alloc mun
      loop mun fun i => do
        let x ← load (A + nun + i * lda)
        store (b + i) x
      let dc ← alloc n
      vassign nun (A + nun + mun * lda - nun) 1 (dc + 1) 1
      let d ← load (A + nun + mun * lda)
      store dc d
      loop mun fun t => vassign nun (A + (mun - 1 - t) * lda) 1 (A + (mun - 1 - t) * lda + 1 + lda) 1
      vassign n dc 1 A 1
      loop mun fun i => do
        let x ← load (b + i)
        store (A + lda + i * lda) x
      free dc n
      free b mun
    else if n ≠ 0 then do
      let d ← load (A + mun * lda)
      loop mun fun t => do
        let x ← load (A + (mun - t) * lda - lda)
        store (A + (mun - t) * lda) x
      store A d
    else pure ()
  else if m ≠ 0 ∧ 1 < n then do
    let nun := n - 1
    let d ← load (A + nun)
    vassign nun A 1 (A + 1) 1
    store A d
  else pure ()

end
end Verif.FF
