import Verif.Core.Arr

/-!
# Permutation arrays

Model of the index-array routines of `/repo/fflas-ffpack/ffpack/ffpack_permutation.inl`.
Simplification common to all definitions: an output array parameter is passed by value and the
updated array is returned; two distinct array parameters never alias.
-/

namespace Verif.Perm
open Verif

/-- `std::swap(A[i], A[j])`. -/
def aswap {α : Type} (A : Arr α) (i j : ℕ) : Except Fault (Arr α) := do
  let a ← A.rd i
  let b ← A.rd j
  let A ← A.wr i b
  A.wr j a

/-- `LAPACKPerm2MathPerm`, ffpack_permutation.inl:468-478. -/
def LAPACKPerm2MathPerm (MathP LapackP : Arr ℕ) (N : ℕ) : Except Fault (Arr ℕ) := do
  let M ← iter N (fun i M => M.wr i i) MathP
  iter N (fun i M => do
    let p ← LapackP.rd i
    if p ≠ i then aswap M i p else pure M) M

/-- `MathPerm2LAPACKPerm`, ffpack_permutation.inl:483-505.  `junkT`, `junkTinv` are the unspecified
contents of the two arrays obtained from `fflas_new`. -/
def MathPerm2LAPACKPerm (LapackP MathP : Arr ℕ) (N : ℕ) (junkT junkTinv : ℕ → ℕ) :
    Except Fault (Arr ℕ) := do
  let (T, Tinv) ← iter N (fun i (T, Tinv) => do
    let T ← Arr.wr T i i
    let Tinv ← Arr.wr Tinv i i
    pure (T, Tinv)) (Arr.mk' N junkT, Arr.mk' N junkTinv)
  let (LapackP, _, _) ← iter N (fun i ((LapackP, T, Tinv) : Arr ℕ × Arr ℕ × Arr ℕ) => do
    let mi ← MathP.rd i
    let j ← Tinv.rd mi
    let LapackP ← LapackP.wr i j
    let tmp ← T.rd j
    let ti ← T.rd i
    let T ← T.wr j ti
    let Tinv ← Tinv.wr ti j
    let T ← T.wr i tmp
    let Tinv ← Tinv.wr tmp i
    pure (LapackP, T, Tinv)) (LapackP, T, Tinv)
  pure LapackP

/-- `composePermutationsMLM`, ffpack_permutation.inl:543-554.  The loop runs for `i` from `R` to `N-1`
(not at all if `N ≤ R`). -/
def composePermutationsMLM (MathP1 P2 : Arr ℕ) (R N : ℕ) : Except Fault (Arr ℕ) :=
  iter (N - R) (fun k M => do
    let i := R + k
    let p ← P2.rd (i - R)
    if p ≠ i - R then do
      let tmp ← M.rd i
      let x ← M.rd (p + R)
      let M ← M.wr i x
      M.wr (p + R) tmp
    else pure M) MathP1

/-- `composePermutationsLLM`, ffpack_permutation.inl:526-535. -/
def composePermutationsLLM (MathP P1 P2 : Arr ℕ) (R N : ℕ) : Except Fault (Arr ℕ) := do
  let M ← iter N (fun i M => M.wr i i) MathP
  let M ← LAPACKPerm2MathPerm M P1 N
  composePermutationsMLM M P2 R N

/-- `composePermutationsLLL`, ffpack_permutation.inl:511-518. -/
def composePermutationsLLL (P1 P2 : Arr ℕ) (R N : ℕ) (junk junkT junkTinv : ℕ → ℕ) :
    Except Fault (Arr ℕ) := do
  let M ← composePermutationsLLM (Arr.mk' N junk) P1 P2 R N
  MathPerm2LAPACKPerm P1 M N junkT junkTinv

/-- `std::copy(first, last, dest)` on one array with `n = last - first`, as implemented by
libstdc++ for trivially copyable types (`memmove`): all reads happen before the writes. -/
def copyMove {α : Type} (A : Arr α) (src dst n : ℕ) : Except Fault (Arr α) := do
  let buf ← iter n (fun i (b : List α) => do let x ← A.rd (src + i); pure (b ++ [x])) []
  iter n (fun i A => match buf[i]? with
    | some x => A.wr (dst + i) x
    | none => .error .oob) A

/-- `std::copy` as specified for non-overlapping ranges: element by element, forwards. -/
def copyForward {α : Type} (A : Arr α) (src dst n : ℕ) : Except Fault (Arr α) :=
  iter n (fun i A => do let x ← A.rd (src + i); A.wr (dst + i) x) A

/-- `cyclic_shift_mathPerm`, ffpack_permutation.inl:556-567, with the copy primitive as a parameter:
source and destination of the `std::copy` overlap, which the C++ standard leaves undefined. -/
def cyclic_shift_mathPerm {α : Type} (copy : Arr α → ℕ → ℕ → ℕ → Except Fault (Arr α)) (P : Arr α) (s : ℕ) :
    Except Fault (Arr α) := do
  let s1 ← usub s 1
  let tmp ← P.rd s1
  let P ← copy P 0 1 s1
  P.wr 0 tmp

end Verif.Perm
