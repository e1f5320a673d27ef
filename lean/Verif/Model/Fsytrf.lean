import Verif.Model.Ftrstr
import Verif.Model.Level2

/-!
# Triangular factorisation of symmetric matrices

/repo/fflas-ffpack/ffpack/ffpack_fsytrf.inl, `fsytrf` and `fsytrf_nonunit` (sequential).  `cat` is the category of the field,
`ts` is `ftrsm`, `sk` is `fsyrk` with a diagonal matrix, `bc` is the base case selected at compile time.
-/

namespace Verif.FF

variable {K : Type} [Field K] [DecidableEq K]

/-- type of `fsyrk` with a diagonal matrix: uplo, trans, n, k, alpha, A, lda, D, incD, beta, C, ldc -/
abbrev SyrkDFn (K : Type) := Uplo → Tr → ℕ → ℕ → K → ℕ → ℕ → ℕ → ℕ → K → ℕ → ℕ → Prog K Unit

/-- type of the base cases: uplo, N, A, lda, Dinv, incDinv -/
abbrev SytrfFn (K : Type) := Uplo → ℕ → ℕ → ℕ → ℕ → ℕ → Prog K Bool

/-- distance of two entries along the stored part of a row (upper) or column (lower) beyond the diagonal, ffpack_fsytrf.inl:701 -/
def sytInc (u : Uplo) (lda : ℕ) : ℕ := match u with
  | .upper => 1
  | .lower => lda

/-- the transposition under which the stored triangle is a lower one, ffpack_fsytrf.inl:605-606 -/
def sytTr : Uplo → Tr
  | .upper => .yes
  | .lower => .no

/-- the side of the triangular solve, ffpack_fsytrf.inl:608-609 -/
def sytSide : Uplo → Side
  | .upper => .left
  | .lower => .right

/-- the first value for the upper triangle, the second for the lower one, ffpack_fsytrf.inl:38-63, 608-609 -/
def sytSel : Uplo → ℕ → ℕ → ℕ
  | .upper, x, _ => x
  | .lower, _, y => y

/-- `fsytrf_BC_RL`, ffpack_fsytrf.inl:68-106, with the loop on `i` as a recursion on the number of rows left; `Ai` and `Di` are the
pointers the code moves along.  Both branches of the code at once, with the stride `sytInc`. -/
def fsytrfRL (cat : Cat) (u : Uplo) (lda incD : ℕ) : ℕ → ℕ → ℕ → Prog K Bool
  | 0, _, _ => pure true
  | N + 1, Ai, Di => do
    let a ← load Ai
    if a = 0 then pure false
    else do
      let y ← liftE (invE a)
      store Di y
      let tmp ← alloc N
      vscal cat N (-y) (Ai + sytInc u lda) (sytInc u lda) tmp 1
      loop N fun t => do
        let c ← load (tmp + t)
        vaxpy cat (N - t) c (Ai + (t + 1) * sytInc u lda) (sytInc u lda) (Ai + (t + 1) * (lda + 1)) (sytInc u lda)
      free tmp N
      fsytrfRL cat u lda incD N (Ai + (lda + 1)) (Di + incD)

/-- `fsytrf_BC_RL` as a base case -/
def fsytrfBcRL (cat : Cat) : SytrfFn K := fun u N A lda D incD => fsytrfRL cat u lda incD N A D

/-- `fsytrf_BC_Crout`, ffpack_fsytrf.inl:32-66, with the loop on `i` as a recursion on the number of rows left.  Both
branches of the code at once. -/
def fsytrfCrout (cat : Cat) (u : Uplo) (N A lda D incD : ℕ) : ℕ → Prog K Bool
  | 0 => pure true
  | left + 1 => do
    let i := N - (left + 1)
    let Ai := A + i * (lda + 1)
    let An := A + i * sytInc u lda
    let tmp ← alloc i
    loop i fun j => do
      let a ← load (An + j * sytSel u lda 1)
      let d ← load (D + j * incD)
      store (tmp + j) (a * d)
    fgemv cat (sytTr u) (sytSel u i (N - i)) (sytSel u (N - i) i) (-1) An lda tmp 1 1 Ai (sytInc u lda)
    free tmp i
    let a ← load Ai
    if a = 0 then pure false
    else do
      let y ← liftE (invE a)
      store (D + i * incD) y
      fsytrfCrout cat u N A lda D incD left

/-- `fsytrf_BC_Crout` as a base case -/
def fsytrfBcCrout (cat : Cat) : SytrfFn K := fun u N A lda D incD => fsytrfCrout cat u N A lda D incD N

/-- `fsytrf_nonunit`, ffpack_fsytrf.inl:582-630.  The depth of the recursion is bounded by `fuel`.  As in the code, the second
recursive call gets `Dinv + N1` whatever `incDinv`. -/
def fsytrfNonunit (bc : SytrfFn K) (ts : TrIFn K) (sk : SyrkDFn K) (u : Uplo) (lda incD thr : ℕ) : ℕ → ℕ → ℕ → ℕ → Prog K Bool
  | 0, _, _, _ => liftE (.error .fuel)
  | fuel + 1, N, A, D =>
    if N ≤ thr then bc u N A lda D incD
    else do
      let N1 := N / 2
      let N2 := N - N1
      let A12 := A + N1 * sytInc u lda
      let A22 := A + N1 * (lda + 1)
      let ok1 ← fsytrfNonunit bc ts sk u lda incD thr fuel N1 A D
      if ok1 = false then pure false
      else do
        ts (sytSide u) u .yes .nonUnit (sytSel u N1 N2) (sytSel u N2 N1) 1 A lda A12 lda
        sk u (sytTr u) N2 N1 (-1) A12 lda A (lda + 1) 1 A22 lda
        fsytrfNonunit bc ts sk u lda incD thr fuel N2 A22 (D + N1)

/-- `fsytrf`, ffpack_fsytrf.inl:688-712 (and 680-686, the version without helper).  On failure `Dinv` is not freed. -/
def fsytrf (cat : Cat) (bc : SytrfFn K) (ts : TrIFn K) (sk : SyrkDFn K) (u : Uplo) (N A lda thr : ℕ) : Prog K Bool := do
  let D ← alloc N
  let ok ← fsytrfNonunit bc ts sk u lda 1 thr (N + 1) N A D
  if ok = false then pure false
  else do
    loop N fun i => do
      let d ← load (D + i)
      vscalin cat (N - i - 1) d (A + i * (lda + 1) + sytInc u lda) (sytInc u lda)
    free D N
    pure true

end Verif.FF
