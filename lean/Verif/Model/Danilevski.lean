import Verif.Model.Level2

/-!
# Characteristic polynomial by Danilevski's algorithm

/repo/fflas-ffpack/ffpack/ffpack_charpoly_danilevski.inl.  A polynomial is the list of its coefficients, constant term first.
-/

namespace Verif.FF

variable {K : Type} [Field K] [DecidableEq K]

/-- `while ((i<N) && F.isZero(*e)) { e += lda; i++; }`, :49, with `left = N - i`: the index of the first nonzero entry of column
`k` from row `i` on, `N` if there is none. -/
def danScan (N A lda k : ℕ) : ℕ → Prog K ℕ
  | 0 => pure N
  | left + 1 => do
    let x ← load (A + (N - (left + 1)) * lda + k)
    if x = 0 then danScan N A lda k left else pure (N - (left + 1))

/-- elimination of column `k`, :51-79, when row `i` has a nonzero entry in that column.  The test `k < N - 2` is only reached
when `N ≥ 2`, so the subtraction does not wrap. -/
def danElim (cat : Cat) (N A lda k dtot i : ℕ) : Prog K Unit := do
  let pivot := A + (k + 1) * lda + k
  let _ ← (if i > k + 1 then do
      vswap (N - k) (A + i * lda + k) 1 pivot 1
      vswap N (A + i) lda (A + k + 1) lda
    else pure ())
  let p ← load pivot
  let invp ← liftE (invE p)
  vscalin cat (N - k - 1) invp (pivot + 1) 1
  let p ← load pivot
  vscalin cat (N - dtot) p (A + dtot * lda + k + 1) lda
  fger (k + 1 - dtot) (N - k - 1) (-1) (A + dtot * lda + k) lda (pivot + 1) 1 (A + k + 1 + dtot * lda) lda
  let _ ← (if k < N - 2 then do
      fger (N - k - 2) (N - k - 1) (-1) (pivot + lda) lda (pivot + 1) 1 (pivot + lda + 1) lda
      fgemv cat .no (N - dtot) (N - k - 2) 1 (A + dtot * lda + k + 2) lda (pivot + lda) lda 1 (A + dtot * lda + k + 1) lda
    else pure ())
  loop (k + 1 - dtot) fun t => do
    let u ← load (A + dtot * lda + k + t * lda)
    let x ← load (A + dtot * lda + k + t * lda + lda + 1)
    store (A + dtot * lda + k + t * lda + lda + 1) (x + u)

/-- the coefficients `P[0], …, P[d-1]` of a companion block, :85-87 -/
def danCoeffs (Ai lda : ℕ) : ℕ → Prog K (List K)
  | 0 => pure []
  | d + 1 => do
    let l ← danCoeffs Ai lda d
    let x ← load (Ai + d * lda)
    pure (l ++ [-x])

/-- one iteration of the loop on `k`, :46-93; the state is `dtot` and the list of polynomials found.  After the elimination the
variable `i` has been reused as a loop counter and is `k + 1`, :76. -/
def danStep (cat : Cat) (N A lda k : ℕ) (s : ℕ × List (List K)) : Prog K (ℕ × List (List K)) := do
  let i ← danScan N A lda k (N - (k + 1))
  let i ← (if i < N then do
      danElim cat N A lda k s.1 i
      pure (k + 1)
    else pure i)
  if i = N then do
    let d := k + 1 - s.1
    let l ← danCoeffs (A + k + s.1 * lda) lda d
    pure (s.1 + d, (l ++ [1]) :: s.2)
  else pure s

/-- `Danilevski`, :36-96. -/
def danilevski (cat : Cat) (N A lda : ℕ) : Prog K (List (List K)) := do
  let s ← iter N (fun k s => danStep cat N A lda k s) (0, [])
  pure s.2

end Verif.FF
