import Verif.Model.MinPoly

/-!
# Characteristic polynomial: the LU-Krylov algorithm and the driver

/repo/fflas-ffpack/ffpack/ffpack_charpoly.inl.  Polynomials are lists of coefficients, constant term first.
-/

namespace Verif.FF

open Verif.Perm

variable {K : Type} [Field K] [DecidableEq K]

/-- `FFPACK::NonZeroRandomMatrix (F, 1, N, v, N, G)`: the numbers drawn are given by `rnd` -/
def drawVec (N v : ℕ) (rnd : ℕ → K) : Prog K Unit := loop N fun i => store (v + i) (rnd i)

/-- the test for the zero matrix, ffpack_charpoly.inl:212-220: the polynomial and its degree.  `resize` fills with zeros. -/
def lukZero (n A lda : ℕ) (minP : List K) : Prog K (List K × ℕ) :=
  if minP.length - 1 = 1 ∧ minP.getD 0 0 = 0 then do
    let z ← fiszero n n A lda
    pure (if z = true then (List.replicate n 0 ++ [1], n) else (minP, 1))
  else pure (minP, minP.length - 1)

/-- copy of columns of `A` into rows, :231-232 -/
def lukCopyT (n e Ak lda X21 ldx : ℕ) : Prog K Unit := loop e fun i => vassign n (Ak + i) lda (X21 + i * ldx) 1

/-- copy of the lower right block, :244-248 -/
def lukCopy (e X22 ldx A lda : ℕ) : Prog K Unit := loop e fun i => loop e fun j => do
  let x ← load (X22 + i * ldx + j)
  store (A + i * lda + j) x

/-- the matrix induced on the quotient by the Krylov space, :225-250 -/
def lukReduce (g : GemmFn K) (ts : TrsmFn K) (n k A lda X2 ldx : ℕ) (P : Arr ℕ) : Prog K Unit := do
  let e := n - k
  let X21 := X2 + k * ldx
  let X22 := X21 + k
  applyP .right .yes n 0 k A lda P
  lukCopyT n e (A + k) lda X21 ldx
  applyP .right .no n 0 k A lda P
  applyP .right .yes e 0 k X21 ldx P
  ts .right .upper .no .unit e k 1 X2 ldx X21 ldx
  lukCopy e X22 ldx A lda
  g .no .no e e k (-1) X21 ldx (X2 + k) ldx 1 A lda

/-- `LUKrylov`, ffpack_charpoly.inl:185-256: the loop `while (Ncurr > 0)` with `n = Ncurr` and the list found so far; `rnd n` is the
vector drawn when `Ncurr = n`.  The first argument bounds the number of iterations. -/
def lukLoop (jk : ℕ → ℕ) (rnd : ℕ → ℕ → K) (cat : Cat) (g : GemmFn K) (ts : TrsmFn K) (A lda ldx : ℕ) :
    ℕ → ℕ → ℕ → List (List K) → Prog K (List (List K))
  | 0, _, _, _ => Prog.fault .fuel
  | f+1, n, X2, charp =>
    if n = 0 then pure charp
    else do
      let v ← alloc n
      drawVec n v (rnd n)
      let (minP, P) ← mvMinPoly cat g ts n A lda v 1 X2 ldx (Arr.mk' n jk)
      free v n
      let (minP, k) ← lukZero n A lda minP
      if k = n then pure (minP :: charp)
      else do
        lukReduce g ts n k A lda X2 ldx P
        lukLoop jk rnd cat g ts A lda ldx f (n - k) (X2 + k * ldx + k) (minP :: charp)

/-- `CharPoly` with `FfpackLUK`, :77-83 (and the default case, :131-137) -/
def charPolyLUK (jk : ℕ → ℕ) (rnd : ℕ → ℕ → K) (cat : Cat) (g : GemmFn K) (ts : TrsmFn K) (N A lda : ℕ) : Prog K (List (List K)) := do
  let X ← alloc (N * (N + 1))
  let L ← lukLoop jk rnd cat g ts A lda N (N + 1) N X []
  free X (N * (N + 1))
  pure L

/-- `FFPACK_CHARPOLY_TAG`, ffpack.h.  `FfpackHybrid`, `FfpackKG`, `FfpackKGFast`, `FfpackKGFastG`, `FfpackArithProg` are `other`. -/
inductive CpTag
  | auto | danilevski | luk | arithProgKrylovPrecond | other
deriving DecidableEq

/-- the tag with `FfpackAuto` resolved, :66-74 (the branch for `FfpackLUK` repeats the condition and is never taken) -/
def cpAuto (tag : CpTag) (N degree : ℕ) : CpTag :=
  if tag = .auto then (if N < degree then .danilevski else .arithProgKrylovPrecond) else tag

/-- `CharPoly` with a list as result, :51-139; `char` is the characteristic; `prec` stands for the algorithm behind
`FfpackArithProgKrylovPrecond` when the characteristic is at least `N`, and `oth` for the algorithms that are not modelled. -/
def charPolyList (prec oth : Prog K (List (List K))) (jk : ℕ → ℕ) (rnd : ℕ → ℕ → K) (cat : Cat) (g : GemmFn K) (ts : TrsmFn K) (char : ℕ)
    (tag : CpTag) (degree N A lda : ℕ) : Prog K (List (List K)) :=
  let tag := cpAuto tag N degree
  if tag = .danilevski then danilevski cat N A lda
  else if tag = .luk then charPolyLUK jk rnd cat g ts N A lda
  else if tag = .arithProgKrylovPrecond then (if char < N then charPolyLUK jk rnd cat g ts N A lda else prec)
  else oth

/-- `CharPoly` with one polynomial as result, :142-172; `mulin` is the product of the polynomial ring (of Givaro).  The checker is
empty unless the library is compiled with the checkers; dereferencing the first element of an empty list is a fault. -/
def charPoly (mulin : List K → List K → List K) (prec oth : Prog K (List (List K))) (jk : ℕ → ℕ) (rnd : ℕ → ℕ → K) (cat : Cat)
    (g : GemmFn K) (ts : TrsmFn K) (char : ℕ) (tag : CpTag) (degree N A lda : ℕ) : Prog K (List K) :=
  if N = 0 then pure [1]
  else do
    let L ← charPolyList prec oth jk rnd cat g ts char tag degree N A lda
    match L with
    | [] => Prog.fault .oob
    | p :: L => pure (L.foldl mulin p)

end Verif.FF
