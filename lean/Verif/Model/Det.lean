import Verif.Model.Pluq

/-!
# Determinant

/repo/fflas-ffpack/ffpack/ffpack.inl:113-151.
-/

namespace Verif.FF

variable {K : Type} [Field K] [DecidableEq K]

/-- `for (i = 0; i < N; ++i) { if (P[i] != i) ++count; if (Q[i] != i) ++count; }`, ffpack.inl:138-142.  `count` is an `int`: the
model uses ℕ, equal as long as `2 N < 2^31`. -/
def countExchanges (N : ℕ) (P Q : Arr ℕ) : Except Fault ℕ :=
  iter N (fun i count => do
    let p ← P.rd i
    let q ← Q.rd i
    let count := if p ≠ i then count + 1 else count
    pure (if q ≠ i then count + 1 else count)) 0

/-- the product of the diagonal, ffpack.inl:134-137: `A`, `A + (lda+1)`, … below `A + N (lda+1)` -/
def mulDiag (N A lda : ℕ) : Prog K K :=
  iter N (fun k det => do
    let x ← load (A + k * (lda + 1))
    pure (det * x)) 1

/-- `Det`, ffpack.inl:113-151.  `PQ` is `none` when `P` or `Q` is null; the permutation arrays are returned when supplied. -/
def det (cat : Cat) (g : GemmFn K) (ts : TrsmFn K) (thr : ℕ) (jk : List ℕ → ℕ → ℕ) (N A lda : ℕ) (PQ : Option (Arr ℕ × Arr ℕ)) :
    Prog K (K × Option (Arr ℕ × Arr ℕ)) :=
  if N = 0 then pure (1, PQ)
  else do
    let (P, Q) := PQ.getD (Arr.mk' N (jk [0]), Arr.mk' N (jk [1]))
    let (R, P, Q) ← pluq cat g ts thr (fun l => jk (2 :: l)) .nonUnit N N A lda P Q
    let PQ := PQ.map (fun _ => (P, Q))
    if R < N then pure (0, PQ)
    else do
      let det ← mulDiag N A lda
      let count ← liftE (countExchanges N P Q)
      pure (if count % 2 = 1 then -det else det, PQ)

end Verif.FF
