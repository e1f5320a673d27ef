import Verif.Model.Checkers
import Verif.Model.Det
import Verif.Model.CharPoly

/-!
# Checkers of the determinant and of the characteristic polynomial

/repo/fflas-ffpack/checkers/checker_det.inl and checker_charpoly.inl.  As in `Model/Checkers.lean` the random generator is a
function from the index of the draw to the element drawn, and a `throw` is a result (`false` or `none`).
-/

namespace Verif.FF

variable {K : Type} [Field K] [DecidableEq K]

/-- construction of a `CheckerImplem_Det`, checker_det.inl:52-73 and `init`, :150-172: addresses of `u` (`n × 2`, the second column is
`v`) and `w`, and the values `du`, `dv`.  `frand(F,G,n,2,u,2)` has `lda = n`, so it is the vector version on `2 n` entries
(/repo/fflas-ffpack/fflas/fflas_level2.inl:124-131). -/
def checkDetInit (cat : Cat) (rnd : ℕ → K) (n A lda : ℕ) : Prog K (ℕ × ℕ × K × K) := do
  let u ← alloc (n * 2)
  let w ← alloc n
  vzero (n * 2) u 1
  vzero n w 1
  frand rnd (n * 2) u
  frand (fun j => rnd (n * 2 + j)) n w
  let t ← alloc n
  vzero n t 1
  fgemv cat .yes n n 1 A lda w 1 0 t 1
  let du ← vdot n u 2 t 1
  let dv ← vdot n (u + 1) 2 t 1
  free t n
  pure (u, w, du, dv)

/-- the diagonal of `check`, checker_det.inl:126-131: the pointer runs from `LU` by `lda + 1` below `LU + n lda + n`, which gives `n`
entries -/
def checkDetDiag (n LU lda : ℕ) : Prog K K :=
  iter n (fun i dd => do
    let x ← load (LU + i * (lda + 1))
    pure (dd * x)) 1

/-- `for (i = 0; i < n; ++i) if (P[i] != i) ++count;`, checker_det.inl:133-137 -/
def countMoved (n : ℕ) (P : Arr ℕ) (count : ℕ) : Except Fault ℕ :=
  iter n (fun i count => do
    let p ← P.rd i
    pure (if p ≠ i then count + 1 else count)) count

/-- `CheckerImplem_Det::check`, checker_det.inl:86-146.  Where it throws the model returns `false`.  The vectors `u`, `v`, `w` of
the checker are overwritten. -/
def checkDet (tm : Side → Uplo → Tr → Diag → ℕ → ℕ → K → ℕ → ℕ → ℕ → ℕ → Prog K Unit) (u w : ℕ) (du dv : K) (n : ℕ) (det : K)
    (LU lda : ℕ) (P Q : Arr ℕ) : Prog K Bool := do
  applyP .left .no 2 0 n u 2 Q
  applyP .right .yes 1 0 n w 1 P
  tm .left .upper .no .nonUnit n 2 1 LU lda u 2
  tm .right .lower .no .unit 1 n 1 LU lda w n
  let zu ← vdot n w 1 u 2
  let zv ← vdot n w 1 (u + 1) 2
  if ¬ (zu = du ∧ zv = dv) then pure false
  else do
    let dd ← checkDetDiag n LU lda
    let count ← liftE (countMoved n P 0)
    let count ← liftE (countMoved n Q count)
    let dd := if count % 2 = 1 then -dd else dd
    pure (decide (dd = det))

/-- a determinant computation `body`, in place, between the construction of a `CheckerImplem_Det` and its `check`; then the
destructor, checker_det.inl:75-77 -/
def detChecked (cat : Cat) (rnd : ℕ → K) (tm : Side → Uplo → Tr → Diag → ℕ → ℕ → K → ℕ → ℕ → ℕ → ℕ → Prog K Unit)
    (body : Prog K (K × Arr ℕ × Arr ℕ)) (n A lda : ℕ) : Prog K (Bool × K × Arr ℕ × Arr ℕ) := do
  let (u, w, du, dv) ← checkDetInit cat rnd n A lda
  let (det, P, Q) ← body
  let pass ← checkDet tm u w du dv n det A lda P Q
  free u (n * 2)
  free w n
  pure (pass, det, P, Q)

/-! ### characteristic polynomial -/

/-- construction of a `CheckerImplem_charpoly`, `init`, checker_charpoly.inl:88-153: the value `det`, or `none` where it throws (in
this case the block `Ac` is not freed).  `lam` is the random element, `rnd` are the draws of the PLUQ checker, which the checker
forces (:110-131). -/
def charpolyCheckInit (cat : Cat) (lam : K) (rnd : ℕ → K) (g : GemmFn K)
    (tm : Side → Uplo → Tr → Diag → ℕ → ℕ → K → ℕ → ℕ → ℕ → ℕ → Prog K Unit) (ts : TrsmFn K) (thr : ℕ) (jk : List ℕ → ℕ → ℕ)
    (n A lda : ℕ) : Prog K (Option K) := do
  let Ac ← alloc (n * n)
  vzero (n * n) Ac 1
  fassign n n A lda Ac n
  loop n fun i => do
    let x ← load (Ac + i * n + i)
    store (Ac + i * n + i) (x - lam)
  let (pass, _, P, Q) ← pluqChecked cat rnd g tm
    (pluq cat g ts thr (fun l => jk (2 :: l)) .nonUnit n n Ac n (Arr.mk' n (jk [0])) (Arr.mk' n (jk [1]))) .nonUnit n n Ac n
  if pass = false then pure none
  else do
    let det ← load Ac
    let det ← iter (n - 1) (fun t det => do
      let x ← load (Ac + (t + 1) * n + (t + 1))
      pure (det * x)) det
    let det := if n % 2 = 1 then -det else det
    let t ← liftE (countExchanges n P Q)
    let det := if t % 2 = 1 then -det else det
    free Ac (n * n)
    pure (some det)

/-- `CheckerImplem_charpoly::check`, checker_charpoly.inl:62-85: Horner evaluation from the coefficient of highest index -/
def charpolyCheck (lam det : K) (g : List K) : Bool :=
  decide (g.foldr (fun a h => h * lam + a) 0 = det)

/-- `CharPoly`, /repo/fflas-ffpack/ffpack/ffpack_charpoly.inl:149-178, compiled with the checker, around the computation `body` of
the polynomial; `none` where the checker throws. -/
def charPolyChecked (cat : Cat) (lam : K) (rnd : ℕ → K) (g : GemmFn K)
    (tm : Side → Uplo → Tr → Diag → ℕ → ℕ → K → ℕ → ℕ → ℕ → ℕ → Prog K Unit) (ts : TrsmFn K) (thr : ℕ) (jk : List ℕ → ℕ → ℕ)
    (body : Prog K (List K)) (n A lda : ℕ) : Prog K (Option (List K)) :=
  if n = 0 then pure (some [1])
  else do
    match ← charpolyCheckInit cat lam rnd g tm ts thr jk n A lda with
    | none => pure none
    | some det => do
      let charp ← body
      pure (if charpolyCheck lam det charp then some charp else none)

end Verif.FF
