import Verif.Model.LUdivine
import Verif.Model.Danilevski

/-!
# Minimal polynomials of a matrix and a vector

/repo/fflas-ffpack/ffpack/ffpack_ludivine.inl (`LUdivine_construct`) and ffpack_minpoly.inl.  `LUdivine_construct` is only
modelled for the arguments `FflasUnit` and `FfpackDense` of its calls in `MatVecMinPoly`.  Polynomials are lists of
coefficients, constant term first.
-/

namespace Verif.FF

open Verif.Perm

variable {K : Type} [Field K] [DecidableEq K]

/-- one row or one column, ffpack_ludivine.inl:650-675 -/
def conBase (cat : Cat) (M N A X ldx : ℕ) (P : Arr ℕ) (cx : Bool) : Prog K (ℕ × Arr ℕ) := do
  let ip ← scanCol X 1 N (N + 1) 0
  if ip = N then do
    let P ← liftE (P.wr 0 0)
    pure (0, P)
  else do
    let P ← liftE (P.wr 0 ip)
    let _ ← (if ip ≠ 0 then do
        let x ← load (X + ip)
        store X x
        store (X + ip) 0
      else pure ())
    let x ← load X
    let invpiv ← liftE (invE x)
    vscalin cat (N - 1) invpiv (X + 1) 1
    let _ ← (if N = 1 ∧ 1 < M ∧ cx = true then do
        let x ← load X
        let a ← load A
        store (X + ldx) (x * a)
      else pure ())
    pure (1, P)

/-- the next `n` Krylov iterates are written in the rows from `Xr` on, ffpack_ludivine.inl:688-694 -/
def conKrylov (cat : Cat) (N n A lda Xr ldx u incu : ℕ) : Prog K Unit :=
  loop n fun i => do
    fgemv cat .no N N 1 A lda u incu 0 (Xr + i * ldx) 1
    vassign N (Xr + i * ldx) 1 u incu

/-- type of the recursive calls: `M N X P computeX` -/
abbrev ConFn (K : Type) := ℕ → ℕ → ℕ → Arr ℕ → Bool → Prog K (ℕ × Arr ℕ)

/-- elimination of the lower rows when the upper ones are independent, ffpack_ludivine.inl:702-726; there `R = Nup`.  The
casts `(int) R` are the identity (ranks below 2^31). -/
def conTail (g : GemmFn K) (ts : TrsmFn K) (rec : ConFn K) (N Nup Ndown X ldx : ℕ) (P : Arr ℕ) : Prog K (ℕ × Arr ℕ) := do
  let Xr := X + Nup * ldx
  let Xc := X + Nup
  let Xn := Xr + Nup
  applyP .right .yes Ndown 0 Nup Xr ldx P
  ts .right .upper .no .unit Ndown Nup 1 X ldx Xr ldx
  g .no .no Ndown (N - Nup) Nup (-1) Xr ldx Xc ldx 1 Xn ldx
  let P2 ← liftE (tailA P Nup)
  let (R2, P2) ← rec Ndown (N - Nup) Xn P2 false
  let P ← liftE (addFrom (spliceA P Nup P2) Nup (Nup + R2) Nup)
  applyP .right .yes Nup Nup (Nup + R2) X ldx P
  pure (Nup + R2, P)

/-- the recursive case, ffpack_ludivine.inl:676-733 -/
def conStep (cat : Cat) (g : GemmFn K) (ts : TrsmFn K) (rec : ConFn K) (A lda ldx u incu M N X : ℕ) (P : Arr ℕ) (cx : Bool) :
    Prog K (ℕ × Arr ℕ) := do
  let Nup := min M N / 2
  let Ndown := M - Nup
  let (R, P) ← rec Nup N X P cx
  if R = Nup then do
    let _ ← (if cx = true then conKrylov cat N Ndown A lda (X + Nup * ldx) ldx u incu else pure ())
    conTail g ts rec N Nup Ndown X ldx P
  else pure (R, P)

/-- `LUdivine_construct`, ffpack_ludivine.inl:633-734.  The first argument bounds the recursion depth. -/
def conRec (cat : Cat) (g : GemmFn K) (ts : TrsmFn K) (A lda ldx u incu : ℕ) : ℕ → ConFn K
  | 0 => fun _ _ _ _ _ => Prog.fault .fuel
  | f+1 => fun M N X P cx =>
    if min M N = 1 then conBase cat M N A X ldx P cx
    else conStep cat g ts (conRec cat g ts A lda ldx u incu f) A lda ldx u incu M N X P cx

/-- `k==1 && F.isZero (*(K+ldk))`, ffpack_minpoly.inl:107 -/
def minIsX (Kp ldk k : ℕ) : Prog K Bool :=
  if k = 1 then do
    let x ← load (Kp + ldk)
    pure (decide (x = 0))
  else pure false

/-- `Protected::MatVecMinPoly`, ffpack_minpoly.inl:86-118 -/
def mvMinPoly (cat : Cat) (g : GemmFn K) (ts : TrsmFn K) (N A lda v incv Kp ldk : ℕ) (P : Arr ℕ) : Prog K (List K × Arr ℕ) := do
  vassign N v incv Kp 1
  let (k, P) ← conRec cat g ts A lda ldk v incv (N + 2) (N + 1) N Kp P true
  let z ← minIsX Kp ldk k
  if z = true then pure ([0, 1], P)
  else do
    ftrsv .lower .yes .nonUnit k Kp ldk (Kp + k * ldk) 1
    let c ← danCoeffs (Kp + k * ldk) 1 k
    pure (c ++ [1], P)

/-- `MatVecMinPoly`, ffpack_minpoly.inl:61-82; `jk` is the contents of the array `P` when it is allocated -/
def matVecMinPoly (jk : ℕ → ℕ) (cat : Cat) (g : GemmFn K) (ts : TrsmFn K) (N A lda v incv : ℕ) : Prog K (List K) := do
  let Kp ← alloc ((N + 1) * N)
  let u ← alloc N
  vassign N v incv u 1
  let (l, _) ← mvMinPoly cat g ts N A lda u 1 Kp N (Arr.mk' N jk)
  free u N
  free Kp ((N + 1) * N)
  pure l

/-- `MinPoly`, ffpack_minpoly.inl:39-59.  The random vector drawn by `NonZeroRandomMatrix` is the argument `rnd`. -/
def minPoly (jk : ℕ → ℕ) (rnd : ℕ → K) (cat : Cat) (g : GemmFn K) (ts : TrsmFn K) (N A lda : ℕ) : Prog K (List K) :=
  if N = 0 then pure [1]
  else do
    let v ← alloc N
    loop N fun i => store (v + i) (rnd i)
    let l ← matVecMinPoly jk cat g ts N A lda v 1
    free v N
    pure l

end Verif.FF
