import Verif.Core.Heap
import Mathlib.Algebra.Ring.Basic

/-!
# Vector and elementwise matrix kernels

Models of the level-1 routines and of the elementwise level-2 routines of `fflas`.  Pointers, increments and leading
dimensions are kept; entries live in memory (`Core/Mem.lean`).  Field arithmetic (`F.add`, `F.mul`, `F.axpyin`, ...)
is arithmetic in a commutative ring `K`; `F.isZero`, `F.isOne`, `F.isMOne` are decidable equalities.  SIMD blocks and
`cblas` calls process the same entries in the same order and are modelled by the scalar loop they replace.

One-dimensional routines are prefixed by `v` (`vadd` is `fadd` on vectors), two-dimensional ones keep their name.
-/

namespace Verif.FF

variable {K : Type} [CommRing K] [DecidableEq K]

/-- Field category (`FieldTraits<Field>::category`, /repo/fflas-ffpack/field/field-traits.h:207-310) selecting the
specialised kernels: `modular` for `Modular`/`ModularBalanced` over types with a fast reduction, `generic` for every
field that has no specialisation. -/
inductive Cat where
  | modular
  | generic
  deriving DecidableEq

/-- Number of iterations of `for (; Xi < X + n*incX; Xi += incX)`. -/
def cnt (n inc : ℕ) : ℕ := if inc = 0 then 0 else n

/-- `fnegin`, /repo/fflas-ffpack/fflas/fflas_level1.inl:130-138. -/
def vnegin (n X incX : ℕ) : Prog K Unit :=
  loop (cnt n incX) fun i => do
    let x ← load (X + i * incX)
    store (X + i * incX) (-x)

/-- `fneg`, /repo/fflas-ffpack/fflas/fflas_level1.inl:150-160: `X ← -Y`. -/
def vneg (n Y incY X incX : ℕ) : Prog K Unit :=
  loop (cnt n incX) fun i => do
    let y ← load (Y + i * incY)
    store (X + i * incX) (-y)

/-- `fzero`, /repo/fflas-ffpack/fflas/fflas_level1.inl:168-183. -/
def vzero (n X incX : ℕ) : Prog K Unit :=
  if incX = 1 then loop n fun i => store (X + i) 0
  else loop n fun i => store (X + i * incX) 0

/-- `fiszero`, /repo/fflas-ffpack/fflas/fflas_level1.inl:214-224 (the short-circuited `&&` still calls no further test,
but the cell is dereferenced only when evaluated; an early `false` stops the reads). -/
def viszero (n X incX : ℕ) : Prog K Bool :=
  iter n (fun i res => if res then do
      let x ← load (X + i * incX)
      pure (decide (x = 0))
    else pure false) true

/-- `fequal`, /repo/fflas-ffpack/fflas/fflas_level1.inl:234-244. -/
def vequal (n X incX Y incY : ℕ) : Prog K Bool :=
  iter n (fun i res => if res then do
      let x ← load (X + i * incX)
      let y ← load (Y + i * incY)
      pure (decide (x = y))
    else pure false) true

/-- `fassign`, /repo/fflas-ffpack/fflas/fflas_fassign.inl:46-64: `X ← Y`. -/
def vassign (n Y incY X incX : ℕ) : Prog K Unit :=
  if incX = 1 ∧ incY = 1 then loop n fun i => do
    let y ← load (Y + i)
    store (X + i) y
  else loop (cnt n incX) fun i => do
    let y ← load (Y + i * incY)
    store (X + i * incX) y

/-- `fswap`, /repo/fflas-ffpack/fflas/fflas_level1.inl:376-391. -/
def vswap (n X incX Y incY : ℕ) : Prog K Unit :=
  loop (cnt n incX) fun i => do
    let tmp ← load (X + i * incX)
    let y ← load (Y + i * incY)
    store (X + i * incX) y
    store (Y + i * incY) tmp

/-- contiguous `vectorised::scalp`, /repo/fflas-ffpack/fflas/fflas_fscal.inl:40-104 (vector lanes as scalar
iterations; `reduce(alpha*U[i])` is multiplication in the field). -/
def scalp (T : ℕ) (alpha : K) (U n : ℕ) : Prog K Unit :=
  loop n fun i => do
    let u ← load (U + i)
    store (T + i) (alpha * u)

/-- strided in-place `vectorised::scalp`, /repo/fflas-ffpack/fflas/fflas_fscal.inl:106-116. -/
def scalpInc (T : ℕ) (alpha : K) (U n incX : ℕ) : Prog K Unit :=
  loop (cnt n incX) fun i => do
    let u ← load (U + i * incX)
    store (T + i * incX) (alpha * u)

/-- strided `vectorised::scalp`, /repo/fflas-ffpack/fflas/fflas_fscal.inl:118-129. -/
def scalpInc2 (T : ℕ) (alpha : K) (U n incX incY : ℕ) : Prog K Unit :=
  loop (cnt n incX) fun i => do
    let u ← load (U + i * incX)
    store (T + i * incY) (alpha * u)

/-- `FFLASFFPACK_COPY_REDUCE`, /repo/fflas-ffpack/fflas/fflas_freduce.inl:37. -/
def copyReduce : ℕ := 32

/-- `fscalin`: generic version /repo/fflas-ffpack/fflas/fflas_fscal.inl:272-298, modular version :175-199 (strided long
vectors are copied to a contiguous temporary and back). -/
def vscalin (cat : Cat) (n : ℕ) (a : K) (X incX : ℕ) : Prog K Unit :=
  match cat with
  | .generic =>
    if a = 1 then pure ()
    else if a = -1 then vnegin n X incX
    else if a = 0 then vzero n X incX
    else if incX = 1 then loop n fun i => do
      let x ← load (X + i)
      store (X + i) (x * a)
    else loop (cnt n incX) fun i => do
      let x ← load (X + i * incX)
      store (X + i * incX) (x * a)
  | .modular =>
    if incX = 1 then scalp X a X n
    else if n < copyReduce then scalpInc X a X n incX
    else do
      let Xc ← alloc n
      vassign n X incX Xc 1
      scalp Xc a Xc n
      vassign n Xc 1 X incX
      free Xc n

/-- `fscal`: generic version /repo/fflas-ffpack/fflas/fflas_fscal.inl:302-330, modular version :202-269: `Y ← a X`. -/
def vscal (cat : Cat) (n : ℕ) (a : K) (X incX Y incY : ℕ) : Prog K Unit :=
  if a = 1 then vassign n X incX Y incY
  else if a = -1 then vneg n X incX Y incY
  else if a = 0 then vzero n Y incY
  else match cat with
  | .generic =>
    if incX = 1 ∧ incY = 1 then loop n fun i => do
      let x ← load (X + i)
      store (Y + i) (a * x)
    else loop (cnt n incX) fun i => do
      let x ← load (X + i * incX)
      store (Y + i * incY) (a * x)
  | .modular =>
    if incX = 1 ∧ incY = 1 then scalp Y a X n
    else if n < copyReduce then scalpInc2 Y a X n incX incY
    else do
      let Xc ← (if incX ≠ 1 then do
          let Xc ← alloc n
          vassign n X incX Xc 1
          pure Xc
        else pure X)
      let Yc ← (if incY ≠ 1 then do
          let Yc ← alloc n
          vassign n Y incY Yc 1
          pure Yc
        else pure Y)
      scalp Yc a Xc n
      (if incY ≠ 1 then do
        vassign n Yc 1 Y incY
        free Yc n
      else pure ())
      (if incX ≠ 1 then free Xc n else pure ())

/-- The specialisation of `fscal` for `Givaro::DoubleDomain` and `Givaro::FloatDomain`,
/repo/fflas-ffpack/fflas/fflas_fscal.inl:361-387: `cblas_dcopy(N, x, incy, y, incy)` then `cblas_dscal`.  `x` is read
with the increment of `y`. -/
def vscalDouble (n : ℕ) (a : K) (X _incX Y incY : ℕ) : Prog K Unit := do
  loop n fun i => do
    let x ← load (X + i * incY)
    store (Y + i * incY) x
  loop n fun i => do
    let y ← load (Y + i * incY)
    store (Y + i * incY) (a * y)

/-- `details::fadd<Field, ADD>`: modular version /repo/fflas-ffpack/fflas/fflas_fadd.inl:290-343, generic version
:347-373.  The generic strided loop calls `F.add` whether `ADD` holds or not. -/
def vaddsub (cat : Cat) (ADD : Bool) (n A incA B incB C incC : ℕ) : Prog K Unit :=
  if incA = 1 ∧ incB = 1 ∧ incC = 1 then loop n fun i => do
    let a ← load (A + i)
    let b ← load (B + i)
    store (C + i) (if ADD then a + b else a - b)
  else loop n fun i => do
    let a ← load (A + i * incA)
    let b ← load (B + i * incB)
    store (C + i * incC) (match cat with
      | .modular => if ADD then a + b else a - b
      | .generic => if ADD then a + b else a + b)

/-- `fadd`, /repo/fflas-ffpack/fflas/fflas_fadd.h:60-69. -/
def vadd (cat : Cat) (n A incA B incB C incC : ℕ) : Prog K Unit := vaddsub cat true n A incA B incB C incC
/-- `fsub`, /repo/fflas-ffpack/fflas/fflas_fadd.h:83-93. -/
def vsub (cat : Cat) (n A incA B incB C incC : ℕ) : Prog K Unit := vaddsub cat false n A incA B incB C incC
/-- `faddin`, /repo/fflas-ffpack/fflas/fflas_fadd.h:73-81. -/
def vaddin (cat : Cat) (n B incB C incC : ℕ) : Prog K Unit := vadd cat n B incB C incC C incC
/-- `fsubin`, /repo/fflas-ffpack/fflas/fflas_fadd.h:97-105. -/
def vsubin (cat : Cat) (n B incB C incC : ℕ) : Prog K Unit := vsub cat n C incC B incB C incC

/-- contiguous `vectorised::axpyp`, /repo/fflas-ffpack/fflas/fflas_faxpy.inl:46-109. -/
def axpyp (a : K) (X Y n : ℕ) : Prog K Unit :=
  loop n fun i => do
    let x ← load (X + i)
    let y ← load (Y + i)
    store (Y + i) (a * x + y)

/-- strided `vectorised::axpyp`, /repo/fflas-ffpack/fflas/fflas_faxpy.inl:112-121. -/
def axpypInc (a : K) (X Y n incX incY : ℕ) : Prog K Unit :=
  loop (cnt n incX) fun i => do
    let x ← load (X + i * incX)
    let y ← load (Y + i * incY)
    store (Y + i * incY) (a * x + y)

/-- `faxpy`: generic version /repo/fflas-ffpack/fflas/fflas_faxpy.inl:211-233, modular version :155-208:
`Y ← a X + Y`. -/
def vaxpy (cat : Cat) (n : ℕ) (a : K) (X incX Y incY : ℕ) : Prog K Unit :=
  match cat with
  | .generic =>
    if a = 0 then pure ()
    else if a = 1 then vaddin cat n X incX Y incY
    else if a = -1 then vsubin cat n X incX Y incY
    else axpypInc a X Y n incX incY
  | .modular =>
    if incX = 1 ∧ incY = 1 then axpyp a X Y n
    else if n < copyReduce then axpypInc a X Y n incX incY
    else do
      let Xc ← (if incX ≠ 1 then do
          let Xc ← alloc n
          vassign n X incX Xc 1
          pure Xc
        else pure X)
      let Yc ← (if incY ≠ 1 then do
          let Yc ← alloc n
          vassign n Y incY Yc 1
          pure Yc
        else pure Y)
      axpyp a Xc Yc n
      (if incY ≠ 1 then do
        vassign n Yc 1 Y incY
        free Yc n
      else pure ())
      (if incX ≠ 1 then free Xc n else pure ())

/-- `fadd` with a coefficient, /repo/fflas-ffpack/fflas/fflas_fadd.h:108-137: `C ← A + alpha B`. -/
def vaddmul (cat : Cat) (n A incA : ℕ) (alpha : K) (B incB C incC : ℕ) : Prog K Unit :=
  if C = A ∧ incA = incC then vaxpy cat n alpha B incB C incC
  else if alpha = 1 then vadd cat n A incA B incB C incC
  else if alpha = -1 then vsub cat n A incA B incB C incC
  else if alpha = 0 then vassign n A incA C incC
  else if incA = 1 ∧ incB = 1 ∧ incC = 1 then loop n fun i => do
    let b ← load (B + i)
    store (C + i) (alpha * b)
    let a ← load (A + i)
    let c ← load (C + i)
    store (C + i) (c + a)
  else loop (cnt n incA) fun i => do
    let b ← load (B + i * incB)
    store (C + i * incC) (alpha * b)
    let a ← load (A + i * incA)
    let c ← load (C + i * incC)
    store (C + i * incC) (c + a)

/-- `fdot`, /repo/fflas-ffpack/fflas/fflas_fdot.inl:38-55 (`DefaultTag`). -/
def vdot (n X incX Y incY : ℕ) : Prog K K :=
  iter (cnt n incX) (fun i d => do
    let x ← load (X + i * incX)
    let y ← load (Y + i * incY)
    pure (d + x * y)) 0

/-- The block loop of the delayed `fdot`, /repo/fflas-ffpack/fflas/fflas_fdot.inl:84-87; `fuel` bounds the number of
blocks (`n` suffices as `D ≥ 1`). -/
def vdotBlocks (D n incX incY : ℕ) : ℕ → ℕ → ℕ → ℕ → K → Prog K (ℕ × ℕ × ℕ × K)
  | 0, i, xi, yi, d => pure (i, xi, yi, d)
  | fuel+1, i, xi, yi, d =>
    if i < n then do
      let dp ← vdot D xi incX yi incY
      vdotBlocks D n incX incY fuel (i + D) (xi + incX * D) (yi + incY * D) (d + dp)
    else pure (i, xi, yi, d)

/-- `fdot`, /repo/fflas-ffpack/fflas/fflas_fdot.inl:57-92 (`DelayedTag`) with block length `D = delayedDim`.  Over the
integers each block is exact (`DotProdBoundClassic`, property C05), so the value is the one in the field. -/
def vdotDelayed (D n X incX Y incY : ℕ) : Prog K K :=
  if D = 0 then vdot n X incX Y incY
  else do
    let (i, xi, yi, d) ← vdotBlocks D n incX incY n D X Y 0
    let len ← liftE (usub (n + D) i)
    let dp ← vdot len xi incX yi incY
    pure (d + dp)

/-! ## Two-dimensional versions -/

/-- `fzero`, /repo/fflas-ffpack/fflas/fflas_level2.inl:66-81. -/
def fzero (m n A lda : ℕ) : Prog K Unit :=
  if n = lda then vzero (m * n) A 1
  else loop m fun i => vzero n (A + i * lda) 1

/-- `fassign`, /repo/fflas-ffpack/fflas/fflas_fassign.inl:163-182: `A ← B`. -/
def fassign (m n B ldb A lda : ℕ) : Prog K Unit :=
  if m = 0 ∨ n = 0 then pure ()
  else if lda = n ∧ ldb = n then vassign (m * n) B 1 A 1
  else loop m fun i => vassign n (B + i * ldb) 1 (A + i * lda) 1

/-- `fnegin`, /repo/fflas-ffpack/fflas/fflas_level2.inl:298-307. -/
def fnegin (m n A lda : ℕ) : Prog K Unit := loop m fun i => vnegin n (A + i * lda) 1

/-- `fneg`, /repo/fflas-ffpack/fflas/fflas_level2.inl:318-328: `A ← -B`. -/
def fneg (m n B ldb A lda : ℕ) : Prog K Unit := loop m fun i => vneg n (B + i * ldb) 1 (A + i * lda) 1

/-- `fequal`, /repo/fflas-ffpack/fflas/fflas_level2.inl:147-157. -/
def fequal (m n A lda B ldb : ℕ) : Prog K Bool :=
  iter m (fun i res => do
    let b ← vequal n (A + i * lda) 1 (B + i * ldb) 1
    pure (res && b)) true

/-- `fiszero`, /repo/fflas-ffpack/fflas/fflas_level2.inl:165-174. -/
def fiszero (m n A lda : ℕ) : Prog K Bool :=
  iter m (fun i res => do
    let b ← viszero n (A + i * lda) 1
    pure (res && b)) true

/-- `fidentity`, /repo/fflas-ffpack/fflas/fflas_level2.inl:177-186. -/
def fidentity (m n A lda : ℕ) (d : K) : Prog K Unit := do
  fzero m n A lda
  loop (min m n) fun i => store (A + i * lda + i) d

/-- `fscalin`, /repo/fflas-ffpack/fflas/fflas_fscal.inl:419-447. -/
def fscalin (cat : Cat) (m n : ℕ) (a : K) (A lda : ℕ) : Prog K Unit :=
  if a = 1 then pure ()
  else if a = 0 then fzero m n A lda
  else if a = -1 then fnegin m n A lda
  else if lda = n then vscalin cat (n * m) a A 1
  else loop m fun i => vscalin cat n a (A + i * lda) 1

/-- `fscal`, /repo/fflas-ffpack/fflas/fflas_fscal.inl:449-475: `B ← a A`. -/
def fscal (cat : Cat) (m n : ℕ) (a : K) (A lda B ldb : ℕ) : Prog K Unit :=
  if a = 1 then fassign m n A lda B ldb
  else if a = 0 then fzero m n B ldb
  else if a = -1 then fneg m n A lda B ldb
  else if n = lda ∧ n = ldb then vscal cat (m * n) a A 1 B 1
  else loop m fun i => vscal cat n a (A + i * lda) 1 (B + i * ldb) 1

/-- `fadd`, /repo/fflas-ffpack/fflas/fflas_fadd.h:213-226. -/
def fadd (cat : Cat) (m n A lda B ldb C ldc : ℕ) : Prog K Unit :=
  if n = lda ∧ n = ldb ∧ n = ldc then vadd cat (m * n) A 1 B 1 C 1
  else loop (cnt m lda) fun i => vadd cat n (A + i * lda) 1 (B + i * ldb) 1 (C + i * ldc) 1

/-- `fsub`, /repo/fflas-ffpack/fflas/fflas_fadd.h:228-241. -/
def fsub (cat : Cat) (m n A lda B ldb C ldc : ℕ) : Prog K Unit :=
  if n = lda ∧ n = ldb ∧ n = ldc then vsub cat (m * n) A 1 B 1 C 1
  else loop (cnt m lda) fun i => vsub cat n (A + i * lda) 1 (B + i * ldb) 1 (C + i * ldc) 1

/-- `faddin`, /repo/fflas-ffpack/fflas/fflas_fadd.h:243-255. -/
def faddin (cat : Cat) (m n B ldb C ldc : ℕ) : Prog K Unit :=
  if n = ldb ∧ n = ldc then vaddin cat (m * n) B 1 C 1
  else loop (cnt m ldb) fun i => vaddin cat n (B + i * ldb) 1 (C + i * ldc) 1

/-- `fsubin`, /repo/fflas-ffpack/fflas/fflas_fadd.h:277-289. -/
def fsubin (cat : Cat) (m n B ldb C ldc : ℕ) : Prog K Unit :=
  if n = ldb ∧ n = ldc then vsubin cat (m * n) B 1 C 1
  else loop (cnt m ldb) fun i => vsubin cat n (B + i * ldb) 1 (C + i * ldc) 1

/-- `faxpy`, /repo/fflas-ffpack/fflas/fflas_faxpy.inl:285-311: `Y ← a X + Y`. -/
def faxpy (cat : Cat) (m n : ℕ) (a : K) (X ldx Y ldy : ℕ) : Prog K Unit :=
  if a = 0 then pure ()
  else if a = 1 then faddin cat m n X ldx Y ldy
  else if a = -1 then fsubin cat m n X ldx Y ldy
  else if n = ldx ∧ n = ldy then vaxpy cat (m * n) a X 1 Y 1
  else loop (cnt m ldx) fun i => vaxpy cat n a (X + i * ldx) 1 (Y + i * ldy) 1

/-- `fadd` with a coefficient, /repo/fflas-ffpack/fflas/fflas_fadd.h:293-322: `C ← A + alpha B`. -/
def faddmul (cat : Cat) (m n A lda : ℕ) (alpha : K) (B ldb C ldc : ℕ) : Prog K Unit :=
  if C = A ∧ lda = ldc then faxpy cat m n alpha B ldb C ldc
  else if alpha = 1 then fadd cat m n A lda B ldb C ldc
  else if alpha = -1 then fsub cat m n A lda B ldb C ldc
  else if alpha = 0 then fassign m n A lda C ldc
  else if n = lda ∧ n = ldb ∧ n = ldc then vaddmul cat (m * n) A 1 alpha B 1 C 1
  else loop (cnt m lda) fun i => loop n fun j => do
    let b ← load (B + i * ldb + j)
    store (C + i * ldc + j) (alpha * b)
    let a ← load (A + i * lda + j)
    let c ← load (C + i * ldc + j)
    store (C + i * ldc + j) (c + a)

end Verif.FF
