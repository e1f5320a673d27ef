import Verif.Model.Reduce
import Verif.Model.SimdInt
import Verif.Model.Level1
import Mathlib.Data.BitVec

/-!
# The vectorised modular kernels and `freduce`

Models of `/repo/fflas-ffpack/fflas/fflas_freduce.inl`, `fflas_freduce.h` and of the contiguous kernels of `fflas_fscal.inl`,
`fflas_faxpy.inl` and `fflas_fadd.inl`, with the machine arithmetic of the elements, the vector registers, the treatment of
unaligned vectors and the copies of strided vectors.

A pointer is the index of a cell; the byte address is `sizeof(Element)` times that index, so every alignment that a pointer
to elements can have occurs.  An aligned load or store at an address that is not a multiple of the register size is a fault
(`Fault.oob`); signed overflow and the conversion of an out of range `double` to `int64_t` are faults (`Fault.inexact`).

Simplifications: values of floating-point cells are rational numbers (no signed zero, infinity, NaN); scalar floating-point
code is not contracted into fused operations; the constants of the helpers are computed once per call in the code and are
fields of `Arith` here.
-/

namespace Verif.SimdVec
open Verif.FP Verif.Reduce Verif.SimdInt Verif.FF

/-- An element type with its vector class and the constants of `HelperMod`/`HelperModSimd` for a field.  Operations that may
be undefined give an `Option`. -/
structure Arith (K : Type) where
  /-- `Simd<Element>::vect_size` -/
  vs : ℕ
  /-- `sizeof(Element)` -/
  sz : ℕ
  /-- characteristic, its opposite, zero, smallest and largest element -/
  p : K
  negp : K
  zero : K
  min : K
  max : K
  /-- scalar operations -/
  add : K → K → Option K
  sub : K → K → Option K
  mul : K → K → Option K
  lt : K → K → Bool
  /-- `reduce(x, H)` -/
  red : K → Option K
  /-- `F.reduce(y, x)` of the field -/
  fred : K → K
  /-- register operations -/
  vadd : (Fin vs → K) → (Fin vs → K) → Option (Fin vs → K)
  vsub : (Fin vs → K) → (Fin vs → K) → Option (Fin vs → K)
  vmul : (Fin vs → K) → (Fin vs → K) → Option (Fin vs → K)
  /-- `fmadd(c, a, b)` = `a*b + c` -/
  vfmadd : (Fin vs → K) → (Fin vs → K) → (Fin vs → K) → Option (Fin vs → K)
  /-- `vand(greater(c, x), y)` -/
  vandGt : (Fin vs → K) → (Fin vs → K) → (Fin vs → K) → (Fin vs → K)
  /-- `vand(lesser(c, x), y)` -/
  vandLt : (Fin vs → K) → (Fin vs → K) → (Fin vs → K) → (Fin vs → K)
  vor : (Fin vs → K) → (Fin vs → K) → (Fin vs → K)
  /-- `VEC_MOD(C, H)` -/
  vmod : (Fin vs → K) → Option (Fin vs → K)

/-- A function that may be undefined, applied to every lane. -/
def lanes1 {k : ℕ} {α β : Type} (f : α → Option β) (a : Fin k → α) : Option (Fin k → β) :=
  if h : ∀ i, (f (a i)).isSome then some fun i => (f (a i)).get (h i) else none

/-! ### float and double -/

/-- `fmadd(c, a, b)`, /repo/fflas-ffpack/fflas/fflas_simd/simd128_double.inl:341-349 and the five other classes: one rounding
with `__FMA__`, two without. -/
def fmaddF (fma : Bool) (prec : ℕ) (c a b : ℚ) : ℚ :=
  if fma then rnd prec (a * b + c) else rnd prec (c + rnd prec (a * b))

/-- `fnmadd(c, a, b)`, simd128_double.inl:362-368: fused, or `fmadd(c, 0 - a, b)`. -/
def fnmaddF (fma : Bool) (prec : ℕ) (c a b : ℚ) : ℚ :=
  if fma then rnd prec (-(a * b) + c) else fmaddF fma prec c (rnd prec (0 - a)) b

/-- `vor` of two floating-point numbers: only the union with `+0.0` is a known number, `bits` stands for the union of the bit
patterns of two non-zero numbers. -/
def vorF (bits : ℚ → ℚ → ℚ) (x y : ℚ) : ℚ := if x = 0 then y else if y = 0 then x else bits x y

/-- one lane of `Simd*<float|double>::mod`, simd128_double.inl:508-514, with the macros `FLOAT_MOD` and `NORML_MOD`,
/repo/fflas-ffpack/fflas/fflas_simd.h:196-211.  A comparison mask and a number give that number or `+0.0`. -/
def modF (fma : Bool) (bits : ℚ → ℚ → ℚ) (prec p : ℕ) (min max : ℤ) (C : ℚ) : ℚ :=
  let Q := rnd prec (C * rnd prec (1 / p))
  let Q : ℤ := ⌊Q⌋
  let C := fnmaddF fma prec C Q p
  let Q := if C > max then -(p : ℚ) else 0
  let T := if C < min then (p : ℚ) else 0
  let Q := vorF bits Q T
  rnd prec (C + Q)

/-- `float` (`prec = 24`) and `double` (`prec = 53`) with registers of `vs` lanes.  `fred` is the reduction of the Givaro
field, given by its specification. -/
def fltArith (fma : Bool) (bits : ℚ → ℚ → ℚ) (prec vs sz p : ℕ) (min max : ℤ) (fred : ℚ → ℚ) : Arith ℚ where
  vs := vs
  sz := sz
  p := p
  negp := -(p : ℚ)
  zero := 0
  min := min
  max := max
  add x y := some (rnd prec (x + y))
  sub x y := some (rnd prec (x - y))
  mul x y := some (rnd prec (x * y))
  lt x y := decide (x < y)
  red x := some (reduceHelperF prec p min max x)
  fred := fred
  vadd a b := some fun l => rnd prec (a l + b l)
  vsub a b := some fun l => rnd prec (a l - b l)
  vmul a b := some fun l => rnd prec (a l * b l)
  vfmadd c a b := some fun l => fmaddF fma prec (c l) (a l) (b l)
  vandGt c x y := fun l => if c l > x l then y l else 0
  vandLt c x y := fun l => if c l < x l then y l else 0
  vor a b := fun l => vorF bits (a l) (b l)
  vmod c := some fun l => modF fma bits prec p min max (c l)

/-! ### int64_t -/

/-- `static_cast<int64_t>(x)`: truncation, undefined out of range. -/
def toI64 (x : ℚ) : Option (BitVec 64) :=
  let t : ℤ := if 0 ≤ x then ⌊x⌋ else ⌈x⌉
  if -2 ^ 63 ≤ t ∧ t < 2 ^ 63 then some (BitVec.ofInt 64 t) else none

/-- `reduce(int64_t A, ...)`, fflas_freduce.inl:82-93, in `int64_t` arithmetic. -/
def red64 (p : ℕ) (min max : ℤ) (A : BitVec 64) : Option (BitVec 64) := do
  let Aq50 := A.sshiftRight 50
  let Ar50 := A &&& 0x3FFFFFFFFFFFF#64
  let t ← smul Aq50 (BitVec.ofInt 64 (2 ^ 50 % p))
  let Aeq ← sadd t Ar50
  toI64 (reduceHelperF 53 p min max (rnd 53 Aeq.toInt))

/-- `mullo` over `int64_t`: an instruction with AVX512DQ, scalar products otherwise (simd256_int64.inl:415-425). -/
def mul64 {k : ℕ} (dq : Bool) (a b : Reg k 64) : Option (Reg k 64) :=
  if dq then some (Intr.mullo a b) else mullo64 a b

/-- `Simd*<int64_t>::mod`, simd128_int64.inl:822-857, simd256_int64.inl:840-880, simd512_int64.inl:896-915: low 50 bits plus
the quotient by `2^50` times `2^50 mod p`, then `Simd*<double>::mod`. -/
def mod64 {k : ℕ} (fma dq : Bool) (bits : ℚ → ℚ → ℚ) (p : ℕ) (min max : ℤ) (C : Reg k 64) : Option (Reg k 64) := do
  let Cq50 := sra64 50 C
  let Cr50 := Intr.vand C (Intr.set1 0x3FFFFFFFFFFFF#64)
  let t ← mul64 dq Cq50 (Intr.set1 (BitVec.ofInt 64 (2 ^ 50 % p)))
  let Ceq := Intr.add Cr50 t
  lanes1 (fun x : BitVec 64 => toI64 (modF fma bits 53 p min max (rnd 53 x.toInt))) Ceq

/-- `int64_t` with registers of `vs` lanes. -/
def i64Arith (fma dq : Bool) (bits : ℚ → ℚ → ℚ) (vs p : ℕ) (min max : ℤ) (fred : BitVec 64 → BitVec 64) :
    Arith (BitVec 64) where
  vs := vs
  sz := 8
  p := BitVec.ofInt 64 p
  negp := BitVec.ofInt 64 (-p)
  zero := 0
  min := BitVec.ofInt 64 min
  max := BitVec.ofInt 64 max
  add x y := sadd x y
  sub x y := if -2 ^ 63 ≤ x.toInt - y.toInt ∧ x.toInt - y.toInt < 2 ^ 63 then some (x - y) else none
  mul x y := smul x y
  lt x y := x.slt y
  red := red64 p min max
  fred := fred
  vadd a b := some (Intr.add a b)
  vsub a b := some (Intr.sub a b)
  vmul a b := mul64 dq a b
  vfmadd c a b := (mul64 dq a b).map (Intr.add c)
  vandGt c x y := Intr.vand (Intr.cmpgt c x) y
  vandLt c x y := Intr.vand (Intr.cmpgt x c) y
  vor a b := Intr.vor a b
  vmod := mod64 fma dq bits p min max

/-! ### Memory access -/
variable {K : Type}

/-- an operation that may be undefined, in a program -/
def opt {α : Type} : Option α → Prog K α
  | some a => pure a
  | none => Prog.fault .inexact

/-- `simd::loadu(p)` -/
def loadu (vs a : ℕ) : Prog K (Fin vs → K) := fun m =>
  if ∀ l : Fin vs, m.ok (a + l) = true then .ok (fun l => m.val (a + l), m) else .error .oob

/-- memory after a vector store -/
def setv (m : Mem K) {vs : ℕ} (a : ℕ) (r : Fin vs → K) : Mem K :=
  { m with val := fun i => if h : a ≤ i ∧ i < a + vs then r ⟨i - a, by omega⟩ else m.val i }

/-- `long(p) % simd::alignment == 0`; `alignment` is the size of a register -/
def aligned (E : Arith K) (a : ℕ) : Prop := (E.sz * a) % (E.sz * E.vs) = 0

instance (E : Arith K) (a : ℕ) : Decidable (aligned E a) := by unfold aligned; infer_instance

/-- `simd::load(p)` -/
def loada (E : Arith K) (a : ℕ) : Prog K (Fin E.vs → K) :=
  if aligned E a then loadu E.vs a else Prog.fault .oob

/-- `simd::store(p, r)` -/
def storea (E : Arith K) (a : ℕ) (r : Fin E.vs → K) : Prog K Unit := fun m =>
  if aligned E a ∧ ∀ l : Fin E.vs, m.ok (a + l) = true then .ok ((), setv m a r) else .error .oob

/-- number of iterations of `for (x = lo; x < hi; x += step)` -/
def steps (lo hi step : ℕ) : ℕ := (hi - lo + (step - 1)) / step

/-- number of entries of the prologue: `for (j = st; j < alignment; j += sizeof(Element), i++)` with
`st = long(T) % alignment`, executed if `st` is not zero -/
def prologue (E : Arith K) (T : ℕ) : ℕ :=
  let st := (E.sz * T) % (E.sz * E.vs)
  if st ≠ 0 then steps st (E.sz * E.vs) E.sz else 0

/-- The common structure of `modp` (fflas_freduce.inl:374-434), `scalp` (fflas_fscal.inl:43-90), `axpyp`
(fflas_faxpy.inl:46-94), `addp` and `subp` (fflas_fadd.inl:49-203): short vectors and the entries before the first aligned
address of the result by `scal`, then whole registers by `vec` (`for (; i <= n - vect_size; i += vect_size)`) if `al i`, then
the remaining entries by `scal`. -/
def drive (E : Arith K) (n T : ℕ) (al : ℕ → Prop) [DecidablePred al] (scal vec : ℕ → Prog K Unit) : Prog K Unit :=
  if n < E.vs then loop n scal
  else do
    let i := prologue E T
    loop i scal
    if al i then do
      let k := steps i (n - E.vs + 1) E.vs
      loop k fun t => vec (i + t * E.vs)
      loop (n - (i + k * E.vs)) fun t => scal (i + k * E.vs + t)
    else loop (n - i) fun t => scal (i + t)

/-! ### Kernels -/

/-- `unswitch::modp`, fflas_freduce.inl:374-434. -/
def modp (E : Arith K) (U n T : ℕ) : Prog K Unit :=
  drive E n T (fun i => aligned E (U + i))
    (fun i => do
      let u ← load (U + i)
      let r ← opt (E.red u)
      store (T + i) r)
    (fun i => do
      let C ← loada E (U + i)
      let C ← opt (E.vmod C)
      storea E (T + i) C)

/-- `unswitch::modp` with an increment, fflas_freduce.inl:454-467. -/
def modpInc (E : Arith K) (U n incX T : ℕ) : Prog K Unit :=
  loop (cnt n incX) fun i => do
    let u ← load (U + i * incX)
    let r ← opt (E.red u)
    store (T + i * incX) r

/-- `unswitch::scalp`, fflas_fscal.inl:35-90. -/
def scalp (E : Arith K) (T : ℕ) (alpha : K) (U n : ℕ) : Prog K Unit :=
  drive E n T (fun i => aligned E (U + i))
    (fun i => do
      let u ← load (U + i)
      let r ← opt ((E.mul alpha u).bind E.red)
      store (T + i) r)
    (fun i => do
      let C ← loada E (U + i)
      let C ← opt ((E.vmul C (fun _ => alpha)).bind E.vmod)
      storea E (T + i) C)

/-- `unswitch::scalp` with an increment, fflas_fscal.inl:106-116. -/
def scalpInc (E : Arith K) (T : ℕ) (alpha : K) (U n incX : ℕ) : Prog K Unit :=
  loop (cnt n incX) fun i => do
    let u ← load (U + i * incX)
    let r ← opt ((E.mul alpha u).bind E.red)
    store (T + i * incX) r

/-- `unswitch::axpyp`, fflas_faxpy.inl:38-94; `X` is read with unaligned loads. -/
def axpyp (E : Arith K) (a : K) (X Y n : ℕ) : Prog K Unit :=
  drive E n Y (fun i => aligned E (Y + i))
    (fun i => do
      let x ← load (X + i)
      let y ← load (Y + i)
      let r ← opt (((E.mul a x).bind fun t => E.add t y).bind E.red)
      store (Y + i) r)
    (fun i => do
      let U ← loadu E.vs (X + i)
      let V ← loada E (Y + i)
      let V ← opt ((E.vfmadd V (fun _ => a) U).bind E.vmod)
      storea E (Y + i) V)

/-- `T[i] = TA[i] + TB[i]; T[i] -= (T[i] > max) ? p : 0; if (!positive) T[i] += (T[i] < min) ? p : 0;`,
fflas_fadd.inl:62-69. -/
def addS (E : Arith K) (positive : Bool) (a b : K) : Option K := do
  let t ← E.add a b
  let t ← E.sub t (if E.lt E.max t then E.p else E.zero)
  if !positive then E.add t (if E.lt t E.min then E.p else E.zero) else some t

/-- `VEC_ADD`, fflas_fadd.inl:35-47. -/
def addV (E : Arith K) (positive : Bool) (A B : Fin E.vs → K) : Option (Fin E.vs → K) := do
  let C ← E.vadd A B
  let Q := E.vandGt C (fun _ => E.max) (fun _ => E.negp)
  let Q := if !positive then E.vor Q (E.vandLt C (fun _ => E.min) (fun _ => E.p)) else Q
  E.vadd C Q

/-- `T[i] = TA[i] - TB[i]; if (!positive) T[i] -= (T[i] > max) ? p : 0; T[i] += (T[i] < min) ? p : 0;`,
fflas_fadd.inl:141-147. -/
def subS (E : Arith K) (positive : Bool) (a b : K) : Option K := do
  let t ← E.sub a b
  let t ← if !positive then E.sub t (if E.lt E.max t then E.p else E.zero) else some t
  E.add t (if E.lt t E.min then E.p else E.zero)

/-- `VEC_SUB`, fflas_fadd.inl:113-125. -/
def subV (E : Arith K) (positive : Bool) (A B : Fin E.vs → K) : Option (Fin E.vs → K) := do
  let C ← E.vsub A B
  let T := E.vandLt C (fun _ => E.min) (fun _ => E.p)
  let T := if !positive then E.vor (E.vandGt C (fun _ => E.max) (fun _ => E.negp)) T else T
  E.vadd C T

/-- `addp` (fflas_fadd.inl:49-110) and `subp` (:127-189). -/
def addsubp (E : Arith K) (ADD positive : Bool) (T TA TB n : ℕ) : Prog K Unit :=
  drive E n T (fun i => aligned E (TA + i) ∧ aligned E (TB + i))
    (fun i => do
      let a ← load (TA + i)
      let b ← load (TB + i)
      let r ← opt (if ADD then addS E positive a b else subS E positive a b)
      store (T + i) r)
    (fun i => do
      let A ← loada E (TA + i)
      let B ← loada E (TB + i)
      let C ← opt (if ADD then addV E positive A B else subV E positive A B)
      storea E (T + i) C)

/-! ### Entry points -/

/-- in-place `details::freduce`, `ModularTag`, fflas_freduce.inl:508-530. -/
def freduceIn (E : Arith K) (n A incX : ℕ) : Prog K Unit :=
  if incX = 1 then modp E A n A
  else if n < copyReduce then modpInc E A n incX A
  else do
    let Ac ← alloc n
    vassign n A incX Ac 1
    modp E Ac n Ac
    vassign n Ac 1 A incX
    free Ac n

/-- out of place `details::freduce`, `ModularTag`, fflas_freduce.inl:532-590: `A ← B mod p`. -/
def freduceOut (E : Arith K) (n B incY A incX : ℕ) : Prog K Unit :=
  if incX = 1 ∧ incY = 1 then modp E B n A
  else if n < copyReduce then
    loop (cnt n incX) fun i => do
      let b ← load (B + i * incY)
      store (A + i * incX) (E.fred b)
  else do
    let Ac ← (if incX ≠ 1 then do
        let Ac ← alloc n
        vassign n A incX Ac 1
        pure Ac
      else pure A)
    let Bc ← (if incY ≠ 1 then do
        let Bc ← alloc n
        vassign n B incY Bc 1
        pure Bc
      else pure B)
    modp E Bc n Ac
    (if incX ≠ 1 then do
      vassign n Ac 1 A incX
      free Ac n
    else pure ())
    (if incY ≠ 1 then free Bc n else pure ())

/-- `freduce(F, m, n, A, lda)`, fflas_freduce.h:140-151. -/
def freduceMat (E : Arith K) (m n A lda : ℕ) : Prog K Unit :=
  if n = lda then freduceIn E (n * m) A 1
  else loop m fun i => freduceIn E n (A + i * lda) 1

/-- `freduce(F, UpLo, N, A, lda)`, fflas_freduce.h:152-166: row `i` has `N - i` entries from the diagonal on (upper) or `i + 1`
entries (lower). -/
def freduceTri (E : Arith K) (upper : Bool) (N A lda : ℕ) : Prog K Unit :=
  if upper then loop N fun i => freduceIn E (N - i) (A + i * (lda + 1)) 1
  else loop N fun i => freduceIn E (i + 1) (A + i * lda) 1

/-- `freduce(F, m, n, B, ldb, A, lda)`, fflas_freduce.h:183-192. -/
def freduceMatOut (E : Arith K) (m n B ldb A lda : ℕ) : Prog K Unit :=
  loop m fun i => freduceOut E n (B + i * ldb) 1 (A + i * lda) 1

/-- `fscalin`, `ModularTag`, fflas_fscal.inl:175-199. -/
def fscalin (E : Arith K) (n : ℕ) (a : K) (X incX : ℕ) : Prog K Unit :=
  if incX = 1 then scalp E X a X n
  else if n < copyReduce then scalpInc E X a X n incX
  else do
    let Xc ← alloc n
    vassign n X incX Xc 1
    scalp E Xc a Xc n
    vassign n Xc 1 X incX
    free Xc n

end Verif.SimdVec
