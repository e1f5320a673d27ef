import Verif.Model.TrsmMP

/-!
# Elements of `RNSIntegerMod`

/repo/fflas-ffpack/field/rns-integer-mod.h:146-300: the operations on one element, which is a pointer to its first residue and a stride; elements of a matrix
live in the array of the matrix, whose stride is the number of entries.

Simplifications: `rns_double::init` and `convert` with `rda = _stride` are run on a copy of the residues with stride 1; they read and write
`_ptr[i*_stride]` only.  The residues are the doubles with integer values of `Model/RNS`.
-/

namespace Verif.MP

open Verif.RNS Verif.FF Verif.Lazy

/-- `rns_double_elt`, rns-double-elt.h:40-60 -/
structure Elt where
  ptr : ℕ
  stride : ℕ

/-- the values `_ptr[0], _ptr[s], …, _ptr[(_size-1)*s]` -/
def rdAt (R : Rns) (A : Arr ℤ) (ptr s : ℕ) : Except Fault (Arr ℤ) :=
  iter R.size (fun i (x : Arr ℤ) => do
    let v ← A.rd (ptr + i * s)
    x.wr i v) (Arr.mk' R.size (fun _ => 0))

/-- store residues into an element -/
def wrElt (R : Rns) (A : Arr ℤ) (x : Elt) (v : Arr ℤ) : Except Fault (Arr ℤ) :=
  iter R.size (fun i (A : Arr ℤ) => do
    let a ← v.rd i
    A.wr (x.ptr + i * x.stride) a) A

/-- `(_p.bitsize())/16+((_p.bitsize())%16?1:0)`, rns-integer-mod.h:201 -/
def modWords (p : ℕ) : ℕ := up16 (bitsz p)

/-- the residues computed by `init(x, y)`, rns-integer-mod.h:199-204: `_p` decides how many words of `y` are read -/
def initRes (E : Env) (R : Rns) (p : ℕ) (y : ℤ) : Except Fault (Arr ℤ) :=
  init R false false 1 1 (Arr.mk' R.size (E.junk 21)) 1 (Arr.ofList [y]) 1 (modWords p) (E.junk 22) (E.sched 20 (modWords p))

/-- `init(x, y)`, rns-integer-mod.h:199-204 -/
def eltInit (E : Env) (R : Rns) (p : ℕ) (A : Arr ℤ) (x : Elt) (y : ℤ) : Except Fault (Arr ℤ) := do
  let v ← initRes E R p y
  wrElt R A x v

/-- `convert(x, y)`, rns-integer-mod.h:228-231 -/
def eltConvert (E : Env) (R : Rns) (A : Arr ℤ) (y : Elt) : Except Fault ℤ := do
  let v ← rdAt R A y.ptr y.stride
  let d ← fconv E R 1 1 0 (Arr.ofList [0]) 1 v
  d.rd 0

/-- `reduce(x, y)`, rns-integer-mod.h:207-213 -/
def eltReduce (E : Env) (R : Rns) (p : ℕ) (A : Arr ℤ) (x y : Elt) : Except Fault (Arr ℤ) := do
  let t ← eltConvert E R A y
  eltInit E R p A x (t % p)

/-- `inv(x, y)`, rns-integer-mod.h:281-287 -/
def eltInv (E : Env) (R : Rns) (p : ℕ) (A : Arr ℤ) (x y : Elt) : Except Fault (Arr ℤ) := do
  let t ← eltConvert E R A y
  let z ← modInv (t % p).toNat p
  eltInit E R p A x z

/-- `Modular<double>::add`, `sub`, `neg` and `mul`, `axpyin` (exact for moduli of 26 bits) -/
def addF (m : ℕ) (a b : ℤ) : ℤ := if a + b < m then a + b else a + b - m
def subF (m : ℕ) (a b : ℤ) : ℤ := if a < b then a - b + m else a - b
def negF (m : ℕ) (a : ℤ) : ℤ := if a = 0 then 0 else m - a
def mulF (m : ℕ) (a b : ℤ) : ℤ := a * b % m

/-- `assign`, `neg`, rns-integer-mod.h:233-237, 257-262 -/
def eltUn (R : Rns) (f : ℕ → ℤ → ℤ) (A : Arr ℤ) (x y : Elt) : Except Fault (Arr ℤ) :=
  iter R.size (fun i (A : Arr ℤ) => do
    let a ← A.rd (y.ptr + i * y.stride)
    A.wr (x.ptr + i * x.stride) (f (R.basis i) a)) A

/-- `add`, `sub`, `mul`, rns-integer-mod.h:239-270 -/
def eltBin (R : Rns) (f : ℕ → ℤ → ℤ → ℤ) (A : Arr ℤ) (x y z : Elt) : Except Fault (Arr ℤ) :=
  iter R.size (fun i (A : Arr ℤ) => do
    let a ← A.rd (y.ptr + i * y.stride)
    let b ← A.rd (z.ptr + i * z.stride)
    A.wr (x.ptr + i * x.stride) (f (R.basis i) a b)) A

/-- `axpyin`, rns-integer-mod.h:273-279 -/
def eltAxpyin (R : Rns) (A : Arr ℤ) (x y z : Elt) : Except Fault (Arr ℤ) :=
  iter R.size (fun i (A : Arr ℤ) => do
    let a ← A.rd (y.ptr + i * y.stride)
    let b ← A.rd (z.ptr + i * z.stride)
    let c ← A.rd (x.ptr + i * x.stride)
    A.wr (x.ptr + i * x.stride) ((a * b + c) % R.basis i)) A

/-- the comparison of `isOne`, `isMOne` and `isZero` with a constant of stride 1: `c._ptr[i] == x._ptr[i]`, the stride of `x` not being used -/
def sameRaw (R : Rns) (A : Arr ℤ) (x : Elt) (c : Arr ℤ) : Except Fault Bool := do
  let v ← rdAt R A x.ptr 1
  iter R.size (fun i (b : Bool) => do
    let s ← c.rd i
    let t ← v.rd i
    pure (b && decide (s = t))) true

/-- `isOne(x)`, rns-integer-mod.h:148-153 -/
def eltIsOne (E : Env) (R : Rns) (p : ℕ) (A : Arr ℤ) (x : Elt) : Except Fault Bool := do
  let c ← initRes E R p 1
  sameRaw R A x c

/-- `isMOne(x)`, rns-integer-mod.h:155-160 -/
def eltIsMOne (E : Env) (R : Rns) (p : ℕ) (A : Arr ℤ) (x : Elt) : Except Fault Bool := do
  let c ← initRes E R p (-1)
  sameRaw R A x c

/-- `isZero(x)`, rns-integer-mod.h:162-174 -/
def eltIsZero (E : Env) (R : Rns) (p : ℕ) (A : Arr ℤ) (x : Elt) : Except Fault Bool := do
  let t ← eltConvert E R A x
  let c ← initRes E R p 0
  let b ← sameRaw R A x c
  pure (b || decide (t % p = 0))

/-- `areEqual(x, y)`, rns-integer-mod.h:289-294 -/
def eltAreEqual (R : Rns) (A : Arr ℤ) (x y : Elt) : Except Fault Bool := do
  let v ← rdAt R A x.ptr x.stride
  let w ← rdAt R A y.ptr y.stride
  iter R.size (fun i (b : Bool) => do
    let s ← v.rd i
    let t ← w.rd i
    pure (b && decide (s = t))) true

/-- The search for a pivot in a row, ffpack_ludivine.inl:440-443: `while (F.isZero(*(A+ip))) if (++ip == colDim) break;` for a row at the start of a
matrix of `n` entries. -/
def pivotSearch (E : Env) (R : Rns) (p n : ℕ) (A : Arr ℤ) (colDim : ℕ) : ℕ → ℕ → Except Fault ℕ
  | 0, _ => .error .fuel
  | fuel+1, ip => do
    let z ← eltIsZero E R p A ⟨ip, n⟩
    if z then (if ip + 1 = colDim then pure (ip + 1) else pivotSearch E R p n A colDim fuel (ip + 1)) else pure ip

end Verif.MP
