import Verif.Core.Arr
import Verif.Model.LazyGemm

/-!
# Sparse matrices: construction from coordinate triples and matrix-vector products

Formats COO, CSR, CSR_ZO, ELL, ELL_ZO, HYB_ZO, ELL_simd, CSR_HYB and SELL.  All index and value arrays are
checked arrays.  The element arithmetic is a parameter (`FOps`): the code is a template, and is used here with the
exact operations of a ring (`exactOps`, the `GenericTag` versions) and with machine numbers that must stay
exactly representable (`machOps`, the `UnparametricTag` and `kmax` versions).
-/

namespace Verif
namespace Sparse
open Lazy
variable {K : Type}

/-- The arithmetic used by a kernel: `add a b`, `sub a b` and `axpy e d x = e + d x`. -/
structure FOps (K : Type) where
  add : K → K → Except Fault K
  sub : K → K → Except Fault K
  axpy : K → K → K → Except Fault K

/-- `F.addin`, `F.subin`, `F.axpyin` of an exact field. -/
def exactOps [CommRing K] : FOps K :=
  ⟨fun a b => .ok (a + b), fun a b => .ok (a - b), fun e d x => .ok (e + d * x)⟩

/-- Native `+=`, `-=`, `+= d*x` on machine numbers: a result that is not exactly representable is the fault
`inexact`. -/
def machOps (prec : ℕ) : FOps ℤ :=
  ⟨fun a b => chk prec (a + b), fun a b => chk prec (a - b), fun e d x => chk prec (e + d * x)⟩

/-- `rows[row[i]]++` for all entries (e.g. fflas_sparse/coo/coo_utils.inl:53-55, csr/csr_utils.inl:193-195). -/
def countRows (m nnz : ℕ) (row : Arr ℕ) : Except Fault (Arr ℕ) :=
  iter nnz (fun i (rows : Arr ℕ) => do
    let r ← row.rd i
    let c ← rows.rd r
    rows.wr r (c + 1)) (Arr.mk' m (fun _ => 0))

/-- `*std::max_element(rows.begin(), rows.end())`; dereferencing the end of an empty vector is `oob`. -/
def maxElem (a : Arr ℕ) : Except Fault ℕ := do
  let x ← a.rd 0
  iter a.len (fun i (mx : ℕ) => do
    let y ← a.rd i
    pure (max mx y)) x

/-- copy loop `dst[i] = src[i]` -/
def copyArr (n : ℕ) (src : Arr K) (dst : Arr K) : Except Fault (Arr K) :=
  iter n (fun i (A : Arr K) => do
    let v ← src.rd i
    A.wr i v) dst

/-- Four accumulators, `ROUND_DOWN(diff,4)` unrolled steps, then the rest into the first one
(e.g. csr/csr_spmv.inl:45-59).  `step j e` is the accumulation of entry `j` into `e`. -/
def dot4 [Zero K] (diff : ℕ) (step : ℕ → K → Except Fault K) : Except Fault (K × K × K × K) := do
  let s ← iter (diff / 4) (fun q (s : K × K × K × K) => do
    let a ← step (4 * q) s.1
    let b ← step (4 * q + 1) s.2.1
    let c ← step (4 * q + 2) s.2.2.1
    let d ← step (4 * q + 3) s.2.2.2
    pure (a, b, c, d)) (0, 0, 0, 0)
  let y1 ← iter (diff % 4) (fun r (e : K) => step (4 * (diff / 4) + r) e) s.1
  pure (y1, s.2)

/-- `F.axpyin(e, dat[pd], x[col[pc]])` -/
def axpyStep (ops : FOps K) (dat : Arr K) (col : Arr ℕ) (x : Arr K) (pd pc : ℕ) (e : K) : Except Fault K := do
  let d ← dat.rd pd
  let c ← col.rd pc
  let v ← x.rd c
  ops.axpy e d v

/-- `F.addin(e, x[col[pc]])` -/
def addStep (ops : FOps K) (col : Arr ℕ) (x : Arr K) (pc : ℕ) (e : K) : Except Fault K := do
  let c ← col.rd pc
  let v ← x.rd c
  ops.add e v

/-- `y[i]` += the four accumulators one after the other (`GenericTag`, csr/csr_spmv.inl:60-63). -/
def addAll (ops : FOps K) (y : K) (s : K × K × K × K) : Except Fault K := do
  let y ← ops.add y s.1
  let y ← ops.add y s.2.1
  let y ← ops.add y s.2.2.1
  ops.add y s.2.2.2

/-- `y1 + y2 + y3 + y4` (`UnparametricTag`, csr/csr_spmv.inl:125). -/
def sumAll (ops : FOps K) (s : K × K × K × K) : Except Fault K := do
  let t ← ops.add s.1 s.2.1
  let t ← ops.add t s.2.2.1
  ops.add t s.2.2.2

/-- How the accumulators reach `y[i]`: one by one, as one sum, or as one subtracted sum. -/
inductive Fin4 where | each | sum | neg

/-- The end of a row in the three variants (csr/csr_spmv.inl:60-63; 125, 240; 265, 321). -/
def finish (ops : FOps K) (md : Fin4) (y : K) (s : K × K × K × K) : Except Fault K :=
  match md with
  | .each => addAll ops y s
  | .sum => do let t ← sumAll ops s; ops.add y t
  | .neg => do let t ← sumAll ops s; ops.sub y t

/-- Row loop of the row-wise kernels: row `i` covers the `len i` entries from `start i` on. -/
def rowLoop [Zero K] (ops : FOps K) (md : Fin4) (m : ℕ) (bounds : ℕ → Except Fault (ℕ × ℕ))
    (step : ℕ → K → Except Fault K) (y : Arr K) : Except Fault (Arr K) :=
  iter m (fun i (y : Arr K) => do
    let b ← bounds i
    let s ← dot4 b.2 (fun j => step (b.1 + j))
    let yi ← y.rd i
    let r ← finish ops md yi s
    y.wr i r) y

/-- Row loop of the `kmax` kernels (csr/csr_spmv.inl:193-218, ell/ell_spmv.inl:97-111): `len/kmax` blocks of `kmax`
accumulations into `y[i]`, each followed by a reduction, then the rest and a final reduction.  `kmax = 0` is a
division by zero. -/
def rowLoopK (F : FpField) (kmax : ℕ) (m : ℕ) (bounds : ℕ → Except Fault (ℕ × ℕ))
    (step : ℕ → ℤ → Except Fault ℤ) (y : Arr ℤ) : Except Fault (Arr ℤ) :=
  iter m (fun i (y : Arr ℤ) => do
    let b ← bounds i
    if kmax = 0 then .error .divZero else do
    let y ← iter (b.2 / kmax) (fun l (y : Arr ℤ) => do
      let y ← iter kmax (fun j (y : Arr ℤ) => do
        let yi ← y.rd i
        let r ← step (b.1 + (l * kmax + j)) yi
        y.wr i r) y
      let yi ← y.rd i
      y.wr i (F.red yi)) y
    let y ← iter (b.2 % kmax) (fun j (y : Arr ℤ) => do
      let yi ← y.rd i
      let r ← step (b.1 + (b.2 / kmax * kmax + j)) yi
      y.wr i r) y
    let yi ← y.rd i
    y.wr i (F.red yi)) y

/-- `freduce(F, m, y, 1)` on exactly represented integers (its exactness is the subject of C35/C36). -/
def freduceY (F : FpField) (m : ℕ) (y : Arr ℤ) : Except Fault (Arr ℤ) :=
  iter m (fun i (y : Arr ℤ) => do
    let a ← y.rd i
    y.wr i (F.red a)) y

/-- `init_y` (fflas_sparse.inl:36-47): `y` is scaled by `beta`, with the special cases `1` (nothing), `0` (`fzero`)
and `-1` (`fnegin`). -/
def initY [CommRing K] [DecidableEq K] (m : ℕ) (beta : K) (y : Arr K) : Except Fault (Arr K) :=
  if beta ≠ 1 then
    iter m (fun i (y : Arr K) => do
      let a ← y.rd i
      y.wr i (if beta = 0 then 0 else if beta = -1 then -a else beta * a)) y
  else pure y

/-! ## COO -/

/-- `Sparse<Field, COO>` (coo.h:36-48). -/
structure Coo (K : Type) where
  m : ℕ
  nnz : ℕ
  row : Arr ℕ
  col : Arr ℕ
  dat : Arr K
  kmax : ℕ
  delayed : Bool

/-- `sparse_init` for COO (coo/coo_utils.inl:44-66); `kmax = DotProdBoundClassic(F, F.one)`; the `junk` are the
uninitialised contents of the new arrays.  COO_ZO (68-90) is the same without `dat`. -/
def cooInit (kmax m nnz : ℕ) (row col : Arr ℕ) (dat : Arr K) (junkN : ℕ → ℕ) (junkK : ℕ → K) :
    Except Fault (Coo K) := do
  let rows ← countRows m nnz row
  let maxrow ← maxElem rows
  let c ← copyArr nnz col (Arr.mk' nnz junkN)
  let r ← copyArr nnz row (Arr.mk' nnz junkN)
  let d ← copyArr nnz dat (Arr.mk' nnz junkK)
  pure ⟨m, nnz, r, c, d, kmax, decide (kmax > maxrow)⟩

/-- `fspmv` for COO, generic and unparametric (coo/coo_spmv.inl:33-71).  The loop is unrolled by four in the code;
the updates happen in the same order. -/
def cooSpmv (ops : FOps K) (A : Coo K) (x y : Arr K) : Except Fault (Arr K) :=
  iter A.nnz (fun j (y : Arr K) => do
    let r ← A.row.rd j
    let e ← y.rd r
    let e ← axpyStep ops A.dat A.col x j j e
    y.wr r e) y

/-- `fspmv_one` / `fspmv_mone` for COO_ZO (coo/coo_spmv.inl:149-228): `y[row[j]] ±= x[col[j]]`. -/
def cooSpmvZO (op : K → K → Except Fault K) (A : Coo K) (x y : Arr K) : Except Fault (Arr K) :=
  iter A.nnz (fun j (y : Arr K) => do
    let r ← A.row.rd j
    let e ← y.rd r
    let c ← A.col.rd j
    let v ← x.rd c
    let e ← op e v
    y.wr r e) y

/-- State of the `kmax` version: current row, accumulator, count, and `y`. -/
structure CooSt where
  la : ℕ
  e : ℤ
  accu : ℕ
  y : Arr ℤ

/-- `fspmv` for COO with delayed reductions (coo/coo_spmv.inl:109-147).  `F.axpyin` computes `e + d*x` in the machine
type and reduces it; the value written back to `y` is not reduced. -/
def cooSpmvK (F : FpField) (kmax : ℕ) (A : Coo ℤ) (x y : Arr ℤ) : Except Fault (Arr ℤ) := do
  let e ← y.rd 0
  let s ← iter A.nnz (fun w (s : CooSt) => do
    let r ← A.row.rd w
    if r = s.la then
      if s.accu < kmax then do
        let e ← axpyStep (machOps F.prec) A.dat A.col x w w s.e
        pure { s with e := e, accu := s.accu + 1 }
      else do
        let e ← axpyStep (machOps F.prec) A.dat A.col x w w s.e
        pure { s with e := F.red e, accu := 0 }
    else do
      let y ← s.y.wr s.la s.e
      let e ← y.rd r
      let e ← axpyStep (machOps F.prec) A.dat A.col x w w e
      pure ⟨r, e, 1, y⟩) ⟨0, e, 0, y⟩
  s.y.wr s.la s.e

/-- `fspmv` over a modular field, COO (fflas_sparse.inl:123-133). -/
def cooSpmvMod (F : FpField) (A : Coo ℤ) (x y : Arr ℤ) : Except Fault (Arr ℤ) :=
  if A.delayed then do
    let y ← cooSpmv (machOps F.prec) A x y
    freduceY F A.m y
  else cooSpmvK F A.kmax A x y

/-! ## CSR -/

/-- `Sparse<Field, CSR>` (csr.h:36-49). -/
structure Csr (K : Type) where
  m : ℕ
  nnz : ℕ
  col : Arr ℕ
  st : Arr ℕ
  stend : Arr ℕ
  dat : Arr K
  kmax : ℕ
  delayed : Bool

/-- `sparse_init` for CSR (csr/csr_utils.inl:187-219). -/
def csrInit (kmax m nnz : ℕ) (row col : Arr ℕ) (dat : Arr K) (junkN : ℕ → ℕ) (junkK : ℕ → K) :
    Except Fault (Csr K) := do
  let rows ← countRows m nnz row
  let maxrow ← maxElem rows
  let c ← copyArr nnz col (Arr.mk' nnz junkN)
  let d ← copyArr nnz dat (Arr.mk' nnz junkK)
  let st ← (Arr.mk' (m + 1) junkN).wr 0 0
  let st ← iter m (fun i (st : Arr ℕ) => do
    let a ← st.rd i
    let b ← rows.rd i
    st.wr (i + 1) (a + b)) st
  let stend ← iter m (fun i (se : Arr ℕ) => do
    let a ← st.rd (i + 1)
    se.wr i a) (Arr.mk' (m + 1) junkN)
  pure ⟨m, nnz, c, st, stend, d, kmax, decide (kmax > maxrow)⟩

/-- `start = st[i], stop = st[i+1], diff = stop - start` -/
def csrBounds (st : Arr ℕ) (i : ℕ) : Except Fault (ℕ × ℕ) := do
  let a ← st.rd i
  let b ← st.rd (i + 1)
  let d ← usub b a
  pure (a, d)

/-- `fspmv` for CSR: `GenericTag` (csr/csr_spmv.inl:32-64) with `.each`, `UnparametricTag` (101-127) with `.sum`. -/
def csrSpmv [Zero K] (ops : FOps K) (md : Fin4) (A : Csr K) (x y : Arr K) : Except Fault (Arr K) :=
  rowLoop ops md A.m (csrBounds A.st) (fun p => axpyStep ops A.dat A.col x p p) y

/-- `fspmv` for CSR with delayed reductions (csr/csr_spmv.inl:190-218). -/
def csrSpmvK (F : FpField) (kmax : ℕ) (A : Csr ℤ) (x y : Arr ℤ) : Except Fault (Arr ℤ) :=
  rowLoopK F kmax A.m (csrBounds A.st) (fun p => axpyStep (machOps F.prec) A.dat A.col x p p) y

/-- `fspmv` over a modular field, CSR (fflas_sparse.inl:123-133). -/
def csrSpmvMod (F : FpField) (A : Csr ℤ) (x y : Arr ℤ) : Except Fault (Arr ℤ) :=
  if A.delayed then do
    let y ← csrSpmv (machOps F.prec) .sum A x y
    freduceY F A.m y
  else csrSpmvK F A.kmax A x y

/-- `Sparse<Field, CSR_ZO>`: no values, one constant `cst` (csr.h:51-60). -/
structure CsrZO (K : Type) where
  m : ℕ
  col : Arr ℕ
  st : Arr ℕ
  cst : K

/-- `sparse_init` for CSR_ZO (csr/csr_utils.inl:221-248). -/
def csrZOInit (m nnz : ℕ) (row col : Arr ℕ) (cst : K) (junkN : ℕ → ℕ) : Except Fault (CsrZO K) := do
  let rows ← countRows m nnz row
  let _ ← maxElem rows
  let c ← copyArr nnz col (Arr.mk' nnz junkN)
  let st ← iter (m + 1) (fun i (st : Arr ℕ) => st.wr i 0) (Arr.mk' (m + 1) junkN)
  let st ← iter nnz (fun i (st : Arr ℕ) => do
    let r ← row.rd i
    let a ← st.rd (r + 1)
    st.wr (r + 1) (a + 1)) st
  let st ← iter m (fun i (st : Arr ℕ) => do
    let a ← st.rd (i + 1)
    let b ← st.rd i
    st.wr (i + 1) (a + b)) st
  pure ⟨m, c, st, cst⟩

/-- `fspmv_one` (`.sum`) and `fspmv_mone` (`.neg`) for CSR_ZO (csr/csr_spmv.inl:220-323). -/
def csrZOSpmv [Zero K] (ops : FOps K) (md : Fin4) (A : CsrZO K) (x y : Arr K) : Except Fault (Arr K) :=
  rowLoop ops md A.m (csrBounds A.st) (fun p => addStep ops A.col x p) y

/-- `fspmv` of a zero-one matrix with constant `cst` (fflas_sparse.inl:157-172): for `cst` different from `1` and `-1`
the code scales `x` into `x1` but multiplies by `x`. -/
def csrZOSpmvCst [CommRing K] [DecidableEq K] (ops : FOps K) (A : CsrZO K) (n : ℕ) (x y : Arr K) (junk : ℕ → K) :
    Except Fault (Arr K) :=
  if A.cst = 1 then csrZOSpmv ops .sum A x y
  else if A.cst = -1 then csrZOSpmv ops .neg A x y
  else do
    let _x1 ← iter n (fun i (x1 : Arr K) => do
      let v ← x.rd i
      x1.wr i (A.cst * v)) (Arr.mk' n junk)
    csrZOSpmv ops .sum A x y

/-! ## ELL -/

/-- `Sparse<Field, ELL>` (ell.h:36-48). -/
structure Ell (K : Type) where
  m : ℕ
  ld : ℕ
  col : Arr ℕ
  dat : Arr K
  kmax : ℕ
  delayed : Bool

/-- State of the filling loop. -/
structure EllSt (K : Type) where
  cur : ℕ
  it : ℕ
  col : Arr ℕ
  dat : Arr K

/-- `sparse_init` for ELL (ell/ell_utils.inl:42-78).  `row[0]` is read even when there is no entry.  ELL_ZO (80-112)
is the same without `dat`. -/
def ellInit [Zero K] (kmax m nnz : ℕ) (row col : Arr ℕ) (dat : Arr K) : Except Fault (Ell K) := do
  let rows ← countRows m nnz row
  let ld ← maxElem rows
  let c0 : Arr ℕ := Arr.mk' (m * ld) (fun _ => 0)
  let d0 : Arr K := Arr.mk' (m * ld) (fun _ => 0)
  let cur ← row.rd 0
  let s ← iter nnz (fun i (s : EllSt K) => do
    let r ← row.rd i
    let it := if r ≠ s.cur then 0 else s.it
    let cv ← col.rd i
    let c ← s.col.wr (r * ld + it) cv
    let dv ← dat.rd i
    let d ← s.dat.wr (r * ld + it) dv
    pure ⟨r, it + 1, c, d⟩) ⟨cur, 0, c0, d0⟩
  pure ⟨m, ld, s.col, s.dat, kmax, decide (kmax > ld)⟩

/-- `fspmv` for ELL (ell/ell_spmv.inl:33-88), `.each` generic and `.sum` unparametric. -/
def ellSpmv [Zero K] (ops : FOps K) (md : Fin4) (A : Ell K) (x y : Arr K) : Except Fault (Arr K) :=
  rowLoop ops md A.m (fun i => pure (i * A.ld, A.ld)) (fun p => axpyStep ops A.dat A.col x p p) y

/-- `fspmv` for ELL with delayed reductions (ell/ell_spmv.inl:90-113). -/
def ellSpmvK (F : FpField) (kmax : ℕ) (A : Ell ℤ) (x y : Arr ℤ) : Except Fault (Arr ℤ) :=
  rowLoopK F kmax A.m (fun i => pure (i * A.ld, A.ld)) (fun p => axpyStep (machOps F.prec) A.dat A.col x p p) y

/-- `fspmv` over a modular field, ELL (fflas_sparse.inl:123-133). -/
def ellSpmvMod (F : FpField) (A : Ell ℤ) (x y : Arr ℤ) : Except Fault (Arr ℤ) :=
  if A.delayed then do
    let y ← ellSpmv (machOps F.prec) .sum A x y
    freduceY F A.m y
  else ellSpmvK F A.kmax A x y

/-- `fspmv_one` for ELL_ZO (ell/ell_spmv.inl:144-174): all `ld` columns of the row, padding included. -/
def ellZOSpmv [Zero K] (ops : FOps K) (md : Fin4) (A : Ell K) (x y : Arr K) : Except Fault (Arr K) :=
  rowLoop ops md A.m (fun i => pure (i * A.ld, A.ld)) (fun p => addStep ops A.col x p) y

/-! ## HYB_ZO -/

/-- `Sparse<Field, HYB_ZO>` (hyb_zo.h:36-50). -/
structure Hyb (K : Type) where
  m : ℕ
  one : Option (CsrZO K)
  mone : Option (CsrZO K)
  dat : Option (Csr K)

/-- One of the three classes being filled. -/
structure Part (K : Type) where
  it : ℕ
  row : Arr ℕ
  col : Arr ℕ
  dat : Arr K

/-- append an entry to a class -/
def Part.push (P : Part K) (r c : ℕ) (d : K) : Except Fault (Part K) := do
  let row ← P.row.wr P.it r
  let col ← P.col.wr P.it c
  let dat ← P.dat.wr P.it d
  pure ⟨P.it + 1, row, col, dat⟩

/-- Class of an entry: `isOne`, `isMOne`, other; `mOne` is the field's stored representation of `-1`. -/
def cls [One K] [DecidableEq K] (mOne : K) (d : K) : ℕ := if d = 1 then 0 else if d = mOne then 1 else 2

/-- The counting loop (hyb_zo/hyb_zo_utils.inl:52-60). -/
def hybCount [One K] [DecidableEq K] (mOne : K) (nnz : ℕ) (dat : Arr K) (c : ℕ) : Except Fault ℕ :=
  iter nnz (fun i (n : ℕ) => do
    let d ← dat.rd i
    pure (if cls mOne d = c then n + 1 else n)) 0

/-- `sparse_init` for HYB_ZO (hyb_zo/hyb_zo_utils.inl:43-125).  The value array of the classes one and minus one is
only bookkeeping of the model (the code has none and passes `nullptr`). -/
def hybInit [CommRing K] [DecidableEq K] (mOne : K) (kmax m nnz : ℕ) (row col : Arr ℕ) (dat : Arr K) (junkN : ℕ → ℕ)
    (junkK : ℕ → K) : Except Fault (Hyb K) := do
  let n0 ← hybCount mOne nnz dat 0
  let n1 ← hybCount mOne nnz dat 1
  let n2 ← hybCount mOne nnz dat 2
  let new (n : ℕ) : Part K := ⟨0, Arr.mk' n junkN, Arr.mk' n junkN, Arr.mk' n junkK⟩
  let s ← iter nnz (fun i (s : Part K × Part K × Part K) => do
    let d ← dat.rd i
    let c ← col.rd i
    let r ← row.rd i
    if d = 1 then do
      let P ← s.1.push r c d
      pure (P, s.2.1, s.2.2)
    else if d = mOne then do
      let P ← s.2.1.push r c d
      pure (s.1, P, s.2.2)
    else do
      let P ← s.2.2.push r c d
      pure (s.1, s.2.1, P)) (new n0, new n1, new n2)
  let one ← (if n0 ≠ 0 then do
    let A ← csrZOInit m n0 s.1.row s.1.col (1 : K) junkN
    pure (some A) else pure none)
  let mone ← (if n1 ≠ 0 then do
    let A ← csrZOInit m n1 s.2.1.row s.2.1.col (-1 : K) junkN
    pure (some A) else pure none)
  let oth ← (if n2 ≠ 0 then do
    let A ← csrInit kmax m n2 s.2.2.row s.2.2.col s.2.2.dat junkN junkK
    pure (some A) else pure none)
  pure ⟨m, one, mone, oth⟩

/-- `fspmv` for HYB_ZO (hyb_zo/hyb_zo_spmv.inl:34-58). -/
def hybSpmv [Zero K] (ops : FOps K) (md : Fin4) (A : Hyb K) (x y : Arr K) : Except Fault (Arr K) := do
  let y ← (match A.one with
    | some B => csrZOSpmv ops .sum B x y
    | none => pure y)
  let y ← (match A.mone with
    | some B => csrZOSpmv ops .neg B x y
    | none => pure y)
  match A.dat with
    | some B => csrSpmv ops md B x y
    | none => pure y

/-- `fspmv` over a modular field, HYB_ZO: `delayed` is always set (hyb_zo/hyb_zo_utils.inl:50), so the unparametric
version runs and the result is reduced (fflas_sparse.inl:123-133). -/
def hybSpmvMod (F : FpField) (A : Hyb ℤ) (x y : Arr ℤ) : Except Fault (Arr ℤ) := do
  let y ← hybSpmv (machOps F.prec) .sum A x y
  freduceY F A.m y

/-! ## ELL_simd -/

/-- `Sparse<Field, ELL_simd>` (ell_simd.h:36-49). -/
structure EllS (K : Type) where
  m : ℕ
  ld : ℕ
  chunk : ℕ
  nChunks : ℕ
  col : Arr ℕ
  dat : Arr K
  kmax : ℕ
  delayed : Bool

/-- `sparse_init` for ELL_simd (ell_simd/ell_simd_utils.inl:54-104).  `chunk` is the vector length (8 without SIMD). -/
def ellSInit [Zero K] (chunk kmax m nnz : ℕ) (row col : Arr ℕ) (dat : Arr K) : Except Fault (EllS K) := do
  let rows ← iter nnz (fun i (rows : Arr ℕ) => do
    let r ← row.rd i
    let c ← rows.rd (r + 1)
    rows.wr (r + 1) (c + 1)) (Arr.mk' (m + 1) (fun _ => 0))
  let ld ← maxElem rows
  let rows ← iter m (fun i (rows : Arr ℕ) => do
    let a ← rows.rd (i + 1)
    let b ← rows.rd i
    rows.wr (i + 1) (a + b)) rows
  if chunk = 0 then .error .divZero else do
  let m' := if m % chunk = 0 then m else m / chunk * chunk + chunk
  let nC := m' / chunk
  let s ← iter nC (fun i => iter chunk (fun k (s : Arr ℕ × Arr K) =>
    if i * chunk + k < m then do
      let a ← rows.rd (i * chunk + k)
      let b ← rows.rd (i * chunk + k + 1)
      let d ← usub b a
      iter d (fun j (s : Arr ℕ × Arr K) => do
        let dv ← dat.rd (a + j)
        let D ← s.2.wr (i * chunk * ld + j * chunk + k) dv
        let cv ← col.rd (a + j)
        let C ← s.1.wr (i * chunk * ld + j * chunk + k) cv
        pure (C, D)) s
    else pure s)) (Arr.mk' (nC * chunk * ld) (fun _ => 0), Arr.mk' (nC * chunk * ld) (fun _ => 0))
  pure ⟨m, ld, chunk, nC, s.1, s.2, kmax, decide (kmax > ld)⟩

/-- `fspmv` for ELL_simd, `GenericTag` (ell_simd/ell_simd_spmv.inl:33-51); the unparametric version (90-116) makes
the same updates in the same order. -/
def ellSSpmv (ops : FOps K) (A : EllS K) (x y : Arr K) : Except Fault (Arr K) :=
  iter A.nChunks (fun i => iter A.ld (fun j => iter A.chunk (fun k (y : Arr K) => do
    let e ← y.rd (i * A.chunk + k)
    let p := i * A.ld * A.chunk + j * A.chunk + k
    let e ← axpyStep ops A.dat A.col x p p e
    y.wr (i * A.chunk + k) e))) y

/-- `fspmv` for ELL_simd with delayed reductions (ell_simd/ell_simd_spmv.inl:166-201): note
`end = m + m % chunk` when `m` is not a multiple of `chunk`. -/
def ellSSpmvK (F : FpField) (kmax : ℕ) (A : EllS ℤ) (x y : Arr ℤ) : Except Fault (Arr ℤ) :=
  if kmax = 0 ∨ A.chunk = 0 then .error .divZero else
  let acc (i j : ℕ) (y : Arr ℤ) : Except Fault (Arr ℤ) := iter A.chunk (fun k (y : Arr ℤ) => do
    let e ← y.rd (i * A.chunk + k)
    let p := i * A.ld * A.chunk + j * A.chunk + k
    let e ← axpyStep (machOps F.prec) A.dat A.col x p p e
    y.wr (i * A.chunk + k) e) y
  let rd (i : ℕ) (y : Arr ℤ) : Except Fault (Arr ℤ) := iter A.chunk (fun k (y : Arr ℤ) => do
    let e ← y.rd (i * A.chunk + k)
    y.wr (i * A.chunk + k) (F.red e)) y
  let e := if A.m % A.chunk = 0 then A.m else A.m + A.m % A.chunk
  iter (e / A.chunk) (fun i (y : Arr ℤ) => do
    let y ← iter (A.ld / kmax) (fun l (y : Arr ℤ) => do
      let y ← iter kmax (fun j => acc i (l * kmax + j)) y
      rd i y) y
    let y ← iter (A.ld % kmax) (fun j => acc i (A.ld / kmax * kmax + j)) y
    rd i y) y

/-! ## CSR_HYB -/

/-- `Sparse<Field, CSR_HYB>` (csr_hyb.h:36-52). -/
structure CsrHyb (K : Type) where
  m : ℕ
  col : Arr ℕ
  st : Arr ℕ
  dat : Arr K
  kmax : ℕ
  delayed : Bool

/-- The comparison used to sort the entries (csr_hyb/csr_hyb_utils.inl:129-137); an entry is `(row, col, val)`. -/
def hybLt [CommRing K] [DecidableEq K] (a b : ℕ × ℕ × K) : Bool :=
  let o (v : K) : Bool := decide (v = 1)
  let mo (v : K) : Bool := decide (v = -1)
  decide (a.1 < b.1) || (decide (a.1 = b.1) && (mo a.2.2 && !mo b.2.2)) ||
  (decide (a.1 = b.1) && (mo a.2.2 && mo b.2.2 && decide (a.2.1 < b.2.1))) ||
  (decide (a.1 = b.1) && (o a.2.2 && !o b.2.2 && !mo b.2.2)) ||
  (decide (a.1 = b.1) && (o a.2.2 && o b.2.2 && decide (a.2.1 < b.2.1))) ||
  (decide (a.1 = b.1) && (!o a.2.2 && !mo a.2.2 && !o b.2.2 && !mo b.2.2) && decide (a.2.1 < b.2.1))

/-- `sparse_init` for CSR_HYB (csr_hyb/csr_hyb_utils.inl:76-163).  `srt` stands for `std::sort` with `hybLt`.
`A.col` is filled from `data` before the sort. -/
def csrHybInit [CommRing K] [DecidableEq K] (srt : List (ℕ × ℕ × K) → List (ℕ × ℕ × K)) (kmax m nnz : ℕ)
    (row col : Arr ℕ) (dat : Arr K) (junkN : ℕ → ℕ) (junkK : ℕ → K) : Except Fault (CsrHyb K) := do
  let rl ← readRow row 0 1 nnz
  let cl ← readRow col 0 1 nnz
  let dl ← readRow dat 0 1 nnz
  let data := rl.zip (cl.zip dl)
  let rows0 ← countRows m nnz row
  let maxrow ← maxElem rows0
  let rows ← data.foldlM (fun (rows : Arr ℕ) e => do
    let p := 3 * e.1 + (if e.2.2 = 1 then 1 else if e.2.2 = -1 then 0 else 2)
    let c ← rows.rd p
    rows.wr p (c + 1)) (Arr.mk' (3 * (m + 1)) (fun _ => 0))
  let nOthers := (data.filter (fun e => decide (cls (-1) e.2.2 = 2))).length
  let A_col ← copyArr nnz col (Arr.mk' nnz junkN)
  let sorted := srt data
  let A_dat ← (sorted.foldlM (fun (s : ℕ × Arr K) e =>
    if e.2.2 ≠ 1 ∧ e.2.2 ≠ -1 then do
      let D ← s.2.wr s.1 e.2.2
      pure (s.1 + 1, D)
    else pure s) (0, Arr.mk' nOthers junkK))
  let st : Arr ℕ := Arr.mk' (4 * (m + 1)) (fun _ => 0)
  let r0 ← rows.rd 0
  let st ← st.wr 1 r0
  let r1 ← rows.rd 1
  let s1 ← st.rd 1
  let st ← st.wr 2 (r1 + s1)
  let st ← st.wr 3 0
  let r2 ← rows.rd 2
  let s2 ← st.rd 2
  let st ← st.wr 4 (r2 + s2)
  let st ← iter (m - 1) (fun i' (st : Arr ℕ) => do
    let i := i' + 1
    let a ← rows.rd (3 * i)
    let b ← st.rd (4 * i)
    let st ← st.wr (4 * i + 1) (a + b)
    let a ← rows.rd (3 * i + 1)
    let b ← st.rd (4 * i + 1)
    let st ← st.wr (4 * i + 2) (a + b)
    let a ← rows.rd (3 * (i - 1) + 2)
    let b ← st.rd (4 * (i - 1) + 3)
    let st ← st.wr (4 * i + 3) (a + b)
    let a ← rows.rd (3 * i + 2)
    let b ← st.rd (4 * i + 2)
    st.wr (4 * (i + 1)) (a + b)) st
  pure ⟨m, A_col, st, A_dat.2, kmax, decide (kmax > maxrow)⟩

/-- `fspmv` for CSR_HYB, `GenericTag` (csr_hyb/csr_hyb_spmv.inl:33-56). -/
def csrHybSpmv (ops : FOps K) (A : CsrHyb K) (x y : Arr K) : Except Fault (Arr K) :=
  iter A.m (fun i (y : Arr K) => do
    let s0 ← A.st.rd (4 * i)
    let s1 ← A.st.rd (4 * i + 1)
    let y ← iter (s1 - s0) (fun j (y : Arr K) => do
      let c ← A.col.rd (s0 + j)
      let v ← x.rd c
      let e ← y.rd i
      let e ← ops.sub e v
      y.wr i e) y
    let s2 ← A.st.rd (4 * i + 2)
    let y ← iter (s2 - s1) (fun j (y : Arr K) => do
      let e ← y.rd i
      let e ← addStep ops A.col x (s1 + j) e
      y.wr i e) y
    let s4 ← A.st.rd (4 * (i + 1))
    let sd ← A.st.rd (4 * i + 3)
    iter (s4 - s2) (fun j (y : Arr K) => do
      let e ← y.rd i
      let e ← axpyStep ops A.dat A.col x (sd + j) (s2 + j) e
      y.wr i e) y) y

/-- `fspmv` over a modular field, CSR_HYB: without `delayed` the `kmax` version is called, whose body is `return`
(csr_hyb/csr_hyb_spmv.inl:118-123; fflas_sparse.inl:123-133). -/
def csrHybSpmvMod (F : FpField) (A : CsrHyb ℤ) (x y : Arr ℤ) : Except Fault (Arr ℤ) :=
  if A.delayed then do
    let y ← csrHybSpmv (machOps F.prec) A x y
    freduceY F A.m y
  else pure y

/-! ## SELL -/

/-- One row of the SELL construction: number of entries, original row, first entry (sell/sell_utils.inl:54-66). -/
structure Info where
  size : ℕ
  perm : ℕ
  begin : ℕ
deriving DecidableEq

/-- `Sparse<Field, SELL>` (sell.h:36-53). -/
structure Sell (K : Type) where
  m : ℕ
  chunk : ℕ
  nChunks : ℕ
  perm : Arr ℕ
  chunkSize : Arr ℕ
  st : Arr ℕ
  col : Arr ℕ
  dat : Arr K

/-- First part of `sparse_init` for SELL (sell/sell_utils.inl:99-170): sizes, first entries and numbers of the rows,
padded to a multiple of `chunk`. -/
def sellInfos (chunk m nnz : ℕ) (row : Arr ℕ) : Except Fault (List Info) := do
  if chunk = 0 then .error .divZero else do
  let m' := if m % chunk = 0 then m else m / chunk * chunk + chunk
  let nC := m' / chunk
  let cur ← row.rd 0
  let infos0 : Arr Info := Arr.mk' (nC * chunk) (fun _ => ⟨0, 0, 0⟩)
  let i0 ← infos0.rd cur
  let infos ← infos0.wr cur { i0 with begin := 0 }
  let s ← iter nnz (fun i (s : ℕ × Arr Info) => do
    let r ← row.rd i
    let infos ← (if r ≠ s.1 then do
      let v ← s.2.rd r
      s.2.wr r { v with begin := i } else pure s.2)
    let v ← infos.rd r
    let infos ← infos.wr r { v with size := v.size + 1 }
    pure (r, infos)) (cur, infos)
  let infos ← iter m (fun i (A : Arr Info) => do
    let v ← A.rd i
    A.wr i { v with perm := i }) s.2
  readRow infos 0 1 (nC * chunk)

/-- Second part of `sparse_init` for SELL (sell/sell_utils.inl:170-246), from the sorted rows. -/
def sellBuild [Zero K] (sorted : List Info) (chunk m : ℕ) (col : Arr ℕ) (dat : Arr K)
    (junkN : ℕ → ℕ) : Except Fault (Sell K) := do
  if chunk = 0 then .error .divZero else do
  let m' := if m % chunk = 0 then m else m / chunk * chunk + chunk
  let nC := m' / chunk
  let infos : Arr Info := @Arr.ofList _ ⟨⟨0, 0, 0⟩⟩ sorted
  let perm ← iter m (fun i (P : Arr ℕ) => do
    let v ← infos.rd i
    P.wr v.perm i) (Arr.mk' m junkN)
  let chunkSize ← iter nC (fun i => iter chunk (fun j (C : Arr ℕ) => do
    let v ← infos.rd (i * chunk + j)
    let c ← C.rd i
    C.wr i (if v.size ≥ c then v.size else c))) (Arr.mk' nC (fun _ => 0))
  let sum ← iter nC (fun i (a : ℕ) => do
    let c ← chunkSize.rd i
    pure (a + c)) 0
  let f ← iter nC (fun i (s : ℕ × Arr ℕ × Arr K) => do
    let CD ← iter chunk (fun k (CD : Arr ℕ × Arr K) => do
      let v ← infos.rd (i * chunk + k)
      iter v.size (fun j (CD : Arr ℕ × Arr K) => do
        let dv ← dat.rd (v.begin + j)
        let D ← CD.2.wr (s.1 + k + j * chunk) dv
        let cv ← col.rd (v.begin + j)
        let C ← CD.1.wr (s.1 + k + j * chunk) cv
        pure (C, D)) CD) s.2
    let c ← chunkSize.rd i
    pure (s.1 + c * chunk, CD)) (0, Arr.mk' (sum * chunk) (fun _ => 0), Arr.mk' (sum * chunk) (fun _ => 0))
  let st ← (Arr.mk' nC junkN).wr 0 0
  let st ← iter (nC - 1) (fun i (st : Arr ℕ) => do
    let c ← chunkSize.rd i
    let a ← st.rd i
    st.wr (i + 1) (a + c * chunk)) st
  pure ⟨m, chunk, nC, perm, chunkSize, st, f.2.1, f.2.2⟩

/-- `sparse_init` for SELL with the default `sigma = 0`, i.e. one sort over all rows (sell/sell_utils.inl:99-246).
`srt` stands for `std::sort` with the comparison `a.size >= b.size`; it sorts the first `m` entries of `infos`
(`ROUND_DOWN(m, m) = m`). -/
def sellInit [Zero K] (srt : List Info → List Info) (chunk m nnz : ℕ) (row col : Arr ℕ) (dat : Arr K)
    (junkN : ℕ → ℕ) : Except Fault (Sell K) := do
  let all ← sellInfos chunk m nnz row
  sellBuild (srt (all.take m) ++ all.drop m) chunk m col dat junkN

/-- `fspmv` for SELL, `GenericTag` (sell/sell_spmv.inl:34-55); `perm` is not used by any kernel. -/
def sellSpmv (ops : FOps K) (A : Sell K) (x y : Arr K) : Except Fault (Arr K) :=
  iter A.nChunks (fun i (y : Arr K) => do
    let start ← A.st.rd i
    let size ← A.chunkSize.rd i
    iter size (fun j => iter A.chunk (fun k (y : Arr K) => do
      let e ← y.rd (i * A.chunk + k)
      let p := start + j * A.chunk + k
      let e ← axpyStep ops A.dat A.col x p p e
      y.wr (i * A.chunk + k) e)) y) y

end Sparse
end Verif
