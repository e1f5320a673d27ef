import Verif.Model.Sparse

/-!
# Product of a sparse matrix and a dense block of vectors (`fspmm`)

`Y ← beta Y + A X` for `X` with leading dimension `ldx`, `Y` with leading dimension `ldy` and `bs` (`blockSize`)
columns.  Formats CSR, COO, ELL, CSR_ZO, COO_ZO, HYB_ZO and CSR_HYB (fflas_sparse/*/*_spmm.inl, fflas_sparse.inl:36-62,
229-385, 846-854).  The pointers `x` and `y` are the starts of checked arrays.
-/

namespace Verif
namespace Sparse
open Lazy
variable {K : Type}

/-- How the loop over the columns of one row is written: unrolled by four (`scal4`, csr/csr_spmm.inl:46-54), or with
vectors of `v` elements (`vec`), first two vectors at a time if `two` (csr/csr_spmm.inl:107-128, ell/ell_spmm.inl:97-113)
or one at a time (coo/coo_spmm.inl:136-145), with aligned or unaligned loads and stores. -/
inductive Mode where
  | scal4
  | vec (two : Bool) (v : ℕ) (al : Bool)

/-- `y[b+k] op= x[bx+k]` -/
def cell (op : K → K → Except Fault K) (x : Arr K) (bx b k : ℕ) (y : Arr K) : Except Fault (Arr K) := do
  let e ← y.rd (b + k)
  let u ← x.rd (bx + k)
  let r ← op e u
  y.wr (b + k) r

/-- `w` consecutive cells from `k` on: all loads, then all stores.  With `al`, an address that is not a multiple of the
vector size `v` (the bases being multiples) is an invalid access. -/
def vecCell (op : K → K → Except Fault K) (x : Arr K) (bx b v : ℕ) (al : Bool) (w k : ℕ) (y : Arr K) :
    Except Fault (Arr K) :=
  if al = true ∧ ¬((b + k) % v = 0 ∧ (bx + k) % v = 0) then .error .oob else do
  let t ← iter w (fun l (t : Arr K) => do
    let e ← y.rd (b + (k + l))
    let u ← x.rd (bx + (k + l))
    let r ← op e u
    t.wr l r) (Arr.mk' w y.get)
  iter w (fun l (y : Arr K) => do
    let r ← t.rd l
    y.wr (b + (k + l)) r) y

/-- One entry of the sparse matrix: `y[b .. b+bs) op= x[bx .. bx+bs)` (csr/csr_spmm.inl:44-54 and 105-128). -/
def entryUpd (md : Mode) (bs : ℕ) (op : K → K → Except Fault K) (x : Arr K) (bx b : ℕ) (y : Arr K) :
    Except Fault (Arr K) :=
  match md with
  | .scal4 => do
    let y ← iter (bs / 4) (fun q (y : Arr K) => do
      let y ← cell op x bx b (4 * q) y
      let y ← cell op x bx b (4 * q + 1) y
      let y ← cell op x bx b (4 * q + 2) y
      cell op x bx b (4 * q + 3) y) y
    iter (bs % 4) (fun r => cell op x bx b (4 * (bs / 4) + r)) y
  | .vec two v al => do
    let k0 := if two then bs / (2 * v) * (2 * v) else 0
    let y ← iter (k0 / (2 * v)) (fun q => vecCell op x bx b v al (2 * v) (q * (2 * v))) y
    let y ← iter ((bs / v * v - k0) / v) (fun q => vecCell op x bx b v al v (k0 + q * v)) y
    iter (bs - bs / v * v) (fun r => cell op x bx b (bs / v * v + r)) y

/-- The choice made by the dispatch (fflas_sparse.inl:258-276, 278-306): aligned loads when both pointers are aligned
(`ax`, `ay`) and `blockSize` is a multiple of the vector size; the leading dimensions are not looked at. -/
def pick (simd two : Bool) (v : ℕ) (ax ay : Bool) (bs : ℕ) : Mode :=
  if simd then .vec two v (ay && ax && decide (bs % v = 0)) else .scal4

/-- Row-wise kernel: entry `p` gives its column and its operation. -/
def rowsMM (md : Mode) (bs m : ℕ) (bounds : ℕ → Except Fault (ℕ × ℕ))
    (ent : ℕ → Except Fault (ℕ × (K → K → Except Fault K))) (x : Arr K) (ldx : ℕ) (y : Arr K) (ldy : ℕ) :
    Except Fault (Arr K) :=
  iter m (fun i (y : Arr K) => do
    let b ← bounds i
    iter b.2 (fun j (y : Arr K) => do
      let e ← ent (b.1 + j)
      entryUpd md bs e.2 x (e.1 * ldx) (i * ldy) y) y) y

/-- `freduce(F, bs, y + i*ldy, 1)` -/
def reduceRow (F : FpField) (bs b : ℕ) (y : Arr ℤ) : Except Fault (Arr ℤ) :=
  iter bs (fun k (y : Arr ℤ) => do
    let a ← y.rd (b + k)
    y.wr (b + k) (F.red a)) y

/-- `freduce(F, m, n, y, ld)` on exactly represented integers. -/
def reduceBlock (F : FpField) (m n ld : ℕ) (y : Arr ℤ) : Except Fault (Arr ℤ) :=
  iter m (fun i => reduceRow F n (i * ld)) y

/-- Row-wise kernel with a reduction of the row after every `kmax` entries (csr/csr_spmm.inl:183-241,
ell/ell_spmm.inl:157-205).  `kmax = 0` is a division by zero. -/
def rowsMMK (F : FpField) (kmax : ℕ) (md : Mode) (bs m : ℕ) (bounds : ℕ → Except Fault (ℕ × ℕ))
    (ent : ℕ → Except Fault (ℕ × (ℤ → ℤ → Except Fault ℤ))) (x : Arr ℤ) (ldx : ℕ) (y : Arr ℤ) (ldy : ℕ) :
    Except Fault (Arr ℤ) :=
  iter m (fun i (y : Arr ℤ) => do
    let b ← bounds i
    if kmax = 0 then .error .divZero else do
    let y ← iter (b.2 / kmax) (fun l (y : Arr ℤ) => do
      let y ← iter kmax (fun j (y : Arr ℤ) => do
        let e ← ent (b.1 + (l * kmax + j))
        entryUpd md bs e.2 x (e.1 * ldx) (i * ldy) y) y
      reduceRow F bs (i * ldy) y) y
    let y ← iter (b.2 % kmax) (fun j (y : Arr ℤ) => do
      let e ← ent (b.1 + (b.2 / kmax * kmax + j))
      entryUpd md bs e.2 x (e.1 * ldx) (i * ldy) y) y
    reduceRow F bs (i * ldy) y) y

/-- An entry with a value: `y += dat[p] * x[col[p]]`. -/
def entVal (ops : FOps K) (dat : Arr K) (col : Arr ℕ) (p : ℕ) : Except Fault (ℕ × (K → K → Except Fault K)) := do
  let d ← dat.rd p
  let c ← col.rd p
  pure (c, fun e u => ops.axpy e d u)

/-- An entry of a zero-one matrix: `y += x[col[p]]` or `y -= x[col[p]]`. -/
def entZO (ops : FOps K) (neg : Bool) (col : Arr ℕ) (p : ℕ) : Except Fault (ℕ × (K → K → Except Fault K)) := do
  let c ← col.rd p
  pure (c, if neg then ops.sub else ops.add)

/-- `init_y` for a block (fflas_sparse.inl:49-62): `fzero` uses `ldy`, but `fnegin` and `fscalin` are called with
leading dimension 1. -/
def initY2 [CommRing K] [DecidableEq K] (m n : ℕ) (beta : K) (ldy : ℕ) (y : Arr K) : Except Fault (Arr K) :=
  if beta ≠ 1 then
    if beta = 0 then iter m (fun i => iter n (fun j (y : Arr K) => y.wr (i * ldy + j) 0)) y
    else iter m (fun i => iter n (fun j (y : Arr K) => do
      let a ← y.rd (i * 1 + j)
      y.wr (i * 1 + j) (if beta = -1 then -a else beta * a))) y
  else pure y

/-! ## The formats -/

/-- `fspmm` for CSR, generic, unparametric and SIMD (csr/csr_spmm.inl:32-181). -/
def csrMM (ops : FOps K) (md : Mode) (bs : ℕ) (A : Csr K) (x : Arr K) (ldx : ℕ) (y : Arr K) (ldy : ℕ) :
    Except Fault (Arr K) :=
  rowsMM md bs A.m (csrBounds A.st) (entVal ops A.dat A.col) x ldx y ldy

/-- `fspmm` for CSR with delayed reductions (csr/csr_spmm.inl:183-409). -/
def csrMMK (F : FpField) (kmax : ℕ) (md : Mode) (bs : ℕ) (A : Csr ℤ) (x : Arr ℤ) (ldx : ℕ) (y : Arr ℤ) (ldy : ℕ) :
    Except Fault (Arr ℤ) :=
  rowsMMK F kmax md bs A.m (csrBounds A.st) (entVal (machOps F.prec) A.dat A.col) x ldx y ldy

/-- `fspmm` over a modular field, CSR (fflas_sparse.inl:278-306). -/
def csrMMMod (F : FpField) (md : Mode) (bs : ℕ) (A : Csr ℤ) (x : Arr ℤ) (ldx : ℕ) (y : Arr ℤ) (ldy : ℕ) :
    Except Fault (Arr ℤ) :=
  if A.delayed then do
    let y ← csrMM (machOps F.prec) md bs A x ldx y ldy
    reduceBlock F A.m bs ldy y
  else csrMMK F A.kmax md bs A x ldx y ldy

/-- `fspmm` for ELL (ell/ell_spmm.inl:33-153). -/
def ellMM (ops : FOps K) (md : Mode) (bs : ℕ) (A : Ell K) (x : Arr K) (ldx : ℕ) (y : Arr K) (ldy : ℕ) :
    Except Fault (Arr K) :=
  rowsMM md bs A.m (fun i => pure (i * A.ld, A.ld)) (entVal ops A.dat A.col) x ldx y ldy

/-- `fspmm` for ELL with delayed reductions (ell/ell_spmm.inl:155-338). -/
def ellMMK (F : FpField) (kmax : ℕ) (md : Mode) (bs : ℕ) (A : Ell ℤ) (x : Arr ℤ) (ldx : ℕ) (y : Arr ℤ) (ldy : ℕ) :
    Except Fault (Arr ℤ) :=
  rowsMMK F kmax md bs A.m (fun i => pure (i * A.ld, A.ld)) (entVal (machOps F.prec) A.dat A.col) x ldx y ldy

/-- `fspmm` over a modular field, ELL (fflas_sparse.inl:278-306). -/
def ellMMMod (F : FpField) (md : Mode) (bs : ℕ) (A : Ell ℤ) (x : Arr ℤ) (ldx : ℕ) (y : Arr ℤ) (ldy : ℕ) :
    Except Fault (Arr ℤ) :=
  if A.delayed then do
    let y ← ellMM (machOps F.prec) md bs A x ldx y ldy
    reduceBlock F A.m bs ldy y
  else ellMMK F A.kmax md bs A x ldx y ldy

/-- `fspmm` for COO (coo/coo_spmm.inl:33-170). -/
def cooMM (ops : FOps K) (md : Mode) (bs : ℕ) (A : Coo K) (x : Arr K) (ldx : ℕ) (y : Arr K) (ldy : ℕ) :
    Except Fault (Arr K) :=
  iter A.nnz (fun j (y : Arr K) => do
    let r ← A.row.rd j
    let e ← entVal ops A.dat A.col j
    entryUpd md bs e.2 x (e.1 * ldx) (r * ldy) y) y

/-- `fspmm_one`, `fspmm_mone` for COO_ZO (coo/coo_spmm.inl:194-330). -/
def cooZOMM (ops : FOps K) (neg : Bool) (md : Mode) (bs : ℕ) (A : Coo K) (x : Arr K) (ldx : ℕ) (y : Arr K) (ldy : ℕ) :
    Except Fault (Arr K) :=
  iter A.nnz (fun j (y : Arr K) => do
    let r ← A.row.rd j
    let e ← entZO ops neg A.col j
    entryUpd md bs e.2 x (e.1 * ldx) (r * ldy) y) y

/-- `fspmm` over a modular field, COO: without `delayed` the `kmax` version is called, whose body is empty
(coo/coo_spmm.inl:172-192; fflas_sparse.inl:278-306). -/
def cooMMMod (F : FpField) (md : Mode) (bs : ℕ) (A : Coo ℤ) (x : Arr ℤ) (ldx : ℕ) (y : Arr ℤ) (ldy : ℕ) :
    Except Fault (Arr ℤ) :=
  if A.delayed then do
    let y ← cooMM (machOps F.prec) md bs A x ldx y ldy
    reduceBlock F A.m bs ldy y
  else pure y

/-- `fspmm_one`, `fspmm_mone` for CSR_ZO (csr/csr_spmm.inl:413-603). -/
def csrZOMM (ops : FOps K) (neg : Bool) (md : Mode) (bs : ℕ) (A : CsrZO K) (x : Arr K) (ldx : ℕ) (y : Arr K)
    (ldy : ℕ) : Except Fault (Arr K) :=
  rowsMM md bs A.m (csrBounds A.st) (entZO ops neg A.col) x ldx y ldy

/-- `fscal(F, m, bs, cst, x, ldx, x1, 1)` for `cst` different from `1` and `-1` (fflas_fscal.inl, level 2): the first
`m` rows of `x`, where `m` is the number of rows of the matrix, into rows of leading dimension 1. -/
def scalX1 [CommRing K] [DecidableEq K] (m bs : ℕ) (cst : K) (x : Arr K) (ldx : ℕ) (junk : ℕ → K) :
    Except Fault (Arr K) :=
  if cst = 0 then iter m (fun i => iter bs (fun k (t : Arr K) => t.wr (i * 1 + k) 0)) (Arr.mk' (m * bs) junk)
  else iter m (fun i => iter bs (fun k (t : Arr K) => do
    let u ← x.rd (i * ldx + k)
    t.wr (i * 1 + k) (cst * u))) (Arr.mk' (m * bs) junk)

/-- `fspmm` of a zero-one matrix with constant `cst` (fflas_sparse.inl:309-357); `mOne` is the field's stored `-1`.  For
other constants the code scales `x` into `x1` but multiplies by `x`. -/
def csrZOMMCst [CommRing K] [DecidableEq K] (ops : FOps K) (mOne : K) (md : Mode) (bs : ℕ) (A : CsrZO K) (x : Arr K)
    (ldx : ℕ) (y : Arr K) (ldy : ℕ) (junk : ℕ → K) : Except Fault (Arr K) :=
  if A.cst = 1 then csrZOMM ops false md bs A x ldx y ldy
  else if A.cst = mOne then csrZOMM ops true md bs A x ldx y ldy
  else do
    let _x1 ← scalX1 A.m bs A.cst x ldx junk
    csrZOMM ops false md bs A x ldx y ldy

/-- `fspmm` of a zero-one matrix over a modular field (fflas_sparse.inl:376-385): the reduction is called with the two
dimensions exchanged. -/
def csrZOMMMod (F : FpField) (mOne : ℤ) (md : Mode) (bs : ℕ) (A : CsrZO ℤ) (x : Arr ℤ) (ldx : ℕ) (y : Arr ℤ) (ldy : ℕ)
    (junk : ℕ → ℤ) : Except Fault (Arr ℤ) := do
  let y ← csrZOMMCst (machOps F.prec) mOne md bs A x ldx y ldy junk
  reduceBlock F bs A.m ldy y

/-- `fspmm` for HYB_ZO (hyb_zo/hyb_zo_spmm.inl:33-90). -/
def hybMM (ops : FOps K) (md : Mode) (bs : ℕ) (A : Hyb K) (x : Arr K) (ldx : ℕ) (y : Arr K) (ldy : ℕ) :
    Except Fault (Arr K) := do
  let y ← (match A.one with
    | some B => csrZOMM ops false md bs B x ldx y ldy
    | none => pure y)
  let y ← (match A.mone with
    | some B => csrZOMM ops true md bs B x ldx y ldy
    | none => pure y)
  match A.dat with
    | some B => csrMM ops md bs B x ldx y ldy
    | none => pure y

/-- Which version of `fspmm` for CSR_HYB: `GenericTag`, `UnparametricTag` without and with SIMD. -/
inductive HybVer where
  | generic
  | unparam
  | simd (v : ℕ)

/-- `fspmm` for CSR_HYB (csr_hyb/csr_hyb_spmm.inl:33-283).  In the third part of a row (entries with a value) the
generic version reads `dat[startDat + k]`, where `k` is the dense column (rounded down to a multiple of four in the
unrolled part), the other two `dat[startDat + j]`, where `j` is the absolute number of the entry.  The SIMD version
loads its second operand from `y` instead of `x` in all three parts, and subtracts in the rest of the third; its two
vector loops are written as one with the same effect on rows that the loads and stores do not share. -/
def csrHybMM [Zero K] (ops : FOps K) (ver : HybVer) (bs : ℕ) (A : CsrHyb K) (x : Arr K) (ldx : ℕ) (y : Arr K) (ldy : ℕ) :
    Except Fault (Arr K) :=
  let simple (op : K → K → Except Fault K) (c i : ℕ) (y : Arr K) : Except Fault (Arr K) :=
    match ver with
    | .simd v => do
      let y ← iter (bs / v) (fun q (y : Arr K) => vecCell op y (c * ldx) (i * ldy) v false v (q * v) y) y
      iter (bs - bs / v * v) (fun r => cell op x (c * ldx) (i * ldy) (bs / v * v + r)) y
    | _ => entryUpd .scal4 bs op x (c * ldx) (i * ldy) y
  iter A.m (fun i (y : Arr K) => do
    let s0 ← A.st.rd (4 * i)
    let s1 ← A.st.rd (4 * i + 1)
    let y ← iter (s1 - s0) (fun j (y : Arr K) => do
      let c ← A.col.rd (s0 + j)
      simple ops.sub c i y) y
    let s2 ← A.st.rd (4 * i + 2)
    let y ← iter (s2 - s1) (fun j (y : Arr K) => do
      let c ← A.col.rd (s1 + j)
      simple ops.add c i y) y
    let s4 ← A.st.rd (4 * (i + 1))
    let sd ← A.st.rd (4 * i + 3)
    iter (s4 - s2) (fun j (y : Arr K) => do
      let c ← A.col.rd (s2 + j)
      match ver with
      | .generic => iter bs (fun k (y : Arr K) => do
          let d ← A.dat.rd (sd + (if k < bs / 4 * 4 then k / 4 * 4 else k))
          cell (fun e u => ops.axpy e d u) x (c * ldx) (i * ldy) k y) y
      | .unparam => do
          let d ← A.dat.rd (sd + (s2 + j))
          entryUpd .scal4 bs (fun e u => ops.axpy e d u) x (c * ldx) (i * ldy) y
      | .simd v => do
          let d ← A.dat.rd (sd + (s2 + j))
          let y ← iter (bs / v) (fun q (y : Arr K) =>
            vecCell (fun e u => ops.axpy e d u) y (c * ldx) (i * ldy) v false v (q * v) y) y
          iter (bs - bs / v * v) (fun r (y : Arr K) => do
            let e ← y.rd (i * ldy + (bs / v * v + r))
            let u ← x.rd (c * ldx + (bs / v * v + r))
            let t ← ops.axpy 0 d u
            let s ← ops.sub e t
            y.wr (i * ldy + (bs / v * v + r)) s) y) y) y

end Sparse
end Verif
