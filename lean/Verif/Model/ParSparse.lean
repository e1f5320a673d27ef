import Verif.Model.Par
import Verif.Model.Sparse

/-!
# The parallel products with a sparse matrix

`pfspmv` and `pfspmm`: /repo/fflas-ffpack/fflas/fflas_sparse.inl:855-874, with the kernels of fflas_sparse/csr/csr_pspmv.inl,
csr/csr_pspmm.inl and ell/ell_pspmv.inl for `GenericTag`, the tag every field whose elements are not machine numbers is dispatched to
(fflas_sparse.inl:393-416).  The values `dat`, `x` and `y` are in the shared memory; the index arrays `col`, `st`, which nobody writes,
are arrays.  Simplification: an iteration of `#pragma omp parallel for` is a task of its own, so the executions of the model include
those of every distribution of the iterations over threads.
-/

namespace Verif.Par
open Verif.FF Verif.BlockCuts Verif.Sparse

variable {K : Type} [Field K] [DecidableEq K]

/-- The kind of matrix: values at an address, all one, all minus one. -/
inductive PKind where
  | val (dat : ℕ)
  | one
  | mone

/-- the new value of `y` in `F.axpyin(y, dat[j], x)`, `F.addin(y, x)`, `F.subin(y, x)` -/
def PKind.upd (kd : PKind) (j : ℕ) (yv xv : K) : Prog K K :=
  match kd with
  | .val d => do
    let a ← load (d + j)
    pure (yv + a * xv)
  | .one => pure (yv + xv)
  | .mone => pure (yv - xv)

/-- `F.axpyin(y[i*ldy+k], dat[j], x[col[j]*ldx+k])` (csr_pspmm.inl:51), `F.addin` (:496), `F.subin` (:533); `yr = y + i*ldy`. -/
def mmCell (kd : PKind) (col : Arr ℕ) (x ldx yr j k : ℕ) : Prog K Unit := do
  let c ← liftE (col.rd j)
  let xv ← load (x + c * ldx + k)
  let yv ← load (yr + k)
  let r ← kd.upd j yv xv
  store (yr + k) r

/-- the loops over `k`, unrolled by four: csr_pspmm.inl:49-57. -/
def mmEntry (kd : PKind) (col : Arr ℕ) (x ldx bs yr j : ℕ) : Prog K Unit := do
  loop (bs / 4) fun q => do
    mmCell kd col x ldx yr j (4 * q)
    mmCell kd col x ldx yr j (4 * q + 1)
    mmCell kd col x ldx yr j (4 * q + 2)
    mmCell kd col x ldx yr j (4 * q + 3)
  loop (bs % 4) fun e => mmCell kd col x ldx yr j (4 * (bs / 4) + e)

/-- one row: csr_pspmm.inl:47-59. -/
def mmRow (kd : PKind) (bounds : ℕ → Except Fault (ℕ × ℕ)) (col : Arr ℕ) (x ldx bs y ldy i : ℕ) : Prog K Unit := do
  let b ← liftE (bounds i)
  loop b.2 fun t => mmEntry kd col x ldx bs (y + i * ldy) (b.1 + t)

/-- `F.axpyin(y1, dat[j], x[col[j]])` (csr_pspmv.inl:89) or `F.addin(y1, x[col[j]])` (:261, :305), on a local accumulator -/
def mvStep (kd : PKind) (col : Arr ℕ) (x j : ℕ) (acc : K) : Prog K K := do
  let c ← liftE (col.rd j)
  let xv ← load (x + c)
  match kd with
  | .val d => do
    let a ← load (d + j)
    pure (acc + a * xv)
  | .one => pure (acc + xv)
  | .mone => pure (acc + xv)

/-- `F.addin(y[i], y1)`, for the matrices of minus ones `F.subin(y[i], y1)` -/
def mvOut (kd : PKind) (yi : ℕ) (a : K) : Prog K Unit := do
  let yv ← load yi
  match kd with
  | .mone => store yi (yv - a)
  | _ => store yi (yv + a)

/-- one row: csr_pspmv.inl:78-100 (values), 244-272 (ones), 288-316 (minus ones); ell_pspmv.inl:73-91.  Four accumulators. -/
def mvRow (kd : PKind) (bounds : ℕ → Except Fault (ℕ × ℕ)) (col : Arr ℕ) (x y i : ℕ) : Prog K Unit := do
  let b ← liftE (bounds i)
  let s ← iter (b.2 / 4) (fun q (s : K × K × K × K) => do
    let a1 ← mvStep kd col x (b.1 + 4 * q) s.1
    let a2 ← mvStep kd col x (b.1 + (4 * q + 1)) s.2.1
    let a3 ← mvStep kd col x (b.1 + (4 * q + 2)) s.2.2.1
    let a4 ← mvStep kd col x (b.1 + (4 * q + 3)) s.2.2.2
    pure (a1, a2, a3, a4)) (0, 0, 0, 0)
  let a1 ← iter (b.2 % 4) (fun e a => mvStep kd col x (b.1 + (4 * (b.2 / 4) + e)) a) s.1
  mvOut kd (y + i) a1
  mvOut kd (y + i) s.2.1
  mvOut kd (y + i) s.2.2.1
  mvOut kd (y + i) s.2.2.2

/-- the row bounds of ELL: `dat[i * A.ld + j]` for `j < A.ld`, ell_pspmv.inl:79-87 -/
def ellBounds (ld i : ℕ) : Except Fault (ℕ × ℕ) := pure (i * ld, ld)

/-- `init_y` for a vector, fflas_sparse.inl:37-47. -/
def mvInit (m : ℕ) (beta : K) (y : ℕ) : Prog K Unit :=
  if beta = 1 then pure ()
  else if beta = 0 then vzero m y 1
  else if beta = -1 then vnegin m y 1
  else vscalin .generic m beta y 1

/-- `init_y` for a block of vectors, fflas_sparse.inl:49-62: `fnegin` and `fscalin` are given the leading dimension 1. -/
def mmInit (m n : ℕ) (beta : K) (y ldy : ℕ) : Prog K Unit :=
  if beta = 1 then pure ()
  else if beta = 0 then fzero m n y ldy
  else if beta = -1 then fnegin m n y 1
  else fscalin .generic m n beta y 1

instance (kd : PKind) (j : ℕ) (yv xv : K) : Small (kd.upd j yv xv) := by
  delta PKind.upd; cases kd <;> (dsimp only; infer_instance)
instance (kd : PKind) (col : Arr ℕ) (x ldx yr j k : ℕ) : Small (mmCell kd col x ldx yr j k : Prog K Unit) := by delta mmCell; infer_instance
instance (kd : PKind) (col : Arr ℕ) (x ldx bs yr j : ℕ) : Small (mmEntry kd col x ldx bs yr j : Prog K Unit) := by delta mmEntry; infer_instance
instance (kd : PKind) (bounds : ℕ → Except Fault (ℕ × ℕ)) (col : Arr ℕ) (x ldx bs y ldy i : ℕ) :
    Small (mmRow kd bounds col x ldx bs y ldy i : Prog K Unit) := by delta mmRow; infer_instance
instance (kd : PKind) (col : Arr ℕ) (x j : ℕ) (acc : K) : Small (mvStep kd col x j acc) := by
  delta mvStep; cases kd <;> (dsimp only; infer_instance)
instance (kd : PKind) (yi : ℕ) (a : K) : Small (mvOut kd yi a) := by
  delta mvOut; cases kd <;> (dsimp only; infer_instance)
instance (kd : PKind) (bounds : ℕ → Except Fault (ℕ × ℕ)) (col : Arr ℕ) (x y i : ℕ) :
    Small (mvRow kd bounds col x y i : Prog K Unit) := by delta mvRow; infer_instance
instance (m : ℕ) (beta : K) (y : ℕ) : Small (mvInit m beta y) := by delta mvInit; infer_instance
instance (m n : ℕ) (beta : K) (y ldy : ℕ) : Small (mmInit m n beta y ldy) := by delta mmInit; infer_instance

/-- `pfspmm` of the namespace `sparse_details_impl`: csr_pspmm.inl:34-64 (values), 476-510 (ones), 513-546 (minus ones). -/
def mmTasks (kd : PKind) (m : ℕ) (bounds : ℕ → Except Fault (ℕ × ℕ)) (col : Arr ℕ) (x ldx bs y ldy t : ℕ) (k : Proc K) : Proc K :=
  forBlock1D .Threads m t (fun _ b e => call (loop (e - b) fun i => mmRow kd bounds col x ldx bs y ldy (b + i)) .ret) k

/-- `pfspmm(F, A, blockSize, x, ldx, beta, y, ldy)`, fflas_sparse.inl:866-874, for a matrix with values. -/
def pfspmm (d : ℕ) (m : ℕ) (bounds : ℕ → Except Fault (ℕ × ℕ)) (col : Arr ℕ) (bs x ldx : ℕ) (beta : K) (y ldy t : ℕ) (k : Proc K) : Proc K :=
  call (mmInit m bs beta y ldy) (mmTasks (.val d) m bounds col x ldx bs y ldy t k)

/-- the same for a matrix that is `cst` times a zero-one matrix, with the dispatch of fflas_sparse.inl:472-486: for other constants a
scaled copy of `x` is made and not used (the copy, which the product does not read, is left out here). -/
def pfspmmZO (cst : K) (m : ℕ) (bounds : ℕ → Except Fault (ℕ × ℕ)) (col : Arr ℕ) (bs x ldx : ℕ) (beta : K) (y ldy t : ℕ) (k : Proc K) : Proc K :=
  call (mmInit m bs beta y ldy)
    (if cst = 1 then mmTasks .one m bounds col x ldx bs y ldy t k
     else if cst = -1 then mmTasks .mone m bounds col x ldx bs y ldy t k
     else mmTasks .one m bounds col x ldx bs y ldy t k)

/-- `pfspmv(F, A, x, beta, y)`, fflas_sparse.inl:857-864 and 568-574: `#pragma omp parallel for` over the rows (csr_pspmv.inl:74-101,
ell_pspmv.inl:71-92), for a matrix with values: there is no dispatch for zero-one matrices. -/
def pfspmv (d : ℕ) (m : ℕ) (bounds : ℕ → Except Fault (ℕ × ℕ)) (col : Arr ℕ) (x : ℕ) (beta : K) (y : ℕ) (k : Proc K) : Proc K :=
  call (mvInit m beta y) (.par m (fun i => call (mvRow (.val d) bounds col x y i) .ret) k)

/-- `pfspmv_one`, `pfspmv_mone`: csr_pspmv.inl:232-277, 279-321. -/
def pfspmvZO (neg : Bool) (m : ℕ) (bounds : ℕ → Except Fault (ℕ × ℕ)) (col : Arr ℕ) (x y t : ℕ) (k : Proc K) : Proc K :=
  forBlock1D .Threads m t (fun _ b e => call (loop (e - b) fun i => mvRow (if neg then .mone else .one) bounds col x y (b + i) : Prog K Unit) .ret) k

end Verif.Par
