import Verif.Model.ParSparse

/-!
# The parallel products with the hybrid formats

`pfspmv` and `pfspmm` for HYB_ZO and `pfspmv` for CSR_HYB, `GenericTag`: /repo/fflas-ffpack/fflas/fflas_sparse/hyb_zo/hyb_zo_pspmv.inl:34-43,
hyb_zo/hyb_zo_pspmm.inl:34-44 and csr_hyb/csr_hyb_pspmv.inl:37-84.  Simplifications as in `Model/ParSparse`.
-/

namespace Verif.Par
open Verif.FF Verif.BlockCuts Verif.Sparse

variable {K : Type} [Field K] [DecidableEq K]

/-- `Sparse<Field, HYB_ZO>`, hyb_zo.h:36-50: the entries 1, the entries -1 (row starts and columns) and the others (address of the values, row starts
and columns).  A null pointer is `none`. -/
structure HybZO where
  one : Option (Arr ℕ × Arr ℕ)
  mone : Option (Arr ℕ × Arr ℕ)
  dat : Option (ℕ × Arr ℕ × Arr ℕ)

/-- `if (A.one != nullptr) pfspmv_one(…)`, `if (A.mone != nullptr) pfspmv_mone(…)`: hyb_zo_pspmv.inl:37-40 -/
def zoPart (neg : Bool) (o : Option (Arr ℕ × Arr ℕ)) (m x y t : ℕ) (k : Proc K) : Proc K :=
  match o with
  | none => k
  | some a => pfspmvZO neg m (csrBounds a.1) a.2 x y t k

/-- `if (A.dat != nullptr) pfspmv(…)`: hyb_zo_pspmv.inl:41-42 -/
def datPart (o : Option (ℕ × Arr ℕ × Arr ℕ)) (m x y : ℕ) (k : Proc K) : Proc K :=
  match o with
  | none => k
  | some a => .par m (fun i => call (mvRow (.val a.1) (csrBounds a.2.1) a.2.2 x y i) .ret) k

/-- `pfspmv(F, A, x, beta, y)` for HYB_ZO: fflas_sparse.inl:857-864, hyb_zo_pspmv.inl:34-43 -/
def pfspmvHyb (A : HybZO) (m x : ℕ) (beta : K) (y t : ℕ) (k : Proc K) : Proc K :=
  call (mvInit m beta y) (zoPart false A.one m x y t (zoPart true A.mone m x y t (datPart A.dat m x y k)))

/-- `if (A.one != nullptr) pfspmm_one(…)`, `if (A.mone != nullptr) pfspmm_mone(…)`: hyb_zo_pspmm.inl:38-41 -/
def zoPartMM (kd : PKind) (o : Option (Arr ℕ × Arr ℕ)) (m x ldx bs y ldy t : ℕ) (k : Proc K) : Proc K :=
  match o with
  | none => k
  | some a => mmTasks kd m (csrBounds a.1) a.2 x ldx bs y ldy t k

/-- `if (A.dat != nullptr) pfspmm(…)`: hyb_zo_pspmm.inl:42-43 -/
def datPartMM (o : Option (ℕ × Arr ℕ × Arr ℕ)) (m x ldx bs y ldy t : ℕ) (k : Proc K) : Proc K :=
  match o with
  | none => k
  | some a => mmTasks (.val a.1) m (csrBounds a.2.1) a.2.2 x ldx bs y ldy t k

/-- `pfspmm(F, A, blockSize, x, ldx, beta, y, ldy)` for HYB_ZO: fflas_sparse.inl:866-874, hyb_zo_pspmm.inl:34-44 -/
def pfspmmHyb (A : HybZO) (m bs x ldx : ℕ) (beta : K) (y ldy t : ℕ) (k : Proc K) : Proc K :=
  call (mmInit m bs beta y ldy)
    (zoPartMM .one A.one m x ldx bs y ldy t (zoPartMM .mone A.mone m x ldx bs y ldy t (datPartMM A.dat m x ldx bs y ldy t k)))

/-- `F.axpyin(y[i], dat[startDat + k], x[col[j]])`, csr_hyb_pspmv.inl:79; `d` is the address of `dat[startDat + k]` -/
def hybCell (col : Arr ℕ) (d x yi j : ℕ) : Prog K Unit := do
  let c ← liftE (col.rd j)
  let xv ← load (x + c)
  let a ← load d
  let yv ← load yi
  store yi (yv + a * xv)

/-- one row of CSR_HYB, csr_hyb_pspmv.inl:68-81: the entries -1, the entries 1, the others -/
def hybRow (d : ℕ) (st col : Arr ℕ) (x y i : ℕ) : Prog K Unit := do
  let s0 ← liftE (st.rd (4 * i))
  let s1 ← liftE (st.rd (4 * i + 1))
  loop (s1 - s0) fun t => mmCell .mone col x 1 (y + i) (s0 + t) 0
  let s2 ← liftE (st.rd (4 * i + 2))
  loop (s2 - s1) fun t => mmCell .one col x 1 (y + i) (s1 + t) 0
  let s4 ← liftE (st.rd (4 * (i + 1)))
  let sd ← liftE (st.rd (4 * i + 3))
  loop (s4 - s2) fun t => hybCell col (d + (sd + t)) x (y + i) (s2 + t)

instance (col : Arr ℕ) (d x yi j : ℕ) : Small (hybCell col d x yi j : Prog K Unit) := by delta hybCell; infer_instance
instance (d : ℕ) (st col : Arr ℕ) (x y i : ℕ) : Small (hybRow d st col x y i : Prog K Unit) := by delta hybRow; infer_instance

/-- `pfspmv(F, A, x, beta, y)` for CSR_HYB: fflas_sparse.inl:857-864, csr_hyb_pspmv.inl:66-82 -/
def pfspmvCsrHyb (d m : ℕ) (st col : Arr ℕ) (x : ℕ) (beta : K) (y : ℕ) (k : Proc K) : Proc K :=
  call (mvInit m beta y) (.par m (fun i => call (hybRow d st col x y i) .ret) k)

end Verif.Par
