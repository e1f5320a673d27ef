import Verif.Model.PHyb

/-!
# The parallel products with the sliced formats

`pfspmv` for SELL and ELL_simd, `GenericTag`: /repo/fflas-ffpack/fflas/fflas_sparse/sell/sell_pspmv.inl:37-74 and
ell_simd/ell_simd_pspmv.inl:37-69 (the versions for OpenMP; those for TBB name a member `nbChunks` that does not exist).  Simplifications as in
`Model/ParSparse`.
-/

namespace Verif.Par
open Verif.FF Verif.BlockCuts Verif.Sparse

variable {K : Type} [Field K] [DecidableEq K]

/-- `start = st[i]`, `size = chunkSize[i]`: sell_pspmv.inl:63-64 -/
def sellBounds (st sz : Arr ℕ) (i : ℕ) : Except Fault (ℕ × ℕ) := do
  let s ← st.rd i
  let n ← sz.rd i
  pure (s, n)

/-- `i * A.ld * A.chunk` and `A.ld`: ell_simd_pspmv.inl:61-64 -/
def ellSimdBounds (ld c i : ℕ) : Except Fault (ℕ × ℕ) := pure (i * ld * c, ld)

/-- `F.axpyin(y[i*chunk+k], dat[start + j*chunk + k], x[col[start + j*chunk + k]])` for all `j`, `k`: sell_pspmv.inl:65-70, ell_simd_pspmv.inl:60-66 -/
def chunkBody (d : ℕ) (bounds : ℕ → Except Fault (ℕ × ℕ)) (c : ℕ) (col : Arr ℕ) (x y i : ℕ) : Prog K Unit := do
  let b ← liftE (bounds i)
  loop b.2 fun j => loop c fun k => hybCell col (d + (b.1 + j * c + k)) x (y + i * c + k) (b.1 + j * c + k)

instance (d : ℕ) (bounds : ℕ → Except Fault (ℕ × ℕ)) (c : ℕ) (col : Arr ℕ) (x y i : ℕ) : Small (chunkBody d bounds c col x y i : Prog K Unit) := by
  delta chunkBody; infer_instance

/-- `pfspmv(F, A, x, beta, y)` for SELL and ELL_simd: fflas_sparse.inl:857-864, sell_pspmv.inl:61-72, ell_simd_pspmv.inl:58-67; `nc` chunks of `c` rows -/
def pfspmvChunks (d m nc : ℕ) (bounds : ℕ → Except Fault (ℕ × ℕ)) (c : ℕ) (col : Arr ℕ) (x : ℕ) (beta : K) (y : ℕ) (k : Proc K) : Proc K :=
  call (mvInit m beta y) (.par nc (fun i => call (chunkBody d bounds c col x y i) .ret) k)

end Verif.Par
