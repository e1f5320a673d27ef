import Verif.Model.ParTasks
import Verif.Model.BlockCuts
import Mathlib.Data.Fin.VecNotation

/-!
# The parallel functions

Models of /repo/fflas-ffpack/paladin/*.inl, fflas/fflas_pftrsm.inl, the parallel functions of fflas/fflas_fadd.h, fflas/fflas_freduce.h
and ffpack/ffpack_permutation.inl.  A task is a `Proc` (`Core/Par.lean`).  Simplifications: the tasks of a loop are all created before
the first one starts (creating a task accesses no shared memory, so this excludes no order of the accesses); `CHECK_DEPENDENCIES` is
`taskwait`, its definition unless the data-flow mode is selected (parallel.h:420-430); loop iterators and helper objects are private
to the tasks.  `__FFLASFFPACK_SEQPARTHRESHOLD` squared is the parameter `thr`.
-/

namespace Verif.Par
open Verif.FF Verif.BlockCuts

variable {K : Type}

/-- `SYNCH_GROUP(FORBLOCK1D(iter, n, H, TASK(body(iter.blockindex(), iter.begin(), iter.end()))))`, parallel.h:206-211.  A range that ends
before it begins makes `iter.end()-iter.begin()` wrap: a fault. -/
def forBlock1D (p : Param) (n t : ℕ) (body : ℕ → ℕ → ℕ → Proc K) (k : Proc K) : Proc K :=
  match FS1D.build p n t with
  | .error e => .fault e
  | .ok s => match s.initialize.run n with
    | none => .fault .fuel
    | some l => .par l.length (fun j => if (l.get j).2 < (l.get j).1 then .fault .underflow else body j.1 (l.get j).1 (l.get j).2) k

/-- `SYNCH_GROUP(FORBLOCK2D(iter, m, n, H, TASK(body(iter))))`, parallel.h:262-267. -/
def forBlock2D (c : Cut) (p : Param) (m n t : ℕ) (body : Tile → Proc K) (k : Proc K) : Proc K :=
  match FS2D.build c p m n t with
  | .error e => .fault e
  | .ok s => match s.initialize.run (m * n) with
    | .error e => .fault e
    | .ok none => .fault .fuel
    | .ok (some l) => .par l.length (fun j => if (l.get j).i1 < (l.get j).i0 ∨ (l.get j).j1 < (l.get j).j0 then .fault .underflow
        else body (l.get j)) k

section
variable [Field K] [DecidableEq K]

/-! ## Elementwise operations, permutations, triangular solve -/

/-- `pfadd`, fflas_fadd.h:150-165 (`SPLITTER(numths)` is the block strategy with `Threads`). -/
def pfadd (cat : Cat) (M N A lda B ldb C ldc t : ℕ) (k : Proc K) : Proc K :=
  forBlock1D .Threads M t (fun _ b e => call (fadd cat (e - b) N (A + b * lda) lda (B + b * ldb) ldb (C + b * ldc) ldc) .ret) k

/-- `pfsub`, fflas_fadd.h:167-182. -/
def pfsub (cat : Cat) (M N A lda B ldb C ldc t : ℕ) (k : Proc K) : Proc K :=
  forBlock1D .Threads M t (fun _ b e => call (fsub cat (e - b) N (A + b * lda) lda (B + b * ldb) ldb (C + b * ldc) ldc) .ret) k

/-- `pfaddin`, fflas_fadd.h:185-199. -/
def pfaddin (cat : Cat) (M N B ldb C ldc t : ℕ) (k : Proc K) : Proc K :=
  forBlock1D .Threads M t (fun _ b e => call (faddin cat (e - b) N (B + b * ldb) ldb (C + b * ldc) ldc) .ret) k

/-- `pfsubin`, fflas_fadd.h:201-214. -/
def pfsubin (cat : Cat) (M N B ldb C ldc t : ℕ) (k : Proc K) : Proc K :=
  forBlock1D .Threads M t (fun _ b e => call (fsubin cat (e - b) N (B + b * ldb) ldb (C + b * ldc) ldc) .ret) k

/-- `pfzero`, paladin/fflas_plevel1.h:33-57, with `BS` the maximum computed at :42. -/
def pfzero (m n C BS : ℕ) (k : Proc K) : Proc K :=
  forBlock2D .Block .Grain m n BS (fun b => call (fzero (b.i1 - b.i0) (b.j1 - b.j0) (C + b.i0 * n + b.j0) n) .ret) k

/-- parallel `applyP`, ffpack_permutation.inl:781-796. -/
def papplyP (side : Side) (ta : Tr) (p : Param) (M ibeg iend A lda : ℕ) (P : Arr ℕ) (t : ℕ) (k : Proc K) : Proc K :=
  let incBK := match side with
    | .right => lda
    | .left => 1
  forBlock1D p M t (fun _ b e => call (applyP side ta (e - b) ibeg iend (A + b * incBK) lda P) .ret) k

/-- the body of the sequential `MatrixApplyS` as a task, ffpack_permutation.inl:364-374 -/
def taskApplyS (A lda width M2 R1 R2 R3 R4 : ℕ) : Proc K :=
  if M2 < R1 + R2 then .fault .underflow
  else .alloc ((M2 - (R1 + R2)) * width) fun tmp => call (doApplyS A lda tmp width M2 R1 R2 R3 R4) (.free tmp ((M2 - (R1 + R2)) * width) .ret)

/-- parallel `MatrixApplyS`, ffpack_permutation.inl:376-389. -/
def pmatrixApplyS (p : Param) (A lda width M2 R1 R2 R3 R4 t : ℕ) (k : Proc K) : Proc K :=
  forBlock1D p width t (fun _ b e => taskApplyS (A + b) lda (e - b) M2 R1 R2 R3 R4) k

/-- the body of the sequential `MatrixApplyT` as a task, ffpack_permutation.inl:425-435 -/
def taskApplyT (A lda width N2 R1 R2 R3 R4 : ℕ) : Proc K :=
  if N2 < R1 then .fault .underflow
  else .alloc ((N2 - R1) * width) fun tmp => call (doApplyT A lda tmp width N2 R1 R2 R3 R4) (.free tmp ((N2 - R1) * width) .ret)

/-- parallel `MatrixApplyT`, ffpack_permutation.inl:437-451. -/
def pmatrixApplyT (p : Param) (A lda width N2 R1 R2 R3 R4 t : ℕ) (k : Proc K) : Proc K :=
  forBlock1D p width t (fun _ b e => taskApplyT (A + b * lda) lda (e - b) N2 R1 R2 R3 R4) k

/-- parallel `ftrsm`, iterative, fflas_pftrsm.inl:36-71; the tasks are the sequential `ftrsm` (with the classical product). -/
def pftrsm (side : Side) (uplo : Uplo) (ta : Tr) (diag : Diag) (p : Param) (M N : ℕ) (alpha : K) (A lda B ldb t : ℕ) (k : Proc K) : Proc K :=
  match side with
  | .right => forBlock1D p M t (fun _ b e =>
      call (ftrsm .generic (gemmClassic .generic) side uplo ta diag (e - b) N alpha A lda (B + b * ldb) ldb) .ret) k
  | .left => forBlock1D p N t (fun _ b e =>
      call (ftrsm .generic (gemmClassic .generic) side uplo ta diag M (e - b) alpha A lda (B + b) ldb) .ret) k

/-- The loop `while (nt_it*256 >= n)` of the hybrid `ftrsm`, fflas_pftrsm.inl:125-136: the value of `nt_it` when it ends, `none` if it is
still running after `fuel` iterations. -/
def hybridLoop (n : ℕ) : ℕ → ℕ → Option ℕ
  | 0, it => if it * 256 ≥ n then none else some it
  | fuel + 1, it => if it * 256 ≥ n then hybridLoop n fuel (it / 2) else some it

/-- number of tasks of the hybrid `ftrsm`, `Side = Left`, fflas_pftrsm.inl:121-137 -/
def hybridTasks (n nt fuel : ℕ) : Option ℕ :=
  if nt * 256 ≥ n then (hybridLoop n fuel (nt / 2)).map (· * 2) else some nt

/-! ## Matrix-vector and dot products -/

/-- parallel `fgemv`, rows, pfgemv.inl:82-109 -/
def pfgemvRow (ta : Tr) (p : Param) (M N : ℕ) (alpha : K) (A lda X incX : ℕ) (beta : K) (Y incY t : ℕ) (k : Proc K) : Proc K :=
  match ta with
  | .no => forBlock1D p M t (fun _ b e => call (fgemv .generic .no (e - b) N alpha (A + b * lda) lda X incX beta (Y + b * incY) incY) .ret) k
  | .yes => forBlock1D p N t (fun _ b e => call (fgemv .generic .yes M (e - b) alpha (A + b) lda X incX beta (Y + b * incY) incY) .ret) k

/-- Parallel `fgemv`, recursive, pfgemv.inl:30-76.  `off` is the offset of the second half of `A` when it is transposed, as a function of the
number of columns: the code has `Ydim` (:54). -/
def pfgemvRec (off : ℕ → ℕ) (alpha : K) (lda X incX : ℕ) (beta : K) (incY : ℕ) : ℕ → ℕ → Tr → ℕ → ℕ → ℕ → ℕ → Proc K → Proc K
  | 0, _, _, _, _, _, _, _ => .fault .fuel
  | fuel + 1, nt, ta, m, n, A, Y, k =>
    if nt = 1 ∨ m ≤ 1 then call (fgemv .generic ta m n alpha A lda X incX beta Y incY) k
    else
      let pf := pfgemvRec off alpha lda X incX beta incY fuel
      match ta with
      | .no => .par 2 ![pf (nt / 2) .no (m / 2) n A Y .ret, pf (nt - nt / 2) .no (m - m / 2) n (A + m / 2 * lda) (Y + m / 2 * incY) .ret] k
      | .yes => .par 2 ![pf (nt / 2) .yes m (n / 2) A Y .ret, pf (nt - nt / 2) .yes m (n - n / 2) (A + off n) (Y + n / 2 * incY) .ret] k

/-- The tasks of the parallel `fdot`, fflas_plevel1.h:103-124: task `i` stores its dot product in `z[i]`. -/
def pfdotTasks (p : Param) (N x incx y incy z t : ℕ) (k : Proc K) : Proc K :=
  forBlock1D p N t (fun i b e => Small.tr (vdot (e - b) (x + b * incx) incx (y + b * incy) incy) fun d => .wr (z + i) d .ret) k

/-- `for(size_t i=0;i<rs;++i) F.init(z[i]);` -/
def zinit (z t : ℕ) : Prog K Unit := loop t fun i => store (z + i) 0

/-- `for(size_t i=0;i<rs;++i) F.addin(d,z[i]);` -/
def zsum (d : K) (z t : ℕ) : Prog K K := iter t (fun i s => do
  let x ← load (z + i)
  pure (s + x)) d

instance (z t : ℕ) : Small (zinit z t : Prog K Unit) := by delta zinit; infer_instance
instance (d : K) (z t : ℕ) : Small (zsum d z t : Prog K K) := by delta zsum; infer_instance

/-- Parallel `fdot`, fflas_plevel1.h:89-129: `d ← d + <x,y>`, the result is passed on to `k`. -/
def pfdot (p : Param) (N x incx y incy : ℕ) (d : K) (t : ℕ) (k : K → Proc K) : Proc K :=
  .alloc t fun z => call (zinit z t) (pfdotTasks p N x incx y incy z t (Small.tr (zsum d z t) fun r => .free z t (k r)))

/-! ## Matrix products -/

/-- The arguments of a product `C ← alpha op(A) op(B) + beta C`. -/
structure Call (K : Type) where
  ta : Tr
  tb : Tr
  m : ℕ
  n : ℕ
  k : ℕ
  alpha : K
  A : ℕ
  lda : ℕ
  B : ℕ
  ldb : ℕ
  beta : K
  C : ℕ
  ldc : ℕ

/-- a product as part of a task: the arguments, and what follows -/
abbrev PGemm (K : Type) := Call K → Proc K → Proc K

/-- the sequential classical product, fgemm_classical.inl:181-229 -/
def seqGemm : PGemm K := fun c k =>
  call (gemmClassic .generic c.ta c.tb c.m c.n c.k c.alpha c.A c.lda c.B c.ldb c.beta c.C c.ldc) k

/-- `pfgemm`, `Block/Threads`, pfgemm_variants.inl:29-63. -/
def pfgemmBlock (g : PGemm K) (thr nt : ℕ) : PGemm K := fun c k =>
  let nt := min nt (max 1 (c.m * c.n / thr))
  let sa := if c.ta = .no then c.lda else 1
  let sb := if c.tb = .no then 1 else c.ldb
  forBlock2D .Block .Threads c.m c.n nt (fun b => g { c with
    m := b.i1 - b.i0, n := b.j1 - b.j0, A := c.A + b.i0 * sa, B := c.B + b.j0 * sb, C := c.C + b.i0 * c.ldc + b.j0 } .ret) k

/-- The number of threads of the `j`-th of `q` recursive calls, `max(1, nt/q + ((nt_mod-- > 0)?1:0))`: `nt_mod` wraps after it has been
zero, so all calls but number `nt % q` get one more (pfgemm_variants.inl:257-263, :334-344). -/
def ntPart (nt q j : ℕ) : ℕ := max 1 (nt / q + if j = nt % q then 0 else 1)

/-- The beginning of all the recursive variants, pfgemm_variants.inl:79-89, :176-184, :236-246, :289-299, :408-418: trivial products, then
the sequential one if there is one thread or the product is small. -/
def pfStart (g : PGemm K) (nt thr size : ℕ) (c : Call K) (k r : Proc K) : Proc K :=
  if c.m = 0 ∨ c.n = 0 then k
  else if c.k = 0 ∨ c.alpha = 0 then call (fscalin .generic c.m c.n c.beta c.C c.ldc) k
  else if nt ≤ 1 ∨ size ≤ thr then g c k
  else r

/-- `pfgemm`, `Recursive/TwoDAdaptive`, pfgemm_variants.inl:155-219. -/
def pfgemm2DA (g : PGemm K) (thr : ℕ) : ℕ → ℕ → PGemm K
  | 0, _, _, _ => .fault .fuel
  | fuel + 1, nt, c, k =>
    pfStart g nt thr (c.m * c.n) c k <|
      if c.m ≥ c.n then
        let M2 := c.m / 2
        .par 2 (fun j => pfgemm2DA g thr fuel (![nt / 2, nt - nt / 2] j)
          (![{ c with m := M2 },
             { c with m := c.m - M2, A := c.A + M2 * arow c.ta c.lda, C := c.C + M2 * c.ldc }] j) .ret) k
      else
        let N2 := c.n / 2
        .par 2 (fun j => pfgemm2DA g thr fuel (![nt / 2, nt - nt / 2] j)
          (![{ c with n := N2 },
             { c with n := c.n - N2, B := c.B + N2 * acol c.tb c.ldb, C := c.C + N2 }] j) .ret) k

/-- `pfgemm`, `Recursive/TwoD`, pfgemm_variants.inl:221-277. -/
def pfgemm2D (g : PGemm K) (thr : ℕ) : ℕ → ℕ → PGemm K
  | 0, _, _, _ => .fault .fuel
  | fuel + 1, nt, c, k =>
    pfStart g nt thr (c.m * c.n) c k <|
      let M2 := c.m / 2
      let N2 := c.n / 2
      let A1 := c.A
      let A2 := c.A + M2 * arow c.ta c.lda
      let B1 := c.B
      let B2 := c.B + N2 * acol c.tb c.ldb
      .par 4 (fun j => pfgemm2D g thr fuel (ntPart nt 4 j)
        (![{ c with m := M2, n := N2, A := A1, B := B1, C := c.C },
           { c with m := M2, n := c.n - N2, A := A1, B := B2, C := c.C + N2 },
           { c with m := c.m - M2, n := N2, A := A2, B := B1, C := c.C + M2 * c.ldc },
           { c with m := c.m - M2, n := c.n - N2, A := A2, B := B2, C := c.C + N2 + M2 * c.ldc }] j) .ret) k

/-- `pfgemm`, `Recursive/ThreeDInPlace`, pfgemm_variants.inl:393-482. -/
def pfgemm3DI (g : PGemm K) (thr : ℕ) : ℕ → ℕ → PGemm K
  | 0, _, _, _ => .fault .fuel
  | fuel + 1, nt, c, k =>
    pfStart g nt thr (min (c.m * c.n) (min (c.m * c.k) (c.k * c.n))) c k <|
      let M2 := c.m / 2
      let N2 := c.n / 2
      let K2 := c.k / 2
      let A11 := c.A
      let A12 := c.A + K2 * acol c.ta c.lda
      let A21 := c.A + M2 * arow c.ta c.lda
      let A22 := A12 + M2 * arow c.ta c.lda
      let B11 := c.B
      let B12 := c.B + N2 * acol c.tb c.ldb
      let B21 := c.B + K2 * arow c.tb c.ldb
      let B22 := B12 + K2 * arow c.tb c.ldb
      let C11 := c.C
      let C12 := c.C + N2
      let C21 := c.C + M2 * c.ldc
      let C22 := c.C + N2 + M2 * c.ldc
      .par 4 (fun j => pfgemm3DI g thr fuel (ntPart nt 4 j)
        (![{ c with m := M2, n := N2, k := K2, A := A11, B := B11, C := C11 },
           { c with m := M2, n := c.n - N2, k := c.k - K2, A := A12, B := B22, C := C12 },
           { c with m := c.m - M2, n := N2, k := c.k - K2, A := A22, B := B21, C := C21 },
           { c with m := c.m - M2, n := c.n - N2, k := K2, A := A21, B := B12, C := C22 }] j) .ret) <|
      .par 4 (fun j => pfgemm3DI g thr fuel (ntPart nt 4 j)
        (![{ c with m := M2, n := N2, k := c.k - K2, A := A12, B := B21, beta := 1, C := C11 },
           { c with m := M2, n := c.n - N2, k := K2, A := A11, B := B12, beta := 1, C := C12 },
           { c with m := c.m - M2, n := N2, k := K2, A := A21, B := B11, beta := 1, C := C21 },
           { c with m := c.m - M2, n := c.n - N2, k := c.k - K2, A := A22, B := B22, beta := 1, C := C22 }] j) .ret) k

/-- `pfgemm`, `Recursive/ThreeD`, pfgemm_variants.inl:281-391. -/
def pfgemm3D (g : PGemm K) (thr : ℕ) : ℕ → ℕ → PGemm K
  | 0, _, _, _ => .fault .fuel
  | fuel + 1, nt, c, k =>
    pfStart g nt thr (min (c.m * c.n) (min (c.m * c.k) (c.k * c.n))) c k <|
      let M2 := c.m / 2
      let N2 := c.n / 2
      let K2 := c.k / 2
      let A11 := c.A
      let A12 := c.A + K2 * acol c.ta c.lda
      let A21 := c.A + M2 * arow c.ta c.lda
      let A22 := A12 + M2 * arow c.ta c.lda
      let B11 := c.B
      let B12 := c.B + N2 * acol c.tb c.ldb
      let B21 := c.B + K2 * arow c.tb c.ldb
      let B22 := B12 + K2 * arow c.tb c.ldb
      let C11 := c.C
      let C12 := c.C + N2
      let C21 := c.C + M2 * c.ldc
      let C22 := c.C + N2 + M2 * c.ldc
      .alloc (M2 * N2) fun C_11 =>
      .alloc (M2 * (c.n - N2)) fun C_12 =>
      .alloc ((c.m - M2) * N2) fun C_21 =>
      .alloc ((c.m - M2) * (c.n - N2)) fun C_22 =>
      .par 8 (fun j => pfgemm3D g thr fuel (ntPart nt 8 j)
        (![{ c with m := M2, n := N2, k := K2, A := A11, B := B11, C := C11 },
           { c with m := M2, n := N2, k := c.k - K2, A := A12, B := B21, beta := 0, C := C_11, ldc := N2 },
           { c with m := M2, n := c.n - N2, k := c.k - K2, A := A12, B := B22, C := C12 },
           { c with m := M2, n := c.n - N2, k := K2, A := A11, B := B12, beta := 0, C := C_12, ldc := c.n - N2 },
           { c with m := c.m - M2, n := N2, k := c.k - K2, A := A22, B := B21, C := C21 },
           { c with m := c.m - M2, n := N2, k := K2, A := A21, B := B11, beta := 0, C := C_21, ldc := N2 },
           { c with m := c.m - M2, n := c.n - N2, k := K2, A := A21, B := B12, C := C22 },
           { c with m := c.m - M2, n := c.n - N2, k := c.k - K2, A := A22, B := B22, beta := 0, C := C_22, ldc := c.n - N2 }] j) .ret) <|
      .par 4 ![call (faddin .generic M2 N2 C_11 N2 C11 c.ldc) .ret,
               call (faddin .generic M2 (c.n - N2) C_12 (c.n - N2) C12 c.ldc) .ret,
               call (faddin .generic (c.m - M2) N2 C_21 N2 C21 c.ldc) .ret,
               call (faddin .generic (c.m - M2) (c.n - N2) C_22 (c.n - N2) C22 c.ldc) .ret] <|
      .free C_11 (M2 * N2) <| .free C_12 (M2 * (c.n - N2)) <| .free C_21 ((c.m - M2) * N2) <| .free C_22 ((c.m - M2) * (c.n - N2)) k

/-- `pfgemm`, `Recursive/ThreeDAdaptive`, pfgemm_variants.inl:65-153 (`__FFLASFFPACK_DIMKPENALTY` is 1, fflas_pfgemm.inl:31).  `add` is the
call of `faddin` that ends the third branch: number of rows, number of columns. -/
def pfgemm3DA (add : ℕ → ℕ → ℕ × ℕ) (g : PGemm K) (thr : ℕ) : ℕ → ℕ → PGemm K
  | 0, _, _, _ => .fault .fuel
  | fuel + 1, nt, c, k =>
    pfStart g nt thr (min (c.m * c.n) (min (c.m * c.k) (c.k * c.n))) c k <|
      if c.m > c.k ∧ c.m ≥ c.n then
        let M2 := c.m / 2
        .par 2 (fun j => pfgemm3DA add g thr fuel (![nt / 2, nt - nt / 2] j)
          (![{ c with m := M2 },
             { c with m := c.m - M2, A := c.A + M2 * arow c.ta c.lda, C := c.C + M2 * c.ldc }] j) .ret) k
      else if c.n > c.k then
        let N2 := c.n / 2
        .par 2 (fun j => pfgemm3DA add g thr fuel (![nt / 2, nt - nt / 2] j)
          (![{ c with n := N2 },
             { c with n := c.n - N2, B := c.B + N2 * acol c.tb c.ldb, C := c.C + N2 }] j) .ret) k
      else
        let K2 := c.k / 2
        .alloc (c.m * c.n) fun C2 =>
        .par 2 (fun j => pfgemm3DA add g thr fuel (![nt / 2, nt - nt / 2] j)
          (![{ c with k := K2 },
             { c with k := c.k - K2, A := c.A + K2 * acol c.ta c.lda, B := c.B + K2 * arow c.tb c.ldb, beta := 0, C := C2, ldc := c.n }] j)
          .ret) <|
        .par 1 ![call (faddin .generic (add c.m c.n).1 (add c.m c.n).2 C2 c.n c.C c.ldc) .ret] <|
        .free C2 (c.m * c.n) k

end

end Verif.Par
