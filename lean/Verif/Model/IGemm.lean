import Verif.Core.Heap
import Verif.Core.Arr
import Verif.Core.Enums

/-!
# Product of matrices of 64-bit integers

/repo/fflas-ffpack/fflas/fflas_igemm/{igemm.inl, igemm_tools.inl, igemm_kernels.inl}, the product behind `fgemm` and `fgemv` over
`ZRing<int64_t>` and, for small enough moduli, `Modular<int64_t>` (fgemm_classical.inl:307-312, fflas_fgemv.inl:379-383).

Cells hold the integer value of an `int64_t`.  Vector instructions wrap around modulo `2 ^ 64`; a scalar operation that overflows
is undefined in C++ and faults with `inexact`.  A vector register is a function of the lane, only lanes below the vector size
matter.  The vector size `v` (2 for SSE4.1, 4 for AVX2, 8 for AVX-512) is a parameter: in all three configurations
(igemm_kernels.inl:33-54) `StepA = StepB = simd::vect_size = v`, `_mr = 2 v`, `_nr = _dr = 4`.  `prefetch` has no effect.  The
alignment of `simd::load` is not modelled.
-/

namespace Verif.IG

/-- two's complement representative modulo `2 ^ 64` of a vector result -/
def wrap (x : ℤ) : ℤ := Int.bmod x (2 ^ 64)

/-- the signed value of the low 32 bits of a 64-bit integer, as used by `_mm*_mul_epi32` -/
def lo32 (x : ℤ) : ℤ := Int.bmod x (2 ^ 32)

/-- result of a scalar `int64_t` operation: overflow is undefined -/
def chk (x : ℤ) : Prog ℤ ℤ := if -2 ^ 63 ≤ x ∧ x < 2 ^ 63 then pure x else Prog.fault .inexact

/-- a vector register -/
abbrev Vec := ℕ → ℤ

/-- `simd::set1` -/
def set1 (x : ℤ) : Vec := fun _ => x

/-- `simd::add`, simd256_int64.inl (`_mm256_add_epi64`) -/
def vadd (a b : Vec) : Vec := fun l => wrap (a l + b l)

/-- `simd::sub` (`_mm256_sub_epi64`) -/
def vsub (a b : Vec) : Vec := fun l => wrap (a l - b l)

/-- `simd::mulx`, simd256_int64.inl:453, simd128_int64.inl:415, simd512_int64.inl:479: product of the low halves -/
def mulx (a b : Vec) : Vec := fun l => lo32 (a l) * lo32 (b l)

/-- `simd::fmaddx`, simd256_int64.inl:476 -/
def fmaddx (c a b : Vec) : Vec := vadd c (mulx a b)

/-- `simd::load` / `simd::loadu`: `v` consecutive cells -/
def vload (v p : ℕ) : Prog ℤ Vec := iter v (fun l x => do
  let y ← load (p + l)
  pure (Function.update x l y)) (fun _ => 0)

/-- `simd::store` / `simd::storeu` -/
def vstore (v p : ℕ) (x : Vec) : Prog ℤ Unit := loop v (fun l => store (p + l) (x l))

/-- `number_kind` -/
inductive Kind where
  | one
  | mone
  | other
  deriving DecidableEq

/-- the last operation of the vector kernels, e.g. igemm_kernels.inl:180-218: `R += C`, `R -= C` or `R += alpha * C` -/
def comb (K : Kind) (alpha : ℤ) (R C : Vec) : Vec :=
  match K with
  | .one => vadd R C
  | .mone => vsub R C
  | .other => fmaddx R (set1 alpha) C

/-- the eight accumulators of `igebb44` -/
structure Acc8 where
  (C0 C1 C2 C3 C4 C5 C6 C7 : Vec)

/-- the unrolled body of the first loop of `igebb44`, igemm_kernels.inl:93-149, with the loads and the products in the order of the
code -/
def igebb44body (v blA blB : ℕ) (s : Acc8) : Prog ℤ Acc8 := do
  let A0 ← vload v (blA + 0 * v)
  let A1 ← vload v (blA + 1 * v)
  let B0 ← load (blB + 0)
  let B1 ← load (blB + 1)
  let C0 := fmaddx s.C0 A0 (set1 B0)
  let B2 ← load (blB + 2)
  let C4 := fmaddx s.C4 A1 (set1 B0)
  let B3 ← load (blB + 3)
  let B0 ← load (blB + 4)
  let C1 := fmaddx s.C1 A0 (set1 B1)
  let C5 := fmaddx s.C5 A1 (set1 B1)
  let B1 ← load (blB + 5)
  let C2 := fmaddx s.C2 A0 (set1 B2)
  let C6 := fmaddx s.C6 A1 (set1 B2)
  let B2 ← load (blB + 6)
  let C3 := fmaddx s.C3 A0 (set1 B3)
  let A0 ← vload v (blA + 2 * v)
  let C7 := fmaddx s.C7 A1 (set1 B3)
  let A1 ← vload v (blA + 3 * v)
  let B3 ← load (blB + 7)
  let C0 := fmaddx C0 A0 (set1 B0)
  let C4 := fmaddx C4 A1 (set1 B0)
  let B0 ← load (blB + 8)
  let C1 := fmaddx C1 A0 (set1 B1)
  let C5 := fmaddx C5 A1 (set1 B1)
  let B1 ← load (blB + 9)
  let C2 := fmaddx C2 A0 (set1 B2)
  let C6 := fmaddx C6 A1 (set1 B2)
  let B2 ← load (blB + 10)
  let C3 := fmaddx C3 A0 (set1 B3)
  let A0 ← vload v (blA + 4 * v)
  let C7 := fmaddx C7 A1 (set1 B3)
  let A1 ← vload v (blA + 5 * v)
  let B3 ← load (blB + 11)
  let C0 := fmaddx C0 A0 (set1 B0)
  let C4 := fmaddx C4 A1 (set1 B0)
  let B0 ← load (blB + 12)
  let C1 := fmaddx C1 A0 (set1 B1)
  let C5 := fmaddx C5 A1 (set1 B1)
  let B1 ← load (blB + 13)
  let C2 := fmaddx C2 A0 (set1 B2)
  let C6 := fmaddx C6 A1 (set1 B2)
  let B2 ← load (blB + 14)
  let C3 := fmaddx C3 A0 (set1 B3)
  let A0 ← vload v (blA + 6 * v)
  let C7 := fmaddx C7 A1 (set1 B3)
  let A1 ← vload v (blA + 7 * v)
  let B3 ← load (blB + 15)
  pure ⟨fmaddx C0 A0 (set1 B0), fmaddx C1 A0 (set1 B1), fmaddx C2 A0 (set1 B2), fmaddx C3 A0 (set1 B3),
    fmaddx C4 A1 (set1 B0), fmaddx C5 A1 (set1 B1), fmaddx C6 A1 (set1 B2), fmaddx C7 A1 (set1 B3)⟩

/-- the body of the second loop of `igebb44`, igemm_kernels.inl:152-170 -/
def igebb44rest (v blA blB : ℕ) (s : Acc8) : Prog ℤ Acc8 := do
  let A0 ← vload v (blA + 0 * v)
  let A1 ← vload v (blA + 1 * v)
  let B0 ← load (blB + 0)
  let B1 ← load (blB + 1)
  let B2 ← load (blB + 2)
  let B3 ← load (blB + 3)
  pure ⟨fmaddx s.C0 A0 (set1 B0), fmaddx s.C1 A0 (set1 B1), fmaddx s.C2 A0 (set1 B2), fmaddx s.C3 A0 (set1 B3),
    fmaddx s.C4 A1 (set1 B0), fmaddx s.C5 A1 (set1 B1), fmaddx s.C6 A1 (set1 B2), fmaddx s.C7 A1 (set1 B3)⟩

/-- `igebb44`, igemm_kernels.inl:66-229: `2 v` rows and four columns.  The pointers `blA` and `blB` are given by the iteration. -/
def igebb44 (v : ℕ) (K : Kind) (i j depth pdepth : ℕ) (alpha : ℤ) (blA blB C ldc : ℕ) : Prog ℤ Unit := do
  let z : Vec := fun _ => 0
  let r0 := C + j * ldc + i
  let r1 := r0 + ldc
  let r2 := r1 + ldc
  let r3 := r2 + ldc
  let s ← iter (pdepth / 4) (fun t s => igebb44body v (blA + t * (8 * v)) (blB + t * 16) s) ⟨z, z, z, z, z, z, z, z⟩
  let s ← iter (depth - pdepth) (fun t s => igebb44rest v (blA + (pdepth + t) * (2 * v)) (blB + (pdepth + t) * 4) s) s
  let R0 ← vload v r0
  let R1 ← vload v r1
  let R2 ← vload v r2
  let R3 ← vload v r3
  let R4 ← vload v (r0 + v)
  let R5 ← vload v (r1 + v)
  let R6 ← vload v (r2 + v)
  vstore v r0 (comb K alpha R0 s.C0)
  let R0 ← vload v (r3 + v)
  vstore v r1 (comb K alpha R1 s.C1)
  vstore v r2 (comb K alpha R2 s.C2)
  vstore v r3 (comb K alpha R3 s.C3)
  vstore v (r0 + v) (comb K alpha R4 s.C4)
  vstore v (r1 + v) (comb K alpha R5 s.C5)
  vstore v (r2 + v) (comb K alpha R6 s.C6)
  vstore v (r3 + v) (comb K alpha R0 s.C7)

/-- the four accumulators of `igebb24` -/
structure Acc4 where
  (C0 C1 C2 C3 : Vec)

/-- the unrolled body of the first loop of `igebb24`, igemm_kernels.inl:254-291 -/
def igebb24body (v blA blB : ℕ) (s : Acc4) : Prog ℤ Acc4 := do
  let A0 ← vload v (blA + 0 * v)
  let B0 ← load (blB + 0)
  let B1 ← load (blB + 1)
  let C0 := fmaddx s.C0 A0 (set1 B0)
  let B2 ← load (blB + 2)
  let B3 ← load (blB + 3)
  let B0 ← load (blB + 4)
  let C1 := fmaddx s.C1 A0 (set1 B1)
  let B1 ← load (blB + 5)
  let C2 := fmaddx s.C2 A0 (set1 B2)
  let B2 ← load (blB + 6)
  let C3 := fmaddx s.C3 A0 (set1 B3)
  let A0 ← vload v (blA + 1 * v)
  let B3 ← load (blB + 7)
  let C0 := fmaddx C0 A0 (set1 B0)
  let B0 ← load (blB + 8)
  let C1 := fmaddx C1 A0 (set1 B1)
  let B1 ← load (blB + 9)
  let C2 := fmaddx C2 A0 (set1 B2)
  let B2 ← load (blB + 10)
  let C3 := fmaddx C3 A0 (set1 B3)
  let A0 ← vload v (blA + 2 * v)
  let B3 ← load (blB + 11)
  let C0 := fmaddx C0 A0 (set1 B0)
  let B0 ← load (blB + 12)
  let C1 := fmaddx C1 A0 (set1 B1)
  let B1 ← load (blB + 13)
  let C2 := fmaddx C2 A0 (set1 B2)
  let B2 ← load (blB + 14)
  let C3 := fmaddx C3 A0 (set1 B3)
  let A0 ← vload v (blA + 3 * v)
  let B3 ← load (blB + 15)
  pure ⟨fmaddx C0 A0 (set1 B0), fmaddx C1 A0 (set1 B1), fmaddx C2 A0 (set1 B2), fmaddx C3 A0 (set1 B3)⟩

/-- the body of the second loop of `igebb24`, igemm_kernels.inl:294-307 -/
def igebb24rest (v blA blB : ℕ) (s : Acc4) : Prog ℤ Acc4 := do
  let A0 ← vload v (blA + 0 * v)
  let B0 ← load (blB + 0)
  let B1 ← load (blB + 1)
  let B2 ← load (blB + 2)
  let B3 ← load (blB + 3)
  pure ⟨fmaddx s.C0 A0 (set1 B0), fmaddx s.C1 A0 (set1 B1), fmaddx s.C2 A0 (set1 B2), fmaddx s.C3 A0 (set1 B3)⟩

/-- `igebb24`, igemm_kernels.inl:232-338: `v` rows and four columns -/
def igebb24 (v : ℕ) (K : Kind) (i j depth pdepth : ℕ) (alpha : ℤ) (blA blB C ldc : ℕ) : Prog ℤ Unit := do
  let z : Vec := fun _ => 0
  let r0 := C + j * ldc + i
  let r1 := r0 + ldc
  let r2 := r1 + ldc
  let r3 := r2 + ldc
  let s ← iter (pdepth / 4) (fun t s => igebb24body v (blA + t * (4 * v)) (blB + t * 16) s) ⟨z, z, z, z⟩
  let s ← iter (depth - pdepth) (fun t s => igebb24rest v (blA + (pdepth + t) * v) (blB + (pdepth + t) * 4) s) s
  let R0 ← vload v r0
  let R1 ← vload v r1
  let R2 ← vload v r2
  let R3 ← vload v r3
  vstore v r0 (comb K alpha R0 s.C0)
  vstore v r1 (comb K alpha R1 s.C1)
  vstore v r2 (comb K alpha R2 s.C2)
  vstore v r3 (comb K alpha R3 s.C3)

/-- one iteration of `igebb14` on the register of the four columns, igemm_kernels.inl:386-405 and :417-444 (two registers of two
lanes) -/
def igebb14body (K : Kind) (alpha : ℤ) (a : ℤ) (B R : Vec) : Prog ℤ Vec :=
  match K with
  | .one => pure (fmaddx R (set1 a) B)
  | .mone => pure (vsub R (mulx (set1 a) B))
  | .other => do
    let abla ← chk (alpha * a)
    pure (fmaddx R (set1 abla) B)

/-- `igebb14`, igemm_kernels.inl:340-455, the versions with vector instructions: one row and four columns -/
def igebb14 (K : Kind) (i j depth : ℕ) (alpha : ℤ) (blA blB C ldc : ℕ) : Prog ℤ Unit := do
  let r0 := C + j * ldc + i
  let r1 := r0 + ldc
  let r2 := r1 + ldc
  let r3 := r2 + ldc
  let c0 ← load r0
  let c1 ← load r1
  let c2 ← load r2
  let c3 ← load r3
  let R ← iter depth (fun t R => do
    let B ← vload 4 (blB + t * 4)
    let a ← load (blA + t)
    igebb14body K alpha a B R) (fun l => if l = 0 then c0 else if l = 1 then c1 else if l = 2 then c2 else c3)
  store r0 (R 0)
  store r1 (R 1)
  store r2 (R 2)
  store r3 (R 3)

/-- `igebb41`, igemm_kernels.inl:458-506: `2 v` rows and one column -/
def igebb41 (v : ℕ) (K : Kind) (i j depth : ℕ) (alpha : ℤ) (blA blB C ldc : ℕ) : Prog ℤ Unit := do
  let z : Vec := fun _ => 0
  let r0 := C + j * ldc + i
  let r4 := r0 + v
  let s ← iter depth (fun t (s : Vec × Vec) => do
    let A0 ← vload v (blA + t * (2 * v) + 0 * v)
    let A1 ← vload v (blA + t * (2 * v) + 1 * v)
    let B0 ← load (blB + t)
    pure (fmaddx s.1 A0 (set1 B0), fmaddx s.2 A1 (set1 B0))) (z, z)
  let R0 ← vload v r0
  let R4 ← vload v r4
  vstore v r0 (comb K alpha R0 s.1)
  vstore v r4 (comb K alpha R4 s.2)

/-- `igebb21`, igemm_kernels.inl:509-548: `v` rows and one column -/
def igebb21 (v : ℕ) (K : Kind) (i j depth : ℕ) (alpha : ℤ) (blA blB C ldc : ℕ) : Prog ℤ Unit := do
  let r0 := C + j * ldc + i
  let s ← iter depth (fun t (s : Vec) => do
    let A0 ← vload v (blA + t * v + 0 * v)
    let B0 ← load (blB + t)
    pure (fmaddx s A0 (set1 B0))) (fun _ => 0)
  let R0 ← vload v r0
  vstore v r0 (comb K alpha R0 s)

/-- `igebb11`, igemm_kernels.inl:551-569: one entry, with scalar operations -/
def igebb11 (K : Kind) (i j depth : ℕ) (alpha : ℤ) (blA blB C ldc : ℕ) : Prog ℤ Unit := do
  let r0 := C + j * ldc + i
  loop depth (fun k => do
    let r ← load r0
    let a ← load (blA + k)
    let b ← load (blB + k)
    match K with
    | .one => do
      let p ← chk (a * b)
      let x ← chk (r + p)
      store r0 x
    | .mone => do
      let p ← chk (a * b)
      let x ← chk (r - p)
      store r0 x
    | .other => do
      let q ← chk (alpha * a)
      let p ← chk (q * b)
      let x ← chk (r + p)
      store r0 x)

/-- `while (rem > 0)`, igemm_kernels.inl:606-618 and :631-642: a vector of rows when there are enough of them, otherwise one row.  The
first argument bounds the number of iterations. -/
def remRows (v : ℕ) (kv k1 : ℕ → Prog ℤ Unit) : ℕ → ℕ → ℕ → Prog ℤ Unit
  | 0, _, rem => if rem = 0 then pure () else Prog.fault .fuel
  | f + 1, i, rem =>
    if rem = 0 then pure ()
    else if v ≤ rem then do
      kv i
      remRows v kv k1 f (i + v) (rem - v)
    else do
      k1 i
      remRows v kv k1 f (i + 1) (rem - 1)

/-- `igebp`, igemm_kernels.inl:582-645: block times panel, on packed operands -/
def igebp (v : ℕ) (K : Kind) (rows cols depth : ℕ) (alpha : ℤ) (blockA lda blockB ldb C ldc : ℕ) : Prog ℤ Unit := do
  let mr := 2 * v
  let prows := rows / mr * mr
  let pcols := cols / 4 * 4
  let pdepth := depth / 4 * 4
  loop (cols / 4) (fun jj => do
    let j := jj * 4
    loop (rows / mr) (fun ii =>
      igebb44 v K (ii * mr) j depth pdepth alpha (blockA + ii * mr * lda) (blockB + j * ldb) C ldc)
    remRows v (fun i => igebb24 v K i j depth pdepth alpha (blockA + i * lda) (blockB + j * ldb) C ldc)
      (fun i => igebb14 K i j depth alpha (blockA + i * lda) (blockB + j * ldb) C ldc) (rows - prows) prows (rows - prows))
  loop (cols - pcols) (fun jj => do
    let j := pcols + jj
    loop (rows / mr) (fun ii =>
      igebb41 v K (ii * mr) j depth alpha (blockA + ii * mr * lda) (blockB + j * ldb) C ldc)
    remRows v (fun i => igebb21 v K i j depth alpha (blockA + i * lda) (blockB + j * ldb) C ldc)
      (fun i => igebb11 K i j depth alpha (blockA + i * lda) (blockB + j * ldb) C ldc) (rows - prows) prows (rows - prows))

/-- two nested copying loops with the counter `p` of the cells written, the common form of the loops of `pack_rhs` and `pack_lhs` -/
def packLoop (XX X n k : ℕ) (src : ℕ → ℕ → ℕ) (p : ℕ) : Prog ℤ ℕ :=
  iter n (fun i p => iter k (fun l p => do
    let x ← load (X + src i l)
    store (XX + p) x
    pure (p + 1)) p) p

/-- `pack_rhs<k,transpose>`, igemm_tools.inl:37-68 -/
def packRhs (v k : ℕ) (transpose : Bool) (XX X ldx rows cols : ℕ) : Prog ℤ Unit := do
  let by_k := cols / k * k
  let p ← iter (cols / k) (fun jj p => packLoop XX X rows k (fun i l => i + (jj * k + l) * ldx) p) 0
  let b := transpose && decide (v ≤ cols - by_k)
  let p ← packLoop XX X rows (if b then v else 0) (fun i l => i + (by_k + l) * ldx) p
  let by_k := if b then by_k + v else by_k
  let _ ← packLoop XX X (cols - by_k) rows (fun j i => i + (by_k + j) * ldx) p
  pure ()

/-- `pack_lhs<k,transpose>`, igemm_tools.inl:73-109 -/
def packLhs (v k : ℕ) (transpose : Bool) (XX X ldx rows cols : ℕ) : Prog ℤ Unit := do
  let by_k := rows / k * k
  let p ← iter (rows / k) (fun ii p => packLoop XX X cols k (fun j l => ii * k + l + j * ldx) p) 0
  let b := !transpose && decide (v ≤ rows - by_k)
  let p ← packLoop XX X cols (if b then v else 0) (fun j l => by_k + l + j * ldx) p
  let by_k := if b then by_k + v else by_k
  let _ ← packLoop XX X (rows - by_k) cols (fun i j => by_k + i + j * ldx) p
  pure ()

/-- what the processor says about its caches, in bytes: `queryCacheSizes` and `getTLBSize`,
/repo/fflas-ffpack/utils/fflas_memory.h:141-172 and :337-368 -/
structure Caches where
  (l1 l2 l3 tlb : ℤ)

/-- conversion of an `int` to `size_t` -/
def toSize (x : ℤ) : ℕ := (x % 2 ^ 64).toNat

/-- `BlockingFactor`, igemm_tools.inl:111-138: the pair `(mc, kc)` -/
def blockingFactor (v : ℕ) (c : Caches) (m k : ℕ) : Except Fault (ℕ × ℕ) :=
  let l2 := max c.l2 c.l3
  let l2 := if c.tlb = 0 then l2 else min l2 c.tlb
  let kdiv := 2 * (4 + 2 * v) * 8
  let kc := min k (toSize c.l1 / kdiv)
  if kc = 0 then .error .divZero
  else .ok (min m (toSize l2 / (8 * kc)), kc)

/-- number of iterations of `for (x = 0; x < n; x += d)`, for ever when `d = 0` and `n > 0` -/
def steps (n d : ℕ) : Except Fault ℕ := if n = 0 then .ok 0 else if d = 0 then .error .fuel else .ok ((n + d - 1) / d)

/-- the packing of a horizontal panel of the right operand, igemm.inl:91-96 -/
def packB (v : ℕ) (tB : Tr) (blockB B ldb k2 actual_kc cols : ℕ) : Prog ℤ Unit :=
  match tB with
  | .no => packRhs v 4 false blockB (B + k2) ldb actual_kc cols
  | .yes => packLhs v 4 true blockB (B + k2 * ldb) ldb cols actual_kc

/-- the packing of a block of the left operand, igemm.inl:102-107 -/
def packA (v : ℕ) (tA : Tr) (blockA A lda i2 k2 actual_mc actual_kc : ℕ) : Prog ℤ Unit :=
  match tA with
  | .no => packLhs v (2 * v) false blockA (A + i2 + k2 * lda) lda actual_mc actual_kc
  | .yes => packRhs v (2 * v) true blockA (A + i2 * lda + k2) lda actual_kc actual_mc

/-- `igemm_colmajor<tA,tB,alpha_kind>`, igemm.inl:64-118 -/
def igemmColmajor (v : ℕ) (ca : Caches) (tA tB : Tr) (K : Kind) (rows cols depth : ℕ) (alpha : ℤ) (A lda B ldb C ldc : ℕ) :
    Prog ℤ Unit := do
  let (mc, kc) ← liftE (blockingFactor v ca rows depth)
  let blockA ← alloc (mc * kc)
  let blockB ← alloc (kc * cols)
  let nk ← liftE (steps depth kc)
  loop nk (fun a => do
    let k2 := a * kc
    let actual_kc := min (k2 + kc) depth - k2
    packB v tB blockB B ldb k2 actual_kc cols
    let ni ← liftE (steps rows mc)
    loop ni (fun b => do
      let i2 := b * mc
      let actual_mc := min (i2 + mc) rows - i2
      packA v tA blockA A lda i2 k2 actual_mc actual_kc
      igebp v K actual_mc cols actual_kc alpha blockA actual_kc blockB actual_kc (C + i2) ldc))
  free blockA (mc * kc)
  free blockB (kc * cols)

/-- `fscalin` of an `m × n` matrix over `ZRing<int64_t>`, /repo/fflas-ffpack/fflas/fflas_fscal.inl:421-446 and :274-299: nothing for
one, zeros, opposites, or products.  The contiguous case visits the same cells in the same order. -/
def iscalin (m n : ℕ) (a : ℤ) (A lda : ℕ) : Prog ℤ Unit :=
  if a = 1 then pure ()
  else if a = 0 then loop m (fun i => loop n (fun j => store (A + i * lda + j) 0))
  else loop m (fun i => loop n (fun j => do
    let x ← load (A + i * lda + j)
    let y ← chk (if a = -1 then -x else x * a)
    store (A + i * lda + j) y))

/-- the choice of the kernel, igemm.inl:38-62 -/
def kindOf (alpha : ℤ) : Kind := if alpha = 1 then .one else if alpha = -1 then .mone else .other

/-- `Protected::igemm`, igemm.inl:120-156 -/
def igemm (v : ℕ) (ca : Caches) (tA tB : Tr) (rows cols depth : ℕ) (alpha : ℤ) (A lda B ldb : ℕ) (beta : ℤ) (C ldc : ℕ) : Prog ℤ Unit :=
  if rows = 0 ∨ cols = 0 then pure ()
  else do
    iscalin cols rows beta C ldc
    if depth = 0 ∨ alpha = 0 then pure ()
    else igemmColmajor v ca tA tB (kindOf alpha) rows cols depth alpha A lda B ldb C ldc

/-- `FFLAS_ORDER` -/
inductive Order where
  | rowMajor
  | colMajor

/-- `igemm_`, igemm.inl:165-180 -/
def igemm_ (v : ℕ) (ca : Caches) (o : Order) (tA tB : Tr) (M N K : ℕ) (alpha : ℤ) (A lda B ldb : ℕ) (beta : ℤ) (C ldc : ℕ) : Prog ℤ Unit :=
  match o with
  | .colMajor => igemm v ca tA tB M N K alpha A lda B ldb beta C ldc
  | .rowMajor => igemm v ca tB tA N M K alpha B ldb A lda beta C ldc

end Verif.IG
