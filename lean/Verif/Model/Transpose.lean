import Verif.Model.Simd
import Verif.Model.Level1

/-!
# Matrix transposition

Model of /repo/fflas-ffpack/fflas/fflas_transpose.h.  `S : Simd` is the register type, `bs` the block size (template
parameters; `bs ≥ 1` and `vect_size ∣ bs` are enforced by the C++ templates).  A loop `for (x = x0; x < e; x += s)` is
`loop` over the number of its iterations.
-/

namespace Verif.FF

variable {K : Type} [Field K] [DecidableEq K]

/-- number of iterations of `for (x = 0; x < n; x += s)` -/
def steps (n s : ℕ) : ℕ := (n + s - 1) / s

/-- `Simd::loadu (A)`: `vs` consecutive elements -/
def loadVec : ℕ → ℕ → Prog K (Vec K)
  | 0, _ => pure fun _ => 0
  | n + 1, A => do
    let v ← loadVec n A
    let x ← load (A + n)
    pure (Function.update v n x)

/-- `LD(0); … LD(n-1)`: row `i` of the block in register `i` -/
def loadRegs (vs A lda : ℕ) : ℕ → Prog K (Regs K)
  | 0 => pure fun _ _ => 0
  | n + 1 => do
    let R ← loadRegs vs A lda n
    let v ← loadVec vs (A + lda * n)
    pure (Function.update R n v)

/-- `ST(0); … ST(n-1)` -/
def storeRegs (vs B ldb : ℕ) (R : Regs K) (n : ℕ) : Prog K Unit :=
  loop n fun i => loop vs fun j => store (B + ldb * i + j) (R i j)

/-- `BlockTransposeSIMD::transpose`, fflas_transpose.h:73-121: all the rows are loaded, transposed in registers, then
stored.  Without SIMD (`vect_size` 1) it copies one element (:73-77). -/
def blockT (S : Simd) (A lda B ldb : ℕ) : Prog K Unit := do
  let R ← loadRegs S.vs A lda S.vs
  storeRegs S.vs B ldb (S.net R) S.vs

/-- `_ftranspose_impl::not_inplace`, fflas_transpose.h:141-170. -/
def notInplace (S : Simd) (bs m n A lda B ldb : ℕ) : Prog K Unit := do
  let vs := S.vs
  loop (steps m bs) fun t => do
    let ib := t * bs
    let ibend := min m (ib + bs)
    loop (steps n bs) fun s => do
      let jb := s * bs
      let jbend := min n (jb + bs)
      loop ((ibend - ib) / vs) fun u => do
        let iv := ib + u * vs
        loop ((jbend - jb) / vs) fun w => do
          let jv := jb + w * vs
          blockT S (A + iv * lda + jv) lda (B + jv * ldb + iv) ldb
  let lastI := m / vs * vs
  loop (n - n / vs * vs) fun t => do
    let j := n / vs * vs + t
    vassign lastI (A + j) lda (B + j * ldb) 1
  loop (m - lastI) fun t => do
    let i := lastI + t
    vassign n (A + i * lda) 1 (B + i) ldb

/-- body of the loop on `jb` in `_ftranspose_impl::square_inplace`, fflas_transpose.h:190-218: transpose the blocks at
`(ib, jb)` and `(jb, ib)` through the two temporaries. -/
def squareBlock (S : Simd) (bs m A lda T1 T2 ib jb : ℕ) : Prog K Unit := do
  let vs := S.vs
  let l := min bs (m - ib)
  let ibend := min m (ib + bs)
  let k := min bs (m - jb)
  let jbend := min m (jb + bs)
  fassign l k (A + ib * lda + jb) lda T1 bs
  fassign k l (A + jb * lda + ib) lda T2 bs
  loop ((ibend - ib) / vs) fun u => do
    let iv := ib + u * vs
    loop ((jbend - jb) / vs) fun w => do
      let jv := jb + w * vs
      let x ← liftE (usub jv jb)
      let y ← liftE (usub iv ib)
      blockT S (T2 + x * bs + y) bs (A + iv * lda + jv) lda
      blockT S (T1 + y * bs + x) bs (A + jv * lda + iv) lda
    let jv := jb + (jbend - jb) / vs * vs
    loop (jbend - jv) fun t => do
      let j := jv + t
      let x ← liftE (usub j jb)
      let y ← liftE (usub iv ib)
      vassign vs (T2 + x * bs + y) 1 (A + iv * lda + j) lda
      vassign vs (T1 + y * bs + x) bs (A + j * lda + iv) 1
  let iv := ib + (ibend - ib) / vs * vs
  loop (ibend - iv) fun t => do
    let i := iv + t
    let j := iv
    let len ← liftE (usub jbend j)
    let x ← liftE (usub j jb)
    let y ← liftE (usub i ib)
    vassign len (T2 + x * bs + y) bs (A + i * lda + j) 1

/-- `_ftranspose_impl::square_inplace`, fflas_transpose.h:178-221.  The two arrays on the stack are allocated and
released; `finit` writes the zero element in them. -/
def squareInplace (S : Simd) (bs m A lda : ℕ) : Prog K Unit := do
  let T1 ← alloc (bs * bs)
  let T2 ← alloc (bs * bs)
  fzero bs bs T1 bs
  fzero bs bs T2 bs
  loop (steps m bs) fun t => do
    let ib := t * bs
    loop (steps (m - ib) bs) fun s => do
      let jb := ib + s * bs
      squareBlock S bs m A lda T1 T2 ib jb
  free T2 (bs * bs)
  free T1 (bs * bs)

/-- `_ftranspose_impl::nonsquare_inplace_v1`, fflas_transpose.h:230-241. -/
def nonsquareV1 (S : Simd) (bs m n A : ℕ) : Prog K Unit := do
  let lda := n
  let ldb := m
  let TMP ← alloc (m * n)
  fassign m n A lda TMP lda
  notInplace S bs m n TMP lda A ldb
  free TMP (m * n)

/-- `_ftranspose_impl::nonsquare_inplace_v2`, fflas_transpose.h:254-293 (the alternative of `v1`, not called).  `c` is
the greatest common divisor computed by `Givaro::gcdext`. -/
def nonsquareV2 (m n A : ℕ) : Prog K Unit := do
  let lda := n
  let c := Nat.gcd m n
  let _ ← (if c = 0 then Prog.fault .divZero else pure ())
  let a := m / c
  let b := n / c
  let tmp ← alloc (max m n)
  let _ ← (if 1 < c then
      loop n fun j => do
        loop m fun i => do
          let x ← load (A + ((i + j / b) % m) * lda + j)
          store (tmp + i) x
        loop m fun i => do
          let x ← load (tmp + i)
          store (A + i * lda + j) x
    else pure ())
  loop m fun i => do
    loop n fun j => do
      let x ← load (A + i * lda + j)
      store (tmp + (((i + j / b) % m) + j * m) % n) x
    loop n fun j => do
      let x ← load (tmp + j)
      store (A + i * lda + j) x
  loop n fun j => do
    loop m fun i => do
      let k ← liftE (usub (j + i * n) (i / a))
      let x ← load (A + (k % m) * lda + j)
      store (tmp + i) x
    loop m fun i => do
      let x ← load (tmp + i)
      store (A + i * lda + j) x
  free tmp (max m n)

/-- `ftranspose`, fflas_transpose.h:312-348. -/
def ftranspose (S : Simd) (bs m n A lda B ldb : ℕ) : Prog K ℕ := do
  let _ ← (if A ≠ B then notInplace S bs m n A lda B ldb
    else if m = n then squareInplace S bs m B ldb
    else nonsquareV1 S bs m n B)
  pure B

end Verif.FF
