import Verif.Model.Gemm

/-!
# Sequentially semi-separable generators

/repo/fflas-ffpack/ffpack/ffpack_sss.inl.  `g` is `fgemm`.  The loops `for (block = 0; block < kf; block += 2)` are indexed by
`h = block / 2`.
-/

namespace Verif.FF

variable {K : Type} [Field K] [DecidableEq K]

/-- the pointers and leading dimensions of the generators -/
structure SssPtr where
  (P ldp Q ldq R ldr U ldu V ldv W ldw D ldd : ℕ)

/-- `kf`, `rs`, `k`, `ls`, ffpack_sss.inl:58-61 -/
def sssK (N s : ℕ) : ℕ := if N % s ≠ 0 then N / s + 1 else N / s
def sssLs (N s : ℕ) : ℕ := if N % s ≠ 0 then N % s else s

/-- diagonal blocks, :82-94 -/
def sssDiag (g : GemmFn K) (N t s : ℕ) (alpha : K) (G : SssPtr) (B ldb : ℕ) (beta : K) (C ldc : ℕ) : Prog K Unit := do
  loop (N / s) fun b => g .no .no s t s alpha (G.D + b * s * G.ldd) G.ldd (B + b * s * ldb) ldb beta (C + b * s * ldc) ldc
  if N % s ≠ 0 then
    g .no .no (N % s) t (N % s) alpha (G.D + N / s * s * G.ldd) G.ldd (B + N / s * s * ldb) ldb beta (C + N / s * s * ldc) ldc
  else pure ()

/-- one iteration of the loop of the lower triangular part, :106-147, with `block = b`; the state is the variable `bs` -/
def sssLowStep (g : GemmFn K) (N t s : ℕ) (alpha : K) (G : SssPtr) (B ldb C ldc T1 T2 b bs : ℕ) : Prog K ℕ := do
  let kf := N / s
  let rs := N % s
  let k := sssK N s
  let ls := sssLs N s
  let bs := if b + 2 = k then ls else bs
  let _ ← (if b + 2 < kf ∨ kf % 2 = 0 ∨ rs ≠ 0 then
      g .no .no bs t s 1 (G.P + b * s * G.ldp) G.ldp T1 t 1 (C + (b + 1) * s * ldc) ldc
    else pure ())
  let bs ← (if b + 2 < kf ∨ (rs ≠ 0 ∧ kf % 2 = 0) then do
      g .no .no s t s alpha (G.Q + (b + 1) * s * G.ldq) G.ldq (B + (b + 1) * s * ldb) ldb 0 T2 t
      g .no .no s t s 1 (G.R + b * s * G.ldr) G.ldr T1 t 1 T2 t
      let bs := if b + 3 = k then ls else bs
      g .no .no bs t s 1 (G.P + (b + 1) * s * G.ldp) G.ldp T2 t 1 (C + (b + 2) * s * ldc) ldc
      pure bs
    else pure bs)
  let _ ← (if b + 2 < kf ∧ (b + 4 < kf ∨ kf % 2 = 0 ∨ rs ≠ 0) then do
      g .no .no s t s alpha (G.Q + (b + 2) * s * G.ldq) G.ldq (B + (b + 2) * s * ldb) ldb 0 T1 t
      g .no .no s t s 1 (G.R + (b + 1) * s * G.ldr) G.ldr T2 t 1 T1 t
    else pure ())
  pure bs

/-- lower triangular part, :99-147 -/
def sssLow (g : GemmFn K) (N t s : ℕ) (alpha : K) (G : SssPtr) (B ldb C ldc T1 T2 : ℕ) : Prog K Unit := do
  let _ ← (if sssK N s > 1 then g .no .no s t s alpha G.Q G.ldq B ldb 0 T1 t else pure ())
  let _ ← iter ((N / s + 1) / 2) (fun h bs => sssLowStep g N t s alpha G B ldb C ldc T1 T2 (2 * h) bs) s
  pure ()

/-- one iteration of the loop of the upper triangular part, :158-196.  The differences do not wrap when `b + 2 < k`. -/
def sssUpStep (g : GemmFn K) (N t s : ℕ) (alpha : K) (G : SssPtr) (B ldb C ldc T1 T2 b : ℕ) : Prog K Unit := do
  let k := sssK N s
  g .no .no s t s 1 (G.U + (k - 2 - b) * s * G.ldu) G.ldu T1 t 1 (C + (k - 2 - b) * s * ldc) ldc
  g .no .no s t s alpha (G.V + (k - 3 - b) * s * G.ldv) G.ldv (B + (k - 2 - b) * s * ldb) ldb 0 T2 t
  g .no .no s t s 1 (G.W + (k - 3 - b) * s * G.ldw) G.ldw T1 t 1 T2 t
  g .no .no s t s 1 (G.U + (k - 3 - b) * s * G.ldu) G.ldu T2 t 1 (C + (k - 3 - b) * s * ldc) ldc
  if b + 4 < k ∨ (k - 1) % 2 ≠ 0 then do
    g .no .no s t s alpha (G.V + (k - 4 - b) * s * G.ldv) G.ldv (B + (k - 3 - b) * s * ldb) ldb 0 T1 t
    g .no .no s t s 1 (G.W + (k - 4 - b) * s * G.ldw) G.ldw T2 t 1 T1 t
  else pure ()

/-- upper triangular part, :152-200.  For `k = 1` and `N < s` the address `V + (k - 2) * s * ldv` lies before `V`: a fault; for `k = 0`
the difference `k - 1` wraps to an odd number. -/
def sssUp (g : GemmFn K) (N t s : ℕ) (alpha : K) (G : SssPtr) (B ldb C ldc T1 T2 : ℕ) : Prog K Unit := do
  let k := sssK N s
  let _ ← (if N / s > 1 ∨ N % s ≠ 0 then
      (if k < 2 then Prog.fault .underflow
       else g .no .no s t (sssLs N s) alpha (G.V + (k - 2) * s * G.ldv) G.ldv (B + (k - 1) * s * ldb) ldb 0 T1 t)
    else pure ())
  loop ((k - 1) / 2) fun h => sssUpStep g N t s alpha G B ldb C ldc T1 T2 (2 * h)
  if k = 0 ∨ (k - 1) % 2 ≠ 0 then g .no .no s t s 1 G.U G.ldu T1 t 1 C ldc else pure ()

/-- `productSSSxTS`, :32-204.  `N/s` with `s = 0` is a division by zero. -/
def productSSS (g : GemmFn K) (N t s : ℕ) (alpha : K) (G : SssPtr) (B ldb : ℕ) (beta : K) (C ldc : ℕ) : Prog K Unit :=
  if s = 0 then Prog.fault .divZero
  else do
    sssDiag g N t s alpha G B ldb beta C ldc
    let T1 ← alloc (s * t)
    let T2 ← alloc (s * t)
    sssLow g N t s alpha G B ldb C ldc T1 T2
    sssUp g N t s alpha G B ldb C ldc T1 T2
    free T1 (s * t)
    free T2 (s * t)

/-- one row of blocks of the lower triangular part, :269-310; `r` is `row` -/
def sssRow (g : GemmFn K) (N s : ℕ) (G : SssPtr) (A lda T1 T2 r : ℕ) : Prog K Unit := do
  let bz := if r = sssK N s - 2 then sssLs N s else s
  g .no .no bz s s 1 (G.P + r * s * G.ldp) G.ldp (G.Q + r * s * G.ldq) G.ldq 0 (A + (r + 1) * s * lda + r * s) lda
  let _ ← (if r > 0 then g .no .no bz s s 1 (G.P + r * s * G.ldp) G.ldp (G.R + (r - 1) * s * G.ldr) G.ldr 0 T1 s else pure ())
  loop (r / 2) fun h => do
    let b := 2 * h + 1
    g .no .no bz s s 1 T1 s (G.Q + (r - b) * s * G.ldq) G.ldq 0 (A + (r + 1) * s * lda + (r - b) * s) lda
    g .no .no bz s s 1 T1 s (G.R + (r - 1 - b) * s * G.ldr) G.ldr 0 T2 s
    g .no .no bz s s 1 T2 s (G.Q + (r - b - 1) * s * G.ldq) G.ldq 0 (A + (r + 1) * s * lda + (r - b - 1) * s) lda
    if b + 1 < r then g .no .no bz s s 1 T2 s (G.R + (r - b - 2) * s * G.ldr) G.ldr 0 T1 s else pure ()
  if r % 2 ≠ 0 then g .no .no bz s s 1 T1 s G.Q G.ldq 0 (A + (r + 1) * s * lda) lda else pure ()

/-- one column of blocks of the upper triangular part, :313-352; `c` is `column` -/
def sssCol (g : GemmFn K) (N s : ℕ) (G : SssPtr) (A lda T1 T2 c : ℕ) : Prog K Unit := do
  let bz := if c = sssK N s - 2 then sssLs N s else s
  g .no .no s bz s 1 (G.U + c * s * G.ldu) G.ldu (G.V + c * s * G.ldv) G.ldv 0 (A + c * s * lda + (c + 1) * s) lda
  let _ ← (if c > 0 then g .no .no s bz s 1 (G.W + (c - 1) * s * G.ldw) G.ldw (G.V + c * s * G.ldv) G.ldv 0 T1 s else pure ())
  loop (c / 2) fun h => do
    let b := 2 * h + 1
    g .no .no s bz s 1 (G.U + (c - b) * s * G.ldu) G.ldu T1 s 0 (A + (c - b) * s * lda + (c + 1) * s) lda
    g .no .no s bz s 1 (G.W + (c - 1 - b) * s * G.ldw) G.ldw T1 s 0 T2 s
    g .no .no s bz s 1 (G.U + (c - b - 1) * s * G.ldu) G.ldu T2 s 0 (A + (c - b - 1) * s * lda + (c + 1) * s) lda
    if b + 1 < c then g .no .no s bz s 1 (G.W + (c - b - 2) * s * G.ldw) G.ldw T2 s 0 T1 s else pure ()
  if c % 2 ≠ 0 then g .no .no s bz s 1 G.U G.ldu T1 s 0 (A + (c + 1) * s) lda else pure ()

/-- `SSSToDense`, :206-355.  For `N = 0` the loop bounds `k - 1` wrap. -/
def sssToDense (g : GemmFn K) (N s : ℕ) (G : SssPtr) (A lda : ℕ) : Prog K Unit :=
  if s = 0 then Prog.fault .divZero
  else do
    loop (N / s) fun b => fassign s s (G.D + b * s * G.ldd) G.ldd (A + b * s * (lda + 1)) lda
    let _ ← (if N % s ≠ 0 then fassign (N % s) (N % s) (G.D + N / s * s * G.ldd) G.ldd (A + N / s * s * (lda + 1)) lda else pure ())
    let T1 ← alloc (s * s)
    let T2 ← alloc (s * s)
    if sssK N s = 0 then Prog.fault .underflow
    else do
      loop (sssK N s - 1) (sssRow g N s G A lda T1 T2)
      loop (sssK N s - 1) (sssCol g N s G A lda T1 T2)
      free T1 (s * s)
      free T2 (s * s)

end Verif.FF
