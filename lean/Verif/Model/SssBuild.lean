import Verif.Model.Sss
import Verif.Model.Pluq
import Verif.Model.EchelonGet

/-!
# Generators of a dense matrix

`DenseToSSS`, /repo/fflas-ffpack/ffpack/ffpack_sss.inl:358-536.  `cat`, `g`, `ts`, `thr` are the implementation of the field, `fgemm`,
`ftrsm` and the threshold of `PLUQ`; `jk` gives the contents of uninitialised arrays of indices.  The arrays `p` and `q` are kept with the
length used by each call of `PLUQ`; that this length does not exceed the `N - ls` entries allocated is checked (`oob` otherwise).
-/

namespace Verif.FF

variable {K : Type} [Field K] [DecidableEq K]

section
variable (cat : Cat) (g : GemmFn K) (ts : TrsmFn K) (thr : ℕ) (jk : List ℕ → ℕ → ℕ)

/-- `PLUQ (Fi, FflasNonUnit, M, N, A, lda, p, q)` with `cap` entries in `p` and `q` -/
def d2sPluq (cap M N A lda : ℕ) : Prog K (ℕ × Arr ℕ × Arr ℕ) :=
  if cap < M ∨ cap < N then Prog.fault .oob
  else pluq cat g ts thr (fun l => jk (2 :: l)) .nonUnit M N A lda (Arr.mk' M (jk [0])) (Arr.mk' N (jk [1]))

/-- diagonal blocks, :405-411 -/
def d2sDiag (N s : ℕ) (G : SssPtr) (A lda : ℕ) : Prog K Unit := do
  loop (N / s) fun b => fassign s s (A + b * s * (lda + 1)) lda (G.D + b * s * G.ldd) G.ldd
  if N % s ≠ 0 then fassign (N % s) (N % s) (A + N / s * s * (lda + 1)) lda (G.D + N / s * s * G.ldd) G.ldd else pure ()

/-- first block of rows, :430-442 -/
def d2sUp1 (cap N s fs : ℕ) (G : SssPtr) (H : ℕ) : Prog K Unit := do
  let (r, p, q) ← d2sPluq cat g ts thr jk cap s (N - s) (H + s) N
  getTriangular .lower .unit s fs r (H + s) N G.U G.ldu false
  applyP .left .yes fs 0 s G.U G.ldu p
  getTriangularIn .upper .nonUnit s (N - s) r (H + s) N
  applyP .right .no s 0 (N - s) (H + s) N q
  fassign s fs (H + s) N G.V G.ldv

/-- one more block of rows, :449-476 -/
def d2sUpStep (cap N s : ℕ) (G : SssPtr) (H T b : ℕ) : Prog K Unit := do
  let (r, p, q) ← d2sPluq cat g ts thr jk cap (s * 2) (N - s * (b + 2)) (H + N * s * b + s * (b + 2)) N
  fzero (2 * s) s T s
  getTriangular .lower .unit (2 * s) (N - s * (b + 2)) r (H + s * N * b + s * (b + 2)) N T s true
  applyP .left .yes s 0 (2 * s) T s p
  fassign s s T s (G.W + G.ldw * s * b) G.ldw
  fassign s s (T + s * s) s (G.U + G.ldu * s * (b + 1)) G.ldu
  getTriangular .upper .nonUnit s (N - s * (b + 2)) r (H + s * N * b + s * (b + 2)) N (H + s * N * (b + 1) + s * (b + 2)) N false
  applyP .right .no s 0 (N - s * (b + 2)) (H + s * N * (b + 1) + s * (b + 2)) N q
  fassign s s (H + s * N * (b + 1) + s * (b + 2)) N (G.V + G.ldv * s * (b + 1)) G.ldv

/-- first block of columns, :482-495 -/
def d2sLow1 (cap N s fs : ℕ) (G : SssPtr) (H : ℕ) : Prog K Unit := do
  let (r, p, q) ← d2sPluq cat g ts thr jk cap (N - s) s (H + s * N) N
  getTriangular .upper .nonUnit fs s r (H + s * N) N G.Q G.ldq false
  applyP .right .no fs 0 s G.Q G.ldq q
  getTriangularIn .lower .unit (N - s) s r (H + s * N) N
  applyP .left .yes s 0 (N - s) (H + s * N) N p
  fassign fs s (H + s * N) N G.P G.ldp

/-- one more block of columns, :502-531; `last` is the test `brow == k - 3` -/
def d2sLowStep (cap N s ls : ℕ) (G : SssPtr) (H T b : ℕ) (last : Bool) : Prog K Unit := do
  let (r, p, q) ← d2sPluq cat g ts thr jk cap (N - s * (b + 2)) (s * 2) (H + N * s * (b + 2) + s * b) N
  fzero s (2 * s) T (2 * s)
  getTriangular .upper .nonUnit (N - s * (b + 2)) (2 * s) r (H + s * N * (b + 2) + s * b) N T (2 * s) true
  applyP .right .no s 0 (2 * s) T (2 * s) q
  fassign s s T (2 * s) (G.R + s * G.ldr * b) G.ldr
  fassign s s (T + s) (2 * s) (G.Q + G.ldq * s * (b + 1)) G.ldq
  getTriangular .lower .unit (N - s * (b + 2)) s r (H + s * N * (b + 2) + s * b) N (H + s * N * (b + 2) + s * (b + 1)) N false
  applyP .left .yes s 0 (N - s * (b + 2)) (H + s * N * (b + 2) + s * (b + 1)) N p
  fassign (if last then ls else s) s (H + s * N * (b + 2) + s * (b + 1)) N (G.P + G.ldp * s * (b + 1)) G.ldp

/-- everything but the diagonal blocks, :413-534; executed when `N > s`, hence `k ≥ 2` -/
def d2sOff (N s : ℕ) (G : SssPtr) (A lda : ℕ) : Prog K Unit := do
  let k := sssK N s
  let ls := sssLs N s
  let fs ← (if N - s < s then do
      fzero s s G.U G.ldu
      fzero s s G.Q G.ldq
      pure (N - s)
    else pure s)
  let H ← alloc (N * N)
  fassign N N A lda H N
  d2sUp1 cat g ts thr (fun l => jk (0 :: l)) (N - ls) N s fs G H
  let T ← alloc (2 * s * s)
  loop (k - 2) fun b => d2sUpStep cat g ts thr (fun l => jk (1 :: b :: l)) (N - ls) N s G H T b
  free T (2 * s * s)
  d2sLow1 cat g ts thr (fun l => jk (2 :: l)) (N - ls) N s fs G H
  let F ← alloc (s * (2 * s))
  loop (k - 2) fun b => d2sLowStep cat g ts thr (fun l => jk (3 :: b :: l)) (N - ls) N s ls G H F b (decide (b = k - 3))
  free H (N * N)
  free F (s * (2 * s))

/-- `DenseToSSS`.  `N/s` with `s = 0` is a division by zero. -/
def denseToSSS (N s : ℕ) (G : SssPtr) (A lda : ℕ) : Prog K Unit :=
  if s = 0 then Prog.fault .divZero
  else do
    d2sDiag N s G A lda
    if s < N then d2sOff cat g ts thr jk N s G A lda else pure ()

end
end Verif.FF
