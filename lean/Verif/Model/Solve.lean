import Verif.Model.Pluq

/-!
# Linear systems and null spaces

/repo/fflas-ffpack/ffpack/ffpack_fgetrs.inl, ffpack_fgesv.inl and ffpack.inl (`Solve`, `NullSpaceBasis`,
`RandomNullSpaceVector`).  `g` is `fgemm`, `ts` is `ftrsm`; `*info` is the (first) result.
-/

namespace Verif.FF

variable {K : Type} [Field K] [DecidableEq K]

/-- the statements common to the three left-looking solves, ffpack_fgetrs.inl:50-61, :109-120, :136-147: `B` (with at least `M` rows)
is overwritten by `U⁻¹ L⁻¹ P B` above row `R` and by the residual below. -/
def getrsLeft (g : GemmFn K) (ts : TrsmFn K) (M N R A lda : ℕ) (P : Arr ℕ) (B ldb : ℕ) : Prog K ℕ := do
  applyP .left .no N 0 M B ldb P
  ts .left .lower .no .unit R N 1 A lda B ldb
  let k ← liftE (usub M R)
  g .no .no k N R (-1) (A + R * lda) lda B ldb 1 (B + R * ldb) ldb
  let z ← fiszero k N (B + R * ldb) ldb
  ts .left .upper .no .nonUnit R N 1 A lda B ldb
  pure (if z then 0 else 1)

/-- the statements common to the three right-looking solves, ffpack_fgetrs.inl:69-79, :165-179, :194-208 -/
def getrsRight (g : GemmFn K) (ts : TrsmFn K) (M N R A lda : ℕ) (Q : Arr ℕ) (B ldb : ℕ) : Prog K ℕ := do
  applyP .right .yes M 0 N B ldb Q
  ts .right .upper .no .nonUnit M R 1 A lda B ldb
  let k ← liftE (usub N R)
  g .no .no M k R (-1) B ldb (A + R) lda 1 (B + R) ldb
  let z ← fiszero M k (B + R) ldb
  ts .right .lower .no .unit M R 1 A lda B ldb
  pure (if z then 0 else 1)

/-- `fgetrs` in place, ffpack_fgetrs.inl:35-84 -/
def fgetrs (g : GemmFn K) (ts : TrsmFn K) (side : Side) (M N R A lda : ℕ) (P Q : Arr ℕ) (B ldb : ℕ) : Prog K ℕ :=
  match side with
  | .left => do
    let info ← getrsLeft g ts M N R A lda P B ldb
    applyP .left .yes N 0 M B ldb Q
    pure info
  | .right => do
    let info ← getrsRight g ts M N R A lda Q B ldb
    applyP .right .no M 0 N B ldb P
    pure info

/-- `fgetrs` with a separate solution, ffpack_fgetrs.inl:86-217; `A` is `M × N` -/
def fgetrsX (g : GemmFn K) (ts : TrsmFn K) (side : Side) (M N NRHS R A lda : ℕ) (P Q : Arr ℕ) (X ldx B ldb : ℕ) : Prog K ℕ :=
  match side with
  | .left =>
    if N < M then do
      let W ← alloc (M * NRHS)
      fassign M NRHS B ldb W NRHS
      let info ← getrsLeft g ts M NRHS R A lda P W NRHS
      fassign R NRHS W NRHS X ldx
      free W (M * NRHS)
      let k ← liftE (usub N R)
      fzero k NRHS (X + R * ldx) ldx
      applyP .left .yes NRHS 0 N X ldx Q
      pure info
    else do
      fassign M NRHS B ldb X ldx
      let info ← getrsLeft g ts M NRHS R A lda P X ldx
      fzero (N - M) NRHS (X + M * ldx) ldx
      applyP .left .yes NRHS 0 N X ldx Q
      pure info
  | .right =>
    if M < N then do
      let W ← alloc (NRHS * N)
      fassign NRHS N B ldb W N
      let info ← getrsRight g ts NRHS N R A lda Q W N
      fassign NRHS R W N X ldx
      free W (NRHS * N)
      let k ← liftE (usub M R)
      fzero NRHS k (X + R) ldx
      applyP .right .no NRHS 0 M X ldx P
      pure info
    else do
      fassign NRHS N B ldb X ldx
      let info ← getrsRight g ts NRHS N R A lda Q X ldx
      fzero NRHS (M - N) (X + N) ldx
      applyP .right .no NRHS 0 M X ldx P
      pure info

/-- `fgesv` in place, ffpack_fgesv.inl:36-63; returns the rank and `*info`. -/
def fgesv (cat : Cat) (g : GemmFn K) (ts : TrsmFn K) (thr : ℕ) (jk : List ℕ → ℕ → ℕ) (side : Side) (M N A lda B ldb : ℕ) : Prog K (ℕ × ℕ) := do
  let Na := match side with
    | .left => M
    | .right => N
  let (R, P, Q) ← pluq cat g ts thr (fun l => jk (2 :: l)) .nonUnit Na Na A lda (Arr.mk' Na (jk [0])) (Arr.mk' Na (jk [1]))
  let info ← fgetrs g ts side M N R A lda P Q B ldb
  pure (R, info)

/-- `fgesv` with a separate solution, ffpack_fgesv.inl:65-87 -/
def fgesvX (cat : Cat) (g : GemmFn K) (ts : TrsmFn K) (thr : ℕ) (jk : List ℕ → ℕ → ℕ) (side : Side) (M N NRHS A lda X ldx B ldb : ℕ) :
    Prog K (ℕ × ℕ) := do
  let (R, P, Q) ← pluq cat g ts thr (fun l => jk (2 :: l)) .nonUnit M N A lda (Arr.mk' M (jk [0])) (Arr.mk' N (jk [1]))
  let info ← fgetrsX g ts side M N NRHS R A lda P Q X ldx B ldb
  pure (R, info)

/-- `Solve`, ffpack.inl:163-195, sequential: `false` when the message `SINGULAR MATRIX` is printed and `x` left as it is. -/
def solve (cat : Cat) (g : GemmFn K) (ts : TrsmFn K) (thr : ℕ) (jk : List ℕ → ℕ → ℕ) (M A lda x incx b incb : ℕ) : Prog K Bool := do
  let (R, rowP, P) ← pluq cat g ts thr (fun l => jk (2 :: l)) .nonUnit M M A lda (Arr.mk' M (jk [0])) (Arr.mk' M (jk [1]))
  if R < M then pure false
  else do
    vassign M b incb x incx
    applyP .left .no 1 0 M x incx rowP
    ftrsv .lower .no .unit M A lda x incx
    ftrsv .upper .no .nonUnit M A lda x incx
    applyP .left .yes 1 0 M x incx P
    pure true

/-- `NullSpaceBasis`, ffpack.inl:297-371: returns `NSdim`, and `NS`, `ldn` unless the null space is `{0}` (`NS = NULL`). -/
def nullSpaceBasis (cat : Cat) (g : GemmFn K) (ts : TrsmFn K) (thr : ℕ) (jk : List ℕ → ℕ → ℕ) (side : Side) (M N A lda : ℕ) :
    Prog K (ℕ × Option (ℕ × ℕ)) := do
  let (R, P, Q) ← pluq cat g ts thr (fun l => jk (2 :: l)) .nonUnit M N A lda (Arr.mk' M (jk [0])) (Arr.mk' N (jk [1]))
  match side with
  | .right => do
    let ldn ← liftE (usub N R)
    if ldn = 0 then pure (ldn, none)
    else do
      let NS ← alloc (N * ldn)
      if R = 0 then do
        fidentity N ldn NS ldn 1
        pure (ldn, some (NS, ldn))
      else do
        fassign R ldn (A + R) lda NS ldn
        ts .left .upper .no .nonUnit R ldn (-1) A lda NS ldn
        fidentity ldn ldn (NS + R * ldn) ldn 1
        applyP .left .yes ldn 0 N NS ldn Q
        pure (ldn, some (NS, ldn))
  | .left => do
    let ldn := M
    let NSdim ← liftE (usub M R)
    if NSdim = 0 then pure (NSdim, none)
    else do
      let NS ← alloc (NSdim * ldn)
      if R = 0 then do
        fidentity NSdim ldn NS ldn 1
        pure (NSdim, some (NS, ldn))
      else do
        fassign NSdim R (A + R * lda) lda NS ldn
        ts .right .lower .no .unit NSdim R (-1) A lda NS ldn
        fidentity NSdim NSdim (NS + R) ldn 1
        applyP .right .no NSdim 0 M NS ldn P
        pure (NSdim, some (NS, ldn))

/-- `RandomNullSpaceVector`, ffpack.inl:209-295; the `i`-th call of `g.random` returns `rnd i`.  The last `applyP` is given the stride
`1u` whatever `incX` is. -/
def randomNullSpaceVector (cat : Cat) (g : GemmFn K) (ts : TrsmFn K) (thr : ℕ) (jk : List ℕ → ℕ → ℕ) (rnd : ℕ → K) (side : Side)
    (M N A lda X incX : ℕ) : Prog K Unit := do
  let (R, P, Q) ← pluq cat g ts thr (fun l => jk (2 :: l)) .nonUnit M N A lda (Arr.mk' M (jk [0])) (Arr.mk' N (jk [1]))
  match side with
  | .right =>
    if N = R then vzero N X incX
    else do
      loop (N - R) fun i => store (X + (R + i) * incX) (rnd i)
      if R = 0 then pure ()
      else do
        fgemv cat .no R (N - R) (-1) (A + R) lda (X + R * incX) incX 0 X incX
        ftrsv .upper .no .nonUnit R A lda X incX
        applyP .left .yes 1 0 N X 1 Q
  | .left =>
    if M = R then vzero M X incX
    else do
      loop (M - R) fun i => store (X + (R + i) * incX) (rnd i)
      if R = 0 then pure ()
      else do
        fgemv cat .yes (M - R) R (-1) (A + R * lda) lda (X + R * incX) incX 0 X incX
        ftrsv .lower .yes .unit R A lda X incX
        applyP .right .no 1 0 M X 1 P

end Verif.FF
