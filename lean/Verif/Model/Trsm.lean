import Verif.Model.Gemm

/-!
# Triangular solves and products: `ftrsm`, `ftrmm`

/repo/fflas-ffpack/fflas/fflas_ftrsm_src.inl and fflas_ftrmm_src.inl are included once per combination of side, uplo,
transposition and diagonal; here the combination is a parameter.  `g` is `fgemm` over the field; in the versions for
`double` and `float` some products are computed over the integers and reduced later, which does not change values in the
field as long as the sums are exact (`Model/Bounds.lean`).
-/

namespace Verif.FF

variable {K : Type} [Field K] [DecidableEq K]

/-- `__FFLAS__UPPER` / `__FFLAS__LOWER`: shape of `op(A)`, fflas_ftrsm_src.inl:25-41 (same lines in fflas_ftrmm_src.inl) -/
def effUplo (u : Uplo) (ta : Tr) : Uplo := match ta, u with
  | .no, u => u
  | .yes, .upper => .lower
  | .yes, .lower => .upper

/-- `__FFLAS__Arowinc` -/
def arow (ta : Tr) (lda : ℕ) : ℕ := match ta with
  | .no => lda
  | .yes => 1

/-- `__FFLAS__Acolinc` -/
def acol (ta : Tr) (lda : ℕ) : ℕ := match ta with
  | .no => 1
  | .yes => lda

/-- `__FFLAS__A1`, `A2`, `A3`, `B1`, `B2` -/
structure TrPtr where
  a1 : ℕ
  a2 : ℕ
  a3 : ℕ
  b1 : ℕ
  b2 : ℕ

/-- the block pointers of `ftrsm`, fflas_ftrsm_src.inl:80-146; `na` is the order of the triangular matrix -/
def trsmPtr (side : Side) (eff : Uplo) (ta : Tr) (na ns A lda B ldb : ℕ) : TrPtr :=
  match side, eff with
  | .left, .lower => ⟨A, A + ns * arow ta lda, A + ns * (lda + 1), B, B + ns * ldb⟩
  | .left, .upper => ⟨A + (na - ns) * (lda + 1), A + (na - ns) * acol ta lda, A, B + (na - ns) * ldb, B⟩
  | .right, .upper => ⟨A, A + ns * acol ta lda, A + ns * (lda + 1), B, B + ns⟩
  | .right, .lower => ⟨A + (na - ns) * (lda + 1), A + (na - ns) * arow ta lda, A, B + (na - ns), B⟩

/-- order of the triangular matrix (`__FFLAS__Na`) -/
def trNa (side : Side) (M N : ℕ) : ℕ := match side with
  | .left => M
  | .right => N

/-- Scaling of a vector of `B` (`__FFLAS__Bdim`, `__FFLAS__Bnorminc`) -/
def trScal (cat : Cat) (side : Side) (M N : ℕ) (a : K) (B ldb : ℕ) : Prog K Unit := match side with
  | .left => vscalin cat N a B 1
  | .right => vscalin cat M a B ldb

/-- One recursive step of `ftrsm`: solve with the first diagonal block, update, solve with the other one.
fflas_ftrsm_src.inl:309-330 and :424-440.  `r1`, `r2` are the two solves. -/
def trsmSplit (g : GemmFn K) (side : Side) (uplo : Uplo) (ta : Tr) (r1 r2 : ℕ → ℕ → ℕ → ℕ → Prog K Unit)
    (ns M N A lda B ldb : ℕ) : Prog K Unit :=
  let q := trsmPtr side (effUplo uplo ta) ta (trNa side M N) ns A lda B ldb
  match side with
  | .left => do
    r1 ns N q.a1 q.b1
    g ta .no (M - ns) N ns (-1) q.a2 lda q.b1 ldb 1 q.b2 ldb
    r2 (M - ns) N q.a3 q.b2
  | .right => do
    r1 M ns q.a1 q.b1
    g .no ta M (N - ns) ns (-1) q.b1 ldb q.a2 lda 1 q.b2 ldb
    r2 M (N - ns) q.a3 q.b2

/-- Generic recursive `ftrsm`, fflas_ftrsm_src.inl:396-443.  The recursion ends for every order of at least 1; `fuel`
bounds its depth. -/
def ftrsmGen (cat : Cat) (g : GemmFn K) (side : Side) (uplo : Uplo) (ta : Tr) (diag : Diag) (lda ldb : ℕ) :
    ℕ → ℕ → ℕ → ℕ → ℕ → Prog K Unit
  | 0, _, _, _, _ => liftE (.error .fuel)
  | fuel+1, M, N, A, B =>
    if trNa side M N = 1 then
      if diag = .nonUnit then do
        let a ← load A
        let inv ← liftE (invE a)
        trScal cat side M N inv B ldb
      else pure ()
    else
      let ns := trNa side M N >>> 1
      let rec' := ftrsmGen cat g side uplo ta diag lda ldb fuel
      trsmSplit g side uplo ta rec' rec' ns M N A lda B ldb

/-- Public `ftrsm` over a generic field, /repo/fflas-ffpack/fflas/fflas_ftrsm.inl:103-178 (the checker is empty unless
checking is enabled). -/
def ftrsm (cat : Cat) (g : GemmFn K) (side : Side) (uplo : Uplo) (ta : Tr) (diag : Diag) (M N : ℕ) (alpha : K)
    (A lda B ldb : ℕ) : Prog K Unit :=
  if M = 0 ∨ N = 0 then pure ()
  else do
    ftrsmGen cat g side uplo ta diag lda ldb (trNa side M N) M N A B
    if alpha = 1 then pure () else fscalin cat M N alpha B ldb

/-! ### Versions for `double` and `float` -/

/-- `__FFLAS__Normdim`, fflas_ftrsm_src.inl:85,100,133,148 -/
def normDim (side : Side) (eff : Uplo) (na i : ℕ) : ℕ := match side, eff with
  | .left, .lower => i
  | .left, .upper => na - i - 1
  | .right, .upper => i
  | .right, .lower => na - i - 1

/-- Address of the first entry normalised in iteration `i` of a matrix at `A` with leading dimension `ld`: the initial
offset (fflas_ftrsm_src.inl:240-257) is chosen by the stored `uplo`, the step (`__FFLAS__Anormnext`,
`__FFLAS__Acopnormnext`) by the shape of `op(A)`. -/
def normAdr (side : Side) (uplo : Uplo) (ta : Tr) (A ld i : ℕ) : ℕ :=
  let start := match side, uplo with
    | .left, .upper => A + acol ta ld
    | .right, .lower => A + arow ta ld
    | _, _ => A
  let next := match side, effUplo uplo ta with
    | .left, .lower => arow ta ld
    | .right, .upper => acol ta ld
    | _, _ => ld + 1
  start + i * next

/-- `__FFLAS__Anorminc`, `__FFLAS__Acopnorminc` -/
def normInc (side : Side) (ta : Tr) (ld : ℕ) : ℕ := match side with
  | .left => acol ta ld
  | .right => arow ta ld

/-- `__FFLAS__Bnormnext` -/
def bNext (side : Side) (ldb : ℕ) : ℕ := match side with
  | .left => ldb
  | .right => 1

/-- Base case of `delayed`, fflas_ftrsm_src.inl:216-306, with `__FFLAS__TRSM_READONLY` (always defined,
fflas_level3.inl:149): a copy `Acop` of `A` with rows (or columns) divided by the diagonal entries is made, the rows of
`B` are divided likewise, and `bt`, the BLAS solve with unit diagonal, is called.  `freduce` does not change values in the
field. -/
def trsmBase (cat : Cat) (bt : ℕ → ℕ → ℕ → ℕ → ℕ → ℕ → Prog K Unit) (side : Side) (uplo : Uplo) (ta : Tr) (diag : Diag)
    (lda ldb : ℕ) (M N A B : ℕ) : Prog K Unit :=
  let na := trNa side M N
  let eff := effUplo uplo ta
  if diag = .nonUnit then do
    let Acop ← alloc (na * na)
    loop na fun i => do
      let a ← load (A + i * (lda + 1))
      let inv ← liftE (invE a)
      vscal cat (normDim side eff na i) inv (normAdr side uplo ta A lda i) (normInc side ta lda)
        (normAdr side uplo ta Acop na i) (normInc side ta na)
      trScal cat side M N inv (B + i * bNext side ldb) ldb
    bt M N Acop na B ldb
    free Acop (na * na)
  else bt M N A lda B ldb

/-- `delayed`, fflas_ftrsm_src.inl:199-331; `nb` is `nbblocsblas`. -/
def trsmDelayed (cat : Cat) (g : GemmFn K) (bt : ℕ → ℕ → ℕ → ℕ → ℕ → ℕ → Prog K Unit) (side : Side) (uplo : Uplo)
    (ta : Tr) (diag : Diag) (nblas lda ldb : ℕ) : ℕ → ℕ → ℕ → ℕ → ℕ → ℕ → Prog K Unit
  | 0, _, _, _, _, _ => liftE (.error .fuel)
  | fuel+1, nb, M, N, A, B =>
    if trNa side M N ≤ nblas then trsmBase cat bt side uplo ta diag lda ldb M N A B
    else
      let nbup := (nb + 1) / 2
      trsmSplit g side uplo ta (trsmDelayed cat g bt side uplo ta diag nblas lda ldb fuel nbup)
        (trsmDelayed cat g bt side uplo ta diag nblas lda ldb fuel (nb - nbup)) (nbup * nblas) M N A lda B ldb

/-- `__FFLAS__Atriang`, `Aupdate`, `Arest`, `Brec`, `Bupdate` in iteration `i`, fflas_ftrsm_src.inl:71-145 -/
def trsmLoopPtr (side : Side) (eff : Uplo) (ta : Tr) (na ns nrest i A lda B ldb : ℕ) : TrPtr :=
  match side, eff with
  | .left, .lower => ⟨A + i * ns * (lda + 1), A + i * ns * (lda + 1) + ns * arow ta lda, A + (na - nrest) * (lda + 1),
      B + i * ns * ldb, B + (i + 1) * ns * ldb⟩
  | .left, .upper => ⟨A + (na - (i + 1) * ns) * (lda + 1), A + (na - (i + 1) * ns) * acol ta lda, A,
      B + (na - (i + 1) * ns) * ldb, B⟩
  | .right, .upper => ⟨A + i * ns * (lda + 1), A + i * ns * (lda + 1) + ns * acol ta lda, A + (na - nrest) * (lda + 1),
      B + i * ns, B + (i + 1) * ns⟩
  | .right, .lower => ⟨A + (na - (i + 1) * ns) * (lda + 1), A + (na - (i + 1) * ns) * arow ta lda, A,
      B + (na - (i + 1) * ns), B⟩

/-- `__FFLAS__Brest`, fflas_ftrsm_src.inl:79,94,127,142 -/
def trsmBrest (side : Side) (eff : Uplo) (na nrest B ldb : ℕ) : ℕ := match side, eff with
  | .left, .lower => B + (na - nrest) * ldb
  | .left, .upper => B
  | .right, .upper => B + (na - nrest)
  | .right, .lower => B

/-- `operator()` for `double`/`float`, fflas_ftrsm_src.inl:332-391, after the computation of `nsplit`; `dl nb` is
`delayed` with `nb` blocks. -/
def trsmBlocks (g : GemmFn K) (dl : ℕ → ℕ → ℕ → ℕ → ℕ → Prog K Unit) (side : Side) (uplo : Uplo) (ta : Tr)
    (nblas ns nbb nrest lda ldb M N A B : ℕ) : Prog K Unit := do
  let na := trNa side M N
  let eff := effUplo uplo ta
  loop nbb fun i => do
    let q := trsmLoopPtr side eff ta na ns nrest i A lda B ldb
    match side with
    | .left => do
      dl (ns / nblas) ns N q.a1 q.b1
      g ta .no (M - (i + 1) * ns) N ns (-1) q.a2 lda q.b1 ldb 1 q.b2 ldb
    | .right => do
      dl (ns / nblas) M ns q.a1 q.b1
      g .no ta M (N - (i + 1) * ns) ns (-1) q.b1 ldb q.a2 lda 1 q.b2 ldb
  let q := trsmLoopPtr side eff ta na ns nrest 0 A lda B ldb
  match side with
  | .left => dl (nrest / nblas) nrest N q.a3 (trsmBrest side eff na nrest B ldb)
  | .right => dl (nrest / nblas) M nrest q.a3 (trsmBrest side eff na nrest B ldb)

/-- `operator()` for `double`/`float`.  `nblas` is the value of `TRSMBound<Field>(F)` and `ndel0` the value of
`DotProdBoundClassic(F, F.one)`.  With the explicit template argument `<Field>` the overloads for `Modular<Element>` and
`ModularBalanced<Element>` (fflas_bounds.inl:177,202) cannot match, so that `nblas` is 1. -/
def ftrsmDouble (cat : Cat) (g : GemmFn K) (bt : ℕ → ℕ → ℕ → ℕ → ℕ → ℕ → Prog K Unit) (side : Side) (uplo : Uplo)
    (ta : Tr) (diag : Diag) (nblas ndel0 M N A lda B ldb : ℕ) : Prog K Unit :=
  if M = 0 ∨ N = 0 then pure ()
  else
    let na := trNa side M N
    let ns := (ndel0 / nblas) * nblas
    if nblas = 0 ∨ ns = 0 then liftE (.error .divZero)
    else trsmBlocks g (trsmDelayed cat g bt side uplo ta diag nblas lda ldb na) side uplo ta nblas ns ((na - 1) / ns)
      ((na - 1) % ns + 1) lda ldb M N A B

/-- Public `ftrsm` for `double`/`float`. -/
def ftrsmD (cat : Cat) (g : GemmFn K) (bt : ℕ → ℕ → ℕ → ℕ → ℕ → ℕ → Prog K Unit) (side : Side) (uplo : Uplo)
    (ta : Tr) (diag : Diag) (nblas ndel0 M N : ℕ) (alpha : K) (A lda B ldb : ℕ) : Prog K Unit :=
  if M = 0 ∨ N = 0 then pure ()
  else do
    ftrsmDouble cat g bt side uplo ta diag nblas ndel0 M N A lda B ldb
    if alpha = 1 then pure () else fscalin cat M N alpha B ldb

/-! ### `ftrmm` -/

/-- the block pointers of `ftrmm`, fflas_ftrmm_src.inl:70-142 -/
def trmmPtr (side : Side) (eff : Uplo) (ta : Tr) (na ns A lda B ldb : ℕ) : TrPtr :=
  match side, eff with
  | .left, .lower => ⟨A + ns * (lda + 1), A + ns * arow ta lda, A, B + ns * ldb, B⟩
  | .left, .upper => ⟨A, A + (na - ns) * acol ta lda, A + (na - ns) * (lda + 1), B, B + (na - ns) * ldb⟩
  | .right, .upper => ⟨A + ns * (lda + 1), A + ns * acol ta lda, A, B + ns, B⟩
  | .right, .lower => ⟨A, A + (na - ns) * arow ta lda, A + (na - ns) * (lda + 1), B, B + (na - ns)⟩

/-- One step of the in-place `ftrmm`, fflas_ftrmm_src.inl:334-348. -/
def trmmSplit (g : GemmFn K) (side : Side) (uplo : Uplo) (ta : Tr) (r1 r2 : ℕ → ℕ → ℕ → ℕ → Prog K Unit)
    (ns M N A lda B ldb : ℕ) : Prog K Unit :=
  let q := trmmPtr side (effUplo uplo ta) ta (trNa side M N) ns A lda B ldb
  match side with
  | .left => do
    r1 (M - ns) N q.a1 q.b1
    g ta .no (M - ns) N ns 1 q.a2 lda q.b2 ldb 1 q.b1 ldb
    r2 ns N q.a3 q.b2
  | .right => do
    r1 M (N - ns) q.a1 q.b1
    g .no ta M (N - ns) ns 1 q.b2 ldb q.a2 lda 1 q.b1 ldb
    r2 M ns q.a3 q.b2

/-- Generic in-place `ftrmm`, fflas_ftrmm_src.inl:319-349. -/
def ftrmmGen (cat : Cat) (g : GemmFn K) (side : Side) (uplo : Uplo) (ta : Tr) (diag : Diag) (lda ldb : ℕ) :
    ℕ → ℕ → ℕ → ℕ → ℕ → Prog K Unit
  | 0, _, _, _, _ => liftE (.error .fuel)
  | fuel+1, M, N, A, B =>
    if trNa side M N = 1 then
      if diag = .nonUnit then do
        let a ← load A
        trScal cat side M N a B ldb
      else pure ()
    else
      let ns := trNa side M N >>> 1
      let rec' := ftrmmGen cat g side uplo ta diag lda ldb fuel
      trmmSplit g side uplo ta rec' rec' ns M N A lda B ldb

/-- Public in-place `ftrmm`, /repo/fflas-ffpack/fflas/fflas_ftrmm.inl:37-104. -/
def ftrmm (cat : Cat) (g : GemmFn K) (side : Side) (uplo : Uplo) (ta : Tr) (diag : Diag) (M N : ℕ) (alpha : K)
    (A lda B ldb : ℕ) : Prog K Unit :=
  if M = 0 ∨ N = 0 then pure ()
  else do
    ftrmmGen cat g side uplo ta diag lda ldb (trNa side M N) M N A B
    if alpha = 1 then pure () else fscalin cat M N alpha B ldb

/-- `__FFLAS__Atriang`, `Aupdate`, `Arest`, `Bupdate`, `Brec` in iteration `i`, fflas_ftrmm_src.inl:61-142 (`b1` is
`Bupdate`, `b2` is `Brec`) -/
def trmmLoopPtr (side : Side) (eff : Uplo) (ta : Tr) (nbb ns nrest i A lda B ldb : ℕ) : TrPtr :=
  match side, eff with
  | .left, .lower => ⟨A + (nbb - (i + 1)) * ns * (lda + 1), A + (nbb - (i + 1)) * ns * (lda + 1) + ns * arow ta lda,
      A + nbb * ns * (lda + 1), B + (nbb - i) * ns * ldb, B + (nbb - (i + 1)) * ns * ldb⟩
  | .left, .upper => ⟨A + (nrest + i * ns) * (lda + 1), A + (nrest + i * ns) * acol ta lda, A, B,
      B + (nrest + i * ns) * ldb⟩
  | .right, .upper => ⟨A + (nbb - (i + 1)) * ns * (lda + 1), A + (nbb - (i + 1)) * ns * (lda + 1) + ns * acol ta lda,
      A + nbb * ns * (lda + 1), B + (nbb - i) * ns, B + (nbb - (i + 1)) * ns⟩
  | .right, .lower => ⟨A + (nrest + i * ns) * (lda + 1), A + (nrest + i * ns) * arow ta lda, A, B, B + (nrest + i * ns)⟩

/-- `__FFLAS__Brest`, fflas_ftrmm_src.inl:68,85,117,134 -/
def trmmBrest (side : Side) (eff : Uplo) (nbb ns B ldb : ℕ) : ℕ := match side, eff with
  | .left, .lower => B + nbb * ns * ldb
  | .left, .upper => B
  | .right, .upper => B + nbb * ns
  | .right, .lower => B

/-- Body of the in-place `operator()` for `double`/`float`, fflas_ftrmm_src.inl:252-272; `bm` is `delayed` (:187-203), that
is the BLAS triangular product. -/
def trmmBlocks (g : GemmFn K) (bm : ℕ → ℕ → ℕ → ℕ → Prog K Unit) (side : Side) (uplo : Uplo) (ta : Tr)
    (ns nbb nrest lda ldb M N A B : ℕ) : Prog K Unit := do
  let eff := effUplo uplo ta
  let q := trmmLoopPtr side eff ta nbb ns nrest 0 A lda B ldb
  (match side with
  | .left => bm nrest N q.a3 (trmmBrest side eff nbb ns B ldb)
  | .right => bm M nrest q.a3 (trmmBrest side eff nbb ns B ldb))
  loop nbb fun i => do
    let q := trmmLoopPtr side eff ta nbb ns nrest i A lda B ldb
    match side with
    | .left => do
      g ta .no (nrest + i * ns) N ns 1 q.a2 lda q.b2 ldb 1 q.b1 ldb
      bm ns N q.a1 q.b2
    | .right => do
      g .no ta M (nrest + i * ns) ns 1 q.b2 ldb q.a2 lda 1 q.b1 ldb
      bm M ns q.a1 q.b2

/-- in-place `operator()` for `double`/`float`, fflas_ftrmm_src.inl:239-273; `ns` is `DotProdBoundClassic(F, F.one)` -/
def ftrmmDouble (g : GemmFn K) (bm : ℕ → ℕ → ℕ → ℕ → Prog K Unit) (side : Side) (uplo : Uplo) (ta : Tr)
    (ns M N A lda B ldb : ℕ) : Prog K Unit :=
  if M = 0 ∨ N = 0 then pure ()
  else if ns = 0 then liftE (.error .divZero)
  else
    let na := trNa side M N
    trmmBlocks g bm side uplo ta ns ((na - 1) / ns) ((na - 1) % ns + 1) lda ldb M N A B

/-- Public in-place `ftrmm` for `double`/`float`. -/
def ftrmmD (cat : Cat) (g : GemmFn K) (bm : ℕ → ℕ → ℕ → ℕ → Prog K Unit) (side : Side) (uplo : Uplo)
    (ta : Tr) (ns M N : ℕ) (alpha : K) (A lda B ldb : ℕ) : Prog K Unit :=
  if M = 0 ∨ N = 0 then pure ()
  else do
    ftrmmDouble g bm side uplo ta ns M N A lda B ldb
    if alpha = 1 then pure () else fscalin cat M N alpha B ldb

/-! ### out-of-place `ftrmm` -/

/-- offset of `C1`, `C2` in `C`: same as those of `B1`, `B2` in `B`, fflas_ftrmm_src.inl:74-76,91-93,123-125,140-142 -/
def trmmC (side : Side) (eff : Uplo) (na ns C ldc : ℕ) : ℕ × ℕ := match side, eff with
  | .left, .lower => (C + ns * ldc, C)
  | .left, .upper => (C, C + (na - ns) * ldc)
  | .right, .upper => (C + ns, C)
  | .right, .lower => (C, C + (na - ns))

/-- Base case, fflas_ftrmm_src.inl:358-367. -/
def trmmOBase (cat : Cat) (side : Side) (diag : Diag) (M N A B ldb : ℕ) (beta : K) (C ldc : ℕ) : Prog K Unit := do
  (if beta ≠ 0 then trScal cat side M N beta C ldc else pure ())
  match diag with
  | .nonUnit => do
    let a ← load A
    match side with
    | .left => vaxpy cat N a B 1 C 1
    | .right => vaxpy cat M a B ldb C ldc
  | .unit => match side with
    | .left => vaddin cat N B 1 C 1
    | .right => vaddin cat M B ldb C ldc

/-- Generic out-of-place `ftrmm`, fflas_ftrmm_src.inl:350-383. -/
def ftrmmOGen (cat : Cat) (g : GemmFn K) (side : Side) (uplo : Uplo) (ta : Tr) (diag : Diag) (lda ldb : ℕ) (beta : K) (ldc : ℕ) :
    ℕ → ℕ → ℕ → ℕ → ℕ → ℕ → Prog K Unit
  | 0, _, _, _, _, _ => liftE (.error .fuel)
  | fuel+1, M, N, A, B, C =>
    if trNa side M N = 1 then trmmOBase cat side diag M N A B ldb beta C ldc
    else
      let ns := trNa side M N >>> 1
      let q := trmmPtr side (effUplo uplo ta) ta (trNa side M N) ns A lda B ldb
      let c := trmmC side (effUplo uplo ta) (trNa side M N) ns C ldc
      match side with
      | .left => do
        ftrmmOGen cat g side uplo ta diag lda ldb beta ldc fuel (M - ns) N q.a1 q.b1 c.1
        g ta .no (M - ns) N ns 1 q.a2 lda q.b2 ldb 1 c.1 ldc
        ftrmmOGen cat g side uplo ta diag lda ldb beta ldc fuel ns N q.a3 q.b2 c.2
      | .right => do
        ftrmmOGen cat g side uplo ta diag lda ldb beta ldc fuel M (N - ns) q.a1 q.b1 c.1
        g .no ta M (N - ns) ns 1 q.b2 ldb q.a2 lda 1 c.1 ldc
        ftrmmOGen cat g side uplo ta diag lda ldb beta ldc fuel M ns q.a3 q.b2 c.2

/-- Public out-of-place `ftrmm`, /repo/fflas-ffpack/fflas/fflas_ftrmm.inl:107-179. -/
def ftrmmO (cat : Cat) (g : GemmFn K) (side : Side) (uplo : Uplo) (ta : Tr) (diag : Diag) (M N : ℕ) (alpha : K)
    (A lda B ldb : ℕ) (beta : K) (C ldc : ℕ) : Prog K Unit :=
  if M = 0 ∨ N = 0 then pure ()
  else do
    let bet ← (if alpha = 1 then pure beta else liftE (divE beta alpha))
    ftrmmOGen cat g side uplo ta diag lda ldb bet ldc (trNa side M N) M N A B C
    if alpha = 1 then pure () else fscalin cat M N alpha C ldc

/-! ### out-of-place `ftrmm`, `double` and `float` -/

/-- `delayed`, fflas_ftrmm_src.inl:205-237: `bm` is the BLAS triangular product on `C` (leading dimension of `C`). -/
def trmmODelayed (cat : Cat) (bm : ℕ → ℕ → ℕ → ℕ → Prog K Unit) (ldb : ℕ) (beta : K) (ldc M N A B C : ℕ) : Prog K Unit :=
  if beta ≠ 0 then do
    let tmp ← alloc (M * N)
    fscal cat M N beta C ldc tmp N
    fassign M N B ldb C ldc
    bm M N A C
    faddin cat M N tmp N C ldc
    free tmp (M * N)
  else do
    fassign M N B ldb C ldc
    bm M N A C

/-- Body of the out-of-place `operator()` for `double`/`float`, fflas_ftrmm_src.inl:290-310; `dl` is `delayed`.  The macros
`Crest`, `Crec`, `Cupdate` (:65-67 and so on) are those for `B` with `C`, `ldc`. -/
def trmmOBlocks (g : GemmFn K) (dl : ℕ → ℕ → ℕ → ℕ → ℕ → Prog K Unit) (side : Side) (uplo : Uplo) (ta : Tr)
    (ns nbb nrest lda ldb ldc M N A B C : ℕ) : Prog K Unit := do
  let eff := effUplo uplo ta
  let q := trmmLoopPtr side eff ta nbb ns nrest 0 A lda B ldb
  (match side with
  | .left => dl nrest N q.a3 (trmmBrest side eff nbb ns B ldb) (trmmBrest side eff nbb ns C ldc)
  | .right => dl M nrest q.a3 (trmmBrest side eff nbb ns B ldb) (trmmBrest side eff nbb ns C ldc))
  loop nbb fun i => do
    let q := trmmLoopPtr side eff ta nbb ns nrest i A lda B ldb
    let qc := trmmLoopPtr side eff ta nbb ns nrest i A lda C ldc
    match side with
    | .left => do
      g ta .no (nrest + i * ns) N ns 1 q.a2 lda q.b2 ldb 1 qc.b1 ldc
      dl ns N q.a1 q.b2 qc.b2
    | .right => do
      g .no ta M (nrest + i * ns) ns 1 q.b2 ldb q.a2 lda 1 qc.b1 ldc
      dl M ns q.a1 q.b2 qc.b2

/-- Public out-of-place `ftrmm` for `double`/`float`, fflas_ftrmm.inl:108-185 with the `operator()` above
(fflas_ftrmm_src.inl:275-289); `ns` is `DotProdBoundClassic(F, F.one)`. -/
def ftrmmOD (cat : Cat) (g : GemmFn K) (bm : ℕ → ℕ → ℕ → ℕ → Prog K Unit) (side : Side) (uplo : Uplo)
    (ta : Tr) (ns M N : ℕ) (alpha : K) (A lda B ldb : ℕ) (beta : K) (C ldc : ℕ) : Prog K Unit :=
  if M = 0 ∨ N = 0 then pure ()
  else do
    let bet ← (if alpha = 1 then pure beta else liftE (divE beta alpha))
    (if ns = 0 then liftE (.error .divZero)
    else
      let na := trNa side M N
      trmmOBlocks g (trmmODelayed cat bm ldb bet ldc) side uplo ta ns ((na - 1) / ns) ((na - 1) % ns + 1) lda ldb ldc M N A B C)
    if alpha = 1 then pure () else fscalin cat M N alpha C ldc

end Verif.FF
