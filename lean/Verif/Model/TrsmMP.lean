import Verif.Model.MultiPrec
import Verif.Model.Trsm

/-!
# Triangular solves modulo a large integer: `ftrsm` over `Modular<Integer>`

/repo/fflas-ffpack/fflas/fflas_ftrsm_mp.inl: the matrices are converted to residues, the system is solved from the left over `RNSIntegerMod` (fflas_ftrsm_src.inl
with `__FFLAS_MULTIPRECISION`), and the solution is converted back.

Simplifications: as in `Model/MultiPrec`; moreover the `size` residues of an element, which the library keeps `stride` apart (`ptr[i*stride]`),
are one cell of memory here; all the accesses of these routines are of that form.  The copy `Acop`, which is allocated and never
used when `__FFLAS_MULTIPRECISION` is defined (fflas_ftrsm_src.inl:225-287), is left out.
-/

namespace Verif.MP

open Verif.RNS Verif.FF Verif.Lazy

/-- `rns_double_elt`: one residue for every modulus -/
abbrev RV (R : Rns) : Type := (t : Fin R.size) → ZMod (R.basis t)

/-- `rns_double RNS(bound, pbits, true)`, rns-double.h:80-97: the product of the moduli is at least `bound * (1 + sum of the moduli)`. -/
def mkRnsMod (E : Env) (bound pbits : ℕ) : Except Fault Rns :=
  match buildBound (E.cand pbits) bound true E.inner E.fuel ⟨[], 1, 1, 0⟩ with
  | none => .error .fuel
  | some b => precompute b.basis.length (fun i => b.basis.getD i 0) E.junkN (E.junk 0)

/-- the representative of a residue kept in the `double` -/
def resOf (R : Rns) (x : RV R) (t : ℕ) : ℤ := if h : t < R.size then ((x ⟨t, h⟩).val : ℤ) else 0

/-- the elements of a list as an array of residues of stride `l.length` -/
def cols (R : Rns) (l : List (RV R)) : Arr ℤ := ⟨R.size * l.length, fun c => resOf R (l.getD (c % l.length) 0) (c / l.length)⟩

/-- element `j` of an array of residues of stride `n` -/
def cellOf (R : Rns) (n : ℕ) (A : Arr ℤ) (j : ℕ) : RV R := fun t => ((A.get (j + t * n) : ℤ) : ZMod (R.basis t))

/-- read the cells of a list of addresses -/
def gather {K : Type} : List ℕ → Prog K (List K)
  | [] => pure []
  | a :: l => do
    let x ← load a
    let xs ← gather l
    pure (x :: xs)

/-- `freduce(F, m, n, B, ldb)` and `freduce(F, n, B, 1)` over `RNSIntegerMod`, fflas_freduce_mp.inl:36-60: `reduce_modp` of all the entries.
The version for `ldb ≠ n` (rns-integer-mod.h:380-430) computes the same sums in a temporary; `floor(x+0.5)` is written as in the other version, `rint(x)`. -/
def redWin (E : Env) (R : Rns) (T : ModTables) (r c B ldb : ℕ) : Prog (RV R) Unit := do
  let l ← gather ((List.range (r * c)).map (fun idx => B + idx / c * ldb + idx % c))
  let A ← liftE (reduceModp R T (r * c) (cols R l) (r * c) (E.junk 6) (E.sched (2 * B + 10) R.size) (E.sched (2 * B + 11) R.size 0))
  loop r fun i => loop c fun j => store (B + i * ldb + j) (cellOf R (r * c) A (i * c + j))

/-- `RNSIntegerMod::inv`, rns-integer-mod.h:281-287: convert, `mpz_invert` modulo `p`, convert back. -/
def invRV (E : Env) (R : Rns) (p : ℕ) (a : RV R) : Except Fault (RV R) := do
  let d ← fconv E R 1 1 0 (Arr.ofList [0]) 1 (cols R [a])
  let y ← d.rd 0
  let z ← modInv (y % p).toNat p
  let x ← finit E 3 R 1 1 (up16 (bitsz p)) (Arr.ofList [(z : ℤ)]) 1
  pure (cellOf R 1 x 0)

/-- the memory seen by the routine for modulus `t` -/
def proj (R : Rns) (t : Fin R.size) (m : Mem (RV R)) : Mem (ZMod (R.basis t)) := ⟨fun a => m.val a t, m.ok, m.next⟩

/-- the memory after the routine for modulus `t` -/
def putBack (R : Rns) (t : Fin R.size) (m : Mem (RV R)) (m' : Mem (ZMod (R.basis t))) : Mem (RV R) :=
  ⟨fun a => Function.update (m.val a) t (m'.val a), m'.ok, m'.next⟩

/-- one product modulo `R.basis t` -/
def gemmOne (gs : GemmFam) (R : Rns) (t : Fin R.size) (ta tb : Tr) (m n k : ℕ) (alpha : RV R) (A lda B ldb : ℕ) (beta : RV R) (C ldc : ℕ) :
    Prog (RV R) Unit := fun mem =>
  if h : (R.basis t).Prime then
    haveI : Fact (R.basis t).Prime := ⟨h⟩
    match gs (R.basis t) ta tb m n k (alpha t) A lda B ldb (beta t) C ldc (proj R t mem) with
    | .ok (_, m') => .ok ((), putBack R t mem m')
    | .error e => .error e
  else .error .divZero

/-- `fgemm` over `RNSInteger`, fgemm_classical_mp.inl:142-174: the product for every modulus. -/
def gemmRV (gs : GemmFam) (R : Rns) : GemmFn (RV R) := fun ta tb m n k alpha A lda B ldb beta C ldc =>
  loop R.size fun t => if h : t < R.size then gemmOne gs R ⟨t, h⟩ ta tb m n k alpha A lda B ldb beta C ldc else pure ()

/-- Base case of `delayed` for `N` right-hand sides and `M ≤ 1`, fflas_ftrsm_src.inl:216-308 with `__FFLAS_MULTIPRECISION`; the scaling is `fscalin` over
`RNSIntegerMod`, fflas_fscal_mp.inl:86-93: multiply modulo every `m_i`, then `freduce`. -/
def mpBase (E : Env) (R : Rns) (T : ModTables) (p : ℕ) (diag : Diag) (lda ldb M N A B : ℕ) : Prog (RV R) Unit := do
  redWin E R T M N B ldb
  if diag = .nonUnit then
    loop M fun i => do
      let a ← load (A + i * (lda + 1))
      let inv ← liftE (invRV E R p a)
      loop N fun j => do
        let x ← load (B + i * ldb + j)
        store (B + i * ldb + j) (inv * x)
      redWin E R T 1 N (B + i * ldb) N
  else pure ()

/-- One split: solve, update, solve; fflas_ftrsm_src.inl:309-330. -/
def mpSplit {R : Rns} (upd : ℕ → ℕ → ℕ → ℕ → ℕ → ℕ → Prog (RV R) Unit) (uplo : Uplo) (ta : Tr) (r1 r2 : ℕ → ℕ → ℕ → ℕ → Prog (RV R) Unit)
    (ns M N A lda B ldb : ℕ) : Prog (RV R) Unit := do
  let q := trsmPtr .left (effUplo uplo ta) ta M ns A lda B ldb
  r1 ns N q.a1 q.b1
  upd (M - ns) N ns q.a2 q.b1 q.b2
  r2 (M - ns) N q.a3 q.b2

/-- `delayed` with `TRSMBound = 1` (fflas_ftrsm_mp.inl:160-163), fflas_ftrsm_src.inl:199-331; `nb` is `nbblocsblas`. -/
def mpDelayed (E : Env) (gs : GemmFam) (R : Rns) (T : ModTables) (p : ℕ) (uplo : Uplo) (ta : Tr) (diag : Diag) (lda ldb : ℕ) :
    ℕ → ℕ → ℕ → ℕ → ℕ → ℕ → Prog (RV R) Unit
  | 0, _, _, _, _, _ => liftE (.error .fuel)
  | fuel+1, nb, M, N, A, B =>
    if M ≤ 1 then mpBase E R T p diag lda ldb M N A B
    else
      let nbup := (nb + 1) / 2
      mpSplit (fun r c k A2 B1 B2 => gemmRV gs R ta .no r c k (-1) A2 lda B1 ldb 1 B2 ldb) uplo ta
        (mpDelayed E gs R T p uplo ta diag lda ldb fuel nbup) (mpDelayed E gs R T p uplo ta diag lda ldb fuel (nb - nbup)) nbup M N A lda B ldb

/-- `fgemm` over `RNSIntegerMod`, fgemm_classical_mp.inl:470-498: the product, then `freduce`. -/
def gemmMod' (E : Env) (gs : GemmFam) (R : Rns) (T : ModTables) (ta : Tr) (lda ldb r c k A2 B1 B2 : ℕ) : Prog (RV R) Unit := do
  gemmRV gs R ta .no r c k (-1) A2 lda B1 ldb 1 B2 ldb
  redWin E R T r c B2 ldb

/-- The loop of `operator()`, fflas_ftrsm_src.inl:365-384, side left. -/
def mpBlocks {R : Rns} (upd : ℕ → ℕ → ℕ → ℕ → ℕ → ℕ → Prog (RV R) Unit) (dl : ℕ → ℕ → ℕ → ℕ → ℕ → Prog (RV R) Unit) (uplo : Uplo) (ta : Tr)
    (ns nbb nrest lda ldb M N A B : ℕ) : Prog (RV R) Unit := do
  let eff := effUplo uplo ta
  loop nbb fun i => do
    let q := trsmLoopPtr .left eff ta M ns nrest i A lda B ldb
    dl ns ns N q.a1 q.b1
    upd (M - (i + 1) * ns) N ns q.a2 q.b1 q.b2
  let q := trsmLoopPtr .left eff ta M ns nrest 0 A lda B ldb
  dl nrest nrest N q.a3 (trsmBrest .left eff M nrest B ldb)

/-- `DotProdBoundClassic` for `RNSIntegerMod` and `beta = 1`, fflas_ftrsm_mp.inl:165-176: the quotient is truncated to 64 bits. -/
def mpDotBound (M p : ℕ) : Except Fault ℕ :=
  if p = 1 then .error .divZero else pure (max 1 ((M - (p - 1)) / ((p - 1) * (p - 1)) % 2 ^ 64))

/-- `ftrsm` over `RNSIntegerMod`, side left, `alpha = 1`: fflas_ftrsm.inl:103-178, fflas_ftrsm_src.inl:332-391. -/
def rnsTrsm (E : Env) (gs : GemmFam) (R : Rns) (T : ModTables) (p : ℕ) (uplo : Uplo) (ta : Tr) (diag : Diag) (M N A lda B ldb : ℕ) : Prog (RV R) Unit :=
  if M = 0 ∨ N = 0 then pure ()
  else do
    let ns ← liftE (mpDotBound R.M p)
    mpBlocks (gemmMod' E gs R T ta lda ldb) (mpDelayed E gs R T p uplo ta diag lda ldb M) uplo ta ns ((M - 1) / ns) ((M - 1) % ns + 1) lda ldb M N A B

/-- `finit_rns` or, for `tr`, `finit_trans_rns` over `RNSIntegerMod` (rns-integer-mod.h:878-892) into a fresh array of stride `m*n`. -/
def finitT (E : Env) (c : ℕ) (R : Rns) (tr : Bool) (m n k : ℕ) (A : Arr ℤ) (lda : ℕ) : Except Fault (Arr ℤ) :=
  init R tr false m n (Arr.mk' (R.size * (m * n)) (E.junk (4 * c + 1))) (m * n) A lda k (E.junk (4 * c + 2)) (E.sched (2 * c) k)

/-- `fconvert_rns` or `fconvert_trans_rns`, rns-integer-mod.h:895-906. -/
def fconvT (E : Env) (R : Rns) (tr : Bool) (m n : ℕ) (gamma : ℤ) (A : Arr ℤ) (lda : ℕ) (Ap : Arr ℤ) : Except Fault (Arr ℤ) :=
  convert R tr false m n gamma A lda Ap (m * n) (E.junk 3) (E.sched 1 R.size)

/-- bits of the primes drawn, fflas_ftrsm_mp.inl:71-74 -/
def trsmBits (p k : ℕ) : ℕ := (53 - Nat.size (max k (bitsz p / 20))) / 2

/-- the other triangle -/
def flipUplo : Uplo → Uplo
  | .upper => .lower
  | .lower => .upper

/-- the solve over the residues, fflas_ftrsm_mp.inl:109-117: the memory holds `Ap`, then `Bp`; the result is `Bp` -/
def solveRV (E : Env) (gs : GemmFam) (R : Rns) (T : ModTables) (p : ℕ) (side : Side) (uplo : Uplo) (ta : Tr) (diag : Diag) (M N : ℕ) (Ap Bp : Arr ℤ) :
    Except Fault (List (RV R)) :=
  let K := trNa side M N
  let mem := memOf ((List.range (K * K)).map (cellOf R (K * K) Ap) ++ (List.range (M * N)).map (cellOf R (M * N) Bp))
  let run := match side with
    | .left => rnsTrsm E gs R T p uplo ta diag M N 0 K (K * K) N mem
    | .right => rnsTrsm E gs R T p (flipUplo uplo) ta diag N M 0 K (K * K) M mem
  match run with
  | .ok (_, m') => .ok ((List.range (M * N)).map (fun i => m'.val (K * K + i)))
  | .error e => .error e

/-- systems from the right are transposed, fflas_ftrsm_mp.inl:93-100 -/
def trOf : Side → Bool
  | .left => false
  | .right => true

/-- `ftrsm` over `Modular<Integer>(p)`, fflas_ftrsm_mp.inl:43-143. -/
def ftrsmModZ (E : Env) (gs : GemmFam) (p : ℕ) (side : Side) (uplo : Uplo) (ta : Tr) (diag : Diag) (M N : ℕ) (alpha : ℤ) (A : Arr ℤ) (lda : ℕ)
    (B : Arr ℤ) (ldb : ℕ) : Except Fault (Arr ℤ) :=
  let K := trNa side M N
  let tr := trOf side
  if K = 0 then pure B
  else do
    let R ← mkRnsMod E (4 * p * p * K) (trsmBits p K)
    let T ← modTables R p (E.junk 7)
    let Ap ← finitT E 1 R tr K K (up16 (bitsz p)) A lda
    let Bp ← finitT E 2 R tr M N (up16 (bitsz p)) B ldb
    let X ← solveRV E gs R T p side uplo ta diag M N Ap Bp
    let B ← fconvT E R tr M N 0 B ldb (cols R X)
    let B ← freduceZ p M N B ldb
    if alpha = 1 then pure B else fscalinZ p M N alpha B ldb

end Verif.MP
