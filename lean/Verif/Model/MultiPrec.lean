import Verif.Core.HeapEx
import Verif.Model.RNS
import Verif.Model.Gemm
import Mathlib.Data.ZMod.Basic
import Mathlib.Algebra.Field.ZMod
import Mathlib.Analysis.SpecialFunctions.Log.Basic

/-!
# Multi-precision routines: products, determinants and characteristic polynomials of integer matrices by residue number systems

The integer matrices are converted to residues modulo random primes, the routine for word-size prime fields runs for every prime, and the residues
are converted back.

Simplifications: GMP integers are ℤ; arrays of integers are values with a length (so the arguments do not overlap); the routine run for a
prime `p` works on a memory that holds the residues of that prime only, in the order of the arguments, and the result is read back from
this memory.  The timers and the code under `PROFILE_FGEMM_MP` are left out.
-/

namespace Verif.MP

open Verif.RNS Verif.FF Verif.Lazy

/-- What the run does not control: the random primes drawn for a given `pbits`, the number of draws allowed in the two loops of the
constructor (more: the run has not ended), the contents of fresh arrays, the order of the summations in `cblas_dgemm`. -/
structure Env where
  cand : ℕ → ℕ → ℕ
  inner : ℕ
  fuel : ℕ
  junkN : ℕ → ℕ
  junk : ℕ → ℕ → ℤ
  sched : ℕ → ℕ → ℕ → ℕ → SumTree

/-- `Integer::bitsize`: `mpz_sizeinbase(x, 2)`, which is 1 for 0. -/
def bitsz (x : ℤ) : ℕ := max 1 (Nat.size x.natAbs)

/-- `(b/16)+((b%16)?1:0)` -/
def up16 (b : ℕ) : ℕ := b / 16 + (if b % 16 ≠ 0 then 1 else 0)

/-- `rns_double RNS(bound, pbits)`, rns-double.h:80-97. -/
def mkRns (E : Env) (bound pbits : ℕ) : Except Fault Rns :=
  match buildBound (E.cand pbits) bound false E.inner E.fuel ⟨[], 1, 1, 0⟩ with
  | none => .error .fuel
  | some b => precompute b.basis.length (fun i => b.basis.getD i 0) E.junkN (E.junk 0)

/-- `finit_rns(Zrns, m, n, k, A, lda, Ap)` into a fresh array of `fflas_new(Zrns, m, n)`, whose stride is `m*n` (rns-integer.h:155-176). -/
def finit (E : Env) (c : ℕ) (R : Rns) (m n k : ℕ) (A : Arr ℤ) (lda : ℕ) : Except Fault (Arr ℤ) :=
  init R false false m n (Arr.mk' (R.size * (m * n)) (E.junk (4 * c + 1))) (m * n) A lda k (E.junk (4 * c + 2)) (E.sched (2 * c) k)

/-- `fconvert_rns(Zrns, m, n, gamma, A, lda, Ap)`, rns-integer.h:178-184. -/
def fconv (E : Env) (R : Rns) (m n : ℕ) (gamma : ℤ) (A : Arr ℤ) (lda : ℕ) (Ap : Arr ℤ) : Except Fault (Arr ℤ) :=
  convert R false false m n gamma A lda Ap (m * n) (E.junk 3) (E.sched 1 R.size)

/-- `Zrns.init(x, y)`, rns-integer.h:112-117. -/
def initElt (E : Env) (c : ℕ) (R : Rns) (y : ℤ) : Except Fault (Arr ℤ) :=
  init R false false 1 1 (Arr.mk' R.size (E.junk (4 * c + 1))) 1 (Arr.ofList [y]) 1 (up16 (bitsz y)) (E.junk (4 * c + 2)) (E.sched (2 * c) (up16 (bitsz y)))

/-- `InfNorm`, fflas_bounds.inl:115-124. -/
def infNorm (m n : ℕ) (A : Arr ℤ) (lda : ℕ) : Except Fault ℕ := do
  let mx ← iter m (fun i (mx : ℤ) => iter n (fun j (mx : ℤ) => do
    let x ← A.rd (i * lda + j)
    pure (if x.natAbs > mx.natAbs then x else mx)) mx) 0
  pure mx.natAbs

/-- the norm kept in the helper, or computed when it is 0 (fgemm_classical_mp.inl:352-355) -/
def normOf (h m n : ℕ) (A : Arr ℤ) (lda : ℕ) : Except Fault ℕ := if h = 0 then infNorm m n A lda else pure h

/-- `bitsize` for `ZRing<Integer>`, fflas_level2.inl:592-599. -/
def bitsize (m n : ℕ) (A : Arr ℤ) (lda : ℕ) : Except Fault ℕ :=
  iter m (fun i (bs : ℕ) => iter n (fun j (bs : ℕ) => do
    let x ← A.rd (i * lda + j)
    pure (max bs (bitsz x))) bs) 1

/-- `fscalin(F, m, n, beta, C, ldc)` for `ZRing<Integer>`, followed by the reduction modulo `p` for `Modular<Integer>` (`p = 0`: none). -/
def fscalinZ (p : ℕ) (m n : ℕ) (beta : ℤ) (C : Arr ℤ) (ldc : ℕ) : Except Fault (Arr ℤ) :=
  iter m (fun i => iter n (fun j (C : Arr ℤ) => do
    let x ← C.rd (i * ldc + j)
    C.wr (i * ldc + j) (beta * x % p))) C

/-- `freduce(F, m, n, C, ldc)` for `Modular<Integer>`: the representative in `[0, p)` -/
def freduceZ (p : ℕ) (m n : ℕ) (C : Arr ℤ) (ldc : ℕ) : Except Fault (Arr ℤ) :=
  iter m (fun i => iter n (fun j (C : Arr ℤ) => do
    let x ← C.rd (i * ldc + j)
    C.wr (i * ldc + j) (x % p))) C

/-- the product over each prime field -/
abbrev GemmFam := (p : ℕ) → [Fact p.Prime] → GemmFn (ZMod p)

/-- the memory of residues given to the routine for the prime `p` -/
def resMem (p : ℕ) (l : List ℤ) : Mem (ZMod p) := memOf (l.map (Int.cast : ℤ → ZMod p))

/-- One product modulo `p` (fgemm_classical_mp.inl:159-164): `C` is the last of the three blocks. -/
def gemmMod (gs : GemmFam) (p : ℕ) (ta tb : Tr) (m n k : ℕ) (alpha : ℤ) (a : List ℤ) (lda : ℕ) (b : List ℤ) (ldb : ℕ) (beta : ℤ)
    (c : List ℤ) (ldc : ℕ) : Except Fault (List ℤ) :=
  if h : p.Prime then
    haveI : Fact p.Prime := ⟨h⟩
    match gs p ta tb m n k (alpha : ZMod p) 0 lda a.length ldb (beta : ZMod p) (a.length + b.length) ldc (resMem p (a ++ b ++ c)) with
    | .ok (_, m') => .ok ((List.range c.length).map (fun i => ((m'.val (a.length + b.length + i)).val : ℤ)))
    | .error e => .error e
  else .error .divZero

/-- store a list from address `off` on -/
def writeRow (A : Arr ℤ) (off : ℕ) (l : List ℤ) : Except Fault (Arr ℤ) :=
  iter l.length (fun i (A : Arr ℤ) => A.wr (off + i) (l.getD i 0)) A

/-- `fgemm` over `RNSInteger`, sequential (fgemm_classical_mp.inl:142-174): the product for every modulus. -/
def rnsGemm (gs : GemmFam) (R : Rns) (ta tb : Tr) (m n k : ℕ) (alpha : Arr ℤ) (Ap : Arr ℤ) (sA lda : ℕ) (Bp : Arr ℤ) (sB ldb : ℕ)
    (beta : Arr ℤ) (Cp : Arr ℤ) (sC ldc : ℕ) : Except Fault (Arr ℤ) :=
  iter R.size (fun t (Cp : Arr ℤ) => do
    let al ← alpha.rd t
    let a ← readRow Ap (t * sA) 1 sA
    let b ← readRow Bp (t * sB) 1 sB
    let be ← beta.rd t
    let c ← readRow Cp (t * sC) 1 sC
    let c ← gemmMod gs (R.basis t) ta tb m n k al a lda b ldb be c ldc
    writeRow Cp (t * sC) c) Cp

/-- `fgemm` over `ZRing<Integer>` with a helper, fgemm_classical_mp.inl:311-424; `hA`, `hB` are `H.normA`, `H.normB` (0: to be computed). -/
def fgemmZH (E : Env) (gs : GemmFam) (hA hB : ℕ) (ta tb : Tr) (m n k : ℕ) (alpha : ℤ) (A : Arr ℤ) (lda : ℕ) (B : Arr ℤ) (ldb : ℕ)
    (beta : ℤ) (C : Arr ℤ) (ldc : ℕ) : Except Fault (Arr ℤ) :=
  if alpha = 0 then fscalinZ 0 m n beta C ldc
  else if k = 0 then pure C
  else do
    let lk := Nat.size k
    let pbits := (53 - lk) / 2
    let normA ← normOf hA (opr ta m k) (opc ta m k) A lda
    let normB ← normOf hB (opr tb k n) (opc tb k n) B ldb
    let mC := 2 * k * normA * normB * alpha.natAbs
    if mC = 0 then pure C
    else do
      let R ← mkRns E mC pbits
      let Ap ← finit E 1 R (opr ta m k) (opc ta m k) (up16 (bitsz normA)) A lda
      let Bp ← finit E 2 R (opr tb k n) (opc tb k n) (up16 (bitsz normB)) B ldb
      let alphap ← initElt E 3 R alpha
      let betap ← initElt E 4 R 0
      let Cp ← rnsGemm gs R ta tb m n k alphap Ap (opr ta m k * opc ta m k) (opc ta m k) Bp (opr tb k n * opc tb k n) (opc tb k n)
        betap (Arr.mk' (R.size * (m * n)) (E.junk 5)) (m * n) n
      fconv E R m n beta C ldc Cp

/-- `fgemm` over `ZRing<Integer>` as called by the user, fflas_fgemm.inl:323-346 (the checker is compiled out by default). -/
def fgemmZ (E : Env) (gs : GemmFam) (ta tb : Tr) (m n k : ℕ) (alpha : ℤ) (A : Arr ℤ) (lda : ℕ) (B : Arr ℤ) (ldb : ℕ)
    (beta : ℤ) (C : Arr ℤ) (ldc : ℕ) : Except Fault (Arr ℤ) :=
  if m = 0 ∨ n = 0 then pure C
  else if k = 0 ∨ alpha = 0 then fscalinZ 0 m n beta C ldc
  else fgemmZH E gs 0 0 ta tb m n k alpha A lda B ldb beta C ldc

/-- `fgemm` over `Modular<Integer>(p)`: fflas_fgemm.inl:323-346, then fgemm_classical_mp.inl:529-559. -/
def fgemmModZ (E : Env) (gs : GemmFam) (p : ℕ) (ta tb : Tr) (m n k : ℕ) (alpha : ℤ) (A : Arr ℤ) (lda : ℕ) (B : Arr ℤ) (ldb : ℕ)
    (beta : ℤ) (C : Arr ℤ) (ldc : ℕ) : Except Fault (Arr ℤ) :=
  if m = 0 ∨ n = 0 then pure C
  else if k = 0 ∨ alpha = 0 then fscalinZ p m n beta C ldc
  else do
    let C ← fgemmZH E gs p p ta tb m n k alpha A lda B ldb beta C ldc
    freduceZ p m n C ldc

/-! ## Determinant -/

/-- the determinant over each prime field: arguments `N`, `A`, `lda` -/
abbrev DetFam := (p : ℕ) → [Fact p.Prime] → ℕ → ℕ → ℕ → Prog (ZMod p) (ZMod p)

/-- the determinant modulo `p` of the residues -/
def detMod (ds : DetFam) (p N : ℕ) (a : List ℤ) (lda : ℕ) : Except Fault ℤ :=
  if h : p.Prime then
    haveI : Fact p.Prime := ⟨h⟩
    match ds p N 0 lda (resMem p a) with
    | .ok (d, _) => .ok (d.val : ℤ)
    | .error e => .error e
  else .error .divZero

/-- `Det` over `RNSInteger`, ffpack_det_mp.inl:37-51. -/
def rnsDet (ds : DetFam) (R : Rns) (N : ℕ) (Ap : Arr ℤ) (lda : ℕ) (D : Arr ℤ) : Except Fault (Arr ℤ) :=
  iter R.size (fun t (D : Arr ℤ) => do
    let d ← (do
      let a ← readRow Ap (t * (N * N)) 1 (N * N)
      detMod ds (R.basis t) N a lda)
    D.wr t d) D

/-- `Detbs`, ffpack_det_mp.inl:65: `ceil(N * (log(N)/(log(2)*2) + Abs))`.  Simplification: real numbers instead of doubles. -/
noncomputable def detBits (N Abs : ℕ) : ℕ := ⌈(N : ℝ) * (Real.log N / (Real.log 2 * 2) + Abs)⌉.toNat

/-- `Det` over `ZRing<Integer>`, ffpack_det_mp.inl:54-80; `bits` is the function that gives `Detbs` and `old` the value of `det` before the call. -/
def detZ (E : Env) (ds : DetFam) (bits : ℕ → ℕ → ℕ) (old : ℤ) (N : ℕ) (A : Arr ℤ) (lda : ℕ) : Except Fault ℤ :=
  if N = 0 then pure 1
  else do
    let Abs ← bitsize N N A lda
    let R ← mkRns E (2 ^ bits N Abs) 23
    let Ap ← finit E 1 R N N (up16 Abs) A lda
    let D ← rnsDet ds R N Ap N (Arr.mk' R.size (E.junk 5))
    let d ← fconv E R 1 1 1 (Arr.ofList [old]) 1 D
    d.rd 0

/-! ## Characteristic polynomial -/

/-- the characteristic polynomial over each prime field -/
abbrev CpFam := (p : ℕ) → [Fact p.Prime] → ℕ → ℕ → ℕ → Prog (ZMod p) (List (ZMod p))

/-- the characteristic polynomial modulo `p` of the residues: the coefficients `0..N` -/
def cpMod (cs : CpFam) (p N : ℕ) (a : List ℤ) (lda : ℕ) : Except Fault (List ℤ) :=
  if h : p.Prime then
    haveI : Fact p.Prime := ⟨h⟩
    match cs p N 0 lda (resMem p a) with
    | .ok (l, _) => if N < l.length then .ok ((List.range (N + 1)).map (fun i => ((l.getD i 0).val : ℤ))) else .error .oob
    | .error e => .error e
  else .error .divZero

/-- `CharPoly` over `RNSInteger`, ffpack_charpoly_mp.inl:37-60. -/
def rnsCharPoly (cs : CpFam) (R : Rns) (N : ℕ) (Ap : Arr ℤ) (lda : ℕ) (P : Arr ℤ) : Except Fault (Arr ℤ) :=
  iter R.size (fun t (P : Arr ℤ) => do
    let l ← (do
      let a ← readRow Ap (t * (N * N)) 1 (N * N)
      cpMod cs (R.basis t) N a lda)
    writeRow P (t * (1 * (N + 1))) l) P

/-- `CPbs`, ffpack_charpoly_mp.inl:72: `ceil(N/2 * (log(N)/log(2) + 2*Abs + 0.21163275))`.  Simplification: real numbers instead of doubles. -/
noncomputable def cpBits (N Abs : ℕ) : ℕ := ⌈(N : ℝ) / 2 * (Real.log N / Real.log 2 + 2 * Abs + 0.21163275)⌉.toNat

/-- `CharPoly` over `ZRing<Integer>`, ffpack_charpoly_mp.inl:61-98; `old` is the vector `charp` before the call.  For `N = 0` the double
`0 * (log(0) + …)` is not a number and its conversion to `int64_t` is undefined. -/
def charPolyZ (E : Env) (cs : CpFam) (bits : ℕ → ℕ → ℕ) (old : List ℤ) (N : ℕ) (A : Arr ℤ) (lda : ℕ) : Except Fault (Arr ℤ) :=
  if N = 0 then .error .inexact
  else do
    let Abs ← bitsize N N A lda
    let R ← mkRns E (2 ^ bits N Abs) 23
    let Ap ← finit E 1 R N N (up16 Abs) A lda
    let P ← rnsCharPoly cs R N Ap N (Arr.mk' (R.size * (1 * (N + 1))) (E.junk 5))
    fconv E R 1 (N + 1) 1 ⟨N + 1, fun i => old.getD i 0⟩ (N + 1) P

end Verif.MP
