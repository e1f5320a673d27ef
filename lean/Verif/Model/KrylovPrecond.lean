import Verif.Model.CharPoly
import Verif.Model.Bruhat

/-!
# Characteristic polynomial: the random block Krylov preconditioner

/repo/fflas-ffpack/ffpack/ffpack_frobenius.inl (`RandomKrylovPrecond`, :74-304, and the parts of `ArithProg`, :306-527, before and
after its main loop) and the case `FfpackArithProgKrylovPrecond` of `CharPoly`, ffpack_charpoly.inl:84-120.  A thrown
`CharpolyFailed` is the result `none`.  The main loop of `ArithProg` is a parameter `ap`; it is not entered when the matrix given
has order at most `degree`.  What the generators draw is given by functions of the place in the tree of calls.
-/

namespace Verif.FF

open Verif.Perm

variable {K : Type} [Field K] [DecidableEq K]

/-- the numbers drawn: the block vector of an attempt, the non-zero entries put in it, and the vectors of `LUKrylov` -/
structure KpDraws (K : Type) where
  blk : List ℕ → ℕ → ℕ → K
  nz : List ℕ → ℕ → K
  luk : List ℕ → ℕ → ℕ → K

/-- `RandomMatrix (F, noc, N, K, ldk*degree, g)` and the draws of non-zero entries, ffpack_frobenius.inl:104-107 -/
def kpDraw (noc N Kp ld : ℕ) (blk : ℕ → ℕ → K) (nz : ℕ → K) : Prog K Unit := do
  loop noc fun i => loop N fun j => store (Kp + i * ld + j) (blk i j)
  loop noc fun i => store (Kp + i * (ld + 1)) (nz i)

/-- the iterates, :110-113 -/
def kpIterates (g : GemmFn K) (degree noc N A lda Kp : ℕ) : Prog K Unit :=
  loop (degree - 1) fun i =>
    g .no .yes noc N N 1 (Kp + i * N) (degree * N) A lda 0 (Kp + (i + 1) * N) (degree * N)

/-- `while ( (d<degree) && (row_idx<R) && (Qk[row_idx] == ii)) {ii++; row_idx++; d++;}`, :149; the first argument is `degree - d` -/
def kpCount (R : ℕ) (Qk : Arr ℕ) : ℕ → ℕ → ℕ → ℕ → Except Fault (ℕ × ℕ × ℕ)
  | 0, row, ii, d => pure (row, ii, d)
  | f+1, row, ii, d =>
    if row < R then do
      let q ← Qk.rd row
      if q = ii then kpCount R Qk f (row + 1) (ii + 1) (d + 1) else pure (row, ii, d)
    else pure (row, ii, d)

/-- the sequence of degrees and the number of blocks of full degree, :140-166; `none` when an exception is thrown.  The first argument
is the number of blocks left, `noc - k`. -/
def kpDegrees (N degree R : ℕ) (Qk : Arr ℕ) : ℕ → ℕ → ℕ → ℕ → ℕ → ℕ → Arr ℕ → Except Fault (Option (Arr ℕ × ℕ))
  | 0, _, _, _, _, nbf, dK => pure (some (dK, nbf))
  | f+1, k, row, ii, dold, nbf, dK => do
    let (row, ii, d) ← kpCount R Qk degree row ii 0
    if dold < d then pure none
    else do
      let dK ← dK.wr k d
      let ii ← (if row < N then Qk.rd row else pure ii)
      kpDegrees N degree R Qk f (k + 1) row ii d (if d = degree then nbf + 1 else nbf) dK

/-- the last iterate of each block, :175-181 -/
def kpLast (degree noc N K2 K3 : ℕ) (dK : Arr ℕ) : Prog K Unit :=
  loop noc fun i => do
    let d ← liftE (dK.rd i)
    let o ← usub (i * degree + d) 1
    vassign N (K2 + o * N) 1 (K3 + i * N) 1

/-- the coordinates of the images of the last iterates, :185-201 -/
def kpCoords (g : GemmFn K) (ts : TrsmFn K) (noc N R A lda Kp K3 K4 : ℕ) (Pk Qk : Arr ℕ) : Prog K Unit := do
  g .no .yes noc N N 1 K3 N A lda 0 K4 N
  applyP .right .yes noc 0 R K4 N Pk
  ts .right .upper .no .nonUnit noc R 1 Kp N K4 N
  applyP .left .no N 0 R Kp N Qk
  ts .right .lower .no .unit noc R 1 Kp N K4 N
  applyP .left .yes N 0 R Kp N Qk

/-- `for (size_t j = offset+1; j<R; ++j) if (!F.isZero(...))`, :209-214, with `j = r + i` -/
def kpAllZero (p : ℕ) : ℕ → Prog K Bool
  | 0 => pure true
  | n+1 => do
    let x ← load p
    if x = 0 then kpAllZero (p + 1) n else pure false

/-- the completed invariant factors, :204-225; the first argument is the number of values of `i` left, the list, `Ncurr` and `Ma` are the
state, and `offset` is `Ncurr - 1` throughout.  `none` when an exception is thrown. -/
def kpFactors (R nbf N K4 : ℕ) (dK : Arr ℕ) : ℕ → List (List K) → ℕ → ℕ → Prog K (Option (List (List K) × ℕ × ℕ))
  | 0, fs, nc, ma => pure (some (fs, nc, ma))
  | c+1, fs, nc, ma => do
    let i := nbf + 1 + c
    let d ← liftE (dK.rd i)
    if 1 ≤ d then do
      let z ← kpAllZero (K4 + i * N + nc) (R - nc)
      if z = true then do
        let o ← usub nc d
        let p ← danCoeffs (K4 + i * N + o) 1 d
        kpFactors R nbf N K4 dK c ((p ++ [1]) :: fs) o (ma - 1)
      else pure none
    else kpFactors R nbf N K4 dK c fs nc ma

/-- the matrix induced on the quotient by the Krylov space and its characteristic polynomial, :245-285 -/
def kpRest (g : GemmFn K) (ts : TrsmFn K) (rec : ℕ → ℕ → ℕ → Prog K (List (List K))) (N R A lda Kp : ℕ) (Pk : Arr ℕ) : Prog K (List (List K)) := do
  let e := N - R
  let K21 := Kp + R * N
  let K22 := K21 + R
  applyP .right .yes N 0 R A lda Pk
  lukCopyT N e (A + R) lda K21 N
  applyP .right .no N 0 R A lda Pk
  applyP .right .yes e 0 R K21 N Pk
  ts .right .upper .no .nonUnit e R 1 Kp N K21 N
  let Ar ← alloc (e * e)
  fassign e e K22 N Ar e
  g .no .no e e R (-1) K21 N (Kp + R) N 1 Ar e
  let L ← rec e Ar e
  free Ar (e * e)
  pure L

omit [Field K] [DecidableEq K] in
/-- `std::list::merge` with the order `lt` on polynomials (the lists need not be sorted, as the standard requires); the first argument is
the number of elements -/
def mergeN (lt : List K → List K → Bool) : ℕ → List (List K) → List (List K) → List (List K)
  | f+1, a :: L, b :: L' => if lt b a then b :: mergeN lt f (a :: L) L' else a :: mergeN lt f L (b :: L')
  | _, L, L' => L ++ L'

/-- `fiszero (F, nb_full_blocks+1, N-R, K4+R, ldk)` and what follows when the Krylov space is not the whole space, :232-286; `none` when an
exception is thrown -/
def kpSplit (g : GemmFn K) (ts : TrsmFn K) (lt : List K → List K → Bool) (rec : ℕ → ℕ → ℕ → Prog K (List (List K))) (N R nbf A lda Kp K4 : ℕ)
    (Pk : Arr ℕ) (fs : List (List K)) : Prog K (Option (List (List K))) :=
  if R < N then do
    let z ← fiszero (nbf + 1) (N - R) (K4 + R) N
    if z = true then do
      let L ← kpRest g ts rec N R A lda Kp Pk
      pure (some (mergeN lt (fs.length + L.length) fs L))
    else pure none
  else pure (some fs)

/-- the matrix of the columns found, :293-302; `ldb = Ma`, `Nb = Ncurr` -/
def kpResult (N nc ma K4 : ℕ) : Prog K ℕ := do
  let B ← alloc (nc * ma)
  loop ma fun j => vassign nc (K4 + j * N) 1 (B + j) ma
  pure B

/-- `RandomKrylovPrecond`, :74-304: the list of factors, `Nb`, `B`, `ldb`.  `rec` is the recursive call of `CharPoly`. -/
def krylovPrecond (cut : ℕ) (cat : Cat) (g : GemmFn K) (ts : TrsmFn K) (lt : List K → List K → Bool) (rec : ℕ → ℕ → ℕ → Prog K (List (List K)))
    (blk : ℕ → ℕ → K) (nz : ℕ → K) (degree N A lda : ℕ) : Prog K (Option (List (List K) × ℕ × ℕ × ℕ)) := do
  let _ ← (if degree = 0 then Prog.fault .divZero else pure ())
  let n1 ← usub N 1
  let noc := n1 / degree + 1
  let Kp ← alloc (degree * noc * N)
  let K2 ← alloc (degree * noc * N)
  kpDraw noc N Kp (degree * N) blk nz
  kpIterates g degree noc N A lda Kp
  fassign (noc * degree) N Kp N K2 N
  let (R, Pk, Qk) ← ludivine cat g ts cut .no .nonUnit false N N Kp N (Arr.mk' N (fun _ => 0)) (Arr.mk' N (fun _ => 0))
  let x ← liftE (kpDegrees N degree R Qk noc 0 0 0 degree 0 (Arr.mk' (noc * degree) (fun _ => 0)))
  match x with
  | none => do
    free Kp (degree * noc * N)
    pure none
  | some (dK, nbf) => do
    let K3 ← alloc (noc * N)
    let K4 ← alloc (noc * N)
    kpLast degree noc N K2 K3 dK
    free K2 (degree * noc * N)
    kpCoords g ts noc N R A lda Kp K3 K4 Pk Qk
    let y ← kpFactors R nbf N K4 dK (noc - 1 - nbf) [] R noc
    match y with
    | none => do
      free Kp (degree * noc * N)
      free K3 (noc * N)
      free K4 (noc * N)
      pure none
    | some (fs, nc, ma) => do
      let z ← kpSplit g ts lt rec N R nbf A lda Kp K4 Pk fs
      match z with
      | none => do
        free K3 (noc * N)
        free K4 (noc * N)
        free Kp (degree * noc * N)
        pure none
      | some fs => do
        free Kp (degree * noc * N)
        free K3 (noc * N)
        let B ← kpResult N nc ma K4
        free K4 (noc * N)
        pure (some (fs, nc, B, ma))

/-- `ArithProg`, :306-527; `ap N A lda degree` stands for the call when the main loop is entered.  Otherwise the copies and the degrees are
those of :326-347 for `Ma = 1` and the first invariant factor is recovered, :516-521. -/
def arithProg (ap : ℕ → ℕ → ℕ → ℕ → Prog K (Option (List (List K)))) (fs : List (List K)) (N A lda degree : ℕ) : Prog K (Option (List (List K))) := do
  let _ ← (if degree = 0 then Prog.fault .divZero else pure ())
  let n1 ← usub N 1
  let Ma := n1 / degree + 1
  if 1 < Ma then do
    let x ← ap N A lda degree
    pure (x.map (· ++ fs))
  else do
    let Kp ← alloc (N * Ma)
    let Ac ← alloc (N * Ma)
    fassign N Ma A lda Ac Ma
    fassign N Ma Ac Ma Kp Ma
    let Arp ← alloc (N * Ma)
    let d := if N % degree ≠ 0 then N % degree else degree
    let p ← danCoeffs Kp Ma d
    free Arp (N * Ma)
    free Ac (N * Ma)
    free Kp (N * Ma)
    pure (some ((p ++ [1]) :: fs))

/-- one attempt, ffpack_charpoly.inl:93-118; `none` when `CharpolyFailed` has been caught (`B` is deleted in both cases) -/
def kpTry (cut : ℕ) (cat : Cat) (g : GemmFn K) (ts : TrsmFn K) (lt : List K → List K → Bool) (ap : ℕ → ℕ → ℕ → ℕ → Prog K (Option (List (List K))))
    (rec : ℕ → ℕ → ℕ → Prog K (List (List K))) (blk : ℕ → ℕ → K) (nz : ℕ → K) (degree N A lda : ℕ) : Prog K (Option (List (List K))) := do
  let x ← krylovPrecond cut cat g ts lt rec blk nz degree N A lda
  match x with
  | none => pure none
  | some (fs, Nb, B, ldb) => do
    let y ← arithProg ap fs Nb B ldb degree
    free B (Nb * ldb)
    pure y

/-- `CharPoly` with `FfpackArithProgKrylovPrecond` and an empty list, ffpack_charpoly.inl:84-120; `char` is the characteristic, `dflt` the
default value of `degree` (`__FFLASFFPACK_ARITHPROG_THRESHOLD`), used for the recursive calls.  The first argument bounds the
recursion depth. -/
def charPolyKP (jk : ℕ → ℕ) (dr : KpDraws K) (cut : ℕ) (cat : Cat) (g : GemmFn K) (ts : TrsmFn K) (lt : List K → List K → Bool)
    (ap : ℕ → ℕ → ℕ → ℕ → Prog K (Option (List (List K)))) (char dflt : ℕ) : ℕ → List ℕ → ℕ → ℕ → ℕ → ℕ → Prog K (List (List K))
  | 0, _, _, _, _, _ => Prog.fault .fuel
  | f+1, pt, degree, N, A, lda =>
    let rec' := fun t => charPolyKP jk dr cut cat g ts lt ap char dflt f (t :: pt) dflt
    if char < N then charPolyLUK jk (dr.luk pt) cat g ts N A lda
    else do
      let x ← kpTry cut cat g ts lt ap (rec' 0) (dr.blk (0 :: pt)) (dr.nz (0 :: pt)) degree N A lda
      match x with
      | some L => pure L
      | none => do
        let x ← kpTry cut cat g ts lt ap (rec' 1) (dr.blk (1 :: pt)) (dr.nz (1 :: pt)) degree N A lda
        match x with
        | some L => pure L
        | none => charPolyLUK jk (dr.luk pt) cat g ts N A lda

end Verif.FF
