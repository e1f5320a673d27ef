import Verif.Model.Ftrtr
import Verif.Model.Fsyrk

/-!
# Triangular systems with a triangular unknown

/repo/fflas-ffpack/ffpack/ffpack_ftrstr.inl and ffpack_ftrssyr2k.inl.  `tmo` is the out-of-place `ftrmm`, `ts` is `ftrsm`, `s2` is
`fsyr2k`.
-/

namespace Verif.FF

variable {K : Type} [Field K] [DecidableEq K]

/-- type of the out-of-place `ftrmm`: side, uplo, trans, diag, M, N, alpha, A, lda, B, ldb, beta, C, ldc -/
abbrev TrOFn (K : Type) := Side → Uplo → Tr → Diag → ℕ → ℕ → K → ℕ → ℕ → ℕ → ℕ → K → ℕ → ℕ → Prog K Unit

/-- type of `ftrsm` and of the in-place `ftrmm` -/
abbrev TrIFn (K : Type) := Side → Uplo → Tr → Diag → ℕ → ℕ → K → ℕ → ℕ → ℕ → ℕ → Prog K Unit

/-- type of `fsyr2k`: uplo, trans, n, k, alpha, A, lda, B, ldb, beta, C, ldc -/
abbrev Syr2Fn (K : Type) := Uplo → Tr → ℕ → ℕ → K → ℕ → ℕ → ℕ → ℕ → K → ℕ → ℕ → Prog K Unit

/-- `(side == FflasLeft) ? FflasRight : FflasLeft`, ffpack_ftrstr.inl:51 -/
def oppSide : Side → Side
  | .left => .right
  | .right => .left

/-- `(diagA != diagB) ? FflasNonUnit : diagA`, ffpack_ftrstr.inl:54 -/
def diagX (dA dB : Diag) : Diag := if dA ≠ dB then .nonUnit else dA

/-- Base case, ffpack_ftrstr.inl:39-47. -/
def ftrstrBase (dA dB : Diag) (A B : ℕ) : Prog K Unit := match dA with
  | .unit => pure ()
  | .nonUnit => do
    let a ← load A
    match dB with
    | .unit => do
      let y ← liftE (invE a)
      store B y
    | .nonUnit => do
      let b ← load B
      let y ← liftE (divE b a)
      store B y

/-- `ftrstr`, ffpack_ftrstr.inl:32-83.  The parameter `threshold` of the code is not used there. -/
def ftrstr (tmo : TrOFn K) (ts : TrIFn K) (side : Side) (u : Uplo) (dA dB : Diag) (lda ldb : ℕ) : ℕ → ℕ → ℕ → ℕ → Prog K Unit
  | 0, _, _, _ => liftE (.error .fuel)
  | fuel + 1, N, A, B =>
    if N = 0 then pure ()
    else if N ≤ 1 then ftrstrBase dA dB A B
    else do
      let N1 := N / 2
      let N2 := N - N1
      let r := match u with | .upper => N1 | .lower => N2
      let c := match u with | .upper => N2 | .lower => N1
      let A2 := match u with | .upper => A + N1 | .lower => A + N1 * lda
      let B2 := match u with | .upper => B + N1 | .lower => B + N1 * ldb
      let A3 := A + N1 * (lda + 1)
      let B3 := B + N1 * (ldb + 1)
      ftrstr tmo ts side u dA dB lda ldb fuel N1 A B
      ftrstr tmo ts side u dA dB lda ldb fuel N2 A3 B3
      if (u = .upper ∧ side = .left) ∨ (u = .lower ∧ side = .right) then do
        tmo (oppSide side) u .no (diagX dA dB) r c (-1) B3 ldb A2 lda 1 B2 ldb
        ts side u .no dA r c 1 A lda B2 ldb
      else do
        tmo (oppSide side) u .no (diagX dA dB) r c (-1) B ldb A2 lda 1 B2 ldb
        ts side u .no dA r c 1 A3 lda B2 ldb

/-- Base case of `ftrssyr2k`, ffpack_ftrssyr2k.inl:39-46. -/
def ftrssyr2kBase (dA : Diag) (A B : ℕ) : Prog K Unit := do
  let two ← (match dA with
    | .nonUnit => do
      let a ← load A
      pure (2 * a)
    | .unit => pure (2 : K))
  let b ← load B
  let y ← liftE (divE b two)
  store B y

/-- `ftrssyr2k`, ffpack_ftrssyr2k.inl:32-78.  The parameter `threshold` of the code is not used there. -/
def ftrssyr2k (tmo : TrOFn K) (ts : TrIFn K) (s2 : Syr2Fn K) (u : Uplo) (dA : Diag) (lda ldb : ℕ) : ℕ → ℕ → ℕ → ℕ → Prog K Unit
  | 0, _, _, _ => liftE (.error .fuel)
  | fuel + 1, N, A, B =>
    if N = 0 then pure ()
    else if N ≤ 1 then ftrssyr2kBase dA A B
    else do
      let N1 := N / 2
      let N2 := N - N1
      let A3 := A + N1 * (lda + 1)
      let B3 := B + N1 * (ldb + 1)
      ftrssyr2k tmo ts s2 u dA lda ldb fuel N1 A B
      match u with
      | .upper => do
        tmo .left .upper .yes .nonUnit N1 N2 (-1) B ldb (A + N1) lda 1 (B + N1) ldb
        ts .left .upper .yes dA N1 N2 1 A lda (B + N1) ldb
        s2 .upper .yes N2 N1 (-1) (A + N1) lda (B + N1) ldb 1 B3 ldb
      | .lower => do
        tmo .right .lower .yes .nonUnit N2 N1 (-1) B ldb (A + N1 * lda) lda 1 (B + N1 * ldb) ldb
        ts .right .lower .yes dA N2 N1 1 A lda (B + N1 * ldb) ldb
        s2 .lower .no N2 N1 (-1) (A + N1 * lda) lda (B + N1 * ldb) ldb 1 B3 ldb
      ftrssyr2k tmo ts s2 u dA lda ldb fuel N2 A3 B3

end Verif.FF
