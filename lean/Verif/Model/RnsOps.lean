import Verif.Model.TrsmMP

/-!
# Level 1, 2 and 3 operations over `RNSIntegerMod`

/repo/fflas-ffpack/fflas/fflas_fscal_mp.inl, fflas_fger_mp.inl, fflas_fgemv_mp.inl and fgemm_classical_mp.inl:470-498: the operation is done modulo every `m_i`,
that is over the integers as long as these do not exceed the range of the residues, and the result is reduced modulo `p`.

Simplifications: as in `Model/TrsmMP`, the residues of an element are one cell of memory.  The scaling and the update of rank one modulo `m_i`
(`Modular<double>`, the objects of C26 and C121) are exact here.  A vector of increment `inc` is a matrix with one column and leading dimension `inc`.
-/

namespace Verif.MP

open Verif.RNS Verif.FF Verif.Lazy

/-- `freduce`, fflas_freduce_mp.inl:35-60 -/
def freduceMod (E : Env) (R : Rns) (T : ModTables) (r c B ldb : ℕ) : Prog (RV R) Unit :=
  if c = 0 ∨ r = 0 then pure () else redWin E R T r c B ldb

/-- `fscal` over `RNSInteger`, fflas_fscal_mp.inl:49-83: the four functions, `fscalin` for `B = A`. -/
def scalRV (R : Rns) (r c : ℕ) (alpha : RV R) (A lda B ldb : ℕ) : Prog (RV R) Unit :=
  loop r fun i => loop c fun j => do
    let x ← load (A + i * lda + j)
    store (B + i * ldb + j) (alpha * x)

/-- `fscal` over `RNSIntegerMod`, fflas_fscal_mp.inl:85-123 -/
def fscalMod (E : Env) (R : Rns) (T : ModTables) (r c : ℕ) (alpha : RV R) (A lda B ldb : ℕ) : Prog (RV R) Unit := do
  scalRV R r c alpha A lda B ldb
  freduceMod E R T r c B ldb

/-- `fger` over `RNSInteger`, fflas_fger_mp.inl:57-72 -/
def gerRV (R : Rns) (M N : ℕ) (alpha : RV R) (x incx y incy A lda : ℕ) : Prog (RV R) Unit :=
  loop M fun i => loop N fun j => do
    let u ← load (x + i * incx)
    let v ← load (y + j * incy)
    let a ← load (A + i * lda + j)
    store (A + i * lda + j) (a + alpha * u * v)

/-- `fger` over `RNSIntegerMod`, fflas_fger_mp.inl:74-91.  The public function (fflas_fger.inl:33-44) reduces once more. -/
def fgerMod (E : Env) (R : Rns) (T : ModTables) (M N : ℕ) (alpha : RV R) (x incx y incy A lda : ℕ) : Prog (RV R) Unit := do
  gerRV R M N alpha x incx y incy A lda
  freduceMod E R T M N A lda
  freduceMod E R T M N A lda

/-- `fgemm` over `RNSIntegerMod`, fgemm_classical_mp.inl:470-498 -/
def fgemmRnsMod (E : Env) (gs : GemmFam) (R : Rns) (T : ModTables) (ta tb : Tr) (m n k : ℕ) (alpha : RV R) (A lda B ldb : ℕ) (beta : RV R) (C ldc : ℕ) :
    Prog (RV R) Unit := do
  gemmRV gs R ta tb m n k alpha A lda B ldb beta C ldc
  freduceMod E R T m n C ldc

/-- `fgemv` over `RNSIntegerMod`, fflas_fgemv_mp.inl:35-81.  Simplification: `fgemv` modulo `m_i` is the product with one column (fflas_fgemv.inl:155-163). -/
def fgemvRnsMod (E : Env) (gs : GemmFam) (R : Rns) (T : ModTables) (ta : Tr) (M N : ℕ) (alpha : RV R) (A lda X incX : ℕ) (beta : RV R) (Y incY : ℕ) :
    Prog (RV R) Unit := do
  let Ydim := if ta = .no then M else N
  let Xdim := if ta = .no then N else M
  if M ≠ 0 ∧ N ≠ 0 then gemmRV gs R ta .no Ydim 1 Xdim alpha A lda X incX beta Y incY else pure ()
  freduceMod E R T Ydim 1 Y incY

end Verif.MP
