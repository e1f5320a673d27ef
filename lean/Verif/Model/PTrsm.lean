import Verif.Model.Par

/-!
# Recursive and hybrid triangular solves with parallel products

fflas_pftrsm.inl:74-156 and fflas_ftrsm_src.inl:396-443 with a parallel helper: the products of the recursion get the helper, the rest is
done by the task itself.  `g` is the product with that helper.
-/

namespace Verif.Par

open Verif.FF Verif.BlockCuts

variable {K : Type} [Field K] [DecidableEq K]

/-- the end of the recursion, fflas_ftrsm_src.inl:412-422 -/
def trsmOne (side : Side) (diag : Diag) (M N A B ldb : ℕ) : Prog K Unit :=
  if diag = .nonUnit then do
    let a ← load A
    let inv ← liftE (invE a)
    trScal .generic side M N inv B ldb
  else pure ()

instance (side : Side) (diag : Diag) (M N A B ldb : ℕ) : Small (trsmOne side diag M N A B ldb : Prog K Unit) := by delta trsmOne; infer_instance

/-- generic recursive `ftrsm` with a parallel helper, fflas_ftrsm_src.inl:396-443.  The first number bounds the depth of the recursion. -/
def ftrsmGenP (g : PGemm K) (side : Side) (uplo : Uplo) (ta : Tr) (diag : Diag) (lda ldb : ℕ) : ℕ → ℕ → ℕ → ℕ → ℕ → Proc K → Proc K
  | 0, _, _, _, _, _ => .fault .fuel
  | fuel + 1, M, N, A, B, k =>
    if trNa side M N = 1 then call (trsmOne side diag M N A B ldb) k
    else
      let ns := trNa side M N / 2
      let q := trsmPtr side (effUplo uplo ta) ta (trNa side M N) ns A lda B ldb
      match side with
      | .left =>
        ftrsmGenP g .left uplo ta diag lda ldb fuel ns N q.a1 q.b1
          (g ⟨ta, .no, M - ns, N, ns, -1, q.a2, lda, q.b1, ldb, 1, q.b2, ldb⟩
            (ftrsmGenP g .left uplo ta diag lda ldb fuel (M - ns) N q.a3 q.b2 k))
      | .right =>
        ftrsmGenP g .right uplo ta diag lda ldb fuel M ns q.a1 q.b1
          (g ⟨.no, ta, M, N - ns, ns, -1, q.b1, ldb, q.a2, lda, 1, q.b2, ldb⟩
            (ftrsmGenP g .right uplo ta diag lda ldb fuel M (N - ns) q.a3 q.b2 k))

/-- `ftrsm` with `TRSMHelper<Recursive, Parallel>`, fflas_ftrsm.inl:103-178 -/
def ftrsmP (g : PGemm K) (side : Side) (uplo : Uplo) (ta : Tr) (diag : Diag) (M N : ℕ) (alpha : K) (A lda B ldb : ℕ) (k : Proc K) : Proc K :=
  if M = 0 ∨ N = 0 then k
  else ftrsmGenP g side uplo ta diag lda ldb (trNa side M N) M N A B
    (if alpha = 1 then k else call (fscalin .generic M N alpha B ldb) k)

/-- `nt_it` and `nt_rec` for `Side = Right`, fflas_pftrsm.inl:98-103.  Without rows `double(nt)/double(nt_it)` is infinite and its
conversion to `int` is undefined.  The quotients of numbers below `2^52` round up to the right integer. -/
def hybridRight (m nt : ℕ) : Except Fault (ℕ × ℕ) :=
  if m / 256 < nt then
    if (m + 255) / 256 = 0 then .error .divZero else .ok ((m + 255) / 256, (nt + (m + 255) / 256 - 1) / ((m + 255) / 256))
  else .ok (nt, 1)

/-- The loop `while (nt_it*256 >= n)`, fflas_pftrsm.inl:126-129: `nt_it` and `nt_rec` when it ends, `none` if it is still running after
`fuel` iterations. -/
def hybridWhile (n : ℕ) : ℕ → ℕ → ℕ → Option (ℕ × ℕ)
  | 0, it, rc => if it * 256 ≥ n then none else some (it, rc)
  | fuel + 1, it, rc => if it * 256 ≥ n then hybridWhile n fuel (it / 2) (rc * 2) else some (it, rc)

/-- `nt_it` and `nt_rec` for `Side = Left`, fflas_pftrsm.inl:120-132.  After `nt` iterations of the loop `nt_it` is 0. -/
def hybridLeft (n nt : ℕ) : Option (ℕ × ℕ) :=
  if nt * 256 ≥ n then (hybridWhile n nt (nt / 2) 2).map fun x => (x.1 * 2, x.2 / 2) else some (nt, 1)

/-- hybrid `ftrsm`, fflas_pftrsm.inl:74-156: blocks of `B` in parallel, each of them solved with parallel products; `gp nt` is `fgemm` with
the helper of `nt` threads -/
def pftrsmHybrid (gp : ℕ → PGemm K) (side : Side) (uplo : Uplo) (ta : Tr) (diag : Diag) (p : Param) (M N : ℕ) (alpha : K) (A lda B ldb nt : ℕ)
    (k : Proc K) : Proc K :=
  match side with
  | .right => match hybridRight M nt with
    | .error e => .fault e
    | .ok (it, rc) => forBlock1D p M it (fun _ b e => ftrsmP (gp rc) .right uplo ta diag (e - b) N alpha A lda (B + b * ldb) ldb .ret) k
  | .left => match hybridLeft N nt with
    | none => .fault .fuel
    | some (it, rc) => forBlock1D p N it (fun _ b e => ftrsmP (gp rc) .left uplo ta diag M (e - b) alpha A lda (B + b) ldb .ret) k

end Verif.Par
