import Verif.Model.FgemvMP
import Verif.Props.MultiPrec

/-!
# C120: matrix-vector products of multi-precision integers
-/

namespace Verif.Props
open Verif Verif.RNS Verif.FF Verif.Lazy Verif.MP

section
variable {E : Env} {gs : GemmFam} {ta : Tr} {M N : ℕ} {alpha : ℤ} {A : Arr ℤ} {lda : ℕ} {X : Arr ℤ} {incX : ℕ} {beta : ℤ} {Y : Arr ℤ} {incY a x : ℕ}

/-- length of the result -/
abbrev ydim (ta : Tr) (M N : ℕ) : ℕ := if ta = .no then M else N
/-- length of the operand -/
abbrev xdim (ta : Tr) (M N : ℕ) : ℕ := if ta = .no then N else M

lemma opr_dims (ta : Tr) (M N : ℕ) : opr ta (ydim ta M N) (xdim ta M N) = M := by cases ta <;> rfl
lemma opc_dims (ta : Tr) (M N : ℕ) : opc ta (ydim ta M N) (xdim ta M N) = N := by cases ta <;> rfl

/-- with at least one row, and a result that is not empty, the function is the product by a matrix with one column -/
lemma fgemvZ_eq (hM : M ≠ 0) (hY : ydim ta M N ≠ 0) : fgemvZ E gs ta M N alpha A lda X incX beta Y incY =
    fgemmZ E gs ta .no (ydim ta M N) 1 (xdim ta M N) alpha A lda X incX beta Y incY := by
  unfold fgemvZ fgemmZ
  simp only
  rw [if_neg hM, if_neg (show ¬ (ydim ta M N = 0 ∨ 1 = 0) by omega)]

lemma fgemvModZ_eq {p : ℕ} (hM : M ≠ 0) (hY : ydim ta M N ≠ 0) : fgemvModZ E gs p ta M N alpha A lda X incX beta Y incY =
    fgemmModZ E gs p ta .no (ydim ta M N) 1 (xdim ta M N) alpha A lda X incX beta Y incY := by
  unfold fgemvModZ fgemmModZ
  simp only
  rw [if_neg hM, if_neg (show ¬ (ydim ta M N = 0 ∨ 1 = 0) by omega)]

/-- C120 (full statement: `y := alpha op(A) x + beta y` for every matrix and vector of integers).  Proved for operands that are not zero or
`beta = 1` (otherwise `C120_zero_violated`), for a transposed matrix that is not empty (otherwise `C120_empty_violated`) and for products that
fit in 1024 moduli. -/
theorem C120_integer_fgemv_partial (hE : EnvOk E (gemmBits (xdim ta M N))) (hg : GemmFamOk gs (xdim ta M N)) (hk : xdim ta M N < 2 ^ 46)
    (lA : InArr M N lda A) (lX : InArr (xdim ta M N) 1 incX X) (lY : InArr (ydim ta M N) 1 incY Y) (hinc : 1 ≤ incY)
    (hA : AtMost M N lda A a) (hX : AtMost (xdim ta M N) 1 incX X x)
    (hz : beta = 1 ∨ NonZero M N lda A ∧ NonZero (xdim ta M N) 1 incX X) (hd : ta = .yes → M ≠ 0 ∧ N ≠ 0)
    (hret : ∀ z ≤ 2 * xdim ta M N * a * x * alpha.natAbs, Returns E z (gemmBits (xdim ta M N)))
    (hbd : 2 * xdim ta M N * a * x * alpha.natAbs ≤ 2 ^ (1023 * (gemmBits (xdim ta M N) - 2))) :
    Ok (fgemvZ E gs ta M N alpha A lda X incX beta Y incY) (fun D => D.len = Y.len ∧
      (∀ i < ydim ta M N, D.get (i * incY) = alpha * Spec.mul (xdim ta M N) (Spec.op ta (im A lda)) (im X incX) i 0 + beta * Y.get (i * incY)) ∧
      ∀ z, (∀ i < ydim ta M N, z ≠ i * incY) → D.get z = Y.get z) := by
  by_cases hM : M = 0
  · have hta : ta = .no := by
      cases ta
      · rfl
      · exact absurd hM (hd rfl).1
    subst hta hM
    refine ⟨Y, rfl, rfl, fun i hi => ?_, fun _ _ => rfl⟩
    exact absurd (show i < 0 from hi) (Nat.not_lt_zero i)
  · have hY : ydim ta M N ≠ 0 := by
      cases ta
      · exact hM
      · exact (hd rfl).2
    rw [fgemvZ_eq hM hY]
    refine (C95_integer_fgemm_partial (tb := .no) (n := 1) hE hg hk (by rw [opr_dims, opc_dims]; exact lA) lX lY hinc (by rw [opr_dims, opc_dims]; exact hA) hX
      (by rw [opr_dims, opc_dims]; exact hz) hret hbd).mono ?_
    rintro D ⟨h1, h2, h3⟩
    exact ⟨h1, fun i hi => h2 i hi 0 (by omega), fun z hz' => h3 z (fun i hi j hj => by rw [show j = 0 by omega]; exact hz' i hi)⟩

/-- C120: when `A` is zero (or `x`), `y` is not multiplied by `beta`, even for `beta = 0`. -/
theorem C120_zero_violated (hM : M ≠ 0) (hN : N ≠ 0) (hal : alpha ≠ 0) (lA : InArr M N lda A) (lX : InArr (xdim ta M N) 1 incX X)
    (hz : ¬ NonZero M N lda A ∨ ¬ NonZero (xdim ta M N) 1 incX X) : fgemvZ E gs ta M N alpha A lda X incX beta Y incY = .ok Y := by
  have hY : ydim ta M N ≠ 0 := by cases ta <;> assumption
  have hX : xdim ta M N ≠ 0 := by cases ta <;> assumption
  rw [fgemvZ_eq hM hY]
  exact C95_zero_violated hY one_ne_zero hX hal (by rw [opr_dims, opc_dims]; exact lA) lX (by rw [opr_dims, opc_dims]; exact hz)

/-- C120: the product of the transpose of a matrix without rows by the empty vector is zero, but `y` is not multiplied by `beta`. -/
theorem C120_empty_violated : fgemvZ E gs ta 0 N alpha A lda X incX beta Y incY = .ok Y ∧
    ∀ p, fgemvModZ E gs p ta 0 N alpha A lda X incX beta Y incY = .ok Y := ⟨rfl, fun _ => rfl⟩

/-- C120, modulo `p` (full statement as above): all the results in `[0, p)`, for reduced `A`, `x` and `alpha`. -/
theorem C120_modular_fgemv_partial {p : ℕ} (hp : p ≠ 0) (hE : EnvOk E (gemmBits (xdim ta M N))) (hg : GemmFamOk gs (xdim ta M N))
    (hk : xdim ta M N < 2 ^ 46) (lA : InArr M N lda A) (lX : InArr (xdim ta M N) 1 incX X) (lY : InArr (ydim ta M N) 1 incY Y) (hinc : 1 ≤ incY)
    (hA : ∀ i < M, ∀ j < N, 0 ≤ A.get (i * lda + j) ∧ A.get (i * lda + j) < p)
    (hX : ∀ i < xdim ta M N, ∀ j < 1, 0 ≤ X.get (i * incX + j) ∧ X.get (i * incX + j) < p) (hal : 0 ≤ alpha ∧ alpha < p)
    (hd : ta = .yes → M ≠ 0 ∧ N ≠ 0)
    (hret : ∀ z ≤ 2 * xdim ta M N * p ^ 3, Returns E z (gemmBits (xdim ta M N)))
    (hbd : 2 * xdim ta M N * p ^ 3 ≤ 2 ^ (1023 * (gemmBits (xdim ta M N) - 2))) :
    Ok (fgemvModZ E gs p ta M N alpha A lda X incX beta Y incY) (fun D => D.len = Y.len ∧
      (∀ i < ydim ta M N, 0 ≤ D.get (i * incY) ∧ D.get (i * incY) < p ∧
        D.get (i * incY) ≡ alpha * Spec.mul (xdim ta M N) (Spec.op ta (im A lda)) (im X incX) i 0 + beta * Y.get (i * incY) [ZMOD p]) ∧
      ∀ z, (∀ i < ydim ta M N, z ≠ i * incY) → D.get z = Y.get z) := by
  by_cases hM : M = 0
  · have hta : ta = .no := by
      cases ta
      · rfl
      · exact absurd hM (hd rfl).1
    subst hta hM
    refine ⟨Y, rfl, rfl, fun i hi => ?_, fun _ _ => rfl⟩
    exact absurd (show i < 0 from hi) (Nat.not_lt_zero i)
  · have hY : ydim ta M N ≠ 0 := by
      cases ta
      · exact hM
      · exact (hd rfl).2
    rw [fgemvModZ_eq hM hY]
    refine (C96_modular_fgemm (tb := .no) (n := 1) hp hE hg hk (by rw [opr_dims, opc_dims]; exact lA) lX lY hinc (by rw [opr_dims, opc_dims]; exact hA) hX hal hret
      hbd).mono ?_
    rintro D ⟨h1, h2, h3⟩
    exact ⟨h1, fun i hi => h2 i hi 0 (by omega), fun z hz' => h3 z (fun i hi j hj => by rw [show j = 0 by omega]; exact hz' i hi)⟩

end

/-- `3 [1 2; 3 4]ᵀ [5; -6] - y` for `y = [100; 100]` with stride 2 -/
theorem C120_example : Ok (fgemvZ (mpEnv 16777259) gemmFam .yes 2 2 3 (Arr.ofList [1, 2, 3, 4]) 2 (Arr.ofList [5, -6]) 1 (-1)
    (Arr.ofList [100, 55, 100]) 2) (fun D => D.get 0 = -139 ∧ D.get 1 = 55 ∧ D.get 2 = -142) := by
  refine (C120_integer_fgemv_partial (a := 4) (x := 6) (mpEnv_ok prime25 (by decide) (by decide)) (gemmFam_ok 2) (by norm_num) (by decide) (by decide)
    (by decide) (by decide) (by decide) (by decide) (Or.inr ⟨⟨0, by decide, 0, by decide, by decide⟩, ⟨0, by decide, 0, by decide, by decide⟩⟩)
    (by decide) (fun x hx => mpEnv_ret prime25 (hx.trans (by decide))) (le_pow (by decide) (by decide))).mono ?_
  rintro D ⟨h1, h2, h3⟩
  refine ⟨?_, ?_, ?_⟩
  · rw [show D.get 0 = _ from h2 0 (by decide)]; decide
  · rw [h3 1 (by decide)]; rfl
  · rw [show D.get 2 = _ from h2 1 (by decide)]; decide

/-- modulo 7: `3 [1 2; 3 4] [5; 6] + 2 y` -/
theorem C120_modular_example : Ok (fgemvModZ (mpEnv 16777259) gemmFam 7 .no 2 2 3 (Arr.ofList [1, 2, 3, 4]) 2 (Arr.ofList [5, 6]) 1 2
    (Arr.ofList [1, 1]) 1) (fun D => D.get 0 = 4 ∧ D.get 1 = 0) := by
  refine (C120_modular_fgemv_partial (by decide) (mpEnv_ok prime25 (by decide) (by decide)) (gemmFam_ok 2) (by norm_num) (by decide) (by decide)
    (by decide) (by decide) (by decide) (by decide) (by decide) (by decide) (fun x hx => mpEnv_ret prime25 (hx.trans (by decide)))
    (le_pow (by decide) (by decide))).mono ?_
  rintro D ⟨-, h2, -⟩
  have key : ∀ {x y r : ℤ}, 0 ≤ x ∧ x < (7 : ℕ) ∧ x ≡ y [ZMOD (7 : ℕ)] → y % 7 = r → x = r := by
    rintro x y r ⟨h1, h2, h3⟩ rfl
    rw [← Int.emod_eq_of_lt h1 h2]; exact h3
  exact ⟨key (h2 0 (by decide)) (by decide), key (h2 1 (by decide)) (by decide)⟩

/-- the witnesses: `y = 42` is left for `beta = 0` -/
example : fgemvZ (mpEnv 16777259) gemmFam .no 1 2 1 (Arr.ofList [0, 0]) 2 (Arr.ofList [5, 7]) 1 0 (Arr.ofList [42]) 1 = .ok (Arr.ofList [42]) :=
  C120_zero_violated (by decide) (by decide) (by decide) (by decide) (by decide) (Or.inl (by decide))

example : fgemvZ (mpEnv 16777259) gemmFam .yes 0 1 1 (Arr.ofList []) 1 (Arr.ofList []) 1 0 (Arr.ofList [42]) 1 = .ok (Arr.ofList [42]) :=
  C120_empty_violated.1

end Verif.Props
