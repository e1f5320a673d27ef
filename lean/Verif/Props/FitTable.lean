import Verif.Proofs.FitTable
import Verif.Props.LazyInt

/-!
# C121: the moduli for which the products with `beta = 0` take several blocks without room

`BlocksFit` and `BlocksFit64` are conditions on the modulus and on the length of the dot products.  Here they are discharged for every length and for
every prime except an explicit list, so that the products over the fields of the library are proved for all the other primes.
-/

namespace Verif.Props
open Verif Verif.FP Verif.Bounds Verif.Lazy Verif.FF Verif.Conv Finset

/-- the representatives of `Modular`: `0, …, p-1` -/
def IsModular (F : WordField) : Prop := F.lo = 0

/-- the representatives of `ModularBalanced`: up to `(p-1)/2` -/
def IsBalanced (F : WordField) : Prop := F.lo = (((F.p - 1) / 2 : ℕ) : ℤ) - F.p + 1

lemma bal24 {p : ℕ} (hp : p.Prime) (h2 : p ≠ 2) (hm : (p - 1) / 2 ∈ Fit.ex24) : p = 7 ∨ p = 29 ∨ p = 41 ∨ p = 2273 := by
  have hodd := hp.eq_two_or_odd.resolve_left h2
  have h1 := hp.one_lt
  simp only [Fit.ex24, List.mem_cons, List.not_mem_nil, or_false] at hm
  rcases hm with h | h | h | h | h
  · omega
  · omega
  · omega
  · obtain rfl : p = 55 := by omega
    norm_num at hp
  · omega

lemma mod24 {p : ℕ} (hp : p.Prime) (hm : p - 1 ∈ Fit.ex24) : False := by
  have h1 := hp.one_lt
  simp only [Fit.ex24, List.mem_cons, List.not_mem_nil, or_false] at hm
  rcases hm with h | h | h | h | h
  · obtain rfl : p = 4 := by omega
    norm_num at hp
  · obtain rfl : p = 15 := by omega
    norm_num at hp
  · obtain rfl : p = 21 := by omega
    norm_num at hp
  · obtain rfl : p = 28 := by omega
    norm_num at hp
  · obtain rfl : p = 1137 := by omega
    norm_num at hp

lemma bal53 {p : ℕ} (hp : p.Prime) (h2 : p ≠ 2) (hm : (p - 1) / 2 ∈ Fit.ex53) : p = 757 ∨ p = 1163 ∨ p = 37225301 := by
  have hodd := hp.eq_two_or_odd.resolve_left h2
  have h1 := hp.one_lt
  simp only [Fit.ex53, List.mem_cons, List.not_mem_nil, or_false] at hm
  rcases hm with h | h | h | h | h | h | h | h | h | h | h | h | h | h | h
  · obtain rfl : p = 375 := by omega
    norm_num at hp
  · omega
  · omega
  · obtain rfl : p = 9595 := by omega
    norm_num at hp
  · obtain rfl : p = 39479 := by omega
    norm_num at hp
  · obtain rfl : p = 60755 := by omega
    norm_num at hp
  · obtain rfl : p = 121509 := by omega
    norm_num at hp
  · obtain rfl : p = 200561 := by omega
    norm_num at hp
  · obtain rfl : p = 286069 := by omega
    norm_num at hp
  · obtain rfl : p = 429103 := by omega
    norm_num at hp
  · obtain rfl : p = 858205 := by omega
    norm_num at hp
  · obtain rfl : p = 18349871 := by omega
    norm_num at hp
  · omega
  · obtain rfl : p = 54794159 := by omega
    norm_num at hp
  · obtain rfl : p = 109588317 := by omega
    norm_num at hp

lemma mod53 {p : ℕ} (hp : p.Prime) (hm : p - 1 ∈ Fit.ex53) : p = 379 := by
  have h1 := hp.one_lt
  simp only [Fit.ex53, List.mem_cons, List.not_mem_nil, or_false] at hm
  rcases hm with h | h | h | h | h | h | h | h | h | h | h | h | h | h | h
  · obtain rfl : p = 188 := by omega
    norm_num at hp
  · omega
  · obtain rfl : p = 582 := by omega
    norm_num at hp
  · obtain rfl : p = 4798 := by omega
    norm_num at hp
  · obtain rfl : p = 19740 := by omega
    norm_num at hp
  · obtain rfl : p = 30378 := by omega
    norm_num at hp
  · obtain rfl : p = 60755 := by omega
    norm_num at hp
  · obtain rfl : p = 100281 := by omega
    norm_num at hp
  · obtain rfl : p = 143035 := by omega
    norm_num at hp
  · obtain rfl : p = 214552 := by omega
    norm_num at hp
  · obtain rfl : p = 429103 := by omega
    norm_num at hp
  · obtain rfl : p = 9174936 := by omega
    norm_num at hp
  · obtain rfl : p = 18612651 := by omega
    norm_num at hp
  · obtain rfl : p = 27397080 := by omega
    norm_num at hp
  · obtain rfl : p = 54794159 := by omega
    norm_num at hp

lemma bal63 {p : ℕ} (hp : p.Prime) (h2 : p ≠ 2) (hm : (p - 1) / 2 ∈ Fit.ex63) : p = 377420059 := by
  have hodd := hp.eq_two_or_odd.resolve_left h2
  have h1 := hp.one_lt
  simp only [Fit.ex63, List.mem_cons, List.not_mem_nil, or_false] at hm
  rcases hm with h | h | h
  · omega
  · obtain rfl : p = 39971781 := by omega
    norm_num at hp
  · obtain rfl : p = 20971531 := by omega
    norm_num at hp

lemma mod63 {p : ℕ} (hp : p.Prime) (hm : p - 1 ∈ Fit.ex63) : False := by
  have h1 := hp.one_lt
  simp only [Fit.ex63, List.mem_cons, List.not_mem_nil, or_false] at hm
  rcases hm with h | h | h
  · obtain rfl : p = 188710030 := by omega
    norm_num at hp
  · obtain rfl : p = 19985891 := by omega
    norm_num at hp
  · obtain rfl : p = 10485766 := by omega
    norm_num at hp

lemma magOf_modular {F : WordField} (hF : F.WF) (h : IsModular F) : magOf F = F.p - 1 := by
  have := hF.prime.one_lt
  unfold IsModular at h
  simp only [magOf, WordField.itv, Itv.mag, h]
  omega

lemma magOf_balanced {F : WordField} (hF : F.WF) (h : IsBalanced F) (h2 : F.p ≠ 2) : magOf F = (F.p - 1) / 2 := by
  have := hF.prime.eq_two_or_odd.resolve_left h2
  unfold IsBalanced at h
  simp only [magOf, WordField.itv, Itv.mag, h]
  omega

lemma magOf_balanced_two {F : WordField} (h : IsBalanced F) (h2 : F.p = 2) : magOf F = 1 := by
  unfold IsBalanced at h
  simp only [magOf, WordField.itv, Itv.mag, h, h2]
  rfl

lemma blocks24 {h k : ℕ} (h1 : 1 ≤ h) (h2 : h ≤ 4096) (he : h ∉ Fit.ex24) : BlocksFit 24 h k := Or.inr (Fit.fit24 h1 h2 he)
lemma blocks53 {h k : ℕ} (h1 : 1 ≤ h) (h2 : h * h ≤ 2 ^ 53 - 1) (he : h ∉ Fit.ex53) : BlocksFit 53 h k := Or.inr (Fit.fit53 h1 h2 he)
lemma blocks64 {h k : ℕ} (h1 : 5931642 ≤ h) (h2 : h * h ≤ 2 ^ 63 - 1) (he : h ∉ Fit.ex63) : BlocksFit64 h k := Or.inr (Fit.fit63 h1 h2 he)

lemma half_sq {p : ℕ} (h : p < 189812532) : (p - 1) / 2 * ((p - 1) / 2) ≤ 2 ^ 53 - 1 := by
  have h1 : (p - 1) / 2 ≤ 94906265 := by omega
  have := Nat.mul_le_mul h1 h1
  omega

lemma le_of_sq {h b : ℕ} (hh : h * h < (b + 1) * (b + 1)) : h ≤ b := by
  by_contra hc
  have := Nat.mul_le_mul (show b + 1 ≤ h by omega) (show b + 1 ≤ h by omega)
  omega

/-- The primes for which the condition fails, over the fields of floating-point numbers. -/
def tightPrimes (kd : Kind) (F : WordField) : List ℕ :=
  match kd with
  | .modFloat => []
  | .balFloat => [7, 29, 41, 2273]
  | _ => if F.lo = 0 then [7, 29, 41] else [7, 29, 41, 1163, 37225301]

/-- The field is one of the library: its representatives, and the square of an element is a number of the type. -/
def Standard (kd : Kind) (F : WordField) : Prop :=
  match kd with
  | .modFloat => IsModular F ∧ magOf F * magOf F < 2 ^ 24
  | .balFloat => IsBalanced F ∧ magOf F * magOf F < 2 ^ 24
  | .double => (IsModular F ∨ IsBalanced F) ∧ magOf F * magOf F < 2 ^ 53
  | .int64 => (IsModular F ∨ IsBalanced F) ∧ magOf F * magOf F < 2 ^ 63

section
variable {kd : Kind} {F : WordField} {J : ℕ → ℕ → ℤ} {sizeMax : ℕ} {sched : ℕ → ℕ → ℕ → ℕ → SumTree} {alpha beta : ℤ}

lemma float_fit (hF : F.WF) (hstd : IsModular F ∨ IsBalanced F) (hm : magOf F * magOf F < 2 ^ 24)
    (hp : ¬ IsModular F → F.p ∉ [7, 29, 41, 2273]) (k : ℕ) : BlocksFit 24 (magOf F) k := by
  have h1 := hF.prime.one_lt
  have hle : magOf F ≤ 4095 := le_of_sq (by omega)
  by_cases hmod : IsModular F
  · have e := magOf_modular hF hmod
    refine blocks24 (by omega) (by omega) (fun h => ?_)
    rw [e] at h
    exact mod24 hF.prime h
  · have hb := hstd.resolve_left hmod
    by_cases h2 : F.p = 2
    · rw [magOf_balanced_two hb h2]; exact blocks24 le_rfl (by norm_num) (by decide)
    · have e := magOf_balanced hF hb h2
      have hodd := hF.prime.eq_two_or_odd.resolve_left h2
      refine blocks24 (by omega) (by omega) (fun h => ?_)
      rw [e] at h
      have := bal24 hF.prime h2 h
      have h3 := hp hmod
      simp only [List.mem_cons, List.not_mem_nil, or_false] at h3
      exact h3 this

lemma double_fit (hF : F.WF) (hstd : IsModular F ∨ IsBalanced F) (hm : magOf F * magOf F < 2 ^ 53) (h8 : 800 ≤ F.p ∨ F.p = 2)
    (hp : ¬ IsModular F → F.p ∉ [1163, 37225301]) (k : ℕ) : BlocksFit 53 (magOf F) k := by
  have h1 := hF.prime.one_lt
  by_cases hmod : IsModular F
  · have e := magOf_modular hF hmod
    refine blocks53 (by omega) (by omega) (fun h => ?_)
    rw [e] at h
    have := mod53 hF.prime h
    omega
  · have hb := hstd.resolve_left hmod
    by_cases h2 : F.p = 2
    · rw [magOf_balanced_two hb h2]; exact blocks53 le_rfl (by norm_num) (by decide)
    · have e := magOf_balanced hF hb h2
      refine blocks53 (by omega) (by omega) (fun h => ?_)
      rw [e] at h
      have := bal53 hF.prime h2 h
      have h3 := hp hmod
      simp only [List.mem_cons, List.not_mem_nil, or_false] at h3
      omega

/-- conversion to `ModularBalanced<float>` -/
lemma small_fit (hF : F.WF) (h2 : F.p ≠ 2) (h8 : F.p < 800) (hp : F.p ∉ [7, 29, 41]) (k : ℕ) : BlocksFit 24 ((F.p - 1) / 2) k := by
  have hodd := hF.prime.eq_two_or_odd.resolve_left h2
  have h1 := hF.prime.one_lt
  refine blocks24 (by omega) (by omega) (fun h => ?_)
  have := bal24 hF.prime h2 h
  simp only [List.mem_cons, List.not_mem_nil, or_false] at hp
  omega

lemma gemm_fit (hF : F.WF) (hk : kd ≠ .int64) (hstd : Standard kd F) (hp : F.p ∉ tightPrimes kd F) (k : ℕ) :
    BlocksFit (delGemmBits kd F) (delGemmHalf kd F) k := by
  cases kd with
  | modFloat =>
    simpa [delGemmBits, delGemmHalf] using float_fit hF (Or.inl hstd.1) hstd.2 (fun h => absurd hstd.1 h) k
  | balFloat =>
    by_cases h2 : F.p = 2
    · simpa [delGemmBits, delGemmHalf, h2] using blocks24 (h := 1) (k := k) le_rfl (by norm_num) (by decide)
    · simpa [delGemmBits, delGemmHalf, h2] using float_fit hF (Or.inr hstd.1) hstd.2 (fun _ => hp) k
  | double =>
    by_cases h2 : F.p = 2
    · simpa [delGemmBits, delGemmHalf, h2] using blocks24 (h := 1) (k := k) le_rfl (by norm_num) (by decide)
    by_cases h8 : 800 ≤ F.p
    · have : BlocksFit 53 (magOf F) k := double_fit hF hstd.1 hstd.2 (Or.inl h8) (fun hm hc => hp (by
        have hm' : ¬ F.lo = 0 := hm
        simp only [tightPrimes, if_neg hm']
        simp only [List.mem_cons, List.not_mem_nil, or_false] at hc ⊢
        omega)) k
      simpa [delGemmBits, delGemmHalf, h2, h8] using this
    · have : BlocksFit 24 ((F.p - 1) / 2) k := small_fit hF h2 (by omega) (fun hc => hp (by
        simp only [tightPrimes]
        simp only [List.mem_cons, List.not_mem_nil, or_false] at hc
        split_ifs <;> simp only [List.mem_cons, List.not_mem_nil, or_false] <;> omega)) k
      simpa [delGemmBits, delGemmHalf, h2, h8] using this
  | int64 => exact absurd rfl hk

lemma gemv_fit (hF : F.WF) (hk : kd ≠ .int64) (hstd : Standard kd F) (hp : F.p ∉ tightPrimes kd F) (k : ℕ) :
    BlocksFit (delGemvBits kd F) (delGemvHalf kd F) k := by
  have h1 := hF.prime.one_lt
  cases kd with
  | modFloat =>
    simpa [delGemvBits, delGemvHalf] using float_fit hF (Or.inl hstd.1) hstd.2 (fun h => absurd hstd.1 h) k
  | balFloat =>
    simpa [delGemvBits, delGemvHalf] using float_fit hF (Or.inr hstd.1) hstd.2 (fun _ => hp) k
  | double =>
    by_cases h8 : F.p < 800 ∧ 2 < F.p
    · have : BlocksFit 24 ((F.p - 1) / 2) k := small_fit hF (by omega) h8.1 (fun hc => hp (by
        simp only [tightPrimes]
        simp only [List.mem_cons, List.not_mem_nil, or_false] at hc
        split_ifs <;> simp only [List.mem_cons, List.not_mem_nil, or_false] <;> omega)) k
      simpa [delGemvBits, delGemvHalf, h8] using this
    · have : BlocksFit 53 (magOf F) k := double_fit hF hstd.1 hstd.2 (by omega) (fun hm hc => hp (by
        have hm' : ¬ F.lo = 0 := hm
        simp only [tightPrimes, if_neg hm']
        simp only [List.mem_cons, List.not_mem_nil, or_false] at hc ⊢
        omega)) k
      simp only [delGemvBits, delGemvHalf, reduceCtorEq, false_or, true_and, h8, if_true, if_false, not_false_eq_true]
      exact this
  | int64 => exact absurd rfl hk

lemma standard_fits (hF : F.WF) (hk : kd ≠ .int64) (hstd : Standard kd F) (maxCard : ℕ) : FitsKind kd F maxCard := by
  have h1 := hF.prime.one_lt
  have key : ∀ b : ℕ, IsModular F ∨ IsBalanced F → magOf F * magOf F < (b + 1) * (b + 1) → F.p ≤ 2 * b + 2 := by
    intro b hs hm
    have hle := le_of_sq hm
    rcases hs with h | h
    · have := magOf_modular hF h; omega
    · by_cases h2 : F.p = 2
      · omega
      · have := magOf_balanced hF h h2; omega
  cases kd with
  | modFloat => have := key 4095 (Or.inl hstd.1) (by have := hstd.2; omega); simp only [FitsKind]; omega
  | balFloat => have := key 4095 (Or.inr hstd.1) (by have := hstd.2; omega); simp only [FitsKind]; omega
  | double => have := key 94906265 hstd.1 (by have := hstd.2; omega); simp only [FitsKind]; omega
  | int64 => exact absurd rfl hk

/-- C121, `fgemm` over `Modular` and `ModularBalanced` of `float` and `double`: for every prime modulus of the library except those of `tightPrimes` (none
for `Modular<float>`), every length and every scalar, `C := alpha op(A) op(B) + beta C` modulo `p`, with elements of the field in `C`, nothing else
written and no number rounded.  Missing: the listed primes with `beta = 0` (violated for 7: `C08_violated`). -/
theorem C121_fgemm_primes_partial (hF : F.WF) (hk : kd ≠ .int64) (hstd : Standard kd F) (hp : F.p ∉ tightPrimes kd F)
    (hs : ∀ i j x n, (sched i j x n).Covers n) {ta tb : Tr} {m n k : ℕ} {A : Arr ℤ} {lda : ℕ} {B : Arr ℤ} {ldb : ℕ} {C : Arr ℤ} {ldc : ℕ}
    (hal : Itv.Has F.itv alpha) (hbe : Itv.Has F.itv beta) (hA : WordMat F (opr ta m k) (opc ta m k) lda A)
    (hB : WordMat F (opr tb k n) (opc tb k n) ldb B) (hC : WordMat F m n ldc C) (hld : n ≤ ldc) :
    ∃ D, fgemmDel kd F cardBalanced J sizeMax sched ta tb m n k alpha A lda B ldb beta C ldc = .ok (some D) ∧
      WordRes F m n ldc C (fun i j => alpha * Spec.mul k (Spec.op ta (wmat A lda)) (Spec.op tb (wmat B ldb)) i j + beta * wmat C ldc i j) D :=
  C121_fgemm_partial hF (by norm_num [cardBalanced]) (standard_fits hF hk hstd _) hs hal hbe hA hB hC hld (fun _ => gemm_fit hF hk hstd hp k)

/-- C121, `fgemv`, the same; missing too: `M = 0` for a transposed matrix, when `y` is not scaled. -/
theorem C121_fgemv_primes_partial (hF : F.WF) (hk : kd ≠ .int64) (hstd : Standard kd F) (hp : F.p ∉ tightPrimes kd F)
    (hs : ∀ i j x n, (sched i j x n).Covers n) {ta : Tr} {M N : ℕ} {A : Arr ℤ} {lda : ℕ} {X : Arr ℤ} {incX : ℕ} {Y : Arr ℤ} {incY : ℕ}
    (hal : Itv.Has F.itv alpha) (hbe : Itv.Has F.itv beta) (hA : WordMat F M N lda A)
    (hX : WordMat F (if ta = .no then N else M) 1 incX X) (hY : WordMat F (if ta = .no then M else N) 1 incY Y) (hinc : 1 ≤ incY) (hM : M = 0 → ta = .no) :
    ∃ D, fgemvDel kd F cardBalanced J sizeMax sched ta M N alpha A lda X incX beta Y incY = .ok (some D) ∧
      WordRes F (if ta = .no then M else N) 1 incY Y (fun i j =>
        alpha * Spec.mul (if ta = .no then N else M) (Spec.op ta (wmat A lda)) (wmat X incX) i j + beta * wmat Y incY i j) D :=
  C121_fgemv_partial hF (by norm_num [cardBalanced]) (standard_fits hF hk hstd _) (fun h => absurd h hk) hs hal hbe hA hX hY hinc hM
    (fun _ => gemv_fit hF hk hstd hp _)

lemma large_fit (hF : F.WF) (hstd : Standard .int64 F) (h16 : ¬ 16 * F.p < cardBalanced) (hp : F.p = 377420059 → IsModular F) (k : ℕ) :
    BlocksFit64 (magOf F) k := by
  unfold cardBalanced at h16
  have h2 : F.p ≠ 2 := by omega
  have hodd := hF.prime.eq_two_or_odd.resolve_left h2
  have hsq := hstd.2
  by_cases hmod : IsModular F
  · have e := magOf_modular hF hmod
    refine blocks64 (by omega) (by omega) (fun h => ?_)
    rw [e] at h
    exact mod63 hF.prime h
  · have e := magOf_balanced hF (hstd.1.resolve_left hmod) h2
    refine blocks64 (by omega) (by omega) (fun h => ?_)
    rw [e] at h
    exact hmod (hp (bal63 hF.prime h2 h))

/-- C121, `fgemm` over `Modular<int64_t>` and `ModularBalanced<int64_t>`, for every prime modulus of the library except 7, 29, 41, 1163 and, over
`ModularBalanced`, 377420059; every length and every scalar.  Missing: these primes with `beta = 0` (377420059 is violated: `C121_int64_violated`). -/
theorem C121_int64_fgemm_primes_partial (hF : F.WF) (hstd : Standard .int64 F) (hp : F.p ∉ [7, 29, 41, 1163]) (hp' : F.p = 377420059 → IsModular F)
    (hs : ∀ i j x n, (sched i j x n).Covers n) {ta tb : Tr} {m n k : ℕ} {A : Arr ℤ} {lda : ℕ} {B : Arr ℤ} {ldb : ℕ} {C : Arr ℤ} {ldc : ℕ}
    (hal : Itv.Has F.itv alpha) (hbe : Itv.Has F.itv beta) (hA : WordMat F (opr ta m k) (opc ta m k) lda A)
    (hB : WordMat F (opr tb k n) (opc tb k n) ldb B) (hC : WordMat F m n ldc C) (hld : n ≤ ldc) :
    ∃ D, fgemmI64 F cardBalanced J sizeMax sched ta tb m n k alpha A lda B ldb beta C ldc = .ok D ∧
      WordRes F m n ldc C (fun i j => alpha * Spec.mul k (Spec.op ta (wmat A lda)) (Spec.op tb (wmat B ldb)) i j + beta * wmat C ldc i j) D := by
  have h1 := hF.prime.one_lt
  have hsq := hstd.2
  refine C121_int64_fgemm_partial hF (by norm_num [cardBalanced]) (by omega) hs hal hbe hA hB hC hld (fun _ => ?_)
  simp only [List.mem_cons, List.not_mem_nil, or_false] at hp
  split_ifs with h
  · by_cases h2 : F.p = 2
    · simpa [delGemmBits, delGemmHalf, h2] using blocks24 (h := 1) (k := k) le_rfl (by norm_num) (by decide)
    by_cases h8 : 800 ≤ F.p
    · have hodd := hF.prime.eq_two_or_odd.resolve_left h2
      have h16 := h.resolve_left (by omega)
      unfold cardBalanced at h16
      have : BlocksFit 53 ((F.p - 1) / 2) k := blocks53 (by omega) (half_sq (by omega)) (fun hc => by
        have := bal53 hF.prime h2 hc
        omega)
      simpa [delGemmBits, delGemmHalf, h2, h8] using this
    · have : BlocksFit 24 ((F.p - 1) / 2) k := small_fit hF h2 (by omega) (by
        simp only [List.mem_cons, List.not_mem_nil, or_false]
        omega) k
      simpa [delGemmBits, delGemmHalf, h2, h8] using this
  · exact large_fit hF hstd (by tauto) hp' k

/-- C121, `fgemv` over `Modular<int64_t>` and `ModularBalanced<int64_t>`, for every prime modulus of the library except 7, 29, 41, 1163 and,
over `ModularBalanced`, 377420059; modulo 2 the vectors have less than `2^63` entries (they are in memory).  Missing: these primes with `beta = 0`, and `M = 0`
for a transposed matrix. -/
theorem C121_int64_fgemv_primes_partial (hF : F.WF) (hstd : Standard .int64 F) (hp : F.p ∉ [7, 29, 41, 1163]) (hp' : F.p = 377420059 → IsModular F)
    (hs : ∀ i j x n, (sched i j x n).Covers n) {ta : Tr} {M N : ℕ} {A : Arr ℤ} {lda : ℕ} {X : Arr ℤ} {incX : ℕ} {Y : Arr ℤ} {incY : ℕ}
    (h2 : F.p = 2 → (if ta = .no then N else M) < 2 ^ 63)
    (hal : Itv.Has F.itv alpha) (hbe : Itv.Has F.itv beta) (hA : WordMat F M N lda A)
    (hX : WordMat F (if ta = .no then N else M) 1 incX X) (hY : WordMat F (if ta = .no then M else N) 1 incY Y) (hinc : 1 ≤ incY) (hM : M = 0 → ta = .no) :
    ∃ D, fgemvI64 F cardBalanced J sizeMax sched ta M N alpha A lda X incX beta Y incY = .ok D ∧
      WordRes F (if ta = .no then M else N) 1 incY Y (fun i j =>
        alpha * Spec.mul (if ta = .no then N else M) (Spec.op ta (wmat A lda)) (wmat X incX) i j + beta * wmat Y incY i j) D := by
  have h1 := hF.prime.one_lt
  have hsq := hstd.2
  refine C121_int64_fgemv_partial hF (by norm_num [cardBalanced]) (by omega) hs hal hbe hA hX hY hinc hM (fun _ => ?_)
  generalize (if ta = .no then N else M) = k at *
  simp only [List.mem_cons, List.not_mem_nil, or_false] at hp
  split_ifs with h
  · obtain ⟨h3, h16⟩ := h
    have hodd := hF.prime.eq_two_or_odd.resolve_left (by omega)
    unfold cardBalanced at h16
    unfold bitsOf
    split_ifs with h8
    · exact small_fit hF (by omega) h8 (by simp only [List.mem_cons, List.not_mem_nil, or_false]; omega) k
    · exact blocks53 (by omega) (half_sq (by omega)) (fun hc => by
        have := bal53 hF.prime (by omega) hc
        omega)
  · by_cases h3 : F.p = 2
    · have e : magOf F = 1 := by
        rcases hstd.1 with h | h
        · rw [magOf_modular hF h, h3]
        · exact magOf_balanced_two h h3
      rw [e]
      left
      have := h2 h3
      omega
    · exact large_fit hF hstd (fun hc => h ⟨by omega, hc⟩) hp' k

end

section
variable {F : WordField} {J : ℕ → ℕ → ℤ} {sizeMax : ℕ} {sched : ℕ → ℕ → ℕ → ℕ → SumTree} {alpha beta : ℤ}

lemma word_fit (hF : F.WF) (hsmall : F.p < 800 ∨ 16 * F.p < cardBalanced) (hp : F.p ∉ [7, 29, 41, 1163]) (k : ℕ) : BlocksFit (bitsOf F.p) (halfOf F.p) k := by
  have h1 := hF.prime.one_lt
  simp only [List.mem_cons, List.not_mem_nil, or_false] at hp
  unfold cardBalanced at hsmall
  unfold bitsOf halfOf
  by_cases h2 : F.p = 2
  · simpa [h2] using blocks24 (h := 1) (k := k) le_rfl (by norm_num) (by decide)
  have hodd := hF.prime.eq_two_or_odd.resolve_left h2
  rw [if_neg h2]
  split_ifs with h8
  · exact small_fit hF h2 h8 (by simp only [List.mem_cons, List.not_mem_nil, or_false]; omega) k
  · exact blocks53 (by omega) (half_sq (by omega)) (fun hc => by
      have := bal53 hF.prime h2 hc
      omega)

/-- C119, `fgemm` over the fields of small integers: for every prime below the limit except 7, 29, 41 and 1163, every length and every scalar.  Missing:
these primes with `beta = 0`, and the moduli for which nothing is computed (`C119_large_violated`). -/
theorem C119_fgemm_primes_partial (hF : F.WF) (hsmall : F.p < 800 ∨ 16 * F.p < cardBalanced) (hp : F.p ∉ [7, 29, 41, 1163])
    (hs : ∀ i j x n, (sched i j x n).Covers n) {ta tb : Tr} {m n k : ℕ} {A : Arr ℤ} {lda : ℕ} {B : Arr ℤ} {ldb : ℕ} {C : Arr ℤ} {ldc : ℕ}
    (hal : Itv.Has F.itv alpha) (hbe : Itv.Has F.itv beta) (hA : WordMat F (opr ta m k) (opc ta m k) lda A)
    (hB : WordMat F (opr tb k n) (opc tb k n) ldb B) (hC : WordMat F m n ldc C) (hld : n ≤ ldc) :
    ∃ D, fgemmWord F cardBalanced J sizeMax sched ta tb m n k alpha A lda B ldb beta C ldc = .ok (some D) ∧
      WordRes F m n ldc C (fun i j => alpha * Spec.mul k (Spec.op ta (wmat A lda)) (Spec.op tb (wmat B ldb)) i j + beta * wmat C ldc i j) D :=
  C119_fgemm_partial hF (by norm_num [cardBalanced]) hsmall hs hal hbe hA hB hC hld (fun _ => word_fit hF hsmall hp k)

/-- C119, `fgemv`, the same; missing too: `p = 2` (`C119_two_violated`) and `M = 0` for a transposed matrix. -/
theorem C119_fgemv_primes_partial (hF : F.WF) (h2 : 2 < F.p) (hsmall : F.p < 800 ∨ 16 * F.p < cardBalanced) (hp : F.p ∉ [7, 29, 41, 1163])
    (hs : ∀ i j x n, (sched i j x n).Covers n) {ta : Tr} {M N : ℕ} {A : Arr ℤ} {lda : ℕ} {X : Arr ℤ} {incX : ℕ} {Y : Arr ℤ} {incY : ℕ}
    (hal : Itv.Has F.itv alpha) (hbe : Itv.Has F.itv beta) (hA : WordMat F M N lda A)
    (hX : WordMat F (if ta = .no then N else M) 1 incX X) (hY : WordMat F (if ta = .no then M else N) 1 incY Y) (hinc : 1 ≤ incY) (hM : M = 0 → ta = .no) :
    ∃ D, fgemvWord F cardBalanced J sizeMax sched ta M N alpha A lda X incX beta Y incY = .ok (some D) ∧
      WordRes F (if ta = .no then M else N) 1 incY Y (fun i j =>
        alpha * Spec.mul (if ta = .no then N else M) (Spec.op ta (wmat A lda)) (wmat X incX) i j + beta * wmat Y incY i j) D :=
  C119_fgemv_partial hF (by norm_num [cardBalanced]) h2 hsmall hs hal hbe hA hX hY hinc hM (fun _ => word_fit hF hsmall hp _)

end

/-- The primes for which a block leaves no room for an element: `float` or `double`, with the representatives of `Modular` or of `ModularBalanced`. -/
def lazyTight (F : FpField) : List ℕ :=
  if F.prec = 24 then (if F.lo = 0 then [] else [7, 29, 41, 2273]) else (if F.lo = 0 then [379] else [757, 1163, 37225301])

/-- C08 for the fields of the library: `float` or `double`, for every prime modulus outside `lazyTight` (none is excluded for `Modular<float>`), every
length, every scalar and every order of the BLAS summations.  Missing: the listed primes with `beta = 0` (`C08_violated`). -/
theorem C08_primes_partial (F : FpField) (hF : F.WF) (hprec : F.prec = 24 ∨ F.prec = 53)
    (hlo : F.lo = 0 ∨ F.lo = (((F.p - 1) / 2 : ℕ) : ℤ) - F.p + 1) (hm : F.itv.mag * F.itv.mag < 2 ^ F.prec) (hp : F.p ∉ lazyTight F)
    (sizeMax : ℕ) (sched : ℕ → ℕ → SumTree) (hsched : ∀ i n, (sched i n).Covers n) (k : ℕ) (alpha beta c : ℤ) (a b : ℕ → ℤ)
    (halpha : Itv.Has F.itv alpha) (hbeta : Itv.Has F.itv beta) (hc : Itv.Has F.itv c)
    (ha : ∀ l < k, Itv.Has F.itv (a l)) (hb : ∀ l < k, Itv.Has F.itv (b l)) :
    ∃ r, fgemmDelayed F sizeMax sched k alpha a b beta c = .ok r ∧ Itv.Has F.itv r ∧
      r ≡ alpha * (∑ l ∈ range k, a l * b l) + beta * c [ZMOD F.p] := by
  by_cases h0 : beta = 0
  · subst h0
    refine C08_lazy_fgemm_partial F hF sizeMax sched hsched k alpha 0 c a b halpha hbeta hc ha hb ?_
    set W : WordField := ⟨F.p, F.lo⟩ with hW
    have hWF : W.WF := ⟨hF.prime, hF.lo_nonpos, hF.hi_nonneg⟩
    have emag : F.itv.mag = ((magOf W : ℕ) : ℤ) := (magOf_eq hWF).symm
    have hstd : IsModular W ∨ IsBalanced W := hlo
    have h1 := hF.prime.one_lt
    rw [emag] at hm
    have hfit : BlocksFit F.prec (magOf W) k := by
      rcases hprec with h | h
      · rw [h] at hm ⊢
        refine float_fit hWF hstd (by exact_mod_cast hm) (fun hn => ?_) k
        have hn' : ¬ F.lo = 0 := hn
        simpa [lazyTight, h, hn'] using hp
      · rw [h] at hm ⊢
        have hm' : magOf W * magOf W < 2 ^ 53 := by exact_mod_cast hm
        by_cases hmod : IsModular W
        · have e := magOf_modular hWF hmod
          have hn' : F.lo = 0 := hmod
          refine blocks53 (by simp only [hW] at e ⊢; omega) (by omega) (fun hc => hp ?_)
          rw [e] at hc
          have := mod53 hF.prime hc
          simp [lazyTight, h, hn', this]
        · have hbal := hstd.resolve_left hmod
          have hn' : ¬ F.lo = 0 := hmod
          by_cases h2 : F.p = 2
          · rw [magOf_balanced_two hbal h2]; exact blocks53 le_rfl (by norm_num) (by decide)
          · have hodd := hF.prime.eq_two_or_odd.resolve_left h2
            have e := magOf_balanced hWF hbal h2
            refine blocks53 (by simp only [hW] at e ⊢; omega) (by omega) (fun hc => hp ?_)
            rw [e] at hc
            have := bal53 hF.prime h2 hc
            simpa [lazyTight, h, hn'] using this
    refine safe_of_fit F hF sizeMax emag ?_ hfit
    rw [← emag] at hm ⊢
    have hpos := hF.mag_pos
    nlinarith
  · exact C08_lazy_fgemm_beta_nonzero F hF sizeMax sched hsched k alpha beta c a b halpha hbeta h0 hc ha hb

/-- Non-vacuity: dot products of every length over `ModularBalanced<float>` modulo 101, `C` overwritten. -/
example (sizeMax k : ℕ) (a b : ℕ → ℤ) (ha : ∀ l < k, Itv.Has (⟨101, -50, 24⟩ : FpField).itv (a l))
    (hb : ∀ l < k, Itv.Has (⟨101, -50, 24⟩ : FpField).itv (b l)) :
    ∃ r, fgemmDelayed ⟨101, -50, 24⟩ sizeMax (fun _ => leftToRight) k 5 a b 0 7 = .ok r ∧ Itv.Has (⟨101, -50, 24⟩ : FpField).itv r ∧
      r ≡ 5 * (∑ l ∈ range k, a l * b l) + 0 * 7 [ZMOD 101] :=
  C08_primes_partial ⟨101, -50, 24⟩ ⟨by norm_num, by norm_num, by norm_num, by norm_num⟩ (Or.inl rfl) (Or.inr (by norm_num)) (by decide) (by decide) sizeMax _
    (fun _ => leftToRight_covers) k 5 0 7 a b (by unfold Itv.Has; decide) (by unfold Itv.Has; decide) (by unfold Itv.Has; decide) ha hb

/-- `ModularBalanced<int64_t>` modulo 377420059 -/
def fieldTight : WordField := ⟨377420059, -188710029⟩
lemma prime_tight : Nat.Prime 377420059 := by
  have h : Fit.allP (fun d => Nat.ble 1 (Nat.mod 377420059 d)) 15 2 = true := by decide +kernel
  by_contra hn
  have h1 := Nat.minFac_sq_le_self (n := 377420059) (by norm_num) hn
  have h2 : 2 ≤ Nat.minFac 377420059 := (Nat.minFac_prime (by norm_num)).two_le
  have h3 := Nat.minFac_dvd 377420059
  generalize Nat.minFac 377420059 = d at h1 h2 h3
  have h4 : d ≤ 32767 := le_of_sq (by rw [pow_two] at h1; omega)
  have h5 : 1 ≤ 377420059 % d := Nat.le_of_ble_eq_true (Fit.allP_spec _ _ _ h d h2 (by omega))
  rw [Nat.dvd_iff_mod_eq_zero] at h3
  omega

lemma fieldTight_wf : fieldTight.WF := ⟨prime_tight, by norm_num [fieldTight], by norm_num [fieldTight]⟩

/-- 259 products of the largest elements, then the largest element times 1 -/
def tightB (l : ℕ) : ℤ := if l < 259 then 188710029 else 1

lemma rdVec_eq (k : ℕ) (A : Arr ℤ) (at' : ℕ → ℕ) (h : ∀ l < k, at' l < A.len) :
    rdVec k A at' = .ok (fun l => if l < k then A.get (at' l) else 0) := by
  have key : Ok (rdVec k A at') (fun v => v = fun l => if l < k then A.get (at' l) else 0) := by
    unfold rdVec
    refine Ok_iter (fun t (v : ℕ → ℤ) => v = fun l => if l < t then A.get (at' l) else 0) (by simp) ?_
    intro t v ht hv
    simp only [Ok_bind, Ok_rd, Ok_pure]
    refine ⟨h t ht, ?_⟩
    rw [hv]
    funext l
    by_cases e : l = t
    · subst e; simp
    · rw [Function.update_of_ne e]
      exact if_congr (by omega) rfl rfl
  obtain ⟨v, hv, rfl⟩ := key
  exact hv

lemma fgemmArr64_one {e : ℕ → ℤ → (ℕ → ℤ) → (ℕ → ℤ) → ℤ → ℤ → Except Fault ℤ} {k : ℕ} {alpha : ℤ} {A : Arr ℤ} {lda : ℕ} {B : Arr ℤ} {ldb : ℕ} {beta c : ℤ}
    {a b : ℕ → ℤ} {err : Fault} (r1 : rdVec k A (fun l => adr .no lda 0 l) = .ok a) (r2 : rdVec k B (fun l => adr .no ldb l 0) = .ok b)
    (he : e k alpha a b beta c = .error err) : fgemmArr64 e .no .no 1 1 k alpha A lda B ldb beta (Arr.ofList [c]) 1 = .error err := by
  have e3 : (Arr.ofList [c] : Arr ℤ).rd (0 * 1 + 0) = .ok c := rfl
  simp only [fgemmArr64, iter, bind, Except.bind, pure, Except.pure, e3, r1, r2, he]

lemma fgemmI64_of {F : WordField} {maxCard : ℕ} {J : ℕ → ℕ → ℤ} {sizeMax : ℕ} {sched : ℕ → ℕ → ℕ → ℕ → SumTree} {ta tb : Tr} {m n k : ℕ} {alpha : ℤ}
    {A : Arr ℤ} {lda : ℕ} {B : Arr ℤ} {ldb : ℕ} {beta : ℤ} {C : Arr ℤ} {ldc : ℕ}
    (h : fgemmDel .int64 F maxCard J sizeMax sched ta tb m n k alpha A lda B ldb beta C ldc = .ok none) :
    fgemmI64 F maxCard J sizeMax sched ta tb m n k alpha A lda B ldb beta C ldc =
      fgemmArr64 (fgemmEntry64 F.fp) ta tb m n k alpha A lda B ldb beta C ldc := by
  unfold fgemmI64
  rw [h]
  rfl

/-- The code violates C121 over `ModularBalanced<int64_t>` modulo 377420059: with `beta = 0` and 260 products of elements of the field, the sum of a block
and of the reduced entry exceeds `2^63 - 1` (undefined behaviour in C++). -/
theorem C121_int64_violated (J : ℕ → ℕ → ℤ) (sizeMax : ℕ) (sched : ℕ → ℕ → ℕ → ℕ → SumTree) :
    Standard .int64 fieldTight ∧ (∀ l, Itv.Has fieldTight.itv 188710029 ∧ Itv.Has fieldTight.itv (tightB l)) ∧
    fgemmI64 fieldTight cardBalanced J sizeMax sched .no .no 1 1 260 1 ⟨260, fun _ => 188710029⟩ 260 ⟨260, tightB⟩ 1 0 (Arr.ofList [0]) 1 = .error .inexact ∧
    188710029 + ∑ l ∈ range 259, 188710029 * tightB l > 2 ^ 63 - 1 := by
  refine ⟨⟨Or.inr (by unfold IsBalanced fieldTight; norm_num), by decide +kernel⟩, fun l => ⟨by unfold Itv.Has; decide, ?_⟩, ?_, by decide +kernel⟩
  · unfold Itv.Has tightB; split_ifs <;> decide
  · have e : fgemmDel .int64 fieldTight cardBalanced J sizeMax sched .no .no 1 1 260 1 ⟨260, fun _ => 188710029⟩ 260 ⟨260, tightB⟩ 1 0 (Arr.ofList [0]) 1 =
        .ok none := rfl
    have e2 : fgemmEntry64 fieldTight.fp 260 1 (fun l => if l < 260 then 188710029 else 0) (fun l => if l < 260 then tightB (l * 1 + 0) else 0) 0 0 =
        .error .inexact := by decide +kernel
    have r1 : rdVec 260 ⟨260, fun _ => 188710029⟩ (fun l => adr .no 260 0 l) = .ok (fun l => if l < 260 then 188710029 else 0) :=
      rdVec_eq _ _ _ (fun l hl => by simp only [adr]; omega)
    have r2 : rdVec 260 ⟨260, tightB⟩ (fun l => adr .no 1 l 0) = .ok (fun l => if l < 260 then tightB (l * 1 + 0) else 0) :=
      rdVec_eq _ _ _ (fun l hl => by simp only [adr]; omega)
    exact (fgemmI64_of e).trans (fgemmArr64_one r1 r2 e2)

/-- Non-vacuity: dot products of every length over `Modular<double>` modulo 65521 and over `Modular<int64_t>` modulo `2^31 - 1`, `C` overwritten. -/
example (J : ℕ → ℕ → ℤ) (sizeMax k : ℕ) (a b : ℕ → ℤ) (ha : ∀ l, Itv.Has field65521.itv (a l)) (hb : ∀ l, Itv.Has field65521.itv (b l)) :
    ∃ D, fgemmDel .double field65521 cardBalanced J sizeMax (fun _ _ _ => leftToRight) .no .no 1 1 k 5 ⟨k, a⟩ k ⟨k, b⟩ 1 0 (Arr.ofList [50]) 1 = .ok (some D) ∧
      WordRes field65521 1 1 1 (Arr.ofList [50]) (fun i j => 5 * Spec.mul k (Spec.op .no (wmat ⟨k, a⟩ k)) (Spec.op .no (wmat ⟨k, b⟩ 1)) i j +
        0 * wmat (Arr.ofList [50]) 1 i j) D :=
  C121_fgemm_primes_partial (kd := .double) field65521_wf (by simp) ⟨Or.inl rfl, by decide +kernel⟩ (by decide) (fun _ _ _ => leftToRight_covers)
    (by unfold Itv.Has; decide) (by unfold Itv.Has; decide)
    (fun i hi j hj => ⟨by simp only [opr, opc] at hi hj; obtain rfl : i = 0 := by omega
                          simp only; omega, ha _⟩)
    (fun i hi j hj => ⟨by simp only [opr, opc] at hi hj; simp only; omega, hb _⟩) (by decide) (by norm_num)

example (J : ℕ → ℕ → ℤ) (sizeMax k : ℕ) (hk : k ≠ 0) (a b : ℕ → ℤ) (ha : ∀ l, Itv.Has fieldM31.itv (a l)) (hb : ∀ l, Itv.Has fieldM31.itv (b l)) :
    ∃ D, fgemvI64 fieldM31 cardBalanced J sizeMax (fun _ _ _ => leftToRight) .yes k 1 5 ⟨k, a⟩ 1 ⟨k, b⟩ 1 0 (Arr.ofList [50]) 1 = .ok D ∧
      WordRes fieldM31 1 1 1 (Arr.ofList [50]) (fun i j => 5 * Spec.mul k (Spec.op .yes (wmat ⟨k, a⟩ 1)) (wmat ⟨k, b⟩ 1) i j +
        0 * wmat (Arr.ofList [50]) 1 i j) D :=
  C121_int64_fgemv_primes_partial fieldM31_wf ⟨Or.inl rfl, by decide +kernel⟩ (by decide) (fun _ => rfl) (fun _ _ _ => leftToRight_covers)
    (fun h => absurd h (by decide))
    (by unfold Itv.Has; decide) (by unfold Itv.Has; decide)
    (fun i hi j hj => ⟨by simp only; omega, ha _⟩) (fun i hi j hj => ⟨by simp only [reduceCtorEq, if_false] at hi; simp only; omega, hb _⟩)
    (show WordMat fieldM31 1 1 1 (Arr.ofList [50]) by decide) (by norm_num) (fun h => absurd h hk)

/-- Non-vacuity: the same for `C119` modulo 101 and for `fgemm` over `ModularBalanced<int64_t>` modulo `2^31 - 1`. -/
example (J : ℕ → ℕ → ℤ) (sizeMax k : ℕ) (a b : ℕ → ℤ) (ha : ∀ l, Itv.Has field101.itv (a l)) (hb : ∀ l, Itv.Has field101.itv (b l)) :
    ∃ D, fgemmWord field101 cardBalanced J sizeMax (fun _ _ _ => leftToRight) .no .no 1 1 k 5 ⟨k, a⟩ k ⟨k, b⟩ 1 0 (Arr.ofList [50]) 1 = .ok (some D) ∧
      WordRes field101 1 1 1 (Arr.ofList [50]) (fun i j => 5 * Spec.mul k (Spec.op .no (wmat ⟨k, a⟩ k)) (Spec.op .no (wmat ⟨k, b⟩ 1)) i j +
        0 * wmat (Arr.ofList [50]) 1 i j) D :=
  C119_fgemm_primes_partial field101_wf (Or.inl (by norm_num [field101])) (by decide) (fun _ _ _ => leftToRight_covers)
    (by unfold Itv.Has; decide) (by unfold Itv.Has; decide)
    (fun i hi j hj => ⟨by simp only [opr, opc] at hi hj; obtain rfl : i = 0 := by omega
                          simp only; omega, ha _⟩)
    (fun i hi j hj => ⟨by simp only [opr, opc] at hi hj; simp only; omega, hb _⟩) (by decide) (by norm_num)

/-- `ModularBalanced<int64_t>` modulo `2^31 - 1` -/
def fieldBalM31 : WordField := ⟨2147483647, -1073741823⟩

example (J : ℕ → ℕ → ℤ) (sizeMax k : ℕ) (a b : ℕ → ℤ) (ha : ∀ l, Itv.Has fieldBalM31.itv (a l)) (hb : ∀ l, Itv.Has fieldBalM31.itv (b l)) :
    ∃ D, fgemmI64 fieldBalM31 cardBalanced J sizeMax (fun _ _ _ => leftToRight) .no .no 1 1 k (-5) ⟨k, a⟩ k ⟨k, b⟩ 1 0 (Arr.ofList [50]) 1 = .ok D ∧
      WordRes fieldBalM31 1 1 1 (Arr.ofList [50]) (fun i j => -5 * Spec.mul k (Spec.op .no (wmat ⟨k, a⟩ k)) (Spec.op .no (wmat ⟨k, b⟩ 1)) i j +
        0 * wmat (Arr.ofList [50]) 1 i j) D :=
  C121_int64_fgemm_primes_partial ⟨prime_M31, by norm_num [fieldBalM31], by norm_num [fieldBalM31]⟩ ⟨Or.inr (by unfold IsBalanced fieldBalM31; norm_num), by decide +kernel⟩
    (by decide) (fun h => absurd h (by decide)) (fun _ _ _ => leftToRight_covers) (by unfold Itv.Has; decide) (by unfold Itv.Has; decide)
    (fun i hi j hj => ⟨by simp only [opr, opc] at hi hj; obtain rfl : i = 0 := by omega
                          simp only; omega, ha _⟩)
    (fun i hi j hj => ⟨by simp only [opr, opc] at hi hj; simp only; omega, hb _⟩) (by decide) (by norm_num)

end Verif.Props
