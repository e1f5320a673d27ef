import Verif.Proofs.LazyInt
import Verif.Props.Delayed
import Mathlib.NumberTheory.LucasLehmer

/-!
# C121: products over fields of 64-bit integers, with any modulus
-/

namespace Verif.Props
open Verif Verif.FP Verif.Bounds Verif.Lazy Verif.FF Verif.Conv Finset

/-- With elements up to `h` in absolute value, a dot product of length `k` takes one block of 64-bit integers or there is room for an element on top of
the largest block. -/
def BlocksFit64 (h k : ℕ) : Prop := k * (h * h) ≤ 2 ^ 63 - 1 ∨ h ≤ (2 ^ 63 - 1) % (h * h)

lemma fp_wf {F : WordField} (hF : F.WF) : F.fp.WF := ⟨hF.prime, hF.lo_nonpos, hF.hi_nonneg, by norm_num [WordField.fp]⟩

lemma fp_mag {F : WordField} (hF : F.WF) : F.fp.itv.mag = (magOf F : ℕ) := by rw [magOf_eq hF]; rfl

lemma max64_cast : max64 = ((2 ^ 63 - 1 : ℕ) : ℤ) := by decide

lemma fp_fit {F : WordField} (hF : F.WF) (hm : magOf F * magOf F ≤ 2 ^ 63 - 1) : F.fp.itv.mag * F.fp.itv.mag ≤ max64 := by
  rw [fp_mag hF, max64_cast]
  exact_mod_cast hm

lemma safe64_of_fit {F : WordField} (hF : F.WF) {k : ℕ} (h : BlocksFit64 (magOf F) k) : Safe64 F.fp.itv.mag k := by
  unfold Safe64
  rw [fp_mag hF, max64_cast]
  rcases h with h | h
  · left; exact_mod_cast h
  · right; exact_mod_cast h

section
variable {F : WordField} {maxCard : ℕ} {J : ℕ → ℕ → ℤ} {sizeMax : ℕ} {sched : ℕ → ℕ → ℕ → ℕ → SumTree} {alpha beta : ℤ}

lemma fgemmArr64_res {e : ℕ → ℤ → (ℕ → ℤ) → (ℕ → ℤ) → ℤ → ℤ → Except Fault ℤ} {ta tb : Tr} {m n k : ℕ} {A : Arr ℤ} {lda : ℕ} {B : Arr ℤ} {ldb : ℕ}
    {C : Arr ℤ} {ldc : ℕ} (hA : WordMat F (opr ta m k) (opc ta m k) lda A) (hB : WordMat F (opr tb k n) (opc tb k n) ldb B) (hC : WordMat F m n ldc C)
    (hld : n ≤ ldc)
    (he : ∀ a b : ℕ → ℤ, ∀ c, (∀ l < k, Itv.Has F.fp.itv (a l)) → (∀ l < k, Itv.Has F.fp.itv (b l)) → Itv.Has F.fp.itv c →
      Ok (e k alpha a b beta c) (fun r => Itv.Has F.fp.itv r ∧ r ≡ alpha * (∑ l ∈ range k, a l * b l) + beta * c [ZMOD F.fp.p])) :
    ∃ D, fgemmArr64 e ta tb m n k alpha A lda B ldb beta C ldc = .ok D ∧
      WordRes F m n ldc C (fun i j => alpha * Spec.mul k (Spec.op ta (wmat A lda)) (Spec.op tb (wmat B ldb)) i j + beta * wmat C ldc i j) D := by
  obtain ⟨D, hD, h1, h2, h3⟩ := fgemmArr64_ok F.fp e ta tb m n k alpha A lda B ldb beta C ldc he (fun i hi l hl => (adr_in hA i hi l hl).1)
    (fun l hl j hj => (adr_in hB l hl j hj).1) (fun i hi j hj => (hC i hi j hj).1) hld (fun i hi l hl => (adr_in hA i hi l hl).2)
    (fun l hl j hj => (adr_in hB l hl j hj).2) (fun i hi j hj => (hC i hi j hj).2)
  refine ⟨D, hD, h1, fun i hi j hj => ⟨(h2 i hi j hj).1, ?_⟩, h3⟩
  simp only [Spec.mul, op_wmat]
  exact (h2 i hi j hj).2

/-- C121, `fgemm` over 64-bit integers, for every prime modulus allowed by Givaro (the square of an element is a 64-bit integer).  Missing: the products
with `beta = 0` that take several blocks without room for an element on top of a block (the sum of a block and a reduced entry is then not accounted for,
as in `C08_violated`). -/
theorem C121_int64_fgemm_partial (hF : F.WF) (hmc : maxCard ≤ 2 ^ 31) (hm : magOf F * magOf F ≤ 2 ^ 63 - 1)
    (hs : ∀ i j x n, (sched i j x n).Covers n) {ta tb : Tr} {m n k : ℕ} {A : Arr ℤ} {lda : ℕ} {B : Arr ℤ} {ldb : ℕ} {C : Arr ℤ} {ldc : ℕ}
    (hal : Itv.Has F.itv alpha) (hbe : Itv.Has F.itv beta) (hA : WordMat F (opr ta m k) (opc ta m k) lda A)
    (hB : WordMat F (opr tb k n) (opc tb k n) ldb B) (hC : WordMat F m n ldc C) (hld : n ≤ ldc)
    (hblk : beta = 0 → if F.p < 800 ∨ 16 * F.p < maxCard then BlocksFit (delGemmBits .int64 F) (delGemmHalf .int64 F) k else BlocksFit64 (magOf F) k) :
    ∃ D, fgemmI64 F maxCard J sizeMax sched ta tb m n k alpha A lda B ldb beta C ldc = .ok D ∧
      WordRes F m n ldc C (fun i j => alpha * Spec.mul k (Spec.op ta (wmat A lda)) (Spec.op tb (wmat B ldb)) i j + beta * wmat C ldc i j) D := by
  unfold fgemmI64
  by_cases hr : FitsKind .int64 F maxCard
  · have hr' : F.p < 800 ∨ 16 * F.p < maxCard := hr
    simp only [if_pos hr'] at hblk
    obtain ⟨D, hD, hres⟩ := C121_fgemm_partial (J := J) (sizeMax := sizeMax) hF hmc hr hs hal hbe hA hB hC hld hblk
    exact ⟨D, by rw [hD]; rfl, hres⟩
  · have hr' : ¬ (F.p < 800 ∨ 16 * F.p < maxCard) := hr
    simp only [if_neg hr'] at hblk
    push Not at hr'
    unfold fgemmDel
    split_ifs with c1 c2
    · exact ⟨C, rfl, rfl, fun i hi j hj => by omega, fun _ _ => rfl⟩
    · obtain ⟨D, hD, h1, h2, h3⟩ := fscalinW_ok F hF m n beta C ldc (fun i hi j hj => (hC i hi j hj).1) hld
      refine ⟨D, by rw [hD]; rfl, h1, fun i hi j hj => ⟨(h2 i hi j hj).1, (h2 i hi j hj).2.trans ?_⟩, h3⟩
      rcases c2 with rfl | rfl <;> simp [Spec.mul, wmat]
    · push Not at c2
      have e : gemmField .int64 maxCard F.p = none := by
        unfold gemmField
        rw [if_neg (by simp), if_neg (by omega), if_neg (by simp), if_neg (by omega), if_neg (by rintro ⟨-, h⟩; omega)]
      simp only [e, Kind.native, bind, Except.bind, pure, Except.pure]
      exact fgemmArr64_res hA hB hC hld (fun a b c ha hb hc => fgemmEntry64_ok F.fp (fp_wf hF) (fp_fit hF hm) k (by omega) alpha a b beta c hal c2.2 ha hb hc hbe
        (fun h => safe64_of_fit hF (hblk h)))

/-- C121, `fgemv` over 64-bit integers.  Missing: the same, and `M = 0` for a transposed matrix, when `y` is not scaled (as for `C120_empty_violated`). -/
theorem C121_int64_fgemv_partial (hF : F.WF) (hmc : maxCard ≤ 2 ^ 31) (hm : magOf F * magOf F ≤ 2 ^ 63 - 1)
    (hs : ∀ i j x n, (sched i j x n).Covers n) {ta : Tr} {M N : ℕ} {A : Arr ℤ} {lda : ℕ} {X : Arr ℤ} {incX : ℕ} {Y : Arr ℤ} {incY : ℕ}
    (hal : Itv.Has F.itv alpha) (hbe : Itv.Has F.itv beta) (hA : WordMat F M N lda A)
    (hX : WordMat F (if ta = .no then N else M) 1 incX X) (hY : WordMat F (if ta = .no then M else N) 1 incY Y) (hinc : 1 ≤ incY)
    (hM : M = 0 → ta = .no)
    (hblk : beta = 0 → if 2 < F.p ∧ 16 * F.p < maxCard then BlocksFit (bitsOf F.p) ((F.p - 1) / 2) (if ta = .no then N else M)
      else BlocksFit64 (magOf F) (if ta = .no then N else M)) :
    ∃ D, fgemvI64 F maxCard J sizeMax sched ta M N alpha A lda X incX beta Y incY = .ok D ∧
      WordRes F (if ta = .no then M else N) 1 incY Y (fun i j =>
        alpha * Spec.mul (if ta = .no then N else M) (Spec.op ta (wmat A lda)) (wmat X incX) i j + beta * wmat Y incY i j) D := by
  unfold fgemvI64
  by_cases hr : 2 < F.p ∧ 16 * F.p < maxCard
  · simp only [if_pos hr] at hblk
    obtain ⟨D, hD, hres⟩ := C121_fgemv_partial (kd := .int64) (J := J) (sizeMax := sizeMax) hF hmc (Or.inr hr.2) (fun _ => hr) hs hal hbe hA hX hY hinc hM
      (by
        intro h0
        have h1 := hblk h0
        by_cases h8 : F.p < 800
        · simpa [delGemvBits, delGemvHalf, bitsOf, h8, hr.1] using h1
        · simpa [delGemvBits, delGemvHalf, bitsOf, h8, hr.1] using h1)
    exact ⟨D, by rw [hD]; rfl, hres⟩
  · simp only [if_neg hr] at hblk
    unfold fgemvDel
    have o1 : opr ta (if ta = .no then M else N) (if ta = .no then N else M) = M := by cases ta <;> rfl
    have o2 : opc ta (if ta = .no then M else N) (if ta = .no then N else M) = N := by cases ta <;> rfl
    have hY0 : M = 0 → (if ta = .no then M else N) = 0 := fun h => by rw [if_pos (hM h), h]
    dsimp only
    generalize (if ta = .no then M else N) = Yd at *
    generalize (if ta = .no then N else M) = Xd at *
    split_ifs with c1 c2
    · exact ⟨Y, rfl, rfl, fun i hi j hj => by have := hY0 c1; omega, fun _ _ => rfl⟩
    · obtain ⟨D, hD, h1, h2, h3⟩ := fscalinW_ok F hF Yd 1 beta Y incY (fun i hi j hj => (hY i hi j hj).1) hinc
      refine ⟨D, by rw [hD]; rfl, h1, fun i hi j hj => ⟨(h2 i hi j hj).1, (h2 i hi j hj).2.trans ?_⟩, h3⟩
      rcases c2 with rfl | rfl <;> simp [Spec.mul, wmat]
    · push Not at c2
      have e : gemvField .int64 maxCard F.p = none := by
        unfold gemvField
        rw [if_neg (by simp), if_neg (by rintro ⟨-, h, h'⟩; exact hr ⟨h', h⟩)]
      simp only [e, Kind.native, bind, Except.bind, pure, Except.pure]
      exact fgemmArr64_res (ta := ta) (tb := .no) (by rw [o1, o2]; exact hA) hX hY hinc
        (fun a b c ha hb hc => fgemvEntry64_ok F.fp (fp_wf hF) (fp_fit hF hm) Xd (by omega) alpha a b beta c hal c2.2 ha hb hc hbe
          (fun h => safe64_of_fit hF (hblk h)))

/-- C121, `fger` over 64-bit integers: `A := A + alpha x y^T` modulo every prime allowed by Givaro, with elements of the field in `A`, nothing else written
and no overflow. -/
theorem C121_int64_fger (hF : F.WF) (hmc : maxCard ≤ 189812531) (hm : magOf F * magOf F ≤ 2 ^ 63 - 1)
    {M N : ℕ} {x : Arr ℤ} {incx : ℕ} {y : Arr ℤ} {incy : ℕ} {A : Arr ℤ} {lda : ℕ} (hal : Itv.Has F.itv alpha) (hx : WordMat F M 1 incx x)
    (hy : WordMat F N 1 incy y) (hA : WordMat F M N lda A) (hld : N ≤ lda) :
    ∃ D, fgerI64 F maxCard J M N alpha x incx y incy A lda = .ok D ∧
      WordRes F M N lda A (fun i j => wmat A lda i j + alpha * wmat x incx i 0 * wmat y incy j 0) D := by
  unfold fgerI64
  by_cases hr : 2 < F.p ∧ F.p < maxCard
  · obtain ⟨D, hD, hres⟩ := C121_fger_partial (kd := .int64) (J := J) hF hmc (by simp) (fun _ => hr) (by simp [Kind.native]) hal hx hy hA hld
    exact ⟨D, by rw [hD]; rfl, hres⟩
  · unfold fgerDel
    split_ifs with c0
    · obtain ⟨D, hD, h1, h2, h3⟩ := fscalinW_ok F hF M N 1 A lda (fun i hi j hj => (hA i hi j hj).1) hld
      refine ⟨D, by rw [hD]; rfl, h1, fun i hi j hj => ⟨(h2 i hi j hj).1, (h2 i hi j hj).2.trans ?_⟩, h3⟩
      rw [c0]; simp [wmat]
    · have e : gerField .int64 maxCard F.p = none := by
        unfold gerField
        rw [if_neg (by rintro ⟨-, h, h'⟩; exact hr ⟨h', h⟩)]
      simp only [e, Kind.native, bind, Except.bind, pure, Except.pure]
      obtain ⟨S, hS, s1, s2⟩ := fscal64_ok F hF N alpha y incy (Arr.mk' N (J 0)) rfl (fun j hj => (hy j hj 0 (by omega)).1)
      have hS' : WordMat F 1 N 1 S := fun i hi j hj => by
        obtain rfl : i = 0 := by omega
        refine ⟨by rw [s1]; omega, ?_⟩
        have := (s2 j hj).1
        simpa using this
      obtain ⟨D, hD, h1, h2, h3⟩ := fgemmArr64_res (e := fgemvEntry64 F.fp) (alpha := F.fp.one) (beta := F.fp.one) (ta := .no) (tb := .no) (k := 1) hx hS' hA hld
        (fun a b c ha hb hc => fgemvEntry64_ok F.fp (fp_wf hF) (fp_fit hF hm) 1 le_rfl F.fp.one a b F.fp.one c ((fp_wf hF).red_mem 1)
          (one_ne_zero64 (fp_wf hF)) ha hb hc ((fp_wf hF).red_mem 1) (fun h => absurd h (one_ne_zero64 (fp_wf hF))))
      obtain ⟨E, hE, e1, e2, e3⟩ := fscalinW_ok F hF M N 1 D lda (fun i hi j hj => by rw [h1]; exact (hA i hi j hj).1) hld
      simp only [hS, hD, hE]
      refine ⟨E, rfl, by rw [e1, h1], fun i hi j hj => ⟨(e2 i hi j hj).1, ?_⟩, fun z hz => by rw [e3 z hz, h3 z hz]⟩
      have h5 := (e2 i hi j hj).2
      rw [one_mul] at h5
      refine h5.trans ((h2 i hi j hj).2.trans ?_)
      have h1' : F.fp.one ≡ 1 [ZMOD F.p] := F.fp.red_modEq 1
      have h6 := (s2 j hj).2
      simp only [Spec.mul, Spec.op, wmat, sum_range_one, zero_mul, zero_add, add_zero]
      have h7 := ((h1'.mul ((Int.ModEq.refl (x.get (i * incx))).mul h6)).add (h1'.mul_right (A.get (i * lda + j))))
      refine h7.trans ?_
      rw [one_mul, one_mul, add_comm, mul_comm alpha (x.get _), mul_assoc]

end

/-- `Modular<int64_t>` modulo `2^31 - 1`: too large for `double`. -/
def fieldM31 : WordField := ⟨2147483647, 0⟩
lemma prime_M31 : Nat.Prime 2147483647 := by
  have h : (mersenne 31).Prime := lucas_lehmer_sufficiency _ (by norm_num) (by norm_num)
  have e : mersenne 31 = 2147483647 := by decide +kernel
  rwa [e] at h

lemma fieldM31_wf : fieldM31.WF := ⟨prime_M31, by norm_num [fieldM31], by norm_num [fieldM31]⟩

/-- Non-vacuity: dot products of every length modulo `2^31 - 1`, accumulated on `C`; two terms at a time are delayed. -/
example (J : ℕ → ℕ → ℤ) (sizeMax k : ℕ) (a b : ℕ → ℤ) (ha : ∀ l, Itv.Has fieldM31.itv (a l)) (hb : ∀ l, Itv.Has fieldM31.itv (b l)) :
    ∃ D, fgemmI64 fieldM31 cardBalanced J sizeMax (fun _ _ _ => leftToRight) .no .no 1 1 k 5 ⟨k, a⟩ k ⟨k, b⟩ 1 0 (Arr.ofList [2147483646]) 1 = .ok D ∧
      WordRes fieldM31 1 1 1 (Arr.ofList [2147483646]) (fun i j => 5 * Spec.mul k (Spec.op .no (wmat ⟨k, a⟩ k)) (Spec.op .no (wmat ⟨k, b⟩ 1)) i j +
        0 * wmat (Arr.ofList [2147483646]) 1 i j) D :=
  C121_int64_fgemm_partial fieldM31_wf (by norm_num [cardBalanced]) (by decide +kernel) (fun _ _ _ => leftToRight_covers)
    (by unfold Itv.Has; decide) (by unfold Itv.Has; decide)
    (fun i hi j hj => ⟨by simp only [opr, opc] at hi hj; obtain rfl : i = 0 := by omega
                          simp only; omega, ha _⟩)
    (fun i hi j hj => ⟨by simp only [opr, opc] at hi hj; simp only; omega, hb _⟩) (by decide) (by norm_num)
    (fun _ => by rw [if_neg (by norm_num [fieldM31, cardBalanced])]; exact Or.inr (by decide +kernel))

/-- Non-vacuity: a transposed `2 × 1` matrix and the largest elements. -/
example (J : ℕ → ℕ → ℤ) (sizeMax : ℕ) :
    ∃ D, fgemvI64 fieldM31 cardBalanced J sizeMax (fun _ _ _ => leftToRight) .yes 2 1 2147483646 (Arr.ofList [2147483646, 0, 2147483646]) 2
        (Arr.ofList [2147483646, 3]) 1 7 (Arr.ofList [2147483645]) 1 = .ok D ∧
      WordRes fieldM31 1 1 1 (Arr.ofList [2147483645]) (fun i j => 2147483646 * Spec.mul 2 (Spec.op .yes (wmat (Arr.ofList [2147483646, 0, 2147483646]) 2))
        (wmat (Arr.ofList [2147483646, 3]) 1) i j + 7 * wmat (Arr.ofList [2147483645]) 1 i j) D :=
  C121_int64_fgemv_partial fieldM31_wf (by norm_num [cardBalanced]) (by decide +kernel) (fun _ _ _ => leftToRight_covers)
    (by unfold Itv.Has; decide) (by unfold Itv.Has; decide) (by decide) (by decide) (by decide) (by norm_num) (by norm_num) (by norm_num)

/-- Non-vacuity: an update with a stride. -/
example (J : ℕ → ℕ → ℤ) :
    ∃ D, fgerI64 fieldM31 cardBalanced J 1 2 2147483646 (Arr.ofList [2147483646]) 1 (Arr.ofList [2147483646, 0, 2147483645]) 2
        (Arr.ofList [1, 2147483646]) 2 = .ok D ∧
      WordRes fieldM31 1 2 2 (Arr.ofList [1, 2147483646]) (fun i j => wmat (Arr.ofList [1, 2147483646]) 2 i j +
        2147483646 * wmat (Arr.ofList [2147483646]) 1 i 0 * wmat (Arr.ofList [2147483646, 0, 2147483645]) 2 j 0) D :=
  C121_int64_fger fieldM31_wf (by norm_num [cardBalanced]) (by decide +kernel) (by unfold Itv.Has; decide) (by decide) (by decide) (by decide) (by norm_num)

end Verif.Props
