import Verif.Proofs.Delayed
import Verif.Props.Convert

/-!
# C121: products over fields of floating-point numbers and of 64-bit integers
-/

namespace Verif.Props
open Verif Verif.FP Verif.Bounds Verif.Lazy Verif.FF Verif.Conv Finset

/-- The elements are integers of the floating-point type; 64-bit integers: the modulus is small enough for `double`. -/
def FitsKind (kd : Kind) (F : WordField) (maxCard : ℕ) : Prop :=
  match kd with
  | .modFloat => F.p ≤ 2 ^ 24
  | .balFloat => F.p ≤ 2 ^ 24
  | .double => F.p ≤ 2 ^ 53
  | .int64 => F.p < 800 ∨ 16 * F.p < maxCard

/-- the largest absolute value of an element -/
def magOf (F : WordField) : ℕ := F.itv.mag.toNat

/-- the mantissa and the largest absolute value in the field where `fgemm` computes -/
def delGemmBits (kd : Kind) (F : WordField) : ℕ := if (kd = .double ∨ kd = .int64) ∧ 800 ≤ F.p then 53 else 24
def delGemmHalf (kd : Kind) (F : WordField) : ℕ :=
  if kd = .modFloat then magOf F else if F.p = 2 then 1 else if kd = .balFloat then magOf F else if kd = .double ∧ 800 ≤ F.p then magOf F else (F.p - 1) / 2

/-- the same for `fgemv` -/
def delGemvBits (kd : Kind) (F : WordField) : ℕ := if (kd = .int64 ∨ kd = .double) ∧ ¬ (F.p < 800 ∧ 2 < F.p) then 53 else 24
def delGemvHalf (kd : Kind) (F : WordField) : ℕ := if kd = .int64 ∨ kd = .double ∧ F.p < 800 ∧ 2 < F.p then (F.p - 1) / 2 else magOf F

/-- what is needed of the field of the computation -/
structure CompField (F : WordField) (bits half : ℕ) (G : FpField) : Prop where
  wf : G.WF
  p : G.p = F.p
  fit : (F.p : ℤ) ≤ 2 ^ G.prec
  bits : G.prec = bits
  mag : G.itv.mag = half

lemma magOf_eq {F : WordField} (hF : F.WF) : ((magOf F : ℕ) : ℤ) = F.itv.mag := by
  unfold magOf
  refine Int.toNat_of_nonneg ?_
  have := hF.hi_nonneg
  simp only [WordField.itv, Itv.mag]
  omega

lemma native_computes {F : WordField} (hF : F.WF) {b : ℕ} (h : F.p ≤ 2 ^ b) (hb : 1 ≤ b) : CompField F b (magOf F) ⟨F.p, F.lo, b⟩ :=
  ⟨⟨hF.prime, hF.lo_nonpos, hF.hi_nonneg, hb⟩, rfl, by exact_mod_cast h, rfl, by rw [magOf_eq hF]; rfl⟩

lemma balanced_computes {F : WordField} (hF : F.WF) {b : ℕ} (h2 : F.p ≠ 2) (h : F.p ≤ 2 ^ b) (hb : 1 ≤ b) :
    CompField F b ((F.p - 1) / 2) (balanced F.p b) :=
  ⟨balanced_wf hF.prime hb, rfl, by simp only [balanced]; exact_mod_cast h, rfl, balanced_mag hF.prime h2⟩

lemma gemmField_spec {kd : Kind} {F : WordField} {maxCard : ℕ} (hF : F.WF) (hmc : maxCard ≤ 2 ^ 31) (hr : FitsKind kd F maxCard) :
    (∃ G, gemmField kd maxCard F.p = some G ∧ CompField F (delGemmBits kd F) (delGemmHalf kd F) G) ∨
    (gemmField kd maxCard F.p = none ∧ ∃ G, kd.native F = some G ∧ G.itv = F.itv ∧ CompField F (delGemmBits kd F) (delGemmHalf kd F) G) := by
  have two : F.p = 2 → CompField F 24 1 ⟨2, 0, 24⟩ := fun h =>
    ⟨⟨by norm_num, by norm_num, by norm_num, by norm_num⟩, h.symm, by rw [h]; norm_num, rfl, by simp [FpField.itv, Itv.mag]⟩
  unfold gemmField delGemmBits delGemmHalf
  cases kd <;> simp only [FitsKind] at hr
  · right
    exact ⟨by simp, _, rfl, rfl, by simpa using native_computes hF hr (by norm_num)⟩
  · by_cases h2 : F.p = 2
    · left; exact ⟨⟨2, 0, 24⟩, by simp [h2], by simpa [h2] using two h2⟩
    · right
      exact ⟨by simp [h2], _, rfl, rfl, by simpa [h2] using native_computes hF hr (by norm_num)⟩
  · by_cases h2 : F.p = 2
    · left; exact ⟨⟨2, 0, 24⟩, by simp [h2], by simpa [h2] using two h2⟩
    by_cases h8 : F.p < 800
    · left
      exact ⟨balanced F.p 24, by simp [h2, h8], by simpa [h2, not_le.2 h8] using balanced_computes hF h2 (show F.p ≤ 2 ^ 24 by norm_num; omega) (by norm_num)⟩
    · right
      exact ⟨by simp [h2, h8], _, rfl, rfl, by simpa [h2, not_lt.1 h8] using native_computes hF hr (by norm_num)⟩
  · left
    by_cases h2 : F.p = 2
    · exact ⟨⟨2, 0, 24⟩, by simp [h2], by simpa [h2] using two h2⟩
    by_cases h8 : F.p < 800
    · exact ⟨balanced F.p 24, by simp [h2, h8], by simpa [h2, not_le.2 h8] using balanced_computes hF h2 (show F.p ≤ 2 ^ 24 by norm_num; omega) (by norm_num)⟩
    · have h16 := hr.resolve_left h8
      exact ⟨balanced F.p 53, by simp [h2, h8, h16], by simpa [h2, not_lt.1 h8] using balanced_computes hF h2 (show F.p ≤ 2 ^ 53 by norm_num; omega) (by norm_num)⟩

lemma gemvField_spec {kd : Kind} {F : WordField} {maxCard : ℕ} (hF : F.WF) (hmc : maxCard ≤ 2 ^ 31) (hr : FitsKind kd F maxCard)
    (h64 : kd = .int64 → 2 < F.p ∧ 16 * F.p < maxCard) :
    (∃ G, gemvField kd maxCard F.p = some G ∧ CompField F (delGemvBits kd F) (delGemvHalf kd F) G) ∨
    (gemvField kd maxCard F.p = none ∧ ∃ G, kd.native F = some G ∧ G.itv = F.itv ∧ CompField F (delGemvBits kd F) (delGemvHalf kd F) G) := by
  unfold gemvField delGemvBits delGemvHalf
  cases kd <;> simp only [FitsKind] at hr
  · right
    exact ⟨by simp, _, rfl, rfl, by simpa using native_computes hF hr (by norm_num)⟩
  · right
    exact ⟨by simp, _, rfl, rfl, by simpa using native_computes hF hr (by norm_num)⟩
  · by_cases h8 : F.p < 800 ∧ 2 < F.p
    · left
      exact ⟨balanced F.p 24, by simp [h8], by simpa [h8] using balanced_computes hF (by omega) (show F.p ≤ 2 ^ 24 by norm_num; omega) (by norm_num)⟩
    · right
      refine ⟨by simp [h8], _, rfl, rfl, ?_⟩
      have e : (¬ (F.p < 800 ∧ 2 < F.p)) = True := eq_true h8
      simp only [reduceCtorEq, false_or, true_and, h8, e, if_true, if_false, not_false_eq_true]
      exact native_computes hF hr (by norm_num)
  · left
    obtain ⟨h2, h16⟩ := h64 rfl
    by_cases h8 : F.p < 800
    · exact ⟨balanced F.p 24, by simp [h2, h16, h8], by simpa [h2, h8] using balanced_computes hF (by omega) (show F.p ≤ 2 ^ 24 by norm_num; omega) (by norm_num)⟩
    · exact ⟨balanced F.p 53, by simp [h2, h16, h8], by simpa [h2, h8] using balanced_computes hF (by omega) (show F.p ≤ 2 ^ 53 by norm_num; omega) (by norm_num)⟩

lemma gerField_spec {kd : Kind} {F : WordField} {maxCard : ℕ} (hF : F.WF) (hmc : maxCard ≤ 189812531) (hr : kd ≠ .int64 → FitsKind kd F maxCard)
    (h64 : kd = .int64 → 2 < F.p ∧ F.p < maxCard) (hm : ∀ b, kd.native F = some ⟨F.p, F.lo, b⟩ → magOf F * magOf F + magOf F ≤ 2 ^ b) :
    (∃ G, gerField kd maxCard F.p = some G ∧ G.WF ∧ G.p = F.p ∧ (F.p : ℤ) ≤ 2 ^ G.prec ∧ G.itv.mag * G.itv.mag + G.itv.mag ≤ 2 ^ G.prec) ∨
    (gerField kd maxCard F.p = none ∧ ∃ G, kd.native F = some G ∧ G.itv = F.itv ∧ G.WF ∧ G.p = F.p ∧
      G.itv.mag * G.itv.mag + G.itv.mag ≤ 2 ^ G.prec) := by
  have nat : ∀ b, 1 ≤ b → F.p ≤ 2 ^ b → kd.native F = some ⟨F.p, F.lo, b⟩ → gerField kd maxCard F.p = none →
      (gerField kd maxCard F.p = none ∧ ∃ G, kd.native F = some G ∧ G.itv = F.itv ∧ G.WF ∧ G.p = F.p ∧
      G.itv.mag * G.itv.mag + G.itv.mag ≤ 2 ^ G.prec) := by
    intro b hb hp hn hg
    have hc := native_computes hF hp hb
    refine ⟨hg, _, hn, rfl, hc.wf, rfl, ?_⟩
    rw [hc.mag]
    exact_mod_cast hm b hn
  cases kd
  · right; exact nat 24 (by norm_num) (hr (by simp)) rfl (by simp [gerField])
  · right; exact nat 24 (by norm_num) (hr (by simp)) rfl (by simp [gerField])
  · right; exact nat 53 (by norm_num) (hr (by simp)) rfl (by simp [gerField])
  · left
    obtain ⟨h2, hc⟩ := h64 rfl
    have := balanced_computes hF (b := 53) (by omega) (show F.p ≤ 2 ^ 53 by norm_num; omega) (by norm_num)
    refine ⟨_, by simp [gerField, hc, h2], this.wf, rfl, this.fit, ?_⟩
    rw [this.mag, this.bits]
    have : (F.p - 1) / 2 ≤ 94906264 := by omega
    generalize (F.p - 1) / 2 = h at this
    have h3 : h * h ≤ 94906264 * 94906264 := Nat.mul_le_mul this this
    norm_num at h3
    exact_mod_cast (show h * h + h ≤ 2 ^ 53 by norm_num; omega)

lemma adr_in {F : WordField} {t : Tr} {a b ld : ℕ} {A : Arr ℤ} (h : WordMat F (opr t a b) (opc t a b) ld A) :
    ∀ i < a, ∀ l < b, adr t ld i l < A.len ∧ Itv.Has F.itv (A.get (adr t ld i l)) := by
  intro i hi l hl
  cases t
  · exact h i hi l hl
  · exact h l hl i hi

section
variable {kd : Kind} {F : WordField} {maxCard : ℕ} {J : ℕ → ℕ → ℤ} {sizeMax : ℕ} {sched : ℕ → ℕ → ℕ → ℕ → SumTree} {alpha beta : ℤ}

lemma fgemmNative_res (hF : F.WF) {G : FpField} {b h : ℕ} (hc : CompField F b h G) (hi : G.itv = F.itv)
    (hs : ∀ i j x n, (sched i j x n).Covers n) {ta tb : Tr} {m n k : ℕ} {A : Arr ℤ} {lda : ℕ} {B : Arr ℤ} {ldb : ℕ} {C : Arr ℤ} {ldc : ℕ}
    (hal : Itv.Has F.itv alpha) (hbe : Itv.Has F.itv beta) (hA : WordMat F (opr ta m k) (opc ta m k) lda A)
    (hB : WordMat F (opr tb k n) (opc tb k n) ldb B) (hC : WordMat F m n ldc C) (hld : n ≤ ldc) (hblk : beta = 0 → BlocksFit b h k) :
    ∃ D, fgemmG G sizeMax sched ta tb m n k alpha A lda B ldb beta C ldc = .ok D ∧
      WordRes F m n ldc C (fun i j => alpha * Spec.mul k (Spec.op ta (wmat A lda)) (Spec.op tb (wmat B ldb)) i j + beta * wmat C ldc i j) D := by
  obtain ⟨D, hD, h1, h2, h3⟩ := fgemmG_res G hc.wf sizeMax sched hs ta tb m n k alpha A lda B ldb beta C ldc (by rw [hi]; exact hal) (by rw [hi]; exact hbe)
    (fun i hi l hl => (adr_in hA i hi l hl).1) (fun l hl j hj => (adr_in hB l hl j hj).1) (fun i hi j hj => (hC i hi j hj).1) hld
    (fun i hi' l hl => by rw [hi]; exact (adr_in hA i hi' l hl).2) (fun l hl j hj => by rw [hi]; exact (adr_in hB l hl j hj).2)
    (Or.inr (fun i hi' j hj => by rw [hi]; exact (hC i hi' j hj).2))
    (fun h0 => safe_of_fit G hc.wf sizeMax hc.mag (halfOf_le hc.p hc.fit hc.wf hc.mag) (by rw [hc.bits]; exact hblk h0) rfl)
  rw [hi, hc.p] at h2
  refine ⟨D, hD, h1, fun i hi j hj => ⟨(h2 i hi j hj).1, ?_⟩, h3⟩
  simp only [Spec.mul, op_wmat]
  exact (h2 i hi j hj).2

/-- C121, `fgemm` (full statement: for every prime `p`, `C := alpha op(A) op(B) + beta C` modulo `p`, with elements of the field in `C`, nothing else
written and no number rounded).  Missing: 64-bit integers with a modulus from `maxCard / 16` on (not modelled), and the products with `beta = 0` that
take several blocks without room for an element on top of a block (violated: `C08_violated`). -/
theorem C121_fgemm_partial (hF : F.WF) (hmc : maxCard ≤ 2 ^ 31) (hr : FitsKind kd F maxCard)
    (hs : ∀ i j x n, (sched i j x n).Covers n) {ta tb : Tr} {m n k : ℕ} {A : Arr ℤ} {lda : ℕ} {B : Arr ℤ} {ldb : ℕ} {C : Arr ℤ} {ldc : ℕ}
    (hal : Itv.Has F.itv alpha) (hbe : Itv.Has F.itv beta) (hA : WordMat F (opr ta m k) (opc ta m k) lda A)
    (hB : WordMat F (opr tb k n) (opc tb k n) ldb B) (hC : WordMat F m n ldc C) (hld : n ≤ ldc)
    (hblk : beta = 0 → BlocksFit (delGemmBits kd F) (delGemmHalf kd F) k) :
    ∃ D, fgemmDel kd F maxCard J sizeMax sched ta tb m n k alpha A lda B ldb beta C ldc = .ok (some D) ∧
      WordRes F m n ldc C (fun i j => alpha * Spec.mul k (Spec.op ta (wmat A lda)) (Spec.op tb (wmat B ldb)) i j + beta * wmat C ldc i j) D := by
  unfold fgemmDel
  split_ifs with c1 c2
  · exact ⟨C, rfl, rfl, fun i hi j hj => by omega, fun _ _ => rfl⟩
  · obtain ⟨D, hD, h1, h2, h3⟩ := fscalinW_ok F hF m n beta C ldc (fun i hi j hj => (hC i hi j hj).1) hld
    refine ⟨D, by rw [hD]; rfl, h1, fun i hi j hj => ⟨(h2 i hi j hj).1, (h2 i hi j hj).2.trans ?_⟩, h3⟩
    rcases c2 with rfl | rfl <;> simp [Spec.mul, wmat]
  · rcases gemmField_spec hF hmc hr with ⟨G, e, hc⟩ | ⟨e, G, e', hi, hc⟩
    · obtain ⟨D, hD, h1, h2, h3⟩ := fgemmConvert_ok F hF G hc.wf hc.p hc.fit J sizeMax sched hs ta tb m n k alpha A lda B ldb beta C ldc hal hbe
        (fun i hi j hj => (hA i hi j hj).1) (fun i hi j hj => (hB i hi j hj).1) (fun i hi j hj => (hC i hi j hj).1) hld
        (fun i hi j hj => (hA i hi j hj).2) (fun i hi j hj => (hB i hi j hj).2) (fun i hi j hj => (hC i hi j hj).2)
        (fun h0 => safe_of_fit G hc.wf sizeMax hc.mag (halfOf_le hc.p hc.fit hc.wf hc.mag) (by rw [hc.bits]; exact hblk h0))
      refine ⟨D, by simp only [e, hD]; rfl, h1, fun i hi j hj => ⟨(h2 i hi j hj).1, ?_⟩, h3⟩
      simp only [Spec.mul, op_wmat]
      exact (h2 i hi j hj).2
    · obtain ⟨D, hD, hres⟩ := fgemmNative_res (sizeMax := sizeMax) hF hc hi hs hal hbe hA hB hC hld hblk
      exact ⟨D, by simp only [e, e', hD]; rfl, hres⟩

/-- C121, `fgemv` (full statement as for `fgemm`).  Missing: the same, 64-bit integers modulo 2 (not modelled), and `M = 0` for a transposed matrix, when
`y` is not scaled (violated, as for `C120_empty_violated`). -/
theorem C121_fgemv_partial (hF : F.WF) (hmc : maxCard ≤ 2 ^ 31) (hr : FitsKind kd F maxCard) (h64 : kd = .int64 → 2 < F.p ∧ 16 * F.p < maxCard)
    (hs : ∀ i j x n, (sched i j x n).Covers n) {ta : Tr} {M N : ℕ} {A : Arr ℤ} {lda : ℕ} {X : Arr ℤ} {incX : ℕ} {Y : Arr ℤ} {incY : ℕ}
    (hal : Itv.Has F.itv alpha) (hbe : Itv.Has F.itv beta) (hA : WordMat F M N lda A)
    (hX : WordMat F (if ta = .no then N else M) 1 incX X) (hY : WordMat F (if ta = .no then M else N) 1 incY Y) (hinc : 1 ≤ incY)
    (hM : M = 0 → ta = .no) (hblk : beta = 0 → BlocksFit (delGemvBits kd F) (delGemvHalf kd F) (if ta = .no then N else M)) :
    ∃ D, fgemvDel kd F maxCard J sizeMax sched ta M N alpha A lda X incX beta Y incY = .ok (some D) ∧
      WordRes F (if ta = .no then M else N) 1 incY Y (fun i j =>
        alpha * Spec.mul (if ta = .no then N else M) (Spec.op ta (wmat A lda)) (wmat X incX) i j + beta * wmat Y incY i j) D := by
  unfold fgemvDel
  have o1 : opr ta (if ta = .no then M else N) (if ta = .no then N else M) = M := by cases ta <;> rfl
  have o2 : opc ta (if ta = .no then M else N) (if ta = .no then N else M) = N := by cases ta <;> rfl
  have hY0 : M = 0 → (if ta = .no then M else N) = 0 := fun h => by rw [if_pos (hM h), h]
  simp only [fgemvConvert_eq]
  generalize (if ta = .no then M else N) = Yd at *
  generalize (if ta = .no then N else M) = Xd at *
  split_ifs with c1 c2
  · exact ⟨Y, rfl, rfl, fun i hi j hj => by have := hY0 c1; omega, fun _ _ => rfl⟩
  · obtain ⟨D, hD, h1, h2, h3⟩ := fscalinW_ok F hF Yd 1 beta Y incY (fun i hi j hj => (hY i hi j hj).1) hinc
    refine ⟨D, by rw [hD]; rfl, h1, fun i hi j hj => ⟨(h2 i hi j hj).1, (h2 i hi j hj).2.trans ?_⟩, h3⟩
    rcases c2 with rfl | rfl <;> simp [Spec.mul, wmat]
  · rcases gemvField_spec hF hmc hr h64 with ⟨G, e, hc⟩ | ⟨e, G, e', hi, hc⟩
    · obtain ⟨D, hD, h1, h2, h3⟩ := fgemmConvert_ok F hF G hc.wf hc.p hc.fit J sizeMax sched hs ta .no Yd 1 Xd alpha A lda X incX beta Y incY hal hbe
        (fun i hi j hj => (hA i (by omega) j (by omega)).1) (fun i hi j hj => (hX i hi j hj).1) (fun i hi j hj => (hY i hi j hj).1) hinc
        (fun i hi j hj => (hA i (by omega) j (by omega)).2) (fun i hi j hj => (hX i hi j hj).2) (fun i hi j hj => (hY i hi j hj).2)
        (fun h0 => safe_of_fit G hc.wf sizeMax hc.mag (halfOf_le hc.p hc.fit hc.wf hc.mag) (by rw [hc.bits]; exact hblk h0))
      refine ⟨D, by simp only [e, hD]; rfl, h1, fun i hi j hj => ⟨(h2 i hi j hj).1, ?_⟩, h3⟩
      simp only [Spec.mul, op_wmat]
      exact (h2 i hi j hj).2
    · obtain ⟨D, hD, hres⟩ := fgemmNative_res (sizeMax := sizeMax) (ta := ta) (tb := .no) (m := Yd) (n := 1) (k := Xd) hF hc hi hs hal hbe
        (by rw [o1, o2]; exact hA) hX hY hinc hblk
      exact ⟨D, by simp only [e, e', hD]; rfl, hres⟩

/-- C121, `fger`: `A := A + alpha x y^T` modulo `p`, with elements of the field in `A`, nothing else written and no number rounded; the moduli are those
allowed by Givaro (an element times an element plus an element is a number of the type).  Missing: 64-bit integers modulo 2 or with a modulus from
`maxCard` on (not modelled). -/
theorem C121_fger_partial (hF : F.WF) (hmc : maxCard ≤ 189812531) (hr : kd ≠ .int64 → FitsKind kd F maxCard)
    (h64 : kd = .int64 → 2 < F.p ∧ F.p < maxCard) (hm : ∀ b, kd.native F = some ⟨F.p, F.lo, b⟩ → magOf F * magOf F + magOf F ≤ 2 ^ b)
    {M N : ℕ} {x : Arr ℤ} {incx : ℕ} {y : Arr ℤ} {incy : ℕ} {A : Arr ℤ} {lda : ℕ} (hal : Itv.Has F.itv alpha) (hx : WordMat F M 1 incx x)
    (hy : WordMat F N 1 incy y) (hA : WordMat F M N lda A) (hld : N ≤ lda) :
    ∃ D, fgerDel kd F maxCard J M N alpha x incx y incy A lda = .ok (some D) ∧
      WordRes F M N lda A (fun i j => wmat A lda i j + alpha * wmat x incx i 0 * wmat y incy j 0) D := by
  unfold fgerDel
  split_ifs with c0
  · obtain ⟨D, hD, h1, h2, h3⟩ := fscalinW_ok F hF M N 1 A lda (fun i hi j hj => (hA i hi j hj).1) hld
    refine ⟨D, by rw [hD]; rfl, h1, fun i hi j hj => ⟨(h2 i hi j hj).1, (h2 i hi j hj).2.trans ?_⟩, h3⟩
    rw [c0]; simp [wmat]
  · rcases gerField_spec hF hmc hr h64 hm with ⟨G, e, hG, hp, hfit, hm⟩ | ⟨e, G, e', hi, hG, hp, hm⟩
    · obtain ⟨D, hD, h1, h2, h3⟩ := fgerConvert_ok F hF G hG hp hfit hm J M N alpha x incx y incy A lda hal
        (fun i hi => (hx i hi 0 (by omega)).1) (fun i hi => (hy i hi 0 (by omega)).1) (fun i hi j hj => (hA i hi j hj).1) hld
        (fun i hi => (hx i hi 0 (by omega)).2) (fun i hi => (hy i hi 0 (by omega)).2) (fun i hi j hj => (hA i hi j hj).2)
      obtain ⟨E, hE, e1, e2, e3⟩ := fscalinW_ok F hF M N 1 D lda (fun i hi j hj => by rw [h1]; exact (hA i hi j hj).1) hld
      refine ⟨E, by simp only [e, hD, bind, Except.bind, hE]; rfl, by rw [e1, h1], fun i hi j hj => ⟨(e2 i hi j hj).1, ?_⟩,
        fun z hz => by rw [e3 z hz, h3 z hz]⟩
      have := (e2 i hi j hj).2
      rw [one_mul] at this
      exact this.trans (h2 i hi j hj).2
    · obtain ⟨D, hD, h1, h2, h3⟩ := fgerStrided_ok G hG hm M N alpha x incx y incy A lda
        (fun i hi => (hx i hi 0 (by omega)).1) (fun i hi => (hy i hi 0 (by omega)).1) (fun i hi j hj => (hA i hi j hj).1) hld
        (fun i hi' => by rw [hi]; exact (hx i hi' 0 (by omega)).2) (fun i hi' => by rw [hi]; exact (hy i hi' 0 (by omega)).2)
        (fun i hi' j hj => by rw [hi]; exact (hA i hi' j hj).2)
      rw [hi, hp] at h2
      exact ⟨D, by simp only [e, e', hD]; rfl, h1, h2, h3⟩

end

/-- `Modular<double>` modulo 65521. -/
def field65521 : WordField := ⟨65521, 0⟩
lemma field65521_wf : field65521.WF := ⟨by norm_num [field65521], by norm_num [field65521], by norm_num [field65521]⟩

/-- Non-vacuity: `Modular<double>` modulo 101 converts to `float`; dot products of every length. -/
example (J : ℕ → ℕ → ℤ) (sizeMax k : ℕ) (a b : ℕ → ℤ) (ha : ∀ l, Itv.Has field101.itv (a l)) (hb : ∀ l, Itv.Has field101.itv (b l)) :
    ∃ D, fgemmDel .double field101 cardBalanced J sizeMax (fun _ _ _ => leftToRight) .no .no 1 1 k 5 ⟨k, a⟩ k ⟨k, b⟩ 1 0 (Arr.ofList [50]) 1 = .ok (some D) ∧
      WordRes field101 1 1 1 (Arr.ofList [50]) (fun i j => 5 * Spec.mul k (Spec.op .no (wmat ⟨k, a⟩ k)) (Spec.op .no (wmat ⟨k, b⟩ 1)) i j +
        0 * wmat (Arr.ofList [50]) 1 i j) D :=
  C121_fgemm_partial field101_wf (by norm_num [cardBalanced]) (by norm_num [FitsKind, field101]) (fun _ _ _ => leftToRight_covers)
    (by unfold Itv.Has; decide) (by unfold Itv.Has; decide)
    (fun i hi j hj => ⟨by simp only [opr, opc] at hi hj; obtain rfl : i = 0 := by omega
                          simp only; omega, ha _⟩)
    (fun i hi j hj => ⟨by simp only [opr, opc] at hi hj; simp only; omega, hb _⟩) (by decide) (by norm_num)
    (fun _ => Or.inr (by decide +kernel))

/-- Non-vacuity: a transposed `2 × 1` matrix modulo 65521, in `double`. -/
example (J : ℕ → ℕ → ℤ) (sizeMax : ℕ) :
    ∃ D, fgemvDel .double field65521 cardBalanced J sizeMax (fun _ _ _ => leftToRight) .yes 2 1 65520 (Arr.ofList [65520, 0, 65519]) 2 (Arr.ofList [65518, 3]) 1
        7 (Arr.ofList [65510]) 1 = .ok (some D) ∧
      WordRes field65521 1 1 1 (Arr.ofList [65510]) (fun i j => 65520 * Spec.mul 2 (Spec.op .yes (wmat (Arr.ofList [65520, 0, 65519]) 2))
        (wmat (Arr.ofList [65518, 3]) 1) i j + 7 * wmat (Arr.ofList [65510]) 1 i j) D :=
  C121_fgemv_partial field65521_wf (by norm_num [cardBalanced]) (by norm_num [FitsKind, field65521]) (by simp) (fun _ _ _ => leftToRight_covers)
    (by unfold Itv.Has; decide) (by unfold Itv.Has; decide) (by decide) (by decide) (by decide) (by norm_num) (by norm_num) (by norm_num)

/-- Non-vacuity: an update with strides over 64-bit integers (through `double`) and over `double`. -/
example (J : ℕ → ℕ → ℤ) (kd : Kind) (h : kd = .double ∨ kd = .int64) :
    ∃ D, fgerDel kd field65521 cardBalanced J 1 2 65519 (Arr.ofList [65518]) 1 (Arr.ofList [65517, 0, 65516]) 2 (Arr.ofList [1, 65520]) 2 = .ok (some D) ∧
      WordRes field65521 1 2 2 (Arr.ofList [1, 65520]) (fun i j => wmat (Arr.ofList [1, 65520]) 2 i j +
        65519 * wmat (Arr.ofList [65518]) 1 i 0 * wmat (Arr.ofList [65517, 0, 65516]) 2 j 0) D := by
  refine C121_fger_partial field65521_wf (by norm_num [cardBalanced]) (fun h' => ?_) (fun _ => by norm_num [field65521, cardBalanced]) (fun b hb => ?_)
    (by unfold Itv.Has; decide) (by decide) (by decide) (by decide) (by norm_num)
  · rcases h with rfl | rfl
    · norm_num [FitsKind, field65521]
    · exact absurd rfl h'
  · rcases h with rfl | rfl
    · have : b = 53 := by simpa [Kind.native] using hb.symm
      subst this
      decide +kernel
    · simp [Kind.native] at hb

end Verif.Props
