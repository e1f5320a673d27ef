import Verif.Proofs.Convert
import Mathlib.Tactic.NormNum.Prime

/-!
# C119: products over fields of machine words, through floating-point numbers
-/

namespace Verif.Props
open Verif Verif.FP Verif.Bounds Verif.Lazy Verif.FF Verif.Conv Finset

/-- the stored matrix -/
def wmat (A : Arr ℤ) (ld : ℕ) : ℕ → ℕ → ℤ := fun i j => A.get (i * ld + j)

/-- the window is inside the array and holds elements of the field -/
def WordMat (F : WordField) (r c ld : ℕ) (A : Arr ℤ) : Prop := ∀ i < r, ∀ j < c, i * ld + j < A.len ∧ Itv.Has F.itv (A.get (i * ld + j))

instance (F : WordField) (r c ld : ℕ) (A : Arr ℤ) : Decidable (WordMat F r c ld A) := by unfold WordMat Itv.Has; infer_instance

/-- the largest absolute value of an element of the field of floating-point numbers -/
def halfOf (p : ℕ) : ℕ := if p = 2 then 1 else (p - 1) / 2

/-- the mantissa of this field -/
def bitsOf (p : ℕ) : ℕ := if p < 800 then 24 else 53

/-- Elements of absolute value up to `h` in floating-point numbers with `b` bits: a dot product of length `k` is computed in one block, or there is room for
an element on top of the largest block. -/
def BlocksFit (b h k : ℕ) : Prop := k * (h * h) < 2 ^ b ∨ h ≤ (2 ^ b - 1) % (h * h) + 1

lemma safe_of_fit (G : FpField) (hG : G.WF) (sizeMax : ℕ) {k h : ℕ} (hh : G.itv.mag = h) (hm : (h : ℤ) ≤ 2 ^ G.prec) (hf : BlocksFit G.prec h k) :
    Safe G sizeMax k 0 := by
  rcases hf with h1 | h1
  · exact safe_of_small G hG sizeMax k (by rw [hh]; exact_mod_cast h1)
  · refine safe_of_room G hG sizeMax k (by rw [hh]; exact hm) ?_
    rw [hh]
    have e : ((2 ^ G.prec - 1 : ℕ) : ℤ) = 2 ^ G.prec - 1 := by
      rw [Nat.cast_sub (Nat.one_le_two_pow)]; norm_num
    rw [← e]
    exact_mod_cast h1

lemma balanced_wf {p prec : ℕ} (hp : Nat.Prime p) (h : 1 ≤ prec) : (balanced p prec).WF := by
  have := hp.two_le
  exact ⟨hp, by simp only [balanced]; omega, by simp only [balanced]; omega, h⟩

lemma balanced_mag {p prec : ℕ} (hp : Nat.Prime p) (h2 : p ≠ 2) : (balanced p prec).itv.mag = ((p - 1) / 2 : ℕ) := by
  have := hp.eq_two_or_odd.resolve_left h2
  have := hp.two_le
  simp only [balanced, FpField.itv, Itv.mag]
  omega

lemma fgemmRoute_spec {maxCard p : ℕ} (hp : Nat.Prime p) (hmc : maxCard ≤ 2 ^ 31) (hsmall : p < 800 ∨ 16 * p < maxCard) :
    ∃ G, fgemmRoute maxCard p = .conv G ∧ G.WF ∧ G.p = p ∧ (p : ℤ) ≤ 2 ^ G.prec ∧ G.prec = bitsOf p ∧ G.itv.mag = halfOf p := by
  unfold fgemmRoute bitsOf halfOf
  by_cases h2 : p = 2
  · subst h2
    refine ⟨_, if_pos rfl, ⟨by norm_num, by norm_num, by norm_num, by norm_num⟩, rfl, by norm_num, by simp, ?_⟩
    simp [FpField.itv, Itv.mag]
  rw [if_neg h2, if_neg h2]
  by_cases h8 : p < 800
  · rw [if_pos h8, if_pos h8]
    exact ⟨_, rfl, balanced_wf hp (by norm_num), rfl, by simp only [balanced]; norm_num; omega, rfl, balanced_mag hp h2⟩
  · have h16 := hsmall.resolve_left h8
    rw [if_neg h8, if_neg h8, if_pos h16]
    exact ⟨_, rfl, balanced_wf hp (by norm_num), rfl, by simp only [balanced]; norm_num; omega, rfl, balanced_mag hp h2⟩

lemma fgemvRoute_eq {maxCard p : ℕ} (h : 2 < p) (hsmall : p < 800 ∨ 16 * p < maxCard) : fgemvRoute maxCard p = fgemmRoute maxCard p := by
  unfold fgemvRoute fgemmRoute
  rw [if_neg (show ¬ p = 2 by omega)]
  by_cases h8 : p < 800
  · rw [if_pos ⟨h8, h⟩, if_pos h8]
  · have h16 := hsmall.resolve_left h8
    rw [if_neg (fun c => h8 c.1), if_pos ⟨h16, h⟩, if_neg h8, if_pos h16]

lemma fgerRoute_spec {maxCard p : ℕ} (hp : Nat.Prime p) (hmc : maxCard ≤ 2 ^ 31) (hsmall : 2 < p ∧ p < 800 ∨ 16 * p < maxCard) :
    ∃ G, fgerRoute maxCard p = .conv G ∧ G.WF ∧ G.p = p ∧ (p : ℤ) ≤ 2 ^ G.prec ∧ G.itv.mag * G.itv.mag + G.itv.mag ≤ 2 ^ G.prec := by
  have hmag : ∀ prec, (balanced p prec).itv.mag ≤ p := fun prec => by
    simp only [balanced, FpField.itv, Itv.mag]; omega
  have hpos : ∀ prec, 1 ≤ prec → 1 ≤ (balanced p prec).itv.mag := fun prec h => (balanced_wf hp h).mag_pos
  unfold fgerRoute
  by_cases h8 : p < 800 ∧ p > 2
  · rw [if_pos h8]
    have h1 := hmag 24
    have h2 := hpos 24 (by norm_num)
    refine ⟨_, rfl, balanced_wf hp (by norm_num), rfl, by simp only [balanced]; norm_num; omega, ?_⟩
    have : (balanced p 24).itv.mag ≤ 800 := by omega
    show _ ≤ (2 : ℤ) ^ 24
    nlinarith
  · have h16 : 16 * p < maxCard := by omega
    rw [if_neg h8, if_pos h16]
    have h1 := hmag 53
    have h2 := hpos 53 (by norm_num)
    refine ⟨_, rfl, balanced_wf hp (by norm_num), rfl, by simp only [balanced]; norm_num; omega, ?_⟩
    have : (balanced p 53).itv.mag < 2 ^ 27 - 1 + 1 := by omega
    show _ ≤ (2 : ℤ) ^ 53
    have h3 : (balanced p 53).itv.mag ≤ (p - 1) / 2 + 1 := by
      simp only [balanced, FpField.itv, Itv.mag]; omega
    have h4 : (balanced p 53).itv.mag ≤ 2 ^ 26 := by omega
    nlinarith

lemma halfOf_le {G : FpField} {p h : ℕ} (hp : G.p = p) (hfit : (p : ℤ) ≤ 2 ^ G.prec) (hG : G.WF) (hm : G.itv.mag = h) : (h : ℤ) ≤ 2 ^ G.prec := by
  have h1 := hG.lo_nonpos
  have h2 := hG.hi_nonneg
  rw [← hm]
  rw [← hp] at hfit
  simp only [FpField.itv, Itv.mag]
  omega

lemma op_wmat (t : Tr) (A : Arr ℤ) (ld i l : ℕ) : Spec.op t (wmat A ld) i l = A.get (adr t ld i l) := by
  cases t <;> rfl

section
variable {F : WordField} {maxCard : ℕ} {J : ℕ → ℕ → ℤ} {sizeMax : ℕ} {sched : ℕ → ℕ → ℕ → ℕ → SumTree} {alpha beta : ℤ}

/-- C119, `fgemm` (full statement: for every prime `p`, `C := alpha op(A) op(B) + beta C` modulo `p`, with elements of the field in `C`, nothing
else written and no number rounded).  Missing: moduli from `maxCard / 16` on, for which nothing is computed (`C119_large_violated`), and the
products with `beta = 0` that take several blocks without room for an element on top of a block (C08). -/
theorem C119_fgemm_partial (hF : F.WF) (hmc : maxCard ≤ 2 ^ 31) (hsmall : F.p < 800 ∨ 16 * F.p < maxCard)
    (hs : ∀ i j x n, (sched i j x n).Covers n) {ta tb : Tr} {m n k : ℕ} {A : Arr ℤ} {lda : ℕ} {B : Arr ℤ} {ldb : ℕ} {C : Arr ℤ} {ldc : ℕ}
    (hal : Itv.Has F.itv alpha) (hbe : Itv.Has F.itv beta) (hA : WordMat F (opr ta m k) (opc ta m k) lda A)
    (hB : WordMat F (opr tb k n) (opc tb k n) ldb B) (hC : WordMat F m n ldc C) (hld : n ≤ ldc)
    (hblk : beta = 0 → BlocksFit (bitsOf F.p) (halfOf F.p) k) :
    ∃ D, fgemmWord F maxCard J sizeMax sched ta tb m n k alpha A lda B ldb beta C ldc = .ok (some D) ∧
      WordRes F m n ldc C (fun i j => alpha * Spec.mul k (Spec.op ta (wmat A lda)) (Spec.op tb (wmat B ldb)) i j + beta * wmat C ldc i j) D := by
  unfold fgemmWord
  split_ifs with c1 c2
  · exact ⟨C, rfl, rfl, fun i hi j hj => by omega, fun _ _ => rfl⟩
  · obtain ⟨D, hD, h1, h2, h3⟩ := fscalinW_ok F hF m n beta C ldc (fun i hi j hj => (hC i hi j hj).1) hld
    refine ⟨D, by rw [hD]; rfl, h1, fun i hi j hj => ⟨(h2 i hi j hj).1, (h2 i hi j hj).2.trans ?_⟩, h3⟩
    rcases c2 with rfl | rfl <;> simp [Spec.mul, wmat]
  · obtain ⟨G, e, hG, hp, hfit, hb, hm⟩ := fgemmRoute_spec hF.prime hmc hsmall
    rw [e]
    obtain ⟨D, hD, h1, h2, h3⟩ := fgemmConvert_ok F hF G hG hp hfit J sizeMax sched hs ta tb m n k alpha A lda B ldb beta C ldc hal hbe
      (fun i hi j hj => (hA i hi j hj).1) (fun i hi j hj => (hB i hi j hj).1) (fun i hi j hj => (hC i hi j hj).1) hld
      (fun i hi j hj => (hA i hi j hj).2) (fun i hi j hj => (hB i hi j hj).2) (fun i hi j hj => (hC i hi j hj).2)
      (fun h0 => safe_of_fit G hG sizeMax hm (halfOf_le hp hfit hG hm) (by rw [hb]; exact hblk h0))
    refine ⟨D, by simp only [hD]; rfl, h1, fun i hi j hj => ⟨(h2 i hi j hj).1, ?_⟩, h3⟩
    simp only [Spec.mul, op_wmat]
    exact (h2 i hi j hj).2

/-- C119 is violated for large moduli, such as those of `Modular<uint32_t, uint64_t>`: `fgemm` returns `C` as it was, and reports nothing. -/
theorem C119_large_violated (hp : 800 ≤ F.p) (hlarge : maxCard ≤ 16 * F.p) {ta tb : Tr} {m n k : ℕ} {A : Arr ℤ} {lda : ℕ} {B : Arr ℤ} {ldb : ℕ} {C : Arr ℤ}
    {ldc : ℕ} (hk : k ≠ 0) (hal : alpha ≠ 0) :
    fgemmWord F maxCard J sizeMax sched ta tb m n k alpha A lda B ldb beta C ldc = .ok (some C) := by
  unfold fgemmWord fgemmRoute
  rw [if_neg (show ¬ F.p = 2 by omega), if_neg (show ¬ F.p < 800 by omega), if_neg (show ¬ 16 * F.p < maxCard by omega)]
  split_ifs <;> first | rfl | (exfalso; simp_all)

/-- `Modular<uint32_t, uint64_t>` for the prime 11863289, and the limit of `ModularBalanced<double>`. -/
def fieldLarge : WordField := ⟨11863289, 0⟩
def cardBalanced : ℕ := 189812531

/-- The witness: `1 * 1 + 0` is left at 0. -/
example : fieldLarge.WF ∧ fgemmWord fieldLarge cardBalanced (fun _ _ => 0) 0 (fun _ _ _ => leftToRight) .no .no 1 1 1 1 ⟨1, fun _ => 1⟩ 1
    ⟨1, fun _ => 1⟩ 1 0 ⟨1, fun _ => 0⟩ 1 = .ok (some ⟨1, fun _ => 0⟩) :=
  ⟨⟨by norm_num [fieldLarge], by norm_num [fieldLarge], by norm_num [fieldLarge]⟩,
    C119_large_violated (by norm_num [fieldLarge]) (by norm_num [fieldLarge, cardBalanced]) (by norm_num) (by norm_num)⟩

/-- C119, `fgemv` (full statement as for `fgemm`).  Missing: moduli from `maxCard / 16` on and `p = 2`, for which an exception is thrown
(`C119_two_violated`); `M = 0` for a transposed matrix, when `y` is not scaled; several blocks without room with `beta = 0`. -/
theorem C119_fgemv_partial (hF : F.WF) (hmc : maxCard ≤ 2 ^ 31) (h2 : 2 < F.p) (hsmall : F.p < 800 ∨ 16 * F.p < maxCard)
    (hs : ∀ i j x n, (sched i j x n).Covers n) {ta : Tr} {M N : ℕ} {A : Arr ℤ} {lda : ℕ} {X : Arr ℤ} {incX : ℕ} {Y : Arr ℤ} {incY : ℕ}
    (hal : Itv.Has F.itv alpha) (hbe : Itv.Has F.itv beta) (hA : WordMat F M N lda A)
    (hX : WordMat F (if ta = .no then N else M) 1 incX X) (hY : WordMat F (if ta = .no then M else N) 1 incY Y) (hinc : 1 ≤ incY)
    (hM : M = 0 → ta = .no) (hblk : beta = 0 → BlocksFit (bitsOf F.p) (halfOf F.p) (if ta = .no then N else M)) :
    ∃ D, fgemvWord F maxCard J sizeMax sched ta M N alpha A lda X incX beta Y incY = .ok (some D) ∧
      WordRes F (if ta = .no then M else N) 1 incY Y (fun i j =>
        alpha * Spec.mul (if ta = .no then N else M) (Spec.op ta (wmat A lda)) (wmat X incX) i j + beta * wmat Y incY i j) D := by
  unfold fgemvWord
  have o1 : opr ta (if ta = .no then M else N) (if ta = .no then N else M) = M := by cases ta <;> rfl
  have o2 : opc ta (if ta = .no then M else N) (if ta = .no then N else M) = N := by cases ta <;> rfl
  have hY0 : M = 0 → (if ta = .no then M else N) = 0 := fun h => by rw [if_pos (hM h), h]
  simp only [fgemvConvert_eq]
  generalize (if ta = .no then M else N) = Yd at *
  generalize (if ta = .no then N else M) = Xd at *
  split_ifs with c1 c2
  · exact ⟨Y, rfl, rfl, fun i hi j hj => by have := hY0 c1; omega, fun _ _ => rfl⟩
  · obtain ⟨D, hD, h1, h2, h3⟩ := fscalinW_ok F hF Yd 1 beta Y incY (fun i hi j hj => (hY i hi j hj).1) hinc
    refine ⟨D, by rw [hD]; rfl, h1, fun i hi j hj => ⟨(h2 i hi j hj).1, (h2 i hi j hj).2.trans ?_⟩, h3⟩
    rcases c2 with rfl | rfl <;> simp [Spec.mul, wmat]
  · obtain ⟨G, e, hG, hp, hfit, hb, hm⟩ := fgemmRoute_spec hF.prime hmc hsmall
    rw [fgemvRoute_eq h2 hsmall, e]
    obtain ⟨D, hD, h1, h2, h3⟩ := fgemmConvert_ok F hF G hG hp hfit J sizeMax sched hs ta .no Yd 1 Xd alpha A lda X incX beta Y incY hal hbe
      (fun i hi j hj => (hA i (by omega) j (by omega)).1) (fun i hi j hj => (hX i hi j hj).1) (fun i hi j hj => (hY i hi j hj).1) hinc
      (fun i hi j hj => (hA i (by omega) j (by omega)).2) (fun i hi j hj => (hX i hi j hj).2) (fun i hi j hj => (hY i hi j hj).2)
      (fun h0 => safe_of_fit G hG sizeMax hm (halfOf_le hp hfit hG hm) (by rw [hb]; exact hblk h0))
    refine ⟨D, by simp only [hD]; rfl, h1, fun i hi j hj => ⟨(h2 i hi j hj).1, ?_⟩, h3⟩
    simp only [Spec.mul, op_wmat]
    exact (h2 i hi j hj).2

/-- C119 is violated modulo 2: `fgemv` throws "Invalid ConvertTo Mode for this field". -/
theorem C119_two_violated (hp : F.p = 2) {ta : Tr} {M N : ℕ} {A : Arr ℤ} {lda : ℕ} {X : Arr ℤ} {incX : ℕ} {Y : Arr ℤ} {incY : ℕ} (hM : M ≠ 0) (hN : N ≠ 0)
    (hal : alpha ≠ 0) : fgemvWord F maxCard J sizeMax sched ta M N alpha A lda X incX beta Y incY = .ok none := by
  unfold fgemvWord fgemvRoute
  cases ta <;> simp [hp, hM, hN, hal] <;> rfl

/-- C119, `fger`: `A := A + alpha x y^T` modulo `p`, with elements of the field in `A`, nothing else written and no number rounded, for every modulus
below `maxCard / 16` (missing: from there on an exception is thrown, see `fgerRoute`). -/
theorem C119_fger_partial (hF : F.WF) (hmc : maxCard ≤ 2 ^ 31) (hsmall : 2 < F.p ∧ F.p < 800 ∨ 16 * F.p < maxCard) {M N : ℕ} {x : Arr ℤ} {incx : ℕ} {y : Arr ℤ}
    {incy : ℕ} {A : Arr ℤ} {lda : ℕ} (hal : Itv.Has F.itv alpha) (hx : WordMat F M 1 incx x) (hy : WordMat F N 1 incy y) (hA : WordMat F M N lda A)
    (hld : N ≤ lda) :
    ∃ D, fgerWord F maxCard J M N alpha x incx y incy A lda = .ok (some D) ∧
      WordRes F M N lda A (fun i j => wmat A lda i j + alpha * wmat x incx i 0 * wmat y incy j 0) D := by
  unfold fgerWord
  split_ifs with c0
  · obtain ⟨D, hD, h1, h2, h3⟩ := fscalinW_ok F hF M N 1 A lda (fun i hi j hj => (hA i hi j hj).1) hld
    refine ⟨D, by rw [hD]; rfl, h1, fun i hi j hj => ⟨(h2 i hi j hj).1, (h2 i hi j hj).2.trans ?_⟩, h3⟩
    rw [c0]; simp [wmat]
  · obtain ⟨G, e, hG, hp, hfit, hm⟩ := fgerRoute_spec hF.prime hmc hsmall
    rw [e]
    obtain ⟨D, hD, h1, h2, h3⟩ := fgerConvert_ok F hF G hG hp hfit hm J M N alpha x incx y incy A lda hal
      (fun i hi => (hx i hi 0 (by omega)).1) (fun i hi => (hy i hi 0 (by omega)).1) (fun i hi j hj => (hA i hi j hj).1) hld
      (fun i hi => (hx i hi 0 (by omega)).2) (fun i hi => (hy i hi 0 (by omega)).2) (fun i hi j hj => (hA i hi j hj).2)
    obtain ⟨E, hE, e1, e2, e3⟩ := fscalinW_ok F hF M N 1 D lda (fun i hi j hj => by rw [h1]; exact (hA i hi j hj).1) hld
    refine ⟨E, by simp only [hD, bind, Except.bind, hE]; rfl, by rw [e1, h1], fun i hi j hj => ⟨(e2 i hi j hj).1, ?_⟩, fun z hz => by rw [e3 z hz, h3 z hz]⟩
    have := (e2 i hi j hj).2
    rw [one_mul] at this
    exact this.trans (h2 i hi j hj).2

end

/-- `Modular<int32_t>` modulo 101 and 46337, `ModularBalanced<int32_t>` modulo 1009. -/
def field101 : WordField := ⟨101, 0⟩
def field46337 : WordField := ⟨46337, 0⟩
def fieldBal : WordField := ⟨1009, -504⟩

lemma field101_wf : field101.WF := ⟨by norm_num [field101], by norm_num [field101], by norm_num [field101]⟩
lemma field46337_wf : field46337.WF := ⟨by norm_num [field46337], by norm_num [field46337], by norm_num [field46337]⟩
lemma fieldBal_wf : fieldBal.WF := ⟨by norm_num [fieldBal], by norm_num [fieldBal], by norm_num [fieldBal]⟩

/-- Non-vacuity: a transposed `2 × 2` matrix in an array with stride 3 modulo 101 (through `float`), for a `beta` that is not 0 and for 0. -/
example (J : ℕ → ℕ → ℤ) (sizeMax : ℕ) (beta : ℤ) (h : beta = 0 ∨ beta = 7) :
    ∃ D, fgemmWord field101 cardBalanced J sizeMax (fun _ _ _ => leftToRight) .yes .no 2 1 2 5 (Arr.ofList [1, 2, 0, 3, 100]) 3 (Arr.ofList [4, 9]) 1 beta
        (Arr.ofList [50, 60]) 1 = .ok (some D) ∧
      WordRes field101 2 1 1 (Arr.ofList [50, 60]) (fun i j => 5 * Spec.mul 2 (Spec.op .yes (wmat (Arr.ofList [1, 2, 0, 3, 100]) 3))
        (Spec.op .no (wmat (Arr.ofList [4, 9]) 1)) i j + beta * wmat (Arr.ofList [50, 60]) 1 i j) D :=
  C119_fgemm_partial field101_wf (by norm_num [cardBalanced]) (Or.inl (by norm_num [field101])) (fun _ _ _ => leftToRight_covers)
    (by unfold Itv.Has; decide) (by rcases h with rfl | rfl <;> (unfold Itv.Has; decide)) (by decide) (by decide) (by decide) (by norm_num)
    (fun _ => Or.inl (by norm_num [halfOf, bitsOf, field101]))

/-- Non-vacuity: a `1 × 2` matrix and a vector with stride 2, balanced representatives modulo 1009 (through `double`). -/
example (J : ℕ → ℕ → ℤ) (sizeMax : ℕ) :
    ∃ D, fgemvWord fieldBal cardBalanced J sizeMax (fun _ _ _ => leftToRight) .no 1 2 (-1) (Arr.ofList [500, -504]) 2 (Arr.ofList [-504, 0, 1]) 2 0
        (Arr.ofList [3]) 1 = .ok (some D) ∧
      WordRes fieldBal 1 1 1 (Arr.ofList [3]) (fun i j => -1 * Spec.mul 2 (Spec.op .no (wmat (Arr.ofList [500, -504]) 2))
        (wmat (Arr.ofList [-504, 0, 1]) 2) i j + 0 * wmat (Arr.ofList [3]) 1 i j) D :=
  C119_fgemv_partial fieldBal_wf (by norm_num [cardBalanced]) (by norm_num [fieldBal]) (Or.inr (by norm_num [fieldBal, cardBalanced]))
    (fun _ _ _ => leftToRight_covers) (by unfold Itv.Has; decide) (by unfold Itv.Has; decide) (by decide) (by decide) (by decide) (by norm_num)
    (by norm_num) (fun _ => Or.inl (by norm_num [halfOf, bitsOf, fieldBal]))

/-- Non-vacuity: an update modulo 46337. -/
example (J : ℕ → ℕ → ℤ) :
    ∃ D, fgerWord field46337 cardBalanced J 2 1 46336 (Arr.ofList [46335, 46336]) 1 (Arr.ofList [46334]) 1 (Arr.ofList [1, 0, 46336]) 2 = .ok (some D) ∧
      WordRes field46337 2 1 2 (Arr.ofList [1, 0, 46336]) (fun i j => wmat (Arr.ofList [1, 0, 46336]) 2 i j +
        46336 * wmat (Arr.ofList [46335, 46336]) 1 i 0 * wmat (Arr.ofList [46334]) 1 j 0) D :=
  C119_fger_partial field46337_wf (by norm_num [cardBalanced]) (Or.inr (by norm_num [field46337, cardBalanced])) (by unfold Itv.Has; decide) (by decide) (by decide)
    (by decide) (by norm_num)

end Verif.Props
