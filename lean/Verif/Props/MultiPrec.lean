import Verif.Proofs.MultiPrecDet
import Verif.Props.Pluq
import Verif.Props.LazyGemm
import Verif.Props.CharPolyLuk
import Mathlib.Tactic.NormNum.Prime

/-!
# C95–C98: integer matrices by residue number systems
-/

namespace Verif.Props

open Verif.MP Verif.RNS Verif.FF Verif.Lazy Verif.Spec

/-- the entries are inside the array -/
def InArr (r c ld : ℕ) (A : Arr ℤ) : Prop := ∀ i < r, ∀ j < c, i * ld + j < A.len

/-- the entries of the window are at most `a` in absolute value -/
def AtMost (r c ld : ℕ) (A : Arr ℤ) (a : ℕ) : Prop := ∀ i < r, ∀ j < c, |A.get (i * ld + j)| ≤ a

/-- a window with an entry that is not zero -/
def NonZero (r c ld : ℕ) (A : Arr ℤ) : Prop := ∃ i < r, ∃ j < c, A.get (i * ld + j) ≠ 0

instance (r c ld : ℕ) (A : Arr ℤ) : Decidable (InArr r c ld A) := by unfold InArr; infer_instance
instance (r c ld : ℕ) (A : Arr ℤ) (a : ℕ) : Decidable (AtMost r c ld A a) := by unfold AtMost; infer_instance
instance (r c ld : ℕ) (A : Arr ℤ) : Decidable (NonZero r c ld A) := by unfold NonZero; infer_instance

section fgemm
variable {E : Env} {gs : GemmFam} {ta tb : Tr} {m n k : ℕ} {alpha : ℤ} {A : Arr ℤ} {lda : ℕ} {B : Arr ℤ} {ldb : ℕ} {beta : ℤ} {C : Arr ℤ} {ldc a b : ℕ}

/-- bits of the primes that `fgemm` draws -/
abbrev gemmBits (k : ℕ) : ℕ := (53 - Nat.size k) / 2

/-- C95: `C := alpha op(A) op(B) + beta C` over the integers, provided that neither `A` nor `B` is zero, or `beta = 1`.  The sizes: entries at most
`a` and `b`, so many that 1024 moduli are enough (larger products lose digits in the conversions, done with doubles). -/
theorem C95_integer_fgemm_partial (hE : EnvOk E (gemmBits k)) (hg : GemmFamOk gs k) (hk : k < 2 ^ 46)
    (lA : InArr (opr ta m k) (opc ta m k) lda A) (lB : InArr (opr tb k n) (opc tb k n) ldb B) (lC : InArr m n ldc C) (hldc : n ≤ ldc)
    (hA : AtMost (opr ta m k) (opc ta m k) lda A a) (hB : AtMost (opr tb k n) (opc tb k n) ldb B b)
    (hz : beta = 1 ∨ NonZero (opr ta m k) (opc ta m k) lda A ∧ NonZero (opr tb k n) (opc tb k n) ldb B)
    (hret : ∀ x ≤ 2 * k * a * b * alpha.natAbs, Returns E x (gemmBits k))
    (hbd : 2 * k * a * b * alpha.natAbs ≤ 2 ^ (1023 * (gemmBits k - 2))) :
    Ok (fgemmZ E gs ta tb m n k alpha A lda B ldb beta C ldc) (GemmRes ta tb m n k alpha A lda B ldb beta C ldc) := by
  have toN : ∀ {x : ℤ} {y : ℕ}, |x| ≤ y → x.natAbs ≤ y := fun h => by rw [Int.abs_eq_natAbs] at h; omega
  unfold fgemmZ
  split_ifs with c1 c2
  · rw [Ok_pure]
    refine ⟨rfl, fun i hi j hj => ?_, fun _ _ => rfl⟩
    omega
  · refine (fscalinZ_spec 0 m n beta C ldc lC hldc).mono ?_
    rintro D ⟨h1, h2, h3⟩
    refine ⟨h1, fun i hi j hj => ?_, h3⟩
    rw [h2 i hi j hj]
    rcases c2 with rfl | rfl <;> simp [Spec.mul]
  · rw [not_or] at c2
    exact fgemmZH_spec hE hg c2.1 hk c2.2 lA lB lC hldc (Or.inl rfl) (Nat.zero_le _) (fun i hi j hj => toN (hA i hi j hj)) (Or.inl rfl) (Nat.zero_le _)
      (fun i hi j hj => toN (hB i hi j hj)) (hz.imp id (fun h => ⟨Or.inr h.1, Or.inr h.2⟩)) hret hbd

/-- C95: when `A` is zero (or `B`), `C` is not multiplied by `beta`: it is returned as it was, even for `beta = 0`. -/
theorem C95_zero_violated (hm : m ≠ 0) (hn : n ≠ 0) (hk : k ≠ 0) (hal : alpha ≠ 0)
    (lA : InArr (opr ta m k) (opc ta m k) lda A) (lB : InArr (opr tb k n) (opc tb k n) ldb B)
    (hz : ¬ NonZero (opr ta m k) (opc ta m k) lda A ∨ ¬ NonZero (opr tb k n) (opc tb k n) ldb B) :
    fgemmZ E gs ta tb m n k alpha A lda B ldb beta C ldc = .ok C := by
  unfold fgemmZ fgemmZH
  rw [if_neg (by omega), if_neg (by omega), if_neg hal, if_neg hk]
  obtain ⟨na, ea, -, na2⟩ := infNorm_spec _ _ A lda lA
  obtain ⟨nb, eb, -, nb2⟩ := infNorm_spec _ _ B ldb lB
  simp only [normOf, if_true, ea, eb, bind, Except.bind]
  rw [if_pos]
  · rfl
  · rcases hz with hz | hz
    · rcases na2 with rfl | ⟨i, hi, j, hj, e⟩
      · simp
      · have : A.get (i * lda + j) = 0 := by by_contra h; exact hz ⟨i, hi, j, hj, h⟩
        rw [this] at e; subst e; simp
    · rcases nb2 with rfl | ⟨i, hi, j, hj, e⟩
      · simp
      · have : B.get (i * ldb + j) = 0 := by by_contra h; exact hz ⟨i, hi, j, hj, h⟩
        rw [this] at e; subst e; simp

/-- C96: `C := alpha op(A) op(B) + beta C` modulo `p`, all the results in `[0, p)`, for reduced `A`, `B` and `alpha`. -/
theorem C96_modular_fgemm {p : ℕ} (hp : p ≠ 0) (hE : EnvOk E (gemmBits k)) (hg : GemmFamOk gs k) (hk : k < 2 ^ 46)
    (lA : InArr (opr ta m k) (opc ta m k) lda A) (lB : InArr (opr tb k n) (opc tb k n) ldb B) (lC : InArr m n ldc C) (hldc : n ≤ ldc)
    (hA : ∀ i < opr ta m k, ∀ j < opc ta m k, 0 ≤ A.get (i * lda + j) ∧ A.get (i * lda + j) < p)
    (hB : ∀ i < opr tb k n, ∀ j < opc tb k n, 0 ≤ B.get (i * ldb + j) ∧ B.get (i * ldb + j) < p) (hal : 0 ≤ alpha ∧ alpha < p)
    (hret : ∀ x ≤ 2 * k * p ^ 3, Returns E x (gemmBits k)) (hbd : 2 * k * p ^ 3 ≤ 2 ^ (1023 * (gemmBits k - 2))) :
    Ok (fgemmModZ E gs p ta tb m n k alpha A lda B ldb beta C ldc) (fun D => D.len = C.len ∧
      (∀ i < m, ∀ j < n, 0 ≤ D.get (i * ldc + j) ∧ D.get (i * ldc + j) < p ∧
        D.get (i * ldc + j) ≡ alpha * Spec.mul k (Spec.op ta (im A lda)) (Spec.op tb (im B ldb)) i j + beta * C.get (i * ldc + j) [ZMOD p]) ∧
      ∀ x, (∀ i < m, ∀ j < n, x ≠ i * ldc + j) → D.get x = C.get x) := by
  have hp0 : (0 : ℤ) < p := by omega
  have key : ∀ x : ℤ, 0 ≤ x % p ∧ x % p < p ∧ x % p ≡ x [ZMOD p] := fun x => ⟨Int.emod_nonneg _ hp0.ne', Int.emod_lt_of_pos _ hp0, Int.mod_modEq x p⟩
  unfold fgemmModZ
  split_ifs with c1 c2
  · rw [Ok_pure]
    refine ⟨rfl, fun i hi j hj => ?_, fun _ _ => rfl⟩
    omega
  · refine (fscalinZ_spec p m n beta C ldc lC hldc).mono ?_
    rintro D ⟨h1, h2, h3⟩
    refine ⟨h1, fun i hi j hj => ?_, h3⟩
    have e : alpha * Spec.mul k (Spec.op ta (im A lda)) (Spec.op tb (im B ldb)) i j = 0 := by rcases c2 with rfl | rfl <;> simp [Spec.mul]
    rw [h2 i hi j hj, e, zero_add]
    exact key _
  · rw [not_or] at c2
    rw [Ok_bind]
    have aA : ∀ i < opr ta m k, ∀ j < opc ta m k, (im A lda i j).natAbs ≤ p := fun i hi j hj => by have := hA i hi j hj; unfold im; omega
    have aB : ∀ i < opr tb k n, ∀ j < opc tb k n, (im B ldb i j).natAbs ≤ p := fun i hi j hj => by have := hB i hi j hj; unfold im; omega
    have hle : 2 * k * p * p * alpha.natAbs ≤ 2 * k * p ^ 3 := by
      have : alpha.natAbs ≤ p := by omega
      calc 2 * k * p * p * alpha.natAbs ≤ 2 * k * p * p * p := Nat.mul_le_mul_left _ this
        _ = 2 * k * p ^ 3 := by ring
    refine (fgemmZH_spec hE hg c2.1 hk c2.2 lA lB lC hldc (Or.inr aA) le_rfl aA (Or.inr aB) le_rfl aB (Or.inr ⟨Or.inl hp, Or.inl hp⟩)
      (fun x hx => hret x (hx.trans hle)) (hle.trans hbd)).mono ?_
    rintro D ⟨h1, h2, h3⟩
    refine (freduceZ_spec p m n D ldc (fun i hi j hj => by rw [h1]; exact lC i hi j hj) hldc).mono ?_
    rintro D' ⟨g1, g2, g3⟩
    refine ⟨by rw [g1, h1], fun i hi j hj => ?_, fun x hx => by rw [g3 x hx, h3 x hx]⟩
    rw [g2 i hi j hj, h2 i hi j hj]
    exact key _

end fgemm

/-- the classical product, an example of a right family -/
def gemmFam : GemmFam := fun _ _ => gemmClassic .modular

lemma gemmFam_ok (k : ℕ) : GemmFamOk gemmFam k := fun _ _ _ ta tb m n => gemmClassic_ok .modular ta tb m n k

section det
variable {E : Env} {ds : DetFam} {cs : CpFam} {N lda b : ℕ} {A : Arr ℤ}

/-- C97: the determinant of an integer matrix, when the bound on its size leaves room for the sign and the result variable is zero before the call. -/
theorem C97_integer_det_partial (hE : EnvOk E 23) (hd : DetFamOk ds N) (lA : InArr N N lda A) (hb : IsBits N (im A lda) b)
    (h2 : 2 * |(toMat N N (im A lda)).det| < 2 ^ detBits N b) (hret : Returns E (2 ^ detBits N b) 23) (hbd : detBits N b ≤ 21483) :
    Ok (detZ E ds detBits 0 N A lda) (fun d => d = (toMat N N (im A lda)).det) := by
  by_cases hN : N = 0
  · subst hN; simp [detZ]
  refine (detZ_spec hE hd hN lA hb (detBits_ge hN) hret hbd).mono ?_
  rintro d ⟨M, -, hM, h3, h4⟩
  rw [sub_zero] at h3 h4
  refine centred_unique h3 h4 ?_
  rw [Int.abs_eq_natAbs] at h2
  have : 2 * (toMat N N (im A lda)).det.natAbs < 2 ^ detBits N b := by exact_mod_cast h2
  omega

/-- C97: in general the result is the previous value of the variable plus a number congruent to the determinant modulo the product of the primes. -/
theorem C97_integer_det_modulo (hE : EnvOk E 23) (hd : DetFamOk ds N) (hN : N ≠ 0) (lA : InArr N N lda A) (hb : IsBits N (im A lda) b)
    (hret : Returns E (2 ^ detBits N b) 23) (hbd : detBits N b ≤ 21483) (old : ℤ) :
    Ok (detZ E ds detBits old N A lda) (fun d => ∃ M : ℕ, 2 ^ detBits N b ≤ M ∧ d - old ≡ (toMat N N (im A lda)).det [ZMOD M] ∧ 2 * (d - old).natAbs < M) :=
  (detZ_spec hE hd hN lA hb (detBits_ge hN) hret hbd).mono (fun _ ⟨M, _, h⟩ => ⟨M, h⟩)

lemma returns_of_le {E : Env} {x pb : ℕ} (hx : x ≤ E.cand pb 0) (hc : 1 < E.cand pb 0) (hi : E.inner ≠ 0) (hf : E.fuel ≠ 0) :
    ∃ b, buildBound (E.cand pb) x false E.inner E.fuel ⟨[], 1, 1, 0⟩ = some b ∧ (1 < x → b.basis = [E.cand pb 0]) := by
  obtain ⟨i, hi⟩ := Nat.exists_eq_succ_of_ne_zero hi
  obtain ⟨f, hf⟩ := Nat.exists_eq_succ_of_ne_zero hf
  rw [hi, hf]
  have e : 1 % E.cand pb 0 ≠ 0 := by rw [Nat.mod_eq_of_lt hc]; omega
  by_cases c : 1 < x
  · refine ⟨⟨[E.cand pb 0], E.cand pb 0, 1, 1⟩, ?_, fun _ => rfl⟩
    simp only [buildBound, mul_one, c, if_true, RNS.pick, e, if_false, List.nil_append, one_mul, Bool.false_eq_true]
    cases f <;> simp only [buildBound, mul_one] <;> rw [if_neg (by omega)]
  · refine ⟨⟨[], 1, 1, 0⟩, ?_, fun h => absurd h c⟩
    simp only [buildBound, mul_one, c, if_false]

/-- C97: `Det` adds the determinant to the previous value of the variable. -/
theorem C97_accumulates_violated (hE : EnvOk E 23) (hd : DetFamOk ds N) (hN : N ≠ 0) (lA : InArr N N lda A) (hb : IsBits N (im A lda) b)
    (h2 : 2 * |(toMat N N (im A lda)).det| < 2 ^ detBits N b) (hret : Returns E (2 ^ detBits N b) 23) (hbd : detBits N b ≤ 21483) (old : ℤ) :
    Ok (detZ E ds detBits old N A lda) (fun d => d = old + (toMat N N (im A lda)).det) := by
  refine (detZ_spec hE hd hN lA hb (detBits_ge hN) hret hbd).mono ?_
  rintro d ⟨M, -, hM, h3, h4⟩
  have := centred_unique h3 h4 (by
    rw [Int.abs_eq_natAbs] at h2
    have : 2 * (toMat N N (im A lda)).det.natAbs < 2 ^ detBits N b := by exact_mod_cast h2
    omega)
  omega

/-- C97: the bound leaves no room for the sign.  The determinant of the `1 × 1` matrix `2097151` is negative whatever prime smaller than `4194302` is
drawn first. -/
theorem C97_sign_violated (hE : EnvOk E 23) (hd : DetFamOk ds 1) (h1 : E.cand 23 0 < 4194302) (hi : E.inner ≠ 0) (hf : E.fuel ≠ 0) :
    (toMat 1 1 (im (Arr.ofList [2097151]) 1)).det = 2097151 ∧
    Ok (detZ E ds detBits 0 1 (Arr.ofList [2097151]) 1) (fun d => d = 2097151 - E.cand 23 0 ∧ d < 0) := by
  have hdet : (toMat 1 1 (im (Arr.ofList [2097151]) 1)).det = 2097151 := by rw [Matrix.det_fin_one]; rfl
  refine ⟨hdet, ?_⟩
  have hlo := hE.lo 0
  norm_num at hlo
  have hb : IsBits 1 (im (Arr.ofList [2097151]) 1) 21 := by
    refine ⟨by norm_num, fun i hi j hj => ?_, Or.inr ⟨0, by norm_num, 0, by norm_num, by decide⟩⟩
    obtain rfl : i = 0 := by omega
    obtain rfl : j = 0 := by omega
    decide
  have e21 : 2 ^ detBits 1 21 = 2097152 := by rw [detBits_one]; norm_num
  obtain ⟨bb, hr, hr'⟩ := returns_of_le (E := E) (x := 2 ^ detBits 1 21) (pb := 23) (by rw [e21]; omega) (by omega) hi hf
  refine (detZ_spec hE hd one_ne_zero (fun i hi j hj => by simp only [Arr.ofList, List.length_singleton]; omega) hb (by rw [detBits_one])
    (by rw [Returns, hr]; rfl) (by rw [detBits_one]; norm_num)).mono ?_
  rintro d ⟨M, ⟨b', hb1, rfl⟩, -, h3, h4⟩
  rw [hr, Option.some.injEq] at hb1
  subst hb1
  rw [hr' (by rw [e21]; norm_num), List.prod_singleton] at h3 h4
  rw [sub_zero, hdet] at h3
  rw [sub_zero] at h4
  have e : d = 2097151 - E.cand 23 0 := by
    refine centred_unique (h3.trans ?_) h4 (by omega)
    rw [Int.modEq_iff_dvd]
    exact ⟨-1, by ring⟩
  exact ⟨e, by omega⟩

/-- C98: the characteristic polynomial of an integer matrix, when the bound on its coefficients leaves room for the sign and the result vector holds
zeros before the call. -/
theorem C98_integer_charpoly_partial (hE : EnvOk E 23) (hc : CpFamOk cs N) (hN : N ≠ 0) (lA : InArr N N lda A) (hb : IsBits N (im A lda) b)
    (h2 : ∀ j ≤ N, 2 * |(toMat N N (im A lda)).charpoly.coeff j| < 2 ^ cpBits N b) (hret : Returns E (2 ^ cpBits N b) 23) (hbd : cpBits N b ≤ 21483)
    {old : List ℤ} (hold : ∀ j, old.getD j 0 = 0) :
    Ok (charPolyZ E cs cpBits old N A lda) (fun P => P.len = N + 1 ∧ ∀ j ≤ N, P.get j = (toMat N N (im A lda)).charpoly.coeff j) := by
  refine (charPolyZ_spec hE hc hN lA hb (cpBits_ge hN) hret hbd).mono ?_
  rintro P ⟨h1, M, -, hM, h3⟩
  refine ⟨h1, fun j hj => ?_⟩
  obtain ⟨h3, h4⟩ := h3 j (by omega)
  rw [hold j, sub_zero] at h3 h4
  refine centred_unique h3 h4 ?_
  have h2 := h2 j hj
  rw [Int.abs_eq_natAbs] at h2
  have : 2 * ((toMat N N (im A lda)).charpoly.coeff j).natAbs < 2 ^ cpBits N b := by exact_mod_cast h2
  omega

/-- C98: the coefficients are added to the previous contents of the vector. -/
theorem C98_accumulates_violated (hE : EnvOk E 23) (hc : CpFamOk cs N) (hN : N ≠ 0) (lA : InArr N N lda A) (hb : IsBits N (im A lda) b)
    (h2 : ∀ j ≤ N, 2 * |(toMat N N (im A lda)).charpoly.coeff j| < 2 ^ cpBits N b) (hret : Returns E (2 ^ cpBits N b) 23) (hbd : cpBits N b ≤ 21483)
    (old : List ℤ) :
    Ok (charPolyZ E cs cpBits old N A lda) (fun P => P.len = N + 1 ∧ ∀ j ≤ N, P.get j = old.getD j 0 + (toMat N N (im A lda)).charpoly.coeff j) := by
  refine (charPolyZ_spec hE hc hN lA hb (cpBits_ge hN) hret hbd).mono ?_
  rintro P ⟨h1, M, -, hM, h3⟩
  refine ⟨h1, fun j hj => ?_⟩
  obtain ⟨h3, h4⟩ := h3 j (by omega)
  have := centred_unique h3 h4 (by
    have h2 := h2 j hj
    rw [Int.abs_eq_natAbs] at h2
    have : 2 * ((toMat N N (im A lda)).charpoly.coeff j).natAbs < 2 ^ cpBits N b := by exact_mod_cast h2
    omega)
  omega

end det

/-- `FFPACK::Det` over the prime fields -/
def detFam (thr : ℕ) (jk : List ℕ → ℕ → ℕ) : DetFam := fun _ _ N A lda => do
  let x ← det .modular (gemmClassic .modular) (ftrsm .modular (gemmClassic .modular)) thr jk N A lda none
  pure x.1

/-- C97 applies to the determinant of C21. -/
theorem C97_family (thr : ℕ) (jk : List ℕ → ℕ → ℕ) (N : ℕ) : DetFamOk (detFam thr jk) N := by
  intro p _ mem A lda h1 h2 h3
  unfold detFam
  rw [Run_bind]
  refine (C21_det .modular (gemmClassic_ok .modular) (ftrsm_TrsmOk .modular (gemmClassic_ok .modular)) thr jk ⟨h1, h2, h3⟩ none (by simp)).mono ?_
  rintro x m' ⟨e, -⟩
  rw [Run_pure]; exact e

/-- `FFPACK::CharPoly` over the prime fields with the tag `FfpackDanilevski` -/
def cpFam (jk : ℕ → ℕ) : CpFam := fun p _ N A lda =>
  charPoly pmul (Prog.fault .fuel) (Prog.fault .fuel) jk (fun _ _ => 1) .modular (gemmClassic .modular) (ftrsm .modular (gemmClassic .modular)) p .danilevski 1 N A lda

/-- C98 applies to the characteristic polynomial of C77. -/
theorem C98_family (jk : ℕ → ℕ) (N : ℕ) : CpFamOk (cpFam jk) N := by
  intro p _ mem A lda h1 h2 h3
  refine (C77_charPoly_partial jk .modular (gemmClassic_ok .modular) (ftrsm_TrsmOk .modular (gemmClassic_ok .modular)) ?_ ⟨h1, h2, h3⟩ (Or.inl rfl) pmul_ok).mono ?_
  · intro n h0 _
    exact ⟨0, by omega, one_ne_zero⟩
  · exact fun _ _ h => h.2

section examples

/-- an environment that draws one prime -/
def mpEnv (q : ℕ) : Env := ⟨fun _ _ => q, 1, 1, fun _ => 7, fun _ _ => 9, fun _ k _ _ => leftToRight k⟩

lemma mpEnv_ok {q pb : ℕ} (h : q.Prime) (lo : 2 ^ (pb - 2) < q) (hi : q < 2 ^ pb) : EnvOk (mpEnv q) pb :=
  ⟨fun _ => h, fun _ => lo, fun _ => hi, fun _ k _ _ => leftToRight_covers k⟩

lemma mpEnv_ret {q pb x : ℕ} (h : q.Prime) (hx : x ≤ q) : Returns (mpEnv q) x pb := by
  obtain ⟨b, e, -⟩ := returns_of_le (E := mpEnv q) (x := x) (pb := pb) hx h.one_lt (by simp [mpEnv]) (by simp [mpEnv])
  rw [Returns, e]; rfl

lemma le_pow {x e : ℕ} (h : x ≤ 2 ^ 13) (he : 13 ≤ e) : x ≤ 2 ^ e := h.trans (Nat.pow_le_pow_right (by norm_num) he)

lemma prime25 : Nat.Prime 16777259 := by norm_num
lemma prime23 : Nat.Prime 2097169 := by norm_num

/-- `[1 2; 3 4]ᵀ [5 -6; 7 8]`, times 3, plus -1 times the matrix `[100 …]` with leading dimension 3 -/
theorem C95_example : Ok (fgemmZ (mpEnv 16777259) gemmFam .yes .no 2 2 2 3 (Arr.ofList [1, 2, 3, 4]) 2 (Arr.ofList [5, -6, 7, 8]) 2 (-1)
    (Arr.ofList [100, 100, 55, 100, 100]) 3) (fun D => D.get 0 = -22 ∧ D.get 1 = -46 ∧ D.get 2 = 55 ∧ D.get 3 = 14 ∧ D.get 4 = -40) := by
  refine (C95_integer_fgemm_partial (a := 4) (b := 8) (mpEnv_ok prime25 (by decide) (by decide)) (gemmFam_ok 2) (by norm_num) (by decide) (by decide) (by decide) (by decide)
    (by decide) (by decide) (Or.inr ⟨⟨0, by decide, 0, by decide, by decide⟩, ⟨0, by decide, 0, by decide, by decide⟩⟩)
    (fun x hx => mpEnv_ret prime25 (hx.trans (by decide))) (le_pow (by decide) (by decide))).mono ?_
  rintro D ⟨h1, h2, h3⟩
  refine ⟨?_, ?_, ?_, ?_, ?_⟩
  · rw [show D.get 0 = _ from h2 0 (by omega) 0 (by omega)]; decide
  · rw [show D.get 1 = _ from h2 0 (by omega) 1 (by omega)]; decide
  · rw [h3 2 (by decide)]; rfl
  · rw [show D.get 3 = _ from h2 1 (by omega) 0 (by omega)]; decide
  · rw [show D.get 4 = _ from h2 1 (by omega) 1 (by omega)]; decide

/-- `A = 0`, `beta = 0`: `C` keeps its old contents -/
theorem C95_zero_example : fgemmZ (mpEnv 16777259) gemmFam .no .no 1 1 2 1 (Arr.ofList [0, 0]) 2 (Arr.ofList [5, 7]) 1 0 (Arr.ofList [42]) 1 = .ok (Arr.ofList [42]) :=
  C95_zero_violated (by decide) (by decide) (by decide) (by decide) (by decide) (by decide) (Or.inl (by decide))

/-- modulo 7: `3 * [1 2; 3 4]ᵀ [5 6; 0 2] + 2 * 1` -/
theorem C96_example : Ok (fgemmModZ (mpEnv 16777259) gemmFam 7 .yes .no 2 2 2 3 (Arr.ofList [1, 2, 3, 4]) 2 (Arr.ofList [5, 6, 0, 2]) 2 2
    (Arr.ofList [1, 1, 1, 1]) 2) (fun D => D.get 0 = 3 ∧ D.get 1 = 3 ∧ D.get 2 = 4 ∧ D.get 3 = 6) := by
  refine (C96_modular_fgemm (by decide) (mpEnv_ok prime25 (by decide) (by decide)) (gemmFam_ok 2) (by norm_num) (by decide) (by decide) (by decide) (by decide)
    (by decide) (by decide) (by decide) (fun x hx => mpEnv_ret prime25 (hx.trans (by decide))) (le_pow (by decide) (by decide))).mono ?_
  rintro D ⟨-, h2, -⟩
  have key : ∀ {x y r : ℤ}, 0 ≤ x ∧ x < (7 : ℕ) ∧ x ≡ y [ZMOD (7 : ℕ)] → y % 7 = r → x = r := by
    rintro x y r ⟨h1, h2, h3⟩ rfl
    rw [← Int.emod_eq_of_lt h1 h2]; exact h3
  exact ⟨key (h2 0 (by omega) 0 (by omega)) (by decide), key (h2 0 (by omega) 1 (by omega)) (by decide),
    key (h2 1 (by omega) 0 (by omega)) (by decide), key (h2 1 (by omega) 1 (by omega)) (by decide)⟩

lemma detBits_two (b : ℕ) : detBits 2 b = 2 * b + 1 := by
  have h : Real.log 2 ≠ 0 := (Real.log_pos (by norm_num)).ne'
  have e : ((2 : ℕ) : ℝ) * (Real.log (2 : ℕ) / (Real.log 2 * 2) + b) = ((2 * b + 1 : ℕ) : ℝ) := by
    push_cast
    field_simp
    ring
  rw [detBits, e, Int.ceil_natCast, Int.toNat_natCast]

lemma cpBits_two (b : ℕ) : cpBits 2 b = 2 * b + 2 := by
  have h : Real.log 2 ≠ 0 := (Real.log_pos (by norm_num)).ne'
  have e : ((2 : ℕ) : ℝ) / 2 * (Real.log (2 : ℕ) / Real.log 2 + 2 * b + 0.21163275) = 0.21163275 + ((2 * b + 1 : ℕ) : ℝ) := by
    push_cast
    field_simp
    ring
  have c : ⌈(0.21163275 : ℝ)⌉ = 1 := by rw [Int.ceil_eq_iff]; norm_num
  rw [cpBits, e, Int.ceil_add_natCast, c]
  push_cast
  omega

lemma ex_bits : IsBits 2 (im (Arr.ofList [3, -5, 2, 4]) 2) 3 := by
  refine ⟨by norm_num, ?_, Or.inr ⟨0, by norm_num, 1, by norm_num, by decide⟩⟩
  decide

lemma ex_det : (toMat 2 2 (im (Arr.ofList [3, -5, 2, 4]) 2)).det = 22 := by rw [Matrix.det_fin_two]; rfl

/-- the determinant of `[3 -5; 2 4]`, with the routine for the prime fields of C21; a variable that holds 5 before the call holds 27 after it -/
theorem C97_example (thr : ℕ) (jk : List ℕ → ℕ → ℕ) :
    Ok (detZ (mpEnv 2097169) (detFam thr jk) detBits 0 2 (Arr.ofList [3, -5, 2, 4]) 2) (fun d => d = 22) ∧
    Ok (detZ (mpEnv 2097169) (detFam thr jk) detBits 5 2 (Arr.ofList [3, -5, 2, 4]) 2) (fun d => d = 27) := by
  have hE : EnvOk (mpEnv 2097169) 23 := mpEnv_ok prime23 (by decide) (by decide)
  have h2 : 2 * |(toMat 2 2 (im (Arr.ofList [3, -5, 2, 4]) 2)).det| < 2 ^ detBits 2 3 := by rw [ex_det, detBits_two]; decide
  have hret : Returns (mpEnv 2097169) (2 ^ detBits 2 3) 23 := mpEnv_ret prime23 (by rw [detBits_two]; decide)
  have hbd : detBits 2 3 ≤ 21483 := by rw [detBits_two]; decide
  refine ⟨(C97_integer_det_partial hE (C97_family thr jk 2) (by decide) ex_bits h2 hret hbd).mono ?_,
    (C97_accumulates_violated hE (C97_family thr jk 2) (by decide) (by decide) ex_bits h2 hret hbd 5).mono ?_⟩
  · rintro d rfl; exact ex_det
  · rintro d rfl; rw [ex_det]; rfl

/-- the environment of the sign error exists -/
theorem C97_sign_example (thr : ℕ) (jk : List ℕ → ℕ → ℕ) :
    Ok (detZ (mpEnv 2097169) (detFam thr jk) detBits 0 1 (Arr.ofList [2097151]) 1) (fun d => d = -18) :=
  (C97_sign_violated (mpEnv_ok prime23 (by decide) (by decide)) (C97_family thr jk 1) (by decide) (by decide) (by decide)).2.mono
    (fun d h => by rw [h.1]; rfl)

/-- the characteristic polynomial `X² - 7 X + 22` of `[3 -5; 2 4]`, with the routine for the prime fields of C77 -/
theorem C98_example (jk : ℕ → ℕ) :
    Ok (charPolyZ (mpEnv 2097169) (cpFam jk) cpBits [] 2 (Arr.ofList [3, -5, 2, 4]) 2) (fun P => P.get 0 = 22 ∧ P.get 1 = -7 ∧ P.get 2 = 1) ∧
    Ok (charPolyZ (mpEnv 2097169) (cpFam jk) cpBits [100, 100] 2 (Arr.ofList [3, -5, 2, 4]) 2) (fun P => P.get 0 = 122 ∧ P.get 1 = 93 ∧ P.get 2 = 1) := by
  have hE : EnvOk (mpEnv 2097169) 23 := mpEnv_ok prime23 (by decide) (by decide)
  have tr : (toMat 2 2 (im (Arr.ofList [3, -5, 2, 4]) 2)).trace = 7 := by rw [Matrix.trace_fin_two]; rfl
  have c : ∀ j, (toMat 2 2 (im (Arr.ofList [3, -5, 2, 4]) 2)).charpoly.coeff j = if j = 0 then 22 else if j = 1 then -7 else if j = 2 then 1 else 0 := by
    intro j
    rw [Matrix.charpoly_fin_two, tr, ex_det]
    simp only [Polynomial.coeff_add, Polynomial.coeff_sub, Polynomial.coeff_X_pow, Polynomial.coeff_C_mul, Polynomial.coeff_X, Polynomial.coeff_C]
    rcases j with _ | _ | _ | j <;> simp
  have h2 : ∀ j ≤ 2, 2 * |(toMat 2 2 (im (Arr.ofList [3, -5, 2, 4]) 2)).charpoly.coeff j| < 2 ^ cpBits 2 3 := by
    intro j hj; rw [c, cpBits_two]; interval_cases j <;> decide
  have hret : Returns (mpEnv 2097169) (2 ^ cpBits 2 3) 23 := mpEnv_ret prime23 (by rw [cpBits_two]; decide)
  have hbd : cpBits 2 3 ≤ 21483 := by rw [cpBits_two]; decide
  refine ⟨(C98_integer_charpoly_partial hE (C98_family jk 2) (by decide) (by decide) ex_bits h2 hret hbd (by simp)).mono ?_,
    (C98_accumulates_violated hE (C98_family jk 2) (by decide) (by decide) ex_bits h2 hret hbd [100, 100]).mono ?_⟩ <;>
  · rintro P ⟨-, h⟩
    rw [h 0 (by omega), h 1 (by omega), h 2 (by omega), c, c, c]
    decide

end examples

end Verif.Props
