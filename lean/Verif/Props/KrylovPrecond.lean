import Verif.Proofs.KrylovPrecond
import Verif.Props.CharPolyLuk
import Mathlib.Algebra.Field.ZMod

/-!
# Property C84: characteristic polynomial, random Krylov preconditioner
-/

namespace Verif.Props

open Verif.FF Verif.Spec Polynomial

variable {K : Type} [Field K] [DecidableEq K] {m m' : Mem K} {N A lda degree char dflt cut f : ℕ} {g : GemmFn K} {ts : TrsmFn K} {tag : CpTag}
  {dr : KpDraws K} {ap : ℕ → ℕ → ℕ → ℕ → Prog K (Option (List (List K)))} {pt : List ℕ} {oth : Prog K (List (List K))} {rnd : ℕ → ℕ → K}

/-- the numbers drawn by a generator of non-zero elements are not zero; the others are arbitrary -/
def KpNonZero (dr : KpDraws K) (N : ℕ) : Prop := ∀ pt, dr.nz pt 0 ≠ 0 ∧ NonZeroDraws N (dr.luk pt)

/-- `CharPoly` with `FfpackArithProgKrylovPrecond` ends normally, writes only in the matrix, frees what it allocates, and returns monic polynomials whose product is
the characteristic polynomial, whatever is drawn, for matrices of order at most `degree` (so that one block of vectors suffices) and at most one more than
the default degree (which is used for the recursive calls), or of order larger than the characteristic.
Missing: larger orders, for which it is false in general (`C84_violated`, `C84_leak_violated`). -/
theorem C84_krylovPrecond_partial (jk : ℕ → ℕ) (cat : Cat) (hg : GemmOk g) (ht : TrsmOk ts) (lt : List K → List K → Bool) (hdr : KpNonZero dr N)
    (hA : Rect m N N A lda) (hN1 : 1 ≤ N) (hd : char < N ∨ N ≤ degree ∧ N ≤ dflt + 1) (hf : N < f) :
    Run (charPolyKP jk dr cut cat g ts lt ap char dflt f pt degree N A lda) m (fun L m' =>
      Only m m' ⟨A, lda, N, N⟩ ∧ (∀ l ∈ L, IsMonic l) ∧ (L.map polyOf).prod = (toMat N N (m.mat ⟨A, lda, N, N⟩)).charpoly) :=
  (charPolyKP_spec jk cat hg ht lt hdr f pt degree N A lda m _ le_rfl hf hN1 (by omega) (by omega) hA.on).mono
    (fun _ _ ⟨⟨_, h1⟩, h2, h3⟩ => ⟨On.only h1, h2, h3⟩)

/-- The driver, with this algorithm in its place: all matrices of order at most `degree` when the tag is `FfpackAuto`. -/
theorem C84_auto_partial (jk : ℕ → ℕ) (cat : Cat) (hg : GemmOk g) (ht : TrsmOk ts) (lt : List K → List K → Bool) (hdr : KpNonZero dr N)
    (hr : NonZeroDraws N rnd) (hA : Rect m N N A lda) (hN1 : 1 ≤ N) (hd : N ≤ degree) (hd' : degree ≤ dflt + 1) (hf : N < f)
    (htag : tag = .auto ∨ tag = .danilevski ∨ tag = .luk ∨ tag = .arithProgKrylovPrecond) :
    Run (charPolyList (charPolyKP jk dr cut cat g ts lt ap char dflt f pt degree N A lda) oth jk rnd cat g ts char tag degree N A lda) m (fun L m' =>
      Only m m' ⟨A, lda, N, N⟩ ∧ (∀ l ∈ L, IsMonic l) ∧ (L.map polyOf).prod = (toMat N N (m.mat ⟨A, lda, N, N⟩)).charpoly) := by
  by_cases hm : Modelled tag degree char N
  · exact C77_list_partial jk cat hg ht hr hA hm
  · have hk := C84_krylovPrecond_partial (cut := cut) (ap := ap) (pt := pt) (char := char) (dflt := dflt) (degree := degree) jk cat hg ht lt hdr hA hN1
      (Or.inr ⟨hd, by omega⟩) hf
    simp only [Modelled, not_or, not_and] at hm
    obtain ⟨h1, h2, h3, h4⟩ := hm
    unfold charPolyList cpAuto
    rcases htag with rfl | rfl | rfl | rfl
    · have h3 := h3 rfl
      have c1 : ¬ N < degree := h3.1
      have c2 : ¬ char < N := h3.2
      simpa [c1, c2] using hk
    · exact absurd rfl h1
    · exact absurd rfl h2
    · have c2 : ¬ char < N := h4 rfl
      simpa [c2] using hk

section examples

instance kpP5 : Fact (Nat.Prime 5) := ⟨by decide⟩

abbrev kpG : GemmFn (ZMod 5) := gemmClassic .modular
abbrev kpT : TrsmFn (ZMod 5) := ftrsm .modular kpG
/-- what is drawn: zeros, except where a non-zero element is asked for -/
def kpD : KpDraws (ZMod 5) := ⟨fun _ _ _ => 0, fun _ _ => 1, fun _ _ _ => 1⟩
def kpOrd (p q : List (ZMod 5)) : Bool := decide (p.length < q.length)
abbrev kpRun (degree N : ℕ) : Prog (ZMod 5) (List (List (ZMod 5))) :=
  charPolyKP (fun _ => 9) kpD 1 .modular kpG kpT kpOrd (fun _ _ _ _ => Prog.fault .fuel) 5 30 6 [] degree N 0 N

/-- a matrix of order 3 over 𝔽₅ -/
abbrev kpEx : Mem (ZMod 5) := memOf [1, 2, 3, 4, 0, 1, 2, 3, 1]
/-- a block diagonal matrix: the vector drawn spans an invariant subspace -/
abbrev kpEx2 : Mem (ZMod 5) := memOf [1, 0, 0, 0, 0, 1, 0, 1, 1]

example : Rect kpEx 3 3 0 3 ∧ KpNonZero kpD 3 ∧ GemmOk kpG ∧ TrsmOk kpT ∧ (5 < 3 ∨ 3 ≤ 3 ∧ 3 ≤ 30 + 1) :=
  ⟨⟨WF_memOf _, OkIn_memOf (by decide), by decide⟩, fun _ => ⟨one_ne_zero, fun n hn _ => ⟨0, by omega, one_ne_zero⟩⟩, gemmClassic_ok .modular,
    ftrsm_TrsmOk .modular (gemmClassic_ok .modular), by decide⟩

/-- `X³ - 2 X² - X + 1`: one factor; and `(X - 1) (X² - X - 1)` in two factors -/
example : result (kpRun 3 3) kpEx = some [[1, 4, 3, 1]] := by decide +kernel
example : result (kpRun 3 3) kpEx2 = some [[4, 1], [4, 4, 1]] := by decide +kernel

/-- With two blocks the product of the polynomials returned need not be the characteristic polynomial: for the same matrix, `degree = 2` and the same
draws, the result is `(X - 1) X (X - 1)`: only the rows of the blocks of full degree (and the next one) are tested for components outside the Krylov space. -/
theorem C84_violated : KpNonZero kpD 3 ∧ Rect kpEx2 3 3 0 3 ∧ ∃ L, result (kpRun 2 3) kpEx2 = some L ∧
    (L.map polyOf).prod ≠ (toMat 3 3 (kpEx2.mat ⟨0, 3, 3, 3⟩)).charpoly := by
  refine ⟨fun _ => ⟨one_ne_zero, fun n hn _ => ⟨0, by omega, one_ne_zero⟩⟩, ⟨WF_memOf _, OkIn_memOf (by decide), by decide⟩, [[4, 1], [0, 1], [4, 1]],
    by decide +kernel, fun h => ?_⟩
  have e := congrArg (Polynomial.eval (0 : ZMod 5)) h
  rw [Matrix.eval_charpoly] at e
  have e2 : (Matrix.scalar (Fin 3) (0 : ZMod 5) - toMat 3 3 (kpEx2.mat ⟨0, 3, 3, 3⟩)).det = 1 := by
    rw [Matrix.det_fin_three]; decide +kernel
  rw [e2] at e
  simp [polyOf] at e

/-- cell `x` is allocated after the call -/
def liveAfter {α : Type} (p : Prog K α) (m : Mem K) (x : ℕ) : Option Bool :=
  match p m with
  | .ok (_, m') => some (m'.ok x)
  | .error _ => none

/-- a matrix of order 5: the first vector is an eigenvector, the second is not -/
abbrev kpEx3 : Mem (ZMod 5) := memOf [1, 0, 0, 0, 0,  0, 0, 1, 0, 0,  0, 1, 1, 0, 0,  0, 0, 0, 1, 1,  0, 0, 0, 0, 2]

/-- When the degrees of the blocks are not decreasing, the copy of the Krylov matrix is not freed before the exception. -/
theorem C84_leak_violated : KpNonZero kpD 5 ∧ Rect kpEx3 5 5 0 5 ∧ ∃ x, kpEx3.ok x = false ∧ liveAfter (kpRun 3 5) kpEx3 x = some true := by
  refine ⟨fun _ => ⟨one_ne_zero, fun n hn _ => ⟨0, by omega, one_ne_zero⟩⟩, ⟨WF_memOf _, OkIn_memOf (by decide), by decide⟩, 60, by decide, by decide +kernel⟩

end examples

/-- On the empty matrix this tag computes `N - 1` on unsigned integers. -/
theorem C84_empty_violated (jk : ℕ → ℕ) (cat : Cat) (lt : List K → List K → Bool) (hd : degree ≠ 0) :
    faultOf (charPolyKP jk dr cut cat g ts lt ap char dflt (f + 1) pt degree 0 A lda) m = some .underflow := by
  have e : krylovPrecond cut cat g ts lt (charPolyKP jk dr cut cat g ts lt ap char dflt f (0 :: pt) dflt) (dr.blk (0 :: pt)) (dr.nz (0 :: pt)) degree 0 A lda m =
      .error .underflow := by
    unfold krylovPrecond
    rw [if_neg hd]
    rfl
  unfold charPolyKP kpTry
  rw [if_neg (by omega)]
  refine faultOf_bind ?_
  exact faultOf_bind (by unfold faultOf; rw [e])

end Verif.Props
