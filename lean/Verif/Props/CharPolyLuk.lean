import Verif.Proofs.Luk
import Verif.Props.MinPoly

/-!
# Property C77: characteristic polynomial, LU-Krylov algorithm and driver
-/

namespace Verif.Props

open Verif.FF Verif.Spec Polynomial

variable {K : Type} [Field K] [DecidableEq K] {m m' : Mem K} {N A lda degree char : ℕ} {g : GemmFn K} {ts : TrsmFn K} {tag : CpTag}
  {prec oth : Prog K (List (List K))} {rnd : ℕ → ℕ → K}

/-- the vectors that may be drawn for the successive orders are not zero, as `NonZeroRandomMatrix` announces -/
def NonZeroDraws (N : ℕ) (rnd : ℕ → ℕ → K) : Prop := ∀ n, 1 ≤ n → n ≤ N → ∃ i < n, rnd n i ≠ 0

/-- `CharPoly` with `FfpackLUK` ends normally on every matrix, whatever is drawn, writes only in the matrix; the polynomials returned are monic
and their product is the characteristic polynomial. -/
theorem C77_luk (jk : ℕ → ℕ) (cat : Cat) (hg : GemmOk g) (ht : TrsmOk ts) (hr : NonZeroDraws N rnd) (hA : Rect m N N A lda) :
    Run (charPolyLUK jk rnd cat g ts N A lda) m (fun L m' =>
      Only m m' ⟨A, lda, N, N⟩ ∧ (∀ l ∈ L, IsMonic l) ∧ (L.map polyOf).prod = (toMat N N (m.mat ⟨A, lda, N, N⟩)).charpoly) :=
  (charPolyLUK_spec jk cat hg ht hr hA.on).mono (fun _ _ ⟨⟨_, h1⟩, h2, h3⟩ => ⟨On.only h1, h2, h3⟩)

/-- the arguments for which `CharPoly` runs one of the two algorithms modelled -/
def Modelled (tag : CpTag) (degree char N : ℕ) : Prop :=
  tag = .danilevski ∨ tag = .luk ∨ (tag = .auto ∧ (N < degree ∨ char < N)) ∨ (tag = .arithProgKrylovPrecond ∧ char < N)

theorem C77_list_partial (jk : ℕ → ℕ) (cat : Cat) (hg : GemmOk g) (ht : TrsmOk ts) (hr : NonZeroDraws N rnd) (hA : Rect m N N A lda)
    (hm : Modelled tag degree char N) : Run (charPolyList prec oth jk rnd cat g ts char tag degree N A lda) m (fun L m' =>
      Only m m' ⟨A, lda, N, N⟩ ∧ (∀ l ∈ L, IsMonic l) ∧ (L.map polyOf).prod = (toMat N N (m.mat ⟨A, lda, N, N⟩)).charpoly) := by
  have h1 := C75_danilevski cat hA
  have h2 := C77_luk jk cat hg ht hr hA
  unfold charPolyList cpAuto
  rcases hm with rfl | rfl | ⟨rfl, hm⟩ | ⟨rfl, hm⟩
  · simpa using h1
  · simpa using h2
  · by_cases c : N < degree
    · simpa [c] using h1
    · have hm : char < N := hm.resolve_left c
      simpa [c, hm] using h2
  · simpa [hm] using h2

/-- The version of `CharPoly` that returns one polynomial returns the characteristic polynomial, if the product of the polynomial ring is
right.  Missing: the tags for the other algorithms, and `FfpackArithProgKrylovPrecond` when the characteristic is at least `N`. -/
theorem C77_charPoly_partial (jk : ℕ → ℕ) (cat : Cat) (hg : GemmOk g) (ht : TrsmOk ts) (hr : NonZeroDraws N rnd) (hA : Rect m N N A lda)
    (hm : Modelled tag degree char N) {mulin : List K → List K → List K} (hmul : ∀ p q, polyOf (mulin p q) = polyOf p * polyOf q) :
    Run (charPoly mulin prec oth jk rnd cat g ts char tag degree N A lda) m (fun l m' =>
      Only m m' ⟨A, lda, N, N⟩ ∧ polyOf l = (toMat N N (m.mat ⟨A, lda, N, N⟩)).charpoly) := by
  unfold charPoly
  rif c
  · subst c
    rw [Run_pure]
    refine ⟨On.only hA.on, ?_⟩
    rw [Matrix.charpoly_isEmpty]
    simp [polyOf]
  · rw [Run_bind]
    refine (C77_list_partial jk cat hg ht hr hA hm).mono ?_
    rintro L m' ⟨h1, h2, h3⟩
    have fold : ∀ (L : List (List K)) p, polyOf (L.foldl mulin p) = polyOf p * (L.map polyOf).prod := by
      intro L
      induction L with
      | nil => intro p; simp
      | cons q L ih => intro p; rw [List.foldl_cons, ih, hmul, List.map_cons, List.prod_cons, mul_assoc]
    cases L with
    | nil =>
      exfalso
      have hd : (toMat N N (m.mat ⟨A, lda, N, N⟩)).charpoly.natDegree = N := by rw [Matrix.charpoly_natDegree_eq_dim, Fintype.card_fin]
      rw [← h3] at hd
      simp at hd
      omega
    | cons p L =>
      simp only [Run_pure]
      refine ⟨h1, ?_⟩
      rw [fold, ← h3, List.map_cons, List.prod_cons]

/-- the schoolbook product, an example of a right product -/
def padd : List K → List K → List K
  | [], q => q
  | p, [] => p
  | a :: p, b :: q => (a + b) :: padd p q

def pmul : List K → List K → List K
  | [], _ => []
  | a :: p, q => padd (q.map (a * ·)) (0 :: pmul p q)

omit [DecidableEq K] in
lemma padd_ok : ∀ p q : List K, polyOf (padd p q) = polyOf p + polyOf q
  | [], q => by simp [padd, polyOf]
  | a :: p, [] => by simp [padd, polyOf]
  | a :: p, b :: q => by
    have := padd_ok p q
    simp only [padd, polyOf, List.foldr_cons] at this ⊢
    rw [this, map_add]; ring

omit [DecidableEq K] in
lemma pmul_ok : ∀ p q : List K, polyOf (pmul p q) = polyOf p * polyOf q
  | [], q => by simp [pmul, polyOf]
  | a :: p, q => by
    have e1 : ∀ q : List K, polyOf (q.map (a * ·)) = C a * polyOf q := by
      intro q
      induction q with
      | nil => simp [polyOf]
      | cons b q ih =>
        simp only [polyOf, List.map_cons, List.foldr_cons] at ih ⊢
        rw [ih, map_mul]; ring
    have e2 := pmul_ok p q
    have e3 : polyOf (0 :: pmul p q) = X * polyOf (pmul p q) := by simp [polyOf]
    have e4 : polyOf (a :: p) = C a + X * polyOf p := rfl
    rw [pmul, padd_ok, e1, e3, e2, e4]; ring

/-- a matrix of order 3 over ℚ, leading dimension 4 -/
abbrev lukex : Mem ℚ := memOf [1, 2, 3, 77, 0, 4, 5, 77, 6, 7, 8]

example : Rect lukex 3 3 0 4 ∧ NonZeroDraws 3 (fun _ _ => (1 : ℚ)) ∧ GemmOk exG ∧ TrsmOk exT ∧ Modelled .luk 100 0 3 ∧ Modelled .auto 100 0 3 :=
  ⟨⟨WF_memOf _, OkIn_memOf (by decide), by decide⟩, fun n hn _ => ⟨0, by omega, one_ne_zero⟩, gemmClassic_ok .modular,
    ftrsm_TrsmOk .modular (gemmClassic_ok .modular), Or.inr (Or.inl rfl), Or.inr (Or.inr (Or.inl ⟨rfl, Or.inl (by decide)⟩))⟩

/-- `X³ - 13 X² - 9 X + 15`, in one factor, or in two when the vector drawn lies in an invariant subspace -/
example : result (charPolyLUK (fun _ => 9) (fun _ _ => 1) .modular exG exT 3 0 4) lukex = some [[15, -9, -13, 1]] := by decide +kernel
example : result (charPolyLUK (fun _ => 9) (fun _ i => if i = 1 then 1 else 0) .modular exG exT 3 0 3) (memOf [(1 : ℚ), 2, 0, 3, 4, 0, 5, 6, 7]) =
    some [[14, 33, -12, 1]] := by decide +kernel
example : result (charPolyLUK (fun _ => 9) (fun n i => if i + 1 = n then 1 else 0) .modular exG exT 3 0 3) (memOf [(1 : ℚ), 2, 0, 3, 4, 0, 5, 6, 7]) =
    some [[-2, -5, 1], [-7, 1]] := by decide +kernel
/-- the zero matrix -/
example : result (charPolyLUK (fun _ => 9) (fun _ _ => 1) .modular exG exT 3 0 3) (memOf (List.replicate 9 (0 : ℚ))) = some [[0, 0, 0, 1]] := by decide +kernel
/-- one polynomial: `(X² - 5 X - 2) (X - 7)` -/
example : result (charPoly pmul (Prog.fault .fuel) (Prog.fault .fuel) (fun _ => 9) (fun n i => if i + 1 = n then 1 else 0) .modular exG exT 2 .auto 3 3 0 3)
    (memOf [(1 : ℚ), 2, 0, 3, 4, 0, 5, 6, 7]) = some [14, 33, -12, 1] := by decide +kernel

end Verif.Props
