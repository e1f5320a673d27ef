import Verif.Proofs.MinPoly
import Verif.Props.CharPoly

/-!
# Property C76: minimal polynomials of a matrix and a vector
-/

namespace Verif.Props

open Verif.FF Verif.Spec Polynomial

variable {K : Type} [Field K] [DecidableEq K] {m m' : Mem K} {N A lda v incv : ℕ} {g : GemmFn K} {ts : TrsmFn K}

/-- no cell that exists before the call is changed, and nothing remains allocated -/
def Intact (m m' : Mem K) : Prop := m'.ok = m.ok ∧ ∀ x, m.ok x = true → m'.val x = m.val x

omit [DecidableEq K] in
lemma On.intact (h : On m m' ⟨A, lda, N, N⟩ (m.mat ⟨A, lda, N, N⟩)) : Intact m m' := by
  refine ⟨h.step.ok, fun x hx => ?_⟩
  by_cases c : (Win.mk A lda N N).Has x
  · obtain ⟨i, hi, j, hj, rfl⟩ := c
    exact h.val hi hj
  · exact h.step.frame x hx c

/-- the vector of coefficients of a monic polynomial of degree at most `N`: its last coefficient is 1 -/
def MonicUpTo (N : ℕ) (l : List K) : Prop := l.getLast? = some 1 ∧ l.length ≤ N + 1

omit [DecidableEq K] in
lemma Coeffs.upTo {l : List K} (h : Coeffs N l) : MonicUpTo N l := by
  obtain ⟨l0, rfl, h⟩ := h
  exact ⟨by simp, by simpa using h⟩

/-- `MatVecMinPoly` returns, for every matrix and every vector (null or not) over every field, the minimal polynomial of the vector for
the matrix; neither is changed. -/
theorem C76_matVec_partial (jk : ℕ → ℕ) (cat : Cat) (hg : GemmOk g) (ht : TrsmOk ts) (hN : 1 ≤ N) (hA : Rect m N N A lda)
    (hv : OkIn m (vw v incv N)) : Run (matVecMinPoly jk cat g ts N A lda v incv) m (fun l m' =>
      Intact m m' ∧ MonicUpTo N l ∧ IsMinPolyOf N (m.mat ⟨A, lda, N, N⟩) (fun i => m.val (v + i * incv)) (polyOf l)) :=
  (matVecMinPoly_spec jk cat hg ht hN hA.on hv).mono (fun _ _ ⟨h1, h2, h3⟩ => ⟨On.intact h1, Coeffs.upTo h2, h3⟩)

/-- the same for `MinPoly`, with the vector drawn -/
theorem C76_minPoly (jk : ℕ → ℕ) (rnd : ℕ → K) (cat : Cat) (hg : GemmOk g) (ht : TrsmOk ts) (hA : Rect m N N A lda) :
    Run (minPoly jk rnd cat g ts N A lda) m (fun l m' =>
      Intact m m' ∧ MonicUpTo N l ∧ IsMinPolyOf N (m.mat ⟨A, lda, N, N⟩) rnd (polyOf l)) :=
  (minPoly_spec jk rnd cat hg ht hA.on).mono (fun _ _ ⟨h1, h2, h3⟩ => ⟨On.intact h1, Coeffs.upTo h2, h3⟩)

section
omit [DecidableEq K]
variable {a : ℕ → ℕ → K} {w : ℕ → K} {l : List K}

/-- it divides the minimal polynomial of the matrix -/
theorem C76_divides_minpoly (h : IsMinPolyOf N a w (polyOf l)) : polyOf l ∣ minpoly K (toMat N N a) :=
  (h.2 _).1 (by rw [polyVec, minpoly.aeval, Matrix.zero_mulVec])

/-- and thus the characteristic polynomial; when its degree is the order of the matrix it is this polynomial, and the minimal
polynomial of the matrix as well -/
theorem C76_divides_charpoly (h : IsMinPolyOf N a w (polyOf l)) : polyOf l ∣ (toMat N N a).charpoly ∧
    (l.length = N + 1 → MonicUpTo N l → polyOf l = (toMat N N a).charpoly ∧ polyOf l = minpoly K (toMat N N a)) := by
  have h1 := C76_divides_minpoly h
  have h2 := Matrix.minpoly_dvd_charpoly (toMat N N a)
  refine ⟨h1.trans h2, fun hl hm => ?_⟩
  have hd : (polyOf l).natDegree = N := by
    have hc : (polyOf l).coeff N = 1 := by
      rw [C75_coeff, List.getD_eq_getElem?_getD]
      have := hm.1
      rw [List.getLast?_eq_getElem?, hl, Nat.add_sub_cancel] at this
      rw [this, Option.getD_some]
    refine natDegree_eq_of_le_of_coeff_ne_zero ?_ (by rw [hc]; exact one_ne_zero)
    rw [natDegree_le_iff_coeff_eq_zero]
    intro i hi
    rw [C75_coeff, List.getD_eq_getElem?_getD, List.getElem?_eq_none (by omega), Option.getD_none]
  have hc : (toMat N N a).charpoly.natDegree = N := by rw [Matrix.charpoly_natDegree_eq_dim, Fintype.card_fin]
  have mc := Matrix.charpoly_monic (toMat N N a)
  have mm := minpoly.monic (Matrix.isIntegral (toMat N N a))
  have e : polyOf l = (toMat N N a).charpoly := (eq_of_monic_of_dvd_of_natDegree_le h.1 mc (h1.trans h2) (by rw [hd, hc])).symm
  refine ⟨e, ?_⟩
  refine (eq_of_monic_of_dvd_of_natDegree_le h.1 mm h1 ?_).symm
  rw [e]
  exact natDegree_le_of_dvd h2 mc.ne_zero

/-- for a nonzero vector the polynomial is not constant -/
theorem C76_nonconstant (h : IsMinPolyOf N a w (polyOf l)) (hw : ∃ i < N, w i ≠ 0) : polyOf l ≠ 1 := by
  intro e
  obtain ⟨i, hi, hwi⟩ := hw
  have := (h.2 1).2 (by rw [e])
  rw [polyVec, map_one, Matrix.one_mulVec] at this
  exact hwi (congrFun this ⟨i, hi⟩)
end

omit [Field K] [DecidableEq K] in
lemma faultOf_bind {α β : Type} {q : Prog K α} {r : α → Prog K β} {e : Fault} (h : faultOf q m = some e) : faultOf (q >>= r) m = some e := by
  unfold faultOf at h ⊢
  cases hq : q m with
  | error f =>
    rw [hq] at h
    have : (q >>= r) m = .error f := by simp only [bind, Prog.bind, hq]
    rw [this]; exact h
  | ok x => rw [hq] at h; cases h

/-- the part missing in `C76_matVec_partial`: for a matrix of order 0 `LUdivine_construct` calls itself with the same arguments until
the stack is exhausted, whatever the depth allowed -/
theorem C76_empty_violated (cat : Cat) (g : GemmFn K) (ts : TrsmFn K) (A lda ldx u incu : ℕ) :
    ∀ (f M X : ℕ) (P : Arr ℕ) (cx : Bool) (m : Mem K), faultOf (conRec cat g ts A lda ldx u incu f M 0 X P cx) m = some .fuel := by
  intro f
  induction f with
  | zero => intros; rfl
  | succ f ih =>
    intro M X P cx m
    have e := ih 0 X P cx m
    unfold conRec
    rw [if_neg (by omega)]
    unfold conStep
    simp only [Nat.min_zero, Nat.zero_div]
    generalize conRec cat g ts A lda ldx u incu f 0 0 X P cx = q at e
    exact faultOf_bind e

/-- a matrix of order 3 over ℚ (leading dimension 4) and a vector of increment 2 -/
abbrev minex : Mem ℚ := memOf [0, 1, 0, 77, 0, 0, 1, 77, 0, 0, 0, 77, 1, 77, 2, 77, 3]

example : Rect minex 3 3 0 4 ∧ OkIn minex (vw 12 2 3) ∧ GemmOk exG ∧ TrsmOk exT :=
  ⟨⟨WF_memOf _, OkIn_memOf (by decide), by decide⟩, OkIn_memOf (by decide), gemmClassic_ok .modular, ftrsm_TrsmOk .modular (gemmClassic_ok .modular)⟩

/-- `X³` for the nilpotent matrix -/
example : result (matVecMinPoly (fun _ => 9) .modular exG exT 3 0 4 12 2) minex = some [0, 0, 0, 1] := by decide +kernel

/-- `X² - 3 X + 2`, and `X - 1` when the vector drawn misses an eigenspace -/
example : result (minPoly (fun _ => 9) (fun _ => 1) .modular exG exT 3 0 3) (memOf [(1 : ℚ), 0, 0, 0, 2, 0, 0, 0, 1]) = some [2, -3, 1] := by decide +kernel
example : result (minPoly (fun _ => 9) (fun i => if i = 1 then 0 else 1) .modular exG exT 3 0 3) (memOf [(1 : ℚ), 0, 0, 0, 2, 0, 0, 0, 1]) = some [-1, 1] := by
  decide +kernel

end Verif.Props
