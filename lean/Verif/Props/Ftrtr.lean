import Verif.Proofs.Ftrtr
import Verif.Spec.Mat
import Verif.Props.Trsm

/-!
# Property C25: triangular inversion, product of triangular factors
-/

namespace Verif.Props

open Verif.FF Finset

variable {K : Type} [Field K] [DecidableEq K] {m : Mem K} {u : Uplo} {d : Diag} {side : Side} {t : TrFn K} {g : GemmFn K}
  {n A lda thr : ℕ}

/-- calling conditions for an operation in place on a square matrix -/
structure Square (m : Mem K) (n A lda : ℕ) : Prop where
  wf : WF m
  ok : OkIn m ⟨A, lda, n, n⟩
  ld : n ≤ lda

omit [Field K] [DecidableEq K] in
lemma Square.on (h : Square m n A lda) : On m m ⟨A, lda, n, n⟩ (m.mat ⟨A, lda, n, n⟩) := On.start h.wf h.ok h.ld

/-- Specification of `ftrtri`: the stored triangle becomes the inverse, the entries that are not stored keep their values,
nothing else changes. -/
def Inverts (m m' : Mem K) (u : Uplo) (d : Diag) (n A lda : ℕ) : Prop :=
  ∃ Z, Step m m' ⟨A, lda, n, n⟩ Z ∧
    Spec.IsInv n (Spec.tri u d (m.mat ⟨A, lda, n, n⟩)) (Spec.tri u d Z) ∧
    ∀ i < n, ∀ j < n, ¬ Spec.inTri u d i j → Z i j = m.mat ⟨A, lda, n, n⟩ i j

omit [Field K] [DecidableEq K] in
lemma inT_inTri {i j : ℕ} (h : inT u d i j) : Spec.inTri u d i j := by
  rcases h with h | h
  · cases u <;> exact Or.inl h
  · exact Or.inr h

omit [DecidableEq K] in
lemma InvF.spec {m' : Mem K} {Z : ℕ → ℕ → K} (h : On m m' ⟨A, lda, n, n⟩ Z) (hI : InvF u d n (m.mat ⟨A, lda, n, n⟩) Z) :
    Inverts m m' u d n A lda :=
  ⟨Z, h.step, Spec.IsInv.of_left hI.2, fun i hi j hj hn => hI.1 i hi j hj (fun hh => hn (inT_inTri hh))⟩

/-- C25: `ftrtri`, every threshold at least 1, any correct `ftrmm`. -/
theorem C25_ftrtri (ht : TrmmOk t) (hthr : 1 ≤ thr) (h : Square m n A lda) (hr : Regular m d n A lda) :
    Run (ftrtri t u d lda thr (n + 1) n A) m (fun _ m' => Inverts m m' u d n A lda) :=
  (ftrtri_on ht hthr (n + 1) n A m _ (Nat.lt_succ_self n) h.on hr).mono (fun _ _ ⟨_, h1, h2⟩ => InvF.spec h1 h2)

/-- C25 with the `ftrmm` of C12 and the Winograd product of C10. -/
theorem C25_ftrtri_winograd (cat : Cat) (th : ℕ) (hth : 2 ≤ th) (hthr : 1 ≤ thr) (h : Square m n A lda) (hr : Regular m d n A lda) :
    Run (ftrtri (ftrmm cat (gemmAuto cat th)) u d lda thr (n + 1) n A) m (fun _ m' => Inverts m m' u d n A lda) :=
  C25_ftrtri (ftrmm_TrmmOk cat (gemmAuto_ok cat th hth)) hthr h hr

/-- Specification of `ftrtrm`: with `U` the upper factor (diagonal `d`) and `L` the lower factor (the other diagonal) stored in
`A`, the matrix becomes `U L` (left) or `L U` (right). -/
def FactorProduct (side : Side) (m m' : Mem K) (d : Diag) (n A lda : ℕ) : Prop :=
  Step m m' ⟨A, lda, n, n⟩ (fun i j =>
    let U := Spec.tri .upper d (m.mat ⟨A, lda, n, n⟩)
    let L := Spec.tri .lower (match d with | .unit => .nonUnit | .nonUnit => .unit) (m.mat ⟨A, lda, n, n⟩)
    match side with
    | .left => Spec.mul n U L i j
    | .right => Spec.mul n L U i j)

/-- C25: `ftrtrm`. -/
theorem C25_ftrtrm (ht : TrmmOk t) (hg : GemmOk g) (h : Square m n A lda) :
    Run (ftrtrm t g side d lda (n + 1) n A) m (fun _ m' => FactorProduct side m m' d n A lda) :=
  (ftrtrm_on ht hg (n + 1) n A m _ (Nat.lt_succ_self n) h.on).mono (fun _ _ h1 => h1.step.congr (fun i _ j _ => by
    cases side <;> cases d <;> rfl))

/-- C25: inverting both factors of an LU decomposition and multiplying them (the last step of `Invert`) gives the inverse of
the product: if `U`, `L` are invertible, `U⁻¹ L⁻¹` is the inverse of `L U`. -/
theorem C25_inverse_of_product {L U L' U' : ℕ → ℕ → K} (hL : Spec.IsInv n L L') (hU : Spec.IsInv n U U') :
    Spec.IsInv n (Spec.mul n L U) (Spec.mul n U' L') := by
  refine Spec.IsInv.of_left ?_
  have h1 := hL.1
  have h2 := hU.1
  rw [← Spec.toMat_ext, Spec.toMat_mul, Spec.toMat_one] at h1 h2
  rw [← Spec.toMat_ext, Spec.toMat_mul, Spec.toMat_mul, Spec.toMat_mul, Spec.toMat_one, Matrix.mul_assoc,
    ← Matrix.mul_assoc (Spec.toMat n n L'), h1, Matrix.one_mul, h2]

/-- Specification of `trinv_left`: the lower unit triangle of `X` is the inverse of the one of `L`, the other entries are copied
from `L`. -/
def TrInv (m m' : Mem K) (n L ldl X ldx : ℕ) : Prop :=
  ∃ Z, Step m m' ⟨X, ldx, n, n⟩ Z ∧
    Spec.IsInv n (Spec.tri .lower .unit (m.mat ⟨L, ldl, n, n⟩)) (Spec.tri .lower .unit Z) ∧
    ∀ i < n, ∀ j < n, i ≤ j → Z i j = m.mat ⟨L, ldl, n, n⟩ i j

/-- C25: `trinv_left`. -/
theorem C25_trinv_left (ht : TrmmOk t) (hthr : 1 ≤ thr) {L ldl X ldx : ℕ} (h : Square m n X ldx) (hL : OkIn m ⟨L, ldl, n, n⟩)
    (hd : (Win.mk L ldl n n).Disj ⟨X, ldx, n, n⟩) :
    Run (trinvLeft t thr n L ldl X ldx) m (fun _ m' => TrInv m m' n L ldl X ldx) := by
  unfold trinvLeft
  rw [Run_bind]
  refine (fassign_spec h.wf hL h.ok h.ld (hd.safe rfl rfl)).mono (fun _ m1 s1 => ?_)
  have h1 : Square m1 n X ldx := ⟨h.wf.step s1, h.ok.step s1, h.ld⟩
  refine (ftrtri_on ht hthr (n + 1) n X m1 _ (Nat.lt_succ_self n) h1.on (by intro hh; cases hh)).mono (fun _ m2 ⟨Z, h2, hI⟩ => ?_)
  have e : ∀ i < n, ∀ j < n, m1.mat ⟨X, ldx, n, n⟩ i j = m.mat ⟨L, ldl, n, n⟩ i j := fun i hi j hj => s1.mat hi hj
  have hI := hI.congr e (fun _ _ _ _ => rfl)
  refine ⟨Z, s1.trans h2.step, Spec.IsInv.of_left hI.2, fun i hi j hj hij => hI.1 i hi j hj (fun hh => ?_)⟩
  rcases hh with hh | ⟨_, hh⟩
  · simp only [below] at hh; omega
  · cases hh

/-! ### concrete cases -/

/-- a `3 × 3` matrix with leading dimension 4 -/
def fex : Mem ℚ := memOf [2, 3, 5, 77, 7, 4, 1, 77, 6, 8, 5]

lemma fex_square : Square fex 3 0 4 := ⟨WF_memOf _, OkIn_memOf (by decide), by decide⟩

example : Square fex 3 0 4 ∧ Regular fex .nonUnit 3 0 4 := ⟨fex_square, fun _ i hi => by
  rcases (by omega : i = 0 ∨ i = 1 ∨ i = 2) with rfl | rfl | rfl <;> decide +kernel⟩

example : after (ftrtri (ftrmm .modular (gemmClassic .modular)) .upper .nonUnit 4 1 4 3 0) fex 2 = some (-17/40) ∧
    after (ftrtri (ftrmm .modular (gemmClassic .modular)) .upper .nonUnit 4 7 4 3 0) fex 2 = some (-17/40) ∧
    after (ftrtri (ftrmm .modular (gemmClassic .modular)) .lower .unit 4 2 4 3 0) fex 8 = some 50 ∧
    after (ftrtri (ftrmm .modular (gemmClassic .modular)) .lower .unit 4 2 4 3 0) fex 3 = some 77 ∧
    after (ftrtri (ftrmm .modular (gemmClassic .modular)) .lower .unit 4 2 4 3 0) fex 0 = some 2 := by decide +kernel

example : after (ftrtrm (ftrmm .modular (gemmClassic .modular)) (gemmClassic .modular) .left .unit 4 4 3 0) fex 0 = some 53 ∧
    after (ftrtrm (ftrmm .modular (gemmClassic .modular)) (gemmClassic .modular) .right .unit 4 4 3 0) fex 10 = some 43 := by
  decide +kernel

/-- a singular diagonal is detected as a fault -/
example : faultOf (ftrtri (ftrmm .modular (gemmClassic .modular)) .upper .nonUnit 2 1 3 2 0) (memOf [1, 2, 0, 0] : Mem ℚ) =
    some .divZero := by decide +kernel

/-- With threshold 0 the recursion never ends: whatever the fuel, it runs out. -/
theorem C25_threshold_zero_diverges (fuel : ℕ) : ∀ (n A : ℕ) (m : Mem K), 0 < n →
    faultOf (ftrtri t u d lda 0 fuel n A) m = some .fuel := by
  induction fuel with
  | zero => intro n A m _; rfl
  | succ fuel ih =>
    intro n A m hn
    have key : ∀ {p : Prog K Unit} {q : Unit → Prog K Unit}, faultOf p m = some .fuel → faultOf (p >>= q) m = some .fuel := by
      intro p q hp
      have e : (p >>= q) m = Prog.bind p q m := rfl
      unfold faultOf at hp ⊢
      rw [e, Prog.bind]
      cases hpm : p m with
      | error e => rw [hpm] at hp; exact hp
      | ok a => rw [hpm] at hp; cases hp
    unfold ftrtri
    rw [if_neg (by omega), if_neg (by omega)]
    by_cases h1 : n = 1
    · subst h1
      cases fuel with
      | zero => rfl
      | succ fuel =>
        have e1 : ftrtri t u d lda 0 (fuel + 1) (1 / 2) A = (pure () : Prog K Unit) := by
          unfold ftrtri
          rw [if_pos rfl]
        show faultOf (ftrtri t u d lda 0 (fuel + 1) (1 / 2) A >>= fun _ => _) m = _
        rw [e1]
        show faultOf (ftrtri t u d lda 0 (fuel + 1) (1 - 1 / 2) (A + 1 / 2 * (lda + 1)) >>= fun _ => _) m = _
        exact key (ih 1 _ m Nat.one_pos)
    · exact key (ih (n / 2) A m (by omega))

end Verif.Props
