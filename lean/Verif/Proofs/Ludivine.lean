import Verif.Proofs.LudSmall
import Verif.Proofs.Gemm
import Verif.Proofs.Trsm

/-!
# LUdivine
-/

namespace Verif.FF

open Finset Verif.Perm Verif.Spec Verif.Spec.Perm Verif.Pluq Verif.Lud

variable {K : Type} [Field K] [DecidableEq K]
variable {ta : Tr} {m0 m m' : Mem K} {W : Win} {X V : ℕ → ℕ → K} {d : Diag} {sing : Bool} {g : GemmFn K} {ts : TrsmFn K}

/-- a memory holding a matrix -/
def memMat (r c : ℕ) (X : ℕ → ℕ → K) : Mem K := ⟨fun a => X (a / c) (a % c), fun a => decide (a < r * c), r * c⟩

omit [Field K] [DecidableEq K] in
lemma memMat_on (r c : ℕ) (X : ℕ → ℕ → K) : On (memMat r c X) (memMat r c X) ⟨0, c, r, c⟩ X := by
  have wf : WF (memMat r c X) := fun a ha => by
    have ha : r * c ≤ a := ha
    simp only [memMat, decide_eq_false_iff_not]; omega
  have ok : OkIn (memMat r c X) ⟨0, c, r, c⟩ := by
    rintro a ⟨i, hi, j, hj, rfl⟩
    simp only [] at hi hj
    simp only [memMat, Win.adr, decide_eq_true_eq]
    have : (i + 1) * c ≤ r * c := Nat.mul_le_mul_right _ hi
    rw [Nat.succ_mul] at this
    omega
  refine (On.start wf ok le_rfl).congr (fun i hi j hj => ?_)
  simp only [] at hi hj
  have hc : 0 < c := by omega
  simp only [Mem.mat, memMat, Win.adr, zero_add]
  rw [Nat.mul_comm i c, Nat.mul_add_div hc, Nat.mul_add_mod, Nat.div_eq_of_lt hj, Nat.mod_eq_of_lt hj, Nat.add_zero]

/-- every matrix has a CUP decomposition: run `LUdivine` on it -/
theorem allCup : AllCup K d := by
  intro r c X
  have h := ludRec_spec (K := K) (d := d) (sing := false) (ta := .no) (cutoff := 1) (lda := c) .generic
    (gemmClassic_ok (K := K) .generic) (ftrsm_TrsmOk .generic (gemmClassic_ok (K := K) .generic)) (Or.inl le_rfl) (by simp) (r + 1)
    (memMat r c X) (memMat r c X) ⟨0, c, r, c⟩ X ⟨min r c, id⟩ ⟨r, id⟩ rfl (Nat.lt_succ_self _) le_rfl le_rfl (memMat_on r c X)
  obtain ⟨y, m', -, hp⟩ := h
  obtain ⟨Y, -, hY⟩ := hp.dec
  exact ⟨Y, _, _, _, hY (by simp)⟩

/-- `LUdivine` -/
theorem ludivine_spec (cat : Cat) (hg : GemmOk g) (ht : TrsmOk ts) {cutoff : ℕ} (hcut : cutoff ≤ 1 ∨ (ta = .no ∧ sing = false))
    {P Q : Arr ℕ} (hP : min W.r W.c ≤ P.len) (hQ : lr ta W ≤ Q.len) (h : OnL ta m0 m W V) :
    Run (ludivine cat g ts cutoff ta d sing W.r W.c W.p W.ld P Q) m (LudPost sing d ta m0 W V P.len Q.len) := by
  unfold ludivine
  cases ta with
  | no => exact ludRec_spec cat hg ht hcut (fun _ => allCup) (W.r + 1) m0 m W V P Q rfl (Nat.lt_succ_self _) hP hQ h
  | yes => exact ludRec_spec cat hg ht hcut (fun _ => allCup) (W.c + 1) m0 m W V P Q rfl (Nat.lt_succ_self _) (by rw [min_comm]; exact hP) hQ h

end Verif.FF
