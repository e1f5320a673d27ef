import Verif.Model.RnsOps
import Verif.Proofs.TrsmMP2

/-!
# Proofs for the operations over `RNSIntegerMod`
-/

namespace Verif.MP

open Verif.RNS Verif.FF Verif.Lazy Finset

/-- a double loop in which step `(i, j)` sets the cell `(i, j)` of the window -/
lemma Run_upd {K : Type} {r c B ldb : ℕ} {m : Mem K} (f : ℕ → ℕ → Prog K Unit) (v : ℕ → ℕ → K) (hok : OkIn m ⟨B, ldb, r, c⟩) (hl : c ≤ ldb)
    (hf : ∀ i < r, ∀ j < c, ∀ m' : Mem K, m'.ok = m.ok →
      (∀ a, m.ok a = true → (∀ i' < r, ∀ j' < c, (i', j') ≠ (i, j) → a ≠ B + i' * ldb + j') → m'.val a = m.val a) →
      Run (f i j) m' (fun _ m'' => m'' = m'.set (B + i * ldb + j) (v i j))) :
    Run (loop r fun i => loop c fun j => f i j) m (fun _ m' => Step m m' ⟨B, ldb, r, c⟩ v) := by
  refine Run_rows (W := ⟨B, ldb, r, c⟩) v hok (fit_Inj hl) ?_
  intro i hi m1 h1 h2 h3
  refine Run_vec (n := c) (Y := B + i * ldb) (inc := 1) (fun j => v i j) ?_ (vw_Inj Nat.one_pos) ?_
  · rintro a ⟨j, hj, z, hz, rfl⟩
    rw [h1]
    refine hok _ ⟨i, hi, j, hj, ?_⟩
    have : z = 0 := by simpa using hz
    simp [this]
  · intro j hj m2 h4 h5
    have := hf i hi j hj m2 (h4.trans h1) (fun a ha hn => by
      rw [h5 a (fun s hs hsj => by rw [Nat.mul_one]; exact hn i hi s hs (by simpa using hsj))]
      exact h3 a ha (fun i' hi' hne j' hj' => hn i' hi' j' hj' (by simp [hne])))
    rw [Nat.mul_one]
    exact this

section ctx
variable {E : Env} {R : Rns} {T : ModTables} {p k : ℕ} {m : Mem (RV R)}

/-- The window `W` holds integers congruent to `z` modulo `p`, not larger than `p` times the sum of the moduli; nothing else has changed. -/
def ResMod (R : Rns) (p : ℕ) (m m' : Mem (RV R)) (W : Win) (z : ℕ → ℕ → ℤ) : Prop :=
  ∃ y : ℕ → ℕ → ℤ, Step m m' W (fun i j => (y i j : RV R)) ∧ ∀ i < W.r, ∀ j < W.c, y i j ≡ z i j [ZMOD p] ∧ |y i j| ≤ p * sumM R

lemma freduceMod_spec (C : Ctx E R T p k) {r c B ldb : ℕ} (hok : OkIn m ⟨B, ldb, r, c⟩) (hl : c ≤ ldb) (z : ℕ → ℕ → ℤ)
    (hz : ∀ i < r, ∀ j < c, m.mat ⟨B, ldb, r, c⟩ i j = (z i j : RV R)) (hb : ∀ i < r, ∀ j < c, 4 * |z i j| ≤ prodM R.size R.basis) :
    Run (freduceMod E R T r c B ldb) m (fun _ m' => ResMod R p m m' ⟨B, ldb, r, c⟩ z) := by
  unfold freduceMod
  by_cases h : c = 0 ∨ r = 0
  · rw [if_pos h, Run_pure]
    refine ⟨z, ⟨rfl, le_rfl, fun i hi j hj => ?_, fun _ _ _ => rfl⟩, fun i hi j hj => ?_⟩
    · simp only at hi hj; omega
    · simp only at hi hj; omega
  · rw [if_neg h]
    exact redWin_spec C hok hl z hz hb

/-- an operation, then the reduction -/
lemma after_step (C : Ctx E R T p k) {r c B ldb : ℕ} {m1 : Mem (RV R)} (hok : OkIn m ⟨B, ldb, r, c⟩) (hl : c ≤ ldb) {g : ℕ → ℕ → RV R} (z : ℕ → ℕ → ℤ)
    (s : Step m m1 ⟨B, ldb, r, c⟩ g) (hz : ∀ i < r, ∀ j < c, g i j = (z i j : RV R)) (hb : ∀ i < r, ∀ j < c, 4 * |z i j| ≤ prodM R.size R.basis) :
    Run (freduceMod E R T r c B ldb) m1 (fun _ m' => ResMod R p m m' ⟨B, ldb, r, c⟩ z) := by
  refine (freduceMod_spec C (m := m1) (fun a ha => by rw [s.ok]; exact hok a ha) hl z (fun i hi j hj => (s.val i hi j hj).trans (hz i hi j hj)) hb).mono ?_
  rintro _ m' ⟨y, s', hy⟩
  exact ⟨y, ⟨s'.ok.trans s.ok, s.next.trans s'.next, s'.val, fun a ha hn => (s'.frame a (by rw [s.ok]; exact ha) hn).trans (s.frame a ha hn)⟩, hy⟩

lemma scalRV_spec {r c A lda B ldb : ℕ} (alpha : RV R) (hA : OkIn m ⟨A, lda, r, c⟩) (hB : OkIn m ⟨B, ldb, r, c⟩) (hl : c ≤ ldb)
    (hd : (Win.mk A lda r c).Disj ⟨B, ldb, r, c⟩ ∨ (A = B ∧ lda = ldb)) :
    Run (scalRV R r c alpha A lda B ldb) m (fun _ m' => Step m m' ⟨B, ldb, r, c⟩ (fun i j => alpha * m.mat ⟨A, lda, r, c⟩ i j)) := by
  unfold scalRV
  refine Run_upd _ _ hB hl (fun i hi j hj m' h1 h2 => ?_)
  simp only [Run_bind, Run_load, Run_store]
  have okA : m.ok (A + i * lda + j) = true := hA _ ⟨i, hi, j, hj, rfl⟩
  refine ⟨by rw [h1]; exact okA, by rw [h1]; exact hB _ ⟨i, hi, j, hj, rfl⟩, ?_⟩
  rw [h2 _ okA]
  · rfl
  · intro i' hi' j' hj' hne e
    rcases hd with hd | ⟨rfl, rfl⟩
    · exact hd _ ⟨i, hi, j, hj, rfl⟩ ⟨i', hi', j', hj', e⟩
    · have := fit_Inj (M := r) (P := A) hl i hi j hj i' hi' j' hj' e
      exact hne (by rw [this.1, this.2])

lemma gerRV_spec {M N x incx y incy A lda : ℕ} (alpha : RV R) (hx : OkIn m ⟨x, incx, M, 1⟩) (hy : OkIn m ⟨y, incy, N, 1⟩) (hA : OkIn m ⟨A, lda, M, N⟩)
    (hl : N ≤ lda) (dx : (Win.mk x incx M 1).Disj ⟨A, lda, M, N⟩) (dy : (Win.mk y incy N 1).Disj ⟨A, lda, M, N⟩) :
    Run (gerRV R M N alpha x incx y incy A lda) m (fun _ m' => Step m m' ⟨A, lda, M, N⟩
      (fun i j => m.mat ⟨A, lda, M, N⟩ i j + alpha * m.val (x + i * incx) * m.val (y + j * incy))) := by
  unfold gerRV
  refine Run_upd _ _ hA hl (fun i hi j hj m' h1 h2 => ?_)
  simp only [Run_bind, Run_load, Run_store]
  have hx' : (Win.mk x incx M 1).Has (x + i * incx) := ⟨i, hi, 0, Nat.one_pos, rfl⟩
  have hy' : (Win.mk y incy N 1).Has (y + j * incy) := ⟨j, hj, 0, Nat.one_pos, rfl⟩
  have hA' : (Win.mk A lda M N).Has (A + i * lda + j) := ⟨i, hi, j, hj, rfl⟩
  refine ⟨by rw [h1]; exact hx _ hx', by rw [h1]; exact hy _ hy', by rw [h1]; exact hA _ hA', by rw [h1]; exact hA _ hA', ?_⟩
  rw [h2 _ (hx _ hx') (fun i' hi' j' hj' _ e => dx _ hx' ⟨i', hi', j', hj', e⟩), h2 _ (hy _ hy') (fun i' hi' j' hj' _ e => dy _ hy' ⟨i', hi', j', hj', e⟩),
    h2 _ (hA _ hA') (fun i' hi' j' hj' hne e => by
      have := fit_Inj (M := M) (P := A) hl i hi j hj i' hi' j' hj' e
      exact hne (by rw [this.1, this.2]))]
  rfl

end ctx

end Verif.MP
