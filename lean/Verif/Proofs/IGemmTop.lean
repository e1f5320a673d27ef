import Verif.Proofs.IGemmDrv

/-!
# Product of matrices of 64-bit integers: scaling and entry points
-/

namespace Verif.IG

open Finset Verif.FF

/-- the size of the last cache as used by `BlockingFactor` -/
def top (c : Caches) : ℤ := if c.tlb = 0 then max c.l2 c.l3 else min (max c.l2 c.l3) c.tlb

lemma blocking_spec {v : ℕ} {ca : Caches} {rows depth : ℕ} (h1 : 2 * (4 + 2 * v) * 8 ≤ toSize ca.l1) (h2 : toSize ca.l1 ≤ toSize (top ca))
    (hr : 0 < rows) (hd : 0 < depth) : ∃ mc kc, blockingFactor v ca rows depth = .ok (mc, kc) ∧ 0 < mc ∧ 0 < kc := by
  have hk : 0 < toSize ca.l1 / (2 * (4 + 2 * v) * 8) := Nat.div_pos h1 (by omega)
  have hk0 : 0 < min depth (toSize ca.l1 / (2 * (4 + 2 * v) * 8)) := lt_min hd hk
  refine ⟨min rows (toSize (top ca) / (8 * min depth (toSize ca.l1 / (2 * (4 + 2 * v) * 8)))),
    min depth (toSize ca.l1 / (2 * (4 + 2 * v) * 8)), ?_, lt_min hr (Nat.div_pos ?_ (by omega)), hk0⟩
  · simp only [blockingFactor, top]
    rw [if_neg (by omega)]
  · have h3 : toSize ca.l1 / (2 * (4 + 2 * v) * 8) * (2 * (4 + 2 * v) * 8) ≤ toSize ca.l1 := Nat.div_mul_le_self _ _
    have h4 : toSize ca.l1 / (2 * (4 + 2 * v) * 8) * 8 ≤ toSize ca.l1 / (2 * (4 + 2 * v) * 8) * (2 * (4 + 2 * v) * 8) :=
      Nat.mul_le_mul_left _ (by omega)
    omega

section
variable {m0 m : Mem ℤ}

lemma iscalin_spec {n k A lda : ℕ} {beta : ℤ} {V : ℕ → ℕ → ℤ} (h : On m m ⟨A, lda, n, k⟩ V) (hb : ∀ i < n, ∀ j < k, I64 (beta * V i j)) :
    Run (iscalin n k beta A lda) m (fun _ m' => On m m' ⟨A, lda, n, k⟩ (fun i j => beta * V i j)) := by
  have hadr : ∀ i j, A + i * lda + j = (Win.mk A lda n k).adr i j := fun i j => rfl
  set T : ℕ → ℕ → ℤ := fun i j => beta * V i j with hT
  -- a loop over the entries
  have key : ∀ f : ℕ → ℕ → Prog ℤ Unit, (∀ i < n, ∀ j < k, ∀ m' : Mem ℤ, ∀ P : ℕ → ℕ → Prop, ¬ P i j → On m m' ⟨A, lda, n, k⟩ (mix P T V) →
      Run (f i j) m' (fun _ m'' => On m m'' ⟨A, lda, n, k⟩ (mix (fun i' j' => P i' j' ∨ i' = i ∧ j' = j) T V))) →
      Run (loop n (fun i => loop k (fun j => f i j))) m (fun _ m' => On m m' ⟨A, lda, n, k⟩ T) := by
    intro f hf
    refine (Run_loop (fun i m' => On m m' ⟨A, lda, n, k⟩ (mix (fun i' _ => i' < i) T V)) ?_ (fun i m1 hi h1 => ?_)).mono (fun _ m1 h1 => ?_)
    · exact h.congr (fun i' _ j' _ => (mix_neg (by omega)).symm)
    · refine (Run_loop (fun j m' => On m m' ⟨A, lda, n, k⟩ (mix (fun i' j' => i' < i ∨ i' = i ∧ j' < j) T V)) ?_ (fun j m2 hj h2 => ?_)).mono (fun _ m2 h2 => ?_)
      · exact mix_congr h1 (fun i' _ j' _ => by omega)
      · refine (hf i hi j hj m2 _ (by omega) h2).mono (fun _ m3 h3 => mix_congr h3 (fun i' _ j' _ => by omega))
      · exact mix_congr h2 (fun i' _ j' hj' => by
          have hj' : j' < k := hj'
          omega)
    · exact h1.congr (fun i' hi' j' _ => mix_pos (by exact hi'))
  unfold iscalin
  by_cases b1 : beta = 1
  · rw [if_pos b1, Run_pure]
    exact h.congr (fun i _ j _ => by rw [hT, b1]; simp)
  rw [if_neg b1]
  by_cases b0 : beta = 0
  · rw [if_pos b0]
    refine key (fun i j => store (A + i * lda + j) 0) (fun i hi j hj m' P hP h' => ?_)
    exact store_mix h' (hadr i j) hi hj (by rw [hT, b0]; simp)
  rw [if_neg b0]
  refine key (fun i j => do
    let x ← load (A + i * lda + j)
    let y ← chk (if beta = -1 then -x else x * beta)
    store (A + i * lda + j) y) (fun i hi j hj m' P hP h' => ?_)
  rw [Run_bind]
  refine load_mix h' (hadr i j) hi hj hP ?_
  have hx : (if beta = -1 then -(V i j) else V i j * beta) = T i j := by
    rw [hT]
    split_ifs with hc
    · rw [hc]; ring
    · ring
  rw [Run_bind]
  refine Run_chk ?_ ?_
  · rw [hx]; exact hb i hi j hj
  · rw [hx]
    exact store_mix h' (hadr i j) hi hj rfl

theorem igemm_spec {v : ℕ} {ca : Caches} {tA tB : Tr} {rows cols depth : ℕ} {alpha beta : ℤ} {A lda B ldb C ldc : ℕ}
    {a b V : ℕ → ℕ → ℤ} (hv : 0 < v) (h1 : 2 * (4 + 2 * v) * 8 ≤ toSize ca.l1) (h2 : toSize ca.l1 ≤ toSize (top ca))
    (h : On m m ⟨C, ldc, cols, rows⟩ V) (hA : Opd m ⟨C, ldc, cols, rows⟩ m.next tA A lda rows depth a)
    (hB : Opd m ⟨C, ldc, cols, rows⟩ m.next (flip tB) B ldb cols depth b)
    (fa : ∀ i < rows, ∀ k < depth, Fits (a i k)) (fb : ∀ j < cols, ∀ k < depth, Fits (b j k))
    (bd : ∀ j < cols, ∀ i < rows, |beta * V j i| + ∑ k ∈ range depth, |alpha * (a i k * b j k)| < 2 ^ 63)
    (hal : alpha = 1 ∨ alpha = -1 ∨ alpha = 0 ∨ (Fits alpha ∧ (∀ i < rows, ∀ k < depth, Fits (alpha * a i k)) ∧
      ∀ j < cols, ∀ i < rows, ∑ k ∈ range depth, |a i k * b j k| < 2 ^ 31)) :
    Run (igemm v ca tA tB rows cols depth alpha A lda B ldb beta C ldc) m
      (fun _ m' => On m m' ⟨C, ldc, cols, rows⟩ (fun j i => beta * V j i + alpha * dot depth (a i) (b j))) := by
  unfold igemm
  by_cases hz : rows = 0 ∨ cols = 0
  · rw [if_pos hz, Run_pure]
    refine h.congr (fun j hj i hi => ?_)
    have hj : j < cols := hj
    have hi : i < rows := hi
    omega
  rw [if_neg hz, Run_bind]
  refine (iscalin_spec h (fun j hj i hi => I64_of_abs (lt_of_le_of_lt (le_add_of_nonneg_right (sum_nonneg (fun _ _ => abs_nonneg _))) (bd j hj i hi)))).mono
    (fun _ m1 h3 => ?_)
  by_cases hd : depth = 0 ∨ alpha = 0
  · rw [if_pos hd, Run_pure]
    refine h3.congr (fun j hj i hi => ?_)
    rcases hd with rfl | rfl
    · simp [dot]
    · simp
  rw [if_neg hd]
  obtain ⟨mc, kc, hbf, hmc, hkc⟩ := blocking_spec (rows := rows) (depth := depth) h1 h2 (by omega) (by omega)
  have tr : ∀ {t X ldx r c f}, Opd m ⟨C, ldc, cols, rows⟩ m.next t X ldx r c f → Opd m1 ⟨C, ldc, cols, rows⟩ m1.next t X ldx r c f :=
    fun ho i hi k hk => by
      obtain ⟨q1, q2, q3, q4⟩ := ho i hi k hk
      exact ⟨by rw [h3.step.ok]; exact q1, by rw [h3.step.frame _ q1 q3]; exact q2, q3, lt_of_lt_of_le q4 h3.step.next⟩
  refine (igemmColmajor_spec hv hbf hmc hkc h3.here (tr hA) (tr hB) (fun j hj i hi => ?_)).mono (fun _ m2 h4 => h3.trans h4)
  refine ⟨fa i hi, fb j hj, bd j hj i hi, ?_⟩
  unfold kindOf
  by_cases a1 : alpha = 1
  · exact Or.inl ⟨if_pos a1, a1⟩
  by_cases a2 : alpha = -1
  · exact Or.inr (Or.inl ⟨by rw [if_neg a1, if_pos a2], a2⟩)
  rcases hal with q | q | q | ⟨q1, q2, q3⟩
  · exact absurd q a1
  · exact absurd q a2
  · omega
  · exact Or.inr (Or.inr ⟨by rw [if_neg a1, if_neg a2], q1, q2 i hi, q3 j hj i hi⟩)

end

end Verif.IG
