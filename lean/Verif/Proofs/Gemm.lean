import Verif.Model.Gemm
import Verif.Proofs.Level2

/-!
# Correctness of classical `fgemm` and of the public entries
-/

namespace Verif.FF

open Finset

variable {K : Type} [Field K] [DecidableEq K]

/-- stored window of a matrix whose `op` is `m × k` -/
abbrev aw (t : Tr) (m k A lda : ℕ) : Win := ⟨A, lda, opr t m k, opc t m k⟩

/-- Calling conditions of `fgemm`: matrices allocated, rows not overlapping, output disjoint from both inputs. -/
structure GPre (mem : Mem K) (ta tb : Tr) (m n k A lda B ldb C ldc : ℕ) : Prop where
  wf : WF mem
  okA : OkIn mem (aw ta m k A lda)
  okB : OkIn mem (aw tb k n B ldb)
  okC : OkIn mem ⟨C, ldc, m, n⟩
  lA : opc ta m k ≤ lda
  lB : opc tb k n ≤ ldb
  lC : n ≤ ldc
  dA : (aw ta m k A lda).Disj ⟨C, ldc, m, n⟩
  dB : (aw tb k n B ldb).Disj ⟨C, ldc, m, n⟩

/-- the value `fgemm` must leave in `C` -/
def gval (mem : Mem K) (ta tb : Tr) (m n k : ℕ) (alpha : K) (A lda B ldb : ℕ) (beta : K) (C ldc : ℕ) (i j : ℕ) : K :=
  alpha * Spec.mul k (Spec.op ta (mem.mat (aw ta m k A lda))) (Spec.op tb (mem.mat (aw tb k n B ldb))) i j
    + beta * mem.mat ⟨C, ldc, m, n⟩ i j

/-- one call is correct -/
def GemmAt (g : GemmFn K) (ta tb : Tr) (m n k : ℕ) : Prop :=
  ∀ (mem : Mem K) (alpha : K) (A lda B ldb : ℕ) (beta : K) (C ldc : ℕ), GPre mem ta tb m n k A lda B ldb C ldc →
    Run (g ta tb m n k alpha A lda B ldb beta C ldc) mem
      (fun _ mem' => Step mem mem' ⟨C, ldc, m, n⟩ (gval mem ta tb m n k alpha A lda B ldb beta C ldc))

/-- all calls are correct -/
def GemmOk (g : GemmFn K) : Prop := ∀ ta tb m n k, GemmAt g ta tb m n k

omit [Field K] [DecidableEq K] in
lemma op_mat (t : Tr) (mem : Mem K) (m k A lda i l : ℕ) :
    Spec.op t (mem.mat (aw t m k A lda)) i l = mem.val (opAdr t A lda i l) := by cases t <;> rfl

omit [Field K] [DecidableEq K] in
lemma op_Has {t : Tr} {m k A lda i l : ℕ} (hi : i < m) (hl : l < k) : (aw t m k A lda).Has (opAdr t A lda i l) := by
  cases t
  · exact ⟨i, hi, l, hl, rfl⟩
  · exact ⟨l, hl, i, hi, rfl⟩

section core
variable {mem : Mem K} {m n k C ldc : ℕ} {pa pb : ℕ → ℕ → ℕ}

omit [DecidableEq K] in
/-- the triple loop accumulating row by row, order `i, l, j` -/
lemma core_ilj (hok : OkIn mem ⟨C, ldc, m, n⟩) (hl : n ≤ ldc)
    (hpa : ∀ i < m, ∀ l < k, mem.ok (pa i l) = true ∧ ¬ (Win.mk C ldc m n).Has (pa i l))
    (hpb : ∀ l < k, ∀ j < n, mem.ok (pb l j) = true ∧ ¬ (Win.mk C ldc m n).Has (pb l j)) :
    Run (loop m fun i => loop k fun l => loop n fun j => axpyin (C + i * ldc + j) (pa i l) (pb l j)) mem
      (fun _ mem' => Step mem mem' ⟨C, ldc, m, n⟩ (fun i j =>
        mem.val (C + i * ldc + j) + ∑ l ∈ range k, mem.val (pa i l) * mem.val (pb l j))) := by
  refine Run_rows (W := ⟨C, ldc, m, n⟩) _ hok (fit_Inj hl) ?_
  intro i hi m' h1 _ h3
  have hi : i < m := hi
  have rd : ∀ a, mem.ok a = true → ¬ (Win.mk C ldc m n).Has a → m'.val a = mem.val a := fun a ha hn =>
    h3 a ha (fun i' hi' _ j hj e => hn ⟨i', hi', j, hj, e⟩)
  have rC : ∀ j < n, m'.val (C + i * ldc + j) = mem.val (C + i * ldc + j) := fun j hj =>
    h3 _ (hok.adr (W := ⟨C, ldc, m, n⟩) hi hj) (fun i' hi' hne j' hj' e =>
      hne ((fit_Inj hl) i hi j hj i' hi' j' hj' e).1.symm)
  have hrow : OkIn m' ⟨C + i * ldc, 1, n, 1⟩ := fun a ha => by
    rw [h1]; exact hok a (Win.row_Has (W := ⟨C, ldc, m, n⟩) hi ha)
  have nrow : ∀ a, ¬ (Win.mk C ldc m n).Has a → ¬ (Win.mk (C + i * ldc) 1 n 1).Has a := fun a hn h =>
    hn (Win.row_Has (W := ⟨C, ldc, m, n⟩) hi h)
  refine (Run_loop (fun l mm => Step m' mm ⟨C + i * ldc, 1, n, 1⟩ (fun j _ =>
    mem.val (C + i * ldc + j) + ∑ l ∈ range l, mem.val (pa i l) * mem.val (pb l j))) ?_ ?_)
  · refine Step.refl (fun j hj z hz => ?_)
    have hz : z = 0 := by simpa using hz
    subst hz
    simp only [Mem.mat, Win.adr_mk, Nat.mul_one, Nat.add_zero, sum_range_zero, add_zero]
    exact rC j hj
  · intro l mm hlk s
    refine (Run_vec (fun j => mem.val (C + i * ldc + j) + ∑ l ∈ range (l+1), mem.val (pa i l) * mem.val (pb l j))
      (hrow.step s) (Win.Inj_of_le (Or.inl le_rfl)) ?_).mono (fun _ _ s' => s.trans s')
    intro j hj m2 g1 g2
    have a1 := hpa i hi l hlk
    have b1 := hpb l hlk j hj
    have c0 : mem.ok (C + i * ldc + j) = true := hok.adr (W := ⟨C, ldc, m, n⟩) hi hj
    have va : m2.val (pa i l) = mem.val (pa i l) := by
      rw [g2 _ (fun s' hs' _ e => nrow _ a1.2 ⟨s', hs', 0, Nat.one_pos, e⟩), s.frame _ (by rw [h1]; exact a1.1) (nrow _ a1.2),
        rd _ a1.1 a1.2]
    have vb : m2.val (pb l j) = mem.val (pb l j) := by
      rw [g2 _ (fun s' hs' _ e => nrow _ b1.2 ⟨s', hs', 0, Nat.one_pos, e⟩), s.frame _ (by rw [h1]; exact b1.1) (nrow _ b1.2),
        rd _ b1.1 b1.2]
    have vc : m2.val (C + i * ldc + j) = mem.val (C + i * ldc + j) + ∑ l ∈ range l, mem.val (pa i l) * mem.val (pb l j) := by
      rw [g2 _ (fun s' _ hne e => hne (by omega))]
      have := s.val j hj 0 Nat.one_pos
      simpa only [Win.adr_mk, Nat.mul_one, Nat.add_zero] using this
    have ok2 : m2.ok = mem.ok := g1.trans (s.ok.trans h1)
    simp only [axpyin, Run_bind, Run_load, Run_store, ok2, a1.1, b1.1, c0, true_and, va, vb, vc, Nat.mul_one]
    rw [sum_range_succ, ← add_assoc]

omit [DecidableEq K] in
/-- the triple loop accumulating entry by entry, order `i, j, l` -/
lemma core_ijl (hok : OkIn mem ⟨C, ldc, m, n⟩) (hl : n ≤ ldc)
    (hpa : ∀ i < m, ∀ l < k, mem.ok (pa i l) = true ∧ ¬ (Win.mk C ldc m n).Has (pa i l))
    (hpb : ∀ l < k, ∀ j < n, mem.ok (pb l j) = true ∧ ¬ (Win.mk C ldc m n).Has (pb l j)) :
    Run (loop m fun i => loop n fun j => loop k fun l => axpyin (C + i * ldc + j) (pa i l) (pb l j)) mem
      (fun _ mem' => Step mem mem' ⟨C, ldc, m, n⟩ (fun i j =>
        mem.val (C + i * ldc + j) + ∑ l ∈ range k, mem.val (pa i l) * mem.val (pb l j))) := by
  refine Run_rows (W := ⟨C, ldc, m, n⟩) _ hok (fit_Inj hl) ?_
  intro i hi m' h1 _ h3
  have hi : i < m := hi
  have hrow : OkIn m' ⟨C + i * ldc, 1, n, 1⟩ := fun a ha => by
    rw [h1]; exact hok a (Win.row_Has (W := ⟨C, ldc, m, n⟩) hi ha)
  refine Run_vec (fun j => mem.val (C + i * ldc + j) + ∑ l ∈ range k, mem.val (pa i l) * mem.val (pb l j)) hrow
    (Win.Inj_of_le (Or.inl le_rfl)) ?_
  intro j hj m2 g1 g2
  change ∀ a, (∀ s < n, s ≠ j → a ≠ C + i * ldc + s * 1) → _ at g2
  have c0 : mem.ok (C + i * ldc + j) = true := hok.adr (W := ⟨C, ldc, m, n⟩) hi hj
  have rd : ∀ a, mem.ok a = true → ¬ (Win.mk C ldc m n).Has a → m2.val a = mem.val a := fun a ha hn => by
    rw [g2 a (fun s hs _ e => hn ⟨i, hi, s, hs, by rw [e, Win.adr_mk, Nat.mul_one]⟩)]
    exact h3 a ha (fun i' hi' _ j hj e => hn ⟨i', hi', j, hj, e⟩)
  have vc : m2.val (C + i * ldc + j) = mem.val (C + i * ldc + j) := by
    rw [g2 _ (fun s _ hne e => hne (by omega))]
    exact h3 _ c0 (fun i' hi' hne j' hj' e => hne ((fit_Inj hl) i hi j hj i' hi' j' hj' e).1.symm)
  rw [Nat.mul_one]
  refine (Run_loop (fun l mm => mm = m2.set (C + i * ldc + j)
    (mem.val (C + i * ldc + j) + ∑ l ∈ range l, mem.val (pa i l) * mem.val (pb l j))) ?_ ?_)
  · rw [sum_range_zero, add_zero, ← vc]
    simp only [Mem.set, Function.update_eq_self]
  · rintro l mm hlk rfl
    have a1 := hpa i hi l hlk
    have b1 := hpb l hlk j hj
    have na : pa i l ≠ C + i * ldc + j := fun e => a1.2 ⟨i, hi, j, hj, e⟩
    have nb : pb l j ≠ C + i * ldc + j := fun e => b1.2 ⟨i, hi, j, hj, e⟩
    have ok2 : m2.ok = mem.ok := g1.trans h1
    simp only [axpyin, Run_bind, Run_load, Run_store, Mem.set_ok, ok2, a1.1, b1.1, c0, true_and, Mem.set_val,
      Function.update_self, Function.update_of_ne na, Function.update_of_ne nb, rd _ a1.1 a1.2, rd _ b1.1 b1.2, Mem.set_set]
    rw [sum_range_succ, ← add_assoc]

end core

/-- Classical `fgemm` is correct on every call. -/
lemma gemmClassic_ok (cat : Cat) : GemmOk (gemmClassic (K := K) cat) := by
  intro ta tb m n k mem alpha A lda B ldb beta C ldc h
  unfold gemmClassic
  rif ha
  · refine (fscalin_spec cat beta h.wf h.okC h.lC).mono (fun _ _ s => s.congr (fun i _ j _ => ?_))
    rw [gval, ha, zero_mul, zero_add]
  simp only [Run_bind]
  have st1 : Run (if beta = 0 then fzero m n C ldc
      else do
        let b ← liftE (divE beta alpha)
        fscalin cat m n b C ldc) mem
      (fun _ m' => Step mem m' ⟨C, ldc, m, n⟩ (fun i j => beta / alpha * mem.mat ⟨C, ldc, m, n⟩ i j)) := by
    rif hb
    · exact (fzero_spec h.wf h.okC h.lC).mono (fun _ _ s => s.congr (fun i _ j _ => by rw [hb]; simp))
    · simp only [Run_bind, Run_liftE, divE, Ok_bind, Ok_invE, Ok_pure]
      exact ⟨ha, (fscalin_spec cat _ h.wf h.okC h.lC).mono (fun _ _ s => s.congr (fun i _ j _ => by rw [div_eq_mul_inv]))⟩
  refine st1.mono (fun _ m1 s1 => ?_)
  have wf1 := h.wf.step s1
  have okC1 := h.okC.step s1
  have hpa : ∀ i < m, ∀ l < k, m1.ok (opAdr ta A lda i l) = true ∧ ¬ (Win.mk C ldc m n).Has (opAdr ta A lda i l) :=
    fun i hi l hl => ⟨by rw [s1.ok]; exact h.okA _ (op_Has hi hl), h.dA _ (op_Has hi hl)⟩
  have hpb : ∀ l < k, ∀ j < n, m1.ok (opAdr tb B ldb l j) = true ∧ ¬ (Win.mk C ldc m n).Has (opAdr tb B ldb l j) :=
    fun l hl j hj => ⟨by rw [s1.ok]; exact h.okB _ (op_Has hl hj), h.dB _ (op_Has hl hj)⟩
  have va : ∀ i < m, ∀ l < k, m1.val (opAdr ta A lda i l) = mem.val (opAdr ta A lda i l) :=
    fun i hi l hl => s1.frame _ (h.okA _ (op_Has hi hl)) (hpa i hi l hl).2
  have vb : ∀ l < k, ∀ j < n, m1.val (opAdr tb B ldb l j) = mem.val (opAdr tb B ldb l j) :=
    fun l hl j hj => s1.frame _ (h.okB _ (op_Has hl hj)) (hpb l hl j hj).2
  have st2 : Run (match ta, tb with
     | .no, .no => loop m fun i => loop k fun l => loop n fun j => axpyin (C + i * ldc + j) (A + i * lda + l) (B + l * ldb + j)
     | .no, .yes => loop m fun i => loop n fun j => loop k fun l => axpyin (C + i * ldc + j) (A + i * lda + l) (B + j * ldb + l)
     | .yes, .no => loop m fun i => loop k fun l => loop n fun j => axpyin (C + i * ldc + j) (A + l * lda + i) (B + l * ldb + j)
     | .yes, .yes => loop m fun i => loop n fun j => loop k fun l => axpyin (C + i * ldc + j) (A + l * lda + i) (B + j * ldb + l)) m1
      (fun _ m' => Step m1 m' ⟨C, ldc, m, n⟩ (fun i j =>
        m1.val (C + i * ldc + j) + ∑ l ∈ range k, m1.val (opAdr ta A lda i l) * m1.val (opAdr tb B ldb l j))) := by
    cases ta <;> cases tb
    · exact core_ilj okC1 h.lC hpa hpb
    · exact core_ijl okC1 h.lC hpa hpb
    · exact core_ilj okC1 h.lC hpa hpb
    · exact core_ijl okC1 h.lC hpa hpb
  refine st2.mono (fun _ m2 s2 => ?_)
  refine (fscalin_spec cat alpha (wf1.step s2) (okC1.step s2) h.lC).mono (fun _ m3 s3 => ?_)
  refine ((s1.trans s2).trans s3).congr (fun i hi j hj => ?_)
  have hi : i < m := hi
  have hj : j < n := hj
  rw [s2.mat hi hj]
  have e1 : m1.val (C + i * ldc + j) = beta / alpha * mem.mat ⟨C, ldc, m, n⟩ i j := s1.val i hi j hj
  have e2 : ∑ l ∈ range k, m1.val (opAdr ta A lda i l) * m1.val (opAdr tb B ldb l j)
      = Spec.mul k (Spec.op ta (mem.mat (aw ta m k A lda))) (Spec.op tb (mem.mat (aw tb k n B ldb))) i j := by
    unfold Spec.mul
    refine sum_congr rfl (fun l hl => ?_)
    rw [mem_range] at hl
    rw [va i hi l hl, vb l hl j hj, op_mat, op_mat]
  rw [e1, e2, gval]
  field_simp
  ring

lemma mul_zero_k (A B : ℕ → ℕ → K) (i j : ℕ) : Spec.mul 0 A B i j = 0 := by simp [Spec.mul]

/-- The early exits of the public entry. -/
lemma gemm_exit {mem : Mem K} {ta tb : Tr} {m n k A lda B ldb C ldc : ℕ} {alpha beta : K} (cat : Cat)
    (h : GPre mem ta tb m n k A lda B ldb C ldc) (hk : k = 0 ∨ alpha = 0) :
    Run (fscalin cat m n beta C ldc) mem
      (fun _ mem' => Step mem mem' ⟨C, ldc, m, n⟩ (gval mem ta tb m n k alpha A lda B ldb beta C ldc)) := by
  refine (fscalin_spec cat beta h.wf h.okC h.lC).mono (fun _ _ s => s.congr (fun i _ j _ => ?_))
  rcases hk with rfl | rfl
  · rw [gval, mul_zero_k, mul_zero, zero_add]
  · rw [gval, zero_mul, zero_add]

lemma gemm_empty {mem : Mem K} {ta tb : Tr} {m n k A lda B ldb C ldc : ℕ} {alpha beta : K} (h0 : m = 0 ∨ n = 0) :
    Run (pure ()) mem
      (fun _ mem' => Step mem mem' ⟨C, ldc, m, n⟩ (gval mem ta tb m n k alpha A lda B ldb beta C ldc)) := by
  rw [Run_pure]
  refine Step.refl (fun i hi j hj => ?_)
  have hi : i < m := hi
  have hj : j < n := hj
  omega

lemma gemmPublic_ok (cat : Cat) {g : GemmFn K} (hg : GemmOk g) : GemmOk (gemmPublic cat g) := by
  intro ta tb m n k mem alpha A lda B ldb beta C ldc h
  unfold gemmPublic
  rif h0
  · exact gemm_empty h0
  rif hk
  · exact gemm_exit cat h hk
  exact hg _ _ _ _ _ _ _ _ _ _ _ _ _ _ h

lemma gemmDelayed_ok (cat : Cat) {g : GemmFn K} (hg : GemmOk g) : GemmOk (gemmDelayed cat g) := by
  intro ta tb m n k mem alpha A lda B ldb beta C ldc h
  unfold gemmDelayed
  rif h0
  · exact gemm_empty h0
  rif hk
  · exact gemm_exit cat h hk
  rif hone
  · have ha : alpha ≠ 0 := fun e => hk (Or.inr e)
    simp only [Run_bind, Run_liftE, divE, Ok_bind, Ok_invE, Ok_pure]
    refine ⟨ha, (hg ta tb m n k mem 1 A lda B ldb _ C ldc h).mono (fun _ m1 s1 => ?_)⟩
    refine (fscalin_spec cat alpha (h.wf.step s1) (h.okC.step s1) h.lC).mono (fun _ m2 s2 => ?_)
    refine (s1.trans s2).congr (fun i hi j hj => ?_)
    rw [s1.mat hi hj, gval, gval]
    field_simp
  · exact hg _ _ _ _ _ _ _ _ _ _ _ _ _ _ h

end Verif.FF
