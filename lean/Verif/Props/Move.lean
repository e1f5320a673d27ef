import Verif.Model.Move
import Verif.Proofs.RandMat
import Verif.Props.Level1
import Verif.Props.ApplyP

/-!
# Property C124: `fmove` and the triangular `fzero`
-/

namespace Verif.Props

open Verif.FF Verif.Spec

variable {K : Type} [Field K] [DecidableEq K] {m : Mem K} {n A lda B ldb : ℕ}

/-- the entries of the triangle of an `n × n` matrix: above (below) the diagonal, or above (below) the antidiagonal; with or without the
diagonal itself -/
def InTriangle (n : ℕ) (s : Shape) (d : Diag) (i j : ℕ) : Prop :=
  match s, d with
  | .upper, .nonUnit => i ≤ j
  | .upper, .unit => i < j
  | .lower, .nonUnit => j ≤ i
  | .lower, .unit => j < i
  | .leftTri, .nonUnit => i + j < n
  | .leftTri, .unit => i + j + 1 < n
  | .rightTri, .nonUnit => n ≤ i + j + 1
  | .rightTri, .unit => n < i + j + 1

instance (s : Shape) (d : Diag) (i j : ℕ) : Decidable (InTriangle n s d i j) := by
  cases s <;> cases d <;> unfold InTriangle <;> infer_instance

/-- 1 without the diagonal -/
def dropDiag : Diag → ℕ
  | .unit => 1
  | .nonUnit => 0

lemma inTriangle_iff (s : Shape) (d : Diag) (i j : ℕ) : InTriangle n s d i j ↔
    match s with
    | .upper => i + dropDiag d ≤ j
    | .lower => j + dropDiag d ≤ i
    | .leftTri => i + j + dropDiag d < n
    | .rightTri => n + dropDiag d ≤ i + j + 1 := by
  cases s <;> cases d <;> simp only [InTriangle, dropDiag] <;> omega

/-- the row cleared in step `t`, and the first entry in it -/
def zeroRow (n : ℕ) (s : Shape) (d : Diag) (t : ℕ) : ℕ × ℕ :=
  match s with
  | .upper => (t, t + dropDiag d)
  | .lower => (n - 1 - t, 0)
  | .leftTri => (t, 0)
  | .rightTri => (n - 1 - t, t + dropDiag d)

lemma zeroAddr (s : Shape) (d : Diag) {t : ℕ} (ht : t < n) :
    (zeroStart n A lda d s + t * zeroInc lda s).toNat = A + (zeroRow n s d t).1 * lda + (zeroRow n s d t).2 := by
  obtain ⟨k, rfl⟩ : ∃ k, n = t + 1 + k := ⟨n - (t + 1), by omega⟩
  have e : zeroStart (t + 1 + k) A lda d s + t * zeroInc lda s =
      ((A + (zeroRow (t + 1 + k) s d t).1 * lda + (zeroRow (t + 1 + k) s d t).2 : ℕ) : ℤ) := by
    have e1 : t + 1 + k - 1 - t = k := by omega
    cases s <;> cases d <;> simp only [zeroStart, zeroFirst, zeroSkip, zeroInc, zeroRow, dropDiag, e1] <;> push_cast <;> ring
  rw [e, Int.toNat_natCast]

/-- row `i` is cleared before step `t` -/
def rowDone (n : ℕ) (s : Shape) (t i : ℕ) : Bool :=
  match s with
  | .upper => i < t
  | .lower => n ≤ i + t
  | .leftTri => i < t
  | .rightTri => n ≤ i + t

/-- the loop, for `size` iterations -/
lemma fzeroTri_loop (s : Shape) (d : Diag) (h : Rect m n n A lda) (hn : dropDiag d ≤ n) :
    Run (loop (n - dropDiag d) fun t => vzero (n - dropDiag d - t) (zeroStart n A lda d s + t * zeroInc lda s).toNat 1) m
      (fun _ m' => Step m m' ⟨A, lda, n, n⟩ (fun i j => if InTriangle n s d i j then 0 else m.mat ⟨A, lda, n, n⟩ i j)) := by
  refine (Run_loop (fun t m' => On m m' ⟨A, lda, n, n⟩ (fun i j =>
    if InTriangle n s d i j ∧ rowDone n s t i = true then 0
    else m.mat ⟨A, lda, n, n⟩ i j)) ?_ ?_).mono ?_
  · refine h.on.congr (fun i hi j _ => ?_)
    have hi : i < n := hi
    rw [if_neg]
    rintro ⟨_, h2⟩
    cases s <;> simp only [rowDone, decide_eq_true_eq] at h2 <;> omega
  · intro t m1 ht h1
    have e := zeroAddr (A := A) (lda := lda) s d (show t < n by omega)
    refine vzero_to h1 (i := (zeroRow n s d t).1) (j := (zeroRow n s d t).2) ?_ ?_ ?_ (by rw [e]; simp [Win.adr])
    · show (zeroRow n s d t).1 < n
      cases s <;> simp only [zeroRow] <;> omega
    · show (zeroRow n s d t).2 + _ ≤ n
      cases s <;> simp only [zeroRow] <;> omega
    · intro a ha b hb
      have ha : a < n := ha
      have hb : b < n := hb
      by_cases c : a = (zeroRow n s d t).1 ∧ (zeroRow n s d t).2 ≤ b ∧ b < (zeroRow n s d t).2 + (n - dropDiag d - t)
      · rw [if_pos c, if_pos]
        rw [inTriangle_iff]
        cases s <;> simp only [zeroRow, rowDone, decide_eq_true_eq] at c ⊢ <;> omega
      · rw [if_neg c]
        refine if_congr ?_ rfl rfl
        rw [inTriangle_iff]
        cases s <;> simp only [zeroRow, rowDone, decide_eq_true_eq] at c ⊢ <;> omega
  · intro _ m1 h1
    refine (h1.congr (fun i hi j hj => ?_)).step
    have hi : i < n := hi
    have hj : j < n := hj
    refine if_congr ?_ rfl rfl
    refine ⟨fun c => c.1, fun c => ⟨c, ?_⟩⟩
    rw [inTriangle_iff] at c
    cases s <;> simp only [rowDone, decide_eq_true_eq] at c ⊢ <;> omega

/-- C124: the triangular `fzero` clears exactly the triangle, for every shape; it needs `n ≥ 1` when the diagonal is left out. -/
theorem C124_fzero_partial (s : Shape) (d : Diag) (h : Rect m n n A lda) (hn : d = .unit → 0 < n) :
    Run (fzeroTri s d n A lda) m (fun _ m' =>
      Step m m' ⟨A, lda, n, n⟩ (fun i j => if InTriangle n s d i j then 0 else m.mat ⟨A, lda, n, n⟩ i j)) := by
  unfold fzeroTri
  cases d with
  | nonUnit =>
    have := fzeroTri_loop s .nonUnit h (Nat.zero_le _)
    simpa [dropDiag] using this
  | unit =>
    have hn := hn rfl
    have := fzeroTri_loop s .unit h hn
    simp only [Run_bind, Run_liftE, usub, if_pos (show 1 ≤ n from hn)]
    exact ⟨_, rfl, this⟩

/-- C124: for an empty matrix without its diagonal it runs away. -/
theorem C124_fzero_violated (s : Shape) : (fzeroTri s .unit 0 A lda : Prog K Unit) m = .error .underflow := by
  rfl

/-- C124, partial: `fmove` sets `B` to zero, and changes nothing outside of `A` and `B`.  Missing: `A` should get what was in `B`; it does not. -/
theorem C124_fmove_partial {M N : ℕ} (hA : Rect m M N A lda) (hB : Rect m M N B ldb) (hd : (Win.mk A lda M N).Disj ⟨B, ldb, M, N⟩) :
    Run (fmove M N A lda B ldb) m (fun _ m' => Step m m' ⟨B, ldb, M, N⟩ (fun _ _ => 0)) := by
  unfold fmove
  rw [Run_bind]
  refine (fassign_spec hA.wf hA.ok hB.ok hB.ld (hd.safe rfl rfl)).mono (fun _ m1 s1 => ?_)
  have hB1 : OkIn m1 ⟨B, ldb, M, N⟩ := fun a ha => by rw [s1.ok]; exact hB.ok a ha
  have hw : WF m1 := fun a ha => by rw [s1.ok]; exact hA.wf a (s1.next.trans ha)
  refine (fzero_spec hw hB1 hB.ld).mono (fun _ m2 s2 => ?_)
  exact ⟨s2.ok.trans s1.ok, s1.next.trans s2.next, s2.val, fun a ha hn => (s2.frame a (by rw [s1.ok]; exact ha) hn).trans (s1.frame a ha hn)⟩

/-- C124: the entries of `B` are lost: for every pair of matrices that differ somewhere, `A` is unchanged, hence not what was in `B`. -/
theorem C124_fmove_violated {M N : ℕ} (hA : Rect m M N A lda) (hB : Rect m M N B ldb) (hd : (Win.mk A lda M N).Disj ⟨B, ldb, M, N⟩)
    (hne : ∃ i < M, ∃ j < N, m.val (A + i * lda + j) ≠ m.val (B + i * ldb + j)) :
    Run (fmove M N A lda B ldb) m (fun _ m' => (∀ i < M, ∀ j < N, m'.val (A + i * lda + j) = m.val (A + i * lda + j)) ∧
      ¬ ∀ i < M, ∀ j < N, m'.val (A + i * lda + j) = m.val (B + i * ldb + j)) := by
  refine (C124_fmove_partial hA hB hd).mono (fun _ m' s => ?_)
  have e : ∀ i < M, ∀ j < N, m'.val (A + i * lda + j) = m.val (A + i * lda + j) := fun i hi j hj => by
    have hh : (Win.mk A lda M N).Has (A + i * lda + j) := ⟨i, hi, j, hj, rfl⟩
    exact s.frame _ (hA.ok _ hh) (hd _ hh)
  refine ⟨e, fun hc => ?_⟩
  obtain ⟨i, hi, j, hj, hn⟩ := hne
  exact hn ((e i hi j hj).symm.trans (hc i hi j hj))

/-! ### Concrete cases -/

/-- a 3 × 3 matrix with a column of other data -/
def mvx : Mem ℚ := memOf [1, 2, 3, 77, 4, 5, 6, 77, 7, 8, 9, 77]

example : Rect mvx 3 3 0 4 := ⟨WF_memOf _, OkIn_memOf (by decide), by decide⟩

example : (List.range 12).map (after (fzeroTri .rightTri .unit 3 0 4) mvx) = [1, 2, 3, 77, 4, 5, 0, 77, 7, 0, 0, 77].map some ∧
    (List.range 12).map (after (fzeroTri .lower .nonUnit 3 0 4) mvx) = [0, 2, 3, 77, 0, 0, 6, 77, 0, 0, 0, 77].map some := by decide +kernel

/-- `fmove` of the third column of `mvx` to the first one: the third column is lost -/
example : Rect mvx 3 1 0 4 ∧ Rect mvx 3 1 2 4 ∧ (List.range 12).map (after (fmove 3 1 0 4 2 4) mvx) =
    [1, 2, 0, 77, 4, 5, 0, 77, 7, 8, 0, 77].map some :=
  ⟨⟨WF_memOf _, OkIn_memOf (by decide), by decide⟩, ⟨WF_memOf _, OkIn_memOf (by decide), by decide⟩, by decide +kernel⟩

example : (Win.mk 0 4 3 1).Disj ⟨2, 4, 3, 1⟩ := by
  rintro a ⟨i, hi, j, hj, rfl⟩ ⟨i', hi', j', hj', e⟩
  simp only [Win.adr] at *
  omega

end Verif.Props
