import Verif.Model.Trsm
import Verif.Proofs.Winograd3

/-!
# Triangular matrices in memory, block splitting

`tm m e d ta A lda` is `op(A)` for a triangular matrix whose `op` has shape `e`; `below e i j` says that `(i, j)` is in the
strict triangle.
-/

namespace Verif.FF

open Finset

variable {K : Type} [Field K] [DecidableEq K]

omit [Field K] [DecidableEq K] in
/-- a loop starts with its first iteration -/
lemma Run_loop_first {f : ℕ → Prog K Unit} {Q : Unit → Mem K → Prop} : ∀ {n : ℕ} {m : Mem K}, 
    Run (f 0) m (fun _ m' => Run (loop n (fun i => f (i + 1))) m' Q) → Run (loop (n + 1) f) m Q := by
  intro n
  induction n generalizing Q with
  | zero =>
    intro m h
    simp only [loop, Run_bind, Run_pure] at h ⊢
    exact h
  | succ n ih =>
    intro m h
    rw [loop, Run_bind]
    refine ih (h.mono (fun _ m' h' => ?_))
    rwa [loop, Run_bind] at h'

omit [Field K] [DecidableEq K] in
lemma loop_congr {n : ℕ} {f f' : ℕ → Prog K Unit} (h : ∀ i < n, f i = f' i) : loop n f = loop n f' := by
  induction n with
  | zero => rfl
  | succ n ih => simp only [loop, ih (fun i hi => h i (by omega)), h n (by omega)]

/-- strict triangle of shape `e` -/
def below (e : Uplo) (i j : ℕ) : Prop := match e with
  | .lower => j < i
  | .upper => i < j

instance (e : Uplo) (i j : ℕ) : Decidable (below e i j) := by unfold below; cases e <;> infer_instance

/-- entries that are read: the strict triangle, and the diagonal unless it is a unit diagonal -/
def inT (e : Uplo) (d : Diag) (i j : ℕ) : Prop := below e i j ∨ (i = j ∧ d = .nonUnit)

instance (e : Uplo) (d : Diag) (i j : ℕ) : Decidable (inT e d i j) := by unfold inT; infer_instance

/-- `op(A)` read as a triangular matrix -/
def tm (m : Mem K) (e : Uplo) (d : Diag) (ta : Tr) (A lda : ℕ) (i j : ℕ) : K :=
  if i = j then (match d with | .unit => 1 | .nonUnit => m.val (opAdr ta A lda i i))
  else if below e i j then m.val (opAdr ta A lda i j) else 0

section
variable {m m' : Mem K} {e : Uplo} {d : Diag} {ta : Tr} {n A lda i j f : ℕ}

omit [DecidableEq K] in
lemma tm_eq (m : Mem K) (u : Uplo) (d : Diag) (ta : Tr) (A lda r c : ℕ) :
    Spec.op ta (Spec.tri u d (m.mat ⟨A, lda, r, c⟩)) = tm m (effUplo u ta) d ta A lda := by
  funext i j
  cases ta <;> cases u <;> cases d <;> simp only [Spec.op, Spec.tri, tm, effUplo, below, Mem.mat, Win.adr_mk, opAdr] <;>
    first
    | rfl
    | (by_cases h : i = j
       · subst h; simp
       · rw [if_neg h, if_neg (fun hh => h hh.symm)]; congr)

omit [DecidableEq K] in
lemma tm_below (h : below e i j) : tm m e d ta A lda i j = m.val (opAdr ta A lda i j) := by
  unfold tm
  rw [if_neg, if_pos h]
  rintro rfl
  cases e <;> simp [below] at h

omit [DecidableEq K] in
lemma tm_above (h : below e j i) : tm m e d ta A lda i j = 0 := by
  unfold tm
  rw [if_neg, if_neg]
  · cases e <;> simp only [below] at * <;> omega
  · rintro rfl
    cases e <;> simp [below] at h

omit [Field K] [DecidableEq K] in
lemma opAdr_diag (ta : Tr) (A lda f i j : ℕ) : opAdr ta (A + f * (lda + 1)) lda i j = opAdr ta A lda (f + i) (f + j) := by
  cases ta <;> simp only [opAdr] <;> ring

omit [Field K] [DecidableEq K] in
lemma opAdr_off (ta : Tr) (A lda s f i j : ℕ) :
    opAdr ta (opAdr ta A lda s f) lda i j = opAdr ta A lda (s + i) (f + j) := by
  cases ta <;> simp only [opAdr] <;> ring

omit [Field K] [DecidableEq K] in
lemma below_add (e : Uplo) (f i j : ℕ) : below e (f + i) (f + j) ↔ below e i j := by
  cases e <;> simp only [below] <;> omega

omit [DecidableEq K] in
/-- diagonal blocks -/
lemma tm_diag (m : Mem K) (e : Uplo) (d : Diag) (ta : Tr) (A lda f i j : ℕ) :
    tm m e d ta (A + f * (lda + 1)) lda i j = tm m e d ta A lda (f + i) (f + j) := by
  unfold tm
  simp only [opAdr_diag, below_add, Nat.add_left_cancel_iff]

/-- Conditions on the memory: `W` (the matrix modified) allocated with non overlapping rows, the entries of the triangle
allocated and outside `W`. -/
structure TrPre (m : Mem K) (e : Uplo) (d : Diag) (ta : Tr) (n A lda : ℕ) (W : Win) : Prop where
  wf : WF m
  okW : OkIn m W
  lW : W.c ≤ W.ld
  lA : n ≤ lda
  okA : ∀ i < n, ∀ j < n, inT e d i j → m.ok (opAdr ta A lda i j) = true
  dA : ∀ i < n, ∀ j < n, inT e d i j → ¬ W.Has (opAdr ta A lda i j)

/-- the diagonal is invertible -/
def DiagNZ (m : Mem K) (d : Diag) (ta : Tr) (n A lda : ℕ) : Prop := d = .nonUnit → ∀ i < n, m.val (opAdr ta A lda i i) ≠ 0

variable {W : Win} {c : ℕ → ℕ → K}

omit [DecidableEq K] in
lemma TrPre.val (h : TrPre m e d ta n A lda W) (s : Step m m' W c) (hi : i < n) (hj : j < n) (hin : inT e d i j) :
    m'.val (opAdr ta A lda i j) = m.val (opAdr ta A lda i j) :=
  s.frame _ (h.okA i hi j hj hin) (h.dA i hi j hj hin)

omit [DecidableEq K] in
lemma TrPre.tm (h : TrPre m e d ta n A lda W) (s : Step m m' W c) (hi : i < n) (hj : j < n) :
    tm m' e d ta A lda i j = tm m e d ta A lda i j := by
  unfold FF.tm
  by_cases h1 : i = j
  · subst h1
    simp only [if_true]
    cases d with
    | unit => rfl
    | nonUnit => exact h.val s hi hi (Or.inr ⟨rfl, rfl⟩)
  · rw [if_neg h1, if_neg h1]
    by_cases h2 : below e i j
    · rw [if_pos h2, if_pos h2, h.val s hi hj (Or.inl h2)]
    · rw [if_neg h2, if_neg h2]

omit [DecidableEq K] in
lemma TrPre.nz (h : TrPre m e d ta n A lda W) (s : Step m m' W c) (hd : DiagNZ m d ta n A lda) : DiagNZ m' d ta n A lda :=
  fun hu i hi => by rw [h.val s hi hi (Or.inr ⟨rfl, hu⟩)]; exact hd hu i hi

omit [DecidableEq K] in
lemma TrPre.step (h : TrPre m e d ta n A lda W) (s : Step m m' W c) : TrPre m' e d ta n A lda W :=
  ⟨h.wf.step s, h.okW.step s, h.lW, h.lA, fun i hi j hj hin => by rw [s.ok]; exact h.okA i hi j hj hin, h.dA⟩

omit [DecidableEq K] in
lemma TrPre.sub (h : TrPre m e d ta n A lda W) {nf i0 j0 r' c' : ℕ} (hf : f + nf ≤ n) (hr : i0 + r' ≤ W.r) (hc : j0 + c' ≤ W.c) :
    TrPre m e d ta nf (A + f * (lda + 1)) lda (W.sub i0 j0 r' c') := by
  have hin : ∀ i j, inT e d i j → inT e d (f + i) (f + j) := by
    intro i j hh
    rcases hh with hh | ⟨rfl, hh⟩
    · exact Or.inl ((below_add ..).2 hh)
    · exact Or.inr ⟨rfl, hh⟩
  refine ⟨h.wf, h.okW.of_sub hr hc, ?_, by have := h.lA; omega, ?_, ?_⟩
  · have := h.lW; simp only [Win.sub]; omega
  · intro i hi j hj hh
    rw [opAdr_diag]; exact h.okA _ (by omega) _ (by omega) (hin i j hh)
  · intro i hi j hj hh
    rw [opAdr_diag]
    exact fun hw => h.dA _ (by omega) _ (by omega) (hin i j hh) (Win.sub_Has hr hc hw)

omit [DecidableEq K] in
lemma DiagNZ.sub (h : DiagNZ m d ta n A lda) {nf : ℕ} (hf : f + nf ≤ n) : DiagNZ m d ta nf (A + f * (lda + 1)) lda :=
  fun hu i hi => by rw [opAdr_diag]; exact h hu _ (by omega)

omit [DecidableEq K] in
/-- a rectangular block of the strict triangle -/
lemma TrPre.block (h : TrPre m e d ta n A lda W) {s0 f0 ns nf : ℕ} (hs : s0 + ns ≤ n) (hf : f0 + nf ≤ n)
    (hb : ∀ i < ns, ∀ j < nf, below e (s0 + i) (f0 + j)) :
    OkIn m (aw ta ns nf (opAdr ta A lda s0 f0) lda) ∧ (∀ a, (aw ta ns nf (opAdr ta A lda s0 f0) lda).Has a → ¬ W.Has a) ∧
      opc ta ns nf ≤ lda := by
  have key : ∀ a, (aw ta ns nf (opAdr ta A lda s0 f0) lda).Has a → ∃ i < ns, ∃ j < nf, a = opAdr ta A lda (s0 + i) (f0 + j) := by
    rintro a ⟨i, hi, j, hj, rfl⟩
    cases ta with
    | no => exact ⟨i, hi, j, hj, by simp only [Win.adr_mk, opAdr]; ring⟩
    | yes => exact ⟨j, hj, i, hi, by simp only [Win.adr_mk, opAdr]; ring⟩
  refine ⟨?_, ?_, ?_⟩
  · intro a ha
    obtain ⟨i, hi, j, hj, rfl⟩ := key a ha
    exact h.okA _ (by omega) _ (by omega) (Or.inl (hb i hi j hj))
  · intro a ha
    obtain ⟨i, hi, j, hj, rfl⟩ := key a ha
    exact h.dA _ (by omega) _ (by omega) (Or.inl (hb i hi j hj))
  · have := h.lA
    cases ta <;> simp only [opc] <;> omega

end

/-- two consecutive index ranges, `F` at `f0` and `S` at `s0` -/
structure Cut (n f0 nf s0 ns : ℕ) : Prop where
  sum : nf + ns = n
  pos : (f0 = 0 ∧ s0 = nf) ∨ (s0 = 0 ∧ f0 = ns)

section
variable {n f0 nf s0 ns : ℕ}

lemma Cut.hf (h : Cut n f0 nf s0 ns) : f0 + nf ≤ n := by
  have := h.sum; rcases h.pos with h | h <;> omega

lemma Cut.hs (h : Cut n f0 nf s0 ns) : s0 + ns ≤ n := by
  have := h.sum; rcases h.pos with h | h <;> omega

lemma Cut.disj (h : Cut n f0 nf s0 ns) : f0 + nf ≤ s0 ∨ s0 + ns ≤ f0 := by
  rcases h.pos with h | h <;> omega

/-- every index is in one of the two ranges -/
lemma Cut.cases (h : Cut n f0 nf s0 ns) {i : ℕ} (hi : i < n) :
    (∃ k < nf, i = f0 + k) ∨ (∃ k < ns, i = s0 + k) := by
  have := h.sum
  rcases h.pos with ⟨h1, h2⟩ | ⟨h1, h2⟩
  · by_cases hh : i < nf
    · exact Or.inl ⟨i, hh, by omega⟩
    · exact Or.inr ⟨i - nf, by omega, by omega⟩
  · by_cases hh : i < ns
    · exact Or.inr ⟨i, hh, by omega⟩
    · exact Or.inl ⟨i - ns, by omega, by omega⟩

omit [DecidableEq K] in
lemma Cut.sum_eq (h : Cut n f0 nf s0 ns) (t : ℕ → K) :
    ∑ l ∈ range n, t l = (∑ l ∈ range nf, t (f0 + l)) + ∑ l ∈ range ns, t (s0 + l) := by
  have := h.sum
  rcases h.pos with ⟨h1, h2⟩ | ⟨h1, h2⟩
  · subst h1 h2 this
    rw [sum_range_add]; simp
  · subst h1 h2
    obtain rfl : n = f0 + nf := by omega
    rw [sum_range_add, add_comm]; simp

end

end Verif.FF
