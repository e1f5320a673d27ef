import Verif.Proofs.Tri

/-!
# Correctness of `ftrsm`
-/

namespace Verif.FF

open Finset

variable {K : Type} [Field K] [DecidableEq K]

/-- `op(A) X = B`: `m'` is `m` with `B` replaced by the solution -/
def SolL (m m' : Mem K) (e : Uplo) (d : Diag) (ta : Tr) (n c A lda B ldb : ℕ) : Prop :=
  ∃ x, Step m m' ⟨B, ldb, n, c⟩ x ∧
    ∀ i < n, ∀ j < c, ∑ l ∈ range n, tm m e d ta A lda i l * x l j = m.mat ⟨B, ldb, n, c⟩ i j

/-- `X op(A) = B` -/
def SolR (m m' : Mem K) (e : Uplo) (d : Diag) (ta : Tr) (r n A lda B ldb : ℕ) : Prop :=
  ∃ x, Step m m' ⟨B, ldb, r, n⟩ x ∧
    ∀ i < r, ∀ j < n, ∑ l ∈ range n, x i l * tm m e d ta A lda l j = m.mat ⟨B, ldb, r, n⟩ i j

/-- `p` solves on the left for size `n × c` -/
def SolveL (p : ℕ → ℕ → ℕ → ℕ → Prog K Unit) (e : Uplo) (d : Diag) (ta : Tr) (lda ldb n c : ℕ) : Prop :=
  ∀ (m : Mem K) (A B : ℕ), TrPre m e d ta n A lda ⟨B, ldb, n, c⟩ → DiagNZ m d ta n A lda →
    Run (p n c A B) m (fun _ m' => SolL m m' e d ta n c A lda B ldb)

/-- `p` solves on the right for size `r × n` -/
def SolveR (p : ℕ → ℕ → ℕ → ℕ → Prog K Unit) (e : Uplo) (d : Diag) (ta : Tr) (lda ldb r n : ℕ) : Prop :=
  ∀ (m : Mem K) (A B : ℕ), TrPre m e d ta n A lda ⟨B, ldb, r, n⟩ → DiagNZ m d ta n A lda →
    Run (p r n A B) m (fun _ m' => SolR m m' e d ta r n A lda B ldb)

section split
variable {m : Mem K} {e : Uplo} {d : Diag} {ta : Tr} {n A lda B ldb r c f0 nf s0 ns : ℕ}
  {p1 p3 : ℕ → ℕ → ℕ → ℕ → Prog K Unit} {g : GemmFn K}

lemma solveL_split (h : TrPre m e d ta n A lda ⟨B, ldb, n, c⟩) (hd : DiagNZ m d ta n A lda) (hc : Cut n f0 nf s0 ns)
    (hb : ∀ i < ns, ∀ j < nf, below e (s0 + i) (f0 + j)) (h1 : SolveL p1 e d ta lda ldb nf c)
    (h3 : SolveL p3 e d ta lda ldb ns c) (hg : GemmAt g ta .no ns c nf) :
    Run (do
      p1 nf c (A + f0 * (lda + 1)) (B + f0 * ldb)
      g ta .no ns c nf (-1) (opAdr ta A lda s0 f0) lda (B + f0 * ldb) ldb 1 (B + s0 * ldb) ldb
      p3 ns c (A + s0 * (lda + 1)) (B + s0 * ldb)) m (fun _ m' => SolL m m' e d ta n c A lda B ldb) := by
  set W : Win := ⟨B, ldb, n, c⟩ with hW
  have hinj : W.Inj := fit_Inj h.lW
  have hf := hc.hf
  have hs := hc.hs
  have hdj := hc.disj
  have eF : (⟨B + f0 * ldb, ldb, nf, c⟩ : Win) = W.sub f0 0 nf c := rfl
  have eS : (⟨B + s0 * ldb, ldb, ns, c⟩ : Win) = W.sub s0 0 ns c := rfl
  have c0 : 0 + c ≤ W.c := by simp [hW]
  simp only [Run_bind]
  -- first block
  refine (h1 m _ _ (eF ▸ h.sub hf hf c0) (hd.sub hf)).mono ?_
  rintro _ m1 ⟨x1, s1, e1⟩
  rw [eF] at s1 e1
  have S1 := Step.sub hinj h.okW (i0 := f0) (j0 := 0) hf c0 s1
  have P1 := h.step S1
  -- update
  obtain ⟨b1, b2, b3⟩ := P1.block hs hf hb
  have hdis : (W.sub f0 0 nf c).Disj (W.sub s0 0 ns c) := Win.sub_Disj hinj hf c0 hs c0 (by omega)
  have GP : GPre m1 ta .no ns c nf (opAdr ta A lda s0 f0) lda (B + f0 * ldb) ldb (B + s0 * ldb) ldb :=
    ⟨P1.wf, b1, P1.okW.of_sub hf c0, P1.okW.of_sub hs c0, b3, h.lW, h.lW,
      fun a ha hh => b2 a ha (Win.sub_Has (W := W) hs c0 hh), hdis⟩
  refine (hg m1 (-1) _ _ _ _ 1 _ _ GP).mono (fun _ m2 s2 => ?_)
  rw [eS] at s2
  have S2 := Step.sub hinj P1.okW (i0 := s0) (j0 := 0) hs c0 s2
  have P2 := P1.step S2
  -- second block
  refine (h3 m2 _ _ (eS ▸ P2.sub hs hs c0) ((P1.nz S2 (h.nz S1 hd)).sub hs)).mono ?_
  rintro _ m3 ⟨x3, s3, e3⟩
  rw [eS] at s3 e3
  have S3 := Step.sub hinj P2.okW (i0 := s0) (j0 := 0) hs c0 s3
  refine ⟨_, S1.trans (S2.trans S3), ?_⟩
  -- values
  have xF : ∀ l < nf, ∀ j < c, (if s0 ≤ f0 + l ∧ f0 + l < s0 + ns ∧ 0 ≤ j ∧ j < 0 + c then x3 (f0 + l - s0) (j - 0)
      else m2.mat W (f0 + l) j) = x1 l j := by
    intro l hl j hj
    rw [if_neg (by omega), S2.mat (by simp only [hW]; omega) hj, if_neg (by omega), S1.mat (by simp only [hW]; omega) hj,
      if_pos (by omega)]
    simp
  have xS : ∀ l < ns, ∀ j < c, (if s0 ≤ s0 + l ∧ s0 + l < s0 + ns ∧ 0 ≤ j ∧ j < 0 + c then x3 (s0 + l - s0) (j - 0)
      else m2.mat W (s0 + l) j) = x3 l j := by
    intro l hl j hj
    rw [if_pos (by omega)]
    simp
  intro i hi j hj
  rw [hc.sum_eq]
  rw [sum_congr rfl (fun l hl => by rw [xF l (mem_range.1 hl) j hj] : ∀ l ∈ range nf, _ = tm m e d ta A lda i (f0 + l) * x1 l j)]
  rw [sum_congr rfl (fun l hl => by rw [xS l (mem_range.1 hl) j hj] : ∀ l ∈ range ns, _ = tm m e d ta A lda i (s0 + l) * x3 l j)]
  rcases hc.cases hi with ⟨k, hk, rfl⟩ | ⟨k, hk, rfl⟩
  · have z : ∑ l ∈ range ns, tm m e d ta A lda (f0 + k) (s0 + l) * x3 l j = 0 :=
      sum_eq_zero (fun l hl => by rw [tm_above (hb l (mem_range.1 hl) k hk), zero_mul])
    rw [z, add_zero]
    have := e1 k hk j hj
    simp only [tm_diag] at this
    rw [this]
    show m.val _ = m.val _
    rw [Win.sub_adr, Nat.zero_add]
  · have := e3 k hk j hj
    simp only [tm_diag] at this
    rw [sum_congr rfl (fun l hl => by
      rw [P1.tm S2 (by omega) (by have := mem_range.1 hl; omega), h.tm S1 (by omega) (by have := mem_range.1 hl; omega)] :
      ∀ l ∈ range ns, _ = tm m e d ta A lda (s0 + k) (s0 + l) * x3 l j)] at this
    rw [this]
    have v2 : m2.mat (W.sub s0 0 ns c) k j = _ := s2.val k hk j hj
    rw [v2, gval]
    change _ = m.mat W (s0 + k) j
    have hb1 : m1.mat (W.sub s0 0 ns c) k j = m.mat W (s0 + k) j := by
      show m1.val _ = _
      rw [Win.sub_adr, Nat.zero_add]
      have := S1.mat hi hj
      rw [if_neg (by omega)] at this
      exact this
    have hp : Spec.mul nf (Spec.op ta (m1.mat (aw ta ns nf (opAdr ta A lda s0 f0) lda)))
        (Spec.op .no (m1.mat (aw .no nf c (B + f0 * ldb) ldb))) k j =
        ∑ l ∈ range nf, tm m e d ta A lda (s0 + k) (f0 + l) * x1 l j := by
      refine sum_congr rfl (fun l hl => ?_)
      have hl := mem_range.1 hl
      rw [op_mat, opAdr_off, ← tm_below (m := m1) (d := d) (hb k hk l hl), h.tm S1 (by omega) (by omega)]
      congr 1
      exact s1.val l hl j hj
    rw [hp, eS, hb1]
    ring

lemma solveR_split (h : TrPre m e d ta n A lda ⟨B, ldb, r, n⟩) (hd : DiagNZ m d ta n A lda) (hc : Cut n f0 nf s0 ns)
    (hb : ∀ i < nf, ∀ j < ns, below e (f0 + i) (s0 + j)) (h1 : SolveR p1 e d ta lda ldb r nf)
    (h3 : SolveR p3 e d ta lda ldb r ns) (hg : GemmAt g .no ta r ns nf) :
    Run (do
      p1 r nf (A + f0 * (lda + 1)) (B + f0)
      g .no ta r ns nf (-1) (B + f0) ldb (opAdr ta A lda f0 s0) lda 1 (B + s0) ldb
      p3 r ns (A + s0 * (lda + 1)) (B + s0)) m (fun _ m' => SolR m m' e d ta r n A lda B ldb) := by
  set W : Win := ⟨B, ldb, r, n⟩ with hW
  have hinj : W.Inj := fit_Inj h.lW
  have hf := hc.hf
  have hs := hc.hs
  have hdj := hc.disj
  have eF : (⟨B + f0, ldb, r, nf⟩ : Win) = W.sub 0 f0 r nf := by simp [Win.sub, hW]
  have eS : (⟨B + s0, ldb, r, ns⟩ : Win) = W.sub 0 s0 r ns := by simp [Win.sub, hW]
  have c0 : 0 + r ≤ W.r := by simp [hW]
  have lF : nf ≤ ldb := by have := h.lW; simp only [hW] at this; omega
  have lS : ns ≤ ldb := by have := h.lW; simp only [hW] at this; omega
  simp only [Run_bind]
  -- first block
  refine (h1 m _ _ (eF ▸ h.sub hf c0 hf) (hd.sub hf)).mono ?_
  rintro _ m1 ⟨x1, s1, e1⟩
  rw [eF] at s1 e1
  have S1 := Step.sub hinj h.okW (i0 := 0) (j0 := f0) c0 hf s1
  have P1 := h.step S1
  -- update
  obtain ⟨b1, b2, b3⟩ := P1.block hf hs hb
  have hdis : (W.sub 0 f0 r nf).Disj (W.sub 0 s0 r ns) := Win.sub_Disj hinj c0 hf c0 hs (by omega)
  have GP : GPre m1 .no ta r ns nf (B + f0) ldb (opAdr ta A lda f0 s0) lda (B + s0) ldb :=
    ⟨P1.wf, by rw [aw, opr, opc, eF]; exact P1.okW.of_sub c0 hf, b1, by rw [eS]; exact P1.okW.of_sub c0 hs, lF, b3, lS,
      by rw [aw, opr, opc, eF, eS]; exact hdis, fun a ha hh => b2 a ha (Win.sub_Has (W := W) c0 hs (by rw [← eS]; exact hh))⟩
  refine (hg m1 (-1) _ _ _ _ 1 _ _ GP).mono (fun _ m2 s2 => ?_)
  rw [eS] at s2
  have S2 := Step.sub hinj P1.okW (i0 := 0) (j0 := s0) c0 hs s2
  have P2 := P1.step S2
  -- second block
  refine (h3 m2 _ _ (eS ▸ P2.sub hs c0 hs) ((P1.nz S2 (h.nz S1 hd)).sub hs)).mono ?_
  rintro _ m3 ⟨x3, s3, e3⟩
  rw [eS] at s3 e3
  have S3 := Step.sub hinj P2.okW (i0 := 0) (j0 := s0) c0 hs s3
  refine ⟨_, S1.trans (S2.trans S3), ?_⟩
  -- values
  have xF : ∀ l < nf, ∀ i < r, (if 0 ≤ i ∧ i < 0 + r ∧ s0 ≤ f0 + l ∧ f0 + l < s0 + ns then x3 (i - 0) (f0 + l - s0)
      else m2.mat W i (f0 + l)) = x1 i l := by
    intro l hl i hi
    rw [if_neg (by omega), S2.mat hi (by simp only [hW]; omega), if_neg (by omega), S1.mat hi (by simp only [hW]; omega),
      if_pos (by omega)]
    simp
  have xS : ∀ l < ns, ∀ i < r, (if 0 ≤ i ∧ i < 0 + r ∧ s0 ≤ s0 + l ∧ s0 + l < s0 + ns then x3 (i - 0) (s0 + l - s0)
      else m2.mat W i (s0 + l)) = x3 i l := by
    intro l hl i hi
    rw [if_pos (by omega)]
    simp
  intro i hi j hj
  rw [hc.sum_eq]
  rw [sum_congr rfl (fun l hl => by rw [xF l (mem_range.1 hl) i hi] : ∀ l ∈ range nf, _ = x1 i l * tm m e d ta A lda (f0 + l) j)]
  rw [sum_congr rfl (fun l hl => by rw [xS l (mem_range.1 hl) i hi] : ∀ l ∈ range ns, _ = x3 i l * tm m e d ta A lda (s0 + l) j)]
  rcases hc.cases hj with ⟨k, hk, rfl⟩ | ⟨k, hk, rfl⟩
  · have z : ∑ l ∈ range ns, x3 i l * tm m e d ta A lda (s0 + l) (f0 + k) = 0 :=
      sum_eq_zero (fun l hl => by rw [tm_above (hb k hk l (mem_range.1 hl)), mul_zero])
    rw [z, add_zero]
    have := e1 i hi k hk
    simp only [tm_diag] at this
    rw [this]
    show m.val _ = m.val _
    rw [Win.sub_adr, Nat.zero_add]
  · have := e3 i hi k hk
    simp only [tm_diag] at this
    rw [sum_congr rfl (fun l hl => by
      rw [P1.tm S2 (by have := mem_range.1 hl; omega) (by omega), h.tm S1 (by have := mem_range.1 hl; omega) (by omega)] :
      ∀ l ∈ range ns, _ = x3 i l * tm m e d ta A lda (s0 + l) (s0 + k))] at this
    rw [this]
    have v2 : m2.mat (W.sub 0 s0 r ns) i k = _ := s2.val i hi k hk
    rw [v2, gval]
    change _ = m.mat W i (s0 + k)
    have hb1 : m1.mat (W.sub 0 s0 r ns) i k = m.mat W i (s0 + k) := by
      show m1.val _ = _
      rw [Win.sub_adr, Nat.zero_add]
      have := S1.mat hi hj
      rw [if_neg (by omega)] at this
      exact this
    have hp : Spec.mul nf (Spec.op .no (m1.mat (aw .no r nf (B + f0) ldb)))
        (Spec.op ta (m1.mat (aw ta nf ns (opAdr ta A lda f0 s0) lda))) i k =
        ∑ l ∈ range nf, x1 i l * tm m e d ta A lda (f0 + l) (s0 + k) := by
      refine sum_congr rfl (fun l hl => ?_)
      have hl := mem_range.1 hl
      rw [op_mat ta, opAdr_off, ← tm_below (m := m1) (d := d) (hb l hl k hk), h.tm S1 (by omega) (by omega)]
      congr 1
      change m1.mat ⟨B + f0, ldb, r, nf⟩ i l = _
      rw [eF]
      exact s1.val i hi l hl
    rw [hp, eS, hb1]
    ring

end split

section gen
variable {m m' : Mem K} {e : Uplo} {d : Diag} {ta : Tr} {u : Uplo} {n A lda B ldb r c ns : ℕ}
  {p1 p3 : ℕ → ℕ → ℕ → ℕ → Prog K Unit} {g : GemmFn K}

omit [Field K] [DecidableEq K] in
lemma arow_eq (ta : Tr) (A lda s : ℕ) : A + s * arow ta lda = opAdr ta A lda s 0 := by cases ta <;> simp [arow, opAdr]

omit [Field K] [DecidableEq K] in
lemma acol_eq (ta : Tr) (A lda s : ℕ) : A + s * acol ta lda = opAdr ta A lda 0 s := by cases ta <;> simp [acol, opAdr]

lemma trsmSplit_L (hns : ns ≤ n) (h1 : SolveL p1 (effUplo u ta) d ta lda ldb ns c)
    (h3 : SolveL p3 (effUplo u ta) d ta lda ldb (n - ns) c) (hg : GemmAt g ta .no (n - ns) c ns) :
    SolveL (fun M N A B => trsmSplit g .left u ta p1 p3 ns M N A lda B ldb) (effUplo u ta) d ta lda ldb n c := by
  intro m A B hp hd
  simp only [trsmSplit, trNa]
  cases he : effUplo u ta with
  | lower =>
    rw [he] at hp h1 h3
    have := solveL_split (f0 := 0) (nf := ns) (s0 := ns) (ns := n - ns) hp hd ⟨by omega, Or.inl ⟨rfl, rfl⟩⟩
      (fun i hi j hj => by simp only [below]; omega) h1 h3 hg
    simpa only [trsmPtr, arow_eq, Nat.zero_mul, Nat.add_zero] using this
  | upper =>
    rw [he] at hp h1 h3
    have := solveL_split (f0 := n - ns) (nf := ns) (s0 := 0) (ns := n - ns) hp hd ⟨by omega, Or.inr ⟨rfl, rfl⟩⟩
      (fun i hi j hj => by simp only [below]; omega) h1 h3 hg
    simpa only [trsmPtr, acol_eq, Nat.zero_mul, Nat.add_zero] using this

lemma trsmSplit_R (hns : ns ≤ n) (h1 : SolveR p1 (effUplo u ta) d ta lda ldb r ns)
    (h3 : SolveR p3 (effUplo u ta) d ta lda ldb r (n - ns)) (hg : GemmAt g .no ta r (n - ns) ns) :
    SolveR (fun M N A B => trsmSplit g .right u ta p1 p3 ns M N A lda B ldb) (effUplo u ta) d ta lda ldb r n := by
  intro m A B hp hd
  simp only [trsmSplit, trNa]
  cases he : effUplo u ta with
  | upper =>
    rw [he] at hp h1 h3
    have := solveR_split (f0 := 0) (nf := ns) (s0 := ns) (ns := n - ns) hp hd ⟨by omega, Or.inl ⟨rfl, rfl⟩⟩
      (fun i hi j hj => by simp only [below]; omega) h1 h3 hg
    simpa only [trsmPtr, acol_eq, Nat.zero_mul, Nat.add_zero] using this
  | lower =>
    rw [he] at hp h1 h3
    have := solveR_split (f0 := n - ns) (nf := ns) (s0 := 0) (ns := n - ns) hp hd ⟨by omega, Or.inr ⟨rfl, rfl⟩⟩
      (fun i hi j hj => by simp only [below]; omega) h1 h3 hg
    simpa only [trsmPtr, arow_eq, Nat.zero_mul, Nat.add_zero] using this

omit [Field K] [DecidableEq K] in
/-- a matrix with one row is a vector -/
lemma row_Has_iff (B ldb c a : ℕ) : (vw B 1 c).Has a ↔ (Win.mk B ldb 1 c).Has a := by
  constructor
  · rintro ⟨j, hj, z, hz, rfl⟩
    exact ⟨0, Nat.one_pos, j, hj, by have : z = 0 := by simpa using hz
                                     simp [this]⟩
  · rintro ⟨z, hz, j, hj, rfl⟩
    exact ⟨j, hj, 0, Nat.one_pos, by have : z = 0 := by simpa using hz
                                     simp [this]⟩

omit [Field K] [DecidableEq K] in
lemma Step.of_row {g : ℕ → K} (s : Step m m' (vw B 1 c) (fun j _ => g j)) : Step m m' ⟨B, ldb, 1, c⟩ (fun _ j => g j) := by
  refine ⟨s.ok, s.next, ?_, fun a ha hn => s.frame a ha (fun h => hn ((row_Has_iff ..).1 h))⟩
  intro i hi j hj
  have hi : i = 0 := by simpa using hi
  have := s.val j hj 0 Nat.one_pos
  simpa [hi] using this

lemma trScal_L (cat : Cat) (a : K) (hm : WF m) (hB : OkIn m ⟨B, ldb, 1, c⟩) (M : ℕ) :
    Run (trScal cat .left M c a B ldb) m (fun _ m' => Step m m' ⟨B, ldb, 1, c⟩ (fun i j => a * m.mat ⟨B, ldb, 1, c⟩ i j)) := by
  refine (vscalin_spec cat a hm (fun x hx => hB x ((row_Has_iff ..).1 hx)) Nat.one_pos).mono (fun _ m' s => ?_)
  refine (Step.of_row s).congr (fun i hi j hj => ?_)
  have hi : i = 0 := by simpa using hi
  simp [Mem.mat, hi]

lemma trScal_R (cat : Cat) (a : K) (hm : WF m) (hB : OkIn m ⟨B, ldb, r, 1⟩) (hl : 0 < ldb) (N : ℕ) :
    Run (trScal cat .right r N a B ldb) m (fun _ m' => Step m m' ⟨B, ldb, r, 1⟩ (fun i j => a * m.mat ⟨B, ldb, r, 1⟩ i j)) := by
  refine (vscalin_spec cat a hm hB hl).mono (fun _ m' s => s.congr (fun i hi j hj => ?_))
  have hj : j = 0 := by simpa using hj
  simp [Mem.mat, hj]

/-- order 1 -/
lemma trsm_one_L (cat : Cat) : SolveL (K := K) (fun M N A B => if d = .nonUnit then do
      let a ← load A
      let inv ← liftE (invE a)
      trScal cat .left M N inv B ldb
    else pure ()) e d ta lda ldb 1 c := by
  intro m A B hp hd
  dsimp only
  rif hu
  · have a0 : opAdr ta A lda 0 0 = A := by cases ta <;> simp [opAdr]
    have ok := hp.okA 0 Nat.one_pos 0 Nat.one_pos (Or.inr ⟨rfl, hu⟩)
    have nz := hd hu 0 Nat.one_pos
    rw [a0] at ok nz
    simp only [Run_bind, Run_load, Run_liftE, ok, true_and, invE, if_neg nz, Ok_ok]
    refine (trScal_L cat _ hp.wf hp.okW 1).mono (fun _ m' s => ⟨_, s, ?_⟩)
    intro i hi j hj
    have hi : i = 0 := by omega
    subst hi hu
    simp only [sum_range_one, tm, if_true, a0]
    rw [← mul_assoc, mul_inv_cancel₀ nz, one_mul]
  · refine (Run_pure ..).2 ⟨m.mat _, Step.refl (fun _ _ _ _ => rfl), ?_⟩
    intro i hi j hj
    have hi : i = 0 := by omega
    subst hi
    have hu : d = .unit := by cases d <;> simp_all
    subst hu
    simp [tm]

lemma trsm_one_R (cat : Cat) : SolveR (K := K) (fun M N A B => if d = .nonUnit then do
      let a ← load A
      let inv ← liftE (invE a)
      trScal cat .right M N inv B ldb
    else pure ()) e d ta lda ldb r 1 := by
  intro m A B hp hd
  dsimp only
  rif hu
  · have a0 : opAdr ta A lda 0 0 = A := by cases ta <;> simp [opAdr]
    have ok := hp.okA 0 Nat.one_pos 0 Nat.one_pos (Or.inr ⟨rfl, hu⟩)
    have nz := hd hu 0 Nat.one_pos
    rw [a0] at ok nz
    simp only [Run_bind, Run_load, Run_liftE, ok, true_and, invE, if_neg nz, Ok_ok]
    refine (trScal_R cat _ hp.wf hp.okW hp.lW 1).mono (fun _ m' s => ⟨_, s, ?_⟩)
    intro i hi j hj
    have hj : j = 0 := by omega
    subst hj hu
    simp only [sum_range_one, tm, if_true, a0]
    rw [mul_right_comm, inv_mul_cancel₀ nz, one_mul]
  · refine (Run_pure ..).2 ⟨m.mat _, Step.refl (fun _ _ _ _ => rfl), ?_⟩
    intro i hi j hj
    have hj : j = 0 := by omega
    subst hj
    have hu : d = .unit := by cases d <;> simp_all
    subst hu
    simp [tm]

theorem ftrsmGen_L (cat : Cat) (hg : GemmOk g) (fuel : ℕ) : ∀ n, 1 ≤ n → n ≤ fuel →
    SolveL (ftrsmGen cat g .left u ta d lda ldb fuel) (effUplo u ta) d ta lda ldb n c := by
  induction fuel with
  | zero => intro n h1 h2; omega
  | succ fuel ih =>
    intro n h1 h2 m A B hp hd
    unfold ftrsmGen
    rif h
    · have h : n = 1 := h
      subst h; exact trsm_one_L cat m A B hp hd
    · have h : ¬ n = 1 := h
      have : n >>> 1 = n / 2 := by rw [Nat.shiftRight_eq_div_pow]
      simp only [trNa, this]
      exact trsmSplit_L (by omega) (ih _ (by omega) (by omega)) (ih _ (by omega) (by omega)) (hg _ _ _ _ _) m A B hp hd

theorem ftrsmGen_R (cat : Cat) (hg : GemmOk g) (fuel : ℕ) : ∀ n, 1 ≤ n → n ≤ fuel →
    SolveR (ftrsmGen cat g .right u ta d lda ldb fuel) (effUplo u ta) d ta lda ldb r n := by
  induction fuel with
  | zero => intro n h1 h2; omega
  | succ fuel ih =>
    intro n h1 h2 m A B hp hd
    unfold ftrsmGen
    rif h
    · have h : n = 1 := h
      subst h; exact trsm_one_R cat m A B hp hd
    · have h : ¬ n = 1 := h
      have : n >>> 1 = n / 2 := by rw [Nat.shiftRight_eq_div_pow]
      simp only [trNa, this]
      exact trsmSplit_R (by omega) (ih _ (by omega) (by omega)) (ih _ (by omega) (by omega)) (hg _ _ _ _ _) m A B hp hd

end gen

section double
variable {m m' : Mem K} {e : Uplo} {d : Diag} {ta : Tr} {u : Uplo} {n A lda B ldb r c ns nrest : ℕ} {g : GemmFn K}
  {bt : ℕ → ℕ → ℕ → ℕ → ℕ → ℕ → Prog K Unit} {dl : ℕ → ℕ → ℕ → ℕ → ℕ → Prog K Unit}

/-- contract of `cblas_dtrsm` with unit diagonal -/
def BtL (bt : ℕ → ℕ → ℕ → ℕ → ℕ → ℕ → Prog K Unit) (e : Uplo) (ta : Tr) : Prop :=
  ∀ lda ldb n c, SolveL (fun M N A B => bt M N A lda B ldb) e .unit ta lda ldb n c

/-- contract of `cblas_dtrsm` with unit diagonal, right side -/
def BtR (bt : ℕ → ℕ → ℕ → ℕ → ℕ → ℕ → Prog K Unit) (e : Uplo) (ta : Tr) : Prop :=
  ∀ lda ldb r n, SolveR (fun M N A B => bt M N A lda B ldb) e .unit ta lda ldb r n

omit [Field K] [DecidableEq K] in
lemma inT_one (i j : ℕ) (hi : i < 1) (hj : j < 1) : ¬ inT e .unit i j := by
  have hi : i = 0 := by omega
  have hj : j = 0 := by omega
  subst hi hj
  simp [inT, below]
  cases e <;> simp

/-- scaling no entry -/
lemma vscal_zero (cat : Cat) (a : K) (hm : WF m) (X incX Y incY : ℕ) (hi : 0 < incX) (hj : 0 < incY) :
    Run (vscal cat 0 a X incX Y incY) m (fun _ m' => m'.ok = m.ok ∧ m.next ≤ m'.next ∧ ∀ x, m.ok x = true → m'.val x = m.val x) := by
  have hh : ∀ P inc x, ¬ (vw P inc 0).Has x := by
    rintro P inc x ⟨i, hi, _⟩
    simp at hi
  refine (vscal_spec cat a hm (fun x hx => absurd hx (hh _ _ _)) (fun x hx => absurd hx (hh _ _ _)) ?_ hi hj).mono
    (fun _ m' s => ⟨s.ok, s.next, fun x hx => s.frame x hx (hh _ _ _)⟩)
  intro i hi
  exact absurd hi (by simp)

/-- order 1, with the copy of the diagonal block -/
lemma trsmBase_L (cat : Cat) (hbt : BtL bt (effUplo u ta) ta) :
    SolveL (trsmBase cat bt .left u ta d lda ldb) (effUplo u ta) d ta lda ldb 1 c := by
  intro m A B hp hd
  unfold trsmBase
  dsimp only
  rif hu
  · subst hu
    have a0 : opAdr ta A lda 0 0 = A := by cases ta <;> simp [opAdr]
    have ok := hp.okA 0 Nat.one_pos 0 Nat.one_pos (Or.inr ⟨rfl, rfl⟩)
    have nz := hd rfl 0 Nat.one_pos
    rw [a0] at ok nz
    have hl : 1 ≤ lda := hp.lA
    simp only [trNa, Nat.mul_one, Run_bind, Run_alloc, Run_free, loop, Run_pure]
    have okg : (m.grow 1).ok A = true := by simp [Mem.grow, ok]
    change Run _ (m.grow 1) _
    have nd : normDim .left (effUplo u ta) 1 0 = 0 := by cases effUplo u ta <;> rfl
    have i1 : 0 < normInc .left ta lda := by cases ta <;> simp [normInc, acol, arow] <;> omega
    have i2 : 0 < normInc .left ta 1 := by cases ta <;> simp [normInc, acol, arow]
    simp only [Run_load, Nat.zero_mul, Nat.add_zero, okg, true_and, Run_liftE, invE, nd]
    rw [if_neg (show ¬ (m.grow 1).val A = 0 from nz)]
    simp only [Ok_ok]
    refine (vscal_zero cat _ (hp.wf.grow 1) _ _ _ _ i1 i2).mono (fun _ m1 h1 => ?_)
    obtain ⟨k1, k2, k3⟩ := h1
    have okW : OkIn m1 ⟨B, ldb, 1, c⟩ := fun x hx => by rw [k1]; exact hp.okW.grow 1 x hx
    have wf1 : WF m1 := fun x hx => by rw [k1]; exact hp.wf.grow 1 x (le_trans k2 hx)
    refine (trScal_L cat _ wf1 okW 1).mono (fun _ m2 s2 => ?_)
    have pre : TrPre m2 (effUplo u ta) .unit ta 1 m.next 1 ⟨B, ldb, 1, c⟩ :=
      ⟨wf1.step s2, okW.step s2, hp.lW, le_rfl, fun i hi j hj h => absurd h (inT_one i j hi hj),
        fun i hi j hj h => absurd h (inT_one i j hi hj)⟩
    refine (hbt 1 ldb 1 c m2 m.next B pre (fun h => by simp at h)).mono ?_
    rintro _ m3 ⟨x, s3, e3⟩
    have fin : Step m (m3.drop m.next 1) ⟨B, ldb, 1, c⟩ x := by
      refine Step.of_temp hp.wf (s3.ok.trans (s2.ok.trans k1)) (le_trans k2 (le_trans s2.next s3.next)) s3.val ?_
      intro a ha hn
      have hg : (m.grow 1).ok a = true := by simp [Mem.grow, ha]
      rw [s3.frame a (by rw [s2.ok, k1]; exact hg) hn, s2.frame a (by rw [k1]; exact hg) hn, k3 a hg]
      rfl
    refine ⟨x, fin, ?_⟩
    intro i hi j hj
    have hi : i = 0 := by omega
    subst hi
    have := e3 0 hi j hj
    simp only [sum_range_one, tm, if_true, one_mul, mul_one] at this
    simp only [sum_range_one, tm, if_true, a0]
    rw [this, s2.mat hi hj]
    have hv : m1.mat ⟨B, ldb, 1, c⟩ 0 j = m.mat ⟨B, ldb, 1, c⟩ 0 j := k3 _ (hp.okW.grow 1 _ (Win.Has_adr hi hj))
    have ha : (m.grow 1).val A = m.val A := rfl
    simp only [hv, ha]
    rw [← mul_assoc, mul_inv_cancel₀ nz, one_mul]
  · have hu : d = .unit := by cases d <;> simp_all
    subst hu
    exact hbt lda ldb 1 c m A B hp hd

lemma trsmDelayed_L (cat : Cat) (hbt : BtL bt (effUplo u ta) ta) (hg : GemmOk g) (fuel : ℕ) : ∀ n, 1 ≤ n → n ≤ fuel →
    SolveL (trsmDelayed cat g bt .left u ta d 1 lda ldb fuel n) (effUplo u ta) d ta lda ldb n c := by
  induction fuel with
  | zero => intro n h1 h2; omega
  | succ fuel ih =>
    intro n h1 h2 m A B hp hd
    unfold trsmDelayed
    rif h
    · have h : n ≤ 1 := h
      obtain rfl : n = 1 := by omega
      exact trsmBase_L cat hbt m A B hp hd
    · have h : ¬ n ≤ 1 := h
      dsimp only
      rw [Nat.mul_one]
      exact trsmSplit_L (by omega) (ih _ (by omega) (by omega)) (ih _ (by omega) (by omega)) (hg _ _ _ _ _) m A B hp hd

/-- order 1, with the copy of the diagonal block -/
lemma trsmBase_R (cat : Cat) (hbt : BtR bt (effUplo u ta) ta) :
    SolveR (trsmBase cat bt .right u ta d lda ldb) (effUplo u ta) d ta lda ldb r 1 := by
  intro m A B hp hd
  unfold trsmBase
  dsimp only
  rif hu
  · subst hu
    have a0 : opAdr ta A lda 0 0 = A := by cases ta <;> simp [opAdr]
    have ok := hp.okA 0 Nat.one_pos 0 Nat.one_pos (Or.inr ⟨rfl, rfl⟩)
    have nz := hd rfl 0 Nat.one_pos
    rw [a0] at ok nz
    have hl : 1 ≤ lda := hp.lA
    simp only [trNa, Nat.mul_one, Run_bind, Run_alloc, Run_free, loop, Run_pure]
    have okg : (m.grow 1).ok A = true := by simp [Mem.grow, ok]
    change Run _ (m.grow 1) _
    have nd : normDim .right (effUplo u ta) 1 0 = 0 := by cases effUplo u ta <;> rfl
    have i1 : 0 < normInc .right ta lda := by cases ta <;> simp [normInc, acol, arow] <;> omega
    have i2 : 0 < normInc .right ta 1 := by cases ta <;> simp [normInc, acol, arow]
    simp only [Run_load, Nat.zero_mul, Nat.add_zero, okg, true_and, Run_liftE, invE, nd]
    rw [if_neg (show ¬ (m.grow 1).val A = 0 from nz)]
    simp only [Ok_ok]
    refine (vscal_zero cat _ (hp.wf.grow 1) _ _ _ _ i1 i2).mono (fun _ m1 h1 => ?_)
    obtain ⟨k1, k2, k3⟩ := h1
    have okW : OkIn m1 ⟨B, ldb, r, 1⟩ := fun x hx => by rw [k1]; exact hp.okW.grow 1 x hx
    have wf1 : WF m1 := fun x hx => by rw [k1]; exact hp.wf.grow 1 x (le_trans k2 hx)
    refine (trScal_R cat _ wf1 okW hp.lW 1).mono (fun _ m2 s2 => ?_)
    have pre : TrPre m2 (effUplo u ta) .unit ta 1 m.next 1 ⟨B, ldb, r, 1⟩ :=
      ⟨wf1.step s2, okW.step s2, hp.lW, le_rfl, fun i hi j hj h => absurd h (inT_one i j hi hj),
        fun i hi j hj h => absurd h (inT_one i j hi hj)⟩
    refine (hbt 1 ldb r 1 m2 m.next B pre (fun h => by simp at h)).mono ?_
    rintro _ m3 ⟨x, s3, e3⟩
    have fin : Step m (m3.drop m.next 1) ⟨B, ldb, r, 1⟩ x := by
      refine Step.of_temp hp.wf (s3.ok.trans (s2.ok.trans k1)) (le_trans k2 (le_trans s2.next s3.next)) s3.val ?_
      intro a ha hn
      have hg : (m.grow 1).ok a = true := by simp [Mem.grow, ha]
      rw [s3.frame a (by rw [s2.ok, k1]; exact hg) hn, s2.frame a (by rw [k1]; exact hg) hn, k3 a hg]
      rfl
    refine ⟨x, fin, ?_⟩
    intro i hi j hj
    have hj : j = 0 := by omega
    subst hj
    have := e3 i hi 0 hj
    simp only [sum_range_one, tm, if_true, one_mul, mul_one] at this
    simp only [sum_range_one, tm, if_true, a0]
    rw [this, s2.mat hi hj]
    have hv : m1.mat ⟨B, ldb, r, 1⟩ i 0 = m.mat ⟨B, ldb, r, 1⟩ i 0 := k3 _ (hp.okW.grow 1 _ (Win.Has_adr hi hj))
    have ha : (m.grow 1).val A = m.val A := rfl
    simp only [hv, ha]
    rw [mul_right_comm, inv_mul_cancel₀ nz, one_mul]
  · have hu : d = .unit := by cases d <;> simp_all
    subst hu
    exact hbt lda ldb r 1 m A B hp hd

lemma trsmDelayed_R (cat : Cat) (hbt : BtR bt (effUplo u ta) ta) (hg : GemmOk g) (fuel : ℕ) : ∀ n, 1 ≤ n → n ≤ fuel →
    SolveR (trsmDelayed cat g bt .right u ta d 1 lda ldb fuel n) (effUplo u ta) d ta lda ldb r n := by
  induction fuel with
  | zero => intro n h1 h2; omega
  | succ fuel ih =>
    intro n h1 h2 m A B hp hd
    unfold trsmDelayed
    rif h
    · have h : n ≤ 1 := h
      obtain rfl : n = 1 := by omega
      exact trsmBase_R cat hbt m A B hp hd
    · have h : ¬ n ≤ 1 := h
      dsimp only
      rw [Nat.mul_one]
      exact trsmSplit_R (by omega) (ih _ (by omega) (by omega)) (ih _ (by omega) (by omega)) (hg _ _ _ _ _) m A B hp hd

/-- The block loop of `operator()`: the first iteration followed by the loop on the remaining system. -/
lemma trsmBlocks_L {nblas : ℕ}
    (hrest : SolveL (dl (nrest / nblas)) (effUplo u ta) d ta lda ldb nrest c) (hg : GemmOk g) :
    ∀ nbb, (0 < nbb → SolveL (dl (ns / nblas)) (effUplo u ta) d ta lda ldb ns c) →
      SolveL (trsmBlocks g dl .left u ta nblas ns nbb nrest lda ldb) (effUplo u ta) d ta lda ldb (nbb * ns + nrest) c := by
  intro nbb
  induction nbb with
  | zero =>
    intro _ m A B hp hd
    rw [Nat.zero_mul, Nat.zero_add] at hp hd ⊢
    unfold trsmBlocks
    simp only [loop, Run_bind, Run_pure]
    have := hrest m A B hp hd
    cases he : effUplo u ta <;> rw [he] at this <;>
      simpa only [trsmLoopPtr, trsmBrest, trNa, Nat.sub_self, Nat.zero_mul, Nat.add_zero] using this
  | succ nbb ih =>
    intro hdl m A B hp hd
    have hdl := hdl (by omega)
    have ih := ih (fun _ => hdl)
    have hn : (nbb + 1) * ns + nrest - ns = nbb * ns + nrest := by rw [Nat.succ_mul]; omega
    have key := trsmSplit_L (p1 := dl (ns / nblas)) (p3 := trsmBlocks g dl .left u ta nblas ns nbb nrest lda ldb)
      (n := (nbb + 1) * ns + nrest) (ns := ns) (g := g) (by rw [Nat.succ_mul]; omega) hdl (hn ▸ ih) (hg _ _ _ _ _) m A B hp hd
    unfold trsmSplit at key
    simp only [Run_bind] at key
    unfold trsmBlocks
    simp only [Run_bind]
    refine Run_loop_first ?_
    simp only [Run_bind]
    have hsub : ∀ i, (nbb + 1) * ns + nrest - (i + 1 + 1) * ns = nbb * ns + nrest - (i + 1) * ns := by
      intro i
      have e1 : (nbb + 1) * ns = nbb * ns + ns := by ring
      have e2 : (i + 1 + 1) * ns = (i + 1) * ns + ns := by ring
      omega
    have hz : (nbb + 1) * ns + nrest - (0 + 1) * ns = (nbb + 1) * ns + nrest - ns := by rw [Nat.zero_add, Nat.one_mul]
    have hr1 : (nbb + 1) * ns + nrest - nrest = (nbb + 1) * ns := by omega
    have hr2 : nbb * ns + nrest - nrest = nbb * ns := by omega
    cases he : effUplo u ta <;> rw [he] at key
    · simp only [trsmPtr, trNa] at key
      simp only [trsmLoopPtr, trsmBrest, trNa, hz]
      refine key.mono (fun _ m1 h1 => h1.mono (fun _ m2 h2 => ?_))
      unfold trsmBlocks at h2
      simp only [he, trsmLoopPtr, trsmBrest, trNa, hn, Run_bind] at h2
      simpa only [hsub] using h2
    · simp only [trsmPtr, trNa] at key
      simp only [trsmLoopPtr, trsmBrest, trNa, hz, Nat.zero_mul, Nat.add_zero, Nat.zero_add, Nat.one_mul]
      refine key.mono (fun _ m1 h1 => h1.mono (fun _ m2 h2 => ?_))
      unfold trsmBlocks at h2
      simp only [he, trsmLoopPtr, trsmBrest, trNa, hn, Run_bind] at h2
      have q1 : ∀ i, A + ns * (lda + 1) + i * ns * (lda + 1) = A + (i + 1) * ns * (lda + 1) := fun i => by ring
      have q2 : ∀ i, B + ns * ldb + i * ns * ldb = B + (i + 1) * ns * ldb := fun i => by ring
      simpa only [hsub, q1, q2, hr1, hr2] using h2

lemma trsmBlocks_R {nblas : ℕ}
    (hrest : SolveR (dl (nrest / nblas)) (effUplo u ta) d ta lda ldb r nrest) (hg : GemmOk g) :
    ∀ nbb, (0 < nbb → SolveR (dl (ns / nblas)) (effUplo u ta) d ta lda ldb r ns) →
      SolveR (trsmBlocks g dl .right u ta nblas ns nbb nrest lda ldb) (effUplo u ta) d ta lda ldb r (nbb * ns + nrest) := by
  intro nbb
  induction nbb with
  | zero =>
    intro _ m A B hp hd
    rw [Nat.zero_mul, Nat.zero_add] at hp hd ⊢
    unfold trsmBlocks
    simp only [loop, Run_bind, Run_pure]
    have := hrest m A B hp hd
    cases he : effUplo u ta <;> rw [he] at this <;>
      simpa only [trsmLoopPtr, trsmBrest, trNa, Nat.sub_self, Nat.zero_mul, Nat.add_zero] using this
  | succ nbb ih =>
    intro hdl m A B hp hd
    have hdl := hdl (by omega)
    have ih := ih (fun _ => hdl)
    have hn : (nbb + 1) * ns + nrest - ns = nbb * ns + nrest := by rw [Nat.succ_mul]; omega
    have key := trsmSplit_R (p1 := dl (ns / nblas)) (p3 := trsmBlocks g dl .right u ta nblas ns nbb nrest lda ldb)
      (n := (nbb + 1) * ns + nrest) (ns := ns) (g := g) (by rw [Nat.succ_mul]; omega) hdl (hn ▸ ih) (hg _ _ _ _ _) m A B hp hd
    unfold trsmSplit at key
    simp only [Run_bind] at key
    unfold trsmBlocks
    simp only [Run_bind]
    refine Run_loop_first ?_
    simp only [Run_bind]
    have hsub : ∀ i, (nbb + 1) * ns + nrest - (i + 1 + 1) * ns = nbb * ns + nrest - (i + 1) * ns := by
      intro i
      have e1 : (nbb + 1) * ns = nbb * ns + ns := by ring
      have e2 : (i + 1 + 1) * ns = (i + 1) * ns + ns := by ring
      omega
    have hz : (nbb + 1) * ns + nrest - (0 + 1) * ns = (nbb + 1) * ns + nrest - ns := by rw [Nat.zero_add, Nat.one_mul]
    have hr1 : (nbb + 1) * ns + nrest - nrest = (nbb + 1) * ns := by omega
    have hr2 : nbb * ns + nrest - nrest = nbb * ns := by omega
    cases he : effUplo u ta <;> rw [he] at key
    · simp only [trsmPtr, trNa] at key
      simp only [trsmLoopPtr, trsmBrest, trNa, hz, Nat.zero_mul, Nat.add_zero, Nat.zero_add, Nat.one_mul]
      refine key.mono (fun _ m1 h1 => h1.mono (fun _ m2 h2 => ?_))
      unfold trsmBlocks at h2
      simp only [he, trsmLoopPtr, trsmBrest, trNa, hn, Run_bind] at h2
      have q1 : ∀ i, A + ns * (lda + 1) + i * ns * (lda + 1) = A + (i + 1) * ns * (lda + 1) := fun i => by ring
      have q2 : ∀ i, B + ns + i * ns = B + (i + 1) * ns := fun i => by ring
      simpa only [hsub, q1, q2, hr1, hr2] using h2
    · simp only [trsmPtr, trNa] at key
      simp only [trsmLoopPtr, trsmBrest, trNa, hz]
      refine key.mono (fun _ m1 h1 => h1.mono (fun _ m2 h2 => ?_))
      unfold trsmBlocks at h2
      simp only [he, trsmLoopPtr, trsmBrest, trNa, hn, Run_bind] at h2
      simpa only [hsub] using h2

/-- effect of `ftrsm`: `B` becomes the solution of the system with right-hand side `alpha B` -/
def SolEff (side : Side) (m m' : Mem K) (u : Uplo) (ta : Tr) (d : Diag) (M N : ℕ) (alpha : K) (A lda B ldb : ℕ) : Prop :=
  ∃ X, Step m m' ⟨B, ldb, M, N⟩ X ∧ ∀ i < M, ∀ j < N,
    Spec.sideMul side (Spec.sideDim side M N)
      (Spec.op ta (Spec.tri u d (m.mat ⟨A, lda, Spec.sideDim side M N, Spec.sideDim side M N⟩))) X i j =
      alpha * m.mat ⟨B, ldb, M, N⟩ i j

lemma solEff_scal (cat : Cat) (side : Side) {M N : ℕ} (alpha : K) {p : Prog K Unit} (hl : N ≤ ldb) (hwf : WF m)
    (hok : OkIn m ⟨B, ldb, M, N⟩)
    (h : Run p m (fun _ m' => SolEff side m m' u ta d M N 1 A lda B ldb)) :
    Run (do p; if alpha = 1 then pure () else fscalin cat M N alpha B ldb) m
      (fun _ m' => SolEff side m m' u ta d M N alpha A lda B ldb) := by
  simp only [Run_bind]
  refine h.mono ?_
  rintro _ m1 ⟨X, s1, e1⟩
  rif ha
  · subst ha; exact (Run_pure ..).2 ⟨X, s1, e1⟩
  · refine (fscalin_spec cat alpha (hwf.step s1) (hok.step s1) hl).mono (fun _ m2 s2 => ⟨_, s1.trans s2, ?_⟩)
    intro i hi j hj
    have hx : ∀ i < M, ∀ j < N, m1.mat ⟨B, ldb, M, N⟩ i j = X i j := fun i hi j hj => s1.mat (W := ⟨B, ldb, M, N⟩) hi hj
    have e := e1 i hi j hj
    rw [one_mul] at e
    rw [← e]
    cases side with
    | left =>
      simp only [Spec.sideMul, Spec.sideDim, Spec.mul] at *
      rw [mul_sum]
      refine sum_congr rfl (fun l hl => ?_)
      rw [hx l (mem_range.1 hl) j hj]; ring
    | right =>
      simp only [Spec.sideMul, Spec.sideDim, Spec.mul] at *
      rw [mul_sum]
      refine sum_congr rfl (fun l hl => ?_)
      rw [hx i hi l (mem_range.1 hl)]; ring

lemma SolL.eff (h : SolL m m' (effUplo u ta) d ta n c A lda B ldb) : SolEff .left m m' u ta d n c 1 A lda B ldb := by
  obtain ⟨x, s, e⟩ := h
  refine ⟨x, s, fun i hi j hj => ?_⟩
  rw [one_mul, ← e i hi j hj, tm_eq]
  rfl

lemma SolR.eff (h : SolR m m' (effUplo u ta) d ta r n A lda B ldb) : SolEff .right m m' u ta d r n 1 A lda B ldb := by
  obtain ⟨x, s, e⟩ := h
  refine ⟨x, s, fun i hi j hj => ?_⟩
  rw [one_mul, ← e i hi j hj, tm_eq]
  rfl

lemma solEff_empty (side : Side) {M N : ℕ} (alpha : K) (h : M = 0 ∨ N = 0) :
    SolEff side m m u ta d M N alpha A lda B ldb :=
  ⟨m.mat _, Step.refl (fun _ _ _ _ => rfl), fun i hi j hj => by omega⟩

/-- `ftrsm` over a generic field -/
theorem ftrsm_ok (cat : Cat) (hg : GemmOk g) (side : Side) (M N : ℕ) (alpha : K)
    (hp : TrPre m (effUplo u ta) d ta (Spec.sideDim side M N) A lda ⟨B, ldb, M, N⟩)
    (hd : DiagNZ m d ta (Spec.sideDim side M N) A lda) :
    Run (ftrsm cat g side u ta d M N alpha A lda B ldb) m (fun _ m' => SolEff side m m' u ta d M N alpha A lda B ldb) := by
  unfold ftrsm
  rif h0
  · exact (Run_pure ..).2 (solEff_empty side alpha h0)
  · refine solEff_scal cat side alpha hp.lW hp.wf hp.okW ?_
    cases side with
    | left => exact (ftrsmGen_L cat hg M M (by omega) le_rfl m A B hp hd).mono (fun _ _ h => h.eff)
    | right => exact (ftrsmGen_R cat hg N N (by omega) le_rfl m A B hp hd).mono (fun _ _ h => h.eff)

/-- contract of the BLAS solve -/
def BtOk (bt : ℕ → ℕ → ℕ → ℕ → ℕ → ℕ → Prog K Unit) (side : Side) (e : Uplo) (ta : Tr) : Prop := match side with
  | .left => BtL bt e ta
  | .right => BtR bt e ta

/-- `ftrsm` for `double` and `float`, whatever the block size -/
theorem ftrsmD_ok (cat : Cat) (hg : GemmOk g) (side : Side) (hbt : BtOk bt side (effUplo u ta) ta) (ndel M N : ℕ) (hnd : 0 < ndel)
    (alpha : K) (hp : TrPre m (effUplo u ta) d ta (Spec.sideDim side M N) A lda ⟨B, ldb, M, N⟩)
    (hd : DiagNZ m d ta (Spec.sideDim side M N) A lda) :
    Run (ftrsmD cat g bt side u ta d 1 ndel M N alpha A lda B ldb) m
      (fun _ m' => SolEff side m m' u ta d M N alpha A lda B ldb) := by
  unfold ftrsmD
  rif h0
  · exact (Run_pure ..).2 (solEff_empty side alpha h0)
  · refine solEff_scal cat side alpha hp.lW hp.wf hp.okW ?_
    unfold ftrsmDouble
    rw [if_neg h0]
    dsimp only
    simp only [Nat.div_one, Nat.mul_one]
    rw [if_neg (by omega)]
    have hdm : ∀ k, 0 < k → (k - 1) / ndel * ndel + ((k - 1) % ndel + 1) = k := by
      intro k hk
      have := Nat.div_add_mod (k - 1) ndel
      rw [Nat.mul_comm] at this
      omega
    have hle : ∀ k, 0 < k → (k - 1) % ndel + 1 ≤ k := by
      intro k hk
      have := Nat.mod_le (k - 1) ndel
      omega
    have hle2 : ∀ k, 0 < (k - 1) / ndel → ndel ≤ k := by
      intro k hk
      rcases Nat.lt_or_ge (k - 1) ndel with hh | hh
      · rw [Nat.div_eq_of_lt hh] at hk; omega
      · omega
    cases side with
    | left =>
      have hM : 0 < M := by omega
      have key := trsmBlocks_L (u := u) (ta := ta) (d := d) (lda := lda) (ldb := ldb) (c := N) (nblas := 1) (ns := ndel)
        (nrest := (M - 1) % ndel + 1) (g := g) (dl := trsmDelayed cat g bt .left u ta d 1 lda ldb M)
        (by rw [Nat.div_one]; exact trsmDelayed_L cat hbt hg M _ (by omega) (hle M hM)) hg ((M - 1) / ndel)
        (fun h => by rw [Nat.div_one]; exact trsmDelayed_L cat hbt hg M _ hnd (hle2 M h))
      rw [hdm M hM] at key
      exact (key m A B hp hd).mono (fun _ _ h => h.eff)
    | right =>
      have hN : 0 < N := by omega
      have key := trsmBlocks_R (u := u) (ta := ta) (d := d) (lda := lda) (ldb := ldb) (r := M) (nblas := 1) (ns := ndel)
        (nrest := (N - 1) % ndel + 1) (g := g) (dl := trsmDelayed cat g bt .right u ta d 1 lda ldb N)
        (by rw [Nat.div_one]; exact trsmDelayed_R cat hbt hg N _ (by omega) (hle N hN)) hg ((N - 1) / ndel)
        (fun h => by rw [Nat.div_one]; exact trsmDelayed_R cat hbt hg N _ hnd (hle2 N h))
      rw [hdm N hN] at key
      exact (key m A B hp hd).mono (fun _ _ h => h.eff)

end double

end Verif.FF
