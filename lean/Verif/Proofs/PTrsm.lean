import Verif.Model.PTrsm
import Verif.Proofs.ParGemm
import Verif.Proofs.ParLevel

/-!
# Recursive and hybrid triangular solves with parallel products

`solL_cps` and `solR_cps` are `solveL_split` and `solveR_split` for any notion of execution: the three parts and the end are given as
implications between goals.
-/

namespace Verif.Par

open Verif.FF Finset

variable {K : Type} [Field K] [DecidableEq K]

section split
variable {m : Mem K} {e : Uplo} {d : Diag} {ta : Tr} {n A lda B ldb r c f0 nf s0 ns : ℕ}

lemma solL_cps {G : Prop} {G1 G2 G3 : Mem K → Prop} (h : TrPre m e d ta n A lda ⟨B, ldb, n, c⟩) (hd : DiagNZ m d ta n A lda) (hc : FF.Cut n f0 nf s0 ns)
    (hb : ∀ i < ns, ∀ j < nf, below e (s0 + i) (f0 + j))
    (h1 : TrPre m e d ta nf (A + f0 * (lda + 1)) lda ⟨B + f0 * ldb, ldb, nf, c⟩ → DiagNZ m d ta nf (A + f0 * (lda + 1)) lda →
      (∀ m1, SolL m m1 e d ta nf c (A + f0 * (lda + 1)) lda (B + f0 * ldb) ldb → G1 m1) → G)
    (hg : ∀ m1, GPre m1 ta .no ns c nf (opAdr ta A lda s0 f0) lda (B + f0 * ldb) ldb (B + s0 * ldb) ldb →
      (∀ m2, Step m1 m2 ⟨B + s0 * ldb, ldb, ns, c⟩ (gval m1 ta .no ns c nf (-1) (opAdr ta A lda s0 f0) lda (B + f0 * ldb) ldb 1 (B + s0 * ldb) ldb) → G2 m2) → G1 m1)
    (h3 : ∀ m2, TrPre m2 e d ta ns (A + s0 * (lda + 1)) lda ⟨B + s0 * ldb, ldb, ns, c⟩ → DiagNZ m2 d ta ns (A + s0 * (lda + 1)) lda →
      (∀ m3, SolL m2 m3 e d ta ns c (A + s0 * (lda + 1)) lda (B + s0 * ldb) ldb → G3 m3) → G2 m2)
    (fin : ∀ m3, SolL m m3 e d ta n c A lda B ldb → G3 m3) : G := by
  set W : Win := ⟨B, ldb, n, c⟩ with hW
  have hinj : W.Inj := fit_Inj h.lW
  have hf := hc.hf
  have hs := hc.hs
  have hdj := hc.disj
  have eF : (⟨B + f0 * ldb, ldb, nf, c⟩ : Win) = W.sub f0 0 nf c := rfl
  have eS : (⟨B + s0 * ldb, ldb, ns, c⟩ : Win) = W.sub s0 0 ns c := rfl
  have c0 : 0 + c ≤ W.c := by simp [hW]
  -- first block
  refine h1 (eF ▸ h.sub hf hf c0) (hd.sub hf) ?_
  rintro m1 ⟨x1, s1, e1⟩
  rw [eF] at s1 e1
  have S1 := Step.sub hinj h.okW (i0 := f0) (j0 := 0) hf c0 s1
  have P1 := h.step S1
  -- update
  obtain ⟨b1, b2, b3⟩ := P1.block hs hf hb
  have hdis : (W.sub f0 0 nf c).Disj (W.sub s0 0 ns c) := Win.sub_Disj hinj hf c0 hs c0 (by omega)
  have GP : GPre m1 ta .no ns c nf (opAdr ta A lda s0 f0) lda (B + f0 * ldb) ldb (B + s0 * ldb) ldb :=
    ⟨P1.wf, b1, P1.okW.of_sub hf c0, P1.okW.of_sub hs c0, b3, h.lW, h.lW,
      fun a ha hh => b2 a ha (Win.sub_Has (W := W) hs c0 hh), hdis⟩
  refine hg m1 GP (fun m2 s2 => ?_)
  rw [eS] at s2
  have S2 := Step.sub hinj P1.okW (i0 := s0) (j0 := 0) hs c0 s2
  have P2 := P1.step S2
  -- second block
  refine h3 m2 (eS ▸ P2.sub hs hs c0) ((P1.nz S2 (h.nz S1 hd)).sub hs) ?_
  rintro m3 ⟨x3, s3, e3⟩
  rw [eS] at s3 e3
  have S3 := Step.sub hinj P2.okW (i0 := s0) (j0 := 0) hs c0 s3
  refine fin m3 ⟨_, S1.trans (S2.trans S3), ?_⟩
  -- values
  have xF : ∀ l < nf, ∀ j < c, (if s0 ≤ f0 + l ∧ f0 + l < s0 + ns ∧ 0 ≤ j ∧ j < 0 + c then x3 (f0 + l - s0) (j - 0)
      else m2.mat W (f0 + l) j) = x1 l j := by
    intro l hl j hj
    rw [if_neg (by omega), S2.mat (by simp only [hW]; omega) hj, if_neg (by omega), S1.mat (by simp only [hW]; omega) hj,
      if_pos (by omega)]
    simp
  have xS : ∀ l < ns, ∀ j < c, (if s0 ≤ s0 + l ∧ s0 + l < s0 + ns ∧ 0 ≤ j ∧ j < 0 + c then x3 (s0 + l - s0) (j - 0)
      else m2.mat W (s0 + l) j) = x3 l j := by
    intro l hl j hj
    rw [if_pos (by omega)]
    simp
  intro i hi j hj
  rw [hc.sum_eq]
  rw [sum_congr rfl (fun l hl => by rw [xF l (mem_range.1 hl) j hj] : ∀ l ∈ range nf, _ = tm m e d ta A lda i (f0 + l) * x1 l j)]
  rw [sum_congr rfl (fun l hl => by rw [xS l (mem_range.1 hl) j hj] : ∀ l ∈ range ns, _ = tm m e d ta A lda i (s0 + l) * x3 l j)]
  rcases hc.cases hi with ⟨k, hk, rfl⟩ | ⟨k, hk, rfl⟩
  · have z : ∑ l ∈ range ns, tm m e d ta A lda (f0 + k) (s0 + l) * x3 l j = 0 :=
      sum_eq_zero (fun l hl => by rw [tm_above (hb l (mem_range.1 hl) k hk), zero_mul])
    rw [z, add_zero]
    have := e1 k hk j hj
    simp only [tm_diag] at this
    rw [this]
    show m.val _ = m.val _
    rw [Win.sub_adr, Nat.zero_add]
  · have := e3 k hk j hj
    simp only [tm_diag] at this
    rw [sum_congr rfl (fun l hl => by
      rw [P1.tm S2 (by omega) (by have := mem_range.1 hl; omega), h.tm S1 (by omega) (by have := mem_range.1 hl; omega)] :
      ∀ l ∈ range ns, _ = tm m e d ta A lda (s0 + k) (s0 + l) * x3 l j)] at this
    rw [this]
    have v2 : m2.mat (W.sub s0 0 ns c) k j = _ := s2.val k hk j hj
    rw [v2, gval]
    change _ = m.mat W (s0 + k) j
    have hb1 : m1.mat (W.sub s0 0 ns c) k j = m.mat W (s0 + k) j := by
      show m1.val _ = _
      rw [Win.sub_adr, Nat.zero_add]
      have := S1.mat hi hj
      rw [if_neg (by omega)] at this
      exact this
    have hp : Spec.mul nf (Spec.op ta (m1.mat (aw ta ns nf (opAdr ta A lda s0 f0) lda)))
        (Spec.op .no (m1.mat (aw .no nf c (B + f0 * ldb) ldb))) k j =
        ∑ l ∈ range nf, tm m e d ta A lda (s0 + k) (f0 + l) * x1 l j := by
      refine sum_congr rfl (fun l hl => ?_)
      have hl := mem_range.1 hl
      rw [op_mat, opAdr_off, ← tm_below (m := m1) (d := d) (hb k hk l hl), h.tm S1 (by omega) (by omega)]
      congr 1
      exact s1.val l hl j hj
    rw [hp, eS, hb1]
    ring

lemma solR_cps {G : Prop} {G1 G2 G3 : Mem K → Prop} (h : TrPre m e d ta n A lda ⟨B, ldb, r, n⟩) (hd : DiagNZ m d ta n A lda) (hc : FF.Cut n f0 nf s0 ns)
    (hb : ∀ i < nf, ∀ j < ns, below e (f0 + i) (s0 + j))
    (h1 : TrPre m e d ta nf (A + f0 * (lda + 1)) lda ⟨B + f0, ldb, r, nf⟩ → DiagNZ m d ta nf (A + f0 * (lda + 1)) lda →
      (∀ m1, SolR m m1 e d ta r nf (A + f0 * (lda + 1)) lda (B + f0) ldb → G1 m1) → G)
    (hg : ∀ m1, GPre m1 .no ta r ns nf (B + f0) ldb (opAdr ta A lda f0 s0) lda (B + s0) ldb →
      (∀ m2, Step m1 m2 ⟨B + s0, ldb, r, ns⟩ (gval m1 .no ta r ns nf (-1) (B + f0) ldb (opAdr ta A lda f0 s0) lda 1 (B + s0) ldb) → G2 m2) → G1 m1)
    (h3 : ∀ m2, TrPre m2 e d ta ns (A + s0 * (lda + 1)) lda ⟨B + s0, ldb, r, ns⟩ → DiagNZ m2 d ta ns (A + s0 * (lda + 1)) lda →
      (∀ m3, SolR m2 m3 e d ta r ns (A + s0 * (lda + 1)) lda (B + s0) ldb → G3 m3) → G2 m2)
    (fin : ∀ m3, SolR m m3 e d ta r n A lda B ldb → G3 m3) : G := by
  set W : Win := ⟨B, ldb, r, n⟩ with hW
  have hinj : W.Inj := fit_Inj h.lW
  have hf := hc.hf
  have hs := hc.hs
  have hdj := hc.disj
  have eF : (⟨B + f0, ldb, r, nf⟩ : Win) = W.sub 0 f0 r nf := by simp [Win.sub, hW]
  have eS : (⟨B + s0, ldb, r, ns⟩ : Win) = W.sub 0 s0 r ns := by simp [Win.sub, hW]
  have c0 : 0 + r ≤ W.r := by simp [hW]
  have lF : nf ≤ ldb := by have := h.lW; simp only [hW] at this; omega
  have lS : ns ≤ ldb := by have := h.lW; simp only [hW] at this; omega
  -- first block
  refine h1 (eF ▸ h.sub hf c0 hf) (hd.sub hf) ?_
  rintro m1 ⟨x1, s1, e1⟩
  rw [eF] at s1 e1
  have S1 := Step.sub hinj h.okW (i0 := 0) (j0 := f0) c0 hf s1
  have P1 := h.step S1
  -- update
  obtain ⟨b1, b2, b3⟩ := P1.block hf hs hb
  have hdis : (W.sub 0 f0 r nf).Disj (W.sub 0 s0 r ns) := Win.sub_Disj hinj c0 hf c0 hs (by omega)
  have GP : GPre m1 .no ta r ns nf (B + f0) ldb (opAdr ta A lda f0 s0) lda (B + s0) ldb :=
    ⟨P1.wf, by rw [aw, opr, opc, eF]; exact P1.okW.of_sub c0 hf, b1, by rw [eS]; exact P1.okW.of_sub c0 hs, lF, b3, lS,
      by rw [aw, opr, opc, eF, eS]; exact hdis, fun a ha hh => b2 a ha (Win.sub_Has (W := W) c0 hs (by rw [← eS]; exact hh))⟩
  refine hg m1 GP (fun m2 s2 => ?_)
  rw [eS] at s2
  have S2 := Step.sub hinj P1.okW (i0 := 0) (j0 := s0) c0 hs s2
  have P2 := P1.step S2
  -- second block
  refine h3 m2 (eS ▸ P2.sub hs c0 hs) ((P1.nz S2 (h.nz S1 hd)).sub hs) ?_
  rintro m3 ⟨x3, s3, e3⟩
  rw [eS] at s3 e3
  have S3 := Step.sub hinj P2.okW (i0 := 0) (j0 := s0) c0 hs s3
  refine fin m3 ⟨_, S1.trans (S2.trans S3), ?_⟩
  -- values
  have xF : ∀ l < nf, ∀ i < r, (if 0 ≤ i ∧ i < 0 + r ∧ s0 ≤ f0 + l ∧ f0 + l < s0 + ns then x3 (i - 0) (f0 + l - s0)
      else m2.mat W i (f0 + l)) = x1 i l := by
    intro l hl i hi
    rw [if_neg (by omega), S2.mat hi (by simp only [hW]; omega), if_neg (by omega), S1.mat hi (by simp only [hW]; omega),
      if_pos (by omega)]
    simp
  have xS : ∀ l < ns, ∀ i < r, (if 0 ≤ i ∧ i < 0 + r ∧ s0 ≤ s0 + l ∧ s0 + l < s0 + ns then x3 (i - 0) (s0 + l - s0)
      else m2.mat W i (s0 + l)) = x3 i l := by
    intro l hl i hi
    rw [if_pos (by omega)]
    simp
  intro i hi j hj
  rw [hc.sum_eq]
  rw [sum_congr rfl (fun l hl => by rw [xF l (mem_range.1 hl) i hi] : ∀ l ∈ range nf, _ = x1 i l * tm m e d ta A lda (f0 + l) j)]
  rw [sum_congr rfl (fun l hl => by rw [xS l (mem_range.1 hl) i hi] : ∀ l ∈ range ns, _ = x3 i l * tm m e d ta A lda (s0 + l) j)]
  rcases hc.cases hj with ⟨k, hk, rfl⟩ | ⟨k, hk, rfl⟩
  · have z : ∑ l ∈ range ns, x3 i l * tm m e d ta A lda (s0 + l) (f0 + k) = 0 :=
      sum_eq_zero (fun l hl => by rw [tm_above (hb k hk l (mem_range.1 hl)), mul_zero])
    rw [z, add_zero]
    have := e1 i hi k hk
    simp only [tm_diag] at this
    rw [this]
    show m.val _ = m.val _
    rw [Win.sub_adr, Nat.zero_add]
  · have := e3 i hi k hk
    simp only [tm_diag] at this
    rw [sum_congr rfl (fun l hl => by
      rw [P1.tm S2 (by have := mem_range.1 hl; omega) (by omega), h.tm S1 (by have := mem_range.1 hl; omega) (by omega)] :
      ∀ l ∈ range ns, _ = x3 i l * tm m e d ta A lda (s0 + l) (s0 + k))] at this
    rw [this]
    have v2 : m2.mat (W.sub 0 s0 r ns) i k = _ := s2.val i hi k hk
    rw [v2, gval]
    change _ = m.mat W i (s0 + k)
    have hb1 : m1.mat (W.sub 0 s0 r ns) i k = m.mat W i (s0 + k) := by
      show m1.val _ = _
      rw [Win.sub_adr, Nat.zero_add]
      have := S1.mat hi hj
      rw [if_neg (by omega)] at this
      exact this
    have hp : Spec.mul nf (Spec.op .no (m1.mat (aw .no r nf (B + f0) ldb)))
        (Spec.op ta (m1.mat (aw ta nf ns (opAdr ta A lda f0 s0) lda))) i k =
        ∑ l ∈ range nf, x1 i l * tm m e d ta A lda (f0 + l) (s0 + k) := by
      refine sum_congr rfl (fun l hl => ?_)
      have hl := mem_range.1 hl
      rw [op_mat ta, opAdr_off, ← tm_below (m := m1) (d := d) (hb l hl k hk), h.tm S1 (by omega) (by omega)]
      congr 1
      change m1.mat ⟨B + f0, ldb, r, nf⟩ i l = _
      rw [eF]
      exact s1.val i hi l hl
    rw [hp, eS, hb1]
    ring
end split

section rec'
variable {m m' : Mem K} {e : Uplo} {d : Diag} {ta tb : Tr} {u : Uplo} {n A lda B ldb r c k C ldc ns : ℕ} {W R T : ℕ → Prop} {Q : (ℕ → K) → Prop}
  {g : PGemm K} {q : Proc K}

/-- a product of the recursion as a step from memory to memory -/
lemma pgemm_step (hg : PGemmOk g) {alpha beta : K} (GP : GPre m ta tb r c k A lda B ldb C ldc) (hok : ∀ x, m.ok x = true → W x ∨ R x ∨ T x)
    (hC : ∀ x, (Win.mk C ldc r c).Has x → W x ∨ T x)
    (cont : ∀ m2, Step m m2 ⟨C, ldc, r, c⟩ (gval m ta tb r c k alpha A lda B ldb beta C ldc) →
      (∀ x, W x ∨ R x ∨ T x → ¬ (Win.mk C ldc r c).Has x → m2.val x = m.val x) → wp q W R T m2.val Q) :
    wp (g ⟨ta, tb, r, c, k, alpha, A, lda, B, ldb, beta, C, ldc⟩ q) W R T m.val Q := by
  refine hg ⟨ta, tb, r, c, k, alpha, A, lda, B, ldb, beta, C, ldc⟩ q W R T m.val Q ⟨GP.lA, GP.lB, GP.lC, fun x hx => hx.elim (GP.dA x) (GP.dB x)⟩ hC
    (fun x hx => hok x (hx.elim (GP.okA x) (GP.okB x))) (fun v' fr vals => ?_)
  refine cont ⟨v', m.ok, m.next⟩ ⟨rfl, le_rfl, fun i hi j hj => ?_, fun x hx hn => fr x (hok x hx) hn⟩ fr
  have := vals i hi j hj
  refine this.trans ?_
  simp only [Call.val, Call.dot, gval, Spec.mul, op_mat, Nat.zero_add]
  rfl

/-- `p` solves on the left for size `n × c`, as a part of a task -/
def SolveLP (p : ℕ → ℕ → ℕ → ℕ → Proc K → Proc K) (e : Uplo) (d : Diag) (ta : Tr) (lda ldb n c : ℕ) : Prop :=
  ∀ (m : Mem K) (A B : ℕ) (q : Proc K) (W R T : ℕ → Prop) (Q : (ℕ → K) → Prop), TrPre m e d ta n A lda ⟨B, ldb, n, c⟩ → DiagNZ m d ta n A lda →
    (∀ x, m.ok x = true → W x ∨ R x ∨ T x) → (∀ x, (Win.mk B ldb n c).Has x → W x ∨ T x) →
    (∀ m', SolL m m' e d ta n c A lda B ldb → (∀ x, W x ∨ R x ∨ T x → ¬ (Win.mk B ldb n c).Has x → m'.val x = m.val x) → wp q W R T m'.val Q) →
    wp (p n c A B q) W R T m.val Q

/-- `p` solves on the right for size `r × n`, as a part of a task -/
def SolveRP (p : ℕ → ℕ → ℕ → ℕ → Proc K → Proc K) (e : Uplo) (d : Diag) (ta : Tr) (lda ldb r n : ℕ) : Prop :=
  ∀ (m : Mem K) (A B : ℕ) (q : Proc K) (W R T : ℕ → Prop) (Q : (ℕ → K) → Prop), TrPre m e d ta n A lda ⟨B, ldb, r, n⟩ → DiagNZ m d ta n A lda →
    (∀ x, m.ok x = true → W x ∨ R x ∨ T x) → (∀ x, (Win.mk B ldb r n).Has x → W x ∨ T x) →
    (∀ m', SolR m m' e d ta r n A lda B ldb → (∀ x, W x ∨ R x ∨ T x → ¬ (Win.mk B ldb r n).Has x → m'.val x = m.val x) → wp q W R T m'.val Q) →
    wp (p r n A B q) W R T m.val Q

variable {p1 p3 : ℕ → ℕ → ℕ → ℕ → Proc K → Proc K} {f0 nf s0 : ℕ}

lemma solveLP_split (hg : PGemmOk g) (hc : FF.Cut n f0 nf s0 ns) (hb : ∀ i < ns, ∀ j < nf, below e (s0 + i) (f0 + j))
    (h1 : SolveLP p1 e d ta lda ldb nf c) (h3 : SolveLP p3 e d ta lda ldb ns c) :
    SolveLP (fun _ _ A B q => p1 nf c (A + f0 * (lda + 1)) (B + f0 * ldb)
      (g ⟨ta, .no, ns, c, nf, -1, opAdr ta A lda s0 f0, lda, B + f0 * ldb, ldb, 1, B + s0 * ldb, ldb⟩
        (p3 ns c (A + s0 * (lda + 1)) (B + s0 * ldb) q))) e d ta lda ldb n c := by
  intro m A B q W R T Q hp hd hok hB hq
  have hf := hc.hf
  have hs := hc.hs
  have sF : ∀ x, (Win.mk (B + f0 * ldb) ldb nf c).Has x → (Win.mk B ldb n c).Has x := by
    rintro x ⟨i, hi, j, hj, rfl⟩
    simp only [] at hi hj
    exact ⟨f0 + i, by simp only []; omega, j, hj, by simp only [Win.adr]; ring⟩
  have sS : ∀ x, (Win.mk (B + s0 * ldb) ldb ns c).Has x → (Win.mk B ldb n c).Has x := by
    rintro x ⟨i, hi, j, hj, rfl⟩
    simp only [] at hi hj
    exact ⟨s0 + i, by simp only []; omega, j, hj, by simp only [Win.adr]; ring⟩
  let Fr : Mem K → Prop := fun m' => m'.ok = m.ok ∧ ∀ x, W x ∨ R x ∨ T x → ¬ (Win.mk B ldb n c).Has x → m'.val x = m.val x
  refine solL_cps (G1 := fun m1 => Fr m1 → wp (g ⟨ta, .no, ns, c, nf, -1, opAdr ta A lda s0 f0, lda, B + f0 * ldb, ldb, 1, B + s0 * ldb, ldb⟩
      (p3 ns c (A + s0 * (lda + 1)) (B + s0 * ldb) q)) W R T m1.val Q)
    (G2 := fun m2 => Fr m2 → wp (p3 ns c (A + s0 * (lda + 1)) (B + s0 * ldb) q) W R T m2.val Q)
    (G3 := fun m3 => Fr m3 → wp q W R T m3.val Q) hp hd hc hb ?_ ?_ ?_ ?_
  · intro pre nz cont
    exact h1 m _ _ _ W R T Q pre nz hok (fun x hx => hB x (sF x hx)) (fun m1 s f => cont m1 s ⟨s.choose_spec.1.ok, fun x hx hn => f x hx (fun h => hn (sF x h))⟩)
  · intro m1 GP cont F
    refine pgemm_step hg GP (by rw [F.1]; exact hok) (fun x hx => hB x (sS x hx)) (fun m2 st f => cont m2 st ⟨st.ok.trans F.1, fun x hx hn => ?_⟩)
    rw [f x hx (fun h => hn (sS x h)), F.2 x hx hn]
  · intro m2 pre nz cont F
    refine h3 m2 _ _ _ W R T Q pre nz (by rw [F.1]; exact hok) (fun x hx => hB x (sS x hx)) (fun m3 s f => cont m3 s ⟨s.choose_spec.1.ok.trans F.1, fun x hx hn => ?_⟩)
    rw [f x hx (fun h => hn (sS x h)), F.2 x hx hn]
  · intro m3 s F
    exact hq m3 s F.2

lemma solveRP_split (hg : PGemmOk g) (hc : FF.Cut n f0 nf s0 ns) (hb : ∀ i < nf, ∀ j < ns, below e (f0 + i) (s0 + j))
    (h1 : SolveRP p1 e d ta lda ldb r nf) (h3 : SolveRP p3 e d ta lda ldb r ns) :
    SolveRP (fun _ _ A B q => p1 r nf (A + f0 * (lda + 1)) (B + f0)
      (g ⟨.no, ta, r, ns, nf, -1, B + f0, ldb, opAdr ta A lda f0 s0, lda, 1, B + s0, ldb⟩
        (p3 r ns (A + s0 * (lda + 1)) (B + s0) q))) e d ta lda ldb r n := by
  intro m A B q W R T Q hp hd hok hB hq
  have hf := hc.hf
  have hs := hc.hs
  have sF : ∀ x, (Win.mk (B + f0) ldb r nf).Has x → (Win.mk B ldb r n).Has x := by
    rintro x ⟨i, hi, j, hj, rfl⟩
    simp only [] at hi hj
    exact ⟨i, hi, f0 + j, by simp only []; omega, by simp only [Win.adr]; ring⟩
  have sS : ∀ x, (Win.mk (B + s0) ldb r ns).Has x → (Win.mk B ldb r n).Has x := by
    rintro x ⟨i, hi, j, hj, rfl⟩
    simp only [] at hi hj
    exact ⟨i, hi, s0 + j, by simp only []; omega, by simp only [Win.adr]; ring⟩
  let Fr : Mem K → Prop := fun m' => m'.ok = m.ok ∧ ∀ x, W x ∨ R x ∨ T x → ¬ (Win.mk B ldb r n).Has x → m'.val x = m.val x
  refine solR_cps (G1 := fun m1 => Fr m1 → wp (g ⟨.no, ta, r, ns, nf, -1, B + f0, ldb, opAdr ta A lda f0 s0, lda, 1, B + s0, ldb⟩
      (p3 r ns (A + s0 * (lda + 1)) (B + s0) q)) W R T m1.val Q)
    (G2 := fun m2 => Fr m2 → wp (p3 r ns (A + s0 * (lda + 1)) (B + s0) q) W R T m2.val Q)
    (G3 := fun m3 => Fr m3 → wp q W R T m3.val Q) hp hd hc hb ?_ ?_ ?_ ?_
  · intro pre nz cont
    exact h1 m _ _ _ W R T Q pre nz hok (fun x hx => hB x (sF x hx)) (fun m1 s f => cont m1 s ⟨s.choose_spec.1.ok, fun x hx hn => f x hx (fun h => hn (sF x h))⟩)
  · intro m1 GP cont F
    refine pgemm_step hg GP (by rw [F.1]; exact hok) (fun x hx => hB x (sS x hx)) (fun m2 st f => cont m2 st ⟨st.ok.trans F.1, fun x hx hn => ?_⟩)
    rw [f x hx (fun h => hn (sS x h)), F.2 x hx hn]
  · intro m2 pre nz cont F
    refine h3 m2 _ _ _ W R T Q pre nz (by rw [F.1]; exact hok) (fun x hx => hB x (sS x hx)) (fun m3 s f => cont m3 s ⟨s.choose_spec.1.ok.trans F.1, fun x hx hn => ?_⟩)
    rw [f x hx (fun h => hn (sS x h)), F.2 x hx hn]
  · intro m3 s F
    exact hq m3 s F.2

lemma wrIn_trsmOne {side : Side} {S : ℕ → Prop} {M N : ℕ} (h : InS S B ldb M N) (h1 : trNa side M N = 1) :
    Small.wrIn (trsmOne side d M N A B ldb : Prog K Unit) S :=
  wrIn_ite (fun _ => wrIn_bind wrIn_load fun _ => wrIn_bind wrIn_liftE fun _ => wrIn_trScal h h1) fun _ => wrIn_pure

theorem ftrsmGenP_L (hg : PGemmOk g) (fuel : ℕ) : ∀ n, 1 ≤ n → n ≤ fuel →
    SolveLP (ftrsmGenP g .left u ta d lda ldb fuel) (effUplo u ta) d ta lda ldb n c := by
  induction fuel with
  | zero => intro n h1 h2; omega
  | succ fuel ih =>
    intro n h1 h2 m A B q W R T Q hp hd hok hB hq
    unfold ftrsmGenP
    by_cases h : n = 1
    · subst h
      rw [if_pos (show trNa .left 1 c = 1 from rfl)]
      refine wp_tr _ m rfl hok (trsm_one_L (ldb := ldb) .generic m A B hp hd) (wrIn_trsmOne (fun i hi j hj => hB _ ⟨i, hi, j, hj, rfl⟩) rfl) ?_
      intro _ m' s o f _
      refine hq m' s (fun x hx hn => ?_)
      by_cases ho : m.ok x = true
      · exact s.choose_spec.1.frame x ho hn
      · exact f x (by simpa using ho)
    · rw [if_neg (show ¬ trNa .left n c = 1 from h)]
      have hn2 : n / 2 ≤ n := Nat.div_le_self _ _
      simp only [trNa]
      cases he : effUplo u ta with
      | lower =>
        rw [he] at hp hq
        have := solveLP_split (f0 := 0) (nf := n / 2) (s0 := n / 2) (ns := n - n / 2) (n := n) (c := c) (e := .lower) hg ⟨by omega, Or.inl ⟨rfl, rfl⟩⟩
          (fun i hi j hj => by simp only [below]; omega) (he ▸ ih (n / 2) (by omega) (by omega)) (he ▸ ih (n - n / 2) (by omega) (by omega))
          m A B q W R T Q hp hd hok hB hq
        simpa only [trsmPtr, arow_eq, Nat.zero_mul, Nat.add_zero] using this
      | upper =>
        rw [he] at hp hq
        have := solveLP_split (f0 := n - n / 2) (nf := n / 2) (s0 := 0) (ns := n - n / 2) (n := n) (c := c) (e := .upper) hg ⟨by omega, Or.inr ⟨rfl, rfl⟩⟩
          (fun i hi j hj => by simp only [below]; omega) (he ▸ ih (n / 2) (by omega) (by omega)) (he ▸ ih (n - n / 2) (by omega) (by omega))
          m A B q W R T Q hp hd hok hB hq
        simpa only [trsmPtr, acol_eq, Nat.zero_mul, Nat.add_zero] using this

theorem ftrsmGenP_R (hg : PGemmOk g) (fuel : ℕ) : ∀ n, 1 ≤ n → n ≤ fuel →
    SolveRP (ftrsmGenP g .right u ta d lda ldb fuel) (effUplo u ta) d ta lda ldb r n := by
  induction fuel with
  | zero => intro n h1 h2; omega
  | succ fuel ih =>
    intro n h1 h2 m A B q W R T Q hp hd hok hB hq
    unfold ftrsmGenP
    by_cases h : n = 1
    · subst h
      rw [if_pos (show trNa .right r 1 = 1 from rfl)]
      refine wp_tr _ m rfl hok (trsm_one_R (ldb := ldb) .generic m A B hp hd) (wrIn_trsmOne (fun i hi j hj => hB _ ⟨i, hi, j, hj, rfl⟩) rfl) ?_
      intro _ m' s o f _
      refine hq m' s (fun x hx hn => ?_)
      by_cases ho : m.ok x = true
      · exact s.choose_spec.1.frame x ho hn
      · exact f x (by simpa using ho)
    · rw [if_neg (show ¬ trNa .right r n = 1 from h)]
      have hn2 : n / 2 ≤ n := Nat.div_le_self _ _
      simp only [trNa]
      cases he : effUplo u ta with
      | upper =>
        rw [he] at hp hq
        have := solveRP_split (f0 := 0) (nf := n / 2) (s0 := n / 2) (ns := n - n / 2) (n := n) (r := r) (e := .upper) hg ⟨by omega, Or.inl ⟨rfl, rfl⟩⟩
          (fun i hi j hj => by simp only [below]; omega) (he ▸ ih (n / 2) (by omega) (by omega)) (he ▸ ih (n - n / 2) (by omega) (by omega))
          m A B q W R T Q hp hd hok hB hq
        simpa only [trsmPtr, acol_eq, Nat.zero_mul, Nat.add_zero] using this
      | lower =>
        rw [he] at hp hq
        have := solveRP_split (f0 := n - n / 2) (nf := n / 2) (s0 := 0) (ns := n - n / 2) (n := n) (r := r) (e := .lower) hg ⟨by omega, Or.inr ⟨rfl, rfl⟩⟩
          (fun i hi j hj => by simp only [below]; omega) (he ▸ ih (n / 2) (by omega) (by omega)) (he ▸ ih (n - n / 2) (by omega) (by omega))
          m A B q W R T Q hp hd hok hB hq
        simpa only [trsmPtr, arow_eq, Nat.zero_mul, Nat.add_zero] using this

/-- `ftrsm` with parallel products as a part of a task -/
theorem ftrsmP_ok (hg : PGemmOk g) (side : Side) (M N : ℕ) (alpha : K)
    (hp : TrPre m (effUplo u ta) d ta (Spec.sideDim side M N) A lda ⟨B, ldb, M, N⟩) (hd : DiagNZ m d ta (Spec.sideDim side M N) A lda)
    (hok : ∀ x, m.ok x = true → W x ∨ R x ∨ T x) (hB : ∀ x, (Win.mk B ldb M N).Has x → W x ∨ T x)
    (hq : ∀ m', SolEff side m m' u ta d M N alpha A lda B ldb → (∀ x, W x ∨ R x ∨ T x → ¬ (Win.mk B ldb M N).Has x → m'.val x = m.val x) → wp q W R T m'.val Q) :
    wp (ftrsmP g side u ta d M N alpha A lda B ldb q) W R T m.val Q := by
  unfold ftrsmP
  by_cases h0 : M = 0 ∨ N = 0
  · rw [if_pos h0]
    exact hq m (solEff_empty side alpha h0) (fun _ _ _ => rfl)
  · rw [if_neg h0]
    have fin : ∀ m1, SolEff side m m1 u ta d M N 1 A lda B ldb → (∀ x, W x ∨ R x ∨ T x → ¬ (Win.mk B ldb M N).Has x → m1.val x = m.val x) →
        wp (if alpha = 1 then q else call (fscalin .generic M N alpha B ldb) q) W R T m1.val Q := by
      intro m1 e1 f1
      by_cases ha : alpha = 1
      · rw [if_pos ha]
        exact hq m1 (ha ▸ e1) f1
      · rw [if_neg ha]
        have o1 : m1.ok = m.ok := e1.choose_spec.1.ok
        obtain ⟨p, hj⟩ : ∃ p : Prog K Unit, ∀ Q : Unit → Mem K → Prop, Run p m Q ↔ Q () m1 :=
          ⟨fun _ => .ok ((), m1), fun Q => ⟨fun ⟨_, _, e, h⟩ => by cases e; exact h, fun h => ⟨(), m1, rfl, h⟩⟩⟩
        have hr := solEff_scal .generic side alpha (p := p) (ldb := ldb) (N := N) hp.lW hp.wf hp.okW ((hj _).2 e1)
        rw [Run_bind, hj] at hr
        rw [if_neg ha] at hr
        refine wp_tr _ m1 rfl (by rw [o1]; exact hok) hr (wrIn_fscalin (fun i hi j hj => hB _ ⟨i, hi, j, hj, rfl⟩)) ?_
        intro _ m2 s o f _
        refine hq m2 s (fun x hx hn => ?_)
        by_cases ho : m.ok x = true
        · exact s.choose_spec.1.frame x ho hn
        · rw [f x (by rw [o1]; simpa using ho), f1 x hx hn]
    cases side with
    | left => exact ftrsmGenP_L hg M M (by omega) le_rfl m A B _ W R T Q hp hd hok hB (fun m1 s f => fin m1 s.eff f)
    | right => exact ftrsmGenP_R hg N N (by omega) le_rfl m A B _ W R T Q hp hd hok hB (fun m1 s f => fin m1 s.eff f)

end rec'

open Verif.BlockCuts

variable {W R T : ℕ → Prop} {v : ℕ → K} {Q : (ℕ → K) → Prop} {M N A lda B ldb t nt : ℕ} {p : Param} {ta : Tr} {u : Uplo} {d : Diag} {side : Side} {g : PGemm K}

/-- `ftrsm` with parallel products as a task, for a known solution -/
theorem ftrsmP_task (hg : PGemmOk g) (alpha : K) (hl : N ≤ ldb) (hla : Spec.sideDim side M N ≤ lda)
    (hd : ∀ x, triCells u d (Spec.sideDim side M N) A lda x → ¬ (Win.mk B ldb M N).Has x)
    (hnz : d = .nonUnit → ∀ i < Spec.sideDim side M N, v (A + i * lda + i) ≠ 0) {X : ℕ → ℕ → K}
    (hX : ∀ i < M, ∀ j < N, Spec.sideMul side (Spec.sideDim side M N) (triV v u ta d A lda) X i j = alpha * v (B + i * ldb + j)) :
    TaskOk (ftrsmP g side u ta d M N alpha A lda B ldb .ret) ⟨B, ldb, M, N⟩ (triCells u d (Spec.sideDim side M N) A lda) v X := by
  obtain ⟨m, hwf, hmv, hok⟩ := exists_mem v ((FinS.has ⟨B, ldb, M, N⟩).or (triCells_fin (u := u) (d := d) (A := A) (lda := lda) (n := Spec.sideDim side M N)))
  have hc : Props.TriCall m u d (Spec.sideDim side M N) A lda ⟨B, ldb, M, N⟩ :=
    ⟨hwf, fun a ha => (hok a).2 (Or.inl ha), hl, hla, fun i hi j hj h => (hok _).2 (Or.inr ⟨i, hi, j, hj, h, rfl⟩), fun i hi j hj h => hd _ ⟨i, hi, j, hj, h, rfl⟩⟩
  subst hmv
  have hr : Props.Regular m d (Spec.sideDim side M N) A lda := hnz
  refine ftrsmP_ok hg side M N alpha (hc.pre ta) (hr.nz ta) (fun x hx => ((hok x).1 hx).imp id Or.inl) (fun _ h => Or.inl h) (fun m' s _ => ?_)
  obtain ⟨Y, st, _, uq⟩ := Props.SolEff.solves hr s
  intro i hi j hj
  rw [st.val i hi j hj]
  exact (uq X (fun i hi j hj => hX i hi j hj) i hi j hj).symm

/-- recursive `ftrsm` with parallel products -/
theorem ftrsmRec_ok (hg : PGemmOk g) (alpha : K) (hl : N ≤ ldb) (hla : Spec.sideDim side M N ≤ lda)
    (hd : ∀ x, triCells u d (Spec.sideDim side M N) A lda x → ¬ (Win.mk B ldb M N).Has x)
    (hnz : d = .nonUnit → ∀ i < Spec.sideDim side M N, v (A + i * lda + i) ≠ 0) :
    ∃ X, TaskOk (ftrsmP g side u ta d M N alpha A lda B ldb .ret) ⟨B, ldb, M, N⟩ (triCells u d (Spec.sideDim side M N) A lda) v X ∧
      ∀ i < M, ∀ j < N, Spec.sideMul side (Spec.sideDim side M N) (triV v u ta d A lda) X i j = alpha * v (B + i * ldb + j) := by
  obtain ⟨X, _, hX⟩ := pftrsm_ok (v := v) (side := side) (u := u) (ta := ta) (d := d) (p := .Threads) (t := 1) (A := A) (lda := lda) (B := B) alpha
    (fun h => absurd h (by simp)) hl hla hd hnz
  exact ⟨X, ftrsmP_task hg alpha hl hla hd hnz hX, hX⟩

lemma hybridWhile_some {n : ℕ} (hn : 0 < n) : ∀ fuel it rc, it ≤ fuel → 1 ≤ rc →
    ∃ x, hybridWhile n fuel it rc = some x ∧ rc ≤ x.2 ∧ (256 < n → 1 ≤ it → 1 ≤ x.1) := by
  intro fuel
  induction fuel with
  | zero =>
    intro it rc h hr
    obtain rfl : it = 0 := by omega
    exact ⟨(0, rc), by simp only [hybridWhile]; rw [if_neg (by omega)], le_rfl, fun _ h => h⟩
  | succ fuel ih =>
    intro it rc h hr
    simp only [hybridWhile]
    split
    · obtain ⟨x, e, h1, h2⟩ := ih (it / 2) (rc * 2) (by omega) (by omega)
      exact ⟨x, e, by omega, fun a b => h2 a (by omega)⟩
    · exact ⟨_, rfl, le_rfl, fun _ h => h⟩

/-- the numbers chosen on the left -/
lemma hybridLeft_some {n nt : ℕ} (hn : 0 < n) : ∃ it rc, hybridLeft n nt = some (it, rc) ∧ 1 ≤ rc ∧ (256 < n → 1 ≤ nt → 1 ≤ it) := by
  unfold hybridLeft
  split
  · obtain ⟨x, e, h1, h2⟩ := hybridWhile_some hn nt (nt / 2) 2 (by omega) (by omega)
    exact ⟨x.1 * 2, x.2 / 2, by rw [e]; rfl, by omega, fun a b => by have := h2 a (by omega); omega⟩
  · exact ⟨nt, 1, rfl, le_rfl, fun _ h => h⟩

/-- the numbers chosen on the right -/
lemma hybridRight_some {n nt : ℕ} (hn : 0 < n) : ∃ it rc, hybridRight n nt = .ok (it, rc) ∧ 1 ≤ rc ∧ (1 ≤ nt → 1 ≤ it) := by
  unfold hybridRight
  split
  · rename_i h
    rw [if_neg (by omega)]
    refine ⟨_, _, rfl, ?_, fun _ => by omega⟩
    rw [Nat.le_div_iff_mul_le (by omega)]
    omega
  · exact ⟨nt, 1, rfl, le_rfl, fun h => h⟩

/-- hybrid `ftrsm` -/
theorem pftrsmHybrid_ok {gp : ℕ → PGemm K} (hgp : ∀ nt, 1 ≤ nt → PGemmOk (gp nt)) (alpha : K) (hg : p = .Grain → 1 ≤ nt ∧ (side = .left → 256 < N))
    (hM : side = .right → 0 < M) (hN : side = .left → 0 < N) (hl : N ≤ ldb) (hla : Spec.sideDim side M N ≤ lda)
    (hd : ∀ x, triCells u d (Spec.sideDim side M N) A lda x → ¬ (Win.mk B ldb M N).Has x)
    (hnz : d = .nonUnit → ∀ i < Spec.sideDim side M N, v (A + i * lda + i) ≠ 0) :
    ∃ X, TaskOk (pftrsmHybrid gp side u ta d p M N alpha A lda B ldb nt .ret) ⟨B, ldb, M, N⟩ (triCells u d (Spec.sideDim side M N) A lda) v X ∧
      ∀ i < M, ∀ j < N, Spec.sideMul side (Spec.sideDim side M N) (triV v u ta d A lda) X i j = alpha * v (B + i * ldb + j) := by
  obtain ⟨X, _, hX⟩ := ftrsmRec_ok (v := v) (side := side) (u := u) (ta := ta) (d := d) (A := A) (lda := lda) (B := B) (hgp 1 le_rfl) alpha hl hla hd hnz
  refine ⟨X, ?_, hX⟩
  cases side with
  | left =>
    obtain ⟨it, rc, e1, h1, h2⟩ := hybridLeft_some (n := N) (nt := nt) (hN rfl)
    unfold TaskOk pftrsmHybrid
    simp only [e1]
    refine wp_for_cols (w := ⟨B, ldb, M, N⟩) (fun h => ?_) rfl (Win.Inj_of_le (Or.inl hl)) (fun _ h => Or.inl h) (fun _ h => Or.inr (Or.inl h)) (fun _ h => hd _ h) ?_ (fun _ _ h => h)
    · have := h2 ((hg h).2 rfl) (hg h).1
      omega
    intro a b e hbe hen
    have ew : Win.sub ⟨B, ldb, M, N⟩ 0 b M (e - b) = ⟨B + b, ldb, M, e - b⟩ := by simp only [Win.sub, Win.adr]; congr 1; ring
    show TaskOk _ (Win.sub ⟨B, ldb, M, N⟩ 0 b M (e - b)) _ _ _
    rw [ew]
    have hsub : ∀ x, (Win.mk (B + b) ldb M (e - b)).Has x → (Win.mk B ldb M N).Has x := fun x hx => by
      rw [← ew] at hx; exact Win.sub_Has (W := ⟨B, ldb, M, N⟩) (by simp) (by simp only []; omega) hx
    refine ftrsmP_task (side := .left) (M := M) (N := e - b) (B := B + b) (hgp rc h1) alpha (by omega) hla (fun x hx hh => hd x hx (hsub x hh)) hnz (fun i hi j hj => ?_)
    have h := hX i hi (b + j) (by omega)
    simp only [Spec.sideMul, Spec.mul, Spec.sideDim] at h ⊢
    rw [h]
    congr 2; ring
  | right =>
    obtain ⟨it, rc, e1, h1, h2⟩ := hybridRight_some (n := M) (nt := nt) (hM rfl)
    unfold TaskOk pftrsmHybrid
    simp only [e1]
    refine wp_for_rows (w := ⟨B, ldb, M, N⟩) (fun h => ?_) rfl (Win.Inj_of_le (Or.inl hl)) (fun _ h => Or.inl h) (fun _ h => Or.inr (Or.inl h)) (fun _ h => hd _ h) ?_ (fun _ _ h => h)
    · have := h2 (hg h).1
      omega
    intro a b e hbe hen
    have ew : Win.sub ⟨B, ldb, M, N⟩ b 0 (e - b) N = ⟨B + b * ldb, ldb, e - b, N⟩ := by simp only [Win.sub, Win.adr]; congr 1
    show TaskOk _ (Win.sub ⟨B, ldb, M, N⟩ b 0 (e - b) N) _ _ _
    rw [ew]
    have hsub : ∀ x, (Win.mk (B + b * ldb) ldb (e - b) N).Has x → (Win.mk B ldb M N).Has x := fun x hx => by
      rw [← ew] at hx; exact Win.sub_Has (W := ⟨B, ldb, M, N⟩) (by simp only []; omega) (by simp) hx
    refine ftrsmP_task (side := .right) (M := e - b) (N := N) (B := B + b * ldb) (hgp rc h1) alpha hl hla (fun x hx hh => hd x hx (hsub x hh)) hnz (fun i hi j hj => ?_)
    have h := hX (b + i) (by omega) j hj
    simp only [Spec.sideMul, Spec.mul, Spec.sideDim] at h ⊢
    rw [h]
    congr 2; ring

end Verif.Par
