import Verif.Proofs.Trmm

/-!
# Out-of-place `ftrmm`

The code treats `beta = 0` as `beta = 1`: in the base case `C` is scaled only when `beta` is not zero, and then added to.
The lemmas below describe what the code does, for every `beta`.
-/

namespace Verif.FF

open Finset

variable {K : Type} [Field K] [DecidableEq K]

/-- factor the recursive code applies to `C` -/
def effBeta (beta : K) : K := if beta = 0 then 1 else beta

/-- calling conditions: `V` is `B`, `W` is `C` -/
structure TrOPre (m : Mem K) (e : Uplo) (d : Diag) (ta : Tr) (n A lda : ℕ) (V W : Win) : Prop where
  tr : TrPre m e d ta n A lda W
  okV : OkIn m V
  lV : V.c ≤ V.ld
  dV : V.Disj W

/-- The strided `faxpy` of the base case on the right side is wrong over generic fields for coefficient `-1`. -/
def AxpyOk (m : Mem K) (cat : Cat) (side : Side) (d : Diag) (ta : Tr) (n A lda : ℕ) : Prop :=
  cat = .modular ∨ side = .left ∨ d = .unit ∨ ∀ i < n, m.val (opAdr ta A lda i i) ≠ -1

section
variable {m m' : Mem K} {e : Uplo} {d : Diag} {ta : Tr} {n A lda f : ℕ} {V W : Win} {c : ℕ → ℕ → K}

omit [DecidableEq K] in
lemma TrOPre.step (h : TrOPre m e d ta n A lda V W) (s : Step m m' W c) : TrOPre m' e d ta n A lda V W :=
  ⟨h.tr.step s, h.okV.step s, h.lV, h.dV⟩

omit [DecidableEq K] in
lemma TrOPre.sub (h : TrOPre m e d ta n A lda V W) {nf i0 j0 r' c' : ℕ} (hf : f + nf ≤ n) (hr : i0 + r' ≤ W.r) (hc : j0 + c' ≤ W.c)
    (hr' : i0 + r' ≤ V.r) (hc' : j0 + c' ≤ V.c) :
    TrOPre m e d ta nf (A + f * (lda + 1)) lda (V.sub i0 j0 r' c') (W.sub i0 j0 r' c') :=
  ⟨h.tr.sub hf hr hc, h.okV.of_sub hr' hc', by have := h.lV; simp only [Win.sub]; omega, (h.dV.sub_left hr' hc').sub_right hr hc⟩

omit [DecidableEq K] in
lemma AxpyOk.step {cat : Cat} {side : Side} (h : AxpyOk m cat side d ta n A lda) (hp : TrPre m e d ta n A lda W)
    (s : Step m m' W c) : AxpyOk m' cat side d ta n A lda := by
  rcases h with h | h | h | h
  · exact Or.inl h
  · exact Or.inr (Or.inl h)
  · exact Or.inr (Or.inr (Or.inl h))
  · cases d with
    | unit => exact Or.inr (Or.inr (Or.inl rfl))
    | nonUnit => exact Or.inr (Or.inr (Or.inr (fun i hi => by rw [hp.val s hi hi (Or.inr ⟨rfl, rfl⟩)]; exact h i hi)))

omit [DecidableEq K] in
lemma AxpyOk.sub {cat : Cat} {side : Side} (h : AxpyOk m cat side d ta n A lda) {nf : ℕ} (hf : f + nf ≤ n) :
    AxpyOk m cat side d ta nf (A + f * (lda + 1)) lda := by
  rcases h with h | h | h | h
  · exact Or.inl h
  · exact Or.inr (Or.inl h)
  · exact Or.inr (Or.inr (Or.inl h))
  · exact Or.inr (Or.inr (Or.inr (fun i hi => by rw [opAdr_diag]; exact h _ (by omega))))

end

/-- `p` computes `C ← op(A) B + beta * C` for size `n × c` -/
def MulOL (p : ℕ → ℕ → ℕ → ℕ → ℕ → Prog K Unit) (cat : Cat) (beta : K) (e : Uplo) (d : Diag) (ta : Tr) (lda ldb ldc n c : ℕ) : Prop :=
  ∀ (m : Mem K) (A B C : ℕ), TrOPre m e d ta n A lda ⟨B, ldb, n, c⟩ ⟨C, ldc, n, c⟩ → AxpyOk m cat .left d ta n A lda →
    Run (p n c A B C) m (fun _ m' => Step m m' ⟨C, ldc, n, c⟩ (fun i j =>
      (∑ l ∈ range n, tm m e d ta A lda i l * m.mat ⟨B, ldb, n, c⟩ l j) + beta * m.mat ⟨C, ldc, n, c⟩ i j))

/-- `p` computes `C ← B op(A) + beta * C` for size `r × n` -/
def MulOR (p : ℕ → ℕ → ℕ → ℕ → ℕ → Prog K Unit) (cat : Cat) (beta : K) (e : Uplo) (d : Diag) (ta : Tr) (lda ldb ldc r n : ℕ) : Prop :=
  ∀ (m : Mem K) (A B C : ℕ), TrOPre m e d ta n A lda ⟨B, ldb, r, n⟩ ⟨C, ldc, r, n⟩ → AxpyOk m cat .right d ta n A lda →
    Run (p r n A B C) m (fun _ m' => Step m m' ⟨C, ldc, r, n⟩ (fun i j =>
      (∑ l ∈ range n, m.mat ⟨B, ldb, r, n⟩ i l * tm m e d ta A lda l j) + beta * m.mat ⟨C, ldc, r, n⟩ i j))

section split
variable {m : Mem K} {cat : Cat} {beta : K} {e : Uplo} {d : Diag} {ta : Tr} {n A lda B ldb C ldc r c f0 nf s0 ns : ℕ}
  {p1 p3 : ℕ → ℕ → ℕ → ℕ → ℕ → Prog K Unit} {g : GemmFn K}

lemma mulOL_split (h : TrOPre m e d ta n A lda ⟨B, ldb, n, c⟩ ⟨C, ldc, n, c⟩) (hx : AxpyOk m cat .left d ta n A lda)
    (hc : Cut n f0 nf s0 ns)
    (hb : ∀ i < nf, ∀ j < ns, below e (f0 + i) (s0 + j)) (h1 : MulOL p1 cat beta e d ta lda ldb ldc nf c)
    (h3 : MulOL p3 cat beta e d ta lda ldb ldc ns c) (hg : GemmAt g ta .no nf c ns) :
    Run (do
      p1 nf c (A + f0 * (lda + 1)) (B + f0 * ldb) (C + f0 * ldc)
      g ta .no nf c ns 1 (opAdr ta A lda f0 s0) lda (B + s0 * ldb) ldb 1 (C + f0 * ldc) ldc
      p3 ns c (A + s0 * (lda + 1)) (B + s0 * ldb) (C + s0 * ldc)) m (fun _ m' => Step m m' ⟨C, ldc, n, c⟩ (fun i j =>
      (∑ l ∈ range n, tm m e d ta A lda i l * m.mat ⟨B, ldb, n, c⟩ l j) + beta * m.mat ⟨C, ldc, n, c⟩ i j)) := by
  set W : Win := ⟨C, ldc, n, c⟩ with hW
  set V : Win := ⟨B, ldb, n, c⟩ with hV
  have hinj : W.Inj := fit_Inj h.tr.lW
  have hf := hc.hf
  have hs := hc.hs
  have hdj := hc.disj
  have eF : (⟨C + f0 * ldc, ldc, nf, c⟩ : Win) = W.sub f0 0 nf c := rfl
  have eS : (⟨C + s0 * ldc, ldc, ns, c⟩ : Win) = W.sub s0 0 ns c := rfl
  have vF : (⟨B + f0 * ldb, ldb, nf, c⟩ : Win) = V.sub f0 0 nf c := rfl
  have vS : (⟨B + s0 * ldb, ldb, ns, c⟩ : Win) = V.sub s0 0 ns c := rfl
  have c0 : 0 + c ≤ W.c := by simp [hW]
  have c1 : 0 + c ≤ V.c := by simp [hV]
  simp only [Run_bind]
  refine (h1 m _ _ _ (eF ▸ vF ▸ h.sub hf hf c0 hf c1) (hx.sub hf)).mono (fun _ m1 s1 => ?_)
  rw [eF, vF] at s1
  have S1 := Step.sub hinj h.tr.okW (i0 := f0) (j0 := 0) hf c0 s1
  have P1 := h.step S1
  obtain ⟨b1, b2, b3⟩ := P1.tr.block hf hs hb
  have GP : GPre m1 ta .no nf c ns (opAdr ta A lda f0 s0) lda (B + s0 * ldb) ldb (C + f0 * ldc) ldc :=
    ⟨P1.tr.wf, b1, P1.okV.of_sub hs c1, P1.tr.okW.of_sub hf c0, b3, h.lV, h.tr.lW,
      fun a ha hh => b2 a ha (Win.sub_Has (W := W) hf c0 hh), (h.dV.sub_left hs c1).sub_right hf c0⟩
  refine (hg m1 1 _ _ _ _ 1 _ _ GP).mono (fun _ m2 s2 => ?_)
  rw [eF] at s2
  have S2 := Step.sub hinj P1.tr.okW (i0 := f0) (j0 := 0) hf c0 s2
  have P2 := P1.step S2
  refine (h3 m2 _ _ _ (eS ▸ vS ▸ P2.sub hs hs c0 hs c1) (((hx.step h.tr S1).step P1.tr S2).sub hs)).mono (fun _ m3 s3 => ?_)
  rw [eS, vS] at s3
  have S3 := Step.sub hinj P2.tr.okW (i0 := s0) (j0 := 0) hs c0 s3
  refine (S1.trans (S2.trans S3)).congr (fun i hi j hj => ?_)
  have hi : i < n := hi
  have hj : j < c := hj
  have uV : ∀ l < n, m1.mat V l j = m.mat V l j := fun l hl => S1.mat_of_disj h.okV h.dV hl hj
  have uV2 : ∀ l < n, m2.mat V l j = m.mat V l j := fun l hl => (S2.mat_of_disj P1.okV h.dV hl hj).trans (uV l hl)
  have sub : ∀ (U : Win) (mm : Mem K) (i0 nn k j : ℕ), mm.mat (U.sub i0 0 nn c) k j = mm.mat U (i0 + k) j :=
    fun U mm i0 nn k j => by
      show mm.val _ = mm.val _
      rw [Win.sub_adr, Nat.zero_add]
  rw [hc.sum_eq]
  rcases hc.cases hi with ⟨k, hk, rfl⟩ | ⟨k, hk, rfl⟩
  · rw [if_neg (by omega), S2.mat hi hj, if_pos (by omega)]
    simp only [Nat.add_sub_cancel_left, Nat.sub_zero]
    rw [gval, eF, sub, S1.mat hi hj, if_pos (by omega), one_mul, one_mul]
    simp only [Nat.add_sub_cancel_left, Nat.sub_zero, tm_diag, sub]
    have hp : Spec.mul ns (Spec.op ta (m1.mat (aw ta nf ns (opAdr ta A lda f0 s0) lda)))
        (Spec.op .no (m1.mat (aw .no ns c (B + s0 * ldb) ldb))) k j =
        ∑ l ∈ range ns, tm m e d ta A lda (f0 + k) (s0 + l) * m.mat V (s0 + l) j := by
      refine sum_congr rfl (fun l hl => ?_)
      have hl := mem_range.1 hl
      rw [op_mat, opAdr_off, ← tm_below (m := m1) (d := d) (hb k hk l hl), h.tr.tm S1 (by omega) (by omega)]
      congr 1
      rw [← uV _ (by omega)]
      exact sub V ..
    rw [hp]
    ring
  · rw [if_pos (by omega)]
    simp only [Nat.add_sub_cancel_left, Nat.sub_zero, tm_diag, sub]
    have z : ∑ l ∈ range nf, tm m e d ta A lda (s0 + k) (f0 + l) * m.mat V (f0 + l) j = 0 :=
      sum_eq_zero (fun l hl => by rw [tm_above (hb l (mem_range.1 hl) k hk), zero_mul])
    rw [z, zero_add, S2.mat hi hj, if_neg (by omega), S1.mat hi hj, if_neg (by omega)]
    congr 1
    refine sum_congr rfl (fun l hl => ?_)
    have hl := mem_range.1 hl
    rw [P1.tr.tm S2 (by omega) (by omega), h.tr.tm S1 (by omega) (by omega), uV2 _ (by omega)]

lemma mulOR_split (h : TrOPre m e d ta n A lda ⟨B, ldb, r, n⟩ ⟨C, ldc, r, n⟩) (hx : AxpyOk m cat .right d ta n A lda)
    (hc : Cut n f0 nf s0 ns)
    (hb : ∀ i < ns, ∀ j < nf, below e (s0 + i) (f0 + j)) (h1 : MulOR p1 cat beta e d ta lda ldb ldc r nf)
    (h3 : MulOR p3 cat beta e d ta lda ldb ldc r ns) (hg : GemmAt g .no ta r nf ns) :
    Run (do
      p1 r nf (A + f0 * (lda + 1)) (B + f0) (C + f0)
      g .no ta r nf ns 1 (B + s0) ldb (opAdr ta A lda s0 f0) lda 1 (C + f0) ldc
      p3 r ns (A + s0 * (lda + 1)) (B + s0) (C + s0)) m (fun _ m' => Step m m' ⟨C, ldc, r, n⟩ (fun i j =>
      (∑ l ∈ range n, m.mat ⟨B, ldb, r, n⟩ i l * tm m e d ta A lda l j) + beta * m.mat ⟨C, ldc, r, n⟩ i j)) := by
  set W : Win := ⟨C, ldc, r, n⟩ with hW
  set V : Win := ⟨B, ldb, r, n⟩ with hV
  have hinj : W.Inj := fit_Inj h.tr.lW
  have hf := hc.hf
  have hs := hc.hs
  have hdj := hc.disj
  have eF : (⟨C + f0, ldc, r, nf⟩ : Win) = W.sub 0 f0 r nf := by simp [Win.sub, hW]
  have eS : (⟨C + s0, ldc, r, ns⟩ : Win) = W.sub 0 s0 r ns := by simp [Win.sub, hW]
  have vF : (⟨B + f0, ldb, r, nf⟩ : Win) = V.sub 0 f0 r nf := by simp [Win.sub, hV]
  have vS : (⟨B + s0, ldb, r, ns⟩ : Win) = V.sub 0 s0 r ns := by simp [Win.sub, hV]
  have c0 : 0 + r ≤ W.r := by simp [hW]
  have c1 : 0 + r ≤ V.r := by simp [hV]
  have lF : nf ≤ ldc := by have := h.tr.lW; simp only [hW] at this; omega
  have lS : ns ≤ ldb := by have := h.lV; simp only [hV] at this; omega
  simp only [Run_bind]
  refine (h1 m _ _ _ (by rw [eF, vF]; exact h.sub hf c0 hf c1 hf) (hx.sub hf)).mono (fun _ m1 s1 => ?_)
  rw [eF, vF] at s1
  have S1 := Step.sub hinj h.tr.okW (i0 := 0) (j0 := f0) c0 hf s1
  have P1 := h.step S1
  obtain ⟨b1, b2, b3⟩ := P1.tr.block hs hf hb
  have GP : GPre m1 .no ta r nf ns (B + s0) ldb (opAdr ta A lda s0 f0) lda (C + f0) ldc :=
    ⟨P1.tr.wf, by rw [aw, opr, opc, vS]; exact P1.okV.of_sub c1 hs, b1, by rw [eF]; exact P1.tr.okW.of_sub c0 hf, lS, b3, lF,
      by rw [aw, opr, opc, vS, eF]; exact (h.dV.sub_left c1 hs).sub_right c0 hf,
      fun a ha hh => b2 a ha (Win.sub_Has (W := W) c0 hf (by rw [← eF]; exact hh))⟩
  refine (hg m1 1 _ _ _ _ 1 _ _ GP).mono (fun _ m2 s2 => ?_)
  rw [eF] at s2
  have S2 := Step.sub hinj P1.tr.okW (i0 := 0) (j0 := f0) c0 hf s2
  have P2 := P1.step S2
  refine (h3 m2 _ _ _ (by rw [eS, vS]; exact P2.sub hs c0 hs c1 hs) (((hx.step h.tr S1).step P1.tr S2).sub hs)).mono
    (fun _ m3 s3 => ?_)
  rw [eS, vS] at s3
  have S3 := Step.sub hinj P2.tr.okW (i0 := 0) (j0 := s0) c0 hs s3
  refine (S1.trans (S2.trans S3)).congr (fun i hi j hj => ?_)
  have hi : i < r := hi
  have hj : j < n := hj
  have uV : ∀ l < n, m1.mat V i l = m.mat V i l := fun l hl => S1.mat_of_disj h.okV h.dV hi hl
  have uV2 : ∀ l < n, m2.mat V i l = m.mat V i l := fun l hl => (S2.mat_of_disj P1.okV h.dV hi hl).trans (uV l hl)
  have sub : ∀ (U : Win) (mm : Mem K) (j0 nn i k : ℕ), mm.mat (U.sub 0 j0 r nn) i k = mm.mat U i (j0 + k) :=
    fun U mm j0 nn i k => by
      show mm.val _ = mm.val _
      rw [Win.sub_adr, Nat.zero_add]
  rw [hc.sum_eq]
  rcases hc.cases hj with ⟨k, hk, rfl⟩ | ⟨k, hk, rfl⟩
  · rw [if_neg (by omega), S2.mat hi hj, if_pos (by omega)]
    simp only [Nat.add_sub_cancel_left, Nat.sub_zero]
    rw [gval, eF, sub, S1.mat hi hj, if_pos (by omega), one_mul, one_mul]
    simp only [Nat.add_sub_cancel_left, Nat.sub_zero, tm_diag, sub]
    have hp : Spec.mul ns (Spec.op .no (m1.mat (aw .no r ns (B + s0) ldb)))
        (Spec.op ta (m1.mat (aw ta ns nf (opAdr ta A lda s0 f0) lda))) i k =
        ∑ l ∈ range ns, m.mat V i (s0 + l) * tm m e d ta A lda (s0 + l) (f0 + k) := by
      refine sum_congr rfl (fun l hl => ?_)
      have hl := mem_range.1 hl
      rw [op_mat ta, opAdr_off, ← tm_below (m := m1) (d := d) (hb l hl k hk), h.tr.tm S1 (by omega) (by omega)]
      congr 1
      rw [← uV _ (by omega)]
      change m1.mat ⟨B + s0, ldb, r, ns⟩ i l = _
      rw [vS]
      exact sub V ..
    rw [hp]
    ring
  · rw [if_pos (by omega)]
    simp only [Nat.add_sub_cancel_left, Nat.sub_zero, tm_diag, sub]
    have z : ∑ l ∈ range nf, m.mat V i (f0 + l) * tm m e d ta A lda (f0 + l) (s0 + k) = 0 :=
      sum_eq_zero (fun l hl => by rw [tm_above (hb k hk l (mem_range.1 hl)), mul_zero])
    rw [z, zero_add, S2.mat hi hj, if_neg (by omega), S1.mat hi hj, if_neg (by omega)]
    congr 1
    refine sum_congr rfl (fun l hl => ?_)
    have hl := mem_range.1 hl
    rw [P1.tr.tm S2 (by omega) (by omega), h.tr.tm S1 (by omega) (by omega), uV2 _ (by omega)]

end split

section gen
variable {m m' : Mem K} {cat : Cat} {beta : K} {e : Uplo} {d : Diag} {ta : Tr} {u : Uplo} {n A lda B ldb C ldc r c ns : ℕ} {g : GemmFn K}

lemma trmmO_scal_L (cat : Cat) (beta : K) (hm : WF m) (hC : OkIn m ⟨C, ldc, 1, c⟩) (M : ℕ) :
    Run (if beta ≠ 0 then trScal cat .left M c beta C ldc else pure ()) m
      (fun _ m' => Step m m' ⟨C, ldc, 1, c⟩ (fun i j => effBeta beta * m.mat ⟨C, ldc, 1, c⟩ i j)) := by
  rif h
  · rw [effBeta, if_neg h]; exact trScal_L cat beta hm hC M
  · rw [effBeta, if_pos (not_not.1 h)]
    exact (Run_pure ..).2 (Step.refl (fun i _ j _ => (one_mul _).symm))

lemma trmmO_scal_R (cat : Cat) (beta : K) (hm : WF m) (hC : OkIn m ⟨C, ldc, r, 1⟩) (hl : 0 < ldc) (N : ℕ) :
    Run (if beta ≠ 0 then trScal cat .right r N beta C ldc else pure ()) m
      (fun _ m' => Step m m' ⟨C, ldc, r, 1⟩ (fun i j => effBeta beta * m.mat ⟨C, ldc, r, 1⟩ i j)) := by
  rif h
  · rw [effBeta, if_neg h]; exact trScal_R cat beta hm hC hl N
  · rw [effBeta, if_pos (not_not.1 h)]
    exact (Run_pure ..).2 (Step.refl (fun i _ j _ => (one_mul _).symm))

lemma trmmO_one_L : MulOL (K := K) (fun M N A B C => trmmOBase cat .left d M N A B ldb beta C ldc) cat (effBeta beta) e d ta lda ldb ldc 1 c := by
  intro m A B C h _
  unfold trmmOBase
  simp only [Run_bind]
  refine (trmmO_scal_L cat beta h.tr.wf h.tr.okW 1).mono (fun _ m1 s1 => ?_)
  have P1 := h.step s1
  have hdis : (vw B 1 c).Disj (vw C 1 c) := fun a ha hb =>
    h.dV a ((row_Has_iff ..).1 ha) ((row_Has_iff ..).1 hb)
  have okB : OkIn m1 (vw B 1 c) := fun x hx => P1.okV x ((row_Has_iff ..).1 hx)
  have okC : OkIn m1 (vw C 1 c) := fun x hx => P1.tr.okW x ((row_Has_iff ..).1 hx)
  have vB : ∀ j < c, m1.val (B + j * 1) = m.mat ⟨B, ldb, 1, c⟩ 0 j := fun j hj => by
    have := s1.mat_of_disj h.okV h.dV (i := 0) (j := j) Nat.one_pos hj
    simpa [Mem.mat] using this
  have vC : ∀ j < c, m1.val (C + j * 1) = effBeta beta * m.mat ⟨C, ldc, 1, c⟩ 0 j := fun j hj => by
    have := s1.val 0 Nat.one_pos j hj
    simpa using this
  cases d with
  | nonUnit =>
    have a0 : opAdr ta A lda 0 0 = A := by cases ta <;> simp [opAdr]
    have ok := P1.tr.okA 0 Nat.one_pos 0 Nat.one_pos (Or.inr ⟨rfl, rfl⟩)
    have va := h.tr.val s1 (i := 0) (j := 0) Nat.one_pos Nat.one_pos (Or.inr ⟨rfl, rfl⟩)
    rw [a0] at ok va
    simp only [Run_bind, Run_load, ok, true_and, va]
    refine (vaxpy_spec cat _ P1.tr.wf okB okC (hdis.safe rfl rfl) Nat.one_pos Nat.one_pos (Or.inr (Or.inl ⟨rfl, rfl⟩))).mono
      (fun _ m2 s2 => s1.trans ((Step.of_row s2).congr (fun i hi j hj => ?_)))
    have hi : i = 0 := by simpa using hi
    subst hi
    rw [vB j hj, vC j hj]
    simp only [sum_range_one, tm, if_true, a0]
  | unit =>
    refine (vaddin_spec cat okB okC (hdis.safe rfl rfl) Nat.one_pos).mono
      (fun _ m2 s2 => s1.trans ((Step.of_row s2).congr (fun i hi j hj => ?_)))
    have hi : i = 0 := by simpa using hi
    subst hi
    rw [vB j hj, vC j hj]
    simp only [sum_range_one, tm, if_true, one_mul]

lemma trmmO_one_R : MulOR (K := K) (fun M N A B C => trmmOBase cat .right d M N A B ldb beta C ldc) cat (effBeta beta) e d ta lda ldb ldc r 1 := by
  intro m A B C h hx
  unfold trmmOBase
  simp only [Run_bind]
  refine (trmmO_scal_R cat beta h.tr.wf h.tr.okW h.tr.lW 1).mono (fun _ m1 s1 => ?_)
  have P1 := h.step s1
  have vB : ∀ i < r, m1.val (B + i * ldb) = m.mat ⟨B, ldb, r, 1⟩ i 0 := fun i hi =>
    s1.mat_of_disj h.okV h.dV (i := i) (j := 0) hi Nat.one_pos
  have vC : ∀ i < r, m1.val (C + i * ldc) = effBeta beta * m.mat ⟨C, ldc, r, 1⟩ i 0 := fun i hi =>
    s1.val i hi 0 Nat.one_pos
  cases d with
  | nonUnit =>
    have a0 : opAdr ta A lda 0 0 = A := by cases ta <;> simp [opAdr]
    have ok := P1.tr.okA 0 Nat.one_pos 0 Nat.one_pos (Or.inr ⟨rfl, rfl⟩)
    have va := h.tr.val s1 (i := 0) (j := 0) Nat.one_pos Nat.one_pos (Or.inr ⟨rfl, rfl⟩)
    rw [a0] at ok va
    simp only [Run_bind, Run_load, ok, true_and, va]
    have hgen : cat = .modular ∨ (ldb = 1 ∧ ldc = 1) ∨ m.val A ≠ -1 ∨ m.val A = 1 := by
      rcases hx with hx | hx | hx | hx
      · exact Or.inl hx
      · exact absurd hx (by simp)
      · exact absurd hx (by simp)
      · have := hx 0 Nat.one_pos
        rw [a0] at this
        exact Or.inr (Or.inr (Or.inl this))
    refine (vaxpy_spec cat _ P1.tr.wf P1.okV P1.tr.okW (h.dV.safe rfl rfl) h.lV h.tr.lW hgen).mono
      (fun _ m2 s2 => s1.trans (s2.congr (fun i hi j hj => ?_)))
    have hj : j = 0 := by simpa using hj
    subst hj
    rw [vB i hi, vC i hi]
    simp only [sum_range_one, tm, if_true, a0]
    rw [mul_comm (m.val A)]
  | unit =>
    refine (vaddin_spec cat P1.okV P1.tr.okW (h.dV.safe rfl rfl) h.tr.lW).mono
      (fun _ m2 s2 => s1.trans (s2.congr (fun i hi j hj => ?_)))
    have hj : j = 0 := by simpa using hj
    subst hj
    rw [vB i hi, vC i hi]
    simp only [sum_range_one, tm, if_true, mul_one]

theorem ftrmmOGen_L (hg : GemmOk g) (fuel : ℕ) : ∀ n, 1 ≤ n → n ≤ fuel →
    MulOL (ftrmmOGen cat g .left u ta d lda ldb beta ldc fuel) cat (effBeta beta) (effUplo u ta) d ta lda ldb ldc n c := by
  induction fuel with
  | zero => intro n h1 h2; omega
  | succ fuel ih =>
    intro n h1 h2 m A B C hp hx
    unfold ftrmmOGen
    rif h
    · have h : n = 1 := h
      subst h; exact trmmO_one_L m A B C hp hx
    · have h : ¬ n = 1 := h
      have : n >>> 1 = n / 2 := by rw [Nat.shiftRight_eq_div_pow]
      simp only [trNa, this]
      have i1 := ih (n - n / 2) (by omega) (by omega)
      have i2 := ih (n / 2) (by omega) (by omega)
      cases he : effUplo u ta with
      | lower =>
        rw [he] at hp i1 i2
        have := mulOL_split (f0 := n / 2) (nf := n - n / 2) (s0 := 0) (ns := n / 2) hp hx ⟨by omega, Or.inr ⟨rfl, rfl⟩⟩
          (fun i hi j hj => by simp only [below]; omega) i1 i2 (hg _ _ _ _ _)
        simpa only [trmmPtr, trmmC, arow_eq, Nat.zero_mul, Nat.add_zero] using this
      | upper =>
        rw [he] at hp i1 i2
        have := mulOL_split (f0 := 0) (nf := n - n / 2) (s0 := n - n / 2) (ns := n / 2) hp hx ⟨by omega, Or.inl ⟨rfl, rfl⟩⟩
          (fun i hi j hj => by simp only [below]; omega) i1 i2 (hg _ _ _ _ _)
        simpa only [trmmPtr, trmmC, acol_eq, Nat.zero_mul, Nat.add_zero] using this

theorem ftrmmOGen_R (hg : GemmOk g) (fuel : ℕ) : ∀ n, 1 ≤ n → n ≤ fuel →
    MulOR (ftrmmOGen cat g .right u ta d lda ldb beta ldc fuel) cat (effBeta beta) (effUplo u ta) d ta lda ldb ldc r n := by
  induction fuel with
  | zero => intro n h1 h2; omega
  | succ fuel ih =>
    intro n h1 h2 m A B C hp hx
    unfold ftrmmOGen
    rif h
    · have h : n = 1 := h
      subst h; exact trmmO_one_R m A B C hp hx
    · have h : ¬ n = 1 := h
      have : n >>> 1 = n / 2 := by rw [Nat.shiftRight_eq_div_pow]
      simp only [trNa, this]
      have i1 := ih (n - n / 2) (by omega) (by omega)
      have i2 := ih (n / 2) (by omega) (by omega)
      cases he : effUplo u ta with
      | upper =>
        rw [he] at hp i1 i2
        have := mulOR_split (f0 := n / 2) (nf := n - n / 2) (s0 := 0) (ns := n / 2) hp hx ⟨by omega, Or.inr ⟨rfl, rfl⟩⟩
          (fun i hi j hj => by simp only [below]; omega) i1 i2 (hg _ _ _ _ _)
        simpa only [trmmPtr, trmmC, acol_eq, Nat.zero_mul, Nat.add_zero] using this
      | lower =>
        rw [he] at hp i1 i2
        have := mulOR_split (f0 := 0) (nf := n - n / 2) (s0 := n - n / 2) (ns := n / 2) hp hx ⟨by omega, Or.inl ⟨rfl, rfl⟩⟩
          (fun i hi j hj => by simp only [below]; omega) i1 i2 (hg _ _ _ _ _)
        simpa only [trmmPtr, trmmC, arow_eq, Nat.zero_mul, Nat.add_zero] using this

/-- effect of out-of-place `ftrmm`, as documented -/
def MulOEff (side : Side) (m m' : Mem K) (u : Uplo) (ta : Tr) (d : Diag) (M N : ℕ) (alpha : K) (A lda B ldb : ℕ) (beta : K)
    (C ldc : ℕ) : Prop :=
  Step m m' ⟨C, ldc, M, N⟩ (fun i j => alpha * Spec.sideMul side (Spec.sideDim side M N)
    (Spec.op ta (Spec.tri u d (m.mat ⟨A, lda, Spec.sideDim side M N, Spec.sideDim side M N⟩))) (m.mat ⟨B, ldb, M, N⟩) i j
      + beta * m.mat ⟨C, ldc, M, N⟩ i j)

omit [DecidableEq K] in
lemma MulOL.eff {p : ℕ → ℕ → ℕ → ℕ → ℕ → Prog K Unit} {M N : ℕ} (h : MulOL p cat beta (effUplo u ta) d ta lda ldb ldc M N)
    (hp : TrOPre m (effUplo u ta) d ta M A lda ⟨B, ldb, M, N⟩ ⟨C, ldc, M, N⟩) (hx : AxpyOk m cat .left d ta M A lda) :
    Run (p M N A B C) m (fun _ m' => MulOEff .left m m' u ta d M N 1 A lda B ldb beta C ldc) := by
  refine (h m A B C hp hx).mono (fun _ _ s => s.congr ?_)
  intro i _ j _
  rw [one_mul, tm_eq]; rfl

omit [DecidableEq K] in
lemma MulOR.eff {p : ℕ → ℕ → ℕ → ℕ → ℕ → Prog K Unit} {M N : ℕ} (h : MulOR p cat beta (effUplo u ta) d ta lda ldb ldc M N)
    (hp : TrOPre m (effUplo u ta) d ta N A lda ⟨B, ldb, M, N⟩ ⟨C, ldc, M, N⟩) (hx : AxpyOk m cat .right d ta N A lda) :
    Run (p M N A B C) m (fun _ m' => MulOEff .right m m' u ta d M N 1 A lda B ldb beta C ldc) := by
  refine (h m A B C hp hx).mono (fun _ _ s => s.congr ?_)
  intro i _ j _
  rw [one_mul, tm_eq]; rfl

/-- the scaling by `alpha` around the kernels -/
lemma mulO_wrap (cat : Cat) (side : Side) (M N : ℕ) (alpha : K) (ha : alpha ≠ 0) (k : K → Prog K Unit) (φ : K → K)
    (hm : WF m) (hC : OkIn m ⟨C, ldc, M, N⟩) (hl : N ≤ ldc)
    (main : ∀ bet, Run (k bet) m (fun _ m' => MulOEff side m m' u ta d M N 1 A lda B ldb (φ bet) C ldc)) :
    Run (do
      let bet ← (if alpha = 1 then pure beta else liftE (divE beta alpha))
      k bet
      if alpha = 1 then pure () else fscalin cat M N alpha C ldc) m
      (fun _ m' => MulOEff side m m' u ta d M N alpha A lda B ldb (alpha * φ (beta * alpha⁻¹)) C ldc) := by
  simp only [Run_bind]
  rif h1
  · subst h1
    refine (Run_pure ..).2 ((main beta).mono (fun _ m1 s1 => ?_))
    rw [if_pos rfl, inv_one, mul_one, one_mul]
    exact (Run_pure ..).2 s1
  · simp only [Run_liftE, divE, invE, if_neg ha, Ok_bind, Ok_ok, Ok_pure, if_neg h1]
    refine (main (beta * alpha⁻¹)).mono (fun _ m1 s1 => ?_)
    unfold MulOEff at s1
    refine (fscalin_spec cat alpha (hm.step s1) (hC.step s1) hl).mono (fun _ m2 s2 => (s1.trans s2).congr ?_)
    intro i hi j hj
    rw [s1.mat hi hj]
    ring

/-- Out-of-place `ftrmm` over a generic field, `alpha ≠ 0`: the factor of `C` is `beta` if `beta ≠ 0` and `alpha` otherwise. -/
theorem ftrmmO_ok (hg : GemmOk g) (side : Side) (M N : ℕ) (alpha : K) (ha : alpha ≠ 0)
    (hp : TrOPre m (effUplo u ta) d ta (Spec.sideDim side M N) A lda ⟨B, ldb, M, N⟩ ⟨C, ldc, M, N⟩)
    (hx : AxpyOk m cat side d ta (Spec.sideDim side M N) A lda) :
    Run (ftrmmO cat g side u ta d M N alpha A lda B ldb beta C ldc) m
      (fun _ m' => MulOEff side m m' u ta d M N alpha A lda B ldb (if beta = 0 then alpha else beta) C ldc) := by
  unfold ftrmmO
  rif h0
  · exact (Run_pure ..).2 (Step.refl (fun i hi j hj => by have hi : i < M := hi; have hj : j < N := hj; omega))
  · have key : (if beta = 0 then alpha else beta) = alpha * effBeta (beta * alpha⁻¹) := by
      rw [effBeta]
      by_cases hb : beta = 0
      · rw [if_pos hb, hb, zero_mul, if_pos rfl, mul_one]
      · rw [if_neg hb, if_neg (mul_ne_zero hb (inv_ne_zero ha))]
        field_simp
    rw [key]
    refine mulO_wrap cat side M N alpha ha _ effBeta hp.tr.wf hp.tr.okW hp.tr.lW (fun bet => ?_)
    cases side with
    | left => exact (ftrmmOGen_L (cat := cat) (beta := bet) hg M M (by omega) le_rfl).eff hp hx
    | right => exact (ftrmmOGen_R (cat := cat) (beta := bet) hg N N (by omega) le_rfl).eff hp hx

end gen

section double
variable {m m' : Mem K} {cat : Cat} {beta : K} {e : Uplo} {d : Diag} {ta : Tr} {u : Uplo} {n A lda B ldb C ldc r c ns nrest : ℕ}
  {g : GemmFn K} {bm : ℕ → ℕ → ℕ → ℕ → Prog K Unit} {dl : ℕ → ℕ → ℕ → ℕ → ℕ → Prog K Unit}

/-- `delayed` -/
lemma trmmODelayed_L (cat : Cat) (beta : K) (hbm : MulL bm e d ta lda ldc n c) :
    MulOL (trmmODelayed cat bm ldb beta ldc) .modular beta e d ta lda ldb ldc n c := by
  intro m A B C h _
  set W : Win := ⟨C, ldc, n, c⟩ with hW
  set V : Win := ⟨B, ldb, n, c⟩ with hV
  have hinj : W.Inj := fit_Inj h.tr.lW
  -- copy, then product
  have core : ∀ m0 : Mem K, TrOPre m0 e d ta n A lda V W → Run (do
      fassign n c B ldb C ldc
      bm n c A C) m0 (fun _ m1 => Step m0 m1 W (fun i j =>
        ∑ l ∈ range n, tm m0 e d ta A lda i l * m0.mat V l j)) := by
    intro m0 h0
    simp only [Run_bind]
    refine (fassign_spec h0.tr.wf h0.okV h0.tr.okW h0.tr.lW (h0.dV.safe rfl rfl)).mono (fun _ m1 s1 => ?_)
    have P1 := h0.step s1
    refine (hbm m1 A C P1.tr).mono (fun _ m2 s2 => (s1.trans s2).congr (fun i hi j hj => ?_))
    refine sum_congr rfl (fun l hl => ?_)
    have hl := mem_range.1 hl
    rw [h0.tr.tm s1 hi hl, s1.mat hl hj]
  unfold trmmODelayed
  rif hb
  · simp only [Run_bind, Run_alloc]
    set G := m.grow (n * c) with hG
    change Run (fscal cat n c beta C ldc m.next c) G _
    have okC := h.tr.okW.grow (n * c)
    have okT : OkIn G ⟨m.next, c, n, c⟩ := OkIn.grow_new m n c
    have dT : W.Disj ⟨m.next, c, n, c⟩ := Disj_new h.tr.wf h.tr.okW
    have dV : V.Disj ⟨m.next, c, n, c⟩ := Disj_new h.tr.wf h.okV
    refine (fscal_spec cat beta (h.tr.wf.grow _) okC okT le_rfl (dT.safe rfl rfl)).mono (fun _ m1 s1 => ?_)
    have G0 : TrOPre G e d ta n A lda V W := ⟨⟨h.tr.wf.grow _, okC, h.tr.lW, h.tr.lA,
      fun i hi j hj ht => by simp [hG, Mem.grow, h.tr.okA i hi j hj ht], h.tr.dA⟩, h.okV.grow _, h.lV, h.dV⟩
    have notT : ∀ a, m.ok a = true → ¬ (Win.mk m.next c n c).Has a := by
      rintro a ha ⟨i, hi, j, hj, rfl⟩
      rw [h.tr.wf _ (by simp only [Win.adr]; omega)] at ha
      exact absurd ha (by simp)
    have val1 : ∀ a, m.ok a = true → m1.val a = m.val a := fun a ha =>
      s1.frame a (by simp [hG, Mem.grow, ha]) (notT a ha)
    have P1 : TrOPre m1 e d ta n A lda V W := ⟨⟨(h.tr.wf.grow _).step s1, okC.step s1, h.tr.lW, h.tr.lA,
      fun i hi j hj ht => by rw [s1.ok]; exact G0.tr.okA i hi j hj ht, h.tr.dA⟩, G0.okV.step s1, h.lV, h.dV⟩
    have hc := core m1 P1
    simp only [Run_bind] at hc
    refine hc.mono (fun _ m2 h2 => h2.mono (fun _ m3 s3 => ?_))
    have okT3 : OkIn m3 ⟨m.next, c, n, c⟩ := (okT.step s1).step s3
    refine (faddin_spec cat (P1.tr.wf.step s3) okT3 (P1.tr.okW.step s3) le_rfl h.tr.lW
      (dT.symm.safe rfl rfl)).mono (fun _ m4 s4 => (Run_free ..).2 ?_)
    refine (Step.temp h.tr.wf s1 (s3.trans s4)).congr (fun i hi j hj => ?_)
    have hi : i < n := hi
    have hj : j < c := hj
    rw [s3.mat hi hj, s3.mat_of_disj (okT.step s1) dT.symm hi hj, s1.mat hi hj, add_comm]
    congr 1
    refine sum_congr rfl (fun l hl => ?_)
    have hl := mem_range.1 hl
    have t1 : ∀ i' < n, ∀ j' < n, tm m1 e d ta A lda i' j' = tm m e d ta A lda i' j' := fun i' hi' j' hj' => by
      unfold tm
      by_cases hd : i' = j'
      · subst hd
        cases d with
        | unit => simp only [if_true]
        | nonUnit => simp only [if_true]; exact val1 _ (h.tr.okA i' hi' i' hi' (Or.inr ⟨rfl, rfl⟩))
      · rw [if_neg hd, if_neg hd]
        by_cases hb : below e i' j'
        · rw [if_pos hb, if_pos hb]; exact val1 _ (h.tr.okA i' hi' j' hj' (Or.inl hb))
        · rw [if_neg hb, if_neg hb]
    rw [t1 i hi l hl, show m1.mat V l j = m.mat V l j from val1 _ (h.okV _ (Win.Has_adr (W := V) hl hj))]
  · have hb : beta = 0 := not_not.1 hb
    refine (core m h).mono (fun _ m1 s1 => s1.congr (fun i hi j hj => ?_))
    rw [hb, zero_mul, add_zero]

/-- `delayed` -/
lemma trmmODelayed_R (cat : Cat) (beta : K) (hbm : MulR bm e d ta lda ldc r n) :
    MulOR (trmmODelayed cat bm ldb beta ldc) .modular beta e d ta lda ldb ldc r n := by
  intro m A B C h _
  set W : Win := ⟨C, ldc, r, n⟩ with hW
  set V : Win := ⟨B, ldb, r, n⟩ with hV
  have hinj : W.Inj := fit_Inj h.tr.lW
  -- copy, then product
  have core : ∀ m0 : Mem K, TrOPre m0 e d ta n A lda V W → Run (do
      fassign r n B ldb C ldc
      bm r n A C) m0 (fun _ m1 => Step m0 m1 W (fun i j =>
        ∑ l ∈ range n, m0.mat V i l * tm m0 e d ta A lda l j)) := by
    intro m0 h0
    simp only [Run_bind]
    refine (fassign_spec h0.tr.wf h0.okV h0.tr.okW h0.tr.lW (h0.dV.safe rfl rfl)).mono (fun _ m1 s1 => ?_)
    have P1 := h0.step s1
    refine (hbm m1 A C P1.tr).mono (fun _ m2 s2 => (s1.trans s2).congr (fun i hi j hj => ?_))
    refine sum_congr rfl (fun l hl => ?_)
    have hl := mem_range.1 hl
    rw [h0.tr.tm s1 hl hj, s1.mat hi hl]
  unfold trmmODelayed
  rif hb
  · simp only [Run_bind, Run_alloc]
    set G := m.grow (r * n) with hG
    change Run (fscal cat r n beta C ldc m.next n) G _
    have okC := h.tr.okW.grow (r * n)
    have okT : OkIn G ⟨m.next, n, r, n⟩ := OkIn.grow_new m r n
    have dT : W.Disj ⟨m.next, n, r, n⟩ := Disj_new h.tr.wf h.tr.okW
    have dV : V.Disj ⟨m.next, n, r, n⟩ := Disj_new h.tr.wf h.okV
    refine (fscal_spec cat beta (h.tr.wf.grow _) okC okT le_rfl (dT.safe rfl rfl)).mono (fun _ m1 s1 => ?_)
    have G0 : TrOPre G e d ta n A lda V W := ⟨⟨h.tr.wf.grow _, okC, h.tr.lW, h.tr.lA,
      fun i hi j hj ht => by simp [hG, Mem.grow, h.tr.okA i hi j hj ht], h.tr.dA⟩, h.okV.grow _, h.lV, h.dV⟩
    have notT : ∀ a, m.ok a = true → ¬ (Win.mk m.next n r n).Has a := by
      rintro a ha ⟨i, hi, j, hj, rfl⟩
      rw [h.tr.wf _ (by simp only [Win.adr]; omega)] at ha
      exact absurd ha (by simp)
    have val1 : ∀ a, m.ok a = true → m1.val a = m.val a := fun a ha =>
      s1.frame a (by simp [hG, Mem.grow, ha]) (notT a ha)
    have P1 : TrOPre m1 e d ta n A lda V W := ⟨⟨(h.tr.wf.grow _).step s1, okC.step s1, h.tr.lW, h.tr.lA,
      fun i hi j hj ht => by rw [s1.ok]; exact G0.tr.okA i hi j hj ht, h.tr.dA⟩, G0.okV.step s1, h.lV, h.dV⟩
    have hc := core m1 P1
    simp only [Run_bind] at hc
    refine hc.mono (fun _ m2 h2 => h2.mono (fun _ m3 s3 => ?_))
    have okT3 : OkIn m3 ⟨m.next, n, r, n⟩ := (okT.step s1).step s3
    refine (faddin_spec cat (P1.tr.wf.step s3) okT3 (P1.tr.okW.step s3) le_rfl h.tr.lW
      (dT.symm.safe rfl rfl)).mono (fun _ m4 s4 => (Run_free ..).2 ?_)
    refine (Step.temp h.tr.wf s1 (s3.trans s4)).congr (fun i hi j hj => ?_)
    have hi : i < r := hi
    have hj : j < n := hj
    rw [s3.mat hi hj, s3.mat_of_disj (okT.step s1) dT.symm hi hj, s1.mat hi hj, add_comm]
    congr 1
    refine sum_congr rfl (fun l hl => ?_)
    have hl := mem_range.1 hl
    have t1 : ∀ i' < n, ∀ j' < n, tm m1 e d ta A lda i' j' = tm m e d ta A lda i' j' := fun i' hi' j' hj' => by
      unfold tm
      by_cases hd : i' = j'
      · subst hd
        cases d with
        | unit => simp only [if_true]
        | nonUnit => simp only [if_true]; exact val1 _ (h.tr.okA i' hi' i' hi' (Or.inr ⟨rfl, rfl⟩))
      · rw [if_neg hd, if_neg hd]
        by_cases hb : below e i' j'
        · rw [if_pos hb, if_pos hb]; exact val1 _ (h.tr.okA i' hi' j' hj' (Or.inl hb))
        · rw [if_neg hb, if_neg hb]
    rw [t1 l hl j hj, show m1.mat V i l = m.mat V i l from val1 _ (h.okV _ (Win.Has_adr (W := V) hi hl))]
  · have hb : beta = 0 := not_not.1 hb
    refine (core m h).mono (fun _ m1 s1 => s1.congr (fun i hi j hj => ?_))
    rw [hb, zero_mul, add_zero]

lemma trmmOSplit_L {p1 p3 : ℕ → ℕ → ℕ → ℕ → ℕ → Prog K Unit} (hs : ns ≤ n)
    (h1 : MulOL p1 cat beta (effUplo u ta) d ta lda ldb ldc (n - ns) c) (h3 : MulOL p3 cat beta (effUplo u ta) d ta lda ldb ldc (ns) c)
    (hg : GemmOk g) (h : TrOPre m (effUplo u ta) d ta n A lda ⟨B, ldb, n, c⟩ ⟨C, ldc, n, c⟩)
    (hx : AxpyOk m cat .left d ta n A lda) :
    let q := trmmPtr .left (effUplo u ta) ta n ns A lda B ldb
    let c' := trmmC .left (effUplo u ta) n ns C ldc
    Run (do
      p1 (n - ns) c q.a1 q.b1 c'.1
      g ta .no (n - ns) c ns 1 q.a2 lda q.b2 ldb 1 c'.1 ldc
      p3 (ns) c q.a3 q.b2 c'.2) m (fun _ m' => Step m m' ⟨C, ldc, n, c⟩ (fun i j =>
      (∑ l ∈ range n, tm m (effUplo u ta) d ta A lda i l * m.mat ⟨B, ldb, n, c⟩ l j) + beta * m.mat ⟨C, ldc, n, c⟩ i j)) := by
  intro q c'
  cases he : effUplo u ta with
  | lower =>
    rw [he] at h h1 h3
    have := mulOL_split (f0 := ns) (nf := n - ns) (s0 := 0) (ns := ns) h hx ⟨by omega, Or.inr ⟨rfl, rfl⟩⟩
      (fun i hi j hj => by simp only [below]; omega) h1 h3 (hg _ _ _ _ _)
    simpa only [q, c', he, trmmPtr, trmmC, arow_eq, acol_eq, Nat.zero_mul, Nat.add_zero] using this
  | upper =>
    rw [he] at h h1 h3
    have := mulOL_split (f0 := 0) (nf := n - ns) (s0 := n - ns) (ns := ns) h hx ⟨by omega, Or.inl ⟨rfl, rfl⟩⟩
      (fun i hi j hj => by simp only [below]; omega) h1 h3 (hg _ _ _ _ _)
    simpa only [q, c', he, trmmPtr, trmmC, arow_eq, acol_eq, Nat.zero_mul, Nat.add_zero] using this

/-- The block loop. -/
lemma trmmOBlocks_L (hdl : ∀ n, MulOL dl cat beta (effUplo u ta) d ta lda ldb ldc (n) c) (hg : GemmOk g) :
    ∀ nbb, MulOL (trmmOBlocks g dl .left u ta ns nbb nrest lda ldb ldc) cat beta (effUplo u ta) d ta lda ldb ldc (nrest + nbb * ns) c := by
  intro nbb
  induction nbb with
  | zero =>
    intro m A B C hp hx
    rw [Nat.zero_mul, Nat.add_zero] at hp hx ⊢
    unfold trmmOBlocks
    simp only [loop, Run_bind, Run_pure]
    have := hdl _ m A B C hp hx
    cases he : effUplo u ta <;> rw [he] at this <;>
      simpa only [trmmLoopPtr, trmmBrest, trNa, Nat.zero_mul, Nat.add_zero] using this
  | succ nbb ih =>
    intro m A B C hp hx
    have hn : nrest + (nbb + 1) * ns - ns = nrest + nbb * ns := by rw [Nat.succ_mul]; omega
    have key := trmmOSplit_L (p1 := trmmOBlocks g dl .left u ta ns nbb nrest lda ldb ldc) (p3 := dl)
      (n := nrest + (nbb + 1) * ns) (ns := ns) (g := g) (by rw [Nat.succ_mul]; omega) (hn ▸ ih) (hdl ns) hg hp hx
    simp only [Run_bind] at key
    unfold trmmOBlocks at key ⊢
    simp only [Run_bind, loop] at key ⊢
    cases he : effUplo u ta <;> rw [he] at key
    all_goals simp only [trmmPtr, trmmC, trNa, trmmLoopPtr, trmmBrest, hn] at key ⊢
    
    · exact key
    · have q1 : A + ns * (lda + 1) + nbb * ns * (lda + 1) = A + (nbb + 1) * ns * (lda + 1) := by ring
      have q2 : B + ns * ldb + nbb * ns * ldb = B + (nbb + 1) * ns * ldb := by ring
      have q3 : C + ns * ldc + nbb * ns * ldc = C + (nbb + 1) * ns * ldc := by ring
      rw [q1, q2, q3] at key
      refine key.mono (fun _ m1 h1 => ?_)
      have e0 : nbb + 1 - (nbb + 1) = 0 := by omega
      have e1 : nbb + 1 - nbb = 1 := by omega
      rw [e0, e1]
      simp only [Nat.zero_mul, Nat.add_zero, Nat.one_mul]
      convert h1 using 1
      refine loop_congr (fun i hi => ?_)
      obtain ⟨t, ht⟩ : ∃ t, nbb - (i + 1) = t := ⟨_, rfl⟩
      have f1 : nbb + 1 - (i + 1) = t + 1 := by omega
      have f2 : nbb + 1 - i = t + 2 := by omega
      have f3 : nbb - i = t + 1 := by omega
      rw [f1, f2, f3, ht]
      have g1 : A + (t + 1) * ns * (lda + 1) = A + ns * (lda + 1) + t * ns * (lda + 1) := by ring
      have g2 : B + (t + 1) * ns * ldb = B + ns * ldb + t * ns * ldb := by ring
      have g3 : C + (t + 1) * ns * ldc = C + ns * ldc + t * ns * ldc := by ring
      have g4 : C + (t + 2) * ns * ldc = C + ns * ldc + (t + 1) * ns * ldc := by ring
      rw [g1, g2, g3, g4]

lemma trmmOSplit_R {p1 p3 : ℕ → ℕ → ℕ → ℕ → ℕ → Prog K Unit} (hs : ns ≤ n)
    (h1 : MulOR p1 cat beta (effUplo u ta) d ta lda ldb ldc r (n - ns)) (h3 : MulOR p3 cat beta (effUplo u ta) d ta lda ldb ldc r (ns))
    (hg : GemmOk g) (h : TrOPre m (effUplo u ta) d ta n A lda ⟨B, ldb, r, n⟩ ⟨C, ldc, r, n⟩)
    (hx : AxpyOk m cat .right d ta n A lda) :
    let q := trmmPtr .right (effUplo u ta) ta n ns A lda B ldb
    let c' := trmmC .right (effUplo u ta) n ns C ldc
    Run (do
      p1 r (n - ns) q.a1 q.b1 c'.1
      g .no ta r (n - ns) ns 1 q.b2 ldb q.a2 lda 1 c'.1 ldc
      p3 r (ns) q.a3 q.b2 c'.2) m (fun _ m' => Step m m' ⟨C, ldc, r, n⟩ (fun i j =>
      (∑ l ∈ range n, m.mat ⟨B, ldb, r, n⟩ i l * tm m (effUplo u ta) d ta A lda l j) + beta * m.mat ⟨C, ldc, r, n⟩ i j)) := by
  intro q c'
  cases he : effUplo u ta with
  | upper =>
    rw [he] at h h1 h3
    have := mulOR_split (f0 := ns) (nf := n - ns) (s0 := 0) (ns := ns) h hx ⟨by omega, Or.inr ⟨rfl, rfl⟩⟩
      (fun i hi j hj => by simp only [below]; omega) h1 h3 (hg _ _ _ _ _)
    simpa only [q, c', he, trmmPtr, trmmC, arow_eq, acol_eq, Nat.zero_mul, Nat.add_zero] using this
  | lower =>
    rw [he] at h h1 h3
    have := mulOR_split (f0 := 0) (nf := n - ns) (s0 := n - ns) (ns := ns) h hx ⟨by omega, Or.inl ⟨rfl, rfl⟩⟩
      (fun i hi j hj => by simp only [below]; omega) h1 h3 (hg _ _ _ _ _)
    simpa only [q, c', he, trmmPtr, trmmC, arow_eq, acol_eq, Nat.zero_mul, Nat.add_zero] using this

/-- The block loop. -/
lemma trmmOBlocks_R (hdl : ∀ n, MulOR dl cat beta (effUplo u ta) d ta lda ldb ldc r (n)) (hg : GemmOk g) :
    ∀ nbb, MulOR (trmmOBlocks g dl .right u ta ns nbb nrest lda ldb ldc) cat beta (effUplo u ta) d ta lda ldb ldc r (nrest + nbb * ns) := by
  intro nbb
  induction nbb with
  | zero =>
    intro m A B C hp hx
    rw [Nat.zero_mul, Nat.add_zero] at hp hx ⊢
    unfold trmmOBlocks
    simp only [loop, Run_bind, Run_pure]
    have := hdl _ m A B C hp hx
    cases he : effUplo u ta <;> rw [he] at this <;>
      simpa only [trmmLoopPtr, trmmBrest, trNa, Nat.zero_mul, Nat.add_zero] using this
  | succ nbb ih =>
    intro m A B C hp hx
    have hn : nrest + (nbb + 1) * ns - ns = nrest + nbb * ns := by rw [Nat.succ_mul]; omega
    have key := trmmOSplit_R (p1 := trmmOBlocks g dl .right u ta ns nbb nrest lda ldb ldc) (p3 := dl)
      (n := nrest + (nbb + 1) * ns) (ns := ns) (g := g) (by rw [Nat.succ_mul]; omega) (hn ▸ ih) (hdl ns) hg hp hx
    simp only [Run_bind] at key
    unfold trmmOBlocks at key ⊢
    simp only [Run_bind, loop] at key ⊢
    cases he : effUplo u ta <;> rw [he] at key
    all_goals simp only [trmmPtr, trmmC, trNa, trmmLoopPtr, trmmBrest, hn] at key ⊢
    swap
    · exact key
    · have q1 : A + ns * (lda + 1) + nbb * ns * (lda + 1) = A + (nbb + 1) * ns * (lda + 1) := by ring
      have q2 : B + ns + nbb * ns = B + (nbb + 1) * ns := by ring
      have q3 : C + ns + nbb * ns = C + (nbb + 1) * ns := by ring
      rw [q1, q2, q3] at key
      refine key.mono (fun _ m1 h1 => ?_)
      have e0 : nbb + 1 - (nbb + 1) = 0 := by omega
      have e1 : nbb + 1 - nbb = 1 := by omega
      rw [e0, e1]
      simp only [Nat.zero_mul, Nat.add_zero, Nat.one_mul]
      convert h1 using 1
      refine loop_congr (fun i hi => ?_)
      obtain ⟨t, ht⟩ : ∃ t, nbb - (i + 1) = t := ⟨_, rfl⟩
      have f1 : nbb + 1 - (i + 1) = t + 1 := by omega
      have f2 : nbb + 1 - i = t + 2 := by omega
      have f3 : nbb - i = t + 1 := by omega
      rw [f1, f2, f3, ht]
      have g1 : A + (t + 1) * ns * (lda + 1) = A + ns * (lda + 1) + t * ns * (lda + 1) := by ring
      have g2 : B + (t + 1) * ns = B + ns + t * ns := by ring
      have g3 : C + (t + 1) * ns = C + ns + t * ns := by ring
      have g4 : C + (t + 2) * ns = C + ns + (t + 1) * ns := by ring
      rw [g1, g2, g3, g4]

/-- Out-of-place `ftrmm` for `double` and `float`, any block size, `alpha ≠ 0`. -/
theorem ftrmmOD_ok (cat : Cat) (hg : GemmOk g) (side : Side) (hbm : BmOk bm side (effUplo u ta) d ta lda ldc) (M N : ℕ)
    (hnd : 0 < ns) (alpha : K) (ha : alpha ≠ 0)
    (hp : TrOPre m (effUplo u ta) d ta (Spec.sideDim side M N) A lda ⟨B, ldb, M, N⟩ ⟨C, ldc, M, N⟩) :
    Run (ftrmmOD cat g bm side u ta ns M N alpha A lda B ldb beta C ldc) m
      (fun _ m' => MulOEff side m m' u ta d M N alpha A lda B ldb beta C ldc) := by
  unfold ftrmmOD
  rif h0
  · exact (Run_pure ..).2 (Step.refl (fun i hi j hj => by have hi : i < M := hi; have hj : j < N := hj; omega))
  · have key : beta = alpha * id (beta * alpha⁻¹) := by
      rw [id]
      field_simp
    have hdm : ∀ k, 0 < k → (k - 1) % ns + 1 + (k - 1) / ns * ns = k := by
      intro k hk
      have := Nat.div_add_mod (k - 1) ns
      rw [Nat.mul_comm] at this
      omega
    have w := mulO_wrap (beta := beta) (u := u) (ta := ta) (d := d) (A := A) (lda := lda) (B := B) (ldb := ldb) cat side M N alpha ha
      (fun bet => if ns = 0 then liftE (.error .divZero) else
        trmmOBlocks g (trmmODelayed cat bm ldb bet ldc) side u ta ns ((trNa side M N - 1) / ns) ((trNa side M N - 1) % ns + 1)
          lda ldb ldc M N A B C) id hp.tr.wf hp.tr.okW hp.tr.lW ?_
    · rw [← key] at w
      exact w
    · intro bet
      rw [if_neg (by omega)]
      cases side with
      | left =>
        have k2 := trmmOBlocks_L (u := u) (ta := ta) (d := d) (ns := ns) (nrest := (M - 1) % ns + 1)
          (fun n => trmmODelayed_L (ldb := ldb) cat bet (hbm n N)) hg ((M - 1) / ns)
        rw [hdm M (by omega)] at k2
        exact k2.eff hp (Or.inl rfl)
      | right =>
        have k2 := trmmOBlocks_R (u := u) (ta := ta) (d := d) (ns := ns) (nrest := (N - 1) % ns + 1)
          (fun n => trmmODelayed_R (ldb := ldb) cat bet (hbm n M)) hg ((N - 1) / ns)
        rw [hdm N (by omega)] at k2
        exact k2.eff hp (Or.inl rfl)

end double


end Verif.FF
