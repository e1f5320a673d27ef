import Verif.Proofs.ParElem
import Verif.Props.Trsm
import Mathlib.Tactic.FinCases

/-!
# Parallel triangular solve, matrix-vector product and dot product
-/

namespace Verif.Par
open Verif.FF Verif.BlockCuts Verif.Spec.Splitting Finset

variable {K : Type} [Field K] [DecidableEq K] {W R T : ℕ → Prop} {v : ℕ → K} {Q : (ℕ → K) → Prop}
  {M N A lda B ldb t : ℕ} {p : Param} {ta : Tr} {u : Uplo} {d : Diag} {side : Side}

omit [Field K] [DecidableEq K] in
open Classical in
lemma exists_mem (v : ℕ → K) {S : ℕ → Prop} (hS : FinS S) : ∃ m : Mem K, WF m ∧ m.val = v ∧ ∀ x, m.ok x = true ↔ S x := by
  obtain ⟨b, hb⟩ := hS
  refine ⟨⟨v, fun x => decide (S x), b⟩, fun a ha => ?_, rfl, fun x => by simp⟩
  have : ¬ S a := fun h => absurd (hb a h) (by simp only [] at ha; omega)
  simp [this]

/-- the cells of the triangle of `A` -/
def triCells (u : Uplo) (d : Diag) (n A lda : ℕ) (x : ℕ) : Prop := ∃ i < n, ∃ j < n, Spec.inTri u d i j ∧ x = A + i * lda + j

/-- the triangular matrix `op(A)`, contents `v` -/
def triV (v : ℕ → K) (u : Uplo) (ta : Tr) (d : Diag) (A lda : ℕ) : ℕ → ℕ → K := Spec.op ta (Spec.tri u d fun i j => v (A + i * lda + j))

lemma triCells_fin {n : ℕ} : FinS (triCells u d n A lda) := (FinS.has ⟨A, lda, n, n⟩).mono (fun _ ⟨i, hi, j, hj, _, e⟩ => ⟨i, hi, j, hj, e⟩)

omit [DecidableEq K] in
lemma triV_eq {m : Mem K} {n : ℕ} : Props.triOp m u ta d n A lda = triV m.val u ta d A lda := rfl

theorem pftrsm_ok (alpha : K) (hg : p = .Grain → t ≠ 0) (hl : N ≤ ldb) (hla : Spec.sideDim side M N ≤ lda)
    (hd : ∀ x, triCells u d (Spec.sideDim side M N) A lda x → ¬ (Win.mk B ldb M N).Has x)
    (hnz : d = .nonUnit → ∀ i < Spec.sideDim side M N, v (A + i * lda + i) ≠ 0) :
    ∃ X, TaskOk (pftrsm side u ta d p M N alpha A lda B ldb t .ret) ⟨B, ldb, M, N⟩ (triCells u d (Spec.sideDim side M N) A lda) v X ∧
      ∀ i < M, ∀ j < N, Spec.sideMul side (Spec.sideDim side M N) (triV v u ta d A lda) X i j = alpha * v (B + i * ldb + j) := by
  -- a solution of the whole system
  obtain ⟨m, hwf, hmv, hok⟩ := exists_mem v ((FinS.has ⟨B, ldb, M, N⟩).or (triCells_fin (u := u) (d := d) (A := A) (lda := lda) (n := Spec.sideDim side M N)))
  have hc : Props.TriCall m u d (Spec.sideDim side M N) A lda ⟨B, ldb, M, N⟩ :=
    ⟨hwf, fun a ha => (hok a).2 (Or.inl ha), hl, hla, fun i hi j hj h => (hok _).2 (Or.inr ⟨i, hi, j, hj, h, rfl⟩), fun i hi j hj h => hd _ ⟨i, hi, j, hj, h, rfl⟩⟩
  obtain ⟨_, m', _, X, _, hX, _⟩ := Props.C11_ftrsm (side := side) (ta := ta) .generic (gemmClassic_ok .generic) alpha hc (by rw [Props.Regular]; subst hmv; exact hnz)
  subst hmv
  refine ⟨X, ?_, fun i hi j hj => hX i hi j hj⟩
  cases side with
  | left =>
    unfold TaskOk pftrsm
    refine wp_for_cols (w := ⟨B, ldb, M, N⟩) hg rfl (Win.Inj_of_le (Or.inl hl)) (fun _ h => Or.inl h) (fun _ h => Or.inr (Or.inl h)) (fun _ h => hd _ h) ?_ (fun _ _ h => h)
    intro a b e hbe hen
    have ew : Win.sub ⟨B, ldb, M, N⟩ 0 b M (e - b) = ⟨B + b, ldb, M, e - b⟩ := by simp only [Win.sub, Win.adr]; congr 1; ring
    show TaskOk _ (Win.sub ⟨B, ldb, M, N⟩ 0 b M (e - b)) _ _ _
    rw [ew]
    have hsub : ∀ x, (Win.mk (B + b) ldb M (e - b)).Has x → (Win.mk B ldb M N).Has x := fun x hx => by
      rw [← ew] at hx; exact Win.sub_Has (W := ⟨B, ldb, M, N⟩) (by simp) (by simp only []; omega) hx
    refine task_call triCells_fin (wrIn_ftrsm InS_Has) ?_
    intro m1 hm1 ho hR hv
    have hc1 : Props.TriCall m1 u d M A lda ⟨B + b, ldb, M, e - b⟩ :=
      ⟨hm1, ho, by simp only []; omega, hla, fun i hi j hj h => hR _ ⟨i, hi, j, hj, h, rfl⟩, fun i hi j hj h hh => hd _ ⟨i, hi, j, hj, h, rfl⟩ (hsub _ hh)⟩
    refine (Props.C11_ftrsm (side := .left) (ta := ta) .generic (gemmClassic_ok .generic) alpha hc1 (by rw [Props.Regular]; simp only [Mem.mat, hv]; exact hnz)).mono ?_
    rintro _ m2 ⟨Y, st, hY, uq⟩
    refine st.congr (fun i hi j hj => ?_)
    refine (uq (fun i j => X i (b + j)) (fun i hi j hj => ?_) i hi j hj).symm
    have h := hX i hi (b + j) (by omega)
    have et : ∀ n, Props.triOp m1 u ta d n A lda = Props.triOp m u ta d n A lda := fun n => by rw [triV_eq, triV_eq, hv]
    simp only [Spec.sideMul, Spec.mul, Spec.sideDim, et, Mem.mat, hv, Win.adr] at h ⊢
    rw [h]
    congr 2; ring
  | right =>
    unfold TaskOk pftrsm
    refine wp_for_rows (w := ⟨B, ldb, M, N⟩) hg rfl (Win.Inj_of_le (Or.inl hl)) (fun _ h => Or.inl h) (fun _ h => Or.inr (Or.inl h)) (fun _ h => hd _ h) ?_ (fun _ _ h => h)
    intro a b e hbe hen
    have ew : Win.sub ⟨B, ldb, M, N⟩ b 0 (e - b) N = ⟨B + b * ldb, ldb, e - b, N⟩ := by simp only [Win.sub, Win.adr]; congr 1
    show TaskOk _ (Win.sub ⟨B, ldb, M, N⟩ b 0 (e - b) N) _ _ _
    rw [ew]
    have hsub : ∀ x, (Win.mk (B + b * ldb) ldb (e - b) N).Has x → (Win.mk B ldb M N).Has x := fun x hx => by
      rw [← ew] at hx; exact Win.sub_Has (W := ⟨B, ldb, M, N⟩) (by simp only []; omega) (by simp) hx
    refine task_call triCells_fin (wrIn_ftrsm InS_Has) ?_
    intro m1 hm1 ho hR hv
    have hc1 : Props.TriCall m1 u d N A lda ⟨B + b * ldb, ldb, e - b, N⟩ :=
      ⟨hm1, ho, by simp only []; omega, hla, fun i hi j hj h => hR _ ⟨i, hi, j, hj, h, rfl⟩, fun i hi j hj h hh => hd _ ⟨i, hi, j, hj, h, rfl⟩ (hsub _ hh)⟩
    refine (Props.C11_ftrsm (side := .right) (ta := ta) .generic (gemmClassic_ok .generic) alpha hc1 (by rw [Props.Regular]; simp only [Mem.mat, hv]; exact hnz)).mono ?_
    rintro _ m2 ⟨Y, st, hY, uq⟩
    refine st.congr (fun i hi j hj => ?_)
    refine (uq (fun i j => X (b + i) j) (fun i hi j hj => ?_) i hi j hj).symm
    have h := hX (b + i) (by omega) j hj
    have et : ∀ n, Props.triOp m1 u ta d n A lda = Props.triOp m u ta d n A lda := fun n => by rw [triV_eq, triV_eq, hv]
    simp only [Spec.sideMul, Spec.mul, Spec.sideDim, et, Mem.mat, hv, Win.adr] at h ⊢
    rw [h]
    congr 2; ring

/-! ### matrix-vector product -/

variable {X incX Y incY : ℕ} {alpha beta : K}

/-- the product, contents `v` -/
def gemvV (v : ℕ → K) (ta : Tr) (Xd : ℕ) (alpha : K) (A lda X incX : ℕ) (beta : K) (Y incY i : ℕ) : K :=
  alpha * (∑ k ∈ range Xd, v (opAdr ta A lda i k) * v (X + k * incX)) + beta * v (Y + i * incY)

/-- one call of `fgemv` on a part of `Y`, as a task -/
lemma gemv_task {Xd Yd M' N' A' : ℕ} {w : Win} {Rs : ℕ → Prop} {b : ℕ} (ew : w = vw (Y + b * incY) incY Yd) (hXd : Xd = if ta = .no then N' else M') (hYd : Yd = if ta = .no then M' else N')
    (hM : M' ≠ 0 ∨ ta = .no) (hl : N' ≤ lda) (hiY : 0 < incY) (hf : FinS Rs) (hA : ∀ x, (Win.mk A' lda M' N').Has x → Rs x)
    (hX : ∀ x, (vw X incX Xd).Has x → Rs x) (hdis : ∀ x, Rs x → ¬ w.Has x) (hA' : ∀ i k, opAdr ta A' lda i k = opAdr ta A lda (b + i) k) :
    TaskOk (call (fgemv .generic ta M' N' alpha A' lda X incX beta (Y + b * incY) incY) .ret) w Rs v
      (fun i _ => gemvV v ta Xd alpha A lda X incX beta Y incY (b + i)) := by
  subst ew
  refine task_call hf (wrIn_fgemv (fun i hi => Or.inl ⟨i, by rw [hYd]; exact hi, 0, Nat.one_pos, rfl⟩)) ?_
  intro m hm ho hR hv
  refine (fgemv_spec .generic ta alpha beta hXd hYd hM hm (fun a ha => hR a (hA a ha)) hl (fun a ha => hR a (hX a ha)) ho hiY
    (fun a ha => hdis a (hA a ha)) (fun a ha => hdis a (hX a ha))).mono (fun _ _ s => s.congr (fun i hi j hj => ?_))
  subst hv
  simp only [gemvV, hA']
  congr 3
  ring

omit [Field K] [DecidableEq K] in
lemma vw_sub {b e n : ℕ} : Win.sub (vw Y incY n) b 0 (e - b) 1 = vw (Y + b * incY) incY (e - b) := rfl

theorem pfgemvRow_ok (hg : p = .Grain → t ≠ 0) (hM : M ≠ 0 ∨ ta = .no) (hl : N ≤ lda) (hiY : 0 < incY)
    (hdA : (Win.mk A lda M N).Disj (vw Y incY (if ta = .no then M else N)))
    (hdX : (vw X incX (if ta = .no then N else M)).Disj (vw Y incY (if ta = .no then M else N))) :
    TaskOk (pfgemvRow ta p M N alpha A lda X incX beta Y incY t .ret) (vw Y incY (if ta = .no then M else N))
      (fun x => (Win.mk A lda M N).Has x ∨ (vw X incX (if ta = .no then N else M)).Has x) v
      (fun i _ => gemvV v ta (if ta = .no then N else M) alpha A lda X incX beta Y incY i) := by
  have hdis : ∀ x, ((Win.mk A lda M N).Has x ∨ (vw X incX (if ta = .no then N else M)).Has x) → ¬ (vw Y incY (if ta = .no then M else N)).Has x :=
    fun x h => h.elim (hdA x) (hdX x)
  have hfin : FinS (fun x => (Win.mk A lda M N).Has x ∨ (vw X incX (if ta = .no then N else M)).Has x) := (FinS.has _).or (FinS.has _)
  cases ta with
  | no =>
    simp only [if_true] at hdis hfin ⊢
    unfold TaskOk pfgemvRow
    refine wp_for_rows (w := vw Y incY M) hg rfl (vw_Inj hiY) (fun _ h => Or.inl h) (fun _ h => Or.inr (Or.inl h)) hdis ?_ (fun _ _ h => h)
    intro a b e hbe hen
    refine gemv_task rfl (by simp) (by simp) (Or.inr rfl) hl hiY hfin (fun x hx => Or.inl ?_) (fun x hx => Or.inr hx) ?_ (fun i k => ?_)
    · have : (Win.sub ⟨A, lda, M, N⟩ b 0 (e - b) N).Has x := hx
      exact Win.sub_Has (W := ⟨A, lda, M, N⟩) (by simp only []; omega) (by simp) this
    · intro x hx hw
      exact hdis x hx (Win.sub_Has (W := vw Y incY M) (i := b) (j := 0) (r' := e - b) (c' := 1) (by simp only [vw]; omega) (by simp [vw]) hw)
    · simp only [opAdr]; ring
  | yes =>
    simp only [reduceCtorEq, if_false] at hdis hfin ⊢
    unfold TaskOk pfgemvRow
    refine wp_for_rows (w := vw Y incY N) hg rfl (vw_Inj hiY) (fun _ h => Or.inl h) (fun _ h => Or.inr (Or.inl h)) hdis ?_ (fun _ _ h => h)
    intro a b e hbe hen
    refine gemv_task rfl (by simp) (by simp) (by simpa using hM) (by omega) hiY hfin (fun x hx => Or.inl ?_) (fun x hx => Or.inr hx) ?_ (fun i k => ?_)
    · have hx : (Win.sub ⟨A, lda, M, N⟩ 0 b M (e - b)).Has x := by
        have e1 : Win.sub ⟨A, lda, M, N⟩ 0 b M (e - b) = ⟨A + b, lda, M, e - b⟩ := by simp only [Win.sub, Win.adr]; congr 1; ring
        rw [e1]; exact hx
      exact Win.sub_Has (W := ⟨A, lda, M, N⟩) (by simp) (by simp only []; omega) hx
    · intro x hx hw
      exact hdis x hx (Win.sub_Has (W := vw Y incY N) (i := b) (j := 0) (r' := e - b) (c' := 1) (by simp only [vw]; omega) (by simp [vw]) hw)
    · simp only [opAdr]; ring

/-- The recursive version with the offset `n/2`. -/
theorem pfgemvRec_ok {Xd : ℕ} {Rs : ℕ → Prop} (hl : N ≤ lda) (hiY : 0 < incY) (hf : FinS Rs) : ∀ {fuel nt M N b : ℕ} {A' Y' : ℕ} {w : Win},
    nt ≤ fuel → 1 ≤ nt → N ≤ lda → (M ≠ 0 ∨ ta = .no) → Xd = (if ta = .no then N else M) → w = vw Y' incY (if ta = .no then M else N) → Y' = Y + b * incY →
    (∀ x, (Win.mk A' lda M N).Has x → Rs x) → (∀ x, (vw X incX Xd).Has x → Rs x) → (∀ x, Rs x → ¬ w.Has x) →
    (∀ i k, opAdr ta A' lda i k = opAdr ta A lda (b + i) k) →
    TaskOk (pfgemvRec (· / 2) alpha lda X incX beta incY fuel nt ta M N A' Y' .ret) w Rs v
      (fun i _ => gemvV v ta Xd alpha A lda X incX beta Y incY (b + i)) := by
  intro fuel
  induction fuel with
  | zero => intro nt M N b A' Y' w h1 h2; omega
  | succ fuel ih =>
    intro nt M N b A' Y' w h1 h2 hl hM hXd hw hY hA hX hdis hA'
    unfold pfgemvRec
    split_ifs with h0
    · subst hY
      exact gemv_task hw hXd rfl hM hl hiY hf hA hX hdis hA'
    push Not at h0
    have hnt : 2 ≤ nt := by omega
    cases ta with
    | no =>
      simp only [if_true] at hXd hw ⊢
      subst hw hXd
      have hs : ∀ i0 r, i0 + r ≤ M → ∀ x, (vw (Y' + i0 * incY) incY r).Has x → (vw Y' incY M).Has x := fun i0 r hr x hx =>
        Win.sub_Has (W := vw Y' incY M) (i := i0) (j := 0) (r' := r) (c' := 1) hr (by simp [vw]) hx
      unfold TaskOk
      refine wp_spawn ![vw Y' incY (M / 2), vw (Y' + M / 2 * incY) incY (M - M / 2)]
        ![fun i _ => gemvV v .no Xd alpha A lda X incX beta Y incY (b + i), fun i _ => gemvV v .no Xd alpha A lda X incX beta Y incY (b + (M / 2 + i))]
        Rs ?_ (fun _ h => Or.inr (Or.inl h)) ?_ ?_ ?_ ?_
      · intro j x hx
        fin_cases j
        · exact Or.inl (by have := hs 0 (M / 2) (by omega) x; rw [Nat.zero_mul, Nat.add_zero] at this; exact this hx)
        · exact Or.inl (hs (M / 2) (M - M / 2) (by omega) x hx)
      · intro j x hr hx
        refine hdis x hr ?_
        fin_cases j
        · have := hs 0 (M / 2) (by omega) x; rw [Nat.zero_mul, Nat.add_zero] at this; exact this hx
        · exact hs (M / 2) (M - M / 2) (by omega) x hx
      · have key : (vw Y' incY (M / 2)).Disj (vw (Y' + M / 2 * incY) incY (M - M / 2)) := by
          have := Win.sub_Disj (W := vw Y' incY M) (i := 0) (j := 0) (r' := M / 2) (c' := 1) (i2 := M / 2) (j2 := 0) (r2 := M - M / 2) (c2 := 1)
            (vw_Inj hiY) (by simp only [vw]; omega) (by simp [vw]) (by simp only [vw]; omega) (by simp [vw]) (by omega)
          simpa [Win.sub, Win.adr] using this
        intro j l ne
        fin_cases j <;> fin_cases l
        · exact absurd rfl ne
        · exact key
        · exact key.symm
        · exact absurd rfl ne
      · intro j
        fin_cases j
        · refine ih (b := b) (nt := nt / 2) (by omega) (by omega) hl (Or.inr rfl) (by simp) (by simp) hY ?_ hX ?_ hA'
          · exact fun x hx => hA x (Win.Has_mono (W := ⟨A', lda, M / 2, Xd⟩) (V := ⟨A', lda, M, Xd⟩) rfl rfl (by simp only []; omega) (by simp) hx)
          · intro x hr hx
            refine hdis x hr ?_
            have := hs 0 (M / 2) (by omega) x; rw [Nat.zero_mul, Nat.add_zero] at this; exact this hx
        · have := ih (b := b + M / 2) (nt := nt - nt / 2) (M := M - M / 2) (N := Xd) (A' := A' + M / 2 * lda) (Y' := Y' + M / 2 * incY) (w := vw (Y' + M / 2 * incY) incY (M - M / 2))
            (by omega) (by omega) hl (Or.inr rfl) (by simp) (by simp) (by rw [hY]; ring) ?_ hX ?_ ?_
          · refine this.congr rfl (fun i _ j _ => ?_)
            simp [Nat.add_assoc]
          · intro x hx
            exact hA x (Win.sub_Has (W := ⟨A', lda, M, Xd⟩) (i := M / 2) (j := 0) (r' := M - M / 2) (c' := Xd) (by simp only []; omega) (by simp) hx)
          · exact fun x hr hx => hdis x hr (hs (M / 2) (M - M / 2) (by omega) x hx)
          · intro i k
            have := hA' (M / 2 + i) k
            simp only [opAdr] at this ⊢
            rw [show b + M / 2 + i = b + (M / 2 + i) by ring, ← this]
            ring
      · intro v' _ vals i hi j hj
        have hj : j = 0 := by simp only [vw] at hj; omega
        have hi : i < M := hi
        subst hj
        by_cases h : i < M / 2
        · exact vals 0 i h 0 Nat.one_pos
        · have := vals 1 (i - M / 2) (by simp; omega) 0 Nat.one_pos
          simp only [Matrix.cons_val_one, Matrix.cons_val_fin_one, show M / 2 + (i - M / 2) = i by omega] at this
          refine Eq.trans ?_ this
          simp only [vw, Win.adr, Nat.add_zero, Nat.add_assoc, ← Nat.add_mul, show M / 2 + (i - M / 2) = i by omega]
    | yes =>
      simp only [reduceCtorEq, if_false] at hXd hw ⊢
      subst hw hXd
      have hs : ∀ i0 r, i0 + r ≤ N → ∀ x, (vw (Y' + i0 * incY) incY r).Has x → (vw Y' incY N).Has x := fun i0 r hr x hx =>
        Win.sub_Has (W := vw Y' incY N) (i := i0) (j := 0) (r' := r) (c' := 1) hr (by simp [vw]) hx
      unfold TaskOk
      refine wp_spawn ![vw Y' incY (N / 2), vw (Y' + N / 2 * incY) incY (N - N / 2)]
        ![fun i _ => gemvV v .yes Xd alpha A lda X incX beta Y incY (b + i), fun i _ => gemvV v .yes Xd alpha A lda X incX beta Y incY (b + (N / 2 + i))]
        Rs ?_ (fun _ h => Or.inr (Or.inl h)) ?_ ?_ ?_ ?_
      · intro j x hx
        fin_cases j
        · exact Or.inl (by have := hs 0 (N / 2) (by omega) x; rw [Nat.zero_mul, Nat.add_zero] at this; exact this hx)
        · exact Or.inl (hs (N / 2) (N - N / 2) (by omega) x hx)
      · intro j x hr hx
        refine hdis x hr ?_
        fin_cases j
        · have := hs 0 (N / 2) (by omega) x; rw [Nat.zero_mul, Nat.add_zero] at this; exact this hx
        · exact hs (N / 2) (N - N / 2) (by omega) x hx
      · have key : (vw Y' incY (N / 2)).Disj (vw (Y' + N / 2 * incY) incY (N - N / 2)) := by
          have := Win.sub_Disj (W := vw Y' incY N) (i := 0) (j := 0) (r' := N / 2) (c' := 1) (i2 := N / 2) (j2 := 0) (r2 := N - N / 2) (c2 := 1)
            (vw_Inj hiY) (by simp only [vw]; omega) (by simp [vw]) (by simp only [vw]; omega) (by simp [vw]) (by omega)
          simpa [Win.sub, Win.adr] using this
        intro j l ne
        fin_cases j <;> fin_cases l
        · exact absurd rfl ne
        · exact key
        · exact key.symm
        · exact absurd rfl ne
      · intro j
        fin_cases j
        · refine ih (b := b) (nt := nt / 2) (by omega) (by omega) (by omega) hM (by simp) (by simp) hY ?_ hX ?_ hA'
          · exact fun x hx => hA x (Win.Has_mono (W := ⟨A', lda, Xd, N / 2⟩) (V := ⟨A', lda, Xd, N⟩) rfl rfl (by simp) (by simp only []; omega) hx)
          · intro x hr hx
            refine hdis x hr ?_
            have := hs 0 (N / 2) (by omega) x; rw [Nat.zero_mul, Nat.add_zero] at this; exact this hx
        · have := ih (b := b + N / 2) (nt := nt - nt / 2) (M := Xd) (N := N - N / 2) (A' := A' + N / 2) (Y' := Y' + N / 2 * incY) (w := vw (Y' + N / 2 * incY) incY (N - N / 2))
            (by omega) (by omega) (by omega) hM (by simp) (by simp) (by rw [hY]; ring) ?_ hX ?_ ?_
          · refine this.congr rfl (fun i _ j _ => ?_)
            simp [Nat.add_assoc]
          · intro x hx
            have e1 : Win.sub ⟨A', lda, Xd, N⟩ 0 (N / 2) Xd (N - N / 2) = ⟨A' + N / 2, lda, Xd, N - N / 2⟩ := by simp only [Win.sub, Win.adr]; congr 1; ring
            rw [← e1] at hx
            exact hA x (Win.sub_Has (W := ⟨A', lda, Xd, N⟩) (by simp) (by simp only []; omega) hx)
          · exact fun x hr hx => hdis x hr (hs (N / 2) (N - N / 2) (by omega) x hx)
          · intro i k
            have := hA' (N / 2 + i) k
            simp only [opAdr] at this ⊢
            rw [show b + N / 2 + i = b + (N / 2 + i) by ring, ← this]
            ring
      · intro v' _ vals i hi j hj
        have hj : j = 0 := by simp only [vw] at hj; omega
        have hi : i < N := hi
        subst hj
        by_cases h : i < N / 2
        · exact vals 0 i h 0 Nat.one_pos
        · have := vals 1 (i - N / 2) (by simp; omega) 0 Nat.one_pos
          simp only [Matrix.cons_val_one, Matrix.cons_val_fin_one, show N / 2 + (i - N / 2) = i by omega] at this
          refine Eq.trans ?_ this
          simp only [vw, Win.adr, Nat.add_zero, Nat.add_assoc, ← Nat.add_mul, show N / 2 + (i - N / 2) = i by omega]

/-! ### dot product -/

variable {x incx y incy n z : ℕ} {D : K}

lemma threads_len (n t : ℕ) (ht : 1 ≤ t) : ∃ s l, FS1D.build .Threads n t = .ok s ∧ s.initialize.run n = some l ∧ ExactCover l n ∧
    (∀ r ∈ l, r.1 < r.2) ∧ l.length ≤ t := by
  obtain ⟨s, l, h1, h2, hc, _, hlt⟩ := Props.C01_split1D_exact_cover .Threads n t (by simp)
  refine ⟨s, l, h1, h2, hc, hlt, ?_⟩
  obtain ⟨s', hs, hf, hn, _, hle⟩ := FS1D.build_spec .Threads n t (by simp)
  obtain rfl : s = s' := by rw [h1] at hs; exact Except.ok.inj hs
  have hrun := FS1D.run_at s hf s.numBlock n 0 (by omega) hle
  rw [← FS1D.init_at s hf, h2] at hrun
  have e := Option.some.inj hrun
  rw [e, List.length_map, List.length_range]
  have hm : max t 1 = t := by omega
  have hne : t ≠ 0 := by omega
  by_cases h : n / t < 1
  · simp only [FS1D.build, hm, udiv, hne, if_false, bind, Except.bind, pure, Except.pure, h, if_true] at h1
    rw [← Except.ok.inj h1]
    simp only []
    by_contra hh
    have := Nat.div_pos (a := n) (b := t) (by omega) (by omega)
    omega
  · simp only [FS1D.build, hm, udiv, hne, if_false, bind, Except.bind, pure, Except.pure, h] at h1
    rw [← Except.ok.inj h1]

lemma sum_cover {l : List (ℕ × ℕ)} {n : ℕ} (f : ℕ → K) (hc : ExactCover l n) (hlt : ∀ r ∈ l, r.1 < r.2) :
    ∑ a : Fin l.length, ∑ i ∈ range ((l.get a).2 - (l.get a).1), f ((l.get a).1 + i) = ∑ i ∈ range n, f i := by
  obtain ⟨_, _, hb⟩ := ranges_tiles hc hlt
  have e : ∀ a : Fin l.length, ∑ i ∈ range ((l.get a).2 - (l.get a).1), f ((l.get a).1 + i) =
      ∑ i ∈ range n, if (l.get a).1 ≤ i ∧ i < (l.get a).2 then f i else 0 := by
    intro a
    rw [← Finset.sum_filter, ← Finset.sum_Ico_eq_sum_range]
    refine Finset.sum_congr ?_ (fun _ _ => rfl)
    ext i
    have := hb a
    simp only [Finset.mem_Ico, Finset.mem_filter, Finset.mem_range]
    omega
  rw [Finset.sum_congr rfl (fun a _ => e a), Finset.sum_comm]
  refine Finset.sum_congr rfl (fun i hi => ?_)
  obtain ⟨tr, _, _⟩ := ranges_tiles hc hlt
  have hi := Finset.mem_range.1 hi
  obtain ⟨a, ha⟩ := (tr 1).cover i hi 0 Nat.one_pos
  rw [Finset.sum_eq_single a]
  · rw [if_pos ha.1]
  · intro b _ hb
    rw [if_neg]
    intro hh
    exact hb ((tr 1).disj b a i 0 ⟨hh, by simp⟩ ha)
  · intro h; exact absurd (Finset.mem_univ _) h

lemma zsum_run {m : Mem K} (hok : ∀ i < t, m.ok (z + i) = true) : Run (zsum D z t) m (fun r m' => m' = m ∧ r = D + ∑ i ∈ range t, m.val (z + i)) := by
  unfold zsum
  refine (Run_iter (fun k s m' => m' = m ∧ s = D + ∑ i ∈ range k, m.val (z + i)) ⟨rfl, by simp⟩ ?_)
  rintro k s m' hk ⟨rfl, rfl⟩
  rw [Run_bind, Run_load]
  refine ⟨hok k hk, ?_⟩
  rw [Run_pure]
  exact ⟨rfl, by rw [Finset.sum_range_succ, add_assoc]⟩

lemma wrIn_zsum {S : ℕ → Prop} : Small.wrIn (zsum D z t) S := fun _ _ _ => wrIn_bind wrIn_load fun _ => wrIn_pure

theorem pfdot_ok (ht : 1 ≤ t) (hix : 0 < incx) {k : K → Proc K} (hx : ∀ i, (vw x incx N).Has i → W i ∨ R i ∨ T i) (hy : ∀ i, (vw y incy N).Has i → W i ∨ R i ∨ T i)
    (hk : ∀ v', (∀ i, W i ∨ R i ∨ T i → v' i = v i) → wp (k (D + ∑ i ∈ range N, v (x + i * incx) * v (y + i * incy))) W R T v' Q) :
    wp (pfdot .Threads N x incx y incy D t k) W R T v Q := by
  intro z c hz
  have hz0 : ∀ i < t, blkAt z t (z + i) := fun i hi => ⟨by omega, by omega⟩
  refine wp_call (w := vw z 1 t) (g := fun _ _ => 0) (blkAt z t) ⟨z + t, fun i h => h.2⟩ (fun i h => Or.inr (Or.inr (Or.inr h)))
    (wrIn_loop fun i hi => wrIn_store (Or.inr (Or.inr (hz0 i hi)))) ?_ ?_
  · intro m hm ho hv
    have h := vzero_spec (X := z) (incX := 1) (n := t) (m := m) (fun a ha => by
      obtain ⟨i, hi, j, hj, rfl⟩ := ha
      exact ho _ ⟨by simp only [vw, Win.adr]; omega, by simp only [vw, Win.adr] at hi hj ⊢; omega⟩) Nat.one_pos
    rw [vzero, if_pos rfl] at h
    exact h
  intro v1 fr1 vals1
  have hv1 : ∀ i, W i ∨ R i ∨ T i → v1 i = v i := by
    intro i hi
    have hb : ¬ blkAt z t i := fun h => hz i h hi
    rw [fr1 i (hi.imp id (Or.imp id Or.inl)) (fun h => ?_), if_neg hb]
    obtain ⟨a, ha, b, hb', rfl⟩ := h
    exact hb ⟨by simp only [vw, Win.adr]; omega, by simp only [vw, Win.adr] at ha hb' ⊢; omega⟩
  have hz1 : ∀ i < t, v1 (z + i) = 0 := fun i hi => by
    have := vals1 i hi 0 Nat.one_pos
    simpa [vw, Win.adr] using this
  obtain ⟨s, l, h1, h2, hc, hlt, hlen⟩ := threads_len N t ht
  obtain ⟨_, _, bd⟩ := ranges_tiles hc hlt
  simp only [pfdotTasks, forBlock1D, h1, h2]
  have hRz : ∀ i, (vw x incx N).Has i ∨ (vw y incy N).Has i → ¬ blkAt z t i := fun i h hb => hz i hb (h.elim (hx i) (hy i))
  refine wp_spawn (fun j : Fin l.length => vw (z + j) 1 1)
    (fun j _ _ => ∑ i ∈ range ((l.get j).2 - (l.get j).1), v (x + ((l.get j).1 + i) * incx) * v (y + ((l.get j).1 + i) * incy))
    (fun i => (vw x incx N).Has i ∨ (vw y incy N).Has i) ?_ ?_ ?_ ?_ ?_ ?_
  · rintro j _ ⟨a, ha, b, hb, rfl⟩
    refine Or.inr (Or.inr ?_)
    have := j.2
    simp only [vw, Win.adr] at ha hb ⊢
    constructor <;> omega
  · intro i h
    exact (h.elim (hx i) (hy i)).imp id (Or.imp id Or.inl)
  · rintro j _ hr ⟨a, ha, b, hb, rfl⟩
    refine hRz _ hr ?_
    have := j.2
    simp only [vw, Win.adr] at ha hb ⊢
    constructor <;> omega
  · rintro j j' ne i ⟨a, ha, b, hb, rfl⟩ ⟨a', ha', b', hb', e⟩
    have : j.1 ≠ j'.1 := fun h => ne (Fin.ext h)
    simp only [vw, Win.adr] at ha hb ha' hb' e
    omega
  · intro j
    obtain ⟨b1, b2⟩ := bd j
    rw [if_neg (by omega)]
    set b := (l.get j).1
    set e := (l.get j).2
    have sx : ∀ {p inc : ℕ} i, (vw (p + b * inc) inc (e - b)).Has i → (vw p inc N).Has i := by
      rintro p inc _ ⟨a, ha, c, hc, rfl⟩
      have ha : a < e - b := ha
      have hc : c < 1 := hc
      exact ⟨b + a, by simp only [vw]; omega, c, hc, by simp only [vw, Win.adr]; ring⟩
    obtain ⟨m, hm, hv, hok⟩ := exists_mem v1 ((FinS.has (vw x incx N)).or (FinS.has (vw y incy N)))
    refine wp_tr _ m hv (fun i hi => Or.inr (Or.inl ((hok i).1 hi))) (vdot_spec (fun a ha => (hok a).2 (Or.inl (sx _ ha))) (fun a ha => (hok a).2 (Or.inr (sx _ ha))) hix)
      wrIn_vdot ?_
    rintro d m' ⟨rfl, rfl⟩ _ _ _
    refine ⟨Or.inl ⟨0, Nat.one_pos, 0, Nat.one_pos, by simp [vw, Win.adr]⟩, ?_⟩
    rintro i hi j' hj'
    have hi : i < 1 := hi
    have hj' : j' < 1 := hj'
    obtain rfl : i = 0 := by omega
    obtain rfl : j' = 0 := by omega
    simp only [vw, Win.adr, Nat.zero_mul, Nat.add_zero, Function.update_self]
    refine Finset.sum_congr rfl (fun i hi => ?_)
    have hi := Finset.mem_range.1 hi
    subst hv
    rw [← hv1 (x + (b + i) * incx) (hx _ ⟨b + i, by simp only [vw]; omega, 0, Nat.one_pos, by simp [vw, Win.adr]⟩),
      ← hv1 (y + (b + i) * incy) (hy _ ⟨b + i, by simp only [vw]; omega, 0, Nat.one_pos, by simp [vw, Win.adr]⟩)]
    congr 2 <;> ring
  intro v2 fr2 vals2
  obtain ⟨m, hm, hv, hok⟩ := exists_mem v2 (S := blkAt z t) ⟨z + t, fun i h => h.2⟩
  refine wp_tr _ m hv (fun i hi => Or.inr (Or.inr (Or.inr ((hok i).1 hi)))) (zsum_run (fun i hi => (hok _).2 (hz0 i hi))) wrIn_zsum ?_
  rintro r m' ⟨rfl, rfl⟩ _ _ _
  refine ⟨fun i h => Or.inr h, ?_⟩
  have hs : ∑ i ∈ range t, m'.val (z + i) = ∑ i ∈ range N, v (x + i * incx) * v (y + i * incy) := by
    rw [← sum_cover (fun i => v (x + i * incx) * v (y + i * incy)) hc hlt, ← Finset.sum_subset (Finset.range_subset_range.2 hlen), ← Fin.sum_univ_eq_sum_range]
    · refine Finset.sum_congr rfl (fun j _ => ?_)
      have := vals2 j 0 Nat.one_pos 0 Nat.one_pos
      simp only [vw, Win.adr, Nat.zero_mul, Nat.add_zero] at this
      rw [hv]
      exact this
    · intro i hi hn
      have hi := Finset.mem_range.1 hi
      rw [Finset.mem_range, not_lt] at hn
      rw [hv, fr2 _ (Or.inr (Or.inr (Or.inr (hz0 i hi)))) ?_, hz1 i hi]
      rintro j ⟨a, ha, b, hb, e⟩
      have := j.2
      simp only [vw, Win.adr] at ha hb e
      omega
  rw [hs]
  refine wp_mono_T _ (T := T) (fun i hi => ⟨Or.inl hi, fun hb => hz i hb (Or.inr (Or.inr hi))⟩) (hk m'.val (fun i hi => ?_))
  have hb : ¬ blkAt z t i := fun h => hz i h hi
  rw [hv, fr2 i (hi.imp id (Or.imp id Or.inl)) ?_, hv1 i hi]
  rintro j ⟨a, ha, b, hb', rfl⟩
  refine hb ?_
  have := j.2
  simp only [vw, Win.adr] at ha hb' ⊢
  constructor <;> omega

end Verif.Par
