import Verif.Proofs.ParLoops
import Verif.Proofs.Shift

/-!
# Parallel elementwise operations, permutations and block moves
-/

namespace Verif.Par
open Verif.FF Verif.BlockCuts

variable {K : Type} [Field K] [DecidableEq K] {W R T : ℕ → Prop} {v : ℕ → K} {Q : (ℕ → K) → Prop}

omit [Field K] [DecidableEq K] in
lemma TaskOk.congr {t : Proc K} {w w' : Win} {Rs : ℕ → Prop} {g g' : ℕ → ℕ → K} (hw : w = w') (hg : ∀ i < w.r, ∀ j < w.c, g i j = g' i j)
    (h : TaskOk t w Rs v g) : TaskOk t w' Rs v g' := by
  subst hw
  exact wp_mono _ (fun v' q i hi j hj => (q i hi j hj).trans (hg i hi j hj)) h

omit [Field K] [DecidableEq K] in
lemma OkIn.sub' {m : Mem K} {S : ℕ → Prop} {w : Win} {i0 j0 r c p : ℕ} (hS : ∀ x, S x → m.ok x = true) (hw : ∀ x, w.Has x → S x)
    (hp : p = w.p + i0 * w.ld + j0) (hr : i0 + r ≤ w.r) (hc : j0 + c ≤ w.c) : OkIn m ⟨p, w.ld, r, c⟩ := by
  subst hp
  exact fun a ha => hS a (hw a (Win.sub_Has (W := w) (i := i0) (j := j0) hr hc ha))

/-- `X` and `Y` of the same shape, with `Y` injective, apart or the same -/
def Apart (X Y : Win) : Prop := X.Disj Y ∨ X = Y

/-- the cells read that are not in the output -/
def only (S : ℕ → Prop) (w : Win) (x : ℕ) : Prop := S x ∧ ¬ w.Has x

omit [Field K] [DecidableEq K] in
/-- sub-windows are safe -/
lemma Apart.safe {p q ldx ldy M N b r : ℕ} (h : Apart ⟨p, ldx, M, N⟩ ⟨q, ldy, M, N⟩) (hl : N ≤ ldy) (hr : b + r ≤ M) :
    (Win.mk (p + b * ldx) ldx r N).Safe ⟨q + b * ldy, ldy, r, N⟩ := by
  rcases h with h | h
  · refine Win.Disj.safe ?_ rfl rfl
    exact (h.sub_left (i := b) (j := 0) (r' := r) (c' := N) hr (by simp)).sub_right (i := b) (j := 0) (r' := r) (c' := N) hr (by simp)
  · obtain ⟨rfl, rfl⟩ : p = q ∧ ldx = ldy := by simpa using h
    exact Win.Inj.safe (Win.Inj_of_le (Or.inl hl))

variable {cat : Cat} {M N A lda B ldb C ldc t : ℕ}

/-- the windows read are allocated: cells of the output, or only read -/
lemma okin_of {m : Mem K} {X w : Win} {S : ℕ → Prop} {i0 r p : ℕ} (hX : Apart X w) (hS : ∀ x, X.Has x → S x)
    (ho : OkIn m (w.sub i0 0 r w.c)) (hR : ∀ x, only S w x → m.ok x = true) (hp : p = X.p + i0 * X.ld) (hr : i0 + r ≤ X.r) (hrc : X.c = w.c) :
    OkIn m ⟨p, X.ld, r, X.c⟩ := by
  subst hp
  intro a ha
  have hX' : X.Has a := Win.sub_Has (W := X) (i := i0) (j := 0) (c' := X.c) hr (by omega) ha
  rcases hX with h | h
  · exact hR a ⟨hS a hX', h a hX'⟩
  · subst h; exact ho a ha

theorem pfadd_ok (hla : N ≤ lda) (hl : N ≤ ldc) (hA : Apart ⟨A, lda, M, N⟩ ⟨C, ldc, M, N⟩) (hB : Apart ⟨B, ldb, M, N⟩ ⟨C, ldc, M, N⟩) :
    TaskOk (pfadd cat M N A lda B ldb C ldc t .ret) ⟨C, ldc, M, N⟩
      (only (fun x => (Win.mk A lda M N).Has x ∨ (Win.mk B ldb M N).Has x) ⟨C, ldc, M, N⟩) v
      (fun i j => v (A + i * lda + j) + v (B + i * ldb + j)) := by
  have hfin : FinS (only (fun x => (Win.mk A lda M N).Has x ∨ (Win.mk B ldb M N).Has x) ⟨C, ldc, M, N⟩) :=
    ((FinS.has _).or (FinS.has _)).mono (fun _ h => h.1)
  refine wp_for_rows (w := ⟨C, ldc, M, N⟩) (by simp) rfl (Win.Inj_of_le (Or.inl hl)) (fun _ h => Or.inl h) (fun _ h => Or.inr (Or.inl h)) (fun _ h => h.2) ?_ (fun _ _ h => h)
  intro a b e hbe hen
  refine task_call hfin (wrIn_fadd (InS_Has)) ?_
  intro m hm ho hR hv
  have h1 := okin_of (X := ⟨A, lda, M, N⟩) (w := ⟨C, ldc, M, N⟩) (p := A + b * lda) (i0 := b) (r := e - b) hA (fun _ h => Or.inl h) ho hR rfl (by simp only []; omega) rfl
  have h2 := okin_of (X := ⟨B, ldb, M, N⟩) (w := ⟨C, ldc, M, N⟩) (p := B + b * ldb) (i0 := b) (r := e - b) hB (fun _ h => Or.inr h) ho hR rfl (by simp only []; omega) rfl
  refine (fadd_spec cat hm h1 h2 ho hla hl (hA.safe hl (by omega)) (hB.safe hl (by omega))).mono (fun _ _ s => s.congr (fun i hi j hj => ?_))
  subst hv
  simp only [Mem.mat, Win.adr]
  congr 2 <;> ring

theorem pfsub_ok (hla : N ≤ lda) (hl : N ≤ ldc) (hA : Apart ⟨A, lda, M, N⟩ ⟨C, ldc, M, N⟩) (hB : Apart ⟨B, ldb, M, N⟩ ⟨C, ldc, M, N⟩) :
    TaskOk (pfsub cat M N A lda B ldb C ldc t .ret) ⟨C, ldc, M, N⟩
      (only (fun x => (Win.mk A lda M N).Has x ∨ (Win.mk B ldb M N).Has x) ⟨C, ldc, M, N⟩) v
      (fun i j => v (A + i * lda + j) - v (B + i * ldb + j)) := by
  have hfin : FinS (only (fun x => (Win.mk A lda M N).Has x ∨ (Win.mk B ldb M N).Has x) ⟨C, ldc, M, N⟩) :=
    ((FinS.has _).or (FinS.has _)).mono (fun _ h => h.1)
  refine wp_for_rows (w := ⟨C, ldc, M, N⟩) (by simp) rfl (Win.Inj_of_le (Or.inl hl)) (fun _ h => Or.inl h) (fun _ h => Or.inr (Or.inl h)) (fun _ h => h.2) ?_ (fun _ _ h => h)
  intro a b e hbe hen
  refine task_call hfin (wrIn_fsub (InS_Has)) ?_
  intro m hm ho hR hv
  have h1 := okin_of (X := ⟨A, lda, M, N⟩) (w := ⟨C, ldc, M, N⟩) (p := A + b * lda) (i0 := b) (r := e - b) hA (fun _ h => Or.inl h) ho hR rfl (by simp only []; omega) rfl
  have h2 := okin_of (X := ⟨B, ldb, M, N⟩) (w := ⟨C, ldc, M, N⟩) (p := B + b * ldb) (i0 := b) (r := e - b) hB (fun _ h => Or.inr h) ho hR rfl (by simp only []; omega) rfl
  refine (fsub_spec cat hm h1 h2 ho hla hl (hA.safe hl (by omega)) (hB.safe hl (by omega))).mono (fun _ _ s => s.congr (fun i hi j hj => ?_))
  subst hv
  simp only [Mem.mat, Win.adr]
  congr 2 <;> ring

theorem pfaddin_ok (hlb : N ≤ ldb) (hl : N ≤ ldc) (hB : Apart ⟨B, ldb, M, N⟩ ⟨C, ldc, M, N⟩) :
    TaskOk (pfaddin cat M N B ldb C ldc t .ret) ⟨C, ldc, M, N⟩ (only (Win.mk B ldb M N).Has ⟨C, ldc, M, N⟩) v
      (fun i j => v (B + i * ldb + j) + v (C + i * ldc + j)) := by
  have hfin : FinS (only (Win.mk B ldb M N).Has ⟨C, ldc, M, N⟩) := (FinS.has _).mono (fun _ h => h.1)
  refine wp_for_rows (w := ⟨C, ldc, M, N⟩) (by simp) rfl (Win.Inj_of_le (Or.inl hl)) (fun _ h => Or.inl h) (fun _ h => Or.inr (Or.inl h)) (fun _ h => h.2) ?_ (fun _ _ h => h)
  intro a b e hbe hen
  refine task_call hfin (wrIn_faddin (InS_Has)) ?_
  intro m hm ho hR hv
  have h2 := okin_of (X := ⟨B, ldb, M, N⟩) (w := ⟨C, ldc, M, N⟩) (p := B + b * ldb) (i0 := b) (r := e - b) hB (fun _ h => h) ho hR rfl (by simp only []; omega) rfl
  refine (faddin_spec cat hm h2 ho hlb hl (hB.safe hl (by omega))).mono (fun _ _ s => s.congr (fun i hi j hj => ?_))
  subst hv
  simp only [Mem.mat, Win.adr]
  congr 2 <;> ring

theorem pfsubin_ok (hlb : N ≤ ldb) (hl : N ≤ ldc) (hB : Apart ⟨B, ldb, M, N⟩ ⟨C, ldc, M, N⟩) :
    TaskOk (pfsubin cat M N B ldb C ldc t .ret) ⟨C, ldc, M, N⟩ (only (Win.mk B ldb M N).Has ⟨C, ldc, M, N⟩) v
      (fun i j => v (C + i * ldc + j) - v (B + i * ldb + j)) := by
  have hfin : FinS (only (Win.mk B ldb M N).Has ⟨C, ldc, M, N⟩) := (FinS.has _).mono (fun _ h => h.1)
  refine wp_for_rows (w := ⟨C, ldc, M, N⟩) (by simp) rfl (Win.Inj_of_le (Or.inl hl)) (fun _ h => Or.inl h) (fun _ h => Or.inr (Or.inl h)) (fun _ h => h.2) ?_ (fun _ _ h => h)
  intro a b e hbe hen
  refine task_call hfin (wrIn_fsubin (InS_Has)) ?_
  intro m hm ho hR hv
  have h2 := okin_of (X := ⟨B, ldb, M, N⟩) (w := ⟨C, ldc, M, N⟩) (p := B + b * ldb) (i0 := b) (r := e - b) hB (fun _ h => h) ho hR rfl (by simp only []; omega) rfl
  refine (fsubin_spec cat hm h2 ho hlb hl (hB.safe hl (by omega))).mono (fun _ _ s => s.congr (fun i hi j hj => ?_))
  subst hv
  simp only [Mem.mat, Win.adr]
  congr 2 <;> ring

/-! ### permutations -/

variable {ibeg iend r c : ℕ} {P : Arr ℕ} {p : Param} {ta : Tr}

/-- rows exchanged: the columns are cut -/
theorem papplyP_left_ok (hg : p = .Grain → t ≠ 0) (hl : c ≤ lda) (he : iend ≤ r) (hP : iend ≤ P.len) (hp : ∀ i < iend, P.get i < r) :
    TaskOk (papplyP .left ta p c ibeg iend A lda P t .ret) ⟨A, lda, r, c⟩ (fun _ => False) v
      (fun i j => v (A + appliedPerm .left ta P.get ibeg iend i * lda + j)) := by
  show wp (forBlock1D p c t (fun _ b e => call (applyP .left ta (e - b) ibeg iend (A + b * 1) lda P) .ret) .ret) _ _ _ _ _
  refine wp_for_cols (Rs := fun _ => False) (w := ⟨A, lda, r, c⟩) hg rfl (Win.Inj_of_le (Or.inl hl)) (fun _ h => Or.inl h) (fun _ h => h.elim) (fun _ h => h.elim) ?_ (fun _ _ h => h)
  intro a b e hbe hen
  refine task_call FinS.none (wrIn_applyP_left (r := r) (fun i hi j hj => Or.inl ⟨i, hi, j, hj, by simp only [Win.sub, Win.adr]; ring⟩) he hp) ?_
  intro m hm ho _ hv
  have h := applyP_row (ibeg := ibeg) (i0 := 0) (j0 := 0) (r := r) (c := e - b) ta (On.start hm ho (by simp only [Win.sub]; omega)) (by simp [Win.sub]) (by simp [Win.sub]) he hP hp
  have e1 : (Win.sub ⟨A, lda, r, c⟩ 0 b r (e - b)).adr 0 0 = A + b * 1 := by simp only [Win.sub, Win.adr]; ring
  rw [e1] at h
  refine h.mono (fun _ _ s => s.step.congr (fun i hi j hj => ?_))
  have hi : i < r := hi
  have hj : j < e - b := hj
  subst hv
  rw [permRows, upd_in' (by omega)]
  simp only [Mem.mat, Win.sub, Win.adr, Nat.sub_zero, Nat.zero_add]
  congr 1; ring

/-- columns exchanged: the rows are cut -/
theorem papplyP_right_ok (hg : p = .Grain → t ≠ 0) (hl : c ≤ lda) (he : iend ≤ c) (hP : iend ≤ P.len) (hp : ∀ i < iend, P.get i < c) :
    TaskOk (papplyP .right ta p r ibeg iend A lda P t .ret) ⟨A, lda, r, c⟩ (fun _ => False) v
      (fun i j => v (A + i * lda + appliedPerm .right ta P.get ibeg iend j)) := by
  show wp (forBlock1D p r t (fun _ b e => call (applyP .right ta (e - b) ibeg iend (A + b * lda) lda P) .ret) .ret) _ _ _ _ _
  refine wp_for_rows (Rs := fun _ => False) (w := ⟨A, lda, r, c⟩) hg rfl (Win.Inj_of_le (Or.inl hl)) (fun _ h => Or.inl h) (fun _ h => h.elim) (fun _ h => h.elim) ?_ (fun _ _ h => h)
  intro a b e hbe hen
  refine task_call FinS.none (wrIn_applyP_right (c := c) (fun i hi j hj => Or.inl ⟨i, hi, j, hj, by simp only [Win.sub, Win.adr]; ring⟩) he hp) ?_
  intro m hm ho _ hv
  have h := applyP_col (ibeg := ibeg) (i0 := 0) (j0 := 0) (r := e - b) (c := c) ta (On.start hm ho (by simp only [Win.sub]; omega)) (by simp [Win.sub]) (by simp [Win.sub]) he hP hp
  have e1 : (Win.sub ⟨A, lda, r, c⟩ b 0 (e - b) c).adr 0 0 = A + b * lda := by simp only [Win.sub, Win.adr]; ring
  rw [e1] at h
  refine h.mono (fun _ _ s => s.step.congr (fun i hi j hj => ?_))
  have hi : i < e - b := hi
  have hj : j < c := hj
  subst hv
  rw [permCols, upd_in' (by omega)]
  simp only [Mem.mat, Win.sub, Win.adr, Nat.sub_zero, Nat.zero_add]
  congr 1; ring

/-! ### block moves -/

/-- a task with a temporary: allocation, a program on the window and the temporary, release -/
lemma task_tmp {q : ℕ → Prog K Unit} [hq : ∀ tp, Small (q tp)] {w : Win} {g : ℕ → ℕ → K} {tr tc : ℕ} {n : ℕ} (hn : n = tr * tc)
    (hl : w.c ≤ w.ld) (hw : ∀ tp, Small.wrIn (q tp) (fun i => w.Has i ∨ (False ∨ blkAt tp n i)))
    (hr : ∀ (tp : ℕ) (m : Mem K) (U : ℕ → ℕ → K), On2 m m w (m.mat w) ⟨tp, tc, tr, tc⟩ U → (∀ i < w.r, ∀ j < w.c, m.val (w.adr i j) = v (w.adr i j)) →
      Run (q tp) m (fun _ m' => ∃ V U', On2 m m' w V ⟨tp, tc, tr, tc⟩ U' ∧ ∀ i < w.r, ∀ j < w.c, V i j = g i j)) :
    TaskOk (.alloc n fun tp => call (q tp) (.free tp n .ret)) w (fun _ => False) v g := by
  classical
  subst hn
  intro tp cs hfree
  have hb : ∀ x, (Win.mk tp tc tr tc).Has x → blkAt tp (tr * tc) x := by
    rintro x ⟨i, hi, j, hj, rfl⟩
    have hi : i < tr := hi
    have hj : j < tc := hj
    have : (i + 1) * tc ≤ tr * tc := Nat.mul_le_mul_right _ hi
    rw [Nat.succ_mul] at this
    simp only [Win.adr]
    exact ⟨by omega, by omega⟩
  have hd : w.Disj ⟨tp, tc, tr, tc⟩ := fun x hx hx' => hfree x (hb x hx') (Or.inl hx)
  obtain ⟨bd, hbd⟩ := (FinS.has w).or (FinS.has ⟨tp, tc, tr, tc⟩)
  generalize hv' : (fun i => if blkAt tp (tr * tc) i then cs i else v i) = v'
  let m : Mem K := ⟨v', fun x => decide (w.Has x ∨ (Win.mk tp tc tr tc).Has x), bd⟩
  have hwf : WF m := fun a ha => by
    have : ¬ (w.Has a ∨ (Win.mk tp tc tr tc).Has a) := fun h => absurd (hbd a h) (by simp only [m] at ha; omega)
    simp only [m, decide_eq_false_iff_not]; exact this
  have o1 : OkIn m w := fun a ha => by simp only [m, decide_eq_true_eq]; exact Or.inl ha
  have o2 : OkIn m ⟨tp, tc, tr, tc⟩ := fun a ha => by simp only [m, decide_eq_true_eq]; exact Or.inr ha
  have h2 : On2 m m w (m.mat w) ⟨tp, tc, tr, tc⟩ (m.mat ⟨tp, tc, tr, tc⟩) :=
    ⟨hwf, o1, o2, hl, le_rfl, hd, rfl, le_rfl, fun _ _ _ _ => rfl, fun _ _ _ _ => rfl, fun _ _ _ _ => rfl⟩
  have hvw : ∀ i < w.r, ∀ j < w.c, m.val (w.adr i j) = v (w.adr i j) := by
    intro i hi j hj
    have : ¬ blkAt tp (tr * tc) (w.adr i j) := fun h => hfree _ h (Or.inl (Win.Has_adr hi hj))
    simp only [m, ← hv', if_neg this]
  have hT : ∀ x, (Win.mk tp tc tr tc).Has x → (False ∨ blkAt tp (tr * tc) x) := fun x h => Or.inr (hb x h)
  refine wp_tr (q tp) m rfl ?_ (hr tp m _ h2 hvw) (hw tp) ?_
  · intro i hi
    have : w.Has i ∨ (Win.mk tp tc tr tc).Has i := by simpa only [m, decide_eq_true_eq] using hi
    exact this.imp id (fun h => Or.inr (hT i h))
  · rintro _ m' ⟨V, U', o, hV⟩ _ _ _
    exact ⟨fun i hi => Or.inr hi, fun i hi j hj => (o.valW i hi j hj).trans (hV i hi j hj)⟩

lemma InS_blk {S : ℕ → Prop} {tp tr tc n : ℕ} (hn : n = tr * tc) : InS (fun i => S i ∨ (False ∨ blkAt tp n i)) tp tc tr tc := by
  intro i hi j hj
  subst hn
  have : (i + 1) * tc ≤ tr * tc := Nat.mul_le_mul_right _ hi
  rw [Nat.succ_mul] at this
  exact Or.inr (Or.inr ⟨by omega, by omega⟩)

lemma InS_sub {S : ℕ → Prop} {w : Win} {i0 j0 r c p : ℕ} (hS : ∀ x, w.Has x → S x) (hp : p = w.p + i0 * w.ld + j0) (hr : i0 + r ≤ w.r) (hc : j0 + c ≤ w.c) :
    InS S p w.ld r c := fun i hi j hj => hS _ ⟨i0 + i, by omega, j0 + j, by omega, by rw [hp]; simp only [Win.adr]; ring⟩

variable {M2 N2 R1 R2 R3 R4 width : ℕ}

theorem pmatrixApplyS_ok (hg : p = .Grain → t ≠ 0) (hl : width ≤ lda) (h12 : R1 + R2 ≤ M2) :
    TaskOk (pmatrixApplyS p A lda width M2 R1 R2 R3 R4 t .ret) ⟨A, lda, M2 + R3 + R4, width⟩ (fun _ => False) v
      (fun i j => v (A + sPerm (R1 + R2) (M2 - (R1 + R2)) (R3 + R4) i * lda + j)) := by
  refine wp_for_cols (Rs := fun _ => False) (w := ⟨A, lda, M2 + R3 + R4, width⟩) hg rfl (Win.Inj_of_le (Or.inl hl)) (fun _ h => Or.inl h) (fun _ h => h.elim) (fun _ h => h.elim) ?_ (fun _ _ h => h)
  intro a b e hbe hen
  rw [taskApplyS, if_neg (by omega)]
  refine task_tmp (tr := M2 - (R1 + R2)) (tc := e - b) rfl (by simp only [Win.sub]; omega) (fun tp => ?_) ?_
  · have hw : ∀ x, (Win.sub ⟨A, lda, M2 + R3 + R4, width⟩ 0 b (M2 + R3 + R4) (e - b)).Has x →
        (fun i => (Win.sub ⟨A, lda, M2 + R3 + R4, width⟩ 0 b (M2 + R3 + R4) (e - b)).Has i ∨ (False ∨ blkAt tp ((M2 - (R1 + R2)) * (e - b)) i)) x := fun _ h => Or.inl h
    refine wrIn_bind (wrIn_fassign (InS_blk (by rw [Nat.sub_sub]))) fun _ => wrIn_bind (wrIn_fassign (InS_sub hw (i0 := R1 + R2) (j0 := 0) ?_ ?_ ?_)) fun _ =>
      wrIn_fassign (InS_sub hw (i0 := R1 + R2 + R3 + R4) (j0 := 0) ?_ ?_ ?_)
    all_goals simp only [Win.sub, Win.adr]
    · ring
    · omega
    · omega
    · ring
    · omega
    · omega
  · intro tp m U h2 hv
    have h := doApplyS_on2 (i0 := 0) (j0 := 0) (c := e - b) (t := M2 - (R1 + R2)) (M2 := M2) (R1 := R1) (R2 := R2) (R3 := R3) (R4 := R4) h2 (by simp [Win.sub]) (by simp [Win.sub]) (by omega)
    have e1 : (Win.sub ⟨A, lda, M2 + R3 + R4, width⟩ 0 b (M2 + R3 + R4) (e - b)).adr 0 0 = A + b := by simp only [Win.sub, Win.adr]; ring
    rw [e1] at h
    refine h.mono (fun _ m' h' => ?_)
    obtain ⟨U', h'⟩ := h'
    refine ⟨_, U', h', fun i hi j hj => ?_⟩
    have hi : i < M2 + R3 + R4 := hi
    have hj : j < e - b := hj
    rw [permRows, upd_in' (by omega)]
    have hs : sPerm (R1 + R2) (M2 - (R1 + R2)) (R3 + R4) i < M2 + R3 + R4 := by unfold sPerm; split_ifs <;> omega
    simp only [Nat.sub_zero, Nat.zero_add, Mem.mat]
    rw [hv _ hs _ hj]
    simp only [Win.sub, Win.adr]
    congr 1; ring

theorem pmatrixApplyT_ok (hg : p = .Grain → t ≠ 0) (hl : N2 + R2 + R4 ≤ lda) (h13 : R1 + R3 ≤ N2) :
    TaskOk (pmatrixApplyT p A lda width N2 R1 R2 R3 R4 t .ret) ⟨A, lda, width, N2 + R2 + R4⟩ (fun _ => False) v
      (fun i j => v (A + i * lda + tPerm N2 R1 R2 R3 R4 j)) := by
  refine wp_for_rows (Rs := fun _ => False) (w := ⟨A, lda, width, N2 + R2 + R4⟩) hg rfl (Win.Inj_of_le (Or.inl hl)) (fun _ h => Or.inl h) (fun _ h => h.elim) (fun _ h => h.elim) ?_ (fun _ _ h => h)
  intro a b e hbe hen
  rw [taskApplyT, if_neg (by omega)]
  refine task_tmp (tr := e - b) (tc := N2 - R1) (mul_comm _ _) (by simp only [Win.sub]; omega) (fun tp => ?_) ?_
  · have hw : ∀ x, (Win.sub ⟨A, lda, width, N2 + R2 + R4⟩ b 0 (e - b) (N2 + R2 + R4)).Has x →
        (fun i => (Win.sub ⟨A, lda, width, N2 + R2 + R4⟩ b 0 (e - b) (N2 + R2 + R4)).Has i ∨ (False ∨ blkAt tp ((N2 - R1) * (e - b)) i)) x := fun _ h => Or.inl h
    have hrow : ∀ k < e - b, ∀ j0 n, j0 + n ≤ N2 + R2 + R4 → ∀ i < n, (fun i => (Win.sub ⟨A, lda, width, N2 + R2 + R4⟩ b 0 (e - b) (N2 + R2 + R4)).Has i ∨
        (False ∨ blkAt tp ((N2 - R1) * (e - b)) i)) (A + b * lda + j0 + k * lda + i * 1) := fun k hk j0 n hn i hi =>
      hw _ ⟨k, hk, j0 + i, by simp only [Win.sub]; omega, by simp only [Win.sub, Win.adr]; ring⟩
    refine wrIn_loop fun k hk => wrIn_bind (wrIn_vassign ?_) fun _ => wrIn_bind (wrIn_vassign ?_) fun _ => wrIn_bind (wrIn_vassign ?_) fun _ =>
      wrIn_bind (wrIn_vassign ?_) fun _ => wrIn_vassign ?_
    · intro i hi
      rw [mul_one]
      exact InS_blk (tp := tp) (tr := e - b) (mul_comm _ _) k hk i hi
    · exact hrow k hk R1 R2 (by omega)
    · have := hrow k hk (R1 + R2) R3 (by omega)
      simpa only [Nat.add_assoc] using this
    · have := hrow k hk (R1 + R2 + R3) R4 (by omega)
      simpa only [Nat.add_assoc] using this
    · have := hrow k hk (R1 + R2 + R3 + R4) (N2 - R1 - R3) (by omega)
      simpa only [Nat.add_assoc] using this
  · intro tp m U h2 hv
    have h := doApplyT_on2 (i0 := 0) (j0 := 0) (r := e - b) (t := N2 - R1) (N2 := N2) (R1 := R1) (R2 := R2) (R3 := R3) (R4 := R4) h2 (by simp [Win.sub]) (by simp [Win.sub]) h13 (by omega)
    have e1 : (Win.sub ⟨A, lda, width, N2 + R2 + R4⟩ b 0 (e - b) (N2 + R2 + R4)).adr 0 0 = A + b * lda := by simp only [Win.sub, Win.adr]; ring
    rw [e1] at h
    refine h.mono (fun _ m' h' => ?_)
    obtain ⟨U', h'⟩ := h'
    refine ⟨_, U', h', fun i hi j hj => ?_⟩
    have hi : i < e - b := hi
    have hj : j < N2 + R2 + R4 := hj
    rw [permCols, upd_in' (by omega)]
    have hs : tPerm N2 R1 R2 R3 R4 j < N2 + R2 + R4 := by unfold tPerm; split_ifs <;> omega
    simp only [Nat.sub_zero, Nat.zero_add, Mem.mat]
    rw [hv _ hi _ hs]
    simp only [Win.sub, Win.adr]
    congr 1; ring

/-- `pfzero` clears the part of the matrix that the splitter visits -/
theorem pfzero_ok {m n C BS : ℕ} (w : Win) (hw : w = ⟨C, n, bnd (Props.rowSize .Block .Grain m BS) (m % Props.rowSize .Block .Grain m BS) (m / Props.rowSize .Block .Grain m BS),
      bnd (Props.colSize .Block .Grain n BS) (n % Props.colSize .Block .Grain n BS) (n / Props.colSize .Block .Grain n BS)⟩) :
    TaskOk (pfzero m n C BS .ret : Proc K) w (fun _ => False) v (fun _ _ => 0) := by
  have hR : 1 ≤ Props.rowSize .Block .Grain m BS := by simp [Props.rowSize]
  have hC : 1 ≤ Props.colSize .Block .Grain n BS := by simp [Props.colSize]
  have hcn : w.c ≤ w.ld := by rw [hw]; exact bnd_le _ _
  unfold TaskOk pfzero
  refine wp_for_bnd (G := fun _ _ => 0) (Rs := fun _ => False) (Props.blockSizes_gf .Block .Grain (by simp) m n BS) hR hC (by rw [hw]) (by rw [hw])
    (Win.Inj_of_le (Or.inl hcn)) (fun _ h => Or.inl h) (fun _ h => h.elim) (fun _ h => h.elim) ?_ (fun _ _ h => h)
  intro b b1 b2 b3 b4
  have e : Win.tile w b = ⟨C + b.i0 * n + b.j0, n, b.i1 - b.i0, b.j1 - b.j0⟩ := by rw [hw]; rfl
  rw [e]
  refine task_call FinS.none ?_ ?_
  · exact wrIn_fzero InS_Has
  · intro m hm ho _ hv
    have : w.ld = n := by rw [hw]
    exact fzero_spec hm ho (by omega)

end Verif.Par
