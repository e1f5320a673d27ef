import Verif.Proofs.ParSparse
import Verif.Core.HeapEx
import Verif.Props.ApplyP
import Mathlib.Algebra.Field.Rat

/-!
# C115: the parallel products with a sparse matrix

In every execution, whatever the order in which the tasks advance, `pfspmm` and `pfspmv` give `A X + beta Y`, without data race or
undefined behaviour, and as the sequential execution does.
-/

namespace Verif.Props
open Verif.FF Verif.Par Verif.Sparse Verif.BlockCuts Finset

variable {K : Type} [Field K] [DecidableEq K]

/-- Entry `(i, c)` of the matrix whose row `i` consists of the entries `t` with `lo i ≤ t < hi i`, in the columns `col t`, with the
values `a t`; entries in the same place are added. -/
def entryAt (lo hi : ℕ → ℕ) (col : Arr ℕ) (a : ℕ → K) (i c : ℕ) : K := ∑ t ∈ Ico (lo i) (hi i), if col.get t = c then a t else 0

/-- The arguments of a product: the matrix `Y` is allocated, with rows that do not overlap; `X` has `N` rows and is apart from `Y`. -/
structure BlockArgs (m : Mem K) (M N bs X ldx Y ldy : ℕ) : Prop where
  wf : WF m
  y : OkIn m ⟨Y, ldy, M, bs⟩
  ld : bs ≤ ldy
  x : OkIn m ⟨X, ldx, N, bs⟩
  apart : (Win.mk X ldx N bs).Disj ⟨Y, ldy, M, bs⟩

/-- The entries: row bounds in order, columns in range. -/
structure RowsOk (M N nnz : ℕ) (col : Arr ℕ) (lo hi : ℕ → ℕ) : Prop where
  le : ∀ i < M, lo i ≤ hi i
  hi : ∀ i < M, hi i ≤ nnz
  len : nnz ≤ col.len
  col : ∀ t < nnz, col.get t < N

/-- The values: `nnz` cells, apart from `Y`. -/
structure ValsOk (m : Mem K) (nnz D M bs Y ldy : ℕ) : Prop where
  ok : OkIn m (vw D 1 nnz)
  apart : (vw D 1 nnz).Disj ⟨Y, ldy, M, bs⟩

section
variable {m : Mem K} {M N nnz bs X ldx Y ldy D : ℕ} {col st : Arr ℕ} {lo hi : ℕ → ℕ} {beta : K}

lemma rowSum_entry {kd : PKind} {v : ℕ → K} (h : RowsOk M N nnz col lo hi) {i k : ℕ} (hi' : i < M) :
    rowSum v kd col X ldx (lo i) (hi i - lo i) k = ∑ c ∈ range N, entryAt lo hi col (kd.coef v) i c * v (X + c * ldx + k) := by
  simp only [rowSum, entryAt, sum_mul]
  rw [sum_comm, sum_Ico_eq_sum_range]
  refine sum_congr rfl (fun t ht => ?_)
  have ht := mem_range.1 ht
  have := h.hi i hi'
  rw [sum_eq_single (col.get (lo i + t))]
  · simp
  · intro c _ hc
    simp [Ne.symm hc]
  · intro hn
    exact absurd (mem_range.2 (h.col _ (by omega))) hn

lemma csrBounds_eq (hst : M < st.len) (h : RowsOk M N nnz col st.get (fun i => st.get (i + 1))) {i : ℕ} (hi : i < M) :
    csrBounds st i = .ok (st.get i, st.get (i + 1) - st.get i) := by
  have h1 := h.le i hi
  have h2 : i < st.len := by omega
  have h3 : i + 1 < st.len := by omega
  simp only [csrBounds, usub, Arr.rd, h2, h3, if_true]
  change (if st.get i ≤ st.get (i + 1) then Except.ok (st.get (i + 1) - st.get i) else Except.error Fault.underflow).bind _ = _
  rw [if_pos h1]
  rfl

/-- cells read -/
private def reads (kd : PKind) (nnz X ldx N bs : ℕ) (a : ℕ) : Prop := (Win.mk X ldx N bs).Has a ∨ ∃ t < nnz, kd.cell t a

omit [Field K] [DecidableEq K] in
private lemma cell_has {nnz a : ℕ} (h : ∃ t < nnz, (PKind.val D).cell t a) : (vw D 1 nnz).Has a := by
  obtain ⟨t, ht, e⟩ := h
  exact ⟨t, ht, 0, Nat.one_pos, by simpa [vw, Win.adr, PKind.cell] using e⟩

private lemma reads_fin (kd : PKind) : FinS (reads kd nnz X ldx N bs) := by
  refine (FinS.has _).or ?_
  cases kd with
  | val d => exact (FinS.has (vw d 1 nnz)).mono (fun a h => cell_has h)
  | one => exact FinS.none.mono (fun a h => h.elim fun _ h => h.2)
  | mone => exact FinS.none.mono (fun a h => h.elim fun _ h => h.2)

private lemma spOk {kd : PKind} {bounds : ℕ → Except Fault (ℕ × ℕ)} (hb : ∀ i < M, bounds i = .ok (lo i, hi i - lo i)) (h : RowsOk M N nnz col lo hi) :
    SpOk kd M N bounds col (reads kd nnz X ldx N bs) lo (fun i => hi i - lo i) := by
  refine ⟨hb, fun i hi' t ht => ?_, fun i hi' t ht a ha => Or.inr ⟨_, ?_, ha⟩⟩ <;> have := h.hi i hi' <;> have := h.len
  · exact ⟨by omega, h.col _ (by omega)⟩
  · omega

private lemma evr {kd : PKind} {p : Proc K} {g : ℕ → ℕ → K} (ha : BlockArgs m M N bs X ldx Y ldy)
    (hv : ∀ a, (∃ t < nnz, kd.cell t a) → m.ok a = true) (h : TaskOk p ⟨Y, ldy, M, bs⟩ (reads kd nnz X ldx N bs) m.val g) :
    EveryRun p m ⟨Y, ldy, M, bs⟩ g :=
  everyRun ha.wf ha.y (fun a h => h.elim (ha.x a) (hv a)) h

private lemma evr_congr {p : Proc K} {w : Win} {g g' : ℕ → ℕ → K} (hg : ∀ i < w.r, ∀ j < w.c, g i j = g' i j) (h : EveryRun p m w g) : EveryRun p m w g' :=
  ⟨h.noFault, h.noRace, h.noDeadlock, h.finite, fun m' s => ⟨fun i hi j hj => ((h.result m' s).1 i hi j hj).trans (hg i hi j hj), (h.result m' s).2⟩, h.sequential⟩

/-- C115, `pfspmm` for CSR over a field of any kind, any number of threads, any number of columns: every execution ends with
`Y = beta Y + A X`.  Missing (hence `partial`): `beta` other than 0 and 1, which is not handled right (`C115_beta_violated`). -/
theorem C115_pfspmm_partial (t : ℕ) (hb : beta = 0 ∨ beta = 1) (ha : BlockArgs m M N bs X ldx Y ldy) (hv : ValsOk m nnz D M bs Y ldy)
    (hst : M < st.len) (h : RowsOk M N nnz col st.get (fun i => st.get (i + 1))) :
    EveryRun (pfspmm D M (csrBounds st) col bs X ldx beta Y ldy t .ret) m ⟨Y, ldy, M, bs⟩
      (fun i k => beta * m.mat ⟨Y, ldy, M, bs⟩ i k
        + ∑ c ∈ range N, entryAt st.get (fun i => st.get (i + 1)) col (fun t => m.val (D + t)) i c * m.mat ⟨X, ldx, N, bs⟩ c k) := by
  refine evr_congr (fun i hi k _ => ?_) (evr (kd := .val D) (nnz := nnz) ha (fun a h => hv.ok a (cell_has h))
    (mm_ok hb (spOk (fun i hi => csrBounds_eq hst h hi) h) (fun a h => Or.inl h)
      (fun a h => h.elim (ha.apart a) (fun h => hv.apart a (cell_has h))) ha.ld (reads_fin _)))
  rw [rowSum_entry h hi]
  rfl

/-- C115, `pfspmm` for a zero-one matrix with constant 1 or -1.  Missing: other constants (`C115_constant_violated`) and other `beta`. -/
theorem C115_pfspmm_ZO_partial (t : ℕ) {cst : K} (hc : cst = 1 ∨ cst = -1) (hb : beta = 0 ∨ beta = 1) (ha : BlockArgs m M N bs X ldx Y ldy)
    (hst : M < st.len) (h : RowsOk M N nnz col st.get (fun i => st.get (i + 1))) :
    EveryRun (pfspmmZO cst M (csrBounds st) col bs X ldx beta Y ldy t .ret) m ⟨Y, ldy, M, bs⟩
      (fun i k => beta * m.mat ⟨Y, ldy, M, bs⟩ i k
        + ∑ c ∈ range N, entryAt st.get (fun i => st.get (i + 1)) col (fun _ => cst) i c * m.mat ⟨X, ldx, N, bs⟩ c k) := by
  have key : ∀ kd : PKind, (∀ a, ¬ ∃ t < nnz, kd.cell t a) → (∀ t, kd.coef m.val t = cst) →
      EveryRun (call (mmInit M bs beta Y ldy) (mmTasks kd M (csrBounds st) col X ldx bs Y ldy t .ret)) m ⟨Y, ldy, M, bs⟩
      (fun i k => beta * m.mat ⟨Y, ldy, M, bs⟩ i k
        + ∑ c ∈ range N, entryAt st.get (fun i => st.get (i + 1)) col (fun _ => cst) i c * m.mat ⟨X, ldx, N, bs⟩ c k) := by
    intro kd hk hkc
    refine evr_congr (fun i hi k _ => ?_) (evr (kd := kd) (nnz := nnz) ha (fun a h => absurd h (hk a))
      (mm_ok hb (spOk (fun i hi => csrBounds_eq hst h hi) h) (fun a h => Or.inl h)
        (fun a h => h.elim (ha.apart a) (fun h => absurd h (hk a))) ha.ld (reads_fin _)))
    rw [rowSum_entry h hi, show kd.coef m.val = fun _ => cst from funext hkc]
    rfl
  by_cases e : cst = 1
  · unfold pfspmmZO
    rw [if_pos e]
    exact key .one (fun a h => h.elim fun _ h => h.2) (fun _ => e.symm)
  · have e2 : cst = -1 := by tauto
    unfold pfspmmZO
    rw [if_neg e, if_pos e2]
    exact key .mone (fun a h => h.elim fun _ h => h.2) (fun _ => e2.symm)

/-- C115, `pfspmv` for CSR, every `beta`. -/
theorem C115_pfspmv (ha : BlockArgs m M N 1 X 1 Y 1) (hv : ValsOk m nnz D M 1 Y 1)
    (hst : M < st.len) (h : RowsOk M N nnz col st.get (fun i => st.get (i + 1))) :
    EveryRun (pfspmv D M (csrBounds st) col X beta Y .ret) m ⟨Y, 1, M, 1⟩
      (fun i _ => beta * m.val (Y + i) + ∑ c ∈ range N, entryAt st.get (fun i => st.get (i + 1)) col (fun t => m.val (D + t)) i c * m.val (X + c)) := by
  refine evr_congr (fun i hi k _ => ?_) (evr (kd := .val D) (nnz := nnz) ha (fun a h => hv.ok a (cell_has h))
    (pfspmv_ok (spOk (fun i hi => csrBounds_eq hst h hi) h) (fun a h => Or.inl h)
      (fun a h => h.elim (ha.apart a) (fun h => hv.apart a (cell_has h))) (reads_fin _)))
  rw [rowSum_entry h hi]
  simp only [mul_one, add_zero]
  rfl

/-- C115, `pfspmv` for ELL (rows padded to `ld` entries), every `beta`. -/
theorem C115_pfspmv_ell {ld : ℕ} (ha : BlockArgs m M N 1 X 1 Y 1) (hv : ValsOk m (M * ld) D M 1 Y 1) (hl : M * ld ≤ col.len)
    (hc : ∀ t < M * ld, col.get t < N) :
    EveryRun (pfspmv D M (ellBounds ld) col X beta Y .ret) m ⟨Y, 1, M, 1⟩
      (fun i _ => beta * m.val (Y + i) + ∑ c ∈ range N, entryAt (fun i => i * ld) (fun i => (i + 1) * ld) col (fun t => m.val (D + t)) i c * m.val (X + c)) := by
  have h : RowsOk M N (M * ld) col (fun i => i * ld) (fun i => (i + 1) * ld) :=
    ⟨fun i _ => Nat.mul_le_mul_right _ (by omega), fun i hi => Nat.mul_le_mul_right _ hi, hl, hc⟩
  have hb : ∀ i < M, ellBounds ld i = .ok (i * ld, (i + 1) * ld - i * ld) := fun i _ => by
    rw [show (i + 1) * ld - i * ld = ld by rw [Nat.add_mul, Nat.one_mul]; omega]; rfl
  refine evr_congr (fun i hi k _ => ?_) (evr (kd := .val D) (nnz := M * ld) ha (fun a h => hv.ok a (cell_has h))
    (pfspmv_ok (spOk hb h) (fun a h => Or.inl h)
      (fun a h => h.elim (ha.apart a) (fun h => hv.apart a (cell_has h))) (reads_fin _)))
  rw [rowSum_entry h hi]
  simp only [mul_one, add_zero]
  rfl

/-- C115, the kernels `pfspmv_one` and `pfspmv_mone`: `Y + A X` and `Y - A X` for a zero-one matrix `A`, any number of threads. -/
theorem C115_pfspmv_ZO (neg : Bool) (t : ℕ) (ha : BlockArgs m M N 1 X 1 Y 1)
    (hst : M < st.len) (h : RowsOk M N nnz col st.get (fun i => st.get (i + 1))) :
    EveryRun (pfspmvZO neg M (csrBounds st) col X Y t .ret) m ⟨Y, 1, M, 1⟩
      (fun i _ => m.val (Y + i) + (if neg then -1 else 1) * ∑ c ∈ range N, entryAt st.get (fun i => st.get (i + 1)) col (fun _ => (1 : K)) i c * m.val (X + c)) := by
  have hk : ∀ a, ¬ ∃ t < nnz, (if neg then PKind.mone else PKind.one).cell t a := by
    rintro a ⟨t, _, h⟩; cases neg <;> exact h
  refine evr_congr (fun i hi k _ => ?_) (evr (kd := if neg then .mone else .one) (nnz := nnz) ha (fun a h => absurd h (hk a))
    (mvZO_ok (spOk (fun i hi => csrBounds_eq hst h hi) h) (fun a h => Or.inl h)
      (fun a h => h.elim (ha.apart a) (fun h => absurd h (hk a))) (reads_fin _)))
  rw [rowSum_entry h hi]
  simp only [mul_one, add_zero]
  congr 1
  rw [mul_sum]
  refine sum_congr rfl (fun c _ => ?_)
  rw [← mul_assoc]
  congr 1
  simp only [entryAt, mul_sum]
  refine sum_congr rfl (fun t _ => ?_)
  cases neg <;> simp [PKind.coef]

end

/-! ### Concrete cases -/

/-- `x` at 0 (three rows of two, leading dimension 2), `y` at 6 (two rows of two, leading dimension 3), the values at 12 -/
def spEx : Mem ℚ := memOf [10, 1, 20, 2, 30, 3, 1, 2, 9, 3, 4, 9, 5, 7, 11]

/-- the matrix `[5 7 0; 0 0 11]` -/
def spSt : Arr ℕ := Arr.ofList [0, 2, 3]
/-- its columns -/
def spCol : Arr ℕ := Arr.ofList [0, 1, 2]

lemma spRows : RowsOk 2 3 3 spCol spSt.get (fun i => spSt.get (i + 1)) :=
  ⟨by decide, by decide, by decide, by decide⟩

lemma spArgs : BlockArgs spEx 2 3 2 0 2 6 3 :=
  ⟨WF_memOf _, OkIn_memOf (by decide), by decide, OkIn_memOf (by decide), by
    rintro a ⟨i, hi, j, hj, rfl⟩ ⟨i', hi', j', hj', e⟩
    simp only [Win.adr] at *
    omega⟩

lemma spVals : ValsOk spEx 3 12 2 2 6 3 :=
  ⟨OkIn_memOf (by decide), by
    rintro a ⟨i, hi, j, hj, rfl⟩ ⟨i', hi', j', hj', e⟩
    simp only [Win.adr, vw] at *
    omega⟩

example : EveryRun (pfspmm 12 2 (csrBounds spSt) spCol 2 0 2 1 6 3 2 .ret) spEx ⟨6, 3, 2, 2⟩
    (fun i k => 1 * spEx.mat ⟨6, 3, 2, 2⟩ i k
      + ∑ c ∈ range 3, entryAt spSt.get (fun i => spSt.get (i + 1)) spCol (fun t => spEx.val (12 + t)) i c * spEx.mat ⟨0, 2, 3, 2⟩ c k) :=
  C115_pfspmm_partial 2 (Or.inr rfl) spArgs spVals (by decide) spRows

example : after (pfspmm 12 2 (csrBounds spSt) spCol 2 0 2 1 6 3 2 .ret).seq spEx 6 = some 191 ∧
    after (pfspmm 12 2 (csrBounds spSt) spCol 2 0 2 1 6 3 2 .ret).seq spEx 10 = some 37 ∧
    after (pfspmm 12 2 (csrBounds spSt) spCol 2 0 2 1 6 3 2 .ret).seq spEx 8 = some 9 := by decide +kernel

/-- C115 fails for `beta = 2`: entry `(1, 0)` of the result, `11 * 30 + 2 * 3`, is wrong, because `init_y` scales `y` as a matrix with
leading dimension 1. -/
theorem C115_beta_violated : after (pfspmm 12 2 (csrBounds spSt) spCol 2 0 2 2 6 3 2 .ret).seq spEx 9 = some 333 ∧ (333 : ℚ) ≠ 11 * 30 + 2 * 3 := by
  decide +kernel

/-- C115 fails for a zero-one matrix with a constant other than 1 and -1: `3 P X` (with `P = [1 1 0; 0 0 1]`, `beta = 0`) is computed as `P X`. -/
theorem C115_constant_violated : after (pfspmmZO 3 2 (csrBounds spSt) spCol 2 0 2 0 6 3 2 .ret).seq spEx 6 = some 30 ∧ (30 : ℚ) ≠ 3 * (10 + 20) := by
  decide +kernel

example : after (pfspmv 12 2 (csrBounds spSt) spCol 0 2 6 .ret).seq spEx 6 = some (2 * 1 + 5 * 10 + 7 * 1) ∧
    after (pfspmvZO true 2 (csrBounds spSt) spCol 0 6 2 .ret).seq spEx 6 = some (1 - 10 - 1) := by decide +kernel

end Verif.Props
