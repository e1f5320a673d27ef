import Verif.Proofs.PHyb
import Verif.Props.ParSparse

/-!
# C115: the parallel products with the hybrid formats

HYB_ZO stores the entries 1, the entries -1 and the others as three matrices, CSR_HYB as three parts of every row.
-/

namespace Verif.Props
open Verif.FF Verif.Par Verif.Sparse Verif.BlockCuts Finset

variable {K : Type} [Field K] [DecidableEq K]

/-- the entry of a zero-one matrix in compressed rows; a null pointer is the zero matrix -/
def zoEntry (o : Option (Arr ℕ × Arr ℕ)) (i c : ℕ) : K :=
  match o with
  | none => 0
  | some a => entryAt a.1.get (fun i => a.1.get (i + 1)) a.2 (fun _ => 1) i c

/-- the entry of a matrix with values -/
def datEntry (m : Mem K) (o : Option (ℕ × Arr ℕ × Arr ℕ)) (i c : ℕ) : K :=
  match o with
  | none => 0
  | some a => entryAt a.2.1.get (fun i => a.2.1.get (i + 1)) a.2.2 (fun t => m.val (a.1 + t)) i c

/-- the entry of a HYB_ZO matrix -/
def hybEntry (m : Mem K) (A : HybZO) (i c : ℕ) : K := zoEntry A.one i c - zoEntry A.mone i c + datEntry m A.dat i c

/-- the three matrices of HYB_ZO have `M` rows and `N` columns, the values are there and apart from `Y` -/
structure HybOk (m : Mem K) (A : HybZO) (M N nnz bs Y ldy : ℕ) : Prop where
  one : ∀ a, A.one = some a → M < a.1.len ∧ RowsOk M N nnz a.2 a.1.get (fun i => a.1.get (i + 1))
  mone : ∀ a, A.mone = some a → M < a.1.len ∧ RowsOk M N nnz a.2 a.1.get (fun i => a.1.get (i + 1))
  dat : ∀ a, A.dat = some a → M < a.2.1.len ∧ RowsOk M N nnz a.2.2 a.2.1.get (fun i => a.2.1.get (i + 1)) ∧ ValsOk m nnz a.1 M bs Y ldy

/-- cells read by the products with HYB_ZO -/
def hybReads (A : HybZO) (nnz X ldx N bs a : ℕ) : Prop := (Win.mk X ldx N bs).Has a ∨ ∃ d, A.dat = some d ∧ (vw d.1 1 nnz).Has a

section
variable {m : Mem K} {M N nnz bs X ldx Y ldy D : ℕ} {col st : Arr ℕ} {beta : K} {A : HybZO}

lemma hybReads_fin : FinS (hybReads A nnz X ldx N bs) := by
  refine (FinS.has _).or ?_
  cases h : A.dat with
  | none => exact FinS.none.mono (fun a h' => by obtain ⟨d, e, _⟩ := h'; cases e)
  | some d => exact (FinS.has (vw d.1 1 nnz)).mono (fun a h' => by obtain ⟨d', e, h2⟩ := h'; cases e; exact h2)

lemma hybReads_apart (ha : BlockArgs m M N bs X ldx Y ldy) (h : HybOk m A M N nnz bs Y ldy) : ∀ a, hybReads A nnz X ldx N bs a → ¬ (Win.mk Y ldy M bs).Has a := by
  rintro a (h1 | ⟨d, e, h1⟩)
  · exact ha.apart a h1
  · exact (h.dat d e).2.2.apart a h1

lemma hybReads_ok (ha : BlockArgs m M N bs X ldx Y ldy) (h : HybOk m A M N nnz bs Y ldy) : ∀ a, hybReads A nnz X ldx N bs a → m.ok a = true := by
  rintro a (h1 | ⟨d, e, h1⟩)
  · exact ha.x a h1
  · exact (h.dat d e).2.2.ok a h1

lemma spOk_of {kd : PKind} {Rs : ℕ → Prop} (hst : M < st.len) (h : RowsOk M N nnz col st.get (fun i => st.get (i + 1))) (hc : ∀ t < nnz, ∀ a, kd.cell t a → Rs a) :
    SpOk kd M N (csrBounds st) col Rs st.get (fun i => st.get (i + 1) - st.get i) := by
  refine ⟨fun i hi => csrBounds_eq hst h hi, fun i hi' t ht => ?_, fun i hi' t ht a ha => hc _ ?_ a ha⟩ <;> have := h.hi i hi' <;> have := h.len
  · exact ⟨by omega, h.col _ (by omega)⟩
  · omega

lemma entryAt_smul {lo hi : ℕ → ℕ} (s : K) (i c : ℕ) : entryAt lo hi col (fun _ => s) i c = s * entryAt lo hi col (fun _ => 1) i c := by
  unfold entryAt
  rw [mul_sum]
  exact sum_congr rfl (fun t _ => by split_ifs <;> simp)

/-- the sum of a row of a part -/
lemma zo_rowSum {kd : PKind} {s : K} {v : ℕ → K} {lo hi : ℕ → ℕ} (hk : ∀ t, kd.coef v t = s) (h : RowsOk M N nnz col lo hi) {i k : ℕ} (hi' : i < M) :
    rowSum v kd col X ldx (lo i) (hi i - lo i) k = s * ∑ c ∈ range N, entryAt lo hi col (fun _ => (1 : K)) i c * v (X + c * ldx + k) := by
  rw [rowSum_entry h hi', show kd.coef v = fun _ => s from funext hk, mul_sum]
  exact sum_congr rfl (fun c _ => by rw [entryAt_smul]; ring)

/-- C115, `pfspmv` for HYB_ZO: with any of the three parts present, any number of threads and every `beta`, all executions end with `Y = beta Y + A X`. -/
theorem C115_pfspmv_hyb (t : ℕ) (ha : BlockArgs m M N 1 X 1 Y 1) (h : HybOk m A M N nnz 1 Y 1) :
    EveryRun (pfspmvHyb A M X beta Y t .ret) m ⟨Y, 1, M, 1⟩
      (fun i _ => beta * m.val (Y + i) + ∑ c ∈ range N, hybEntry m A i c * m.val (X + c)) := by
  have hX : ∀ a, (Win.mk X 1 N 1).Has a → hybReads A nnz X 1 N 1 a := fun _ h => Or.inl h
  have hd := hybReads_apart ha h
  have hf : FinS (hybReads A nnz X 1 N 1) := hybReads_fin
  refine everyRun ha.wf ha.y (hybReads_ok ha h) ?_
  unfold pfspmvHyb TaskOk
  refine mvInit_inv hd (fun v1 h1 => ?_)
  -- the entries 1
  have s1 : ∀ (kp : Proc K) Q, (∀ v2, HInv ⟨Y, 1, M, 1⟩ (hybReads A nnz X 1 N 1) m.val (fun i _ => beta * m.val (Y + i) + ∑ c ∈ range N, zoEntry A.one i c * m.val (X + c)) v2 →
      wp kp (Win.mk Y 1 M 1).Has (hybReads A nnz X 1 N 1) (fun _ => False) v2 Q) →
      wp (zoPart false A.one M X Y t kp) (Win.mk Y 1 M 1).Has (hybReads A nnz X 1 N 1) (fun _ => False) v1 Q := by
    intro kp Q hk
    unfold zoPart
    cases e : A.one with
    | none => exact hk v1 ⟨h1.same, fun i hi j hj => by rw [h1.vals i hi j hj]; simp [zoEntry, e]⟩
    | some a =>
      obtain ⟨hl, hr⟩ := h.one a e
      refine mvZO_inv (neg := false) (spOk_of hl hr (fun _ _ _ h => h.elim)) hX hd hf h1 (fun v2 h2 => hk v2 ⟨h2.same, fun i hi j hj => ?_⟩)
      rw [h2.vals i hi j hj]
      dsimp only
      rw [zo_rowSum (s := 1) (fun _ => rfl) hr hi, one_mul]
      simp only [mul_one, add_zero, e, zoEntry]
  refine s1 _ _ (fun v2 h2 => ?_)
  have s2 : ∀ (kp : Proc K) Q, (∀ v3, HInv ⟨Y, 1, M, 1⟩ (hybReads A nnz X 1 N 1) m.val (fun i _ => beta * m.val (Y + i) + ∑ c ∈ range N, zoEntry A.one i c * m.val (X + c) -
        ∑ c ∈ range N, zoEntry A.mone i c * m.val (X + c)) v3 →
      wp kp (Win.mk Y 1 M 1).Has (hybReads A nnz X 1 N 1) (fun _ => False) v3 Q) →
      wp (zoPart true A.mone M X Y t kp) (Win.mk Y 1 M 1).Has (hybReads A nnz X 1 N 1) (fun _ => False) v2 Q := by
    intro kp Q hk
    unfold zoPart
    cases e : A.mone with
    | none => exact hk v2 ⟨h2.same, fun i hi j hj => by rw [h2.vals i hi j hj]; simp [zoEntry, e]⟩
    | some a =>
      obtain ⟨hl, hr⟩ := h.mone a e
      refine mvZO_inv (neg := true) (spOk_of hl hr (fun _ _ _ h => h.elim)) hX hd hf h2 (fun v3 h3 => hk v3 ⟨h3.same, fun i hi j hj => ?_⟩)
      rw [h3.vals i hi j hj]
      dsimp only
      rw [zo_rowSum (s := -1) (fun _ => rfl) hr hi]
      simp only [mul_one, add_zero, e, zoEntry]
      ring
  refine s2 _ _ (fun v3 h3 => ?_)
  have fin : ∀ i, beta * m.val (Y + i) + ∑ c ∈ range N, hybEntry m A i c * m.val (X + c) = beta * m.val (Y + i) + ∑ c ∈ range N, zoEntry A.one i c * m.val (X + c) -
        ∑ c ∈ range N, zoEntry A.mone i c * m.val (X + c) + ∑ c ∈ range N, datEntry m A.dat i c * m.val (X + c) := by
    intro i
    simp only [hybEntry, add_mul, sub_mul, sum_add_distrib, sum_sub_distrib]
    ring
  unfold datPart
  cases e : A.dat with
  | none =>
    intro i hi j hj
    rw [h3.vals i hi j hj]
    dsimp only
    rw [fin]
    simp [datEntry, e]
  | some a =>
    obtain ⟨hl, hr, hv⟩ := h.dat a e
    refine mvPar_inv (kd := .val a.1) (spOk_of hl hr (fun t ht b hb => Or.inr ⟨a, e, t, ht, 0, Nat.one_pos, by simpa [vw, Win.adr, PKind.cell] using hb⟩)) hX hd hf h3
      (fun v4 h4 i hi j hj => ?_)
    rw [h4.vals i hi j hj]
    dsimp only
    rw [fin, rowSum_entry hr hi]
    simp only [mul_one, add_zero, e, datEntry]
    rfl

/-- C115, `pfspmm` for HYB_ZO.  Missing (hence `partial`): `beta` other than 0 and 1 (`C115_beta_violated`). -/
theorem C115_pfspmm_hyb_partial (t : ℕ) (hb : beta = 0 ∨ beta = 1) (ha : BlockArgs m M N bs X ldx Y ldy) (h : HybOk m A M N nnz bs Y ldy) :
    EveryRun (pfspmmHyb A M bs X ldx beta Y ldy t .ret) m ⟨Y, ldy, M, bs⟩
      (fun i k => beta * m.mat ⟨Y, ldy, M, bs⟩ i k + ∑ c ∈ range N, hybEntry m A i c * m.mat ⟨X, ldx, N, bs⟩ c k) := by
  have hX : ∀ a, (Win.mk X ldx N bs).Has a → hybReads A nnz X ldx N bs a := fun _ h => Or.inl h
  have hd := hybReads_apart ha h
  have hf : FinS (hybReads A nnz X ldx N bs) := hybReads_fin
  refine everyRun ha.wf ha.y (hybReads_ok ha h) ?_
  unfold pfspmmHyb TaskOk
  refine mmInit_wp hb ha.ld (fun _ h => h) (fun v1 g1 g2 => ?_)
  have h1 : HInv ⟨Y, ldy, M, bs⟩ (hybReads A nnz X ldx N bs) m.val (fun i k => beta * m.val (Y + i * ldy + k)) v1 :=
    ⟨fun a ha' => g1 a (Or.inr (Or.inl ha')) (hd a ha'), g2⟩
  have step : ∀ (kd : PKind) (s : K) (o : Option (Arr ℕ × Arr ℕ)) (G : ℕ → ℕ → K) (v1 : ℕ → K), (∀ t a, ¬ kd.cell t a) → (∀ t, kd.coef m.val t = s) →
      (∀ a, o = some a → M < a.1.len ∧ RowsOk M N nnz a.2 a.1.get (fun i => a.1.get (i + 1))) →
      HInv ⟨Y, ldy, M, bs⟩ (hybReads A nnz X ldx N bs) m.val G v1 →
      ∀ (kp : Proc K) Q, (∀ v2, HInv ⟨Y, ldy, M, bs⟩ (hybReads A nnz X ldx N bs) m.val
        (fun i k => G i k + s * ∑ c ∈ range N, zoEntry o i c * m.val (X + c * ldx + k)) v2 →
      wp kp (Win.mk Y ldy M bs).Has (hybReads A nnz X ldx N bs) (fun _ => False) v2 Q) →
      wp (zoPartMM kd o M X ldx bs Y ldy t kp) (Win.mk Y ldy M bs).Has (hybReads A nnz X ldx N bs) (fun _ => False) v1 Q := by
    intro kd s o G v1 hcell hcoef ho hi1 kp Q hk
    unfold zoPartMM
    cases e : o with
    | none => exact hk v1 ⟨hi1.same, fun i hi j hj => by rw [hi1.vals i hi j hj]; simp [zoEntry, e]⟩
    | some a =>
      obtain ⟨hl, hr⟩ := ho a e
      refine mmTasks_inv (spOk_of hl hr (fun t _ a h => absurd h (hcell t a))) hX hd ha.ld hf hi1 (fun v2 h2 => hk v2 ⟨h2.same, fun i hi j hj => ?_⟩)
      rw [h2.vals i hi j hj]
      dsimp only
      rw [zo_rowSum hcoef hr hi, e]
      rfl
  refine step .one 1 A.one _ _ (fun _ _ h => h) (fun _ => rfl) h.one h1 _ _ (fun v2 h2 => ?_)
  refine step .mone (-1) A.mone _ _ (fun _ _ h => h) (fun _ => rfl) h.mone h2 _ _ (fun v3 h3 => ?_)
  have fin : ∀ i k, beta * m.mat ⟨Y, ldy, M, bs⟩ i k + ∑ c ∈ range N, hybEntry m A i c * m.mat ⟨X, ldx, N, bs⟩ c k =
      beta * m.val (Y + i * ldy + k) + 1 * ∑ c ∈ range N, zoEntry A.one i c * m.val (X + c * ldx + k) +
        -1 * ∑ c ∈ range N, zoEntry A.mone i c * m.val (X + c * ldx + k) + ∑ c ∈ range N, datEntry m A.dat i c * m.val (X + c * ldx + k) := by
    intro i k
    simp only [hybEntry, add_mul, sub_mul, sum_add_distrib, sum_sub_distrib, Mem.mat, Win.adr]
    ring
  unfold datPartMM
  cases e : A.dat with
  | none =>
    intro i hi j hj
    rw [h3.vals i hi j hj]
    dsimp only
    rw [fin]
    simp [datEntry, e]
  | some a =>
    obtain ⟨hl, hr, hv⟩ := h.dat a e
    refine mmTasks_inv (kd := .val a.1) (spOk_of hl hr (fun t ht b hb => Or.inr ⟨a, e, t, ht, 0, Nat.one_pos, by simpa [vw, Win.adr, PKind.cell] using hb⟩)) hX hd ha.ld hf h3
      (fun v4 h4 i hi j hj => ?_)
    rw [h4.vals i hi j hj]
    dsimp only
    rw [fin, rowSum_entry hr hi, e]
    rfl

/-- the parts of the rows of CSR_HYB (`st[4i]`, `st[4i+1]`, `st[4i+2]`, `st[4i+4]`; `st[4i+3]` is the first value of row `i`) are in order, the columns
in range and the values inside of the array of `nd` values -/
structure CsrHybOk (M N nd : ℕ) (st col : Arr ℕ) : Prop where
  len : 4 * M < st.len
  a1 : ∀ i < M, st.get (4 * i) ≤ st.get (4 * i + 1)
  a2 : ∀ i < M, st.get (4 * i + 1) ≤ st.get (4 * i + 2)
  a3 : ∀ i < M, st.get (4 * i + 2) ≤ st.get (4 * (i + 1))
  col : ∀ i < M, ∀ t < st.get (4 * (i + 1)), t < col.len ∧ col.get t < N
  dat : ∀ i < M, st.get (4 * i + 3) + (st.get (4 * (i + 1)) - st.get (4 * i + 2)) ≤ nd

/-- the entry of a CSR_HYB matrix: the entries -1, the entries 1, the others -/
def csrHybEntry (val : ℕ → K) (st col : Arr ℕ) (i c : ℕ) : K :=
  - (#{t ∈ Ico (st.get (4 * i)) (st.get (4 * i + 1)) | col.get t = c} : K) + #{t ∈ Ico (st.get (4 * i + 1)) (st.get (4 * i + 2)) | col.get t = c} +
    ∑ t ∈ Ico (st.get (4 * i + 2)) (st.get (4 * (i + 1))), if col.get t = c then val (st.get (4 * i + 3) + (t - st.get (4 * i + 2))) else 0

lemma part_sum {w x : ℕ → K} {lo hi : ℕ} (hc : ∀ t < hi, col.get t < N) :
    ∑ t ∈ range (hi - lo), w (lo + t) * x (col.get (lo + t)) = ∑ c ∈ range N, (∑ t ∈ Ico lo hi, if col.get t = c then w t else 0) * x c := by
  simp only [sum_mul]
  rw [sum_comm, sum_Ico_eq_sum_range]
  refine sum_congr rfl (fun t ht => ?_)
  have ht := mem_range.1 ht
  rw [sum_eq_single (col.get (lo + t))]
  · simp
  · intro c _ hne
    simp [Ne.symm hne]
  · intro hn
    exact absurd (mem_range.2 (hc _ (by omega))) hn

/-- C115, `pfspmv` for CSR_HYB, every `beta`. -/
theorem C115_pfspmv_csrhyb {nd : ℕ} (ha : BlockArgs m M N 1 X 1 Y 1) (hv : ValsOk m nd D M 1 Y 1) (h : CsrHybOk M N nd st col) :
    EveryRun (pfspmvCsrHyb D M st col X beta Y .ret) m ⟨Y, 1, M, 1⟩
      (fun i _ => beta * m.val (Y + i) + ∑ c ∈ range N, csrHybEntry (fun t => m.val (D + t)) st col i c * m.val (X + c)) := by
  have hs : HybRowOk M N D st col (fun a => (Win.mk X 1 N 1).Has a ∨ (vw D 1 nd).Has a) :=
    ⟨h.len, h.a1, h.a2, h.a3, h.col, fun i hi t ht => Or.inr ⟨st.get (4 * i + 3) + t, by have := h.dat i hi; simp only [vw]; omega, 0, Nat.one_pos, by simp [vw, Win.adr]⟩⟩
  have key := pfspmvCsrHyb_ok (y := Y) (v := m.val) (beta := beta) hs (fun _ h => Or.inl h) (fun a h => h.elim (ha.apart a) (hv.apart a)) ((FinS.has _).or (FinS.has _))
  have e := everyRun ha.wf ha.y (fun a h => h.elim (ha.x a) (hv.ok a)) key
  refine ⟨e.noFault, e.noRace, e.noDeadlock, e.finite, fun m' s => ⟨fun i hi j hj => ((e.result m' s).1 i hi j hj).trans ?_, (e.result m' s).2⟩, e.sequential⟩
  dsimp only
  have hi : i < M := hi
  have a1 := h.a1 i hi
  have a2 := h.a2 i hi
  have a3 := h.a3 i hi
  have hc : ∀ t < st.get (4 * (i + 1)), col.get t < N := fun t ht => (h.col i hi t ht).2
  congr 1
  unfold hybSum rowSum datSum
  simp only [PKind.coef, mul_one, add_zero]
  rw [part_sum (w := fun _ => (-1 : K)) (x := fun c => m.val (X + c)) (fun t ht => hc t (by omega)),
    part_sum (w := fun _ => (1 : K)) (x := fun c => m.val (X + c)) (fun t ht => hc t (by omega))]
  have e3 : ∑ t ∈ range (st.get (4 * (i + 1)) - st.get (4 * i + 2)), m.val (D + (st.get (4 * i + 3) + t)) * m.val (X + col.get (st.get (4 * i + 2) + t)) =
      ∑ t ∈ range (st.get (4 * (i + 1)) - st.get (4 * i + 2)), (fun t => m.val (D + (st.get (4 * i + 3) + (t - st.get (4 * i + 2))))) (st.get (4 * i + 2) + t) *
        (fun c => m.val (X + c)) (col.get (st.get (4 * i + 2) + t)) :=
    sum_congr rfl (fun t _ => by simp)
  rw [e3, part_sum (w := fun t => m.val (D + (st.get (4 * i + 3) + (t - st.get (4 * i + 2))))) (x := fun c => m.val (X + c)) (fun t ht => hc t ht),
    ← sum_add_distrib, ← sum_add_distrib]
  refine sum_congr rfl (fun c _ => ?_)
  rw [← add_mul, ← add_mul]
  congr 1
  unfold csrHybEntry
  congr 2
  · rw [← sum_filter, sum_const, nsmul_eq_mul]; ring
  · rw [← sum_filter, sum_const, nsmul_eq_mul, mul_one]

end

/-! ### Concrete cases -/

/-- `[1 1 0; 0 0 1] + [5 7 0; 0 0 11] = [6 8 0; 0 0 12]`, without entries -1 -/
def hybEx : HybZO := ⟨some (spSt, spCol), none, some (12, spSt, spCol)⟩

lemma spArgs1 : BlockArgs spEx 2 3 1 0 1 6 1 :=
  ⟨WF_memOf _, OkIn_memOf (by decide), by decide, OkIn_memOf (by decide), by
    rintro a ⟨i, hi, j, hj, rfl⟩ ⟨i', hi', j', hj', e⟩
    simp only [Win.adr] at *
    omega⟩

lemma spVals1 : ValsOk spEx 3 12 2 1 6 1 :=
  ⟨OkIn_memOf (by decide), by
    rintro a ⟨i, hi, j, hj, rfl⟩ ⟨i', hi', j', hj', e⟩
    simp only [Win.adr, vw] at *
    omega⟩

lemma hybExOk : HybOk spEx hybEx 2 3 3 1 6 1 := by
  refine ⟨fun a e => ?_, fun a e => by simp [hybEx] at e, fun a e => ?_⟩
  · obtain rfl : (spSt, spCol) = a := by simpa [hybEx] using e
    exact ⟨by decide, spRows⟩
  · obtain rfl : (12, spSt, spCol) = a := by simpa [hybEx] using e
    exact ⟨by decide, spRows, spVals1⟩

example : EveryRun (pfspmvHyb hybEx 2 0 2 6 3 .ret) spEx ⟨6, 1, 2, 1⟩ (fun i _ => 2 * spEx.val (6 + i) + ∑ c ∈ range 3, hybEntry spEx hybEx i c * spEx.val (0 + c)) :=
  C115_pfspmv_hyb 3 spArgs1 hybExOk

example : after (pfspmvHyb hybEx 2 0 2 6 3 .ret).seq spEx 6 = some (2 * 1 + 6 * 10 + 8 * 1) ∧
    after (pfspmvHyb hybEx 2 0 2 6 3 .ret).seq spEx 7 = some (2 * 2 + 12 * 20) := by decide +kernel

example : EveryRun (pfspmmHyb hybEx 2 1 0 1 1 6 1 3 .ret) spEx ⟨6, 1, 2, 1⟩
    (fun i k => 1 * spEx.mat ⟨6, 1, 2, 1⟩ i k + ∑ c ∈ range 3, hybEntry spEx hybEx i c * spEx.mat ⟨0, 1, 3, 1⟩ c k) :=
  C115_pfspmm_hyb_partial 3 (Or.inr rfl) spArgs1 hybExOk

/-- two rows: -1, 1, 5 in the columns 0, 1, 2, and 7 in column 1 -/
def chSt : Arr ℕ := Arr.ofList [0, 1, 2, 0, 3, 3, 3, 1, 4]
/-- their columns -/
def chCol : Arr ℕ := Arr.ofList [0, 1, 2, 1]

lemma chOk : CsrHybOk 2 3 3 chSt chCol := ⟨by decide, by decide, by decide, by decide, by decide, by decide⟩

example : EveryRun (pfspmvCsrHyb 12 2 chSt chCol 0 1 6 .ret) spEx ⟨6, 1, 2, 1⟩
    (fun i _ => 1 * spEx.val (6 + i) + ∑ c ∈ range 3, csrHybEntry (fun t => spEx.val (12 + t)) chSt chCol i c * spEx.val (0 + c)) :=
  C115_pfspmv_csrhyb spArgs1 spVals1 chOk

example : after (pfspmvCsrHyb 12 2 chSt chCol 0 1 6 .ret).seq spEx 6 = some (1 - 10 + 1 + 5 * 20) ∧
    after (pfspmvCsrHyb 12 2 chSt chCol 0 1 6 .ret).seq spEx 7 = some (2 + 7 * 1) := by decide +kernel

end Verif.Props
