import Verif.Proofs.Checkers
import Verif.Proofs.Winograd3
import Verif.Props.Echelon
import Mathlib.Data.ZMod.Basic
import Mathlib.Algebra.Field.ZMod
import Mathlib.Data.Fintype.Pi
import Mathlib.Data.Fintype.BigOperators

/-!
# Properties C32, C33, C34: probabilistic checkers

The random generator is a function `rnd`; "for at most `q^(n-1)` of the `q^n` random vectors" counts the vectors of length `n` for
which the program returns `true`.
-/

namespace Verif.Props

open Verif.FF Verif.Spec Verif.Spec.Perm Finset

variable {K : Type} [Field K] [DecidableEq K] {m : Mem K} {M n k A lda B ldb C ldc : ℕ}

/-- the draws of a generator that produces the vector `v` -/
def drawing (v : Fin n → K) (j : ℕ) : K := if h : j < n then v ⟨j, h⟩ else 0

omit [DecidableEq K] in
lemma sum_drawing (v : Fin n → K) (f : ℕ → K) : ∑ j ∈ range n, f j * drawing v j = ∑ j : Fin n, f j * v j := by
  rw [← Fin.sum_univ_eq_sum_range (fun j => f j * drawing v j)]
  refine Fintype.sum_congr _ _ (fun j => ?_)
  rw [drawing, dif_pos j.2]

/-- A matrix with a non-zero entry vanishes on at most `q^(n-1)` vectors. -/
lemma card_kernel_le [Fintype K] (D : ℕ → ℕ → K) {i j : ℕ} (hi : i < M) (hj : j < n) (hne : D i j ≠ 0) (p : (Fin n → K) → Prop) [DecidablePred p]
    (hp : ∀ v, p v → ∀ i < M, ∑ j ∈ range n, D i j * drawing v j = 0) :
    (Finset.univ.filter p).card ≤ Fintype.card K ^ (n - 1) := by
  have hcard : Fintype.card ({l : Fin n // l ≠ ⟨j, hj⟩} → K) = Fintype.card K ^ (n - 1) := by
    rw [Fintype.card_fun, Fintype.card_subtype_compl, Fintype.card_fin, Fintype.card_subtype_eq]
  rw [← hcard, ← Finset.card_univ]
  refine Finset.card_le_card_of_injOn (fun v l => v l.1) (fun _ _ => by simp) ?_
  intro v hv v' hv' e
  have hv := hp v (by simpa using hv) i hi
  have hv' := hp v' (by simpa using hv') i hi
  rw [sum_drawing] at hv hv'
  have heq : ∀ l : Fin n, l ≠ ⟨j, hj⟩ → v l = v' l := fun l hl => congrFun e ⟨l, hl⟩
  rw [← Finset.add_sum_erase _ _ (Finset.mem_univ (⟨j, hj⟩ : Fin n))] at hv hv'
  have : ∑ x ∈ Finset.univ.erase (⟨j, hj⟩ : Fin n), D i x * v x = ∑ x ∈ Finset.univ.erase (⟨j, hj⟩ : Fin n), D i x * v' x :=
    Finset.sum_congr rfl (fun x hx => by rw [heq x (Finset.ne_of_mem_erase hx)])
  rw [this] at hv
  have h2 : D i j * v ⟨j, hj⟩ = D i j * v' ⟨j, hj⟩ := add_right_cancel (hv.trans hv'.symm)
  funext l
  by_cases hl : l = ⟨j, hj⟩
  · subst hl; exact mul_left_cancel₀ hne h2
  · exact heq l hl

/-! ### C32 -/

/-- calling conditions of `freivalds` -/
structure FCall (m : Mem K) (ta tb : Tr) (M n k A lda B ldb C ldc : ℕ) : Prop where
  wf : WF m
  okA : OkIn m (aw ta M k A lda)
  okB : OkIn m (aw tb k n B ldb)
  okC : OkIn m ⟨C, ldc, M, n⟩
  lA : opc ta M k ≤ lda
  lB : opc tb k n ≤ ldb
  lC : n ≤ ldc

/-- entry of `alpha · op(A) · op(B)` -/
def prodEntry (m : Mem K) (ta tb : Tr) (M n k : ℕ) (alpha : K) (A lda B ldb : ℕ) (i j : ℕ) : K :=
  alpha * Spec.mul k (Spec.op ta (m.mat (aw ta M k A lda))) (Spec.op tb (m.mat (aw tb k n B ldb))) i j

/-- C32: exactly when `freivalds` returns `true`.  It terminates without fault and modifies nothing.  The conditions `hk` and `hn`
exclude the calls of `C32_freivalds_violated`. -/
theorem C32_freivalds_exact_partial (cat : Cat) (rnd : ℕ → K) (ta tb : Tr) (alpha : K) (h : FCall m ta tb M n k A lda B ldb C ldc)
    (hk : k ≠ 0 ∨ ta = .no) (hn : n ≠ 0 ∨ tb = .no) :
    Run (freivalds cat rnd ta tb M n k alpha A lda B ldb C ldc) m (fun b m' => m'.ok = m.ok ∧ (∀ a, m.ok a = true → m'.val a = m.val a) ∧
      (b = true ↔ ∀ i < M, ∑ j ∈ range n,
        (prodEntry m ta tb M n k alpha A lda B ldb i j - m.mat ⟨C, ldc, M, n⟩ i j) * rnd j = 0)) :=
  freivalds_spec cat rnd ta tb alpha h.wf (Src.of_ok h.okA h.lA) (Src.of_ok h.okB h.lB) (Src.of_ok h.okC h.lC) hk hn

/-- C32: a correct product is accepted whatever the random vector. -/
theorem C32_freivalds_complete_partial (cat : Cat) (rnd : ℕ → K) (ta tb : Tr) (alpha : K) (h : FCall m ta tb M n k A lda B ldb C ldc)
    (hk : k ≠ 0 ∨ ta = .no) (hn : n ≠ 0 ∨ tb = .no)
    (hC : ∀ i < M, ∀ j < n, m.mat ⟨C, ldc, M, n⟩ i j = prodEntry m ta tb M n k alpha A lda B ldb i j) :
    Run (freivalds cat rnd ta tb M n k alpha A lda B ldb C ldc) m (fun b m' => b = true ∧ m'.ok = m.ok ∧ ∀ a, m.ok a = true → m'.val a = m.val a) := by
  refine (C32_freivalds_exact_partial cat rnd ta tb alpha h hk hn).mono ?_
  rintro b m' ⟨h1, h2, h3⟩
  refine ⟨h3.2 (fun i hi => Finset.sum_eq_zero (fun j hj => ?_)), h1, h2⟩
  rw [hC i hi j (mem_range.1 hj), sub_self, zero_mul]

/-- C32: a wrong product is accepted for at most `q^(n-1)` of the `q^n` random vectors. -/
theorem C32_freivalds_sound_partial [Fintype K] (cat : Cat) (ta tb : Tr) (alpha : K) (h : FCall m ta tb M n k A lda B ldb C ldc)
    (hk : k ≠ 0 ∨ ta = .no) (hn : n ≠ 0 ∨ tb = .no) {i j : ℕ} (hi : i < M) (hj : j < n)
    (hC : m.mat ⟨C, ldc, M, n⟩ i j ≠ prodEntry m ta tb M n k alpha A lda B ldb i j) :
    (Finset.univ.filter fun v : Fin n → K => result (freivalds cat (drawing v) ta tb M n k alpha A lda B ldb C ldc) m = some true).card ≤
      Fintype.card K ^ (n - 1) := by
  refine card_kernel_le (M := M) (fun i j => prodEntry m ta tb M n k alpha A lda B ldb i j - m.mat ⟨C, ldc, M, n⟩ i j) hi hj
    (sub_ne_zero.2 (Ne.symm hC)) _ (fun v hv => ?_)
  obtain ⟨b, m', e, -, -, h3⟩ := C32_freivalds_exact_partial cat (drawing v) ta tb alpha h hk hn
  rw [result, e] at hv
  exact h3.1 (Option.some.inj hv)

/-- a `1 × 1` matrix `C` equal to zero, followed by a stale value on the heap -/
def staleC : Mem ℚ := ⟨fun a => if a = 0 then 0 else 7, fun a => decide (a < 1), 1⟩

/-- C32 fails when `k = 0` and `A` is transposed: the correct product (zero) is rejected, because `fgemv` returns without writing
`x`, whose contents come from the allocator. -/
theorem C32_freivalds_violated : ¬ ∀ (m : Mem ℚ) (rnd : ℕ → ℚ) (ta tb : Tr) (M n k A lda B ldb C ldc : ℕ) (alpha : ℚ),
    FCall m ta tb M n k A lda B ldb C ldc →
    (∀ i < M, ∀ j < n, m.mat ⟨C, ldc, M, n⟩ i j = prodEntry m ta tb M n k alpha A lda B ldb i j) →
    result (freivalds .modular rnd ta tb M n k alpha A lda B ldb C ldc) m = some true := by
  intro h
  have := h staleC (fun _ => 1) .yes .no 1 1 0 0 1 0 1 0 1 1
    ⟨fun a ha => by simp [staleC] at *; omega, fun a ha => by obtain ⟨i, hi, _⟩ := ha; exact absurd hi (Nat.not_lt_zero _),
      fun a ha => by obtain ⟨i, hi, _⟩ := ha; exact absurd hi (Nat.not_lt_zero _),
      fun a ha => by
        obtain ⟨i, hi, j, hj, rfl⟩ := ha
        simp only [Win.adr, staleC, decide_eq_true_eq] at *
        omega, by decide, by decide, by decide⟩
    (fun i hi j hj => by
      obtain rfl : i = 0 := by omega
      obtain rfl : j = 0 := by omega
      simp [Mem.mat, Win.adr, staleC, prodEntry, Spec.mul])
  exact absurd this (by decide +kernel)

/-! ### C33 -/

/-- In every memory that extends `m0` and agrees with it, `p` returns `x`, leaves `Z` in the window `W` and changes nothing else.
(The program may be wrong; it is only required not to look at the scratch vectors of the checker.) -/
def Yields {α : Type} (p : Prog K α) (m0 : Mem K) (W : Win) (x : α) (Z : ℕ → ℕ → K) : Prop :=
  ∀ m, WF m → m0.next ≤ m.next → (∀ a, m0.ok a = true → m.ok a = true ∧ m.val a = m0.val a) →
    Run p m (fun y m' => y = x ∧ Step m m' W Z)

omit [Field K] [DecidableEq K] in
lemma Yields.writes {α : Type} {p : Prog K α} {m0 : Mem K} {W : Win} {x : α} {Z : ℕ → ℕ → K} (h : Yields p m0 W x Z) :
    Writes p m0 W (fun y Y => y = x ∧ Y = Z) := fun m h1 h2 h3 => (h m h1 h2 h3).mono (fun _ _ ⟨e, s⟩ => ⟨Z, ⟨e, rfl⟩, s⟩)

omit [Field K] [DecidableEq K] in
lemma mat_ext {m0 m : Mem K} {W : Win} (hW : OkIn m0 W) (h : ∀ a, m0.ok a = true → m.ok a = true ∧ m.val a = m0.val a) {i j : ℕ}
    (hi : i < W.r) (hj : j < W.c) : m.mat W i j = m0.mat W i j := (h _ (hW.adr hi hj)).2

omit [Field K] [DecidableEq K] in
lemma okin_ext {m0 m : Mem K} {W : Win} (hW : OkIn m0 W) (h : ∀ a, m0.ok a = true → m.ok a = true ∧ m.val a = m0.val a) : OkIn m W :=
  fun a ha => (h a (hW a ha)).1

/-- what `fgemm` must leave in `C` -/
def gemmEntry (m : Mem K) (ta tb : Tr) (M n k : ℕ) (alpha : K) (A lda B ldb : ℕ) (beta : K) (C ldc : ℕ) (i j : ℕ) : K :=
  prodEntry m ta tb M n k alpha A lda B ldb i j + beta * m.mat ⟨C, ldc, M, n⟩ i j

/-- C33: a correct product passes the check whatever the random vector, in all dimensions, zero included; the public `fgemm` then
has its usual effect and leaves no block allocated. -/
theorem C33_fgemm_complete (cat : Cat) (rnd : ℕ → K) {g : GemmFn K} (hg : GemmOk g) (ta tb : Tr) (alpha beta : K)
    (h : GPre m ta tb M n k A lda B ldb C ldc) :
    Run (fgemmChecked cat rnd g ta tb M n k alpha A lda B ldb beta C ldc) m (fun b m' => b = true ∧
      Step m m' ⟨C, ldc, M, n⟩ (gemmEntry m ta tb M n k alpha A lda B ldb beta C ldc)) := by
  by_cases h0 : M = 0 ∨ n = 0
  · unfold fgemmChecked
    rw [if_pos h0, Run_pure]
    exact ⟨rfl, Step.refl (fun i hi j hj => by have hi : i < M := hi; have hj : j < n := hj; omega)⟩
  by_cases h1 : k = 0 ∨ alpha = 0
  · unfold fgemmChecked
    rw [if_neg h0, if_pos h1, Run_bind]
    refine (fscalin_spec cat beta h.wf h.okC h.lC).mono (fun _ m' s => ?_)
    rw [Run_pure]
    refine ⟨rfl, s.congr (fun i _ j _ => ?_)⟩
    unfold gemmEntry prodEntry
    rcases h1 with rfl | rfl
    · simp [Spec.mul]
    · rw [zero_mul, zero_add]
  push Not at h0 h1
  have w : Writes (g ta tb M n k alpha A lda B ldb beta C ldc) m ⟨C, ldc, M, n⟩
      (fun _ Z => ∀ i < M, ∀ j < n, Z i j = gemmEntry m ta tb M n k alpha A lda B ldb beta C ldc i j) := by
    intro m' w1 w2 w3
    refine (hg ta tb M n k m' alpha A lda B ldb beta C ldc ⟨w1, okin_ext h.okA w3, okin_ext h.okB w3, okin_ext h.okC w3, h.lA, h.lB, h.lC, h.dA, h.dB⟩).mono
      (fun _ m'' s => ⟨_, fun i hi j hj => ?_, s⟩)
    unfold gval gemmEntry prodEntry
    rw [mat_ext h.okC w3 hi hj]
    congr 2
    refine sum_congr rfl (fun l hl => ?_)
    have hl := mem_range.1 hl
    congr 1
    · cases ta with
      | no => exact mat_ext h.okA w3 hi hl
      | yes => exact mat_ext h.okA w3 hl hi
    · cases tb with
      | no => exact mat_ext h.okB w3 hl hj
      | yes => exact mat_ext h.okB w3 hj hl
  refine (fgemmChecked_spec cat rnd ta tb alpha beta h.wf (Src.of_ok h.okA h.lA) (Src.of_ok h.okB h.lB) (Src.of_ok h.okC h.lC) h.dA h.dB
    h0.1 h0.2 h1.1 h1.2 w).mono ?_
  rintro b m' ⟨Z, hZ, s, hb⟩
  refine ⟨hb.2 (fun i hi => Finset.sum_eq_zero (fun j hj => ?_)), s.congr hZ⟩
  rw [hZ i hi j (mem_range.1 hj)]
  exact mul_eq_zero_of_left (sub_self _) _

/-- C33: whatever the product computed, if it is wrong in one entry the check accepts it for at most `q^(n-1)` of the `q^n` random
vectors. -/
theorem C33_fgemm_sound [Fintype K] (cat : Cat) {g : GemmFn K} (ta tb : Tr) (alpha beta : K)
    (h : GPre m ta tb M n k A lda B ldb C ldc) (hk : k ≠ 0) (ha : alpha ≠ 0) {Z : ℕ → ℕ → K}
    (hg : Yields (g ta tb M n k alpha A lda B ldb beta C ldc) m ⟨C, ldc, M, n⟩ () Z) {i j : ℕ} (hi : i < M) (hj : j < n)
    (hZ : Z i j ≠ gemmEntry m ta tb M n k alpha A lda B ldb beta C ldc i j) :
    (Finset.univ.filter fun v : Fin n → K =>
      result (fgemmChecked cat (drawing v) g ta tb M n k alpha A lda B ldb beta C ldc) m = some true).card ≤ Fintype.card K ^ (n - 1) := by
  refine card_kernel_le (M := M) (fun i j => gemmEntry m ta tb M n k alpha A lda B ldb beta C ldc i j - Z i j) hi hj
    (sub_ne_zero.2 (Ne.symm hZ)) _ (fun v hv => ?_)
  have w : Writes (g ta tb M n k alpha A lda B ldb beta C ldc) m ⟨C, ldc, M, n⟩ (fun _ Y => Y = Z) :=
    fun m' h1 h2 h3 => (hg m' h1 h2 h3).mono (fun _ _ ⟨_, s⟩ => ⟨Z, rfl, s⟩)
  obtain ⟨b, m', e, Y, rfl, -, hb⟩ := fgemmChecked_spec cat (drawing v) ta tb alpha beta h.wf (Src.of_ok h.okA h.lA) (Src.of_ok h.okB h.lB)
    (Src.of_ok h.okC h.lC) h.dA h.dB (by omega) (by omega) hk ha w
  rw [result, e] at hv
  exact hb.1 (Option.some.inj hv)

/-! ### C34 -/

/-- C34, `ftrsm`: a correct solution passes the check whatever the random vector. -/
theorem C34_ftrsm_complete (cat : Cat) (rnd : ℕ → K) {tm ts : TrFn K} (ht : TrmmOk tm) (hs : TrsmOk ts) (side : Side) (u : Uplo) (ta : Tr)
    (d : Diag) (alpha : K) (hA : Rect m (Spec.sideDim side M n) (Spec.sideDim side M n) A lda) (hB : Rect m M n B ldb)
    (hd : (Win.mk A lda (Spec.sideDim side M n) (Spec.sideDim side M n)).Disj ⟨B, ldb, M, n⟩)
    (hr : Regular m d (Spec.sideDim side M n) A lda) :
    Run (ftrsmChecked cat rnd tm ts side u ta d M n alpha A lda B ldb) m (fun b m' => b = true ∧ ∃ Z, Step m m' ⟨B, ldb, M, n⟩ Z ∧
      ∀ i < M, ∀ j < n, Spec.sideMul side (Spec.sideDim side M n) (triOp m u ta d (Spec.sideDim side M n) A lda) Z i j =
        alpha * m.mat ⟨B, ldb, M, n⟩ i j) := by
  have w : Writes (ts side u ta d M n alpha A lda B ldb) m ⟨B, ldb, M, n⟩ (fun _ Z => ∀ i < M, ∀ j < n,
      Spec.sideMul side (Spec.sideDim side M n) (triOp m u ta d (Spec.sideDim side M n) A lda) Z i j = alpha * m.mat ⟨B, ldb, M, n⟩ i j) := by
    intro m' w1 w2 w3
    have sA : Src m' ⟨A, lda, Spec.sideDim side M n, Spec.sideDim side M n⟩ (m'.mat _) := Src.of_ok (okin_ext hA.ok w3) hA.ld
    refine (hs m' side u ta d M n alpha A lda B ldb (sA.tri w1 (okin_ext hB.ok w3) hB.ld rfl hd) ?_).mono ?_
    · intro hu i hi
      have e : opAdr ta A lda i i = (Win.mk A lda (Spec.sideDim side M n) (Spec.sideDim side M n)).adr i i := by cases ta <;> rfl
      rw [e]
      have := mat_ext hA.ok w3 (i := i) (j := i) hi hi
      exact fun hc => hr hu i hi (this.symm.trans hc)
    · rintro - m'' ⟨Z, s, hZ⟩
      refine ⟨Z, fun i hi j hj => ?_, s⟩
      rw [← mat_ext hB.ok w3 hi hj, ← hZ i hi j hj]
      refine sideMul_congr (r := M) (c := n) rfl hi hj (fun i hi j hj => ?_) (fun _ _ _ _ => rfl)
      exact (op_tri_congr ta (fun i hi j hj => mat_ext hA.ok w3 hi hj) hi hj).symm
  refine (ftrsmChecked_spec cat rnd ht side u ta d alpha hA.wf (Src.of_ok hA.ok hA.ld) (Src.of_ok hB.ok hB.ld) hd w).mono ?_
  rintro b m' ⟨Z, hZ, s, hb⟩
  refine ⟨hb.2 (fun i hi => Finset.sum_eq_zero (fun j hj => ?_)), Z, s, hZ⟩
  refine mul_eq_zero_of_left (sub_eq_zero.2 ?_) _
  exact hZ i hi j (mem_range.1 hj)

/-- C34, `ftrsm`: a wrong solution is accepted for at most `q^(n-1)` of the `q^n` random vectors. -/
theorem C34_ftrsm_sound [Fintype K] (cat : Cat) {tm ts : TrFn K} (ht : TrmmOk tm) (side : Side) (u : Uplo) (ta : Tr)
    (d : Diag) (alpha : K) (hA : Rect m (Spec.sideDim side M n) (Spec.sideDim side M n) A lda) (hB : Rect m M n B ldb)
    (hd : (Win.mk A lda (Spec.sideDim side M n) (Spec.sideDim side M n)).Disj ⟨B, ldb, M, n⟩) {Z : ℕ → ℕ → K}
    (hs : Yields (ts side u ta d M n alpha A lda B ldb) m ⟨B, ldb, M, n⟩ () Z) {i j : ℕ} (hi : i < M) (hj : j < n)
    (hZ : Spec.sideMul side (Spec.sideDim side M n) (triOp m u ta d (Spec.sideDim side M n) A lda) Z i j ≠ alpha * m.mat ⟨B, ldb, M, n⟩ i j) :
    (Finset.univ.filter fun v : Fin n → K =>
      result (ftrsmChecked cat (drawing v) tm ts side u ta d M n alpha A lda B ldb) m = some true).card ≤ Fintype.card K ^ (n - 1) := by
  refine card_kernel_le (M := M) (fun i j => Spec.sideMul side (Spec.sideDim side M n) (triOp m u ta d (Spec.sideDim side M n) A lda) Z i j -
    alpha * m.mat ⟨B, ldb, M, n⟩ i j) hi hj (sub_ne_zero.2 hZ) _ (fun v hv => ?_)
  have w : Writes (ts side u ta d M n alpha A lda B ldb) m ⟨B, ldb, M, n⟩ (fun _ Y => Y = Z) :=
    fun m' h1 h2 h3 => (hs m' h1 h2 h3).mono (fun _ _ ⟨_, s⟩ => ⟨Z, rfl, s⟩)
  obtain ⟨b, m', e, Y, rfl, -, hb⟩ := ftrsmChecked_spec cat (drawing v) ht side u ta d alpha hA.wf (Src.of_ok hA.ok hA.ld) (Src.of_ok hB.ok hB.ld) hd w
  rw [result, e] at hv
  exact hb.1 (Option.some.inj hv)

/-- the arrays and factors describe `X` at `(i, j)` -/
def RebuildsAt (d : Diag) (M N r : ℕ) (X V : ℕ → ℕ → K) (P Q : ℕ → ℕ) (i j : ℕ) : Prop :=
  applySwaps Q (applySwaps P X M i) N j = ∑ k ∈ range r, luL d V i k * luU d V k j

omit [DecidableEq K] in
lemma rebuildsAt_iff {d : Diag} {N r : ℕ} {X V : ℕ → ℕ → K} {P Q : ℕ → ℕ} {i j : ℕ} :
    RebuildsAt d M N r X V P Q i j ↔ X (ofSwaps P M i) (ofSwaps Q N j) - pluqMat d M N r P Q V (ofSwaps P M i) (ofSwaps Q N j) = 0 := by
  unfold RebuildsAt pluqMat
  rw [applySwaps_eq, applySwaps_eq, sub_eq_zero]
  simp only [Function.comp, show ∀ x, (ofSwaps P M)⁻¹ (ofSwaps P M x) = x from (ofSwaps P M).symm_apply_apply,
    show ∀ x, (ofSwaps Q N)⁻¹ (ofSwaps Q N x) = x from (ofSwaps Q N).symm_apply_apply]

/-- C34, `PLUQ`: the decomposition computed by `PLUQ` passes the check whatever the random vector. -/
theorem C34_pluq_complete (cat : Cat) (rnd : ℕ → K) {g : GemmFn K} (hg : GemmOk g) {tm ts : TrFn K} (ht : TrmmOk tm) (hs : TrsmOk ts) (thr : ℕ)
    (jk : List ℕ → ℕ → ℕ) (d : Diag) {P Q : Arr ℕ} (h : Rect m M n A lda) (hP : P.len = M) (hQ : Q.len = n) :
    Run (pluqChecked cat rnd g tm (pluq cat g ts thr jk d M n A lda P Q) d M n A lda) m (fun x m' => x.1 = true ∧
      x.2.2.1.len = M ∧ x.2.2.2.len = n ∧ ∃ V, Step m m' ⟨A, lda, M, n⟩ V ∧ Decomposes d M n (m.mat ⟨A, lda, M, n⟩) V x.2.2.1.get x.2.2.2.get x.2.1) := by
  have w : Writes (pluq cat g ts thr jk d M n A lda P Q) m ⟨A, lda, M, n⟩ (fun x Z => x.2.1.len = M ∧ x.2.2.len = n ∧
      Decomposes d M n (m.mat ⟨A, lda, M, n⟩) Z x.2.1.get x.2.2.get x.1) := by
    intro m' w1 w2 w3
    refine (C19_pluq cat hg hs thr jk d ⟨w1, okin_ext h.ok w3, h.ld⟩ hP hQ).mono ?_
    rintro x m'' ⟨h1, h2, V, s, D⟩
    refine ⟨V, ⟨h1, h2, D.rM, D.rN, D.tP, D.tQ, D.piv, D.zero, fun i hi j hj => ?_⟩, s⟩
    rw [← D.fac i hi j hj, applySwaps_eq, applySwaps_eq, applySwaps_eq, applySwaps_eq]
    exact (mat_ext h.ok w3 ((Perm.ofSwaps_lt (fun i hi => (D.tP i hi).2) M le_rfl i).1 hi)
      ((Perm.ofSwaps_lt (fun i hi => (D.tQ i hi).2) n le_rfl j).1 hj)).symm
  refine (pluqChecked_spec cat rnd hg ht d h.wf (Src.of_ok h.ok h.ld) w (fun x Z hx => ?_)).mono ?_
  · obtain ⟨h1, h2, D⟩ := hx
    exact ⟨D.rM, D.rN, h1, fun i hi => (D.tP i hi).2, h2, fun i hi => (D.tQ i hi).2⟩
  · rintro x m' ⟨Z, ⟨h1, h2, D⟩, s, hb⟩
    refine ⟨hb.2 (fun i hi => Finset.sum_eq_zero (fun j hj => mul_eq_zero_of_left ?_ _)), h1, h2, Z, s, D⟩
    have hj := mem_range.1 hj
    have hp : ∀ i < M, x.2.2.1.get i < M := fun i hi => (D.tP i hi).2
    have hq : ∀ i < n, x.2.2.2.get i < n := fun i hi => (D.tQ i hi).2
    obtain ⟨i', hi', rfl⟩ : ∃ i', i' < M ∧ ofSwaps x.2.2.1.get M i' = i := by
      refine ⟨(ofSwaps x.2.2.1.get M).symm i, ?_, (ofSwaps x.2.2.1.get M).apply_symm_apply i⟩
      refine (Perm.ofSwaps_lt hp M le_rfl _).2 ?_
      rwa [Equiv.apply_symm_apply]
    obtain ⟨j', hj', rfl⟩ : ∃ j', j' < n ∧ ofSwaps x.2.2.2.get n j' = j := by
      refine ⟨(ofSwaps x.2.2.2.get n).symm j, ?_, (ofSwaps x.2.2.2.get n).apply_symm_apply j⟩
      refine (Perm.ofSwaps_lt hq n le_rfl _).2 ?_
      rwa [Equiv.apply_symm_apply]
    exact rebuildsAt_iff.1 (D.fac i' hi' j' hj')

/-- C34, `PLUQ`: whatever the rank `r ≤ min(M, n)`, transposition arrays and factors produced, if they do not describe the input in one
entry the check accepts them for at most `q^(n-1)` of the `q^n` random vectors. -/
theorem C34_pluq_sound [Fintype K] (cat : Cat) {g : GemmFn K} (hg : GemmOk g) {tm : TrFn K} (ht : TrmmOk tm) (d : Diag)
    {body : Prog K (ℕ × Arr ℕ × Arr ℕ)} {r : ℕ} {P Q : Arr ℕ} {Z : ℕ → ℕ → K} (h : Rect m M n A lda)
    (hb : Yields body m ⟨A, lda, M, n⟩ (r, P, Q) Z) (hrM : r ≤ M) (hrn : r ≤ n) (hP : P.len = M) (hp : ∀ i < M, P.get i < M) (hQ : Q.len = n)
    (hq : ∀ i < n, Q.get i < n) {i j : ℕ} (hi : i < M) (hj : j < n) (hZ : ¬ RebuildsAt d M n r (m.mat ⟨A, lda, M, n⟩) Z P.get Q.get i j) :
    (Finset.univ.filter fun v : Fin n → K =>
      (result (pluqChecked cat (drawing v) g tm body d M n A lda) m).map Prod.fst = some true).card ≤ Fintype.card K ^ (n - 1) := by
  rw [rebuildsAt_iff] at hZ
  refine card_kernel_le (M := M) (fun i j => m.mat ⟨A, lda, M, n⟩ i j - pluqMat d M n r P.get Q.get Z i j)
    ((Perm.ofSwaps_lt hp M le_rfl i).1 hi) ((Perm.ofSwaps_lt hq n le_rfl j).1 hj) hZ _ (fun v hv => ?_)
  obtain ⟨x, m', e, Y, ⟨e1, rfl⟩, -, hx⟩ := pluqChecked_spec cat (drawing v) hg ht d h.wf (Src.of_ok h.ok h.ld) hb.writes
    (fun x Z hx => by obtain ⟨rfl, rfl⟩ := hx; exact ⟨hrM, hrn, hP, hp, hQ, hq⟩)
  rw [e1] at hx
  rw [result, e] at hv
  exact hx.1 (Option.some.inj hv)

/-- C34, `Invert`: if what stands between the two halves of the check leaves the inverse of a matrix, or reports a non-zero nullity, the
check passes whatever the random vector. -/
theorem C34_invert_complete (cat : Cat) (rnd : ℕ → K) {body : Prog K ℕ} {nul : ℕ} {Z : ℕ → ℕ → K} (h : Rect m M M A lda)
    (hb : Yields body m ⟨A, lda, M, M⟩ nul Z) (hZ : nul = 0 → IsInv M (m.mat ⟨A, lda, M, M⟩) Z) :
    Run (invertChecked cat rnd body M A lda) m (fun x m' => x.1 = true ∧ Step m m' ⟨A, lda, M, M⟩ (if M = 0 then m.mat ⟨A, lda, M, M⟩ else Z)) := by
  by_cases hM : M = 0
  · unfold invertChecked
    rw [Run_bind]
    refine (checkInit_spec cat rnd 1 h.wf (Src.of_ok h.ok h.ld) ⟨A, lda, M, M⟩).mono ?_
    rintro ⟨v, w⟩ m1 ⟨h1, -, -, keep⟩
    simp only [] at h1 ⊢
    rw [if_pos hM, Run_bind]
    refine (checkDone_spec h1).mono ?_
    rintro - m2 ⟨o, nx, vv, f⟩
    rw [Run_pure]
    exact ⟨rfl, o, nx, fun i hi => by have : i < M := hi; omega, f⟩
  · rw [if_neg hM]
    refine (invertChecked_spec cat rnd h.wf (Src.of_ok h.ok h.ld) hM hb.writes).mono ?_
    rintro ⟨b, x⟩ m' ⟨Y, ⟨rfl, rfl⟩, s, hx⟩
    refine ⟨hx.2 ?_, s⟩
    by_cases h0 : x = 0
    · right
      intro i hi
      refine Finset.sum_eq_zero (fun j hj => mul_eq_zero_of_left (sub_eq_zero.2 ?_) _)
      exact (hZ h0).1 i hi j (mem_range.1 hj)
    · exact Or.inl h0

/-- C34, `Invert`: if the nullity 0 is reported and the matrix left is not the inverse, the check accepts it for at most `q^(M-1)` of the
`q^M` random vectors. -/
theorem C34_invert_sound [Fintype K] (cat : Cat) {body : Prog K ℕ} {Z : ℕ → ℕ → K} (h : Rect m M M A lda)
    (hb : Yields body m ⟨A, lda, M, M⟩ 0 Z) (hZ : ¬ IsInv M (m.mat ⟨A, lda, M, M⟩) Z) :
    (Finset.univ.filter fun v : Fin M → K =>
      (result (invertChecked cat (drawing v) body M A lda) m).map Prod.fst = some true).card ≤ Fintype.card K ^ (M - 1) := by
  have : ∃ i < M, ∃ j < M, Spec.mul M Z (m.mat ⟨A, lda, M, M⟩) i j ≠ one i j := by
    by_contra hc
    push Not at hc
    exact hZ (IsInv.of_left hc)
  obtain ⟨i, hi, j, hj, hne⟩ := this
  refine card_kernel_le (M := M) (fun i j => Spec.mul M Z (m.mat ⟨A, lda, M, M⟩) i j - if i = j then 1 else 0) hi hj (sub_ne_zero.2 hne) _ (fun v hv => ?_)
  obtain ⟨x, m', e, Y, ⟨e1, rfl⟩, -, hx⟩ := invertChecked_spec cat (drawing v) h.wf (Src.of_ok h.ok h.ld) (by omega) hb.writes
  rw [e1] at hx
  rw [result, e] at hv
  exact (hx.1 (Option.some.inj hv)).resolve_left (fun hc => hc rfl)

/-! ### Concrete cases -/

section Examples

local instance : Fact (Nat.Prime 5) := ⟨by decide⟩

omit [Field K] [DecidableEq K] in
/-- a program that forgets to compute anything -/
lemma yields_pure {α : Type} (x : α) {W : Win} (hW : OkIn m W) : Yields (pure x) m W x (m.mat W) := by
  intro m' _ _ h3
  rw [Run_pure]
  exact ⟨rfl, Step.refl (fun i hi j hj => mat_ext hW h3 hi hj)⟩

/-- `A = (1 2; 3 4)` at 0, `B = (0 1; 1 0)` at 4, `C = (1 1; 1 1)` at 8 with a gap between the rows, over the integers modulo 5 -/
def ckx : Mem (ZMod 5) := memOf [1, 2, 3, 4, 0, 1, 1, 0, 1, 1, 9, 1, 1]

lemma ckx_gpre : GPre ckx .no .yes 2 2 2 0 2 4 2 8 3 where
  wf := WF_memOf _
  okA := OkIn_memOf (by decide)
  okB := OkIn_memOf (by decide)
  okC := OkIn_memOf (by decide)
  lA := by decide
  lB := by decide
  lC := by decide
  dA := Win.Ends.disj (V := ⟨8, 3, 2, 2⟩) (by decide)
  dB := Win.Ends.disj (V := ⟨8, 3, 2, 2⟩) (by decide)

lemma ckx_rectA : Rect ckx 2 2 0 2 := ⟨WF_memOf _, OkIn_memOf (by decide), by decide⟩
lemma ckx_rectC : Rect ckx 2 2 8 3 := ⟨WF_memOf _, OkIn_memOf (by decide), by decide⟩

/-- hypotheses of `C32_freivalds_exact_partial`; the matrix `C` is wrong and the vector `(1, 2)` shows it -/
example : FCall ckx .no .yes 2 2 2 0 2 4 2 8 3 := ⟨ckx_gpre.wf, ckx_gpre.okA, ckx_gpre.okB, ckx_gpre.okC, ckx_gpre.lA, ckx_gpre.lB, ckx_gpre.lC⟩
example : result (freivalds .modular (fun j => (j : ZMod 5) + 1) .no .yes 2 2 2 2 0 2 4 2 8 3) ckx = some false := by decide +kernel
example : (Finset.univ.filter fun v : Fin 2 → ZMod 5 =>
    result (freivalds .modular (drawing v) .no .yes 2 2 2 2 0 2 4 2 8 3) ckx = some true).card ≤ 5 ^ (2 - 1) :=
  C32_freivalds_sound_partial .modular .no .yes 2 ⟨ckx_gpre.wf, ckx_gpre.okA, ckx_gpre.okB, ckx_gpre.okC, ckx_gpre.lA, ckx_gpre.lB, ckx_gpre.lC⟩
    (Or.inl (by decide)) (Or.inl (by decide)) (i := 0) (j := 0) (by decide) (by decide) (by decide +kernel)

/-- `2 A Bᵀ + 3 C`: the product is accepted, and the entry `(0, 0)` is `2·2 + 3 = 2` -/
example : result (fgemmChecked .modular (fun j => (j : ZMod 5) + 1) (gemmClassic .modular) .no .yes 2 2 2 2 0 2 4 2 3 8 3) ckx = some true ∧
    after (fgemmChecked .modular (fun j => (j : ZMod 5) + 1) (gemmClassic .modular) .no .yes 2 2 2 2 0 2 4 2 3 8 3) ckx 8 = some 2 := by
  decide +kernel

/-- a product that is not computed at all is accepted by at most 5 of the 25 vectors, and rejected by `(1, 2)` -/
example : (Finset.univ.filter fun v : Fin 2 → ZMod 5 =>
    result (fgemmChecked .modular (drawing v) (fun _ _ _ _ _ _ _ _ _ _ _ _ _ => pure ()) .no .yes 2 2 2 2 0 2 4 2 3 8 3) ckx = some true).card
      ≤ 5 ^ (2 - 1) :=
  C33_fgemm_sound .modular .no .yes 2 3 ckx_gpre (by decide) (by decide) (yields_pure () ckx_gpre.okC) (i := 0) (j := 0) (by decide) (by decide)
    (by decide +kernel)
example : result (fgemmChecked .modular (fun j => (j : ZMod 5) + 1) (fun _ _ _ _ _ _ _ _ _ _ _ _ _ => pure ()) .no .yes 2 2 2 2 0 2 4 2 3 8 3) ckx
    = some false := by decide +kernel

/-- hypotheses of `C34_ftrsm_complete` and `C34_ftrsm_sound` -/
example : Regular ckx .nonUnit 2 0 2 := fun _ i hi => by
  have : i = 0 ∨ i = 1 := by omega
  rcases this with rfl | rfl <;> decide
example : result (ftrsmChecked .modular (fun j => (j : ZMod 5) + 1) (ftrmm .modular (gemmClassic .modular)) (ftrsm .modular (gemmClassic .modular))
    .left .lower .no .nonUnit 2 2 2 0 2 8 3) ckx = some true := by decide +kernel
example : (Finset.univ.filter fun v : Fin 2 → ZMod 5 =>
    result (ftrsmChecked .modular (drawing v) (ftrmm .modular (gemmClassic .modular)) (fun _ _ _ _ _ _ _ _ _ _ _ => pure ())
      .left .lower .no .nonUnit 2 2 2 0 2 8 3) ckx = some true).card ≤ 5 ^ (2 - 1) :=
  C34_ftrsm_sound .modular (ftrmm_TrmmOk .modular (gemmClassic_ok .modular)) .left .lower .no .nonUnit 2 ckx_rectA ckx_rectC
    (Win.Ends.disj (V := ⟨8, 3, 2, 2⟩) (by decide)) (yields_pure () ckx_rectC.ok) (i := 0) (j := 0) (by decide) (by decide) (by decide +kernel)

/-- the decomposition of `A` is accepted; the claim that `A` is its own decomposition is not -/
example : (result (pluqChecked .modular (fun j => (j : ZMod 5) + 1) (gemmClassic .modular) (ftrmm .modular (gemmClassic .modular))
    (pluq .modular (gemmClassic .modular) (ftrsm .modular (gemmClassic .modular)) 1 (fun _ i => i) .nonUnit 2 2 0 2 (.ofList [0, 0]) (.ofList [0, 0]))
    .nonUnit 2 2 0 2) ckx).map Prod.fst = some true := by decide +kernel
example : (Finset.univ.filter fun v : Fin 2 → ZMod 5 =>
    (result (pluqChecked .modular (drawing v) (gemmClassic .modular) (ftrmm .modular (gemmClassic .modular))
      (pure (2, .ofList [0, 1], .ofList [0, 1])) .nonUnit 2 2 0 2) ckx).map Prod.fst = some true).card ≤ 5 ^ (2 - 1) :=
  C34_pluq_sound .modular (gemmClassic_ok .modular) (ftrmm_TrmmOk .modular (gemmClassic_ok .modular)) .nonUnit ckx_rectA
    (yields_pure _ ckx_rectA.ok) (by decide) (by decide) rfl (by decide) rfl (by decide) (i := 1) (j := 1) (by decide) (by decide) (by
      unfold RebuildsAt; decide +kernel)

/-- a matrix presented as its own inverse is accepted by at most 5 of the 25 vectors -/
example : (Finset.univ.filter fun v : Fin 2 → ZMod 5 =>
    (result (invertChecked .modular (drawing v) (pure 0) 2 0 2) ckx).map Prod.fst = some true).card ≤ 5 ^ (2 - 1) :=
  C34_invert_sound .modular ckx_rectA (yields_pure _ ckx_rectA.ok) (fun h => absurd (h.1 0 (by decide) 0 (by decide)) (by decide +kernel))

/-- `B = (0 1; 1 0)` is its own inverse: accepted -/
example (rnd : ℕ → ZMod 5) : Run (invertChecked .modular rnd (pure 0) 2 4 2) ckx (fun x _ => x.1 = true) :=
  (C34_invert_complete .modular rnd ⟨WF_memOf _, OkIn_memOf (by decide), by decide⟩ (yields_pure 0 (OkIn_memOf (by decide))) (fun _ =>
    IsInv.of_left (by decide +kernel))).mono (fun _ _ h => h.1)

end Examples

end Verif.Props
