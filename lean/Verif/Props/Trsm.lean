import Verif.Proofs.Trsm
import Verif.Proofs.Trmm
import Verif.Proofs.TrmmO
import Verif.Props.Bounds
import Verif.Core.HeapEx
import Mathlib.Data.Rat.Defs
import Mathlib.Algebra.Field.Rat

/-!
# Properties C11–C14: triangular systems and triangular products

`TriCall` lists the calling conditions of the sixteen variants: only the stored triangle of `A` (without the diagonal if it
is a unit diagonal) has to be allocated and to lie outside the matrix written.
-/

namespace Verif.Props

open Verif.FF Finset

variable {K : Type} [Field K] [DecidableEq K] {m : Mem K} {u : Uplo} {ta : Tr} {d : Diag} {side : Side} {g : GemmFn K}
  {M N A lda B ldb C ldc : ℕ}

/-- calling conditions; `n` is the order of the triangular matrix and `W` the window written -/
structure TriCall (m : Mem K) (u : Uplo) (d : Diag) (n A lda : ℕ) (W : Win) : Prop where
  wf : WF m
  okW : OkIn m W
  lW : W.c ≤ W.ld
  lA : n ≤ lda
  okA : ∀ i < n, ∀ j < n, Spec.inTri u d i j → m.ok (A + i * lda + j) = true
  dA : ∀ i < n, ∀ j < n, Spec.inTri u d i j → ¬ W.Has (A + i * lda + j)

/-- the diagonal is invertible, or is not read -/
def Regular (m : Mem K) (d : Diag) (n A lda : ℕ) : Prop := d = .nonUnit → ∀ i < n, m.mat ⟨A, lda, n, n⟩ i i ≠ 0

/-- the triangular matrix `op(A)` of order `n` stored at `A` -/
def triOp (m : Mem K) (u : Uplo) (ta : Tr) (d : Diag) (n A lda : ℕ) : ℕ → ℕ → K :=
  Spec.op ta (Spec.tri u d (m.mat ⟨A, lda, n, n⟩))

omit [Field K] [DecidableEq K] in
lemma inTri_of {i j : ℕ} (h : inT (effUplo u ta) d i j) :
    (match ta with | .no => Spec.inTri u d i j | .yes => Spec.inTri u d j i) := by
  rcases h with h | ⟨rfl, h⟩
  · cases ta <;> cases u <;> exact Or.inl h
  · cases ta <;> exact Or.inr ⟨rfl, h⟩

omit [DecidableEq K] in
lemma TriCall.pre {n : ℕ} {W : Win} (h : TriCall m u d n A lda W) (ta : Tr) : TrPre m (effUplo u ta) d ta n A lda W where
  wf := h.wf
  okW := h.okW
  lW := h.lW
  lA := h.lA
  okA := fun i hi j hj hh => by
    have := inTri_of hh
    cases ta with
    | no => exact h.okA i hi j hj this
    | yes => exact h.okA j hj i hi this
  dA := fun i hi j hj hh => by
    have := inTri_of hh
    cases ta with
    | no => exact h.dA i hi j hj this
    | yes => exact h.dA j hj i hi this

omit [DecidableEq K] in
lemma Regular.nz {n : ℕ} (h : Regular m d n A lda) (ta : Tr) : DiagNZ m d ta n A lda := fun hd i hi => by
  have := h hd i hi
  cases ta <;> exact this

/-- a triangular system has at most one solution -/
lemma tri_unique {n : ℕ} {T : ℕ → ℕ → K} (r : ℕ → ℕ) (hT : ∀ i < n, ∀ l < n, i ≠ l → T i l ≠ 0 → r l < r i)
    (hd : ∀ i < n, T i i ≠ 0) {x : ℕ → K} (h : ∀ i < n, ∑ l ∈ range n, T i l * x l = 0) : ∀ i < n, x i = 0 := by
  have key : ∀ k, ∀ i < n, r i < k → x i = 0 := by
    intro k
    induction k with
    | zero => intro i _ h; omega
    | succ k ih =>
      intro i hi hr
      have := h i hi
      rw [sum_eq_single i] at this
      · exact (mul_eq_zero.1 this).resolve_left (hd i hi)
      · intro l hl hne
        have hl := mem_range.1 hl
        by_cases hz : T i l = 0
        · rw [hz, zero_mul]
        · rw [ih l hl (by have := hT i hi l hl (Ne.symm hne) hz; omega), mul_zero]
      · intro hh; exact absurd (mem_range.2 hi) hh
  exact fun i hi => key _ i hi (Nat.lt_succ_self _)

lemma tm_shape {e : Uplo} {i l : ℕ} (h : tm m e d ta A lda i l ≠ 0) (hne : i ≠ l) : below e i l := by
  by_contra hb
  unfold tm at h
  rw [if_neg hne, if_neg hb] at h
  exact h rfl

omit [DecidableEq K] in
lemma tm_dnz {n : ℕ} {e : Uplo} (h : Regular m d n A lda) {i : ℕ} (hi : i < n) : tm m e d ta A lda i i ≠ 0 := by
  unfold tm
  rw [if_pos rfl]
  cases d with
  | unit => exact one_ne_zero
  | nonUnit => exact h.nz ta rfl i hi

/-- Specification of `ftrsm`: `B` is replaced by the unique solution `X` of `op(A) X = alpha B` (or `X op(A) = alpha B`),
nothing else changes. -/
def Solves (side : Side) (m m' : Mem K) (u : Uplo) (ta : Tr) (d : Diag) (M N : ℕ) (alpha : K) (A lda B ldb : ℕ) : Prop :=
  ∃ X, Step m m' ⟨B, ldb, M, N⟩ X ∧
    (∀ i < M, ∀ j < N, Spec.sideMul side (Spec.sideDim side M N) (triOp m u ta d (Spec.sideDim side M N) A lda) X i j =
      alpha * m.mat ⟨B, ldb, M, N⟩ i j) ∧
    ∀ Y : ℕ → ℕ → K, (∀ i < M, ∀ j < N,
      Spec.sideMul side (Spec.sideDim side M N) (triOp m u ta d (Spec.sideDim side M N) A lda) Y i j =
        alpha * m.mat ⟨B, ldb, M, N⟩ i j) → ∀ i < M, ∀ j < N, Y i j = X i j

lemma SolEff.solves {m' : Mem K} {alpha : K} (hr : Regular m d (Spec.sideDim side M N) A lda)
    (h : SolEff side m m' u ta d M N alpha A lda B ldb) : Solves side m m' u ta d M N alpha A lda B ldb := by
  obtain ⟨X, s, hX⟩ := h
  refine ⟨X, s, hX, fun Y hY => ?_⟩
  cases side with
  | left =>
    intro i hi j hj
    refine sub_eq_zero.1 (tri_unique (n := M) (T := tm m (effUplo u ta) d ta A lda) (x := fun l => Y l j - X l j)
      (fun l => match effUplo u ta with | .lower => l | .upper => M - l) ?_ (fun i hi => tm_dnz hr hi) ?_ i hi)
    · intro i hi l hl hne h
      have := tm_shape h hne
      cases he : effUplo u ta <;> rw [he] at this <;> simp only [below] at this ⊢ <;> omega
    · intro i hi
      have h1 := hX i hi j hj
      have h2 := hY i hi j hj
      simp only [Spec.sideMul, Spec.sideDim, Spec.mul, triOp, tm_eq] at h1 h2
      simp only [mul_sub, sum_sub_distrib, h1, h2, sub_self]
  | right =>
    intro i hi j hj
    refine sub_eq_zero.1 (tri_unique (n := N) (T := fun a b => tm m (effUplo u ta) d ta A lda b a) (x := fun l => Y i l - X i l)
      (fun l => match effUplo u ta with | .lower => N - l | .upper => l) ?_ (fun i hi => tm_dnz hr hi) ?_ j hj)
    · intro i hi l hl hne h
      have := tm_shape h (Ne.symm hne)
      cases he : effUplo u ta <;> rw [he] at this <;> simp only [below] at this ⊢ <;> omega
    · intro j hj
      have h1 := hX i hi j hj
      have h2 := hY i hi j hj
      simp only [Spec.sideMul, Spec.sideDim, Spec.mul, triOp, tm_eq] at h1 h2
      simp only [mul_comm (tm m (effUplo u ta) d ta A lda _ j), sub_mul, sum_sub_distrib, h1, h2, sub_self]

/-! ### C11 -/

/-- C11, generic fields: the sixteen variants of `ftrsm`, over any correct `fgemm`. -/
theorem C11_ftrsm (cat : Cat) (hg : GemmOk g) (alpha : K) (h : TriCall m u d (Spec.sideDim side M N) A lda ⟨B, ldb, M, N⟩)
    (hr : Regular m d (Spec.sideDim side M N) A lda) :
    Run (ftrsm cat g side u ta d M N alpha A lda B ldb) m (fun _ m' => Solves side m m' u ta d M N alpha A lda B ldb) :=
  (ftrsm_ok cat hg side M N alpha (h.pre ta) (hr.nz ta)).mono (fun _ _ s => SolEff.solves hr s)

/-- C11 with the Winograd product of C10. -/
theorem C11_ftrsm_winograd (cat : Cat) (th : ℕ) (hth : 2 ≤ th) (alpha : K)
    (h : TriCall m u d (Spec.sideDim side M N) A lda ⟨B, ldb, M, N⟩) (hr : Regular m d (Spec.sideDim side M N) A lda) :
    Run (ftrsm cat (gemmAuto cat th) side u ta d M N alpha A lda B ldb) m
      (fun _ m' => Solves side m m' u ta d M N alpha A lda B ldb) :=
  C11_ftrsm cat (gemmAuto_ok cat th hth) alpha h hr

/-- C11, `double` and `float`: for every block size `ndel` the delayed version solves the system, given a correct BLAS
kernel `bt` for unit triangular systems.  (`TRSMBound<Field>(F)` is 1, see `ftrsmDouble`.) -/
theorem C11_ftrsm_double (cat : Cat) (hg : GemmOk g) {bt : ℕ → ℕ → ℕ → ℕ → ℕ → ℕ → Prog K Unit}
    (hbt : BtOk bt side (effUplo u ta) ta) (ndel : ℕ) (hnd : 0 < ndel) (alpha : K)
    (h : TriCall m u d (Spec.sideDim side M N) A lda ⟨B, ldb, M, N⟩) (hr : Regular m d (Spec.sideDim side M N) A lda) :
    Run (ftrsmD cat g bt side u ta d 1 ndel M N alpha A lda B ldb) m
      (fun _ m' => Solves side m m' u ta d M N alpha A lda B ldb) :=
  (ftrsmD_ok cat hg side hbt ndel M N hnd alpha (h.pre ta) (hr.nz ta)).mono (fun _ _ s => SolEff.solves hr s)

/-- A singular diagonal is detected as a fault, never silently accepted (here order 2, last pivot zero). -/
example : faultOf (ftrsm .modular (gemmClassic .modular) .left .upper .no .nonUnit 2 1 1 0 2 4 1)
    (memOf [1, 2, 0, 0, 5, 6] : Mem ℚ) = some .divZero := by decide +kernel

/-! ### C12 -/

/-- Specification of in-place `ftrmm`. -/
def Multiplies (side : Side) (m m' : Mem K) (u : Uplo) (ta : Tr) (d : Diag) (M N : ℕ) (alpha : K) (A lda B ldb : ℕ) : Prop :=
  Step m m' ⟨B, ldb, M, N⟩ (fun i j => alpha * Spec.sideMul side (Spec.sideDim side M N)
    (triOp m u ta d (Spec.sideDim side M N) A lda) (m.mat ⟨B, ldb, M, N⟩) i j)

/-- C12, generic fields. -/
theorem C12_ftrmm (cat : Cat) (hg : GemmOk g) (alpha : K) (h : TriCall m u d (Spec.sideDim side M N) A lda ⟨B, ldb, M, N⟩) :
    Run (ftrmm cat g side u ta d M N alpha A lda B ldb) m (fun _ m' => Multiplies side m m' u ta d M N alpha A lda B ldb) :=
  ftrmm_ok cat hg side M N alpha (h.pre ta)

/-- C12 with the Winograd product of C10. -/
theorem C12_ftrmm_winograd (cat : Cat) (th : ℕ) (hth : 2 ≤ th) (alpha : K)
    (h : TriCall m u d (Spec.sideDim side M N) A lda ⟨B, ldb, M, N⟩) :
    Run (ftrmm cat (gemmAuto cat th) side u ta d M N alpha A lda B ldb) m
      (fun _ m' => Multiplies side m m' u ta d M N alpha A lda B ldb) :=
  C12_ftrmm cat (gemmAuto_ok cat th hth) alpha h

/-- C12, `double` and `float`, every block size. -/
theorem C12_ftrmm_double (cat : Cat) (hg : GemmOk g) {bm : ℕ → ℕ → ℕ → ℕ → Prog K Unit}
    (hbm : BmOk bm side (effUplo u ta) d ta lda ldb) (ns : ℕ) (hns : 0 < ns) (alpha : K)
    (h : TriCall m u d (Spec.sideDim side M N) A lda ⟨B, ldb, M, N⟩) :
    Run (ftrmmD cat g bm side u ta ns M N alpha A lda B ldb) m
      (fun _ m' => Multiplies side m m' u ta d M N alpha A lda B ldb) :=
  ftrmmD_ok cat hg side hbm M N hns alpha (h.pre ta)

/-! ### C13 -/

/-- Specification of out-of-place `ftrmm`: `C ← alpha op(A) B + beta C`. -/
def MultipliesTo (side : Side) (m m' : Mem K) (u : Uplo) (ta : Tr) (d : Diag) (M N : ℕ) (alpha : K) (A lda B ldb : ℕ) (beta : K)
    (C ldc : ℕ) : Prop :=
  Step m m' ⟨C, ldc, M, N⟩ (fun i j => alpha * Spec.sideMul side (Spec.sideDim side M N)
    (triOp m u ta d (Spec.sideDim side M N) A lda) (m.mat ⟨B, ldb, M, N⟩) i j + beta * m.mat ⟨C, ldc, M, N⟩ i j)

/-- the matrix `B` is allocated and does not meet `C` -/
structure InB (m : Mem K) (V W : Win) : Prop where
  ok : OkIn m V
  ld : V.c ≤ V.ld
  dj : V.Disj W

/-- C13 for generic fields.  Three restrictions, each necessary (see the `_violated` theorems): `alpha ≠ 0`; `beta ≠ 0`;
and on the right side, unless the field has delayed reduction (`cat = .modular`), no diagonal entry equal to `-1`. -/
theorem C13_ftrmm_partial (cat : Cat) (hg : GemmOk g) (alpha beta : K) (ha : alpha ≠ 0) (hb : beta ≠ 0)
    (h : TriCall m u d (Spec.sideDim side M N) A lda ⟨C, ldc, M, N⟩) (hB : InB m ⟨B, ldb, M, N⟩ ⟨C, ldc, M, N⟩)
    (hx : cat = .modular ∨ side = .left ∨ d = .unit ∨
      ∀ i < Spec.sideDim side M N, m.mat ⟨A, lda, Spec.sideDim side M N, Spec.sideDim side M N⟩ i i ≠ -1) :
    Run (ftrmmO cat g side u ta d M N alpha A lda B ldb beta C ldc) m
      (fun _ m' => MultipliesTo side m m' u ta d M N alpha A lda B ldb beta C ldc) := by
  have := ftrmmO_ok (cat := cat) (beta := beta) hg side M N alpha ha ⟨h.pre ta, hB.ok, hB.ld, hB.dj⟩ ?_
  · rw [if_neg hb] at this
    exact this
  · rcases hx with hx | hx | hx | hx
    · exact Or.inl hx
    · exact Or.inr (Or.inl hx)
    · exact Or.inr (Or.inr (Or.inl hx))
    · refine Or.inr (Or.inr (Or.inr (fun i hi => ?_)))
      have := hx i hi
      cases ta <;> exact this

/-- What generic fields do for `beta = 0`: the old contents of `C`, times `alpha`, are kept. -/
theorem C13_ftrmm_beta_zero (cat : Cat) (hg : GemmOk g) (alpha : K) (ha : alpha ≠ 0)
    (h : TriCall m u d (Spec.sideDim side M N) A lda ⟨C, ldc, M, N⟩) (hB : InB m ⟨B, ldb, M, N⟩ ⟨C, ldc, M, N⟩)
    (hx : cat = .modular) :
    Run (ftrmmO cat g side u ta d M N alpha A lda B ldb 0 C ldc) m
      (fun _ m' => MultipliesTo side m m' u ta d M N alpha A lda B ldb alpha C ldc) := by
  have := ftrmmO_ok (cat := cat) (beta := 0) hg side M N alpha ha ⟨h.pre ta, hB.ok, hB.ld, hB.dj⟩ (Or.inl hx)
  rw [if_pos rfl] at this
  exact this

/-- C13 for `double` and `float`, every `beta` and block size, `alpha ≠ 0`. -/
theorem C13_ftrmm_double_partial (cat : Cat) (hg : GemmOk g) {bm : ℕ → ℕ → ℕ → ℕ → Prog K Unit}
    (hbm : BmOk bm side (effUplo u ta) d ta lda ldc) (ns : ℕ) (hns : 0 < ns) (alpha beta : K) (ha : alpha ≠ 0)
    (h : TriCall m u d (Spec.sideDim side M N) A lda ⟨C, ldc, M, N⟩) (hB : InB m ⟨B, ldb, M, N⟩ ⟨C, ldc, M, N⟩) :
    Run (ftrmmOD cat g bm side u ta ns M N alpha A lda B ldb beta C ldc) m
      (fun _ m' => MultipliesTo side m m' u ta d M N alpha A lda B ldb beta C ldc) :=
  ftrmmOD_ok cat hg side hbm M N hns alpha ha ⟨h.pre ta, hB.ok, hB.ld, hB.dj⟩

/-! ### concrete memories -/

/-- `A = [[2,1],[9,4]]` at 0 (upper triangle used), `B` (`2 × 3`, leading dimension 4) at 4, `C` (`2 × 3`) at 12 -/
def tex : Mem ℚ := memOf [2, 1, 9, 4,  1, 2, 3, 77, 4, 5, 6, 77,  10, 20, 30, 40, 50, 60]

lemma inTri_upper {d : Diag} {i j : ℕ} (hi : i < 2) (hj : j < 2) (h : Spec.inTri .upper d i j) : 0 + i * 2 + j < 4 := by
  omega

lemma tex_tri {d : Diag} {W : Win} (h1 : OkIn tex W) (h2 : W.c ≤ W.ld) (h3 : 4 ≤ W.p) : TriCall tex .upper d 2 0 2 W where
  wf := WF_memOf _
  okW := h1
  lW := h2
  lA := le_rfl
  okA := fun i hi j hj _ => by simp [tex, memOf]; omega
  dA := fun i hi j hj _ hw => by have := hw.ge; omega

example : TriCall tex .upper .nonUnit (Spec.sideDim .left 2 3) 0 2 ⟨4, 4, 2, 3⟩ ∧
    Regular tex .nonUnit (Spec.sideDim .left 2 3) 0 2 :=
  ⟨tex_tri (OkIn_memOf (by decide)) (by decide) (by decide), fun _ i hi => by
    have hi : i < 2 := hi
    rcases (by omega : i = 0 ∨ i = 1) with rfl | rfl <;> decide +kernel⟩

/-- `X = [[0, 3/8, 3/4], [1, 5/4, 3/2]]` -/
example : after (ftrsm .modular (gemmClassic .modular) .left .upper .no .nonUnit 2 3 1 0 2 4 4) tex 4 = some 0 ∧
    after (ftrsm .modular (gemmClassic .modular) .left .upper .no .nonUnit 2 3 1 0 2 4 4) tex 5 = some (3/8) ∧
    after (ftrsm .modular (gemmClassic .modular) .left .upper .no .nonUnit 2 3 1 0 2 4 4) tex 8 = some 1 ∧
    after (ftrsm .modular (gemmClassic .modular) .left .upper .no .nonUnit 2 3 1 0 2 4 4) tex 7 = some 77 ∧
    after (ftrmm .modular (gemmClassic .modular) .left .upper .no .nonUnit 2 3 1 0 2 4 4) tex 4 = some 6 ∧
    after (ftrmm .modular (gemmClassic .modular) .left .upper .yes .unit 2 3 2 0 2 4 4) tex 8 = some 10 := by
  decide +kernel

example : InB tex ⟨4, 4, 2, 3⟩ ⟨12, 3, 2, 3⟩ := ⟨OkIn_memOf (by decide), by decide, Win.Ends.disj (V := ⟨12, 3, 2, 3⟩) (by decide)⟩

example : TriCall tex .upper .nonUnit (Spec.sideDim .left 2 3) 0 2 ⟨12, 3, 2, 3⟩ :=
  tex_tri (OkIn_memOf (by decide)) (by decide) (by decide)

example : after (ftrmmO .generic (gemmClassic .generic) .left .upper .no .nonUnit 2 3 1 0 2 4 4 2 12 3) tex 12 = some 26 := by
  decide +kernel

/-- C13 fails for `beta = 0`: the property demands `6` in the first cell of `C`, the code leaves `16`. -/
theorem C13_beta_zero_violated : ∃ (m : Mem ℚ), TriCall m .upper .nonUnit (Spec.sideDim .left 2 3) 0 2 ⟨12, 3, 2, 3⟩ ∧
    InB m ⟨4, 4, 2, 3⟩ ⟨12, 3, 2, 3⟩ ∧
    ¬ Run (ftrmmO .modular (gemmClassic .modular) .left .upper .no .nonUnit 2 3 1 0 2 4 4 0 12 3) m
      (fun _ m' => MultipliesTo .left m m' .upper .no .nonUnit 2 3 1 0 2 4 4 0 12 3) := by
  refine ⟨tex, tex_tri (OkIn_memOf (by decide)) (by decide) (by decide),
    ⟨OkIn_memOf (by decide), by decide, Win.Ends.disj (V := ⟨12, 3, 2, 3⟩) (by decide)⟩, fun h => ?_⟩
  obtain ⟨_, m', s, e⟩ := h.after
  have h1 := e 12
  have h2 := s.val 0 (by decide) 0 (by decide)
  have h3 : after (ftrmmO .modular (gemmClassic .modular) .left .upper .no .nonUnit 2 3 1 0 2 4 4 0 12 3) tex 12 = some 16 := by
    decide +kernel
  rw [h3] at h1
  simp only [Win.adr_mk, Nat.zero_mul, Nat.add_zero] at h2
  rw [h2] at h1
  revert h1
  decide +kernel

/-- C13 fails for `alpha = 0`: the code divides `beta` by `alpha`. -/
theorem C13_alpha_zero_violated : ∃ (m : Mem ℚ), TriCall m .upper .nonUnit (Spec.sideDim .left 2 3) 0 2 ⟨12, 3, 2, 3⟩ ∧
    InB m ⟨4, 4, 2, 3⟩ ⟨12, 3, 2, 3⟩ ∧
    faultOf (ftrmmO .modular (gemmClassic .modular) .left .upper .no .nonUnit 2 3 0 0 2 4 4 1 12 3) m = some .divZero := by
  refine ⟨tex, tex_tri (OkIn_memOf (by decide)) (by decide) (by decide),
    ⟨OkIn_memOf (by decide), by decide, Win.Ends.disj (V := ⟨12, 3, 2, 3⟩) (by decide)⟩, ?_⟩
  decide +kernel

/-- `A = [[-1]]` at 0, `B` (`2 × 1`) at 1, `C` (`2 × 1`, leading dimension 2) at 3 -/
def tex2 : Mem ℚ := memOf [-1, 5, 7, 10, 77, 20]

/-- C13 fails over generic fields on the right side for a diagonal entry `-1`, `beta = 1`: `C - B` is required, the code
computes `C + B` (strided subtraction, property C53). -/
theorem C13_minus_one_violated : ∃ (m : Mem ℚ), TriCall m .upper .nonUnit (Spec.sideDim .right 2 1) 0 1 ⟨3, 2, 2, 1⟩ ∧
    InB m ⟨1, 1, 2, 1⟩ ⟨3, 2, 2, 1⟩ ∧
    ¬ Run (ftrmmO .generic (gemmClassic .generic) .right .upper .no .nonUnit 2 1 1 0 1 1 1 1 3 2) m
      (fun _ m' => MultipliesTo .right m m' .upper .no .nonUnit 2 1 1 0 1 1 1 1 3 2) := by
  refine ⟨tex2, ⟨WF_memOf _, OkIn_memOf (by decide), by decide, by decide, fun i hi j hj _ => ?_, fun i hi j hj _ hw => ?_⟩,
    ⟨OkIn_memOf (by decide), by decide, Win.Ends.disj (V := ⟨3, 2, 2, 1⟩) (by decide)⟩, fun h => ?_⟩
  · have hi : i < 1 := hi
    have hj : j < 1 := hj
    simp [tex2, memOf]; omega
  · have hi : i < 1 := hi
    have hj : j < 1 := hj
    have := hw.ge
    simp at this
    omega
  obtain ⟨_, m', s, e⟩ := h.after
  have h1 := e 3
  have h2 := s.val 0 (by decide) 0 (by decide)
  have h3 : after (ftrmmO .generic (gemmClassic .generic) .right .upper .no .nonUnit 2 1 1 0 1 1 1 1 3 2) tex2 3 = some 15 := by
    decide +kernel
  rw [h3] at h1
  simp only [Win.adr_mk, Nat.zero_mul, Nat.add_zero] at h2
  rw [h2] at h1
  revert h1
  decide +kernel

/-! ### C14 -/

/-- C14: whatever the modulus, the block size `k` used by the floating-point `ftrsm` and `ftrmm` is positive, the blocks
`nrest, k, …, k` have positive size at most `k` and cover the order `na` of the triangular matrix exactly. -/
theorem C14_blocking (sizeMax : ℕ) (hs : 0 < sizeMax) (balanced : Bool) (p : ℕ) (L beta : ℤ) (k : ℕ)
    (h : Bounds.dotProdBoundClassic sizeMax balanced p L beta = .ok k) (na : ℕ) (hna : 0 < na) :
    0 < k ∧ (k / 1) * 1 = k ∧ 0 < (na - 1) % k + 1 ∧ (na - 1) % k + 1 ≤ k ∧ (na - 1) % k + 1 + (na - 1) / k * k = na := by
  have hk : 0 < k := by
    unfold Bounds.dotProdBoundClassic at h
    by_cases h0 : p = 0
    · rw [if_pos h0] at h; injection h with h; omega
    · rw [if_neg h0] at h
      dsimp only at h
      generalize (if beta = 0 then (0 : ℚ) else _) = cplt at h
      split_ifs at h with h1 h2
      · injection h with h; omega
      · injection h with h
        rw [← h]
        refine lt_min ?_ (by norm_num)
        omega
  have h1 := Nat.mod_lt (na - 1) hk
  have h2 := Nat.div_add_mod (na - 1) k
  rw [Nat.mul_comm] at h2
  exact ⟨hk, by omega, by omega, by omega, by omega⟩

/-- C14: the sums of a block are exact.  An update accumulates at most `k` products on a reduced entry. -/
theorem C14_exact (sizeMax : ℕ) (balanced : Bool) (p prec : ℕ) (hp : 3 ≤ p) (hp' : p ≤ 2 ^ 53) (hprec : prec ≤ 53)
    (k : ℕ) (hk : 1 < k) (h : Bounds.dotProdBoundClassic sizeMax balanced p (2 ^ prec - 1) 1 = .ok k)
    (n : ℕ) (hn : n ≤ k) (x y : ℕ → ℤ) (c : ℤ) (hx : ∀ i < n, Reduced balanced p (x i)) (hy : ∀ i < n, Reduced balanced p (y i))
    (hc : Reduced balanced p c) : |c + ∑ i ∈ range n, x i * y i| ≤ 2 ^ prec := by
  have h1 : Reduced balanced p 1 := by
    unfold Reduced
    cases balanced <;> simp <;> omega
  have := (C05_dot_bound_exact sizeMax balanced p prec (by omega) hp' hprec 1 h1 k hk h ℕ (range n) (by simpa using hn) x y c
    (fun i hi => hx i (mem_range.1 hi)) (fun i hi => hy i (mem_range.1 hi)) hc).1
  simpa [usedCoef] using this

/-- The loop divides by zero as soon as the bound for the inner block (`nblas`, from `TRSMBound`) exceeds the bound for the
outer one.  In the code as it stands `nblas` is always 1, so that this is latent. -/
theorem C14_inner_bound_violated (cat : Cat) {bt : ℕ → ℕ → ℕ → ℕ → ℕ → ℕ → Prog K Unit} (nblas ndel : ℕ) (h : ndel < nblas)
    (hM : 0 < M) (hN : 0 < N) (alpha : K) :
    faultOf (ftrsmD cat g bt side u ta d nblas ndel M N alpha A lda B ldb) m = some .divZero := by
  unfold ftrsmD
  rw [if_neg (by omega)]
  unfold ftrsmDouble
  rw [if_neg (by omega), Nat.div_eq_of_lt h, Nat.zero_mul, if_pos (Or.inr rfl)]
  rfl

/-! ### the contracts assumed for BLAS kernels are met by the generic recursive versions -/

/-- a unit triangular solver, as BLAS provides it -/
def btRef (g : GemmFn K) (side : Side) (u : Uplo) (ta : Tr) (M N A lda B ldb : ℕ) : Prog K Unit :=
  if trNa side M N = 0 then pure () else ftrsmGen .generic g side u ta .unit lda ldb (trNa side M N) M N A B

/-- a triangular product, as BLAS provides it -/
def bmRef (g : GemmFn K) (side : Side) (u : Uplo) (ta : Tr) (d : Diag) (lda ldb M N A B : ℕ) : Prog K Unit :=
  if trNa side M N = 0 then pure () else ftrmmGen .generic g side u ta d lda ldb (trNa side M N) M N A B

theorem btRef_ok (hg : GemmOk g) : BtOk (btRef g side u ta) side (effUplo u ta) ta := by
  cases side with
  | left =>
    intro lda ldb n c m A B hp hd
    unfold btRef
    rif h
    · have h : n = 0 := h
      exact (Run_pure ..).2 ⟨_, Step.refl (fun _ _ _ _ => rfl), fun i hi => by omega⟩
    · have h : ¬ n = 0 := h
      exact ftrsmGen_L .generic hg n n (by omega) le_rfl m A B hp hd
  | right =>
    intro lda ldb r n m A B hp hd
    unfold btRef
    rif h
    · have h : n = 0 := h
      exact (Run_pure ..).2 ⟨_, Step.refl (fun _ _ _ _ => rfl), fun i hi j hj => by omega⟩
    · have h : ¬ n = 0 := h
      exact ftrsmGen_R .generic hg n n (by omega) le_rfl m A B hp hd

theorem bmRef_ok (hg : GemmOk g) : BmOk (bmRef g side u ta d lda ldb) side (effUplo u ta) d ta lda ldb := by
  cases side with
  | left =>
    intro n c m A B hp
    unfold bmRef
    rif h
    · have h : n = 0 := h
      exact (Run_pure ..).2 (Step.refl (fun i hi => by have hi : i < n := hi; omega))
    · have h : ¬ n = 0 := h
      exact ftrmmGen_L .generic hg n n (by omega) le_rfl m A B hp
  | right =>
    intro n r m A B hp
    unfold bmRef
    rif h
    · have h : n = 0 := h
      exact (Run_pure ..).2 (Step.refl (fun i hi j hj => by have hj : j < n := hj; omega))
    · have h : ¬ n = 0 := h
      exact ftrmmGen_R .generic hg n n (by omega) le_rfl m A B hp

/-- the floating-point `ftrsm` with block size 1 and the same data as above -/
example : after (ftrsmD .modular (gemmClassic .modular) (btRef (gemmClassic .modular) .left .upper .no) .left .upper .no .nonUnit
    1 1 2 3 1 0 2 4 4) tex 5 = some (3/8) ∧
    after (ftrmmD .modular (gemmClassic .modular) (bmRef (gemmClassic .modular) .left .upper .no .nonUnit 2 4) .left .upper .no
    1 2 3 1 0 2 4 4) tex 4 = some 6 ∧
    after (ftrmmOD .modular (gemmClassic .modular) (bmRef (gemmClassic .modular) .left .upper .no .nonUnit 2 3) .left .upper .no
    1 2 3 1 0 2 4 4 0 12 3) tex 12 = some 6 := by
  decide +kernel

end Verif.Props
