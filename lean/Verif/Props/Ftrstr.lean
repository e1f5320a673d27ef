import Verif.Proofs.Ftrstr
import Verif.Spec.Sym
import Verif.Props.Ftrtr

/-!
# Properties C72, C73: triangular systems with a triangular unknown
-/

namespace Verif.Props

open Verif.FF Finset

variable {K : Type} [Field K] [DecidableEq K] {m : Mem K} {u : Uplo} {d dA dB : Diag} {side : Side} {cat : Cat} {g : GemmFn K}
  {n A lda B ldb : ℕ}

/-- calling conditions: two square matrices, the second one is overwritten -/
structure TwoSquares (m : Mem K) (n A lda B ldb : ℕ) : Prop where
  wf : WF m
  okA : OkIn m ⟨A, lda, n, n⟩
  okB : OkIn m ⟨B, ldb, n, n⟩
  ldA : n ≤ lda
  ldB : n ≤ ldb
  disj : (Win.mk A lda n n).Disj ⟨B, ldb, n, n⟩

omit [Field K] [DecidableEq K] in
lemma TwoSquares.on (h : TwoSquares m n A lda B ldb) : On m m ⟨B, ldb, n, n⟩ (m.mat ⟨B, ldb, n, n⟩) := On.start h.wf h.okB h.ldB

omit [Field K] [DecidableEq K] in
lemma TwoSquares.src (h : TwoSquares m n A lda B ldb) : Src m ⟨A, lda, n, n⟩ (m.mat ⟨A, lda, n, n⟩) := ⟨h.okA, h.ldA, fun _ _ _ _ => rfl⟩

/-- the quotient of two triangular matrices has a unit diagonal if both have -/
def quotDiag : Diag → Diag → Diag
  | .unit, .unit => .unit
  | _, _ => .nonUnit

/-- Specification of `ftrstr`: the triangle stored in `B` becomes the triangular matrix `X` with `T X = B` (left) or `X T = B` (right);
the entries of `B` that are not stored keep their values; nothing else changes. -/
def SolvesTriangular (side : Side) (m m' : Mem K) (u : Uplo) (dA dB : Diag) (n A lda B ldb : ℕ) : Prop :=
  ∃ X, Step m m' ⟨B, ldb, n, n⟩ X ∧
    (∀ i < n, ∀ j < n, Spec.sideMul side n (Spec.tri u dA (m.mat ⟨A, lda, n, n⟩)) (Spec.tri u (quotDiag dA dB) X) i j =
      Spec.tri u dB (m.mat ⟨B, ldb, n, n⟩) i j) ∧
    ∀ i < n, ∀ j < n, ¬ Spec.inTri u (quotDiag dA dB) i j → X i j = m.mat ⟨B, ldb, n, n⟩ i j

lemma diagX_eq (dA dB : Diag) : diagX dA dB = quotDiag dA dB := by cases dA <;> cases dB <;> rfl

/-- C72, partial: `ftrstr`, any correct out-of-place `ftrmm` and `ftrsm`.  Missing: over fields without delayed reduction, on the left
side, the systems for which some entry of the diagonal of the solution is `-1`; for them the claim is false, see `C72_ftrstr_violated`. -/
theorem C72_ftrstr_partial {tmo : TrOFn K} {ts : TrFn K} (hm : TrmmOOk cat tmo) (ht : TrsmOk ts) (h : TwoSquares m n A lda B ldb)
    (hr : Regular m dA n A lda)
    (hx : cat = .modular ∨ side = .right ∨ (dA = .unit ∧ dB = .unit) ∨
      ∀ i < n, Spec.tri u dB (m.mat ⟨B, ldb, n, n⟩) i i ≠ -Spec.tri u dA (m.mat ⟨A, lda, n, n⟩) i i) :
    Run (ftrstr tmo ts side u dA dB lda ldb (n + 1) n A B) m (fun _ m' => SolvesTriangular side m m' u dA dB n A lda B ldb) := by
  have hx' : cat = .modular ∨ side = .right ∨ diagX dA dB = .unit ∨
      ∀ i < n, Spec.tri u dB (m.mat ⟨B, ldb, n, n⟩) i i ≠ -Spec.tri u dA (m.mat ⟨A, lda, n, n⟩) i i := by
    rcases hx with hx | hx | ⟨rfl, rfl⟩ | hx
    · exact Or.inl hx
    · exact Or.inr (Or.inl hx)
    · exact Or.inr (Or.inr (Or.inl rfl))
    · exact Or.inr (Or.inr (Or.inr hx))
  refine (ftrstr_on hm ht (n + 1) n A B m _ _ (Nat.lt_succ_self n) h.on h.src h.disj hr hx').mono ?_
  rintro _ m' ⟨z, h1, h2⟩
  refine ⟨z, h1.step, fun i hi j hj => ?_, fun i hi j hj hn => h2.keep i hi j hj (fun hh => hn ?_)⟩
  · rw [← diagX_eq]; exact h2.eq i hi j hj
  · rw [← diagX_eq]; exact inT_inTri hh

/-- C72 over fields with delayed reduction, with the `ftrmm` of C13, the `ftrsm` of C11 and any correct product. -/
theorem C72_ftrstr_modular (hg : GemmOk g) (h : TwoSquares m n A lda B ldb) (hr : Regular m dA n A lda) :
    Run (ftrstr (ftrmmO .modular g) (ftrsm .modular g) side u dA dB lda ldb (n + 1) n A B) m
      (fun _ m' => SolvesTriangular side m m' u dA dB n A lda B ldb) :=
  C72_ftrstr_partial (ftrmmO_TrmmOOk .modular hg) (ftrsm_TrsmOk .modular hg) h hr (Or.inl rfl)

/-- C72: the solution is unique, so that the result of `ftrstr` does not depend on the version of `ftrmm` and `ftrsm` used. -/
theorem C72_unique {T X Y : ℕ → ℕ → K} {R : ℕ → ℕ → K} (hT : ∀ i < n, Spec.tri u d T i i ≠ 0)
    (hX : ∀ i < n, ∀ j < n, Spec.sideMul side n (Spec.tri u d T) X i j = R i j)
    (hY : ∀ i < n, ∀ j < n, Spec.sideMul side n (Spec.tri u d T) Y i j = R i j) : ∀ i < n, ∀ j < n, X i j = Y i j := by
  -- substitution, in the order of the triangle
  have key : ∀ (Z : ℕ → ℕ → K), (∀ i < n, ∀ j < n, Spec.sideMul side n (Spec.tri u d T) Z i j = 0) → ∀ i < n, ∀ j < n, Z i j = 0 := by
    intro Z hZ
    have up : ∀ (S Z : ℕ → ℕ → K), (∀ i < n, S i i ≠ 0) → (∀ i j, j < i → S i j = 0) → (∀ i < n, ∀ j < n, Spec.mul n S Z i j = 0) →
        ∀ i < n, ∀ j < n, Z i j = 0 := by
      intro S Z h0 h1 h2
      have : ∀ k i, n ≤ i + k → i < n → ∀ j < n, Z i j = 0 := by
        intro k
        induction k with
        | zero => intro i h3 hi; omega
        | succ k ih =>
          intro i h3 hi j hj
          have e := h2 i hi j hj
          unfold Spec.mul at e
          rw [sum_eq_single i] at e
          · exact (mul_eq_zero.1 e).resolve_left (h0 i hi)
          · intro l hl hne
            have hl := mem_range.1 hl
            rcases Nat.lt_or_gt_of_ne hne with hlt | hlt
            · rw [h1 i l hlt, zero_mul]
            · rw [ih l (by omega) hl j hj, mul_zero]
          · intro hh; exact absurd (mem_range.2 hi) hh
      exact fun i hi => this n i (by omega) hi
    have lo : ∀ (S Z : ℕ → ℕ → K), (∀ i < n, S i i ≠ 0) → (∀ i j, i < j → S i j = 0) → (∀ i < n, ∀ j < n, Spec.mul n S Z i j = 0) →
        ∀ i < n, ∀ j < n, Z i j = 0 := by
      intro S Z h0 h1 h2 i
      induction i using Nat.strong_induction_on with
      | _ i ih =>
        intro hi j hj
        have e := h2 i hi j hj
        unfold Spec.mul at e
        rw [sum_eq_single i] at e
        · exact (mul_eq_zero.1 e).resolve_left (h0 i hi)
        · intro l hl hne
          have hl := mem_range.1 hl
          rcases Nat.lt_or_gt_of_ne hne with hlt | hlt
          · rw [ih l hlt hl j hj, mul_zero]
          · rw [h1 i l hlt, zero_mul]
        · intro hh; exact absurd (mem_range.2 hi) hh
    have tr : ∀ (S Z : ℕ → ℕ → K) i j, Spec.mul n Z S i j = Spec.mul n (fun i j => S j i) (fun i j => Z j i) j i :=
      fun S Z i j => sum_congr rfl (fun l _ => mul_comm _ _)
    have z1 : ∀ i j, j < i → Spec.tri .upper d T i j = 0 := fun i j hh => tri_above (u := .upper) hh
    have z2 : ∀ i j, i < j → Spec.tri .lower d T i j = 0 := fun i j hh => tri_above (u := .lower) hh
    cases side <;> cases u
    · exact up _ Z hT z1 hZ
    · exact lo _ Z hT z2 hZ
    · exact fun i hi j hj => lo (fun i j => Spec.tri .upper d T j i) (fun i j => Z j i) hT (fun i j hh => z1 j i hh)
        (fun i hi j hj => by rw [← tr]; exact hZ j hj i hi) j hj i hi
    · exact fun i hi j hj => up (fun i j => Spec.tri .lower d T j i) (fun i j => Z j i) hT (fun i j hh => z2 j i hh)
        (fun i hi j hj => by rw [← tr]; exact hZ j hj i hi) j hj i hi
  intro i hi j hj
  refine sub_eq_zero.1 (key (fun i j => X i j - Y i j) (fun i hi j hj => ?_) i hi j hj)
  have e : Spec.sideMul side n (Spec.tri u d T) (fun i j => X i j - Y i j) i j =
      Spec.sideMul side n (Spec.tri u d T) X i j - Spec.sideMul side n (Spec.tri u d T) Y i j := by
    cases side <;> simp only [Spec.sideMul, Spec.mul, mul_sub, sub_mul, sum_sub_distrib]
  rw [e, hX i hi j hj, hY i hi j hj, sub_self]

/-- `op` that makes the triangle `u` a lower one -/
def lowOp (u : Uplo) (X : ℕ → ℕ → K) : ℕ → ℕ → K := Spec.op (match u with | .upper => .yes | .lower => .no) X

/-- Specification of `ftrssyr2k`: the stored triangle of `B` becomes a triangular matrix `X` with `Tᵀ X + Xᵀ T = B` (upper) or
`T Xᵀ + X Tᵀ = B` (lower), `B` read as the symmetric matrix stored in its triangle.  Cells outside `B` are unchanged; the other
triangle of `B` is scratch space. -/
def SolvesSym (m m' : Mem K) (u : Uplo) (dA : Diag) (n A lda B ldb : ℕ) : Prop :=
  ∃ X, Step m m' ⟨B, ldb, n, n⟩ X ∧ ∀ i < n, ∀ j < n, Spec.inHalf u i j →
    let T := lowOp u (Spec.tri u dA (m.mat ⟨A, lda, n, n⟩))
    let Y := lowOp u (Spec.tri u .nonUnit X)
    Spec.mul n T (fun i j => Y j i) i j + Spec.mul n Y (fun i j => T j i) i j = m.mat ⟨B, ldb, n, n⟩ i j

/-- C73, partial: `ftrssyr2k` in characteristic other than 2.  Missing: the lower triangle over fields without delayed reduction, for
which the claim is false, see `C73_lower_violated`. -/
theorem C73_ftrssyr2k_partial (h2 : (2 : K) ≠ 0) {tmo : TrOFn K} {ts : TrFn K} {s2 : Syr2Fn K} (hm : TrmmOOk cat tmo) (ht : TrsmOk ts)
    (hs : Syr2Ok s2) (h : TwoSquares m n A lda B ldb) (hr : Regular m dA n A lda) (hx : cat = .modular ∨ u = .upper) :
    Run (ftrssyr2k tmo ts s2 u dA lda ldb (n + 1) n A B) m (fun _ m' => SolvesSym m m' u dA n A lda B ldb) := by
  refine (ftrssyr2k_on h2 hm ht hs hx (n + 1) n A B m _ _ (Nat.lt_succ_self n) h.on h.src h.disj hr).mono ?_
  rintro _ m' ⟨z, h1, e⟩
  refine ⟨z, h1.step, fun i hi j hj hh => ?_⟩
  simp only [Spec.mul]
  rw [← sum_add_distrib]
  cases u with
  | upper =>
    have := e j hj i hh
    rw [show m.mat ⟨B, ldb, n, n⟩ i j = Spec.op (lowTr .upper) (m.mat ⟨B, ldb, n, n⟩) j i from rfl, ← this]
    refine sum_congr rfl (fun l _ => ?_)
    simp only [lowOp, lowM, lowTr]
    ring
  | lower => exact e i hi j hh

/-- C73 over fields with delayed reduction, with the library's kernels. -/
theorem C73_ftrssyr2k_modular (h2 : (2 : K) ≠ 0) (hg : GemmOk g) (h : TwoSquares m n A lda B ldb) (hr : Regular m dA n A lda) :
    Run (ftrssyr2k (ftrmmO .modular g) (ftrsm .modular g) (fsyr2k .modular g) u dA lda ldb (n + 1) n A B) m
      (fun _ m' => SolvesSym m m' u dA n A lda B ldb) :=
  C73_ftrssyr2k_partial h2 (ftrmmO_TrmmOOk .modular hg) (ftrsm_TrsmOk .modular hg) (fsyr2k_Syr2Ok .modular hg) h hr (Or.inl rfl)

/-! ### concrete cases -/

/-- `A` (`3 × 3`) at 0 and `B` (`3 × 3`, leading dimension 4) at 9 -/
def strex : Mem ℚ := memOf [2, 3, 5, 7, 4, 1, 6, 8, 5, 1, 2, 3, 77, 4, 5, 6, 77, 7, 8, 9]

lemma strex_pre : TwoSquares strex 3 0 3 9 4 :=
  ⟨WF_memOf _, OkIn_memOf (by decide), OkIn_memOf (by decide), by decide, by decide, Win.Ends.disj (V := ⟨9, 4, 3, 3⟩) (by decide)⟩

example : TwoSquares strex 3 0 3 9 4 ∧ Regular strex .nonUnit 3 0 3 := ⟨strex_pre, fun _ i hi => by
  rcases (by omega : i = 0 ∨ i = 1 ∨ i = 2) with rfl | rfl | rfl <;> decide +kernel⟩

/-- the program of `ftrstr` over `ℚ`, on the concrete case -/
def strRun (cat : Cat) (side : Side) (u : Uplo) (dA dB : Diag) : Prog ℚ Unit :=
  ftrstr (ftrmmO cat (gemmClassic cat)) (ftrsm cat (gemmClassic cat)) side u dA dB 3 4 4 3 0 9

example : after (strRun .modular .left .upper .nonUnit .nonUnit) strex 11 = some (-183/40) ∧
    after (strRun .modular .left .upper .nonUnit .nonUnit) strex 13 = some 4 ∧
    after (strRun .modular .right .lower .unit .nonUnit) strex 17 = some 401 ∧
    after (strRun .modular .left .lower .nonUnit .unit) strex 9 = some (1/2) ∧
    after (strRun .modular .left .lower .nonUnit .unit) strex 12 = some 77 := by decide +kernel

/-- the program of `ftrssyr2k` over `ℚ`, on the concrete case -/
def syRun (u : Uplo) (dA : Diag) : Prog ℚ Unit :=
  ftrssyr2k (ftrmmO .modular (gemmClassic .modular)) (ftrsm .modular (gemmClassic .modular)) (fsyr2k .modular (gemmClassic .modular)) u dA 3 4 4 3 0 9

example : after (syRun .upper .nonUnit) strex 10 = some (5/8) ∧ after (syRun .upper .nonUnit) strex 19 = some (13/640) ∧
    after (syRun .lower .unit) strex 18 = some (-15) ∧ after (syRun .lower .unit) strex 16 = some 77 := by decide +kernel

/-- C73: the other triangle is scratch space: entry `(2, 1)` of `B`, below the diagonal, is changed by the call for the upper
triangle. -/
theorem C73_other_triangle_violated : ∃ (m : Mem ℚ), TwoSquares m 3 0 3 9 4 ∧ Regular m .nonUnit 3 0 3 ∧
    after (syRun .upper .nonUnit) m 18 ≠ some (m.val 18) :=
  ⟨strex, strex_pre, fun _ i hi => by rcases (by omega : i = 0 ∨ i = 1 ∨ i = 2) with rfl | rfl | rfl <;> decide +kernel, by decide +kernel⟩

/-- `A = [[1, 2], [0, 1]]` at 0, `B = [[1, 5], [0, -1]]` at 4 -/
def strbad : Mem ℚ := memOf [1, 2, 0, 1, 1, 5, 0, -1]

/-- C72 fails over generic fields for `A = [[1, 2], [0, 1]]`, `B = [[1, 5], [0, -1]]`: the solution has the entry 7, the code
computes 3. -/
theorem C72_ftrstr_violated : ∃ (m : Mem ℚ), TwoSquares m 2 0 2 4 2 ∧ Regular m .nonUnit 2 0 2 ∧
    ¬ Run (ftrstr (ftrmmO .generic (gemmClassic .generic)) (ftrsm .generic (gemmClassic .generic)) .left .upper .nonUnit .nonUnit 2 2 3 2 0 4) m
      (fun _ m' => SolvesTriangular .left m m' .upper .nonUnit .nonUnit 2 0 2 4 2) := by
  refine ⟨strbad, ⟨WF_memOf _, OkIn_memOf (by decide), OkIn_memOf (by decide), by decide, by decide,
    Win.Ends.disj (V := ⟨4, 2, 2, 2⟩) (by decide)⟩, fun _ i hi => by
      rcases (by omega : i = 0 ∨ i = 1) with rfl | rfl <;> decide +kernel, fun h => ?_⟩
  obtain ⟨_, m', ⟨X, s, e, _⟩, hv⟩ := h.after
  have h1 : m'.val 5 = 3 := by
    have := hv 5
    rw [show after (ftrstr (ftrmmO .generic (gemmClassic .generic)) (ftrsm .generic (gemmClassic .generic)) .left .upper .nonUnit .nonUnit 2 2 3 2 0 4)
      strbad 5 = some 3 by decide +kernel] at this
    simpa using this.symm
  have h2 : m'.val 7 = -1 := by
    have := hv 7
    rw [show after (ftrstr (ftrmmO .generic (gemmClassic .generic)) (ftrsm .generic (gemmClassic .generic)) .left .upper .nonUnit .nonUnit 2 2 3 2 0 4)
      strbad 7 = some (-1) by decide +kernel] at this
    simpa using this.symm
  have x1 : X 0 1 = 3 := by rw [← s.val 0 (by decide) 1 (by decide)]; exact h1
  have x2 : X 1 1 = -1 := by rw [← s.val 1 (by decide) 1 (by decide)]; exact h2
  have := e 0 (by omega) 1 (by omega)
  simp [Spec.sideMul, Spec.mul, Spec.tri, sum_range_succ, quotDiag, x1, x2, strbad, Mem.mat, Win.adr, memOf] at this
  norm_num at this

/-- `A = [[1, 0], [2, 1]]` at 0, `B = [[-2, 0], [5, 3]]` (lower triangle) at 4 -/
def sybad : Mem ℚ := memOf [1, 0, 2, 1, -2, 0, 5, 3]

lemma sybad_pre : TwoSquares sybad 2 0 2 4 2 := ⟨WF_memOf _, OkIn_memOf (by decide), OkIn_memOf (by decide), by decide, by decide,
    Win.Ends.disj (V := ⟨4, 2, 2, 2⟩) (by decide)⟩

lemma sybad_reg : Regular sybad .nonUnit 2 0 2 := fun _ i hi => by
  rcases (by omega : i = 0 ∨ i = 1) with rfl | rfl <;> decide +kernel

/-- the program of `ftrssyr2k` on this case -/
def sybadRun (cat : Cat) : Prog ℚ Unit :=
  ftrssyr2k (ftrmmO cat (gemmClassic cat)) (ftrsm cat (gemmClassic cat)) (fsyr2k cat (gemmClassic cat)) .lower .nonUnit 2 2 3 2 0 4

/-- C73 fails over generic fields for the lower triangle: the solution has the entry 7, the code computes 3. -/
theorem C73_lower_violated : ∃ (m : Mem ℚ), TwoSquares m 2 0 2 4 2 ∧ Regular m .nonUnit 2 0 2 ∧
    ¬ Run (sybadRun .generic) m (fun _ m' => SolvesSym m m' .lower .nonUnit 2 0 2 4 2) := by
  refine ⟨sybad, sybad_pre, sybad_reg, fun h => ?_⟩
  obtain ⟨_, m', ⟨X, s, e⟩, hv⟩ := h.after
  have h1 : m'.val 6 = 3 := by
    have := hv 6
    rw [show after (sybadRun .generic) sybad 6 = some 3 by decide +kernel] at this
    simpa using this.symm
  have h2 : m'.val 4 = -1 := by
    have := hv 4
    rw [show after (sybadRun .generic) sybad 4 = some (-1) by decide +kernel] at this
    simpa using this.symm
  have x1 : X 1 0 = 3 := by rw [← s.val 1 (by decide) 0 (by decide)]; exact h1
  have x2 : X 0 0 = -1 := by rw [← s.val 0 (by decide) 0 (by decide)]; exact h2
  have := e 1 (by omega) 0 (by omega) (Nat.zero_le 1)
  simp [lowOp, Spec.op, Spec.mul, Spec.tri, sum_range_succ, x1, x2, sybad, Mem.mat, Win.adr, memOf] at this
  norm_num at this

/-- The documentation announces `Aᵀ X + Xᵀ A = B` for both triangles.  For the lower one this is not the equation that is solved:
here `Aᵀ X + Xᵀ A` has the entry -18 at `(1, 0)`, `B` has 5. -/
theorem C73_documented_equation_violated : ∃ (m : Mem ℚ), TwoSquares m 2 0 2 4 2 ∧ Regular m .nonUnit 2 0 2 ∧
    Run (sybadRun .modular) m (fun _ m' => ∃ X, Step m m' ⟨4, 2, 2, 2⟩ X ∧
      let T := Spec.tri .lower .nonUnit (m.mat ⟨0, 2, 2, 2⟩)
      let Y := Spec.tri .lower .nonUnit X
      Spec.mul 2 (fun i j => T j i) Y 1 0 + Spec.mul 2 (fun i j => Y j i) T 1 0 ≠ m.mat ⟨4, 2, 2, 2⟩ 1 0) := by
  refine ⟨sybad, sybad_pre, sybad_reg, ?_⟩
  have h := C73_ftrssyr2k_modular (u := .lower) (by norm_num) (gemmClassic_ok .modular) sybad_pre sybad_reg
  refine h.mono (fun _ m' hh => ?_)
  obtain ⟨X, s, e⟩ := hh
  refine ⟨X, s, ?_⟩
  have e0 := e 0 (by omega) 0 (by omega) (Nat.le_refl 0)
  have e1 := e 1 (by omega) 0 (by omega) (Nat.zero_le 1)
  have e2 := e 1 (by omega) 1 (by omega) (Nat.le_refl 1)
  simp [lowOp, Spec.op, Spec.mul, Spec.tri, sum_range_succ, sybad, Mem.mat, Win.adr, memOf] at e0 e1 e2 ⊢
  intro hh
  linarith

end Verif.Props
