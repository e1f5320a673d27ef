import Verif.Proofs.Fsyr2k
import Verif.Props.Solve
import Verif.Props.Gemm

/-!
# Properties C38, C39, C58, C59: symmetric rank-k and rank-2k updates

The updates are defined on the triangle of `C` selected by `UpLo`.  What happens to the other triangle is part of C38.
-/

namespace Verif.Props

open Verif.FF Verif.Spec Finset

variable {K : Type} [Field K] [DecidableEq K] {m : Mem K} {u : Uplo} {t : Tr} {n k A lda B ldb C ldc D incD : ℕ} {g : GemmFn K}

/-- calling conditions for an operand `op(A)`, `n × k`, of an update of the `n × n` matrix `C` -/
structure SyrkArg (m : Mem K) (t : Tr) (n k A lda C ldc : ℕ) : Prop where
  ok : match t with | .no => OkIn m ⟨A, lda, n, k⟩ | .yes => OkIn m ⟨A, lda, k, n⟩
  ld : match t with | .no => k ≤ lda | .yes => n ≤ lda
  disj : match t with
    | .no => (Win.mk A lda n k).Disj ⟨C, ldc, n, n⟩
    | .yes => (Win.mk A lda k n).Disj ⟨C, ldc, n, n⟩

omit [Field K] [DecidableEq K] in
lemma SyrkArg.osrc (h : SyrkArg m t n k A lda C ldc) : OSrc m t n k A lda (opnd m t n k A lda) := by
  obtain ⟨h1, h2, _⟩ := h
  cases t with
  | no => exact ⟨h1, h2, fun i _ l _ => rfl⟩
  | yes => exact ⟨h1, h2, fun i _ l _ => rfl⟩

omit [Field K] [DecidableEq K] in
lemma SyrkArg.dis (h : SyrkArg m t n k A lda C ldc) : (aw t n k A lda).Disj ⟨C, ldc, n, n⟩ := by
  obtain ⟨_, _, h3⟩ := h
  cases t <;> exact h3

/-- the versions of `fsyrk` at the bottom of the recursion -/
inductive SyrkBase
  | default
  | lazy (kmax : ℕ)
  | delayed (kmax : ℕ)

/-- the program of each version -/
def SyrkBase.prog (cat : Cat) : SyrkBase → SyrkFn K
  | .default => fsyrkDefault
  | .lazy kmax => fsyrkLazy cat kmax
  | .delayed kmax => fsyrkDelayed cat kmax

/-- which versions leave the other triangle alone -/
def SyrkBase.Frames (alpha : K) : SyrkBase → Prop
  | .default => True
  | .lazy _ => True
  | .delayed _ => alpha = 1 ∨ alpha = -1

/-- C38 for the selected triangle, which is right in all cases: every version, with `lev` levels of divide and conquer. -/
theorem C38_triangle_partial (cat : Cat) (hg : GemmOk g) (b : SyrkBase) (lev : ℕ) (alpha beta : K) (hC : Rect m n n C ldc)
    (hA : SyrkArg m t n k A lda C ldc) :
    Run (fsyrk cat (fsyrkDC g (b.prog cat) lev) u t n k alpha A lda beta C ldc) m (fun _ m' => Only m m' ⟨C, ldc, n, n⟩ ∧
      ∀ i < n, ∀ j < n, inHalf u i j → m'.mat ⟨C, ldc, n, n⟩ i j =
        alpha * ∑ l ∈ range k, opnd m t n k A lda i l * opnd m t n k A lda j l + beta * m.mat ⟨C, ldc, n, n⟩ i j) := by
  have hb : SyrkR (fun _ _ _ => True) (b.prog cat : SyrkFn K) := by
    have w : ∀ {R} {s : SyrkFn K}, SyrkR R s → SyrkR (fun _ _ _ => True) s := by
      intro R s h m u t n k alpha A lda beta C ldc x V hk ha h1 h2 h3
      refine (h m u t n k alpha A lda beta C ldc x V hk ha h1 h2 h3).mono ?_
      rintro _ m' ⟨V', q1, q2, _⟩
      exact ⟨V', q1, q2, fun _ _ _ _ _ => trivial⟩
    cases b with
    | default => exact w fsyrkDefault_R
    | lazy kmax => exact w (fsyrkLazy_R cat kmax)
    | delayed kmax => exact w (fsyrkDelayed_R cat kmax)
  refine (fsyrk_on cat (fsyrkDC_R hg (fun _ _ => trivial) hb lev) alpha beta hC.on hA.osrc hA.dis).mono ?_
  rintro _ m' ⟨V', h1, h2, _⟩
  refine ⟨⟨h1.step.ok, h1.step.frame⟩, fun i hi j hj c => ?_⟩
  rw [h1.mat hi hj, h2 i hi j hj c]; rfl

/-- C38, partial: for `k > 0` and `alpha ≠ 0` (the documentation requires `alpha` to be invertible) the selected triangle is updated and
everything else is unchanged.  The version with delayed reductions additionally needs `alpha = ±1`.  Missing: `k = 0`, and other values
of `alpha` with delayed reductions, where the claim is false, see `C38_empty_violated`, `C38_delayed_violated`. -/
theorem C38_fsyrk_partial (cat : Cat) (hg : GemmOk g) (b : SyrkBase) (lev : ℕ) (alpha beta : K) (hC : Rect m n n C ldc)
    (hA : SyrkArg m t n k A lda C ldc) (hk : k ≠ 0) (hal : alpha ≠ 0) (hf : b.Frames alpha) :
    Run (fsyrk cat (fsyrkDC g (b.prog cat) lev) u t n k alpha A lda beta C ldc) m (fun _ m' => Step m m' ⟨C, ldc, n, n⟩ (fun i j =>
      if inHalf u i j then
        alpha * ∑ l ∈ range k, opnd m t n k A lda i l * opnd m t n k A lda j l + beta * m.mat ⟨C, ldc, n, n⟩ i j
      else m.mat ⟨C, ldc, n, n⟩ i j)) := by
  have hb : SyrkR (fun al a c => b.Frames al → c = a) (b.prog cat : SyrkFn K) := by
    have w : ∀ {R} {s : SyrkFn K}, SyrkR R s → (∀ al a c, R al a c → b.Frames al → c = a) → SyrkR (fun al a c => b.Frames al → c = a) s := by
      intro R s h hR m u t n k alpha A lda beta C ldc x V hk ha h1 h2 h3
      refine (h m u t n k alpha A lda beta C ldc x V hk ha h1 h2 h3).mono ?_
      rintro _ m' ⟨V', q1, q2, q3⟩
      exact ⟨V', q1, q2, fun i hi j hj c => hR _ _ _ (q3 i hi j hj c)⟩
    cases b with
    | default => exact w fsyrkDefault_R (fun _ _ _ q _ => q)
    | lazy kmax => exact w (fsyrkLazy_R cat kmax) (fun _ _ _ q _ => q)
    | delayed kmax => exact w (fsyrkDelayed_R cat kmax) (fun _ _ _ q f => q.resolve_right (fun q => f.elim q.1 q.2.1))
  refine (fsyrk_on cat (fsyrkDC_R hg (fun _ _ _ => rfl) hb lev) alpha beta hC.on hA.osrc hA.dis).mono ?_
  rintro _ m' ⟨V', h1, h2, h3⟩
  refine h1.step.congr (fun i hi j hj => ?_)
  by_cases c : inHalf u i j
  · rw [if_pos c, h2 i hi j hj c]; rfl
  · rw [if_neg c]
    have := h3 i hi j hj c
    rw [if_neg (by tauto)] at this
    exact this hf

/-- C38 fails for `k = 0`: the other triangle is multiplied by `beta` as well. -/
theorem C38_empty_violated : ∃ (m : Mem ℚ) (C : ℕ), Rect m 2 2 C 2 ∧ SyrkArg m .no 2 0 0 1 C 2 ∧
    Run (fsyrk .generic (fsyrkDC (gemmClassic .generic) fsyrkDefault 0) .upper .no 2 0 1 0 1 3 C 2) m
      (fun _ m' => m'.mat ⟨C, 2, 2, 2⟩ 1 0 ≠ m.mat ⟨C, 2, 2, 2⟩ 1 0) := by
  refine ⟨memOf [1, 2, 5, 4], 0, ⟨WF_memOf _, OkIn_memOf (by decide), by decide⟩, ⟨OkIn_memOf (by decide), by decide, ?_⟩, ?_⟩
  · exact Win.Ends.disj (by decide)
  have e : after (fsyrk .generic (fsyrkDC (gemmClassic .generic) fsyrkDefault 0) .upper .no 2 0 (1 : ℚ) 0 1 3 0 2) (memOf [1, 2, 5, 4]) 2 = some 15 := by
    decide +kernel
  unfold after at e
  split at e
  · rename_i x m' hx
    simp only [Option.some.injEq] at e
    refine ⟨x, m', hx, ?_⟩
    simp [Mem.mat, Win.adr, e, memOf]
  · simp at e

/-- C38 fails with delayed reductions (`Modular<double>`, …): for `alpha = 2` the other triangle is multiplied by 2. -/
theorem C38_delayed_violated : ∃ (m : Mem ℚ) (A C : ℕ), Rect m 2 2 C 2 ∧ SyrkArg m .no 2 1 A 1 C 2 ∧
    Run (fsyrk .modular (fsyrkDelayed .modular 100) .upper .no 2 1 2 A 1 1 C 2) m
      (fun _ m' => m'.mat ⟨C, 2, 2, 2⟩ 1 0 ≠ m.mat ⟨C, 2, 2, 2⟩ 1 0) := by
  refine ⟨memOf [1, 2, 5, 4, 1, 3], 4, 0, ⟨WF_memOf _, OkIn_memOf (by decide), by decide⟩, ⟨OkIn_memOf (by decide), by decide, ?_⟩, ?_⟩
  · exact (Win.Ends.disj (by decide)).symm
  have e : after (fsyrk .modular (fsyrkDelayed .modular 100) .upper .no 2 1 (2 : ℚ) 4 1 1 0 2) (memOf [1, 2, 5, 4, 1, 3]) 2 = some 10 := by
    decide +kernel
  unfold after at e
  split at e
  · rename_i x m' hx
    simp only [Option.some.injEq] at e
    refine ⟨x, m', hx, ?_⟩
    simp [Mem.mat, Win.adr, e, memOf]
  · simp at e

/-- C39, partial: `k > 0`.  The other triangle is used as scratch space.  For `k = 0` the claim is false, see `C39_fsyr2k_violated`. -/
theorem C39_fsyr2k_partial (cat : Cat) (hg : GemmOk g) (alpha beta : K) (hC : Rect m n n C ldc) (hA : SyrkArg m t n k A lda C ldc)
    (hB : SyrkArg m t n k B ldb C ldc) (hk : k ≠ 0) :
    Run (fsyr2k cat g u t n k alpha A lda B ldb beta C ldc) m (fun _ m' => Only m m' ⟨C, ldc, n, n⟩ ∧
      ∀ i < n, ∀ j < n, inHalf u i j → m'.mat ⟨C, ldc, n, n⟩ i j =
        alpha * (∑ l ∈ range k, opnd m t n k A lda i l * opnd m t n k B ldb j l +
          ∑ l ∈ range k, opnd m t n k B ldb i l * opnd m t n k A lda j l) + beta * m.mat ⟨C, ldc, n, n⟩ i j) := by
  refine (fsyr2k_on cat hg alpha beta hC.on hA.osrc hB.osrc hA.dis hB.dis).mono (fun _ m' h => ?_)
  refine ⟨⟨h.step.ok, h.step.frame⟩, fun i hi j hj c => ?_⟩
  rw [h.mat hi hj]
  simp only [halfUpd, if_pos c, sy2Val, if_neg hk]

/-- for `k = 0` the result is `beta² C` -/
theorem C39_fsyr2k_empty (cat : Cat) (hg : GemmOk g) (alpha beta : K) (hC : Rect m n n C ldc) (hA : SyrkArg m t n 0 A lda C ldc)
    (hB : SyrkArg m t n 0 B ldb C ldc) :
    Run (fsyr2k cat g u t n 0 alpha A lda B ldb beta C ldc) m (fun _ m' => Only m m' ⟨C, ldc, n, n⟩ ∧
      ∀ i < n, ∀ j < n, inHalf u i j → m'.mat ⟨C, ldc, n, n⟩ i j = beta ^ 2 * m.mat ⟨C, ldc, n, n⟩ i j) := by
  refine (fsyr2k_on cat hg alpha beta hC.on hA.osrc hB.osrc hA.dis hB.dis).mono (fun _ m' h => ?_)
  refine ⟨⟨h.step.ok, h.step.frame⟩, fun i hi j hj c => ?_⟩
  rw [h.mat hi hj]
  simp only [halfUpd, if_pos c, sy2Val, if_true, range_zero, sum_empty]
  ring

/-- C39 fails for `k = 0`: `C` is multiplied by `beta` twice. -/
theorem C39_fsyr2k_violated : ∃ (m : Mem ℚ) (C : ℕ), Rect m 1 1 C 1 ∧ SyrkArg m .no 1 0 0 1 C 1 ∧
    Run (fsyr2k .generic (gemmClassic .generic) .upper .no 1 0 1 0 1 0 1 3 C 1) m
      (fun _ m' => m'.mat ⟨C, 1, 1, 1⟩ 0 0 ≠ 3 * m.mat ⟨C, 1, 1, 1⟩ 0 0) := by
  have hC : Rect (memOf [(1 : ℚ)]) 1 1 0 1 := ⟨WF_memOf _, OkIn_memOf (by decide), by decide⟩
  have hA : SyrkArg (memOf [(1 : ℚ)]) .no 1 0 0 1 0 1 := ⟨OkIn_memOf (by decide), by decide, Win.Ends.disj (by decide)⟩
  refine ⟨memOf [1], 0, hC, hA, (C39_fsyr2k_empty .generic (gemmClassic_ok .generic) 1 3 hC hA hA).mono (fun _ m' h => ?_)⟩
  rw [h.2 0 (by omega) 0 (by omega) (Nat.le_refl 0)]
  norm_num [Mem.mat, Win.adr, memOf]

/-- C58: `fsyrk` with a diagonal matrix: `C` receives `alpha op(A) D op(A)ᵀ + beta C` in the selected triangle, and `op(A)` becomes
`op(A) D`.  Every recursion threshold (0 excepted, for which the recursion does not end); the depth is at most `n`. -/
theorem C58_fsyrkDiag (cat : Cat) (hg : GemmOk g) {thr : ℕ} (ht : 1 ≤ thr) (alpha beta : K) (hC : Rect m n n C ldc)
    (hA : SyrkArg m t n k A lda C ldc) (hD : OkIn m ⟨D, incD, k, 1⟩) (hi : 0 < incD) (hDC : (Win.mk D incD k 1).Disj ⟨C, ldc, n, n⟩)
    (hDA : (Win.mk D incD k 1).Disj (aw t n k A lda)) :
    Run (fsyrkDiag cat g thr u t k alpha lda D incD beta ldc (n + 1) n A C) m (fun _ m' =>
      Only2 m m' ⟨C, ldc, n, n⟩ (aw t n k A lda) ∧
      (∀ i < n, ∀ j < n, inHalf u i j → m'.mat ⟨C, ldc, n, n⟩ i j =
        alpha * ∑ l ∈ range k, opnd m t n k A lda i l * m.val (D + l * incD) * opnd m t n k A lda j l + beta * m.mat ⟨C, ldc, n, n⟩ i j) ∧
      ∀ i < n, ∀ l < k, opnd m' t n k A lda i l = opnd m t n k A lda i l * m.val (D + l * incD)) := by
  have h0 : On2 m m ⟨C, ldc, n, n⟩ (m.mat ⟨C, ldc, n, n⟩) (aw t n k A lda) (op t (opnd m t n k A lda)) :=
    ⟨hC.wf, hC.ok, hA.osrc.ok, hC.ld, hA.osrc.ld, hA.dis.symm, rfl, le_rfl, fun i _ j _ => rfl,
      fun i hi j hj => hA.osrc.src.val i hi j hj, fun _ _ _ _ => rfl⟩
  have hsD : Src m (vw D incD k) (fun l _ => m.val (D + l * incD)) := ⟨hD, hi, fun i _ j hj => by
    have hj : j = 0 := by simpa [vw] using hj
    subst hj; rfl⟩
  refine (fsyrkDiag_ok cat hg ht (n + 1) n (by omega) (by omega) m A C _ _ h0 hsD hDC hDA).mono ?_
  rintro _ m' ⟨V', h1, h2⟩
  refine ⟨On2.only h1, fun i hi j hj c => ?_, fun i hi l hl => ?_⟩
  · rw [h1.left.mat hi hj, h2 i hi j hj c]
    simp only [mul_comm (m.val _)]
  · have := h1.right.osrc.val i hi l hl
    rw [opnd_eq, mul_comm]
    cases t <;> exact this

/-- C59, partial: `fsyrk` with a block diagonal matrix `D Δ` with blocks of size 1 and antidiagonal blocks of size 2.  Missing: the
vector `twoBlocks` is also read at row indices, so that it must have at least `n/2` entries whatever `k` (see `C59_fsyrkBlk_violated`),
and for a threshold of 1 the recursion may not end. -/
theorem C59_fsyrkBlk_partial (cat : Cat) (hg : GemmOk g) {thr : ℕ} (ht : 2 ≤ thr) (tb : Arr Bool) (alpha beta : K) (hC : Rect m n n C ldc)
    (hA : SyrkArg m t n k A lda C ldc) (hD : OkIn m ⟨D, incD, k, 1⟩) (hi : 0 < incD) (hDC : (Win.mk D incD k 1).Disj ⟨C, ldc, n, n⟩)
    (hDA : (Win.mk D incD k 1).Disj (aw t n k A lda)) (hk : k ≤ tb.len) (hn : n / 2 ≤ tb.len) (hv : Fits tb.get k) :
    Run (fsyrkBlk cat g thr u t k alpha lda D incD tb beta ldc (n + 1) n A C) m (fun _ m' =>
      Only2 m m' ⟨C, ldc, n, n⟩ (aw t n k A lda) ∧
      (∀ i < n, ∀ j < n, inHalf u i j → m'.mat ⟨C, ldc, n, n⟩ i j =
        alpha * ∑ l ∈ range k, opnd m t n k A lda i (partner tb.get l) * m.val (D + lead tb.get l * incD) * opnd m t n k A lda j l +
          beta * m.mat ⟨C, ldc, n, n⟩ i j) ∧
      ∀ i < n, ∀ l < k, opnd m' t n k A lda i l = opnd m t n k A lda i (partner tb.get l) * m.val (D + lead tb.get l * incD)) := by
  have h0 : On2 m m ⟨C, ldc, n, n⟩ (m.mat ⟨C, ldc, n, n⟩) (aw t n k A lda) (op t (opnd m t n k A lda)) :=
    ⟨hC.wf, hC.ok, hA.osrc.ok, hC.ld, hA.osrc.ld, hA.dis.symm, rfl, le_rfl, fun i _ j _ => rfl,
      fun i hi j hj => hA.osrc.src.val i hi j hj, fun _ _ _ _ => rfl⟩
  have hsD : Src m (vw D incD k) (fun l _ => m.val (D + l * incD)) := ⟨hD, hi, fun i _ j hj => by
    have hj : j = 0 := by simpa [vw] using hj
    subst hj; rfl⟩
  refine (fsyrkBlk_ok (d := fun l => m.val (D + l * incD)) cat hg ht hk hv (n + 1) n (by omega) (by omega) hn m A C _ _ h0 hsD hDC hDA).mono ?_
  rintro _ m' ⟨V', h1, h2⟩
  refine ⟨On2.only h1, fun i hi j hj c => ?_, fun i hi l hl => ?_⟩
  · rw [h1.left.mat hi hj, h2 i hi j hj c]
    simp only [blkRow, mul_comm (m.val _)]
  · have := h1.right.osrc.val i hi l hl
    rw [opnd_eq, mul_comm]
    cases t <;> exact this

/-- C59 fails without the condition on `n`: for a `4 × 1` matrix `A` (threshold 2) the vector `twoBlocks` of length 1 is read at 1. -/
theorem C59_fsyrkBlk_violated : ∃ (m : Mem ℚ), Rect m 4 4 0 4 ∧ SyrkArg m .no 4 1 16 1 0 4 ∧ OkIn m ⟨20, 1, 1, 1⟩ ∧ Fits (Arr.ofList [false]).get 1 ∧
    faultOf (fsyrkBlk .generic (gemmClassic .generic) 2 .upper .no 1 1 1 20 1 (Arr.ofList [false]) 0 4 5 4 16 0) m = some .oob := by
  refine ⟨memOf [0,0,0,0, 0,0,0,0, 0,0,0,0, 0,0,0,0, 1,2,3,4, 5], ⟨WF_memOf _, OkIn_memOf (by decide), by decide⟩,
    ⟨OkIn_memOf (by decide), by decide, ?_⟩, OkIn_memOf (by decide), ?_, by decide +kernel⟩
  · exact (Win.Ends.disj (by decide)).symm
  · intro i hi _ h
    have : i = 0 := by omega
    subst this
    simp [Arr.ofList] at h

/-! ### Concrete cases over `ℚ` -/

/-- `A`, `3 × 2`, at 0; `B`, `3 × 2`, at 6; `C`, `3 × 3` with leading dimension 4, at 12; `D` at 24, 26 -/
def syx : Mem ℚ := memOf [1,2, 3,4, 5,6, 0,1, 1,0, 2,2, 1,2,3,77, 4,5,6,77, 7,8,9,77, 2,99,3]

example : Rect syx 3 3 12 4 := ⟨WF_memOf _, OkIn_memOf (by decide), by decide⟩

example : SyrkArg syx .no 3 2 0 2 12 4 := ⟨OkIn_memOf (by decide), by decide, Win.Ends.disj (by decide)⟩

example : SyrkArg syx .no 3 2 6 2 12 4 := ⟨OkIn_memOf (by decide), by decide, Win.Ends.disj (by decide)⟩

example : OkIn syx ⟨24, 2, 2, 1⟩ ∧ (Win.mk 24 2 2 1).Disj ⟨12, 4, 3, 3⟩ ∧ (Win.mk 24 2 2 1).Disj (aw .no 3 2 0 2) :=
  ⟨OkIn_memOf (by decide), (Win.Ends.disj (by decide)).symm, (Win.Ends.disj (by decide)).symm⟩

example : Fits (Arr.ofList [true, false]).get 2 := by
  intro i hi h1 h2
  have : i = 0 ∨ i = 1 := by omega
  rcases this with rfl | rfl
  · omega
  · simp [second, Arr.ofList] at h1

/-- one level of divide and conquer, `alpha = 1`, `beta = 10`, upper triangle -/
example : (List.range 12).map (fun i => after (fsyrk .generic (fsyrkDC (gemmClassic .generic) fsyrkDefault 1) .upper .no 3 2 (1 : ℚ) 0 2 10 12 4) syx (12 + i)) =
    [15, 31, 47, 77, 4, 75, 99, 77, 7, 8, 151, 77].map some := by decide +kernel

/-- `A` and `B`, lower triangle: the entries above the diagonal are overwritten -/
example : (List.range 12).map (fun i => after (fsyr2k .generic (gemmClassic .generic) .lower .no 3 2 (1 : ℚ) 0 2 6 2 1 12 4) syx (12 + i)) =
    [5, 1, 6, 77, 9, 11, 14, 77, 19, 27, 53, 77].map some := by decide +kernel

/-- with a diagonal matrix, threshold 1 -/
example : (List.range 6).map (after (fsyrkDiag .generic (gemmClassic .generic) 1 .upper .no 2 (1 : ℚ) 2 24 2 0 4 4 3 0 12) syx) =
    [2, 6, 6, 12, 10, 18].map some := by decide +kernel

end Verif.Props
