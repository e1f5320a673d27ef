import Verif.Proofs.Trsm
import Verif.Proofs.Trmm

/-!
# Block algorithms on one matrix

`On m0 m W V`: starting from `m0` the code has so far only modified the window `W`, whose contents are now `V`.  The lemmas
`*_on` describe kernels applied to blocks of `W`.
-/

namespace Verif.FF

open Finset

variable {K : Type} [Field K] [DecidableEq K]

/-- `V` with the block at `(i0, j0)` of size `r × c` replaced by `g` -/
def upd (i0 j0 r c : ℕ) (g V : ℕ → ℕ → K) : ℕ → ℕ → K := fun i j =>
  if i0 ≤ i ∧ i < i0 + r ∧ j0 ≤ j ∧ j < j0 + c then g (i - i0) (j - j0) else V i j

/-- the block of `V` at `(i0, j0)` -/
def blk (V : ℕ → ℕ → K) (i0 j0 : ℕ) : ℕ → ℕ → K := fun i j => V (i0 + i) (j0 + j)

section
variable {i0 j0 r c i j : ℕ} {g V : ℕ → ℕ → K}

omit [Field K] [DecidableEq K] in
lemma upd_in (hi : i < r) (hj : j < c) : upd i0 j0 r c g V (i0 + i) (j0 + j) = g i j := by
  unfold upd
  rw [if_pos (by omega), Nat.add_sub_cancel_left, Nat.add_sub_cancel_left]

omit [Field K] [DecidableEq K] in
lemma upd_in' (h : i0 ≤ i ∧ i < i0 + r ∧ j0 ≤ j ∧ j < j0 + c) : upd i0 j0 r c g V i j = g (i - i0) (j - j0) := if_pos h

omit [Field K] [DecidableEq K] in
lemma upd_out (h : i < i0 ∨ i0 + r ≤ i ∨ j < j0 ∨ j0 + c ≤ j) : upd i0 j0 r c g V i j = V i j := by
  unfold upd
  rw [if_neg (by omega)]

end

/-- the state of a block algorithm -/
structure On (m0 m : Mem K) (W : Win) (V : ℕ → ℕ → K) : Prop where
  wf : WF m0
  ok : OkIn m0 W
  ld : W.c ≤ W.ld
  step : Step m0 m W V

section
variable {m0 m m' : Mem K} {W : Win} {V V' : ℕ → ℕ → K} {i0 j0 r c i j : ℕ} {g : ℕ → ℕ → K}

omit [Field K] [DecidableEq K] in
lemma On.start (h1 : WF m) (h2 : OkIn m W) (h3 : W.c ≤ W.ld) : On m m W (m.mat W) := ⟨h1, h2, h3, Step.refl (fun _ _ _ _ => rfl)⟩

omit [Field K] [DecidableEq K] in
lemma On.wf' (h : On m0 m W V) : WF m := h.wf.step h.step
omit [Field K] [DecidableEq K] in
lemma On.ok' (h : On m0 m W V) : OkIn m W := h.ok.step h.step
omit [Field K] [DecidableEq K] in
lemma On.inj (h : On m0 m W V) : W.Inj := Win.Inj_of_le (Or.inl h.ld)
omit [Field K] [DecidableEq K] in
lemma On.val (h : On m0 m W V) (hi : i < W.r) (hj : j < W.c) : m.val (W.adr i j) = V i j := h.step.val i hi j hj
omit [Field K] [DecidableEq K] in
lemma On.mat (h : On m0 m W V) (hi : i < W.r) (hj : j < W.c) : m.mat W i j = V i j := h.step.mat hi hj
omit [Field K] [DecidableEq K] in
lemma On.congr (h : On m0 m W V) (he : ∀ i < W.r, ∀ j < W.c, V i j = V' i j) : On m0 m W V' :=
  ⟨h.wf, h.ok, h.ld, h.step.congr he⟩
omit [Field K] [DecidableEq K] in
lemma On.here (h : On m0 m W V) : On m m W V := ⟨h.wf', h.ok', h.ld, (Step.refl (fun _ _ _ _ => rfl)).congr (fun i hi j hj => h.mat hi hj)⟩
omit [Field K] [DecidableEq K] in
lemma On.trans (h : On m0 m W V) (h' : On m m' W V') : On m0 m' W V' := ⟨h.wf, h.ok, h.ld, h.step.trans h'.step⟩

omit [Field K] [DecidableEq K] in
/-- a kernel has rewritten a block -/
lemma On.upd (h : On m0 m W V) (hr : i0 + r ≤ W.r) (hc : j0 + c ≤ W.c) (s : Step m m' (W.sub i0 j0 r c) g) :
    On m0 m' W (upd i0 j0 r c g V) := by
  refine ⟨h.wf, h.ok, h.ld, (h.step.trans (Step.sub h.inj h.ok' hr hc s)).congr (fun i hi j hj => ?_)⟩
  unfold FF.upd
  by_cases hin : i0 ≤ i ∧ i < i0 + r ∧ j0 ≤ j ∧ j < j0 + c
  · rw [if_pos hin, if_pos hin]
  · rw [if_neg hin, if_neg hin, h.mat hi hj]

omit [Field K] [DecidableEq K] in
/-- contents of a block -/
lemma On.blk (h : On m0 m W V) (hr : i0 + r ≤ W.r) (hc : j0 + c ≤ W.c) (hi : i < r) (hj : j < c) :
    m.mat (W.sub i0 j0 r c) i j = blk V i0 j0 i j := by
  show m.val _ = _
  rw [Win.sub_adr]
  exact h.val (by omega) (by omega)

omit [Field K] [DecidableEq K] in
/-- the state seen by a recursive call on a block -/
lemma On.sub (h : On m0 m W V) (hr : i0 + r ≤ W.r) (hc : j0 + c ≤ W.c) : On m m (W.sub i0 j0 r c) (FF.blk V i0 j0) := by
  refine ⟨h.wf', h.ok'.of_sub hr hc, ?_, (Step.refl (fun _ _ _ _ => rfl)).congr (fun i hi j hj => h.blk hr hc hi hj)⟩
  have := h.ld
  simp only [Win.sub]; omega

omit [DecidableEq K] in
/-- a triangular block and a block to be modified, side by side -/
lemma On.tri (h : On m0 m W V) {e : Uplo} {d : Diag} {ta : Tr} {a b n : ℕ} (ha : a + n ≤ W.r) (hb : b + n ≤ W.c)
    (hr : i0 + r ≤ W.r) (hc : j0 + c ≤ W.c) (hs : a + n ≤ i0 ∨ i0 + r ≤ a ∨ b + n ≤ j0 ∨ j0 + c ≤ b) :
    TrPre m e d ta n (W.adr a b) W.ld (W.sub i0 j0 r c) := by
  have key : ∀ i j, i < n → j < n → ∃ i' < n, ∃ j' < n, opAdr ta (W.adr a b) W.ld i j = W.adr (a + i') (b + j') := by
    intro i j hi hj
    cases ta with
    | no => exact ⟨i, hi, j, hj, by simp only [opAdr, Win.adr]; ring⟩
    | yes => exact ⟨j, hj, i, hi, by simp only [opAdr, Win.adr]; ring⟩
  have hld := h.ld
  refine ⟨h.wf', h.ok'.of_sub hr hc, by simp only [Win.sub]; omega, by omega, fun i hi j hj _ => ?_, fun i hi j hj _ => ?_⟩
  · obtain ⟨i', hi', j', hj', e⟩ := key i j hi hj
    rw [e]; exact h.ok'.adr (by omega) (by omega)
  · obtain ⟨i', hi', j', hj', e⟩ := key i j hi hj
    rw [e]
    rintro ⟨x, hx, y, hy, e'⟩
    have hx : x < r := hx
    have hy : y < c := hy
    rw [Win.sub_adr] at e'
    have := h.inj _ (by omega) _ (by omega) _ (by omega) _ (by omega) e'
    omega

end

omit [DecidableEq K] in
lemma tri_congr {u : Uplo} {d : Diag} {n : ℕ} {X Y : ℕ → ℕ → K} (h : ∀ i < n, ∀ j < n, X i j = Y i j) {i j : ℕ} (hi : i < n)
    (hj : j < n) : Spec.tri u d X i j = Spec.tri u d Y i j := by
  unfold Spec.tri
  rw [h i hi i hi, h i hi j hj]

omit [DecidableEq K] in
lemma op_tri_congr {u : Uplo} {d : Diag} {n : ℕ} {X Y : ℕ → ℕ → K} (ta : Tr) (h : ∀ i < n, ∀ j < n, X i j = Y i j) {i j : ℕ}
    (hi : i < n) (hj : j < n) : Spec.op ta (Spec.tri u d X) i j = Spec.op ta (Spec.tri u d Y) i j := by
  cases ta with
  | no => exact tri_congr h hi hj
  | yes => exact tri_congr h hj hi

/-- type of `ftrsm` and in-place `ftrmm` -/
abbrev TrFn (K : Type) := Side → Uplo → Tr → Diag → ℕ → ℕ → K → ℕ → ℕ → ℕ → ℕ → Prog K Unit

/-- contract of in-place `ftrmm` -/
def TrmmOk (t : TrFn K) : Prop := ∀ (m : Mem K) side u ta d M N alpha A lda B ldb,
  TrPre m (effUplo u ta) d ta (Spec.sideDim side M N) A lda ⟨B, ldb, M, N⟩ →
  Run (t side u ta d M N alpha A lda B ldb) m (fun _ m' => MulEff side m m' u ta d M N alpha A lda B ldb)

/-- contract of `ftrsm` -/
def TrsmOk (t : TrFn K) : Prop := ∀ (m : Mem K) side u ta d M N alpha A lda B ldb,
  TrPre m (effUplo u ta) d ta (Spec.sideDim side M N) A lda ⟨B, ldb, M, N⟩ → DiagNZ m d ta (Spec.sideDim side M N) A lda →
  Run (t side u ta d M N alpha A lda B ldb) m (fun _ m' => SolEff side m m' u ta d M N alpha A lda B ldb)

lemma ftrmm_TrmmOk (cat : Cat) {g : GemmFn K} (hg : GemmOk g) : TrmmOk (ftrmm cat g) :=
  fun _ _ _ _ _ _ _ alpha _ _ _ _ hp => ftrmm_ok cat hg _ _ _ alpha hp

lemma ftrsm_TrsmOk (cat : Cat) {g : GemmFn K} (hg : GemmOk g) : TrsmOk (ftrsm cat g) :=
  fun _ _ _ _ _ _ _ alpha _ _ _ _ hp hd => ftrsm_ok cat hg _ _ _ alpha hp hd

section
variable {m0 m : Mem K} {W : Win} {V : ℕ → ℕ → K} {i0 j0 r c a b n : ℕ} {t : TrFn K} {side : Side} {u : Uplo} {ta : Tr} {d : Diag}

omit [DecidableEq K] in
lemma sideMul_congr {n : ℕ} {T T' X X' : ℕ → ℕ → K} {r c i j : ℕ} (hn : n = Spec.sideDim side r c) (hi : i < r) (hj : j < c)
    (hT : ∀ i < n, ∀ j < n, T i j = T' i j) (hX : ∀ i < r, ∀ j < c, X i j = X' i j) :
    Spec.sideMul side n T X i j = Spec.sideMul side n T' X' i j := by
  cases side with
  | left =>
    simp only [Spec.sideMul, Spec.mul]
    refine sum_congr rfl (fun l hl => ?_)
    have hl := mem_range.1 hl
    rw [hn] at hl
    rw [hT i (by rw [hn]; exact hi) l (by rw [hn]; exact hl), hX l hl j hj]
  | right =>
    simp only [Spec.sideMul, Spec.mul]
    refine sum_congr rfl (fun l hl => ?_)
    have hl := mem_range.1 hl
    rw [hn] at hl
    rw [hT l (by rw [hn]; exact hl) j (by rw [hn]; exact hj), hX i hi l hl]

omit [DecidableEq K] in
/-- in-place triangular product on a block -/
lemma trmm_on (ht : TrmmOk t) (h : On m0 m W V) (alpha : K) (ha : a + Spec.sideDim side r c ≤ W.r) (hb : b + Spec.sideDim side r c ≤ W.c)
    (hr : i0 + r ≤ W.r) (hc : j0 + c ≤ W.c)
    (hs : a + Spec.sideDim side r c ≤ i0 ∨ i0 + r ≤ a ∨ b + Spec.sideDim side r c ≤ j0 ∨ j0 + c ≤ b) :
    Run (t side u ta d r c alpha (W.adr a b) W.ld (W.adr i0 j0) W.ld) m (fun _ m' => On m0 m' W (upd i0 j0 r c (fun i j =>
      alpha * Spec.sideMul side (Spec.sideDim side r c) (Spec.op ta (Spec.tri u d (blk V a b))) (blk V i0 j0) i j) V)) := by
  refine (ht m side u ta d r c alpha (W.adr a b) W.ld (W.adr i0 j0) W.ld (h.tri ha hb hr hc hs)).mono (fun _ m' s => ?_)
  refine h.upd hr hc (Step.congr s (fun i hi j hj => ?_))
  congr 1
  refine sideMul_congr (r := r) (c := c) rfl hi hj (fun i hi j hj => ?_) (fun i hi j hj => h.blk hr hc hi hj)
  exact op_tri_congr ta (fun i hi j hj => h.blk ha hb hi hj) hi hj

omit [DecidableEq K] in
/-- triangular solve on a block -/
lemma trsm_on (ht : TrsmOk t) (h : On m0 m W V) (alpha : K) (ha : a + Spec.sideDim side r c ≤ W.r) (hb : b + Spec.sideDim side r c ≤ W.c)
    (hr : i0 + r ≤ W.r) (hc : j0 + c ≤ W.c)
    (hs : a + Spec.sideDim side r c ≤ i0 ∨ i0 + r ≤ a ∨ b + Spec.sideDim side r c ≤ j0 ∨ j0 + c ≤ b)
    (hd : d = .nonUnit → ∀ i < Spec.sideDim side r c, V (a + i) (b + i) ≠ 0) :
    Run (t side u ta d r c alpha (W.adr a b) W.ld (W.adr i0 j0) W.ld) m (fun _ m' => ∃ X, On m0 m' W (upd i0 j0 r c X V) ∧
      ∀ i < r, ∀ j < c, Spec.sideMul side (Spec.sideDim side r c) (Spec.op ta (Spec.tri u d (blk V a b))) X i j =
        alpha * V (i0 + i) (j0 + j)) := by
  have hdn : DiagNZ m d ta (Spec.sideDim side r c) (W.adr a b) W.ld := fun hu i hi => by
    have e : opAdr ta (W.adr a b) W.ld i i = W.adr (a + i) (b + i) := by cases ta <;> simp only [opAdr, Win.adr] <;> ring
    rw [e, h.val (by omega) (by omega)]
    exact hd hu i hi
  refine (ht m side u ta d r c alpha (W.adr a b) W.ld (W.adr i0 j0) W.ld (h.tri ha hb hr hc hs) hdn).mono (fun _ m' s => ?_)
  obtain ⟨X, s, hX⟩ := s
  refine ⟨X, h.upd hr hc s, fun i hi j hj => ?_⟩
  have := hX i hi j hj
  rw [show m.mat ⟨W.adr i0 j0, W.ld, r, c⟩ i j = V (i0 + i) (j0 + j) from h.blk hr hc hi hj] at this
  rw [← this]
  exact sideMul_congr (r := r) (c := c) rfl hi hj (fun i hi j hj => op_tri_congr ta (fun i hi j hj => (h.blk ha hb hi hj).symm) hi hj)
    (fun _ _ _ _ => rfl)

omit [DecidableEq K] in
/-- matrix product between blocks, without transposition -/
lemma gemm_on {g : GemmFn K} (hg : GemmOk g) (h : On m0 m W V) {k a1 b1 a2 b2 : ℕ} (alpha beta : K) (ha1 : a1 + r ≤ W.r)
    (hb1 : b1 + k ≤ W.c) (ha2 : a2 + k ≤ W.r) (hb2 : b2 + c ≤ W.c) (hr : i0 + r ≤ W.r) (hc : j0 + c ≤ W.c)
    (s1 : a1 + r ≤ i0 ∨ i0 + r ≤ a1 ∨ b1 + k ≤ j0 ∨ j0 + c ≤ b1) (s2 : a2 + k ≤ i0 ∨ i0 + r ≤ a2 ∨ b2 + c ≤ j0 ∨ j0 + c ≤ b2) :
    Run (g .no .no r c k alpha (W.adr a1 b1) W.ld (W.adr a2 b2) W.ld beta (W.adr i0 j0) W.ld) m
      (fun _ m' => On m0 m' W (upd i0 j0 r c (fun i j =>
        alpha * (∑ l ∈ range k, V (a1 + i) (b1 + l) * V (a2 + l) (b2 + j)) + beta * V (i0 + i) (j0 + j)) V)) := by
  have hld := h.ld
  have P : GPre m .no .no r c k (W.adr a1 b1) W.ld (W.adr a2 b2) W.ld (W.adr i0 j0) W.ld :=
    ⟨h.wf', h.ok'.of_sub ha1 hb1, h.ok'.of_sub ha2 hb2, h.ok'.of_sub hr hc, by simp only [opc]; omega, by simp only [opc]; omega,
      by omega, Win.sub_Disj h.inj ha1 hb1 hr hc s1, Win.sub_Disj h.inj ha2 hb2 hr hc s2⟩
  refine (hg _ _ _ _ _ m alpha _ _ _ _ beta _ _ P).mono (fun _ m' s => h.upd hr hc (Step.congr s (fun i hi j hj => ?_)))
  unfold gval
  rw [show m.mat ⟨W.adr i0 j0, W.ld, r, c⟩ i j = V (i0 + i) (j0 + j) from h.blk hr hc hi hj]
  congr 2
  refine sum_congr rfl (fun l hl => ?_)
  have hl := mem_range.1 hl
  exact congrArg₂ (· * ·) (h.blk ha1 hb1 hi hl) (h.blk ha2 hb2 hl hj)

end

end Verif.FF
