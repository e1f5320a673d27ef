import Verif.Proofs.Crout
import Verif.Proofs.OnWin
import Verif.Proofs.Shift

/-!
# Contents of blocks, and kernels on blocks given by address
-/

namespace Verif.FF

open Finset Verif.Perm Verif.Spec Verif.Spec.Perm Verif.Pluq

section
variable {K : Type}

/-- the block of size `h × w` at `(a, b)` contains `f` -/
def At (V : ℕ → ℕ → K) (a b h w : ℕ) (f : ℕ → ℕ → K) : Prop := ∀ i < h, ∀ j < w, V (a + i) (b + j) = f i j

namespace At
variable {V g f f' : ℕ → ℕ → K} {a b h w i0 j0 r c : ℕ}

lemma out (e : At V a b h w f) (d : a + h ≤ i0 ∨ i0 + r ≤ a ∨ b + w ≤ j0 ∨ j0 + c ≤ b) : At (upd i0 j0 r c g V) a b h w f :=
  fun i hi j hj => by rw [upd_out (by omega), e i hi j hj]

lemma outR {σ : ℕ → ℕ} (e : At V a b h w f) (d : a + h ≤ i0 ∨ i0 + r ≤ a ∨ b + w ≤ j0 ∨ j0 + c ≤ b) :
    At (permRows i0 j0 r c σ V) a b h w f := e.out d

lemma outC {σ : ℕ → ℕ} (e : At V a b h w f) (d : a + h ≤ i0 ∨ i0 + r ≤ a ∨ b + w ≤ j0 ∨ j0 + c ≤ b) :
    At (permCols i0 j0 r c σ V) a b h w f := e.out d

lemma new : At (upd a b h w g V) a b h w g := fun i hi j hj => upd_in hi hj

lemma congr (e : At V a b h w f) (hf : ∀ i < h, ∀ j < w, f i j = f' i j) : At V a b h w f' :=
  fun i hi j hj => by rw [e i hi j hj, hf i hi j hj]

lemma sub (e : At V a b h w f) (x y : ℕ) {h' w' : ℕ} (hx : x + h' ≤ h) (hy : y + w' ≤ w) :
    At V (a + x) (b + y) h' w' (fun i j => f (x + i) (y + j)) := fun i hi j hj => by
  rw [Nat.add_assoc, Nat.add_assoc]; exact e _ (by omega) _ (by omega)

/-- the rows from `s` on are permuted -/
lemma rows {σ : ℕ → ℕ} (e : At V a b h w f) (s : ℕ) (h1 : i0 = a + s) (h2 : h = s + r) (h3 : j0 ≤ b) (h4 : b + w ≤ j0 + c)
    (hσ : ∀ i < r, σ i < r) : At (permRows i0 j0 r c σ V) a b h w (fun i j => f (shiftPerm s i σ) j) := fun i hi j hj => by
  subst h1 h2
  simp only [permRows, shiftPerm]
  by_cases c' : i < s
  · rw [upd_out (by omega), if_pos c', e i hi j hj]
  · rw [upd_in' (by omega), if_neg c', show a + i - (a + s) = i - s by omega, Nat.add_assoc, show j0 + (b + j - j0) = b + j by omega]
    exact e _ (by have := hσ (i - s) (by omega); omega) _ hj

lemma cols {σ : ℕ → ℕ} (e : At V a b h w f) (s : ℕ) (h1 : j0 = b + s) (h2 : w = s + c) (h3 : i0 ≤ a) (h4 : a + h ≤ i0 + r)
    (hσ : ∀ i < c, σ i < c) : At (permCols i0 j0 r c σ V) a b h w (fun i j => f i (shiftPerm s j σ)) := fun i hi j hj => by
  subst h1 h2
  simp only [permCols, shiftPerm]
  by_cases c' : j < s
  · rw [upd_out (by omega), if_pos c', e i hi j hj]
  · rw [upd_in' (by omega), if_neg c', show b + j - (b + s) = j - s by omega, Nat.add_assoc, show i0 + (a + i - i0) = a + i by omega]
    exact e _ hi _ (by have := hσ (j - s) (by omega); omega)

/-- all rows of the block are permuted -/
lemma rows0 {σ : ℕ → ℕ} (e : At V a b h w f) (h3 : j0 ≤ b) (h4 : b + w ≤ j0 + c) (hσ : ∀ i < h, σ i < h) :
    At (permRows a j0 h c σ V) a b h w (fun i j => f (σ i) j) :=
  (e.rows 0 rfl (Nat.zero_add _).symm h3 h4 hσ).congr (fun i _ j _ => by simp [shiftPerm])

lemma cols0 {σ : ℕ → ℕ} (e : At V a b h w f) (h3 : i0 ≤ a) (h4 : a + h ≤ i0 + r) (hσ : ∀ i < w, σ i < w) :
    At (permCols i0 b r w σ V) a b h w (fun i j => f i (σ j)) :=
  (e.cols 0 rfl (Nat.zero_add _).symm h3 h4 hσ).congr (fun i _ j _ => by simp [shiftPerm])

end At
end

variable {K : Type} [Field K] [DecidableEq K]
variable {m0 m : Mem K} {W : Win} {V : ℕ → ℕ → K} {i0 j0 r c A B : ℕ}

/-- rows of a block permuted by a whole array -/
lemma rowsP_on {P : Arr ℕ} (h : On m0 m W V) (i0 j0 : ℕ) (hA : A = W.adr i0 j0) (hr : i0 + r ≤ W.r) (hc : j0 + c ≤ W.c) (hP : P.len = r)
    (hp : ∀ i < r, P.get i < r) : Run (applyP .left .no c 0 r A W.ld P) m
      (fun _ m' => On m0 m' W (permRows i0 j0 r c (ofSwaps P.get r) V)) := by
  subst hA
  have := applyP_row (ibeg := 0) (iend := r) .no h hr hc le_rfl hP.ge hp
  simpa only [appliedPerm, Nat.sub_zero, swapsFrom_zero] using this

/-- columns of a block permuted by a whole array -/
lemma colsP_on {P : Arr ℕ} (h : On m0 m W V) (i0 j0 : ℕ) (hA : A = W.adr i0 j0) (hr : i0 + r ≤ W.r) (hc : j0 + c ≤ W.c) (hP : P.len = c)
    (hp : ∀ i < c, P.get i < c) : Run (applyP .right .yes r 0 c A W.ld P) m
      (fun _ m' => On m0 m' W (permCols i0 j0 r c (ofSwaps P.get c) V)) := by
  subst hA
  have := applyP_col (ibeg := 0) (iend := c) .yes h hr hc le_rfl hP.ge hp
  simpa only [appliedPerm, Nat.sub_zero, swapsFrom_zero] using this

omit [DecidableEq K] in
lemma luL_eq (d : Diag) (V : ℕ → ℕ → K) : tri .lower (otherDiag d) V = luL d V := by cases d <;> rfl

/-- solve with the lower factor on the left -/
lemma solveL_on {ts : TrsmFn K} (ht : TrsmOk ts) (h : On m0 m W V) {d : Diag} (a b i0 j0 : ℕ) {f x : ℕ → ℕ → K} (f1 : At V a b r r f)
    (f2 : At V i0 j0 r c x)
    (hA : A = W.adr a b) (hB : B = W.adr i0 j0) (ha : a + r ≤ W.r) (hb : b + r ≤ W.c) (hr : i0 + r ≤ W.r) (hc : j0 + c ≤ W.c)
    (hs : a + r ≤ i0 ∨ i0 + r ≤ a ∨ b + r ≤ j0 ∨ j0 + c ≤ b) (hd : ∀ i < r, f i i ≠ 0) :
    Run (ts .left .lower .no (otherDiag d) r c 1 A W.ld B W.ld) m (fun _ m' => ∃ Y, On m0 m' W (upd i0 j0 r c Y V) ∧
      ∀ i < r, ∀ j < c, ∑ k ∈ range r, luL d f i k * Y k j = x i j) := by
  subst hA hB
  refine (trsm_on (side := .left) (u := .lower) (ta := .no) (d := otherDiag d) ht h 1 ha hb hr hc hs ?_).mono ?_
  · intro _ i hi
    rw [f1 i hi i hi]; exact hd i hi
  · rintro _ m' ⟨Y, s, e⟩
    refine ⟨Y, s, fun i hi j hj => ?_⟩
    rw [← f2 i hi j hj, ← one_mul (V (i0 + i) (j0 + j)), ← e i hi j hj]
    simp only [Spec.sideMul, Spec.mul, Spec.op, Spec.sideDim, luL_eq]
    refine sum_congr rfl (fun k hk => ?_)
    rw [luL_congr (V := f) (V' := blk V a b) (fun _ => (f1 i hi k (mem_range.1 hk)).symm)]

/-- solve with the upper factor on the right -/
lemma solveU_on {ts : TrsmFn K} (ht : TrsmOk ts) (h : On m0 m W V) {d : Diag} (a b i0 j0 : ℕ) {f x : ℕ → ℕ → K} (f1 : At V a b c c f)
    (f2 : At V i0 j0 r c x)
    (hA : A = W.adr a b) (hB : B = W.adr i0 j0) (ha : a + c ≤ W.r) (hb : b + c ≤ W.c) (hr : i0 + r ≤ W.r) (hc : j0 + c ≤ W.c)
    (hs : a + c ≤ i0 ∨ i0 + r ≤ a ∨ b + c ≤ j0 ∨ j0 + c ≤ b) (hd : ∀ i < c, f i i ≠ 0) :
    Run (ts .right .upper .no d r c 1 A W.ld B W.ld) m (fun _ m' => ∃ Y, On m0 m' W (upd i0 j0 r c Y V) ∧
      ∀ i < r, ∀ j < c, ∑ k ∈ range c, Y i k * luU d f k j = x i j) := by
  subst hA hB
  refine (trsm_on (side := .right) (u := .upper) (ta := .no) (d := d) ht h 1 ha hb hr hc hs ?_).mono ?_
  · intro _ i hi
    rw [f1 i hi i hi]; exact hd i hi
  · rintro _ m' ⟨Y, s, e⟩
    refine ⟨Y, s, fun i hi j hj => ?_⟩
    rw [← f2 i hi j hj, ← one_mul (V (i0 + i) (j0 + j)), ← e i hi j hj]
    simp only [Spec.sideMul, Spec.mul, Spec.op, Spec.sideDim]
    refine sum_congr rfl (fun k hk => ?_)
    rw [luU_congr (V := f) (V' := blk V a b) (fun _ => (f1 k (mem_range.1 hk) j hj).symm)]; rfl

omit [DecidableEq K] in
/-- subtraction of a product -/
lemma subMul_on {g : GemmFn K} (hg : GemmOk g) (h : On m0 m W V) (a1 b1 a2 b2 i0 j0 : ℕ) {k : ℕ} {A1 A2 : ℕ} {x y z : ℕ → ℕ → K}
    (f1 : At V a1 b1 r k x) (f2 : At V a2 b2 k c y) (f3 : At V i0 j0 r c z)
    (hA1 : A1 = W.adr a1 b1) (hA2 : A2 = W.adr a2 b2) (hB : B = W.adr i0 j0) (ha1 : a1 + r ≤ W.r)
    (hb1 : b1 + k ≤ W.c) (ha2 : a2 + k ≤ W.r) (hb2 : b2 + c ≤ W.c) (hr : i0 + r ≤ W.r) (hc : j0 + c ≤ W.c)
    (s1 : a1 + r ≤ i0 ∨ i0 + r ≤ a1 ∨ b1 + k ≤ j0 ∨ j0 + c ≤ b1) (s2 : a2 + k ≤ i0 ∨ i0 + r ≤ a2 ∨ b2 + c ≤ j0 ∨ j0 + c ≤ b2) :
    Run (g .no .no r c k (-1) A1 W.ld A2 W.ld 1 B W.ld) m (fun _ m' => ∃ Y, On m0 m' W (upd i0 j0 r c Y V) ∧
      ∀ i < r, ∀ j < c, Y i j = z i j - ∑ l ∈ range k, x i l * y l j) := by
  subst hA1 hA2 hB
  refine (gemm_on hg h (-1) 1 ha1 hb1 ha2 hb2 hr hc s1 s2).mono (fun _ m' h' => ⟨_, h', fun i hi j hj => ?_⟩)
  rw [f3 i hi j hj, one_mul, neg_one_mul, ← sub_eq_neg_add]
  congr 1
  refine sum_congr rfl (fun l hl => ?_)
  have hl := mem_range.1 hl
  rw [f1 i hi l hl, f2 l hl j hj]

omit [DecidableEq K] in
/-- solve with a triangle of `W` on a temporary `T` -/
lemma solveL_on2 {ts : TrsmFn K} (ht : TrsmOk ts) {T : Win} {U : ℕ → ℕ → K} (h : On2 m0 m W V T U) {d : Diag} (a b : ℕ) {f : ℕ → ℕ → K}
    (f1 : At V a b T.r T.r f) (hA : A = W.adr a b) (ha : a + T.r ≤ W.r) (hb : b + T.r ≤ W.c) (hd : ∀ i < T.r, f i i ≠ 0) :
    Run (ts .left .lower .no (otherDiag d) T.r T.c 1 A W.ld T.p T.ld) m (fun _ m' => ∃ Y, On2 m0 m' W V T Y ∧
      ∀ i < T.r, ∀ j < T.c, ∑ k ∈ range T.r, luL d f i k * Y k j = U i j) := by
  subst hA
  have hW := h.left
  have hT := h.right
  have hld := h.ldW
  have ea : ∀ i j, opAdr .no (W.adr a b) W.ld i j = W.adr (a + i) (b + j) := fun i j => by simp only [opAdr, Win.adr]; ring
  have pre : TrPre m (effUplo .lower .no) (otherDiag d) .no (Spec.sideDim .left T.r T.c) (W.adr a b) W.ld ⟨T.p, T.ld, T.r, T.c⟩ :=
    ⟨hW.wf, hT.ok, hT.ld, by simp only [Spec.sideDim]; omega, fun i hi j hj _ => by
      simp only [Spec.sideDim] at hi hj
      rw [ea]; exact hW.ok.adr (by omega) (by omega), fun i hi j hj _ hh => by
      simp only [Spec.sideDim] at hi hj
      rw [ea] at hh
      exact h.disj _ (Win.Has_adr (by omega) (by omega)) hh⟩
  refine (ht m .left .lower .no (otherDiag d) T.r T.c 1 (W.adr a b) W.ld T.p T.ld pre ?_).mono ?_
  · intro _ i hi
    simp only [Spec.sideDim] at hi
    rw [ea, hW.val (by omega) (by omega), f1 i hi i hi]; exact hd i hi
  · rintro _ m' ⟨Y, s, e⟩
    refine ⟨Y, h.ofT ⟨hT.wf, hT.ok, hT.ld, s⟩, fun i hi j hj => ?_⟩
    have e := e i hi j hj
    rw [one_mul, show m.mat ⟨T.p, T.ld, T.r, T.c⟩ i j = U i j from hT.val hi hj] at e
    rw [← e]
    simp only [Spec.sideMul, Spec.mul, Spec.op, Spec.sideDim, luL_eq]
    refine sum_congr rfl (fun k hk => ?_)
    have hk := mem_range.1 hk
    rw [luL_congr (V := f) (V' := m.mat ⟨W.adr a b, W.ld, T.r, T.r⟩) (fun _ => ?_)]
    rw [← f1 i hi k hk]
    exact (hW.blk (i0 := a) (j0 := b) (r := T.r) (c := T.r) ha hb hi hk).symm

omit [DecidableEq K] in
/-- subtraction of a product with a temporary -/
lemma subMul_on2 {g : GemmFn K} (hg : GemmOk g) {T : Win} {U : ℕ → ℕ → K} (h : On2 m0 m W V T U) (a2 b2 i0 j0 : ℕ) {A2 : ℕ}
    {y z : ℕ → ℕ → K} (f2 : At V a2 b2 T.c c y) (f3 : At V i0 j0 T.r c z)
    (hA2 : A2 = W.adr a2 b2) (hB : B = W.adr i0 j0) (ha2 : a2 + T.c ≤ W.r) (hb2 : b2 + c ≤ W.c) (hr : i0 + T.r ≤ W.r) (hc : j0 + c ≤ W.c)
    (s2 : a2 + T.c ≤ i0 ∨ i0 + T.r ≤ a2 ∨ b2 + c ≤ j0 ∨ j0 + c ≤ b2) :
    Run (g .no .no T.r c T.c (-1) T.p T.ld A2 W.ld 1 B W.ld) m (fun _ m' => ∃ Y, On2 m0 m' W (upd i0 j0 T.r c Y V) T U ∧
      ∀ i < T.r, ∀ j < c, Y i j = z i j - ∑ l ∈ range T.c, U i l * y l j) := by
  subst hA2 hB
  have hW := h.left
  have hT := h.right
  have hld := h.ldW
  have P : GPre m .no .no T.r c T.c T.p T.ld (W.adr a2 b2) W.ld (W.adr i0 j0) W.ld :=
    ⟨hW.wf, hT.ok, hW.ok'.of_sub ha2 hb2, hW.ok'.of_sub hr hc, hT.ld, by simp only [opc]; omega,
      by omega, (h.disj.sub_left hr hc).symm, Win.sub_Disj hW.inj ha2 hb2 hr hc s2⟩
  refine (hg _ _ _ _ _ m (-1) _ _ _ _ 1 _ _ P).mono (fun _ m' s => ⟨_, h.ofW (hW.upd hr hc s), fun i hi j hj => ?_⟩)
  unfold gval
  rw [show m.mat ⟨W.adr i0 j0, W.ld, T.r, c⟩ i j = V (i0 + i) (j0 + j) from hW.blk hr hc hi hj, f3 i hi j hj, one_mul, neg_one_mul,
    ← sub_eq_neg_add]
  congr 1
  refine sum_congr rfl (fun l hl => ?_)
  have hl := mem_range.1 hl
  exact congrArg₂ (· * ·) (hT.val hi hl) ((hW.blk ha2 hb2 hl hj).trans (f2 l hl j hj))

/-- the block `O` -/
lemma pluqO_on {g : GemmFn K} {ts : TrsmFn K} (hg : GemmOk g) (ht : TrsmOk ts) (h : On m0 m W V) {d : Diag} {m1 n1 R1 R2 R3 n2' : ℕ}
    {G A4 F : ℕ} {l i x u : ℕ → ℕ → K}
    (hG : G = W.adr m1 R1) (hA4 : A4 = W.adr m1 n1) (hF : F = W.adr R1 n1) (h1 : R1 + R2 ≤ m1) (h2 : R1 + R3 ≤ n1) (h3 : m1 + R3 ≤ W.r)
    (h4 : n1 + R2 + n2' ≤ W.c) (fl : At V m1 R1 R3 R3 l) (fi : At V m1 n1 R3 R2 i) (fx : At V m1 (n1 + R2) R3 n2' x)
    (fu : At V R1 (n1 + R2) R2 n2' u) (hd : ∀ k < R3, l k k ≠ 0) :
    Run (pluqO g ts d W.ld R2 R3 n2' G A4 F) m (fun _ m' => ∃ Y, On m0 m' W (upd m1 (n1 + R2) R3 n2' Y V) ∧
      ∀ a < R3, ∀ b < n2', ∑ k ∈ range R3, luL d l a k * Y k b = x a b - ∑ k ∈ range R2, i a k * u k b) := by
  have e1 : A4 + R2 = W.adr m1 (n1 + R2) := by rw [hA4, Win.adr_add_col]
  have e2 : F + R2 = W.adr R1 (n1 + R2) := by rw [hF, Win.adr_add_col]
  unfold pluqO
  rw [e1, e2]
  simp only [Run_bind, Run_alloc]
  obtain ⟨U, h2'⟩ := On2.start (r := R3) (c := R2) h
  change Run _ (m.grow (R3 * R2)) _
  generalize hmm : m.next = tp at *
  have et : tp = (Win.mk tp R2 R3 R2).adr 0 0 := by simp
  have hf := fassign_on (W := ⟨tp, R2, R3, R2⟩) (i0 := 0) (j0 := 0) (r := R3) (c := R2) (a := m1) (b := n1) h2'.right h2'.left h2'.disj.symm (by simp) (by simp) (by omega) (by omega)
  rw [← et, ← hA4] at hf
  refine hf.mono (fun _ ma ha => ?_)
  have g1 := h2'.ofT ha
  have g1' := g1.ofT (g1.right.congr (V' := i) (fun a ha b hb => by
    have ha : a < R3 := ha
    have hb : b < R2 := hb
    rw [upd_in' (by omega)]; exact fi _ ha _ hb))
  refine (solveL_on2 ht g1' m1 R1 fl hG h3 (by simp only []; omega) hd).mono ?_
  rintro _ mb ⟨Y, g2, eY⟩
  have hW := g2.left
  refine (solveL_on ht hW m1 R1 m1 (n1 + R2) fl fx hG rfl h3 (by omega) h3 (by omega) (by omega) hd).mono ?_
  rintro _ mc ⟨Z, s3, eZ⟩
  have g3 := g2.ofW s3
  have fu' : At (upd m1 (n1 + R2) R3 n2' Z V) R1 (n1 + R2) R2 n2' u := fu.out (by omega)
  refine (subMul_on2 hg g3 R1 (n1 + R2) m1 (n1 + R2) fu' At.new rfl rfl (by simp only []; omega) (by omega) h3 (by omega) (by simp only []; omega)).mono ?_
  rintro _ md ⟨Y', g4, eY'⟩
  rw [Run_free]
  refine ⟨Y', ?_, fun a ha b hb => ?_⟩
  · subst hmm
    refine (On2.stop h g4).congr (fun a _ b _ => ?_)
    by_cases hin : m1 ≤ a ∧ a < m1 + R3 ∧ n1 + R2 ≤ b ∧ b < n1 + R2 + n2'
    · rw [upd_in' hin, upd_in' hin]
    · rw [upd_out (by simp only []; omega), upd_out (by omega), upd_out (by omega)]
  · have eY' : ∀ i < R3, ∀ j < n2', Y' i j = Z i j - ∑ l ∈ range R2, Y i l * u l j := eY'
    have eY : ∀ i_1 < R3, ∀ j < R2, ∑ k ∈ range R3, luL d l i_1 k * Y k j = i i_1 j := eY
    rw [← eZ a ha b hb, show ∑ k ∈ range R2, i a k * u k b = ∑ k ∈ range R3, luL d l a k * ∑ t ∈ range R2, Y k t * u t b from ?_,
      ← sum_sub_distrib]
    · refine sum_congr rfl (fun k hk => ?_)
      rw [eY' k (mem_range.1 hk) b hb, mul_sub]
    · simp only [mul_sum]
      rw [sum_comm]
      refine sum_congr rfl (fun t ht => ?_)
      rw [← eY a ha t (mem_range.1 ht), sum_mul]
      exact sum_congr rfl (fun k _ => by ring)

end Verif.FF
