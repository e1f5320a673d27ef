import Verif.Model.Ftrtr
import Verif.Proofs.OnWin

/-!
# Proofs for triangular inversion and `ftrtrm`
-/

namespace Verif.FF

open Finset

variable {K : Type} [Field K] [DecidableEq K]

omit [DecidableEq K] in
lemma tri_eq (u : Uplo) (d : Diag) (X : ℕ → ℕ → K) (i j : ℕ) : Spec.tri u d X i j =
    if i = j then (match d with | .unit => 1 | .nonUnit => X i i) else if below u i j then X i j else 0 := by
  cases u <;> rfl

section
variable {u : Uplo} {d : Diag} {X Z : ℕ → ℕ → K} {i j f n : ℕ}

omit [DecidableEq K] in
lemma tri_below (h : below u i j) : Spec.tri u d X i j = X i j := by
  rw [tri_eq, if_neg, if_pos h]
  rintro rfl
  cases u <;> simp [below] at h

omit [DecidableEq K] in
lemma tri_above (h : below u j i) : Spec.tri u d X i j = 0 := by
  rw [tri_eq, if_neg, if_neg]
  · cases u <;> simp only [below] at * <;> omega
  · rintro rfl
    cases u <;> simp [below] at h

omit [DecidableEq K] in
lemma tri_blk (X : ℕ → ℕ → K) (f i j : ℕ) : Spec.tri u d X (f + i) (f + j) = Spec.tri u d (blk X f f) i j := by
  rw [tri_eq, tri_eq]
  simp only [below_add, Nat.add_left_cancel_iff, blk]

/-- `Z` stores the inverse of the triangular matrix stored in `X`, and agrees with `X` elsewhere -/
def InvF (u : Uplo) (d : Diag) (n : ℕ) (X Z : ℕ → ℕ → K) : Prop :=
  (∀ i < n, ∀ j < n, ¬ inT u d i j → Z i j = X i j) ∧
    ∀ i < n, ∀ j < n, ∑ l ∈ range n, Spec.tri u d Z i l * Spec.tri u d X l j = if i = j then 1 else 0

omit [DecidableEq K] in
lemma InvF.congr {X' Z' : ℕ → ℕ → K} (h : InvF u d n X Z) (hX : ∀ i < n, ∀ j < n, X i j = X' i j)
    (hZ : ∀ i < n, ∀ j < n, Z i j = Z' i j) : InvF u d n X' Z' := by
  refine ⟨fun i hi j hj hn => by rw [← hX i hi j hj, ← hZ i hi j hj]; exact h.1 i hi j hj hn, fun i hi j hj => ?_⟩
  rw [← h.2 i hi j hj]
  refine sum_congr rfl (fun l hl => ?_)
  have hl := mem_range.1 hl
  rw [tri_congr hZ hi hl, tri_congr hX hl hj]

omit [DecidableEq K] in
lemma inv_split {f0 nf s0 ns : ℕ} (hc : Cut n f0 nf s0 ns) (hb : ∀ i < nf, ∀ j < ns, below u (f0 + i) (s0 + j))
    {ZF ZS : ℕ → ℕ → K} (h1 : InvF u d nf (blk X f0 f0) ZF) (h2 : InvF u d ns (blk X s0 s0) ZS)
    (hF : ∀ i < nf, ∀ j < nf, ZF i j = Z (f0 + i) (f0 + j)) (hS : ∀ i < ns, ∀ j < ns, ZS i j = Z (s0 + i) (s0 + j))
    (ho : ∀ i < nf, ∀ j < ns, Z (f0 + i) (s0 + j) =
      -∑ b ∈ range ns, (∑ a ∈ range nf, Spec.tri u d ZF i a * X (f0 + a) (s0 + b)) * Spec.tri u d ZS b j)
    (hz : ∀ i < ns, ∀ j < nf, Z (s0 + i) (f0 + j) = X (s0 + i) (f0 + j)) : InvF u d n X Z := by
  have ho : ∀ i < nf, ∀ j < ns, Z (f0 + i) (s0 + j) =
      -∑ b ∈ range ns, (∑ a ∈ range nf, Spec.tri u d (blk Z f0 f0) i a * X (f0 + a) (s0 + b)) * Spec.tri u d (blk Z s0 s0) b j := by
    intro i hi j hj
    rw [ho i hi j hj]
    congr 1
    refine sum_congr rfl (fun b hb => ?_)
    rw [tri_congr (Y := blk Z s0 s0) hS (mem_range.1 hb) hj]
    congr 1
    exact sum_congr rfl (fun a ha => by rw [tri_congr (Y := blk Z f0 f0) hF hi (mem_range.1 ha)])
  have h1 := h1.congr (Z' := blk Z f0 f0) (fun _ _ _ _ => rfl) hF
  have h2 := h2.congr (Z' := blk Z s0 s0) (fun _ _ _ _ => rfl) hS
  have inTshift : ∀ f i j, inT u d i j → inT u d (f + i) (f + j) := by
    intro f i j hh
    rcases hh with hh | ⟨rfl, hh⟩
    · exact Or.inl ((below_add ..).2 hh)
    · exact Or.inr ⟨rfl, hh⟩
  constructor
  · intro i hi j hj hn
    rcases hc.cases hi with ⟨i, hi', rfl⟩ | ⟨i, hi', rfl⟩ <;> rcases hc.cases hj with ⟨j, hj', rfl⟩ | ⟨j, hj', rfl⟩
    · exact h1.1 i hi' j hj' (fun hh => hn (inTshift _ _ _ hh))
    · exact absurd (Or.inl (hb i hi' j hj')) hn
    · exact hz i hi' j hj'
    · exact h2.1 i hi' j hj' (fun hh => hn (inTshift _ _ _ hh))
  · intro i hi j hj
    rw [hc.sum_eq]
    have hdj := hc.disj
    rcases hc.cases hi with ⟨i, hi', rfl⟩ | ⟨i, hi', rfl⟩ <;> rcases hc.cases hj with ⟨j, hj', rfl⟩ | ⟨j, hj', rfl⟩
    · simp only [tri_blk]
      rw [h1.2 i hi' j hj']
      have z : ∑ l ∈ range ns, Spec.tri u d Z (f0 + i) (s0 + l) * Spec.tri u d X (s0 + l) (f0 + j) = 0 :=
        sum_eq_zero (fun l hl => by rw [tri_above (i := s0 + l) (hb j hj' l (mem_range.1 hl)), mul_zero])
      rw [z, add_zero]
      simp only [Nat.add_left_cancel_iff]
    · rw [if_neg (by omega)]
      simp only [tri_blk]
      have e1 : ∑ l ∈ range ns, Spec.tri u d Z (f0 + i) (s0 + l) * Spec.tri u d (blk X s0 s0) l j =
          - ∑ l ∈ range nf, Spec.tri u d (blk Z f0 f0) i l * X (f0 + l) (s0 + j) := by
        have : ∀ l ∈ range ns, Spec.tri u d Z (f0 + i) (s0 + l) * Spec.tri u d (blk X s0 s0) l j =
            -∑ b ∈ range ns, (∑ a ∈ range nf, Spec.tri u d (blk Z f0 f0) i a * X (f0 + a) (s0 + b)) *
              (Spec.tri u d (blk Z s0 s0) b l * Spec.tri u d (blk X s0 s0) l j) := by
          intro l hl
          have hl := mem_range.1 hl
          rw [tri_below (hb i hi' l hl), ho i hi' l hl, neg_mul, sum_mul]
          congr 1
          refine sum_congr rfl (fun b _ => ?_)
          rw [mul_assoc]
        rw [sum_congr rfl this, sum_neg_distrib, sum_comm]
        congr 1
        simp only [← mul_sum]
        rw [sum_eq_single j]
        · rw [h2.2 j hj' j hj', if_pos rfl, mul_one]
        · intro b hb' hne
          rw [h2.2 b (mem_range.1 hb') j hj', if_neg hne, mul_zero]
        · intro hh; exact absurd (mem_range.2 hj') hh
      rw [e1]
      have e2 : ∑ l ∈ range nf, Spec.tri u d (blk Z f0 f0) i l * Spec.tri u d X (f0 + l) (s0 + j) =
          ∑ l ∈ range nf, Spec.tri u d (blk Z f0 f0) i l * X (f0 + l) (s0 + j) :=
        sum_congr rfl (fun l hl => by rw [tri_below (hb l (mem_range.1 hl) j hj')])
      rw [e2, add_neg_cancel]
    · rw [if_neg (by omega)]
      have z1 : ∑ l ∈ range nf, Spec.tri u d Z (s0 + i) (f0 + l) * Spec.tri u d X (f0 + l) (f0 + j) = 0 :=
        sum_eq_zero (fun l hl => by rw [tri_above (i := s0 + i) (hb l (mem_range.1 hl) i hi'), zero_mul])
      have z2 : ∑ l ∈ range ns, Spec.tri u d Z (s0 + i) (s0 + l) * Spec.tri u d X (s0 + l) (f0 + j) = 0 :=
        sum_eq_zero (fun l hl => by rw [tri_above (i := s0 + l) (hb j hj' l (mem_range.1 hl)), mul_zero])
      rw [z1, z2, add_zero]
    · have z1 : ∑ l ∈ range nf, Spec.tri u d Z (s0 + i) (f0 + l) * Spec.tri u d X (f0 + l) (s0 + j) = 0 :=
        sum_eq_zero (fun l hl => by rw [tri_above (i := s0 + i) (hb l (mem_range.1 hl) i hi'), zero_mul])
      rw [z1, zero_add]
      simp only [tri_blk, h2.2 i hi' j hj', Nat.add_left_cancel_iff]

end

section
variable {m0 m : Mem K} {W : Win} {V X : ℕ → ℕ → K} {u : Uplo} {d : Diag} {a b n A lda : ℕ}
  {t : TrFn K} {g : GemmFn K}

/-- `F.invin` on an entry -/
lemma invCell_on (h : On m0 m W V) (ha : a < W.r) (hb : b < W.c) (hz : V a b ≠ 0) :
    Run (invCell (W.adr a b)) m (fun _ m' => On m0 m' W (upd a b 1 1 (fun _ _ => (V a b)⁻¹) V)) := by
  unfold invCell
  have ok := h.ok'.adr ha hb
  simp only [Run_bind, Run_load, Run_liftE, Run_store, ok, true_and, h.val ha hb, Ok_invE]
  refine ⟨hz, h.upd (i0 := a) (j0 := b) (r := 1) (c := 1) (by omega) (by omega) ⟨rfl, le_rfl, ?_, ?_⟩⟩
  · intro i hi j hj
    have hi : i = 0 := by simpa [Win.sub] using hi
    have hj : j = 0 := by simpa [Win.sub] using hj
    subst hi hj
    simp [Win.sub, Mem.set, Win.adr]
  · intro x _ hx
    have : x ≠ W.adr a b := by
      rintro rfl
      exact hx ⟨0, Nat.one_pos, 0, Nat.one_pos, by rw [Win.sub_adr, Nat.add_zero, Nat.add_zero]⟩
    simp [Mem.set, Function.update_of_ne this]

/-- contents after the diagonal entry `a` has been inverted -/
def invDiag (d : Diag) (a : ℕ) (V : ℕ → ℕ → K) : ℕ → ℕ → K := match d with
  | .unit => V
  | .nonUnit => upd a a 1 1 (fun _ _ => (V a a)⁻¹) V

omit [DecidableEq K] in
lemma invDiag_ne {i j : ℕ} (h : i ≠ a ∨ j ≠ a) : invDiag d a V i j = V i j := by
  cases d with
  | unit => rfl
  | nonUnit =>
    simp only [invDiag]
    rw [upd_out (by omega)]

omit [DecidableEq K] in
lemma invDiag_one (hz : d = .nonUnit → X a a ≠ 0) (hV : V a a = X a a) :
    InvF u d 1 (blk X a a) (blk (invDiag d a V) a a) := by
  refine ⟨fun i hi j hj hn => ?_, fun i hi j hj => ?_⟩
  · have hi : i = 0 := by omega
    have hj : j = 0 := by omega
    subst hi hj
    cases d with
    | unit => exact hV
    | nonUnit => exact absurd (Or.inr ⟨rfl, rfl⟩) hn
  · have hi : i = 0 := by omega
    have hj : j = 0 := by omega
    subst hi hj
    cases d with
    | unit => simp [Spec.tri]
    | nonUnit =>
      simp only [sum_range_one, Spec.tri, if_true, blk, invDiag]
      rw [upd_in (i := 0) (j := 0) Nat.one_pos Nat.one_pos, Nat.add_zero, hV, inv_mul_cancel₀ (hz rfl)]

lemma diag_on (h : On m0 m W V) (ha : a < W.r) (hb : a < W.c) (hz : d = .nonUnit → V a a ≠ 0) :
    Run (match d with
      | .nonUnit => invCell (W.adr a a)
      | .unit => pure ()) m (fun _ m' => On m0 m' W (invDiag d a V)) := by
  cases d with
  | unit => exact (Run_pure ..).2 h
  | nonUnit => exact invCell_on h ha hb (hz rfl)

lemma trtriDiag_on (h : On m0 m W V) (ha : a < W.r) (hb : a < W.c) (hz : d = .nonUnit → V a a ≠ 0) :
    Run (trtriDiag d (W.adr a a)) m (fun nd m' => On m0 m' W (invDiag d a V) ∧ nd = -Spec.tri u d (blk (invDiag d a V) a a) 0 0) := by
  cases d with
  | unit => exact (Run_pure ..).2 ⟨h, by simp [Spec.tri]⟩
  | nonUnit =>
    unfold trtriDiag
    simp only [Run_bind]
    refine (invCell_on h ha hb (hz rfl)).mono (fun _ m1 h1 => ?_)
    rw [Run_load]
    refine ⟨h1.ok'.adr ha hb, (Run_pure ..).2 ⟨h1, ?_⟩⟩
    rw [h1.val ha hb]
    simp [Spec.tri, blk, invDiag]

omit [Field K] [DecidableEq K] in
lemma blk_blk (X : ℕ → ℕ → K) (a b c e : ℕ) : blk (blk X a b) c e = blk X (a + c) (b + e) := by
  funext i j
  simp only [blk, Nat.add_assoc]

/-- One step of the base case: row `f` of the matrix is added to the inverted block at `s`. -/
lemma base_step (ht : TrmmOk t) {Z : ℕ → ℕ → K} {f0 s0 ns : ℕ} (h : On m0 m W Z) (hc : Cut (ns + 1) f0 1 s0 ns) (hr : b + ns + 1 ≤ W.r)
    (hcw : b + ns + 1 ≤ W.c) (hb : ∀ j < ns, below u f0 (s0 + j)) (hI : InvF u d ns (blk X (b + s0) (b + s0)) (blk Z (b + s0) (b + s0)))
    (hrow : ∀ j < ns + 1, Z (b + f0) (b + j) = X (b + f0) (b + j)) (hcol : ∀ j < ns + 1, Z (b + j) (b + f0) = X (b + j) (b + f0))
    (hz : d = .nonUnit → X (b + f0) (b + f0) ≠ 0) :
    Run (do
      let nd ← trtriDiag d (W.adr (b + f0) (b + f0))
      t .right u .no d 1 ns nd (W.adr (b + s0) (b + s0)) W.ld (W.adr (b + f0) (b + s0)) W.ld) m (fun _ m' =>
        ∃ Z', On m0 m' W Z' ∧ InvF u d (ns + 1) (blk X b b) (blk Z' b b) ∧
          ∀ i j, i ≠ b + f0 ∨ j < b ∨ b + ns + 1 ≤ j → Z' i j = Z i j) := by
  have hsum := hc.sum
  have hf := hc.hf
  have hs := hc.hs
  have hdj := hc.disj
  have hZf := hrow f0 (by omega)
  simp only [Run_bind]
  refine (trtriDiag_on (u := u) h (a := b + f0) (by omega) (by omega) (fun hd => by rw [hZf]; exact hz hd)).mono (fun nd m3 h3 => ?_)
  obtain ⟨h3, rfl⟩ := h3
  refine (trmm_on (side := .right) (u := u) (ta := .no) (d := d) ht h3 _ (a := b + s0) (b := b + s0) (i0 := b + f0) (j0 := b + s0)
    (r := 1) (c := ns) (by simp only [Spec.sideDim]; omega) (by simp only [Spec.sideDim]; omega) (by omega) (by omega)
    (by simp only [Spec.sideDim]; omega)).mono (fun _ m4 h4 => ?_)
  set D := invDiag d (b + f0) Z with hD
  have hin : ∀ j < ns, upd (b + f0) (b + s0) 1 ns (fun i j => -Spec.tri u d (blk D (b + f0) (b + f0)) 0 0 *
      Spec.sideMul .right (Spec.sideDim .right 1 ns) (Spec.op .no (Spec.tri u d (blk D (b + s0) (b + s0))))
        (blk D (b + f0) (b + s0)) i j) D (b + f0) (b + s0 + j) = -Spec.tri u d (blk D (b + f0) (b + f0)) 0 0 *
      Spec.sideMul .right (Spec.sideDim .right 1 ns) (Spec.op .no (Spec.tri u d (blk D (b + s0) (b + s0))))
        (blk D (b + f0) (b + s0)) 0 j := fun j hj => upd_in (i := 0) Nat.one_pos hj
  have hout : ∀ i j, i ≠ b + f0 ∨ j < b + s0 ∨ b + s0 + ns ≤ j → upd (b + f0) (b + s0) 1 ns (fun i j => -Spec.tri u d (blk D (b + f0) (b + f0)) 0 0 *
      Spec.sideMul .right (Spec.sideDim .right 1 ns) (Spec.op .no (Spec.tri u d (blk D (b + s0) (b + s0))))
        (blk D (b + f0) (b + s0)) i j) D i j = D i j := fun i j hh => upd_out (by omega)
  generalize upd (b + f0) (b + s0) 1 ns (fun i j => -Spec.tri u d (blk D (b + f0) (b + f0)) 0 0 *
      Spec.sideMul .right (Spec.sideDim .right 1 ns) (Spec.op .no (Spec.tri u d (blk D (b + s0) (b + s0))))
        (blk D (b + f0) (b + s0)) i j) D = Z' at h4 hin hout
  refine ⟨Z', h4, ?_, fun i j hh => by rw [hout i j (by omega), hD, invDiag_ne (by omega)]⟩
  refine inv_split hc (ZF := blk D (b + f0) (b + f0)) (ZS := blk D (b + s0) (b + s0)) (fun i hi j hj => ?_) ?_ ?_ ?_ ?_ ?_ ?_
  · have hi : i = 0 := by omega
    subst hi
    exact hb j hj
  · rw [blk_blk]
    exact invDiag_one hz hZf
  · rw [blk_blk]
    refine hI.congr (fun _ _ _ _ => rfl) (fun i hi j hj => ?_)
    simp only [blk]
    rw [hD, invDiag_ne (by omega)]
  · intro i hi j hj
    simp only [blk]
    rw [hout _ _ (by omega), Nat.add_assoc, Nat.add_assoc]
  · intro i hi j hj
    simp only [blk]
    rw [hout _ _ (by omega), Nat.add_assoc, Nat.add_assoc]
  · intro i hi j hj
    have hi : i = 0 := by omega
    subst hi
    have := hin j hj
    simp only [Nat.add_assoc] at this
    simp only [blk, Nat.add_zero, Nat.add_assoc]
    rw [this]
    simp only [Spec.sideMul, Spec.sideDim, Spec.mul, Spec.op, sum_range_one, Nat.add_zero]
    rw [neg_mul, mul_sum]
    congr 1
    refine sum_congr rfl (fun l hl => ?_)
    have hl := mem_range.1 hl
    rw [← mul_assoc]
    have e : D (b + f0) (b + (s0 + l)) = X (b + f0) (b + (s0 + l)) := by
      rw [hD, invDiag_ne (by omega)]
      exact hrow (s0 + l) (by omega)
    congr 2
    simp only [blk, Nat.add_zero, Nat.add_assoc]
    exact e
  · intro i hi j hj
    have hj : j = 0 := by omega
    subst hj
    simp only [blk]
    rw [hout _ _ (by omega), hD, invDiag_ne (by omega)]
    exact hcol (s0 + i) (by omega)

/-- Base case. -/
lemma ftrtriBase_on (ht : TrmmOk t) (hn : 1 ≤ n) (h : On m m ⟨A, lda, n, n⟩ X) (hz : d = .nonUnit → ∀ i < n, X i i ≠ 0) :
    Run (ftrtriBase t u d lda n A) m (fun _ m' => ∃ Z, On m m' ⟨A, lda, n, n⟩ Z ∧ InvF u d n X Z) := by
  set W : Win := ⟨A, lda, n, n⟩ with hW
  have hWr : W.r = n := rfl
  have hWc : W.c = n := rfl
  have ea : ∀ a, A + a * (lda + 1) = W.adr a a := fun a => by simp only [hW, Win.adr]; ring
  cases u with
  | upper =>
    unfold ftrtriBase
    rw [Run_bind]
    simp only [ea]
    refine (diag_on (a := n - 1) h (by omega) (by omega) (fun hd => hz hd _ (by omega))).mono (fun _ m1 h1 => ?_)
    refine (Run_loop (fun k m' => ∃ Z, On m m' W Z ∧ InvF .upper d (k + 1) (blk X (n - 1 - k) (n - 1 - k)) (blk Z (n - 1 - k) (n - 1 - k)) ∧
      ∀ i < n, ∀ j < n, (i < n - 1 - k ∨ j < n - 1 - k) → Z i j = X i j) ?_ ?_).mono (fun _ m' h' => ?_)
    · exact ⟨_, h1, invDiag_one (fun hd => hz hd _ (by omega)) rfl, fun i hi j hj hh => invDiag_ne (by omega)⟩
    · rintro k m2 hk ⟨Z, h2, hI, hout⟩
      generalize hli : n - 1 - 1 - k = li
      have e1 : n - 1 - k = li + 1 := by omega
      have e2 : n - 1 - (k + 1) = li := by omega
      have e3 : n - li - 1 = k + 1 := by omega
      rw [e1] at hI hout
      simp only [e2, e3]
      have e4 : W.adr li li + 1 = W.adr li (li + 1) := by simp only [Win.adr]; ring
      rw [e4]
      refine (base_step (u := .upper) (b := li) (f0 := 0) (s0 := 1) (ns := k + 1) (X := X) ht h2 ⟨by omega, Or.inl ⟨rfl, rfl⟩⟩ (by omega) (by omega)
        (fun j hj => by simp only [below]; omega) hI (fun j hj => hout _ (by omega) _ (by omega) (by omega))
        (fun j hj => hout _ (by omega) _ (by omega) (by omega)) (fun hd => hz hd _ (by omega))).mono (fun _ m3 h3 => ?_)
      obtain ⟨Z', h3, hI', ho⟩ := h3
      refine ⟨Z', h3, hI', fun i hi j hj hh => ?_⟩
      rw [ho i j (by omega), hout i hi j hj (by omega)]
    · obtain ⟨Z, h2, hI, _⟩ := h'
      refine ⟨Z, h2, ?_⟩
      have e1 : n - 1 + 1 = n := by omega
      have e2 : n - 1 - (n - 1) = 0 := by omega
      rw [e1, e2] at hI
      exact hI.congr (fun i _ j _ => by simp [blk]) (fun i _ j _ => by simp [blk])
  | lower =>
    unfold ftrtriBase
    rw [Run_bind]
    have e0 : A = W.adr 0 0 := by simp [hW, Win.adr]
    have e5 : ∀ a, A + a * lda = W.adr a 0 := fun a => by simp [hW, Win.adr]
    simp only [ea, e5]
    simp only [e0]
    refine (diag_on (a := 0) h (by omega) (by omega) (fun hd => hz hd _ (by omega))).mono (fun _ m1 h1 => ?_)
    refine (Run_loop (fun k m' => ∃ Z, On m m' W Z ∧ InvF .lower d (k + 1) (blk X 0 0) (blk Z 0 0) ∧
      ∀ i < n, ∀ j < n, (k < i ∨ k < j) → Z i j = X i j) ?_ ?_).mono (fun _ m' h' => ?_)
    · exact ⟨_, h1, invDiag_one (fun hd => hz hd _ (by omega)) rfl, fun i hi j hj hh => invDiag_ne (by omega)⟩
    · rintro k m2 hk ⟨Z, h2, hI, hout⟩
      have := base_step (u := .lower) (d := d) (b := 0) (f0 := k + 1) (s0 := 0) (ns := k + 1) (X := X) ht h2 ⟨by omega, Or.inr ⟨rfl, rfl⟩⟩ (by omega) (by omega)
        (fun j hj => by simp only [below]; omega) hI (fun j hj => hout _ (by omega) _ (by omega) (by omega))
        (fun j hj => hout _ (by omega) _ (by omega) (by omega)) (fun hd => hz hd _ (by omega))
      simp only [Nat.zero_add] at this
      rw [Nat.add_comm 1 k]
      refine this.mono (fun _ m3 h3 => ?_)
      obtain ⟨Z', h3, hI', ho⟩ := h3
      refine ⟨Z', h3, hI', fun i hi j hj hh => ?_⟩
      rw [ho i j (by omega), hout i hi j hj (by omega)]
    · obtain ⟨Z, h2, hI, _⟩ := h'
      refine ⟨Z, h2, ?_⟩
      have e1 : n - 1 + 1 = n := by omega
      rw [e1] at hI
      exact hI.congr (fun i _ j _ => by simp [blk]) (fun i _ j _ => by simp [blk])

/-- The two triangular products of the recursive case. -/
lemma off_step (ht : TrmmOk t) {f0 nf s0 ns : ℕ} (h : On m0 m W V) (hc : Cut n f0 nf s0 ns) (hr : n ≤ W.r) (hcw : n ≤ W.c) :
    Run (do
      t .left u .no d nf ns 1 (W.adr f0 f0) W.ld (W.adr f0 s0) W.ld
      t .right u .no d nf ns (-1) (W.adr s0 s0) W.ld (W.adr f0 s0) W.ld) m (fun _ m' => ∃ Z, On m0 m' W Z ∧
        (∀ i < nf, ∀ j < ns, Z (f0 + i) (s0 + j) = -∑ b ∈ range ns, (∑ a ∈ range nf, Spec.tri u d (blk V f0 f0) i a * V (f0 + a) (s0 + b)) *
          Spec.tri u d (blk V s0 s0) b j) ∧
        ∀ i j, i < f0 ∨ f0 + nf ≤ i ∨ j < s0 ∨ s0 + ns ≤ j → Z i j = V i j) := by
  have hsum := hc.sum
  have hf := hc.hf
  have hs := hc.hs
  have hdj := hc.disj
  have hd2 : f0 + nf ≤ s0 ∨ s0 + ns ≤ f0 := by have := hc.pos; omega
  simp only [Run_bind]
  refine (trmm_on (side := .left) (u := u) (ta := .no) (d := d) ht h 1 (a := f0) (b := f0) (i0 := f0) (j0 := s0)
    (r := nf) (c := ns) (by simp only [Spec.sideDim]; omega) (by simp only [Spec.sideDim]; omega) (by omega) (by omega)
    (by simp only [Spec.sideDim]; omega)).mono (fun _ m1 h1 => ?_)
  refine (trmm_on (side := .right) (u := u) (ta := .no) (d := d) ht h1 (-1) (a := s0) (b := s0) (i0 := f0) (j0 := s0)
    (r := nf) (c := ns) (by simp only [Spec.sideDim]; omega) (by simp only [Spec.sideDim]; omega) (by omega) (by omega)
    (by simp only [Spec.sideDim]; omega)).mono (fun _ m2 h2 => ?_)
  refine ⟨_, h2, fun i hi j hj => ?_, fun i j hh => by rw [upd_out (by omega), upd_out (by omega)]⟩
  rw [upd_in hi hj]
  simp only [Spec.sideMul, Spec.sideDim, Spec.mul, Spec.op]
  rw [neg_one_mul]
  congr 1
  refine sum_congr rfl (fun b hb => ?_)
  have hb := mem_range.1 hb
  congr 1
  · simp only [blk]
    rw [upd_in hi hb, one_mul]
  · refine tri_congr (n := ns) (fun i hi j hj => ?_) hb hj
    simp only [blk]
    rw [upd_out (by omega)]

/-- `ftrtri` -/
theorem ftrtri_on (ht : TrmmOk t) {thr : ℕ} (hthr : 1 ≤ thr) : ∀ (fuel n A : ℕ) (m : Mem K) (X : ℕ → ℕ → K), n < fuel →
    On m m ⟨A, lda, n, n⟩ X → (d = .nonUnit → ∀ i < n, X i i ≠ 0) →
    Run (ftrtri t u d lda thr fuel n A) m (fun _ m' => ∃ Z, On m m' ⟨A, lda, n, n⟩ Z ∧ InvF u d n X Z) := by
  intro fuel
  induction fuel with
  | zero => intro n A m X h; omega
  | succ fuel ih =>
    intro n A m X hfu h hz
    unfold ftrtri
    rif hn0
    · exact (Run_pure ..).2 ⟨X, h, fun i hi => by omega, fun i hi => by omega⟩
    rif hnt
    · exact ftrtriBase_on ht (by omega) h hz
    set W : Win := ⟨A, lda, n, n⟩ with hW
    have hWr : W.r = n := rfl
    have hWc : W.c = n := rfl
    generalize hn1 : n / 2 = n1
    generalize hn2 : n - n1 = n2
    have ea : ∀ a, A + a * (lda + 1) = W.adr a a := fun a => by simp only [hW, Win.adr]; ring
    have e0 : A = W.adr 0 0 := by simp [hW, Win.adr]
    simp only [Run_bind, hn2]
    have hs1 := h.sub (i0 := 0) (j0 := 0) (r := n1) (c := n1) (by omega) (by omega)
    have hl : (W.sub 0 0 n1 n1) = ⟨A, lda, n1, n1⟩ := by simp [Win.sub, hW, Win.adr]
    rw [hl] at hs1
    refine (ih n1 A m _ (by omega) hs1 (fun hd i hi => by simp only [blk, Nat.zero_add]; exact hz hd i (by omega))).mono (fun _ m1 h1 => ?_)
    obtain ⟨Z1, h1, hI1⟩ := h1
    have g1 := h.upd (i0 := 0) (j0 := 0) (r := n1) (c := n1) (by omega) (by omega) (hl ▸ h1.step)
    have hs2 := g1.sub (i0 := n1) (j0 := n1) (r := n2) (c := n2) (by omega) (by omega)
    have hl2 : (W.sub n1 n1 n2 n2) = ⟨A + n1 * (lda + 1), lda, n2, n2⟩ := by rw [ea]; rfl
    rw [hl2] at hs2
    have hu : ∀ i j, blk (upd 0 0 n1 n1 Z1 X) n1 n1 i j = X (n1 + i) (n1 + j) := fun i j => by
      simp only [blk]; rw [upd_out (by omega)]
    refine (ih n2 _ m1 _ (by omega) hs2 (fun hd i hi => by rw [hu]; exact hz hd _ (by omega))).mono (fun _ m2 h2 => ?_)
    obtain ⟨Z2, h2, hI2⟩ := h2
    have g2 := g1.upd (i0 := n1) (j0 := n1) (r := n2) (c := n2) (by omega) (by omega) (hl2 ▸ h2.step)
    have v1 : ∀ i < n1, ∀ j < n1, upd n1 n1 n2 n2 Z2 (upd 0 0 n1 n1 Z1 X) i j = Z1 i j := fun i hi j hj => by
      rw [upd_out (by omega), upd_in' (by omega)]; rfl
    have v2 : ∀ i < n2, ∀ j < n2, upd n1 n1 n2 n2 Z2 (upd 0 0 n1 n1 Z1 X) (n1 + i) (n1 + j) = Z2 i j := fun i hi j hj => by
      rw [upd_in hi hj]
    have v3 : ∀ i j, (i < n1 ∧ n1 ≤ j ∨ n1 ≤ i ∧ j < n1) → upd n1 n1 n2 n2 Z2 (upd 0 0 n1 n1 Z1 X) i j = X i j := fun i j hh => by
      rw [upd_out (by omega), upd_out (by omega)]
    generalize upd n1 n1 n2 n2 Z2 (upd 0 0 n1 n1 Z1 X) = V at g2 v1 v2 v3
    cases u with
    | upper =>
      have := off_step (u := .upper) (d := d) ht g2 (f0 := 0) (nf := n1) (s0 := n1) (ns := n2) (n := n) ⟨by omega, Or.inl ⟨rfl, rfl⟩⟩ (by omega) (by omega)
      have e2 : W.adr 0 n1 = A + n1 := by simp [hW, Win.adr]
      rw [e2, ← e0, ← ea] at this
      refine this.mono (fun _ m4 h4 => ?_)
      obtain ⟨Z, h4, hoff, hout⟩ := h4
      refine ⟨Z, h4, inv_split (f0 := 0) (nf := n1) (s0 := n1) (ns := n2) (ZF := Z1) (ZS := Z2) ⟨by omega, Or.inl ⟨rfl, rfl⟩⟩
        (fun i hi j hj => by simp only [below]; omega) hI1 (hI2.congr (fun i _ j _ => hu i j) (fun _ _ _ _ => rfl)) ?_ ?_ ?_ ?_⟩
      · intro i hi j hj
        rw [hout _ _ (by omega), Nat.zero_add, Nat.zero_add, v1 i hi j hj]
      · intro i hi j hj
        rw [hout _ _ (by omega), v2 i hi j hj]
      · intro i hi j hj
        rw [hoff i hi j hj]
        congr 1
        refine sum_congr rfl (fun b hb => ?_)
        have hb := mem_range.1 hb
        rw [tri_congr (X := blk V n1 n1) v2 hb hj]
        congr 1
        refine sum_congr rfl (fun a ha => ?_)
        have ha := mem_range.1 ha
        rw [tri_congr (X := blk V 0 0) (Y := Z1) (fun i hi j hj => by simp only [blk, Nat.zero_add]; exact v1 i hi j hj) hi ha, v3 _ _ (by omega)]
      · intro i hi j hj
        rw [hout _ _ (by omega), v3 _ _ (by omega)]
    | lower =>
      have := off_step (u := .lower) (d := d) ht g2 (f0 := n1) (nf := n2) (s0 := 0) (ns := n1) (n := n) ⟨by omega, Or.inr ⟨rfl, rfl⟩⟩ (by omega) (by omega)
      have e2 : W.adr n1 0 = A + n1 * lda := by simp [hW, Win.adr]
      rw [e2, ← e0, ← ea] at this
      refine this.mono (fun _ m4 h4 => ?_)
      obtain ⟨Z, h4, hoff, hout⟩ := h4
      refine ⟨Z, h4, inv_split (f0 := n1) (nf := n2) (s0 := 0) (ns := n1) (ZF := Z2) (ZS := Z1) ⟨by omega, Or.inr ⟨rfl, rfl⟩⟩
        (fun i hi j hj => by simp only [below]; omega) (hI2.congr (fun i _ j _ => hu i j) (fun _ _ _ _ => rfl)) hI1 ?_ ?_ ?_ ?_⟩
      · intro i hi j hj
        rw [hout _ _ (by omega), v2 i hi j hj]
      · intro i hi j hj
        rw [hout _ _ (by omega), Nat.zero_add, Nat.zero_add, v1 i hi j hj]
      · intro i hi j hj
        rw [hoff i hi j hj]
        congr 1
        refine sum_congr rfl (fun b hb => ?_)
        have hb := mem_range.1 hb
        rw [tri_congr (X := blk V 0 0) (Y := Z1) (fun i hi j hj => by simp only [blk, Nat.zero_add]; exact v1 i hi j hj) hb hj]
        congr 1
        refine sum_congr rfl (fun a ha => ?_)
        have ha := mem_range.1 ha
        rw [tri_congr (X := blk V n1 n1) v2 hi ha, v3 _ _ (by omega)]
      · intro i hi j hj
        rw [hout _ _ (by omega), v3 _ _ (by omega)]

/-! ### `ftrtrm` -/

/-- the product computed by `ftrtrm` from the packed factors `X` -/
def trtrm (side : Side) (d : Diag) (n : ℕ) (X : ℕ → ℕ → K) (i j : ℕ) : K := match side with
  | .left => ∑ l ∈ range n, Spec.tri .upper d X i l * Spec.tri .lower (otherDiag d) X l j
  | .right => ∑ l ∈ range n, Spec.tri .lower (otherDiag d) X i l * Spec.tri .upper d X l j

omit [DecidableEq K] in
lemma trtrm_congr {side : Side} {Y : ℕ → ℕ → K} (h : ∀ i < n, ∀ j < n, X i j = Y i j) {i j : ℕ} (hi : i < n) (hj : j < n) :
    trtrm side d n X i j = trtrm side d n Y i j := by
  cases side <;> simp only [trtrm] <;> refine sum_congr rfl (fun l hl => ?_) <;>
    rw [tri_congr h hi (mem_range.1 hl), tri_congr h (mem_range.1 hl) hj]

section
omit [DecidableEq K]
variable {n1 n2 i j : ℕ}

lemma trtrm_left (hn : n1 + n2 = n) : (∀ i < n1, ∀ j < n1, trtrm .left d n X i j =
      trtrm .left d n1 (blk X 0 0) i j + ∑ l ∈ range n2, X i (n1 + l) * X (n1 + l) j) ∧
    (∀ i < n1, ∀ j < n2, trtrm .left d n X i (n1 + j) = ∑ l ∈ range n2, X i (n1 + l) * Spec.tri .lower (otherDiag d) (blk X n1 n1) l j) ∧
    (∀ i < n2, ∀ j < n1, trtrm .left d n X (n1 + i) j = ∑ l ∈ range n2, Spec.tri .upper d (blk X n1 n1) i l * X (n1 + l) j) ∧
    ∀ i < n2, ∀ j < n2, trtrm .left d n X (n1 + i) (n1 + j) = trtrm .left d n2 (blk X n1 n1) i j := by
  have hc : Cut n 0 n1 n1 n2 := ⟨hn, Or.inl ⟨rfl, rfl⟩⟩
  have b0 : blk X 0 0 = X := by funext i j; simp [blk]
  refine ⟨fun i hi j hj => ?_, fun i hi j hj => ?_, fun i hi j hj => ?_, fun i hi j hj => ?_⟩ <;> simp only [trtrm] <;>
    rw [hc.sum_eq] <;> simp only [Nat.zero_add, tri_blk, b0]
  · congr 1
    refine sum_congr rfl (fun l _ => ?_)
    rw [tri_below (by simp only [below]; omega), tri_below (by simp only [below]; omega)]
  · rw [sum_eq_zero (fun l hl => by rw [tri_above (u := .lower) (i := l) (by have := mem_range.1 hl; simp only [below]; omega), mul_zero]), zero_add]
    refine sum_congr rfl (fun l _ => ?_)
    rw [tri_below (by simp only [below]; omega)]
  · rw [sum_eq_zero (fun l hl => by rw [tri_above (u := .upper) (i := n1 + i) (by have := mem_range.1 hl; simp only [below]; omega), zero_mul]), zero_add]
    refine sum_congr rfl (fun l _ => ?_)
    rw [tri_below (u := .lower) (by simp only [below]; omega)]
  · rw [sum_eq_zero (fun l hl => by rw [tri_above (u := .upper) (i := n1 + i) (by have := mem_range.1 hl; simp only [below]; omega), zero_mul]), zero_add]

lemma trtrm_right (hn : n1 + n2 = n) : (∀ i < n1, ∀ j < n1, trtrm .right d n X i j = trtrm .right d n1 (blk X 0 0) i j) ∧
    (∀ i < n1, ∀ j < n2, trtrm .right d n X i (n1 + j) = ∑ l ∈ range n1, Spec.tri .lower (otherDiag d) (blk X 0 0) i l * X l (n1 + j)) ∧
    (∀ i < n2, ∀ j < n1, trtrm .right d n X (n1 + i) j = ∑ l ∈ range n1, X (n1 + i) l * Spec.tri .upper d (blk X 0 0) l j) ∧
    ∀ i < n2, ∀ j < n2, trtrm .right d n X (n1 + i) (n1 + j) =
      (∑ l ∈ range n1, X (n1 + i) l * X l (n1 + j)) + trtrm .right d n2 (blk X n1 n1) i j := by
  have hc : Cut n 0 n1 n1 n2 := ⟨hn, Or.inl ⟨rfl, rfl⟩⟩
  have b0 : blk X 0 0 = X := by funext i j; simp [blk]
  refine ⟨fun i hi j hj => ?_, fun i hi j hj => ?_, fun i hi j hj => ?_, fun i hi j hj => ?_⟩ <;> simp only [trtrm] <;>
    rw [hc.sum_eq] <;> simp only [Nat.zero_add, tri_blk, b0]
  · rw [sum_eq_zero (s := range n2) (fun l hl => by rw [tri_above (u := .lower) (j := n1 + l) (by simp only [below]; omega), zero_mul]), add_zero]
  · rw [sum_eq_zero (s := range n2) (fun l hl => by rw [tri_above (u := .lower) (j := n1 + l) (by simp only [below]; omega), zero_mul]), add_zero]
    refine sum_congr rfl (fun l hl => ?_)
    have := mem_range.1 hl
    rw [tri_below (u := .upper) (by simp only [below]; omega)]
  · rw [sum_eq_zero (s := range n2) (fun l hl => by rw [tri_above (u := .upper) (j := j) (by simp only [below]; omega), mul_zero]), add_zero]
    refine sum_congr rfl (fun l hl => ?_)
    have := mem_range.1 hl
    rw [tri_below (u := .lower) (by simp only [below]; omega)]
  · congr 1
    refine sum_congr rfl (fun l hl => ?_)
    have := mem_range.1 hl
    rw [tri_below (u := .lower) (by simp only [below]; omega), tri_below (u := .upper) (by simp only [below]; omega)]

end

theorem ftrtrm_on (ht : TrmmOk t) (hg : GemmOk g) {side : Side} : ∀ (fuel n A : ℕ) (m : Mem K) (X : ℕ → ℕ → K), n < fuel →
    On m m ⟨A, lda, n, n⟩ X →
    Run (ftrtrm t g side d lda fuel n A) m (fun _ m' => On m m' ⟨A, lda, n, n⟩ (trtrm side d n X)) := by
  intro fuel
  induction fuel with
  | zero => intro n A m X h; omega
  | succ fuel ih =>
    intro n A m X hfu h
    unfold ftrtrm
    rif hn0
    · refine (Run_pure ..).2 (h.congr (fun i hi j hj => ?_))
      have hi : i < n := hi
      have hj : j < n := hj
      have e1 : n = 1 := by omega
      have e2 : i = 0 := by omega
      have e3 : j = 0 := by omega
      subst e1 e2 e3
      cases side <;> cases d <;> simp [trtrm, Spec.tri, otherDiag]
    set W : Win := ⟨A, lda, n, n⟩ with hW
    have hWr : W.r = n := rfl
    have hWc : W.c = n := rfl
    have hWl : W.ld = lda := rfl
    generalize hn1 : n / 2 = n1
    generalize hn2 : n - n1 = n2
    have ea : ∀ a, A + a * (lda + 1) = W.adr a a := fun a => by simp only [hW, Win.adr]; ring
    have e0 : W.adr 0 0 = A := by simp [hW, Win.adr]
    have e1 : ∀ a, A + a * lda = W.adr a 0 := fun a => by simp [hW, Win.adr]
    have e2 : ∀ a, A + a = W.adr 0 a := fun a => by simp [hW, Win.adr]
    have hl : (W.sub 0 0 n1 n1) = ⟨A, lda, n1, n1⟩ := by simp [Win.sub, hW, Win.adr]
    have hl2 : (W.sub n1 n1 n2 n2) = ⟨W.adr n1 n1, lda, n2, n2⟩ := rfl
    cases side with
    | left =>
      simp only [Run_bind, ea, e1, e2, hn2]
      have hs1 := h.sub (i0 := 0) (j0 := 0) (r := n1) (c := n1) (by omega) (by omega)
      rw [hl] at hs1
      refine (ih n1 A m _ (by omega) hs1).mono (fun _ m1 h1 => ?_)
      have g1 := h.upd (i0 := 0) (j0 := 0) (r := n1) (c := n1) (by omega) (by omega) (hl ▸ h1.step)
      have k1 := gemm_on hg g1 (k := n2) (a1 := 0) (b1 := n1) (a2 := n1) (b2 := 0) (i0 := 0) (j0 := 0) (r := n1) (c := n1) 1 1 (by omega) (by omega)
        (by omega) (by omega) (by omega) (by omega) (by omega) (by omega)
      rw [hWl, e0] at k1
      refine k1.mono (fun _ m2 g2 => ?_)
      have g2 := g2.congr (V' := upd 0 0 n1 n1 (trtrm .left d n X) X) (fun i hi j hj => ?_)
      rotate_left
      · by_cases hin : i < n1 ∧ j < n1
        · rw [upd_in' (by omega)]
          simp only [Nat.sub_zero, Nat.zero_add, one_mul]
          rw [upd_in' (by omega), upd_in' (by omega), Nat.sub_zero, Nat.sub_zero,
            (trtrm_left (n := n) (n2 := n2) (by omega)).1 i hin.1 j hin.2, add_comm]
          congr 1
          refine sum_congr rfl (fun l hl => ?_)
          rw [upd_out (by omega), upd_out (by omega)]
        · rw [upd_out (by omega), upd_out (by omega), upd_out (by omega)]
      have k2 := trmm_on (side := .right) (u := .lower) (ta := .no) (d := otherDiag d) ht g2 1 (a := n1) (b := n1) (i0 := 0) (j0 := n1)
        (r := n1) (c := n2) (by simp only [Spec.sideDim]; omega) (by simp only [Spec.sideDim]; omega) (by omega) (by omega)
        (by simp only [Spec.sideDim]; omega)
      refine k2.mono (fun _ m3 g3 => ?_)
      have bS : blk (upd 0 0 n1 n1 (trtrm .left d n X) X) n1 n1 = blk X n1 n1 := by
        funext i j; simp only [blk]; rw [upd_out (by omega)]
      rw [bS] at g3
      have g3 := g3.congr (V' := upd 0 0 n1 n (trtrm .left d n X) X) (fun i hi j hj => ?_)
      rotate_left
      · by_cases hin : i < n1 ∧ n1 ≤ j
        · obtain ⟨j, rfl⟩ := Nat.exists_eq_add_of_le hin.2
          have hj : n1 + j < n := hj
          rw [upd_in' (by omega), upd_in' (by omega)]
          simp only [Nat.sub_zero, Nat.add_sub_cancel_left, one_mul]
          rw [(trtrm_left (n2 := n2) (by omega)).2.1 i hin.1 j (by omega)]
          simp only [Spec.sideMul, Spec.sideDim, Spec.mul, Spec.op]
          refine sum_congr rfl (fun l _ => ?_)
          simp only [blk, Nat.zero_add]
          rw [upd_out (by omega)]
        · rw [upd_out (by omega)]
          have hj : j < n := hj
          by_cases hi : i < n1
          · rw [upd_in' (by omega), upd_in' (by omega)]
          · rw [upd_out (by omega), upd_out (by omega)]
      have k3 := trmm_on (side := .left) (u := .upper) (ta := .no) (d := d) ht g3 1 (a := n1) (b := n1) (i0 := n1) (j0 := 0)
        (r := n2) (c := n1) (by simp only [Spec.sideDim]; omega) (by simp only [Spec.sideDim]; omega) (by omega) (by omega)
        (by simp only [Spec.sideDim]; omega)
      refine k3.mono (fun _ m4 g4 => ?_)
      have bS : blk (upd 0 0 n1 n (trtrm .left d n X) X) n1 n1 = blk X n1 n1 := by
        funext i j; simp only [blk]; rw [upd_out (by omega)]
      rw [bS] at g4
      have g4 := g4.congr (V' := upd n1 n1 n2 n2 (blk X n1 n1) (trtrm .left d n X)) (fun i hi j hj => ?_)
      rotate_left
      · have hi : i < n := hi
        have hj : j < n := hj
        by_cases hin : n1 ≤ i ∧ j < n1
        · obtain ⟨i, rfl⟩ := Nat.exists_eq_add_of_le hin.1
          rw [upd_in' (by omega), upd_out (i := n1 + i) (j := j) (i0 := n1) (j0 := n1) (by omega)]
          simp only [Nat.sub_zero, Nat.add_sub_cancel_left, one_mul]
          rw [(trtrm_left (n2 := n2) (by omega)).2.2.1 i (by omega) j (by omega)]
          simp only [Spec.sideMul, Spec.sideDim, Spec.mul, Spec.op]
          refine sum_congr rfl (fun l _ => ?_)
          simp only [blk, Nat.zero_add]
          rw [upd_out (by omega)]
        · rw [upd_out (by omega)]
          by_cases hi1 : i < n1
          · rw [upd_in' (by omega), upd_out (by omega)]; simp
          · rw [upd_out (by omega), upd_in' (by omega)]
            simp only [blk]; congr 1 <;> omega
      have hs2 := g4.sub (i0 := n1) (j0 := n1) (r := n2) (c := n2) (by omega) (by omega)
      rw [hl2] at hs2
      refine (ih n2 _ m4 _ (by omega) hs2).mono (fun _ m5 h5 => ?_)
      have g5 := g4.upd (i0 := n1) (j0 := n1) (r := n2) (c := n2) (by omega) (by omega) (hl2 ▸ h5.step)
      refine g5.congr (fun i hi j hj => ?_)
      have hi : i < n := hi
      have hj : j < n := hj
      by_cases hin : n1 ≤ i ∧ n1 ≤ j
      · obtain ⟨i, rfl⟩ := Nat.exists_eq_add_of_le hin.1
        obtain ⟨j, rfl⟩ := Nat.exists_eq_add_of_le hin.2
        rw [upd_in (by omega) (by omega), (trtrm_left (n2 := n2) (by omega)).2.2.2 i (by omega) j (by omega)]
        refine trtrm_congr (fun i hi j hj => ?_) (by omega) (by omega)
        exact upd_in hi hj
      · rw [upd_out (by omega), upd_out (by omega)]
    | right =>
      simp only [Run_bind, ea, e1, e2, hn2]
      have hs1 := h.sub (i0 := n1) (j0 := n1) (r := n2) (c := n2) (by omega) (by omega)
      rw [hl2] at hs1
      refine (ih n2 _ m _ (by omega) hs1).mono (fun _ m1 h1 => ?_)
      have g1 := h.upd (i0 := n1) (j0 := n1) (r := n2) (c := n2) (by omega) (by omega) (hl2 ▸ h1.step)
      have k1 := gemm_on hg g1 (k := n1) (a1 := n1) (b1 := 0) (a2 := 0) (b2 := n1) (i0 := n1) (j0 := n1) (r := n2) (c := n2) 1 1 (by omega) (by omega)
        (by omega) (by omega) (by omega) (by omega) (by omega) (by omega)
      refine k1.mono (fun _ m2 g2 => ?_)
      have g2 := g2.congr (V' := upd n1 n1 n2 n2 (blk (trtrm .right d n X) n1 n1) X) (fun i hi j hj => ?_)
      rotate_left
      · have hi : i < n := hi
        have hj : j < n := hj
        by_cases hin : n1 ≤ i ∧ n1 ≤ j
        · obtain ⟨i, rfl⟩ := Nat.exists_eq_add_of_le hin.1
          obtain ⟨j, rfl⟩ := Nat.exists_eq_add_of_le hin.2
          rw [upd_in (by omega) (by omega), upd_in (by omega) (by omega), upd_in (by omega) (by omega)]
          simp only [blk, Nat.zero_add, one_mul]
          rw [(trtrm_right (n2 := n2) (by omega)).2.2.2 i (by omega) j (by omega)]
          congr 1
          refine sum_congr rfl (fun l hl => ?_)
          have hl := mem_range.1 hl
          rw [upd_out (by omega), upd_out (by omega)]
        · rw [upd_out (by omega), upd_out (by omega), upd_out (by omega)]
      have k2 := trmm_on (side := .left) (u := .lower) (ta := .no) (d := otherDiag d) ht g2 1 (a := 0) (b := 0) (i0 := 0) (j0 := n1)
        (r := n1) (c := n2) (by simp only [Spec.sideDim]; omega) (by simp only [Spec.sideDim]; omega) (by omega) (by omega)
        (by simp only [Spec.sideDim]; omega)
      rw [e0] at k2
      refine k2.mono (fun _ m3 g3 => ?_)
      have g3 := g3.congr (V' := upd 0 n1 n n2 (fun i j => trtrm .right d n X i (n1 + j)) X) (fun i hi j hj => ?_)
      rotate_left
      · have hi : i < n := hi
        have hj : j < n := hj
        by_cases hin : i < n1 ∧ n1 ≤ j
        · obtain ⟨j, rfl⟩ := Nat.exists_eq_add_of_le hin.2
          rw [upd_in' (by omega), upd_in' (by omega)]
          simp only [Nat.sub_zero, Nat.add_sub_cancel_left, one_mul]
          rw [(trtrm_right (n2 := n2) (by omega)).2.1 i hin.1 j (by omega)]
          simp only [Spec.sideMul, Spec.sideDim, Spec.mul, Spec.op]
          refine sum_congr rfl (fun l hl => ?_)
          have hl := mem_range.1 hl
          congr 1
          · refine tri_congr (n := n1) (fun i hi j hj => ?_) hin.1 hl
            simp only [blk]
            rw [upd_out (by omega)]
          · simp only [blk, Nat.zero_add]
            rw [upd_out (by omega)]
        · rw [upd_out (by omega)]
          by_cases hj1 : n1 ≤ j
          · obtain ⟨j, rfl⟩ := Nat.exists_eq_add_of_le hj1
            rw [upd_in' (by omega), upd_in' (by omega)]
            simp only [blk, Nat.sub_zero]
            congr 1 <;> omega
          · rw [upd_out (by omega), upd_out (by omega)]
      have k3 := trmm_on (side := .right) (u := .upper) (ta := .no) (d := d) ht g3 1 (a := 0) (b := 0) (i0 := n1) (j0 := 0)
        (r := n2) (c := n1) (by simp only [Spec.sideDim]; omega) (by simp only [Spec.sideDim]; omega) (by omega) (by omega)
        (by simp only [Spec.sideDim]; omega)
      rw [e0] at k3
      refine k3.mono (fun _ m4 g4 => ?_)
      have g4 := g4.congr (V' := upd 0 0 n1 n1 X (trtrm .right d n X)) (fun i hi j hj => ?_)
      rotate_left
      · have hi : i < n := hi
        have hj : j < n := hj
        by_cases hin : n1 ≤ i ∧ j < n1
        · obtain ⟨i, rfl⟩ := Nat.exists_eq_add_of_le hin.1
          rw [upd_in' (by omega), upd_out (i := n1 + i) (j := j) (i0 := 0) (j0 := 0) (by omega)]
          simp only [Nat.sub_zero, Nat.add_sub_cancel_left, one_mul]
          rw [(trtrm_right (n2 := n2) (by omega)).2.2.1 i (by omega) j (by omega)]
          simp only [Spec.sideMul, Spec.sideDim, Spec.mul, Spec.op]
          refine sum_congr rfl (fun l hl => ?_)
          have hl := mem_range.1 hl
          congr 1
          · simp only [blk, Nat.zero_add]
            rw [upd_out (by omega)]
          · refine tri_congr (n := n1) (fun i hi j hj => ?_) hl hin.2
            simp only [blk]
            rw [upd_out (by omega)]
        · rw [upd_out (by omega)]
          by_cases hj1 : j < n1
          · rw [upd_out (by omega), upd_in' (by omega)]; simp
          · obtain ⟨j, rfl⟩ := Nat.exists_eq_add_of_le (not_lt.1 hj1)
            rw [upd_in' (by omega), upd_out (i := i) (j := n1 + j) (i0 := 0) (j0 := 0) (by omega)]
            simp
      have hs2 := g4.sub (i0 := 0) (j0 := 0) (r := n1) (c := n1) (by omega) (by omega)
      rw [hl] at hs2
      refine (ih n1 _ m4 _ (by omega) hs2).mono (fun _ m5 h5 => ?_)
      have g5 := g4.upd (i0 := 0) (j0 := 0) (r := n1) (c := n1) (by omega) (by omega) (hl ▸ h5.step)
      refine g5.congr (fun i hi j hj => ?_)
      have hi : i < n := hi
      have hj : j < n := hj
      by_cases hin : i < n1 ∧ j < n1
      · rw [upd_in' (by omega), Nat.sub_zero, Nat.sub_zero, (trtrm_right (n := n) (n1 := n1) (n2 := n2) (by omega)).1 i (by omega) j (by omega)]
        refine trtrm_congr (fun i hi j hj => ?_) (by omega) (by omega)
        simp only [blk]
        rw [upd_in hi hj, Nat.zero_add, Nat.zero_add]
      · rw [upd_out (by omega), upd_out (by omega)]

end

end Verif.FF
