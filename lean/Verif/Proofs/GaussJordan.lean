import Verif.Proofs.Echelon
import Verif.Proofs.GJArr
import Verif.Proofs.PluqRank
import Verif.Proofs.Solve
import Verif.Spec.RankProfile

/-!
# The Gauss–Jordan elimination
-/

namespace Verif.FF

open Finset Verif.Spec Verif.Spec.Perm Verif.Pluq Verif.Perm

variable {K : Type} [Field K] [DecidableEq K] {m0 m : Mem K} {W : Win} {V X : ℕ → ℕ → K}

omit [Field K] [DecidableEq K] in
/-- `fassign` of a block to columns on its left in the same rows; the blocks may overlap -/
lemma fassign_left_on (h : On m0 m W V) {a b i0 r c : ℕ} (hab : a ≤ b) (hr : i0 + r ≤ W.r) (hc : b + c ≤ W.c) {A B : ℕ} (hB : B = W.adr i0 b)
    (hA : A = W.adr i0 a) :
    Run (fassign r c B W.ld A W.ld) m (fun _ m' => On m0 m' W (upd i0 a r c (fun i j => V (i0 + i) (b + j)) V)) := by
  subst hA hB
  have hld := h.ld
  by_cases h1 : W.ld = c
  · obtain rfl : b = 0 := by omega
    obtain rfl : a = 0 := by omega
    exact fassign_up_on h le_rfl hr hc
  unfold fassign
  rif h0
  · rw [Run_pure]
    refine h.congr (fun i hi j hj => ?_)
    rw [upd_out (by omega)]
  rw [if_neg (by omega)]
  refine (Run_loop (fun k m' => On m0 m' W (upd i0 a k c (fun i j => V (i0 + i) (b + j)) V)) ?_ ?_)
  · exact h.congr (fun i hi j hj => by rw [upd_out (by omega)])
  · intro k m' hk h'
    rw [Win.adr_add_row, Win.adr_add_row]
    refine (moveRow_on h' (by omega) (by omega) (by omega) hc (Or.inr hab)).mono (fun _ m'' h'' => h''.congr (fun i hi j hj => ?_))
    by_cases c1 : i = i0 + k ∧ a ≤ j ∧ j < a + c
    · obtain ⟨rfl, c2⟩ := c1
      rw [upd_in' (r := 1) (by omega), upd_in' (r := k + 1) (by omega), upd_out (r := k) (by omega), Nat.add_sub_cancel_left]
    · rw [upd_out (r := 1) (by omega)]
      by_cases c2 : i0 ≤ i ∧ i < i0 + k ∧ a ≤ j ∧ j < a + c
      · rw [upd_in' (r := k) (by omega), upd_in' (r := k + 1) (by omega)]
      · rw [upd_out (r := k) (by omega), upd_out (r := k + 1) (by omega)]

/-- the product with a square block on the right, through a temporary -/
lemma tmpLeft_on {g : GemmFn K} (hg : GemmOk g) (h : On m0 m W V) (i0 j0 a b r k : ℕ) (al : K) (hr : i0 + r ≤ W.r) (hc : j0 + k ≤ W.c) (ha : a + k ≤ W.r)
    (hb : b + k ≤ W.c) (hs : a + k ≤ i0 ∨ i0 + r ≤ a ∨ b + k ≤ j0 ∨ j0 + k ≤ b) {A B : ℕ} (hA : A = W.adr a b) (hB : B = W.adr i0 j0) :
    Run (do
      let tmp ← alloc (r * k)
      fassign r k B W.ld tmp k
      g .no .no r k k al tmp k A W.ld 0 B W.ld
      free tmp (r * k)) m (fun _ m' => On m0 m' W (upd i0 j0 r k (fun i j => al * ∑ l ∈ range k, V (i0 + i) (j0 + l) * V (a + l) (b + j)) V)) := by
  simp only [Run_bind, Run_alloc]
  obtain ⟨U0, h2⟩ := On2.start (r := r) (c := k) h
  change Run _ (m.grow (r * k)) _
  generalize hmm : m.next = tp at *
  refine (fassign_at h2.right h2.left.src h2.disj i0 j0 0 0 r k hr hc (by simp) (by simp) hB (by simp [Win.adr])).mono (fun _ m1 s1 => ?_)
  have h3 := h2.ofT s1
  refine (gemm_at hg h3.left h3.right.src h3.left.src 0 0 a b i0 j0 r k k (by simp) (by simp) ha hb hr hc
    ((h3.disj.symm.sub_left (by simp) (by simp)).sub_right hr hc) (h3.left.disj2 a b i0 j0 ha hb hr hc hs) al 0 (by simp [Win.adr]) hA hB).mono
    (fun _ m2 s2 => ?_)
  have h4 := h3.ofW s2
  rw [Run_free]
  have h7 := On2.stop (r := r) (c := k) h (by rw [hmm]; exact h4)
  rw [hmm] at h7
  refine h7.congr (fun i hi j hj => ?_)
  by_cases c2 : i0 ≤ i ∧ i < i0 + r ∧ j0 ≤ j ∧ j < j0 + k
  · rw [upd_in' c2, upd_in' c2, zero_mul, add_zero]
    congr 1
    refine sum_congr rfl (fun l hl => ?_)
    have := mem_range.1 hl
    rw [upd_in' (by omega)]
    simp only [blk, Nat.zero_add, Nat.sub_zero]
  · rw [upd_out (by omega), upd_out (by omega)]

/-- the product with a square block on the left, through a temporary -/
lemma tmpRight_on {g : GemmFn K} (hg : GemmOk g) (h : On m0 m W V) (i0 j0 a b r c : ℕ) (al : K) (hr : i0 + r ≤ W.r) (hc : j0 + c ≤ W.c) (ha : a + r ≤ W.r)
    (hb : b + r ≤ W.c) (hs : a + r ≤ i0 ∨ i0 + r ≤ a ∨ b + r ≤ j0 ∨ j0 + c ≤ b) {A B : ℕ} (hA : A = W.adr a b) (hB : B = W.adr i0 j0) :
    Run (do
      let tmp ← alloc (r * c)
      fassign r c B W.ld tmp c
      g .no .no r c r al A W.ld tmp c 0 B W.ld
      free tmp (r * c)) m (fun _ m' => On m0 m' W (upd i0 j0 r c (fun i j => al * ∑ l ∈ range r, V (a + i) (b + l) * V (i0 + l) (j0 + j)) V)) := by
  simp only [Run_bind, Run_alloc]
  obtain ⟨U0, h2⟩ := On2.start (r := r) (c := c) h
  change Run _ (m.grow (r * c)) _
  generalize hmm : m.next = tp at *
  refine (fassign_at h2.right h2.left.src h2.disj i0 j0 0 0 r c hr hc (by simp) (by simp) hB (by simp [Win.adr])).mono (fun _ m1 s1 => ?_)
  have h3 := h2.ofT s1
  refine (gemm_at hg h3.left h3.left.src h3.right.src a b 0 0 i0 j0 r c r ha hb (by simp) (by simp) hr hc (h3.left.disj2 a b i0 j0 ha hb hr hc hs)
    ((h3.disj.symm.sub_left (by simp) (by simp)).sub_right hr hc) al 0 hA (by simp [Win.adr]) hB).mono
    (fun _ m2 s2 => ?_)
  have h4 := h3.ofW s2
  rw [Run_free]
  have h7 := On2.stop (r := r) (c := c) h (by rw [hmm]; exact h4)
  rw [hmm] at h7
  refine h7.congr (fun i hi j hj => ?_)
  by_cases c2 : i0 ≤ i ∧ i < i0 + r ∧ j0 ≤ j ∧ j < j0 + c
  · rw [upd_in' c2, upd_in' c2, zero_mul, add_zero]
    congr 1
    refine sum_congr rfl (fun l hl => ?_)
    have := mem_range.1 hl
    rw [upd_in' (by omega)]
    simp only [blk, Nat.zero_add, Nat.sub_zero]
  · rw [upd_out (by omega), upd_out (by omega)]

/-- Postcondition of a call on the slice `cb … cb + cs - 1` of the columns, for the rows from `rb` on. -/
def GJPost (m0 : Mem K) (W : Win) (X : ℕ → ℕ → K) (cb rb cs : ℕ) (Q : Arr ℕ) (y : ℕ × Arr ℕ × Arr ℕ) (m' : Mem K) : Prop :=
  ArrOk y.2.1 (W.r - rb) ∧ ∃ q V, QRes Q y.2.2 W.c cb cs q ∧ On m0 m' W V ∧
    GJ W.r cs rb cb y.1 X V (fun i => shiftPerm rb i (ofSwaps y.2.1.get (W.r - rb))) q ∧
    ∀ i < W.r, ∀ j < W.c, j < cb ∨ cb + cs ≤ j → V i j = X i j

/-- the rows above the slice in the base case -/
lemma gjBaseTail_on {g : GemmFn K} (hg : GemmOk g) {V2 : ℕ → ℕ → K} {cb rb cs R : ℕ} (h2 : On m0 m W V2) (hR : rb + R ≤ W.r)
    (hR' : R ≤ cs) (hcs : cb + cs ≤ W.c) :
    Run (do
      g .no .no rb (cs - R) R (-1) (W.adr 0 cb) W.ld (W.adr rb (cb + R)) W.ld 1 (W.adr 0 (cb + R)) W.ld
      let tmp ← alloc (rb * R)
      fassign rb R (W.adr 0 cb) W.ld tmp R
      g .no .no rb R R (-1) tmp R (W.adr rb cb) W.ld 0 (W.adr 0 cb) W.ld
      free tmp (rb * R)) m (fun _ m' => ∃ V, On m0 m' W V ∧
        (∀ i, ∀ j, rb ≤ i ∨ j < cb ∨ cb + cs ≤ j → V i j = V2 i j) ∧
        (∀ i < rb, ∀ l < R, V i (cb + l) = - ∑ k ∈ range R, V2 i (cb + k) * V2 (rb + k) (cb + l)) ∧
        (∀ i < rb, ∀ j < cs, R ≤ j → V i (cb + j) = V2 i (cb + j) - ∑ k ∈ range R, V2 i (cb + k) * V2 (rb + k) (cb + j))) := by
  rw [Run_bind]
  refine (gemm_on hg h2 (-1) 1 (i0 := 0) (j0 := cb + R) (a1 := 0) (b1 := cb) (a2 := rb) (b2 := cb + R) (r := rb) (c := cs - R) (k := R)
    (by omega) (by omega) (by omega) (by omega) (by omega) (by omega) (by omega) (by omega)).mono (fun _ m3 h3 => ?_)
  refine (tmpLeft_on hg h3 0 cb rb cb rb R (-1) (by omega) (by omega) (by omega) (by omega) (by omega) rfl rfl).mono (fun _ m4 h4 => ?_)
  refine ⟨_, h4, fun i j hc => ?_, fun i hi l hl => ?_, fun i hi j hj hRj => ?_⟩
  · rw [upd_out (by omega), upd_out (by omega)]
  · rw [upd_in' (by omega), neg_one_mul, Nat.sub_zero, Nat.add_sub_cancel_left]
    congr 1
    refine sum_congr rfl (fun k' hk' => ?_)
    have hk' := mem_range.1 hk'
    rw [upd_out (by omega), upd_out (by omega), Nat.zero_add]
  · rw [upd_out (by omega), upd_in' (by omega), Nat.sub_zero, show cb + j - (cb + R) = j - R by omega, neg_one_mul, one_mul, Nat.zero_add, Nat.add_assoc,
      show R + (j - R) = j by omega, ← sub_eq_neg_add]

lemma gaussJordanBase_spec {k : Kit K} (hk : KitOk k) (jk : List ℕ → ℕ → ℕ) {P Q : Arr ℕ} {cb rb cs : ℕ} (h : On m0 m W X) (hrb : rb ≤ W.r)
    (hcs : cb + cs ≤ W.c) (hP : P.len = W.r - rb) (hQ : QOk Q W.c cb) :
    Run (gaussJordanBase k jk W.r W.p W.ld cb rb cs P Q) m (GJPost m0 W X cb rb cs Q) := by
  have e12 : W.p + cb = W.adr 0 cb := by simp [Win.adr]
  have e00 : W.adr 0 0 = W.p := by simp [Win.adr]
  unfold gaussJordanBase
  simp only [e12, Win.adr_add_row]
  simp only [Win.adr_add_col, Nat.zero_add]
  simp only [Run_bind, Run_liftE]
  refine (copyTo_spec Q cb (Arr.mk' cs (jk [0])) 0 cs (by rw [hQ.len]; exact hcs) (by simp [Arr.mk'])).mono ?_
  rintro q0 ⟨lq, _⟩
  have t0 := reducedRowEchelonForm_spec (W := W.sub rb cb (W.r - rb) cs) hk (fun l => jk (1 :: l)) (h.sub (by omega) hcs) hP lq
  simp only [Win.sub] at t0
  refine t0.mono ?_
  clear t0
  rintro ⟨R, P', q⟩ m1 ⟨a1, a2, V1, s1, hG⟩
  have a1 : ArrOk P' (W.r - rb) := a1
  have a2 : ArrOk q cs := a2
  have hG : GJ (W.r - rb) cs 0 0 R (blk X rb cb) V1 (ofSwaps P'.get (W.r - rb)) (ofSwaps q.get cs) := hG
  have hR := hG.rM
  have hR' := hG.rN
  have h1 := h.upd (by omega) hcs s1.step
  refine (Ok_iter (fun t (B : Arr ℕ) => B.len = W.c ∧ ∀ i, B.get i = if cb ≤ i ∧ i < cb + t then q.get (i - cb) + cb else Q.get i)
    ⟨hQ.len, fun i => by rw [if_neg (by omega)]⟩ ?_).mono ?_
  · rintro t B ht ⟨e1, e2⟩
    simp only [Ok_bind, Ok_rd, Ok_wr]
    refine ⟨by rw [a2.1]; exact ht, by omega, e1, fun i => ?_⟩
    by_cases hi : i = cb + t
    · subst hi
      rw [Function.update_self, if_pos (by omega), Nat.add_sub_cancel_left]
    · rw [Function.update_of_ne hi, e2]
      by_cases h' : cb ≤ i ∧ i < cb + t
      · rw [if_pos h', if_pos (by omega)]
      · rw [if_neg h', if_neg (by omega)]
  rintro Q' ⟨lQ', eQ'⟩
  have hres := QRes.base hQ hcs a2.2 lQ' eQ'
  have e2 : ∀ x, swapsFrom Q'.get cb cs x = shiftPerm cb x (ofSwaps q.get cs) :=
    swapsFrom_shift (fun i hi => by rw [eQ', if_pos (by omega), Nat.add_sub_cancel_left, Nat.add_comm])
  have t := applyP_col (i0 := 0) (j0 := 0) (r := rb) (c := W.c) (ibeg := cb) (iend := cb + cs) .yes h1 (by omega) (by omega) hcs
    (by rw [lQ']; exact hcs) (fun i hi => (hres.ok.total i (by omega)).2)
  rw [e00] at t
  refine t.mono (fun _ m2 h2 => ?_)
  clear t
  obtain ⟨V2, hV2⟩ : ∃ V2, V2 = permCols 0 0 rb W.c (appliedPerm .right .yes Q'.get cb (cb + cs)) (upd rb cb (W.r - rb) cs V1 X) := ⟨_, rfl⟩
  rw [← hV2] at h2
  have low : ∀ i < W.r - rb, ∀ j < cs, V2 (rb + i) (cb + j) = V1 i j := by
    intro i hi j hj
    rw [hV2, permCols, upd_out (by omega), upd_in hi hj]
  have qlt : ∀ j < cs, ofSwaps q.get cs j < cs := hG.pQ.1
  have up : ∀ i < rb, ∀ j < cs, V2 i (cb + j) = X i (cb + ofSwaps q.get cs j) := by
    intro i hi j hj
    rw [hV2, permCols, upd_in' (by omega), upd_out (by omega)]
    simp only [appliedPerm, Nat.add_sub_cancel_left, Nat.zero_add, Nat.sub_zero, e2, shiftPerm]
    rw [if_neg (by omega)]
  have out : ∀ i < W.r, ∀ j < W.c, j < cb ∨ cb + cs ≤ j → V2 i j = X i j := by
    intro i hi j hj hc
    rw [hV2, permCols]
    by_cases hir : i < rb
    · rw [upd_in' (by omega), upd_out (by omega)]
      simp only [appliedPerm, Nat.add_sub_cancel_left, Nat.zero_add, Nat.sub_zero, e2, shiftPerm]
      by_cases hc' : j < cb
      · rw [if_pos hc']
      · rw [if_neg hc', ofSwaps_ge (fun i hi => (a2.2 i hi).2) cs le_rfl _ (by omega)]; congr 1; omega
    · rw [upd_out (by omega), upd_out (by omega)]
  clear hV2 e2
  have t := gjBaseTail_on hk.g h2 (R := R) (rb := rb) (by omega) hR' hcs
  simp only [Run_bind] at t
  refine t.mono (fun _ _ hx => hx.mono (fun _ _ hx => hx.mono (fun _ _ hx => hx.mono (fun _ _ hx => hx.mono ?_))))
  rintro _ m4 ⟨V4, h4, b1, b2, b3⟩
  rw [Run_pure]
  refine ⟨a1, _, V4, hres, h4, GJ.extend hrb (hG.congrV (fun i hi j hj => ?_)) (fun i hi l hl => ?_) (fun i hi j hj hRj => ?_), fun i hi j hj hc => ?_⟩
  · rw [Nat.zero_add, b1 _ _ (by omega), ← low i hi j hj]
  · rw [b2 i hi l hl]
    congr 1
    refine sum_congr rfl (fun k' hk' => ?_)
    have hk' := mem_range.1 hk'
    rw [b1 _ _ (by omega), up i hi k' (by omega)]
  · rw [b3 i hi j hj hRj, up i hi j hj]
    congr 1
    refine sum_congr rfl (fun k' hk' => ?_)
    have hk' := mem_range.1 hk'
    rw [b1 _ _ (by omega), up i hi k' (by omega)]
  · rw [b1 _ _ (by omega), out i hi j hj hc]

/-- the transformation of a slice (pivot rows `s … s + R - 1`, stored in the columns `b … b + R - 1`) applied to other columns -/
lemma gjMul_on {g : GemmFn K} (hg : GemmOk g) (h : On m0 m W V) (s R b j0 w t : ℕ) (hs : s + R + t = W.r) (hb : b + R ≤ W.c) (hj : j0 + w ≤ W.c)
    (hd : b + R ≤ j0 ∨ j0 + w ≤ b) {B0 B1 B2 J0 J1 J2 : ℕ} (hB0 : B0 = W.adr 0 b) (hB1 : B1 = W.adr s b) (hB2 : B2 = W.adr (s + R) b)
    (hJ0 : J0 = W.adr 0 j0) (hJ1 : J1 = W.adr s j0) (hJ2 : J2 = W.adr (s + R) j0) :
    Run (do
      g .no .no s w R 1 B0 W.ld J1 W.ld 1 J0 W.ld
      g .no .no t w R 1 B2 W.ld J1 W.ld 1 J2 W.ld
      let tmp ← alloc (R * w)
      fassign R w J1 W.ld tmp w
      g .no .no R w R 1 B1 W.ld tmp w 0 J1 W.ld
      free tmp (R * w)) m (fun _ m' => ∃ V', On m0 m' W V' ∧ (∀ i j, j < j0 ∨ j0 + w ≤ j → V' i j = V i j) ∧
        ∀ i < W.r, ∀ j < w, V' i (j0 + j) = ∑ k ∈ range W.r, transOf s b R V i k * V k (j0 + j)) := by
  subst hB0 hB1 hB2 hJ0 hJ1 hJ2
  rw [Run_bind]
  refine (gemm_on hg h 1 1 (i0 := 0) (j0 := j0) (a1 := 0) (b1 := b) (a2 := s) (b2 := j0) (r := s) (c := w) (k := R)
    (by omega) (by omega) (by omega) (by omega) (by omega) (by omega) (by omega) (by omega)).mono (fun _ m1 h1 => ?_)
  rw [Run_bind]
  refine (gemm_on hg h1 1 1 (i0 := s + R) (j0 := j0) (a1 := s + R) (b1 := b) (a2 := s) (b2 := j0) (r := t) (c := w) (k := R)
    (by omega) (by omega) (by omega) (by omega) (by omega) (by omega) (by omega) (by omega)).mono (fun _ m2 h2 => ?_)
  refine (tmpRight_on hg h2 s j0 s b R w 1 (by omega) (by omega) (by omega) (by omega) (by omega) rfl rfl).mono (fun _ m3 h3 => ?_)
  refine ⟨_, h3, fun i j hc => ?_, fun i hi j hj' => ?_⟩
  · rw [upd_out (by omega), upd_out (by omega), upd_out (by omega)]
  · rw [transOf_sum _ _ hi (by omega)]
    by_cases c1 : i < s
    · rw [upd_out (by omega), upd_out (by omega), upd_in' (by omega), if_neg (by omega)]
      simp only [Nat.sub_zero, Nat.zero_add, Nat.add_sub_cancel_left, one_mul]
      rw [add_comm]
    by_cases c2 : i < s + R
    · rw [upd_in' (by omega), if_pos (by omega), zero_add, one_mul, Nat.add_sub_cancel_left]
      refine sum_congr rfl (fun l hl => ?_)
      have hl := mem_range.1 hl
      rw [upd_out (by omega), upd_out (by omega), upd_out (by omega), upd_out (by omega), show s + (i - s) = i by omega]
    · rw [upd_out (by omega), upd_in' (by omega), if_neg (by omega)]
      simp only [Nat.add_sub_cancel_left, one_mul]
      rw [add_comm, show s + R + (i - (s + R)) = i by omega, upd_out (by omega)]
      congr 1
      refine sum_congr rfl (fun l hl => ?_)
      have hl := mem_range.1 hl
      rw [upd_out (by omega), upd_out (by omega)]

lemma gaussJordanApply_spec {k : Kit K} (hk : KitOk k) {P : Arr ℕ} {cb rb cs r1 : ℕ} (h : On m0 m W V) (hr : rb + r1 ≤ W.r) (hr1 : r1 ≤ cs / 2)
    (hcs : cb + cs ≤ W.c) (hP : ArrOk P (W.r - rb)) :
    Run (gaussJordanApply k W.r W.p W.ld cb rb cs r1 P) m (fun _ m' => ∃ V', On m0 m' W V' ∧
      (∀ i j, j < cb + cs / 2 ∨ cb + cs ≤ j → V' i j = V i j) ∧
      ∀ i < W.r, ∀ j < cs - cs / 2, V' i (cb + cs / 2 + j) =
        ∑ k ∈ range W.r, transOf rb cb r1 V i k * V (shiftPerm rb k (ofSwaps P.get (W.r - rb))) (cb + cs / 2 + j)) := by
  unfold gaussJordanApply
  dsimp only
  rw [Run_bind]
  have hσ : ∀ i < W.r - rb, ofSwaps P.get (W.r - rb) i < W.r - rb := (ofSwaps_isPerm (fun i hi => (hP.2 i hi).2)).1
  refine (rowsP_on h rb (cb + cs / 2) (by simp only [Win.adr]; ring) (by omega) (by omega) hP.1 (fun i hi => (hP.2 i hi).2)).mono (fun _ m1 h1 => ?_)
  have key : ∀ i < W.r, ∀ j < cs - cs / 2, permRows rb (cb + cs / 2) (W.r - rb) (cs - cs / 2) (ofSwaps P.get (W.r - rb)) V i (cb + cs / 2 + j) =
      V (shiftPerm rb i (ofSwaps P.get (W.r - rb))) (cb + cs / 2 + j) := by
    intro i hi j hj
    unfold permRows shiftPerm
    by_cases c : i < rb
    · rw [upd_out (by omega), if_pos c]
    · rw [upd_in' (by omega), if_neg c, Nat.add_sub_cancel_left]
  refine (gjMul_on hk.g h1 rb r1 cb (cb + cs / 2) (cs - cs / 2) (W.r - rb - r1) (by omega) (by omega) (by omega) (by omega)
    (by simp [Win.adr]) (by simp only [Win.adr]; ring) (by simp only [Win.adr]; ring) (by simp only [Win.adr]; ring)
    (by simp only [Win.adr]; ring) (by simp only [Win.adr]; ring)).mono ?_
  rintro _ m2 ⟨V', h2, o1, o2⟩
  refine ⟨V', h2, fun i j hc => ?_, fun i hi j hj => ?_⟩
  · rw [o1 i j (by omega), permRows, upd_out (by omega)]
  · rw [o2 i hi j hj]
    refine sum_congr rfl (fun l hl => ?_)
    have hl := mem_range.1 hl
    rw [key l hl j hj]
    congr 1
    refine transOf_congr hl (fun l' hl' => ?_)
    rw [permRows, upd_out (by omega)]

lemma gaussJordanCompose_spec {k : Kit K} (hk : KitOk k) {P2 : Arr ℕ} {cb rb cs r1 r2 : ℕ} (h : On m0 m W V) (hr : rb + r1 + r2 ≤ W.r) (hr1 : r1 ≤ cs / 2)
    (hr2 : r2 ≤ cs - cs / 2) (hcs : cb + cs ≤ W.c) (hP : ArrOk P2 (W.r - (rb + r1))) :
    Run (gaussJordanCompose k W.r W.p W.ld cb rb cs r1 r2 P2) m (fun _ m' => ∃ V', On m0 m' W V' ∧
      (∀ i j, j < cb ∨ cb + r1 ≤ j → V' i j = V i j) ∧
      ∀ i < W.r, ∀ j < r1, V' i (cb + j) =
        ∑ k ∈ range W.r, transOf (rb + r1) (cb + cs / 2) r2 V i k * V (shiftPerm (rb + r1) k (ofSwaps P2.get (W.r - (rb + r1)))) (cb + j)) := by
  unfold gaussJordanCompose
  dsimp only
  rw [Run_bind, Nat.sub_sub]
  refine (rowsP_on h (rb + r1) cb (by simp only [Win.adr]; ring) (by omega) (by omega) hP.1 (fun i hi => (hP.2 i hi).2)).mono (fun _ m1 h1 => ?_)
  have key : ∀ i < W.r, ∀ j < r1, permRows (rb + r1) cb (W.r - (rb + r1)) r1 (ofSwaps P2.get (W.r - (rb + r1))) V i (cb + j) =
      V (shiftPerm (rb + r1) i (ofSwaps P2.get (W.r - (rb + r1)))) (cb + j) := by
    intro i hi j hj
    unfold permRows shiftPerm
    by_cases c : i < rb + r1
    · rw [upd_out (by omega), if_pos c]
    · rw [upd_in' (by omega), if_neg c, Nat.add_sub_cancel_left]
  refine (gjMul_on hk.g h1 (rb + r1) r2 (cb + cs / 2) cb r1 (W.r - (rb + r1) - r2) (by omega) (by omega) (by omega) (by omega)
    (by simp only [Win.adr]; ring) (by simp only [Win.adr]; ring) (by simp only [Win.adr]; ring) (by simp only [Win.adr]; ring)
    (by simp only [Win.adr]; ring) (by simp only [Win.adr]; ring)).mono ?_
  rintro _ m2 ⟨V', h2, o1, o2⟩
  refine ⟨V', h2, fun i j hc => ?_, fun i hi j hj => ?_⟩
  · rw [o1 i j (by omega), permRows, upd_out (by omega)]
  · rw [o2 i hi j hj]
    refine sum_congr rfl (fun l hl => ?_)
    have hl := mem_range.1 hl
    rw [key l hl j hj]
    congr 1
    refine transOf_congr hl (fun l' hl' => ?_)
    rw [permRows, upd_out (by omega)]

/-- the move of the columns -/
lemma gaussJordanMove_spec {cb rb c1 r1 r2 : ℕ} (h : On m0 m W V) (hr : rb + r1 ≤ W.r) (hr1 : r1 ≤ c1) (hc : cb + c1 + r2 ≤ W.c) :
    Run (gaussJordanMove W.r W.p W.ld cb rb c1 r1 r2) m (fun _ m' => ∃ V', On m0 m' W V' ∧
      (∀ i < W.r, ∀ j, j < cb + r1 ∨ cb + c1 + r2 ≤ j → V' i j = V i j) ∧
      (∀ i < W.r, ∀ l < r2, V' i (cb + (r1 + l)) = V i (cb + c1 + l)) ∧
      ∀ i < W.r, ∀ l < c1 - r1, V' i (cb + (r1 + r2 + l)) = if i < rb + r1 then V i (cb + (r1 + l)) else 0) := by
  unfold gaussJordanMove
  dsimp only
  simp only [Run_bind, Run_alloc]
  obtain ⟨U0, h2⟩ := On2.start (r := rb + r1) (c := c1 - r1) h
  change Run _ (m.grow ((rb + r1) * (c1 - r1))) _
  generalize hmm : m.next = tp at *
  refine (fassign_at h2.right h2.left.src h2.disj 0 (cb + r1) 0 0 (rb + r1) (c1 - r1) (by omega) (by omega) (by simp) (by simp)
    (by simp only [Win.adr]; ring) (by simp [Win.adr])).mono (fun _ m1 s1 => ?_)
  have h3 := h2.ofT s1
  refine (fassign_left_on h3.left (a := cb + r1) (b := cb + c1) (i0 := 0) (r := W.r) (c := r2) (by omega) (by omega) (by omega)
    (by simp only [Win.adr]; ring) (by simp only [Win.adr]; ring)).mono (fun _ m2 s2 => ?_)
  have h4 := h3.ofW s2
  refine (fassign_at h4.left h4.right.src h4.disj.symm 0 0 0 (cb + r1 + r2) (rb + r1) (c1 - r1) (by simp) (by simp) (by omega) (by omega)
    (by simp [Win.adr]) (by simp only [Win.adr]; ring)).mono (fun _ m3 s3 => ?_)
  have h5 := h4.ofW s3
  rw [Run_free]
  have h7 := On2.stop (r := rb + r1) (c := c1 - r1) h (by rw [hmm]; exact h5)
  rw [hmm] at h7
  refine (fzero_on h7 (rb + r1) (cb + r1 + r2) (W.r - rb - r1) (c1 - r1) (by omega) (by omega) (by simp only [Win.adr]; ring)).mono (fun _ m4 h8 => ?_)
  refine ⟨_, h8, fun i hi j hj => ?_, fun i hi l hl => ?_, fun i hi l hl => ?_⟩
  · rw [upd_out (by omega), upd_out (by omega), upd_out (by omega)]
  · rw [upd_out (by omega), upd_out (by omega), upd_in' (by omega)]
    simp only [Nat.zero_add, Nat.sub_zero]
    congr 1; omega
  · by_cases c : i < rb + r1
    · rw [upd_out (by omega), upd_in' (by omega), if_pos c]
      simp only [blk]
      rw [upd_in' (by omega)]
      simp only [blk, Nat.zero_add, Nat.sub_zero]
      congr 1; omega
    · rw [upd_in' (by omega), if_neg c]

omit [DecidableEq K] in
lemma _root_.Verif.Pluq.GJ.congrP {M cs rb cb R : ℕ} {V : ℕ → ℕ → K} {p p' q : ℕ → ℕ} (h : GJ M cs rb cb R X V p q) (e : ∀ i < M, p i = p' i) :
    GJ M cs rb cb R X V p' q := by
  have hM := h.rM
  refine ⟨h.rM, h.rN, ⟨fun i hi => by rw [← e i hi]; exact h.pP.1 i hi, fun i hi j hj e' => ?_⟩, fun i hi => ?_, h.pQ, fun i hi j hj => ?_, h.zero, h.mono⟩
  · rw [← e i hi, ← e j hj] at e'; exact h.pP.2 i hi j hj e'
  · rw [← e i (by omega)]; exact h.fixP i hi
  · rw [← h.eq i hi j hj]
    exact sum_congr rfl (fun l hl => by rw [e l (mem_range.1 hl)])

theorem gaussJordan_spec {k : Kit K} (hk : KitOk k) : ∀ (fuel cs : ℕ), cs < fuel → ∀ (jk : List ℕ → ℕ → ℕ) (cb rb : ℕ) (m0 m : Mem K) (W : Win)
    (X : ℕ → ℕ → K) (P Q : Arr ℕ), On m0 m W X → rb ≤ W.r → cb + cs ≤ W.c → P.len = W.r - rb → QOk Q W.c cb →
    Run (gaussJordan k W.r W.c W.p W.ld fuel jk cb rb cs P Q) m (GJPost m0 W X cb rb cs Q)
  | 0, _, hf => absurd hf (Nat.not_lt_zero _)
  | fuel+1, cs, hf => by
    intro jk cb rb m0 m W X P Q h hrb hcs hP hQ
    have ih := gaussJordan_spec hk fuel
    unfold gaussJordan
    rif h0
    · rw [Run_pure]
      subst h0
      refine ⟨⟨hP, fun i hi => by omega⟩, _, X, QRes.refl hQ hcs, h, ⟨le_rfl, Nat.zero_le _, ⟨fun i hi => ?_, fun i hi j hj e => ?_⟩, fun i hi => ?_,
        ⟨fun i hi => hi, fun i _ j _ e => e⟩, fun i hi j hj => ?_, fun i hi j hj h1 _ => by omega, fun i hi => absurd hi (Nat.not_lt_zero _)⟩, fun i _ j _ _ => rfl⟩
      · simp only [shiftPerm, if_pos hi]; exact hi
      · simpa only [shiftPerm, if_pos hi, if_pos hj] using e
      · simp only [shiftPerm, if_pos hi]
      · rw [transOf_sum _ _ hi le_rfl, if_neg (by omega), range_zero, sum_empty, add_zero, reducedOf_ge _ (Nat.zero_le _), if_pos (by omega)]
        simp only [shiftPerm, if_pos hi]
    have hbc := hk.bc
    rif hc
    · exact gaussJordanBase_spec hk _ h hrb hcs hP hQ
    dsimp only
    rw [Run_bind]
    refine (ih (cs / 2) (by omega) _ cb rb m0 m W X P Q h hrb (by omega) hP hQ).mono ?_
    rintro ⟨r1, P1, Q1⟩ m1 ⟨aP1, q1, V1, res1, h1, g1, o1⟩
    have aP1 : ArrOk P1 (W.r - rb) := aP1
    have res1 : QRes Q Q1 W.c cb (cs / 2) q1 := res1
    have g1 : GJ W.r (cs / 2) rb cb r1 X V1 (fun i => shiftPerm rb i (ofSwaps P1.get (W.r - rb))) q1 := g1
    have hr1 := g1.rN
    have hM1 := g1.rM
    dsimp only
    rw [Run_bind]
    refine (gaussJordanApply_spec hk h1 hM1 hr1 hcs aP1).mono ?_
    rintro _ m2 ⟨V2, h2, o2, e2⟩
    rw [Run_bind]
    refine (ih (cs - cs / 2) (by omega) _ (cb + cs / 2) (rb + r1) m0 m2 W V2 _ Q1 h2 hM1 (by omega) (by simp only [Arr.mk']; omega) res1.ok).mono ?_
    rintro ⟨r2, P2, Q2⟩ m3 ⟨aP2, q2, V3, res2, h3, g2, o3⟩
    have aP2 : ArrOk P2 (W.r - (rb + r1)) := aP2
    have res2 : QRes Q1 Q2 W.c (cb + cs / 2) (cs - cs / 2) q2 := res2
    have g2 : GJ W.r (cs - cs / 2) (rb + r1) (cb + cs / 2) r2 V2 V3 (fun i => shiftPerm (rb + r1) i (ofSwaps P2.get (W.r - (rb + r1)))) q2 := g2
    have hr2 := g2.rN
    have hM2 := g2.rM
    dsimp only
    rw [Run_bind]
    refine (gaussJordanCompose_spec hk h3 hM2 hr1 hr2 hcs aP2).mono ?_
    rintro _ m4 ⟨V4, h4, o4, e4⟩
    rw [Run_bind, Run_liftE]
    refine (composePermutationsLLL_spec (W.r - rb) r1 P1 P2 (jk [5]) (jk [6]) (jk [7]) (by omega) aP1.1 (fun i hi => (aP1.2 i hi).2)
      (by rw [aP2.1]; omega) (by rw [Nat.sub_sub]; exact fun i hi => (aP2.2 i hi).2)).mono ?_
    rintro L ⟨lL, tL, eL⟩
    have aL : ArrOk L (W.r - rb) := ⟨lL, tL⟩
    have hp : ∀ i < W.r, ((fun i => shiftPerm rb i (ofSwaps P1.get (W.r - rb))) ∘ fun i => shiftPerm (rb + r1) i (ofSwaps P2.get (W.r - (rb + r1)))) i =
        (fun i => shiftPerm rb i (ofSwaps L.get (W.r - rb))) i := by
      intro i hi
      simp only [Function.comp]
      by_cases c1 : i < rb
      · simp only [shiftPerm, if_pos c1, if_pos (show i < rb + r1 by omega)]
      · have := eL (i - rb) (by omega)
        rw [Nat.sub_sub] at this
        conv_rhs => rw [shiftPerm, if_neg c1, this]
        by_cases c2 : i < rb + r1
        · simp only [shiftPerm, if_pos c2, if_neg c1, if_pos (show i - rb < r1 by omega)]
        · simp only [shiftPerm, if_neg c2, if_neg (show ¬ i - rb < r1 by omega)]
          rw [if_neg (by omega), show i - rb - r1 = i - (rb + r1) by omega]
          congr 2; omega
    have hcs' : cs / 2 + (cs - cs / 2) = cs := by omega
    have hX : ∀ i < W.r, ∀ j < cs - cs / 2, V2 i (cb + cs / 2 + j) =
        ∑ k ∈ range W.r, transOf rb cb r1 V1 i k * X ((fun i => shiftPerm rb i (ofSwaps P1.get (W.r - rb))) k) (cb + cs / 2 + j) := by
      intro i hi j hj
      rw [e2 i hi j hj]
      refine sum_congr rfl (fun l hl => ?_)
      rw [o1 _ (g1.pP.1 l (mem_range.1 hl)) _ (by omega) (by omega)]
    have V3lo : ∀ i < W.r, ∀ j < cs / 2, V3 i (cb + j) = V1 i (cb + j) := by
      intro i hi j hj
      rw [o3 i hi _ (by omega) (by omega), o2 _ _ (by omega)]
    have ha : ∀ i < W.r, ∀ l < r1, V4 i (cb + l) = ∑ k ∈ range W.r, transOf (rb + r1) (cb + cs / 2) r2 V3 i k *
        V1 ((fun i => shiftPerm (rb + r1) i (ofSwaps P2.get (W.r - (rb + r1)))) k) (cb + l) := by
      intro i hi l hl
      rw [e4 i hi l hl]
      refine sum_congr rfl (fun t ht => ?_)
      rw [V3lo _ (g2.pP.1 t (mem_range.1 ht)) _ (by omega)]
    rif hmv
    · rw [Run_bind]
      refine (gaussJordanMove_spec (rb := rb) (r1 := r1) (r2 := r2) (c1 := cs / 2) (cb := cb) h4 hM1 hr1 (by omega)).mono ?_
      rintro _ m5 ⟨V5, h5, o5, e5, f5⟩
      rw [Run_bind, Run_liftE]
      refine (gaussJordanMoveQ_spec _ res1 res2 hr1 hr2).mono (fun Q3 res3 => ?_)
      rw [Run_pure]
      rw [hcs'] at res3
      have hC : GJComp W.r (cs / 2) (cs - cs / 2) rb cb r1 r2 V1 V3 V5 (fun i => shiftPerm (rb + r1) i (ofSwaps P2.get (W.r - (rb + r1)))) := by
        refine ⟨fun i hi l hl => ?_, fun i hi l hl => ?_, fun i hi l hl => ?_, fun i hi l hl => ?_⟩
        · rw [o5 i hi _ (by omega)]; exact ha i hi l hl
        · rw [e5 i hi l hl, o4 _ _ (by omega)]
        · rw [f5 i hi l hl, o4 _ _ (by omega), V3lo i hi _ (by omega)]
        · rw [o5 i hi _ (by omega), o4 _ _ (by omega)]
          congr 1; omega
      have g3 := (g1.comp hX g2 hC).congrP hp
      rw [hcs'] at g3
      refine ⟨aL, _, V5, res3, h5, g3, fun i hi j hj hout => ?_⟩
      rw [o5 i hi _ (by omega), o4 _ _ (by omega), o3 i hi j hj (by omega), o2 _ _ (by omega), o1 i hi j hj (by omega)]
    · rw [Run_pure]
      have res3 := res1.comp res2 hr1 hmv
      rw [hcs'] at res3
      have hC : GJComp W.r (cs / 2) (cs - cs / 2) rb cb r1 r2 V1 V3 V4 (fun i => shiftPerm (rb + r1) i (ofSwaps P2.get (W.r - (rb + r1)))) := by
        refine ⟨ha, fun i hi l hl => ?_, fun i hi l hl => ?_, fun i hi l hl => ?_⟩
        · rw [o4 _ _ (by omega)]
          congr 1; omega
        · obtain rfl : r2 = 0 := by omega
          rw [o4 _ _ (by omega), Nat.add_zero, V3lo i hi _ (by omega)]
          by_cases c : i < rb + r1
          · rw [if_pos c]
          · rw [if_neg c]; exact g1.zero i hi _ (by omega) (by omega) (by omega)
        · rw [o4 _ _ (by omega)]
          congr 1; omega
      have g3 := (g1.comp hX g2 hC).congrP hp
      rw [hcs'] at g3
      refine ⟨aL, _, V4, res3, h4, g3, fun i hi j hj hout => ?_⟩
      rw [o4 _ _ (by omega), o3 i hi j hj (by omega), o2 _ _ (by omega), o1 i hi j hj (by omega)]

omit [DecidableEq K] in
lemma _root_.Verif.Pluq.GJ.congrQ {M cs rb cb R : ℕ} {V : ℕ → ℕ → K} {p q q' : ℕ → ℕ} (h : GJ M cs rb cb R X V p q) (e : ∀ i < cs, q i = q' i) :
    GJ M cs rb cb R X V p q' := by
  have hN := h.rN
  refine ⟨h.rM, h.rN, h.pP, h.fixP, ⟨fun i hi => by rw [← e i hi]; exact h.pQ.1 i hi, fun i hi j hj e' => ?_⟩, fun i hi j hj => ?_, h.zero,
    fun i hi j hj h1 h2 => h.mono i hi j hj h1 (by rw [e i (by omega), e j hj]; exact h2)⟩
  · rw [← e i hi, ← e j hj] at e'; exact h.pQ.2 i hi j hj e'
  · rw [← e j hj]; exact h.eq i hi j hj

theorem reducedRowEchelonFormGJ_spec {k : Kit K} (hk : KitOk k) (jk : List ℕ → ℕ → ℕ) {P Qt : Arr ℕ} (h : On m0 m W X) (hP : P.len = W.r)
    (hQ : Qt.len = W.c) :
    Run (reducedRowEchelonFormGJ k jk W.r W.c W.p W.ld P Qt) m (fun y m' => ArrOk y.2.1 W.r ∧ ArrOk y.2.2 W.c ∧
      ∃ V, On m0 m' W V ∧ IsReduced W.r W.c y.1 X V (ofSwaps y.2.1.get W.r) (ofSwaps y.2.2.get W.c)) := by
  unfold reducedRowEchelonFormGJ
  simp only [Run_bind, Run_liftE]
  refine (iota_spec Qt W.c hQ.ge).mono (fun Qt' hQt => ?_)
  refine (iota_spec P W.r hP.ge).mono (fun P' hP' => ?_)
  refine (gaussJordan_spec hk (W.c + 1) W.c (Nat.lt_succ_self _) jk 0 0 m0 m W X P' Qt' h (Nat.zero_le _) (by omega) (hP'.1.trans hP)
    ⟨Nat.zero_le _, hQt.1.trans hQ, fun i hi => absurd hi (Nat.not_lt_zero _), fun j _ hj => hQt.2 j hj⟩).mono ?_
  rintro ⟨R, P2, Q2⟩ m' ⟨aP, q, V, res, h', g, _⟩
  have aP : ArrOk P2 W.r := aP
  have res : QRes Qt' Q2 W.c 0 W.c q := res
  have g : GJ W.r W.c 0 0 R X V (fun i => shiftPerm 0 i (ofSwaps P2.get W.r)) q := g
  refine ⟨aP, ⟨res.ok.len, res.ok.total⟩, V, h', ?_⟩
  refine GJ.isReduced ((g.congrP (fun i _ => ?_)).congrQ (fun j hj => ?_))
  · simp [shiftPerm]
  · have := res.hi j hj
    rw [Nat.zero_add, Nat.zero_add] at this
    exact this.symm

/-- `Invert`: the nullity, and the result when it is zero -/
theorem invert_spec {k : Kit K} (hk : KitOk k) (jk : List ℕ → ℕ → ℕ) (h : On m0 m W X) (hsq : W.r = W.c) :
    Run (invert k jk W.r W.p W.ld) m (fun nul m' => nul ≤ W.r ∧ ∃ Z V p q, On m0 m' W Z ∧ IsReduced W.r W.r (W.r - nul) X V p q ∧
      (nul = 0 → ∀ i < W.r, ∀ j < W.r, ∑ l ∈ range W.r, Z i l * X l (q j) = if i = j then 1 else 0)) := by
  unfold invert
  rif h0
  · rw [Run_pure]
    refine ⟨Nat.zero_le _, X, X, id, id, h, ⟨by omega, by omega, ⟨fun _ hi => hi, fun _ _ _ _ e => e⟩, ⟨fun _ hi => hi, fun _ _ _ _ e => e⟩,
      fun i hi => by omega, fun i hi => by omega⟩, fun _ i hi => by omega⟩
  rw [Run_bind]
  have t := reducedRowEchelonFormGJ_spec hk (fun l => jk (2 :: l)) (P := Arr.mk' W.r (jk [0])) (Qt := Arr.mk' W.r (jk [1])) h rfl hsq
  rw [← hsq] at t
  refine t.mono ?_
  rintro ⟨R, P, Q⟩ m1 ⟨aP, aQ, V, h1, hR⟩
  have aP : ArrOk P W.r := aP
  have hR : IsReduced W.r W.r R X V (ofSwaps P.get W.r) (ofSwaps Q.get W.r) := hR
  have hle := hR.rM
  dsimp only
  rw [Run_bind]
  refine (Run_liftE _ _ _).2 ((Ok_usub _ _ _).2 ⟨hle, ?_⟩)
  have t := applyP_col (i0 := 0) (j0 := 0) (r := W.r) (c := W.r) (ibeg := 0) (iend := R) (P := P) .no h1 (by omega) (by omega) hle (by rw [aP.1]; exact hle)
    (fun i hi => (aP.2 i (by omega)).2)
  rw [show W.adr 0 0 = W.p by simp [Win.adr]] at t
  rw [Run_bind]
  refine t.mono (fun _ m2 h2 => ?_)
  rw [Run_pure]
  refine ⟨by omega, _, V, _, _, h2, by rw [show W.r - (W.r - R) = R by omega]; exact hR, fun hn i hi j hj => ?_⟩
  obtain rfl : R = W.r := by omega
  have eP : appliedPerm .right .no P.get 0 W.r = (ofSwaps P.get W.r)⁻¹ := by
    have e := swapsDown_eq P.get 0 W.r
    rw [Nat.zero_add, swapsFrom_zero] at e
    simpa only [appliedPerm, Nat.sub_zero] using e
  have hlt := ofSwaps_lt (P := P.get) (fun i hi => (aP.2 i hi).2) W.r le_rfl
  have key := hR.eq i hi j hj
  rw [reducedOf_lt _ hj, transOf_sum _ _ hi (by omega), if_pos (by omega), zero_add] at key
  simp only [Nat.zero_add] at key
  rw [← key]
  refine (sum_bij (fun l _ => ofSwaps P.get W.r l) (fun l hl => mem_range.2 ((hlt l).1 (mem_range.1 hl)))
    (fun a _ b _ e => (ofSwaps P.get W.r).injective e) (fun b hb => ⟨(ofSwaps P.get W.r)⁻¹ b, mem_range.2 ((hlt _).2 ?_), ?_⟩) (fun l hl => ?_)).symm
  · rw [show ofSwaps P.get W.r ((ofSwaps P.get W.r)⁻¹ b) = b from (ofSwaps P.get W.r).apply_symm_apply b]; exact mem_range.1 hb
  · exact (ofSwaps P.get W.r).apply_symm_apply b
  · have := (hlt l).1 (mem_range.1 hl)
    rw [permCols, upd_in' (by omega), eP]
    simp only [Nat.zero_add, Nat.sub_zero, perm_inv_self]

end Verif.FF

namespace Verif.Pluq

open Finset Verif.Spec Verif.Spec.Perm

variable {K : Type} [Field K] {M N R : ℕ} {X V : ℕ → ℕ → K} {p q : ℕ → ℕ}

/-- the rank from a factorisation through `R` and a regular corner -/
lemma rank_of_corner {G H : ℕ → ℕ → K} (pP : IsPermArray p M) (pQ : IsPermArray q N) (rM : R ≤ M) (rN : R ≤ N)
    (fac : ∀ i < M, ∀ j < N, X (p i) (q j) = ∑ l ∈ range R, G i l * H l j)
    (hdet : (toMat R R (fun i j => X (p i) (q j))).det ≠ 0) : rk X M N = R := by
  obtain ⟨s, hs⟩ := perm_surj pP
  obtain ⟨t, ht⟩ := perm_surj pQ
  refine le_antisymm ?_ ?_
  · have e : toMat M N X = toMat M R (fun i l => G (s i) l) * toMat R N (fun l j => H l (t j)) := by
      rw [← toMat_mul, toMat_ext]
      intro i hi j hj
      have := fac (s i) (hs i hi).1 (t j) (ht j hj).1
      rw [(hs i hi).2, (ht j hj).2] at this
      exact this
    unfold rk
    rw [e]
    refine (Matrix.rank_mul_le_left _ _).trans ((Matrix.rank_le_card_width _).trans ?_)
    simp
  · have := Matrix.rank_of_det_ne_zero hdet
    rw [Fintype.card_fin] at this
    conv_lhs => rw [← this]
    exact Matrix.rank_submatrix_le (toMat M N X) (fun i : Fin R => (⟨p i, pP.1 i (by omega)⟩ : Fin M)) (fun j : Fin R => (⟨q j, pQ.1 j (by omega)⟩ : Fin N))

/-- the corner is regular when some combination of its rows is -/
lemma corner_det {C E : ℕ → ℕ → K} {Y : ℕ → ℕ → K} (h : ∀ i < R, ∀ j < R, ∑ l ∈ range R, C i l * Y l j = E i j) (hE : (toMat R R E).det ≠ 0) :
    (toMat R R Y).det ≠ 0 := by
  have e : toMat R R C * toMat R R Y = toMat R R E := by
    rw [← toMat_mul, toMat_ext]; exact h
  intro h0
  rw [← e, Matrix.det_mul, h0, mul_zero] at hE
  exact hE rfl

theorem _root_.Verif.Spec.IsReduced.rank_eq (h : IsReduced M N R X V p q) : rk X M N = R := by
  have hM := h.rM
  have hN := h.rN
  refine rank_of_corner (G := fun i l => if i < R then (if i = l then 1 else 0) else - V i l) (H := fun l j => X (p l) (q j)) h.pP h.pQ h.rM h.rN
    (fun i hi j hj => ?_) (corner_det (C := V) (E := one) (fun i hi j hj => ?_) ?_)
  · by_cases c : i < R
    · simp only [if_pos c, ite_mul, one_mul, zero_mul]
      rw [sum_ite_eq (range R) i, if_pos (mem_range.2 c)]
    · have := h.eq i hi j hj
      rw [transOf_sum _ _ hi (by omega), if_neg (by omega)] at this
      have e : reducedOf 0 0 R V i j = 0 := by
        by_cases hj' : j < R
        · rw [reducedOf_lt _ hj', if_neg (by omega)]
        · rw [reducedOf_ge _ (by omega), if_neg (by omega)]
      rw [e] at this
      simp only [Nat.zero_add] at this
      simp only [if_neg c, neg_mul, sum_neg_distrib]
      exact eq_neg_of_add_eq_zero_left this
  · have := h.eq i (by omega) j (by omega)
    rw [transOf_sum _ _ (by omega) (by omega), if_pos (by omega), zero_add, reducedOf_lt _ hj] at this
    simpa only [Nat.zero_add, one] using this
  · rw [toMat_one, Matrix.det_one]; exact one_ne_zero

lemma det_upper_unit (V : ℕ → ℕ → K) : (toMat R R (tri .upper .unit V)).det = 1 := by
  rw [Matrix.det_of_upperTriangular]
  · refine prod_eq_one (fun i _ => ?_)
    simp [toMat_apply, tri]
  · intro i j hij
    have hij : j < i := hij
    have h1 : (j : ℕ) < i := hij
    simp only [toMat_apply, tri]
    rw [if_neg (by omega), if_neg (by omega)]

lemma det_lower (hV : ∀ i < R, V i i ≠ 0) : (toMat R R (tri .lower .nonUnit V)).det ≠ 0 := by
  rw [Matrix.det_of_lowerTriangular]
  · rw [prod_ne_zero_iff]
    intro i _
    simpa [toMat_apply, tri] using hV i i.2
  · intro i j hij
    have h1 : (i : ℕ) < j := by simpa using hij
    simp only [toMat_apply, tri]
    rw [if_neg (by omega), if_neg (by omega)]

theorem _root_.Verif.Spec.IsEchelon.rank_eq (h : IsEchelon M N R X V p q) : rk X M N = R := by
  have hM := h.rM
  have hN := h.rN
  have key : ∀ i < M, ∀ j < N, ∑ k ∈ range R, tri .lower .nonUnit V i k * X (p k) (q j) + (if R ≤ i then X (p i) (q j) else 0) = rowEchOf R V i j := by
    intro i hi j hj
    rw [← h.eq i hi j hj, ← sum_range_add_sum_Ico _ hM]
    congr 1
    · exact sum_congr rfl (fun k hk => by rw [rowTransOf, if_pos (mem_range.1 hk)])
    · have e : ∀ k ∈ Ico R M, rowTransOf R V i k * X (p k) (q j) = if k = i then X (p i) (q j) else 0 := by
        intro k hk
        have := mem_Ico.1 hk
        rw [rowTransOf, if_neg (by omega)]
        by_cases c : i = k
        · subst c; rw [if_pos rfl, if_pos rfl, one_mul]
        · rw [if_neg c, if_neg (Ne.symm c), zero_mul]
      rw [sum_congr rfl e, sum_ite_eq' (Ico R M) i]
      by_cases c : R ≤ i
      · rw [if_pos c, if_pos (mem_Ico.2 ⟨c, hi⟩)]
      · rw [if_neg c, if_neg (by rw [mem_Ico]; omega)]
  refine rank_of_corner (G := fun i l => if i < R then (if i = l then 1 else 0) else - tri .lower .nonUnit V i l) (H := fun l j => X (p l) (q j)) h.pP h.pQ
    h.rM h.rN (fun i hi j hj => ?_) (corner_det (C := tri .lower .nonUnit V) (E := tri .upper .unit V) (fun i hi j hj => ?_) ?_)
  · by_cases c : i < R
    · simp only [if_pos c, ite_mul, one_mul, zero_mul]
      rw [sum_ite_eq (range R) i, if_pos (mem_range.2 c)]
    · have := key i hi j hj
      rw [if_pos (by omega), rowEchOf, if_neg c, add_comm] at this
      simp only [if_neg c, neg_mul, sum_neg_distrib]
      exact eq_neg_of_add_eq_zero_left this
  · have := key i (by omega) j (by omega)
    rwa [if_neg (by omega), add_zero, rowEchOf, if_pos hi] at this
  · rw [det_upper_unit]; exact one_ne_zero

theorem _root_.Verif.Spec.IsReducedNT.rank_eq (h : IsReducedNT M N R X V p q) : rk X M N = R := by
  have hM := h.rM
  have hN := h.rN
  refine rank_of_corner h.pP h.pQ h.rM h.rN h.eq ?_
  have e : toMat R R (fun i j => X (p i) (q j)) = toMat R R (tri .lower .nonUnit V) * toMat R R (tri .upper .unit V) := by
    rw [← toMat_mul, toMat_ext]
    intro i hi j hj
    show X (p i) (q j) = _
    rw [h.eq i (by omega) j (by omega)]
    refine sum_congr rfl (fun k _ => ?_)
    congr 1
    rw [sum_eq_single j (fun l _ hl => ?_) (fun hh => absurd (mem_range.2 hj) hh)]
    · rw [reducedOf_lt _ hj, if_pos (by omega), mul_one]
    · rw [reducedOf_lt _ hj, if_neg (by omega), mul_zero]
  rw [e, Matrix.det_mul, det_upper_unit, mul_one]
  exact det_lower h.inv

end Verif.Pluq
