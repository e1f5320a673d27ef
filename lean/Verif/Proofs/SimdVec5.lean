import Verif.Proofs.SimdVec4

/-!
# Correctness of the entry points of `freduce` and `fscalin` over vectorised kernels
-/

namespace Verif.SimdVec
open Verif.FP Verif.Reduce Verif.SimdInt Verif.FF

variable {K : Type} [CommRing K] [DecidableEq K] {E : Arith K} {m : Mem K} {n A B X incX incY lda ldb : ℕ}
variable {ofZ : ℤ → K} {p : ℕ} {mn mx : ℤ} {In : ℤ → Prop}

/-- a strided loop applying `f` to every entry -/
lemma Run_map_opt {f : K → Option K} {g : ℕ → K} (hX : OkIn m (vw X incX n)) (hi : 0 < incX)
    (hf : ∀ i < n, f (m.val (X + i * incX)) = some (g i)) :
    Run (loop n fun i => do let u ← load (X + i * incX); let r ← opt (f u); store (X + i * incX) r) m
      (fun _ m' => Step m m' (vw X incX n) (fun i _ => g i)) := by
  refine Run_vec g hX (vw_Inj hi) ?_
  intro t ht m' h1 h2
  obtain ⟨e1, e2⟩ := vec_rd hX (vw_Inj hi).safe ht h1 h2
  simp only [Run_bind, Run_load, e1, e2, hf t ht, Run_opt_some, Run_store, true_and]

/-- in place work on a contiguous copy -/
lemma via_copy1 {ker : ℕ → Prog K Unit} {g : ℕ → K} (hm : WF m) (hX : OkIn m (vw X incX n)) (hi : 0 < incX)
    (hker : ∀ (m1 : Mem K) (T : ℕ), OkIn m1 (vw T 1 n) → (∀ i < n, m1.val (T + i) = m.val (X + i * incX)) →
      Run (ker T) m1 (fun _ m' => Step m1 m' (vw T 1 n) (fun i _ => g i))) :
    Run (do
      let Xc ← alloc n
      vassign n X incX Xc 1
      ker Xc
      vassign n Xc 1 X incX
      free Xc n) m (fun _ m' => Step m m' (vw X incX n) (fun i _ => g i)) := by
  simp only [Run_bind, Run_alloc]
  change Run _ (m.grow n) _
  have hd := Disj_new_vw hm hX (n := n)
  refine (vassign_spec (hX.grow n) (grow_vw m n) (hd.safe rfl rfl) Nat.one_pos).mono ?_
  intro _ m1 s1
  have hT1 : OkIn m1 (vw m.next 1 n) := (grow_vw m n).step s1
  refine (hker m1 m.next hT1 (fun i hi' => ?_)).mono ?_
  · have := Step.vval s1 (i := i) hi'
    rw [Nat.mul_one] at this
    exact this
  intro _ m2 s2
  have hT2 : OkIn m2 (vw m.next 1 n) := hT1.step s2
  have hX2 : OkIn m2 (vw X incX n) := ((hX.grow n).step s1).step s2
  refine (vassign_spec hT2 hX2 (hd.symm.safe rfl rfl) hi).mono ?_
  intro _ m3 s3
  rw [Run_free]
  refine Step.of_temp hm ?_ ?_ ?_ ?_
  · rw [s3.ok, s2.ok, s1.ok]
  · exact s1.next.trans (s2.next.trans s3.next)
  · intro i hi' j hj
    rw [s3.val i hi' j hj, Step.vval s2 hi']
  · intro b hb hn
    rw [s3.frame b (by rw [s2.ok, s1.ok]; exact grow_ok hb) hn,
      s2.frame b (by rw [s1.ok]; exact grow_ok hb) (not_new hm hb), s1.frame b (grow_ok hb) (not_new hm hb)]
    rfl

lemma freduceIn_spec (S : Sound E ofZ p mn mx In) (z : ℕ → ℤ) (hm : WF m) (hA : OkIn m (vw A incX n)) (hi : 0 < incX)
    (hz : ∀ i < n, m.val (A + i * incX) = ofZ (z i) ∧ In (z i)) :
    Run (freduceIn E n A incX) m (fun _ m' => Step m m' (vw A incX n) (fun i _ => ofZ (canon p mn (z i)))) := by
  unfold freduceIn
  split_ifs with h1 h2
  · subst h1
    exact modp_spec S z (fun i h => by simpa only [Nat.mul_one] using hz i h) hA hA (vw_Inj hi).safe
  · unfold modpInc
    rw [cnt_pos hi]
    exact Run_map_opt hA hi fun i h => by rw [(hz i h).1, S.red _ (hz i h).2]
  · exact via_copy1 (ker := fun T => modp E T n T) hm hA hi fun m1 T hT hv =>
      modp_spec S z (fun i h => ⟨(hv i h).trans (hz i h).1, (hz i h).2⟩) hT hT (vw_Inj Nat.one_pos).safe

/-- the unit stride case needs no fresh memory -/
lemma freduceIn_one (S : Sound E ofZ p mn mx In) (z : ℕ → ℤ) (hA : OkIn m (vw A 1 n))
    (hz : ∀ i < n, m.val (A + i) = ofZ (z i) ∧ In (z i)) :
    Run (freduceIn E n A 1) m (fun _ m' => Step m m' (vw A 1 n) (fun i _ => ofZ (canon p mn (z i)))) := by
  unfold freduceIn
  rw [if_pos rfl]
  exact modp_spec S z hz hA hA (vw_Inj Nat.one_pos).safe

lemma fscalin_spec (S : Sound E ofZ p mn mx In) (a : ℤ) (ha : In a) (z : ℕ → ℤ) (hm : WF m) (hA : OkIn m (vw A incX n))
    (hi : 0 < incX) (hz : ∀ i < n, m.val (A + i * incX) = ofZ (z i) ∧ In (z i) ∧ In (a * z i)) :
    Run (fscalin E n (ofZ a) A incX) m (fun _ m' => Step m m' (vw A incX n) (fun i _ => ofZ (canon p mn (a * z i)))) := by
  unfold fscalin
  split_ifs with h1 h2
  · subst h1
    exact scalp_spec S a ha z (fun i h => by simpa only [Nat.mul_one] using hz i h) hA hA (vw_Inj hi).safe
  · unfold scalpInc
    rw [cnt_pos hi]
    exact Run_map_opt hA hi fun i h => by
      rw [(hz i h).1, S.mul _ _ ha (hz i h).2.1 (hz i h).2.2]
      exact S.red _ (hz i h).2.2
  · exact via_copy1 (ker := fun T => scalp E T (ofZ a) T n) hm hA hi fun m1 T hT hv =>
      scalp_spec S a ha z (fun i h => ⟨(hv i h).trans (hz i h).1, (hz i h).2⟩) hT hT (vw_Inj Nat.one_pos).safe

lemma drop_comm (m : Mem K) (a b n : ℕ) : (m.drop a n).drop b n = (m.drop b n).drop a n := by
  simp only [Mem.drop, Mem.mk.injEq, true_and, and_true]
  funext i
  rw [Bool.and_assoc, Bool.and_assoc]
  congr 1
  exact Bool.and_comm ..

lemma freduceOut_spec (S : Sound E ofZ p mn mx In) (hfred : ∀ z, In z → E.fred (ofZ z) = ofZ (canon p mn z)) (z : ℕ → ℤ)
    (hm : WF m) (hA : OkIn m (vw A incX n)) (hB : OkIn m (vw B incY n)) (hi : 0 < incX)
    (hs : (vw B incY n).Safe (vw A incX n)) (hz : ∀ i < n, m.val (B + i * incY) = ofZ (z i) ∧ In (z i)) :
    Run (freduceOut E n B incY A incX) m
      (fun _ m' => Step m m' (vw A incX n) (fun i _ => ofZ (canon p mn (z i)))) := by
  unfold freduceOut
  by_cases h1 : incX = 1 ∧ incY = 1
  · rw [if_pos h1]
    obtain ⟨rfl, rfl⟩ := h1
    exact modp_spec S z (fun i h => by simpa only [Nat.mul_one] using hz i h) hB hA hs
  rw [if_neg h1]
  by_cases h2 : n < copyReduce
  · rw [if_pos h2, cnt_pos hi]
    exact (Run_map1 E.fred hB hA hs hi).mono fun _ m' s => s.congr fun i h j _ => by
      have h : i < n := h
      rw [(hz i h).1, hfred _ (hz i h).2]
  · rw [if_neg h2]
    by_cases hx : incX = 1
    · subst hx
      have hy : incY ≠ 1 := fun h => h1 ⟨rfl, h⟩
      simp only [ne_eq, not_true_eq_false, if_false, hy, not_false_eq_true, if_true, Run_bind, Run_alloc, Run_pure]
      change Run _ (m.grow n) _
      have hd := Disj_new_vw hm hB (n := n)
      have hdA := Disj_new_vw hm hA (n := n)
      refine (vassign_spec (hB.grow n) (grow_vw m n) (hd.safe rfl rfl) Nat.one_pos).mono ?_
      intro _ m1 s1
      refine (modp_spec S z (fun i h => ⟨?_, (hz i h).2⟩) ((grow_vw m n).step s1) ((hA.grow n).step s1)
        (hdA.symm.safe rfl rfl)).mono ?_
      · have := Step.vval s1 (i := i) h
        rw [Nat.mul_one] at this
        exact this.trans (hz i h).1
      intro _ m2 s2
      rw [Run_free]
      refine Step.of_temp hm (by rw [s2.ok, s1.ok]) (s1.next.trans s2.next) s2.val fun b hb hn => ?_
      rw [s2.frame b (by rw [s1.ok]; exact grow_ok hb) hn, s1.frame b (grow_ok hb) (not_new hm hb)]
      rfl
    · simp only [ne_eq, hx, not_false_eq_true, if_true, Run_bind, Run_alloc, Run_pure]
      change Run _ (m.grow n) _
      have hd := Disj_new_vw hm hB (n := n)
      have hdA := Disj_new_vw hm hA (n := n)
      refine (vassign_spec (hA.grow n) (grow_vw m n) (hdA.safe rfl rfl) Nat.one_pos).mono ?_
      intro _ m1 s1
      have hm1 : WF m1 := (hm.grow n).step s1
      have hB1 : OkIn m1 (vw B incY n) := (hB.grow n).step s1
      have hA1 : OkIn m1 (vw A incX n) := (hA.grow n).step s1
      have hT1 : OkIn m1 (vw m.next 1 n) := (grow_vw m n).step s1
      have hv1 : ∀ i < n, m1.val (B + i * incY) = ofZ (z i) := fun i h => by
        have := Step.mat_of_disj s1 (hB.grow n) hd (i := i) (j := 0) h Nat.one_pos
        rw [← (hz i h).1]
        simpa [Mem.mat, Win.adr, Mem.grow] using this
      by_cases hy : incY = 1
      · subst hy
        simp only [not_true_eq_false, if_false, Run_pure]
        refine (modp_spec S z (fun i h => ⟨by simpa only [Nat.mul_one] using hv1 i h, (hz i h).2⟩) hB1 hT1
          (hd.safe rfl rfl)).mono ?_
        intro _ m2 s2
        refine (vassign_spec (hT1.step s2) (hA1.step s2) (hdA.symm.safe rfl rfl) hi).mono ?_
        intro _ m3 s3
        rw [Run_free]
        refine Step.of_temp hm ?_ ?_ ?_ ?_
        · rw [s3.ok, s2.ok, s1.ok]
        · exact s1.next.trans (s2.next.trans s3.next)
        · intro i hi' j hj
          rw [s3.val i hi' j hj, Step.vval s2 hi']
        · intro b hb hn
          rw [s3.frame b (by rw [s2.ok, s1.ok]; exact grow_ok hb) hn,
            s2.frame b (by rw [s1.ok]; exact grow_ok hb) (not_new hm hb), s1.frame b (grow_ok hb) (not_new hm hb)]
          rfl
      · simp only [hy, not_false_eq_true, if_true, Run_bind, Run_alloc, Run_pure]
        change Run _ (m1.grow n) _
        have hd1 := Disj_new_vw hm1 hB1 (n := n)
        have hdA1 := Disj_new_vw hm1 hA1 (n := n)
        have hdT1 := Disj_new_vw hm1 hT1 (n := n)
        refine (vassign_spec (hB1.grow n) (grow_vw m1 n) (hd1.safe rfl rfl) Nat.one_pos).mono ?_
        intro _ m2 s2
        refine (modp_spec S z (fun i h => ⟨?_, (hz i h).2⟩) ((grow_vw m1 n).step s2) ((hT1.grow n).step s2)
          (hdT1.symm.safe rfl rfl)).mono ?_
        · have := Step.vval s2 (i := i) h
          rw [Nat.mul_one] at this
          exact this.trans (hv1 i h)
        intro _ m3 s3
        refine (vassign_spec (((hT1.grow n).step s2).step s3) (((hA1.grow n).step s2).step s3)
          (hdA.symm.safe rfl rfl) hi).mono ?_
        intro _ m4 s4
        rw [Run_free, Run_free]
        change Step m ((m4.drop m.next n).drop m1.next n) _ _
        rw [drop_comm]
        refine Step.of_temp hm ?_ ?_ ?_ ?_
        · funext a
          simp only [Mem.drop, s4.ok, s3.ok, s2.ok]
          rw [← s1.ok]
          simp only [Mem.grow]
          by_cases h : m1.next ≤ a
          · rw [hm1 a h]; simp
          · simp [h]
        · exact s1.next.trans (le_trans (Nat.le_add_right _ _) (s2.next.trans (s3.next.trans s4.next)))
        · intro i hi' j hj
          change m4.val _ = _
          rw [s4.val i hi' j hj, Step.vval s3 hi']
        · intro b hb hn
          have hb1 : m1.ok b = true := by rw [s1.ok]; exact grow_ok hb
          change m4.val b = _
          rw [s4.frame b (by rw [s3.ok, s2.ok]; exact grow_ok hb1) hn,
            s3.frame b (by rw [s2.ok]; exact grow_ok hb1) (not_new hm hb), s2.frame b (grow_ok hb1) (not_new hm1 hb1)]
          exact s1.frame b (grow_ok hb) (not_new hm hb)

/-! ### Matrices -/

lemma OkIn.rowW {W : Win} (h : OkIn m W) {i : ℕ} (hi : i < W.r) : OkIn m (W.row i) := fun a ha => h a (Win.row_Has hi ha)

lemma freduceMat_spec (S : Sound E ofZ p mn mx In) {r c : ℕ} (z : ℕ → ℕ → ℤ) (hA : OkIn m ⟨A, lda, r, c⟩) (hld : c ≤ lda)
    (hz : ∀ i < r, ∀ j < c, m.val (A + i * lda + j) = ofZ (z i j) ∧ In (z i j)) :
    Run (freduceMat E r c A lda) m (fun _ m' => Step m m' ⟨A, lda, r, c⟩ (fun i j => ofZ (canon p mn (z i j)))) := by
  unfold freduceMat
  split_ifs with h
  · subst h
    rcases Nat.eq_zero_or_pos c with rfl | hc
    · rw [Nat.zero_mul]
      refine (freduceIn_one (n := 0) S (fun _ => 0) (fun a ha => ?_) (fun i h => absurd h (Nat.not_lt_zero _))).mono ?_
      · obtain ⟨i, hi, _⟩ := ha; exact absurd hi (Nat.not_lt_zero _)
      · intro _ m' s
        exact ⟨s.ok, s.next, fun i _ j hj => absurd hj (Nat.not_lt_zero _),
          fun a ha _ => s.frame a ha (fun ⟨i, hi, _⟩ => absurd hi (Nat.not_lt_zero _))⟩
    · have hf : ∀ t < c * r, t / c < r ∧ t % c < c ∧ t / c * c + t % c = t := fun t ht =>
        ⟨Nat.div_lt_of_lt_mul ht, Nat.mod_lt _ hc, by rw [Nat.mul_comm]; exact Nat.div_add_mod t c⟩
      refine (freduceIn_one (n := c * r) S (fun t => z (t / c) (t % c)) ?_ ?_).mono ?_
      · intro a ha
        rw [Nat.mul_comm c r] at ha
        exact hA a ((flat_Has ..).1 ha)
      · intro t ht
        obtain ⟨h1, h2, h3⟩ := hf t ht
        have := hz _ h1 _ h2
        rwa [Nat.add_assoc, h3] at this
      · intro _ m' s
        rw [Nat.mul_comm c r] at s
        refine Step.of_flat s fun i hi j hj => ?_
        rw [Nat.mul_comm i c, Nat.mul_add_div hc, Nat.div_eq_of_lt hj, Nat.mul_add_mod, Nat.mod_eq_of_lt hj, Nat.add_zero]
  · refine Run_rows (W := ⟨A, lda, r, c⟩) _ hA (Win.Inj_of_le (W := ⟨A, lda, r, c⟩) (.inl hld)) fun i hi m' h1 h2 h3 => ?_
    refine freduceIn_one S (z i) (fun a ha => ?_) fun j hj => ?_
    · rw [h1]; exact OkIn.rowW hA hi a ha
    · refine ⟨?_, (hz i hi j hj).2⟩
      rw [← (hz i hi j hj).1]
      refine h3 _ (hA _ ⟨i, hi, j, hj, rfl⟩) fun i' hi' hne j' hj' e => hne ?_
      exact ((Win.Inj_of_le (W := ⟨A, lda, r, c⟩) (.inl hld)) i hi j hj i' hi' j' hj' e).1.symm

/-- reading an entry of row `i` while rows other than `i` may have been rewritten -/
lemma row_rd {W : Win} (hW : W.Inj) (hA : OkIn m W) {i : ℕ} (hi : i < W.r) {m' : Mem K}
    (h : ∀ a, m.ok a = true → (∀ i' < W.r, i' ≠ i → ∀ j < W.c, a ≠ W.adr i' j) → m'.val a = m.val a) {j : ℕ} (hj : j < W.c) :
    m'.val (W.adr i j) = m.val (W.adr i j) :=
  h _ (hA _ ⟨i, hi, j, hj, rfl⟩) fun i' hi' hne j' hj' e => hne (hW i hi j hj i' hi' j' hj' e).1.symm

lemma freduceTri_spec (S : Sound E ofZ p mn mx In) (upper : Bool) {N : ℕ} (z : ℕ → ℕ → ℤ) (hA : OkIn m ⟨A, lda, N, N⟩)
    (hld : N ≤ lda) (hz : ∀ i < N, ∀ j < N, inTri upper i j → m.val (A + i * lda + j) = ofZ (z i j) ∧ In (z i j)) :
    Run (freduceTri E upper N A lda) m (fun _ m' => Step m m' ⟨A, lda, N, N⟩
      (fun i j => if inTri upper i j then ofZ (canon p mn (z i j)) else m.val (A + i * lda + j))) := by
  have hW : (Win.mk A lda N N).Inj := Win.Inj_of_le (.inl hld)
  have hR : ∀ i, ((Win.mk A lda N N).row i).Inj := fun i => vw_Inj (n := N) Nat.one_pos
  unfold freduceTri
  cases upper with
  | true =>
    simp only [if_true]
    refine Run_rows (W := ⟨A, lda, N, N⟩) _ hA hW fun i hi m' h1 h2 h3 => ?_
    have hi : i < N := hi
    have hr : OkIn m' ((Win.mk A lda N N).row i) := fun a ha => by rw [h1]; exact OkIn.rowW hA hi a ha
    have e0 : vw (A + i * (lda + 1)) 1 (N - i) = ((Win.mk A lda N N).row i).sub i 0 (N - i) 1 := by
      simp only [vw, Win.row, Win.sub, Win.adr, Win.mk.injEq, and_true, true_and]; ring
    refine (freduceIn_one S (fun j => z i (i + j)) ?_ ?_).mono ?_
    · rw [e0]; exact fun a ha => hr a (Win.sub_Has (by simp only [Win.row]; omega) (by simp only [Win.row]; omega) ha)
    · intro j hj
      obtain ⟨k1, k2⟩ := hz i hi (i + j) (by omega) (by simp [inTri])
      refine ⟨?_, k2⟩
      rw [← k1, show A + i * (lda + 1) + j = A + i * lda + (i + j) by ring]
      exact row_rd hW hA hi h3 (j := i + j) (show i + j < N by omega)
    · intro _ m2 s
      rw [e0] at s
      refine (s.sub (hR i) hr (by simp only [Win.row]; omega) (by simp only [Win.row]; omega)).congr fun j hj k hk => ?_
      have hj : j < N := hj
      obtain rfl : k = 0 := by simpa [Win.row] using hk
      by_cases h : i ≤ j
      · rw [if_pos (by omega), if_pos (by simpa [inTri] using h), Nat.add_sub_cancel' h]
      · rw [if_neg (by omega), if_neg (by simpa [inTri] using h)]
        have := row_rd hW hA hi h3 (j := j) hj
        simpa [Mem.mat, Win.row, Win.adr] using this
  | false =>
    simp only [Bool.false_eq_true, if_false]
    refine Run_rows (W := ⟨A, lda, N, N⟩) _ hA hW fun i hi m' h1 h2 h3 => ?_
    have hi : i < N := hi
    have hr : OkIn m' ((Win.mk A lda N N).row i) := fun a ha => by rw [h1]; exact OkIn.rowW hA hi a ha
    have e0 : vw (A + i * lda) 1 (i + 1) = ((Win.mk A lda N N).row i).sub 0 0 (i + 1) 1 := by
      simp only [vw, Win.row, Win.sub, Win.adr, Win.mk.injEq, and_true, true_and]; ring
    refine (freduceIn_one S (fun j => z i j) ?_ ?_).mono ?_
    · rw [e0]; exact fun a ha => hr a (Win.sub_Has (by simp only [Win.row]; omega) (by simp only [Win.row]; omega) ha)
    · intro j hj
      obtain ⟨k1, k2⟩ := hz i hi j (by omega) (by simp [inTri]; omega)
      refine ⟨?_, k2⟩
      rw [← k1]
      exact row_rd hW hA hi h3 (j := j) (show j < N by omega)
    · intro _ m2 s
      rw [e0] at s
      refine (s.sub (hR i) hr (by simp only [Win.row]; omega) (by simp only [Win.row]; omega)).congr fun j hj k hk => ?_
      have hj : j < N := hj
      obtain rfl : k = 0 := by simpa [Win.row] using hk
      by_cases h : j ≤ i
      · rw [if_pos (by omega), if_pos (by simpa [inTri] using h), Nat.sub_zero]
      · rw [if_neg (by omega), if_neg (by simpa [inTri] using h)]
        have := row_rd hW hA hi h3 (j := j) hj
        simpa [Mem.mat, Win.row, Win.adr] using this

lemma freduceMatOut_spec (S : Sound E ofZ p mn mx In) {r c : ℕ} (z : ℕ → ℕ → ℤ)
    (hA : OkIn m ⟨A, lda, r, c⟩) (hB : OkIn m ⟨B, ldb, r, c⟩) (hld : c ≤ lda)
    (hs : (Win.mk B ldb r c).Disj ⟨A, lda, r, c⟩ ∨ B = A ∧ ldb = lda)
    (hz : ∀ i < r, ∀ j < c, m.val (B + i * ldb + j) = ofZ (z i j) ∧ In (z i j)) :
    Run (freduceMatOut E r c B ldb A lda) m
      (fun _ m' => Step m m' ⟨A, lda, r, c⟩ (fun i j => ofZ (canon p mn (z i j)))) := by
  have hW : (Win.mk A lda r c).Inj := Win.Inj_of_le (.inl hld)
  unfold freduceMatOut
  refine Run_rows (W := ⟨A, lda, r, c⟩) _ hA hW fun i hi m' h1 h2 h3 => ?_
  have hrA : OkIn m' (vw (A + i * lda) 1 c) := fun a ha => by rw [h1]; exact OkIn.rowW hA hi a ha
  have hrB : OkIn m' (vw (B + i * ldb) 1 c) := fun a ha => by rw [h1]; exact OkIn.rowW (i := i) hB hi a ha
  have hv : ∀ j < c, m'.val (B + i * ldb + j) = ofZ (z i j) ∧ In (z i j) := fun j hj => by
    refine ⟨?_, (hz i hi j hj).2⟩
    rw [← (hz i hi j hj).1]
    rcases hs with hs | ⟨rfl, rfl⟩
    · exact h3 _ (hB _ ⟨i, hi, j, hj, rfl⟩) fun i' hi' _ j' hj' e =>
        hs _ ⟨i, hi, j, hj, rfl⟩ ⟨i', hi', j', hj', e⟩
    · exact row_rd hW hA hi h3 hj
  unfold freduceOut
  rw [if_pos ⟨rfl, rfl⟩]
  refine modp_spec S (z i) hv hrB hrA ?_
  rcases hs with hs | ⟨rfl, rfl⟩
  · refine Win.Disj.safe (fun a ha hb => hs a ?_ ?_) rfl rfl
    · exact Win.row_Has (W := ⟨B, ldb, r, c⟩) hi ha
    · exact Win.row_Has (W := ⟨A, lda, r, c⟩) hi hb
  · exact (vw_Inj Nat.one_pos).safe

end Verif.SimdVec
