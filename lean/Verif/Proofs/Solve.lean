import Verif.Proofs.Src
import Verif.Proofs.SolveMath
import Verif.Proofs.PluqStep
import Verif.Model.Solve
import Verif.Spec.Solve

/-!
# Linear systems and null spaces
-/

namespace Verif.FF

open Finset Verif.Spec Verif.Spec.Perm Verif.Pluq

variable {K : Type} [Field K] [DecidableEq K]
variable {m0 m : Mem K} {W S : Win} {V f : ℕ → ℕ → K} {g : GemmFn K} {ts : TrsmFn K} {P Q : Arr ℕ}

/-- what the common part of the left-looking solves computes -/
structure GetrsL (M N R : ℕ) (f : ℕ → ℕ → K) (p : ℕ → ℕ) (V V' : ℕ → ℕ → K) (info : ℕ) (Y : ℕ → ℕ → K) : Prop where
  out : ∀ i, M ≤ i → ∀ j, V' i j = V i j
  low : ∀ i < R, ∀ j < N, ∑ k ∈ range R, luL .nonUnit f i k * Y k j = V (p i) j
  upp : ∀ i < R, ∀ j < N, ∑ k ∈ range R, luU .nonUnit f i k * V' k j = Y i j
  res : ∀ i, R ≤ i → i < M → ∀ j < N, V' i j = V (p i) j - ∑ k ∈ range R, luL .nonUnit f i k * Y k j
  i01 : info = 0 ∨ info = 1
  iff : info = 0 ↔ ∀ i, R ≤ i → i < M → ∀ j < N, V' i j = 0

lemma getrsLeft_on (hg : GemmOk g) (ht : TrsmOk ts) (h : On m0 m W V) (hS : Src m0 S f) (hd : S.Disj W) {M R : ℕ} (hSr : M ≤ S.r)
    (hSc : R ≤ S.c) (hR : R ≤ M) (hM : M ≤ W.r) (hP : P.len = M) (hp : ∀ i < M, P.get i < M) (hpiv : ∀ k < R, f k k ≠ 0) :
    Run (getrsLeft g ts M W.c R S.p S.ld P W.p W.ld) m (fun info m' => ∃ V' Y, On m0 m' W V' ∧
      GetrsL M W.c R f (ofSwaps P.get M) V V' info Y) := by
  unfold getrsLeft
  rw [Run_bind]
  refine (rowsP_on (P := P) h 0 0 (by simp [Win.adr]) (r := M) (c := W.c) (by omega) (by omega) hP hp).mono (fun _ m1 h1 => ?_)
  obtain ⟨V1, e1, o1⟩ : ∃ V1, At V1 0 0 M W.c (fun i j => V (ofSwaps P.get M i) j) ∧
      V1 = permRows 0 0 M W.c (ofSwaps P.get M) V := ⟨_, fun i hi j hj => by
        simp only [permRows]; rw [upd_in hi hj, Nat.zero_add, Nat.zero_add], rfl⟩
  rw [← o1] at h1
  have o1 : ∀ i, M ≤ i → ∀ j, V1 i j = V i j := fun i hi j => by rw [o1]; simp only [permRows]; rw [upd_out (by omega)]
  rw [Run_bind]
  refine (trsm_at ht h1 (hS.on h1 hd) hd .left .lower .unit 1 0 0 0 0 R W.c R rfl (by omega) (by omega) (by omega) (by omega)
    (by intro hh; cases hh) (by simp [Win.adr]) (by simp [Win.adr])).mono ?_
  rintro _ m2 ⟨Y, h2, hY⟩
  rw [Run_bind]
  refine (Run_liftE _ _ _).2 ((Ok_usub _ _ _).2 ⟨hR, ?_⟩)
  rw [Run_bind]
  refine (gemm_at hg h2 (hS.on h2 hd) h2.src R 0 0 0 R 0 (M - R) W.c R (by omega) (by omega) (by omega) (by omega) (by omega) (by omega)
    ((hd.sub_left (by omega) (by omega)).sub_right (by omega) (by omega)) (h2.disj2 _ _ _ _ (by omega) (by omega) (by omega) (by omega) (by omega))
    (-1) 1 (by simp [Win.adr]) (by simp [Win.adr]) (by simp [Win.adr])).mono (fun _ m3 h3 => ?_)
  rw [Run_bind]
  refine (fiszero_on h3 R 0 (M - R) W.c (by omega) (by omega) (by simp [Win.adr])).mono ?_
  rintro z m' ⟨rfl, hz⟩
  rw [Run_bind]
  refine (trsm_at ht h3 (hS.on h3 hd) hd .left .upper .nonUnit 1 0 0 0 0 R W.c R rfl (by omega) (by omega) (by omega) (by omega)
    (fun _ i hi => by simpa using hpiv i hi) (by simp [Win.adr]) (by simp [Win.adr])).mono ?_
  rintro _ m4 ⟨Z, h4, hZ⟩
  rw [Run_pure]
  have b0 : blk f 0 0 = f := by funext i j; simp [blk]
  rw [b0] at hY hZ
  simp only [Spec.sideMul, Spec.mul, one_mul, Nat.zero_add] at hY hZ
  refine ⟨_, Y, h4, ?_⟩
  have r1 : ∀ i, R ≤ i → i < M → ∀ j < W.c, upd R 0 (M - R) W.c (fun i j =>
      (-1 : K) * (∑ l ∈ range R, f (R + i) (0 + l) * (upd 0 0 R W.c Y V1) (0 + l) (0 + j)) + 1 * (upd 0 0 R W.c Y V1) (R + i) (0 + j)) (upd 0 0 R W.c Y V1) i j =
      V (ofSwaps P.get M i) j - ∑ k ∈ range R, luL .nonUnit f i k * Y k j := by
    intro i h5 h6 j hj
    have e := e1 i h6 j hj
    simp only [Nat.zero_add] at e
    rw [upd_in' (by omega), show R + (i - R) = i by omega, Nat.sub_zero, Nat.zero_add, upd_out (r := R) (i0 := 0) (by omega), e,
      neg_one_mul, one_mul, neg_add_eq_sub]
    congr 1
    refine sum_congr rfl (fun k hk => ?_)
    have hk := mem_range.1 hk
    rw [Nat.zero_add, upd_in' (by omega), Nat.sub_zero, Nat.sub_zero, luL, tri, if_neg (by omega)]
    rw [if_pos (by omega)]
  refine ⟨?_, ?_, ?_, ?_, ?_, ?_⟩
  · intro i hi j
    rw [upd_out (by omega), upd_out (by omega), upd_out (by omega), o1 i hi j]
  · intro i hi j hj
    have e := e1 i (by omega) j hj
    simp only [Nat.zero_add] at e
    rw [← e]; exact hY i hi j hj
  · intro i hi j hj
    have e := hZ i hi j hj
    rw [upd_out (by omega), upd_in' (by omega), Nat.sub_zero, Nat.sub_zero] at e
    rw [← e]
    refine sum_congr rfl (fun k hk => ?_)
    have hk := mem_range.1 hk
    rw [upd_in' (by omega), Nat.sub_zero, Nat.sub_zero, luU]
  · intro i h5 h6 j hj
    rw [upd_out (by omega)]; exact r1 i h5 h6 j hj
  · cases z <;> simp
  · have : (if z = true then 0 else 1) = 0 ↔ z = true := by cases z <;> simp
    rw [this, hz]
    constructor
    · intro hh i h5 h6 j hj
      have := hh (i - R) (by omega) j hj
      rw [show R + (i - R) = i by omega, Nat.zero_add] at this
      rw [upd_out (by omega)]; exact this
    · intro hh i hi j hj
      have := hh (R + i) (by omega) (by omega) j hj
      rw [upd_out (by omega)] at this
      rw [Nat.zero_add]; exact this

/-- what the common part of the right-looking solves computes -/
structure GetrsR (M N R : ℕ) (f : ℕ → ℕ → K) (q : ℕ → ℕ) (V V' : ℕ → ℕ → K) (info : ℕ) (Y : ℕ → ℕ → K) : Prop where
  out : ∀ i j, N ≤ j → V' i j = V i j
  upp : ∀ i < M, ∀ j < R, ∑ k ∈ range R, Y i k * luU .nonUnit f k j = V i (q j)
  low : ∀ i < M, ∀ j < R, ∑ k ∈ range R, V' i k * luL .nonUnit f k j = Y i j
  res : ∀ i < M, ∀ j, R ≤ j → j < N → V' i j = V i (q j) - ∑ k ∈ range R, Y i k * luU .nonUnit f k j
  i01 : info = 0 ∨ info = 1
  iff : info = 0 ↔ ∀ i < M, ∀ j, R ≤ j → j < N → V' i j = 0

lemma getrsRight_on (hg : GemmOk g) (ht : TrsmOk ts) (h : On m0 m W V) (hS : Src m0 S f) (hd : S.Disj W) {N R : ℕ} (hSr : R ≤ S.r)
    (hSc : N ≤ S.c) (hR : R ≤ N) (hN : N ≤ W.c) (hQ : Q.len = N) (hq : ∀ i < N, Q.get i < N) (hpiv : ∀ k < R, f k k ≠ 0) :
    Run (getrsRight g ts W.r N R S.p S.ld Q W.p W.ld) m (fun info m' => ∃ V' Y, On m0 m' W V' ∧
      GetrsR W.r N R f (ofSwaps Q.get N) V V' info Y) := by
  unfold getrsRight
  rw [Run_bind]
  refine (colsP_on (P := Q) h 0 0 (by simp [Win.adr]) (r := W.r) (c := N) (by omega) (by omega) hQ hq).mono (fun _ m1 h1 => ?_)
  obtain ⟨V1, e1, o1⟩ : ∃ V1, At V1 0 0 W.r N (fun i j => V i (ofSwaps Q.get N j)) ∧
      V1 = permCols 0 0 W.r N (ofSwaps Q.get N) V := ⟨_, fun i hi j hj => by
        simp only [permCols]; rw [upd_in hi hj, Nat.zero_add, Nat.zero_add], rfl⟩
  rw [← o1] at h1
  have o1 : ∀ i j, N ≤ j → V1 i j = V i j := fun i j hj => by rw [o1]; simp only [permCols]; rw [upd_out (by omega)]
  rw [Run_bind]
  refine (trsm_at ht h1 (hS.on h1 hd) hd .right .upper .nonUnit 1 0 0 0 0 W.r R R rfl (by omega) (by omega) (by omega) (by omega)
    (fun _ i hi => by simpa using hpiv i hi) (by simp [Win.adr]) (by simp [Win.adr])).mono ?_
  rintro _ m2 ⟨Y, h2, hY⟩
  rw [Run_bind]
  refine (Run_liftE _ _ _).2 ((Ok_usub _ _ _).2 ⟨hR, ?_⟩)
  rw [Run_bind]
  refine (gemm_at hg h2 h2.src (hS.on h2 hd) 0 0 0 R 0 R W.r (N - R) R (by omega) (by omega) (by omega) (by omega) (by omega) (by omega)
    (h2.disj2 _ _ _ _ (by omega) (by omega) (by omega) (by omega) (by omega)) ((hd.sub_left (by omega) (by omega)).sub_right (by omega) (by omega))
    (-1) 1 (by simp [Win.adr]) (by simp [Win.adr]) (by simp [Win.adr])).mono (fun _ m3 h3 => ?_)
  rw [Run_bind]
  refine (fiszero_on h3 0 R W.r (N - R) (by omega) (by omega) (by simp [Win.adr])).mono ?_
  rintro z m' ⟨rfl, hz⟩
  rw [Run_bind]
  refine (trsm_at ht h3 (hS.on h3 hd) hd .right .lower .unit 1 0 0 0 0 W.r R R rfl (by omega) (by omega) (by omega) (by omega)
    (by intro hh; cases hh) (by simp [Win.adr]) (by simp [Win.adr])).mono ?_
  rintro _ m4 ⟨Z, h4, hZ⟩
  rw [Run_pure]
  have b0 : blk f 0 0 = f := by funext i j; simp [blk]
  rw [b0] at hY hZ
  simp only [Spec.sideMul, Spec.mul, one_mul, Nat.zero_add] at hY hZ
  refine ⟨_, Y, h4, ?_⟩
  have r1 : ∀ i < W.r, ∀ j, R ≤ j → j < N → upd 0 R W.r (N - R) (fun i j =>
      (-1 : K) * (∑ l ∈ range R, (upd 0 0 W.r R Y V1) (0 + i) (0 + l) * f (0 + l) (R + j)) + 1 * (upd 0 0 W.r R Y V1) (0 + i) (R + j)) (upd 0 0 W.r R Y V1) i j =
      V i (ofSwaps Q.get N j) - ∑ k ∈ range R, Y i k * luU .nonUnit f k j := by
    intro i hi j h5 h6
    have e := e1 i hi j h6
    simp only [Nat.zero_add] at e
    rw [upd_in' (by omega), show R + (j - R) = j by omega, Nat.sub_zero, Nat.zero_add, upd_out (r := W.r) (i0 := 0) (by omega), e,
      neg_one_mul, one_mul, neg_add_eq_sub]
    congr 1
    refine sum_congr rfl (fun k hk => ?_)
    have hk := mem_range.1 hk
    rw [Nat.zero_add, upd_in' (by omega), Nat.sub_zero, Nat.sub_zero, luU, tri, if_neg (by omega)]
    rw [if_pos (by omega)]
  refine ⟨?_, ?_, ?_, ?_, ?_, ?_⟩
  · intro i j hj
    rw [upd_out (by omega), upd_out (by omega), upd_out (by omega), o1 i j hj]
  · intro i hi j hj
    have e := e1 i hi j (by omega)
    simp only [Nat.zero_add] at e
    rw [← e]; exact hY i hi j hj
  · intro i hi j hj
    have e := hZ i hi j hj
    rw [upd_out (by omega), upd_in' (by omega), Nat.sub_zero, Nat.sub_zero] at e
    rw [← e]
    refine sum_congr rfl (fun k hk => ?_)
    have hk := mem_range.1 hk
    rw [upd_in' (by omega), Nat.sub_zero, Nat.sub_zero, luL]
  · intro i hi j h5 h6
    rw [upd_out (by omega)]; exact r1 i hi j h5 h6
  · cases z <;> simp
  · have : (if z = true then 0 else 1) = 0 ↔ z = true := by cases z <;> simp
    rw [this, hz]
    constructor
    · intro hh i hi j h5 h6
      have := hh i hi (j - R) (by omega)
      rw [show R + (j - R) = j by omega, Nat.zero_add] at this
      rw [upd_out (by omega)]; exact this
    · intro hh i hi j hj
      have := hh i hi (R + j) (by omega) (by omega)
      rw [upd_out (by omega)] at this
      rw [Nat.zero_add]; exact this

omit [DecidableEq K] in
lemma GetrsL.answer {M N R c info : ℕ} {X V' Y Z : ℕ → ℕ → K} {p q : ℕ → ℕ} (h : LU M N R X (luL .nonUnit f) (luU .nonUnit f) p q)
    (G : GetrsL M c R f p V V' info Y) (hZ : info = 0 → ∀ j < N, ∀ l < c, Z (q j) l = if j < R then V' j l else 0) :
    Answer .left M N c X V Z info := by
  have full : (∀ i, R ≤ i → i < M → ∀ j < c, V' i j = 0) ↔ ∀ i < M, ∀ l < c, ∑ k ∈ range R, luL .nonUnit f i k * Y k l = V (p i) l := by
    constructor
    · intro hh i hi l hl
      by_cases hR : i < R
      · exact G.low i hR l hl
      · have := G.res i (by omega) hi l hl
        rw [hh i (by omega) hi l hl] at this
        exact (sub_eq_zero.1 this.symm).symm
    · intro hh i h1 h2 l hl
      rw [G.res i h1 h2 l hl, hh i h2 l hl, sub_self]
  rcases G.i01 with h0 | h1
  · refine Or.inl ⟨h0, fun i hi l hl => ?_⟩
    have hf := full.1 (G.iff.1 h0)
    exact h.solve_ok (b := fun i => V i l) (Y := fun k => Y k l) (Z := fun j => V' j l) (x := fun j => Z j l) (fun i hi => hf i hi l hl)
      (fun k hk => G.upp k hk l hl) (fun j hj => hZ h0 j hj l hl) i hi
  · refine Or.inr ⟨h1, fun Z' hZ' => ?_⟩
    have : info = 0 := G.iff.2 (full.2 (fun i hi l hl =>
      h.residual (b := fun i => V i l) (Y := fun k => Y k l) (x := fun j => Z' j l) (fun i hi => G.low i hi l hl) (fun i hi => hZ' i hi l hl) i hi))
    omega

omit [DecidableEq K] in
lemma GetrsR.answer {M N R c info : ℕ} {X V' Y Z : ℕ → ℕ → K} {p q : ℕ → ℕ} (h : LU M N R X (luL .nonUnit f) (luU .nonUnit f) p q)
    (G : GetrsR c N R f q V V' info Y) (hZ : info = 0 → ∀ i < M, ∀ l < c, Z l (p i) = if i < R then V' l i else 0) :
    Answer .right M N c X V Z info := by
  have full : (∀ l < c, ∀ j, R ≤ j → j < N → V' l j = 0) ↔ ∀ j < N, ∀ l < c, ∑ k ∈ range R, luU .nonUnit f k j * Y l k = V l (q j) := by
    constructor
    · intro hh j hj l hl
      simp_rw [mul_comm (luU .nonUnit f _ j)]
      by_cases hR : j < R
      · exact G.upp l hl j hR
      · have := G.res l hl j (by omega) hj
        rw [hh l hl j (by omega) hj] at this
        exact (sub_eq_zero.1 this.symm).symm
    · intro hh l hl j h1 h2
      rw [G.res l hl j h1 h2, ← hh j h2 l hl]
      simp_rw [mul_comm (Y l _)]
      rw [sub_self]
  have cm : ∀ (Z : ℕ → ℕ → K) l j, mul M Z X l j = ∑ i ∈ range M, X i j * Z l i := fun Z l j => sum_congr rfl (fun i _ => mul_comm _ _)
  rcases G.i01 with h0 | h1
  · refine Or.inl ⟨h0, fun l hl j hj => ?_⟩
    have hf := full.1 (G.iff.1 h0)
    rw [cm]
    exact h.transpose.solve_ok (b := fun j => V l j) (Y := fun k => Y l k) (Z := fun i => V' l i) (x := fun i => Z l i) (fun j hj => hf j hj l hl)
      (fun k hk => by rw [← G.low l hl k hk]; exact sum_congr rfl (fun i _ => mul_comm _ _)) (fun i hi => hZ h0 i hi l hl) j hj
  · refine Or.inr ⟨h1, fun Z' hZ' => ?_⟩
    have : info = 0 := G.iff.2 (full.2 (fun j hj l hl =>
      h.transpose.residual (b := fun j => V l j) (Y := fun k => Y l k) (x := fun i => Z' l i)
        (fun i hi => by
          rw [← G.upp l hl i hi]; exact sum_congr rfl (fun i _ => mul_comm _ _))
        (fun j hj => by rw [← cm]; exact hZ' l hl j hj) j hj))
    omega

/-! ### `fgetrs` -/

omit [DecidableEq K] in
lemma lu_piv {M N R : ℕ} {X L : ℕ → ℕ → K} {p q : ℕ → ℕ} (h : LU M N R X L (luU .nonUnit f) p q) : ∀ k < R, f k k ≠ 0 := fun k hk => by
  have := h.dU k hk
  simpa [luU, tri] using this

lemma perm_inv_self (σ : Equiv.Perm ℕ) (x : ℕ) : σ⁻¹ (σ x) = x := σ.symm_apply_apply x

lemma fgetrs_left_on (hg : GemmOk g) (ht : TrsmOk ts) {R : ℕ} {X : ℕ → ℕ → K} (h : On m0 m W V) (hS : Src m0 S f) (hd : S.Disj W)
    (hr : S.r = W.r) (hc : S.c = W.r)
    (hP : P.len = W.r) (hp : IsTranspArray P.get W.r) (hQ : Q.len = W.r) (hq : IsTranspArray Q.get W.r)
    (hf : LU W.r W.r R X (luL .nonUnit f) (luU .nonUnit f) (ofSwaps P.get W.r) (ofSwaps Q.get W.r)) :
    Run (fgetrs g ts .left W.r W.c R S.p S.ld P Q W.p W.ld) m (fun info m' => ∃ Z, On m0 m' W Z ∧ Answer .left W.r W.r W.c X V Z info) := by
  have hR := hf.rM
  simp only [fgetrs, Run_bind]
  refine (getrsLeft_on hg ht h hS hd (R := R) hr.ge (by omega) hR le_rfl hP (fun i hi => (hp i hi).2) (lu_piv hf)).mono ?_
  rintro info m1 ⟨V', Y, h1, G⟩
  refine (rowsPinv_on (P := Q) h1 0 0 (r := W.r) (c := W.c) (by simp [Win.adr]) (by omega) (by omega) hQ (fun i hi => (hq i hi).2)).mono (fun _ m2 h2 => ?_)
  rw [Run_pure]
  refine ⟨_, h2, G.answer hf (fun h0 j hj l hl => ?_)⟩
  have hqj := hf.pQ.1 j hj
  simp only [permRows]
  rw [upd_in' (by omega), Nat.sub_zero, Nat.sub_zero, Nat.zero_add, Nat.zero_add, perm_inv_self]
  split_ifs with hjR
  · rfl
  · exact G.iff.1 h0 j (by omega) hj l hl

lemma fgetrs_right_on (hg : GemmOk g) (ht : TrsmOk ts) {R : ℕ} {X : ℕ → ℕ → K} (h : On m0 m W V) (hS : Src m0 S f) (hd : S.Disj W)
    (hr : S.r = W.c) (hc : S.c = W.c)
    (hP : P.len = W.c) (hp : IsTranspArray P.get W.c) (hQ : Q.len = W.c) (hq : IsTranspArray Q.get W.c)
    (hf : LU W.c W.c R X (luL .nonUnit f) (luU .nonUnit f) (ofSwaps P.get W.c) (ofSwaps Q.get W.c)) :
    Run (fgetrs g ts .right W.r W.c R S.p S.ld P Q W.p W.ld) m (fun info m' => ∃ Z, On m0 m' W Z ∧ Answer .right W.c W.c W.r X V Z info) := by
  have hR := hf.rM
  simp only [fgetrs, Run_bind]
  refine (getrsRight_on hg ht h hS hd (R := R) (by omega) hc.ge hR le_rfl hQ (fun i hi => (hq i hi).2) (lu_piv hf)).mono ?_
  rintro info m1 ⟨V', Y, h1, G⟩
  refine (colsPinv_on (P := P) h1 0 0 (r := W.r) (c := W.c) (by simp [Win.adr]) (by omega) (by omega) hP (fun i hi => (hp i hi).2)).mono (fun _ m2 h2 => ?_)
  rw [Run_pure]
  refine ⟨_, h2, G.answer hf (fun h0 j hj l hl => ?_)⟩
  have hqj := hf.pP.1 j hj
  simp only [permCols]
  rw [upd_in' (by omega), Nat.sub_zero, Nat.sub_zero, Nat.zero_add, Nat.zero_add, perm_inv_self]
  split_ifs with hjR
  · rfl
  · exact G.iff.1 h0 l hl j (by omega) hj

omit [DecidableEq K] in
lemma answer_congr {s : Side} {M N c info : ℕ} {A B B' Z : ℕ → ℕ → K} (h : Answer s M N c A B Z info)
    (e : ∀ i < (match s with | .left => M | .right => c), ∀ j < (match s with | .left => c | .right => N), B i j = B' i j) :
    Answer s M N c A B' Z info := by
  have key : ∀ Z, IsSolution s M N c A B Z ↔ IsSolution s M N c A B' Z := by
    intro Z
    cases s with
    | left => exact ⟨fun h i hi j hj => (h i hi j hj).trans (e i hi j hj), fun h i hi j hj => (h i hi j hj).trans (e i hi j hj).symm⟩
    | right => exact ⟨fun h i hi j hj => (h i hi j hj).trans (e i hi j hj), fun h i hi j hj => (h i hi j hj).trans (e i hi j hj).symm⟩
  rcases h with ⟨h0, h⟩ | ⟨h1, h⟩
  · exact Or.inl ⟨h0, (key Z).1 h⟩
  · exact Or.inr ⟨h1, fun Z' hz => h Z' ((key Z').2 hz)⟩

omit [Field K] [DecidableEq K] in
lemma Src.grow (h : Src m S f) (n : ℕ) : Src (m.grow n) S f := ⟨h.ok.grow n, h.ld, h.val⟩

variable {SB T : Win} {b U : ℕ → ℕ → K}

lemma fgetrsX_left_on (hg : GemmOk g) (ht : TrsmOk ts) {M N R : ℕ} {X : ℕ → ℕ → K} (h : On m0 m T U) (hS : Src m0 S f) (hd : S.Disj T)
    (hB : Src m0 SB b) (hdB : SB.Disj T) (hr : S.r = M) (hc : S.c = N) (hT : T.r = N) (hBr : SB.r = M) (hBc : SB.c = T.c)
    (hP : P.len = M) (hp : IsTranspArray P.get M) (hQ : Q.len = N) (hq : IsTranspArray Q.get N)
    (hf : LU M N R X (luL .nonUnit f) (luU .nonUnit f) (ofSwaps P.get M) (ofSwaps Q.get N)) :
    Run (fgetrsX g ts .left M N T.c R S.p S.ld P Q T.p T.ld SB.p SB.ld) m (fun info m' => ∃ Z, On m0 m' T Z ∧ Answer .left M N T.c X b Z info) := by
  have hRM := hf.rM
  have hRN := hf.rN
  simp only [fgetrsX]
  rif hMN
  · simp only [Run_bind, Run_alloc]
    obtain ⟨U0, h2⟩ := On2.start (r := M) (c := T.c) h
    change Run _ (m.grow (M * T.c)) _
    have a1 := (hS.on h hd).grow (M * T.c)
    have b1 := (hB.on h hdB).grow (M * T.c)
    have dA : S.Disj ⟨m.next, T.c, M, T.c⟩ := Disj_new h.wf' (hS.on h hd).ok
    have dB : SB.Disj ⟨m.next, T.c, M, T.c⟩ := Disj_new h.wf' (hB.on h hdB).ok
    generalize hmm : m.next = tp at *
    refine (fassign_at h2.right b1 dB 0 0 0 0 M T.c (by omega) (by omega) (by simp) (by simp) (by simp [Win.adr]) (by simp)).mono (fun _ m1 h3 => ?_)
    refine (getrsLeft_on (W := ⟨tp, T.c, M, T.c⟩) hg ht h3 a1 dA (R := R) hr.ge (by omega) hRM le_rfl hP (fun i hi => (hp i hi).2) (lu_piv hf)).mono ?_
    rintro info m2 ⟨V', Y, h4, G⟩
    have h5 := h2.ofT h4
    refine (fassign_at h5.left h5.right.src h2.disj.symm 0 0 0 0 R T.c (by simpa using hRM) (by simp) (by omega) (by omega) (by simp) (by simp [Win.adr])).mono
      (fun _ m3 h6 => ?_)
    rw [Run_free]
    have h7 := On2.stop (r := M) (c := T.c) h (by rw [hmm]; exact h5.ofW h6)
    rw [hmm] at h7
    refine (Run_liftE _ _ _).2 ((Ok_usub _ _ _).2 ⟨hRN, ?_⟩)
    refine (fzero_on h7 R 0 (N - R) T.c (by omega) (by omega) (by simp [Win.adr])).mono (fun _ m4 h8 => ?_)
    refine (rowsPinv_on (P := Q) h8 0 0 (r := N) (c := T.c) (by simp [Win.adr]) (by omega) (by omega) hQ (fun i hi => (hq i hi).2)).mono (fun _ m5 h9 => ?_)
    rw [Run_pure]
    refine ⟨_, h9, answer_congr (G.answer hf (fun h0 j hj l hl => ?_)) ?_⟩
    · have hqj := hf.pQ.1 j hj
      have hl : l < T.c := hl
      simp only [permRows]
      rw [upd_in' (by omega), Nat.sub_zero, Nat.sub_zero, Nat.zero_add, Nat.zero_add, perm_inv_self]
      split_ifs with hjR
      · rw [upd_out (by omega), upd_in' (by omega)]
        simp [blk]
      · rw [upd_in' (by omega)]
    · intro i hi j hj
      have hi : i < M := hi
      have hj : j < T.c := hj
      rw [upd_in' (by omega)]
      simp [blk]
  · simp only [Run_bind]
    refine (fassign_at h (hB.on h hdB) hdB 0 0 0 0 M T.c (by omega) (by omega) (by omega) (by omega) (by simp [Win.adr]) (by simp [Win.adr])).mono
      (fun _ m1 h3 => ?_)
    refine (getrsLeft_on hg ht h3 hS hd (R := R) hr.ge (by omega) hRM (by omega) hP (fun i hi => (hp i hi).2) (lu_piv hf)).mono ?_
    rintro info m2 ⟨V', Y, h4, G⟩
    refine (fzero_on h4 M 0 (N - M) T.c (by omega) (by omega) (by simp [Win.adr])).mono (fun _ m4 h8 => ?_)
    refine (rowsPinv_on (P := Q) h8 0 0 (r := N) (c := T.c) (by simp [Win.adr]) (by omega) (by omega) hQ (fun i hi => (hq i hi).2)).mono (fun _ m5 h9 => ?_)
    rw [Run_pure]
    refine ⟨_, h9, answer_congr (G.answer hf (fun h0 j hj l hl => ?_)) ?_⟩
    · have hqj := hf.pQ.1 j hj
      simp only [permRows]
      rw [upd_in' (by omega), Nat.sub_zero, Nat.sub_zero, Nat.zero_add, Nat.zero_add, perm_inv_self]
      by_cases hjM : j < M
      · rw [upd_out (by omega)]
        split_ifs with hjR
        · rfl
        · exact G.iff.1 h0 j (by omega) hjM l hl
      · rw [upd_in' (by omega), if_neg (by omega)]
    · intro i hi j hj
      have hi : i < M := hi
      have hj : j < T.c := hj
      rw [upd_in' (by omega)]
      simp [blk]

lemma fgetrsX_right_on (hg : GemmOk g) (ht : TrsmOk ts) {M N R : ℕ} {X : ℕ → ℕ → K} (h : On m0 m T U) (hS : Src m0 S f) (hd : S.Disj T)
    (hB : Src m0 SB b) (hdB : SB.Disj T) (hr : S.r = M) (hc : S.c = N) (hT : T.c = M) (hBr : SB.r = T.r) (hBc : SB.c = N)
    (hP : P.len = M) (hp : IsTranspArray P.get M) (hQ : Q.len = N) (hq : IsTranspArray Q.get N)
    (hf : LU M N R X (luL .nonUnit f) (luU .nonUnit f) (ofSwaps P.get M) (ofSwaps Q.get N)) :
    Run (fgetrsX g ts .right M N T.r R S.p S.ld P Q T.p T.ld SB.p SB.ld) m (fun info m' => ∃ Z, On m0 m' T Z ∧ Answer .right M N T.r X b Z info) := by
  have hRM := hf.rM
  have hRN := hf.rN
  simp only [fgetrsX]
  rif hMN
  · simp only [Run_bind, Run_alloc]
    obtain ⟨U0, h2⟩ := On2.start (r := T.r) (c := N) h
    change Run _ (m.grow (T.r * N)) _
    have a1 := (hS.on h hd).grow (T.r * N)
    have b1 := (hB.on h hdB).grow (T.r * N)
    have dA : S.Disj ⟨m.next, N, T.r, N⟩ := Disj_new h.wf' (hS.on h hd).ok
    have dB : SB.Disj ⟨m.next, N, T.r, N⟩ := Disj_new h.wf' (hB.on h hdB).ok
    generalize hmm : m.next = tp at *
    refine (fassign_at h2.right b1 dB 0 0 0 0 T.r N (by omega) (by omega) (by simp) (by simp) (by simp [Win.adr]) (by simp)).mono (fun _ m1 h3 => ?_)
    refine (getrsRight_on (W := ⟨tp, N, T.r, N⟩) hg ht h3 a1 dA (R := R) (by omega) hc.ge hRN le_rfl hQ (fun i hi => (hq i hi).2) (lu_piv hf)).mono ?_
    rintro info m2 ⟨V', Y, h4, G⟩
    have h5 := h2.ofT h4
    refine (fassign_at h5.left h5.right.src h2.disj.symm 0 0 0 0 T.r R (by simp) (by simpa using hRN) (by omega) (by omega) (by simp) (by simp [Win.adr])).mono
      (fun _ m3 h6 => ?_)
    rw [Run_free]
    have h7 := On2.stop (r := T.r) (c := N) h (by rw [hmm]; exact h5.ofW h6)
    rw [hmm] at h7
    refine (Run_liftE _ _ _).2 ((Ok_usub _ _ _).2 ⟨hRM, ?_⟩)
    refine (fzero_on h7 0 R T.r (M - R) (by omega) (by omega) (by simp [Win.adr])).mono (fun _ m4 h8 => ?_)
    refine (colsPinv_on (P := P) h8 0 0 (r := T.r) (c := M) (by simp [Win.adr]) (by omega) (by omega) hP (fun i hi => (hp i hi).2)).mono (fun _ m5 h9 => ?_)
    rw [Run_pure]
    refine ⟨_, h9, answer_congr (G.answer hf (fun h0 j hj l hl => ?_)) ?_⟩
    · have hqj := hf.pP.1 j hj
      have hl : l < T.r := hl
      simp only [permCols]
      rw [upd_in' (by omega), Nat.sub_zero, Nat.sub_zero, Nat.zero_add, Nat.zero_add, perm_inv_self]
      split_ifs with hjR
      · rw [upd_out (by omega), upd_in' (by omega)]
        simp [blk]
      · rw [upd_in' (by omega)]
    · intro i hi j hj
      have hi : i < T.r := hi
      have hj : j < N := hj
      rw [upd_in' (by omega)]
      simp [blk]
  · simp only [Run_bind]
    refine (fassign_at h (hB.on h hdB) hdB 0 0 0 0 T.r N (by omega) (by omega) (by omega) (by omega) (by simp [Win.adr]) (by simp [Win.adr])).mono
      (fun _ m1 h3 => ?_)
    refine (getrsRight_on hg ht h3 hS hd (R := R) (by omega) hc.ge hRN (by omega) hQ (fun i hi => (hq i hi).2) (lu_piv hf)).mono ?_
    rintro info m2 ⟨V', Y, h4, G⟩
    refine (fzero_on h4 0 N T.r (M - N) (by omega) (by omega) (by simp [Win.adr])).mono (fun _ m4 h8 => ?_)
    refine (colsPinv_on (P := P) h8 0 0 (r := T.r) (c := M) (by simp [Win.adr]) (by omega) (by omega) hP (fun i hi => (hp i hi).2)).mono (fun _ m5 h9 => ?_)
    rw [Run_pure]
    refine ⟨_, h9, answer_congr (G.answer hf (fun h0 j hj l hl => ?_)) ?_⟩
    · have hqj := hf.pP.1 j hj
      simp only [permCols]
      rw [upd_in' (by omega), Nat.sub_zero, Nat.sub_zero, Nat.zero_add, Nat.zero_add, perm_inv_self]
      by_cases hjM : j < N
      · rw [upd_out (by omega)]
        split_ifs with hjR
        · rfl
        · exact G.iff.1 h0 l hl j (by omega) hjM
      · rw [upd_in' (by omega), if_neg (by omega)]
    · intro i hi j hj
      have hi : i < T.r := hi
      have hj : j < N := hj
      rw [upd_in' (by omega)]
      simp [blk]

/-! ### `Solve` -/

/-- triangular solve on a part of a strided vector -/
lemma ftrsv_on {uplo : Uplo} {ta : Tr} {diag : Diag} {n i0 A B : ℕ} (h : On m0 m T U) (hc : T.c = 1) (hS : Src m S f) (hd : S.Disj T) (hr : n ≤ S.r)
    (hcS : n ≤ S.c) (hi : i0 + n ≤ T.r) (hnz : diag = .nonUnit → ∀ i < n, f i i ≠ 0) (hA : A = S.p) (hB : B = T.adr i0 0) :
    Run (ftrsv uplo ta diag n A S.ld B T.ld) m (fun _ m' => ∃ Y, On m0 m' T (upd i0 0 n 1 Y U) ∧
      ∀ i < n, ∑ k ∈ range n, Spec.op ta (Spec.tri uplo diag f) i k * Y k 0 = U (i0 + i) 0) := by
  subst hA hB
  have hld := h.ld
  have hsl := hS.ld
  have s0 := hS.sub (r := n) (c := n) 0 0 (by omega) (by omega)
  have eS : S.sub 0 0 n n = ⟨S.p, S.ld, n, n⟩ := by simp [Win.sub, Win.adr]
  rw [eS] at s0
  have dS : (Win.mk S.p S.ld n n).Disj (T.sub i0 0 n 1) := by
    rw [← eS]; exact (hd.sub_left (by omega) (by omega)).sub_right hi (by omega)
  have eq : ∀ t, T.adr i0 0 + t * T.ld = T.adr (i0 + t) 0 := fun t => by simp only [Win.adr]; ring
  refine (ftrsv_spec (m := m) uplo ta diag (N := n) (A := S.p) (lda := S.ld) (X := T.adr i0 0) (incX := T.ld) s0.ok (by omega)
    (h.ok'.of_sub (r' := n) (c' := 1) hi (by omega)) (by omega) dS ?_).mono ?_
  · intro hh i hi'
    have := hS.val i (by omega) i (by omega)
    rw [show S.p + i * S.ld + i = S.adr i i from rfl, this]; exact hnz hh i hi'
  · rintro _ m' ⟨e1, e2, e3, e4⟩
    refine ⟨fun i _ => m'.val (T.adr (i0 + i) 0), h.upd hi (by omega) ⟨e1, e2.ge, ?_, ?_⟩, ?_⟩
    · intro i hi' j hj
      have hj : j < 1 := hj
      obtain rfl : j = 0 := by omega
      rw [Win.sub_adr, Nat.add_zero]
    · intro a ha hn
      refine e4 a (fun s hs e => hn ⟨s, hs, 0, Nat.one_pos, ?_⟩)
      rw [Win.sub_adr, Nat.add_zero, e, eq]
    · intro i hi'
      have := e3 i hi'
      rw [eq, h.val (by omega) (by omega)] at this
      rw [← this]
      refine sum_congr rfl (fun k hk => ?_)
      have hk := mem_range.1 hk
      rw [eq]
      congr 1
      exact op_tri_congr ta (n := n) (fun i hi j hj => (hS.val i (by omega) j (by omega)).symm) hi' hk

lemma vassign_on {i0 n A B : ℕ} (h : On m0 m T U) (hc : T.c = 1) (hS : Src m S f) (hd : S.Disj T) (hr : S.r = n) (hcS : 0 < S.c) (hi : i0 + n ≤ T.r)
    (hA : A = S.p) (hB : B = T.adr i0 0) :
    Run (vassign n A S.ld B T.ld) m (fun _ m' => On m0 m' T (upd i0 0 n 1 f U)) := by
  subst hA hB
  have hld := h.ld
  have s0 := hS.sub (r := n) (c := 1) 0 0 (by omega) (by omega)
  have eS : S.sub 0 0 n 1 = ⟨S.p, S.ld, n, 1⟩ := by simp [Win.sub, Win.adr]
  have dS : (S.sub 0 0 n 1).Disj (T.sub i0 0 n 1) := (hd.sub_left (by omega) (by omega)).sub_right hi (by omega)
  rw [eS] at s0 dS
  refine (vassign_spec (m := m) (n := n) (X := S.p) (incX := S.ld) (Y := T.adr i0 0) (incY := T.ld) s0.ok (h.ok'.of_sub (r' := n) (c' := 1) hi (by omega))
    (Win.Disj.safe dS rfl rfl) (by omega)).mono (fun _ m' s => h.upd hi (by omega) (Step.congr s (fun i hi' j hj => ?_)))
  have hj : j < 1 := hj
  have hi' : i < n := hi'
  obtain rfl : j = 0 := by omega
  have := hS.val i (by omega) 0 (by omega)
  simpa [Win.adr] using this

/-- the part of `Solve` after the decomposition -/
lemma solve_tail_on {X : ℕ → ℕ → K} {M : ℕ} (h : On m0 m T U) (hT : T.r = M) (hTc : T.c = 1) (hS : Src m0 S f) (hd : S.Disj T)
    (hB : Src m0 SB b) (hdB : SB.Disj T) (hr : S.r = M) (hc : S.c = M) (hBr : SB.r = M) (hBc : SB.c = 1)
    (hP : P.len = M) (hp : IsTranspArray P.get M) (hQ : Q.len = M) (hq : IsTranspArray Q.get M)
    (hf : LU M M M X (luL .nonUnit f) (luU .nonUnit f) (ofSwaps P.get M) (ofSwaps Q.get M)) :
    Run (do
      vassign M SB.p SB.ld T.p T.ld
      applyP .left .no 1 0 M T.p T.ld P
      ftrsv .lower .no .unit M S.p S.ld T.p T.ld
      ftrsv .upper .no .nonUnit M S.p S.ld T.p T.ld
      applyP .left .yes 1 0 M T.p T.ld Q
      pure true) m (fun x m' => x = true ∧ ∃ Z, On m0 m' T Z ∧ ∀ i < M, ∑ j ∈ range M, X i j * Z j 0 = b i 0) := by
  have a0 : T.p = T.adr 0 0 := by simp [Win.adr]
  simp only [Run_bind]
  refine (vassign_on h hTc (hB.on h hdB) hdB hBr (by omega) (i0 := 0) (by omega) rfl a0).mono (fun _ m1 h1 => ?_)
  refine (rowsP_on (P := P) h1 0 0 a0 (r := M) (c := 1) (by omega) (by omega) hP (fun i hi => (hp i hi).2)).mono (fun _ m2 h2 => ?_)
  refine (ftrsv_on h2 hTc (hS.on h2 hd) hd hr.ge hc.ge (i0 := 0) (by omega) (by intro hh; cases hh) rfl a0).mono ?_
  rintro _ m3 ⟨Y, h3, hY⟩
  refine (ftrsv_on h3 hTc (hS.on h3 hd) hd hr.ge hc.ge (i0 := 0) (by omega) (fun _ => lu_piv hf) rfl a0).mono ?_
  rintro _ m4 ⟨Z, h4, hZ⟩
  refine (rowsPinv_on (P := Q) h4 0 0 (r := M) (c := 1) a0 (by omega) (by omega) hQ (fun i hi => (hq i hi).2)).mono (fun _ m5 h5 => ?_)
  rw [Run_pure]
  refine ⟨rfl, _, h5, ?_⟩
  refine hf.solve_ok (b := fun i => b i 0) (Y := fun k => Y k 0) (Z := fun k => Z k 0) ?_ ?_ ?_
  · intro i hi
    have hpi := hf.pP.1 i hi
    have := hY i hi
    simp only [permRows, Nat.zero_add] at this
    rw [upd_in' (by omega), Nat.sub_zero, upd_in' (by omega)] at this
    simpa [luL, Spec.op] using this
  · intro i hi
    have := hZ i hi
    rw [upd_in' (by omega)] at this
    simpa [luU, Spec.op] using this
  · intro j hj
    have hqj := hf.pQ.1 j hj
    simp only [permRows]
    rw [if_pos hj, upd_in' (by omega), Nat.sub_zero, Nat.zero_add, perm_inv_self, upd_in' (by omega)]
    simp

/-! ### Null spaces -/

omit [DecidableEq K] in
/-- the matrix built by `NullSpaceBasis` -/
lemma isNullBasis_of {M N R : ℕ} {X L U NS T : ℕ → ℕ → K} {p q : ℕ → ℕ} (h : LU M N R X L U p q)
    (hT : ∀ k < R, ∀ c < N - R, ∑ j ∈ range R, U k j * T j c = -U k (R + c))
    (hN : ∀ j < N, ∀ c < N - R, NS (q j) c = if j < R then T j c else if j = R + c then 1 else 0) :
    IsNullBasis M N (N - R) X NS := by
  have hR := h.rN
  have hlast : ∀ c < N - R, ∀ y : ℕ → K, ∑ c' ∈ range (N - R), NS (q (R + c)) c' * y c' = y c := by
    intro c hc y
    rw [sum_eq_single c]
    · rw [hN _ (by omega) c hc, if_neg (by omega), if_pos rfl, one_mul]
    · intro c' hc' hne
      rw [hN _ (by omega) c' (mem_range.1 hc'), if_neg (by omega), if_neg (by omega), zero_mul]
    · intro hn; exact absurd (mem_range.2 hc) hn
  refine ⟨fun x => ?_, fun y hy c hc => ?_⟩
  · rw [h.null_basis hT hN]
    refine ⟨fun hx => ⟨_, hx⟩, ?_⟩
    rintro ⟨y, hy⟩ j hj
    rw [hy j hj]
    refine sum_congr rfl (fun c hc => ?_)
    have hc := mem_range.1 hc
    rw [hy _ (h.pQ.1 _ (by omega)), hlast c hc]
  · rw [← hlast c hc y]
    exact hy _ (h.pQ.1 _ (by omega))

omit [DecidableEq K] in
/-- permuting the columns does not matter for the zero matrix -/
lemma lu_zero_id {M N : ℕ} {X L U : ℕ → ℕ → K} {p q : ℕ → ℕ} (h : LU M N 0 X L U p q) : LU M N 0 X L U p id := by
  refine ⟨h.rM, h.rN, h.pP, ⟨fun i hi => hi, fun i _ j _ e => e⟩, h.dL, h.dU, h.lo, h.up, fun i hi j hj => ?_⟩
  obtain ⟨s, hs⟩ := perm_surj h.pQ
  obtain ⟨h1, h2⟩ := hs j hj
  have := h.fac i hi _ h1
  rw [h2] at this
  simpa using this

/-- the part of `NullSpaceBasis` after the decomposition, right -/
lemma nullSpace_right_on (ht : TrsmOk ts) {R : ℕ} {X : ℕ → ℕ → K} (h : On m0 m W V) (hQ : Q.len = W.c) (hq : IsTranspArray Q.get W.c)
    {p : ℕ → ℕ} (hf : LU W.r W.c R X (luL .nonUnit V) (luU .nonUnit V) p (ofSwaps Q.get W.c)) (hne : W.c - R ≠ 0) :
    Run (do
      let NS ← alloc (W.c * (W.c - R))
      if R = 0 then do
        fidentity W.c (W.c - R) NS (W.c - R) 1
        pure (W.c - R, some (NS, W.c - R))
      else do
        fassign R (W.c - R) (W.p + R) W.ld NS (W.c - R)
        ts .left .upper .no .nonUnit R (W.c - R) (-1) W.p W.ld NS (W.c - R)
        fidentity (W.c - R) (W.c - R) (NS + R * (W.c - R)) (W.c - R) 1
        applyP .left .yes (W.c - R) 0 W.c NS (W.c - R) Q
        pure (W.c - R, some (NS, W.c - R))) m (fun x m' => x = (W.c - R, some (m.next, W.c - R)) ∧ ∃ Z,
          On2 (m.grow (W.c * (W.c - R))) m' W V ⟨m.next, W.c - R, W.c, W.c - R⟩ Z ∧ IsNullBasis W.r W.c (W.c - R) X Z) := by
  have hRM := hf.rM
  have hRN := hf.rN
  simp only [Run_bind, Run_alloc]
  obtain ⟨U0, h2⟩ := On2.start (r := W.c) (c := W.c - R) h
  change Run _ (m.grow (W.c * (W.c - R))) _
  generalize hmm : m.next = tp at *
  rif h0
  · subst h0
    simp only [Nat.sub_zero] at *
    simp only [Run_bind]
    refine (fidentity_on h2.right 0 0 W.c W.c 1 (by simp) (by simp) (by simp)).mono (fun _ m1 h3 => ?_)
    rw [Run_pure]
    refine ⟨rfl, _, h2.ofT h3, isNullBasis_of (lu_zero_id hf) (T := fun _ _ => 0) (fun k hk => absurd hk (Nat.not_lt_zero _)) ?_⟩
    intro j hj c hc
    have hc : c < W.c := hc
    rw [id, upd_in' (by omega)]
    simp
  · simp only [Run_bind]
    refine (fassign_at h2.right h2.left.src h2.disj 0 R 0 0 R (W.c - R) (by omega) (by omega) (by simpa using hRN) (by simp) (by simp [Win.adr])
      (by simp)).mono (fun _ m1 h3 => ?_)
    replace h3 := h2.ofT h3
    refine (trsm_at ht h3.right h3.left.src h2.disj .left .upper .nonUnit (-1) 0 0 0 0 R (W.c - R) R rfl (by omega) (by omega) (by simpa using hRN) (by simp)
      (fun _ i hi => by simpa using lu_piv hf i hi) (by simp [Win.adr]) (by simp)).mono ?_
    rintro _ m2 ⟨Y, h4, hY⟩
    refine (fidentity_on h4 R 0 (W.c - R) (W.c - R) 1 (by simp only []; omega) (by simp) (by simp)).mono (fun _ m3 h5 => ?_)
    refine (rowsPinv_on (P := Q) h5 0 0 (r := W.c) (c := W.c - R) (by simp) (by simp) (by simp) hQ (fun i hi => (hq i hi).2)).mono (fun _ m4 h6 => ?_)
    rw [Run_pure]
    refine ⟨rfl, _, h3.ofT h6, isNullBasis_of hf (T := Y) ?_ ?_⟩
    · intro k hk c hc
      have := hY k hk c hc
      rw [Nat.zero_add, Nat.zero_add, upd_in' (by omega), neg_one_mul] at this
      simp only [Spec.sideMul, Spec.mul, blk, Nat.zero_add, Nat.sub_zero] at this
      rw [show luU .nonUnit V k (R + c) = V k (R + c) by simp only [luU, tri]; rw [if_neg (by omega), if_pos (by omega)], ← this, show blk V 0 0 = V by funext i j; simp [blk]]
      rfl
    · intro j hj c hc
      have hqj := hf.pQ.1 j hj
      simp only [permRows]
      rw [upd_in' (by omega), Nat.sub_zero, Nat.sub_zero, Nat.zero_add, Nat.zero_add, perm_inv_self]
      split_ifs with h7 h8
      · rw [upd_out (by omega), upd_in' (by omega)]; simp
      · rw [upd_in' (by omega), if_pos (by omega)]
      · rw [upd_in' (by omega), if_neg (by omega)]

/-- the part of `NullSpaceBasis` after the decomposition, left -/
lemma nullSpace_left_on (ht : TrsmOk ts) {R : ℕ} {X : ℕ → ℕ → K} (h : On m0 m W V) (hP : P.len = W.r) (hp : IsTranspArray P.get W.r)
    {q : ℕ → ℕ} (hf : LU W.r W.c R X (luL .nonUnit V) (luU .nonUnit V) (ofSwaps P.get W.r) q) (hne : W.r - R ≠ 0) :
    Run (do
      let NS ← alloc ((W.r - R) * W.r)
      if R = 0 then do
        fidentity (W.r - R) W.r NS W.r 1
        pure (W.r - R, some (NS, W.r))
      else do
        fassign (W.r - R) R (W.p + R * W.ld) W.ld NS W.r
        ts .right .lower .no .unit (W.r - R) R (-1) W.p W.ld NS W.r
        fidentity (W.r - R) (W.r - R) (NS + R) W.r 1
        applyP .right .no (W.r - R) 0 W.r NS W.r P
        pure (W.r - R, some (NS, W.r))) m (fun x m' => x = (W.r - R, some (m.next, W.r)) ∧ ∃ Z,
          On2 (m.grow ((W.r - R) * W.r)) m' W V ⟨m.next, W.r, W.r - R, W.r⟩ Z ∧
            IsNullBasis W.c W.r (W.r - R) (fun i j => X j i) (fun i j => Z j i)) := by
  have hRM := hf.rM
  have hRN := hf.rN
  have piv := lu_piv hf
  simp only [Run_bind, Run_alloc]
  obtain ⟨U0, h2⟩ := On2.start (r := W.r - R) (c := W.r) h
  change Run _ (m.grow ((W.r - R) * W.r)) _
  generalize hmm : m.next = tp at *
  rif h0
  · subst h0
    simp only [Nat.sub_zero] at *
    simp only [Run_bind]
    refine (fidentity_on h2.right 0 0 W.r W.r 1 (by simp) (by simp) (by simp)).mono (fun _ m1 h3 => ?_)
    rw [Run_pure]
    refine ⟨rfl, _, h2.ofT h3, isNullBasis_of (lu_zero_id hf.transpose) (T := fun _ _ => 0) (fun k hk => absurd hk (Nat.not_lt_zero _)) ?_⟩
    intro j hj c hc
    have hc : c < W.r := hc
    rw [id, upd_in' (by omega)]
    simp [eq_comm]
  · simp only [Run_bind]
    refine (fassign_at h2.right h2.left.src h2.disj R 0 0 0 (W.r - R) R (by omega) (by omega) (by simp) (by simpa using hRM) (by simp [Win.adr])
      (by simp)).mono (fun _ m1 h3 => ?_)
    replace h3 := h2.ofT h3
    refine (trsm_at ht h3.right h3.left.src h2.disj .right .lower .unit (-1) 0 0 0 0 (W.r - R) R R rfl (by omega) (by omega) (by simp) (by simpa using hRM)
      (by intro hh; cases hh) (by simp [Win.adr]) (by simp)).mono ?_
    rintro _ m2 ⟨Y, h4, hY⟩
    refine (fidentity_on h4 0 R (W.r - R) (W.r - R) 1 (by simp) (by simp only []; omega) (by simp)).mono (fun _ m3 h5 => ?_)
    refine (colsPinv_on (P := P) h5 0 0 (r := W.r - R) (c := W.r) (by simp) (by simp) (by simp) hP (fun i hi => (hp i hi).2)).mono (fun _ m4 h6 => ?_)
    rw [Run_pure]
    refine ⟨rfl, _, h3.ofT h6, isNullBasis_of hf.transpose (T := fun j c => Y c j) ?_ ?_⟩
    · intro k hk c hc
      have := hY c hc k hk
      rw [Nat.zero_add, Nat.zero_add, upd_in' (by omega), neg_one_mul] at this
      simp only [Spec.sideMul, Spec.mul, blk, Nat.zero_add, Nat.sub_zero] at this
      rw [show luL .nonUnit V (R + c) k = V (R + c) k by simp only [luL, tri]; rw [if_neg (by omega), if_pos (by omega)], ← this, show blk V 0 0 = V by funext i j; simp [blk]]
      exact sum_congr rfl (fun j _ => mul_comm _ _)
    · intro j hj c hc
      have hqj := hf.pP.1 j hj
      simp only [permCols]
      rw [upd_in' (by omega), Nat.sub_zero, Nat.sub_zero, Nat.zero_add, Nat.zero_add, perm_inv_self]
      split_ifs with h7 h8
      · rw [upd_out (by omega), upd_in' (by omega)]; simp
      · rw [upd_in' (by omega), if_pos (by omega)]
      · rw [upd_in' (by omega), if_neg (by omega)]

omit [Field K] [DecidableEq K] in
lemma fill_on {R n : ℕ} (rnd : ℕ → K) (h : On m0 m T U) (hc : T.c = 1) (hr : R + n ≤ T.r) :
    Run (loop n fun i => store (T.p + (R + i) * T.ld) (rnd i)) m (fun _ m' => On m0 m' T (upd R 0 n 1 (fun i _ => rnd i) U)) := by
  refine Run_loop (fun k m' => On m0 m' T (upd R 0 k 1 (fun i _ => rnd i) U)) ?_ ?_
  · exact h.congr (fun i _ j _ => by rw [upd_out (by omega)])
  · intro k m' hk h'
    have e : T.p + (R + k) * T.ld = T.adr (R + k) 0 := by simp [Win.adr]
    rw [Run_store, e]
    refine ⟨h'.okc (by omega) (by omega), (h'.set (by omega) (by omega)).congr (fun i hi j hj => ?_)⟩
    by_cases e : i = R + k
    · subst e
      rw [upd_in' (by omega), upd_in' (by omega)]
      congr 1; omega
    · rw [upd_out (by omega)]
      by_cases h2 : R ≤ i ∧ i < R + k
      · rw [upd_in' (by omega), upd_in' (by omega)]
      · rw [upd_out (by omega), upd_out (by omega)]

/-- `fgemv` from the lower part of a vector to its upper part -/
lemma fgemv_on (cat : Cat) {ta : Tr} {R n a b A X Y : ℕ} (h : On m0 m T U) (hc : T.c = 1) (hS : Src m S f) (hd : S.Disj T) (hr : R + n ≤ T.r)
    (ha : a + (if ta = .no then R else n) ≤ S.r) (hb : b + (if ta = .no then n else R) ≤ S.c) (hne : 0 < n)
    (hA : A = S.adr a b) (hX : X = T.adr R 0) (hY : Y = T.adr 0 0) :
    Run (fgemv cat ta (if ta = .no then R else n) (if ta = .no then n else R) (-1) A S.ld X T.ld 0 Y T.ld) m
      (fun _ m' => On m0 m' T (upd 0 0 R 1 (fun i _ => -∑ k ∈ range n, Spec.op ta (blk f a b) i k * U (R + k) 0) U)) := by
  subst hA hX hY
  have hld := h.ld
  have hsl := hS.ld
  have e1 : ∀ k, T.adr R 0 + k * T.ld = T.adr (R + k) 0 := fun k => by simp only [Win.adr]; ring
  have s0 := hS.sub (r := if ta = .no then R else n) (c := if ta = .no then n else R) a b ha hb
  refine (fgemv_spec (m := m) cat ta (M := if ta = .no then R else n) (N := if ta = .no then n else R) (A := S.adr a b) (lda := S.ld)
    (X := T.adr R 0) (incX := T.ld) (Y := T.adr 0 0) (incY := T.ld) (Xd := n) (Yd := R) (-1) 0 ?_ ?_ ?_ h.wf' s0.ok (by omega)
    (h.ok'.of_sub (r' := n) (c' := 1) hr (by omega)) (h.ok'.of_sub (r' := R) (c' := 1) (by omega) (by omega)) (by omega) ?_ ?_).mono (fun _ m' s => ?_)
  · cases ta <;> simp
  · cases ta <;> simp
  · cases ta with
    | no => exact Or.inr rfl
    | yes => left; simp; omega
  · exact (hd.sub_left ha hb).sub_right (r' := R) (c' := 1) (by omega) (by omega)
  · exact h.disj2 R 0 0 0 (r := n) (c := 1) (r2 := R) (c2 := 1) hr (by omega) (by omega) (by omega) (by omega)
  · refine h.upd (by omega) (by omega) (Step.congr s (fun i hi j hj => ?_))
    have hi : i < R := hi
    rw [zero_mul, add_zero, neg_one_mul]
    congr 1
    refine sum_congr rfl (fun k hk => ?_)
    have hk := mem_range.1 hk
    rw [e1, h.val (by omega) (by omega)]
    congr 1
    cases ta with
    | no =>
      have := s0.val i hi k hk
      simpa [Win.sub, opAdr, Spec.op] using this
    | yes =>
      have := s0.val k hk i hi
      simpa [Win.sub, opAdr, Spec.op] using this

/-- the part of `RandomNullSpaceVector` after the decomposition, right, stride 1 -/
lemma nullVec_right_on (cat : Cat) {R : ℕ} {X : ℕ → ℕ → K} (rnd : ℕ → K) (h : On m0 m T U) (hT : T.r = S.c) (hTc : T.c = 1) (hTl : T.ld = 1)
    (hS : Src m0 S f) (hd : S.Disj T) (hQ : Q.len = S.c) (hq : IsTranspArray Q.get S.c)
    {p : ℕ → ℕ} (hf : LU S.r S.c R X (luL .nonUnit f) (luU .nonUnit f) p (ofSwaps Q.get S.c)) :
    Run (if S.c = R then vzero S.c T.p T.ld
      else do
        loop (S.c - R) fun i => store (T.p + (R + i) * T.ld) (rnd i)
        if R = 0 then pure ()
        else do
          fgemv cat .no R (S.c - R) (-1) (S.p + R) S.ld (T.p + R * T.ld) T.ld 0 T.p T.ld
          ftrsv .upper .no .nonUnit R S.p S.ld T.p T.ld
          applyP .left .yes 1 0 S.c T.p 1 Q) m (fun _ m' => ∃ Z, On m0 m' T Z ∧ (∀ i < S.r, ∑ j ∈ range S.c, X i j * Z j 0 = 0) ∧
            ∃ j0 : ℕ → ℕ, ∀ c < S.c - R, j0 c < S.c ∧ Z (j0 c) 0 = rnd c) := by
  have hRN := hf.rN
  have hRM := hf.rM
  have a0 : T.p = T.adr 0 0 := by simp [Win.adr]
  rif hN
  · refine (vzero_spec (X := T.p) (incX := T.ld) (n := S.c) ?_ (by omega)).mono (fun _ m' s => ⟨fun _ _ => 0, ?_, ?_, ?_⟩)
    · have := h.ok'
      rw [← hT, vw, ← hTc]; exact this
    · refine ⟨h.wf, h.ok, h.ld, h.step.trans ?_⟩
      rw [← hT, vw, ← hTc] at s; exact s
    · intro i _; simp
    · exact ⟨id, fun c hc => by omega⟩
  · rw [Run_bind]
    refine (fill_on rnd h hTc (R := R) (n := S.c - R) (by omega)).mono (fun _ m1 h1 => ?_)
    rif h0
    · rw [Run_pure]
      subst h0
      refine ⟨_, h1, (hf.null_iff _).2 (fun k hk => absurd hk (Nat.not_lt_zero _)), id, fun c hc => ?_⟩
      rw [Nat.sub_zero] at hc
      exact ⟨hc, by rw [id, upd_in' (by omega)]; rfl⟩
    · simp only [Run_bind]
      refine (fgemv_on (T := T) cat (ta := .no) (R := R) (n := S.c - R) (a := 0) (b := R) h1 hTc (hS.on h1 hd) hd (by omega) (by simpa using hRM)
        (by simp; omega) (by omega) (by simp [Win.adr]) (by simp [Win.adr]) a0).mono (fun _ m2 h2 => ?_)
      refine (ftrsv_on h2 hTc (hS.on h2 hd) hd (n := R) (by omega) (by omega) (i0 := 0) (by omega) (fun _ => lu_piv hf) rfl a0).mono ?_
      rintro _ m3 ⟨Y, h3, hY⟩
      have key := rowsPinv_on (P := Q) h3 0 0 (r := S.c) (c := 1) a0 (by omega) (by omega) hQ (fun i hi => (hq i hi).2)
      rw [hTl] at key
      refine key.mono (fun _ m4 h4 => ?_)
      have hz : ∀ j < S.c, permRows 0 0 S.c 1 (⇑(ofSwaps Q.get S.c)⁻¹) (upd 0 0 R 1 Y (upd 0 0 R 1 (fun i _ => -∑ k ∈ range (S.c - R),
          Spec.op .no (blk f 0 R) i k * (upd R 0 (S.c - R) 1 (fun i _ => rnd i) U) (R + k) 0) (upd R 0 (S.c - R) 1 (fun i _ => rnd i) U)))
          (ofSwaps Q.get S.c j) 0 = if j < R then Y j 0 else rnd (j - R) := by
        intro j hj
        have hqj := hf.pQ.1 j hj
        simp only [permRows]
        rw [upd_in' (by omega), Nat.sub_zero, Nat.zero_add, perm_inv_self]
        split_ifs with hjR
        · rw [upd_in' (by omega)]; simp
        · rw [upd_out (by omega), upd_out (by omega), upd_in' (by omega)]
      refine ⟨_, h4, ?_, fun c => ofSwaps Q.get S.c (R + c), fun c hc => ⟨hf.pQ.1 _ (by omega), ?_⟩⟩
      · rw [hf.null_iff]
        intro k hk
        rw [sum_congr rfl (fun j hj => by rw [hz j (mem_range.1 hj)])]
        obtain ⟨t, ht⟩ := Nat.exists_eq_add_of_le hRN
        have e := hY k hk
        rw [Nat.zero_add, upd_in' (by omega), Nat.sub_zero] at e
        rw [ht, Nat.add_sub_cancel_left] at e
        rw [ht, sum_range_add]
        have e1 : ∑ x ∈ range R, luU .nonUnit f k x * (if x < R then Y x 0 else rnd (x - R)) = ∑ x ∈ range R, luU .nonUnit f k x * Y x 0 :=
          sum_congr rfl (fun x hx => by rw [if_pos (mem_range.1 hx)])
        have e2 : ∑ x ∈ range R, luU .nonUnit f k x * Y x 0 = ∑ x ∈ range R, Spec.op .no (tri .upper .nonUnit f) k x * Y x 0 := rfl
        rw [e1, e2, e, neg_add_eq_zero]
        refine sum_congr rfl (fun x hx => ?_)
        have hx := mem_range.1 hx
        rw [if_neg (by omega), upd_in' (by omega)]
        simp only [Spec.op, blk, Nat.zero_add, luU, tri, Nat.add_sub_cancel_left]
        rw [if_neg (by omega), if_pos (by omega)]
      · rw [hz _ (by omega), if_neg (by omega), Nat.add_sub_cancel_left]

omit [DecidableEq K] in
lemma vswap_one (X Y : ℕ) {l l' : ℕ} (h : 0 < l) (h' : 0 < l') : (vswap 1 X l Y l : Prog K Unit) = vswap 1 X l' Y l' := by
  unfold vswap
  rw [cnt_pos h, cnt_pos h']
  simp only [loop, Nat.zero_mul]

lemma applyP_one (ta : Tr) (b e A : ℕ) (P : Arr ℕ) {l l' : ℕ} (h : 0 < l) (h' : 0 < l') :
    (applyP .right ta 1 b e A l P : Prog K Unit) = applyP .right ta 1 b e A l' P := by
  have e1 : ∀ (A : ℕ) i, (applyPStep .right 1 A l P i : Prog K Unit) = applyPStep .right 1 A l' P i := fun A i => by
    unfold applyPStep
    simp only [vswap_one _ _ h h']
  unfold applyP applyPBlock
  cases ta <;> simp [e1, loop]

omit [Field K] [DecidableEq K] in
lemma has_flat {p n a : ℕ} : (Win.mk p 1 n 1).Has a ↔ (Win.mk p n 1 n).Has a := by
  constructor
  · rintro ⟨i, hi, j, hj, rfl⟩
    have hj : j < 1 := hj
    exact ⟨0, Nat.one_pos, i, hi, by simp only [Win.adr]; omega⟩
  · rintro ⟨i, hi, j, hj, rfl⟩
    have hi : i < 1 := hi
    obtain rfl : i = 0 := by omega
    exact ⟨j, hj, 0, Nat.one_pos, by simp only [Win.adr]; omega⟩

omit [Field K] [DecidableEq K] in
/-- a vector with stride 1 seen as a row -/
lemma On.toRow {p n : ℕ} (h : On m0 m ⟨p, 1, n, 1⟩ U) : On m0 m ⟨p, n, 1, n⟩ (fun _ j => U j 0) := by
  refine ⟨h.wf, fun a ha => h.ok a (has_flat.2 ha), le_rfl, h.step.ok, h.step.next, fun i hi j hj => ?_, fun a ha hn =>
    h.step.frame a ha (fun hh => hn (has_flat.1 hh))⟩
  have hi : i < 1 := hi
  obtain rfl : i = 0 := by omega
  have := h.val (i := j) (j := 0) hj Nat.one_pos
  simp only [Win.adr] at this ⊢
  rw [← this]; congr 1; omega

omit [Field K] [DecidableEq K] in
lemma On.toCol {p n : ℕ} (h : On m0 m ⟨p, n, 1, n⟩ U) : On m0 m ⟨p, 1, n, 1⟩ (fun i _ => U 0 i) := by
  refine ⟨h.wf, fun a ha => h.ok a (has_flat.1 ha), le_rfl, h.step.ok, h.step.next, fun i hi j hj => ?_, fun a ha hn =>
    h.step.frame a ha (fun hh => hn (has_flat.2 hh))⟩
  have hj : j < 1 := hj
  obtain rfl : j = 0 := by omega
  have := h.val (i := 0) (j := i) Nat.one_pos hi
  simp only [Win.adr] at this ⊢
  rw [← this]; congr 1; omega

/-- the part of `RandomNullSpaceVector` after the decomposition, left, stride 1 -/
lemma nullVec_left_on (cat : Cat) {R : ℕ} {X : ℕ → ℕ → K} (rnd : ℕ → K) (h : On m0 m T U) (hT : T.r = S.r) (hTc : T.c = 1) (hTl : T.ld = 1)
    (hS : Src m0 S f) (hd : S.Disj T) (hP : P.len = S.r) (hp : IsTranspArray P.get S.r)
    {q : ℕ → ℕ} (hf : LU S.r S.c R X (luL .nonUnit f) (luU .nonUnit f) (ofSwaps P.get S.r) q) :
    Run (if S.r = R then vzero S.r T.p T.ld
      else do
        loop (S.r - R) fun i => store (T.p + (R + i) * T.ld) (rnd i)
        if R = 0 then pure ()
        else do
          fgemv cat .yes (S.r - R) R (-1) (S.p + R * S.ld) S.ld (T.p + R * T.ld) T.ld 0 T.p T.ld
          ftrsv .lower .yes .unit R S.p S.ld T.p T.ld
          applyP .right .no 1 0 S.r T.p 1 P) m (fun _ m' => ∃ Z, On m0 m' T Z ∧ (∀ j < S.c, ∑ i ∈ range S.r, X i j * Z i 0 = 0) ∧
            ∃ j0 : ℕ → ℕ, ∀ c < S.r - R, j0 c < S.r ∧ Z (j0 c) 0 = rnd c) := by
  have hRN := hf.rN
  have hRM := hf.rM
  have a0 : T.p = T.adr 0 0 := by simp [Win.adr]
  rif hN
  · refine (vzero_spec (X := T.p) (incX := T.ld) (n := S.r) ?_ (by omega)).mono (fun _ m' s => ⟨fun _ _ => 0, ?_, ?_, ?_⟩)
    · have := h.ok'
      rw [← hT, vw, ← hTc]; exact this
    · refine ⟨h.wf, h.ok, h.ld, h.step.trans ?_⟩
      rw [← hT, vw, ← hTc] at s; exact s
    · intro i _; simp
    · exact ⟨id, fun c hc => by omega⟩
  · rw [Run_bind]
    refine (fill_on rnd h hTc (R := R) (n := S.r - R) (by omega)).mono (fun _ m1 h1 => ?_)
    rif h0
    · rw [Run_pure]
      subst h0
      refine ⟨_, h1, (hf.transpose.null_iff _).2 (fun k hk => absurd hk (Nat.not_lt_zero _)), id, fun c hc => ?_⟩
      rw [Nat.sub_zero] at hc
      exact ⟨hc, by rw [id, upd_in' (by omega)]; rfl⟩
    · simp only [Run_bind]
      refine (fgemv_on (T := T) cat (ta := .yes) (R := R) (n := S.r - R) (a := R) (b := 0) h1 hTc (hS.on h1 hd) hd (by omega) (by simp; omega)
        (by simpa using hRN) (by omega) (by simp [Win.adr]) (by simp [Win.adr]) a0).mono (fun _ m2 h2 => ?_)
      refine (ftrsv_on h2 hTc (hS.on h2 hd) hd (n := R) (by omega) (by omega) (i0 := 0) (by omega) (by intro hh; cases hh) rfl a0).mono ?_
      rintro _ m3 ⟨Y, h3, hY⟩
      obtain ⟨tp, tl, tr, tc⟩ := T
      simp only [] at hT hTc hTl
      subst hT hTc hTl
      simp only [] at *
      have key := colsPinv_on (P := P) h3.toRow 0 0 (A := tp) (r := 1) (c := S.r) (by simp) (by simp) (by simp) hP (fun i hi => (hp i hi).2)
      rw [applyP_one .no 0 S.r tp P (l := 1) (l' := S.r) Nat.one_pos (by omega)]
      refine key.mono (fun _ m4 h4 => ?_)
      replace h4 := h4.toCol
      have hz : ∀ j < S.r, permCols 0 0 1 S.r (⇑(ofSwaps P.get S.r)⁻¹) (fun _ j => upd 0 0 R 1 Y (upd 0 0 R 1 (fun i _ => -∑ k ∈ range (S.r - R),
          Spec.op .yes (blk f R 0) i k * (upd R 0 (S.r - R) 1 (fun i _ => rnd i) U) (R + k) 0) (upd R 0 (S.r - R) 1 (fun i _ => rnd i) U)) j 0)
          0 (ofSwaps P.get S.r j) = if j < R then Y j 0 else rnd (j - R) := by
        intro j hj
        have hqj := hf.pP.1 j hj
        simp only [permCols]
        rw [upd_in' (by omega), Nat.sub_zero, Nat.zero_add, perm_inv_self]
        split_ifs with hjR
        · rw [upd_in' (by omega)]; simp
        · rw [upd_out (by omega), upd_out (by omega), upd_in' (by omega)]
      refine ⟨_, h4, ?_, fun c => ofSwaps P.get S.r (R + c), fun c hc => ⟨hf.pP.1 _ (by omega), ?_⟩⟩
      · rw [hf.transpose.null_iff]
        intro k hk
        rw [sum_congr rfl (fun j hj => by rw [hz j (mem_range.1 hj)])]
        obtain ⟨t, ht⟩ := Nat.exists_eq_add_of_le hRM
        have e := hY k hk
        rw [Nat.zero_add, upd_in' (by omega), Nat.sub_zero] at e
        rw [ht, Nat.add_sub_cancel_left] at e
        rw [ht, sum_range_add]
        have e1 : ∑ x ∈ range R, luL .nonUnit f x k * (if x < R then Y x 0 else rnd (x - R)) = ∑ x ∈ range R, luL .nonUnit f x k * Y x 0 :=
          sum_congr rfl (fun x hx => by rw [if_pos (mem_range.1 hx)])
        have e2 : ∑ x ∈ range R, luL .nonUnit f x k * Y x 0 = ∑ x ∈ range R, Spec.op .yes (tri .lower .unit f) k x * Y x 0 := rfl
        rw [e1, e2, e, neg_add_eq_zero]
        refine sum_congr rfl (fun x hx => ?_)
        have hx := mem_range.1 hx
        rw [if_neg (by omega), upd_in' (by omega)]
        simp only [Spec.op, blk, Nat.zero_add, luL, tri, Nat.add_sub_cancel_left]
        rw [if_neg (by omega), if_pos (by omega)]
      · rw [hz _ (by omega), if_neg (by omega), Nat.add_sub_cancel_left]

end Verif.FF
