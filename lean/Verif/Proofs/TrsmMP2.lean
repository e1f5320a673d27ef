import Verif.Proofs.TrsmMP

/-!
# Proofs for `ftrsm` over `Modular<Integer>`: the solve over the residues
-/

namespace Verif.MP

open Verif.RNS Verif.FF Verif.Lazy Finset

variable {E : Env} {R : Rns} {T : ModTables} {p k : ℕ}

/-- one product of an entry of `A` and an entry of the solution -/
abbrev unitM (R : Rns) (p : ℕ) : ℤ := p * (p * sumM R : ℕ)

/-- room left for a system of order `n` -/
def Room (R : Rns) (p n : ℕ) (z : ℤ) : Prop := 4 * (|z| + ((n : ℤ) - 1) * unitM R p) ≤ prodM R.size R.basis

/-- Calling conditions: `a` is `op(A)`, reduced modulo `p`, and `z` is the right-hand side. -/
structure MPre (R : Rns) (p : ℕ) (m : Mem (RV R)) (ta : Tr) (n c A lda B ldb : ℕ) (a z : ℕ → ℕ → ℤ) : Prop where
  wf : WF m
  okA : OkIn m ⟨A, lda, n, n⟩
  okB : OkIn m ⟨B, ldb, n, c⟩
  lA : n ≤ lda
  lB : c ≤ ldb
  dA : (⟨A, lda, n, n⟩ : Win).Disj ⟨B, ldb, n, c⟩
  va : ∀ i < n, ∀ l < n, m.val (opAdr ta A lda i l) = (a i l : RV R)
  ra : ∀ i < n, ∀ l < n, 0 ≤ a i l ∧ a i l < p
  vz : ∀ i < n, ∀ j < c, m.mat ⟨B, ldb, n, c⟩ i j = (z i j : RV R)
  rz : ∀ i < n, ∀ j < c, Room R p n (z i j)

/-- the diagonal can be inverted -/
def DiagInv (p : ℕ) (d : Diag) (n : ℕ) (a : ℕ → ℕ → ℤ) : Prop := d = .nonUnit → ∀ i < n, IsCoprime (a i i) (p : ℤ)

/-- the solution modulo `p` -/
def SolMP (R : Rns) (p : ℕ) (m m' : Mem (RV R)) (e : Uplo) (d : Diag) (n c B ldb : ℕ) (a z : ℕ → ℕ → ℤ) : Prop :=
  ∃ x : ℕ → ℕ → ℤ, Step m m' ⟨B, ldb, n, c⟩ (fun i j => (x i j : RV R)) ∧ (∀ i < n, ∀ j < c, |x i j| ≤ p * sumM R) ∧
    ∀ i < n, ∀ j < c, ∑ l ∈ range n, Spec.tri e d a i l * x l j ≡ z i j [ZMOD p]

/-- `q` solves systems of order `n` with `c` right-hand sides -/
def SolveMP (p : ℕ) (q : ℕ → ℕ → ℕ → ℕ → Prog (RV R) Unit) (e : Uplo) (d : Diag) (ta : Tr) (lda ldb n c : ℕ) : Prop :=
  ∀ (m : Mem (RV R)) (A B : ℕ) (a z : ℕ → ℕ → ℤ), MPre R p m ta n c A lda B ldb a z → DiagInv p d n a →
    Run (q n c A B) m (fun _ m' => SolMP R p m m' e d n c B ldb a z)

/-- `upd` subtracts a product modulo `p` -/
def UpdOk (p : ℕ) (upd : ℕ → ℕ → ℕ → ℕ → ℕ → ℕ → Prog (RV R) Unit) (ta : Tr) (lda ldb ns c nf : ℕ) : Prop :=
  ∀ (m : Mem (RV R)) (A B1 B2 : ℕ) (a x z : ℕ → ℕ → ℤ), GPre m ta .no ns c nf A lda B1 ldb B2 ldb →
    (∀ i < ns, ∀ l < nf, m.val (opAdr ta A lda i l) = (a i l : RV R)) → (∀ i < ns, ∀ l < nf, 0 ≤ a i l ∧ a i l < p) →
    (∀ l < nf, ∀ j < c, m.mat ⟨B1, ldb, nf, c⟩ l j = (x l j : RV R)) → (∀ l < nf, ∀ j < c, |x l j| ≤ p * sumM R) →
    (∀ i < ns, ∀ j < c, m.mat ⟨B2, ldb, ns, c⟩ i j = (z i j : RV R)) → (∀ i < ns, ∀ j < c, Room R p (nf + ns) (z i j)) →
    Run (upd ns c nf A B1 B2) m (fun _ m' => ∃ y : ℕ → ℕ → ℤ, Step m m' ⟨B2, ldb, ns, c⟩ (fun i j => (y i j : RV R)) ∧
      ∀ i < ns, ∀ j < c, y i j ≡ z i j - ∑ l ∈ range nf, a i l * x l j [ZMOD p] ∧ Room R p ns (y i j))

lemma unitM_nonneg (R : Rns) (p : ℕ) : 0 ≤ unitM R p := by unfold unitM; positivity

lemma sum_bound {n : ℕ} {a x : ℕ → ℤ} {p s : ℕ} (ha : ∀ l < n, 0 ≤ a l ∧ a l < p) (hx : ∀ l < n, |x l| ≤ s) :
    |∑ l ∈ range n, a l * x l| ≤ n * ((p : ℤ) * s) := by
  refine (abs_sum_le_sum_abs _ _).trans ((sum_le_card_nsmul _ _ ((p : ℤ) * s) ?_).trans ?_)
  · intro l hl
    obtain ⟨h1, h2⟩ := ha l (mem_range.1 hl)
    rw [abs_mul, abs_of_nonneg h1]
    exact mul_le_mul h2.le (hx l (mem_range.1 hl)) (abs_nonneg _) (by omega)
  · rw [card_range, nsmul_eq_mul]

lemma cut_sumZ {n f0 nf s0 ns : ℕ} (h : Cut n f0 nf s0 ns) (t : ℕ → ℤ) :
    ∑ l ∈ range n, t l = ∑ l ∈ range nf, t (f0 + l) + ∑ l ∈ range ns, t (s0 + l) := by
  have := h.sum_eq (K := ℚ) (fun l => (t l : ℚ))
  exact_mod_cast this

lemma tri_off {e : Uplo} {d : Diag} (a : ℕ → ℕ → ℤ) (o i l : ℕ) : Spec.tri e d a (o + i) (o + l) = Spec.tri e d (fun i l => a (o + i) (o + l)) i l := by
  unfold Spec.tri
  simp only [Nat.add_right_inj, Nat.add_lt_add_iff_left]

lemma tri_below {e : Uplo} {d : Diag} {a : ℕ → ℕ → ℤ} {i l : ℕ} (h : below e i l) : Spec.tri e d a i l = a i l := by
  unfold below at h
  unfold Spec.tri
  cases e <;> simp only at h ⊢ <;> rw [if_neg (by omega), if_pos h]

lemma tri_above {e : Uplo} {d : Diag} {a : ℕ → ℕ → ℤ} {i l : ℕ} (h : below e l i) : Spec.tri e d a i l = 0 := by
  unfold below at h
  unfold Spec.tri
  cases e <;> simp only at h ⊢ <;> rw [if_neg (by omega), if_neg (by omega)]

lemma opAdr_sq {ta : Tr} {A lda o i l : ℕ} : opAdr ta (A + o * (lda + 1)) lda i l = opAdr ta A lda (o + i) (o + l) := by
  cases ta <;> simp only [opAdr] <;> ring

lemma opAdr_Has {ta : Tr} {A lda n i l : ℕ} (hi : i < n) (hl : l < n) : (⟨A, lda, n, n⟩ : Win).Has (opAdr ta A lda i l) := by
  cases ta
  · exact ⟨i, hi, l, hl, rfl⟩
  · exact ⟨l, hl, i, hi, rfl⟩

/-- addresses of a block of `op(A)` -/
lemma blk_Has {ta : Tr} {A lda n s0 ns f0 nf x : ℕ} (hs : s0 + ns ≤ n) (hf : f0 + nf ≤ n) (h : (aw ta ns nf (opAdr ta A lda s0 f0) lda).Has x) :
    (⟨A, lda, n, n⟩ : Win).Has x := by
  obtain ⟨i, hi, l, hl, e⟩ := h
  cases ta
  · simp only [opr, opc] at hi hl
    refine ⟨s0 + i, by simp only; omega, f0 + l, by simp only; omega, ?_⟩
    rw [e]; simp only [opAdr, Win.adr]; ring
  · simp only [opr, opc] at hi hl
    refine ⟨f0 + i, by simp only; omega, s0 + l, by simp only; omega, ?_⟩
    rw [e]; simp only [opAdr, Win.adr]; ring

section split
variable {m : Mem (RV R)} {e : Uplo} {d : Diag} {ta : Tr} {n A lda B ldb c f0 nf s0 ns : ℕ} {a z : ℕ → ℕ → ℤ}
  {p1 p3 : ℕ → ℕ → ℕ → ℕ → Prog (RV R) Unit} {upd : ℕ → ℕ → ℕ → ℕ → ℕ → ℕ → Prog (RV R) Unit}

lemma solveMP_split (h : MPre R p m ta n c A lda B ldb a z) (hd : DiagInv p d n a) (hc : Cut n f0 nf s0 ns)
    (hb : ∀ i < ns, ∀ j < nf, below e (s0 + i) (f0 + j)) (h1 : SolveMP p p1 e d ta lda ldb nf c)
    (h3 : SolveMP p p3 e d ta lda ldb ns c) (hu : UpdOk p upd ta lda ldb ns c nf) :
    Run (do
      p1 nf c (A + f0 * (lda + 1)) (B + f0 * ldb)
      upd ns c nf (opAdr ta A lda s0 f0) (B + f0 * ldb) (B + s0 * ldb)
      p3 ns c (A + s0 * (lda + 1)) (B + s0 * ldb)) m (fun _ m' => SolMP R p m m' e d n c B ldb a z) := by
  set W : Win := ⟨B, ldb, n, c⟩ with hW
  have hinj : W.Inj := fit_Inj h.lB
  have hf := hc.hf
  have hs := hc.hs
  have hsum := hc.sum
  have hdj := hc.disj
  have eF : (⟨B + f0 * ldb, ldb, nf, c⟩ : Win) = W.sub f0 0 nf c := rfl
  have eS : (⟨B + s0 * ldb, ldb, ns, c⟩ : Win) = W.sub s0 0 ns c := rfl
  have c0 : 0 + c ≤ W.c := by simp [hW]
  have sq : ∀ o w, o + w ≤ n → ∀ x, (⟨A + o * (lda + 1), lda, w, w⟩ : Win).Has x → (⟨A, lda, n, n⟩ : Win).Has x := by
    rintro o w how x ⟨i, hi, j, hj, rfl⟩
    exact ⟨o + i, by simp only at *; omega, o + j, by simp only at *; omega, by simp only [Win.adr]; ring⟩
  have un := unitM_nonneg R p
  simp only [Run_bind]
  -- first block
  have M1 : MPre R p m ta nf c (A + f0 * (lda + 1)) lda (B + f0 * ldb) ldb (fun i l => a (f0 + i) (f0 + l)) (fun i j => z (f0 + i) j) := by
    refine ⟨h.wf, fun x hx => h.okA x (sq _ _ hf x hx), by rw [eF]; exact h.okB.of_sub hf c0, by have := h.lA; omega, h.lB, fun x hx hh => h.dA x (sq _ _ hf x hx) ?_, ?_, ?_, ?_, ?_⟩
    · rw [eF] at hh; exact Win.sub_Has (W := W) hf c0 hh
    · intro i hi l hl; rw [opAdr_sq]; exact h.va _ (by omega) _ (by omega)
    · intro i hi l hl; exact h.ra _ (by omega) _ (by omega)
    · intro i hi j hj
      have := h.vz (f0 + i) (by omega) j hj
      rw [← this]
      show m.val _ = m.val _
      congr 1; simp only [Win.adr]; ring
    · intro i hi j hj
      have := h.rz (f0 + i) (by omega) j hj
      unfold Room at this ⊢
      have : ((nf : ℤ) - 1) * unitM R p ≤ ((n : ℤ) - 1) * unitM R p := mul_le_mul_of_nonneg_right (by omega) un
      omega
  refine (h1 m _ _ _ _ M1 (fun hu i hi => hd hu _ (by omega))).mono ?_
  rintro _ m1 ⟨x1, s1, b1, e1⟩
  rw [eF] at s1
  have S1 := Step.sub hinj h.okB (i0 := f0) (j0 := 0) hf c0 s1
  have keepA : ∀ i < n, ∀ l < n, m1.val (opAdr ta A lda i l) = (a i l : RV R) := fun i hi l hl => by
    rw [S1.frame _ (h.okA _ (opAdr_Has hi hl)) (h.dA _ (opAdr_Has hi hl)), h.va i hi l hl]
  -- update
  have hdis : (W.sub f0 0 nf c).Disj (W.sub s0 0 ns c) := Win.sub_Disj hinj hf c0 hs c0 (by omega)
  have GP : GPre m1 ta .no ns c nf (opAdr ta A lda s0 f0) lda (B + f0 * ldb) ldb (B + s0 * ldb) ldb := by
    refine ⟨h.wf.step S1, fun x hx => ?_, (h.okB.step S1).of_sub hf c0, (h.okB.step S1).of_sub hs c0, ?_, h.lB, h.lB, fun x hx hh => ?_, hdis⟩
    · exact h.okA.step S1 x (blk_Has hs hf hx)
    · have := h.lA; cases ta <;> simp only [opc] <;> omega
    · exact h.dA x (blk_Has hs hf hx) (Win.sub_Has (W := W) hs c0 hh)
  refine (hu m1 _ _ _ (fun i l => a (s0 + i) (f0 + l)) x1 (fun i j => z (s0 + i) j) GP ?_ ?_ ?_ b1 ?_ ?_).mono ?_
  · intro i hi l hl; rw [opAdr_off]; exact keepA _ (by omega) _ (by omega)
  · intro i hi l hl; exact h.ra _ (by omega) _ (by omega)
  · intro l hl j hj; exact s1.val l hl j hj
  · intro i hi j hj
    have := S1.mat (i := s0 + i) (j := j) (by simp only [hW]; omega) hj
    rw [if_neg (by omega), h.vz _ (by omega) j hj] at this
    rw [← this]
    show m1.val _ = m1.val _
    congr 1; simp only [hW, Win.adr]; ring
  · intro i hi j hj; rw [hsum]; exact h.rz _ (by omega) j hj
  rintro _ m2 ⟨y, s2, hy⟩
  rw [eS] at s2
  have S2 := Step.sub hinj (h.okB.step S1) (i0 := s0) (j0 := 0) hs c0 s2
  -- second block
  have M3 : MPre R p m2 ta ns c (A + s0 * (lda + 1)) lda (B + s0 * ldb) ldb (fun i l => a (s0 + i) (s0 + l)) y := by
    refine ⟨(h.wf.step S1).step S2, fun x hx => (h.okA.step S1).step S2 x (sq _ _ hs x hx), by rw [eS]; exact ((h.okB.step S1).step S2).of_sub hs c0, by have := h.lA; omega, h.lB,
      fun x hx hh => h.dA x (sq _ _ hs x hx) ?_, ?_, ?_, ?_, fun i hi j hj => (hy i hi j hj).2⟩
    · rw [eS] at hh; exact Win.sub_Has (W := W) hs c0 hh
    · intro i hi l hl
      rw [opAdr_sq, S2.frame _ (h.okA.step S1 _ (opAdr_Has (by omega) (by omega))) (h.dA _ (opAdr_Has (by omega) (by omega)))]
      exact keepA _ (by omega) _ (by omega)
    · intro i hi l hl; exact h.ra _ (by omega) _ (by omega)
    · intro i hi j hj; exact s2.val i hi j hj
  refine (h3 m2 _ _ _ _ M3 (fun hu i hi => hd hu _ (by omega))).mono ?_
  rintro _ m3 ⟨x3, s3, b3, e3⟩
  rw [eS] at s3
  have S3 := Step.sub hinj ((h.okB.step S1).step S2) (i0 := s0) (j0 := 0) hs c0 s3
  -- the solution
  set x : ℕ → ℕ → ℤ := fun i j => if s0 ≤ i ∧ i < s0 + ns then x3 (i - s0) j else x1 (i - f0) j with hx
  have xF : ∀ l < nf, ∀ j, x (f0 + l) j = x1 l j := fun l hl j => by simp only [hx]; rw [if_neg (by omega)]; simp
  have xS : ∀ l < ns, ∀ j, x (s0 + l) j = x3 l j := fun l hl j => by simp only [hx]; rw [if_pos (by omega)]; simp
  refine ⟨x, (S1.trans (S2.trans S3)).congr (fun i hi j hj => ?_), ?_, ?_⟩
  · rcases hc.cases hi with ⟨k, hk, rfl⟩ | ⟨k, hk, rfl⟩
    · rw [if_neg (by omega), S2.mat hi hj, if_neg (by omega), S1.mat hi hj, if_pos (by simp only [hW] at hj; omega), xF k hk]
      simp
    · rw [if_pos (by simp only [hW] at hj; omega), xS k hk]
      simp
  · intro i hi j hj
    rcases hc.cases hi with ⟨k, hk, rfl⟩ | ⟨k, hk, rfl⟩
    · rw [xF k hk]; exact b1 k hk j hj
    · rw [xS k hk]; exact b3 k hk j hj
  · intro i hi j hj
    rw [cut_sumZ hc, sum_congr rfl (fun l hl => by rw [xF l (mem_range.1 hl)] : ∀ l ∈ range nf, _ = Spec.tri e d a i (f0 + l) * x1 l j),
      sum_congr rfl (fun l hl => by rw [xS l (mem_range.1 hl)] : ∀ l ∈ range ns, _ = Spec.tri e d a i (s0 + l) * x3 l j)]
    rcases hc.cases hi with ⟨k, hk, rfl⟩ | ⟨k, hk, rfl⟩
    · rw [sum_congr rfl (fun l hl => by rw [tri_above (hb l (mem_range.1 hl) k hk), zero_mul] : ∀ l ∈ range ns, _ = (0 : ℤ)), sum_const_zero, add_zero]
      simpa only [tri_off] using e1 k hk j hj
    · have g := e3 k hk j hj
      rw [sum_congr rfl (fun l hl => by rw [tri_below (hb k hk l (mem_range.1 hl))] : ∀ l ∈ range nf, _ = a (s0 + k) (f0 + l) * x1 l j)]
      simp only [tri_off]
      have g2 := (hy k hk j hj).1
      have := (g.trans g2).add_left (∑ l ∈ range nf, a (s0 + k) (f0 + l) * x1 l j)
      rwa [add_sub_cancel] at this

end split

section pieces
variable {gs : GemmFam} {e u : Uplo} {d : Diag} {ta : Tr} {lda ldb c : ℕ}

/-- the product over the residues, not reduced modulo `p` -/
lemma upd_gemm (C : Ctx E R T p k) {ns nf : ℕ} (hg : GemmFamOk gs nf) (hk : nf ≤ k) :
    UpdOk p (fun r c k A2 B1 B2 => gemmRV gs R ta .no r c k (-1) A2 lda B1 ldb 1 B2 ldb) ta lda ldb ns c nf := by
  intro m A B1 B2 a x z gp va ra vx bx vz rz
  obtain ⟨_, _, g⟩ := C.good
  refine (gemmRV_spec g.pr hg (fun t ht => lt_of_le_of_lt (Nat.mul_le_mul_right _ hk) (C.fitK t ht)) (-1) 1 gp).mono ?_
  intro _ m' s
  refine ⟨_, s.congr (fun i hi j hj => gvalRV_int va vx vz hi hj), fun i hi j hj => ⟨Int.ModEq.refl _, ?_⟩⟩
  have h1 := rz i hi j hj
  unfold Room at h1 ⊢
  have h2 := sum_bound (n := nf) (a := a i) (x := fun l => x l j) (p := p) (s := p * sumM R) (ra i hi) (fun l hl => by have := bx l hl j hj; push_cast at this ⊢; exact this)
  have h3 := abs_sub (z i j) (∑ l ∈ range nf, a i l * x l j)
  have e1 : (((nf + ns : ℕ) : ℤ) - 1) * unitM R p = nf * unitM R p + ((ns : ℤ) - 1) * unitM R p := by push_cast; ring
  rw [e1] at h1
  change |_| ≤ (nf : ℤ) * unitM R p at h2
  linarith

lemma Room.le {n : ℕ} {z : ℤ} (hn : 1 ≤ n) (h : Room R p n z) : 4 * |z| ≤ prodM R.size R.basis := by
  unfold Room at h
  have := mul_nonneg (show (0 : ℤ) ≤ (n : ℤ) - 1 by omega) (unitM_nonneg R p)
  linarith

lemma Ctx.room_small (C : Ctx E R T p k) {n : ℕ} (hn : n ≤ k) {y : ℤ} (hy : |y| ≤ p * sumM R) : Room R p n y := by
  unfold Room
  have h1 : (4 * (k * unitM R p) : ℤ) ≤ prodM R.size R.basis := by have := C.room; unfold unitM; exact_mod_cast this
  have hp : (1 : ℤ) ≤ p := by have := C.hp; omega
  have h2 : (p * sumM R : ℤ) ≤ unitM R p := by
    unfold unitM
    push_cast
    have : (0 : ℤ) ≤ p * ∑ t ∈ range R.size, (R.basis t : ℤ) := by positivity
    nlinarith
  have h3 : (n : ℤ) * unitM R p ≤ k * unitM R p := mul_le_mul_of_nonneg_right (by exact_mod_cast hn) (unitM_nonneg R p)
  have h4 : ((n : ℤ) - 1) * unitM R p = n * unitM R p - unitM R p := by ring
  rw [h4]
  linarith

/-- the product reduced modulo `p` -/
lemma upd_mod (C : Ctx E R T p k) {ns nf : ℕ} (hg : GemmFamOk gs nf) (hk : nf + ns ≤ k) :
    UpdOk p (gemmMod' E gs R T ta lda ldb) ta lda ldb ns c nf := by
  intro m A B1 B2 a x z gp va ra vx bx vz rz
  unfold gemmMod'
  rw [Run_bind]
  refine (upd_gemm C hg (by omega) m A B1 B2 a x z gp va ra vx bx vz rz).mono ?_
  rintro _ m1 ⟨y, s1, hy⟩
  refine (redWin_spec C (gp.okC.step s1) gp.lC y s1.val (fun i hi j hj => Room.le (by omega) (hy i hi j hj).2)).mono ?_
  rintro _ m2 ⟨w, s2, hw⟩
  exact ⟨w, s1.trans s2, fun i hi j hj => ⟨(hw i hi j hj).1.trans (hy i hi j hj).1, C.room_small (by omega) (hw i hi j hj).2⟩⟩

/-- order 1 -/
lemma mpBase_spec (C : Ctx E R T p k) : SolveMP (R := R) p (mpBase E R T p d lda ldb) e d ta lda ldb 1 c := by
  intro m A B a z h hd
  unfold mpBase
  rw [Run_bind]
  refine (redWin_spec C h.okB h.lB z h.vz (fun i hi j hj => Room.le le_rfl (h.rz i hi j hj))).mono ?_
  rintro _ m1 ⟨y, s1, hy⟩
  by_cases hu : d = .nonUnit
  · rw [if_pos hu]
    simp only [loop, Run_bind, Run_pure]
    rw [Nat.zero_mul, Nat.add_zero, Nat.zero_mul, Nat.add_zero, Run_load]
    have a0 : opAdr ta A lda 0 0 = A := by cases ta <;> simp [opAdr]
    have hA : (⟨A, lda, 1, 1⟩ : Win).Has A := ⟨0, Nat.one_pos, 0, Nat.one_pos, by simp⟩
    have vA : m1.val A = (a 0 0 : RV R) := by
      rw [s1.frame A (h.okA A hA) (h.dA A hA)]
      have := h.va 0 Nat.one_pos 0 Nat.one_pos
      rwa [a0] at this
    refine ⟨by rw [s1.ok]; exact h.okA A hA, ?_⟩
    rw [Run_liftE, vA]
    obtain ⟨r1, r2⟩ := h.ra 0 Nat.one_pos 0 Nat.one_pos
    refine (invRV_spec C r1 r2 (hd hu 0 Nat.one_pos)).mono ?_
    rintro _ ⟨b, rfl, b1, b2, b3⟩
    have rowOk : ∀ m' : Mem (RV R), m'.ok = m.ok → OkIn m' ⟨B, 1, c, 1⟩ := by
      rintro m' e' x ⟨j, hj, q, hq, rfl⟩
      have : q = 0 := by simpa using hq
      rw [e']
      exact h.okB _ ⟨0, Nat.one_pos, j, hj, by simp [this]⟩
    have y1 : ∀ j < c, m1.val (B + j) = (y 0 j : RV R) := fun j hj => by
      have := s1.val 0 Nat.one_pos j hj
      simpa using this
    refine (Run_vec (n := c) (Y := B) (inc := 1) (fun j => ((b * y 0 j : ℤ) : RV R)) (rowOk m1 s1.ok) (vw_Inj Nat.one_pos) ?_).mono ?_
    · intro j hj m2 h1 h2
      have okj : m2.ok (B + j) = true := by
        rw [h1]; exact rowOk m1 s1.ok _ ⟨j, hj, 0, Nat.one_pos, by simp⟩
      have vj : m2.val (B + j) = (y 0 j : RV R) := by
        rw [h2 _ (fun s hs hne e' => hne (by omega)), y1 j hj]
      simp only [Run_bind, Run_load, Run_store]
      refine ⟨okj, okj, ?_⟩
      rw [vj, Nat.mul_one]
      push_cast
      rfl
    · intro _ m2 s2
      have s2' : Step m1 m2 ⟨B, ldb, 1, c⟩ (fun _ j => ((b * y 0 j : ℤ) : RV R)) := Step.of_row s2
      have ok2 : OkIn m2 ⟨B, c, 1, c⟩ := by
        rintro x ⟨i, hi, j, hj, rfl⟩
        have : i = 0 := by simpa using hi
        rw [s2.ok, s1.ok]
        exact h.okB _ ⟨0, Nat.one_pos, j, hj, by simp [this]⟩
      have bd : ∀ j < c, 4 * |b * y 0 j| ≤ prodM R.size R.basis := by
        intro j hj
        have q1 := (hy 0 Nat.one_pos j hj).2
        have q2 : |b * y 0 j| ≤ unitM R p := by
          rw [abs_mul, abs_of_nonneg b1]
          unfold unitM
          push_cast at q1 ⊢
          exact mul_le_mul b2.le q1 (abs_nonneg _) (by omega)
        have q3 : (4 * (k * unitM R p) : ℤ) ≤ prodM R.size R.basis := by have := C.room; unfold unitM; exact_mod_cast this
        have q4 : (1 : ℤ) ≤ k := by exact_mod_cast C.kpos
        have := unitM_nonneg R p
        nlinarith
      refine (redWin_spec C (B := B) (ldb := c) ok2 le_rfl (fun _ j => b * y 0 j) ?_ (fun i hi j hj => bd j hj)).mono ?_
      · intro i hi j hj
        have : i = 0 := by omega
        have q := s2'.val 0 Nat.one_pos j hj
        rw [← q]
        show m2.val _ = m2.val _
        simp [this]
      · rintro _ m3 ⟨x, s3, hx⟩
        have s3' : Step m2 m3 ⟨B, ldb, 1, c⟩ (fun _ j => (x 0 j : RV R)) := by
          refine ⟨s3.ok, s3.next, fun i hi j hj => ?_, fun q hq hn => s3.frame q hq ?_⟩
          · have hi : i = 0 := by simpa using hi
            have := s3.val 0 Nat.one_pos j hj
            rw [← this, hi]
            simp
          · rintro ⟨i, hi, j, hj, rfl⟩
            have hi : i = 0 := by simpa using hi
            exact hn ⟨0, Nat.one_pos, j, hj, by simp [hi]⟩
        refine ⟨fun _ j => x 0 j, s1.trans (s2'.trans s3'), fun i hi j hj => (hx 0 Nat.one_pos j hj).2, fun i hi j hj => ?_⟩
        obtain rfl : i = 0 := by omega
        rw [sum_range_one]
        have e0 : Spec.tri e d a 0 0 = a 0 0 := by subst hu; simp [Spec.tri]
        rw [e0]
        have q1 := (hx 0 Nat.one_pos j hj).1.mul_left (a 0 0)
        have q2 := b3.mul_right (y 0 j)
        rw [one_mul, mul_assoc] at q2
        exact (q1.trans q2).trans (hy 0 Nat.one_pos j hj).1
  · rw [if_neg hu, Run_pure]
    refine ⟨y, s1, fun i hi j hj => (hy i hi j hj).2, fun i hi j hj => ?_⟩
    obtain rfl : i = 0 := by omega
    have hu : d = .unit := by cases d <;> simp_all
    rw [sum_range_one]
    have e0 : Spec.tri e d a 0 0 = 1 := by subst hu; simp [Spec.tri]
    rw [e0, one_mul]
    exact (hy 0 Nat.one_pos j hj).1

lemma mpSplit_spec {n ns : ℕ} {p1 p3 : ℕ → ℕ → ℕ → ℕ → Prog (RV R) Unit} {upd : ℕ → ℕ → ℕ → ℕ → ℕ → ℕ → Prog (RV R) Unit} (hns : ns ≤ n)
    (h1 : SolveMP p p1 (effUplo u ta) d ta lda ldb ns c) (h3 : SolveMP p p3 (effUplo u ta) d ta lda ldb (n - ns) c)
    (hu : UpdOk p upd ta lda ldb (n - ns) c ns) :
    SolveMP p (fun M N A B => mpSplit upd u ta p1 p3 ns M N A lda B ldb) (effUplo u ta) d ta lda ldb n c := by
  intro m A B a z hp hd
  simp only [mpSplit]
  cases he : effUplo u ta with
  | lower =>
    rw [he] at h1 h3
    have := solveMP_split (f0 := 0) (nf := ns) (s0 := ns) (ns := n - ns) hp hd ⟨by omega, Or.inl ⟨rfl, rfl⟩⟩
      (fun i hi j hj => by simp only [below]; omega) h1 h3 hu
    simpa only [trsmPtr, arow_eq, Nat.zero_mul, Nat.add_zero] using this
  | upper =>
    rw [he] at h1 h3
    have := solveMP_split (f0 := n - ns) (nf := ns) (s0 := 0) (ns := n - ns) hp hd ⟨by omega, Or.inr ⟨rfl, rfl⟩⟩
      (fun i hi j hj => by simp only [below]; omega) h1 h3 hu
    simpa only [trsmPtr, acol_eq, Nat.zero_mul, Nat.add_zero] using this

lemma mpDelayed_spec (C : Ctx E R T p k) (hg : ∀ j ≤ k, GemmFamOk gs j) (fuel : ℕ) : ∀ n, 1 ≤ n → n ≤ fuel → n ≤ k →
    SolveMP p (mpDelayed E gs R T p u ta d lda ldb fuel n) (effUplo u ta) d ta lda ldb n c := by
  induction fuel with
  | zero => intro n h1 h2; omega
  | succ fuel ih =>
    intro n h1 h2 h3
    intro m A B a z hp hd
    unfold mpDelayed
    by_cases hn : n ≤ 1
    · rw [if_pos hn]
      obtain rfl : n = 1 := by omega
      exact mpBase_spec C m A B a z hp hd
    · rw [if_neg hn]
      exact mpSplit_spec (n := n) (ns := (n + 1) / 2) (by omega) (ih _ (by omega) (by omega) (by omega)) (ih _ (by omega) (by omega) (by omega))
        (upd_gemm C (hg _ (by omega)) (by omega)) m A B a z hp hd

/-- the block loop -/
lemma mpBlocks_spec {ns nrest : ℕ} {dl : ℕ → ℕ → ℕ → ℕ → ℕ → Prog (RV R) Unit} {upd : ℕ → ℕ → ℕ → ℕ → ℕ → ℕ → Prog (RV R) Unit}
    (hrest : SolveMP p (dl nrest) (effUplo u ta) d ta lda ldb nrest c) :
    ∀ nbb, (0 < nbb → SolveMP p (dl ns) (effUplo u ta) d ta lda ldb ns c) → (∀ j < nbb, UpdOk p upd ta lda ldb (j * ns + nrest) c ns) →
      SolveMP p (mpBlocks upd dl u ta ns nbb nrest lda ldb) (effUplo u ta) d ta lda ldb (nbb * ns + nrest) c := by
  intro nbb
  induction nbb with
  | zero =>
    intro _ _ m A B a z hp hd
    rw [Nat.zero_mul, Nat.zero_add] at hp hd ⊢
    unfold mpBlocks
    simp only [loop, Run_bind, Run_pure]
    have := hrest m A B a z hp hd
    cases he : effUplo u ta <;> rw [he] at this <;>
      simpa only [trsmLoopPtr, trsmBrest, Nat.sub_self, Nat.zero_mul, Nat.add_zero] using this
  | succ nbb ih =>
    intro hdl hup m A B a z hp hd
    have hdl := hdl (by omega)
    have ih := ih (fun _ => hdl) (fun j hj => hup j (by omega))
    have hn : (nbb + 1) * ns + nrest - ns = nbb * ns + nrest := by rw [Nat.succ_mul]; omega
    have key := mpSplit_spec (p1 := dl ns) (p3 := mpBlocks upd dl u ta ns nbb nrest lda ldb)
      (n := (nbb + 1) * ns + nrest) (ns := ns) (upd := upd) (by rw [Nat.succ_mul]; omega) hdl (hn ▸ ih) (hn ▸ hup nbb (by omega)) m A B a z hp hd
    unfold mpSplit at key
    simp only [Run_bind] at key
    unfold mpBlocks
    simp only [Run_bind]
    refine Run_loop_first ?_
    simp only [Run_bind]
    have hsub : ∀ i, (nbb + 1) * ns + nrest - (i + 1 + 1) * ns = nbb * ns + nrest - (i + 1) * ns := by
      intro i
      have e1 : (nbb + 1) * ns = nbb * ns + ns := by ring
      have e2 : (i + 1 + 1) * ns = (i + 1) * ns + ns := by ring
      omega
    have hz : (nbb + 1) * ns + nrest - (0 + 1) * ns = (nbb + 1) * ns + nrest - ns := by rw [Nat.zero_add, Nat.one_mul]
    have hr1 : (nbb + 1) * ns + nrest - nrest = (nbb + 1) * ns := by omega
    have hr2 : nbb * ns + nrest - nrest = nbb * ns := by omega
    cases he : effUplo u ta <;> rw [he] at key
    · simp only [trsmPtr] at key
      simp only [trsmLoopPtr, trsmBrest, hz]
      refine key.mono (fun _ m1 h1 => h1.mono (fun _ m2 h2 => ?_))
      unfold mpBlocks at h2
      simp only [he, trsmLoopPtr, trsmBrest, hn, Run_bind] at h2
      simpa only [hsub] using h2
    · simp only [trsmPtr] at key
      simp only [trsmLoopPtr, trsmBrest, hz, Nat.zero_mul, Nat.add_zero, Nat.zero_add, Nat.one_mul]
      refine key.mono (fun _ m1 h1 => h1.mono (fun _ m2 h2 => ?_))
      unfold mpBlocks at h2
      simp only [he, trsmLoopPtr, trsmBrest, hn, Run_bind] at h2
      have q1 : ∀ i, A + ns * (lda + 1) + i * ns * (lda + 1) = A + (i + 1) * ns * (lda + 1) := fun i => by ring
      have q2 : ∀ i, B + ns * ldb + i * ns * ldb = B + (i + 1) * ns * ldb := fun i => by ring
      simpa only [hsub, q1, q2, hr1, hr2] using h2

/-- `ftrsm` over `RNSIntegerMod` -/
lemma rnsTrsm_spec {n : ℕ} (C : Ctx E R T p n) (hg : ∀ j ≤ n, GemmFamOk gs j) (m : Mem (RV R)) (A B : ℕ) (a z : ℕ → ℕ → ℤ)
    (h : MPre R p m ta n c A lda B ldb a z) (hd : DiagInv p d n a) (hc : c ≠ 0) :
    Run (rnsTrsm E gs R T p u ta d n c A lda B ldb) m (fun _ m' => SolMP R p m m' (effUplo u ta) d n c B ldb a z) := by
  have hn := C.kpos
  have hp := C.hp
  unfold rnsTrsm
  rw [if_neg (by omega), Run_bind, Run_liftE]
  unfold mpDotBound
  rw [if_neg (by omega), Ok_pure]
  set ns := max 1 ((R.M - (p - 1)) / ((p - 1) * (p - 1)) % 2 ^ 64) with hns
  have ns1 : 1 ≤ ns := le_max_left _ _
  have e : (n - 1) / ns * ns + ((n - 1) % ns + 1) = n := by
    have := Nat.div_add_mod' (n - 1) ns
    omega
  have hle := Nat.mod_le (n - 1) ns
  have key := mpBlocks_spec (p := p) (u := u) (ta := ta) (d := d) (lda := lda) (ldb := ldb) (c := c) (ns := ns) (nrest := (n - 1) % ns + 1)
    (dl := mpDelayed E gs R T p u ta d lda ldb n) (upd := gemmMod' E gs R T ta lda ldb)
    (mpDelayed_spec C hg n _ (by omega) (by omega) (by omega)) ((n - 1) / ns)
    (fun hpos => by
      have : ns ≤ n - 1 := by
        by_contra hh
        rw [Nat.div_eq_of_lt (by omega)] at hpos
        omega
      exact mpDelayed_spec C hg n _ ns1 (by omega) (by omega))
    (fun j hj => by
      have h2 : (j + 1) * ns ≤ (n - 1) / ns * ns := Nat.mul_le_mul_right _ hj
      have h3 : (j + 1) * ns = j * ns + ns := by ring
      exact upd_mod C (hg _ (by omega)) (by omega))
  rw [e] at key
  exact key m A B a z h hd

end pieces

end Verif.MP
