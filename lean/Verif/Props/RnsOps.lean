import Verif.Proofs.RnsOps
import Verif.Props.RnsElt
import Mathlib.NumberTheory.LucasPrimality
import Mathlib.Tactic.ReduceModChar

/-!
# C122: operations on matrices over `RNSIntegerMod`
-/

namespace Verif.Props

open Verif.MP Verif.RNS Verif.FF Verif.Lazy Finset

/-- A residue system built by the constructor of `rns_double`, the tables of `RNSIntegerMod` for the modulus `p`, room for `k` products of an element of
`[0, p]` and a reduced element, and moduli so small that the sums of products of residues are exact. -/
structure ModSystem (E : Env) (R : Rns) (T : ModTables) (p k : ℕ) : Prop where
  good : ∃ bound pbits, Good R bound pbits
  sched : ∀ c k t idx, (E.sched c k t idx).Covers k
  two : 2 ≤ p
  tables : ∃ junk, modTables R p junk = .ok T
  pos : 1 ≤ R.size
  kpos : 1 ≤ k
  room : 4 * (k * (p * (p * ∑ t ∈ range R.size, R.basis t))) ≤ ∏ t ∈ range R.size, R.basis t
  exactM : ∀ t < R.size, ∑ s ∈ range R.size, ((R.basis t : ℤ) - 1) * ((R.basis s : ℤ) - 1) + 2 * R.basis t < 2 ^ 53
  exactK : ∀ t < R.size, k * (R.basis t - 1) ^ 2 < 2 ^ 53

lemma ModSystem.ctx {E : Env} {R : Rns} {T : ModTables} {p k : ℕ} (S : ModSystem E R T p k) : Ctx E R T p k := by
  obtain ⟨b, pb, g⟩ := S.good
  obtain ⟨junk, hj⟩ := S.tables
  obtain ⟨T', e, hT⟩ := modTables_spec R R.size R.basis g.pre p (by have := S.two; omega) junk
  rw [hj] at e
  obtain rfl : T = T' := by simpa using e
  exact ⟨⟨b, pb, g⟩, S.two, hT, S.exactM, S.sched, S.pos, S.room, S.kpos, S.exactK⟩

section ops
variable {E : Env} {gs : GemmFam} {R : Rns} {T : ModTables} {p k : ℕ} {m : Mem (RV R)}

/-- the window holds the (residues of the) integers `a` -/
def HoldsInt (R : Rns) (m : Mem (RV R)) (W : Win) (a : ℕ → ℕ → ℤ) : Prop := ∀ i < W.r, ∀ j < W.c, m.val (W.p + i * W.ld + j) = ((a i j : ℤ) : RV R)

/-- the size of a reduced element: `p` times the sum of the moduli -/
def sizeRed (R : Rns) (p : ℕ) : ℤ := p * ∑ t ∈ range R.size, (R.basis t : ℤ)

/-- The window holds reduced elements congruent to `z` modulo `p`, the other cells are unchanged. -/
def ComputesMod (R : Rns) (p : ℕ) (W : Win) (z : ℕ → ℕ → ℤ) (m m' : Mem (RV R)) : Prop :=
  m'.ok = m.ok ∧ (∃ y, HoldsInt R m' W y ∧ ∀ i < W.r, ∀ j < W.c, y i j ≡ z i j [ZMOD p] ∧ |y i j| ≤ sizeRed R p) ∧
    ∀ a, m.ok a = true → (∀ i < W.r, ∀ j < W.c, a ≠ W.p + i * W.ld + j) → m'.val a = m.val a

lemma computesMod_of {m m' : Mem (RV R)} {W : Win} {z : ℕ → ℕ → ℤ} (h : ResMod R p m m' W z) : ComputesMod R p W z m m' := by
  obtain ⟨y, s, hy⟩ := h
  refine ⟨s.ok, ⟨y, s.val, fun i hi j hj => ⟨(hy i hi j hj).1, ?_⟩⟩, fun a ha hn => s.frame a ha ?_⟩
  · have := (hy i hi j hj).2
    unfold sizeRed
    push_cast at this
    exact this
  · rintro ⟨i, hi, j, hj, e⟩
    exact hn i hi j hj e

lemma ModSystem.room_int (S : ModSystem E R T p k) : 4 * (k * (p * sizeRed R p)) ≤ prodM R.size R.basis := by
  unfold sizeRed
  have := S.room
  exact_mod_cast this

lemma sizeRed_nonneg (R : Rns) (p : ℕ) : 0 ≤ sizeRed R p := by unfold sizeRed; positivity

/-- C122: the reduction of a window of integers in the range of the residues. -/
theorem C122_freduce (S : ModSystem E R T p k) {r c B ldb : ℕ} (hB : OkIn m ⟨B, ldb, r, c⟩) (hl : c ≤ ldb) (b : ℕ → ℕ → ℤ)
    (hb : HoldsInt R m ⟨B, ldb, r, c⟩ b) (hs : ∀ i < r, ∀ j < c, 4 * |b i j| ≤ prodM R.size R.basis) :
    Run (freduceMod E R T r c B ldb) m (fun _ m' => ComputesMod R p ⟨B, ldb, r, c⟩ b m m') :=
  (freduceMod_spec S.ctx hB hl b hb hs).mono (fun _ _ h => computesMod_of h)

/-- C122: `fscal` and `fscalin` (`A = B`) of reduced elements by an element of `[-p, p]`: no further condition on the sizes. -/
theorem C122_fscal (S : ModSystem E R T p k) {r c A lda B ldb : ℕ} (alpha : ℤ) (hal : |alpha| ≤ p) (hA : OkIn m ⟨A, lda, r, c⟩) (hB : OkIn m ⟨B, ldb, r, c⟩)
    (hl : c ≤ ldb) (hd : (Win.mk A lda r c).Disj ⟨B, ldb, r, c⟩ ∨ (A = B ∧ lda = ldb)) (a : ℕ → ℕ → ℤ) (ha : HoldsInt R m ⟨A, lda, r, c⟩ a)
    (hs : ∀ i < r, ∀ j < c, |a i j| ≤ sizeRed R p) :
    Run (fscalMod E R T r c (alpha : RV R) A lda B ldb) m (fun _ m' => ComputesMod R p ⟨B, ldb, r, c⟩ (fun i j => alpha * a i j) m m') := by
  unfold fscalMod
  rw [Run_bind]
  refine (scalRV_spec (alpha : RV R) hA hB hl hd).mono ?_
  rintro _ m1 s
  refine (after_step S.ctx hB hl (fun i j => alpha * a i j) s (fun i hi j hj => ?_) (fun i hi j hj => ?_)).mono (fun _ _ h => computesMod_of h)
  · show (alpha : RV R) * m.val (A + i * lda + j) = _
    rw [ha i hi j hj]
    push_cast
    rfl
  · rw [abs_mul]
    have h1 := S.room_int
    have h2 : |alpha| * |a i j| ≤ p * sizeRed R p := mul_le_mul hal (hs i hi j hj) (abs_nonneg _) (by positivity)
    have h3 : (1 : ℤ) ≤ k := by exact_mod_cast S.kpos
    have h4 : (p : ℤ) * sizeRed R p ≤ k * (p * sizeRed R p) := by
      have := mul_nonneg (show (0 : ℤ) ≤ p by positivity) (sizeRed_nonneg R p)
      nlinarith
    linarith

/-- C122: `fger` for any integers whose update stays in the range of the residues. -/
theorem C122_fger_partial (S : ModSystem E R T p k) {M N x incx y incy A lda : ℕ} (alpha : ℤ) (hx : OkIn m ⟨x, incx, M, 1⟩) (hy : OkIn m ⟨y, incy, N, 1⟩)
    (hA : OkIn m ⟨A, lda, M, N⟩) (hl : N ≤ lda) (dx : (Win.mk x incx M 1).Disj ⟨A, lda, M, N⟩) (dy : (Win.mk y incy N 1).Disj ⟨A, lda, M, N⟩)
    (u v : ℕ → ℤ) (a : ℕ → ℕ → ℤ) (hu : HoldsInt R m ⟨x, incx, M, 1⟩ (fun i _ => u i)) (hv : HoldsInt R m ⟨y, incy, N, 1⟩ (fun j _ => v j))
    (ha : HoldsInt R m ⟨A, lda, M, N⟩ a) (hs : ∀ i < M, ∀ j < N, 4 * |a i j + alpha * u i * v j| ≤ prodM R.size R.basis) :
    Run (fgerMod E R T M N (alpha : RV R) x incx y incy A lda) m
      (fun _ m' => ComputesMod R p ⟨A, lda, M, N⟩ (fun i j => a i j + alpha * u i * v j) m m') := by
  unfold fgerMod
  rw [Run_bind]
  refine (gerRV_spec (alpha : RV R) hx hy hA hl dx dy).mono ?_
  rintro _ m1 s
  rw [Run_bind]
  refine (after_step S.ctx hA hl (fun i j => a i j + alpha * u i * v j) s (fun i hi j hj => ?_) hs).mono ?_
  · have h1 := hu i hi 0 Nat.one_pos
    have h2 := hv j hj 0 Nat.one_pos
    simp only [Nat.add_zero] at h1 h2
    show m.val (A + i * lda + j) + (alpha : RV R) * m.val (x + i * incx) * m.val (y + j * incy) = _
    rw [ha i hi j hj, h1, h2]
    push_cast
    rfl
  · rintro _ m2 ⟨w, s2, hw⟩
    refine (after_step S.ctx hA hl w s2 (fun _ _ _ _ => rfl) (fun i hi j hj => ?_)).mono ?_
    · have h1 := S.room_int
      have h2 : |w i j| ≤ sizeRed R p := by
        have := (hw i hi j hj).2
        unfold sizeRed
        push_cast at this
        exact this
      have h3 : (1 : ℤ) ≤ k := by exact_mod_cast S.kpos
      have h0 : (1 : ℤ) ≤ p := by have := S.two; omega
      have h4 : sizeRed R p ≤ p * sizeRed R p := by have := sizeRed_nonneg R p; nlinarith
      have h5 : (p : ℤ) * sizeRed R p ≤ k * (p * sizeRed R p) := by have := sizeRed_nonneg R p; nlinarith
      linarith
    · rintro _ m3 ⟨w', s3, hw'⟩
      exact computesMod_of ⟨w', s3, fun i hi j hj => ⟨(hw' i hi j hj).1.trans (hw i hi j hj).1, (hw' i hi j hj).2⟩⟩

/-- C122: `fgemm` for any integers whose result stays in the range of the residues. -/
theorem C122_fgemm_partial (S : ModSystem E R T p k) {ta tb : Tr} {r c n : ℕ} (hg : GemmFamOk gs n) (hn : n ≤ k) (alpha beta : ℤ) {A lda B ldb C ldc : ℕ}
    (h : GPre m ta tb r c n A lda B ldb C ldc) (a b z : ℕ → ℕ → ℤ) (ha : HoldsInt R m (aw ta r n A lda) a) (hb : HoldsInt R m (aw tb n c B ldb) b)
    (hz : HoldsInt R m ⟨C, ldc, r, c⟩ z)
    (hs : ∀ i < r, ∀ j < c, 4 * |alpha * ∑ l ∈ range n, Spec.op ta a i l * Spec.op tb b l j + beta * z i j| ≤ prodM R.size R.basis) :
    Run (fgemmRnsMod E gs R T ta tb r c n (alpha : RV R) A lda B ldb (beta : RV R) C ldc) m (fun _ m' => ComputesMod R p ⟨C, ldc, r, c⟩
      (fun i j => alpha * ∑ l ∈ range n, Spec.op ta a i l * Spec.op tb b l j + beta * z i j) m m') := by
  unfold fgemmRnsMod
  rw [Run_bind]
  obtain ⟨_, _, g⟩ := S.good
  have e : ∀ (t : Tr) (P ld r c : ℕ) (f : ℕ → ℕ → ℤ), HoldsInt R m (aw t r c P ld) f → ∀ i < r, ∀ j < c,
      Spec.op t (m.mat (aw t r c P ld)) i j = ((Spec.op t f i j : ℤ) : RV R) := by
    intro t P ld r c f hf i hi j hj
    cases t
    · exact hf i hi j hj
    · exact hf j hj i hi
  refine (gemmRV_spec g.pr hg (fun t ht => lt_of_le_of_lt (Nat.mul_le_mul_right _ hn) (S.exactK t ht)) (alpha : RV R) (beta : RV R) h).mono ?_
  rintro _ m1 s
  refine (after_step S.ctx h.okC h.lC _ s (fun i hi j hj => ?_) hs).mono (fun _ _ h => computesMod_of h)
  unfold gvalRV Spec.mul
  rw [show m.mat ⟨C, ldc, r, c⟩ i j = ((z i j : ℤ) : RV R) from hz i hi j hj]
  have : ∑ l ∈ range n, Spec.op ta (m.mat (aw ta r n A lda)) i l * Spec.op tb (m.mat (aw tb n c B ldb)) l j =
      ∑ l ∈ range n, ((Spec.op ta a i l : ℤ) : RV R) * ((Spec.op tb b l j : ℤ) : RV R) :=
    sum_congr rfl (fun l hl => by rw [e ta A lda r n a ha i hi l (mem_range.1 hl), e tb B ldb n c b hb l (mem_range.1 hl) j hj])
  rw [this]
  push_cast
  rfl

/-- C122: the products of the elimination, `C := ± op(A) op(B) + beta C` with `beta` in `{-1, 0, 1}`, for `A` in `[-p, p]`, reduced `B` and `C`: no further
condition on the sizes. -/
theorem C122_fgemm_unit (S : ModSystem E R T p k) {ta tb : Tr} {r c n : ℕ} (hg : GemmFamOk gs n) (hn : n + 1 ≤ k) (alpha beta : ℤ) (hal : |alpha| ≤ 1)
    (hbe : |beta| ≤ 1) {A lda B ldb C ldc : ℕ} (h : GPre m ta tb r c n A lda B ldb C ldc) (a b z : ℕ → ℕ → ℤ) (ha : HoldsInt R m (aw ta r n A lda) a)
    (hb : HoldsInt R m (aw tb n c B ldb) b) (hz : HoldsInt R m ⟨C, ldc, r, c⟩ z) (sa : ∀ i < r, ∀ l < n, |Spec.op ta a i l| ≤ p)
    (sb : ∀ l < n, ∀ j < c, |Spec.op tb b l j| ≤ sizeRed R p) (sz : ∀ i < r, ∀ j < c, |z i j| ≤ sizeRed R p) :
    Run (fgemmRnsMod E gs R T ta tb r c n (alpha : RV R) A lda B ldb (beta : RV R) C ldc) m (fun _ m' => ComputesMod R p ⟨C, ldc, r, c⟩
      (fun i j => alpha * ∑ l ∈ range n, Spec.op ta a i l * Spec.op tb b l j + beta * z i j) m m') := by
  refine C122_fgemm_partial S hg (by omega) alpha beta h a b z ha hb hz (fun i hi j hj => ?_)
  have h1 := S.room_int
  have h0 : (1 : ℤ) ≤ p := by have := S.two; omega
  have hr := sizeRed_nonneg R p
  have h2 : |∑ l ∈ range n, Spec.op ta a i l * Spec.op tb b l j| ≤ n * (p * sizeRed R p) := by
    refine (abs_sum_le_sum_abs _ _).trans ((sum_le_card_nsmul _ _ (p * sizeRed R p) (fun l hl => ?_)).trans ?_)
    · rw [abs_mul]
      exact mul_le_mul (sa i hi l (mem_range.1 hl)) (sb l (mem_range.1 hl) j hj) (abs_nonneg _) (by positivity)
    · rw [card_range, nsmul_eq_mul]
  have h3 := abs_add_le (alpha * ∑ l ∈ range n, Spec.op ta a i l * Spec.op tb b l j) (beta * z i j)
  rw [abs_mul, abs_mul] at h3
  have h4 : |alpha| * |∑ l ∈ range n, Spec.op ta a i l * Spec.op tb b l j| ≤ 1 * (n * (p * sizeRed R p)) :=
    mul_le_mul hal h2 (abs_nonneg _) (by norm_num)
  have h5 : |beta| * |z i j| ≤ 1 * (p * sizeRed R p) := mul_le_mul hbe ((sz i hi j hj).trans (by nlinarith)) (abs_nonneg _) (by norm_num)
  have h6 : ((n : ℤ) + 1) * (p * sizeRed R p) ≤ k * (p * sizeRed R p) :=
    mul_le_mul_of_nonneg_right (by exact_mod_cast hn) (mul_nonneg (by omega) hr)
  linarith

/-- C122: `fgemv` for any integers whose result stays in the range of the residues, and a matrix with entries. -/
theorem C122_fgemv_partial (S : ModSystem E R T p k) {ta : Tr} {M N : ℕ} (hM : M ≠ 0) (hN : N ≠ 0) (hg : GemmFamOk gs (if ta = .no then N else M))
    (hn : (if ta = .no then N else M) ≤ k) (alpha beta : ℤ) {A lda X incX Y incY : ℕ}
    (h : GPre m ta .no (if ta = .no then M else N) 1 (if ta = .no then N else M) A lda X incX Y incY) (a : ℕ → ℕ → ℤ) (x y : ℕ → ℤ)
    (ha : HoldsInt R m ⟨A, lda, M, N⟩ a) (hx : HoldsInt R m ⟨X, incX, if ta = .no then N else M, 1⟩ (fun l _ => x l))
    (hy : HoldsInt R m ⟨Y, incY, if ta = .no then M else N, 1⟩ (fun i _ => y i))
    (hs : ∀ i < (if ta = .no then M else N),
      4 * |alpha * ∑ l ∈ range (if ta = .no then N else M), Spec.op ta a i l * x l + beta * y i| ≤ prodM R.size R.basis) :
    Run (fgemvRnsMod E gs R T ta M N (alpha : RV R) A lda X incX (beta : RV R) Y incY) m
      (fun _ m' => ComputesMod R p ⟨Y, incY, if ta = .no then M else N, 1⟩
        (fun i _ => alpha * ∑ l ∈ range (if ta = .no then N else M), Spec.op ta a i l * x l + beta * y i) m m') := by
  have e : aw ta (if ta = .no then M else N) (if ta = .no then N else M) A lda = ⟨A, lda, M, N⟩ := by cases ta <;> rfl
  have key := C122_fgemm_partial (E := E) (T := T) S (tb := .no) hg hn alpha beta h a (fun l _ => x l) (fun i _ => y i) (by rw [e]; exact ha) hx hy
    (fun i hi j hj => hs i hi)
  unfold fgemvRnsMod
  simp only [if_pos (And.intro hM hN)]
  exact key

/-- C122 is violated by `fgemv` for a matrix without columns: `y` is not multiplied by `beta`. -/
theorem C122_fgemv_empty_violated (S : ModSystem E R T p k) {M : ℕ} (alpha beta : ℤ) {A lda X incX Y incY : ℕ} (hY : OkIn m ⟨Y, incY, M, 1⟩) (hi : 0 < incY)
    (y : ℕ → ℤ) (hy : HoldsInt R m ⟨Y, incY, M, 1⟩ (fun i _ => y i)) (hs : ∀ i < M, 4 * |y i| ≤ prodM R.size R.basis) :
    Run (fgemvRnsMod E gs R T .no M 0 (alpha : RV R) A lda X incX (beta : RV R) Y incY) m
      (fun _ m' => ComputesMod R p ⟨Y, incY, M, 1⟩ (fun i _ => y i) m m') := by
  unfold fgemvRnsMod
  simp only [if_true, ne_eq, not_true_eq_false, and_false, if_false, Run_bind, Run_pure]
  exact C122_freduce S hY hi (fun i _ => y i) hy (fun i hi _ _ => hs i hi)

/-- C122 is violated by `fger` when the product of `alpha`, an entry of `x` and an entry of `y` leaves the range of the residues, which happens for elements of
`[0, p)`: if it is the product of the moduli, `A` is not updated. -/
theorem C122_fger_violated (S : ModSystem E R T p k) {x y A : ℕ} (alpha u v a : ℤ) (hx : m.ok x = true) (hy : m.ok y = true) (hA : m.ok A = true)
    (dx : x ≠ A) (dy : y ≠ A) (hu : m.val x = (u : RV R)) (hv : m.val y = (v : RV R)) (ha : m.val A = (a : RV R)) (sa : 4 * |a| ≤ prodM R.size R.basis)
    (hM : alpha * u * v = prodM R.size R.basis) (hp : ¬ (p : ℤ) ∣ prodM R.size R.basis) :
    Run (fgerMod E R T 1 1 (alpha : RV R) x 1 y 1 A 1) m (fun _ m' => ComputesMod R p ⟨A, 1, 1, 1⟩ (fun _ _ => a) m m') ∧
      ¬ a ≡ a + alpha * u * v [ZMOD p] := by
  have one : ∀ (P a : ℕ), (Win.mk P 1 1 1).Has a → a = P := by
    rintro P a ⟨i, hi, j, hj, rfl⟩
    simp only at hi hj
    obtain rfl : i = 0 := by omega
    obtain rfl : j = 0 := by omega
    simp
  have okw : ∀ P, m.ok P = true → OkIn m ⟨P, 1, 1, 1⟩ := fun P h b hb => by rw [one P b hb]; exact h
  have dis : ∀ P Q, P ≠ Q → (Win.mk P 1 1 1).Disj ⟨Q, 1, 1, 1⟩ := fun P Q h b hb hb' => h ((one P b hb).symm.trans (one Q b hb'))
  have hold : ∀ (P : ℕ) (z : ℤ), m.val P = (z : RV R) → HoldsInt R m ⟨P, 1, 1, 1⟩ (fun _ _ => z) := by
    intro P z h i hi j hj
    simp only at hi hj ⊢
    obtain rfl : i = 0 := by omega
    obtain rfl : j = 0 := by omega
    simpa using h
  refine ⟨?_, fun hc => hp ?_⟩
  · have e : ((alpha : RV R) * (u : RV R)) * (v : RV R) = 0 := by
      have h0 : (((alpha * u * v : ℤ)) : RV R) = 0 := by
        rw [hM]
        funext t
        show (((prodM R.size R.basis : ℕ) : ℤ) : ZMod (R.basis t)) = 0
        rw [Int.cast_natCast, ZMod.natCast_eq_zero_iff]
        exact Finset.dvd_prod_of_mem _ (mem_range.2 t.2)
      rw [← h0]
      push_cast
      rfl
    unfold fgerMod
    have hr := S.room_int
    have h3 : (1 : ℤ) ≤ k := by exact_mod_cast S.kpos
    have h0 : (1 : ℤ) ≤ p := by have := S.two; omega
    rw [Run_bind]
    refine (gerRV_spec (alpha : RV R) (okw x hx) (okw y hy) (okw A hA) le_rfl (dis x A dx) (dis y A dy)).mono ?_
    rintro _ m1 s
    rw [Run_bind]
    refine (after_step S.ctx (okw A hA) le_rfl (fun _ _ => a) s (fun i hi j hj => ?_) (fun _ _ _ _ => sa)).mono ?_
    · obtain rfl : i = 0 := by omega
      obtain rfl : j = 0 := by omega
      show m.val (A + 0 * 1 + 0) + (alpha : RV R) * m.val (x + 0 * 1) * m.val (y + 0 * 1) = _
      simp only [Nat.zero_mul, Nat.add_zero]
      rw [hu, hv, ha, e, add_zero]
    · rintro _ m2 ⟨w, s2, hw⟩
      refine (after_step S.ctx (okw A hA) le_rfl w s2 (fun _ _ _ _ => rfl) (fun i hi j hj => ?_)).mono ?_
      · have h2 : |w i j| ≤ sizeRed R p := by
          have := (hw i hi j hj).2
          unfold sizeRed
          push_cast at this
          exact this
        have h4 : sizeRed R p ≤ p * sizeRed R p := by have := sizeRed_nonneg R p; nlinarith
        have h5 : (p : ℤ) * sizeRed R p ≤ k * (p * sizeRed R p) := by have := sizeRed_nonneg R p; nlinarith
        linarith
      · rintro _ m3 ⟨w', s3, hw'⟩
        exact computesMod_of ⟨w', s3, fun i hi j hj => ⟨(hw' i hi j hj).1.trans (hw i hi j hj).1, (hw' i hi j hj).2⟩⟩
  · rw [hM] at hc
    have := Int.modEq_iff_dvd.1 hc
    simpa using this

end ops

section examples

/-- the six largest primes of 25 bits -/
def opsPrimes : List ℕ := [33554393, 33554383, 33554371, 33554347, 33554341, 33554317]

def opsEnv : Env := ⟨fun _ i => opsPrimes.getD (i % 6) 33554393, 6, 8, fun _ => 7, fun _ _ => 9, fun _ k _ _ => leftToRight k⟩

/-- a prime of 58 bits -/
abbrev opsP : ℕ := 180143985094819841

lemma opsP_prime : Nat.Prime opsP := by
  refine lucas_primality _ (6 : ZMod 180143985094819841) (by norm_num; reduce_mod_char) (fun q hq hd => ?_)
  have h : q = 2 ∨ q = 5 := by
    have e : 180143985094819841 - 1 = 2 ^ 55 * 5 := by norm_num
    rw [e] at hd
    rcases (Nat.Prime.dvd_mul hq).1 hd with h | h
    · left; exact (Nat.prime_dvd_prime_iff_eq hq Nat.prime_two).1 (hq.dvd_of_dvd_pow h)
    · right; exact (Nat.prime_dvd_prime_iff_eq hq Nat.prime_five).1 h
  rcases h with rfl | rfl
  · norm_num; reduce_mod_char; decide
  · norm_num; reduce_mod_char; decide

lemma opsPrimes_prime : ∀ q ∈ opsPrimes, q.Prime := by
  intro q hq
  simp only [opsPrimes, List.mem_cons, List.not_mem_nil, or_false] at hq
  rcases hq with rfl | rfl | rfl | rfl | rfl | rfl <;> norm_num

lemma opsEnv_mem (i : ℕ) : opsEnv.cand 25 i ∈ opsPrimes := by
  have h := Nat.mod_lt i (show 0 < 6 by norm_num)
  simp only [opsEnv]
  interval_cases i % 6 <;> decide

lemma opsEnv_range (i : ℕ) : 2 ^ 24 < opsEnv.cand 25 i ∧ opsEnv.cand 25 i < 2 ^ 25 := by
  have : ∀ q ∈ opsPrimes, 2 ^ 24 < q ∧ q < 2 ^ 25 := by decide
  exact this _ (opsEnv_mem i)

lemma opsEnv_ok : EnvOk opsEnv 25 := by
  refine ⟨fun i => opsPrimes_prime _ (opsEnv_mem i), fun i => ?_, fun i => (opsEnv_range i).2, fun _ k _ _ => leftToRight_covers k⟩
  have := (opsEnv_range i).1
  norm_num at this ⊢
  omega

/-- the constructor gives these six moduli for four products modulo `opsP` -/
lemma opsSystem : Ok (mkRnsMod opsEnv (16 * opsP ^ 2) 25) (fun R => R.size = 6 ∧ (∀ t < 6, R.basis t = opsPrimes.getD t 0) ∧
    Ok (modTables R opsP (fun _ => 3)) (fun T => ModSystem opsEnv R T opsP 4)) := by
  have hr : ReturnsMod opsEnv (16 * opsP ^ 2) 25 := by unfold ReturnsMod; decide +kernel
  have h := mkRnsMod_spec (n0 := 7) (w := 2 ^ 25) opsEnv_ok hr (by norm_num) opsEnv_ok.hi (by norm_num) (by norm_num)
  obtain ⟨R, e, g, -, -, -⟩ := h
  have hb : (buildBound (opsEnv.cand 25) (16 * opsP ^ 2) true opsEnv.inner opsEnv.fuel ⟨[], 1, 1, 0⟩).map (fun b => b.basis) = some opsPrimes := by decide +kernel
  obtain ⟨h6, hbas⟩ : R.size = 6 ∧ ∀ t < 6, R.basis t = opsPrimes.getD t 0 := by
    obtain ⟨b, hb1, hb2⟩ := Option.map_eq_some_iff.1 hb
    have e' := e
    unfold mkRnsMod at e'
    rw [hb1] at e'
    simp only [hb2] at e'
    have hc : Coprime' 6 (fun i => opsPrimes.getD i 0) := coprime_list opsPrimes opsPrimes_prime (by decide)
    obtain ⟨R', e2, hR⟩ := precompute_spec 6 _ hc opsEnv.junkN (opsEnv.junk 0)
    have e3 := e2.symm.trans e'
    obtain rfl : R' = R := by simpa using e3
    exact ⟨hR.size_eq, fun t _ => by rw [hR.basis_eq]⟩
  refine ⟨R, e, h6, hbas, ?_⟩
  obtain ⟨T, eT, -⟩ := modTables_spec R R.size R.basis g.pre opsP (by norm_num) (fun _ => 3)
  have v : ∀ t < 6, R.basis t < 2 ^ 25 ∧ 1 ≤ R.basis t := by
    intro t ht
    rw [hbas t ht]
    interval_cases t <;> decide
  refine ⟨T, eT, ⟨⟨_, _, g⟩, opsEnv_ok.sched, by norm_num, ⟨_, eT⟩, by omega, by norm_num, ?_, fun t ht => ?_, fun t ht => ?_⟩⟩
  · rw [h6]
    simp only [Finset.sum_range_succ, Finset.prod_range_succ, Finset.sum_range_zero, Finset.prod_range_zero]
    rw [hbas 0 (by norm_num), hbas 1 (by norm_num), hbas 2 (by norm_num), hbas 3 (by norm_num), hbas 4 (by norm_num), hbas 5 (by norm_num)]
    decide +kernel
  · rw [h6] at ht ⊢
    have : ∀ s ∈ range 6, ((R.basis t : ℤ) - 1) * ((R.basis s : ℤ) - 1) ≤ 2 ^ 50 := by
      intro s hs
      have h1 := v t ht
      have h2 := v s (mem_range.1 hs)
      zify at h1 h2
      nlinarith
    have h1 := sum_le_card_nsmul _ _ _ this
    have h2 := v t ht
    zify at h2
    simp only [card_range, nsmul_eq_mul] at h1
    norm_num at h1 h2 ⊢
    omega
  · rw [h6] at ht
    have h1 := v t ht
    have : (R.basis t - 1) ^ 2 ≤ (2 ^ 25) ^ 2 := Nat.pow_le_pow_left (by omega) 2
    norm_num at this ⊢
    omega

/-- `A` (cell 2) contains 5, `x` and `y` the products of the moduli 2, 3 and 4, 5, `alpha` is the product of the moduli 0 and 1: all are in `[0, p)` -/
def opsMem (R : Rns) : Mem (RV R) :=
  ⟨fun i => if i = 0 then ((33554371 * 33554347 : ℤ) : RV R) else if i = 1 then ((33554341 * 33554317 : ℤ) : RV R) else ((5 : ℤ) : RV R),
    fun i => decide (i < 3), 3⟩

/-- after `A += alpha x y^T` the entry of `A` is still 5 modulo `p`, although `alpha x y` is not 0 modulo `p` -/
theorem C122_fger_example_violated : Ok (mkRnsMod opsEnv (16 * opsP ^ 2) 25) (fun R => Ok (modTables R opsP (fun _ => 3)) (fun T =>
    Run (fgerMod opsEnv R T 1 1 ((33554393 * 33554383 : ℤ) : RV R) 0 1 1 1 2 1) (opsMem R)
      (fun _ m' => ∃ z : ℤ, m'.val 2 = (z : RV R) ∧ z % opsP = 5 ∧ |z| ≤ sizeRed R opsP))) ∧
    (33554393 * 33554383 : ℤ) < opsP ∧ (33554371 * 33554347 : ℤ) < opsP ∧ (33554341 * 33554317 : ℤ) < opsP ∧
    (33554393 * 33554383 * (33554371 * 33554347) * (33554341 * 33554317) : ℤ) % opsP ≠ 0 := by
  refine ⟨opsSystem.mono ?_, by norm_num, by norm_num, by norm_num, by norm_num⟩
  rintro R ⟨h6, hbas, hT⟩
  refine hT.mono (fun T S => ?_)
  have hM : prodM R.size R.basis = 33554393 * 33554383 * (33554371 * 33554347) * (33554341 * 33554317) := by
    rw [h6]
    simp only [prodM, Finset.prod_range_succ, Finset.prod_range_zero]
    rw [hbas 0 (by norm_num), hbas 1 (by norm_num), hbas 2 (by norm_num), hbas 3 (by norm_num), hbas 4 (by norm_num), hbas 5 (by norm_num)]
    decide +kernel
  refine (C122_fger_violated S (m := opsMem R) (33554393 * 33554383) (33554371 * 33554347) (33554341 * 33554317) 5 rfl rfl rfl (by norm_num) (by norm_num) rfl rfl rfl
    (by rw [hM]; norm_num) (by rw [hM]; norm_num) (by rw [hM]; norm_num)).1.mono ?_
  rintro _ m' ⟨-, ⟨z, hz, hz'⟩, -⟩
  obtain ⟨h1, h2⟩ := hz' 0 Nat.one_pos 0 Nat.one_pos
  refine ⟨z 0 0, hz 0 Nat.one_pos 0 Nat.one_pos, ?_, h2⟩
  have : z 0 0 % (opsP : ℤ) = 5 % (opsP : ℤ) := h1
  rw [this]
  norm_num

/-- with `alpha = -1` the entry is `5 - x y` modulo `p` -/
theorem C122_fger_example : Ok (mkRnsMod opsEnv (16 * opsP ^ 2) 25) (fun R => Ok (modTables R opsP (fun _ => 3)) (fun T =>
    Run (fgerMod opsEnv R T 1 1 ((-1 : ℤ) : RV R) 0 1 1 1 2 1) (opsMem R)
      (fun _ m' => ∃ z : ℤ, m'.val 2 = (z : RV R) ∧ z ≡ 5 - 33554371 * 33554347 * (33554341 * 33554317) [ZMOD opsP] ∧ |z| ≤ sizeRed R opsP))) := by
  refine opsSystem.mono ?_
  rintro R ⟨h6, hbas, hT⟩
  refine hT.mono (fun T S => ?_)
  have hM : prodM R.size R.basis = 33554393 * 33554383 * (33554371 * 33554347) * (33554341 * 33554317) := by
    rw [h6]
    simp only [prodM, Finset.prod_range_succ, Finset.prod_range_zero]
    rw [hbas 0 (by norm_num), hbas 1 (by norm_num), hbas 2 (by norm_num), hbas 3 (by norm_num), hbas 4 (by norm_num), hbas 5 (by norm_num)]
    decide +kernel
  have one : ∀ (P a : ℕ), (Win.mk P 1 1 1).Has a → a = P := by
    rintro P a ⟨i, hi, j, hj, rfl⟩
    simp only at hi hj
    obtain rfl : i = 0 := by omega
    obtain rfl : j = 0 := by omega
    simp
  have okw : ∀ P < 3, OkIn (opsMem R) ⟨P, 1, 1, 1⟩ := fun P h b hb => by rw [one P b hb]; simp [opsMem, h]
  have dis : ∀ P Q, P ≠ Q → (Win.mk P 1 1 1).Disj ⟨Q, 1, 1, 1⟩ := fun P Q h b hb hb' => h ((one P b hb).symm.trans (one Q b hb'))
  have hold : ∀ (P : ℕ) (z : ℤ), (opsMem R).val P = (z : RV R) → HoldsInt R (opsMem R) ⟨P, 1, 1, 1⟩ (fun _ _ => z) := by
    intro P z h i hi j hj
    simp only at hi hj ⊢
    obtain rfl : i = 0 := by omega
    obtain rfl : j = 0 := by omega
    simpa using h
  refine (C122_fger_partial S (m := opsMem R) (-1) (okw 0 (by norm_num)) (okw 1 (by norm_num)) (okw 2 (by norm_num)) le_rfl (dis 0 2 (by norm_num))
    (dis 1 2 (by norm_num)) (fun _ => 33554371 * 33554347) (fun _ => 33554341 * 33554317) (fun _ _ => 5) (hold 0 _ rfl) (hold 1 _ rfl) (hold 2 _ rfl)
    (fun _ _ _ _ => by rw [hM]; norm_num)).mono ?_
  rintro _ m' ⟨-, ⟨z, hz, hz'⟩, -⟩
  obtain ⟨h1, h2⟩ := hz' 0 Nat.one_pos 0 Nat.one_pos
  refine ⟨z 0 0, hz 0 Nat.one_pos 0 Nat.one_pos, h1.trans ?_, h2⟩
  rw [show (5 : ℤ) + -1 * (33554371 * 33554347) * (33554341 * 33554317) = 5 - 33554371 * 33554347 * (33554341 * 33554317) by norm_num]

end examples

end Verif.Props
