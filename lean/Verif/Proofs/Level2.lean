import Verif.Model.Level2
import Verif.Proofs.Level1
import Verif.Spec.LinAlg
import Mathlib.Tactic.FieldSimp
import Mathlib.Algebra.BigOperators.Intervals

/-!
# Correctness of tests, swaps, dot products, `fger`, `fgemv`, `ftrsv`
-/

namespace Verif

open Finset

/-- Nested loops: outer iteration `i` fills the cells `adr i 0 .. adr i (c-1)` and reads nothing another outer iteration
writes. -/
lemma Run_store_loop2 {K : Type} {r c : ℕ} {f : ℕ → Prog K Unit} {m : Mem K} (adr : ℕ → ℕ → ℕ) (v : ℕ → ℕ → K)
    (hinj : ∀ i < r, ∀ j < c, ∀ i' < r, ∀ j' < c, adr i j = adr i' j' → i = i')
    (hf : ∀ i < r, ∀ m' : Mem K, m'.ok = m.ok → (∀ a, (∀ i' < r, i' ≠ i → ∀ j < c, a ≠ adr i' j) → m'.val a = m.val a) →
      Run (f i) m' (fun _ m'' => m''.ok = m'.ok ∧ m''.next = m'.next ∧ (∀ j < c, m''.val (adr i j) = v i j) ∧
        ∀ a, (∀ j < c, a ≠ adr i j) → m''.val a = m'.val a)) :
    Run (loop r f) m (fun _ m' => m'.ok = m.ok ∧ m'.next = m.next ∧ (∀ i < r, ∀ j < c, m'.val (adr i j) = v i j) ∧
      ∀ a, (∀ i < r, ∀ j < c, a ≠ adr i j) → m'.val a = m.val a) := by
  refine Run_loop (fun k m' => m'.ok = m.ok ∧ m'.next = m.next ∧ (∀ i < k, ∀ j < c, m'.val (adr i j) = v i j) ∧
      ∀ a, (∀ i < k, ∀ j < c, a ≠ adr i j) → m'.val a = m.val a) ⟨rfl, rfl, by simp, by simp⟩ ?_
  rintro k m' hk ⟨h1, h2, h3, h4⟩
  refine (hf k hk m' h1 (fun a ha => h4 a (fun i hi => ha i (by omega) (by omega)))).mono ?_
  rintro _ m'' ⟨g1, g2, g3, g4⟩
  refine ⟨g1.trans h1, g2.trans h2, ?_, ?_⟩
  · intro i hi j hj
    by_cases e : i = k
    · subst e; exact g3 j hj
    · rw [g4 _ (fun j' hj' e' => e (hinj i (by omega) j hj k hk j' hj' e'))]
      exact h3 i (by omega) j hj
  · intro a ha
    rw [g4 a (ha k (by omega))]
    exact h4 a (fun i hi => ha i (by omega))

namespace FF
variable {K : Type}

lemma Mem.set_set (m : Mem K) (i : ℕ) (v w : K) : (m.set i v).set i w = m.set i w := by
  simp [Mem.set, Function.update_idem]

section tests
variable [CommRing K] [DecidableEq K] {m : Mem K} {n X incX Y incY : ℕ}

lemma viszero_spec (hX : OkIn m (vw X incX n)) :
    Run (viszero n X incX) m (fun b m' => m' = m ∧ (b = true ↔ ∀ i < n, m.val (X + i * incX) = 0)) := by
  unfold viszero
  refine Run_iter (fun k b m' => m' = m ∧ (b = true ↔ ∀ i < k, m.val (X + i * incX) = 0)) ⟨rfl, by simp⟩ ?_
  rintro k b m' hk ⟨rfl, hb⟩
  cases b with
  | true =>
    simp only [if_true, Run_bind, Run_load, Run_pure, OkIn_vw hX hk, true_and, decide_eq_true_eq]
    have hb := hb.1 rfl
    constructor
    · intro h i hi
      rcases Nat.lt_succ_iff_lt_or_eq.1 hi with h' | rfl
      · exact hb i h'
      · exact h
    · intro h; exact h k (by omega)
  | false =>
    simp only [Bool.false_eq_true, if_false, Run_pure, true_and, false_iff] at hb ⊢
    intro h; exact hb (fun i hi => h i (by omega))

lemma vequal_spec (hX : OkIn m (vw X incX n)) (hY : OkIn m (vw Y incY n)) :
    Run (vequal n X incX Y incY) m
      (fun b m' => m' = m ∧ (b = true ↔ ∀ i < n, m.val (X + i * incX) = m.val (Y + i * incY))) := by
  unfold vequal
  refine Run_iter (fun k b m' => m' = m ∧ (b = true ↔ ∀ i < k, m.val (X + i * incX) = m.val (Y + i * incY)))
    ⟨rfl, by simp⟩ ?_
  rintro k b m' hk ⟨rfl, hb⟩
  cases b with
  | true =>
    simp only [if_true, Run_bind, Run_load, Run_pure, OkIn_vw hX hk, OkIn_vw hY hk, true_and, decide_eq_true_eq]
    have hb := hb.1 rfl
    constructor
    · intro h i hi
      rcases Nat.lt_succ_iff_lt_or_eq.1 hi with h' | rfl
      · exact hb i h'
      · exact h
    · intro h; exact h k (by omega)
  | false =>
    simp only [Bool.false_eq_true, if_false, Run_pure, true_and, false_iff] at hb ⊢
    intro h; exact hb (fun i hi => h i (by omega))

lemma fiszero_spec {M N A lda : ℕ} (hA : OkIn m ⟨A, lda, M, N⟩) :
    Run (fiszero M N A lda) m
      (fun b m' => m' = m ∧ (b = true ↔ ∀ i < M, ∀ j < N, m.mat ⟨A, lda, M, N⟩ i j = 0)) := by
  unfold fiszero
  refine Run_iter (fun k b m' => m' = m ∧ (b = true ↔ ∀ i < k, ∀ j < N, m.mat ⟨A, lda, M, N⟩ i j = 0)) ⟨rfl, by simp⟩ ?_
  rintro k b m' hk ⟨rfl, hb⟩
  simp only [Run_bind, Run_pure]
  refine (viszero_spec (row_OkIn hA hk)).mono ?_
  rintro b' _ ⟨rfl, hb'⟩
  refine ⟨rfl, ?_⟩
  rw [Bool.and_eq_true, hb, hb']
  simp only [Mem.mat, Win.adr_mk, Nat.mul_one]
  constructor
  · rintro ⟨h1, h2⟩ i hi
    rcases Nat.lt_succ_iff_lt_or_eq.1 hi with h' | rfl
    · exact h1 i h'
    · exact h2
  · intro h; exact ⟨fun i hi => h i (by omega), h k (by omega)⟩

lemma fequal_spec {M N A lda B ldb : ℕ} (hA : OkIn m ⟨A, lda, M, N⟩) (hB : OkIn m ⟨B, ldb, M, N⟩) :
    Run (fequal M N A lda B ldb) m (fun b m' => m' = m ∧
      (b = true ↔ ∀ i < M, ∀ j < N, m.mat ⟨A, lda, M, N⟩ i j = m.mat ⟨B, ldb, M, N⟩ i j)) := by
  unfold fequal
  refine Run_iter (fun k b m' => m' = m ∧
    (b = true ↔ ∀ i < k, ∀ j < N, m.mat ⟨A, lda, M, N⟩ i j = m.mat ⟨B, ldb, M, N⟩ i j)) ⟨rfl, by simp⟩ ?_
  rintro k b m' hk ⟨rfl, hb⟩
  simp only [Run_bind, Run_pure]
  refine (vequal_spec (row_OkIn hA hk) (row_OkIn hB hk)).mono ?_
  rintro b' _ ⟨rfl, hb'⟩
  refine ⟨rfl, ?_⟩
  rw [Bool.and_eq_true, hb, hb']
  simp only [Mem.mat, Win.adr_mk, Nat.mul_one]
  constructor
  · rintro ⟨h1, h2⟩ i hi
    rcases Nat.lt_succ_iff_lt_or_eq.1 hi with h' | rfl
    · exact h1 i h'
    · exact h2
  · intro h; exact ⟨fun i hi => h i (by omega), h k (by omega)⟩

lemma fidentity_spec (d : K) {M N A lda : ℕ} (hm : WF m) (hA : OkIn m ⟨A, lda, M, N⟩) (hl : N ≤ lda) :
    Run (fidentity M N A lda d) m (fun _ m' => Step m m' ⟨A, lda, M, N⟩ (fun i j => if i = j then d else 0)) := by
  unfold fidentity
  simp only [Run_bind]
  refine (fzero_spec hm hA hl).mono ?_
  intro _ m1 s1
  have hA1 := hA.step s1
  have hin := fit_Inj (P := A) (M := M) hl
  refine (Run_store_loop (n := min M N) (fun t => A + t * lda + t) (fun _ => d) ?_ ?_ ?_).mono ?_
  · intro t ht
    exact hA1.adr (W := ⟨A, lda, M, N⟩) (i := t) (j := t) (show t < M by omega) (show t < N by omega)
  · intro s hs t ht e
    exact (hin s (show s < M by omega) s (show s < N by omega) t (show t < M by omega) t (show t < N by omega) e).1
  · intro t ht m' h1 _
    simp only [Run_store, h1, and_true]
    exact hA1.adr (W := ⟨A, lda, M, N⟩) (i := t) (j := t) (show t < M by omega) (show t < N by omega)
  · rintro _ m2 ⟨h1, h2, h3, h4⟩
    refine ⟨h1.trans s1.ok, s1.next.trans h2.ge, ?_, ?_⟩
    · intro i hi j hj
      have hi : i < M := hi
      have hj : j < N := hj
      by_cases e : i = j
      · subst e
        rw [if_pos rfl]
        exact h3 i (by omega)
      · rw [if_neg e, h4, s1.val i hi j hj]
        intro t ht e'
        have := hin i hi j hj t (show t < M by omega) t (show t < N by omega) e'
        omega
    · intro a ha hn
      rw [h4, s1.frame a ha hn]
      intro t ht e'
      exact hn ⟨t, show t < M by omega, t, show t < N by omega, e'⟩

/-- Swap of two disjoint vectors. -/
lemma vswap_spec (hX : OkIn m (vw X incX n)) (hY : OkIn m (vw Y incY n)) (hd : (vw X incX n).Disj (vw Y incY n))
    (hi : 0 < incX) (hj : 0 < incY) :
    Run (vswap n X incX Y incY) m (fun _ m' => m'.ok = m.ok ∧ m'.next = m.next ∧
      (∀ i < n, m'.val (X + i * incX) = m.val (Y + i * incY)) ∧
      (∀ i < n, m'.val (Y + i * incY) = m.val (X + i * incX)) ∧
      ∀ a, ¬ (vw X incX n).Has a → ¬ (vw Y incY n).Has a → m'.val a = m.val a) := by
  unfold vswap
  rw [cnt_pos hi]
  have hxy : ∀ s < n, ∀ t < n, X + s * incX ≠ Y + t * incY := fun s hs t ht e =>
    hd _ ⟨s, hs, 0, Nat.one_pos, rfl⟩ ⟨t, ht, 0, Nat.one_pos, e⟩
  have hxx : ∀ s < n, ∀ t < n, X + s * incX = X + t * incX → s = t := fun s hs t ht e =>
    (vw_Inj (X := X) (n := n) hi s hs 0 Nat.one_pos t ht 0 Nat.one_pos e).1
  have hyy : ∀ s < n, ∀ t < n, Y + s * incY = Y + t * incY → s = t := fun s hs t ht e =>
    (vw_Inj (X := Y) (n := n) hj s hs 0 Nat.one_pos t ht 0 Nat.one_pos e).1
  refine (Run_loop (fun k m' => m'.ok = m.ok ∧ m'.next = m.next ∧
      (∀ i < k, m'.val (X + i * incX) = m.val (Y + i * incY)) ∧
      (∀ i < k, m'.val (Y + i * incY) = m.val (X + i * incX)) ∧
      ∀ a, (∀ i < k, a ≠ X + i * incX ∧ a ≠ Y + i * incY) → m'.val a = m.val a)
    ⟨rfl, rfl, by simp, by simp, by simp⟩ ?_).mono ?_
  · rintro k m' hk ⟨h1, h2, h3, h4, h5⟩
    have eX : m'.val (X + k * incX) = m.val (X + k * incX) := h5 _ (fun i hi' =>
      ⟨fun e => by have := hxx k hk i (by omega) e; omega, fun e => hxy k hk i (by omega) e⟩)
    have eY : m'.val (Y + k * incY) = m.val (Y + k * incY) := h5 _ (fun i hi' =>
      ⟨fun e => hxy i (by omega) k hk e.symm, fun e => by have := hyy k hk i (by omega) e; omega⟩)
    simp only [Run_bind, Run_load, Run_store, Mem.set_ok, Mem.set_val, Mem.set_next, h1, OkIn_vw hX hk, OkIn_vw hY hk,
      eX, eY, true_and]
    refine ⟨h2, ?_, ?_, ?_⟩
    · intro i hi'
      rw [Function.update_of_ne (hxy i (by omega) k hk)]
      by_cases e : i = k
      · subst e; rw [Function.update_self]
      · rw [Function.update_of_ne (fun e' => e (hxx i (by omega) k hk e'))]
        exact h3 i (by omega)
    · intro i hi'
      by_cases e : i = k
      · subst e; rw [Function.update_self]
      · rw [Function.update_of_ne (fun e' => e (hyy i (by omega) k hk e')),
          Function.update_of_ne (fun e' => hxy k hk i (by omega) e'.symm)]
        exact h4 i (by omega)
    · intro a ha
      rw [Function.update_of_ne (ha k (by omega)).2, Function.update_of_ne (ha k (by omega)).1]
      exact h5 a (fun i hi' => ha i (by omega))
  · rintro _ m' ⟨h1, h2, h3, h4, h5⟩
    refine ⟨h1, h2, h3, h4, fun a hnx hny => h5 a (fun i hi' => ⟨?_, ?_⟩)⟩
    · exact fun e => hnx ⟨i, hi', 0, Nat.one_pos, e⟩
    · exact fun e => hny ⟨i, hi', 0, Nat.one_pos, e⟩

lemma OkIn_vw_of {m : Mem K} {X inc n : ℕ} (h : ∀ i < n, m.ok (X + i * inc) = true) : OkIn m (vw X inc n) := by
  rintro a ⟨i, hi, j, hj, rfl⟩
  obtain rfl : j = 0 := by simpa using hj
  exact h i hi

lemma vdotBlocks_spec (D : ℕ) (hD : 0 < D) (hX : OkIn m (vw X incX n)) (hY : OkIn m (vw Y incY n)) (hi : 0 < incX) :
    ∀ (fuel t : ℕ), t * D ≤ n → n ≤ t * D + fuel * D →
    Run (vdotBlocks D n incX incY fuel (D + t * D) (X + t * D * incX) (Y + t * D * incY)
        (∑ i ∈ range (t * D), m.val (X + i * incX) * m.val (Y + i * incY))) m
      (fun r m' => m' = m ∧ ∃ t', t' * D ≤ n ∧ n ≤ D + t' * D ∧ r = (D + t' * D, X + t' * D * incX, Y + t' * D * incY,
        ∑ i ∈ range (t' * D), m.val (X + i * incX) * m.val (Y + i * incY))) := by
  intro fuel
  induction fuel with
  | zero =>
    intro t h1 h2
    simp only [vdotBlocks, Run_pure, true_and]
    exact ⟨t, h1, by omega, rfl⟩
  | succ fuel ih =>
    intro t h1 h2
    simp only [vdotBlocks]
    rif h
    · simp only [Run_bind]
      have sub : ∀ Z incZ, OkIn m (vw Z incZ n) → OkIn m (vw (Z + t * D * incZ) incZ D) := fun Z incZ hZ =>
        OkIn_vw_of (fun i hi' => by
          have := OkIn_vw hZ (i := t * D + i) (by omega)
          rwa [Nat.add_mul, ← Nat.add_assoc] at this)
      refine (vdot_spec (sub X incX hX) (sub Y incY hY) hi).mono ?_
      rintro d m' ⟨rfl, rfl⟩
      have := ih (t + 1) (by rw [Nat.succ_mul]; omega) (by rw [Nat.succ_mul] at h2 ⊢; omega)
      have e1 : (t + 1) * D = t * D + D := Nat.succ_mul t D
      rw [e1, sum_range_add] at this
      have e2 : D + (t * D + D) = D + t * D + D := by ring
      have e3 : ∀ Z incZ, Z + (t * D + D) * incZ = Z + t * D * incZ + incZ * D := fun Z incZ => by ring
      have e4 : ∀ Z incZ x, Z + t * D * incZ + x * incZ = Z + (t * D + x) * incZ := fun Z incZ x => by ring
      rw [e2, e3, e3] at this
      simp only [e4]
      exact this
    · simp only [Run_pure, true_and]
      exact ⟨t, h1, by omega, rfl⟩

/-- The delayed dot product is the dot product, whatever the block length. -/
lemma vdotDelayed_spec (D : ℕ) (hX : OkIn m (vw X incX n)) (hY : OkIn m (vw Y incY n)) (hi : 0 < incX) :
    Run (vdotDelayed D n X incX Y incY) m (fun d m' => m' = m ∧
      d = ∑ i ∈ range n, m.val (X + i * incX) * m.val (Y + i * incY)) := by
  unfold vdotDelayed
  rif h
  · exact vdot_spec hX hY hi
  · have hD : 0 < D := by omega
    have hb := vdotBlocks_spec D hD hX hY hi n 0 (by omega) (by nlinarith)
    simp only [Nat.zero_mul, Nat.add_zero, range_zero, sum_empty] at hb
    simp only [Run_bind, Run_liftE]
    refine hb.mono ?_
    rintro _ m' ⟨rfl, t, ht1, ht2, rfl⟩
    simp only [Ok_usub]
    refine ⟨by omega, ?_⟩
    have e : n + D - (D + t * D) = n - t * D := by omega
    rw [e]
    have sub : ∀ Z incZ, OkIn m' (vw Z incZ n) → OkIn m' (vw (Z + t * D * incZ) incZ (n - t * D)) := fun Z incZ hZ =>
      OkIn_vw_of (fun i hi' => by
        have := OkIn_vw hZ (i := t * D + i) (by omega)
        rwa [Nat.add_mul, ← Nat.add_assoc] at this)
    refine (vdot_spec (sub X incX hX) (sub Y incY hY) hi).mono ?_
    rintro d m'' ⟨rfl, rfl⟩
    rw [Run_pure]
    refine ⟨rfl, ?_⟩
    conv_rhs => rw [show n = t * D + (n - t * D) by omega, sum_range_add]
    congr 1
    refine sum_congr rfl (fun i _ => ?_)
    congr 2 <;> ring

end tests

section level2
variable [Field K] [DecidableEq K] {m : Mem K}

/-- inner loop reading one other vector -/
lemma ger_in1 {n : ℕ} (adr z : ℕ → ℕ) (φ : K → K → K) (hok : ∀ t < n, m.ok (adr t) = true)
    (hz : ∀ t < n, m.ok (z t) = true) (hinj : ∀ s < n, ∀ t < n, adr s = adr t → s = t)
    (hd : ∀ s < n, ∀ t < n, z s ≠ adr t) :
    Run (loop n fun j => do
      let a ← load (adr j)
      let v ← load (z j)
      store (adr j) (φ a v)) m (fun _ m'' => m''.ok = m.ok ∧ m''.next = m.next ∧
        (∀ j < n, m''.val (adr j) = φ (m.val (adr j)) (m.val (z j))) ∧ ∀ a, (∀ j < n, a ≠ adr j) → m''.val a = m.val a) := by
  refine Run_store_loop adr (fun j => φ (m.val (adr j)) (m.val (z j))) hok hinj ?_
  intro t ht m' h1 h2
  simp only [Run_bind, Run_load, Run_store, h1, hok t ht, hz t ht, true_and]
  rw [h2 _ (fun s hs e => by have := hinj t ht s (by omega) e; omega), h2 _ (fun s hs => hd t ht s (by omega))]

/-- inner loop reading two other vectors -/
lemma ger_in2 {n : ℕ} (adr w z : ℕ → ℕ) (φ : K → K → K → K) (hok : ∀ t < n, m.ok (adr t) = true)
    (hw : ∀ t < n, m.ok (w t) = true)
    (hz : ∀ t < n, m.ok (z t) = true) (hinj : ∀ s < n, ∀ t < n, adr s = adr t → s = t)
    (hd : ∀ s < n, ∀ t < n, z s ≠ adr t) (hd' : ∀ s < n, ∀ t < n, w s ≠ adr t) :
    Run (loop n fun j => do
      let a ← load (adr j)
      let u ← load (w j)
      let v ← load (z j)
      store (adr j) (φ a u v)) m (fun _ m'' => m''.ok = m.ok ∧ m''.next = m.next ∧
        (∀ j < n, m''.val (adr j) = φ (m.val (adr j)) (m.val (w j)) (m.val (z j))) ∧
        ∀ a, (∀ j < n, a ≠ adr j) → m''.val a = m.val a) := by
  refine Run_store_loop adr (fun j => φ (m.val (adr j)) (m.val (w j)) (m.val (z j))) hok hinj ?_
  intro t ht m' h1 h2
  simp only [Run_bind, Run_load, Run_store, h1, hok t ht, hz t ht, hw t ht, true_and]
  rw [h2 _ (fun s hs e => by have := hinj t ht s (by omega) e; omega), h2 _ (fun s hs => hd t ht s (by omega)),
    h2 _ (fun s hs => hd' t ht s (by omega))]

/-- Rank-one update. -/
lemma fger_spec {M N x incx y incy A lda : ℕ} (alpha : K) (hA : OkIn m ⟨A, lda, M, N⟩) (hl : N ≤ lda)
    (hx : OkIn m (vw x incx M)) (hy : OkIn m (vw y incy N))
    (hdx : (vw x incx M).Disj ⟨A, lda, M, N⟩) (hdy : (vw y incy N).Disj ⟨A, lda, M, N⟩) :
    Run (fger M N alpha x incx y incy A lda) m (fun _ m' => Step m m' ⟨A, lda, M, N⟩ (fun i j =>
      m.mat ⟨A, lda, M, N⟩ i j + alpha * (m.val (x + i * incx) * m.val (y + j * incy)))) := by
  have hin := fit_Inj (P := A) (M := M) hl
  have hok : ∀ i < M, ∀ j < N, m.ok (A + i * lda + j) = true := fun i hi j hj => hA.adr (W := ⟨A, lda, M, N⟩) hi hj
  have hxd : ∀ s < M, ∀ i < M, ∀ j < N, x + s * incx ≠ A + i * lda + j := fun s hs i hi j hj e =>
    hdx _ ⟨s, hs, 0, Nat.one_pos, rfl⟩ ⟨i, hi, j, hj, e⟩
  have hyd : ∀ s < N, ∀ i < M, ∀ j < N, y + s * incy ≠ A + i * lda + j := fun s hs i hi j hj e =>
    hdy _ ⟨s, hs, 0, Nat.one_pos, rfl⟩ ⟨i, hi, j, hj, e⟩
  have hI : ∀ i < M, ∀ j < N, ∀ i' < M, ∀ j' < N, A + i * lda + j = A + i' * lda + j' → i = i' ∧ j = j' :=
    fun i hi j hj i' hi' j' hj' e => hin i hi j hj i' hi' j' hj' e
  -- row-major outer loop
  have rowm : ∀ f : ℕ → Prog K Unit, (∀ i < M, ∀ m' : Mem K, m'.ok = m.ok → m'.val (x + i * incx) = m.val (x + i * incx) →
      (∀ j < N, m'.val (y + j * incy) = m.val (y + j * incy)) →
      (∀ j < N, m'.val (A + i * lda + j) = m.val (A + i * lda + j)) →
      Run (f i) m' (fun _ m'' => m''.ok = m'.ok ∧ m''.next = m'.next ∧ (∀ j < N, m''.val (A + i * lda + j) =
        m.val (A + i * lda + j) + alpha * (m.val (x + i * incx) * m.val (y + j * incy))) ∧
        ∀ a, (∀ j < N, a ≠ A + i * lda + j) → m''.val a = m'.val a)) →
      Run (loop (cnt M lda) f) m (fun _ m' => Step m m' ⟨A, lda, M, N⟩ (fun i j =>
        m.mat ⟨A, lda, M, N⟩ i j + alpha * (m.val (x + i * incx) * m.val (y + j * incy)))) := by
    intro f hf
    refine loop_cnt hl f _ rfl rfl ?_
    refine (Run_store_loop2 (r := M) (c := N) (fun i j => A + i * lda + j) (fun i j => m.val (A + i * lda + j) +
      alpha * (m.val (x + i * incx) * m.val (y + j * incy)))
      (fun i hi j hj i' hi' j' hj' e => (hI i hi j hj i' hi' j' hj' e).1) ?_).mono ?_
    · intro i hi m' h1 h2
      refine hf i hi m' h1 (h2 _ fun i' hi' _ j hj => hxd i hi i' hi' j hj)
        (fun j hj => h2 _ fun i' hi' _ j' hj' => hyd j hj i' hi' j' hj')
        (fun j hj => h2 _ fun i' hi' ne j' hj' e => ne (hI i hi j hj i' hi' j' hj' e).1.symm)
    · rintro _ m' ⟨h1, h2, h3, h4⟩
      exact ⟨h1, h2.ge, fun i hi j hj => h3 i hi j hj,
        fun a _ hn => h4 a (fun i hi j hj e => hn ⟨i, hi, j, hj, e⟩)⟩
  -- column-major outer loop
  have colm : ∀ f : ℕ → Prog K Unit, (∀ j < N, ∀ m' : Mem K, m'.ok = m.ok → m'.val (y + j * incy) = m.val (y + j * incy) →
      (∀ i < M, m'.val (x + i * incx) = m.val (x + i * incx)) →
      (∀ i < M, m'.val (A + j + i * lda) = m.val (A + j + i * lda)) →
      Run (f j) m' (fun _ m'' => m''.ok = m'.ok ∧ m''.next = m'.next ∧ (∀ i < M, m''.val (A + j + i * lda) =
        m.val (A + j + i * lda) + alpha * (m.val (x + i * incx) * m.val (y + j * incy))) ∧
        ∀ a, (∀ i < M, a ≠ A + j + i * lda) → m''.val a = m'.val a)) →
      Run (loop N f) m (fun _ m' => Step m m' ⟨A, lda, M, N⟩ (fun i j =>
        m.mat ⟨A, lda, M, N⟩ i j + alpha * (m.val (x + i * incx) * m.val (y + j * incy)))) := by
    intro f hf
    have sw : ∀ i j, A + j + i * lda = A + i * lda + j := fun i j => by omega
    refine (Run_store_loop2 (r := N) (c := M) (fun j i => A + j + i * lda) (fun j i => m.val (A + j + i * lda) +
      alpha * (m.val (x + i * incx) * m.val (y + j * incy)))
      (fun j hj i hi j' hj' i' hi' e => (hI i hi j hj i' hi' j' hj' (by rw [← sw, ← sw]; exact e)).2) ?_).mono ?_
    · intro j hj m' h1 h2
      refine hf j hj m' h1 (h2 _ fun j' hj' _ i hi => by rw [sw]; exact hyd j hj i hi j' hj')
        (fun i hi => h2 _ fun j' hj' _ i' hi' => by rw [sw]; exact hxd i hi i' hi' j' hj')
        (fun i hi => h2 _ fun j' hj' ne i' hi' e => ne (hI i hi j hj i' hi' j' hj' (by rw [← sw, ← sw]; exact e)).2.symm)
    · rintro _ m' ⟨h1, h2, h3, h4⟩
      refine ⟨h1, h2.ge, fun i hi j hj => ?_,
        fun a _ hn => h4 a (fun j hj i hi e => hn ⟨i, hi, j, hj, by rw [e]; exact sw i j⟩)⟩
      have := h3 j hj i hi
      simp only [sw] at this
      exact this
  have okx : ∀ i < M, m.ok (x + i * incx) = true := fun i hi => OkIn_vw hx hi
  have oky : ∀ j < N, m.ok (y + j * incy) = true := fun j hj => OkIn_vw hy hj
  have sw : ∀ i j, A + j + i * lda = A + i * lda + j := fun i j => by omega
  have okc : ∀ i < M, ∀ j < N, m.ok (A + j + i * lda) = true := fun i hi j hj => by rw [sw]; exact hok i hi j hj
  unfold fger
  rif h0
  · rw [Run_pure]
    exact Step.refl (fun i hi j hj => by rw [h0, zero_mul, add_zero])
  rif hMN
  · rif ha1
    · refine rowm _ (fun i hi m' h1 ex ey eA => ?_)
      refine (ger_in2 (fun j => A + i * lda + j) (fun _ => x + i * incx) (fun j => y + j * incy) (fun a u v => a + u * v)
        (fun j hj => by rw [h1]; exact hok i hi j hj) (fun _ _ => by rw [h1]; exact okx i hi)
        (fun j hj => by rw [h1]; exact oky j hj)
        (fun s hs t ht e => (hI i hi s hs i hi t ht e).2) (fun s hs t ht => hyd s hs i hi t ht)
        (fun s hs t ht => hxd i hi i hi t ht)).mono ?_
      rintro _ m'' ⟨g1, g2, g3, g4⟩
      exact ⟨g1, g2, fun j hj => by rw [g3 j hj, eA j hj, ex, ey j hj, ha1, one_mul], g4⟩
    · rif ha2
      · refine rowm _ (fun i hi m' h1 ex ey eA => ?_)
        simp only [Run_bind, Run_load, h1, okx i hi, true_and]
        refine (ger_in1 (fun j => A + i * lda + j) (fun j => y + j * incy) (fun a v => a + -m'.val (x + i * incx) * v)
          (fun j hj => by rw [h1]; exact hok i hi j hj)
          (fun j hj => by rw [h1]; exact oky j hj)
          (fun s hs t ht e => (hI i hi s hs i hi t ht e).2) (fun s hs t ht => hyd s hs i hi t ht)).mono ?_
        rintro _ m'' ⟨g1, g2, g3, g4⟩
        exact ⟨g1.trans h1, g2, fun j hj => by rw [g3 j hj, eA j hj, ex, ey j hj, ha2]; ring, g4⟩
      · refine rowm _ (fun i hi m' h1 ex ey eA => ?_)
        simp only [Run_bind, Run_load, h1, okx i hi, true_and]
        refine (ger_in1 (fun j => A + i * lda + j) (fun j => y + j * incy) (fun a v => a + alpha * m'.val (x + i * incx) * v)
          (fun j hj => by rw [h1]; exact hok i hi j hj)
          (fun j hj => by rw [h1]; exact oky j hj)
          (fun s hs t ht e => (hI i hi s hs i hi t ht e).2) (fun s hs t ht => hyd s hs i hi t ht)).mono ?_
        rintro _ m'' ⟨g1, g2, g3, g4⟩
        exact ⟨g1.trans h1, g2, fun j hj => by rw [g3 j hj, eA j hj, ex, ey j hj]; ring, g4⟩
  · rif ha1
    · refine colm _ (fun j hj m' h1 ey ex eA => ?_)
      refine (ger_in2 (fun i => A + j + i * lda) (fun i => x + i * incx) (fun _ => y + j * incy) (fun a u v => a + u * v)
        (fun i hi => by rw [h1]; exact okc i hi j hj) (fun i hi => by rw [h1]; exact okx i hi)
        (fun _ _ => by rw [h1]; exact oky j hj)
        (fun s hs t ht e => (hI s hs j hj t ht j hj (by rw [← sw, ← sw]; exact e)).1)
        (fun s hs t ht => by rw [sw]; exact hyd j hj t ht j hj)
        (fun s hs t ht => by rw [sw]; exact hxd s hs t ht j hj)).mono ?_
      rintro _ m'' ⟨g1, g2, g3, g4⟩
      exact ⟨g1, g2, fun i hi => by rw [g3 i hi, eA i hi, ex i hi, ey, ha1, one_mul], g4⟩
    · rif ha2
      · refine colm _ (fun j hj m' h1 ey ex eA => ?_)
        simp only [Run_bind, Run_load, h1, oky j hj, true_and]
        refine (ger_in1 (fun i => A + j + i * lda) (fun i => x + i * incx) (fun a u => a + u * -m'.val (y + j * incy))
          (fun i hi => by rw [h1]; exact okc i hi j hj) (fun i hi => by rw [h1]; exact okx i hi)
          (fun s hs t ht e => (hI s hs j hj t ht j hj (by rw [← sw, ← sw]; exact e)).1)
          (fun s hs t ht => by rw [sw]; exact hxd s hs t ht j hj)).mono ?_
        rintro _ m'' ⟨g1, g2, g3, g4⟩
        exact ⟨g1.trans h1, g2, fun i hi => by rw [g3 i hi, eA i hi, ex i hi, ey, ha2]; ring, g4⟩
      · refine colm _ (fun j hj m' h1 ey ex eA => ?_)
        simp only [Run_bind, Run_load, h1, oky j hj, true_and]
        refine (ger_in1 (fun i => A + j + i * lda) (fun i => x + i * incx) (fun a u => a + u * (alpha * m'.val (y + j * incy)))
          (fun i hi => by rw [h1]; exact okc i hi j hj) (fun i hi => by rw [h1]; exact okx i hi)
          (fun s hs t ht e => (hI s hs j hj t ht j hj (by rw [← sw, ← sw]; exact e)).1)
          (fun s hs t ht => by rw [sw]; exact hxd s hs t ht j hj)).mono ?_
        rintro _ m'' ⟨g1, g2, g3, g4⟩
        exact ⟨g1.trans h1, g2, fun i hi => by rw [g3 i hi, eA i hi, ex i hi, ey]; ring, g4⟩

/-! ### `fgemv` -/

/-- index of `op(A)(i, j)` -/
abbrev opAdr (ta : Tr) (A lda i j : ℕ) : ℕ := match ta with
  | .no => A + i * lda + j
  | .yes => A + j * lda + i

lemma col_OkIn {A lda M N j : ℕ} (hA : OkIn m ⟨A, lda, M, N⟩) (hj : j < N) : OkIn m (vw (A + j) lda M) :=
  OkIn_vw_of (fun i hi => by
    have := hA.adr (W := ⟨A, lda, M, N⟩) (i := i) (j := j) hi hj
    rw [Win.adr_mk] at this
    rwa [show A + j + i * lda = A + i * lda + j by omega])

lemma fgemvDefault_spec (cat : Cat) (ta : Tr) {M N A lda X incX Y incY Xd Yd : ℕ} (alpha beta : K) (ha : alpha ≠ 0)
    (hXd : Xd = if ta = .no then N else M) (hYd : Yd = if ta = .no then M else N)
    (hm : WF m) (hA : OkIn m ⟨A, lda, M, N⟩) (hl : N ≤ lda) (hX : OkIn m (vw X incX Xd)) (hY : OkIn m (vw Y incY Yd))
    (hiY : 0 < incY) (hdA : (Win.mk A lda M N).Disj (vw Y incY Yd)) (hdX : (vw X incX Xd).Disj (vw Y incY Yd)) :
    Run (fgemvDefault cat ta M N alpha A lda X incX beta Y incY) m (fun _ m' => Step m m' (vw Y incY Yd) (fun i _ =>
      alpha * (∑ k ∈ range Xd, m.val (opAdr ta A lda i k) * m.val (X + k * incX)) + beta * m.val (Y + i * incY))) := by
  unfold fgemvDefault
  rw [← hYd]
  simp only [Run_bind]
  -- first scaling
  have st1 : Run (if beta = 0 then vzero Yd Y incY
      else do
        let b ← liftE (divE beta alpha)
        vscalin cat Yd b Y incY) m
      (fun _ m' => Step m m' (vw Y incY Yd) (fun i _ => beta * alpha⁻¹ * m.val (Y + i * incY))) := by
    rif hb
    · refine (vzero_spec hY hiY).mono (fun _ _ s => s.congr ?_)
      intro i _ j _
      rw [hb]; ring
    · simp only [Run_bind, Run_liftE, divE, Ok_bind, Ok_invE, Ok_pure]
      exact ⟨ha, vscalin_spec cat _ hm hY hiY⟩
  refine st1.mono ?_
  intro _ m1 s1
  have hA1 := hA.step s1
  have hX1 := hX.step s1
  have hY1 := hY.step s1
  -- dot products
  have st2 : Run (if ta = .no then loop Yd fun i => do
        let d ← vdot N (A + i * lda) 1 X incX
        let y ← load (Y + i * incY)
        store (Y + i * incY) (y + d)
      else loop Yd fun i => do
        let d ← vdot M (A + i) lda X incX
        let y ← load (Y + i * incY)
        store (Y + i * incY) (y + d)) m1
      (fun _ m' => Step m1 m' (vw Y incY Yd) (fun i _ => m1.val (Y + i * incY) +
        ∑ k ∈ range Xd, m.val (opAdr ta A lda i k) * m.val (X + k * incX))) := by
    cases ta with
    | no =>
      simp only [if_true] at hXd hYd ⊢
      subst hXd hYd
      refine Run_vec _ hY1 (vw_Inj hiY) ?_
      intro t ht m' h1 h2
      have e1 : OkIn m' (vw (A + t * lda) 1 Xd) := fun a ha => by
        rw [h1]; exact row_OkIn (W := ⟨A, lda, Yd, Xd⟩) hA1 ht a ha
      have e2 : OkIn m' (vw X incX Xd) := fun a ha => by rw [h1]; exact hX1 a ha
      simp only [Run_bind]
      refine (vdot_spec e1 e2 Nat.one_pos).mono ?_
      rintro d _ ⟨rfl, rfl⟩
      simp only [Run_load, Run_store, h1, OkIn_vw hY1 ht, true_and]
      congr 1
      rw [h2 (Y + t * incY) (fun s hs ne e => ne ((vw_Inj (X := Y) (n := Yd) hiY t ht 0 Nat.one_pos s hs 0 Nat.one_pos e).1.symm))]
      congr 1
      refine sum_congr rfl (fun k hk => ?_)
      have hk := mem_range.1 hk
      have hAk : (Win.mk A lda Yd Xd).Has (A + t * lda + k) := ⟨t, ht, k, hk, rfl⟩
      have hXk : (vw X incX Xd).Has (X + k * incX) := ⟨k, hk, 0, Nat.one_pos, rfl⟩
      rw [Nat.mul_one, h2 _ (fun s hs _ e => hdA _ hAk ⟨s, hs, 0, Nat.one_pos, e⟩),
        h2 _ (fun s hs _ e => hdX _ hXk ⟨s, hs, 0, Nat.one_pos, e⟩), s1.frame _ (hA _ hAk) (hdA _ hAk),
        s1.frame _ (hX _ hXk) (hdX _ hXk)]
    | yes =>
      simp only [reduceCtorEq, if_false] at hXd hYd ⊢
      subst hXd hYd
      refine Run_vec _ hY1 (vw_Inj hiY) ?_
      intro t ht m' h1 h2
      have hlda : 0 < lda := by omega
      have e1 : OkIn m' (vw (A + t) lda Xd) := fun a ha => by
        rw [h1]; exact col_OkIn hA1 ht a ha
      have e2 : OkIn m' (vw X incX Xd) := fun a ha => by rw [h1]; exact hX1 a ha
      simp only [Run_bind]
      refine (vdot_spec e1 e2 hlda).mono ?_
      rintro d _ ⟨rfl, rfl⟩
      simp only [Run_load, Run_store, h1, OkIn_vw hY1 ht, true_and]
      congr 1
      rw [h2 (Y + t * incY) (fun s hs ne e => ne ((vw_Inj (X := Y) (n := Yd) hiY t ht 0 Nat.one_pos s hs 0 Nat.one_pos e).1.symm))]
      congr 1
      refine sum_congr rfl (fun k hk => ?_)
      have hk := mem_range.1 hk
      have hAk : (Win.mk A lda Xd Yd).Has (A + k * lda + t) := ⟨k, hk, t, ht, rfl⟩
      have hXk : (vw X incX Xd).Has (X + k * incX) := ⟨k, hk, 0, Nat.one_pos, rfl⟩
      rw [show A + t + k * lda = A + k * lda + t by omega,
        h2 _ (fun s hs _ e => hdA _ hAk ⟨s, hs, 0, Nat.one_pos, e⟩),
        h2 _ (fun s hs _ e => hdX _ hXk ⟨s, hs, 0, Nat.one_pos, e⟩), s1.frame _ (hA _ hAk) (hdA _ hAk),
        s1.frame _ (hX _ hXk) (hdX _ hXk)]
  refine st2.mono ?_
  intro _ m2 s2
  refine (vscalin_spec cat alpha ((hm.step s1).step s2) (hY1.step s2) hiY).mono ?_
  intro _ m3 s3
  refine ((s1.trans s2).trans s3).congr ?_
  intro i hi j _
  have hi : i < Yd := hi
  rw [Step.vval s2 hi, Step.vval s1 hi]
  field_simp
  ring

/-- `y ← alpha op(A) x + beta y`, except for an empty transposed matrix. -/
lemma fgemv_spec (cat : Cat) (ta : Tr) {M N A lda X incX Y incY Xd Yd : ℕ} (alpha beta : K)
    (hXd : Xd = if ta = .no then N else M) (hYd : Yd = if ta = .no then M else N) (hM : M ≠ 0 ∨ ta = .no)
    (hm : WF m) (hA : OkIn m ⟨A, lda, M, N⟩) (hl : N ≤ lda) (hX : OkIn m (vw X incX Xd)) (hY : OkIn m (vw Y incY Yd))
    (hiY : 0 < incY) (hdA : (Win.mk A lda M N).Disj (vw Y incY Yd)) (hdX : (vw X incX Xd).Disj (vw Y incY Yd)) :
    Run (fgemv cat ta M N alpha A lda X incX beta Y incY) m (fun _ m' => Step m m' (vw Y incY Yd) (fun i _ =>
      alpha * (∑ k ∈ range Xd, m.val (opAdr ta A lda i k) * m.val (X + k * incX)) + beta * m.val (Y + i * incY))) := by
  unfold fgemv
  rif h0
  · obtain rfl : ta = .no := by tauto
    simp only [if_true] at hYd
    subst hYd; subst h0
    rw [Run_pure]
    exact Step.refl (fun i hi => absurd hi (Nat.not_lt_zero _))
  rw [← hXd, ← hYd]
  rif hz
  · have hs : ∀ i, alpha * (∑ k ∈ range Xd, m.val (opAdr ta A lda i k) * m.val (X + k * incX)) = 0 := by
      intro i
      rcases hz with hz | hz
      · rw [hz, range_zero, sum_empty, mul_zero]
      · rw [hz, zero_mul]
    rif hb
    · exact (vzero_spec hY hiY).mono (fun _ _ s => s.congr (fun i _ _ _ => by rw [hs, hb]; ring))
    · exact (vscalin_spec cat beta hm hY hiY).mono (fun _ _ s => s.congr (fun i _ _ _ => by rw [hs]; ring))
  · exact fgemvDefault_spec cat ta alpha beta (by tauto) hXd hYd hm hA hl hX hY hiY hdA hdX

/-! ### `ftrsv` -/

/-- diagonal entry used by a triangular routine -/
abbrev dg (diag : Diag) (p : K) : K := match diag with
  | .unit => 1
  | .nonUnit => p

lemma trsvStep_spec (diag : Diag) {Xi piv : ℕ} (d : K) (h1 : m.ok Xi = true)
    (h2 : diag = .nonUnit → m.ok piv = true ∧ piv ≠ Xi ∧ m.val piv ≠ 0) :
    Run (trsvStep diag Xi piv d) m (fun _ m' => ∃ v, m' = m.set Xi v ∧ dg diag (m.val piv) * v = m.val Xi - d) := by
  unfold trsvStep
  cases diag with
  | unit =>
    simp only [Run_bind, Run_load, h1, Run_store, true_and, reduceCtorEq, if_false, Run_pure]
    exact ⟨_, rfl, one_mul _⟩
  | nonUnit =>
    obtain ⟨g1, g2, g3⟩ := h2 rfl
    simp only [Run_bind, Run_load, h1, Run_store, true_and, if_true, Mem.set_ok, g1, Mem.set_val, Run_liftE, divE, Ok_bind,
      Ok_invE, Ok_pure, Function.update_self, Function.update_of_ne g2]
    refine ⟨g3, _, Mem.set_set .., ?_⟩
    field_simp

/-- Substitution: step `i` solves for the unknown number `k i` from the unknowns already solved. -/
lemma trsv_loop (diag : Diag) {N X incX : ℕ} (k : ℕ → ℕ) (hk : ∀ i < N, k i < N)
    (hkinj : ∀ i < N, ∀ j < N, k i = k j → i = j) (T : ℕ → ℕ → ℕ) (D : ℕ → Prog K K) (hi : 0 < incX)
    (hX : OkIn m (vw X incX N)) (hT : diag = .nonUnit → ∀ i < N, m.ok (T i i) = true ∧ m.val (T i i) ≠ 0)
    (hTX : ∀ i < N, ∀ j < N, ∀ s < N, T i j = X + s * incX → diag = .unit ∧ i = j)
    (hD : ∀ i < N, ∀ m' : Mem K, m'.ok = m.ok → (∀ a, (∀ s < N, a ≠ X + s * incX) → m'.val a = m.val a) →
      Run (D i) m' (fun d m'' => m'' = m' ∧
        d = ∑ j ∈ range i, m.val (T (k i) (k j)) * m'.val (X + k j * incX))) :
    Run (loop N fun i => do let d ← D i; trsvStep diag (X + k i * incX) (T (k i) (k i)) d) m (fun _ m' =>
      m'.ok = m.ok ∧ m'.next = m.next ∧ (∀ i < N, (∑ j ∈ range i, m.val (T (k i) (k j)) * m'.val (X + k j * incX)) +
        dg diag (m.val (T (k i) (k i))) * m'.val (X + k i * incX) = m.val (X + k i * incX)) ∧
      ∀ a, (∀ s < N, a ≠ X + s * incX) → m'.val a = m.val a) := by
  have hxx : ∀ s < N, ∀ t < N, X + s * incX = X + t * incX → s = t := fun s hs t ht e =>
    (vw_Inj (X := X) (n := N) hi s hs 0 Nat.one_pos t ht 0 Nat.one_pos e).1
  refine (Run_loop (fun n m' => m'.ok = m.ok ∧ m'.next = m.next ∧
      (∀ i < n, (∑ j ∈ range i, m.val (T (k i) (k j)) * m'.val (X + k j * incX)) +
        dg diag (m.val (T (k i) (k i))) * m'.val (X + k i * incX) = m.val (X + k i * incX)) ∧
      (∀ a, (∀ s < n, a ≠ X + k s * incX) → m'.val a = m.val a)) ⟨rfl, rfl, by simp, by simp⟩ ?_).mono ?_
  · rintro n m' hn ⟨h1, h2, h3, h4⟩
    have hout : ∀ a, (∀ s < N, a ≠ X + s * incX) → m'.val a = m.val a :=
      fun a ha => h4 a (fun s hs => ha (k s) (hk s (by omega)))
    simp only [Run_bind]
    refine (hD n hn m' h1 hout).mono ?_
    rintro d _ ⟨rfl, rfl⟩
    refine (trsvStep_spec diag _ (by rw [h1]; exact OkIn_vw hX (hk n hn)) ?_).mono ?_
    · intro hd
      obtain ⟨g1, g2⟩ := hT hd (k n) (hk n hn)
      have ne : ∀ s < N, T (k n) (k n) ≠ X + s * incX := fun s hs e => by
        have := (hTX _ (hk n hn) _ (hk n hn) s hs e).1
        rw [hd] at this; cases this
      exact ⟨by rw [h1]; exact g1, ne _ (hk n hn), by rw [hout _ ne]; exact g2⟩
    · rintro _ _ ⟨v, rfl, hv⟩
      refine ⟨h1, h2, ?_, ?_⟩
      · have hkeep : ∀ j < n, ∀ w, (Function.update ‹Mem K›.val (X + k n * incX) w) (X + k j * incX) =
            ‹Mem K›.val (X + k j * incX) := fun j hj w =>
          Function.update_of_ne (fun e => by
            have := hkinj j (by omega) n hn (hxx _ (hk j (by omega)) _ (hk n hn) e); omega) _ _
        intro i hi'
        rw [Mem.set_val]
        have hsum : ∑ j ∈ range i, m.val (T (k i) (k j)) * (Function.update ‹Mem K›.val (X + k n * incX) v) (X + k j * incX) =
            ∑ j ∈ range i, m.val (T (k i) (k j)) * ‹Mem K›.val (X + k j * incX) :=
          sum_congr rfl (fun j hj => by rw [hkeep j (by have := mem_range.1 hj; omega)])
        rw [hsum]
        by_cases e : i = n
        · subst e
          rw [Function.update_self]
          have hx : ‹Mem K›.val (X + k i * incX) = m.val (X + k i * incX) := h4 _ (fun s hs e => by
            have := hkinj i hn s (by omega) (hxx _ (hk i hn) _ (hk s (by omega)) e); omega)
          rw [hx] at hv
          have hp : dg diag (m.val (T (k i) (k i))) = dg diag (‹Mem K›.val (T (k i) (k i))) := by
            cases diag with
            | unit => rfl
            | nonUnit =>
              exact (hout _ (fun s hs e => by have := (hTX _ (hk i hn) _ (hk i hn) s hs e).1; cases this)).symm
          rw [hp, hv]; ring
        · rw [hkeep i (by omega)]
          exact h3 i (by omega)
      · intro a ha
        rw [Mem.set_val, Function.update_of_ne (ha n (by omega))]
        exact h4 a (fun s hs => ha s (by omega))
  · rintro _ m' ⟨h1, h2, h3, h4⟩
    exact ⟨h1, h2, h3, fun a ha => h4 a (fun s hs => ha _ (hk s hs))⟩

lemma sum_low {N i : ℕ} (hi : i < N) (p : K) (f : ℕ → K) :
    ∑ k ∈ range N, (if i = k then p else if k < i then f k else 0) = (∑ k ∈ range i, f k) + p := by
  rw [show N = i + (1 + (N - 1 - i)) by omega, sum_range_add, sum_range_add, sum_range_one]
  rw [sum_congr rfl (g := f), sum_eq_zero (s := range (N - 1 - i))]
  · simp
  · intro x _
    rw [if_neg (by omega), if_neg (by omega)]
  · intro x hx
    have := mem_range.1 hx
    rw [if_neg (by omega), if_pos (by omega)]

lemma sum_upp {N i : ℕ} (hi : i < N) (p : K) (f : ℕ → K) :
    ∑ k ∈ range N, (if i = k then p else if i < k then f k else 0) = (∑ t ∈ range (N - 1 - i), f (i + 1 + t)) + p := by
  conv_lhs => rw [show N = i + (1 + (N - 1 - i)) by omega, sum_range_add, sum_range_add, sum_range_one]
  rw [sum_eq_zero (s := range i), sum_congr rfl (g := fun t => f (i + 1 + t))]
  · simp [add_comm]
  · intro x hx
    have := mem_range.1 hx
    rw [if_neg (by omega), if_pos (by omega), Nat.add_assoc]
  · intro x hx
    have := mem_range.1 hx
    rw [if_neg (by omega), if_neg (by omega)]

/-- Triangular solve with one right-hand side: afterwards `op(T) X' = X`. -/
lemma ftrsv_spec (uplo : Uplo) (ta : Tr) (diag : Diag) {N A lda X incX : ℕ} (hA : OkIn m ⟨A, lda, N, N⟩) (hl : N ≤ lda)
    (hX : OkIn m (vw X incX N)) (hi : 0 < incX) (hd : (Win.mk A lda N N).Disj (vw X incX N))
    (hnz : diag = .nonUnit → ∀ i < N, m.val (A + i * lda + i) ≠ 0) :
    Run (ftrsv uplo ta diag N A lda X incX) m (fun _ m' => m'.ok = m.ok ∧ m'.next = m.next ∧
      (∀ i < N, ∑ k ∈ range N, Spec.op ta (Spec.tri uplo diag (m.mat ⟨A, lda, N, N⟩)) i k * m'.val (X + k * incX) =
        m.val (X + i * incX)) ∧
      ∀ a, (∀ s < N, a ≠ X + s * incX) → m'.val a = m.val a) := by
  have hAX : ∀ i < N, ∀ j < N, ∀ s < N, A + i * lda + j ≠ X + s * incX := fun i hi j hj s hs e =>
    hd _ ⟨i, hi, j, hj, rfl⟩ ⟨s, hs, 0, Nat.one_pos, e⟩
  have okA : ∀ i < N, ∀ j < N, m.ok (A + i * lda + j) = true := fun i hi j hj => hA.adr (W := ⟨A, lda, N, N⟩) hi hj
  have okX : ∀ i < N, m.ok (X + i * incX) = true := fun i hi => OkIn_vw hX hi
  have hrev : ∀ (i : ℕ) (f : ℕ → K), ∑ j ∈ range i, f (i - 1 - j) = ∑ j ∈ range i, f j := fun i f => sum_range_reflect f i
  have hb : ∀ i < N, ∀ f : ℕ → K, ∑ t ∈ range (N - 1 - i), f (i + 1 + t) = ∑ j ∈ range (N - 1 - i), f (N - 1 - j) := by
    intro i hi' f
    rw [← hrev]
    refine sum_congr rfl fun j hj => ?_
    have := mem_range.1 hj
    congr 1; omega
  have pv : ∀ k, A + k * (lda + 1) = A + k * lda + k := fun k => by ring
  unfold ftrsv
  cases uplo with
  | lower =>
    cases ta with
    | no =>
      refine (trsv_loop diag (fun i => i) (fun i h => h) (fun i _ j _ h => h) (fun i j => A + i * lda + j)
        (fun i => vdot i (A + i * lda) 1 X incX) hi hX (fun h i hi => ⟨okA i hi i hi, hnz h i hi⟩)
        (fun i hi j hj s hs e => absurd e (hAX i hi j hj s hs)) ?_).mono ?_
      · intro i hi' m' h1 h2
        refine (vdot_spec (OkIn_vw_of fun j hj => ?_) (OkIn_vw_of fun j hj => ?_) Nat.one_pos).mono ?_
        · rw [h1, Nat.mul_one]; exact okA i hi' j (by omega)
        · rw [h1]; exact okX j (by omega)
        · rintro d _ ⟨rfl, rfl⟩
          refine ⟨rfl, sum_congr rfl fun j hj => ?_⟩
          have := mem_range.1 hj
          rw [Nat.mul_one, h2 _ (hAX i hi' j (by omega))]
      · rintro _ m' ⟨h1, h2, h3, h4⟩
        refine ⟨h1, h2, fun i hi' => ?_, h4⟩
        rw [← h3 i hi', ← sum_low hi' _ (fun j => m.val (A + i * lda + j) * m'.val (X + j * incX))]
        refine sum_congr rfl fun j hj => ?_
        simp only [Spec.op, Spec.tri]
        split_ifs with e1 e2
        · subst e1; cases diag <;> rfl
        · rfl
        · ring
    | yes =>
      simp only [pv]
      refine (trsv_loop diag (fun i => N - 1 - i) (fun i h => by omega) (fun i _ j _ h => by omega) (fun i j => A + j * lda + i)
        (fun i => if i = 0 then pure (0 : K) else vdot i (A + (N - 1 - i) * lda + (N - 1 - i) + lda) lda
          (X + (N - 1 - i) * incX + incX) incX) hi hX (fun h i hi => ⟨okA i hi i hi, hnz h i hi⟩)
        (fun i hi j hj s hs e => absurd e (hAX j hj i hi s hs)) ?_).mono ?_
      · intro i hi' m' h1 h2
        rif h0
        · subst h0; simp
        have ea : ∀ j, A + (N - 1 - i) * lda + (N - 1 - i) + lda + j * lda = A + (N - i + j) * lda + (N - 1 - i) := fun j => by
          rw [show N - i + j = (N - 1 - i) + 1 + j by omega]; ring
        have ex : ∀ j, X + (N - 1 - i) * incX + incX + j * incX = X + (N - i + j) * incX := fun j => by
          rw [show N - i + j = (N - 1 - i) + 1 + j by omega]; ring
        refine (vdot_spec (OkIn_vw_of fun j hj => ?_) (OkIn_vw_of fun j hj => ?_) (by omega)).mono ?_
        · rw [h1, ea]; exact okA _ (by omega) _ (by omega)
        · rw [h1, ex]; exact okX _ (by omega)
        · rintro d _ ⟨rfl, rfl⟩
          refine ⟨rfl, ?_⟩
          rw [← hrev]
          refine sum_congr rfl fun j hj => ?_
          have := mem_range.1 hj
          rw [ea, ex, show N - i + (i - 1 - j) = N - 1 - j by omega, h2 _ (hAX _ (by omega) _ (by omega))]
      · rintro _ m' ⟨h1, h2, h3, h4⟩
        refine ⟨h1, h2, fun i hi' => ?_, h4⟩
        have h := h3 (N - 1 - i) (by omega)
        rw [show N - 1 - (N - 1 - i) = i by omega] at h
        rw [← h, ← hb i hi' (fun j => m.val (A + j * lda + i) * m'.val (X + j * incX)), ← sum_upp hi' _ (fun j => m.val (A + j * lda + i) * m'.val (X + j * incX))]
        refine sum_congr rfl fun j hj => ?_
        simp only [Spec.op, Spec.tri]
        by_cases e1 : i = j
        · subst e1; simp only [if_true]; cases diag <;> rfl
        · simp only [e1, Ne.symm e1, if_false]
          split_ifs
          · rfl
          · ring
  | upper =>
    cases ta with
    | no =>
      simp only [pv]
      refine (trsv_loop diag (fun i => N - 1 - i) (fun i h => by omega) (fun i _ j _ h => by omega) (fun i j => A + i * lda + j)
        (fun i => if i = 0 then pure (0 : K) else vdot i (A + (N - 1 - i) * lda + (N - 1 - i) + 1) 1
          (X + (N - 1 - i) * incX + incX) incX) hi hX (fun h i hi => ⟨okA i hi i hi, hnz h i hi⟩)
        (fun i hi j hj s hs e => absurd e (hAX i hi j hj s hs)) ?_).mono ?_
      · intro i hi' m' h1 h2
        rif h0
        · subst h0; simp
        have ea : ∀ j, A + (N - 1 - i) * lda + (N - 1 - i) + 1 + j * 1 = A + (N - 1 - i) * lda + (N - i + j) := fun j => by
          rw [show N - i + j = (N - 1 - i) + 1 + j by omega]; ring
        have ex : ∀ j, X + (N - 1 - i) * incX + incX + j * incX = X + (N - i + j) * incX := fun j => by
          rw [show N - i + j = (N - 1 - i) + 1 + j by omega]; ring
        refine (vdot_spec (OkIn_vw_of fun j hj => ?_) (OkIn_vw_of fun j hj => ?_) (by omega)).mono ?_
        · rw [h1, ea]; exact okA _ (by omega) _ (by omega)
        · rw [h1, ex]; exact okX _ (by omega)
        · rintro d _ ⟨rfl, rfl⟩
          refine ⟨rfl, ?_⟩
          rw [← hrev]
          refine sum_congr rfl fun j hj => ?_
          have := mem_range.1 hj
          rw [ea, ex, show N - i + (i - 1 - j) = N - 1 - j by omega, h2 _ (hAX _ (by omega) _ (by omega))]
      · rintro _ m' ⟨h1, h2, h3, h4⟩
        refine ⟨h1, h2, fun i hi' => ?_, h4⟩
        have h := h3 (N - 1 - i) (by omega)
        rw [show N - 1 - (N - 1 - i) = i by omega] at h
        rw [← h, ← hb i hi' (fun j => m.val (A + i * lda + j) * m'.val (X + j * incX)), ← sum_upp hi' _ (fun j => m.val (A + i * lda + j) * m'.val (X + j * incX))]
        refine sum_congr rfl fun j hj => ?_
        simp only [Spec.op, Spec.tri]
        by_cases e1 : i = j
        · subst e1; simp only [if_true]; cases diag <;> rfl
        · simp only [e1, Ne.symm e1, if_false]
          split_ifs
          · rfl
          · ring
    | yes =>
      have pv' : ∀ i, A + i + i * lda = A + i * lda + i := fun i => by omega
      simp only [pv']
      refine (trsv_loop diag (fun i => i) (fun i h => h) (fun i _ j _ h => h) (fun i j => A + j * lda + i)
        (fun i => vdot i (A + i) lda X incX) hi hX (fun h i hi => ⟨okA i hi i hi, hnz h i hi⟩)
        (fun i hi j hj s hs e => absurd e (hAX j hj i hi s hs)) ?_).mono ?_
      · intro i hi' m' h1 h2
        have ea : ∀ j, A + i + j * lda = A + j * lda + i := fun j => by omega
        refine (vdot_spec (OkIn_vw_of fun j hj => ?_) (OkIn_vw_of fun j hj => ?_) (by omega)).mono ?_
        · rw [h1, ea]; exact okA j (by omega) i hi'
        · rw [h1]; exact okX j (by omega)
        · rintro d _ ⟨rfl, rfl⟩
          refine ⟨rfl, sum_congr rfl fun j hj => ?_⟩
          have := mem_range.1 hj
          rw [ea, h2 _ (hAX j (by omega) i hi')]
      · rintro _ m' ⟨h1, h2, h3, h4⟩
        refine ⟨h1, h2, fun i hi' => ?_, h4⟩
        rw [← h3 i hi', ← sum_low hi' _ (fun j => m.val (A + j * lda + i) * m'.val (X + j * incX))]
        refine sum_congr rfl fun j hj => ?_
        simp only [Spec.op, Spec.tri]
        by_cases e1 : i = j
        · subst e1; simp only [if_true]; cases diag <;> rfl
        · simp only [e1, Ne.symm e1, if_false]
          split_ifs
          · rfl
          · ring

end level2

section int64
variable [CommRing K] {m : Mem K}

/-! ### `fgemv` over the 64-bit integers -/

lemma int64_body {n Yi : ℕ} (alpha beta : K) (a x : ℕ → ℕ) (hY : m.ok Yi = true) (ha : ∀ j < n, m.ok (a j) = true ∧ a j ≠ Yi)
    (hx : ∀ j < n, m.ok (x j) = true ∧ x j ≠ Yi) :
    Run (do
      let y ← load Yi
      store Yi (y * (beta * y))
      loop n fun j => do
        let y ← load Yi
        let av ← load (a j)
        let xv ← load (x j)
        store Yi (y + alpha * av * xv)) m (fun _ m' => m' = m.set Yi (alpha * (∑ j ∈ range n, m.val (a j) * m.val (x j)) +
          beta * m.val Yi * m.val Yi)) := by
  simp only [Run_bind, Run_load, Run_store, hY, true_and]
  refine Run_loop (fun k m' => m' = m.set Yi (alpha * (∑ j ∈ range k, m.val (a j) * m.val (x j)) +
          beta * m.val Yi * m.val Yi)) ?_ ?_
  · congr 1; rw [range_zero, sum_empty]; ring
  · rintro k _ hk rfl
    simp only [Run_bind, Run_load, Run_store, Mem.set_ok, Mem.set_val, hY, (ha k hk).1, (hx k hk).1, true_and,
      Function.update_self, Function.update_of_ne (ha k hk).2, Function.update_of_ne (hx k hk).2, Mem.set_set]
    congr 1
    rw [sum_range_succ]; ring

/-- The 64-bit integer `fgemv` computes `alpha op(A) x + beta y²` (entrywise square). -/
lemma fgemvInt64_spec (ta : Tr) {M N A lda X incX Y incY Xd Yd : ℕ} (alpha beta : K)
    (hXd : Xd = if ta = .no then N else M) (hYd : Yd = if ta = .no then M else N)
    (hA : OkIn m ⟨A, lda, M, N⟩) (hX : OkIn m (vw X incX Xd)) (hY : OkIn m (vw Y incY Yd))
    (hiY : 0 < incY) (hdA : (Win.mk A lda M N).Disj (vw Y incY Yd)) (hdX : (vw X incX Xd).Disj (vw Y incY Yd)) :
    Run (fgemvInt64 ta M N alpha A lda X incX beta Y incY) m (fun _ m' => Step m m' (vw Y incY Yd) (fun i _ =>
      alpha * (∑ k ∈ range Xd, m.val (opAdr ta A lda i k) * m.val (X + k * incX)) +
        beta * m.val (Y + i * incY) * m.val (Y + i * incY))) := by
  unfold fgemvInt64
  have hYY : ∀ t < Yd, ∀ s < Yd, Y + t * incY = Y + s * incY → t = s := fun t ht s hs e =>
    (vw_Inj (X := Y) (n := Yd) hiY t ht 0 Nat.one_pos s hs 0 Nat.one_pos e).1
  have hXY : ∀ k < Xd, ∀ s < Yd, X + k * incX ≠ Y + s * incY := fun k hk s hs e =>
    hdX _ ⟨k, hk, 0, Nat.one_pos, rfl⟩ ⟨s, hs, 0, Nat.one_pos, e⟩
  cases ta with
  | no =>
    simp only [if_true] at hXd hYd ⊢
    subst hXd hYd
    have hAY : ∀ i < Yd, ∀ k < Xd, ∀ s < Yd, A + i * lda + k ≠ Y + s * incY := fun i hi k hk s hs e =>
      hdA _ ⟨i, hi, k, hk, rfl⟩ ⟨s, hs, 0, Nat.one_pos, e⟩
    refine Run_vec _ hY (vw_Inj hiY) ?_
    intro t ht m' h1 h2
    refine (int64_body alpha beta (fun j => A + t * lda + j) (fun j => X + j * incX) (by rw [h1]; exact OkIn_vw hY ht)
      (fun j hj => ⟨by rw [h1]; exact hA.adr (W := ⟨A, lda, Yd, Xd⟩) ht hj, hAY t ht j hj t ht⟩)
      (fun j hj => ⟨by rw [h1]; exact OkIn_vw hX hj, hXY j hj t ht⟩)).mono ?_
    rintro _ _ rfl
    rw [h2 (Y + t * incY) (fun s hs ne e => ne (hYY t ht s hs e).symm)]
    congr 3
    refine sum_congr rfl (fun k hk => ?_)
    have hk := mem_range.1 hk
    rw [h2 _ (fun s hs _ => hAY t ht k hk s hs), h2 _ (fun s hs _ => hXY k hk s hs)]
  | yes =>
    simp only [reduceCtorEq, if_false] at hXd hYd ⊢
    subst hXd hYd
    have sw : ∀ i k, A + i + k * lda = A + k * lda + i := fun i k => by omega
    have hAY : ∀ i < Yd, ∀ k < Xd, ∀ s < Yd, A + k * lda + i ≠ Y + s * incY := fun i hi k hk s hs e =>
      hdA _ ⟨k, hk, i, hi, rfl⟩ ⟨s, hs, 0, Nat.one_pos, e⟩
    refine Run_vec _ hY (vw_Inj hiY) ?_
    intro t ht m' h1 h2
    refine (int64_body alpha beta (fun j => A + t + j * lda) (fun j => X + j * incX) (by rw [h1]; exact OkIn_vw hY ht)
      (fun j hj => ⟨by rw [h1, sw]; exact hA.adr (W := ⟨A, lda, Xd, Yd⟩) hj ht, by rw [sw]; exact hAY t ht j hj t ht⟩)
      (fun j hj => ⟨by rw [h1]; exact OkIn_vw hX hj, hXY j hj t ht⟩)).mono ?_
    rintro _ _ rfl
    rw [h2 (Y + t * incY) (fun s hs ne e => ne (hYY t ht s hs e).symm)]
    congr 3
    refine sum_congr rfl (fun k hk => ?_)
    have hk := mem_range.1 hk
    rw [sw, h2 _ (fun s hs _ => hAY t ht k hk s hs), h2 _ (fun s hs _ => hXY k hk s hs)]

end int64

end FF
end Verif
