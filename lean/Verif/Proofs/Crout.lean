import Verif.Proofs.PluqArr
import Verif.Proofs.PluqMath
import Verif.Proofs.Level2

/-!
# Base case of the PLUQ decomposition
-/

namespace Verif.FF

open Finset Verif.Perm Verif.Spec.Perm Verif.Pluq

variable {K : Type} [Field K] [DecidableEq K]
variable {m0 m : Mem K} {W : Win} {V : ℕ → ℕ → K}

/-- the row update of a Crout step -/
lemma gemvRow_on (cat : Cat) (h : On m0 m W V) {row ρ : ℕ} (hr : ρ ≤ row) (hM : row < W.r) (hN : ρ ≤ W.c) :
    Run (fgemv cat .yes ρ (W.c - ρ) (-1) (W.adr 0 ρ) W.ld (W.adr row 0) 1 1 (W.adr row ρ) 1) m (fun _ m' => On m0 m' W
      (upd row ρ 1 (W.c - ρ) (fun _ t => V row (ρ + t) - ∑ k ∈ range ρ, V row k * V k (ρ + t)) V)) := by
  rcases Nat.eq_zero_or_pos ρ with rfl | hρ
  · unfold fgemv
    rif h0
    · rw [Run_pure]
      refine h.congr (fun i hi j hj => ?_)
      by_cases e : i = row
      · rw [upd_in' (by omega), range_zero, sum_empty, sub_zero, e]; congr 1; omega
      · rw [upd_out (by omega)]
    · exact absurd rfl h0
  have hld := h.ld
  have key := fgemv_spec cat .yes (m := m) (M := ρ) (N := W.c - ρ) (A := W.adr 0 ρ) (lda := W.ld) (X := W.adr row 0) (incX := 1)
    (Y := W.adr row ρ) (incY := 1) (Xd := ρ) (Yd := W.c - ρ) (-1) 1 rfl rfl (Or.inl (by omega)) h.wf'
    (h.ok'.of_sub (i := 0) (j := ρ) (r' := ρ) (c' := W.c - ρ) (by omega) (by omega)) (by omega) (h.vw_row hM (by omega)) (h.vw_row hM (by omega))
    Nat.one_pos ?_ ?_
  · refine key.mono (fun _ m' s => h.rowStep hM (by omega) (s.congr (fun t ht _ _ => ?_)))
    have ht : t < W.c - ρ := ht
    simp only [Nat.mul_one, Win.adr_add_col, Nat.zero_add]
    rw [h.val hM (by omega), show ∑ k ∈ range ρ, m.val (opAdr .yes (W.adr 0 ρ) W.ld t k) * m.val (W.adr row k) = ∑ k ∈ range ρ, V row k * V k (ρ + t)
      from sum_congr rfl (fun k hk => ?_)]
    · ring
    · have hk := mem_range.1 hk
      have e : opAdr .yes (W.adr 0 ρ) W.ld t k = W.adr k (ρ + t) := by simp only [opAdr, Win.adr]; ring
      rw [e, h.val (by omega) (by omega), h.val hM (by omega), mul_comm]
  · intro x hx hy
    obtain ⟨i, hi, j, hj, rfl⟩ := hx
    obtain ⟨t, ht, e⟩ := vw_row_Has.1 hy
    have hi : i < ρ := hi
    have hj : j < W.c - ρ := hj
    change (W.sub 0 ρ ρ (W.c - ρ)).adr i j = _ at e
    rw [Win.sub_adr] at e
    have := h.inj _ (by omega) _ (by omega) _ hM _ (by omega) e
    omega
  · intro x hx hy
    obtain ⟨i, hi, rfl⟩ := vw_row_Has.1 hx
    obtain ⟨t, ht, e⟩ := vw_row_Has.1 hy
    have := h.inj _ hM _ (by omega) _ hM _ (by omega) e
    omega

/-- the column update of a Crout step -/
lemma gemvCol_on (cat : Cat) (h : On m0 m W V) {row ρ c : ℕ} (hr : ρ ≤ row) (hM : row < W.r) (hc : ρ ≤ c) (hN : c < W.c) :
    Run (fgemv cat .no (W.r - row - 1) ρ (-1) (W.adr (row + 1) 0) W.ld (W.adr 0 c) W.ld 1 (W.adr (row + 1) c) W.ld) m (fun _ m' => On m0 m' W
      (upd (row + 1) c (W.r - row - 1) 1 (fun t _ => V (row + 1 + t) c - ∑ k ∈ range ρ, V (row + 1 + t) k * V k c) V)) := by
  have hld := h.ld
  have key := fgemv_spec cat .no (m := m) (M := W.r - row - 1) (N := ρ) (A := W.adr (row + 1) 0) (lda := W.ld) (X := W.adr 0 c) (incX := W.ld)
    (Y := W.adr (row + 1) c) (incY := W.ld) (Xd := ρ) (Yd := W.r - row - 1) (-1) 1 rfl rfl (Or.inr rfl) h.wf'
    (h.ok'.of_sub (i := row + 1) (j := 0) (r' := W.r - row - 1) (c' := ρ) (by omega) (by omega)) (by omega) (h.vw_col (by omega) hN)
    (h.vw_col (by omega) hN) (by omega) ?_ ?_
  · refine key.mono (fun _ m' s => h.colStep (by omega) hN (s.congr (fun t ht _ _ => ?_)))
    have ht : t < W.r - row - 1 := ht
    simp only [Win.adr_add_row, Nat.zero_add]
    rw [h.val (by omega) hN, show ∑ k ∈ range ρ, m.val (opAdr .no (W.adr (row + 1) 0) W.ld t k) * m.val (W.adr k c) =
      ∑ k ∈ range ρ, V (row + 1 + t) k * V k c from sum_congr rfl (fun k hk => ?_)]
    · ring
    · have hk := mem_range.1 hk
      have e : opAdr .no (W.adr (row + 1) 0) W.ld t k = W.adr (row + 1 + t) k := by simp only [opAdr, Win.adr]; ring
      rw [e, h.val (by omega) (by omega), h.val (by omega) hN]
  · intro x hx hy
    obtain ⟨i, hi, j, hj, rfl⟩ := hx
    obtain ⟨t, ht, e⟩ := vw_col_Has.1 hy
    have hi : i < W.r - row - 1 := hi
    have hj : j < ρ := hj
    change (W.sub (row + 1) 0 (W.r - row - 1) ρ).adr i j = _ at e
    rw [Win.sub_adr] at e
    have := h.inj _ (by omega) _ (by omega) _ (by omega) _ (by omega) e
    omega
  · intro x hx hy
    obtain ⟨i, hi, rfl⟩ := vw_col_Has.1 hx
    obtain ⟨t, ht, e⟩ := vw_col_Has.1 hy
    have := h.inj _ (by omega) _ (by omega) _ (by omega) _ (by omega) e
    omega

/-- the search for a pivot -/
lemma findPiv_spec (h : On m0 m W V) {row : ℕ} (hM : row < W.r) : ∀ (f i : ℕ), i < W.c → W.c - i ≤ f →
    Run (findPiv (W.adr row 0) W.c f i) m (fun c m' => m' = m ∧ i ≤ c ∧ c < W.c ∧ (∀ j, i ≤ j → j < c → V row j = 0) ∧
      (V row c ≠ 0 ∨ c + 1 = W.c)) := by
  intro f
  induction f with
  | zero => intro i h1 h2; omega
  | succ f ih =>
    intro i h1 h2
    simp only [findPiv, Run_bind, Run_load, Win.adr_add_col, Nat.zero_add]
    refine ⟨h.okc hM h1, ?_⟩
    rw [h.val hM h1]
    rif h0
    · refine (ih (i + 1) h0.2 (by omega)).mono ?_
      rintro c m' ⟨e1, e2, e3, e4, e5⟩
      refine ⟨e1, by omega, e3, fun j hj hc => ?_, e5⟩
      by_cases e : j = i
      · rw [e]; exact h0.1
      · exact e4 j (by omega) hc
    · rw [Run_pure]
      refine ⟨rfl, le_rfl, h1, fun j _ _ => by omega, ?_⟩
      by_cases e : V row i = 0
      · exact Or.inr (by have := not_and.1 h0 e; omega)
      · exact Or.inl e

/-- scaling a row segment -/
lemma scalRow_on (cat : Cat) (h : On m0 m W V) {row c n : ℕ} (a : K) (hM : row < W.r) (hN : c + n ≤ W.c) :
    Run (vscalin cat n a (W.adr row c) 1) m (fun _ m' => On m0 m' W (upd row c 1 n (fun _ t => a * V row (c + t)) V)) := by
  refine (vscalin_spec cat a h.wf' (h.vw_row hM hN) Nat.one_pos).mono (fun _ m' s => h.rowStep hM hN (s.congr (fun t ht _ _ => ?_)))
  have ht : t < n := ht
  rw [Nat.mul_one, Win.adr_add_col, h.val hM (by omega)]

/-- scaling a column segment -/
lemma scalCol_on (cat : Cat) (h : On m0 m W V) {row c n : ℕ} (a : K) (hM : row + n ≤ W.r) (hN : c < W.c) :
    Run (vscalin cat n a (W.adr row c) W.ld) m (fun _ m' => On m0 m' W (upd row c n 1 (fun t _ => a * V (row + t) c) V)) := by
  have hld := h.ld
  refine (vscalin_spec cat a h.wf' (h.vw_col hM hN) (by omega)).mono (fun _ m' s => h.colStep hM hN (s.congr (fun t ht _ _ => ?_)))
  have ht : t < n := ht
  rw [Win.adr_add_row, h.val (by omega) hN]

lemma zeroRow_on (h : On m0 m W V) {row c n : ℕ} (hM : row < W.r) (hN : c + n ≤ W.c) :
    Run (vzero n (W.adr row c) 1) m (fun _ m' => On m0 m' W (upd row c 1 n (fun _ _ => 0) V)) :=
  (vzero_spec (h.vw_row hM hN) Nat.one_pos).mono (fun _ _ s => h.rowStep hM hN s)

lemma zeroCol_on (h : On m0 m W V) {row c n : ℕ} (hM : row + n ≤ W.r) (hN : c < W.c) :
    Run (vzero n (W.adr row c) W.ld) m (fun _ m' => On m0 m' W (upd row c n 1 (fun _ _ => 0) V)) :=
  (vzero_spec (h.vw_col hM hN) (by have := h.ld; omega)).mono (fun _ _ s => h.colStep hM hN s)

lemma rot_rotR {a b i : ℕ} (h : a ≤ b) (h1 : a ≤ i) (h2 : i ≤ b) : a + rot (b - a + 1) (i - a) = rotR a b i := by
  unfold rot rotR
  split_ifs <;> omega

lemma shiftArr_spec {P : Arr ℕ} {ρ c : ℕ} (hc : ρ ≤ c) (hl : c < P.len) :
    Ok (onSub P ρ (fun B => cyclic_shift_mathPerm copyMove B (c - ρ + 1))) (fun B => B.len = P.len ∧
      ∀ i, B.get i = P.get (rotR ρ c i)) := by
  refine (onSub_spec (A := P) (off := ρ) (by omega) (cyclic_shift_mathPerm_spec _ (c - ρ + 1) (by omega) (by simp only []; omega))).mono ?_
  rintro B ⟨C, ⟨_, e⟩, l, e'⟩
  refine ⟨l, fun i => ?_⟩
  have e : ∀ i, C.get i = if i = 0 then P.get (ρ + (c - ρ + 1 - 1)) else if i < c - ρ + 1 then P.get (ρ + (i - 1)) else P.get (ρ + i) := e
  rw [e', e]
  unfold rotR
  by_cases c1 : i < ρ
  · rw [if_pos c1, if_pos (by omega)]
  · rw [if_neg c1]
    by_cases c2 : i = ρ
    · rw [if_pos (by omega), if_neg (by omega), if_pos c2]
      congr 1; omega
    · rw [if_neg (by omega)]
      by_cases c3 : i ≤ c
      · rw [if_pos (by omega), if_neg (by omega), if_neg c2]; congr 1; omega
      · rw [if_neg (by omega), if_pos (by omega)]; congr 1; omega

lemma croutCols_spec (h : On m0 m W V) {row c : ℕ} {s : CroutSt} (hr : s.rank ≤ row) (hM : row < W.r) (hc : s.rank ≤ c) (hN : c < W.c)
    (hQ : s.MathQ.len = W.c) :
    Run (croutCols W.r W.p W.ld row c s) m (fun s' m' => ∃ V', On m0 m' W V' ∧ s'.rank = s.rank ∧ s'.MathP = s.MathP ∧
      s'.MathQ.len = W.c ∧ (∀ j, s'.MathQ.get j = s.MathQ.get (rotR s.rank c j)) ∧
      (∀ k < s.rank, ∀ j < W.c, V' k j = V k (rotR s.rank c j)) ∧
      (∀ i, row < i → i < W.r → ∀ j < W.c, V' i j = V i (rotR s.rank c j)) ∧
      (∀ i, s.rank ≤ i → i ≤ row → ∀ j < s.rank, V' i j = V i j) ∧
      (s.rank < row → ∀ j, s.rank ≤ j → j < W.c → V' row j = V row j) ∧
      (s.rank < c ∨ row = s.rank → V' s.rank s.rank = V row c) ∧
      (∀ j, s.rank < j → j ≤ c → V' s.rank j = 0) ∧
      (row = s.rank → ∀ j, c < j → j < W.c → V' s.rank j = V s.rank j)) := by
  obtain ⟨ρ, MP, MQ⟩ := s
  simp only [] at hr hc hQ ⊢
  unfold croutCols
  simp only []
  rif hlt
  · have a1 : W.p + ρ = W.adr 0 ρ := by simp only [Win.adr]; ring
    have a2 : W.p + row * W.ld + W.ld + ρ = W.adr (row + 1) ρ := by simp only [Win.adr]; ring
    have a3 : W.p + row * W.ld + c = W.adr row c := by simp only [Win.adr]
    have a4 : W.p + ρ * (W.ld + 1) = W.adr ρ ρ := by simp only [Win.adr]; ring
    simp only [Run_bind, a1, a2, a3, a4]
    refine (cyclicShiftCol_on h (by omega) (by omega)).mono (fun _ m1 h1 => ?_)
    rw [Run_liftE]
    refine (shiftArr_spec hc (by omega)).mono (fun Q' hQ' => ?_)
    refine (cyclicShiftCol_on h1 (by omega) (by omega)).mono (fun _ m2 h2 => ?_)
    simp only [Run_load, Run_store]
    refine ⟨h2.okc hM hN, h2.okc (by omega) (by omega), ?_⟩
    rw [h2.val hM hN]
    have h3 := h2.set (x := permCols (row + 1) ρ (W.r - row - 1) (c - ρ + 1) (rot (c - ρ + 1)) (permCols 0 ρ ρ (c - ρ + 1) (rot (c - ρ + 1)) V) row c)
      (i := ρ) (j := ρ) (by omega) (by omega)
    rw [Win.adr_add_col]
    refine (zeroRow_on h3 (by omega) (by omega)).mono (fun _ m4 h4 => ?_)
    rw [Run_pure]
    have B : ∀ i j, (ρ ≤ i ∧ i ≤ row) ∨ j < ρ ∨ c < j → permCols (row + 1) ρ (W.r - row - 1) (c - ρ + 1) (rot (c - ρ + 1))
        (permCols 0 ρ ρ (c - ρ + 1) (rot (c - ρ + 1)) V) i j = V i j := by
      intro i j hij
      simp only [permCols]
      rw [upd_out (by omega), upd_out (by omega)]
    have T : ∀ k < ρ, ∀ j < W.c, permCols (row + 1) ρ (W.r - row - 1) (c - ρ + 1) (rot (c - ρ + 1))
        (permCols 0 ρ ρ (c - ρ + 1) (rot (c - ρ + 1)) V) k j = V k (rotR ρ c j) := by
      intro k hk j hj
      by_cases e : j < ρ ∨ c < j
      · rw [B k j (by omega), rotR, if_pos e]
      · simp only [permCols]
        rw [upd_out (by omega), upd_in' (by omega), rot_rotR (by omega) (by omega) (by omega)]
        congr 1; omega
    have D : ∀ i, row < i → i < W.r → ∀ j < W.c, permCols (row + 1) ρ (W.r - row - 1) (c - ρ + 1) (rot (c - ρ + 1))
        (permCols 0 ρ ρ (c - ρ + 1) (rot (c - ρ + 1)) V) i j = V i (rotR ρ c j) := by
      intro i hi hi' j hj
      by_cases e : j < ρ ∨ c < j
      · rw [B i j (by omega), rotR, if_pos e]
      · simp only [permCols]
        rw [upd_in' (by omega), upd_out (by omega), rot_rotR (by omega) (by omega) (by omega)]
        congr 1; omega
    generalize permCols (row + 1) ρ (W.r - row - 1) (c - ρ + 1) (rot (c - ρ + 1)) (permCols 0 ρ ρ (c - ρ + 1) (rot (c - ρ + 1)) V) = V2 at *
    refine ⟨_, h4, rfl, rfl, hQ'.1.trans hQ, hQ'.2, ?_, ?_, ?_, ?_, ?_, ?_, ?_⟩
    · intro k hk j hj
      rw [upd_out (by omega), upd_out (by omega)]; exact T k hk j hj
    · intro i hi hi' j hj
      rw [upd_out (by omega), upd_out (by omega)]; exact D i hi hi' j hj
    · intro i hi hi' j hj
      rw [upd_out (by omega), upd_out (by omega)]; exact B i j (by omega)
    · intro hh j hj hj'
      rw [upd_out (by omega), upd_out (by omega)]; exact B row j (by omega)
    · intro _
      rw [upd_out (by omega), upd_in' (by omega)]; exact B row c (by omega)
    · intro j hj hj'
      rw [upd_in' (by omega)]
    · intro e j hj hj'
      rw [upd_out (by omega), upd_out (by omega)]; exact B ρ j (by omega)
  · obtain rfl : c = ρ := by omega
    rw [Run_pure]
    have R : ∀ j, rotR c c j = j := by intro j; unfold rotR; split_ifs <;> omega
    simp only [R]
    exact ⟨V, h, trivial, trivial, hQ, fun _ => trivial, fun _ _ _ _ => rfl, fun _ _ _ _ _ => rfl, fun _ _ _ _ _ => rfl, fun _ _ _ _ => rfl,
      fun h => by rcases h with h | h; omega; rw [h], fun j h1 h2 => by omega, fun _ _ _ _ => rfl⟩

/-- contract of the shift of rows -/
def ShiftOk (sh : ℕ → ℕ → ℕ → ℕ → Prog K Unit) : Prop := ∀ {m0 m : Mem K} {W : Win} {V : ℕ → ℕ → K} {i0 j0 r c : ℕ}, On m0 m W V → i0 + r ≤ W.r → j0 + c ≤ W.c →
  Run (sh (W.adr i0 j0) r c W.ld) m (fun _ m' => On m0 m' W (permRows i0 j0 r c (rot r) V))

lemma croutRows_spec {sh : ℕ → ℕ → ℕ → ℕ → Prog K Unit} (hsh : ShiftOk sh) (h : On m0 m W V) {row c : ℕ} {s : CroutSt} (hr : s.rank ≤ row) (hM : row < W.r) (hc : s.rank ≤ c) (hN : c < W.c)
    (hP : s.MathP.len = W.r) :
    Run (croutRows sh W.c W.p W.ld row c s) m (fun s' m' => ∃ V', On m0 m' W V' ∧ s'.rank = s.rank ∧ s'.MathQ = s.MathQ ∧
      s'.MathP.len = W.r ∧ (∀ i, s'.MathP.get i = s.MathP.get (rotR s.rank row i)) ∧
      (∀ i, i < s.rank ∨ row < i → ∀ j < W.c, V' i j = V i j) ∧
      (∀ i, s.rank ≤ i → i ≤ row → ∀ j < s.rank, V' i j = V (rotR s.rank row i) j) ∧
      (∀ i, s.rank < i → i ≤ row → V' i s.rank = 0) ∧
      (V' s.rank s.rank = if s.rank < row then V row c else V s.rank s.rank) ∧
      (∀ j, s.rank < j → j ≤ c → V' s.rank j = V s.rank j) ∧
      (∀ j, c < j → j < W.c → V' s.rank j = V row j)) := by
  obtain ⟨ρ, MP, MQ⟩ := s
  simp only [] at hr hc hP ⊢
  unfold croutRows
  simp only []
  rif hlt
  · have a1 : W.p + ρ * W.ld = W.adr ρ 0 := by simp only [Win.adr]; ring
    have a2 : W.p + row * W.ld + c + 1 = W.adr row (c + 1) := by simp only [Win.adr]; ring
    have a3 : W.p + ρ * W.ld + c + 1 = W.adr ρ (c + 1) := by simp only [Win.adr]; ring
    have a4 : W.p + row * W.ld + c = W.adr row c := by simp only [Win.adr]
    have a5 : W.adr ρ ρ + W.ld = W.adr (ρ + 1) ρ := by simp only [Win.adr]; ring
    have a6 : W.p + ρ * (W.ld + 1) = W.adr ρ ρ := by simp only [Win.adr]; ring
    simp only [Run_bind, a2, a3, a4, a5, a6]
    rw [a1]
    refine (hsh h (by omega) (by omega)).mono (fun _ m1 h1 => ?_)
    rw [Run_liftE]
    refine (shiftArr_spec hr (by omega)).mono (fun P' hP' => ?_)
    refine (moveRow_on h1 (i := ρ) (j := c + 1) (i' := row) (j' := c + 1) (n := W.c - c - 1) (by omega) (by omega) hM (by omega) (Or.inl (by omega))).mono
      (fun _ m2 h2 => ?_)
    simp only [Run_load, Run_store]
    refine ⟨h2.okc hM hN, h2.okc (by omega) (by omega), ?_⟩
    rw [h2.val hM hN]
    have h3 := h2.set (x := upd ρ (c + 1) 1 (W.c - c - 1) (fun _ t => permRows ρ 0 (row - ρ + 1) ρ (rot (row - ρ + 1)) V row (c + 1 + t))
      (permRows ρ 0 (row - ρ + 1) ρ (rot (row - ρ + 1)) V) row c) (i := ρ) (j := ρ) (by omega) (by omega)
    refine (zeroCol_on h3 (row := ρ + 1) (c := ρ) (n := row - ρ) (by omega) (by omega)).mono (fun _ m4 h4 => ?_)
    simp only [Run_pure]
    refine ⟨h4.okc hM hN, ?_⟩
    have h5 := h4.set (x := (0 : K)) (i := row) (j := c) hM hN
    have B : ∀ i j, i < ρ ∨ row < i ∨ ρ ≤ j → permRows ρ 0 (row - ρ + 1) ρ (rot (row - ρ + 1)) V i j = V i j := by
      intro i j hij
      simp only [permRows]
      rw [upd_out (by omega)]
    have D : ∀ i j, ρ ≤ i → i ≤ row → j < ρ → permRows ρ 0 (row - ρ + 1) ρ (rot (row - ρ + 1)) V i j = V (rotR ρ row i) j := by
      intro i j h1 h2 h3
      simp only [permRows]
      rw [upd_in' (by omega), rot_rotR (by omega) (by omega) (by omega)]
      congr 1; omega
    generalize permRows ρ 0 (row - ρ + 1) ρ (rot (row - ρ + 1)) V = V1 at *
    refine ⟨_, h5, trivial, trivial, hP'.1.trans hP, hP'.2, ?_, ?_, ?_, ?_, ?_, ?_⟩
    · intro i hi j hj
      rw [upd_out (by omega), upd_out (by omega), upd_out (by omega), upd_out (by omega)]; exact B i j (by omega)
    · intro i hi hi' j hj
      rw [upd_out (by omega), upd_out (by omega), upd_out (by omega), upd_out (by omega)]; exact D i j hi hi' hj
    · intro i hi hi'
      by_cases e : i = row ∧ ρ = c
      · rw [upd_in' (by omega)]
      · rw [upd_out (by omega), upd_in' (by omega)]
    · rw [upd_out (by omega), upd_out (by omega), upd_in' (by omega), upd_out (by omega), if_pos hlt]; exact B row c (by omega)
    · intro j hj hj'
      rw [upd_out (by omega), upd_out (by omega), upd_out (by omega), upd_out (by omega)]; exact B ρ j (by omega)
    · intro j hj hj'
      rw [upd_out (by omega), upd_out (by omega), upd_out (by omega), upd_in' (by omega), B row _ (by omega)]
      congr 1; omega
  · obtain rfl : row = ρ := by omega
    rw [Run_pure]
    have R : ∀ j, rotR row row j = j := by intro j; unfold rotR; split_ifs <;> omega
    simp only [R]
    exact ⟨V, h, trivial, trivial, hP, fun _ => trivial, fun _ _ _ _ => rfl, fun _ _ _ _ _ => rfl, fun i h1 h2 => by omega, by rw [if_neg (by omega)],
      fun _ _ _ => rfl, fun _ _ _ => rfl⟩

/-- the invariant of the loop -/
def CroutInv (d : Diag) (m0 : Mem K) (W : Win) (X : ℕ → ℕ → K) (row : ℕ) (s : CroutSt) (m : Mem K) : Prop :=
  s.MathP.len = W.r ∧ s.MathQ.len = W.c ∧ ∃ V, On m0 m W V ∧ Crout d W.r W.c X V s.MathP.get s.MathQ.get row s.rank

lemma croutStep_spec {sh : ℕ → ℕ → ℕ → ℕ → Prog K Unit} (hsh : ShiftOk sh) (cat : Cat) {d : Diag} {X : ℕ → ℕ → K} {row : ℕ} {s : CroutSt} (hM : row < W.r) (hI : CroutInv d m0 W X row s m) :
    Run (croutStep sh cat d W.r W.c W.p W.ld row s) m (CroutInv d m0 W X (row + 1)) := by
  obtain ⟨hP, hQ, V, h, hC⟩ := hI
  have hr := hC.rr
  unfold croutStep
  rif hlt
  · have a1 : W.p + row * W.ld = W.adr row 0 := by simp only [Win.adr]; ring
    have a2 : W.p + s.rank = W.adr 0 s.rank := by simp only [Win.adr]; ring
    have a3 : W.adr row 0 + W.ld = W.adr (row + 1) 0 := by simp only [Win.adr]; ring
    have a4 : ∀ i, W.p + i = W.adr 0 i := by intro i; simp only [Win.adr]; ring
    have a5 : ∀ i, W.adr row (i + W.ld) = W.adr (row + 1) i := by intro i; simp only [Win.adr]; ring
    simp only [Run_bind, a1, a2, a3]
    simp only [Win.adr_add_col, Nat.zero_add]
    refine (gemvRow_on cat h hr hM (by omega)).mono (fun _ m1 h1 => ?_)
    have v1 : ∀ i < W.r, ∀ j < W.c, i ≠ row ∨ j < s.rank → upd row s.rank 1 (W.c - s.rank)
        (fun _ t => V row (s.rank + t) - ∑ k ∈ range s.rank, V row k * V k (s.rank + t)) V i j = V i j :=
      fun i _ j _ hij => upd_out (by omega)
    have v1' : ∀ j, s.rank ≤ j → j < W.c → upd row s.rank 1 (W.c - s.rank)
        (fun _ t => V row (s.rank + t) - ∑ k ∈ range s.rank, V row k * V k (s.rank + t)) V row j =
        X row (s.MathQ.get j) - ∑ k ∈ range s.rank, V row k * V k j := by
      intro j hj hj'
      rw [upd_in' (by omega), Nat.add_sub_cancel' hj, hC.rest row le_rfl hM j hj hj']
    generalize upd row s.rank 1 (W.c - s.rank) _ V = V1 at *
    refine (findPiv_spec h1 hM (W.c - s.rank) s.rank hlt le_rfl).mono ?_
    rintro c m1' ⟨rfl, hc, hcN, hz, hnz⟩
    rw [Run_load]
    refine ⟨h1.okc hM hcN, ?_⟩
    rw [h1.val hM hcN]
    rif hp
    · simp only [Run_bind]
      rw [a4]
      refine (gemvCol_on cat h1 hr hM hc hcN).mono (fun _ m2 h2 => ?_)
      have v2 : ∀ i < W.r, ∀ j < W.c, i ≤ row ∨ j ≠ c → upd (row + 1) c (W.r - row - 1) 1
          (fun t _ => V1 (row + 1 + t) c - ∑ k ∈ range s.rank, V1 (row + 1 + t) k * V1 k c) V1 i j = V1 i j :=
        fun i _ j _ hij => upd_out (by omega)
      have v2' : ∀ i, row < i → i < W.r → upd (row + 1) c (W.r - row - 1) 1
          (fun t _ => V1 (row + 1 + t) c - ∑ k ∈ range s.rank, V1 (row + 1 + t) k * V1 k c) V1 i c =
          X i (s.MathQ.get c) - ∑ k ∈ range s.rank, V i k * V k c := by
        intro i hi hi'
        rw [upd_in' (by omega), show row + 1 + (i - (row + 1)) = i by omega, v1 i hi' c hcN (Or.inl (by omega)), hC.rest i hi.le hi' c hc hcN]
        congr 1
        refine sum_congr rfl (fun k hk => ?_)
        have hk := mem_range.1 hk
        rw [v1 i hi' k (by omega) (Or.inl (by omega)), v1 k (by omega) c hcN (Or.inl (by omega))]
      generalize upd (row + 1) c (W.r - row - 1) 1 _ V1 = V2 at *
      simp only [Run_load]
      refine ⟨h2.okc hM hcN, ?_⟩
      rw [h2.val hM hcN, v2 row hM c hcN (Or.inl le_rfl), Run_liftE, Ok_invE]
      refine ⟨hp, ?_⟩
      -- scaling
      have L3 : Run (match d with
          | .unit => vscalin cat (W.c - c - 1) (V1 row c)⁻¹ (W.adr row (c + 1)) 1
          | .nonUnit => vscalin cat (W.r - row - 1) (V1 row c)⁻¹ (W.adr row (c + W.ld)) W.ld) m2 (fun _ m' => ∃ V3, On m0 m' W V3 ∧
          (∀ i < W.r, ∀ j < W.c, i < row ∨ (i = row ∧ j ≤ c) ∨ (row < i ∧ j ≠ c) → V3 i j = V2 i j) ∧
          (∀ j, c < j → j < W.c → V3 row j = dsel d ((V1 row c)⁻¹ * V2 row j) (V2 row j)) ∧
          (∀ i, row < i → i < W.r → V3 i c = dsel d (V2 i c) ((V1 row c)⁻¹ * V2 i c))) := by
        cases d with
        | unit =>
          refine (scalRow_on cat h2 _ hM (by omega)).mono (fun _ m3 h3 => ⟨_, h3, ?_, ?_, ?_⟩)
          · intro i hi j hj hij; rw [upd_out (by omega)]
          · intro j hj hj'; rw [upd_in' (by omega), dsel, show c + 1 + (j - (c + 1)) = j by omega]
          · intro i hi hi'; rw [upd_out (by omega), dsel]
        | nonUnit =>
          simp only [a5]
          refine (scalCol_on cat h2 _ (by omega) hcN).mono (fun _ m3 h3 => ⟨_, h3, ?_, ?_, ?_⟩)
          · intro i hi j hj hij; rw [upd_out (by omega)]
          · intro j hj hj'; rw [upd_out (by omega), dsel]
          · intro i hi hi'; rw [upd_in' (by omega), dsel, show row + 1 + (i - (row + 1)) = i by omega]
      refine L3.mono ?_
      rintro _ m3 ⟨V3, h3, v3, v3r, v3c⟩
      refine (croutCols_spec h3 hr hM hc hcN hQ).mono ?_
      rintro s1 m4 ⟨V4, h4, q1, q2, q3, q4, ca, cb, cc, cd, ce, cf, cg⟩
      refine (croutRows_spec hsh h4 (row := row) (c := c) (s := s1) (by omega) hM (by omega) hcN (by rw [q2]; exact hP)).mono ?_
      rintro s2 m5 ⟨V5, h5, r1, r2, r3, r4, da, db, dc, dd, de, df⟩
      rw [q1] at r1 da db dc dd de df
      rw [Run_pure]
      have hC' := hC.pivot (V' := V5) hM hc hcN (y := fun j => V1 row j) (z := fun i => V2 i c) v1' v2'
        (fun j h1 h2 => hz j h1 h2) hp ?_ ?_ ?_ ?_ ?_ ?_ ?_ ?_ ?_ ?_
      · refine ⟨r3, by rw [r2]; exact q3, V5, h5, ?_⟩
        simp only [r1]
        have e1 : s2.MathP.get = fun i => s.MathP.get (rotR s.rank row i) := by funext i; rw [r4, q2, q1]
        have e2 : s2.MathQ.get = fun i => s.MathQ.get (rotR s.rank c i) := by funext i; rw [r2, q4]
        rw [e1, e2]
        exact hC'
      · intro k hk j hj
        have hj' : rotR s.rank c j < W.c := by unfold rotR; split_ifs <;> omega
        rw [da k (Or.inl hk) j hj, ca k hk j hj, v3 k (by omega) _ hj' (Or.inl (by omega)), v2 k (by omega) _ hj' (Or.inl (by omega)),
          v1 k (by omega) _ hj' (Or.inl (by omega))]
      · intro j hj
        rw [db s.rank le_rfl hr j hj, show rotR s.rank row s.rank = row by unfold rotR; split_ifs <;> omega, cc row hr le_rfl j hj,
          v3 row hM j (by omega) (by omega), v2 row hM j (by omega) (by omega), v1 row hM j (by omega) (Or.inr hj)]
      · rw [dd]
        split_ifs with e
        · rw [cd e c hc hcN, v3 row hM c hcN (by omega), v2 row hM c hcN (by omega)]
        · rw [ce (Or.inr (by omega)), v3 row hM c hcN (by omega), v2 row hM c hcN (by omega)]
      · intro j hj hj'
        rw [de j hj hj', cf j hj hj']
      · intro j hj hj'
        rw [df j hj hj']
        have : V4 row j = V3 row j := by
          rcases hr.lt_or_eq with e | e
          · exact cd e j (by omega) hj'
          · rw [← e]; exact cg e.symm j hj hj'
        rw [this, v3r j hj hj', v2 row hM j hj' (by omega)]
      · intro i hi hi' j hj
        rw [db i hi.le hi' j hj, show rotR s.rank row i = i - 1 by unfold rotR; split_ifs <;> omega, cc (i - 1) (by omega) (by omega) j hj,
          v3 _ (by omega) j (by omega) (by omega), v2 _ (by omega) j (by omega) (by omega), v1 _ (by omega) j (by omega) (Or.inr hj)]
      · exact dc
      · intro i hi hi' j hj
        rw [da i (Or.inr hi) j (by omega), cb i hi hi' j (by omega), show rotR s.rank c j = j by unfold rotR; split_ifs <;> omega,
          v3 i hi' j (by omega) (by omega), v2 i hi' j (by omega) (by omega), v1 i hi' j (by omega) (Or.inr hj)]
      · intro i hi hi'
        rw [da i (Or.inr hi) _ hlt, cb i hi hi' _ hlt, show rotR s.rank c s.rank = c by unfold rotR; split_ifs <;> omega, v3c i hi hi']
      · intro i hi hi' j hj hj'
        have hr' : rotR s.rank c j < W.c ∧ rotR s.rank c j ≠ c := by unfold rotR; split_ifs <;> omega
        rw [da i (Or.inr hi) _ hj', cb i hi hi' _ hj', v3 i hi' _ hr'.1 (by omega), v2 i hi' _ hr'.1 (by omega),
          v1 i hi' _ hr'.1 (Or.inl (by omega))]
    · rw [Run_pure]
      refine ⟨hP, hQ, V1, h1, hC.skip hM (fun j hj hj' => ?_) v1⟩
      rw [← v1' j hj hj']
      by_cases e : j < c
      · exact hz j hj e
      · obtain rfl : j = c := by
          rcases hnz with hh | hh
          · exact absurd hh hp
          · omega
        exact not_not.1 hp
  · rw [Run_pure]
    exact ⟨hP, hQ, V, h, hC.full hM (by have := hC.rN; omega)⟩

/-- what a decomposition routine establishes on a window with contents `X` -/
def PluqPost (d : Diag) (m0 : Mem K) (W : Win) (X : ℕ → ℕ → K) (x : ℕ × Arr ℕ × Arr ℕ) (m : Mem K) : Prop :=
  x.2.1.len = W.r ∧ x.2.2.len = W.c ∧ IsTranspArray x.2.1.get W.r ∧ IsTranspArray x.2.2.get W.c ∧
    ∃ V, On m0 m W V ∧ Fac d W.r W.c X V (ofSwaps x.2.1.get W.r) (ofSwaps x.2.2.get W.c) x.1

lemma pluqCrout_spec {sh : ℕ → ℕ → ℕ → ℕ → Prog K Unit} (hsh : ShiftOk sh) (cat : Cat) (jk : List ℕ → ℕ → ℕ) (d : Diag) {P Q : Arr ℕ} (h : On m0 m W V) (hP : P.len = W.r) (hQ : Q.len = W.c) :
    Run (pluqCrout sh cat jk d W.r W.c W.p W.ld P Q) m (PluqPost d m0 W V) := by
  unfold pluqCrout
  simp only [Run_bind, Run_liftE]
  refine (iota_spec (Arr.mk' W.r (jk [0])) W.r le_rfl).mono (fun MP hMP => ?_)
  refine (iota_spec (Arr.mk' W.c (jk [1])) W.c le_rfl).mono (fun MQ hMQ => ?_)
  refine (Run_iter (fun row s m' => CroutInv d m0 W V row s m') ⟨hMP.1, hMQ.1, V, h, Crout.start hMP.2 hMQ.2⟩
    (fun k s m' hk hI => croutStep_spec hsh cat hk hI)).mono ?_
  rintro s m1 ⟨lP, lQ, V1, h1, hC⟩
  refine (MathPerm2LAPACKPerm_spec W.c Q s.MathQ (jk [2]) (jk [3]) hQ lQ hC.pQ).mono ?_
  rintro Q' ⟨q1, q2, q3⟩
  refine (MathPerm2LAPACKPerm_spec W.r P s.MathP (jk [4]) (jk [5]) hP lP hC.pP).mono ?_
  rintro P' ⟨p1, p2, p3⟩
  have a1 : W.p + s.rank * (1 + W.ld) = W.adr s.rank s.rank := by simp only [Win.adr]; ring
  rw [a1]
  have hrM := hC.rr
  have hrN := hC.rN
  have hld := h.ld
  refine (fzero_spec h1.wf' (h1.ok'.of_sub (i := s.rank) (j := s.rank) (r' := W.r - s.rank) (c' := W.c - s.rank) (by omega) (by omega))
    (by omega)).mono (fun _ m2 s2 => ?_)
  have h2 := h1.upd (i0 := s.rank) (j0 := s.rank) (r := W.r - s.rank) (c := W.c - s.rank) (by omega) (by omega) s2
  rw [Run_pure]
  refine ⟨p1, q1, p2, q2, _, h2, (hC.finish (fun i hi j hj => ?_)).congrP p3 q3⟩
  split_ifs with e
  · rw [upd_in' (by omega)]
  · rw [upd_out (by omega)]

end Verif.FF
