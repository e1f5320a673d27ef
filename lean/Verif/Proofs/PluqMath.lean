import Verif.Spec.Pluq
import Mathlib.Algebra.BigOperators.Ring.Finset
import Mathlib.Algebra.BigOperators.Intervals
import Mathlib.Algebra.Field.Basic
import Mathlib.Tactic.Ring
import Mathlib.Tactic.FieldSimp

/-!
# PLUQ decompositions, the algebra

`Fac`: a decomposition that reveals the rank profile matrix.  `Crout`: the invariant of the base case.
-/

namespace Verif.Pluq

open Finset Verif.Spec Verif.Spec.Perm

variable {K : Type} [Field K]

section
variable {d : Diag} {V V' : ℕ → ℕ → K} {i j k : ℕ}

lemma luL_lt (h : k < i) : luL d V i k = V i k := by
  simp only [luL, tri]; rw [if_neg (by omega), if_pos h]
lemma luL_gt (h : i < k) : luL d V i k = 0 := by
  simp only [luL, tri]; rw [if_neg (by omega), if_neg (by omega)]
lemma luU_lt (h : k < j) : luU d V k j = V k j := by
  simp only [luU, tri]; rw [if_neg (by omega), if_pos h]
lemma luU_gt (h : j < k) : luU d V k j = 0 := by
  simp only [luU, tri]; rw [if_neg (by omega), if_neg (by omega)]
lemma luL_diag_unit : luL .unit V k k = V k k := by simp [luL, tri]
lemma luL_diag_nonUnit : luL .nonUnit V k k = 1 := by simp [luL, tri]
lemma luU_diag_unit : luU .unit V k k = 1 := by simp [luU, tri]
lemma luU_diag_nonUnit : luU .nonUnit V k k = V k k := by simp [luU, tri]
lemma lu_diag : luL d V k k * luU d V k k = V k k := by
  cases d
  · rw [luL_diag_nonUnit, luU_diag_nonUnit, one_mul]
  · rw [luL_diag_unit, luU_diag_unit, mul_one]

lemma luL_congr (h : k ≤ i → V i k = V' i k) : luL d V i k = luL d V' i k := by
  rcases Nat.lt_trichotomy k i with hk | rfl | hk
  · rw [luL_lt hk, luL_lt hk, h hk.le]
  · cases d
    · rw [luL_diag_nonUnit, luL_diag_nonUnit]
    · rw [luL_diag_unit, luL_diag_unit, h le_rfl]
  · rw [luL_gt hk, luL_gt hk]

lemma luU_congr (h : k ≤ j → V k j = V' k j) : luU d V k j = luU d V' k j := by
  rcases Nat.lt_trichotomy k j with hk | rfl | hk
  · rw [luU_lt hk, luU_lt hk, h hk.le]
  · cases d
    · rw [luU_diag_nonUnit, luU_diag_nonUnit, h le_rfl]
    · rw [luU_diag_unit, luU_diag_unit]
  · rw [luU_gt hk, luU_gt hk]

end

/-- A PLUQ decomposition with permutations and zeros outside of the factors -/
structure Fac0 (d : Diag) (M N : ℕ) (X V : ℕ → ℕ → K) (p q : ℕ → ℕ) (r : ℕ) : Prop extends IsPLUQ d M N X V p q r where
  pP : IsPermArray p M
  pQ : IsPermArray q N
  zero : ∀ i < M, ∀ j < N, r ≤ i → r ≤ j → V i j = 0

lemma Fac0.congrX {d : Diag} {M N r : ℕ} {X X' V : ℕ → ℕ → K} {p q : ℕ → ℕ} (h : Fac0 d M N X V p q r)
    (hX : ∀ i < M, ∀ j < N, X i j = X' i j) : Fac0 d M N X' V p q r :=
  ⟨⟨h.rM, h.rN, h.piv, fun i hi j hj => by rw [← h.fac i hi j hj, hX _ (h.pP.1 i hi) _ (h.pQ.1 j hj)]⟩, h.pP, h.pQ, h.zero⟩

lemma Fac0.congrV {d : Diag} {M N r : ℕ} {X V V' : ℕ → ℕ → K} {p q : ℕ → ℕ} (h : Fac0 d M N X V p q r)
    (hV : ∀ i < M, ∀ j < N, V i j = V' i j) : Fac0 d M N X V' p q r := by
  have hr := h.rM
  have hr' := h.rN
  have eL : ∀ i < M, ∀ k < r, luL d V i k = luL d V' i k := fun i hi k hk => luL_congr (fun _ => hV i hi k (by omega))
  have eU : ∀ k < r, ∀ j < N, luU d V k j = luU d V' k j := fun k hk j hj => luU_congr (fun _ => hV k (by omega) j hj)
  refine ⟨⟨h.rM, h.rN, fun k hk => ?_, fun i hi j hj => ?_⟩, h.pP, h.pQ, fun i hi j hj h1 h2 => ?_⟩
  · rw [← hV k (by omega) k (by omega)]; exact h.piv k hk
  · rw [h.fac i hi j hj]
    exact sum_congr rfl (fun k hk => by rw [eL i hi k (mem_range.1 hk), eU k (mem_range.1 hk) j hj])
  · rw [← hV i hi j hj]; exact h.zero i hi j hj h1 h2

lemma Fac0.congrP {d : Diag} {M N r : ℕ} {X V : ℕ → ℕ → K} {p q p' q' : ℕ → ℕ} (h : Fac0 d M N X V p q r)
    (hp : ∀ i < M, p i = p' i) (hq : ∀ j < N, q j = q' j) : Fac0 d M N X V p' q' r := by
  refine ⟨⟨h.rM, h.rN, h.piv, fun i hi j hj => ?_⟩, ⟨fun i hi => ?_, fun i hi j hj e => ?_⟩, ⟨fun i hi => ?_, fun i hi j hj e => ?_⟩, h.zero⟩
  · rw [← hp i hi, ← hq j hj]; exact h.fac i hi j hj
  · rw [← hp i hi]; exact h.pP.1 i hi
  · rw [← hp i hi, ← hp j hj] at e; exact h.pP.2 i hi j hj e
  · rw [← hq i hi]; exact h.pQ.1 i hi
  · rw [← hq i hi, ← hq j hj] at e; exact h.pQ.2 i hi j hj e

/-- A PLUQ decomposition that reveals the rank profile matrix: a row does not use the pivots that come from rows below it, a
column does not use the pivots that come from columns to the right of it, and the rows (columns) without pivot keep their order. -/
structure Fac (d : Diag) (M N : ℕ) (X V : ℕ → ℕ → K) (p q : ℕ → ℕ) (r : ℕ) : Prop extends IsPLUQ d M N X V p q r where
  pP : IsPermArray p M
  pQ : IsPermArray q N
  zero : ∀ i < M, ∀ j < N, r ≤ i → r ≤ j → V i j = 0
  monoL : ∀ k < r, ∀ i < M, p i < p k → luL d V i k = 0
  monoU : ∀ k < r, ∀ j < N, q j < q k → luU d V k j = 0
  incP : ∀ i i', r ≤ i → i < i' → i' < M → p i < p i'
  incQ : ∀ j j', r ≤ j → j < j' → j' < N → q j < q j'

lemma Fac.weak {d : Diag} {M N r : ℕ} {X V : ℕ → ℕ → K} {p q : ℕ → ℕ} (h : Fac d M N X V p q r) : Fac0 d M N X V p q r :=
  ⟨h.toIsPLUQ, h.pP, h.pQ, h.zero⟩

lemma Fac.congrX {d : Diag} {M N r : ℕ} {X X' V : ℕ → ℕ → K} {p q : ℕ → ℕ} (h : Fac d M N X V p q r)
    (hX : ∀ i < M, ∀ j < N, X i j = X' i j) : Fac d M N X' V p q r :=
  ⟨⟨h.rM, h.rN, h.piv, fun i hi j hj => by rw [← h.fac i hi j hj, hX _ (h.pP.1 i hi) _ (h.pQ.1 j hj)]⟩, h.pP, h.pQ, h.zero, h.monoL,
    h.monoU, h.incP, h.incQ⟩

lemma Fac.congrV {d : Diag} {M N r : ℕ} {X V V' : ℕ → ℕ → K} {p q : ℕ → ℕ} (h : Fac d M N X V p q r)
    (hV : ∀ i < M, ∀ j < N, V i j = V' i j) : Fac d M N X V' p q r := by
  have hr := h.rM
  have hr' := h.rN
  have eL : ∀ i < M, ∀ k < r, luL d V i k = luL d V' i k := fun i hi k hk => luL_congr (fun _ => hV i hi k (by omega))
  have eU : ∀ k < r, ∀ j < N, luU d V k j = luU d V' k j := fun k hk j hj => luU_congr (fun _ => hV k (by omega) j hj)
  refine ⟨⟨h.rM, h.rN, fun k hk => ?_, fun i hi j hj => ?_⟩, h.pP, h.pQ, fun i hi j hj h1 h2 => ?_, fun k hk i hi hp => ?_,
    fun k hk j hj hq => ?_, h.incP, h.incQ⟩
  · rw [← hV k (by omega) k (by omega)]; exact h.piv k hk
  · rw [h.fac i hi j hj]
    exact sum_congr rfl (fun k hk => by rw [eL i hi k (mem_range.1 hk), eU k (mem_range.1 hk) j hj])
  · rw [← hV i hi j hj]; exact h.zero i hi j hj h1 h2
  · rw [← eL i hi k hk]; exact h.monoL k hk i hi hp
  · rw [← eU k hk j hj]; exact h.monoU k hk j hj hq

lemma Fac.congrP {d : Diag} {M N r : ℕ} {X V : ℕ → ℕ → K} {p q p' q' : ℕ → ℕ} (h : Fac d M N X V p q r)
    (hp : ∀ i < M, p i = p' i) (hq : ∀ j < N, q j = q' j) : Fac d M N X V p' q' r := by
  have hr := h.rM
  have hr' := h.rN
  refine ⟨⟨h.rM, h.rN, h.piv, fun i hi j hj => ?_⟩, ⟨fun i hi => ?_, fun i hi j hj e => ?_⟩, ⟨fun i hi => ?_, fun i hi j hj e => ?_⟩,
    h.zero, fun k hk i hi e => ?_, fun k hk j hj e => ?_, fun i i' h1 h2 h3 => ?_, fun i i' h1 h2 h3 => ?_⟩
  · rw [← hp i hi, ← hq j hj]; exact h.fac i hi j hj
  · rw [← hp i hi]; exact h.pP.1 i hi
  · rw [← hp i hi, ← hp j hj] at e; exact h.pP.2 i hi j hj e
  · rw [← hq i hi]; exact h.pQ.1 i hi
  · rw [← hq i hi, ← hq j hj] at e; exact h.pQ.2 i hi j hj e
  · rw [← hp i hi, ← hp k (by omega)] at e; exact h.monoL k hk i hi e
  · rw [← hq j hj, ← hq k (by omega)] at e; exact h.monoU k hk j hj e
  · rw [← hp i (by omega), ← hp i' h3]; exact h.incP i i' h1 h2 h3
  · rw [← hq i (by omega), ← hq i' h3]; exact h.incQ i i' h1 h2 h3

/-- a value for unit upper factors, a value for unit lower factors -/
def dsel (d : Diag) (a b : K) : K := match d with
  | .unit => a
  | .nonUnit => b

/-- rotation of `a .. b`: entry `b` comes first -/
def rotR (a b i : ℕ) : ℕ := if i < a ∨ b < i then i else if i = a then b else i - 1

lemma rotR_perm {p : ℕ → ℕ} {n a b : ℕ} (h : IsPermArray p n) (hab : a ≤ b) (hb : b < n) : IsPermArray (fun i => p (rotR a b i)) n := by
  have key : ∀ i < n, rotR a b i < n := by intro i hi; unfold rotR; split_ifs <;> omega
  refine ⟨fun i hi => h.1 _ (key i hi), fun i hi j hj e => ?_⟩
  have e := h.2 _ (key i hi) _ (key j hj) e
  unfold rotR at e
  split_ifs at e <;> omega

/-- the invariant of the Crout base case after `row` rows with `ρ` pivots -/
structure Crout (d : Diag) (M N : ℕ) (X V : ℕ → ℕ → K) (p q : ℕ → ℕ) (row ρ : ℕ) : Prop where
  rr : ρ ≤ row
  rowM : row ≤ M
  rN : ρ ≤ N
  pP : IsPermArray p M
  pQ : IsPermArray q N
  pid : ∀ i, row ≤ i → i < M → p i = i
  piv : ∀ k < ρ, V k k ≠ 0
  facA : ∀ i < row, ∀ j < N, X (p i) (q j) = ∑ k ∈ range ρ, luL d V i k * luU d V k j
  facB : ∀ i, row ≤ i → i < M → ∀ j < ρ, X i (q j) = ∑ k ∈ range ρ, luL d V i k * luU d V k j
  rest : ∀ i, row ≤ i → i < M → ∀ j, ρ ≤ j → j < N → V i j = X i (q j)
  monoL : ∀ k < ρ, ∀ i < M, p i < p k → luL d V i k = 0
  monoU : ∀ k < ρ, ∀ j < N, q j < q k → luU d V k j = 0
  incP : ∀ i i', ρ ≤ i → i < i' → i' < M → p i < p i'
  incQ : ∀ j j', ρ ≤ j → j < j' → j' < N → q j < q j'

section
variable {d : Diag} {M N : ℕ} {X V V' : ℕ → ℕ → K} {p q : ℕ → ℕ} {row ρ : ℕ}

lemma Crout.start (hp : ∀ i < M, p i = i) (hq : ∀ j < N, q j = j) : Crout d M N V V p q 0 0 := by
  have n0 : ∀ {k : ℕ} {P : Prop}, k < 0 → P := fun h => absurd h (Nat.not_lt_zero _)
  refine ⟨le_rfl, Nat.zero_le _, Nat.zero_le _, ⟨fun i hi => by rw [hp i hi]; exact hi, fun i hi j hj h => by rwa [hp i hi, hp j hj] at h⟩,
    ⟨fun i hi => by rw [hq i hi]; exact hi, fun i hi j hj h => by rwa [hq i hi, hq j hj] at h⟩, fun i _ hi => hp i hi,
    fun _ => n0, fun _ => n0, fun _ _ _ _ => n0, fun i _ _ j _ hj => by rw [hq j hj], fun _ => n0, fun _ => n0,
    fun i i' _ h h' => by rw [hp i (by omega), hp i' h']; exact h, fun i i' _ h h' => by rw [hq i (by omega), hq i' h']; exact h⟩

/-- the columns are exhausted -/
lemma Crout.full (h : Crout d M N X V p q row ρ) (hr : row < M) (hN : ρ = N) : Crout d M N X V p q (row + 1) ρ := by
  refine ⟨by have := h.rr; omega, hr, h.rN, h.pP, h.pQ, fun i hi => h.pid i (by omega), h.piv, fun i hi j hj => ?_,
    fun i hi => h.facB i (by omega), fun i hi => h.rest i (by omega), h.monoL, h.monoU, h.incP, h.incQ⟩
  rcases Nat.lt_or_ge i row with h1 | h1
  · exact h.facA i h1 j hj
  · obtain rfl : i = row := by omega
    rw [h.pid i le_rfl hr]
    exact h.facB i le_rfl hr j (by omega)

/-- a row without pivot -/
lemma Crout.skip (h : Crout d M N X V p q row ρ) (hr : row < M)
    (hy : ∀ j, ρ ≤ j → j < N → X row (q j) - ∑ k ∈ range ρ, V row k * V k j = 0)
    (hV : ∀ i < M, ∀ j < N, i ≠ row ∨ j < ρ → V' i j = V i j) : Crout d M N X V' p q (row + 1) ρ := by
  have hrr := h.rr
  have hrN := h.rN
  have eL : ∀ i < M, ∀ k < ρ, luL d V' i k = luL d V i k := fun i hi k hk => luL_congr (fun _ => hV i hi k (by omega) (Or.inr hk))
  have eU : ∀ k < ρ, ∀ j < N, luU d V' k j = luU d V k j := fun k hk j hj => luU_congr (fun _ => hV k (by omega) j hj (Or.inl (by omega)))
  have eS : ∀ i < M, ∀ j < N, ∑ k ∈ range ρ, luL d V' i k * luU d V' k j = ∑ k ∈ range ρ, luL d V i k * luU d V k j :=
    fun i hi j hj => sum_congr rfl (fun k hk => by rw [eL i hi k (mem_range.1 hk), eU k (mem_range.1 hk) j hj])
  refine ⟨by omega, hr, h.rN, h.pP, h.pQ, fun i hi => h.pid i (by omega), fun k hk => ?_, fun i hi j hj => ?_,
    fun i hi hM j hj => ?_, fun i hi hM j hj hN => ?_, fun k hk i hi e => ?_, fun k hk j hj e => ?_, h.incP, h.incQ⟩
  · rw [hV k (by omega) k (by omega) (Or.inr hk)]; exact h.piv k hk
  · rw [eS i (by omega) j hj]
    rcases Nat.lt_or_ge i row with h1 | h1
    · exact h.facA i h1 j hj
    · obtain rfl : i = row := by omega
      rw [h.pid i le_rfl hr]
      rcases Nat.lt_or_ge j ρ with h2 | h2
      · exact h.facB i le_rfl hr j h2
      · rw [sub_eq_zero.1 (hy j h2 hj)]
        refine sum_congr rfl (fun k hk => ?_)
        have hk := mem_range.1 hk
        rw [luL_lt (by omega), luU_lt (by omega)]
  · rw [eS i hM j (by omega)]; exact h.facB i (by omega) hM j hj
  · rw [hV i hM j hN (Or.inl (by omega))]; exact h.rest i (by omega) hM j hj hN
  · rw [eL i hi k hk]; exact h.monoL k hk i hi e
  · rw [eU k hk j hj]; exact h.monoU k hk j hj e

/-- a row with a pivot in column `c` -/
lemma Crout.pivot (h : Crout d M N X V p q row ρ) (hr : row < M) {c : ℕ} (hc : ρ ≤ c) (hcN : c < N) {y z : ℕ → K}
    (hy : ∀ j, ρ ≤ j → j < N → y j = X row (q j) - ∑ k ∈ range ρ, V row k * V k j)
    (hz : ∀ i, row < i → i < M → z i = X i (q c) - ∑ k ∈ range ρ, V i k * V k c)
    (hy0 : ∀ j, ρ ≤ j → j < c → y j = 0) (hyc : y c ≠ 0)
    (e1 : ∀ k < ρ, ∀ j < N, V' k j = V k (rotR ρ c j))
    (e2a : ∀ j < ρ, V' ρ j = V row j) (e2b : V' ρ ρ = y c) (e2c : ∀ j, ρ < j → j ≤ c → V' ρ j = 0)
    (e2d : ∀ j, c < j → j < N → V' ρ j = dsel d ((y c)⁻¹ * y j) (y j))
    (e3a : ∀ i, ρ < i → i ≤ row → ∀ j < ρ, V' i j = V (i - 1) j) (e3b : ∀ i, ρ < i → i ≤ row → V' i ρ = 0)
    (e4a : ∀ i, row < i → i < M → ∀ j < ρ, V' i j = V i j)
    (e4b : ∀ i, row < i → i < M → V' i ρ = dsel d (z i) ((y c)⁻¹ * z i))
    (e4c : ∀ i, row < i → i < M → ∀ j, ρ < j → j < N → V' i j = V i (rotR ρ c j)) :
    Crout d M N X V' (fun i => p (rotR ρ row i)) (fun j => q (rotR ρ c j)) (row + 1) (ρ + 1) := by
  have hrr := h.rr
  have hrN := h.rN
  -- the new factors
  have eL : ∀ i < M, ∀ k < ρ, luL d V' i k = luL d V (rotR ρ row i) k := by
    intro i hi k hk
    rcases Nat.lt_trichotomy i ρ with h1 | rfl | h1
    · rw [show rotR ρ row i = i by unfold rotR; rw [if_pos (by omega)]]
      refine luL_congr (fun _ => ?_)
      rw [e1 i h1 k (by omega), show rotR ρ c k = k by unfold rotR; rw [if_pos (by omega)]]
    · rw [show rotR i row i = row by unfold rotR; rw [if_neg (by omega), if_pos rfl], luL_lt hk, luL_lt (by omega), e2a k hk]
    · rcases Nat.lt_or_ge row i with h2 | h2
      · rw [show rotR ρ row i = i by unfold rotR; rw [if_pos (by omega)], luL_lt (by omega), luL_lt (by omega), e4a i h2 hi k hk]
      · rw [show rotR ρ row i = i - 1 by unfold rotR; rw [if_neg (by omega), if_neg (by omega)], luL_lt (by omega), luL_lt (by omega),
          e3a i h1 h2 k hk]
  have eU : ∀ k < ρ, ∀ j < N, luU d V' k j = luU d V k (rotR ρ c j) := by
    intro k hk j hj
    rcases Nat.lt_or_ge j ρ with h1 | h1
    · have : rotR ρ c j = j := by unfold rotR; rw [if_pos (by omega)]
      rw [this]
      refine luU_congr (fun _ => ?_)
      rw [e1 k hk j hj, this]
    · have : ρ ≤ rotR ρ c j := by unfold rotR; split_ifs <;> omega
      rw [luU_lt (by omega), luU_lt (by omega), e1 k hk j hj]
  have eU' : ∀ j, ρ ≤ j → j < N → luL d V' ρ ρ * luU d V' ρ j = y (rotR ρ c j) := by
    intro j h1 h2
    rcases h1.lt_or_eq with h1 | rfl
    · rw [luU_lt h1]
      rcases Nat.lt_or_ge c j with h3 | h3
      · rw [show rotR ρ c j = j by unfold rotR; rw [if_pos (by omega)], e2d j h3 h2]
        cases d
        · rw [luL_diag_nonUnit, one_mul, dsel]
        · rw [luL_diag_unit, e2b, dsel]; exact mul_inv_cancel_left₀ hyc _
      · rw [e2c j h1 h3, mul_zero, show rotR ρ c j = j - 1 by unfold rotR; rw [if_neg (by omega), if_neg (by omega)],
          hy0 _ (by omega) (by omega)]
    · rw [lu_diag, e2b, show rotR ρ c ρ = c by unfold rotR; rw [if_neg (by omega), if_pos rfl]]
  have eL' : ∀ i, row < i → i < M → luL d V' i ρ * luU d V' ρ ρ = z i := by
    intro i h1 h2
    rw [luL_lt (by omega), e4b i h1 h2]
    cases d
    · rw [luU_diag_nonUnit, e2b, dsel]
      rw [mul_comm, mul_inv_cancel_left₀ hyc]
    · rw [luU_diag_unit, mul_one, dsel]
  have eL0 : ∀ i < M, i ≤ row → i ≠ ρ → luL d V' i ρ = 0 := by
    intro i _ h1 h2
    rcases Nat.lt_or_ge i ρ with h3 | h3
    · exact luL_gt h3
    · rw [luL_lt (by omega), e3b i (by omega) h1]
  have eS : ∀ i < M, ∀ j < N, ∑ k ∈ range ρ, luL d V' i k * luU d V' k j =
      ∑ k ∈ range ρ, luL d V (rotR ρ row i) k * luU d V k (rotR ρ c j) :=
    fun i hi j hj => sum_congr rfl (fun k hk => by rw [eL i hi k (mem_range.1 hk), eU k (mem_range.1 hk) j hj])
  have sN : ∀ j < N, rotR ρ c j < N := by intro j hj; unfold rotR; split_ifs <;> omega
  have sM : ∀ i < M, rotR ρ row i < M := by intro j hj; unfold rotR; split_ifs <;> omega
  have rk : ∀ b, ∀ k < ρ, rotR ρ b k = k := by intro b k hk; unfold rotR; rw [if_pos (by omega)]
  have rp : ∀ b, ρ ≤ b → rotR ρ b ρ = b := by intro b hb; unfold rotR; rw [if_neg (by omega), if_pos rfl]
  refine ⟨by omega, hr, by omega, rotR_perm h.pP hrr hr, rotR_perm h.pQ hc hcN, fun i hi hM => ?_, fun k hk => ?_, fun i hi j hj => ?_,
    fun i hi hM j hj => ?_, fun i hi hM j hj hN => ?_, fun k hk i hi e => ?_, fun k hk j hj e => ?_, fun i i' h1 h2 h3 => ?_, fun i i' h1 h2 h3 => ?_⟩
  · have : rotR ρ row i = i := by unfold rotR; rw [if_pos (by omega)]
    simp only [this]; exact h.pid i (by omega) hM
  · rcases Nat.lt_or_ge k ρ with h1 | h1
    · rw [e1 k h1 k (by omega), rk c k h1]; exact h.piv k h1
    · obtain rfl : k = ρ := by omega
      rw [e2b]; exact hyc
  · rw [sum_range_succ, eS i (by omega) j hj]
    by_cases hiρ : i = ρ
    · subst hiρ
      rw [rp row hrr, h.pid row le_rfl hr]
      rcases Nat.lt_or_ge j i with h1 | h1
      · rw [luU_gt h1, mul_zero, add_zero, rk c j h1]
        exact h.facB row le_rfl hr j h1
      · rw [eU' j h1 hj]
        have hs : i ≤ rotR i c j := by unfold rotR; split_ifs <;> omega
        rw [hy _ hs (sN j hj)]
        rw [show ∑ k ∈ range i, luL d V row k * luU d V k (rotR i c j) = ∑ k ∈ range i, V row k * V k (rotR i c j) from
          sum_congr rfl (fun k hk => by
            have hk := mem_range.1 hk
            rw [luL_lt (by omega), luU_lt (by omega)])]
        ring
    · rw [eL0 i (by omega) (by omega) hiρ, zero_mul, add_zero]
      have : rotR ρ row i < row := by unfold rotR; split_ifs <;> omega
      exact h.facA _ this _ (sN j hj)
  · rw [sum_range_succ, eS i hM j (by omega)]
    have hi' : rotR ρ row i = i := by unfold rotR; rw [if_pos (by omega)]
    rw [hi']
    rcases Nat.lt_or_ge j ρ with h1 | h1
    · rw [luU_gt h1, mul_zero, add_zero, rk c j h1]
      exact h.facB i (by omega) hM j h1
    · obtain rfl : j = ρ := by omega
      rw [eL' i hi hM, hz i hi hM, rp c hc]
      rw [show ∑ k ∈ range j, luL d V i k * luU d V k c = ∑ k ∈ range j, V i k * V k c from
          sum_congr rfl (fun k hk => by
            have hk := mem_range.1 hk
            rw [luL_lt (by omega), luU_lt (by omega)])]
      ring
  · rw [e4c i hi hM j hj hN]
    have hs : ρ ≤ rotR ρ c j := by unfold rotR; split_ifs <;> omega
    exact h.rest i (by omega) hM _ hs (sN j hN)
  · rcases Nat.lt_or_ge k ρ with h1 | h1
    · rw [rk row k h1] at e
      rw [eL i hi k h1]
      exact h.monoL k h1 _ (sM i hi) e
    · obtain rfl : k = ρ := by omega
      rw [rp row hrr, h.pid row le_rfl hr] at e
      rcases Nat.lt_or_ge row i with h2 | h2
      · rw [show rotR k row i = i by unfold rotR; rw [if_pos (by omega)], h.pid i (by omega) hi] at e
        omega
      · refine eL0 i hi h2 ?_
        rintro rfl
        rw [rp row hrr, h.pid row le_rfl hr] at e
        omega
  · rcases Nat.lt_or_ge k ρ with h1 | h1
    · rw [rk c k h1] at e
      rw [eU k h1 j hj]
      exact h.monoU k h1 _ (sN j hj) e
    · obtain rfl : k = ρ := by omega
      rw [rp c hc] at e
      rcases Nat.lt_trichotomy j k with h2 | rfl | h2
      · exact luU_gt h2
      · rw [rp c hc] at e; omega
      · rcases Nat.lt_or_ge c j with h3 | h3
        · rw [show rotR k c j = j by unfold rotR; rw [if_pos (by omega)]] at e
          have := h.incQ c j hc h3 hj
          omega
        · rw [luU_lt h2, e2c j h2 h3]
  · exact h.incP _ _ (by unfold rotR; split_ifs <;> omega) (by unfold rotR; split_ifs <;> omega) (sM i' h3)
  · exact h.incQ _ _ (by unfold rotR; split_ifs <;> omega) (by unfold rotR; split_ifs <;> omega) (sN i' h3)

/-- the end of the loop -/
lemma Crout.finish (h : Crout d M N X V p q M ρ) (hz : ∀ i < M, ∀ j < N, V' i j = if ρ ≤ i ∧ ρ ≤ j then 0 else V i j) :
    Fac d M N X V' p q ρ := by
  have hrr := h.rr
  have hrN := h.rN
  have eL : ∀ i < M, ∀ k < ρ, luL d V' i k = luL d V i k := fun i hi k hk => luL_congr (fun _ => by rw [hz i hi k (by omega), if_neg (by omega)])
  have eU : ∀ k < ρ, ∀ j < N, luU d V' k j = luU d V k j := fun k hk j hj => luU_congr (fun _ => by rw [hz k (by omega) j hj, if_neg (by omega)])
  refine ⟨⟨h.rr, h.rN, fun k hk => ?_, fun i hi j hj => ?_⟩, h.pP, h.pQ, fun i hi j hj h1 h2 => ?_, fun k hk i hi e => ?_,
    fun k hk j hj e => ?_, h.incP, h.incQ⟩
  · rw [hz k (by omega) k (by omega), if_neg (by omega)]; exact h.piv k hk
  · rw [h.facA i hi j hj]
    exact sum_congr rfl (fun k hk => by rw [eL i hi k (mem_range.1 hk), eU k (mem_range.1 hk) j hj])
  · rw [hz i hi j hj, if_pos ⟨h1, h2⟩]
  · rw [eL i hi k hk]; exact h.monoL k hk i hi e
  · rw [eU k hk j hj]; exact h.monoU k hk j hj e

end
end Verif.Pluq
