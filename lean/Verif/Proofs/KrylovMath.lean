import Verif.Proofs.LukMath
import Verif.Proofs.LudRank

/-!
# The factors of a Krylov matrix computed by `LUdivine`
-/

namespace Verif.FF

open Finset Verif.Perm Verif.Spec Verif.Spec.Perm Verif.Pluq Verif.Lud Polynomial

variable {K : Type} [Field K] {N M R k e s : ℕ} {Z a y : ℕ → ℕ → K} {p q : ℕ → ℕ} {c : ℕ → K}

/-- the rows of the upper factor are independent -/
lemma cup_coord (h : IsCUP .nonUnit M N y Z p q R) {f : ℕ → K} (hf : ∀ j < N, ∑ k ∈ range R, f k * luU .nonUnit Z k j = 0) : ∀ k < R, f k = 0 :=
  lower_unique (L := fun i k => luU .nonUnit Z k i) (fun k hk => by rw [luU_diag_nonUnit]; exact h.piv k hk) (fun i _ k _ hik => luU_gt hik)
    (fun j hj => by
      have := h.rN
      rw [← hf j (by omega)]
      exact sum_congr rfl (fun k _ => mul_comm _ _))

/-- a row without pivot depends on the rows above when these have the first pivots -/
lemma cup_dep (h : IsCUP .nonUnit M N y Z p q R) (hp : IsPermArray p N) (hs : s < M) (hsR : s ≤ R) (hq : ∀ k < s, q k = k) (hl : ∀ k, s ≤ k → k < R → s < q k) :
    ∃ c : ℕ → K, ∀ j < N, y s j = ∑ l ∈ range s, c l * y l j := by
  -- coordinates on the rows of the upper factor
  have hL : NoKer s (fun i l => luL .nonUnit Z l i) := by
    intro d hd
    exact upper_unique (U := fun i k => luL .nonUnit Z k i) (fun k _ => by rw [luL_diag_nonUnit]; exact one_ne_zero) (fun i _ k _ hik => luL_gt hik) hd
  obtain ⟨c, hc⟩ := hL.solve (fun i => Z s i)
  refine ⟨c, fun j hj => ?_⟩
  obtain ⟨j', hj', rfl⟩ : ∃ j' < N, p j' = j := by
    have hb : Function.Surjective (fun i : Fin N => (⟨p i, hp.1 i i.2⟩ : Fin N)) := by
      rw [← Finite.injective_iff_surjective]
      intro i j hij
      exact Fin.ext (hp.2 i i.2 j j.2 (Fin.mk.inj_iff.1 hij))
    obtain ⟨x, hx⟩ := hb ⟨j, hj⟩
    exact ⟨x, x.2, congrArg Fin.val hx⟩
  rw [h.fac s hs j' hj']
  have e1 : ∀ l ∈ range s, c l * y l (p j') = ∑ k ∈ range R, (if k < s then luL .nonUnit Z l k * c l else 0) * luU .nonUnit Z k j' := fun l hl' => by
    have hl' := mem_range.1 hl'
    rw [h.fac l (by omega) j' hj', mul_sum]
    refine sum_congr rfl (fun k hk => ?_)
    have hk := mem_range.1 hk
    by_cases ks : k < s
    · rw [if_pos ks]
      have : cupC .nonUnit Z q l k = luL .nonUnit Z l k := by
        unfold cupC
        rw [hq k ks]
        rcases Nat.lt_trichotomy l k with h1 | h1 | h1
        · rw [if_pos h1, luL_gt h1]
        · subst h1; rw [if_neg (by omega), if_pos rfl, luL_diag_nonUnit]
        · rw [if_neg (by omega), if_neg (by omega), luL_lt h1]
      rw [this]; ring
    · rw [if_neg ks, cupC, if_pos (by have := hl k (by omega) hk; omega)]; ring
  rw [sum_congr rfl e1, sum_comm]
  refine sum_congr rfl (fun k hk => ?_)
  have hk := mem_range.1 hk
  rw [← sum_mul]
  congr 1
  by_cases ks : k < s
  · rw [sum_congr rfl (fun l _ => if_pos ks), hc k ks]
    unfold cupC
    rw [hq k ks, if_neg (by omega), if_neg (by omega)]
  · rw [sum_congr rfl (fun l _ => if_neg ks), sum_const_zero, cupC, if_pos (hl k (by omega) hk)]

/-- once a Krylov iterate depends on the previous ones, all the following do -/
lemma krylov_dep (hK : IsKrylov N a y) (hc : ∀ j < N, y s j = ∑ l ∈ range s, c l * y l j) :
    ∀ t, ∃ d : ℕ → K, ∀ j < N, y (s + t) j = ∑ l ∈ range s, d l * y l j := by
  intro t
  induction t with
  | zero => exact ⟨c, hc⟩
  | succ t ih =>
    obtain ⟨d, hd⟩ := ih
    cases s with
    | zero => exact ⟨fun _ => 0, fun j hj => by
        rw [← Nat.add_assoc, hK _ j hj, sum_eq_zero (fun l hl => by rw [hd l (mem_range.1 hl)]; simp)]; simp⟩
    | succ s =>
      refine ⟨fun l => d s * c l + (if l = 0 then 0 else d (l - 1)), fun j hj => ?_⟩
      rw [← Nat.add_assoc, hK _ j hj]
      have e1 : ∀ l ∈ range N, a j l * y (s + 1 + t) l = ∑ i ∈ range (s + 1), d i * (a j l * y i l) := fun l hl => by
        rw [hd l (mem_range.1 hl), mul_sum]
        exact sum_congr rfl (fun i _ => by ring)
      rw [sum_congr rfl e1, sum_comm]
      have e2 : ∀ i ∈ range (s + 1), ∑ l ∈ range N, d i * (a j l * y i l) = d i * y (i + 1) j := fun i _ => by
        rw [hK i j hj, mul_sum]
      rw [sum_congr rfl e2, sum_range_succ, hc j hj]
      simp_rw [add_mul]
      rw [sum_add_distrib, mul_sum, add_comm]
      congr 1
      · exact sum_congr rfl (fun l _ => by ring)
      · rw [sum_range_succ']
        simp

/-- the pivots of a Krylov matrix are in its first rows -/
lemma krylov_profile (hK : IsKrylov N a y) (h : IsCUP .nonUnit M N y Z p q R) (hp : IsPermArray p N) : ∀ k < R, q k = k := by
  intro k
  induction k using Nat.strong_induction_on with
  | _ k ih =>
    intro hk
    by_contra hne
    have hle := h.le_q k hk
    have hkM := h.qM k hk
    have hl : ∀ l, k ≤ l → l < R → k < q l := fun l h1 h2 => by
      rcases Nat.eq_or_lt_of_le h1 with e | e
      · subst e; omega
      · have := h.inc k l e h2; omega
    obtain ⟨c, hc⟩ := cup_dep h hp (show k < M by omega) hk.le (fun l hl => ih l hl (by omega)) hl
    obtain ⟨d, hd⟩ := krylov_dep hK hc (q k - k)
    rw [Nat.add_sub_cancel' hle] at hd
    have := cup_coord h (f := fun i => cupC .nonUnit Z q (q k) i - ∑ l ∈ range k, d l * cupC .nonUnit Z q l i) (fun j hj => by
      simp_rw [sub_mul]
      rw [sum_sub_distrib, ← h.fac (q k) hkM j hj, hd (p j) (hp.1 j hj), sub_eq_zero]
      have e1 : ∀ l ∈ range k, d l * y l (p j) = ∑ i ∈ range R, d l * cupC .nonUnit Z q l i * luU .nonUnit Z i j := fun l hl => by
        rw [h.fac l (by have := mem_range.1 hl; omega) j hj, mul_sum]
        exact sum_congr rfl (fun i _ => by ring)
      rw [sum_congr rfl e1, sum_comm]
      exact sum_congr rfl (fun i _ => by rw [sum_mul])) k hk
    rw [sum_eq_zero (fun l hl' => by
      have := mem_range.1 hl'
      rw [cupC, if_pos (by have := hl k le_rfl hk; omega), mul_zero]), sub_zero, cupC, if_neg (lt_irrefl _), if_pos rfl] at this
    exact one_ne_zero this

/-- the factors as a product of triangular matrices -/
lemma krylov_fac (hK : IsKrylov N a y) (h : IsCUP .nonUnit M N y Z p q R) (hp : IsPermArray p N) :
    ∀ i < M, ∀ j < N, y i (p j) = ∑ k ∈ range R, luL .nonUnit Z i k * luU .nonUnit Z k j := by
  intro i hi j hj
  rw [h.fac i hi j hj]
  refine sum_congr rfl (fun k hk => ?_)
  congr 1
  unfold cupC
  rw [krylov_profile hK h hp k (mem_range.1 hk)]
  rcases Nat.lt_trichotomy i k with h1 | h1 | h1
  · rw [if_pos h1, luL_gt h1]
  · subst h1; rw [if_neg (by omega), if_pos rfl, luL_diag_nonUnit]
  · rw [if_neg (by omega), if_neg (by omega), luL_lt h1]

/-- the coordinates found by the two triangular systems are those of the next iterate -/
lemma krylov_rel (hK : IsKrylov N a y) (h : IsCUP .nonUnit N N y Z p q R) (hp : IsPermArray p N) {x : ℕ → K}
    (hx : ∀ j < R, ∑ k ∈ range R, x k * luU .nonUnit Z k j = y R (p j)) (hc : ∀ j < R, ∑ l ∈ range R, c l * luL .nonUnit Z l j = x j) :
    ∀ j < N, y R j = ∑ l ∈ range R, c l * y l j := by
  have rN := h.rN
  have hf := krylov_fac hK h hp
  have key : ∀ j < R, y R (p j) = ∑ l ∈ range R, c l * y l (p j) := fun j hj => by
    rw [← hx j hj]
    have e1 : ∀ l ∈ range R, c l * y l (p j) = ∑ k ∈ range R, c l * luL .nonUnit Z l k * luU .nonUnit Z k j := fun l hl => by
      rw [hf l (by have := mem_range.1 hl; omega) j (by omega), mul_sum]
      exact sum_congr rfl (fun _ _ => by ring)
    rw [sum_congr rfl e1, sum_comm]
    refine sum_congr rfl (fun k hk => ?_)
    rw [← hc k (mem_range.1 hk), sum_mul]
  rcases Nat.lt_or_ge R N with hlt | hge
  · obtain ⟨c', hc'⟩ := cup_dep h hp (s := R) hlt le_rfl (krylov_profile hK h hp) (fun k h1 h2 => by omega)
    have hn : NoKer R (fun i l => y l (p i)) := by
      intro d hd
      have e : ∀ j < R, ∑ i ∈ range R, luU .nonUnit Z i j * ∑ l ∈ range R, luL .nonUnit Z l i * d l = 0 := by
        intro j hj
        rw [← hd j hj]
        simp_rw [mul_sum]
        rw [sum_comm]
        refine sum_congr rfl (fun l hl => ?_)
        have hl := mem_range.1 hl
        rw [hf l (by omega) j (by omega), sum_mul]
        exact sum_congr rfl (fun i _ => by ring)
      have u := lower_unique (L := fun i k => luU .nonUnit Z k i) (y := fun i => ∑ l ∈ range R, luL .nonUnit Z l i * d l)
        (fun k hk => by rw [luU_diag_nonUnit]; exact h.piv k hk) (fun i _ k _ hik => luU_gt hik) e
      exact upper_unique (U := fun i k => luL .nonUnit Z k i) (y := d) (fun k _ => by rw [luL_diag_nonUnit]; exact one_ne_zero)
        (fun i _ k _ hik => luL_gt hik) u
    have e := hn (fun l => c l - c' l) (fun i hi => by
      simp_rw [mul_sub]
      rw [sum_sub_distrib, sub_eq_zero]
      have h1 := key i hi
      have h2 := hc' (p i) (hp.1 i (by omega))
      rw [h1] at h2
      rw [show ∑ l ∈ range R, y l (p i) * c l = ∑ l ∈ range R, c l * y l (p i) from sum_congr rfl (fun _ _ => mul_comm _ _), h2]
      exact sum_congr rfl (fun _ _ => mul_comm _ _))
    intro j hj
    rw [hc' j hj]
    exact sum_congr rfl (fun l hl => by rw [sub_eq_zero.1 (e l (mem_range.1 hl))])
  · intro j hj
    obtain rfl : R = N := by omega
    have hb : Function.Surjective (fun i : Fin R => (⟨p i, hp.1 i i.2⟩ : Fin R)) := by
      rw [← Finite.injective_iff_surjective]
      intro i j hij
      exact Fin.ext (hp.2 i i.2 j j.2 (Fin.mk.inj_iff.1 hij))
    obtain ⟨x, hx⟩ := hb ⟨j, hj⟩
    obtain rfl : p x = j := congrArg Fin.val hx
    exact key x x.2

/-- the same factors with the diagonal in the lower one -/
def toUnit (Z : ℕ → ℕ → K) (i k : ℕ) : K := if k < i then Z i k * Z k k else if i = k then Z i k else Z i k / Z i i

lemma toUnit_L {i k : ℕ} : luL .unit (toUnit Z) i k = luL .nonUnit Z i k * Z k k := by
  rcases Nat.lt_trichotomy k i with h | h | h
  · rw [luL_lt h, luL_lt h, toUnit, if_pos h]
  · subst h; rw [luL_diag_unit, luL_diag_nonUnit, toUnit, if_neg (by omega), if_pos rfl, one_mul]
  · rw [luL_gt h, luL_gt h, zero_mul]

lemma toUnit_U {k j : ℕ} (hk : Z k k ≠ 0) : luU .unit (toUnit Z) k j = luU .nonUnit Z k j / Z k k := by
  rcases Nat.lt_trichotomy k j with h | h | h
  · rw [luU_lt h, luU_lt h, toUnit, if_neg (by omega), if_neg (by omega)]
  · subst h; rw [luU_diag_unit, luU_diag_nonUnit, div_self hk]
  · rw [luU_gt h, luU_gt h, zero_div]

/-- the characteristic polynomial splits along the Krylov space -/
theorem kp_split (hK : IsKrylov (k + e) a y) (hk : 1 ≤ k) (h : IsCUP .nonUnit (k + e) (k + e) y Z p q k) (hp : IsPermArray p (k + e))
    (hrel : ∀ j < k + e, y k j = ∑ l ∈ range k, c l * y l j)
    {B S : ℕ → ℕ → K} (hB : ∀ i < e, ∀ j < k, ∑ l ∈ range k, B i l * luU .nonUnit Z l j = a (p j) (p (k + i)))
    (hS : ∀ i < e, ∀ j < e, S i j = a (p (k + j)) (p (k + i)) - ∑ l ∈ range k, B i l * Z l (k + j)) :
    chi (k + e) a = (X ^ k - ∑ i ∈ range k, C (c i) * X ^ i) * chi e S := by
  have hz : ∀ l < k, Z l l ≠ 0 := h.piv
  have hf := krylov_fac hK h hp
  refine luk_split (V := toUnit Z) (B := fun i l => B i l * Z l l) hK hk ⟨by omega, le_rfl, fun i hi => ?_, hp, fun i hi _ j hj => ?_⟩ hrel (fun i hi j hj => ?_)
    (fun i hi j hj => ?_)
  · rw [toUnit, if_neg (by omega), if_pos rfl]; exact hz i hi
  · rw [hf i (by omega) j hj]
    refine sum_congr rfl (fun l hl => ?_)
    have hl := hz l (mem_range.1 hl)
    rw [toUnit_L, toUnit_U hl]
    field_simp
  · rw [← hB i hi j hj]
    refine sum_congr rfl (fun l hl => ?_)
    have hl := hz l (mem_range.1 hl)
    rw [toUnit_U hl]
    field_simp
  · rw [hS i hi j hj]
    congr 1
    refine sum_congr rfl (fun l hl => ?_)
    have h0 := mem_range.1 hl
    have hl := hz l h0
    rw [toUnit, if_neg (by omega), if_neg (by omega)]
    field_simp

end Verif.FF
