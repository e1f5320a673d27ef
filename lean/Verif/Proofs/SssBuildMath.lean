import Verif.Proofs.SssMath
import Verif.Proofs.PluqRank
import Verif.Spec.QuasiSep

/-!
# Generators of a quasi-separable matrix
-/

namespace Verif.Spec

open Finset Verif.Pluq Verif.Spec.Perm

variable {K : Type} [Field K]

/-- the lower factor with its rows back in place, completed by zero columns -/
def facL (Z : ℕ → ℕ → K) (p : Equiv.Perm ℕ) (r : ℕ) : ℕ → ℕ → K := fun i l => if l < r then tri .lower .unit Z (p⁻¹ i) l else 0

/-- the upper factor with its columns back in place, completed by zero rows -/
def facU (Z : ℕ → ℕ → K) (q : Equiv.Perm ℕ) (r : ℕ) : ℕ → ℕ → K := fun l j => if l < r then tri .upper .nonUnit Z l (q⁻¹ j) else 0

section
variable {M n r s : ℕ} {Y Z : ℕ → ℕ → K} {p q : Equiv.Perm ℕ}

omit [Field K] in
lemma perm_inv (p : Equiv.Perm ℕ) (x : ℕ) : p (p⁻¹ x) = x := p.apply_symm_apply x

omit [Field K] in
lemma inv_lt {p : Equiv.Perm ℕ} (h : IsPermArray p M) {i : ℕ} (hi : i < M) : p⁻¹ i < M := by
  have hb : Function.Surjective (fun x : Fin M => (⟨p x, h.1 x x.2⟩ : Fin M)) :=
    Finite.injective_iff_surjective.1 (fun a b e => Fin.ext (h.2 _ a.2 _ b.2 (by simpa using e)))
  obtain ⟨x, hx⟩ := hb ⟨i, hi⟩
  have : p x = i := by simpa using hx
  rw [← this]
  simp

lemma fac_prod (F : Fac .nonUnit M n Y Z p q r) (hr : r ≤ s) {i j : ℕ} (hi : i < M) (hj : j < n) :
    Y i j = ∑ l ∈ range s, facL Z p r i l * facU Z q r l j := by
  have h := F.fac (p⁻¹ i) (inv_lt F.pP hi) (q⁻¹ j) (inv_lt F.pQ hj)
  rw [perm_inv, perm_inv] at h
  rw [h]
  rw [show s = r + (s - r) by omega, sum_range_add, sum_eq_zero (s := range (s - r)), add_zero]
  · refine sum_congr rfl (fun l hl => ?_)
    simp only [facL, facU, if_pos (mem_range.1 hl)]
    rfl
  · intro l _
    simp only [facL]
    rw [if_neg (by omega), zero_mul]

/-- the rows of the upper factor are combinations of the rows of the matrix -/
lemma fac_rows (F : Fac .nonUnit M n Y Z p q r) : ∃ T : ℕ → ℕ → K, ∀ l j, j < n → facU Z q r l j = ∑ i ∈ range M, T l i * Y i j := by
  have key : ∀ l, ∃ c : ℕ → K, l < r → ∀ j < n, tri .upper .nonUnit Z l j = ∑ i ∈ range M, c i * Y i (q j) := by
    intro l
    induction l using Nat.strong_induction_on with
    | _ l ih =>
      choose! c hc using ih
      refine ⟨fun i => (if i = p l then 1 else 0) - ∑ x ∈ range l, tri .lower .unit Z l x * c x i, fun hl j hj => ?_⟩
      have hlM : l < M := lt_of_lt_of_le hl F.rM
      have h := F.fac l hlM j hj
      have e : ∑ k ∈ range r, luL .nonUnit Z l k * luU .nonUnit Z k j =
          ∑ k ∈ range l, tri .lower .unit Z l k * tri .upper .nonUnit Z k j + tri .upper .nonUnit Z l j := by
        rw [show r = (l + 1) + (r - (l + 1)) by omega, sum_range_add, sum_range_succ, sum_eq_zero (s := range (r - (l + 1))), add_zero]
        · congr 1
          show tri .lower .unit Z l l * _ = _
          simp only [tri, if_true, one_mul]
          rfl
        · intro x _
          show tri .lower .unit Z l (l + 1 + x) * _ = 0
          have : ¬ (l = l + 1 + x) := by omega
          have h2 : ¬ (l + 1 + x < l) := by omega
          simp [tri, this, h2]
      rw [e] at h
      have : tri .upper .nonUnit Z l j = Y (p l) (q j) - ∑ k ∈ range l, tri .lower .unit Z l k * tri .upper .nonUnit Z k j := by rw [h]; ring
      rw [this]
      simp only [sub_mul, sum_sub_distrib, sum_mul]
      congr 1
      · rw [sum_eq_single (p l)]
        · simp
        · intro b _ hb; simp [hb]
        · intro hn; exact absurd (mem_range.2 (F.pP.1 l hlM)) hn
      · rw [sum_comm]
        refine sum_congr rfl (fun k hk => ?_)
        rw [hc k (mem_range.1 hk) (by have := mem_range.1 hk; omega) j hj, mul_sum]
        exact sum_congr rfl (fun _ _ => by ring)
  choose c hc using key
  refine ⟨fun l i => if l < r then c l i else 0, fun l j hj => ?_⟩
  unfold facU
  by_cases hl : l < r
  · simp only [if_pos hl]
    rw [hc l hl _ (inv_lt F.pQ hj), perm_inv]
  · simp [hl]

/-- the columns of the lower factor are combinations of the columns of the matrix -/
lemma fac_cols (F : Fac .nonUnit M n Y Z p q r) : ∃ T : ℕ → ℕ → K, ∀ i l, i < M → facL Z p r i l = ∑ j ∈ range n, Y i j * T j l := by
  have key : ∀ l, ∃ c : ℕ → K, l < r → ∀ i < M, tri .lower .unit Z i l = ∑ j ∈ range n, Y (p i) j * c j := by
    intro l
    induction l using Nat.strong_induction_on with
    | _ l ih =>
      choose! c hc using ih
      refine ⟨fun j => ((if j = q l then 1 else 0) - ∑ x ∈ range l, c x j * tri .upper .nonUnit Z x l) * (Z l l)⁻¹, fun hl i hi => ?_⟩
      have hln : l < n := lt_of_lt_of_le hl F.rN
      have h := F.fac i hi l hln
      have e : ∑ k ∈ range r, luL .nonUnit Z i k * luU .nonUnit Z k l =
          ∑ k ∈ range l, tri .lower .unit Z i k * tri .upper .nonUnit Z k l + tri .lower .unit Z i l * Z l l := by
        rw [show r = (l + 1) + (r - (l + 1)) by omega, sum_range_add, sum_range_succ, sum_eq_zero (s := range (r - (l + 1))), add_zero]
        · congr 1
          show _ * tri .upper .nonUnit Z l l = _
          simp only [tri, if_true]
          rfl
        · intro x _
          show _ * tri .upper .nonUnit Z (l + 1 + x) l = 0
          have : ¬ (l + 1 + x = l) := by omega
          have h2 : ¬ (l + 1 + x < l) := by omega
          simp [tri, this, h2]
      rw [e] at h
      have hp := F.piv l hl
      have : tri .lower .unit Z i l = (Y (p i) (q l) - ∑ k ∈ range l, tri .lower .unit Z i k * tri .upper .nonUnit Z k l) * (Z l l)⁻¹ := by
        rw [h]; field_simp; ring
      rw [this]
      have e2 : ∀ j, Y (p i) j * (((if j = q l then 1 else 0) - ∑ x ∈ range l, c x j * tri .upper .nonUnit Z x l) * (Z l l)⁻¹) =
          (Y (p i) j * (if j = q l then 1 else 0) - ∑ x ∈ range l, Y (p i) j * (c x j * tri .upper .nonUnit Z x l)) * (Z l l)⁻¹ := by
        intro j; rw [← mul_sum]; ring
      simp only [e2]
      rw [← sum_mul, sum_sub_distrib]
      congr 2
      · rw [sum_eq_single (q l)]
        · simp
        · intro b _ hb; simp [hb]
        · intro hn; exact absurd (mem_range.2 (F.pQ.1 l hln)) hn
      · rw [sum_comm]
        refine sum_congr rfl (fun k hk => ?_)
        rw [hc k (mem_range.1 hk) (by have := mem_range.1 hk; omega) i hi, sum_mul]
        exact sum_congr rfl (fun _ _ => by ring)
  choose c hc using key
  refine ⟨fun j l => if l < r then c l j else 0, fun i l hi => ?_⟩
  unfold facL
  by_cases hl : l < r
  · simp only [if_pos hl]
    rw [hc l hl _ (inv_lt F.pP hi), perm_inv]
  · simp [hl]

end

/-- a matrix whose rows are combinations of the rows of another one -/
lemma rk_le_rows {M M' n : ℕ} {Y B : ℕ → ℕ → K} (T : ℕ → ℕ → K) (h : ∀ i < M, ∀ j < n, Y i j = ∑ x ∈ range M', T i x * B x j) :
    rk Y M n ≤ rk B M' n := by
  have : toMat M n Y = toMat M M' T * toMat M' n B := by
    ext i j
    rw [Matrix.mul_apply]
    exact (h i i.2 j j.2).trans (Fin.sum_univ_eq_sum_range (fun x => T i x * B x j) M').symm
  unfold rk
  rw [this]
  exact Matrix.rank_mul_le_right _ _

lemma rk_le_cols {M n n' : ℕ} {Y B : ℕ → ℕ → K} (T : ℕ → ℕ → K) (h : ∀ i < M, ∀ j < n, Y i j = ∑ x ∈ range n', B i x * T x j) :
    rk Y M n ≤ rk B M n' := by
  have : toMat M n Y = toMat M n' B * toMat n' n T := by
    ext i j
    rw [Matrix.mul_apply]
    exact (h i i.2 j j.2).trans (Fin.sum_univ_eq_sum_range (fun x => B i x * T x j) n').symm
  unfold rk
  rw [this]
  exact Matrix.rank_mul_le_left _ _

/-! ### above the diagonal -/

/-- the blocks `0, …, b` of rows are described -/
structure UpFacts (N s : ℕ) (α U V W : ℕ → ℕ → K) (hh : ℕ → ℕ → ℕ → K) (b : ℕ) : Prop where
  prod : ∀ i ≤ b, ∀ a < s, ∀ j, (i + 1) * s ≤ j → j < N → α (i * s + a) j = ∑ l ∈ range s, U (i * s + a) l * hh i l j
  chain : ∀ i < b, ∀ l < s, ∀ j, (i + 2) * s ≤ j → j < N → hh i l j = ∑ x ∈ range s, W (i * s + l) x * hh (i + 1) x j
  first : ∀ i ≤ b, ∀ l < s, ∀ y < s, (i + 1) * s + y < N → hh i l ((i + 1) * s + y) = V (i * s + l) y
  span : ∃ T : ℕ → ℕ → K, ∀ l < s, ∀ j, (b + 1) * s ≤ j → j < N → hh b l j = ∑ i ∈ range ((b + 1) * s), T l i * α i j

section up
variable {N s b : ℕ} {α U V W U' V' W' : ℕ → ℕ → K} {hh : ℕ → ℕ → ℕ → K}

/-- the matrix decomposed in iteration `b` -/
def upY (s b : ℕ) (α : ℕ → ℕ → K) (H : ℕ → ℕ → K) : ℕ → ℕ → K :=
  fun i j => if i < s then H i ((b + 2) * s + j) else α ((b + 1) * s + (i - s)) ((b + 2) * s + j)

lemma upY_span (h : UpFacts N s α U V W hh b) : ∃ T : ℕ → ℕ → K, ∀ i < 2 * s, ∀ j < N - (b + 2) * s,
    upY s b α (hh b) i j = ∑ x ∈ range ((b + 2) * s), T i x * α x ((b + 2) * s + j) := by
  obtain ⟨T, hT⟩ := h.span
  have e : (b + 2) * s = (b + 1) * s + s := by ring
  refine ⟨fun i x => if i < s then (if x < (b + 1) * s then T i x else 0) else (if x = (b + 1) * s + (i - s) then 1 else 0), fun i hi j hj => ?_⟩
  unfold upY
  by_cases c : i < s
  · simp only [if_pos c]
    rw [hT i c _ (by omega) (by omega), show range ((b + 2) * s) = range ((b + 1) * s + s) by rw [e], sum_range_add,
      sum_eq_zero (s := range s), add_zero]
    · exact sum_congr rfl (fun x hx => by rw [if_pos (mem_range.1 hx)])
    · intro x _
      rw [if_neg (by omega), zero_mul]
  · simp only [if_neg c]
    rw [sum_eq_single ((b + 1) * s + (i - s))]
    · simp
    · intro x _ hx; simp [hx]
    · intro hn; exact absurd (mem_range.2 (by omega)) hn

lemma upY_rank (h : UpFacts N s α U V W hh b) (hQ : QuasiSep N s α) (hb : (b + 2) * s < N) :
    rk (upY s b α (hh b)) (2 * s) (N - (b + 2) * s) ≤ s := by
  obtain ⟨T, hT⟩ := upY_span h
  exact (rk_le_rows T hT).trans (hQ (b + 2) hb).1

/-- the first block of rows -/
lemma UpFacts.start {Z : ℕ → ℕ → K} {p q : Equiv.Perm ℕ} {r : ℕ} (F : Fac .nonUnit s (N - s) (fun i j => α i (s + j)) Z p q r)
    (hU : ∀ a < s, ∀ l < s, U a l = facL Z p r a l) (hV : ∀ l < s, ∀ y < s, s + y < N → V l y = facU Z q r l y) :
    UpFacts N s α U V W (fun _ l j => facU Z q r l (j - s)) 0 := by
  refine ⟨fun i hi a ha j h1 h2 => ?_, fun i hi => absurd hi (Nat.not_lt_zero _), fun i hi l hl y hy hN => ?_, ?_⟩
  · obtain rfl : i = 0 := by omega
    simp only [Nat.zero_mul, Nat.zero_add, Nat.one_mul] at h1 ⊢
    have := fac_prod F F.rM ha (show j - s < N - s by omega)
    rw [show s + (j - s) = j by omega] at this
    rw [this]
    exact sum_congr rfl (fun l hl => by rw [hU a ha l (mem_range.1 hl)])
  · obtain rfl : i = 0 := by omega
    simp only [Nat.zero_mul, Nat.zero_add, Nat.one_mul] at hN ⊢
    rw [hV l hl y hy hN, Nat.add_sub_cancel_left]
  · obtain ⟨T, hT⟩ := fac_rows F
    refine ⟨T, fun l hl j h1 h2 => ?_⟩
    simp only [Nat.zero_add, Nat.one_mul] at h1 ⊢
    rw [hT l (j - s) (by omega)]
    rw [show s + (j - s) = j by omega]

/-- one more block of rows -/
lemma UpFacts.next {Z : ℕ → ℕ → K} {p q : Equiv.Perm ℕ} {r : ℕ} (h : UpFacts N s α U V W hh b)
    (F : Fac .nonUnit (2 * s) (N - (b + 2) * s) (upY s b α (hh b)) Z p q r) (hr : r ≤ s)
    (oU : ∀ i < (b + 1) * s, ∀ l < s, U' i l = U i l) (oV : ∀ i < (b + 1) * s, ∀ l < s, V' i l = V i l) (oW : ∀ i < b * s, ∀ l < s, W' i l = W i l)
    (nU : ∀ a < s, ∀ l < s, U' ((b + 1) * s + a) l = facL Z p r (s + a) l) (nW : ∀ a < s, ∀ l < s, W' (b * s + a) l = facL Z p r a l)
    (nV : ∀ l < s, ∀ y < s, (b + 2) * s + y < N → V' ((b + 1) * s + l) y = facU Z q r l y) :
    UpFacts N s α U' V' W' (Function.update hh (b + 1) (fun l j => facU Z q r l (j - (b + 2) * s))) (b + 1) := by
  have mb : ∀ i ≤ b, i * s + s ≤ (b + 1) * s := fun i hi => by
    calc i * s + s = (i + 1) * s := by ring
      _ ≤ _ := Nat.mul_le_mul_right _ (by omega)
  have mb' : ∀ i < b, i * s + s ≤ b * s := fun i hi => by
    calc i * s + s = (i + 1) * s := by ring
      _ ≤ _ := Nat.mul_le_mul_right _ (by omega)
  refine ⟨fun i hi a ha j h1 h2 => ?_, fun i hi l hl j h1 h2 => ?_, fun i hi l hl y hy hN => ?_, ?_⟩
  · by_cases c : i = b + 1
    · subst c
      rw [Function.update_self]
      have e2 : (b + 1 + 1) * s = (b + 2) * s := by ring
      rw [e2] at h1
      have := fac_prod F hr (show s + a < 2 * s by omega) (show j - (b + 2) * s < N - (b + 2) * s by omega)
      unfold upY at this
      rw [if_neg (by omega), Nat.add_sub_cancel_left, show (b + 2) * s + (j - (b + 2) * s) = j by omega] at this
      rw [this]
      exact sum_congr rfl (fun l hl => by rw [nU a ha l (mem_range.1 hl)])
    · rw [Function.update_of_ne c, h.prod i (by omega) a ha j h1 h2]
      have := mb i (by omega)
      exact sum_congr rfl (fun l hl => by rw [oU _ (by omega) l (mem_range.1 hl)])
  · rw [Function.update_of_ne (by omega)]
    by_cases c : i = b
    · subst c
      rw [Function.update_self]
      have := fac_prod F hr (show l < 2 * s by omega) (show j - (i + 2) * s < N - (i + 2) * s by omega)
      unfold upY at this
      rw [if_pos hl, show (i + 2) * s + (j - (i + 2) * s) = j by omega] at this
      rw [this]
      exact sum_congr rfl (fun x hx => by rw [nW l hl x (mem_range.1 hx)])
    · rw [Function.update_of_ne (by omega), h.chain i (by omega) l hl j h1 h2]
      have := mb' i (by omega)
      exact sum_congr rfl (fun x hx => by rw [oW _ (by omega) x (mem_range.1 hx)])
  · by_cases c : i = b + 1
    · subst c
      rw [Function.update_self]
      have e2 : (b + 1 + 1) * s = (b + 2) * s := by ring
      rw [e2] at hN ⊢
      rw [Nat.add_sub_cancel_left, nV l hl y hy hN]
    · have := mb i (by omega)
      rw [Function.update_of_ne c, h.first i (by omega) l hl y hy hN, oV _ (by omega) y hy]
  · obtain ⟨T1, hT1⟩ := fac_rows F
    obtain ⟨T2, hT2⟩ := upY_span h
    refine ⟨fun l i => ∑ x ∈ range (2 * s), T1 l x * T2 x i, fun l hl j h1 h2 => ?_⟩
    have e2 : (b + 1 + 1) * s = (b + 2) * s := by ring
    rw [e2] at h1 ⊢
    rw [Function.update_self, hT1 l _ (by omega)]
    simp only [sum_mul]
    rw [sum_comm]
    refine sum_congr rfl (fun x hx => ?_)
    rw [hT2 x (mem_range.1 hx) _ (by omega), mul_sum, show (b + 2) * s + (j - (b + 2) * s) = j by omega]
    exact sum_congr rfl (fun _ _ => by ring)

lemma sub_aux' {a b : ℕ} (h : a < b) : a + (b - 1 - a) = b - 1 := by omega

lemma sub_aux {a b : ℕ} (h : a < b) : a + (b - 1 - a) + 1 = b := by omega

lemma UpFacts.hh_eq {G : Sss K} (h : UpFacts N s α G.U G.V G.W hh b) (d i y l : ℕ) (hd : i + d ≤ b) (hl : l < s) (hy : y < s)
    (hN : (i + d + 1) * s + y < N) : hh i l ((i + d + 1) * s + y) = wvChain G s (i + d) d l y := by
  induction d generalizing i l with
  | zero => rw [Nat.add_zero, h.first i (by omega) l hl y hy hN]; rfl
  | succ d ih =>
    have e : (i + (d + 1) + 1) * s + y = (i + 1 + d + 1) * s + y := by ring
    rw [h.chain i (by omega) l hl _ ?_ hN]
    · simp only [wvChain]
      rw [show i + (d + 1) - (d + 1) = i by omega]
      refine sum_congr rfl (fun x hx => ?_)
      rw [e, ih (i + 1) x (by omega) (mem_range.1 hx) (by rw [← e]; exact hN), show i + 1 + d = i + (d + 1) by omega]
    · calc (i + 2) * s ≤ (i + (d + 1) + 1) * s := Nat.mul_le_mul_right _ (by omega)
        _ ≤ _ := Nat.le_add_right _ _

/-- the part above the diagonal -/
lemma UpFacts.final {G : Sss K} {k ls : ℕ} (h : UpFacts N s α G.U G.V G.W hh b) (h2 : ls ≤ s) (hN : N = (k - 1) * s + ls) (hb : b + 2 = k)
    {i j : ℕ} (hj : j < N) (hij : i / s < j / s) : sssMat G s i j = α i j := by
  have hs : 0 < s := by
    rcases Nat.eq_zero_or_pos s with rfl | h
    · simp at hij
    · exact h
  have ei : i / s * s + i % s = i := by rw [Nat.mul_comm]; exact Nat.div_add_mod i s
  have ej : j / s * s + j % s = j := by rw [Nat.mul_comm]; exact Nat.div_add_mod j s
  have hi' := Nat.mod_lt i hs
  have hj' := Nat.mod_lt j hs
  have hjk : j / s < k := by
    refine Nat.div_lt_of_lt_mul ?_
    have : s * k = (k - 1) * s + s := by
      conv_lhs => rw [show k = k - 1 + 1 by omega]
      ring
    omega
  unfold sssMat
  rw [if_neg (by omega), if_pos hij]
  have l1 : (i / s + 1) * s ≤ j := by
    calc (i / s + 1) * s ≤ j / s * s := Nat.mul_le_mul_right _ hij
      _ ≤ j := by omega
  have := h.prod (i / s) (by omega) (i % s) hi' j l1 hj
  rw [ei] at this ⊢
  rw [this]
  refine sum_congr rfl (fun l hl => ?_)
  have e1 : i / s + (j / s - 1 - i / s) + 1 = j / s := sub_aux hij
  have := h.hh_eq (j / s - 1 - i / s) (i / s) (j % s) l (by rw [sub_aux' hij]; omega) (mem_range.1 hl) hj' (by rw [e1, ej]; exact hj)
  rw [e1, ej] at this
  rw [this, sub_aux' hij]

end up

/-! ### below the diagonal -/

/-- the blocks `0, …, b` of columns are described -/
structure LowFacts (N s : ℕ) (α P Q R : ℕ → ℕ → K) (gg : ℕ → ℕ → ℕ → K) (b : ℕ) : Prop where
  prod : ∀ j ≤ b, ∀ a < s, ∀ i, (j + 1) * s ≤ i → i < N → α i (j * s + a) = ∑ l ∈ range s, gg j i l * Q (j * s + l) a
  chain : ∀ j < b, ∀ l < s, ∀ i, (j + 2) * s ≤ i → i < N → gg j i l = ∑ x ∈ range s, gg (j + 1) i x * R (j * s + x) l
  first : ∀ j ≤ b, ∀ l < s, ∀ y < s, (j + 1) * s + y < N → gg j ((j + 1) * s + y) l = P (j * s + y) l
  span : ∃ T : ℕ → ℕ → K, ∀ l < s, ∀ i, (b + 1) * s ≤ i → i < N → gg b i l = ∑ j ∈ range ((b + 1) * s), α i j * T j l

section low
variable {N s b : ℕ} {α P Q R P' Q' R' : ℕ → ℕ → K} {gg : ℕ → ℕ → ℕ → K}

/-- the matrix decomposed in iteration `b` -/
def lowY (s b : ℕ) (α : ℕ → ℕ → K) (H : ℕ → ℕ → K) : ℕ → ℕ → K :=
  fun i j => if j < s then H ((b + 2) * s + i) j else α ((b + 2) * s + i) ((b + 1) * s + (j - s))

lemma lowY_span (h : LowFacts N s α P Q R gg b) : ∃ T : ℕ → ℕ → K, ∀ i < N - (b + 2) * s, ∀ j < 2 * s,
    lowY s b α (gg b) i j = ∑ x ∈ range ((b + 2) * s), α ((b + 2) * s + i) x * T x j := by
  obtain ⟨T, hT⟩ := h.span
  have e : (b + 2) * s = (b + 1) * s + s := by ring
  refine ⟨fun x j => if j < s then (if x < (b + 1) * s then T x j else 0) else (if x = (b + 1) * s + (j - s) then 1 else 0), fun i hi j hj => ?_⟩
  unfold lowY
  by_cases c : j < s
  · simp only [if_pos c]
    rw [hT j c _ (by omega) (by omega), show range ((b + 2) * s) = range ((b + 1) * s + s) by rw [e], sum_range_add,
      sum_eq_zero (s := range s), add_zero]
    · exact sum_congr rfl (fun x hx => by rw [if_pos (mem_range.1 hx)])
    · intro x _
      rw [if_neg (by omega), mul_zero]
  · simp only [if_neg c]
    rw [sum_eq_single ((b + 1) * s + (j - s))]
    · simp
    · intro x _ hx; simp [hx]
    · intro hn; exact absurd (mem_range.2 (by omega)) hn

lemma lowY_rank (h : LowFacts N s α P Q R gg b) (hQ : QuasiSep N s α) (hb : (b + 2) * s < N) :
    rk (lowY s b α (gg b)) (N - (b + 2) * s) (2 * s) ≤ s := by
  obtain ⟨T, hT⟩ := lowY_span h
  exact (rk_le_cols T hT).trans (hQ (b + 2) hb).2

/-- the first block of columns -/
lemma LowFacts.start {Z : ℕ → ℕ → K} {p q : Equiv.Perm ℕ} {r : ℕ} (F : Fac .nonUnit (N - s) s (fun i j => α (s + i) j) Z p q r)
    (hQ : ∀ l < s, ∀ a < s, Q l a = facU Z q r l a) (hP : ∀ y < s, ∀ l < s, s + y < N → P y l = facL Z p r y l) :
    LowFacts N s α P Q R (fun _ i l => facL Z p r (i - s) l) 0 := by
  refine ⟨fun j hj a ha i h1 h2 => ?_, fun i hi => absurd hi (Nat.not_lt_zero _), fun j hj l hl y hy hN => ?_, ?_⟩
  · obtain rfl : j = 0 := by omega
    simp only [Nat.zero_mul, Nat.zero_add, Nat.one_mul] at h1 ⊢
    have := fac_prod F F.rN (show i - s < N - s by omega) ha
    rw [show s + (i - s) = i by omega] at this
    rw [this]
    exact sum_congr rfl (fun l hl => by rw [hQ l (mem_range.1 hl) a ha])
  · obtain rfl : j = 0 := by omega
    simp only [Nat.zero_mul, Nat.zero_add, Nat.one_mul] at hN ⊢
    rw [hP y hy l hl hN, Nat.add_sub_cancel_left]
  · obtain ⟨T, hT⟩ := fac_cols F
    refine ⟨T, fun l hl i h1 h2 => ?_⟩
    simp only [Nat.zero_add, Nat.one_mul] at h1 ⊢
    rw [hT (i - s) l (by omega)]
    rw [show s + (i - s) = i by omega]

/-- one more block of columns -/
lemma LowFacts.next {Z : ℕ → ℕ → K} {p q : Equiv.Perm ℕ} {r : ℕ} (h : LowFacts N s α P Q R gg b)
    (F : Fac .nonUnit (N - (b + 2) * s) (2 * s) (lowY s b α (gg b)) Z p q r) (hr : r ≤ s)
    (oQ : ∀ i < (b + 1) * s, ∀ l < s, Q' i l = Q i l) (oP : ∀ i < (b + 1) * s, ∀ l < s, P' i l = P i l) (oR : ∀ i < b * s, ∀ l < s, R' i l = R i l)
    (nQ : ∀ l < s, ∀ a < s, Q' ((b + 1) * s + l) a = facU Z q r l (s + a)) (nR : ∀ x < s, ∀ l < s, R' (b * s + x) l = facU Z q r x l)
    (nP : ∀ y < s, ∀ l < s, (b + 2) * s + y < N → P' ((b + 1) * s + y) l = facL Z p r y l) :
    LowFacts N s α P' Q' R' (Function.update gg (b + 1) (fun i l => facL Z p r (i - (b + 2) * s) l)) (b + 1) := by
  have mb : ∀ i ≤ b, i * s + s ≤ (b + 1) * s := fun i hi => by
    calc i * s + s = (i + 1) * s := by ring
      _ ≤ _ := Nat.mul_le_mul_right _ (by omega)
  have mb' : ∀ i < b, i * s + s ≤ b * s := fun i hi => by
    calc i * s + s = (i + 1) * s := by ring
      _ ≤ _ := Nat.mul_le_mul_right _ (by omega)
  refine ⟨fun j hj a ha i h1 h2 => ?_, fun j hj l hl i h1 h2 => ?_, fun j hj l hl y hy hN => ?_, ?_⟩
  · by_cases c : j = b + 1
    · subst c
      rw [Function.update_self]
      have e2 : (b + 1 + 1) * s = (b + 2) * s := by ring
      rw [e2] at h1
      have := fac_prod F hr (show i - (b + 2) * s < N - (b + 2) * s by omega) (show s + a < 2 * s by omega)
      unfold lowY at this
      rw [if_neg (by omega), Nat.add_sub_cancel_left, show (b + 2) * s + (i - (b + 2) * s) = i by omega] at this
      rw [this]
      exact sum_congr rfl (fun l hl => by rw [nQ l (mem_range.1 hl) a ha])
    · rw [Function.update_of_ne c, h.prod j (by omega) a ha i h1 h2]
      have := mb j (by omega)
      refine sum_congr rfl (fun l hl => ?_)
      have := mem_range.1 hl
      rw [oQ _ (by omega) a ha]
  · rw [Function.update_of_ne (by omega)]
    by_cases c : j = b
    · subst c
      rw [Function.update_self]
      have := fac_prod F hr (show i - (j + 2) * s < N - (j + 2) * s by omega) (show l < 2 * s by omega)
      unfold lowY at this
      rw [if_pos hl, show (j + 2) * s + (i - (j + 2) * s) = i by omega] at this
      rw [this]
      exact sum_congr rfl (fun x hx => by rw [nR x (mem_range.1 hx) l hl])
    · rw [Function.update_of_ne (by omega), h.chain j (by omega) l hl i h1 h2]
      have := mb' j (by omega)
      refine sum_congr rfl (fun x hx => ?_)
      have := mem_range.1 hx
      rw [oR _ (by omega) l hl]
  · by_cases c : j = b + 1
    · subst c
      rw [Function.update_self]
      have e2 : (b + 1 + 1) * s = (b + 2) * s := by ring
      rw [e2] at hN ⊢
      rw [Nat.add_sub_cancel_left, nP y hy l hl hN]
    · have := mb j (by omega)
      rw [Function.update_of_ne c, h.first j (by omega) l hl y hy hN, oP _ (by omega) l hl]
  · obtain ⟨T1, hT1⟩ := fac_cols F
    obtain ⟨T2, hT2⟩ := lowY_span h
    refine ⟨fun i l => ∑ x ∈ range (2 * s), T2 i x * T1 x l, fun l hl i h1 h2 => ?_⟩
    have e2 : (b + 1 + 1) * s = (b + 2) * s := by ring
    rw [e2] at h1 ⊢
    rw [Function.update_self, hT1 _ l (by omega)]
    simp only [mul_sum]
    rw [sum_comm]
    refine sum_congr rfl (fun x hx => ?_)
    rw [hT2 _ (by omega) x (mem_range.1 hx), sum_mul, show (b + 2) * s + (i - (b + 2) * s) = i by omega]
    exact sum_congr rfl (fun _ _ => by ring)

lemma LowFacts.gg_eq {G : Sss K} (h : LowFacts N s α G.P G.Q G.R gg b) (c d a i : ℕ) (hd : c + d ≤ b) (ha : a < s)
    (hi : (c + d + 1) * s ≤ i) (hN : i < N) : ∑ l ∈ range s, gg (c + d) i l * rqChain G s c d l a = α i (c * s + a) := by
  induction d with
  | zero => exact (h.prod c (by omega) a ha i hi hN).symm
  | succ d ih =>
    rw [← ih (by omega) (le_trans (Nat.mul_le_mul_right _ (by omega)) hi)]
    simp only [rqChain, mul_sum]
    rw [sum_comm]
    refine sum_congr rfl (fun x hx => ?_)
    rw [h.chain (c + d) (by omega) x (mem_range.1 hx) i (le_of_eq_of_le (by ring) hi) hN, sum_mul]
    exact sum_congr rfl (fun l _ => by rw [show c + (d + 1) = c + d + 1 by omega]; ring)

/-- the part below the diagonal -/
lemma LowFacts.final {G : Sss K} {k ls : ℕ} (h : LowFacts N s α G.P G.Q G.R gg b) (h2 : ls ≤ s) (hN : N = (k - 1) * s + ls) (hb : b + 2 = k)
    {i j : ℕ} (hi : i < N) (hij : j / s < i / s) : sssMat G s i j = α i j := by
  have hs : 0 < s := by
    rcases Nat.eq_zero_or_pos s with rfl | h
    · simp at hij
    · exact h
  have ei : i / s * s + i % s = i := by rw [Nat.mul_comm]; exact Nat.div_add_mod i s
  have ej : j / s * s + j % s = j := by rw [Nat.mul_comm]; exact Nat.div_add_mod j s
  have hi' := Nat.mod_lt i hs
  have hj' := Nat.mod_lt j hs
  have hik : i / s < k := by
    refine Nat.div_lt_of_lt_mul ?_
    have : s * k = (k - 1) * s + s := by
      conv_lhs => rw [show k = k - 1 + 1 by omega]
      ring
    omega
  unfold sssMat
  rw [if_pos hij]
  have e1 : j / s + (i / s - 1 - j / s) + 1 = i / s := sub_aux hij
  have := h.gg_eq (j / s) (i / s - 1 - j / s) (j % s) i (by rw [sub_aux' hij]; omega) hj' (by rw [e1]; omega) hi
  rw [ej] at this
  rw [← this]
  refine sum_congr rfl (fun l hl => ?_)
  have e2 : i / s - 1 + 1 = i / s := Nat.sub_add_cancel (Nat.lt_of_le_of_lt (Nat.zero_le _) hij)
  have := h.first (i / s - 1) (by omega) l (mem_range.1 hl) (i % s) hi' (by rw [e2, ei]; exact hi)
  rw [e2, ei] at this
  rw [← this, sub_aux' hij]

end low

end Verif.Spec
