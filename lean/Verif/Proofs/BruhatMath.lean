import Verif.Proofs.PluqRank

/-!
# Bruhat generators: the algebra

The factors encoded by a Bruhat generator, and how the generator of a matrix is put together from those of its parts.
-/

namespace Verif.Bruhat

open Finset Verif.Spec Verif.Spec.Perm Verif.Pluq

variable {K : Type} [Field K]

/-- entry `i` of the column (row) of a factor belonging to pivot `k`: zero before the pivot and at earlier pivots -/
def bf (dg : K) (v : ℕ → K) (p : ℕ → ℕ) (k i : ℕ) : K :=
  if i < p k then 0 else if i = p k then dg else if ∃ a < k, p a = i then 0 else v i

/-- column of the lower factor -/
def bl (d : Diag) (V : ℕ → ℕ → K) (p q : ℕ → ℕ) (k i : ℕ) : K := bf (dsel d (V (p k) (q k)) 1) (fun i => V i (q k)) p k i

/-- row of the upper factor -/
def bu (d : Diag) (V : ℕ → ℕ → K) (p q : ℕ → ℕ) (k j : ℕ) : K := bf (dsel d 1 (V (p k) (q k))) (fun j => V (p k) j) q k j

/-- `V`, `p`, `q` are a Bruhat generator of the left triangular part of `X` -/
structure BF (d : Diag) (N : ℕ) (X V : ℕ → ℕ → K) (p q : ℕ → ℕ) (r : ℕ) : Prop where
  bd : ∀ k < r, p k + q k + 1 < N
  injP : ∀ k < r, ∀ k' < r, p k = p k' → k = k'
  injQ : ∀ k < r, ∀ k' < r, q k = q k' → k = k'
  piv : ∀ k < r, V (p k) (q k) ≠ 0
  fac : ∀ i j, i + j + 1 < N → X i j = ∑ k ∈ range r, bl d V p q k i * bu d V p q k j
  zr : ∀ i < N, (∀ j < N, X i j = 0) → ∀ j, i + j + 1 < N → V i j = 0
  zc : ∀ j < N, (∀ i < N, X i j = 0) → ∀ i, i + j + 1 < N → V i j = 0

section
variable {dg dg' : K} {v v' : ℕ → K} {p p' : ℕ → ℕ} {k k' i i' : ℕ}

lemma bf_lt (h : i < p k) : bf dg v p k i = 0 := if_pos h

lemma bf_self : bf dg v p k (p k) = dg := by simp [bf]

lemma bf_old {a : ℕ} (ha : a < k) (e : p a = i) (hn : p k ≠ i) : bf dg v p k i = 0 := by
  unfold bf
  split_ifs with h1 h2 h3
  · rfl
  · exact absurd h2.symm hn
  · rfl
  · exact absurd ⟨a, ha, e⟩ h3

lemma bf_new (h : p k < i) (hn : ∀ a < k, p a ≠ i) : bf dg v p k i = v i := by
  unfold bf
  rw [if_neg (by omega), if_neg (by omega), if_neg]
  rintro ⟨a, ha, e⟩
  exact hn a ha e

lemma bf_zero (h : p k ≠ i) (hv : v i = 0) : bf dg v p k i = 0 := by
  unfold bf
  split_ifs with h1 h2 h3
  · rfl
  · exact absurd h2.symm h
  · rfl
  · exact hv

lemma bf_eq (h1 : i < p k ↔ i' < p' k') (h2 : i = p k ↔ i' = p' k') (hd : i = p k → dg = dg')
    (h3 : p k < i → ∀ a < k, p a = i → bf dg' v' p' k' i' = 0) (h4 : p k < i → (∀ a < k, p a ≠ i) → bf dg' v' p' k' i' = v i) :
    bf dg v p k i = bf dg' v' p' k' i' := by
  rcases Nat.lt_trichotomy i (p k) with h | h | h
  · rw [bf_lt h, bf_lt (h1.1 h)]
  · have e := h2.1 h
    subst h e
    rw [bf_self, bf_self, hd rfl]
  · by_cases c : ∃ a < k, p a = i
    · obtain ⟨a, ha, e⟩ := c
      rw [bf_old ha e (by omega), h3 h a ha e]
    · push_neg at c
      rw [bf_new h c, h4 h c]

end

variable {d : Diag}

lemma bl_self {V : ℕ → ℕ → K} {p q : ℕ → ℕ} {k : ℕ} : bl d V p q k (p k) = dsel d (V (p k) (q k)) 1 := bf_self
lemma bu_self {V : ℕ → ℕ → K} {p q : ℕ → ℕ} {k : ℕ} : bu d V p q k (q k) = dsel d 1 (V (p k) (q k)) := bf_self

lemma luL_dsel {V : ℕ → ℕ → K} {k : ℕ} : luL d V k k = dsel d (V k k) 1 := by
  cases d
  · exact luL_diag_nonUnit
  · exact luL_diag_unit
lemma luU_dsel {V : ℕ → ℕ → K} {k : ℕ} : luU d V k k = dsel d 1 (V k k) := by
  cases d
  · exact luU_diag_nonUnit
  · exact luU_diag_unit

lemma dsel_ne {x : K} (h : x ≠ 0) : dsel d x 1 ≠ 0 := by cases d <;> simp [dsel, h]
lemma dsel_ne' {x : K} (h : x ≠ 0) : dsel d 1 x ≠ 0 := by cases d <;> simp [dsel, h]

/-- a row vector killed by an upper triangular matrix -/
lemma kerU {V : ℕ → ℕ → K} {r : ℕ} {x : ℕ → K} (hp : ∀ k < r, V k k ≠ 0) (h : ∀ j < r, ∑ l ∈ range r, x l * luU d V l j = 0) :
    ∀ l < r, x l = 0 := by
  intro l
  induction l using Nat.strong_induction_on with
  | _ l ih =>
    intro hl
    have e := h l hl
    rw [sum_eq_single l] at e
    · exact (mul_eq_zero.1 e).resolve_right (by rw [luU_dsel]; exact dsel_ne' (hp l hl))
    · intro b hb hbl
      have hb := mem_range.1 hb
      rcases Nat.lt_or_gt_of_ne hbl with h1 | h1
      · rw [ih b h1 hb, zero_mul]
      · rw [luU_gt h1, mul_zero]
    · intro hn; exact absurd (mem_range.2 hl) hn

/-- a column vector killed by a lower triangular matrix -/
lemma kerL {V : ℕ → ℕ → K} {r : ℕ} {x : ℕ → K} (hp : ∀ k < r, V k k ≠ 0) (h : ∀ i < r, ∑ l ∈ range r, luL d V i l * x l = 0) :
    ∀ l < r, x l = 0 := by
  intro l
  induction l using Nat.strong_induction_on with
  | _ l ih =>
    intro hl
    have e := h l hl
    rw [sum_eq_single l] at e
    · exact (mul_eq_zero.1 e).resolve_left (by rw [luL_dsel]; exact dsel_ne (hp l hl))
    · intro b hb hbl
      have hb := mem_range.1 hb
      rcases Nat.lt_or_gt_of_ne hbl with h1 | h1
      · rw [ih b h1 hb, mul_zero]
      · rw [luL_gt h1, zero_mul]
    · intro hn; exact absurd (mem_range.2 hl) hn

/-- the parts from which a generator is put together -/
structure Comb (d : Diag) (n1 n2 : ℕ) (X V1 D E H G V2 V3 V : ℕ → ℕ → K) (p q p2 q2 p3 q3 P Q s t : ℕ → ℕ) (r1 r2 r3 : ℕ) : Prop where
  f1 : Fac d n1 n2 X V1 p q r1
  hs : ∀ x < n1, s x < n1 ∧ p (s x) = x
  ht : ∀ y < n2, t y < n2 ∧ q (t y) = y
  f2 : BF d n1 H V2 p2 q2 r2
  f3 : BF d n2 G V3 p3 q3 r3
  hH : ∀ i < n1, ∀ j < n1, X i (n2 + j) = H i j + ∑ l ∈ range r1, luL d V1 (s i) l * D l j
  hG : ∀ i < n2, ∀ j < n2, X (n1 + i) j = G i j + ∑ l ∈ range r1, E i l * luU d V1 l (t j)
  hH0 : ∀ k < r1, ∀ j < n1, H (p k) j = 0
  hG0 : ∀ k < r1, ∀ i < n2, G i (q k) = 0
  vA : ∀ i < n1, ∀ j < n2, V i j = V1 (s i) (t j)
  vD : ∀ k < r1, ∀ j, p k + j + 1 < n1 → V (p k) (n2 + j) = D k j
  v2 : ∀ i j, i + j + 1 < n1 → (∀ k < r1, p k ≠ i) → V i (n2 + j) = V2 i j
  vE : ∀ k < r1, ∀ i, i + q k + 1 < n2 → V (n1 + i) (q k) = E i k
  v3 : ∀ i j, i + j + 1 < n2 → (∀ k < r1, q k ≠ j) → V (n1 + i) j = V3 i j
  hP1 : ∀ k < r1, P k = p k
  hP2 : ∀ k < r2, P (r1 + k) = p2 k
  hP3 : ∀ k < r3, P (r1 + r2 + k) = n1 + p3 k
  hQ1 : ∀ k < r1, Q k = q k
  hQ2 : ∀ k < r2, Q (r1 + k) = n2 + q2 k
  hQ3 : ∀ k < r3, Q (r1 + r2 + k) = q3 k

namespace Comb
variable {n1 n2 : ℕ} {X V1 D E H G V2 V3 V : ℕ → ℕ → K} {p q p2 q2 p3 q3 P Q s t : ℕ → ℕ} {r1 r2 r3 : ℕ}

section
variable (c : Comb d n1 n2 X V1 D E H G V2 V3 V p q p2 q2 p3 q3 P Q s t r1 r2 r3)
include c

lemma sp {k : ℕ} (hk : k < r1) : s (p k) = k := by
  have r := c.f1.rM
  have := c.hs (p k) (c.f1.pP.1 k (by omega))
  exact c.f1.pP.2 _ this.1 _ (by omega) this.2

lemma tq {k : ℕ} (hk : k < r1) : t (q k) = k := by
  have r := c.f1.rN
  have := c.ht (q k) (c.f1.pQ.1 k (by omega))
  exact c.f1.pQ.2 _ this.1 _ (by omega) this.2

lemma p_lt {k : ℕ} (hk : k < r1) : p k < n1 := c.f1.pP.1 k (by have := c.f1.rM; omega)
lemma q_lt {k : ℕ} (hk : k < r1) : q k < n2 := c.f1.pQ.1 k (by have := c.f1.rN; omega)
lemma p2_lt {k : ℕ} (hk : k < r2) : p2 k < n1 := by have := c.f2.bd k hk; omega
lemma q2_lt {k : ℕ} (hk : k < r2) : q2 k < n1 := by have := c.f2.bd k hk; omega
lemma p3_lt {k : ℕ} (hk : k < r3) : p3 k < n2 := by have := c.f3.bd k hk; omega
lemma q3_lt {k : ℕ} (hk : k < r3) : q3 k < n2 := by have := c.f3.bd k hk; omega

/-- no pivot of the second part on a row of the first part -/
lemma p2_ne {k k' : ℕ} (hk : k < r2) (hk' : k' < r1) : p k' ≠ p2 k := fun e => by
  refine c.f2.piv k hk (c.f2.zr _ (c.p2_lt hk) (fun j hj => ?_) _ (c.f2.bd k hk))
  rw [← e]; exact c.hH0 k' hk' j hj

lemma q3_ne {k k' : ℕ} (hk : k < r3) (hk' : k' < r1) : q k' ≠ q3 k := fun e => by
  refine c.f3.piv k hk (c.f3.zc _ (c.q3_lt hk) (fun j hj => ?_) _ (c.f3.bd k hk))
  rw [← e]; exact c.hG0 k' hk' j hj

lemma V2_zero {k j : ℕ} (hk : k < r1) (hj : p k + j + 1 < n1) : V2 (p k) j = 0 :=
  c.f2.zr _ (c.p_lt hk) (c.hH0 k hk) j hj

lemma V3_zero {k i : ℕ} (hk : k < r1) (hi : i + q k + 1 < n2) : V3 i (q k) = 0 :=
  c.f3.zc _ (c.q_lt hk) (fun i hi => c.hG0 k hk i hi) i hi

lemma piv1 {k : ℕ} (hk : k < r1) : V (P k) (Q k) = V1 k k := by
  rw [c.hP1 k hk, c.hQ1 k hk, c.vA _ (c.p_lt hk) _ (c.q_lt hk), c.sp hk, c.tq hk]

lemma piv2 {k : ℕ} (hk : k < r2) : V (P (r1 + k)) (Q (r1 + k)) = V2 (p2 k) (q2 k) := by
  rw [c.hP2 k hk, c.hQ2 k hk]
  exact c.v2 _ _ (c.f2.bd k hk) (fun k' hk' => c.p2_ne hk hk')

lemma piv3 {k : ℕ} (hk : k < r3) : V (P (r1 + r2 + k)) (Q (r1 + r2 + k)) = V3 (p3 k) (q3 k) := by
  rw [c.hP3 k hk, c.hQ3 k hk]
  exact c.v3 _ _ (c.f3.bd k hk) (fun k' hk' => c.q3_ne hk hk')

lemma bl1 {k i : ℕ} (hk : k < r1) (hi : i < n1) : bl d V P Q k i = luL d V1 (s i) k := by
  obtain ⟨s1, s2⟩ := c.hs i hi
  unfold bl
  rw [c.piv1 hk]
  rcases Nat.lt_trichotomy i (p k) with h | h | h
  · rw [bf_lt (by rw [c.hP1 k hk]; exact h), c.f1.monoL k hk (s i) s1 (by rw [s2]; exact h)]
  · have e := c.sp hk
    rw [← h] at e
    rw [e, h, ← c.hP1 k hk, bf_self, luL_dsel]
  · by_cases hh : ∃ a < k, p a = i
    · obtain ⟨a, ha, e⟩ := hh
      rw [bf_old ha (by rw [c.hP1 a (by omega)]; exact e) (by rw [c.hP1 k hk]; omega), ← e, c.sp (show a < r1 by omega), luL_gt ha]
    · push_neg at hh
      rw [bf_new (by rw [c.hP1 k hk]; exact h) (fun a ha => by rw [c.hP1 a (by omega)]; exact hh a ha), c.hQ1 k hk, c.vA i hi _ (c.q_lt hk), c.tq hk,
        luL_lt]
      by_contra hc
      rcases Nat.lt_or_ge (s i) k with h1 | h1
      · exact hh _ h1 s2
      · have : s i = k := by omega
        rw [this] at s2; omega

lemma bu1 {k j : ℕ} (hk : k < r1) (hj : j < n2) : bu d V P Q k j = luU d V1 k (t j) := by
  obtain ⟨s1, s2⟩ := c.ht j hj
  unfold bu
  rw [c.piv1 hk]
  rcases Nat.lt_trichotomy j (q k) with h | h | h
  · rw [bf_lt (by rw [c.hQ1 k hk]; exact h), c.f1.monoU k hk (t j) s1 (by rw [s2]; exact h)]
  · have e := c.tq hk
    rw [← h] at e
    rw [e, h, ← c.hQ1 k hk, bf_self, luU_dsel]
  · by_cases hh : ∃ a < k, q a = j
    · obtain ⟨a, ha, e⟩ := hh
      rw [bf_old ha (by rw [c.hQ1 a (by omega)]; exact e) (by rw [c.hQ1 k hk]; omega), ← e, c.tq (show a < r1 by omega), luU_gt ha]
    · push_neg at hh
      rw [bf_new (by rw [c.hQ1 k hk]; exact h) (fun a ha => by rw [c.hQ1 a (by omega)]; exact hh a ha), c.hP1 k hk, c.vA _ (c.p_lt hk) j hj, c.sp hk,
        luU_lt]
      by_contra hc
      rcases Nat.lt_or_ge (t j) k with h1 | h1
      · exact hh _ h1 s2
      · have : t j = k := by omega
        rw [this] at s2; omega

lemma bl1' {k i : ℕ} (hk : k < r1) (hi : i + q k + 1 < n2) : bl d V P Q k (n1 + i) = E i k := by
  have h1 := c.p_lt hk
  unfold bl
  rw [bf_new (by rw [c.hP1 k hk]; omega) (fun a ha => by rw [c.hP1 a (by omega)]; have := c.p_lt (show a < r1 by omega); omega), c.hQ1 k hk,
    c.vE k hk i hi]

lemma bu1' {k j : ℕ} (hk : k < r1) (hj : p k + j + 1 < n1) : bu d V P Q k (n2 + j) = D k j := by
  have h1 := c.q_lt hk
  unfold bu
  rw [bf_new (by rw [c.hQ1 k hk]; omega) (fun a ha => by rw [c.hQ1 a (by omega)]; have := c.q_lt (show a < r1 by omega); omega), c.hP1 k hk,
    c.vD k hk j hj]

lemma bl2 {k i : ℕ} (hk : k < r2) (hi : i + q2 k + 1 < n1) : bl d V P Q (r1 + k) i = bl d V2 p2 q2 k i := by
  unfold bl
  rw [c.piv2 hk]
  refine bf_eq (by rw [c.hP2 k hk]) (by rw [c.hP2 k hk]) (fun _ => rfl) (fun h a ha e => ?_) (fun h hn => ?_)
  · rw [c.hP2 k hk] at h
    rcases Nat.lt_or_ge a r1 with h1 | h1
    · rw [c.hP1 a h1] at e
      subst e
      exact bf_zero (by omega) (c.V2_zero h1 hi)
    · obtain ⟨b, rfl⟩ := Nat.exists_eq_add_of_le h1
      rw [c.hP2 b (by omega)] at e
      exact bf_old (show b < k by omega) e (by omega)
  · rw [c.hP2 k hk] at h
    rw [bf_new h (fun a ha => by rw [← c.hP2 a (by omega)]; exact hn _ (by omega)), c.hQ2 k hk, c.v2 i _ hi]
    intro k' hk'
    rw [← c.hP1 k' hk']; exact hn _ (by omega)

lemma bu2 {k j : ℕ} (hk : k < r2) (hj : p2 k + j + 1 < n1) : bu d V P Q (r1 + k) (n2 + j) = bu d V2 p2 q2 k j := by
  unfold bu
  rw [c.piv2 hk]
  refine bf_eq (by rw [c.hQ2 k hk]; omega) (by rw [c.hQ2 k hk]; omega) (fun _ => rfl) (fun h a ha e => ?_) (fun h hn => ?_)
  · rw [c.hQ2 k hk] at h
    rcases Nat.lt_or_ge a r1 with h1 | h1
    · rw [c.hQ1 a h1] at e
      have := c.q_lt h1
      omega
    · obtain ⟨b, rfl⟩ := Nat.exists_eq_add_of_le h1
      rw [c.hQ2 b (by omega)] at e
      exact bf_old (show b < k by omega) (show q2 b = j by omega) (by omega)
  · rw [c.hQ2 k hk] at h
    rw [bf_new (by omega) (fun a ha => ?_), c.hP2 k hk, c.v2 _ _ hj (fun k' hk' => c.p2_ne hk hk')]
    have := hn (r1 + a) (by omega)
    rw [c.hQ2 a (by omega)] at this
    omega

lemma bu2_zero {k j : ℕ} (hk : k < r2) (hj : j < n2) : bu d V P Q (r1 + k) j = 0 := bf_lt (by rw [c.hQ2 k hk]; omega)

lemma bl3 {k i : ℕ} (hk : k < r3) (hi : i + q3 k + 1 < n2) : bl d V P Q (r1 + r2 + k) (n1 + i) = bl d V3 p3 q3 k i := by
  unfold bl
  rw [c.piv3 hk]
  refine bf_eq (by rw [c.hP3 k hk]; omega) (by rw [c.hP3 k hk]; omega) (fun _ => rfl) (fun h a ha e => ?_) (fun h hn => ?_)
  · rw [c.hP3 k hk] at h
    rcases Nat.lt_or_ge a r1 with h1 | h1
    · rw [c.hP1 a h1] at e
      have := c.p_lt h1
      omega
    · obtain ⟨b, rfl⟩ := Nat.exists_eq_add_of_le h1
      rcases Nat.lt_or_ge b r2 with h2 | h2
      · rw [c.hP2 b h2] at e
        have := c.p2_lt h2
        omega
      · obtain ⟨b, rfl⟩ := Nat.exists_eq_add_of_le h2
        rw [← Nat.add_assoc, c.hP3 b (by omega)] at e
        exact bf_old (show b < k by omega) (show p3 b = i by omega) (by omega)
  · rw [c.hP3 k hk] at h
    rw [bf_new (by omega) (fun a ha => ?_), c.hQ3 k hk, c.v3 _ _ hi (fun k' hk' => c.q3_ne hk hk')]
    have := hn (r1 + r2 + a) (by omega)
    rw [c.hP3 a (by omega)] at this
    omega

lemma bl3_zero {k i : ℕ} (hk : k < r3) (hi : i < n1) : bl d V P Q (r1 + r2 + k) i = 0 := bf_lt (by rw [c.hP3 k hk]; omega)

lemma bu3 {k j : ℕ} (hk : k < r3) (hj : p3 k + j + 1 < n2) : bu d V P Q (r1 + r2 + k) j = bu d V3 p3 q3 k j := by
  unfold bu
  rw [c.piv3 hk]
  refine bf_eq (by rw [c.hQ3 k hk]) (by rw [c.hQ3 k hk]) (fun _ => rfl) (fun h a ha e => ?_) (fun h hn => ?_)
  · rw [c.hQ3 k hk] at h
    rcases Nat.lt_or_ge a r1 with h1 | h1
    · rw [c.hQ1 a h1] at e
      subst e
      exact bf_zero (by omega) (c.V3_zero h1 hj)
    · obtain ⟨b, rfl⟩ := Nat.exists_eq_add_of_le h1
      rcases Nat.lt_or_ge b r2 with h2 | h2
      · rw [c.hQ2 b h2] at e
        omega
      · obtain ⟨b, rfl⟩ := Nat.exists_eq_add_of_le h2
        rw [← Nat.add_assoc, c.hQ3 b (by omega)] at e
        exact bf_old (show b < k by omega) e (by omega)
  · rw [c.hQ3 k hk] at h
    rw [bf_new h (fun a ha => by rw [← c.hQ3 a (by omega)]; exact hn _ (by omega)), c.hP3 k hk, c.v3 _ j hj]
    intro k' hk'
    rw [← c.hQ1 k' hk']; exact hn _ (by omega)

/-- a zero row of the leading block -/
lemma row0 {i : ℕ} (hi : i < n1) (h : ∀ j < n2, X i j = 0) : (∀ l < r1, luL d V1 (s i) l = 0) ∧ (∀ k < r1, p k ≠ i) ∧ ∀ j < n2, V1 (s i) j = 0 := by
  have rN := c.f1.rN
  obtain ⟨s1, s2⟩ := c.hs i hi
  have z : ∀ l < r1, luL d V1 (s i) l = 0 := by
    refine kerU (d := d) (V := V1) c.f1.piv (fun j hj => ?_)
    rw [← c.f1.fac (s i) s1 j (by omega), s2]
    exact h _ (c.f1.pQ.1 j (by omega))
  have np : ∀ k < r1, p k ≠ i := fun k hk e => by
    have := z k hk
    rw [← e, c.sp hk, luL_dsel] at this
    exact dsel_ne (c.f1.piv k hk) this
  have hge : r1 ≤ s i := by
    by_contra hc
    exact np _ (by omega) s2
  refine ⟨z, np, fun j hj => ?_⟩
  rcases Nat.lt_or_ge j r1 with h1 | h1
  · rw [← z j h1, luL_lt (by omega)]
  · exact c.f1.zero _ s1 _ hj hge h1

lemma col0 {j : ℕ} (hj : j < n2) (h : ∀ i < n1, X i j = 0) : (∀ l < r1, luU d V1 l (t j) = 0) ∧ (∀ k < r1, q k ≠ j) ∧ ∀ i < n1, V1 i (t j) = 0 := by
  have rM := c.f1.rM
  obtain ⟨s1, s2⟩ := c.ht j hj
  have z : ∀ l < r1, luU d V1 l (t j) = 0 := by
    refine kerL (d := d) (V := V1) c.f1.piv (fun i hi => ?_)
    rw [← c.f1.fac i (by omega) (t j) s1, s2]
    exact h _ (c.f1.pP.1 i (by omega))
  have np : ∀ k < r1, q k ≠ j := fun k hk e => by
    have := z k hk
    rw [← e, c.tq hk, luU_dsel] at this
    exact dsel_ne' (c.f1.piv k hk) this
  have hge : r1 ≤ t j := by
    by_contra hc
    exact np _ (by omega) s2
  refine ⟨z, np, fun i hi => ?_⟩
  rcases Nat.lt_or_ge i r1 with h1 | h1
  · rw [← z i h1, luU_lt (by omega)]
  · exact c.f1.zero _ hi _ s1 h1 hge

/-- the three groups of pivots -/
lemma cases {k : ℕ} (hk : k < r1 + r2 + r3) : k < r1 ∨ (∃ b < r2, k = r1 + b) ∨ ∃ b < r3, k = r1 + r2 + b := by
  rcases Nat.lt_or_ge k r1 with h | h
  · exact Or.inl h
  · rcases Nat.lt_or_ge k (r1 + r2) with h' | h'
    · exact Or.inr (Or.inl ⟨k - r1, by omega, by omega⟩)
    · exact Or.inr (Or.inr ⟨k - (r1 + r2), by omega, by omega⟩)

lemma injP : ∀ k < r1 + r2 + r3, ∀ k' < r1 + r2 + r3, P k = P k' → k = k' := by
  have rM := c.f1.rM
  intro k hk k' hk' e
  rcases c.cases hk with h | ⟨b, h, rfl⟩ | ⟨b, h, rfl⟩ <;> rcases c.cases hk' with h' | ⟨b', h', rfl⟩ | ⟨b', h', rfl⟩
  · rw [c.hP1 k h, c.hP1 k' h'] at e
    exact c.f1.pP.2 k (by omega) k' (by omega) e
  · rw [c.hP1 k h, c.hP2 b' h'] at e
    exact absurd e (c.p2_ne h' h)
  · rw [c.hP1 k h, c.hP3 b' h'] at e
    have := c.p_lt h
    omega
  · rw [c.hP2 b h, c.hP1 k' h'] at e
    exact absurd e.symm (c.p2_ne h h')
  · rw [c.hP2 b h, c.hP2 b' h'] at e
    rw [c.f2.injP b h b' h' e]
  · rw [c.hP2 b h, c.hP3 b' h'] at e
    have := c.p2_lt h
    omega
  · rw [c.hP3 b h, c.hP1 k' h'] at e
    have := c.p_lt h'
    omega
  · rw [c.hP3 b h, c.hP2 b' h'] at e
    have := c.p2_lt h'
    omega
  · rw [c.hP3 b h, c.hP3 b' h'] at e
    rw [c.f3.injP b h b' h' (by omega)]

lemma injQ : ∀ k < r1 + r2 + r3, ∀ k' < r1 + r2 + r3, Q k = Q k' → k = k' := by
  have rN := c.f1.rN
  intro k hk k' hk' e
  rcases c.cases hk with h | ⟨b, h, rfl⟩ | ⟨b, h, rfl⟩ <;> rcases c.cases hk' with h' | ⟨b', h', rfl⟩ | ⟨b', h', rfl⟩
  · rw [c.hQ1 k h, c.hQ1 k' h'] at e
    exact c.f1.pQ.2 k (by omega) k' (by omega) e
  · rw [c.hQ1 k h, c.hQ2 b' h'] at e
    have := c.q_lt h
    omega
  · rw [c.hQ1 k h, c.hQ3 b' h'] at e
    exact absurd e (c.q3_ne h' h)
  · rw [c.hQ2 b h, c.hQ1 k' h'] at e
    have := c.q_lt h'
    omega
  · rw [c.hQ2 b h, c.hQ2 b' h'] at e
    rw [c.f2.injQ b h b' h' (by omega)]
  · rw [c.hQ2 b h, c.hQ3 b' h'] at e
    have := c.q3_lt h'
    omega
  · rw [c.hQ3 b h, c.hQ1 k' h'] at e
    exact absurd e.symm (c.q3_ne h h')
  · rw [c.hQ3 b h, c.hQ2 b' h'] at e
    have := c.q3_lt h
    omega
  · rw [c.hQ3 b h, c.hQ3 b' h'] at e
    rw [c.f3.injQ b h b' h' e]

lemma fac : ∀ i j, i + j + 1 < n1 + n2 → X i j = ∑ k ∈ range (r1 + r2 + r3), bl d V P Q k i * bu d V P Q k j := by
  intro i j hij
  rw [sum_range_add, sum_range_add]
  rcases Nat.lt_or_ge i n1 with hi | hi
  · have z3 : ∑ k ∈ range r3, bl d V P Q (r1 + r2 + k) i * bu d V P Q (r1 + r2 + k) j = 0 :=
      sum_eq_zero (fun k hk => by rw [c.bl3_zero (mem_range.1 hk) hi, zero_mul])
    rw [z3, add_zero]
    rcases Nat.lt_or_ge j n2 with hj | hj
    · have z2 : ∑ k ∈ range r2, bl d V P Q (r1 + k) i * bu d V P Q (r1 + k) j = 0 :=
        sum_eq_zero (fun k hk => by rw [c.bu2_zero (mem_range.1 hk) hj, mul_zero])
      obtain ⟨s1, s2⟩ := c.hs i hi
      obtain ⟨t1, t2⟩ := c.ht j hj
      have e := c.f1.fac (s i) s1 (t j) t1
      rw [s2, t2] at e
      rw [z2, add_zero, e]
      exact sum_congr rfl (fun k hk => by rw [c.bl1 (mem_range.1 hk) hi, c.bu1 (mem_range.1 hk) hj])
    · obtain ⟨j, rfl⟩ := Nat.exists_eq_add_of_le hj
      rw [c.hH i hi j (by omega), c.f2.fac i j (by omega), add_comm]
      congr 1
      · refine sum_congr rfl (fun k hk => ?_)
        have hk := mem_range.1 hk
        rw [c.bl1 hk hi]
        rcases Nat.lt_or_ge i (p k) with h | h
        · obtain ⟨s1, s2⟩ := c.hs i hi
          rw [c.f1.monoL k hk (s i) s1 (by rw [s2]; exact h), zero_mul, zero_mul]
        · rw [c.bu1' hk (by omega)]
      · refine sum_congr rfl (fun k hk => ?_)
        have hk := mem_range.1 hk
        rcases Nat.lt_or_ge i (p2 k) with h | h
        · rw [bl, bf_lt h, bl, bf_lt (by rw [c.hP2 k hk]; exact h), zero_mul, zero_mul]
        rcases Nat.lt_or_ge j (q2 k) with h' | h'
        · rw [bu, bf_lt h', bu, bf_lt (by rw [c.hQ2 k hk]; omega), mul_zero, mul_zero]
        · rw [c.bl2 hk (by omega), c.bu2 hk (by omega)]
  · obtain ⟨i, rfl⟩ := Nat.exists_eq_add_of_le hi
    have hj : j < n2 := by omega
    have z2 : ∑ k ∈ range r2, bl d V P Q (r1 + k) (n1 + i) * bu d V P Q (r1 + k) j = 0 :=
      sum_eq_zero (fun k hk => by rw [c.bu2_zero (mem_range.1 hk) hj, mul_zero])
    rw [z2, add_zero, c.hG i (by omega) j hj, c.f3.fac i j (by omega), add_comm]
    congr 1
    · refine sum_congr rfl (fun k hk => ?_)
      have hk := mem_range.1 hk
      rw [c.bu1 hk hj]
      rcases Nat.lt_or_ge j (q k) with h | h
      · obtain ⟨s1, s2⟩ := c.ht j hj
        rw [c.f1.monoU k hk (t j) s1 (by rw [s2]; exact h), mul_zero, mul_zero]
      · rw [c.bl1' hk (by omega)]
    · refine sum_congr rfl (fun k hk => ?_)
      have hk := mem_range.1 hk
      rcases Nat.lt_or_ge i (p3 k) with h | h
      · rw [bl, bf_lt h, bl, bf_lt (by rw [c.hP3 k hk]; omega), zero_mul, zero_mul]
      rcases Nat.lt_or_ge j (q3 k) with h' | h'
      · rw [bu, bf_lt h', bu, bf_lt (by rw [c.hQ3 k hk]; omega), mul_zero, mul_zero]
      · rw [c.bl3 hk (by omega), c.bu3 hk (by omega)]

lemma zr : ∀ i < n1 + n2, (∀ j < n1 + n2, X i j = 0) → ∀ j, i + j + 1 < n1 + n2 → V i j = 0 := by
  intro i hi h j hij
  rcases Nat.lt_or_ge i n1 with hi1 | hi1
  · obtain ⟨z, np, zV⟩ := c.row0 hi1 (fun j hj => h j (by omega))
    rcases Nat.lt_or_ge j n2 with hj | hj
    · rw [c.vA i hi1 j hj, zV _ (c.ht j hj).1]
    · obtain ⟨j, rfl⟩ := Nat.exists_eq_add_of_le hj
      rw [c.v2 i j (by omega) np]
      refine c.f2.zr i hi1 (fun j hj => ?_) j (by omega)
      have e := c.hH i hi1 j hj
      rw [h _ (by omega), sum_eq_zero (fun l hl => by rw [z l (mem_range.1 hl), zero_mul]), add_zero] at e
      exact e.symm
  · obtain ⟨i, rfl⟩ := Nat.exists_eq_add_of_le hi1
    have hi : i < n2 := by omega
    have zE : ∀ k < r1, E i k = 0 := by
      refine kerU (d := d) (V := V1) c.f1.piv (fun k hk => ?_)
      have e := c.hG i hi (q k) (c.q_lt hk)
      rwa [h _ (by have := c.q_lt hk; omega), c.hG0 k hk i hi, zero_add, c.tq hk, eq_comm] at e
    by_cases np : ∀ k < r1, q k ≠ j
    · rw [c.v3 i j (by omega) np]
      refine c.f3.zr i hi (fun j hj => ?_) j (by omega)
      have e := c.hG i hi j hj
      rw [h _ (by omega), sum_eq_zero (fun l hl => by rw [zE l (mem_range.1 hl), zero_mul]), add_zero] at e
      exact e.symm
    · push_neg at np
      obtain ⟨k, hk, rfl⟩ := np
      rw [c.vE k hk i (by omega), zE k hk]

lemma zc : ∀ j < n1 + n2, (∀ i < n1 + n2, X i j = 0) → ∀ i, i + j + 1 < n1 + n2 → V i j = 0 := by
  intro j hj h i hij
  rcases Nat.lt_or_ge j n2 with hj1 | hj1
  · obtain ⟨z, np, zV⟩ := c.col0 hj1 (fun i hi => h i (by omega))
    rcases Nat.lt_or_ge i n1 with hi | hi
    · rw [c.vA i hi j hj1, zV _ (c.hs i hi).1]
    · obtain ⟨i, rfl⟩ := Nat.exists_eq_add_of_le hi
      rw [c.v3 i j (by omega) np]
      refine c.f3.zc j hj1 (fun i hi => ?_) i (by omega)
      have e := c.hG i hi j hj1
      rw [h _ (by omega), sum_eq_zero (fun l hl => by rw [z l (mem_range.1 hl), mul_zero]), add_zero] at e
      exact e.symm
  · obtain ⟨j, rfl⟩ := Nat.exists_eq_add_of_le hj1
    have hj : j < n1 := by omega
    have zD : ∀ k < r1, D k j = 0 := by
      refine kerL (d := d) (V := V1) c.f1.piv (x := fun k => D k j) (fun k hk => ?_)
      have e := c.hH (p k) (c.p_lt hk) j hj
      rwa [h _ (by have := c.p_lt hk; omega), c.hH0 k hk j hj, zero_add, c.sp hk, eq_comm] at e
    by_cases np : ∀ k < r1, p k ≠ i
    · rw [c.v2 i j (by omega) np]
      refine c.f2.zc j hj (fun i hi => ?_) i (by omega)
      have e := c.hH i hi j hj
      rw [h _ (by omega), sum_eq_zero (fun l hl => by rw [zD l (mem_range.1 hl), mul_zero]), add_zero] at e
      exact e.symm
    · push_neg at np
      obtain ⟨k, hk, rfl⟩ := np
      rw [c.vD k hk j (by omega), zD k hk]

/-- the generator of the whole matrix -/
lemma all : BF d (n1 + n2) X V P Q (r1 + r2 + r3) := by
  refine ⟨fun k hk => ?_, c.injP, c.injQ, fun k hk => ?_, c.fac, c.zr, c.zc⟩
  · rcases c.cases hk with h | ⟨b, h, rfl⟩ | ⟨b, h, rfl⟩
    · have := c.p_lt h
      have := c.q_lt h
      rw [c.hP1 k h, c.hQ1 k h]; omega
    · have := c.f2.bd b h
      rw [c.hP2 b h, c.hQ2 b h]; omega
    · have := c.f3.bd b h
      rw [c.hP3 b h, c.hQ3 b h]; omega
  · rcases c.cases hk with h | ⟨b, h, rfl⟩ | ⟨b, h, rfl⟩
    · rw [c.piv1 h]; exact c.f1.piv k h
    · rw [c.piv2 h]; exact c.f2.piv b h
    · rw [c.piv3 h]; exact c.f3.piv b h

end
end Comb
end Verif.Bruhat
