import Verif.Proofs.BruhatGet
import Verif.Proofs.BruhatRank
import Verif.Spec.Bruhat
import Verif.Props.LUdivine
import Verif.Props.MinPoly
import Mathlib.Algebra.Field.ZMod

/-!
# Properties C81, C82, C83: Bruhat generators of left triangular matrices
-/

namespace Verif.Props

open Finset Verif.FF Verif.Spec Verif.Spec.Perm Verif.Bruhat Verif.Pluq

variable {K : Type} [Field K] [DecidableEq K] {m : Mem K} {N A lda R ldr L U r : ℕ} {P Q : Arr ℕ} {g : GemmFn K} {ts : TrsmFn K}
  {d : Diag} {X V : ℕ → ℕ → K} {p q : ℕ → ℕ}

omit [DecidableEq K] in
lemma ltLower_eq : ltLower d V p q = bl d V p q := by cases d <;> rfl

omit [DecidableEq K] in
lemma ltUpper_eq : ltUpper d V p q = bu d V p q := by cases d <;> rfl

omit [DecidableEq K] in
lemma isBruhat (h : BF d N X V p q r) : IsBruhat d N X V p q r :=
  ⟨h.bd, h.injP, h.injQ, h.piv, fun i j hij => by rw [ltLower_eq, ltUpper_eq]; exact h.fac i j hij⟩

/-- C81: `LTBruhatGen` for every matrix of order at least one, any correct `fgemm` and `ftrsm`, whatever the contents of the arrays obtained
from the allocator and of the entries outside the left triangle: it terminates without fault with a Bruhat generator of the left
triangular part of the matrix and changes nothing outside the matrix.  Missing: order 0, where it does not end
(`C81_empty_violated`). -/
theorem C81_generator_partial (cat : Cat) (hg : GemmOk g) (ht : TrsmOk ts) (thr : ℕ) (jk : List ℕ → ℕ → ℕ) (d : Diag) (hN : 0 < N) (h : Rect m N N A lda)
    (hP : N ≤ P.len) (hQ : N ≤ Q.len) :
    Run (ltBruhatGen cat g ts thr jk d N A lda P Q) m (fun x m' => x.2.1.len = P.len ∧ x.2.2.len = Q.len ∧
      ∃ V, Step m m' ⟨A, lda, N, N⟩ V ∧ IsBruhat d N (m.mat ⟨A, lda, N, N⟩) V x.2.1.get x.2.2.get x.1) := by
  refine (ltBruhatGen_spec (W := ⟨A, lda, N, N⟩) cat hg ht thr jk d h.on rfl hN hP hQ).mono ?_
  rintro x m' ⟨h1, h2, V, h3, h4⟩
  exact ⟨h1, h2, V, h3.step, isBruhat h4⟩

/-- C81: the pivots reveal the rank of every leading submatrix inside the triangle. -/
theorem C81_reveals_ranks (cat : Cat) (hg : GemmOk g) (ht : TrsmOk ts) (thr : ℕ) (jk : List ℕ → ℕ → ℕ) (d : Diag) (hN : 0 < N) (h : Rect m N N A lda)
    (hP : N ≤ P.len) (hQ : N ≤ Q.len) :
    Run (ltBruhatGen cat g ts thr jk d N A lda P Q) m (fun x _ => ∀ a b, a + b ≤ N →
      rk (m.mat ⟨A, lda, N, N⟩) a b = ((range x.1).filter (fun k => x.2.1.get k < a ∧ x.2.2.get k < b)).card) := by
  refine (ltBruhatGen_spec (W := ⟨A, lda, N, N⟩) cat hg ht thr jk d h.on rfl hN hP hQ).mono ?_
  rintro x m' ⟨h1, h2, V, h3, h4⟩ a b hab
  exact h4.rank hab

omit [DecidableEq K] in
lemma _root_.Verif.Spec.IsBruhat.rank (h : IsBruhat d N X V p q r) {a b : ℕ} (hab : a + b ≤ N) :
    rk X a b = ((range r).filter (fun k => p k < a ∧ q k < b)).card :=
  gen_rank h.rows h.cols h.pivot (fun i j hij => by rw [h.factor i j hij, ltLower_eq, ltUpper_eq]) hab

omit [DecidableEq K] in
/-- C81: any two Bruhat generators of matrices with the same left triangle have the same pivots, whatever programs computed them. -/
theorem C81_pivots_unique {V' X' : ℕ → ℕ → K} {p' q' : ℕ → ℕ} {r' : ℕ} {d' : Diag} (h : IsBruhat d N X V p q r) (h' : IsBruhat d' N X' V' p' q' r')
    (e : ∀ i j, i + j + 1 < N → X i j = X' i j) (i j : ℕ) : (∃ k < r, p k = i ∧ q k = j) ↔ ∃ k < r', p' k = i ∧ q' k = j := by
  have key : ∀ a b, a + b ≤ N → ((range r).filter (fun k => p k < a ∧ q k < b)).card = ((range r').filter (fun k => p' k < a ∧ q' k < b)).card := by
    intro a b hab
    have : rk X a b = rk X' a b := by
      unfold rk
      congr 1
      ext i j
      exact e i j (by have := i.2; have := j.2; omega)
    rw [h.rank hab, h'.rank hab] at this
    exact this
  -- the number of pivots at a place, from the four leading submatrices around it
  have cnt : ∀ (p q : ℕ → ℕ) (r : ℕ), (∀ k < r, ∀ k' < r, p k = p k' → k = k') →
      (((range r).filter (fun k => p k < i + 1 ∧ q k < j + 1)).card + ((range r).filter (fun k => p k < i ∧ q k < j)).card =
        ((range r).filter (fun k => p k < i ∧ q k < j + 1)).card + ((range r).filter (fun k => p k < i + 1 ∧ q k < j)).card +
          ((range r).filter (fun k => p k = i ∧ q k = j)).card) := by
    intro p q r _
    have e1 : (range r).filter (fun k => p k < i + 1 ∧ q k < j + 1) = ((range r).filter (fun k => p k < i ∧ q k < j + 1) ∪
        (range r).filter (fun k => p k < i + 1 ∧ q k < j)) ∪ (range r).filter (fun k => p k = i ∧ q k = j) := by
      ext k; simp only [mem_union, mem_filter, mem_range]; omega
    have e2 : (range r).filter (fun k => p k < i ∧ q k < j) = (range r).filter (fun k => p k < i ∧ q k < j + 1) ∩
        (range r).filter (fun k => p k < i + 1 ∧ q k < j) := by
      ext k; simp only [mem_inter, mem_filter, mem_range]; omega
    rw [e1, card_union_of_disjoint, e2]
    · have := card_union_add_card_inter ((range r).filter (fun k => p k < i ∧ q k < j + 1)) ((range r).filter (fun k => p k < i + 1 ∧ q k < j))
      omega
    · rw [Finset.disjoint_left]
      intro k
      simp only [mem_union, mem_filter, mem_range]
      omega
  have ex : ∀ (p q : ℕ → ℕ) (r : ℕ), (∃ k < r, p k = i ∧ q k = j) ↔ 0 < ((range r).filter (fun k => p k = i ∧ q k = j)).card := by
    intro p q r
    rw [card_pos]
    constructor
    · rintro ⟨k, hk, h⟩; exact ⟨k, by simp [hk, h]⟩
    · rintro ⟨k, hk⟩
      rw [mem_filter, mem_range] at hk
      exact ⟨k, hk⟩
  by_cases c : i + j + 1 < N
  · rw [ex, ex]
    have k1 := key (i + 1) (j + 1) (by omega)
    have k2 := key i j (by omega)
    have k3 := key i (j + 1) (by omega)
    have k4 := key (i + 1) j (by omega)
    have c1 := cnt p q r h.rows
    have c2 := cnt p' q' r' h'.rows
    omega
  · constructor
    · rintro ⟨k, hk, rfl, rfl⟩; exact absurd (h.left k hk) c
    · rintro ⟨k, hk, rfl, rfl⟩; exact absurd (h'.left k hk) c

/-- C83: `LTQSorder` on the arrays computed by `LTBruhatGen` is the order of quasi-separability of the left triangular part. -/
theorem C83_order_partial (cat : Cat) (hg : GemmOk g) (ht : TrsmOk ts) (thr : ℕ) (jk : List ℕ → ℕ → ℕ) (d : Diag) (hN : 0 < N) (h : Rect m N N A lda)
    (hP : N ≤ P.len) (hQ : N ≤ Q.len) :
    Run (do
      let (r, P, Q) ← ltBruhatGen cat g ts thr jk d N A lda P Q
      liftE (ltQSorder N r P Q)) m (fun s _ => IsLeftOrder N (m.mat ⟨A, lda, N, N⟩) s) := by
  rw [Run_bind]
  refine (ltBruhatGen_spec (W := ⟨A, lda, N, N⟩) cat hg ht thr jk d h.on rfl hN hP hQ).mono ?_
  rintro ⟨r, P', Q'⟩ m' ⟨h1, h2, V, h3, h4⟩
  simp only [] at h1 h2 h4 ⊢
  have hr : r ≤ N := by
    have := room (p := P'.get) (p2 := fun k => k) (n := N) (r1 := r) (r2 := 0) (fun k hk => by have := h4.bd k hk; omega) (fun k hk => absurd hk (Nat.not_lt_zero _))
      h4.injP (fun k hk => absurd hk (Nat.not_lt_zero _)) (fun k hk k' hk' => absurd hk' (Nat.not_lt_zero _))
    omega
  rw [Run_liftE]
  refine (ltQSorder_spec hN (by omega) (by omega) h4.bd h4.injP h4.injQ).mono ?_
  rintro s rfl
  constructor
  · intro a b hab
    rw [h4.rank hab]
    rcases Nat.eq_zero_or_pos a with rfl | ha
    · rw [show pivots P'.get Q'.get r 0 b = ∅ from by simp [pivots]]
      simp
    · refine le_trans ?_ (Finset.le_sup (f := fun a => (pivots P'.get Q'.get r (a + 1) (N - 1 - a)).card) (b := a - 1) (mem_range.2 (by omega)))
      refine card_le_card (fun k => ?_)
      simp only [pivots, mem_filter, mem_range]
      omega
  · obtain ⟨a, ha, e⟩ := Finset.exists_mem_eq_sup (range N) ⟨0, mem_range.2 hN⟩ (fun a => (pivots P'.get Q'.get r (a + 1) (N - 1 - a)).card)
    have ha := mem_range.1 ha
    exact ⟨a + 1, N - 1 - a, by omega, by rw [h4.rank (by omega), e]⟩

/-- how the test suite of the library uses these functions -/
def extract (cat : Cat) (g : GemmFn K) (ts : TrsmFn K) (thr : ℕ) (jk : List ℕ → ℕ → ℕ) (d : Diag) (N A lda : ℕ) (P Q : Arr ℕ) (R ldr L U : ℕ) :
    Prog K Unit := do
  let (r, P, Q) ← ltBruhatGen cat g ts thr jk d N A lda P Q
  getLTBruhatR N r P Q R ldr
  getLTBruhatT .lower (otherDiag d) N r P Q A lda L N
  getLTBruhatT .upper d N r P Q A lda U N

/-- the factors read off a generator -/
structure IsFactors (d : Diag) (N : ℕ) (X R L U : ℕ → ℕ → K) : Prop where
  profile : IsLeftProfile N X R
  factor : ∀ i j, i + j + 1 < N → X i j = ∑ a ∈ range N, ∑ b ∈ range N, L i b * R a b * U a j
  leftL : ∀ i < N, ∀ j < N, ¬ i + j + 1 < N → L i j = 0
  leftU : ∀ i < N, ∀ j < N, ¬ i + j + 1 < N → U i j = 0
  before : ∀ a < N, ∀ b < N, R a b = 1 → (∀ i < a, L i b = 0) ∧ ∀ j < b, U a j = 0
  lead : ∀ a < N, ∀ b < N, R a b = 1 → L a b ≠ 0 ∧ U a b ≠ 0 ∧ (match d with | .unit => U a b = 1 | .nonUnit => L a b = 1)
  colL : ∀ j < N, (∀ i < N, R i j = 0) → ∀ i < N, L i j = 0
  rowU : ∀ i < N, (∀ j < N, R i j = 0) → ∀ j < N, U i j = 0

lemma isFactors {L U : ℕ → ℕ → K} (h : BF d N X V p q r) (hL : ColsOf (otherDiag d) N V p q r L) (hU : RowsOf d N V p q r U) :
    IsFactors d N X (fun i j => if ∃ k < r, p k = i ∧ q k = j then 1 else 0) L U := by
  have lN : ∀ k < r, p k < N ∧ q k < N := fun k hk => by have := h.bd k hk; omega
  have eL : ∀ k < r, ∀ i < N, L i (q k) = if i + q k + 1 < N then bl d V p q k i else 0 := fun k hk i hi => by
    rw [hL.col k hk i hi]; cases d <;> rfl
  have eU : ∀ k < r, ∀ j < N, U (p k) j = if p k + j + 1 < N then bu d V p q k j else 0 := fun k hk j hj => by
    rw [hU.row k hk j hj]; rfl
  have one : ∀ i j, (if ∃ k < r, p k = i ∧ q k = j then (1 : K) else 0) = 1 ↔ ∃ k < r, p k = i ∧ q k = j := fun i j => by
    by_cases c : ∃ k < r, p k = i ∧ q k = j
    · exact ⟨fun _ => c, fun _ => if_pos c⟩
    · rw [if_neg c]; exact ⟨fun e => absurd e zero_ne_one, fun e => absurd e c⟩
  refine ⟨⟨fun i _ j _ => ?_, fun i _ j _ e => ?_, fun i _ j _ j' _ e e' => ?_, fun i _ i' _ j _ e e' => ?_, fun a b hab => ?_⟩, fun i j hij => ?_, ?_, ?_, ?_, ?_, ?_, ?_⟩
  · by_cases c : ∃ k < r, p k = i ∧ q k = j
    · right; simp only [if_pos c]
    · left; simp only [if_neg c]
  · obtain ⟨k, hk, rfl, rfl⟩ := (one i j).1 e
    exact h.bd k hk
  · obtain ⟨k, hk, e1, rfl⟩ := (one i j).1 e
    obtain ⟨k', hk', e2, rfl⟩ := (one i j').1 e'
    rw [h.injP k hk k' hk' (e1.trans e2.symm)]
  · obtain ⟨k, hk, rfl, e1⟩ := (one i j).1 e
    obtain ⟨k', hk', rfl, e2⟩ := (one i' j).1 e'
    rw [h.injQ k hk k' hk' (e1.trans e2.symm)]
  · refine ⟨(pivots p q r a b).image (fun k => (p k, q k)), fun x => ?_, ?_⟩
    · simp only [one]
      simp only [pivots, mem_image, mem_filter, mem_range]
      constructor
      · rintro ⟨k, ⟨hk, h1, h2⟩, rfl⟩; exact ⟨h1, h2, k, hk, rfl, rfl⟩
      · rintro ⟨h1, h2, k, hk, e1, e2⟩; exact ⟨k, ⟨hk, by omega, by omega⟩, by rw [e1, e2]⟩
    · rw [card_image_of_injOn, h.rank hab]
      intro k hk k' hk' e
      have hk : k < r := by have : k ∈ pivots p q r a b := hk; simp only [pivots, mem_filter, mem_range] at this; exact this.1
      have hk' : k' < r := by have : k' ∈ pivots p q r a b := hk'; simp only [pivots, mem_filter, mem_range] at this; exact this.1
      exact h.injP k hk k' hk' (by simpa using (Prod.mk.inj e).1)
  · have hi : i < N := by omega
    have hj : j < N := by omega
    rw [h.fac i j hij, ← sum_product' (range N) (range N) (fun a b => L i b * (if ∃ k < r, p k = a ∧ q k = b then 1 else 0) * U a j),
      ← sum_subset (s₁ := (range r).image (fun k => (p k, q k))), sum_image]
    · refine sum_congr rfl (fun k hk => ?_)
      have hk := mem_range.1 hk
      simp only []
      rw [if_pos ⟨k, hk, rfl, rfl⟩, mul_one, eL k hk i hi, eU k hk j hj]
      by_cases c1 : i < p k
      · rw [bl, bf_lt c1]; simp
      by_cases c2 : j < q k
      · rw [bu, bf_lt c2]; simp
      rw [if_pos (by omega), if_pos (by omega)]
    · intro k hk k' hk' e
      exact h.injP k (by simpa using hk) k' (by simpa using hk') (by simpa using (Prod.mk.inj e).1)
    · intro x hx
      obtain ⟨k, hk, rfl⟩ := mem_image.1 hx
      have := lN k (mem_range.1 hk)
      simp [this]
    · rintro ⟨a, b⟩ _ hn
      simp only []
      rw [if_neg, mul_zero, zero_mul]
      rintro ⟨k, hk, e1, e2⟩
      exact hn (mem_image.2 ⟨k, mem_range.2 hk, by rw [e1, e2]⟩)
  · intro i hi j hj hn
    by_cases c : ∃ k < r, q k = j
    · obtain ⟨k, hk, rfl⟩ := c
      rw [eL k hk i hi, if_neg hn]
    · exact hL.rest i hi j hj (fun a ha e => c ⟨a, ha, e⟩)
  · intro i hi j hj hn
    by_cases c : ∃ k < r, p k = i
    · obtain ⟨k, hk, rfl⟩ := c
      rw [eU k hk j hj, if_neg hn]
    · exact hU.rest i hi j hj (fun a ha e => c ⟨a, ha, e⟩)
  · intro a ha b hb e
    obtain ⟨k, hk, rfl, rfl⟩ := (one a b).1 e
    refine ⟨fun i hi => ?_, fun j hj => ?_⟩
    · rw [eL k hk i (by omega), bl, bf_lt hi, ite_self]
    · rw [eU k hk j (by omega), bu, bf_lt hj, ite_self]
  · intro a ha b hb e
    obtain ⟨k, hk, rfl, rfl⟩ := (one a b).1 e
    rw [eL k hk _ ha, eU k hk _ hb, if_pos (h.bd k hk), if_pos (h.bd k hk), bl_self, bu_self]
    have := h.piv k hk
    cases d
    · exact ⟨one_ne_zero, this, rfl⟩
    · exact ⟨this, one_ne_zero, rfl⟩
  · intro j hj hn i hi
    refine hL.rest i hi j hj (fun a ha e => ?_)
    have := hn (p a) (lN a ha).1
    rw [if_pos ⟨a, ha, rfl, e⟩] at this
    exact one_ne_zero this
  · intro i hi hn j hj
    refine hU.rest i hi j hj (fun a ha e => ?_)
    have := hn (q a) (lN a ha).2
    rw [if_pos ⟨a, ha, e, rfl⟩] at this
    exact one_ne_zero this

omit [DecidableEq K] in
lemma IsFactors.congr {R L U R' L' U' : ℕ → ℕ → K} (h : IsFactors d N X R L U) (eR : ∀ i < N, ∀ j < N, R' i j = R i j)
    (eL : ∀ i < N, ∀ j < N, L' i j = L i j) (eU : ∀ i < N, ∀ j < N, U' i j = U i j) : IsFactors d N X R' L' U' := by
  obtain ⟨⟨a1, a2, a3, a4, a5⟩, b, c, e, f, g, k, l⟩ := h
  refine ⟨⟨?_, ?_, ?_, ?_, ?_⟩, ?_, ?_, ?_, ?_, ?_, ?_, ?_⟩
  · intro i hi j hj; rw [eR i hi j hj]; exact a1 i hi j hj
  · intro i hi j hj; rw [eR i hi j hj]; exact a2 i hi j hj
  · intro i hi j hj j' hj'; rw [eR i hi j hj, eR i hi j' hj']; exact a3 i hi j hj j' hj'
  · intro i hi i' hi' j hj; rw [eR i hi j hj, eR i' hi' j hj]; exact a4 i hi i' hi' j hj
  · intro a b hab
    obtain ⟨S, h1, h2⟩ := a5 a b hab
    refine ⟨S, fun x => ?_, h2⟩
    rw [h1]
    constructor
    · rintro ⟨x1, x2, x3⟩; exact ⟨x1, x2, by rw [eR _ (by omega) _ (by omega)]; exact x3⟩
    · rintro ⟨x1, x2, x3⟩; exact ⟨x1, x2, by rw [← eR _ (by omega) _ (by omega)]; exact x3⟩
  · intro i j hij
    rw [b i j hij]
    refine sum_congr rfl (fun x hx => sum_congr rfl (fun y hy => ?_))
    rw [eL i (by omega) y (mem_range.1 hy), eR x (mem_range.1 hx) y (mem_range.1 hy), eU x (mem_range.1 hx) j (by omega)]
  · intro i hi j hj; rw [eL i hi j hj]; exact c i hi j hj
  · intro i hi j hj; rw [eU i hi j hj]; exact e i hi j hj
  · intro i hi j hj hr
    rw [eR i hi j hj] at hr
    exact ⟨fun x hx => by rw [eL x (by omega) j hj]; exact (f i hi j hj hr).1 x hx, fun x hx => by rw [eU i hi x (by omega)]; exact (f i hi j hj hr).2 x hx⟩
  · intro i hi j hj; rw [eR i hi j hj, eL i hi j hj, eU i hi j hj]; exact g i hi j hj
  · intro j hj hz i hi; rw [eL i hi j hj]; exact k j hj (fun x hx => by rw [← eR x hx j hj]; exact hz x hx) i hi
  · intro i hi hz j hj; rw [eU i hi j hj]; exact l i hi (fun x hx => by rw [← eR i hi x hx]; exact hz x hx) j hj

/-- C82: the matrices extracted from the generator computed by `LTBruhatGen`: the middle one is the left triangular rank profile matrix,
the left triangular part of the product `L Rᵀ U` is the one of the given matrix, `L` and `U` are left triangular and start at the pivots.
Nothing but the four matrices is changed.  Missing: triangular factors with a leading dimension other than the order
(`C82_ldt_violated`) and order 0 (`C81_empty_violated`). -/
theorem C82_extract_partial (cat : Cat) (hg : GemmOk g) (ht : TrsmOk ts) (thr : ℕ) (jk : List ℕ → ℕ → ℕ) (d : Diag) (hN : 0 < N) (h : Rect m N N A lda)
    (hR : Rect m N N R ldr) (hL : Rect m N N L N) (hU : Rect m N N U N) (dAR : (Win.mk A lda N N).Disj ⟨R, ldr, N, N⟩)
    (dAL : (Win.mk A lda N N).Disj ⟨L, N, N, N⟩) (dAU : (Win.mk A lda N N).Disj ⟨U, N, N, N⟩) (dRL : (Win.mk R ldr N N).Disj ⟨L, N, N, N⟩)
    (dRU : (Win.mk R ldr N N).Disj ⟨U, N, N, N⟩) (dLU : (Win.mk L N N N).Disj ⟨U, N, N, N⟩) (hP : N ≤ P.len) (hQ : N ≤ Q.len) :
    Run (extract cat g ts thr jk d N A lda P Q R ldr L U) m (fun _ m' =>
      IsFactors d N (m.mat ⟨A, lda, N, N⟩) (m'.mat ⟨R, ldr, N, N⟩) (m'.mat ⟨L, N, N, N⟩) (m'.mat ⟨U, N, N, N⟩) ∧ m'.ok = m.ok ∧
      ∀ a, m.ok a → ¬ (Win.mk A lda N N).Has a → ¬ (Win.mk R ldr N N).Has a → ¬ (Win.mk L N N N).Has a → ¬ (Win.mk U N N N).Has a →
        m'.val a = m.val a) := by
  unfold extract
  rw [Run_bind]
  refine (ltBruhatGen_spec (W := ⟨A, lda, N, N⟩) cat hg ht thr jk d h.on rfl hN hP hQ).mono ?_
  rintro ⟨r, P', Q'⟩ m1 ⟨l1, l2, V, h1, h4⟩
  simp only [] at l1 l2 h4 ⊢
  have hr : r ≤ N := by
    have := room (p := P'.get) (p2 := fun k => k) (n := N) (r1 := r) (r2 := 0) (fun k hk => by have := h4.bd k hk; omega) (fun k hk => absurd hk (Nat.not_lt_zero _))
      h4.injP (fun k hk => absurd hk (Nat.not_lt_zero _)) (fun k hk k' hk' => absurd hk' (Nat.not_lt_zero _))
    omega
  have sR1 := hR.on.src.on h1 dAR.symm
  have sL1 := hL.on.src.on h1 dAL.symm
  have sU1 := hU.on.src.on h1 dAU.symm
  have sA1 := h1.src
  rw [Run_bind]
  refine (getLTBruhatR_on (N := N) (r := r) (On.start h1.wf' sR1.ok sR1.ld) rfl rfl (by omega) (by omega) (fun k hk => by have := h4.bd k hk; omega)
    (fun k hk => by have := h4.bd k hk; omega)).mono (fun _ m2 h2 => ?_)
  have sA2 := sA1.on h2 dAR
  have sL2 := sL1.on h2 dRL.symm
  have sU2 := sU1.on h2 dRU.symm
  have sR2 := h2.src
  rw [Run_bind]
  refine (getLTBruhatL_on (N := N) (r := r) (otherDiag d) (On.start h2.wf' sL2.ok sL2.ld) sA2 dAL rfl rfl rfl rfl rfl (by omega) (by omega) h4.bd h4.injP h4.injQ).mono ?_
  rintro _ m3 ⟨VL, h3, cL⟩
  have sA3 := sA2.on h3 dAL
  have sU3 := sU2.on h3 dLU.symm
  have sR3 := sR2.on h3 dRL
  have sL3 := h3.src
  refine (getLTBruhatU_on (N := N) (r := r) d (On.start h3.wf' sU3.ok sU3.ld) sA3 dAU rfl rfl rfl rfl rfl (by omega) (by omega) h4.bd h4.injP h4.injQ).mono ?_
  rintro _ m4 ⟨VU, h5, cU⟩
  have sR4 := sR3.on h5 dRU
  have sL4 := sL3.on h5 dLU
  have sU4 := h5.src
  refine ⟨?_, ?_, fun a ha nA nR nL nU => ?_⟩
  · have F := isFactors h4 cL cU
    have eR : ∀ i < N, ∀ j < N, m4.mat ⟨R, ldr, N, N⟩ i j = if ∃ k < r, P'.get k = i ∧ Q'.get k = j then 1 else 0 := fun i hi j hj => sR4.val i hi j hj
    have eL : ∀ i < N, ∀ j < N, m4.mat ⟨L, N, N, N⟩ i j = VL i j := fun i hi j hj => sL4.val i hi j hj
    have eU : ∀ i < N, ∀ j < N, m4.mat ⟨U, N, N, N⟩ i j = VU i j := fun i hi j hj => sU4.val i hi j hj
    exact F.congr eR eL eU
  · rw [h5.step.ok, h3.step.ok, h2.step.ok, h1.step.ok]
  · have o1 : m1.ok a := by rw [h1.step.ok]; exact ha
    have o2 : m2.ok a := by rw [h2.step.ok]; exact o1
    have o3 : m3.ok a := by rw [h3.step.ok]; exact o2
    rw [h5.step.frame a o3 nU, h3.step.frame a o2 nL, h2.step.frame a o1 nR, h1.step.frame a ha nA]

section examples
abbrev bG : GemmFn ℚ := gemmClassic .modular
abbrev bT : TrsmFn ℚ := ftrsm .modular (gemmClassic .modular)
abbrev bJ : Arr ℕ := Arr.mk' 4 (fun _ => 9)

/-- a matrix of order 4 with leading dimension 5 (the entries 50 to 59 are outside the left triangle), room for `R`, `L` and `U` -/
abbrev bex : Mem ℚ := memOf ([0, 2, 4, 50, 77, 3, 1, 51, 52, 77, 6, 53, 54, 55, 77, 56, 57, 58, 59, 77] ++ (List.range 48).map (fun _ => 33))

example : Rect bex 4 4 0 5 ∧ Rect bex 4 4 20 4 ∧ Rect bex 4 4 36 4 ∧ Rect bex 4 4 52 4 ∧ (Win.mk 0 5 4 4).Disj ⟨20, 4, 4, 4⟩ ∧
    (Win.mk 20 4 4 4).Disj ⟨36, 4, 4, 4⟩ ∧ GemmOk bG ∧ TrsmOk bT :=
  ⟨⟨WF_memOf _, OkIn_memOf (by decide), by decide⟩, ⟨WF_memOf _, OkIn_memOf (by decide), by decide⟩, ⟨WF_memOf _, OkIn_memOf (by decide), by decide⟩,
    ⟨WF_memOf _, OkIn_memOf (by decide), by decide⟩, Win.Ends.disj (by decide), Win.Ends.disj (by decide), gemmClassic_ok .modular,
    ftrsm_TrsmOk .modular (gemmClassic_ok .modular)⟩

/-- two pivots, (0, 1) and (1, 0) -/
example : (result (ltBruhatGen .modular bG bT 1 (fun _ i => i) .nonUnit 4 0 5 bJ bJ) bex).map
    (fun x => (x.1, (List.range 2).map x.2.1.get, (List.range 2).map x.2.2.get)) = some (2, [0, 1], [1, 0]) := by decide +kernel

/-- `R`, `L` and `U` -/
example : (List.range 48).map (fun i => after (extract .modular bG bT 1 (fun _ i => i) .nonUnit 4 0 5 bJ bJ 20 4 36 52) bex (20 + i)) =
    ([0, 1, 0, 0, 1, 0, 0, 0, 0, 0, 0, 0, 0, 0, 0, 0,
      0, 1, 0, 0, 1, 1/2, 0, 0, 2, 0, 0, 0, 0, 0, 0, 0,
      0, 2, 4, 0, 3, 0, 0, 0, 0, 0, 0, 0, 0, 0, 0, 0] : List ℚ).map some := by decide +kernel

example : result (do
    let (r, P, Q) ← ltBruhatGen .modular bG bT 1 (fun _ i => i) .nonUnit 4 0 5 bJ bJ
    liftE (ltQSorder 4 r P Q)) bex = some 2 := by decide +kernel

/-- The documentation says that `LTBruhatGen` returns the rank of the left triangular matrix.  The number of pivots may be smaller: here
the matrix is left triangular, has rank 2 and one pivot. -/
theorem C81_rank_violated : ∃ (m : Mem ℚ) (A : ℕ), Rect m 3 3 A 3 ∧ (∀ i < 3, ∀ j < 3, ¬ i + j + 1 < 3 → m.mat ⟨A, 3, 3, 3⟩ i j = 0) ∧
    Run (ltBruhatGen .modular bG bT 1 (fun _ i => i) .nonUnit 3 A 3 bJ bJ) m (fun x _ => x.1 = 1) ∧ rk (m.mat ⟨A, 3, 3, 3⟩) 3 3 = 2 := by
  refine ⟨memOf [1, 1, 0, 1, 0, 0, 0, 0, 0], 0, ⟨WF_memOf _, OkIn_memOf (by decide), by decide⟩, by decide +kernel, ?_, ?_⟩
  · have e : (result (ltBruhatGen .modular bG bT 1 (fun _ i => i) .nonUnit 3 0 3 bJ bJ) (memOf [1, 1, 0, 1, 0, 0, 0, 0, 0])).map (fun x => x.1) =
        some 1 := by decide +kernel
    have e0 : after (ltBruhatGen .modular bG bT 1 (fun _ i => i) .nonUnit 3 0 3 bJ bJ) (memOf [1, 1, 0, 1, 0, 0, 0, 0, 0]) 0 = some 1 := by decide +kernel
    obtain ⟨x, m', hx⟩ := run_of e0
    exact ⟨x, m', hx, result_of hx e⟩
  · set X : ℕ → ℕ → ℚ := (memOf [1, 1, 0, 1, 0, 0, 0, 0, 0] : Mem ℚ).mat ⟨0, 3, 3, 3⟩
    refine le_antisymm ?_ ?_
    · have e : toMat 3 3 X = (Matrix.of ![![1, 0], ![0, 1], ![0, 0]] : Matrix (Fin 3) (Fin 2) ℚ) * (Matrix.of ![![1, 1, 0], ![1, 0, 0]] : Matrix (Fin 2) (Fin 3) ℚ) := by
        decide +kernel
      rw [rk, e]
      exact (Matrix.rank_mul_le_left _ _).trans ((Matrix.rank_le_card_width _).trans (by simp))
    · have e : (Matrix.of ![![1, 0, 0], ![0, 1, 0]] : Matrix (Fin 2) (Fin 3) ℚ) * toMat 3 3 X * (Matrix.of ![![0, 1], ![1, -1], ![0, 0]] : Matrix (Fin 3) (Fin 2) ℚ) = 1 := by
        decide +kernel
      have h1 : (1 : Matrix (Fin 2) (Fin 2) ℚ).rank = 2 := by simp
      rw [← h1, ← e]
      exact (Matrix.rank_mul_le_left _ _).trans (Matrix.rank_mul_le_right _ _)

/-- `getLTBruhatGen` clears the triangular factor as if its leading dimension were the order: with a larger one, entries that were there
before remain (here 33 in row 2). -/
theorem C82_ldt_violated : ∃ (m : Mem ℚ) (A T : ℕ), Rect m 3 3 A 3 ∧ Rect m 3 3 T 5 ∧ (Win.mk A 3 3 3).Disj ⟨T, 5, 3, 3⟩ ∧
    Run (do
      let (r, P, Q) ← ltBruhatGen .modular bG bT 1 (fun _ i => i) .nonUnit 3 A 3 bJ bJ
      getLTBruhatT .upper .nonUnit 3 r P Q A 3 T 5) m (fun _ m' => m'.val (T + 2 * 5) = 33) := by
  refine ⟨memOf ([1, 1, 0, 1, 0, 0, 0, 0, 0] ++ (List.range 15).map (fun _ => 33)), 0, 9, ⟨WF_memOf _, OkIn_memOf (by decide), by decide⟩,
    ⟨WF_memOf _, OkIn_memOf (by decide), by decide⟩, Win.Ends.disj (by decide), ?_⟩
  have e0 : after (do
      let (r, P, Q) ← ltBruhatGen .modular bG bT 1 (fun _ i => i) .nonUnit 3 0 3 bJ bJ
      getLTBruhatT .upper .nonUnit 3 r P Q 0 3 9 5) (memOf ([1, 1, 0, 1, 0, 0, 0, 0, 0] ++ (List.range 15).map (fun _ => 33)) : Mem ℚ) (9 + 2 * 5) = some 33 := by
    decide +kernel
  obtain ⟨x, m', hx⟩ := run_of e0
  refine ⟨x, m', hx, ?_⟩
  simp only [after, hx] at e0
  exact Option.some.inj e0

/-- `LTQSorder` reads before the start of an empty vector for order 0. -/
theorem C83_empty_violated (P Q : Arr ℕ) : ltQSorder 0 0 P Q = .error .oob := rfl
end examples

section empty
omit [Field K] [DecidableEq K] in
lemma faultOf_run {α β : Type} {q : Prog K α} {f : α → Prog K β} {e : Fault} {Q : α → Mem K → Prop} (h : Run q m Q)
    (k : ∀ x m', Q x m' → faultOf (f x) m' = some e) : faultOf (q >>= f) m = some e := by
  obtain ⟨x, m', hx, hq⟩ := h
  have := k x m' hq
  unfold faultOf at this ⊢
  rw [show (q >>= f) m = f x m' by simp only [bind, Prog.bind, hx]]
  exact this

/-- the part missing in `C81_generator_partial`: for order 0 `LTBruhatGen` calls itself with the same arguments, whatever the depth allowed -/
theorem C81_empty_violated (cat : Cat) (hg : GemmOk g) (ht : TrsmOk ts) (thr : ℕ) (d : Diag) (lda : ℕ) :
    ∀ (f : ℕ) (jk : List ℕ → ℕ → ℕ) (A : ℕ) (P Q : Arr ℕ) (m : Mem K), WF m → faultOf (ltRec cat g ts thr d lda f jk 0 A P Q) m = some .fuel := by
  intro f
  induction f with
  | zero => intros; rfl
  | succ f ih =>
    intro jk A P Q m wf
    unfold ltRec
    rw [if_neg (by omega)]
    unfold ltStep
    have h : Rect m 0 0 A lda := ⟨wf, fun a ⟨i, hi, _⟩ => absurd hi (Nat.not_lt_zero _), Nat.zero_le _⟩
    refine faultOf_run (pluq_spec (P := Arr.mk' 0 (jk [0])) (Q := Arr.mk' 0 (jk [1])) cat hg ht thr (fun l => jk (20 :: l)) d h.on rfl rfl) ?_
    rintro ⟨r1, P1, Q1⟩ m1 ⟨l1, l2, t1, t2, V, h1, f1⟩
    simp only [] at l1 l2 t1 t2 f1 ⊢
    obtain rfl : r1 = 0 := Nat.le_zero.1 f1.rM
    have z : ∀ {i : ℕ} {R : Prop}, i < 0 → R := fun hi => absurd hi (Nat.not_lt_zero _)
    refine faultOf_run (Q := fun _ m' => m' = m1) ((Run_liftE _ _ _).2 ((Perm.LAPACKPerm2MathPerm_spec' 0 P P1 (Nat.zero_le _) l1 (fun _ => z)).mono (fun _ _ => rfl))) ?_
    rintro PA _ e1; rw [e1]; clear e1
    refine faultOf_run (Q := fun _ m' => m' = m1) ((Run_liftE _ _ _).2 ((Perm.LAPACKPerm2MathPerm_spec' 0 Q Q1 (Nat.zero_le _) l2 (fun _ => z)).mono (fun _ _ => rfl))) ?_
    rintro QA _ e1; rw [e1]; clear e1
    refine faultOf_run (ltElim_on (W := ⟨A, lda, 0, 0⟩) (X := m.mat ⟨A, lda, 0, 0⟩) (V1 := V) hg ht h1 rfl rfl rfl rfl rfl (fun _ => z) (fun _ => z) (fun _ => z) l1 l2
      (fun _ => z) (fun _ => z) f1) ?_
    rintro _ m2 ⟨V', D, E, F, G, h2, -⟩
    have on : ∀ {m : Mem K}, WF m → On m m ⟨A, lda, 0, 0⟩ (m.mat ⟨A, lda, 0, 0⟩) := fun w =>
      On.start w (fun a ⟨i, hi, _⟩ => absurd hi (Nat.not_lt_zero _)) (Nat.zero_le _)
    have w2 := h2.wf'
    refine faultOf_run (Q := fun _ m' => WF m') ((Run_alloc _ _ _).2 (w2.grow _)) (fun D m3 w3 => ?_)
    refine faultOf_run (Q := fun _ m' => WF m') ?_ (fun _ m4 w4 => ?_)
    · unfold fassign; simpa [loop, Run_pure] using w3
    refine faultOf_run (Q := fun _ m' => WF m') ((Run_alloc _ _ _).2 (w4.grow _)) (fun E m5 w5 => ?_)
    refine faultOf_run (Q := fun _ m' => WF m') ?_ (fun _ m6 w6 => ?_)
    · unfold fassign; simpa [loop, Run_pure] using w5
    refine faultOf_run (Q := fun _ m' => WF m') ((fzero_on (on w6) 0 0 0 0 (by simp) (by simp) (by simp [Win.adr])).mono (fun _ _ h => h.wf')) (fun _ m7 w7 => ?_)
    refine faultOf_run (Q := fun _ m' => WF m') ((fzero_on (on w7) 0 0 0 0 (by simp) (by simp) (by simp [Win.adr])).mono (fun _ _ h => h.wf')) (fun _ m8 w8 => ?_)
    refine faultOf_run (Q := fun _ m' => WF m') ((rowsPinv_on (on w8) 0 0 (by simp [Win.adr]) (by simp) (by simp) l1 (fun _ => z)).mono (fun _ _ h => h.wf'))
      (fun _ m9 w9 => ?_)
    refine faultOf_run (Q := fun _ m' => WF m') ((colsPinv_on (on w9) 0 0 (by simp [Win.adr]) (by simp) (by simp) l2 (fun _ => z)).mono (fun _ _ h => h.wf'))
      (fun _ m10 w10 => ?_)
    refine faultOf_run (Q := fun _ m' => WF m') ((Run_liftE _ _ _).2 (by simpa [tailOf, Ok_ok] using w10)) (fun P' m11 w11 => ?_)
    refine faultOf_run (Q := fun _ m' => WF m') ((Run_liftE _ _ _).2 (by simpa [tailOf, Ok_ok] using w11)) (fun Q' m12 w12 => ?_)
    exact faultOf_bind (ih _ _ _ _ _ w12)
end empty

end Verif.Props
