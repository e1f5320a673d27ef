import Verif.Proofs.CheckDet
import Verif.Proofs.EchelonGet
import Verif.Props.Checkers
import Verif.Props.Pluq
import Verif.Props.CharPolyLuk
import Verif.Proofs.MultiPrecDet
import Mathlib.Algebra.Polynomial.Roots

/-!
# Properties C99 and C100: checkers of the determinant and of the characteristic polynomial
-/

namespace Verif.Props

open Verif.FF Verif.Spec Verif.Spec.Perm Finset

variable {K : Type} [Field K] [DecidableEq K] {m : Mem K} {n A lda : ℕ}

/-! ### C99 -/

omit [DecidableEq K] in
/-- the matrix described by `n` pivots -/
lemma pluqMat_iff {X V : ℕ → ℕ → K} {P Q : ℕ → ℕ} (hp : ∀ i < n, P i < n) (hq : ∀ i < n, Q i < n) :
    (∀ i < n, ∀ j < n, pluqMat .nonUnit n n n P Q V i j = X i j) ↔
      ∀ i < n, ∀ j < n, X (ofSwaps P n i) (ofSwaps Q n j) = ∑ k ∈ range n, luL .nonUnit V i k * luU .nonUnit V k j := by
  have e : ∀ i j, pluqMat .nonUnit n n n P Q V (ofSwaps P n i) (ofSwaps Q n j) = ∑ k ∈ range n, luL .nonUnit V i k * luU .nonUnit V k j := by
    intro i j
    simp only [pluqMat, show ∀ x, (ofSwaps P n)⁻¹ (ofSwaps P n x) = x from (ofSwaps P n).symm_apply_apply,
      show ∀ x, (ofSwaps Q n)⁻¹ (ofSwaps Q n x) = x from (ofSwaps Q n).symm_apply_apply]
  constructor
  · intro h i hi j hj
    rw [← e, h _ ((Perm.ofSwaps_lt hp n le_rfl i).1 hi) _ ((Perm.ofSwaps_lt hq n le_rfl j).1 hj)]
  · intro h i hi j hj
    obtain ⟨i', hi', rfl⟩ : ∃ i', i' < n ∧ ofSwaps P n i' = i := by
      refine ⟨(ofSwaps P n).symm i, ?_, (ofSwaps P n).apply_symm_apply i⟩
      refine (Perm.ofSwaps_lt hp n le_rfl _).2 ?_
      rwa [Equiv.apply_symm_apply]
    obtain ⟨j', hj', rfl⟩ : ∃ j', j' < n ∧ ofSwaps Q n j' = j := by
      refine ⟨(ofSwaps Q n).symm j, ?_, (ofSwaps Q n).apply_symm_apply j⟩
      refine (Perm.ofSwaps_lt hq n le_rfl _).2 ?_
      rwa [Equiv.apply_symm_apply]
    rw [e, h i' hi' j' hj']

omit [DecidableEq K] in
/-- beyond the rank the factors contribute nothing -/
lemma decomposes_full {X V : ℕ → ℕ → K} {P Q : ℕ → ℕ} {r : ℕ} (h : Decomposes .nonUnit n n X V P Q r) :
    ∀ i < n, ∀ j < n, X (ofSwaps P n i) (ofSwaps Q n j) = ∑ k ∈ range n, luL .nonUnit V i k * luU .nonUnit V k j := by
  intro i hi j hj
  have e := h.fac i hi j hj
  rw [applySwaps_eq, applySwaps_eq] at e
  have e : X (ofSwaps P n i) (ofSwaps Q n j) = _ := e
  rw [e]
  obtain ⟨k, hk⟩ := Nat.exists_eq_add_of_le h.rM
  conv_rhs => rw [hk]
  rw [Finset.sum_range_add]
  refine (add_eq_left.2 (Finset.sum_eq_zero (fun l hl => mul_eq_zero_of_right _ ?_))).symm
  have hl := mem_range.1 hl
  simp only [luU, tri]
  split_ifs with c1 c2
  · exact h.zero _ (by omega) _ (by omega) (by omega) (by omega)
  · exact h.zero _ (by omega) _ (by omega) (by omega) (by omega)
  · rfl

omit [DecidableEq K] in
/-- the determinant from the diagonal, whatever the rank -/
lemma det_of_decomposes {X V : ℕ → ℕ → K} {P Q : ℕ → ℕ} {r : ℕ} (h : Decomposes .nonUnit n n X V P Q r) :
    (toMat n n X).det = (-1) ^ (exch P n + exch Q n) * ∏ k ∈ range n, V k k :=
  det_of_prod (fun i hi => (h.tP i hi).2) (fun i hi => (h.tQ i hi).2) (decomposes_full h)

/-- `Det` with permutation arrays, as the checker needs it: the arrays come back -/
def detPQ (cat : Cat) (g : GemmFn K) (ts : TrsmFn K) (thr : ℕ) (jk : List ℕ → ℕ → ℕ) (n A lda : ℕ) (P Q : Arr ℕ) : Prog K (K × Arr ℕ × Arr ℕ) := do
  let x ← det cat g ts thr jk n A lda (some (P, Q))
  pure (x.1, x.2.getD (P, Q))

/-- what `Det` leaves: the determinant, the factors and the exchanges -/
def DetResult (n : ℕ) (X : ℕ → ℕ → K) (x : K × Arr ℕ × Arr ℕ) (Z : ℕ → ℕ → K) : Prop :=
  x.1 = (toMat n n X).det ∧ x.2.1.len = n ∧ (∀ i < n, x.2.1.get i < n) ∧ x.2.2.len = n ∧ (∀ i < n, x.2.2.get i < n) ∧
    ∀ i < n, ∀ j < n, X (ofSwaps x.2.1.get n i) (ofSwaps x.2.2.get n j) = ∑ k ∈ range n, luL .nonUnit Z i k * luU .nonUnit Z k j

lemma detPQ_spec (cat : Cat) {g : GemmFn K} (hg : GemmOk g) {ts : TrFn K} (hs : TrsmOk ts) (thr : ℕ)
    (jk : List ℕ → ℕ → ℕ) {P Q : Arr ℕ} (h : Rect m n n A lda) (hP : P.len = n) (hQ : Q.len = n) :
    Run (detPQ cat g ts thr jk n A lda P Q) m (fun x m' => ∃ Z, DetResult n (m.mat ⟨A, lda, n, n⟩) x Z ∧ Step m m' ⟨A, lda, n, n⟩ Z) := by
  unfold detPQ det
  by_cases h0 : n = 0
  · subst h0
    rw [if_pos rfl, Run_bind, Run_pure, Run_pure]
    exact ⟨_, ⟨by simp, hP, by simp, hQ, by simp, by simp⟩, Step.refl (fun _ _ _ _ => rfl)⟩
  rw [if_neg h0]
  simp only [Option.getD_some, Option.map_some, Run_bind]
  refine (pluq_spec cat hg hs thr (fun l => jk (2 :: l)) .nonUnit h.on hP hQ).mono ?_
  rintro ⟨r, P', Q'⟩ m' ⟨h1, h2, h3, h4, V, h5, h6⟩
  simp only [] at h1 h2 h3 h4 h6 ⊢
  have D := decomposes h3 h4 h6
  have full := decomposes_full D
  have dd := det_of_decomposes D
  have p1 : ∀ i < n, P'.get i < n := fun i hi => (h3 i hi).2
  have p2 : ∀ i < n, Q'.get i < n := fun i hi => (h4 i hi).2
  split_ifs with hR
  · simp only [Run_pure, Option.getD_some]
    refine ⟨V, ⟨?_, h1, p1, h2, p2, full⟩, h5.step⟩
    rw [dd, Finset.prod_eq_zero (f := fun k => V k k) (mem_range.2 hR) (D.zero r hR r hR le_rfl le_rfl), mul_zero]
  · simp only [Run_bind]
    refine (mulDiag_spec (N := n) h5 le_rfl le_rfl).mono ?_
    rintro x m'' ⟨rfl, rfl⟩
    refine (Run_liftE _ _ _).2 ((countExchanges_spec h1 h2).mono ?_)
    rintro c rfl
    simp only [Run_pure, Option.getD_some]
    refine ⟨V, ⟨?_, h1, p1, h2, p2, full⟩, h5.step⟩
    rw [dd]
    split_ifs with hc
    · rw [(Nat.odd_iff.2 hc).neg_one_pow]; ring
    · rw [(Nat.even_iff.2 (by omega)).neg_one_pow, one_mul]

/-- C99: the determinant computed by `Det`, with the factors and permutations it leaves, passes the check whatever the random vectors;
nothing but the matrix is modified. -/
theorem C99_det_complete (cat : Cat) (rnd : ℕ → K) {g : GemmFn K} (hg : GemmOk g) {tm ts : TrFn K} (ht : TrmmOk tm) (hs : TrsmOk ts) (thr : ℕ)
    (jk : List ℕ → ℕ → ℕ) {P Q : Arr ℕ} (h : Rect m n n A lda) (hP : P.len = n) (hQ : Q.len = n) :
    Run (detChecked cat rnd tm (detPQ cat g ts thr jk n A lda P Q) n A lda) m (fun x m' => x.1 = true ∧
      x.2.1 = (toMat n n (m.mat ⟨A, lda, n, n⟩)).det ∧ Only m m' ⟨A, lda, n, n⟩) := by
  have w : Writes (detPQ cat g ts thr jk n A lda P Q) m ⟨A, lda, n, n⟩ (DetResult n (m.mat ⟨A, lda, n, n⟩)) := by
    intro m' w1 w2 w3
    refine (detPQ_spec cat hg hs thr jk ⟨w1, okin_ext h.ok w3, h.ld⟩ hP hQ).mono ?_
    rintro x m'' ⟨Z, ⟨d1, d2, d3, d4, d5, d6⟩, s⟩
    refine ⟨Z, ⟨?_, d2, d3, d4, d5, fun i hi j hj => ?_⟩, s⟩
    · rw [d1, toMat_ext.2 (fun i hi j hj => mat_ext h.ok w3 hi hj)]
    · rw [← d6 i hi j hj]
      exact (mat_ext h.ok w3 ((Perm.ofSwaps_lt d3 n le_rfl i).1 hi) ((Perm.ofSwaps_lt d5 n le_rfl j).1 hj)).symm
  refine (detChecked_spec cat rnd ht h.wf (Src.of_ok h.ok h.ld) w (fun x Z hx => ⟨hx.2.1, hx.2.2.1, hx.2.2.2.1, hx.2.2.2.2.1⟩)).mono ?_
  rintro x m' ⟨Z, ⟨d1, d2, d3, d4, d5, d6⟩, s, hb⟩
  refine ⟨hb.2 ⟨fun c _ => Finset.sum_eq_zero (fun i hi => mul_eq_zero_of_right _ (Finset.sum_eq_zero (fun j hj => mul_eq_zero_of_left ?_ _))), ?_⟩, d1, s.ok, s.frame⟩
  · rw [(pluqMat_iff d3 d5).2 d6 i (mem_range.1 hi) j (mem_range.1 hj), sub_self]
  · rw [d1, det_of_prod d3 d5 d6]

/-- Vectors that agree outside `T` and satisfy `p` are equal: there are at most `q^(N - |T|)` of them. -/
lemma card_agree_le [Fintype K] {N : ℕ} (T : Finset (Fin N)) (p : (Fin N → K) → Prop) [DecidablePred p]
    (h : ∀ v v', p v → p v' → (∀ l, l ∉ T → v l = v' l) → v = v') :
    (Finset.univ.filter p).card ≤ Fintype.card K ^ (N - T.card) := by
  have hcard : Fintype.card ({l : Fin N // l ∉ T} → K) = Fintype.card K ^ (N - T.card) := by
    rw [Fintype.card_fun, Fintype.card_subtype_compl, Fintype.card_fin, Fintype.card_coe]
  rw [← hcard, ← Finset.card_univ]
  refine Finset.card_le_card_of_injOn (fun v l => v l.1) (fun _ _ => by simp) ?_
  intro v hv v' hv' e
  exact h v v' (by simpa using hv) (by simpa using hv') (fun l hl => congrFun e ⟨l, hl⟩)

/-- C99: if the determinant presented is wrong, then whatever the factors and the transposition arrays presented with it the check
accepts it for at most `q^(3n-1) + q^(3n-2)` of the `q^(3n)` random vectors `(u, v, w)`. -/
theorem C99_det_sound [Fintype K] (cat : Cat) {tm : TrFn K} (ht : TrmmOk tm) {body : Prog K (K × Arr ℕ × Arr ℕ)} {d : K} {P Q : Arr ℕ}
    {Z : ℕ → ℕ → K} (h : Rect m n n A lda) (hb : Yields body m ⟨A, lda, n, n⟩ (d, P, Q) Z) (hP : P.len = n) (hp : ∀ i < n, P.get i < n)
    (hQ : Q.len = n) (hq : ∀ i < n, Q.get i < n) (hd : d ≠ (toMat n n (m.mat ⟨A, lda, n, n⟩)).det) :
    (Finset.univ.filter fun v : Fin (3 * n) → K =>
      (result (detChecked cat (drawing v) tm body n A lda) m).map Prod.fst = some true).card ≤
        Fintype.card K ^ (3 * n - 1) + Fintype.card K ^ (3 * n - 2) := by
  have key : ∀ v : Fin (3 * n) → K, (result (detChecked cat (drawing v) tm body n A lda) m).map Prod.fst = some true →
      (∀ c < 2, ∑ i ∈ range n, drawing v (n * 2 + i) * ∑ j ∈ range n, (m.mat ⟨A, lda, n, n⟩ i j - pluqMat .nonUnit n n n P.get Q.get Z i j) * drawing v (j * 2 + c) = 0) ∧
        (-1) ^ (exch P.get n + exch Q.get n) * ∏ k ∈ range n, Z k k = d := by
    intro v hv
    obtain ⟨x, m', e, Y, ⟨e1, rfl⟩, -, hx⟩ := detChecked_spec cat (drawing v) ht h.wf (Src.of_ok h.ok h.ld) hb.writes
      (fun x Z hx => by obtain ⟨rfl, rfl⟩ := hx; exact ⟨hP, hp, hQ, hq⟩)
    rw [e1] at hx
    rw [result, e] at hv
    exact hx.1 (Option.some.inj hv)
  by_cases hD : ∀ i < n, ∀ j < n, pluqMat .nonUnit n n n P.get Q.get Z i j = m.mat ⟨A, lda, n, n⟩ i j
  · refine le_trans (le_of_eq ?_) (Nat.zero_le _)
    rw [Finset.card_eq_zero, Finset.filter_eq_empty_iff]
    intro v _ hv
    exact hd ((key v hv).2.symm.trans (det_of_prod hp hq ((pluqMat_iff hp hq).1 hD)).symm)
  push Not at hD
  obtain ⟨i0, hi0, j0, hj0, hne⟩ := hD
  generalize hDef : (fun i j => m.mat ⟨A, lda, n, n⟩ i j - pluqMat .nonUnit n n n P.get Q.get Z i j) = D
  have hne : D i0 j0 ≠ 0 := by rw [← hDef]; exact sub_ne_zero.2 (Ne.symm hne)
  have key : ∀ v : Fin (3 * n) → K, (result (detChecked cat (drawing v) tm body n A lda) m).map Prod.fst = some true →
      ∀ c < 2, ∑ j ∈ range n, (∑ i ∈ range n, D i j * drawing v (n * 2 + i)) * drawing v (j * 2 + c) = 0 := by
    intro v hv c hc
    rw [← (key v hv).1 c hc, ← hDef]
    simp only [Finset.mul_sum, Finset.sum_mul]
    rw [Finset.sum_comm]
    exact sum_congr rfl (fun i _ => sum_congr rfl (fun j _ => by ring))
  have dr : ∀ (v : Fin (3 * n) → K) (l : ℕ) (hl : l < 3 * n), drawing v l = v ⟨l, hl⟩ := fun v l hl => by rw [drawing, dif_pos hl]
  classical
  have split : (Finset.univ.filter fun v : Fin (3 * n) → K => (result (detChecked cat (drawing v) tm body n A lda) m).map Prod.fst = some true) ⊆
      (Finset.univ.filter fun v : Fin (3 * n) → K => ∑ i ∈ range n, D i j0 * drawing v (n * 2 + i) = 0) ∪
      (Finset.univ.filter fun v : Fin (3 * n) → K => ∑ i ∈ range n, D i j0 * drawing v (n * 2 + i) ≠ 0 ∧
        ∀ c < 2, ∑ j ∈ range n, (∑ i ∈ range n, D i j * drawing v (n * 2 + i)) * drawing v (j * 2 + c) = 0) := by
    intro v hv
    have hv := (Finset.mem_filter.1 hv).2
    simp only [Finset.mem_union, Finset.mem_filter]
    by_cases c : ∑ i ∈ range n, D i j0 * drawing v (n * 2 + i) = 0
    · exact Or.inl ⟨Finset.mem_univ _, c⟩
    · exact Or.inr ⟨Finset.mem_univ _, c, key v hv⟩
  have one : ∀ (f g x y : ℕ → K) (k : ℕ), k < n → f = g → g k ≠ 0 → (∀ l < n, l ≠ k → x l = y l) → ∑ l ∈ range n, f l * x l = 0 →
      ∑ l ∈ range n, g l * y l = 0 → x k = y k := by
    rintro f _ x y k hk rfl hf e h1 h2
    rw [← Finset.add_sum_erase _ _ (mem_range.2 hk)] at h1 h2
    have : ∑ l ∈ (range n).erase k, f l * x l = ∑ l ∈ (range n).erase k, f l * y l :=
      sum_congr rfl (fun l hl => by rw [e l (mem_range.1 (Finset.mem_of_mem_erase hl)) (Finset.ne_of_mem_erase hl)])
    rw [this] at h1
    exact mul_left_cancel₀ hf (add_right_cancel (h1.trans h2.symm))
  refine le_trans (Finset.card_le_card split) (le_trans (Finset.card_union_le _ _) (Nat.add_le_add ?_ ?_))
  · refine card_agree_le {⟨n * 2 + i0, by omega⟩} _ (fun v v' hv hv' e => ?_)
    have e : ∀ l, ∀ hl : l < 3 * n, l ≠ n * 2 + i0 → v ⟨l, hl⟩ = v' ⟨l, hl⟩ := fun l hl hne => e _ (by simpa [Fin.ext_iff] using hne)
    have := one (fun i => D i j0) _ (fun i => drawing v (n * 2 + i)) (fun i => drawing v' (n * 2 + i)) i0 hi0 rfl hne
      (fun l hl hne => by rw [dr _ _ (by omega), dr _ _ (by omega)]; exact e _ _ (by omega)) hv hv'
    rw [dr _ _ (by omega), dr _ _ (by omega)] at this
    funext l
    by_cases hl : (l : ℕ) = n * 2 + i0
    · obtain ⟨l, hl'⟩ := l
      simp only [] at hl
      subst hl
      exact this
    · exact e l l.2 hl
  · have := card_agree_le (K := K) {(⟨j0 * 2, by omega⟩ : Fin (3 * n)), ⟨j0 * 2 + 1, by omega⟩} (fun v => ∑ i ∈ range n, D i j0 * drawing v (n * 2 + i) ≠ 0 ∧
        ∀ c < 2, ∑ j ∈ range n, (∑ i ∈ range n, D i j * drawing v (n * 2 + i)) * drawing v (j * 2 + c) = 0) (fun v v' hv hv' e => ?_)
    · rw [Finset.card_pair (by simp [Fin.ext_iff])] at this
      refine le_trans (le_of_eq ?_) this
      congr
    have e : ∀ l, ∀ hl : l < 3 * n, l ≠ j0 * 2 → l ≠ j0 * 2 + 1 → v ⟨l, hl⟩ = v' ⟨l, hl⟩ := fun l hl h1 h2 => e _ (by simp [Fin.ext_iff, h1, h2])
    have hw : ∀ i < n, drawing v (n * 2 + i) = drawing v' (n * 2 + i) := fun i hi => by
      rw [dr _ _ (by omega), dr _ _ (by omega)]; exact e _ _ (by omega) (by omega)
    have hD : (fun j => ∑ i ∈ range n, D i j * drawing v (n * 2 + i)) = fun j => ∑ i ∈ range n, D i j * drawing v' (n * 2 + i) :=
      funext (fun j => sum_congr rfl (fun i hi => by rw [hw i (mem_range.1 hi)]))
    have this : ∀ c < 2, drawing v (j0 * 2 + c) = drawing v' (j0 * 2 + c) := fun c hc =>
      one _ _ (fun j => drawing v (j * 2 + c)) (fun j => drawing v' (j * 2 + c)) j0 hj0 hD hv'.1
        (fun l hl hne => by rw [dr _ _ (by omega), dr _ _ (by omega)]; exact e _ _ (by omega) (by omega)) (hv.2 c hc) (hv'.2 c hc)
    funext l
    by_cases h1 : (l : ℕ) = j0 * 2
    · have := this 0 (by omega)
      rw [Nat.add_zero, ← h1, dr v _ l.2, dr v' _ l.2] at this
      exact this
    · by_cases h2 : (l : ℕ) = j0 * 2 + 1
      · have := this 1 (by omega)
        rw [← h2, dr v _ l.2, dr v' _ l.2] at this
        exact this
      · exact e l l.2 h1 h2

/-! ### C100 -/

omit [DecidableEq K] in
lemma charpoly_eval_det (X : ℕ → ℕ → K) (lam : K) :
    (toMat n n X).charpoly.eval lam = (-1) ^ n * (toMat n n (fun i j => if i = j then X i j - lam else X i j)).det := by
  have e : ((-1 : K) ^ n) * (toMat n n (fun i j => if i = j then X i j - lam else X i j)).det =
      (-(toMat n n (fun i j => if i = j then X i j - lam else X i j))).det := by
    rw [Matrix.det_neg, Fintype.card_fin]
  rw [e, Matrix.charpoly, ← Polynomial.coe_evalRingHom, RingHom.map_det]
  congr 1
  ext i j
  rw [RingHom.mapMatrix_apply, Matrix.map_apply, Matrix.neg_apply, toMat_apply, Matrix.charmatrix_apply]
  by_cases h : i = j
  · subst h; simp
  · have : (i : ℕ) ≠ j := fun hc => h (Fin.ext hc)
    simp [h, this]

omit [DecidableEq K] in
lemma horner_eq (lam : K) (l : List K) : l.foldr (fun a h => h * lam + a) 0 = (polyOf l).eval lam := by
  induction l with
  | nil => simp [polyOf]
  | cons a l ih =>
    have e : polyOf (a :: l) = Polynomial.C a + Polynomial.X * polyOf l := rfl
    rw [e, List.foldr_cons, ih]
    simp
    ring

/-- C100: for a non-empty matrix the checker is built without fault for every random element and every draw of the inner check, and
holds the value of the characteristic polynomial there; the memory of the caller is unchanged. -/
theorem C100_charpoly_value_partial (cat : Cat) (lam : K) (rnd : ℕ → K) {g : GemmFn K} (hg : GemmOk g) {tm ts : TrFn K} (ht : TrmmOk tm) (hs : TrsmOk ts)
    (thr : ℕ) (jk : List ℕ → ℕ → ℕ) (h : Rect m n n A lda) (hn : 0 < n) :
    Run (charpolyCheckInit cat lam rnd g tm ts thr jk n A lda) m (fun o m' =>
      o = some ((toMat n n (m.mat ⟨A, lda, n, n⟩)).charpoly.eval lam) ∧ WF m' ∧ m.next ≤ m'.next ∧ m'.ok = m.ok ∧
        ∀ a, m.ok a = true → m'.val a = m.val a) := by
  unfold charpolyCheckInit
  have sA := Src.of_ok h.ok h.ld
  have e0 := Ext.start h.wf emptyWin
  rw [Run_bind]
  refine (e0.alloc (n * n)).mono ?_
  rintro Ac m1 ⟨hAc, n1, e1, okc, k1⟩
  have pc : m.next ≤ Ac := by omega
  have hin : ∀ a, Win.Has ⟨Ac, n, n, n⟩ a → ∃ t, t < n * n ∧ a = Ac + t := by
    rintro a ⟨i, hi, j, hj, rfl⟩
    simp only [] at hi hj
    refine ⟨i * n + j, ?_, by simp only [Win.adr]; omega⟩
    calc i * n + j < i * n + n := by omega
      _ = (i + 1) * n := by ring
      _ ≤ n * n := Nat.mul_le_mul_right _ hi
  have nc : ∀ a, Win.Has ⟨Ac, n, n, n⟩ a → m.next ≤ a := fun a ha => by
    obtain ⟨t, -, rfl⟩ := hin a ha; omega
  have dA : (Win.mk A lda n n).Disj ⟨Ac, n, n, n⟩ := disj_new h.wf h.ok nc
  have sA1 := k1 _ _ sA
  rw [Run_bind]
  refine (vzero_spec okc Nat.one_pos).mono ?_
  rintro - m2 s2
  have e2 := e1.step s2 (vw_new pc)
  have sA2 := sA1.step s2 (e1.has h.ok pc 1)
  have okW : OkIn m2 ⟨Ac, n, n, n⟩ := fun a ha => by
    obtain ⟨t, ht, rfl⟩ := hin a ha
    have := OkIn_vw (okc.step s2) ht
    rwa [Nat.mul_one] at this
  have o2 : On m2 m2 ⟨Ac, n, n, n⟩ _ := On.start e2.wf okW le_rfl
  rw [Run_bind]
  refine (fassign_at o2 sA2 dA 0 0 0 0 n n (by simp) (by simp) (by simp) (by simp) (A := A) (B := Ac) (by simp [Win.adr]) (by simp [Win.adr])).mono ?_
  rintro - m3 o3
  rw [Run_bind]
  obtain ⟨X, hX⟩ : ∃ X, X = m.mat ⟨A, lda, n, n⟩ := ⟨_, rfl⟩
  have o3 : On m2 m3 ⟨Ac, n, n, n⟩ X := o3.congr (fun i hi j hj => by
    simp only [] at hi hj
    rw [upd_in' (by omega), blk0, hX, Nat.sub_zero, Nat.sub_zero])
  have diag : Run (loop n fun i => do
      let x ← load (Ac + i * n + i)
      store (Ac + i * n + i) (x - lam)) m3 (fun _ m' => On m2 m' ⟨Ac, n, n, n⟩ (fun i j => if i = j ∧ i < n then X i j - lam else X i j)) := by
    refine Run_loop (fun k m' => On m2 m' ⟨Ac, n, n, n⟩ (fun i j => if i = j ∧ i < k then X i j - lam else X i j)) (o3.congr (fun i _ j _ => by simp)) ?_
    intro k m' hk o
    have e : Ac + k * n + k = Win.adr ⟨Ac, n, n, n⟩ k k := rfl
    rw [Run_bind, Run_load, e]
    refine ⟨o.ok'.adr hk hk, ?_⟩
    refine (storeAt_on o _ hk hk).mono (fun _ m'' o' => o'.congr (fun i hi j hj => ?_))
    rw [o.val hk hk]
    by_cases c : i = k ∧ j = k
    · obtain ⟨rfl, rfl⟩ := c
      rw [upd_in' (by omega)]
      simp
    · rw [upd_out (by omega)]
      by_cases c1 : i = j
      · subst c1
        have : i ≠ k := fun hc => c ⟨hc, hc⟩
        have e : (i < k + 1) ↔ i < k := by omega
        simp only [true_and, e]
      · simp only [c1, false_and, if_false]
  refine diag.mono ?_
  rintro - m4 o4
  have e4 := e2.step o4.step nc
  rw [Run_bind]
  have rect4 : Rect m4 n n Ac n := ⟨e4.wf, o4.ok', le_rfl⟩
  refine (C34_pluq_complete cat rnd hg ht hs thr (fun l => jk (2 :: l)) .nonUnit (P := Arr.mk' n (jk [0])) (Q := Arr.mk' n (jk [1])) rect4 rfl rfl).mono ?_
  rintro ⟨b, r, P, Q⟩ m5 ⟨rfl, l1, l2, V, s5, D⟩
  simp only [] at l1 l2 D ⊢
  have e5 := e4.step s5 nc
  rw [if_neg (by simp)]
  have ok5 : ∀ k < n, m5.ok (Win.adr ⟨Ac, n, n, n⟩ k k) = true ∧ m5.val (Win.adr ⟨Ac, n, n, n⟩ k k) = V k k := fun k hk =>
    ⟨(rect4.ok.step s5).adr hk hk, s5.val k hk k hk⟩
  rw [Run_bind, Run_load]
  have e00 : Ac = Win.adr ⟨Ac, n, n, n⟩ 0 0 := by simp [Win.adr]
  refine ⟨by conv_lhs => rw [e00]
             exact (ok5 0 hn).1, ?_⟩
  have v0 : m5.val Ac = V 0 0 := by
    conv_lhs => rw [e00]
    exact (ok5 0 hn).2
  rw [v0, Run_bind]
  have prod : Run (iter (n - 1) (fun t det => do
      let x ← load (Ac + (t + 1) * n + (t + 1))
      pure (det * x)) (V 0 0)) m5 (fun x m' => m' = m5 ∧ x = ∏ k ∈ range n, V k k) := by
    have := Run_iter (n := n - 1) (f := fun t det => do
      let x ← load (Ac + (t + 1) * n + (t + 1))
      pure (det * x)) (s := V 0 0) (m := m5) (fun k x m' => m' = m5 ∧ x = ∏ k ∈ range (k + 1), V k k) ⟨rfl, by simp⟩ (by
        rintro k x m' hk ⟨rfl, rfl⟩
        have e : Ac + (k + 1) * n + (k + 1) = Win.adr ⟨Ac, n, n, n⟩ (k + 1) (k + 1) := rfl
        rw [Run_bind, Run_load, e]
        refine ⟨(ok5 (k + 1) (by omega)).1, ?_⟩
        rw [Run_pure, (ok5 (k + 1) (by omega)).2]
        refine ⟨rfl, ?_⟩
        rw [prod_range_succ _ (k + 1)])
    rwa [show n - 1 + 1 = n by omega] at this
  refine prod.mono ?_
  rintro d m6 ⟨rfl, rfl⟩
  rw [Run_bind]
  refine (Run_liftE _ _ _).2 ((countExchanges_spec l1 l2).mono ?_)
  rintro c rfl
  rw [Run_bind]
  refine (e5.free (n := n * n) pc).mono ?_
  rintro - m7 ⟨n7, v7, e7, -⟩
  rw [Run_pure]
  obtain ⟨h1, h2⟩ := e7.done (fun a ha => ha.1.elim id ha.2)
  refine ⟨?_, e7.wf, e7.next, h1, fun a ha => h2 a ha emptyWin_has⟩
  have dd := det_of_decomposes D
  have eX : toMat n n (m4.mat ⟨Ac, n, n, n⟩) = toMat n n (fun i j => if i = j then X i j - lam else X i j) :=
    toMat_ext.2 (fun i hi j hj => by rw [o4.mat hi hj]; simp only [hi, and_true])
  rw [eX] at dd
  rw [← hX, charpoly_eval_det, dd]
  refine congrArg some ?_
  by_cases c1 : n % 2 = 1
  · rw [if_pos c1, (Nat.odd_iff.2 c1).neg_one_pow]
    split_ifs with hc
    · rw [(Nat.odd_iff.2 hc).neg_one_pow]; ring
    · rw [(Nat.even_iff.2 (by omega)).neg_one_pow]; ring
  · rw [if_neg c1, (Nat.even_iff.2 (by omega : n % 2 = 0)).neg_one_pow]
    split_ifs with hc
    · rw [(Nat.odd_iff.2 hc).neg_one_pow]; ring
    · rw [(Nat.even_iff.2 (by omega)).neg_one_pow]; ring

/-- the checker alone cannot be built for an empty matrix: it reads the first entry of an empty block (`CharPoly` itself does not build it
then) -/
theorem C100_charpoly_value_violated : ¬ ∀ (m : Mem ℚ) (n A lda : ℕ), Rect m n n A lda →
    Run (charpolyCheckInit .modular 0 (fun _ => 0) (gemmClassic .modular) (ftrmm .modular (gemmClassic .modular)) (ftrsm .modular (gemmClassic .modular))
      1 (fun _ _ => 0) n A lda) m (fun o _ => o = some ((toMat n n (m.mat ⟨A, lda, n, n⟩)).charpoly.eval 0)) := by
  intro h
  obtain ⟨x, m', e, -⟩ := h (memOf []) 0 0 1 ⟨WF_memOf _, OkIn_memOf (by decide), by decide⟩
  have : faultOf (charpolyCheckInit .modular 0 (fun _ => 0) (gemmClassic .modular) (ftrmm .modular (gemmClassic .modular)) (ftrsm .modular (gemmClassic .modular))
      1 (fun _ _ => 0) 0 0 1) (memOf ([] : List ℚ)) = some .oob := by decide +kernel
  rw [faultOf, e] at this
  cases this

/-- C100: what `CharPoly` compiled with the checker returns around any computation `body` of the polynomial: the polynomial, if it takes at
the random element the value of the characteristic polynomial, and an exception otherwise. -/
theorem C100_charpoly_exact (cat : Cat) (lam : K) (rnd : ℕ → K) {g : GemmFn K} (hg : GemmOk g) {tm ts : TrFn K} (ht : TrmmOk tm) (hs : TrsmOk ts)
    (thr : ℕ) (jk : List ℕ → ℕ → ℕ) (h : Rect m n n A lda) (hn : 0 < n) {body : Prog K (List K)} {l : List K} {Z : ℕ → ℕ → K}
    (hb : Yields body m ⟨A, lda, n, n⟩ l Z) :
    Run (charPolyChecked cat lam rnd g tm ts thr jk body n A lda) m (fun o m' => Step m m' ⟨A, lda, n, n⟩ Z ∧
      o = if (polyOf l).eval lam = (toMat n n (m.mat ⟨A, lda, n, n⟩)).charpoly.eval lam then some l else none) := by
  unfold charPolyChecked
  rw [if_neg (by omega), Run_bind]
  refine (C100_charpoly_value_partial cat lam rnd hg ht hs thr jk h hn).mono ?_
  rintro o m1 ⟨rfl, w1, n1, o1, v1⟩
  simp only [Run_bind]
  refine (hb m1 w1 n1 (fun a ha => ⟨by rw [o1, ha], v1 a ha⟩)).mono ?_
  rintro y m2 ⟨rfl, s⟩
  rw [Run_pure]
  refine ⟨⟨s.ok.trans o1, n1.trans s.next, s.val, fun a ha hW => ?_⟩, ?_⟩
  · rw [s.frame a (by rw [o1, ha]) hW, v1 a ha]
  · simp only [charpolyCheck, horner_eq, decide_eq_true_eq]

/-- C100: the polynomial computed by `CharPoly` is accepted whatever the random element. -/
theorem C100_charpoly_complete_partial (cat : Cat) (lam : K) (rnd : ℕ → K) {g : GemmFn K} (hg : GemmOk g) {tm ts : TrFn K} (ht : TrmmOk tm)
    (hs : TrsmOk ts) (thr : ℕ) (jk : List ℕ → ℕ → ℕ) (h : Rect m n n A lda) {rnd' : ℕ → ℕ → K} (hr : NonZeroDraws n rnd') (jk' : ℕ → ℕ)
    {tag : CpTag} {degree char : ℕ} (hm : Modelled tag degree char n) {mulin : List K → List K → List K}
    (hmul : ∀ p q, polyOf (mulin p q) = polyOf p * polyOf q) {prec oth : Prog K (List (List K))} :
    Run (charPolyChecked cat lam rnd g tm ts thr jk (charPoly mulin prec oth jk' rnd' cat g ts char tag degree n A lda) n A lda) m (fun o m' =>
      Only m m' ⟨A, lda, n, n⟩ ∧ ∃ l, o = some l ∧ polyOf l = (toMat n n (m.mat ⟨A, lda, n, n⟩)).charpoly) := by
  unfold charPolyChecked
  split_ifs with hn
  · subst hn
    rw [Run_pure]
    refine ⟨On.only h.on, [1], rfl, ?_⟩
    rw [Matrix.charpoly_isEmpty]
    simp [polyOf]
  rw [Run_bind]
  refine (C100_charpoly_value_partial cat lam rnd hg ht hs thr jk h (by omega)).mono ?_
  rintro o m1 ⟨rfl, w1, n1, o1, v1⟩
  simp only [Run_bind]
  have ext : ∀ a, m.ok a = true → m1.ok a = true ∧ m1.val a = m.val a := fun a ha => ⟨by rw [o1, ha], v1 a ha⟩
  refine (C77_charPoly_partial jk' cat hg hs hr ⟨w1, okin_ext h.ok ext, h.ld⟩ hm hmul).mono ?_
  rintro l m2 ⟨s, hl⟩
  rw [toMat_ext.2 (fun i hi j hj => mat_ext h.ok ext hi hj)] at hl
  rw [Run_pure]
  refine ⟨⟨s.1.trans o1, fun a ha hW => ?_⟩, l, ?_, hl⟩
  · rw [s.2 a (by rw [o1, ha]) hW, v1 a ha]
  · simp only [charpolyCheck, horner_eq, hl, decide_true, if_true]

/-- C100: a polynomial that is not the characteristic polynomial is accepted for at most `max(n, deg)` of the random elements. -/
theorem C100_charpoly_sound [Fintype K] (cat : Cat) (rnd : ℕ → K) {g : GemmFn K} (hg : GemmOk g) {tm ts : TrFn K} (ht : TrmmOk tm) (hs : TrsmOk ts)
    (thr : ℕ) (jk : List ℕ → ℕ → ℕ) (h : Rect m n n A lda) (hn : 0 < n) {body : Prog K (List K)} {l : List K} {Z : ℕ → ℕ → K}
    (hb : Yields body m ⟨A, lda, n, n⟩ l Z) (hl : polyOf l ≠ (toMat n n (m.mat ⟨A, lda, n, n⟩)).charpoly) :
    (Finset.univ.filter fun lam : K => (result (charPolyChecked cat lam rnd g tm ts thr jk body n A lda) m).join.isSome = true).card ≤
      max n (l.length - 1) := by
  have hne := sub_ne_zero.2 hl
  have sub : (Finset.univ.filter fun lam : K => (result (charPolyChecked cat lam rnd g tm ts thr jk body n A lda) m).join.isSome = true) ⊆
      (polyOf l - (toMat n n (m.mat ⟨A, lda, n, n⟩)).charpoly).roots.toFinset := by
    intro lam hv
    have hv := (Finset.mem_filter.1 hv).2
    obtain ⟨o, m', e, -, ho⟩ := C100_charpoly_exact cat lam rnd hg ht hs thr jk h hn hb
    rw [result, e] at hv
    simp only [Option.join_some] at hv
    rw [ho] at hv
    rw [Multiset.mem_toFinset, Polynomial.mem_roots hne, Polynomial.IsRoot, Polynomial.eval_sub, sub_eq_zero]
    by_contra hc
    rw [if_neg hc] at hv
    cases hv
  refine (Finset.card_le_card sub).trans ((Multiset.toFinset_card_le _).trans ((Polynomial.card_roots' _).trans ?_))
  refine (Polynomial.natDegree_sub_le _ _).trans ?_
  rw [Matrix.charpoly_natDegree_eq_dim, Fintype.card_fin, max_comm]
  refine max_le_max le_rfl ?_
  rw [Polynomial.natDegree_le_iff_coeff_eq_zero]
  intro i hi
  rw [MP.polyOf_coeff]
  simp only [List.getD_eq_getElem?_getD, List.getElem?_eq_none (show l.length ≤ i by omega), Option.getD_none]

/-! ### Concrete cases -/

section Examples

local instance ckd5 : Fact (Nat.Prime 5) := ⟨by decide⟩

/-- two calls of `check` on the same correct result -/
def detCheckedTwice (rnd : ℕ → ZMod 5) (n A lda : ℕ) : Prog (ZMod 5) (Bool × Bool) := do
  let (u, w, du, dv) ← checkDetInit .modular rnd n A lda
  let (d, P, Q) ← detPQ .modular (gemmClassic .modular) (ftrsm .modular (gemmClassic .modular)) 1 (fun _ i => i) n A lda (.ofList [0, 0]) (.ofList [0, 0])
  let p1 ← checkDet (ftrmm .modular (gemmClassic .modular)) u w du dv n d A lda P Q
  let p2 ← checkDet (ftrmm .modular (gemmClassic .modular)) u w du dv n d A lda P Q
  pure (p1, p2)

/-- C99: although `check` is a `const` member, it may be called only once: called again on the same, correct, result it throws, since the
first call has overwritten the vectors of the checker. -/
theorem C99_check_again_violated : ¬ ∀ rnd : ℕ → ZMod 5, Run (detCheckedTwice rnd 2 0 2) ckx (fun x _ => x = (true, true)) := by
  intro h
  obtain ⟨x, m', e, hx⟩ := h (fun j => (j : ZMod 5) + 1)
  have : result (detCheckedTwice (fun j => (j : ZMod 5) + 1) 2 0 2) ckx = some (true, false) := by decide +kernel
  rw [result, e, hx] at this
  cases this

/-- `A = (1 2; 3 4)` modulo 5 has determinant 3: accepted -/
theorem C99_example : (result (detChecked .modular (fun j => (j : ZMod 5) + 1) (ftrmm .modular (gemmClassic .modular))
    (detPQ .modular (gemmClassic .modular) (ftrsm .modular (gemmClassic .modular)) 1 (fun _ i => i) 2 0 2 (.ofList [0, 0]) (.ofList [0, 0])) 2 0 2) ckx).map
      (fun x => (x.1, x.2.1)) = some (true, 3) := by decide +kernel

lemma ckx_det : (4 : ZMod 5) ≠ (toMat 2 2 (ckx.mat ⟨0, 2, 2, 2⟩)).det := by
  rw [Matrix.det_fin_two]
  decide +kernel

/-- the product of the diagonal of `A` itself is accepted for at most 5^5 + 5^4 of the 5^6 vectors -/
example : (Finset.univ.filter fun v : Fin (3 * 2) → ZMod 5 =>
    (result (detChecked .modular (drawing v) (ftrmm .modular (gemmClassic .modular)) (pure (4, .ofList [0, 1], .ofList [0, 1])) 2 0 2) ckx).map Prod.fst
      = some true).card ≤ Fintype.card (ZMod 5) ^ (3 * 2 - 1) + Fintype.card (ZMod 5) ^ (3 * 2 - 2) :=
  C99_det_sound .modular (ftrmm_TrmmOk .modular (gemmClassic_ok .modular)) ckx_rectA (yields_pure _ ckx_rectA.ok) rfl (by decide) rfl (by decide) ckx_det

/-- the characteristic polynomial of `A` is `X² - 2` modulo 5: accepted at every element; `X² + X + 3` is accepted at 0 only -/
theorem C100_example : ∀ lam : ZMod 5, result (charPolyChecked .modular lam (fun j => (j : ZMod 5) + 1) (gemmClassic .modular)
      (ftrmm .modular (gemmClassic .modular)) (ftrsm .modular (gemmClassic .modular)) 1 (fun _ i => i) (pure [3, 0, 1]) 2 0 2) ckx = some (some [3, 0, 1]) ∧
    ((result (charPolyChecked .modular lam (fun j => (j : ZMod 5) + 1) (gemmClassic .modular)
      (ftrmm .modular (gemmClassic .modular)) (ftrsm .modular (gemmClassic .modular)) 1 (fun _ i => i) (pure [3, 1, 1]) 2 0 2) ckx).join = none ↔ lam ≠ 0) := by
  decide +kernel

end Examples

end Verif.Props
