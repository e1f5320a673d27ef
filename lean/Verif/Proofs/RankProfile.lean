import Verif.Model.RankProfile
import Verif.Proofs.PluqRank
import Verif.Proofs.PluqStep
import Verif.Spec.RankProfile

/-!
# Rank profiles
-/

namespace Verif.FF

open Finset Verif.Spec Verif.Spec.Perm Verif.Perm Verif.Pluq

variable {K : Type}

/-- the first `n` entries of an array as a list -/
def pre (A : Arr ℕ) (n : ℕ) : List ℕ := (List.range n).map A.get

lemma pre_getD {A : Arr ℕ} {n : ℕ} {l : List ℕ} (hl : l.length = n) (h : ∀ i < n, A.get i = l.getD i 0) : pre A n = l := by
  refine List.ext_getElem (by simp [pre, hl]) (fun i h1 h2 => ?_)
  have hi : i < n := by omega
  simp [pre, h i hi, h2]

lemma sortPrefix_spec {A : Arr ℕ} {n : ℕ} (h : n ≤ A.len) :
    Ok (sortPrefix A n) (fun B => B.len = A.len ∧ pre B n = (pre A n).insertionSort (· ≤ ·) ∧ ∀ i, n ≤ i → B.get i = A.get i) := by
  rw [sortPrefix, if_pos h, Ok_ok]
  refine ⟨rfl, pre_getD (by simp [pre]) (fun i hi => by simp only [if_pos hi, pre]), fun i hi => ?_⟩
  simp only [if_neg (Nat.not_lt.2 hi)]

/-- sorting distinct values gives a strictly increasing list with the same members -/
lemma sorted_distinct {l : List ℕ} (h : l.Nodup) :
    (l.insertionSort (· ≤ ·)).Pairwise (· < ·) ∧ ∀ x, x ∈ l.insertionSort (· ≤ ·) ↔ x ∈ l := by
  refine ⟨?_, fun x => List.mem_insertionSort _⟩
  have h1 := List.pairwise_insertionSort (α := ℕ) (· ≤ ·) l
  have h2 : (l.insertionSort (· ≤ ·)).Nodup := (List.perm_insertionSort (· ≤ ·) l).nodup_iff.2 h
  exact (h1.and h2).imp (fun ⟨a, b⟩ => lt_of_le_of_ne a b)

lemma pre_nodup {A : Arr ℕ} {n : ℕ} (h : ∀ i < n, ∀ j < n, A.get i = A.get j → i = j) : (pre A n).Nodup :=
  List.Nodup.map_on (fun i hi j hj e => h i (List.mem_range.1 hi) j (List.mem_range.1 hj) e) List.nodup_range

lemma pre_snoc {A : Arr ℕ} {n v : ℕ} : pre ⟨A.len, Function.update A.get n v⟩ (n + 1) = pre A n ++ [v] := by
  simp only [pre, List.range_succ, List.map_append, List.map_cons, List.map_nil, Function.update_self]
  congr 1
  refine List.map_congr_left (fun i hi => ?_)
  rw [Function.update_of_ne (List.mem_range.1 hi).ne]

lemma mem_pre {A : Arr ℕ} {n x : ℕ} : x ∈ pre A n ↔ ∃ i < n, A.get i = x := by simp [pre]

/-- `RankProfileFromLU` (tile) sorts the first `R` images of the permutation. -/
lemma rankProfileFromLU_spec {Q rk : Arr ℕ} {N R : ℕ} (jk : ℕ → ℕ) (hQ : Q.len = N) (hq : IsTranspArray Q.get N) (hR : R ≤ N) (hrk : R ≤ rk.len) :
    Ok (rankProfileFromLU Q N R rk jk .tile) (fun B => B.len = rk.len ∧ (pre B R).Pairwise (· < ·) ∧
      ∀ x, x ∈ pre B R ↔ ∃ k < R, ofSwaps Q.get N k = x) := by
  have e : rankProfileFromLU Q N R rk jk .tile = (do
      let RP ← LAPACKPerm2MathPerm (Arr.mk' N jk) Q N
      let rk ← copyTo RP 0 rk 0 R
      sortPrefix rk R) := by
    simp only [rankProfileFromLU, LAPACKPerm2MathPerm, iota, bind_assoc]
  rw [e, Ok_bind]
  refine (LAPACKPerm2MathPerm_spec' N (Arr.mk' N jk) Q le_rfl hQ (fun i hi => (hq i hi).2)).mono ?_
  intro RP ⟨h1, h2⟩
  have h1 : RP.len = N := h1
  rw [Ok_bind]
  refine (copyTo_spec RP 0 rk 0 R (by omega) (by omega)).mono ?_
  intro B ⟨b1, b2⟩
  refine (sortPrefix_spec (by omega)).mono ?_
  intro C ⟨c1, c2, _⟩
  have hb : ∀ i < R, B.get i = ofSwaps Q.get N i := by
    intro i hi
    rw [b2 i]
    simp [hi, h2 i (by omega)]
  have nd : (pre B R).Nodup := pre_nodup (fun i hi j hj e => by
    rw [hb i hi, hb j hj] at e
    exact (ofSwaps Q.get N).injective e)
  obtain ⟨s1, s2⟩ := sorted_distinct nd
  refine ⟨by omega, by rw [c2]; exact s1, fun x => ?_⟩
  rw [c2, s2, mem_pre]
  constructor <;> rintro ⟨k, hk, e⟩ <;> exact ⟨k, hk, by rw [← e, hb k hk]⟩

section
variable [Field K]

/-- the rank of the leading rows increases exactly at the rows of the pivots -/
lemma row_jump {d : Diag} {M N r : ℕ} {X V : ℕ → ℕ → K} {p q : ℕ → ℕ} (h : Fac d M N X V p q r) {b x : ℕ} (hb : b ≤ N) (hx : x < M) :
    rk X (x + 1) b ≠ rk X x b ↔ ∃ k < r, p k = x ∧ q k < b := by
  rw [rk, rk, h.rank_leading hx hb, h.rank_leading hx.le hb]
  have sub : pivots p q r x b ⊆ pivots p q r (x + 1) b := by
    intro k hk
    simp only [pivots, mem_filter, mem_range] at hk ⊢
    omega
  constructor
  · intro hne
    by_contra hc
    refine hne (congrArg _ (Finset.Subset.antisymm (fun k hk => ?_) sub))
    simp only [pivots, mem_filter, mem_range] at hk ⊢
    refine ⟨hk.1, ?_, hk.2.2⟩
    by_contra hlt
    exact hc ⟨k, hk.1, by omega, hk.2.2⟩
  · rintro ⟨k, hk, e, hq⟩
    refine (Finset.card_lt_card (Finset.ssubset_iff_of_subset sub |>.2 ⟨k, ?_, ?_⟩)).ne'
    · simp only [pivots, mem_filter, mem_range]; omega
    · simp only [pivots, mem_filter, mem_range]; omega

/-- the rank of the leading columns increases exactly at the columns of the pivots -/
lemma col_jump {d : Diag} {M N r : ℕ} {X V : ℕ → ℕ → K} {p q : ℕ → ℕ} (h : Fac d M N X V p q r) {a y : ℕ} (ha : a ≤ M) (hy : y < N) :
    rk X a (y + 1) ≠ rk X a y ↔ ∃ k < r, p k < a ∧ q k = y := by
  rw [rk, rk, h.rank_leading ha hy, h.rank_leading ha hy.le]
  have sub : pivots p q r a y ⊆ pivots p q r a (y + 1) := by
    intro k hk
    simp only [pivots, mem_filter, mem_range] at hk ⊢
    omega
  constructor
  · intro hne
    by_contra hc
    refine hne (congrArg _ (Finset.Subset.antisymm (fun k hk => ?_) sub))
    simp only [pivots, mem_filter, mem_range] at hk ⊢
    refine ⟨hk.1, hk.2.1, ?_⟩
    by_contra hlt
    exact hc ⟨k, hk.1, hk.2.1, by omega⟩
  · rintro ⟨k, hk, hp, e⟩
    refine (Finset.card_lt_card (Finset.ssubset_iff_of_subset sub |>.2 ⟨k, ?_, ?_⟩)).ne'
    · simp only [pivots, mem_filter, mem_range]; omega
    · simp only [pivots, mem_filter, mem_range]; omega

/-- `LeadingSubmatrixRankProfiles` -/
theorem leadingSubmatrixRankProfiles_spec {d : Diag} {M N R : ℕ} {X V : ℕ → ℕ → K} {P Q RRP CRP : Arr ℕ} {a b : ℕ} (jp jq : ℕ → ℕ)
    (hP : P.len = M) (hQ : Q.len = N) (tP : IsTranspArray P.get M) (tQ : IsTranspArray Q.get N)
    (h : Fac d M N X V (ofSwaps P.get M) (ofSwaps Q.get N) R) (ha : a ≤ M) (hb : b ≤ N)
    (hr : rk X a b ≤ RRP.len) (hc : rk X a b ≤ CRP.len) :
    Ok (leadingSubmatrixRankProfiles M N R a b P Q RRP CRP jp jq) (fun x => x.1 = rk X a b ∧
      IsRowRankProfile a b X (pre x.2.1 x.1) ∧ IsColRankProfile a b X (pre x.2.2 x.1)) := by
  have rM := h.rM
  have rN := h.rN
  unfold leadingSubmatrixRankProfiles
  rw [Ok_bind]
  refine (LAPACKPerm2MathPerm_spec' M (Arr.mk' M jp) P le_rfl hP (fun i hi => (tP i hi).2)).mono ?_
  intro MP ⟨lP, eP⟩
  rw [Ok_bind]
  refine (LAPACKPerm2MathPerm_spec' N (Arr.mk' N jq) Q le_rfl hQ (fun i hi => (tQ i hi).2)).mono ?_
  intro MQ ⟨lQ, eQ⟩
  have lP : MP.len = M := lP
  have lQ : MQ.len = N := lQ
  rw [Ok_bind]
  set p := ofSwaps P.get M with hp
  set q := ofSwaps Q.get N with hq
  have crk : rk X a b = (pivots p q R a b).card := h.rank_leading ha hb
  have cmono : ∀ k ≤ R, (pivots p q k a b).card ≤ (pivots p q R a b).card := by
    intro k hk
    refine Finset.card_le_card (fun x hx => ?_)
    simp only [pivots, mem_filter, mem_range] at hx ⊢
    omega
  refine (Ok_iter (fun k (x : ℕ × Arr ℕ × Arr ℕ) => x.1 = (pivots p q k a b).card ∧ x.2.1.len = RRP.len ∧ x.2.2.len = CRP.len ∧
    (pre x.2.1 x.1).Nodup ∧ (pre x.2.2 x.1).Nodup ∧
    (∀ y, y ∈ pre x.2.1 x.1 ↔ ∃ l < k, p l = y ∧ y < a ∧ q l < b) ∧
    (∀ y, y ∈ pre x.2.2 x.1 ↔ ∃ l < k, q l = y ∧ p l < a ∧ y < b)) ?_ ?_).mono ?_
  · refine ⟨by simp [pivots], rfl, rfl, by simp [pre], by simp [pre], by simp [pre], by simp [pre]⟩
  · rintro k ⟨c, A, B⟩ hk ⟨h1, h2, h3, h4, h5, h6, h7⟩
    simp only [] at h1 h2 h3 h4 h5 h6 h7 ⊢
    have e1 := eP k (by omega)
    have e2 := eQ k (by omega)
    simp only [Ok_bind, Ok_rd]
    refine ⟨by omega, ?_⟩
    have key : Ok (if MP.get k < a then MQ.rd k else pure b) (fun z => (MP.get k < a → z = q k) ∧ (¬ MP.get k < a → z = b)) := by
      split_ifs with hh
      · rw [Ok_rd]; exact ⟨by omega, fun _ => e2, fun hn => absurd hh hn⟩
      · rw [Ok_pure]; exact ⟨fun hn => absurd hn hh, fun _ => rfl⟩
    refine key.mono ?_
    intro z ⟨z1, z2⟩
    have succ : pivots p q (k + 1) a b = if p k < a ∧ q k < b then insert k (pivots p q k a b) else pivots p q k a b := by
      simp only [pivots, range_add_one, filter_insert]
    have knot : k ∉ pivots p q k a b := by simp [pivots]
    rw [Ok_ite]
    refine ⟨fun hc' => ?_, fun hc' => ?_⟩
    · have z1 := z1 hc'.1
      rw [z1, e1] at hc'
      have lt := cmono (k + 1) hk
      rw [succ, if_pos hc', card_insert_of_notMem knot] at lt
      simp only [Ok_bind, Ok_wr, Ok_pure]
      refine ⟨by omega, by omega, by rw [succ, if_pos hc', card_insert_of_notMem knot, h1], h2, h3, ?_, ?_, ?_, ?_⟩
      all_goals rw [pre_snoc]
      · refine List.nodup_append.2 ⟨h4, by simp, fun y hy z hz => ?_⟩
        rintro rfl
        obtain ⟨l, hl, e, _⟩ := (h6 y).1 hy
        rw [List.mem_singleton.1 hz, e1] at e
        have := p.injective e
        omega
      · refine List.nodup_append.2 ⟨h5, by simp, fun y hy z hz => ?_⟩
        rintro rfl
        obtain ⟨l, hl, e, _⟩ := (h7 y).1 hy
        rw [List.mem_singleton.1 hz, z1] at e
        have := q.injective e
        omega
      · intro y
        rw [List.mem_append, h6, List.mem_singleton, e1]
        constructor
        · rintro (⟨l, hl, e⟩ | e)
          · exact ⟨l, by omega, e⟩
          · exact ⟨k, by omega, e.symm, by omega, hc'.2⟩
        · rintro ⟨l, hl, e⟩
          rcases Nat.lt_succ_iff_lt_or_eq.1 hl with hl | rfl
          · exact Or.inl ⟨l, hl, e⟩
          · exact Or.inr e.1.symm
      · intro y
        rw [List.mem_append, h7, List.mem_singleton, z1]
        constructor
        · rintro (⟨l, hl, e⟩ | e)
          · exact ⟨l, by omega, e⟩
          · exact ⟨k, by omega, e.symm, hc'.1, by omega⟩
        · rintro ⟨l, hl, e⟩
          rcases Nat.lt_succ_iff_lt_or_eq.1 hl with hl | rfl
          · exact Or.inl ⟨l, hl, e⟩
          · exact Or.inr e.1.symm
    · have hn : ¬ (p k < a ∧ q k < b) := by
        rintro ⟨x1, x2⟩
        rw [e1] at z1 hc'
        exact hc' ⟨x1, by rw [z1 x1]; exact x2⟩
      simp only [Ok_pure]
      refine ⟨by rw [succ, if_neg hn, h1], h2, h3, h4, h5, fun y => ?_, fun y => ?_⟩
      · rw [h6]
        constructor
        · rintro ⟨l, hl, e⟩; exact ⟨l, by omega, e⟩
        · rintro ⟨l, hl, e⟩
          rcases Nat.lt_succ_iff_lt_or_eq.1 hl with hl | rfl
          · exact ⟨l, hl, e⟩
          · exact absurd ⟨by omega, e.2.2⟩ hn
      · rw [h7]
        constructor
        · rintro ⟨l, hl, e⟩; exact ⟨l, by omega, e⟩
        · rintro ⟨l, hl, e⟩
          rcases Nat.lt_succ_iff_lt_or_eq.1 hl with hl | rfl
          · exact ⟨l, hl, e⟩
          · exact absurd ⟨e.2.1, by omega⟩ hn
  · rintro ⟨c, A, B⟩ ⟨h1, h2, h3, h4, h5, h6, h7⟩
    simp only [] at h1 h2 h3 h4 h5 h6 h7 ⊢
    rw [← crk] at h1
    rw [Ok_bind]
    refine (sortPrefix_spec (by omega)).mono ?_
    intro A' ⟨_, a2, _⟩
    rw [Ok_bind]
    refine (sortPrefix_spec (by omega)).mono ?_
    intro B' ⟨_, b2, _⟩
    rw [Ok_pure]
    simp only [a2, b2]
    obtain ⟨s1, s2⟩ := sorted_distinct h4
    obtain ⟨t1, t2⟩ := sorted_distinct h5
    refine ⟨h1, ⟨s1, fun y => ?_⟩, ⟨t1, fun y => ?_⟩⟩
    · rw [s2, h6]
      constructor
      · rintro ⟨l, hl, e, e2, e3⟩
        exact ⟨e2, (row_jump h hb (by omega)).2 ⟨l, hl, e, e3⟩⟩
      · rintro ⟨hy, hj⟩
        obtain ⟨l, hl, e, e3⟩ := (row_jump h hb (by omega)).1 hj
        exact ⟨l, hl, e, hy, e3⟩
    · rw [t2, h7]
      constructor
      · rintro ⟨l, hl, e, e2, e3⟩
        exact ⟨e3, (col_jump h ha (by omega)).2 ⟨l, hl, e2, e⟩⟩
      · rintro ⟨hy, hj⟩
        obtain ⟨l, hl, e2, e⟩ := (col_jump h ha (by omega)).1 hj
        exact ⟨l, hl, e, e2, hy⟩

end

end Verif.FF
