import Verif.Proofs.RNS
import Mathlib.Data.Nat.Cast.Field
import Mathlib.Algebra.BigOperators.Field

/-! Lemmas about RNS constructors, ring operations and the reduction modulo `p`. -/

namespace Verif.RNS
open Verif Verif.FP Verif.Reduce Verif.Lazy Finset

/-! ## Constructor -/

lemma pick_spec (cand : ℕ → ℕ) (M : ℕ) : ∀ (fuel pos q : ℕ), pick cand M fuel pos = some q → ¬ (cand q ∣ M) := by
  intro fuel
  induction fuel with
  | zero => intro pos q h; simp [pick] at h
  | succ f ih =>
    intro pos q h
    rw [pick] at h
    split_ifs at h with h1
    · exact ih _ _ h
    · rw [Option.some.injEq] at h; subst h
      exact fun hd => h1 (Nat.mod_eq_zero_of_dvd hd)

/-- Invariant of the constructor loop. -/
def BuildOk (rnsmod : Bool) (b : Build) : Prop :=
  (∀ q ∈ b.basis, q.Prime) ∧ b.basis.Nodup ∧ b.M = b.basis.prod ∧ b.sum = if rnsmod then 1 + b.basis.sum else 1

lemma buildBound_spec (cand : ℕ → ℕ) (hcand : ∀ i, (cand i).Prime) (bound : ℕ) (rnsmod : Bool) (inner : ℕ) :
    ∀ (fuel : ℕ) (b b' : Build), BuildOk rnsmod b → buildBound cand bound rnsmod inner fuel b = some b' →
      BuildOk rnsmod b' ∧ bound * b'.sum ≤ b'.M := by
  intro fuel
  induction fuel with
  | zero =>
    intro b b' hb h
    rw [buildBound] at h
    split_ifs at h with h1
    rw [Option.some.injEq] at h; subst h
    exact ⟨hb, by omega⟩
  | succ f ih =>
    intro b b' hb h
    rw [buildBound] at h
    by_cases h1 : b.M < bound * b.sum
    · rw [if_pos h1] at h
      cases hp : pick cand b.M inner b.pos with
      | none => rw [hp] at h; simp at h
      | some q =>
        rw [hp] at h
        refine ih _ b' ?_ h
        obtain ⟨a1, a2, a3, a4⟩ := hb
        have hq := pick_spec cand b.M _ _ _ hp
        refine ⟨?_, ?_, ?_, ?_⟩
        · intro x hx
          rw [List.mem_append, List.mem_singleton] at hx
          rcases hx with hx | rfl
          · exact a1 x hx
          · exact hcand q
        · rw [List.nodup_append]
          refine ⟨a2, List.nodup_singleton _, ?_⟩
          intro x hx y hy
          rw [List.mem_singleton] at hy
          rintro rfl
          subst hy
          exact hq (by rw [a3]; exact List.dvd_prod hx)
        · simp [a3]
        · cases rnsmod
          · simp only [Bool.false_eq_true, if_false] at a4 ⊢; exact a4
          · simp only [if_true] at a4 ⊢; rw [a4, List.sum_append]; simp; omega
    · rw [if_neg h1, Option.some.injEq] at h; subst h
      exact ⟨hb, by omega⟩

lemma prodM_list (l : List ℕ) : prodM l.length (fun i => l.getD i 0) = l.prod := by
  induction l using List.reverseRecOn with
  | nil => simp [prodM]
  | append_singleton l a ih =>
    unfold prodM at ih ⊢
    rw [List.length_append, List.length_singleton, prod_range_succ, List.prod_append, List.prod_singleton, ← ih]
    congr 1
    · apply prod_congr rfl
      intro i hi
      rw [mem_range] at hi
      simp [List.getD_eq_getElem?_getD, List.getElem?_append_left hi]
    · simp [List.getD_eq_getElem?_getD]

lemma coprime_list (l : List ℕ) (h1 : ∀ q ∈ l, q.Prime) (h2 : l.Nodup) : Coprime' l.length (fun i => l.getD i 0) := by
  constructor
  · intro i hi
    simp only [List.getD_eq_getElem?_getD, List.getElem?_eq_getElem hi, Option.getD_some]
    exact (h1 _ (List.getElem_mem hi)).two_le
  · intro i hi j hj hij
    simp only [List.getD_eq_getElem?_getD, List.getElem?_eq_getElem hi, List.getElem?_eq_getElem hj, Option.getD_some]
    rw [Nat.coprime_primes (h1 _ (List.getElem_mem hi)) (h1 _ (List.getElem_mem hj))]
    exact fun e => hij ((List.Nodup.getElem_inj_iff h2).1 e)

/-! ## Ring operations -/

lemma addM_spec (m : ℕ) (hm : 0 < m) (X Y : ℤ) : addM m (X % m) (Y % m) = (X + Y) % m := by
  have hm' : (0:ℤ) < m := by exact_mod_cast hm
  have h1 := Int.emod_nonneg X hm'.ne'
  have h2 := Int.emod_lt_of_pos X hm'
  have h3 := Int.emod_nonneg Y hm'.ne'
  have h4 := Int.emod_lt_of_pos Y hm'
  unfold addM
  rw [Int.add_emod]
  simp only
  split_ifs with h
  · rw [← Int.sub_emod_right (X % m + Y % m)]; exact (Int.emod_eq_of_lt (by omega) (by omega)).symm
  · exact (Int.emod_eq_of_lt (by omega) (by omega)).symm

lemma subM_spec (m : ℕ) (hm : 0 < m) (X Y : ℤ) : subM m (X % m) (Y % m) = (X - Y) % m := by
  have hm' : (0:ℤ) < m := by exact_mod_cast hm
  have h1 := Int.emod_nonneg X hm'.ne'
  have h2 := Int.emod_lt_of_pos X hm'
  have h3 := Int.emod_nonneg Y hm'.ne'
  have h4 := Int.emod_lt_of_pos Y hm'
  unfold subM
  rw [Int.sub_emod]
  simp only
  split_ifs with h
  · rw [← Int.add_emod_right (X % m - Y % m)]; exact (Int.emod_eq_of_lt (by omega) (by omega)).symm
  · exact (Int.emod_eq_of_lt (by omega) (by omega)).symm

lemma negM_spec (m : ℕ) (hm : 0 < m) (X : ℤ) : negM m (X % m) = (-X) % m := by
  have hm' : (0:ℤ) < m := by exact_mod_cast hm
  have h1 := Int.emod_nonneg X hm'.ne'
  have h2 := Int.emod_lt_of_pos X hm'
  unfold negM
  have e : -X % m = -(X % m) % m := (Int.neg_modEq_neg.2 (Int.mod_modEq X m)).symm
  rw [e]
  split_ifs with h
  · rw [h]; simp
  · have e2 : (-(X % m) + m) % m = -(X % m) + m := Int.emod_eq_of_lt (by omega) (by omega)
    rw [Int.add_emod_right] at e2
    rw [e2]; ring

lemma mulM_spec (m : ℕ) (X Y : ℤ) : mulM m (X % m) (Y % m) = (X * Y) % m := (Int.mul_emod X Y m).symm

lemma axpyM_spec (m : ℕ) (V X Y : ℤ) : axpyM m (V % m) (X % m) (Y % m) = (X * Y + V) % m := by
  unfold axpyM
  exact ((Int.mod_modEq X m).mul (Int.mod_modEq Y m)).add (Int.mod_modEq V m)

/-- The cells of `x` do not overwrite cells of `y` that are read later (true when `x` and `y` are the same element, or
disjoint ones). -/
def NoClobber (size x sx y sy : ℕ) : Prop := ∀ t < size, ∀ i < size, t < i → x + t * sx ≠ y + i * sy

lemma ewise_spec (op : ℕ → ℤ → ℤ → ℤ) (size : ℕ) (basis : ℕ → ℕ) (x sx y sy z sz : ℕ) (A : Arr ℤ)
    (hx : ∀ i < size, x + i * sx < A.len) (hy : ∀ i < size, y + i * sy < A.len) (hz : ∀ i < size, z + i * sz < A.len)
    (hsx : 0 < sx) (hxy : NoClobber size x sx y sy) (hxz : NoClobber size x sx z sz) :
    Ok (ewise op size basis x sx y sy z sz A) (fun B => B.len = A.len ∧
      (∀ i < size, B.get (x + i * sx) = op (basis i) (A.get (y + i * sy)) (A.get (z + i * sz))) ∧
      ∀ c, (∀ i < size, c ≠ x + i * sx) → B.get c = A.get c) := by
  unfold ewise
  refine Ok_iter (fun k (B : Arr ℤ) => B.len = A.len ∧
      (∀ i < k, B.get (x + i * sx) = op (basis i) (A.get (y + i * sy)) (A.get (z + i * sz))) ∧
      ∀ c, (∀ i < k, c ≠ x + i * sx) → B.get c = A.get c) ⟨rfl, by simp, by simp⟩ ?_
  rintro k B hk ⟨h1, h2, h3⟩
  simp only [Ok_bind, Ok_rd, Ok_wr, h1]
  refine ⟨hy k hk, hz k hk, hx k hk, trivial, ?_, ?_⟩
  · intro i hi
    by_cases e : i = k
    · subst e
      rw [Function.update_self, h3 _ (fun t ht e => hxy t (by omega) i hk ht e.symm), h3 _ (fun t ht e => hxz t (by omega) i hk ht e.symm)]
    · rw [Function.update_of_ne]
      · exact h2 i (by omega)
      · intro hh
        exact e (Nat.eq_of_mul_eq_mul_right hsx (by omega))
  · intro c hc
    rw [Function.update_of_ne (hc k (by omega))]
    exact h3 c (fun t ht => hc t (by omega))

lemma negE_spec (size : ℕ) (basis : ℕ → ℕ) (x sx y sy : ℕ) (A : Arr ℤ)
    (hx : ∀ i < size, x + i * sx < A.len) (hy : ∀ i < size, y + i * sy < A.len)
    (hsx : 0 < sx) (hxy : NoClobber size x sx y sy) :
    Ok (negE size basis x sx y sy A) (fun B => B.len = A.len ∧
      (∀ i < size, B.get (x + i * sx) = negM (basis i) (A.get (y + i * sy))) ∧
      ∀ c, (∀ i < size, c ≠ x + i * sx) → B.get c = A.get c) := by
  unfold negE
  refine Ok_iter (fun k (B : Arr ℤ) => B.len = A.len ∧
      (∀ i < k, B.get (x + i * sx) = negM (basis i) (A.get (y + i * sy))) ∧
      ∀ c, (∀ i < k, c ≠ x + i * sx) → B.get c = A.get c) ⟨rfl, by simp, by simp⟩ ?_
  rintro k B hk ⟨h1, h2, h3⟩
  simp only [Ok_bind, Ok_rd, Ok_wr, h1]
  refine ⟨hy k hk, hx k hk, trivial, ?_, ?_⟩
  · intro i hi
    by_cases e : i = k
    · subst e
      rw [Function.update_self, h3 _ (fun t ht e => hxy t (by omega) i hk ht e.symm)]
    · rw [Function.update_of_ne]
      · exact h2 i (by omega)
      · intro hh
        exact e (Nat.eq_of_mul_eq_mul_right hsx (by omega))
  · intro c hc
    rw [Function.update_of_ne (hc k (by omega))]
    exact h3 c (fun t ht => hc t (by omega))

lemma axpyin_spec (size : ℕ) (basis : ℕ → ℕ) (x sx y sy z sz : ℕ) (A : Arr ℤ)
    (hx : ∀ i < size, x + i * sx < A.len) (hy : ∀ i < size, y + i * sy < A.len) (hz : ∀ i < size, z + i * sz < A.len)
    (hsx : 0 < sx) (hxy : NoClobber size x sx y sy) (hxz : NoClobber size x sx z sz) :
    Ok (axpyin size basis x sx y sy z sz A) (fun B => B.len = A.len ∧
      (∀ i < size, B.get (x + i * sx) = axpyM (basis i) (A.get (x + i * sx)) (A.get (y + i * sy)) (A.get (z + i * sz))) ∧
      ∀ c, (∀ i < size, c ≠ x + i * sx) → B.get c = A.get c) := by
  unfold axpyin
  refine Ok_iter (fun k (B : Arr ℤ) => B.len = A.len ∧
      (∀ i < k, B.get (x + i * sx) = axpyM (basis i) (A.get (x + i * sx)) (A.get (y + i * sy)) (A.get (z + i * sz))) ∧
      ∀ c, (∀ i < k, c ≠ x + i * sx) → B.get c = A.get c) ⟨rfl, by simp, by simp⟩ ?_
  rintro k B hk ⟨h1, h2, h3⟩
  simp only [Ok_bind, Ok_rd, Ok_wr, h1]
  have hinj : ∀ t, x + k * sx = x + t * sx → t = k := fun t e => (Nat.eq_of_mul_eq_mul_right hsx (by omega))
  refine ⟨hx k hk, hy k hk, hz k hk, hx k hk, trivial, ?_, ?_⟩
  · intro i hi
    by_cases e : i = k
    · subst e
      rw [Function.update_self, h3 _ (fun t ht e => hxy t (by omega) i hk ht e.symm),
        h3 _ (fun t ht e => hxz t (by omega) i hk ht e.symm), h3 _ (fun t ht e => by have := hinj t e; omega)]
    · rw [Function.update_of_ne]
      · exact h2 i (by omega)
      · intro hh; exact e (hinj i hh.symm)
  · intro c hc
    rw [Function.update_of_ne (hc k (by omega))]
    exact h3 c (fun t ht => hc t (by omega))

/-! ## `reduce_modp` -/

/-- What the constructor of `RNSIntegerMod` guarantees. -/
structure TabOk (T : ModTables) (size : ℕ) (basis : ℕ → ℕ) (p : ℕ) : Prop where
  mi_len : T.MiModp.len = size * size
  mi_eq : ∀ i < size, ∀ j < size, T.MiModp.get (i + j * size) = ((prodM size basis / basis i % p % basis j : ℕ) : ℤ)
  im_len : T.iMModp.len = (size + 1) * size
  im_eq : ∀ c < size + 1, ∀ j < size, T.iMModp.get (c + j * (size + 1)) = ((c * prodM size basis % p % basis j : ℕ) : ℤ)

lemma modTables_spec (R : Rns) (size : ℕ) (basis : ℕ → ℕ) (hR : Pre R size basis) (p : ℕ) (hp : 0 < p) (junk : ℕ → ℤ) :
    Ok (modTables R p junk) (fun T => TabOk T size basis p) := by
  unfold modTables
  rw [if_neg (by omega)]
  simp only [Ok_bind, hR.size_eq, hR.M_eq, hR.basis_eq]
  set M := prodM size basis with hM
  have hs1 : ∀ i < size, ∀ j < size, i + j * size < size * size := fun i hi j hj => lin_lt hi hj
  have hs2 : ∀ i < size + 1, ∀ j < size, i + j * (size + 1) < (size + 1) * size := fun i hi j hj => by
    rw [Nat.mul_comm (size + 1) size]; exact lin_lt hi hj
  refine (Ok_iter (fun k (s : ModTables × ℕ) => s.1.MiModp.len = size * size ∧ s.1.iMModp.len = (size + 1) * size ∧
    s.2 = k * M % p ∧ (∀ i < k, ∀ j < size, s.1.MiModp.get (i + j * size) = ((M / basis i % p % basis j : ℕ) : ℤ)) ∧
    ∀ i < k, ∀ j < size, s.1.iMModp.get (i + j * (size + 1)) = ((i * M % p % basis j : ℕ) : ℤ)) ?_ ?_).mono ?_
  · simp [Arr.mk']
  · rintro i ⟨T, iM⟩ hi ⟨h1, h2, h3, h4, h5⟩
    simp only at h1 h2 h3 h4 h5
    simp only [Ok_bind, Ok_rd, hR.Mi_len, hR.Mi_eq i hi]
    refine ⟨hi, ?_⟩
    refine (Ok_iter (fun k (t : ModTables) => t.MiModp.len = size * size ∧ t.iMModp.len = (size + 1) * size ∧
      (∀ a < i, ∀ j < size, t.MiModp.get (a + j * size) = ((M / basis a % p % basis j : ℕ) : ℤ)) ∧
      (∀ a < i, ∀ j < size, t.iMModp.get (a + j * (size + 1)) = ((a * M % p % basis j : ℕ) : ℤ)) ∧
      (∀ j < k, t.MiModp.get (i + j * size) = ((M / basis i % p % basis j : ℕ) : ℤ)) ∧
      (∀ j < k, t.iMModp.get (i + j * (size + 1)) = ((i * M % p % basis j : ℕ) : ℤ))) ?_ ?_).mono ?_
    · exact ⟨h1, h2, h4, h5, by simp, by simp⟩
    · rintro k t hk ⟨g1, g2, g3, g4, g5, g6⟩
      simp only [Ok_bind, Ok_wr, Ok_pure, g1, g2]
      refine ⟨hs2 i (by omega) k hk, hs1 i hi k hk, trivial, trivial, ?_, ?_, ?_, ?_⟩
      · intro a ha j hj
        rw [Function.update_of_ne]
        · exact g3 a ha j hj
        · intro e; have := (lin_inj (by omega) (by omega) e).2; omega
      · intro a ha j hj
        rw [Function.update_of_ne]
        · exact g4 a ha j hj
        · intro e; have := (lin_inj (by omega) (by omega) e).2; omega
      · intro j hj
        by_cases e : j = k
        · subst e; rw [Function.update_self]
        · rw [Function.update_of_ne]
          · exact g5 j (by omega)
          · intro e'; exact e (lin_inj (by omega) (by omega) e').1
      · intro j hj
        by_cases e : j = k
        · subst e; rw [Function.update_self, h3]
        · rw [Function.update_of_ne]
          · exact g6 j (by omega)
          · intro e'; exact e (lin_inj (by omega) (by omega) e').1
    · rintro t ⟨g1, g2, g3, g4, g5, g6⟩
      simp only [Ok_pure]
      refine ⟨g1, g2, ?_, ?_, ?_⟩
      · rw [h3, Nat.mod_add_mod]; congr 1; ring
      · intro a ha j hj
        by_cases e : a = i
        · subst e; exact g5 j hj
        · exact g3 a (by omega) j hj
      · intro a ha j hj
        by_cases e : a = i
        · subst e; exact g6 j hj
        · exact g4 a (by omega) j hj
  · rintro ⟨T, iM⟩ ⟨h1, h2, h3, h4, h5⟩
    simp only at h1 h2 h3 h4 h5
    simp only
    refine (Ok_fill size (fun j => size + j * (size + 1)) (fun j => .ok ((iM % basis j : ℕ) : ℤ)) (fun j => ((iM % basis j : ℕ) : ℤ)) T.iMModp
      (fun _ _ => rfl) (fun j hj => by rw [h2]; exact hs2 size (by omega) j hj)
      (fun a _ b _ e => (lin_inj (by omega) (by omega) e).1)).mono ?_
    rintro I ⟨g1, g2, g3⟩
    simp only [Ok_pure]
    refine ⟨h1, h4, by rw [g1, h2], ?_⟩
    intro c hc j hj
    by_cases e : c = size
    · subst e; rw [g2 j hj, h3]
    · rw [g3 _ (fun t ht e' => e (lin_inj (by omega) (by omega) e').2)]
      exact h5 c (by omega) j hj

/-- Forward error of the floating-point sum of numbers in `[0,1]`. -/
lemma fsum_err (v w : Option ℕ → ℚ) (hw : ∀ t, 0 ≤ w t ∧ w t ≤ 1) (hv : ∀ t, |v t - w t| ≤ 3 / 2 ^ 53) (tree : SumTree)
    (hl : tree.leaves.length ≤ 2 ^ 20) :
    |fsum v tree - (tree.leaves.map w).sum| ≤ 4 * (tree.leaves.length : ℚ) ^ 2 / 2 ^ 53 ∧
      0 ≤ (tree.leaves.map w).sum ∧ (tree.leaves.map w).sum ≤ tree.leaves.length ∧ 1 ≤ tree.leaves.length := by
  induction tree with
  | leaf t =>
    simp only [fsum, SumTree.leaves, List.map_cons, List.map_nil, List.sum_cons, List.sum_nil, add_zero, List.length_singleton]
    refine ⟨le_trans (hv t) (by norm_num), (hw t).1, by simpa using (hw t).2, le_rfl⟩
  | node l r ihl ihr =>
    simp only [SumTree.leaves, List.length_append] at hl
    obtain ⟨a1, a2, a3, a4⟩ := ihl (by omega)
    obtain ⟨b1, b2, b3, b4⟩ := ihr (by omega)
    simp only [fsum, SumTree.leaves, List.map_append, List.sum_append, List.length_append]
    set S1 := (l.leaves.map w).sum
    set S2 := (r.leaves.map w).sum
    set x := fsum v l
    set y := fsum v r
    have hL1 : (1:ℚ) ≤ (l.leaves.length : ℚ) := by exact_mod_cast a4
    have hL2 : (1:ℚ) ≤ (r.leaves.length : ℚ) := by exact_mod_cast b4
    have hL : (l.leaves.length : ℚ) + (r.leaves.length : ℚ) ≤ 2 ^ 20 := by exact_mod_cast hl
    push_cast
    set L1 := (l.leaves.length : ℚ)
    set L2 := (r.leaves.length : ℚ)
    refine ⟨?_, by linarith, by linarith, by omega⟩
    have he := rnd_err 53 (x + y)
    rw [_root_.abs_le] at a1 b1
    have hE : 4 * L1 ^ 2 / 2 ^ 53 + 4 * L2 ^ 2 / 2 ^ 53 ≤ 1 := by
      have : L1 ^ 2 + L2 ^ 2 ≤ (L1 + L2) ^ 2 := by nlinarith
      have h2 : (L1 + L2) ^ 2 ≤ (2 ^ 20) ^ 2 := by gcongr
      rw [← add_div, div_le_one (by norm_num)]
      have h3 : (4:ℚ) * (2 ^ 20) ^ 2 ≤ 2 ^ 53 := by norm_num
      linarith
    have hxy : |x + y| ≤ L1 + L2 + 1 := by rw [_root_.abs_le]; constructor <;> linarith
    have he' : |rnd 53 (x + y) - (x + y)| ≤ (L1 + L2 + 1) / 2 ^ 53 :=
      he.trans (by gcongr)
    rw [_root_.abs_le] at he' ⊢
    have hfin : (L1 + L2 + 1) / 2 ^ 53 + 4 * L1 ^ 2 / 2 ^ 53 + 4 * L2 ^ 2 / 2 ^ 53 ≤ 4 * (L1 + L2) ^ 2 / 2 ^ 53 := by
      rw [← add_div, ← add_div]
      gcongr
      nlinarith
    constructor <;> linarith

/-- The rounded products `Gamma_i * (1/m_i)`. -/
lemma term_err (g m : ℕ) (hg : g < m) :
    |rnd 53 ((g : ℚ) * rnd 53 (1 / m)) - (g : ℚ) / m| ≤ 3 / 2 ^ 53 := by
  have hm : (0:ℚ) < m := by exact_mod_cast (by omega : 0 < m)
  have hgm : (g : ℚ) / m ≤ 1 := by rw [div_le_one hm]; exact_mod_cast hg.le
  have hg0 : (0:ℚ) ≤ g := by positivity
  have hgm0 : (0 : ℚ) ≤ (g : ℚ) / m := by positivity
  have h1 := rnd_err 53 (1 / (m : ℚ))
  rw [abs_of_pos (show (0:ℚ) < 1 / m by positivity)] at h1
  have h2 : |(g : ℚ) * rnd 53 (1 / m) - (g : ℚ) / m| ≤ 1 / 2 ^ 53 := by
    have : (g : ℚ) * rnd 53 (1 / m) - (g : ℚ) / m = g * (rnd 53 (1 / m) - 1 / m) := by ring
    rw [this, abs_mul, abs_of_nonneg hg0]
    calc (g : ℚ) * |rnd 53 (1 / m) - 1 / m| ≤ g * (1 / m / 2 ^ 53) := by gcongr
      _ = (g / m) / 2 ^ 53 := by ring
      _ ≤ _ := by gcongr
  have h3 := rnd_err 53 ((g : ℚ) * rnd 53 (1 / m))
  set z := (g : ℚ) * rnd 53 (1 / m)
  have h4 : |z| ≤ 2 := by rw [_root_.abs_le] at h2 ⊢; constructor <;> linarith
  have h5 : |rnd 53 z - z| ≤ 2 / 2 ^ 53 := h3.trans (by gcongr)
  rw [_root_.abs_le] at h2 h5 ⊢
  constructor <;> linarith

lemma covers_len (t : SumTree) (k : ℕ) (h : t.Covers k) : t.leaves.length = k + 1 := by
  rw [h.length_eq]; simp

lemma covers_sumQ (t : SumTree) (k : ℕ) (h : t.Covers k) (v : Option ℕ → ℚ) :
    (t.leaves.map v).sum = v none + ∑ l ∈ range k, v (some l) := by
  rw [(h.map v).sum_eq]
  simp only [List.map_cons, List.sum_cons, List.map_map]
  congr 1

/-- The rounded quotient is the exact one: `∑ g_i M_i = X + q M` with `|X| ≤ M/4`. -/
lemma alpha_spec {size : ℕ} {basis : ℕ → ℕ} (hc : Coprime' size basis) (hsize : size < 2 ^ 20) (g : ℕ → ℕ)
    (hg : ∀ i < size, g i < basis i) (X q : ℤ)
    (hX : (∑ i ∈ range size, (g i : ℤ) * ((prodM size basis / basis i : ℕ) : ℤ)) = X + q * prodM size basis)
    (hX4 : 4 * |X| ≤ prodM size basis) (tree : SumTree) (ht : tree.Covers size) :
    roundEven (alphaF basis ((List.range size).map (fun i => (g i : ℤ))) tree) = q ∧ 0 ≤ q ∧ q ≤ size := by
  have hM := prodM_pos hc
  set M := prodM size basis with hMdef
  have hMQ : (0:ℚ) < M := by exact_mod_cast hM
  set w : Option ℕ → ℚ := fun t => match t with | none => 0 | some i => if i < size then (g i : ℚ) / basis i else 0 with hw
  have hbpos : ∀ i < size, (0:ℚ) < basis i := fun i hi => by have := hc.two_le i hi; exact_mod_cast (by omega : 0 < basis i)
  have hw01 : ∀ t, 0 ≤ w t ∧ w t ≤ 1 := by
    intro t
    match t with
    | none => simp [hw]
    | some i =>
      simp only [hw]
      split_ifs with hi
      · have := hbpos i hi
        exact ⟨by positivity, by rw [div_le_one this]; exact_mod_cast (hg i hi).le⟩
      · simp
  have hv : ∀ t, |(match t with | none => (0:ℚ) | some i => rnd 53 ((((List.range size).map (fun i => (g i : ℤ))).getD i 0 : ℤ) * rnd 53 (1 / basis i))) - w t| ≤ 3 / 2 ^ 53 := by
    intro t
    match t with
    | none => simp only [hw, sub_zero, abs_zero]; norm_num
    | some i =>
      simp only [hw]
      by_cases hi : i < size
      · rw [if_pos hi]
        have : ((List.range size).map (fun i => (g i : ℤ))).getD i 0 = (g i : ℤ) := by
          simp [List.getD_eq_getElem?_getD, hi]
        rw [this, Int.cast_natCast]
        exact term_err (g i) (basis i) (hg i hi)
      · rw [if_neg hi]
        have : ((List.range size).map (fun i => (g i : ℤ))).getD i 0 = 0 := by
          rw [List.getD_eq_getElem?_getD, List.getElem?_eq_none (by simpa using hi)]; rfl
        rw [this, Int.cast_zero, zero_mul, rnd_zero, sub_zero, abs_zero]; norm_num
  have hlen := covers_len tree size ht
  obtain ⟨he, -⟩ := fsum_err _ w hw01 hv tree (by omega)
  rw [covers_sumQ tree size ht, hlen] at he
  have hsum : w none + ∑ l ∈ range size, w (some l) = (X : ℚ) / M + q := by
    have e1 : ∀ l ∈ range size, w (some l) = (g l : ℚ) * ((M / basis l : ℕ) : ℚ) / M := by
      intro l hl
      rw [mem_range] at hl
      have hb := hbpos l hl
      have hd : basis l ∣ M := dvd_prod_of_mem _ (mem_range.2 hl)
      simp only [hw, if_pos hl]
      rw [Nat.cast_div hd hb.ne']
      field_simp
    rw [sum_congr rfl e1, ← sum_div]
    have : (∑ i ∈ range size, (g i : ℚ) * ((M / basis i : ℕ) : ℚ)) = X + q * M := by
      have := congrArg (fun z : ℤ => (z : ℚ)) hX
      simpa only [Int.cast_sum, Int.cast_mul, Int.cast_natCast, Int.cast_add] using this
    rw [this]
    simp only [hw, zero_add]
    field_simp
  rw [hsum] at he
  have hsz : ((size : ℚ) + 1) ≤ 2 ^ 20 := by exact_mod_cast (by omega : size + 1 ≤ 2 ^ 20)
  have hE : 4 * ((size + 1 : ℕ) : ℚ) ^ 2 / 2 ^ 53 ≤ 1 / 8 := by
    push_cast
    have : ((size : ℚ) + 1) ^ 2 ≤ (2 ^ 20) ^ 2 := by gcongr
    rw [div_le_iff₀ (by norm_num)]
    have h3 : (4:ℚ) * (2 ^ 20) ^ 2 ≤ 1 / 8 * 2 ^ 53 := by norm_num
    linarith
  have hXM : |(X:ℚ) / M| ≤ 1 / 4 := by
    rw [abs_div, abs_of_pos hMQ, div_le_iff₀ hMQ]
    have : (4:ℚ) * |(X:ℚ)| ≤ M := by exact_mod_cast hX4
    linarith
  refine ⟨?_, ?_⟩
  · apply roundEven_of_lt
    have he : |alphaF basis ((List.range size).map (fun i => (g i : ℤ))) tree - ((X : ℚ) / M + q)| ≤ _ := he
    rw [_root_.abs_le] at he hXM
    rw [abs_lt]
    constructor <;> linarith [he.1, he.2]
  · have h0 : 0 ≤ (X : ℚ) / M + q := by
      rw [← hsum]
      exact add_nonneg (hw01 none).1 (sum_nonneg (fun i _ => (hw01 (some i)).1))
    have h1 : (X : ℚ) / M + q ≤ size := by
      rw [← hsum]
      have : ∑ l ∈ range size, w (some l) ≤ ∑ _l ∈ range size, (1:ℚ) := sum_le_sum (fun i _ => (hw01 (some i)).2)
      simp at this
      simp only [hw, zero_add] at this ⊢
      exact this
    rw [_root_.abs_le] at hXM
    constructor
    · by_contra hlt
      have : q ≤ -1 := by omega
      have : (q:ℚ) ≤ -1 := by exact_mod_cast this
      linarith
    · by_contra hlt
      have : (size:ℤ) + 1 ≤ q := by omega
      have : (size:ℚ) + 1 ≤ q := by exact_mod_cast this
      linarith

/-- The sums of products stay exactly representable. -/
def FitMod (size : ℕ) (basis : ℕ → ℕ) : Prop :=
  ∀ k < size, ∑ s ∈ range size, ((basis k : ℤ) - 1) * ((basis s : ℤ) - 1) + 2 * basis k < 2 ^ 53

lemma reduceModp_spec (R : Rns) (size : ℕ) (basis : ℕ → ℕ) (hc : Coprime' size basis) (hR : Pre R size basis)
    (p : ℕ) (hp : 0 < p) (T : ModTables) (hT : TabOk T size basis p) (hsize : size < 2 ^ 20) (hfit : FitMod size basis)
    (n : ℕ) (A : Arr ℤ) (rda : ℕ) (hrda : n ≤ rda) (hA : ∀ i < size, ∀ j < n, j + i * rda < A.len) (junk : ℕ → ℤ)
    (schedA : ℕ → ℕ → SumTree) (schedB : ℕ → SumTree) (hsA : ∀ k j, (schedA k j).Covers size)
    (hsB : ∀ j, (schedB j).Covers size) (X : ℕ → ℤ) (hX : ∀ j < n, 4 * |X j| ≤ prodM size basis)
    (hres : ∀ i < size, ∀ j < n, A.get (j + i * rda) = X j % basis i) :
    Ok (reduceModp R T n A rda junk schedA schedB) (fun B => B.len = A.len ∧
      (∀ j < n, ∃ Y : ℤ, Y ≡ X j [ZMOD p] ∧ -(p : ℤ) < Y ∧ Y ≤ (p - 1) * ∑ i ∈ range size, ((basis i : ℤ) - 1) ∧
        ∀ i < size, B.get (j + i * rda) = Y % basis i) ∧
      ∀ c, (∀ i < size, ∀ j < n, c ≠ j + i * rda) → B.get c = A.get c) := by
  unfold reduceModp
  simp only [Ok_bind, hR.size_eq, hR.basis_eq]
  set M := prodM size basis with hM
  have hpZ : (0:ℤ) < p := by exact_mod_cast hp
  have hbZ : ∀ i < size, (0:ℤ) < basis i := fun i hi => by have := hc.two_le i hi; omega
  set g : ℕ → ℕ → ℤ := fun j i => (R.MMi.get i * X j) % basis i with hg
  have hg0 : ∀ j, ∀ i < size, 0 ≤ g j i ∧ g j i < basis i := fun j i hi =>
    ⟨Int.emod_nonneg _ (hbZ i hi).ne', Int.emod_lt_of_pos _ (hbZ i hi)⟩
  refine (Ok_fill2 size n (fun i j => j + i * n) _ (fun i j => g j i) (Arr.mk' (size * n) junk) ?_ ?_ ?_).mono ?_
  · intro i hi j hj
    simp only [Arr.rd, if_pos (hA i hi j hj), hR.MMi_len, if_pos hi, bind, Except.bind, pure, Except.pure, hres i hi j hj, hg]
    unfold mulM
    congr 1
    exact Int.ModEq.mul_left _ (Int.mod_modEq _ _)
  · intro i hi j hj; exact lin_lt hj hi
  · intro i hi j hj i' hi' j' hj' e; exact lin_inj hj hj' e
  rintro G ⟨hG1, hG2, -⟩
  have hG1' : G.len = size * n := hG1
  have hrowG : ∀ j < n, readRow G j n size = .ok ((List.range size).map (g j)) := by
    intro j hj
    rw [readRow_ok]
    · congr 1
      apply List.map_congr_left
      intro i hi
      exact hG2 i (List.mem_range.1 hi) j hj
    · intro l hl; rw [hG1']; exact lin_lt hj hl
  set mip : ℕ → ℕ → ℤ := fun k s => ((M / basis s % p % basis k : ℕ) : ℤ) with hmip
  have hmip0 : ∀ k < size, ∀ s, 0 ≤ mip k s ∧ mip k s ≤ basis k - 1 := by
    intro k hk s
    have := hbZ k hk
    have h1 : M / basis s % p % basis k < basis k := Nat.mod_lt _ (by have := hc.two_le k hk; omega)
    simp only [hmip]
    omega
  set S : ℕ → ℕ → ℤ := fun k j => ∑ s ∈ range size, mip k s * g j s with hS
  have hterm : ∀ k < size, ∀ j, ∀ s < size, 0 ≤ mip k s * g j s ∧ mip k s * g j s ≤ ((basis k : ℤ) - 1) * ((basis s : ℤ) - 1) := by
    intro k hk j s hs
    have h1 := hmip0 k hk s
    have h2 := hg0 j s hs
    have := hbZ k hk
    exact ⟨mul_nonneg h1.1 h2.1, mul_le_mul h1.2 (by omega) h2.1 (by omega)⟩
  have hSb : ∀ k < size, ∀ j, 0 ≤ S k j ∧ S k j ≤ ∑ s ∈ range size, ((basis k : ℤ) - 1) * ((basis s : ℤ) - 1) := by
    intro k hk j
    exact ⟨sum_nonneg (fun s hs => (hterm k hk j s (mem_range.1 hs)).1), sum_le_sum (fun s hs => (hterm k hk j s (mem_range.1 hs)).2)⟩
  refine (Ok_fill2 size n (fun k j => j + k * rda) _ S A ?_ hA ?_).mono ?_
  · intro k hk j hj
    rw [hrowG j hj, readRow_ok]
    · have e1 : (List.range size).map (fun l => T.MiModp.get (k * size + l * 1)) = (List.range size).map (mip k) := by
        apply List.map_congr_left
        intro l hl
        rw [show k * size + l * 1 = l + k * size by ring]
        exact hT.mi_eq l (List.mem_range.1 hl) k hk
      rw [e1]
      simp only [bind, Except.bind]
      rw [dot_ok _ size (hsA k j)]
      have h1 : ∑ l ∈ range size, |mip k l * g j l| = S k j :=
        sum_congr rfl (fun l hl => abs_of_nonneg (hterm k hk j l (mem_range.1 hl)).1)
      rw [h1]
      have := hfit k hk
      have := (hSb k hk j).2
      have := hbZ k hk
      omega
    · intro l hl; rw [hT.mi_len]; have := lin_lt hl hk; omega
  · intro i hi j hj i' hi' j' hj' e; exact lin_inj (by omega) (by omega) e
  rintro A1 ⟨h1A, h2A, h3A⟩
  -- quotients
  have hq : ∀ j < n, ∃ q : ℕ, q ≤ size ∧ (∑ i ∈ range size, g j i * ((M / basis i : ℕ) : ℤ)) = X j + (q : ℤ) * M ∧
      roundEven (alphaF basis ((List.range size).map (g j)) (schedB j)) = (q : ℤ) := by
    intro j hj
    have hmod : ∑ i ∈ range size, g j i * ((M / basis i : ℕ) : ℤ) ≡ X j [ZMOD M] := by
      have h1 := crt_modEq hc hR (X j) (fun t => X j) (fun t _ => rfl)
      refine Int.ModEq.trans ?_ h1
      apply Int.ModEq.symm
      rw [Int.modEq_iff_dvd, ← sum_sub_distrib]
      apply dvd_sum
      intro i hi
      rw [mem_range] at hi
      have e : (M : ℤ) = basis i * ((M / basis i : ℕ) : ℤ) := by
        have hd : basis i ∣ M := dvd_prod_of_mem _ (mem_range.2 hi)
        exact_mod_cast (Nat.mul_div_cancel' hd).symm
      have e2 : g j i * ((M / basis i : ℕ) : ℤ) - X j * (crtC R size basis i : ℤ) =
          (g j i - R.MMi.get i * X j) * ((M / basis i : ℕ) : ℤ) := by
        unfold crtC; push_cast; ring
      rw [e2]
      conv_lhs => rw [e]
      apply mul_dvd_mul_right
      rw [← Int.modEq_iff_dvd]
      exact (Int.mod_modEq _ _).symm
    obtain ⟨q, hq⟩ := (Int.modEq_iff_dvd.1 hmod.symm)
    have hgn : ∀ i, i < size → ((g j i).toNat : ℤ) = g j i := fun i hi => Int.toNat_of_nonneg (hg0 j i hi).1
    have hmap : (List.range size).map (fun i => ((g j i).toNat : ℤ)) = (List.range size).map (g j) :=
      List.map_congr_left (fun i hi => hgn i (List.mem_range.1 hi))
    obtain ⟨r1, r2, r3⟩ := alpha_spec hc hsize (fun i => (g j i).toNat)
      (fun i hi => by have h1 := (hg0 j i hi).2; have h2 := hgn i hi; omega) (X j) q
      (by
        have : ∑ i ∈ range size, ((g j i).toNat : ℤ) * ((M / basis i : ℕ) : ℤ) = ∑ i ∈ range size, g j i * ((M / basis i : ℕ) : ℤ) :=
          sum_congr rfl (fun i hi => by rw [hgn i (mem_range.1 hi)])
        rw [this]; linarith) (hX j hj) (schedB j) (hsB j)
    rw [hmap] at r1
    refine ⟨q.toNat, by omega, ?_, ?_⟩
    · rw [Int.toNat_of_nonneg r2]; linarith
    · rw [Int.toNat_of_nonneg r2]; exact r1
  choose! q hq1 hq2 hq3 using hq
  set im : ℕ → ℕ → ℤ := fun i j => ((q j * M % p % basis i : ℕ) : ℤ) with him
  have him0 : ∀ i < size, ∀ j, 0 ≤ im i j ∧ im i j < basis i := by
    intro i hi j
    simp only [him]
    have h1 : q j * M % p % basis i < basis i := Nat.mod_lt _ (by have := hc.two_le i hi; omega)
    omega
  refine (Ok_upd2 size n (fun i j => j + i * rda) (fun i j a => do
      let g ← readRow G j n size
      let aa := roundEven (alphaF basis g (schedB j))
      let aa ← (if 0 ≤ aa then .ok aa.toNat else .error .inexact)
      let q ← T.iMModp.rd (aa + i * (size + 1))
      pure (a - q)) (fun i j => S i j - im i j) A1 ?_ (fun i hi j hj => by rw [h1A]; exact hA i hi j hj) ?_).mono ?_
  · intro i hi j hj
    have hlt : q j + i * (size + 1) < T.iMModp.len := by
      rw [hT.im_len, Nat.mul_comm (size + 1) size]; exact lin_lt (by have := hq1 j hj; omega) hi
    simp only [hrowG j hj, bind, Except.bind, hq3 j hj]
    rw [if_pos (by omega)]
    simp only [Int.toNat_natCast, Arr.rd, if_pos hlt, pure, Except.pure]
    have e1 : A1.get (j + i * rda) = S i j := h2A i hi j hj
    rw [e1, hT.im_eq (q j) (by have := hq1 j hj; omega) i hi]
  · intro i hi j hj i' hi' j' hj' e; exact lin_inj (by omega) (by omega) e
  rintro A2 ⟨h1B, h2B, h3B⟩
  refine (Ok_upd2 size n (fun i j => j + i * rda) (fun i j a => pure (redF (basis i) a))
    (fun i j => redF (basis i) (S i j - im i j)) A2 ?_ (fun i hi j hj => by rw [h1B, h1A]; exact hA i hi j hj) ?_).mono ?_
  · intro i hi j hj; rw [show A2.get (j + i * rda) = S i j - im i j from h2B i hi j hj]; rfl
  · intro i hi j hj i' hi' j' hj' e; exact lin_inj (by omega) (by omega) e
  rintro A3 ⟨h1C, h2C, h3C⟩
  refine ⟨by rw [h1C, h1B, h1A], ?_, fun c hcc => by rw [h3C c hcc, h3B c hcc, h3A c hcc]⟩
  intro j hj
  set Y : ℤ := ∑ s ∈ range size, ((M / basis s % p : ℕ) : ℤ) * g j s - ((q j * M % p : ℕ) : ℤ) with hY
  have hqp : ((q j * M % p : ℕ) : ℤ) < p := by exact_mod_cast Nat.mod_lt _ hp
  have hsn : 0 ≤ ∑ s ∈ range size, ((M / basis s % p : ℕ) : ℤ) * g j s :=
    sum_nonneg (fun s hs => mul_nonneg (by positivity) (hg0 j s (mem_range.1 hs)).1)
  refine ⟨Y, ?_, by omega, ?_, ?_⟩
  · have e1 : ∑ s ∈ range size, ((M / basis s % p : ℕ) : ℤ) * g j s ≡ ∑ s ∈ range size, g j s * ((M / basis s : ℕ) : ℤ) [ZMOD p] := by
      rw [Int.modEq_iff_dvd, ← sum_sub_distrib]
      apply dvd_sum
      intro s hs
      rw [mul_comm (g j s), ← sub_mul]
      apply Dvd.dvd.mul_right
      rw [← Int.modEq_iff_dvd]
      push_cast
      exact Int.mod_modEq _ _
    have e2 : ((q j * M % p : ℕ) : ℤ) ≡ (q j : ℤ) * M [ZMOD p] := by push_cast; exact Int.mod_modEq _ _
    have := e1.sub e2
    rw [hq2 j hj, add_sub_cancel_right] at this
    exact this
  · have hle : ∑ s ∈ range size, ((M / basis s % p : ℕ) : ℤ) * g j s ≤ ∑ s ∈ range size, ((p:ℤ) - 1) * ((basis s : ℤ) - 1) := by
      apply sum_le_sum
      intro s hs
      have h1 := hg0 j s (mem_range.1 hs)
      have h2 : ((M / basis s % p : ℕ) : ℤ) < p := by exact_mod_cast Nat.mod_lt _ hp
      exact mul_le_mul (by omega) (by omega) h1.1 (by omega)
    rw [← mul_sum] at hle
    have : (0:ℤ) ≤ ((q j * M % p : ℕ) : ℤ) := by positivity
    omega
  · intro i hi
    rw [show A3.get (j + i * rda) = redF (basis i) (S i j - im i j) from h2C i hi j hj, redF_ok (basis i) (hc.two_le i hi)]
    · have e1 : S i j ≡ ∑ s ∈ range size, ((M / basis s % p : ℕ) : ℤ) * g j s [ZMOD basis i] := by
        rw [Int.modEq_iff_dvd, ← sum_sub_distrib]
        apply dvd_sum
        intro s hs
        rw [← sub_mul]
        apply Dvd.dvd.mul_right
        rw [← Int.modEq_iff_dvd]
        simp only [hmip]
        rw [Int.natCast_mod (M / basis s % p)]
        exact Int.mod_modEq _ _
      have e2 : im i j ≡ ((q j * M % p : ℕ) : ℤ) [ZMOD basis i] := by
        simp only [him]
        rw [Int.natCast_mod (q j * M % p)]; exact Int.mod_modEq _ _
      exact e1.sub e2
    · have h1 := hSb i hi j
      have h2 := him0 i hi j
      have h3 := hfit i hi
      have : |S i j - im i j| ≤ S i j + im i j := by rw [_root_.abs_le]; constructor <;> omega
      omega

end Verif.RNS
