import Verif.Model.RNS
import Verif.Proofs.LazyGemm
import Verif.Proofs.Reduce
import Mathlib.Data.Nat.ChineseRemainder
import Mathlib.Algebra.BigOperators.Associated
import Mathlib.Algebra.Order.BigOperators.Ring.Finset
import Mathlib.Algebra.BigOperators.Intervals
import Mathlib.RingTheory.Coprime.Lemmas

/-! Lemmas about the residue number system. -/

namespace Verif.RNS
open Verif Verif.FP Verif.Reduce Verif.Lazy Finset

lemma word_sum (x k : ℕ) : ∑ l ∈ range k, word x l * 2 ^ (16 * l) = x % 2 ^ (16 * k) := by
  induction k with
  | zero => simp [Nat.mod_one]
  | succ k ih =>
    rw [sum_range_succ, ih, word, show 16 * (k + 1) = 16 * k + 16 by ring, pow_add, Nat.mod_mul]
    ring

lemma word_sum_eq (x k : ℕ) (h : x < 2 ^ (16 * k)) : ∑ l ∈ range k, word x l * 2 ^ (16 * l) = x := by
  rw [word_sum, Nat.mod_eq_of_lt h]

lemma word_lt (x l : ℕ) : word x l < 2 ^ 16 := Nat.mod_lt _ (by norm_num)

lemma word_limb (x l : ℕ) (h : limbWords x ≤ l) : word x l = 0 := by
  unfold word
  have hx : x < 2 ^ (16 * l) := by
    refine lt_of_lt_of_le (Nat.lt_size_self x) (Nat.pow_le_pow_right (by norm_num) ?_)
    unfold limbWords at h
    omega
  rw [Nat.div_eq_of_lt hx]; rfl

lemma word_cut (x k l : ℕ) (h : l < k) : (if l < min k (limbWords x) then word x l else 0) = word x l := by
  split_ifs with h1
  · rfl
  · rw [word_limb x l (by omega)]

lemma lt_words (x : ℕ) : x < 2 ^ (16 * words x) := by
  refine lt_of_lt_of_le (Nat.lt_size_self x) (Nat.pow_le_pow_right (by norm_num) ?_)
  unfold words
  split_ifs <;> omega

/-- Moduli at least 2 and pairwise coprime. -/
structure Coprime' (size : ℕ) (basis : ℕ → ℕ) : Prop where
  two_le : ∀ i < size, 2 ≤ basis i
  cop : ∀ i < size, ∀ j < size, i ≠ j → Nat.Coprime (basis i) (basis j)

lemma prodM_pos {size : ℕ} {basis : ℕ → ℕ} (h : Coprime' size basis) : 0 < prodM size basis :=
  prod_pos (fun i hi => by have := h.two_le i (mem_range.1 hi); omega)

lemma prodM_div {size : ℕ} {basis : ℕ → ℕ} (h : Coprime' size basis) (i : ℕ) (hi : i < size) :
    prodM size basis / basis i = ∏ j ∈ (range size).erase i, basis j := by
  unfold prodM
  rw [← mul_prod_erase (range size) basis (mem_range.2 hi)]
  exact Nat.mul_div_cancel_left _ (by have := h.two_le i hi; omega)

lemma cop_div {size : ℕ} {basis : ℕ → ℕ} (h : Coprime' size basis) (i : ℕ) (hi : i < size) :
    Nat.Coprime (prodM size basis / basis i) (basis i) := by
  rw [prodM_div h i hi]
  apply Nat.Coprime.prod_left
  intro j hj
  rw [mem_erase, mem_range] at hj
  exact h.cop j hj.2 i hi hj.1

lemma modInv_ok (a m : ℕ) (hm : 2 ≤ m) (h : Nat.Coprime a m) :
    ∃ b, modInv (a % m) m = .ok b ∧ b < m ∧ a * b ≡ 1 [MOD m] := by
  haveI : NeZero m := ⟨by omega⟩
  have hg : Nat.gcd (a % m) m = 1 := by rwa [← Nat.gcd_rec, Nat.gcd_comm, ← Nat.coprime_iff_gcd_eq_one] 
  unfold modInv
  rw [if_pos hg]
  refine ⟨_, rfl, ZMod.val_lt _, ?_⟩
  rw [← ZMod.natCast_eq_natCast_iff]
  push_cast
  rw [ZMod.natCast_val, ZMod.cast_id, ZMod.natCast_mod]
  exact ZMod.coe_mul_inv_eq_one a h

/-- What `precompute` guarantees. -/
structure Pre (R : Rns) (size : ℕ) (basis : ℕ → ℕ) : Prop where
  size_eq : R.size = size
  basis_eq : R.basis = basis
  M_eq : R.M = prodM size basis
  ldm_eq : R.ldm = words (prodM size basis)
  MMi_len : R.MMi.len = size
  MMi_lt : ∀ i < size, R.MMi.get i < basis i
  MMi_inv : ∀ i < size, (prodM size basis / basis i) * R.MMi.get i ≡ 1 [MOD basis i]
  Mi_len : R.Mi.len = size
  Mi_eq : ∀ i < size, R.Mi.get i = prodM size basis / basis i
  out_len : R.crtOut.len = size * R.ldm
  out_eq : ∀ i < size, ∀ l < R.ldm, R.crtOut.get (l + i * R.ldm) = word (prodM size basis / basis i * R.MMi.get i) l
  in_len : R.crtIn.len = size * R.ldm
  in_eq : ∀ i < size, ∀ l < R.ldm, R.crtIn.get (l + i * R.ldm) = ((2 ^ (16 * l) % basis i : ℕ) : ℤ)

lemma lin_lt {a b c d : ℕ} (h1 : a < b) (h2 : c < d) : a + c * b < d * b := by
  calc a + c * b < b + c * b := by omega
    _ = (c + 1) * b := by ring
    _ ≤ d * b := Nat.mul_le_mul_right _ h2

lemma lin_inj {a a' b c c' : ℕ} (h1 : a < b) (h2 : a' < b) (h : a + c * b = a' + c' * b) : c = c' ∧ a = a' := by
  have hb : 0 < b := by omega
  have e1 : (a + c * b) / b = c := by rw [Nat.add_mul_div_right _ _ hb, Nat.div_eq_of_lt h1]; omega
  have e2 : (a' + c' * b) / b = c' := by rw [Nat.add_mul_div_right _ _ hb, Nat.div_eq_of_lt h2]; omega
  have : c = c' := by rw [← e1, ← e2, h]
  subst this
  exact ⟨rfl, by omega⟩

lemma precompute_spec (size : ℕ) (basis : ℕ → ℕ) (h : Coprime' size basis) (junkN : ℕ → ℕ) (junkZ : ℕ → ℤ) :
    Ok (precompute size basis junkN junkZ) (fun R => Pre R size basis) := by
  unfold precompute
  simp only [Ok_bind]
  set M := prodM size basis with hM
  refine (Ok_fill size id _ (fun i => M / basis i) (Arr.mk' size junkN) ?_ (fun t ht => ht) (fun _ _ _ _ h => h)).mono ?_
  · intro i hi; rw [if_neg (by have := h.two_le i hi; omega)]
  rintro Mi ⟨hMi1, hMi2, -⟩
  choose! inv hinv1 hinv2 hinv3 using fun i (hi : i < size) => modInv_ok (M / basis i) (basis i) (h.two_le i hi) (cop_div h i hi)
  have hMi1' : Mi.len = size := hMi1
  refine (Ok_fill size id _ inv (Arr.mk' size junkN) ?_ (fun t ht => ht) (fun _ _ _ _ h => h)).mono ?_
  · intro i hi
    have := hMi2 i hi
    simp only [id] at this
    simp only [Arr.rd, hMi1', if_pos hi, bind, Except.bind, this, hinv1 i hi]
  rintro MMi ⟨hMM1, hMM2, -⟩
  have hMM1' : MMi.len = size := hMM1
  set ldm := words M with hldm
  have key : ∀ i < size, Mi.rd i = .ok (M / basis i) ∧ MMi.rd i = .ok (inv i) := by
    intro i hi
    have h1 := hMi2 i hi
    have h2 := hMM2 i hi
    simp only [id] at h1 h2
    simp [Arr.rd, hMi1', hMM1', hi, h1, h2]
  refine (Ok_iter (fun i (A : Arr ℤ) => A.len = size * ldm ∧ ∀ i' < i, ∀ l < ldm,
    A.get (l + i' * ldm) = word (M / basis i' * inv i') l) ⟨rfl, by simp⟩ ?_).mono ?_
  · rintro i A hi ⟨hA1, hA2⟩
    simp only [(key i hi).1, (key i hi).2, Ok_bind, Ok_ok]
    refine (Ok_fill ldm (fun l => l + i * ldm) (fun l => .ok (if l < min ldm (limbWords (M / basis i * inv i)) then
      (word (M / basis i * inv i) l : ℤ) else 0)) _ A (fun _ _ => rfl) ?_ ?_).mono ?_
    · intro l hl; rw [hA1]; exact lin_lt hl hi
    · intro s _ t _ h; omega
    · rintro B ⟨hB1, hB2, hB3⟩
      refine ⟨by rw [hB1, hA1], ?_⟩
      intro i' hi' l hl
      by_cases e : i' = i
      · subst e
        rw [hB2 l hl, ← word_cut _ ldm l hl]
        push_cast; split_ifs <;> simp
      · rw [hB3 _ (fun t ht hh => e (lin_inj hl ht hh).1), hA2 i' (by omega) l hl]
  rintro crtOut ⟨ho1, ho2⟩
  refine (Ok_iter (fun i (A : Arr ℤ) => A.len = size * ldm ∧ ∀ i' < i, ∀ l < ldm,
    A.get (l + i' * ldm) = ((2 ^ (16 * l) % basis i' : ℕ) : ℤ)) ⟨rfl, by simp⟩ ?_).mono ?_
  · rintro i A hi ⟨hA1, hA2⟩
    simp only [Ok_bind]
    refine (Ok_iter (fun j (s : Arr ℤ × ℕ) => s.1.len = size * ldm ∧ s.2 = 2 ^ (16 * j) % basis i ∧
      (∀ l < j, s.1.get (l + i * ldm) = ((2 ^ (16 * l) % basis i : ℕ) : ℤ)) ∧
      ∀ i' < i, ∀ l < ldm, s.1.get (l + i' * ldm) = ((2 ^ (16 * l) % basis i' : ℕ) : ℤ)) ?_ ?_).mono ?_
    · refine ⟨hA1, ?_, by simp, hA2⟩
      have := h.two_le i hi
      simp [Nat.mod_eq_of_lt (show 1 < basis i by omega)]
    · rintro j ⟨B, acc⟩ hj ⟨h1, h2, h3, h4⟩
      simp only at h1 h2 h3 h4
      simp only [Ok_bind, Ok_wr, Ok_pure]
      refine ⟨by rw [h1]; exact lin_lt hj hi, h1, ?_, ?_, ?_⟩
      · rw [h2, Nat.mod_mul_mod, ← pow_add]; congr 2
      · intro l hl
        by_cases e : l = j
        · subst e; simp [h2]
        · rw [Function.update_of_ne (by omega)]; exact h3 l (by omega)
      · intro i' hi' l hl
        rw [Function.update_of_ne]
        · exact h4 i' hi' l hl
        · intro hh; have := (lin_inj hl hj hh).1; omega
    · rintro ⟨B, acc⟩ ⟨h1, h2, h3, h4⟩
      simp only [Ok_pure]
      refine ⟨h1, ?_⟩
      intro i' hi' l hl
      by_cases e : i' = i
      · subst e; exact h3 l hl
      · exact h4 i' (by omega) l hl
  rintro crtIn ⟨hi1, hi2⟩
  simp only [Ok_pure]
  have e : ∀ i < size, MMi.get i = inv i := fun i hi => hMM2 i hi
  exact ⟨rfl, rfl, rfl, rfl, hMM1', fun i hi => by rw [e i hi]; exact hinv2 i hi, fun i hi => by rw [e i hi]; exact hinv3 i hi,
    hMi1', fun i hi => hMi2 i hi, ho1, fun i hi l hl => by rw [e i hi]; exact ho2 i hi l hl, hi1, hi2⟩

/-! ## `init` -/

lemma dot_ok (tree : SumTree) (k : ℕ) (ht : tree.Covers k) (x y : ℕ → ℤ)
    (h : ∑ l ∈ range k, |x l * y l| ≤ 2 ^ 53) :
    dot tree ((List.range k).map x) ((List.range k).map y) = .ok (∑ l ∈ range k, x l * y l) := by
  have hg : ∀ z : ℕ → ℤ, ∀ l < k, ((List.range k).map z).getD l 0 = z l := by
    intro z l hl
    simp [List.getD_eq_getElem?_getD, hl]
  have hs : ∀ f : ℤ → ℤ, ∑ l ∈ range k, f (((List.range k).map x).getD l 0 * ((List.range k).map y).getD l 0) =
      ∑ l ∈ range k, f (x l * y l) :=
    fun f => sum_congr rfl (fun l hl => by rw [mem_range] at hl; rw [hg x l hl, hg y l hl])
  unfold dot
  rw [eval_ok]
  · rw [covers_sum tree k ht]; simp only [zero_add]; rw [hs (fun z => z)]
  · rw [covers_sum tree k ht (fun t => |_|)]
    simp only [abs_zero, zero_add]; rw [hs (fun z => |z|)]; exact h

lemma redF_ok (m : ℕ) (hm : 2 ≤ m) (x : ℤ) (h : |x| + m < 2 ^ 53) : redF m x = x % m := by
  obtain ⟨r, h1, h2, h3, h4⟩ := reduceHelperF_spec 53 m hm (by norm_num) 0 (m - 1) (by ring) le_rfl (by omega) x h
  unfold redF
  have hr : r = x % m := by
    have : x % m = r % m := (Int.emod_eq_emod_iff_emod_sub_eq_zero.2 (Int.emod_eq_zero_of_dvd h4))
    rw [this, Int.emod_eq_of_lt h2 (by omega)]
  rw [h1, Int.floor_intCast, hr]

/-- The signed digit `l` of `a`. -/
def sdig (a : ℤ) (l : ℕ) : ℤ := if 0 ≤ a then (word a.natAbs l : ℤ) else -(word a.natAbs l : ℤ)

lemma sdig_sum (a : ℤ) (k : ℕ) (h : a.natAbs < 2 ^ (16 * k)) : ∑ l ∈ range k, 2 ^ (16 * l) * sdig a l = a := by
  have h1 := word_sum_eq a.natAbs k h
  have h2 : ∑ l ∈ range k, (word a.natAbs l : ℤ) * 2 ^ (16 * l) = (a.natAbs : ℤ) := by exact_mod_cast h1
  unfold sdig
  by_cases ha : 0 ≤ a
  · simp only [if_pos ha]
    rw [sum_congr rfl (fun l _ => mul_comm _ _), h2]; omega
  · simp only [if_neg ha, mul_neg, sum_neg_distrib]
    rw [sum_congr rfl (fun l _ => mul_comm _ _), h2]; omega

lemma sdig_abs (a : ℤ) (l : ℕ) : |sdig a l| ≤ 2 ^ 16 - 1 := by
  have := word_lt a.natAbs l
  unfold sdig
  split_ifs
  · rw [abs_of_nonneg (by positivity)]; omega
  · rw [abs_neg, abs_of_nonneg (by positivity)]; omega

/-- Row and column of the entry number `idx`. -/
def rowOf (tr : Bool) (m n idx : ℕ) : ℕ := if tr then idx % m else idx / n
def colOf (tr : Bool) (m n idx : ℕ) : ℕ := if tr then idx / m else idx % n

lemma rowcol_lt (tr : Bool) (m n idx : ℕ) (h : idx < m * n) : rowOf tr m n idx < m ∧ colOf tr m n idx < n := by
  have hm : 0 < m := Nat.pos_of_ne_zero (fun e => by simp [e] at h)
  have hn : 0 < n := Nat.pos_of_ne_zero (fun e => by simp [e] at h)
  unfold rowOf colOf
  cases tr
  · simp only [Bool.false_eq_true, if_false]
    exact ⟨(Nat.div_lt_iff_lt_mul hn).2 h, Nat.mod_lt _ hn⟩
  · simp only [if_true]
    exact ⟨Nat.mod_lt _ hm, (Nat.div_lt_iff_lt_mul hm).2 (by rwa [Nat.mul_comm])⟩

lemma rowcol_inj (tr : Bool) (m n s t : ℕ) (h1 : rowOf tr m n s = rowOf tr m n t) (h2 : colOf tr m n s = colOf tr m n t) :
    s = t := by
  unfold rowOf colOf at *
  cases tr
  · simp only [Bool.false_eq_true, if_false] at h1 h2
    rw [← Nat.div_add_mod s n, ← Nat.div_add_mod t n, h1, h2]
  · simp only [if_true] at h1 h2
    rw [← Nat.div_add_mod s m, ← Nat.div_add_mod t m, h1, h2]

lemma split_spec (tr : Bool) (m n k lda : ℕ) (A : Arr ℤ) (junk : ℕ → ℤ)
    (hA : ∀ i < m, ∀ j < n, j + i * lda < A.len) :
    Ok (split tr m n k lda A junk) (fun B => B.len = m * n * k ∧ ∀ idx < m * n, ∀ l < k,
      B.get (idx * k + l * 1) = sdig (A.get (colOf tr m n idx + rowOf tr m n idx * lda)) l) := by
  unfold split
  refine (Ok_iter (fun N (B : Arr ℤ) => B.len = m * n * k ∧ ∀ idx < N, ∀ l < k,
      B.get (idx * k + l * 1) = sdig (A.get (colOf tr m n idx + rowOf tr m n idx * lda)) l) ⟨rfl, by simp⟩ ?_)
  rintro idx B hidx ⟨h1, h2⟩
  obtain ⟨hr, hc⟩ := rowcol_lt tr m n idx hidx
  simp only [Ok_bind, Ok_rd]
  refine ⟨hA _ hr _ hc, ?_⟩
  change Ok (iter k _ B) _
  set a := A.get (colOf tr m n idx + rowOf tr m n idx * lda) with ha
  refine (Ok_fill k (fun l => l + idx * k) (fun l => .ok (if l < min k (limbWords a.natAbs) then
      (if 0 ≤ a then (word a.natAbs l : ℤ) else -(word a.natAbs l : ℤ)) else 0)) _ B (fun _ _ => rfl) ?_ ?_).mono ?_
  · intro l hl; rw [h1]; exact lin_lt hl hidx
  · intro s _ t _ h; omega
  · rintro C ⟨hC1, hC2, hC3⟩
    refine ⟨by rw [hC1, h1], ?_⟩
    intro idx' hidx' l hl
    by_cases e : idx' = idx
    · subst e
      rw [show idx' * k + l * 1 = l + idx' * k by ring, hC2 l hl]
      have := word_cut a.natAbs k l hl
      unfold sdig
      rw [← this]
      push_cast
      split_ifs <;> simp
    · rw [show idx' * k + l * 1 = l + idx' * k by ring, hC3 _ (fun t ht hh => e (lin_inj hl ht hh).1),
        show l + idx' * k = idx' * k + l * 1 by ring, h2 idx' (by omega) l hl]

/-- Moduli small enough for exact conversions of integers with `k` digits: digit sums stay below `2^53`. -/
def FitIn (size : ℕ) (basis : ℕ → ℕ) (k : ℕ) : Prop :=
  ∀ t < size, (k : ℤ) * ((basis t - 1) * (2 ^ 16 - 1)) + basis t < 2 ^ 53

lemma crt_in_dot (k m : ℕ) (hm : 2 ≤ m) (a : ℤ) (ha : a.natAbs < 2 ^ (16 * k))
    (hfit : (k : ℤ) * ((m - 1) * (2 ^ 16 - 1)) + m < 2 ^ 53) :
    (∑ l ∈ range k, |((2 ^ (16 * l) % m : ℕ) : ℤ) * sdig a l| ≤ 2 ^ 53) ∧
    redF m (∑ l ∈ range k, ((2 ^ (16 * l) % m : ℕ) : ℤ) * sdig a l) = a % m := by
  have hb : ∑ l ∈ range k, |((2 ^ (16 * l) % m : ℕ) : ℤ) * sdig a l| ≤ k * ((m - 1) * (2 ^ 16 - 1)) := by
    refine (sum_le_card_nsmul _ _ ((m - 1) * (2 ^ 16 - 1) : ℤ) ?_).trans (by simp)
    intro l _
    rw [abs_mul]
    have h1 := Nat.mod_lt (2 ^ (16 * l)) (show 0 < m by omega)
    have h2 := sdig_abs a l
    have h3 : |((2 ^ (16 * l) % m : ℕ) : ℤ)| ≤ (m:ℤ) - 1 := by
      rw [abs_of_nonneg (by positivity)]; omega
    exact mul_le_mul h3 h2 (abs_nonneg _) (by omega)
  refine ⟨by omega, ?_⟩
  rw [redF_ok m hm]
  · conv_rhs => rw [← sdig_sum a k ha]
    rw [Finset.sum_int_mod, Finset.sum_int_mod (f := fun l => 2 ^ (16 * l) * sdig a l)]
    congr 1
    apply sum_congr rfl
    intro l _
    push_cast
    exact (Int.ModEq.mul_right _ (Int.mod_modEq _ _))
  · have := abs_sum_le_sum_abs (fun l => ((2 ^ (16 * l) % m : ℕ) : ℤ) * sdig a l) (range k)
    omega

/-- Validity of the layout of the residues. -/
def AddrOk (rnsMajor : Bool) (size rda mn len : ℕ) : Prop :=
  if rnsMajor then mn * size ≤ len else mn ≤ rda ∧ ∀ t < size, ∀ idx < mn, t * rda + idx < len

lemma addr_lt {rnsMajor : Bool} {size rda mn len : ℕ} (h : AddrOk rnsMajor size rda mn len) (t : ℕ) (ht : t < size)
    (idx : ℕ) (hi : idx < mn) : addr rnsMajor size rda t idx < len := by
  unfold AddrOk at h; unfold addr
  cases rnsMajor
  · simp only [Bool.false_eq_true, if_false] at *; exact h.2 t ht idx hi
  · simp only [if_true] at *
    have := lin_lt ht hi
    omega

lemma addr_inj {rnsMajor : Bool} {size rda mn len : ℕ} (h : AddrOk rnsMajor size rda mn len) (t : ℕ) (ht : t < size)
    (idx : ℕ) (hi : idx < mn) (t' : ℕ) (ht' : t' < size) (idx' : ℕ) (hi' : idx' < mn)
    (e : addr rnsMajor size rda t idx = addr rnsMajor size rda t' idx') : t = t' ∧ idx = idx' := by
  unfold AddrOk at h; unfold addr at e
  cases rnsMajor
  · simp only [Bool.false_eq_true, if_false] at *
    exact lin_inj (b := rda) (by omega) (by omega) (by omega)
  · simp only [if_true] at *
    exact (lin_inj ht ht' (by omega)).symm

lemma init_spec (R : Rns) (size : ℕ) (basis : ℕ → ℕ) (hc : Coprime' size basis) (hR : Pre R size basis)
    (tr rnsMajor : Bool) (m n : ℕ) (Arns : Arr ℤ) (rda : ℕ) (A : Arr ℤ) (lda k : ℕ) (junk : ℕ → ℤ)
    (sched : ℕ → ℕ → SumTree) (hsched : ∀ t idx, (sched t idx).Covers k) (hk : k ≤ R.ldm) (hfit : FitIn size basis k)
    (hA : ∀ i < m, ∀ j < n, j + i * lda < A.len)
    (hbound : ∀ i < m, ∀ j < n, (A.get (j + i * lda)).natAbs < 2 ^ (16 * k))
    (haddr : AddrOk rnsMajor size rda (m * n) Arns.len) :
    Ok (init R tr rnsMajor m n Arns rda A lda k junk sched) (fun B => B.len = Arns.len ∧
      (∀ t < size, ∀ idx < m * n, B.get (addr rnsMajor size rda t idx) =
        A.get (colOf tr m n idx + rowOf tr m n idx * lda) % basis t) ∧
      ∀ x, (∀ t < size, ∀ idx < m * n, x ≠ addr rnsMajor size rda t idx) → B.get x = Arns.get x) := by
  unfold init
  by_cases hz : m * n = 0
  · rw [if_pos hz]; simp [hz]
  rw [if_neg hz]
  simp only [Ok_bind]
  refine (split_spec tr m n k lda A junk hA).mono ?_
  rintro B ⟨hB1, hB2⟩
  rw [hR.size_eq]
  set S : ℕ → ℕ → ℤ := fun t idx => ∑ l ∈ range k, ((2 ^ (16 * l) % basis t : ℕ) : ℤ) *
    sdig (A.get (colOf tr m n idx + rowOf tr m n idx * lda)) l with hS
  have hdot : ∀ t < size, ∀ idx < m * n, (do
      let c ← readRow R.crtIn (t * R.ldm) 1 k
      let b ← readRow B (idx * k) 1 k
      dot (sched t idx) c b) = .ok (S t idx) := by
    intro t ht idx hidx
    obtain ⟨hr, hcl⟩ := rowcol_lt tr m n idx hidx
    rw [readRow_ok, readRow_ok]
    · simp only [bind, Except.bind]
      have e1 : (List.range k).map (fun l => R.crtIn.get (t * R.ldm + l * 1)) =
          (List.range k).map (fun l => ((2 ^ (16 * l) % basis t : ℕ) : ℤ)) := by
        apply List.map_congr_left
        intro l hl
        rw [List.mem_range] at hl
        rw [show t * R.ldm + l * 1 = l + t * R.ldm by ring]
        exact hR.in_eq t ht l (by omega)
      have e2 : (List.range k).map (fun l => B.get (idx * k + l * 1)) =
          (List.range k).map (fun l => sdig (A.get (colOf tr m n idx + rowOf tr m n idx * lda)) l) := by
        apply List.map_congr_left
        intro l hl
        rw [List.mem_range] at hl
        exact hB2 idx hidx l hl
      rw [e1, e2, dot_ok _ k (hsched t idx)]
      exact (crt_in_dot k (basis t) (hc.two_le t ht) _ (hbound _ hr _ hcl) (hfit t ht)).1
    · intro l hl
      rw [hB1]; have := lin_lt hl hidx; omega
    · intro l hl
      rw [hR.in_len]
      have := lin_lt (show l < R.ldm by omega) ht; omega
  refine (Ok_fill2 size (m * n) (addr rnsMajor size rda) _ S Arns hdot (addr_lt haddr) (addr_inj haddr)).mono ?_
  rintro C ⟨hC1, hC2, hC3⟩
  -- reduction
  have haddr' : AddrOk rnsMajor size rda (m * n) C.len := by rw [hC1]; exact haddr
  have hred : ∀ t < size, ∀ idx < m * n, redF (basis t) (S t idx) =
      A.get (colOf tr m n idx + rowOf tr m n idx * lda) % basis t := by
    intro t ht idx hidx
    obtain ⟨hr, hcl⟩ := rowcol_lt tr m n idx hidx
    exact (crt_in_dot k (basis t) (hc.two_le t ht) _ (hbound _ hr _ hcl) (hfit t ht)).2
  rw [iter_mul size (m * n) (by omega) (fun t idx (Arns : Arr ℤ) => do
      let x ← Arns.rd (addr rnsMajor size rda t idx)
      Arns.wr (addr rnsMajor size rda t idx) (redF (R.basis t) x))]
  have hpos : 0 < m * n := by omega
  have hd : ∀ u < size * (m * n), u / (m * n) < size := fun u hu => (Nat.div_lt_iff_lt_mul hpos).2 hu
  have hmm : ∀ u, u % (m * n) < m * n := fun u => Nat.mod_lt _ hpos
  refine (Ok_iter (fun N (D : Arr ℤ) => D.len = Arns.len ∧
    (∀ u < size * (m * n), D.get (addr rnsMajor size rda (u / (m * n)) (u % (m * n))) = if u < N then
      A.get (colOf tr m n (u % (m * n)) + rowOf tr m n (u % (m * n)) * lda) % basis (u / (m * n)) else S (u / (m * n)) (u % (m * n))) ∧
    ∀ x, (∀ t < size, ∀ idx < m * n, x ≠ addr rnsMajor size rda t idx) → D.get x = Arns.get x) ?_ ?_).mono ?_
  · refine ⟨hC1, ?_, hC3⟩
    intro u hu; simp only [Nat.not_lt_zero, if_false]; exact hC2 _ (hd u hu) _ (hmm u)
  · rintro u D hu ⟨h1, h2, h3⟩
    simp only [Ok_bind, Ok_rd, Ok_wr]
    have hlt : addr rnsMajor size rda (u / (m * n)) (u % (m * n)) < D.len := by
      rw [h1]; exact addr_lt haddr _ (hd u hu) _ (hmm u)
    refine ⟨hlt, hlt, h1, ?_, ?_⟩
    · intro v hv
      by_cases e : v = u
      · subst e
        rw [Function.update_self, h2 v hv, if_neg (lt_irrefl _), if_pos (by omega), hR.basis_eq]
        exact hred _ (hd v hv) _ (hmm v)
      · rw [Function.update_of_ne, h2 v hv]
        · congr 1; simp only [eq_iff_iff]; omega
        · intro hh
          obtain ⟨e1, e2⟩ := addr_inj haddr _ (hd v hv) _ (hmm v) _ (hd u hu) _ (hmm u) hh
          apply e
          rw [← Nat.div_add_mod v (m * n), ← Nat.div_add_mod u (m * n), e1, e2]
    · intro x hx
      rw [Function.update_of_ne (hx _ (hd u hu) _ (hmm u))]
      exact h3 x hx
  · rintro D ⟨h1, h2, h3⟩
    refine ⟨h1, ?_, h3⟩
    intro t ht idx hidx
    have hu : idx + t * (m * n) < size * (m * n) := lin_lt hidx ht
    have := h2 _ hu
    rw [if_pos hu, Nat.add_mul_div_right _ _ hpos, Nat.div_eq_of_lt hidx, Nat.add_mul_mod_self_right,
      Nat.mod_eq_of_lt hidx, Nat.zero_add] at this
    exact this

/-! ## `convert` -/

lemma bufVal_shift (A : Arr ℕ) (k s : ℕ) (w : ℕ → ℕ) (hlen : s + k ≤ A.len) (h0 : ∀ i < s, A.get i = 0)
    (h1 : ∀ l < k, A.get (s + l) = w l) (h2 : ∀ i, s + k ≤ i → A.get i = 0) :
    bufVal A = ∑ l ∈ range k, w l * 2 ^ (16 * (s + l)) := by
  unfold bufVal
  obtain ⟨r, hr⟩ := Nat.exists_eq_add_of_le hlen
  rw [hr, sum_range_add, sum_range_add]
  rw [sum_eq_zero (s := range s) (fun i hi => by rw [h0 i (mem_range.1 hi), zero_mul])]
  rw [sum_eq_zero (s := range r) (fun i _ => by rw [h2 (s + k + i) (by omega), zero_mul])]
  rw [zero_add, add_zero]
  exact sum_congr rfl (fun l hl => by rw [h1 l (mem_range.1 hl)])

/-- Contents of a buffer with shift `s` between two entries: zero outside the `k` cells from `s`. -/
def BufOk (k s : ℕ) (A : Arr ℕ) : Prop := s + k ≤ A.len ∧ (∀ i < s, A.get i = 0) ∧ ∀ i, s + k ≤ i → A.get i = 0

def BufsOk (k : ℕ) (b : Bufs) : Prop := BufOk k 0 b.a0 ∧ BufOk k 1 b.a1 ∧ BufOk k 2 b.a2 ∧ BufOk k 3 b.a3

/-- A buffer after `j` iterations of the loop. -/
def BufAt (k s j : ℕ) (x : ℕ → ℕ) (A : Arr ℕ) : Prop := BufOk k s A ∧ ∀ l < j, A.get (s + l) = word (x l) s

lemma BufAt.step {k s j : ℕ} {x : ℕ → ℕ} {A : Arr ℕ} (h : BufAt k s j x A) (hj : j < k) :
    j + s < A.len ∧ BufAt k s (j + 1) x ⟨A.len, Function.update A.get (j + s) (word (x j) s)⟩ := by
  obtain ⟨⟨h1, h2, h3⟩, h4⟩ := h
  refine ⟨by omega, ⟨h1, ?_, ?_⟩, ?_⟩
  · intro i hi; simp only; rw [Function.update_of_ne (by omega)]; exact h2 i hi
  · intro i hi; simp only; rw [Function.update_of_ne (by omega)]; exact h3 i hi
  · intro l hl
    by_cases e : l = j
    · subst e; rw [Nat.add_comm s l]; simp
    · simp only; rw [Function.update_of_ne (by omega)]; exact h4 l (by omega)

lemma BufAt.val {k s : ℕ} {x : ℕ → ℕ} {A : Arr ℕ} (h : BufAt k s k x A) :
    bufVal A = ∑ l ∈ range k, word (x l) s * 2 ^ (16 * (s + l)) :=
  bufVal_shift A k s (fun l => word (x l) s) h.1.1 h.1.2.1 h.2 h.1.2.2

lemma kroEntry_spec (M k : ℕ) (beta : ℕ → Except Fault ℤ) (x : ℕ → ℕ) (b : Bufs) (hb : BufsOk k b)
    (hbeta : ∀ l < k, beta l = .ok (x l : ℤ)) (hx : ∀ l < k, x l < 2 ^ 64) :
    Ok (kroEntry M k beta b) (fun r => BufsOk k r.2 ∧
      r.1 = if (∑ l ∈ range k, x l * 2 ^ (16 * l)) % M > (M - 1) / 2
        then (((∑ l ∈ range k, x l * 2 ^ (16 * l)) % M : ℕ) : ℤ) - M else (((∑ l ∈ range k, x l * 2 ^ (16 * l)) % M : ℕ) : ℤ)) := by
  unfold kroEntry
  simp only [Ok_bind]
  refine (Ok_iter (fun j (b : Bufs) => BufAt k 0 j x b.a0 ∧ BufAt k 1 j x b.a1 ∧ BufAt k 2 j x b.a2 ∧ BufAt k 3 j x b.a3)
    ⟨⟨hb.1, by simp⟩, ⟨hb.2.1, by simp⟩, ⟨hb.2.2.1, by simp⟩, ⟨hb.2.2.2, by simp⟩⟩ ?_).mono ?_
  · rintro j b hj ⟨h0, h1, h2, h3⟩
    have hc : (0:ℤ) ≤ x j ∧ (x j : ℤ) < 2 ^ 64 := ⟨by positivity, by exact_mod_cast hx j hj⟩
    rw [hbeta j hj]
    simp only [Ok_bind, Ok_ok, if_pos hc, Ok_wr, Ok_pure, Int.toNat_natCast]
    exact ⟨(h0.step hj).1, (h1.step hj).1, (h2.step hj).1, (h3.step hj).1, (h0.step hj).2, (h1.step hj).2,
      (h2.step hj).2, (h3.step hj).2⟩
  · rintro b ⟨h0, h1, h2, h3⟩
    simp only [Ok_pure]
    refine ⟨⟨h0.1, h1.1, h2.1, h3.1⟩, ?_⟩
    have hv : bufVal b.a0 + bufVal b.a1 + bufVal b.a2 + bufVal b.a3 = ∑ l ∈ range k, x l * 2 ^ (16 * l) := by
      rw [h0.val, h1.val, h2.val, h3.val, ← sum_add_distrib, ← sum_add_distrib, ← sum_add_distrib]
      apply sum_congr rfl
      intro l hl
      have := word_sum_eq (x l) 4 (hx l (mem_range.1 hl))
      conv_rhs => rw [← this]
      simp only [sum_range_succ, range_zero, sum_empty, zero_add]
      ring
    rw [hv]

/-- The recombination coefficient of modulus `t`. -/
def crtC (R : Rns) (size : ℕ) (basis : ℕ → ℕ) (t : ℕ) : ℕ := prodM size basis / basis t * R.MMi.get t

lemma crtC_lt {R : Rns} {size : ℕ} {basis : ℕ → ℕ} (hc : Coprime' size basis) (hR : Pre R size basis) (t : ℕ) (ht : t < size) :
    crtC R size basis t < prodM size basis := by
  unfold crtC
  have h1 := hR.MMi_lt t ht
  have h2 : prodM size basis / basis t * basis t = prodM size basis :=
    Nat.div_mul_cancel (dvd_prod_of_mem _ (mem_range.2 ht))
  have h3 := prodM_pos hc
  have h4 : 0 < prodM size basis / basis t := by
    rcases Nat.eq_zero_or_pos (prodM size basis / basis t) with h | h
    · rw [h] at h2; omega
    · exact h
  calc _ < prodM size basis / basis t * basis t := Nat.mul_lt_mul_of_pos_left h1 h4
    _ = _ := h2

lemma crt_modEq {R : Rns} {size : ℕ} {basis : ℕ → ℕ} (hc : Coprime' size basis) (hR : Pre R size basis) (X : ℤ) (r : ℕ → ℤ)
    (hr : ∀ t < size, r t ≡ X [ZMOD basis t]) :
    ∑ t ∈ range size, r t * crtC R size basis t ≡ X [ZMOD prodM size basis] := by
  rw [Int.modEq_iff_dvd]
  unfold prodM
  push_cast
  refine Finset.prod_dvd_of_coprime ?_ ?_
  · intro i hi j hj hij
    rw [mem_coe, mem_range] at hi hj
    exact Nat.isCoprime_iff_coprime.2 (hc.cop i hi j hj hij)
  · intro s hs
    have hs' := mem_range.1 hs
    rw [← Int.modEq_iff_dvd, ← add_sum_erase _ _ hs]
    have h1 : ∑ t ∈ (range size).erase s, r t * (crtC R size basis t : ℤ) ≡ 0 [ZMOD basis s] := by
      rw [Int.modEq_zero_iff_dvd]
      apply dvd_sum
      intro t ht
      rw [mem_erase, mem_range] at ht
      apply Dvd.dvd.mul_left
      unfold crtC
      rw [prodM_div hc t ht.2]
      push_cast
      apply Dvd.dvd.mul_right
      exact dvd_prod_of_mem (fun i => (basis i : ℤ)) (by rw [mem_erase]; exact ⟨fun e => ht.1 e.symm, hs⟩)
    have h2 : (crtC R size basis s : ℤ) ≡ 1 [ZMOD basis s] := by
      have := (Int.natCast_modEq_iff).2 (hR.MMi_inv s hs')
      simpa [crtC] using this
    have := ((hr s hs').mul h2).add h1
    simpa using this

lemma centre (M : ℕ) (hM : 0 < M) (S : ℕ) (X : ℤ) (h : (S : ℤ) ≡ X [ZMOD M]) (hX : 2 * |X| ≤ M - 1) :
    (if S % M > (M - 1) / 2 then (((S % M : ℕ)) : ℤ) - M else ((S % M : ℕ) : ℤ)) = X := by
  have h1 : ((S % M : ℕ) : ℤ) = X % M := by push_cast; exact h
  have h2 : X % M = X ∨ X % M = X + M := by
    rcases le_or_gt 0 X with h0 | h0
    · left; rw [abs_of_nonneg h0] at hX; exact Int.emod_eq_of_lt h0 (by omega)
    · right; rw [abs_of_neg h0] at hX; rw [← Int.add_emod_right, Int.emod_eq_of_lt (by omega) (by omega)]
  rcases abs_cases X with ⟨h3, _⟩ | ⟨h3, _⟩ <;> rw [h3] at hX <;> split_ifs <;> omega

def FitOut (size : ℕ) (basis : ℕ → ℕ) : Prop := ∑ t ∈ range size, ((basis t : ℤ) - 1) * (2 ^ 16 - 1) ≤ 2 ^ 53

lemma convert_spec (R : Rns) (size : ℕ) (basis : ℕ → ℕ) (hc : Coprime' size basis) (hR : Pre R size basis)
    (tr rnsMajor : Bool) (hmaj : tr = true → rnsMajor = true → rda = size) (m n : ℕ) (gamma : ℤ) (A : Arr ℤ) (lda : ℕ)
    (Arns : Arr ℤ) (junk : ℕ → ℤ) (sched : ℕ → ℕ → SumTree) (hsched : ∀ idx l, (sched idx l).Covers size)
    (hfit : FitOut size basis) (hA : ∀ i < m, ∀ j < n, j + i * lda < A.len) (hlda : n ≤ lda)
    (haddr : AddrOk rnsMajor size rda (m * n) Arns.len) (X : ℕ → ℤ) (hX : ∀ idx < m * n, 2 * |X idx| ≤ prodM size basis - 1)
    (hres : ∀ t < size, ∀ idx < m * n, Arns.get (addr rnsMajor size rda t idx) = X idx % basis t) :
    Ok (convert R tr rnsMajor m n gamma A lda Arns rda junk sched) (fun B => B.len = A.len ∧
      (∀ idx < m * n, B.get (colOf tr m n idx + rowOf tr m n idx * lda) =
        X idx + gamma * A.get (colOf tr m n idx + rowOf tr m n idx * lda)) ∧
      ∀ x, (∀ i < m, ∀ j < n, x ≠ j + i * lda) → B.get x = A.get x) := by
  unfold convert
  by_cases hz : m * n = 0
  · rw [if_pos hz]; simp [hz]
  rw [if_neg hz]
  simp only [Ok_bind]
  set ldm := R.ldm with hldm
  set r : ℕ → ℕ → ℤ := fun idx t => X idx % basis t with hrdef
  have hr0 : ∀ idx, ∀ t < size, 0 ≤ r idx t ∧ r idx t ≤ basis t - 1 := by
    intro idx t ht
    have := hc.two_le t ht
    have h1 := Int.emod_nonneg (X idx) (show (basis t : ℤ) ≠ 0 by omega)
    have h2 := Int.emod_lt_of_pos (X idx) (show (0:ℤ) < basis t by omega)
    exact ⟨h1, by simp only [hrdef]; omega⟩
  set S : ℕ → ℕ → ℤ := fun idx l => ∑ t ∈ range size, r idx t * (word (crtC R size basis t) l : ℤ) with hS
  have hSabs : ∀ idx l, ∑ t ∈ range size, |r idx t * (word (crtC R size basis t) l : ℤ)| ≤ 2 ^ 53 := by
    intro idx l
    refine le_trans (sum_le_sum ?_) hfit
    intro t ht
    obtain ⟨h1, h2⟩ := hr0 idx t (mem_range.1 ht)
    have h3 := word_lt (crtC R size basis t) l
    rw [abs_of_nonneg (by positivity)]
    exact mul_le_mul h2 (by omega) (by positivity) (by omega)
  have hdot : ∀ idx < m * n, ∀ l < ldm, (do
        let a ← readRow Arns (if rnsMajor then idx * (if tr then rda else R.size) else idx) (if rnsMajor then 1 else rda) R.size
        let c ← readRow R.crtOut l R.ldm R.size
        dot (sched idx l) a c) = .ok (S idx l) := by
    intro idx hidx l hl
    rw [hR.size_eq]
    have haddr_eq : ∀ t, (if rnsMajor then idx * (if tr then rda else size) else idx) + t * (if rnsMajor then 1 else rda) =
        addr rnsMajor size rda t idx := by
      intro t
      unfold addr
      cases rnsMajor
      · simp; ring
      · cases tr
        · simp
        · simp [hmaj rfl rfl]
    rw [readRow_ok, readRow_ok]
    · simp only [bind, Except.bind]
      have e1 : (List.range size).map (fun t => Arns.get ((if rnsMajor then idx * (if tr then rda else size) else idx) + t * (if rnsMajor then 1 else rda))) =
          (List.range size).map (fun t => r idx t) := by
        apply List.map_congr_left
        intro t ht
        rw [List.mem_range] at ht
        rw [haddr_eq, hres t ht idx hidx]
      have e2 : (List.range size).map (fun t => R.crtOut.get (l + t * R.ldm)) =
          (List.range size).map (fun t => (word (crtC R size basis t) l : ℤ)) := by
        apply List.map_congr_left
        intro t ht
        rw [List.mem_range] at ht
        exact hR.out_eq t ht l hl
      rw [e1, e2, dot_ok _ size (hsched idx l) _ _ (hSabs idx l)]
    · intro t ht
      rw [hR.out_len]; exact lin_lt hl ht
    · intro t ht
      rw [haddr_eq]; exact addr_lt haddr t ht idx hidx
  refine (Ok_fill2 (m * n) ldm (fun idx l => l + idx * ldm) _ S (Arr.mk' (m * n * ldm) junk) hdot
    (fun idx hi l hl => lin_lt hl hi) (fun idx _ l hl idx' _ l' hl' h => lin_inj hl hl' h)).mono ?_
  rintro B ⟨hB1, hB2, -⟩
  have hS0 : ∀ idx l, 0 ≤ S idx l := fun idx l => sum_nonneg (fun t ht => by
    have := (hr0 idx t (mem_range.1 ht)).1; positivity)
  have hS1 : ∀ idx l, (S idx l).toNat < 2 ^ 64 := by
    intro idx l
    have := abs_sum_le_sum_abs (fun t => r idx t * (word (crtC R size basis t) l : ℤ)) (range size)
    have h2 := hSabs idx l
    have h3 : |S idx l| ≤ 2 ^ 53 := this.trans h2
    rw [abs_of_nonneg (hS0 idx l)] at h3
    omega
  have hsum : ∀ idx, (((∑ l ∈ range ldm, (S idx l).toNat * 2 ^ (16 * l) : ℕ)) : ℤ) ≡ X idx [ZMOD prodM size basis] := by
    intro idx
    have : (((∑ l ∈ range ldm, (S idx l).toNat * 2 ^ (16 * l) : ℕ)) : ℤ) = ∑ t ∈ range size, r idx t * crtC R size basis t := by
      push_cast
      rw [sum_congr rfl (fun l _ => by rw [Int.toNat_of_nonneg (hS0 idx l)])]
      simp only [hS, sum_mul]
      rw [sum_comm]
      apply sum_congr rfl
      intro t ht
      have h1 := crtC_lt hc hR t (mem_range.1 ht)
      have h2 := lt_words (prodM size basis)
      rw [← hR.ldm_eq] at h2
      have h3 : ∑ l ∈ range ldm, (word (crtC R size basis t) l : ℤ) * 2 ^ (16 * l) = (crtC R size basis t : ℤ) := by
        exact_mod_cast word_sum_eq _ ldm (h1.trans h2)
      rw [← h3, mul_sum]
      exact sum_congr rfl (fun l _ => by ring)
    rw [this]
    exact crt_modEq hc hR _ _ (fun t _ => Int.mod_modEq _ _)
  set z : Arr ℕ := Arr.mk' (((ldm + 3) / 4 + (if (ldm + 3) % 4 = 0 then 0 else 1)) * 4) (fun _ => 0) with hzdef
  have hzlen : ldm + 3 ≤ z.len := by
    simp only [hzdef, Arr.mk']
    split_ifs <;> omega
  refine (Ok_iter (fun N (s : Arr ℤ × Bufs) => BufsOk ldm s.2 ∧ s.1.len = A.len ∧
      (∀ idx < m * n, s.1.get (colOf tr m n idx + rowOf tr m n idx * lda) = if idx < N then
        X idx + gamma * A.get (colOf tr m n idx + rowOf tr m n idx * lda) else A.get (colOf tr m n idx + rowOf tr m n idx * lda)) ∧
      ∀ x, (∀ i < m, ∀ j < n, x ≠ j + i * lda) → s.1.get x = A.get x) ?_ ?_).mono ?_
  · refine ⟨⟨⟨by simp only; omega, by simp, fun _ _ => rfl⟩, ⟨by simp only; omega, fun _ _ => rfl, fun _ _ => rfl⟩,
      ⟨by simp only; omega, fun _ _ => rfl, fun _ _ => rfl⟩, ⟨by simp only; omega, fun _ _ => rfl, fun _ _ => rfl⟩⟩, rfl, by simp, by simp⟩
  · rintro idx ⟨D, b⟩ hidx ⟨h1, h2, h3, h4⟩
    simp only at h1 h2 h3 h4
    obtain ⟨hrow, hcol⟩ := rowcol_lt tr m n idx hidx
    simp only [Ok_bind]
    refine (kroEntry_spec R.M ldm _ (fun l => (S idx l).toNat) b h1 ?_ (fun l _ => hS1 idx l)).mono ?_
    · intro l hl
      have hlt : l + idx * ldm < B.len := by rw [hB1]; exact lin_lt hl hidx
      simp only [Arr.rd, if_pos hlt]
      rw [hB2 idx hidx l hl, Int.toNat_of_nonneg (hS0 idx l)]
    · rintro ⟨v, b'⟩ ⟨hb', hv⟩
      simp only at hb' hv
      rw [hR.M_eq, centre _ (prodM_pos hc) _ (X idx) (hsum idx) (hX idx hidx)] at hv
      simp only [Ok_rd, Ok_wr, Ok_pure]
      change colOf tr m n idx + rowOf tr m n idx * lda < D.len ∧ colOf tr m n idx + rowOf tr m n idx * lda < D.len ∧ _
      have hlt : colOf tr m n idx + rowOf tr m n idx * lda < D.len := by rw [h2]; exact hA _ hrow _ hcol
      refine ⟨hlt, hlt, hb', h2, ?_, ?_⟩
      · intro idx' hidx'
        change Function.update D.get (colOf tr m n idx + rowOf tr m n idx * lda) _ _ = _
        obtain ⟨hrow', hcol'⟩ := rowcol_lt tr m n idx' hidx'
        by_cases e : idx' = idx
        · subst e
          rw [Function.update_self, if_pos (show idx' < idx' + 1 by omega)]
          change applyGamma gamma (D.get (colOf tr m n idx' + rowOf tr m n idx' * lda)) v = _
          rw [h3 idx' hidx, if_neg (lt_irrefl _), hv]
          unfold applyGamma
          split_ifs with g1 g2 g3
          · rw [g1]; ring
          · rw [g2]; ring
          · rw [g3]; ring
          · ring
        · rw [Function.update_of_ne, h3 idx' hidx']
          · congr 1; simp only [eq_iff_iff]; omega
          · intro hh
            obtain ⟨e1, e2⟩ := lin_inj (b := lda) (by omega) (by omega) hh
            exact e (rowcol_inj tr m n _ _ e1 e2)
      · intro x hx
        change Function.update D.get (colOf tr m n idx + rowOf tr m n idx * lda) _ _ = _
        rw [Function.update_of_ne (hx _ hrow _ hcol)]
        exact h4 x hx
  · rintro ⟨D, b⟩ ⟨h1, h2, h3, h4⟩
    simp only [Ok_pure]
    refine ⟨h2, ?_, h4⟩
    intro idx hidx
    have := h3 idx hidx
    rwa [if_pos hidx] at this

end Verif.RNS
