import Verif.Proofs.Sparse
import Verif.Props.Bounds
import Mathlib.Data.List.Permutation

/-!
# C29-C31, C49-C52: sparse matrix-vector products

`Trip`, `SortedRows` and `rowDot` (Spec/Sparse.lean) are the specification: `rowDot … i` is `(A x)_i` for the matrix of
the coordinate triples.
-/

namespace Verif.Props
open Verif Verif.Sparse Verif.Lazy Verif.Bounds Finset

variable {K : Type} [CommRing K]

section beta
variable [DecidableEq K]

/-- The public entry point: scale `y`, then accumulate (fflas_sparse.inl:840-846). -/
def withBeta (m : ℕ) (beta : K) (k : Arr K → Except Fault (Arr K)) (y : Arr K) : Except Fault (Arr K) := do
  let y ← initY m beta y
  k y

lemma initY_ok (m : ℕ) (beta : K) (y : Arr K) (hy : m ≤ y.len) :
    Ok (initY m beta y) (fun z => z.len = y.len ∧ (∀ i < m, z.get i = beta * y.get i) ∧
      ∀ i, m ≤ i → z.get i = y.get i) := by
  unfold initY
  by_cases hb : beta = 1
  · subst hb; simp
  · rw [if_pos hb]
    refine Ok_iter (fun k (z : Arr K) => z.len = y.len ∧ (∀ i < k, z.get i = beta * y.get i) ∧
      ∀ i, k ≤ i → z.get i = y.get i) ⟨rfl, by simp, fun _ _ => rfl⟩ ?_
    rintro k z hk ⟨h1, h2, h3⟩
    simp only [Ok_bind, Ok_rd, Ok_wr]
    refine ⟨by omega, by omega, h1, ?_, ?_⟩
    · intro i hi
      by_cases e : i = k
      · subst e
        rw [Function.update_self, h3 i le_rfl]
        split_ifs with h4 h5
        · rw [h4, zero_mul]
        · rw [h5, neg_one_mul]
        · rfl
      · rw [Function.update_of_ne e]; exact h2 i (by omega)
    · intro i hi
      rw [Function.update_of_ne (by omega)]; exact h3 i (by omega)

/-- Result of a product `y ← beta y + A x`: length, the `m` entries, and nothing else. -/
def IsSpmv (m nnz : ℕ) (row col : Arr ℕ) (dat x : Arr K) (beta : K) (y z : Arr K) : Prop :=
  z.len = y.len ∧ (∀ i < m, z.get i = beta * y.get i + rowDot nnz row col dat x i) ∧ ∀ i, m ≤ i → z.get i = y.get i

/-- C29, COO: for every ring, every list of triples (any order, duplicates allowed), every `beta` and every contents of
the freshly allocated arrays. -/
theorem C29_coo (kmax m n nnz : ℕ) (row col : Arr ℕ) (dat : Arr K) (jN : ℕ → ℕ) (jK : ℕ → K) (hm : 0 < m)
    (hT : Trip m n nnz row col dat) (beta : K) (x y : Arr K) (hx : n ≤ x.len) (hy : m ≤ y.len) :
    Ok (do let A ← cooInit kmax m nnz row col dat jN jK
           withBeta m beta (cooSpmv exactOps A x) y) (IsSpmv m nnz row col dat x beta y) := by
  simp only [Ok_bind, withBeta]
  refine (cooInit_ok kmax m n nnz row col dat jN jK hT hm).mono ?_
  rintro A ⟨a1, a2, a3, a4, a5, a6, a7, a8, a9, _⟩
  refine (initY_ok m beta y hy).mono ?_
  rintro w ⟨w1, w2, w3⟩
  have hT' : Trip m n A.nnz A.row A.col A.dat := by
    rw [a2]
    exact ⟨by omega, by omega, by omega, fun t ht => by rw [a7 t ht]; exact hT.rlt t ht,
      fun t ht => by rw [a8 t ht]; exact hT.clt t ht⟩
  refine (cooSpmv_ok good_exact A m n hT' x w hx (by omega) (by simp [rowSize])).mono ?_
  rintro z ⟨z1, z2⟩
  have hdot : ∀ i, rowDot A.nnz A.row A.col A.dat x i = rowDot nnz row col dat x i := by
    intro i
    unfold rowDot
    rw [a2]
    refine Finset.sum_congr rfl (fun t ht => ?_)
    have ht := Finset.mem_range.1 ht
    rw [a7 t ht, a8 t ht, a9 t ht]
  refine ⟨by omega, fun i hi => by rw [z2, hdot, w2 i hi], fun i hi => ?_⟩
  rw [z2, hdot, w3 i hi]
  have : rowDot nnz row col dat x i = 0 := Finset.sum_eq_zero (fun t ht => by
    rw [if_neg]; have := hT.rlt t (Finset.mem_range.1 ht); omega)
  rw [this, add_zero]

/-- C29, CSR: for every ring, row-sorted triples, both accumulation variants (`GenericTag`, `UnparametricTag`). -/
theorem C29_csr (unparam : Bool) (kmax m n nnz : ℕ) (row col : Arr ℕ) (dat : Arr K) (jN : ℕ → ℕ) (jK : ℕ → K)
    (hm : 0 < m) (hT : Trip m n nnz row col dat) (hs : SortedRows row nnz) (beta : K) (x y : Arr K) (hx : n ≤ x.len)
    (hy : m ≤ y.len) :
    Ok (do let A ← csrInit kmax m nnz row col dat jN jK
           withBeta m beta (csrSpmv exactOps (if unparam then .sum else .each) A x) y)
      (IsSpmv m nnz row col dat x beta y) := by
  simp only [Ok_bind, withBeta]
  refine (csrInit_ok kmax m n nnz row col dat jN jK hT hm).mono ?_
  rintro A ⟨a1, a2, a3, a4, a5, a6, a7, a8, _⟩
  refine (initY_ok m beta y hy).mono ?_
  rintro w ⟨w1, w2, w3⟩
  refine (csrSpmv_ok good_exact _ A m n nnz row col dat hT hs a1 a6 a3 a4 a7 a8 x w hx (by omega)
    (by simp [rowSize])).mono ?_
  rintro z ⟨z1, z2, z3⟩
  refine ⟨by omega, fun i hi => ?_, fun i hi => by rw [z3 i hi, w3 i hi]⟩
  rw [z2 i hi, w2 i hi]
  cases unparam <;> rfl

/-- C29, ELL: as for CSR; the construction reads `row[0]`, so at least one entry is needed. -/
theorem C29_ell (unparam : Bool) (kmax m n nnz : ℕ) (row col : Arr ℕ) (dat : Arr K)
    (hnz : 0 < nnz) (hT : Trip m n nnz row col dat) (hs : SortedRows row nnz) (beta : K) (x y : Arr K) (hx : n ≤ x.len)
    (hy : m ≤ y.len) :
    Ok (do let A ← ellInit kmax m nnz row col dat
           withBeta m beta (ellSpmv exactOps (if unparam then .sum else .each) A x) y)
      (IsSpmv m nnz row col dat x beta y) := by
  simp only [Ok_bind, withBeta]
  refine (ellInit_ok kmax m n nnz row col dat hT hs hnz).mono ?_
  rintro A ⟨a1, a2, a3, _⟩
  refine (initY_ok m beta y hy).mono ?_
  rintro w ⟨w1, w2, w3⟩
  refine (ellSpmv_ok good_exact _ A m n nnz row col dat a1 a3 x w hx (by omega) (by simp [rowSize])).mono ?_
  rintro z ⟨z1, z2, z3⟩
  refine ⟨by omega, fun i hi => ?_, fun i hi => by rw [z3 i hi, w3 i hi]⟩
  rw [z2 i hi, w2 i hi]
  cases unparam <;> rfl

/-- The hypothesis `0 < nnz` of `C29_ell` cannot be dropped: on an empty matrix given with empty arrays the
construction reads `row[0]` out of bounds. -/
theorem C29_ell_empty_reads_oob (kmax m : ℕ) (row col : Arr ℕ) (dat : Arr K) (hm : 0 < m) (hr : row.len = 0) :
    ellInit kmax m 0 row col dat = .error .oob := by
  obtain ⟨rows, h1, h2, _⟩ := countRows_ok m 0 row (by omega) (by simp)
  obtain ⟨mx, h3, _⟩ := maxElem_ok rows (by omega)
  simp only [ellInit, h1, h3, bind, Except.bind, Arr.rd, hr]
  rfl

/-- C29, HYB_ZO: the split into ones, minus ones and others, three products. -/
theorem C29_hyb_zo (unparam : Bool) (kmax m n nnz : ℕ) (row col : Arr ℕ) (dat : Arr K) (jN : ℕ → ℕ) (jK : ℕ → K)
    (hm : 0 < m) (hT : Trip m n nnz row col dat) (hs : SortedRows row nnz) (x y : Arr K) (hx : n ≤ x.len)
    (hy : m ≤ y.len) :
    Ok (do let A ← hybInit (-1) kmax m nnz row col dat jN jK
           hybSpmv exactOps (if unparam then .sum else .each) A x y)
      (fun z => z.len = y.len ∧ ∀ i < m, z.get i = y.get i + rowDot nnz row col dat x i) := by
  refine (hyb_ok _ kmax m n nnz row col dat jN jK hT hs hm x y hx hy).mono ?_
  rintro z ⟨z1, z2⟩
  refine ⟨z1, fun i hi => ?_⟩
  rw [z2 i hi]
  congr 1
  have hsgn : ∀ s : K, Fin4.sgn (if unparam = true then Fin4.sum else Fin4.each) s = s := fun s => by
    cases unparam <;> rfl
  rw [hsgn, ← Finset.sum_sub_distrib, ← Finset.sum_add_distrib]
  refine Finset.sum_congr rfl (fun t _ => ?_)
  unfold cls
  by_cases c0 : dat.get t = 1
  · simp [c0]
  · by_cases c1 : dat.get t = -1
    · simp only [c0, if_false]; simp [c1]
      split_ifs <;> simp
    · simp [c0, c1]

end beta

/-! A concrete 3x3 matrix with an empty row, a duplicate, ones, minus ones and a general entry:
rows `[1,-1,0]`, `[0,0,0]`, `[0,5+2,1]`. -/
def exRow : Arr ℕ := Arr.ofList [0, 0, 2, 2, 2]
def exCol : Arr ℕ := Arr.ofList [0, 1, 1, 1, 2]
def exDat : Arr ℤ := Arr.ofList [1, -1, 5, 2, 1]
def exX : Arr ℤ := Arr.ofList [10, 20, 30]
def exY : Arr ℤ := Arr.ofList [1, 2, 3]

lemma exTrip : Trip 3 3 5 exRow exCol exDat :=
  ⟨by decide, by decide, by decide, by decide, by decide⟩
lemma exSorted : SortedRows exRow 5 := by
  have h : ∀ t < 5, ∀ s ≤ t, exRow.get s ≤ exRow.get t := by decide
  exact fun s t h1 h2 => h t h2 s h1

/-- observable entries of a result -/
def out (e : Except Fault (Arr ℤ)) : Except Fault (List ℤ) := e.map Arr.toList

/-- Non-vacuity of the four C29 theorems, and the four formats computed. -/
example : out (do let A ← cooInit 9 3 5 exRow exCol exDat (fun _ => 7) (fun _ => 7)
                  withBeta 3 2 (cooSpmv exactOps A exX) exY) = .ok [-8, 4, 176] := by decide +kernel
example : out (do let A ← csrInit 9 3 5 exRow exCol exDat (fun _ => 7) (fun _ => 7)
                  withBeta 3 2 (csrSpmv exactOps .each A exX) exY) = .ok [-8, 4, 176] := by decide +kernel
example : out (do let A ← ellInit 9 3 5 exRow exCol exDat
                  withBeta 3 2 (ellSpmv exactOps .sum A exX) exY) = .ok [-8, 4, 176] := by decide +kernel
example : out (do let A ← hybInit (-1) 9 3 5 exRow exCol exDat (fun _ => 7) (fun _ => 7)
                  hybSpmv exactOps .each A exX exY) = .ok [-9, 2, 173] := by decide +kernel
example : (2 : ℤ) * 3 + rowDot 5 exRow exCol exDat exX 2 = 176 := by decide +kernel

/-! ## C30: zero-one matrices with a constant -/

/-- C30 (full statement: a zero-one matrix with constant `cst` multiplies by `cst` times the pattern).  Proved for
`cst = 1` and `cst = -1`; missing: other constants, for which the code is wrong (`C30_violated`). -/
theorem C30_zo_constant_partial [DecidableEq K] (m n nnz : ℕ) (row col : Arr ℕ) (dat : Arr K) (cst : K) (jN : ℕ → ℕ)
    (jK : ℕ → K) (hc : cst = 1 ∨ cst = -1) (hm : 0 < m) (hT : Trip m n nnz row col dat) (hs : SortedRows row nnz)
    (x y : Arr K) (hx : n ≤ x.len) (hy : m ≤ y.len) :
    Ok (do let A ← csrZOInit m nnz row col cst jN
           csrZOSpmvCst exactOps A n x y jK)
      (fun z => z.len = y.len ∧ (∀ i < m, z.get i = y.get i +
        ∑ t ∈ range nnz, if row.get t = i then cst * x.get (col.get t) else 0) ∧ ∀ i, m ≤ i → z.get i = y.get i) := by
  simp only [Ok_bind]
  refine (csrZOInit_ok m n nnz row col dat cst jN hT hm).mono ?_
  rintro A ⟨a1, a2, a3, a4, a5⟩
  unfold csrZOSpmvCst
  rw [a3]
  by_cases h1 : cst = 1
  · rw [if_pos h1]
    refine (csrZOSpmv_ok good_exact .sum A m n nnz row col dat hT hs a1 a4 a2 a5 x y hx hy (by simp)).mono ?_
    rintro z ⟨z1, z2, z3⟩
    refine ⟨z1, fun i hi => ?_, z3⟩
    rw [z2 i hi, h1]
    simp only [one_mul]; rfl
  · have h2 : cst = -1 := by tauto
    rw [if_neg h1, if_pos h2]
    refine (csrZOSpmv_ok good_exact .neg A m n nnz row col dat hT hs a1 a4 a2 a5 x y hx hy (by simp)).mono ?_
    rintro z ⟨z1, z2, z3⟩
    refine ⟨z1, fun i hi => ?_, z3⟩
    rw [z2 i hi, h2]
    congr 1
    simp only [Fin4.sgn, neg_one_mul, ← Finset.sum_neg_distrib]
    refine Finset.sum_congr rfl (fun t _ => ?_)
    split_ifs <;> simp

example : out (do let A ← csrZOInit 3 5 exRow exCol (-1 : ℤ) (fun _ => 7)
                  csrZOSpmvCst exactOps A 3 exX exY (fun _ => 7)) = .ok [-29, 2, -67] := by decide +kernel

/-- C30 is violated for every other constant: the product is the one of the pattern without the constant.
Stated for all inputs. -/
theorem C30_constant_ignored_violated [DecidableEq K] (m n nnz : ℕ) (row col : Arr ℕ) (dat : Arr K) (cst : K)
    (jN : ℕ → ℕ) (jK : ℕ → K) (hc : cst ≠ 1) (hc' : cst ≠ -1) (hm : 0 < m) (hT : Trip m n nnz row col dat)
    (hs : SortedRows row nnz) (x y : Arr K) (hx : n ≤ x.len) (hy : m ≤ y.len) :
    Ok (do let A ← csrZOInit m nnz row col cst jN
           csrZOSpmvCst exactOps A n x y jK)
      (fun z => ∀ i < m, z.get i = y.get i + ∑ t ∈ range nnz, if row.get t = i then x.get (col.get t) else 0) := by
  simp only [Ok_bind]
  refine (csrZOInit_ok m n nnz row col dat cst jN hT hm).mono ?_
  rintro A ⟨a1, a2, a3, a4, a5⟩
  unfold csrZOSpmvCst
  rw [a3, if_neg hc, if_neg hc']
  simp only [Ok_bind]
  refine (Ok_iter (fun _ (x1 : Arr K) => x1.len = n) rfl ?_).mono ?_
  · rintro k x1 hk h
    simp only [Ok_bind, Ok_rd, Ok_wr]
    exact ⟨by omega, by omega, h⟩
  · rintro x1 _
    refine (csrZOSpmv_ok good_exact .sum A m n nnz row col dat hT hs a1 a4 a2 a5 x y hx hy (by simp)).mono ?_
    rintro z ⟨_, z2, _⟩
    exact z2

/-- Concrete violation: the 1x1 matrix `[2]` times `[1]` gives `1`. -/
theorem C30_violated :
    out (do let A ← csrZOInit 1 1 (Arr.ofList [0]) (Arr.ofList [0]) (2 : ℤ) (fun _ => 0)
            csrZOSpmvCst exactOps A 1 (Arr.ofList [1]) (Arr.ofList [0]) (fun _ => 0)) = .ok [1] ∧
    ((0 : ℤ) + ∑ t ∈ range 1, if (Arr.ofList [0] : Arr ℕ).get t = 0 then
      (2:ℤ) * (Arr.ofList [1] : Arr ℤ).get ((Arr.ofList [0] : Arr ℕ).get t) else 0) = 2 := by decide +kernel

/-! ## C49: delayed reductions in sparse products -/

/-- `Modular<Element>` or `ModularBalanced<Element>` (odd `p`). -/
def fieldOf (balanced : Bool) (p prec : ℕ) : FpField := ⟨p, if balanced then -((p - 1) / 2 : ℕ) else 0, prec⟩

lemma fieldOf_red_abs (balanced : Bool) (p prec : ℕ) (hp : 0 < p) (hodd : balanced = true → p % 2 = 1) (z : ℤ) :
    ((fieldOf balanced p prec).red z).natAbs ≤ cInt balanced p := by
  unfold FpField.red fieldOf cInt
  have h1 := Int.emod_nonneg (z - (if balanced then -((p - 1) / 2 : ℕ) else 0 : ℤ)) (show (p:ℤ) ≠ 0 by omega)
  have h2 := Int.emod_lt_of_pos (z - (if balanced then -((p - 1) / 2 : ℕ) else 0 : ℤ)) (show (0:ℤ) < p by omega)
  cases balanced
  · simp only [Bool.false_eq_true, if_false] at h1 h2 ⊢; omega
  · have := hodd rfl
    simp only [if_true] at h1 h2 ⊢
    omega

lemma fieldOf_red_reduced (balanced : Bool) (p prec : ℕ) (hp : 0 < p) (hodd : balanced = true → p % 2 = 1) (z : ℤ) :
    Reduced balanced p ((fieldOf balanced p prec).red z) := by
  unfold FpField.red fieldOf Reduced
  have h1 := Int.emod_nonneg (z - (if balanced then -((p - 1) / 2 : ℕ) else 0 : ℤ)) (show (p:ℤ) ≠ 0 by omega)
  have h2 := Int.emod_lt_of_pos (z - (if balanced then -((p - 1) / 2 : ℕ) else 0 : ℤ)) (show (0:ℤ) < p by omega)
  cases balanced
  · simp only [Bool.false_eq_true, if_false] at h1 h2 ⊢; omega
  · have := hodd rfl
    simp only [if_true] at h1 h2 ⊢
    refine (show ∀ a b : ℤ, -b ≤ a → a ≤ b → 2 * b ≤ p - 1 → 2 * |a| ≤ p - 1 from fun a b h3 h4 h5 => ?_)
      _ (((p - 1) / 2 : ℕ) : ℤ) (by omega) (by omega) (by omega)
    have := _root_.abs_le.2 ⟨h3, h4⟩; omega

/-- Hypotheses common to the C49 theorems: an odd or non-balanced modulus, a bound `kmax > 1` computed by
`DotProdBoundClassic (F, F.one)`, and reduced operands. -/
structure DelayedCase (sizeMax : ℕ) (balanced : Bool) (p prec kmax m n nnz : ℕ) (dat x y : Arr ℤ) : Prop where
  hp : 2 ≤ p
  hp53 : p ≤ 2 ^ 53
  hprec : prec ≤ 53
  hodd : balanced = true → p % 2 = 1
  hk : 1 < kmax
  hbound : dotProdBoundClassic sizeMax balanced p (2 ^ prec - 1) 1 = .ok kmax
  hdat : ∀ t < nnz, Reduced balanced p (dat.get t)
  hx : ∀ t < n, Reduced balanced p (x.get t)
  hy : ∀ i < m, Reduced balanced p (y.get i)

namespace DelayedCase
variable {sizeMax : ℕ} {balanced : Bool} {p prec kmax m n nnz : ℕ} {dat x y : Arr ℤ}

lemma room (h : DelayedCase sizeMax balanced p prec kmax m n nnz dat x y) :
    cInt balanced p + kmax * (cInt balanced p * cInt balanced p) ≤ 2 ^ prec := by
  have h1 : |(1:ℤ)| ≤ cInt balanced p := by
    have := h.hp; have := h.hodd
    cases balanced
    · simp [cInt]; omega
    · have := this rfl; simp [cInt]; omega
  have := dotProd_spec sizeMax balanced p prec (by have := h.hp; omega) h.hp53 h.hprec 1 h1 kmax h.hk h.hbound
  simp only [betaMag, one_ne_zero, if_false, true_or, if_true, one_mul] at this
  exact_mod_cast this

lemma y_le (h : DelayedCase sizeMax balanced p prec kmax m n nnz dat x y) (i : ℕ) (hi : i < m) :
    (y.get i).natAbs ≤ cInt balanced p := by
  have := (h.hy i hi).abs_le (by have := h.hp; omega)
  rw [Int.abs_eq_natAbs] at this
  exact_mod_cast this

lemma prod_le (h : DelayedCase sizeMax balanced p prec kmax m n nnz dat x y) (t c : ℕ) (ht : t < nnz) (hc : c < n) :
    (dat.get t * x.get c).natAbs ≤ cInt balanced p * cInt balanced p := by
  have h1 := (h.hdat t ht).abs_le (by have := h.hp; omega)
  have h2 := (h.hx c hc).abs_le (by have := h.hp; omega)
  rw [Int.abs_eq_natAbs] at h1 h2
  rw [Int.natAbs_mul]
  exact Nat.mul_le_mul (by exact_mod_cast h1) (by exact_mod_cast h2)

end DelayedCase

/-- Result of a modular product `y ← y + A x`: the entries are reduced and are the exact dot products modulo `p`. -/
def IsModSpmv (balanced : Bool) (p m nnz : ℕ) (row col : Arr ℕ) (dat x y z : Arr ℤ) : Prop :=
  z.len = y.len ∧ (∀ i < m, Reduced balanced p (z.get i) ∧
    z.get i ≡ y.get i + rowDot nnz row col dat x i [ZMOD p]) ∧ ∀ i, m ≤ i → z.get i = y.get i

lemma isModSpmv_of {balanced : Bool} {p m nnz prec : ℕ} {row col : Arr ℕ} {dat x y z : Arr ℤ} (hp : 0 < p)
    (hodd : balanced = true → p % 2 = 1) (h1 : z.len = y.len)
    (h2 : ∀ i < m, z.get i = (fieldOf balanced p prec).red (y.get i + rowDot nnz row col dat x i))
    (h3 : ∀ i, m ≤ i → z.get i = y.get i) : IsModSpmv balanced p m nnz row col dat x y z := by
  refine ⟨h1, fun i hi => ?_, h3⟩
  rw [h2 i hi]
  exact ⟨fieldOf_red_reduced _ _ _ hp hodd _, FpField.red_modEq _ _⟩

/-- C49, CSR: whether or not the reduction is delayed to the end, every intermediate value is exactly representable
(no `inexact` fault), and the result is reduced and correct modulo `p`. -/
theorem C49_csr (sizeMax : ℕ) (balanced : Bool) (p prec kmax m n nnz : ℕ) (row col : Arr ℕ) (dat x y : Arr ℤ)
    (jN : ℕ → ℕ) (jK : ℕ → ℤ) (hm : 0 < m) (hT : Trip m n nnz row col dat) (hs : SortedRows row nnz)
    (hxl : n ≤ x.len) (hyl : m ≤ y.len) (hD : DelayedCase sizeMax balanced p prec kmax m n nnz dat x y) :
    Ok (do let A ← csrInit kmax m nnz row col dat jN jK
           csrSpmvMod (fieldOf balanced p prec) A x y) (IsModSpmv balanced p m nnz row col dat x y) := by
  simp only [Ok_bind]
  refine (csrInit_ok kmax m n nnz row col dat jN jK hT hm).mono ?_
  rintro A ⟨a1, a2, a3, a4, a5, a6, a7, a8, a9⟩
  have hp : 0 < p := by have := hD.hp; omega
  have hroom := hD.room
  have hV : ∀ t < nnz, (dat.get t * x.get (col.get t)).natAbs ≤ cInt balanced p * cInt balanced p :=
    fun t ht => hD.prod_le t _ ht (hT.clt t ht)
  unfold csrSpmvMod
  by_cases hd : A.delayed = true
  · rw [if_pos hd]
    simp only [Ok_bind]
    have hB : ∀ i < m, (y.get i).natAbs + rowSize Int.natAbs nnz row col dat x i ≤ 2 ^ prec := by
      intro i hi
      have h1 := hD.y_le i hi
      have h2 : rowSize Int.natAbs nnz row col dat x i ≤ cnt row nnz i * (cInt balanced p * cInt balanced p) := by
        unfold rowSize cnt
        rw [Finset.sum_mul]
        refine Finset.sum_le_sum (fun t ht => ?_)
        split_ifs
        · rw [one_mul]; exact hV t (Finset.mem_range.1 ht)
        · omega
      have h3 := Nat.mul_le_mul_right (cInt balanced p * cInt balanced p) (a9 hd i hi).le
      omega
    refine (csrSpmv_ok (good_mach prec) .sum A m n nnz row col dat hT hs a1 a6 a3 a4 a7 a8 x y hxl hyl hB).mono ?_
    rintro w ⟨w1, w2, w3⟩
    refine (freduceY_ok _ A.m w (by omega)).mono ?_
    rintro z ⟨z1, z2, z3⟩
    rw [a1] at z2 z3
    exact isModSpmv_of hp hD.hodd (by omega) (fun i hi => by rw [z2 i hi, w2 i hi]; rfl)
      (fun i hi => by rw [z3 i hi, w3 i hi])
  · rw [if_neg hd]
    unfold csrSpmvK
    rw [a1, a5]
    have hin : ∀ i < m, ∀ j < cnt row nnz i, cntLt row nnz i + j < nnz := by
      intro i hi j hj
      have := cntLt_succ row nnz i
      have := cntLt_le row nnz (i + 1)
      omega
    refine (rowLoopK_ok (fieldOf balanced p prec) kmax m (by have := hD.hk; omega) _ _
      (fieldOf_red_abs balanced p prec hp hD.hodd) hroom (csrBounds A.st) (cntLt row nnz) (cnt row nnz)
      (csrBounds_ok m nnz row A.st a6) _ (fun t => dat.get t * x.get (col.get t)) ?_
      (fun i hi j hj => hV _ (hin i hi j hj)) y hyl hD.y_le).mono ?_
    · intro i hi j hj e he
      have hq := hin i hi j hj
      have h1 := hT.clt _ hq
      rw [axpyStep_eq _ _ _ _ _ _ _ (by omega) (by omega) (by rw [a7 _ hq]; omega), a7 _ hq, a8 _ hq,
        (good_mach _).axpy _ _ _ he]
    · rintro z ⟨z1, z2, z3⟩
      refine isModSpmv_of (prec := prec) hp hD.hodd z1 (fun i hi => ?_) z3
      rw [z2 i hi, sum_row row nnz i hs (fun t => dat.get t * x.get (col.get t))]
      rfl

/-- C49, ELL: as for CSR (padding cells contribute `0 * x[0]`). -/
theorem C49_ell (sizeMax : ℕ) (balanced : Bool) (p prec kmax m n nnz : ℕ) (row col : Arr ℕ) (dat x y : Arr ℤ)
    (hnz : 0 < nnz) (hT : Trip m n nnz row col dat) (hs : SortedRows row nnz)
    (hxl : n ≤ x.len) (hyl : m ≤ y.len) (hD : DelayedCase sizeMax balanced p prec kmax m n nnz dat x y) :
    Ok (do let A ← ellInit kmax m nnz row col dat
           ellSpmvMod (fieldOf balanced p prec) A x y) (IsModSpmv balanced p m nnz row col dat x y) := by
  simp only [Ok_bind]
  refine (ellInit_ok kmax m n nnz row col dat hT hs hnz).mono ?_
  rintro A ⟨a1, a2, a3, a4, _⟩
  have hp : 0 < p := by have := hD.hp; omega
  have hroom := hD.room
  have hV : ∀ i < m, ∀ j < A.ld, (A.dat.get (i * A.ld + j) * x.get (A.col.get (i * A.ld + j))).natAbs ≤
      cInt balanced p * cInt balanced p := by
    intro i hi
    have h1 := a3.sum ℕ (fun c d => if (d * x.get c).natAbs ≤ cInt balanced p * cInt balanced p then 0 else 1)
      (by simp) i hi
    have h2 : ∑ t ∈ range nnz, (if row.get t = i then (if (dat.get t * x.get (col.get t)).natAbs ≤
        cInt balanced p * cInt balanced p then 0 else 1) else 0) = 0 :=
      Finset.sum_eq_zero (fun t ht => by
        have ht := Finset.mem_range.1 ht
        rw [if_pos (hD.prod_le t _ ht (hT.clt t ht))]; simp)
    rw [h2] at h1
    intro j hj
    have h3 := Finset.sum_eq_zero_iff.1 h1 j (Finset.mem_range.2 hj)
    by_contra hc
    simp [hc] at h3
  have hstep : ∀ i < m, ∀ j < A.ld, ∀ e : ℤ,
      e.natAbs + (A.dat.get (i * A.ld + j) * x.get (A.col.get (i * A.ld + j))).natAbs ≤ 2 ^ prec →
      axpyStep (machOps prec) A.dat A.col x (i * A.ld + j) (i * A.ld + j) e =
        .ok (e + A.dat.get (i * A.ld + j) * x.get (A.col.get (i * A.ld + j))) := by
    intro i hi j hj e he
    have h1 := addr_lt m A.ld i j hi hj
    have h2 := a3.cell i hi j hj
    have h3 := a3.clen
    have h4 := a3.dlen
    rw [axpyStep_eq _ _ _ _ _ _ _ (by omega) (by omega) (by omega), (good_mach _).axpy _ _ _ he]
  unfold ellSpmvMod
  by_cases hd : A.delayed = true
  · rw [if_pos hd]
    simp only [Ok_bind]
    have hB : ∀ i < m, (y.get i).natAbs + rowSize Int.natAbs nnz row col dat x i ≤ 2 ^ prec := by
      intro i hi
      have h1 := hD.y_le i hi
      have h2 := a3.sum ℕ (fun c d => (d * x.get c).natAbs) (by simp) i hi
      have h4 : ∑ j ∈ range A.ld, (A.dat.get (i * A.ld + j) * x.get (A.col.get (i * A.ld + j))).natAbs ≤
          A.ld * (cInt balanced p * cInt balanced p) := by
        have := Finset.sum_le_card_nsmul (range A.ld) _ _ (fun j hj => hV i hi j (Finset.mem_range.1 hj))
        simpa using this
      have h3 := Nat.mul_le_mul_right (cInt balanced p * cInt balanced p) (a4 hd).le
      unfold rowSize
      rw [← h2]
      omega
    refine (ellSpmv_ok (good_mach prec) .sum A m n nnz row col dat a1 a3 x y hxl hyl hB).mono ?_
    rintro w ⟨w1, w2, w3⟩
    refine (freduceY_ok _ A.m w (by omega)).mono ?_
    rintro z ⟨z1, z2, z3⟩
    rw [a1] at z2 z3
    exact isModSpmv_of hp hD.hodd (by omega) (fun i hi => by rw [z2 i hi, w2 i hi]; rfl)
      (fun i hi => by rw [z3 i hi, w3 i hi])
  · rw [if_neg hd]
    unfold ellSpmvK
    rw [a1, a2]
    refine (rowLoopK_ok (fieldOf balanced p prec) kmax m (by have := hD.hk; omega) _ _
      (fieldOf_red_abs balanced p prec hp hD.hodd) hroom _ (fun i => i * A.ld) (fun _ => A.ld)
      (fun _ _ => rfl) (fun q => axpyStep (machOps prec) A.dat A.col x q q)
      (fun q => A.dat.get q * x.get (A.col.get q)) hstep hV y hyl hD.y_le).mono ?_
    rintro z ⟨z1, z2, z3⟩
    refine isModSpmv_of (prec := prec) hp hD.hodd z1 (fun i hi => ?_) z3
    rw [z2 i hi, a3.sum ℤ (fun c d => d * x.get c) (by simp) i hi]
    rfl

/-- C49, COO (full statement: as for CSR).  Proved when the construction chooses `delayed`; missing: the other case,
where the code is wrong (`C49_coo_overflow_violated`, `C49_coo_unreduced_violated`). -/
theorem C49_coo_delayed_partial (sizeMax : ℕ) (balanced : Bool) (p prec kmax m n nnz : ℕ) (row col : Arr ℕ)
    (dat x y : Arr ℤ) (jN : ℕ → ℕ) (jK : ℕ → ℤ) (hm : 0 < m) (hT : Trip m n nnz row col dat)
    (hxl : n ≤ x.len) (hyl : m ≤ y.len) (hD : DelayedCase sizeMax balanced p prec kmax m n nnz dat x y) :
    Ok (cooInit kmax m nnz row col dat jN jK) (fun A => A.delayed = true →
      Ok (cooSpmvMod (fieldOf balanced p prec) A x y) (IsModSpmv balanced p m nnz row col dat x y)) := by
  refine (cooInit_ok kmax m n nnz row col dat jN jK hT hm).mono ?_
  rintro A ⟨a1, a2, a3, a4, a5, a6, a7, a8, a9, a10⟩ hd
  have hp : 0 < p := by have := hD.hp; omega
  have hroom := hD.room
  unfold cooSpmvMod
  rw [if_pos hd]
  simp only [Ok_bind]
  have hT' : Trip m n A.nnz A.row A.col A.dat := by
    rw [a2]
    exact ⟨by omega, by omega, by omega, fun t ht => by rw [a7 t ht]; exact hT.rlt t ht,
      fun t ht => by rw [a8 t ht]; exact hT.clt t ht⟩
  have hdot : ∀ i, rowDot A.nnz A.row A.col A.dat x i = rowDot nnz row col dat x i := by
    intro i
    unfold rowDot
    rw [a2]
    refine Finset.sum_congr rfl (fun t ht => ?_)
    have ht := Finset.mem_range.1 ht
    rw [a7 t ht, a8 t ht, a9 t ht]
  have hB : ∀ i < m, (y.get i).natAbs + rowSize Int.natAbs A.nnz A.row A.col A.dat x i ≤ 2 ^ prec := by
    intro i hi
    have h1 := hD.y_le i hi
    have h2 : rowSize Int.natAbs A.nnz A.row A.col A.dat x i ≤
        cnt row nnz i * (cInt balanced p * cInt balanced p) := by
      unfold rowSize cnt
      rw [Finset.sum_mul, a2]
      refine Finset.sum_le_sum (fun t ht => ?_)
      have ht := Finset.mem_range.1 ht
      rw [a7 t ht, a8 t ht, a9 t ht]
      split_ifs
      · rw [one_mul]; exact hD.prod_le t _ ht (hT.clt t ht)
      · omega
    have h3 := Nat.mul_le_mul_right (cInt balanced p * cInt balanced p) (a10 hd i hi).le
    omega
  refine (cooSpmv_ok (good_mach prec) A m n hT' x y hxl hyl hB).mono ?_
  rintro w ⟨w1, w2⟩
  refine (freduceY_ok _ A.m w (by omega)).mono ?_
  rintro z ⟨z1, z2, z3⟩
  rw [a1] at z2 z3
  refine isModSpmv_of hp hD.hodd (by omega) (fun i hi => by rw [z2 i hi, w2, hdot]) (fun i hi => ?_)
  rw [z3 i hi, w2, hdot]
  have : rowDot nnz row col dat x i = 0 := Finset.sum_eq_zero (fun t ht => by
    rw [if_neg]; have := hT.rlt t (Finset.mem_range.1 ht); omega)
  rw [this, add_zero]

/-- The bound used in the counterexamples: over float with `p = 2897`, two products may be accumulated. -/
lemma bound_2897 : dotProdBoundClassic 0 false 2897 (2 ^ 24 - 1) 1 = .ok 2 := by
  have hi : ∀ n : ℤ, |n| ≤ 2 ^ 53 → FP.rnd 53 (n:ℚ) = n := fun n hn => FP.rnd_int 53 (by norm_num) n hn
  have h1 := hi (2 ^ 24 - 1) (by norm_num)
  have h2 : FP.rnd 53 (16777216 : ℚ) = 16777216 := by exact_mod_cast hi 16777216 (by norm_num)
  have h3 : FP.rnd 53 (2896 : ℚ) = 2896 := by exact_mod_cast hi 2896 (by norm_num)
  have h4 : FP.rnd 53 (8386816 : ℚ) = 8386816 := by exact_mod_cast hi 8386816 (by norm_num)
  have h5 : FP.rnd 53 (16774320 : ℚ) = 16774320 := by exact_mod_cast hi 16774320 (by norm_num)
  have h6 : ⌊FP.rnd 53 ((16774320 : ℚ) / 8386816)⌋ = 2 := by
    have := FP.rnd_ge_pow 53 (by norm_num) ((16774320 : ℚ) / 8386816) 1 (by norm_num)
    have h7 := abs_le.1 (FP.rnd_err 53 ((16774320 : ℚ) / 8386816))
    rw [abs_of_pos (by norm_num)] at h7
    rw [Int.floor_eq_iff]
    norm_num at this h7 ⊢
    constructor <;> linarith
  norm_num at h1 h6
  unfold dotProdBoundClassic computeFactorClassic
  norm_num [h1, h2, h3, h4, h5, h6]
  rfl

/-- Non-vacuity of the C49 theorems, and both branches computed. -/
example : DelayedCase 0 false 2897 24 2 1 1 3 (Arr.ofList [2895, 2895, 2895]) (Arr.ofList [2895]) (Arr.ofList [7]) :=
  ⟨by norm_num, by norm_num, by norm_num, by simp, by norm_num, bound_2897,
    by unfold Reduced; decide, by unfold Reduced; decide, by unfold Reduced; decide⟩
def row0 : Arr ℕ := Arr.ofList [0, 0, 0]
example : out (do let A ← csrInit 2 1 3 row0 row0 (Arr.ofList [2895, 2895, 2895]) (fun _ => 0) (fun _ => 0)
                  csrSpmvMod (fieldOf false 2897 24) A (Arr.ofList [2895]) (Arr.ofList [7])) = .ok [19] ∧
  (7 + 3 * (2895 * 2895) : ℤ) % 2897 = 19 := by decide +kernel
example : out (do let A ← ellInit 2 1 1 row0 row0 (Arr.ofList [2895])
                  ellSpmvMod (fieldOf false 2897 24) A (Arr.ofList [2895]) (Arr.ofList [7])) = .ok [11] := by
  decide +kernel

/-- C49 is violated for COO without `delayed`: `axpyin` is reached with `kmax` products already accumulated.  With three
entries, `3 * 2895^2` is formed, which no float represents (`m 2^e` with `|m| ≤ 2^24`; negative exponents give nothing
more among the integers). -/
theorem C49_coo_overflow_violated :
    dotProdBoundClassic 0 false 2897 (2 ^ 24 - 1) 1 = .ok 2 ∧ Reduced false 2897 2895 ∧
    out (do let A ← cooInit 2 1 3 row0 row0 (Arr.ofList [2895, 2895, 2895]) (fun _ => 0) (fun _ => 0)
            cooSpmvMod (fieldOf false 2897 24) A (Arr.ofList [2895]) (Arr.ofList [0])) = .error .inexact ∧
    ¬∃ (m : ℤ) (e : ℕ), |m| ≤ 2 ^ 24 ∧ m * 2 ^ e = 2895 * 2895 + 2895 * 2895 + 2895 * 2895 := by
  refine ⟨bound_2897, by unfold Reduced; norm_num, by decide +kernel, ?_⟩
  rintro ⟨m, e, h1, h2⟩
  rcases Nat.eq_zero_or_pos e with rfl | he
  · have := abs_le.1 h1; norm_num at h2 this; omega
  · obtain ⟨k, rfl⟩ : ∃ k, e = k + 1 := ⟨e - 1, by omega⟩
    rw [pow_succ, ← mul_assoc] at h2; omega

/-- C49 is violated for COO without `delayed`: the value written back is not reduced. -/
theorem C49_coo_unreduced_violated :
    out (do let A ← cooInit 2 1 2 row0 row0 (Arr.ofList [2, 2]) (fun _ => 0) (fun _ => 0)
            cooSpmvMod (fieldOf false 2897 24) A (Arr.ofList [2896]) (Arr.ofList [0])) = .ok [11584] ∧
    ¬ Reduced false 2897 11584 := by
  refine ⟨by decide +kernel, by unfold Reduced; norm_num⟩

/-- C49 is violated for HYB_ZO, which never reduces before the end. -/
theorem C49_hyb_zo_overflow_violated :
    out (do let A ← hybInit (2896 : ℤ) 2 1 3 row0 row0 (Arr.ofList [2895, 2895, 2895]) (fun _ => 0) (fun _ => 0)
            hybSpmvMod (fieldOf false 2897 24) A (Arr.ofList [2895]) (Arr.ofList [0])) = .error .inexact := by
  decide +kernel

/-! ## C31: SELL -/

/-- What `std::sort` guarantees: a permutation, in nonincreasing order of the sizes. -/
def IsSort (srt : List Info → List Info) : Prop :=
  ∀ l, (srt l).Perm l ∧ (srt l).Pairwise (fun a b => a.size ≥ b.size)

/-- C31 is violated: whatever the sort, the kernels write the product of the sorted rows without undoing the
permutation.  Rows of sizes 0, 1, 2, 3, all entries one: `A x = (0,1,2,3)`, computed `(3,2,1,0)`. -/
theorem C31_perm_ignored_violated (srt : List Info → List Info) (h : IsSort srt) :
    out (do let A ← sellInit srt 4 4 6 (Arr.ofList [1, 2, 2, 3, 3, 3]) (Arr.ofList [0, 0, 0, 0, 0, 0])
                      (Arr.ofList [1, 1, 1, 1, 1, 1]) (fun _ => 0)
            sellSpmv exactOps A (Arr.ofList [1]) (Arr.ofList [0, 0, 0, 0])) = .ok [3, 2, 1, 0] ∧
    ∀ i < 4, rowDot 6 (Arr.ofList [1, 2, 2, 3, 3, 3]) (Arr.ofList [0, 0, 0, 0, 0, 0]) (Arr.ofList [1, 1, 1, 1, 1, 1])
      (Arr.ofList [(1:ℤ)]) i = (i:ℤ) := by
  refine ⟨?_, by decide +kernel⟩
  have h1 : sellInfos 4 4 6 (Arr.ofList [1, 2, 2, 3, 3, 3]) =
      .ok [⟨0, 0, 0⟩, ⟨1, 1, 0⟩, ⟨2, 2, 1⟩, ⟨3, 3, 3⟩] := by decide +kernel
  obtain ⟨h2, h3⟩ := h [⟨0, 0, 0⟩, ⟨1, 1, 0⟩, ⟨2, 2, 1⟩, ⟨3, 3, 3⟩]
  have h4 : srt [⟨0, 0, 0⟩, ⟨1, 1, 0⟩, ⟨2, 2, 1⟩, ⟨3, 3, 3⟩] = [⟨3, 3, 3⟩, ⟨2, 2, 1⟩, ⟨1, 1, 0⟩, ⟨0, 0, 0⟩] := by
    have hp : (srt [⟨0, 0, 0⟩, ⟨1, 1, 0⟩, ⟨2, 2, 1⟩, ⟨3, 3, 3⟩]).Perm
        [⟨3, 3, 3⟩, ⟨2, 2, 1⟩, ⟨1, 1, 0⟩, ⟨0, 0, 0⟩] := h2.trans (by decide)
    refine hp.eq_of_pairwise (le := fun a b => a.size ≥ b.size) ?_ h3 (by decide)
    intro a b ha hb h5 h6
    have ha := hp.subset ha
    fin_cases ha <;> fin_cases hb <;> simp_all
  simp only [sellInit, h1, bind, Except.bind]
  rw [show List.take 4 ([⟨0, 0, 0⟩, ⟨1, 1, 0⟩, ⟨2, 2, 1⟩, ⟨3, 3, 3⟩] : List Info) =
    [⟨0, 0, 0⟩, ⟨1, 1, 0⟩, ⟨2, 2, 1⟩, ⟨3, 3, 3⟩] from rfl, h4]
  decide +kernel

/-- C31 is also violated by writes outside `y`: when the number of rows is not a multiple of the chunk, the kernel
updates the padding rows. -/
theorem C31_oob_violated :
    out (do let A ← sellInit id 4 1 1 (Arr.ofList [0]) (Arr.ofList [0]) (Arr.ofList [5]) (fun _ => 0)
            sellSpmv exactOps A (Arr.ofList [1]) (Arr.ofList [0])) = .error .oob := by decide +kernel

/-! ## C50: ELL_ZO -/

/-- C50 (full statement: the zero-one ELL product is the pattern times `x`).  Proved when all rows have the same number
of entries; missing: the other matrices, where the code is wrong (`C50_violated`). -/
theorem C50_ell_zo_partial (m n nnz L : ℕ) (row col : Arr ℕ) (dat : Arr K) (hnz : 0 < nnz)
    (hT : Trip m n nnz row col dat) (hs : SortedRows row nnz) (hone : ∀ t < nnz, dat.get t = 1)
    (hL : ∀ i < m, ((range nnz).filter (fun t => row.get t = i)).card = L)
    (x y : Arr K) (hx : n ≤ x.len) (hy : m ≤ y.len) :
    Ok (do let A ← ellInit 0 m nnz row col dat
           ellZOSpmv exactOps .each A x y) (fun z => z.len = y.len ∧
        (∀ i < m, z.get i = y.get i + ∑ t ∈ range nnz, if row.get t = i then x.get (col.get t) else 0) ∧
        ∀ i, m ≤ i → z.get i = y.get i) := by
  classical
  simp only [Ok_bind]
  refine (ellInit_ok 0 m n nnz row col dat hT hs hnz).mono ?_
  rintro A ⟨a1, a2, a3, _, a5⟩
  have hcnt : ∀ i < m, cnt row nnz i = L := fun i hi => by
    rw [← hL i hi, Finset.card_filter]; rfl
  have hld := a5 L (fun i hi => (hcnt i hi).le)
  have hfull : ∀ i < m, ∀ j < A.ld, A.dat.get (i * A.ld + j) = 1 := by
    intro i hi
    by_cases h10 : (1:K) = 0
    · intro j _; exact eq_of_zero_eq_one h10.symm _ _
    have h1 := a3.sum ℕ (fun c d => if d = 1 then 1 else 0) (by intro c; rw [if_neg (Ne.symm h10)]) i hi
    have h2 : ∑ t ∈ range nnz, (if row.get t = i then (if dat.get t = 1 then 1 else 0) else 0) = L := by
      rw [← hcnt i hi]
      exact Finset.sum_congr rfl (fun t ht => by rw [if_pos (hone t (Finset.mem_range.1 ht))])
    rw [h2] at h1
    by_contra hcon
    push Not at hcon
    obtain ⟨j, hj, hne⟩ := hcon
    have h3 : ∑ j ∈ range A.ld, (if A.dat.get (i * A.ld + j) = 1 then 1 else 0) < ∑ _j ∈ range A.ld, 1 :=
      Finset.sum_lt_sum (fun j _ => by split_ifs <;> omega) ⟨j, Finset.mem_range.2 hj, by rw [if_neg hne]; omega⟩
    rw [h1] at h3
    simp at h3
    omega
  unfold ellZOSpmv
  rw [a1]
  refine (rowLoop_ok good_exact .each m _ (fun i => i * A.ld) (fun _ => A.ld) (fun i _ => rfl)
    (fun p => addStep exactOps A.col x p) (fun p => x.get (A.col.get p)) ?_ y hy (by simp)).mono ?_
  · intro i hi j hj e he
    have h1 := addr_lt m A.ld i j hi hj
    have h2 := a3.cell i hi j hj
    have h3 := a3.clen
    rw [addStep_eq _ _ _ _ _ (by omega) (by omega)]
    rfl
  · rintro z ⟨h1, h2, h3⟩
    refine ⟨h1, fun i hi => ?_, h3⟩
    rw [h2 i hi]
    have hsum := a3.sum K (fun c d => d * x.get c) (by simp) i hi
    congr 1
    calc (∑ j ∈ range A.ld, x.get (A.col.get (i * A.ld + j)))
        = ∑ j ∈ range A.ld, A.dat.get (i * A.ld + j) * x.get (A.col.get (i * A.ld + j)) :=
          Finset.sum_congr rfl (fun j hj => by rw [hfull i hi j (Finset.mem_range.1 hj), one_mul])
      _ = _ := hsum
      _ = _ := Finset.sum_congr rfl (fun t ht => by rw [hone t (Finset.mem_range.1 ht), one_mul])

/-- The hypotheses of `C50_ell_zo_partial` are met by a 2x2 permutation matrix. -/
example : out (do let A ← ellInit 0 2 2 (Arr.ofList [0, 1]) (Arr.ofList [1, 0]) (Arr.ofList [1, 1])
                  ellZOSpmv exactOps .each A (Arr.ofList [5, 7]) (Arr.ofList [0, 0])) = .ok [7, 5] := by decide +kernel

/-- C50 is violated: `[[1,1],[0,1]]` times `(5,7)` gives `(12, 12)` instead of `(12, 7)`: the padding of the second row
adds `x[0]`. -/
theorem C50_violated :
    out (do let A ← ellInit 0 2 3 (Arr.ofList [0, 0, 1]) (Arr.ofList [0, 1, 1]) (Arr.ofList [1, 1, 1])
            ellZOSpmv exactOps .each A (Arr.ofList [5, 7]) (Arr.ofList [0, 0])) = .ok [12, 12] ∧
    rowDot 3 (Arr.ofList [0, 0, 1]) (Arr.ofList [0, 1, 1]) (Arr.ofList [1, 1, 1]) (Arr.ofList [(5:ℤ), 7]) 1 = 7 := by
  decide +kernel

/-! ## C51: ELL_simd -/

/-- C51 (full statement: the ELL_simd product is `y + A x`, for every number of rows and with delayed reductions).
Proved for the generic kernel when the number of rows is a multiple of the chunk; missing: the other cases, where the
code is wrong (`C51_oob_violated`, `C51_kmax_rows_skipped_violated`). -/
theorem C51_ell_simd_partial (chunk kmax m n nnz : ℕ) (row col : Arr ℕ) (dat : Arr K) (hch : 0 < chunk)
    (hdiv : m % chunk = 0) (hn : 0 < n) (hT : Trip m n nnz row col dat) (hs : SortedRows row nnz)
    (x y : Arr K) (hx : n ≤ x.len) (hy : m ≤ y.len) :
    Ok (do let A ← ellSInit chunk kmax m nnz row col dat
           ellSSpmv exactOps A x y)
      (fun z => z.len = y.len ∧ (∀ i < m, z.get i = y.get i + rowDot nnz row col dat x i) ∧
        ∀ i, m ≤ i → z.get i = y.get i) := by
  simp only [Ok_bind]
  exact (ellSInit_ok chunk kmax m n nnz row col dat hch hT hdiv).mono
    (fun A hA => ellSSpmv_ok m n nnz row col dat A hA hT hs hn x y hx hy)

example : out (do let A ← ellSInit 3 9 3 5 exRow exCol exDat
                  ellSSpmv exactOps A exX exY) = .ok [-9, 2, 173] := by decide +kernel

/-- C51 is violated: with 3 rows and chunk 4, the kernel accesses `y[3]`. -/
theorem C51_oob_violated :
    out (do let A ← ellSInit 4 9 3 5 exRow exCol exDat
            ellSSpmv exactOps A exX exY) = .error .oob := by decide +kernel

/-- C51 is violated: with 5 rows and chunk 4, the version with delayed reductions stops before row 4. -/
theorem C51_kmax_rows_skipped_violated :
    out (do let A ← ellSInit 4 1 5 1 (Arr.ofList [4]) (Arr.ofList [0]) (Arr.ofList [3])
            ellSSpmvK (fieldOf false 2897 24) 1 A (Arr.ofList [5]) (Arr.ofList [0, 0, 0, 0, 0])) =
      .ok [0, 0, 0, 0, 0] ∧
    rowDot 1 (Arr.ofList [4]) (Arr.ofList [0]) (Arr.ofList [3]) (Arr.ofList [(5:ℤ)]) 4 = 15 := by decide +kernel

/-! ## C52: CSR_HYB -/

/-- C52 is violated: the column indices are stored in the original order, while the kernel reads them in the sorted
order (minus ones, ones, others).  For the row `[1, -1]`, whatever sort is used, the signs are exchanged. -/
theorem C52_cols_unsorted_violated (srt : List (ℕ × ℕ × ℤ) → List (ℕ × ℕ × ℤ)) (h : ∀ l, (srt l).Perm l) :
    out (do let A ← csrHybInit srt 9 1 2 (Arr.ofList [0, 0]) (Arr.ofList [0, 1]) (Arr.ofList [1, -1]) (fun _ => 0)
                      (fun _ => 0)
            csrHybSpmv exactOps A (Arr.ofList [5, 7]) (Arr.ofList [0])) = .ok [2] ∧
    rowDot 2 (Arr.ofList [0, 0]) (Arr.ofList [0, 1]) (Arr.ofList [1, -1]) (Arr.ofList [(5:ℤ), 7]) 0 = -2 := by
  refine ⟨?_, by decide +kernel⟩
  have h1 : srt [(0, 0, 1), (0, 1, -1)] = [(0, 0, 1), (0, 1, -1)] ∨ srt [(0, 0, 1), (0, 1, -1)] = [(0, 1, -1), (0, 0, 1)] := by
    have := List.perm_pair.1 (h [(0, 0, 1), (0, 1, -1)])
    exact this
  have h2 : readRow (Arr.ofList [0, 0] : Arr ℕ) 0 1 2 = .ok [0, 0] := by decide +kernel
  have h3 : readRow (Arr.ofList [0, 1] : Arr ℕ) 0 1 2 = .ok [0, 1] := by decide +kernel
  have h4 : readRow (Arr.ofList [1, -1] : Arr ℤ) 0 1 2 = .ok [1, -1] := by decide +kernel
  simp only [csrHybInit, h2, h3, h4, bind, Except.bind, List.zip, List.zipWith]
  rcases h1 with h1 | h1 <;> rw [h1] <;> decide +kernel

/-- C52 is violated: without `delayed` (here: two entries in a row, bound 2) the product does nothing. -/
theorem C52_not_delayed_violated :
    out (do let A ← csrHybInit id 2 1 2 (Arr.ofList [0, 0]) (Arr.ofList [0, 1]) (Arr.ofList [2, 3]) (fun _ => 0)
                      (fun _ => 0)
            csrHybSpmvMod (fieldOf false 2897 24) A (Arr.ofList [5, 7]) (Arr.ofList [0])) = .ok [0] ∧
    rowDot 2 (Arr.ofList [0, 0]) (Arr.ofList [0, 1]) (Arr.ofList [2, 3]) (Arr.ofList [(5:ℤ), 7]) 0 = 31 := by
  decide +kernel

end Verif.Props
