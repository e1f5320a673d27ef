import Verif.Proofs.RNSMod
import Verif.Props.LazyGemm
import Mathlib.Tactic.IntervalCases

/-!
# C27, C28, C47, C48: residue number systems
-/

namespace Verif.Props
open Verif Verif.FP Verif.Lazy Verif.RNS Finset

/-- Index of entry `(i,j)` of an `m × n` matrix in the residue arrays: row-major for `init`/`convert`, column-major for
the `_transpose` versions. -/
def entryIdx (tr : Bool) (m n i j : ℕ) : ℕ := if tr then i + j * m else j + i * n

/-- Where residue `t` of entry `idx` is stored: one row of `rda` doubles per modulus, or (`RNS_MAJOR`) one group of
`size` doubles per entry. -/
def residueAt (rnsMajor : Bool) (size rda t idx : ℕ) : ℕ := if rnsMajor then idx * size + t else t * rda + idx

/-- A set of moduli usable for an RNS: at least 2 and pairwise coprime. -/
def Moduli (size : ℕ) (basis : ℕ → ℕ) : Prop :=
  (∀ i < size, 2 ≤ basis i) ∧ ∀ i < size, ∀ j < size, i ≠ j → Nat.Coprime (basis i) (basis j)

/-- The residues of `m*n` entries fit in an array of `len` doubles. -/
def RnsFits (rnsMajor : Bool) (size rda mn len : ℕ) : Prop :=
  if rnsMajor then mn * size ≤ len else mn ≤ rda ∧ (size = 0 ∨ mn = 0 ∨ (size - 1) * rda + mn ≤ len)

lemma Moduli.coprime' {size : ℕ} {basis : ℕ → ℕ} (h : Moduli size basis) : Coprime' size basis := ⟨h.1, h.2⟩

lemma RnsFits.addrOk {rnsMajor : Bool} {size rda mn len : ℕ} (h : RnsFits rnsMajor size rda mn len) :
    AddrOk rnsMajor size rda mn len := by
  unfold RnsFits at h; unfold AddrOk
  cases rnsMajor
  · simp only [Bool.false_eq_true, if_false] at h ⊢
    refine ⟨h.1, fun t ht idx hi => ?_⟩
    have : t * rda ≤ (size - 1) * rda := Nat.mul_le_mul_right _ (by omega)
    omega
  · exact h

lemma entryIdx_lt (tr : Bool) {m n i j : ℕ} (hi : i < m) (hj : j < n) : entryIdx tr m n i j < m * n ∧
    rowOf tr m n (entryIdx tr m n i j) = i ∧ colOf tr m n (entryIdx tr m n i j) = j := by
  unfold entryIdx rowOf colOf
  cases tr
  · simp only [Bool.false_eq_true, if_false]
    refine ⟨lin_lt hj hi, ?_, ?_⟩
    · rw [Nat.add_mul_div_right _ _ (by omega), Nat.div_eq_of_lt hj, Nat.zero_add]
    · rw [Nat.add_mul_mod_self_right, Nat.mod_eq_of_lt hj]
  · simp only [if_true]
    refine ⟨by rw [Nat.mul_comm m n]; exact lin_lt hi hj, ?_, ?_⟩
    · rw [Nat.add_mul_mod_self_right, Nat.mod_eq_of_lt hi]
    · rw [Nat.add_mul_div_right _ _ (by omega), Nat.div_eq_of_lt hi, Nat.zero_add]

/-- C27: after the precomputation and `init` (or `init_transpose`), in both layouts and for every order of the BLAS
summations, the residues of every entry are stored at the right place and nothing else is written.  The digit
sums must fit in 53 bits. -/
theorem C27_init (size : ℕ) (basis : ℕ → ℕ) (hmod : Moduli size basis) (junkN : ℕ → ℕ) (junkZ junk : ℕ → ℤ)
    (tr rnsMajor : Bool) (m n : ℕ) (Arns : Arr ℤ) (rda : ℕ) (A : Arr ℤ) (lda k : ℕ) (sched : ℕ → ℕ → SumTree)
    (hsched : ∀ t idx, (sched t idx).Covers k) (hk : k ≤ words (∏ i ∈ range size, basis i))
    (hfit : ∀ t < size, (k : ℤ) * ((basis t - 1) * (2 ^ 16 - 1)) + basis t < 2 ^ 53)
    (hA : ∀ i < m, ∀ j < n, j + i * lda < A.len) (hbound : ∀ i < m, ∀ j < n, |A.get (j + i * lda)| < 2 ^ (16 * k))
    (hrns : RnsFits rnsMajor size rda (m * n) Arns.len) :
    Ok (do let R ← precompute size basis junkN junkZ; init R tr rnsMajor m n Arns rda A lda k junk sched) (fun B =>
      B.len = Arns.len ∧
      (∀ t < size, ∀ i < m, ∀ j < n, B.get (residueAt rnsMajor size rda t (entryIdx tr m n i j)) = A.get (j + i * lda) % basis t) ∧
      ∀ x, (∀ t < size, ∀ i < m, ∀ j < n, x ≠ residueAt rnsMajor size rda t (entryIdx tr m n i j)) → B.get x = Arns.get x) := by
  simp only [Ok_bind]
  refine (precompute_spec size basis hmod.coprime' junkN junkZ).mono ?_
  intro R hR
  refine (init_spec R size basis hmod.coprime' hR tr rnsMajor m n Arns rda A lda k junk sched hsched
    (by rw [hR.ldm_eq]; exact hk) hfit hA (fun i hi j hj => ?_) hrns.addrOk).mono ?_
  · have := hbound i hi j hj
    rw [Int.abs_eq_natAbs] at this
    exact_mod_cast this
  · rintro B ⟨h1, h2, h3⟩
    refine ⟨h1, ?_, ?_⟩
    · intro t ht i hi j hj
      obtain ⟨e1, e2, e3⟩ := entryIdx_lt tr hi hj
      have := h2 t ht _ e1
      rwa [e2, e3] at this
    · intro x hx
      refine h3 x (fun t ht idx hidx => ?_)
      obtain ⟨hr, hc⟩ := rowcol_lt tr m n idx hidx
      have e : entryIdx tr m n (rowOf tr m n idx) (colOf tr m n idx) = idx := by
        unfold entryIdx rowOf colOf
        cases tr
        · simp only [Bool.false_eq_true, if_false]; exact Nat.mod_add_div' idx n
        · simp only [if_true]; exact Nat.mod_add_div' idx m
      have := hx t ht _ hr _ hc
      rwa [e] at this

/-- C27: `convert` (and `convert_transpose`) applied to the residues of integers `X i j` in the symmetric range adds
`gamma` times the old contents and stores the result, leaving everything else unchanged.  For `RNS_MAJOR`,
`convert_transpose` uses `rda` as the number of residues of an entry. -/
theorem C27_convert (size : ℕ) (basis : ℕ → ℕ) (hmod : Moduli size basis) (junkN : ℕ → ℕ) (junkZ junk : ℕ → ℤ)
    (tr rnsMajor : Bool) (m n : ℕ) (gamma : ℤ) (A : Arr ℤ) (lda : ℕ) (Arns : Arr ℤ) (rda : ℕ) (sched : ℕ → ℕ → SumTree)
    (hsched : ∀ idx l, (sched idx l).Covers size) (hfit : ∑ t ∈ range size, ((basis t : ℤ) - 1) * (2 ^ 16 - 1) ≤ 2 ^ 53)
    (hmaj : tr = true → rnsMajor = true → rda = size) (hA : ∀ i < m, ∀ j < n, j + i * lda < A.len) (hlda : n ≤ lda)
    (hrns : RnsFits rnsMajor size rda (m * n) Arns.len) (X : ℕ → ℕ → ℤ)
    (hX : ∀ i < m, ∀ j < n, 2 * |X i j| < ∏ i ∈ range size, (basis i : ℤ))
    (hres : ∀ t < size, ∀ i < m, ∀ j < n, Arns.get (residueAt rnsMajor size rda t (entryIdx tr m n i j)) = X i j % basis t) :
    Ok (do let R ← precompute size basis junkN junkZ; convert R tr rnsMajor m n gamma A lda Arns rda junk sched) (fun B =>
      B.len = A.len ∧ (∀ i < m, ∀ j < n, B.get (j + i * lda) = X i j + gamma * A.get (j + i * lda)) ∧
      ∀ x, (∀ i < m, ∀ j < n, x ≠ j + i * lda) → B.get x = A.get x) := by
  simp only [Ok_bind]
  refine (precompute_spec size basis hmod.coprime' junkN junkZ).mono ?_
  intro R hR
  have hidx : ∀ idx, entryIdx tr m n (rowOf tr m n idx) (colOf tr m n idx) = idx := by
    intro idx
    unfold entryIdx rowOf colOf
    cases tr
    · simp only [Bool.false_eq_true, if_false]; exact Nat.mod_add_div' idx n
    · simp only [if_true]; exact Nat.mod_add_div' idx m
  refine (convert_spec R size basis hmod.coprime' hR tr rnsMajor hmaj m n gamma A lda Arns junk sched hsched hfit hA hlda
    hrns.addrOk (fun idx => X (rowOf tr m n idx) (colOf tr m n idx)) ?_ ?_).mono ?_
  · intro idx h
    obtain ⟨hr, hc⟩ := rowcol_lt tr m n idx h
    have := hX _ hr _ hc
    unfold prodM; push_cast; omega
  · intro t ht idx h
    obtain ⟨hr, hc⟩ := rowcol_lt tr m n idx h
    have := hres t ht _ hr _ hc
    rwa [hidx] at this
  · rintro B ⟨h1, h2, h3⟩
    refine ⟨h1, ?_, h3⟩
    intro i hi j hj
    obtain ⟨e1, e2, e3⟩ := entryIdx_lt tr hi hj
    have := h2 _ e1
    rwa [e2, e3] at this

/-- C27: converting to the RNS and back returns every matrix of integers in the symmetric range of the basis
(plus `gamma` times the old contents of the destination). -/
theorem C27_roundtrip (size : ℕ) (basis : ℕ → ℕ) (hmod : Moduli size basis) (junkN : ℕ → ℕ) (junkZ junk junk' : ℕ → ℤ)
    (tr rnsMajor : Bool) (m n : ℕ) (Arns : Arr ℤ) (rda : ℕ) (A : Arr ℤ) (lda k : ℕ) (sched sched' : ℕ → ℕ → SumTree)
    (gamma : ℤ) (C : Arr ℤ) (ldc : ℕ) (hsched : ∀ t idx, (sched t idx).Covers k) (hsched' : ∀ idx l, (sched' idx l).Covers size)
    (hk : k ≤ words (∏ i ∈ range size, basis i))
    (hfit : ∀ t < size, (k : ℤ) * ((basis t - 1) * (2 ^ 16 - 1)) + basis t < 2 ^ 53)
    (hfit' : ∑ t ∈ range size, ((basis t : ℤ) - 1) * (2 ^ 16 - 1) ≤ 2 ^ 53)
    (hA : ∀ i < m, ∀ j < n, j + i * lda < A.len) (hC : ∀ i < m, ∀ j < n, j + i * ldc < C.len) (hldc : n ≤ ldc)
    (hbound : ∀ i < m, ∀ j < n, |A.get (j + i * lda)| < 2 ^ (16 * k))
    (hrange : ∀ i < m, ∀ j < n, 2 * |A.get (j + i * lda)| < ∏ i ∈ range size, (basis i : ℤ))
    (hrns : RnsFits rnsMajor size rda (m * n) Arns.len) (hmaj : tr = true → rnsMajor = true → rda = size) :
    Ok (do
        let R ← precompute size basis junkN junkZ
        let B ← init R tr rnsMajor m n Arns rda A lda k junk sched
        convert R tr rnsMajor m n gamma C ldc B rda junk' sched')
      (fun D => D.len = C.len ∧
        (∀ i < m, ∀ j < n, D.get (j + i * ldc) = A.get (j + i * lda) + gamma * C.get (j + i * ldc)) ∧
        ∀ x, (∀ i < m, ∀ j < n, x ≠ j + i * ldc) → D.get x = C.get x) := by
  have h1 := C27_init size basis hmod junkN junkZ junk tr rnsMajor m n Arns rda A lda k sched hsched hk hfit hA hbound hrns
  have hpre := precompute_spec size basis hmod.coprime' junkN junkZ
  simp only [Ok_bind] at h1 ⊢
  cases hp : precompute size basis junkN junkZ with
  | error e => rw [hp] at hpre; simp at hpre
  | ok R =>
    rw [hp] at h1
    simp only [Ok_ok] at h1 ⊢
    refine h1.mono ?_
    rintro B ⟨g1, g2, -⟩
    have := C27_convert size basis hmod junkN junkZ junk' tr rnsMajor m n gamma C ldc B rda sched' hsched' hfit' hmaj hC hldc
      (by rw [g1]; exact hrns) (fun i j => A.get (j + i * lda)) hrange g2
    simp only [Ok_bind, hp, Ok_ok] at this
    exact this

lemma moduli_3_5_7 : Moduli 3 (fun i => [3, 5, 7].getD i 0) := by
  refine ⟨fun i hi => ?_, fun i hi j hj hij => ?_⟩
  · interval_cases i <;> simp
  · interval_cases i <;> interval_cases j <;> first | (exact absurd rfl hij) | decide

/-- The hypotheses are met by a 2 × 2 matrix with entries `52, -52, 17, 0` in the basis `3, 5, 7` (`M = 105`), every layout. -/
example (rnsMajor : Bool) : Ok (do
        let R ← precompute 3 (fun i => [3, 5, 7].getD i 0) (fun _ => 9) (fun _ => 9)
        let B ← init R true rnsMajor 2 2 (Arr.mk' 12 (fun _ => -1)) (if rnsMajor then 3 else 4) (Arr.ofList [52, -52, 99, 17, 0]) 3 1 (fun _ => 9)
          (fun _ _ => leftToRight 1)
        convert R true rnsMajor 2 2 2 (Arr.mk' 4 (fun _ => 1000)) 2 B (if rnsMajor then 3 else 4) (fun _ => 9) (fun _ _ => leftToRight 3))
      (fun D => D.get 0 = 2052 ∧ D.get 1 = 1948 ∧ D.get 2 = 2017 ∧ D.get 3 = 2000) := by
  refine (C27_roundtrip 3 _ moduli_3_5_7 _ _ _ _ true rnsMajor 2 2 _ _ _ 3 1 _ _ 2 _ 2 (fun _ _ => leftToRight_covers 1)
    (fun _ _ => leftToRight_covers 3) (by decide +kernel) ?_ (by decide +kernel) ?_ ?_ le_rfl ?_ ?_ ?_ ?_).mono ?_
  · intro t ht; interval_cases t <;> norm_num
  · intro i hi j hj; interval_cases i <;> interval_cases j <;> decide
  · intro i hi j hj; interval_cases i <;> interval_cases j <;> decide
  · intro i hi j hj; interval_cases i <;> interval_cases j <;> decide
  · intro i hi j hj; interval_cases i <;> interval_cases j <;> decide
  · unfold RnsFits; cases rnsMajor <;> decide
  · rintro - rfl; rfl
  · rintro D ⟨-, h, -⟩
    exact ⟨h 0 (by omega) 0 (by omega), h 0 (by omega) 1 (by omega), h 1 (by omega) 0 (by omega), h 1 (by omega) 1 (by omega)⟩

/-! ## C28 -/

/-- The residues of `X` are stored at `x`, `x + sx`, `x + 2 sx`, … -/
def Represents (size : ℕ) (basis : ℕ → ℕ) (A : Arr ℤ) (x sx : ℕ) (X : ℤ) : Prop :=
  ∀ i < size, A.get (x + i * sx) = X % basis i

/-- An element (pointer and stride) of `size` residues inside the memory `A`. -/
def InMem (size : ℕ) (A : Arr ℤ) (x sx : ℕ) : Prop := 0 < sx ∧ ∀ i < size, x + i * sx < A.len

/-- Two elements are the same, or have no residue in common. -/
def SameOrApart (size x sx y sy : ℕ) : Prop :=
  (x = y ∧ sx = sy) ∨ ∀ t < size, ∀ i < size, x + t * sx ≠ y + i * sy

lemma SameOrApart.noClobber {size x sx y sy : ℕ} (h : SameOrApart size x sx y sy) (hs : 0 < sx) : NoClobber size x sx y sy := by
  intro t ht i hi hti
  rcases h with ⟨rfl, rfl⟩ | h
  · intro e
    have := Nat.mul_lt_mul_of_pos_right hti hs
    omega
  · exact h t ht i hi

/-- C28: component-wise addition represents the sum, whatever the strides, also when the result is one of the operands. -/
theorem C28_add (size : ℕ) (basis : ℕ → ℕ) (hmod : Moduli size basis) (A : Arr ℤ) (x sx y sy z sz : ℕ)
    (hx : InMem size A x sx) (hy : InMem size A y sy) (hz : InMem size A z sz)
    (hxy : SameOrApart size x sx y sy) (hxz : SameOrApart size x sx z sz) (Y Z : ℤ)
    (hY : Represents size basis A y sy Y) (hZ : Represents size basis A z sz Z) :
    Ok (ewise addM size basis x sx y sy z sz A) (fun B => B.len = A.len ∧ Represents size basis B x sx (Y + Z) ∧
      ∀ c, (∀ i < size, c ≠ x + i * sx) → B.get c = A.get c) := by
  refine (ewise_spec addM size basis x sx y sy z sz A hx.2 hy.2 hz.2 hx.1 (hxy.noClobber hx.1) (hxz.noClobber hx.1)).mono ?_
  rintro B ⟨h1, h2, h3⟩
  refine ⟨h1, fun i hi => ?_, h3⟩
  rw [h2 i hi, hY i hi, hZ i hi]
  exact addM_spec _ (by have := hmod.1 i hi; omega) Y Z

theorem C28_sub (size : ℕ) (basis : ℕ → ℕ) (hmod : Moduli size basis) (A : Arr ℤ) (x sx y sy z sz : ℕ)
    (hx : InMem size A x sx) (hy : InMem size A y sy) (hz : InMem size A z sz)
    (hxy : SameOrApart size x sx y sy) (hxz : SameOrApart size x sx z sz) (Y Z : ℤ)
    (hY : Represents size basis A y sy Y) (hZ : Represents size basis A z sz Z) :
    Ok (ewise subM size basis x sx y sy z sz A) (fun B => B.len = A.len ∧ Represents size basis B x sx (Y - Z) ∧
      ∀ c, (∀ i < size, c ≠ x + i * sx) → B.get c = A.get c) := by
  refine (ewise_spec subM size basis x sx y sy z sz A hx.2 hy.2 hz.2 hx.1 (hxy.noClobber hx.1) (hxz.noClobber hx.1)).mono ?_
  rintro B ⟨h1, h2, h3⟩
  refine ⟨h1, fun i hi => ?_, h3⟩
  rw [h2 i hi, hY i hi, hZ i hi]
  exact subM_spec _ (by have := hmod.1 i hi; omega) Y Z

theorem C28_mul (size : ℕ) (basis : ℕ → ℕ) (A : Arr ℤ) (x sx y sy z sz : ℕ)
    (hx : InMem size A x sx) (hy : InMem size A y sy) (hz : InMem size A z sz)
    (hxy : SameOrApart size x sx y sy) (hxz : SameOrApart size x sx z sz) (Y Z : ℤ)
    (hY : Represents size basis A y sy Y) (hZ : Represents size basis A z sz Z) :
    Ok (ewise mulM size basis x sx y sy z sz A) (fun B => B.len = A.len ∧ Represents size basis B x sx (Y * Z) ∧
      ∀ c, (∀ i < size, c ≠ x + i * sx) → B.get c = A.get c) := by
  refine (ewise_spec mulM size basis x sx y sy z sz A hx.2 hy.2 hz.2 hx.1 (hxy.noClobber hx.1) (hxz.noClobber hx.1)).mono ?_
  rintro B ⟨h1, h2, h3⟩
  refine ⟨h1, fun i hi => ?_, h3⟩
  rw [h2 i hi, hY i hi, hZ i hi]
  exact mulM_spec _ Y Z

theorem C28_neg (size : ℕ) (basis : ℕ → ℕ) (hmod : Moduli size basis) (A : Arr ℤ) (x sx y sy : ℕ)
    (hx : InMem size A x sx) (hy : InMem size A y sy) (hxy : SameOrApart size x sx y sy) (Y : ℤ)
    (hY : Represents size basis A y sy Y) :
    Ok (negE size basis x sx y sy A) (fun B => B.len = A.len ∧ Represents size basis B x sx (-Y) ∧
      ∀ c, (∀ i < size, c ≠ x + i * sx) → B.get c = A.get c) := by
  refine (negE_spec size basis x sx y sy A hx.2 hy.2 hx.1 (hxy.noClobber hx.1)).mono ?_
  rintro B ⟨h1, h2, h3⟩
  refine ⟨h1, fun i hi => ?_, h3⟩
  rw [h2 i hi, hY i hi]
  exact negM_spec _ (by have := hmod.1 i hi; omega) Y

theorem C28_axpyin (size : ℕ) (basis : ℕ → ℕ) (A : Arr ℤ) (x sx y sy z sz : ℕ)
    (hx : InMem size A x sx) (hy : InMem size A y sy) (hz : InMem size A z sz)
    (hxy : SameOrApart size x sx y sy) (hxz : SameOrApart size x sx z sz) (X Y Z : ℤ)
    (hX : Represents size basis A x sx X) (hY : Represents size basis A y sy Y) (hZ : Represents size basis A z sz Z) :
    Ok (axpyin size basis x sx y sy z sz A) (fun B => B.len = A.len ∧ Represents size basis B x sx (X + Y * Z) ∧
      ∀ c, (∀ i < size, c ≠ x + i * sx) → B.get c = A.get c) := by
  refine (axpyin_spec size basis x sx y sy z sz A hx.2 hy.2 hz.2 hx.1 (hxy.noClobber hx.1) (hxz.noClobber hx.1)).mono ?_
  rintro B ⟨h1, h2, h3⟩
  refine ⟨h1, fun i hi => ?_, h3⟩
  rw [h2 i hi, hX i hi, hY i hi, hZ i hi, add_comm X]
  exact axpyM_spec _ X Y Z

/-- The memory seen from a pointer. -/
def fromPtr (A : Arr ℤ) (x : ℕ) : Arr ℤ := ⟨A.len - x, fun i => A.get (x + i)⟩

/-- C28: multiplying and accumulating in the RNS and converting back gives the integer `X + Y*Z` as soon as it lies in
the symmetric range. -/
theorem C28_axpy_then_convert (size : ℕ) (basis : ℕ → ℕ) (hmod : Moduli size basis) (hsize : 0 < size)
    (junkN : ℕ → ℕ) (junkZ junk : ℕ → ℤ) (sched : ℕ → ℕ → SumTree) (hsched : ∀ idx l, (sched idx l).Covers size)
    (hfit : ∑ t ∈ range size, ((basis t : ℤ) - 1) * (2 ^ 16 - 1) ≤ 2 ^ 53) (A : Arr ℤ) (x sx y sy z sz : ℕ)
    (hx : InMem size A x sx) (hy : InMem size A y sy) (hz : InMem size A z sz)
    (hxy : SameOrApart size x sx y sy) (hxz : SameOrApart size x sx z sz) (X Y Z : ℤ)
    (hX : Represents size basis A x sx X) (hY : Represents size basis A y sy Y) (hZ : Represents size basis A z sz Z)
    (hrange : 2 * |X + Y * Z| < ∏ i ∈ range size, (basis i : ℤ)) (dst : Arr ℤ) (hdst : 0 < dst.len) :
    Ok (do
        let B ← axpyin size basis x sx y sy z sz A
        let R ← precompute size basis junkN junkZ
        convert R false false 1 1 0 dst 1 (fromPtr B x) sx junk sched) (fun D => D.get 0 = X + Y * Z) := by
  rw [Ok_bind]
  refine (C28_axpyin size basis A x sx y sy z sz hx hy hz hxy hxz X Y Z hX hY hZ).mono ?_
  rintro B ⟨h1, h2, -⟩
  have h0 := hx.2 (size - 1) (by omega)
  refine (C27_convert size basis hmod junkN junkZ junk false false 1 1 0 dst 1 (fromPtr B x) sx sched hsched hfit (by simp)
    (fun i hi j hj => by omega) le_rfl ?_ (fun _ _ => X + Y * Z) (fun _ _ _ _ => hrange) ?_).mono ?_
  · unfold RnsFits fromPtr
    simp only [Bool.false_eq_true, if_false, h1]
    have := hx.1
    omega
  · intro t ht i hi j hj
    obtain rfl : i = 0 := by omega
    obtain rfl : j = 0 := by omega
    simpa [fromPtr, residueAt, entryIdx] using h2 t ht
  · rintro D ⟨-, h, -⟩
    simpa using h 0 (by omega) 0 (by omega)

/-- `-7 + 6*(-5) = -37` in the basis `3, 5, 7`, with interleaved elements of stride 3. -/
example : Ok (axpyin 3 (fun i => [3, 5, 7].getD i 0) 0 3 1 3 2 3 (Arr.ofList [2, 0, 1, 3, 1, 0, 0, 6, 2]))
    (fun B => Represents 3 (fun i => [3, 5, 7].getD i 0) B 0 3 (-37)) := by
  refine (C28_axpyin 3 _ _ 0 3 1 3 2 3 ⟨by norm_num, ?_⟩ ⟨by norm_num, ?_⟩ ⟨by norm_num, ?_⟩ ?_ ?_ (-7) 6 (-5) ?_ ?_ ?_).mono ?_
  · intro i hi; interval_cases i <;> decide
  · intro i hi; interval_cases i <;> decide
  · intro i hi; interval_cases i <;> decide
  · right; omega
  · right; omega
  · intro i hi; interval_cases i <;> decide
  · intro i hi; interval_cases i <;> decide
  · intro i hi; interval_cases i <;> decide
  · rintro B ⟨-, h, -⟩; exact h

/-! ## C47 -/

/-- C47: `RNSIntegerMod::reduce_modp` replaces the residues of every `X j` with `|X j| ≤ M/4` by the residues of some
`Y ≡ X j (mod p)` between `-p` and `p ∑ (m_i - 1)`, for every order of the floating-point summations; the rounded
quotient is always the exact one. -/
theorem C47_reduce_modp (size : ℕ) (basis : ℕ → ℕ) (hmod : Moduli size basis) (hsize : size < 2 ^ 20) (p : ℕ) (hp : 0 < p)
    (junkN : ℕ → ℕ) (junkZ junkT junk : ℕ → ℤ)
    (hfit : ∀ k < size, ∑ s ∈ range size, ((basis k : ℤ) - 1) * ((basis s : ℤ) - 1) + 2 * basis k < 2 ^ 53)
    (n : ℕ) (A : Arr ℤ) (rda : ℕ) (hrda : n ≤ rda) (hA : ∀ i < size, ∀ j < n, j + i * rda < A.len)
    (schedA : ℕ → ℕ → SumTree) (schedB : ℕ → SumTree) (hsA : ∀ k j, (schedA k j).Covers size)
    (hsB : ∀ j, (schedB j).Covers size) (X : ℕ → ℤ) (hX : ∀ j < n, 4 * |X j| ≤ ∏ i ∈ range size, (basis i : ℤ))
    (hres : ∀ j < n, Represents size basis A j rda (X j)) :
    Ok (do
        let R ← precompute size basis junkN junkZ
        let T ← modTables R p junkT
        reduceModp R T n A rda junk schedA schedB)
      (fun B => B.len = A.len ∧
        (∀ j < n, ∃ Y : ℤ, Y ≡ X j [ZMOD p] ∧ -(p : ℤ) < Y ∧ Y ≤ (p - 1) * ∑ i ∈ range size, ((basis i : ℤ) - 1) ∧
          Represents size basis B j rda Y) ∧
        ∀ c, (∀ i < size, ∀ j < n, c ≠ j + i * rda) → B.get c = A.get c) := by
  rw [Ok_bind]
  refine (precompute_spec size basis hmod.coprime' junkN junkZ).mono ?_
  intro R hR
  rw [Ok_bind]
  refine (modTables_spec R size basis hR p hp junkT).mono ?_
  intro T hT
  refine reduceModp_spec R size basis hmod.coprime' hR p hp T hT hsize hfit n A rda hrda hA junk schedA schedB hsA hsB X ?_ ?_
  · intro j hj; have := hX j hj; unfold prodM; push_cast; exact this
  · intro i hi j hj; exact hres j hj i hi

/-- The hypotheses are met: `X = 26` and `X = -20` modulo 2 in the basis `3, 5, 7`. -/
example : Ok (do
        let R ← precompute 3 (fun i => [3, 5, 7].getD i 0) (fun _ => 9) (fun _ => 9)
        let T ← modTables R 2 (fun _ => 9)
        reduceModp R T 2 (Arr.ofList [2, 1, 1, 0, 5, 1]) 2 (fun _ => 9) (fun _ _ => leftToRight 3) (fun _ => leftToRight 3))
      (fun B => ∃ Y : ℤ, Y ≡ 26 [ZMOD 2] ∧ -2 < Y ∧ Y ≤ 12 ∧ Represents 3 (fun i => [3, 5, 7].getD i 0) B 0 2 Y) := by
  refine (C47_reduce_modp 3 _ moduli_3_5_7 (by norm_num) 2 (by norm_num) _ _ _ _ ?_ 2 _ 2 le_rfl ?_ _ _
    (fun _ _ => leftToRight_covers 3) (fun _ => leftToRight_covers 3) (fun j => if j = 0 then 26 else -20) ?_ ?_).mono ?_
  · intro k hk; interval_cases k <;> decide
  · intro i hi j hj; interval_cases i <;> interval_cases j <;> decide
  · intro j hj; interval_cases j <;> decide
  · intro j hj i hi; interval_cases i <;> interval_cases j <;> decide
  · rintro B ⟨-, h, -⟩
    obtain ⟨Y, a, b, c, d⟩ := h 0 (by omega)
    refine ⟨Y, by simpa using a, by simpa using b, ?_, d⟩
    have : ∑ i ∈ range 3, (((fun i => [3, 5, 7].getD i 0) i : ℕ) - 1 : ℤ) = 12 := by decide
    rw [this] at c
    simpa using c

/-! ## C48 -/

/-- C48 for the constructor that takes a bound: whatever random primes are drawn, when it terminates the moduli are
distinct primes, their product is at least the bound (times `1 + ∑ m_i` for `rnsmod`), and the
precomputations succeed. -/
theorem C48_bound_constructor (cand : ℕ → ℕ) (hcand : ∀ i, (cand i).Prime) (bound : ℕ) (rnsmod : Bool) (inner fuel : ℕ)
    (b : Build) (h : buildBound cand bound rnsmod inner fuel ⟨[], 1, 1, 0⟩ = some b) (junkN : ℕ → ℕ) (junkZ : ℕ → ℤ) :
    Moduli b.basis.length (fun i => b.basis.getD i 0) ∧
    bound * (if rnsmod then 1 + b.basis.sum else 1) ≤ b.basis.prod ∧
    Ok (precompute b.basis.length (fun i => b.basis.getD i 0) junkN junkZ) (fun R => R.M = b.basis.prod) := by
  obtain ⟨⟨h1, h2, h3, h4⟩, h5⟩ := buildBound_spec cand hcand bound rnsmod inner fuel _ b
    (by refine ⟨by simp, by simp, by simp, by cases rnsmod <;> simp⟩) h
  have hc := coprime_list b.basis h1 h2
  refine ⟨⟨hc.two_le, hc.cop⟩, ?_, ?_⟩
  · rw [← h4, ← h3]; exact h5
  · refine (precompute_spec _ _ hc junkN junkZ).mono ?_
    intro R hR
    rw [hR.M_eq, prodM_list]

/-- Candidates `5, 5, 3, 5, 7, …` with bound 50: the repeated 5 are skipped. -/
example : ∃ b, buildBound (fun i => if i = 2 then 3 else if i = 4 then 7 else 5) 50 false 10 10 ⟨[], 1, 1, 0⟩ = some b ∧
    b.basis = [5, 3, 7] := ⟨_, rfl, rfl⟩

/-- C48 is violated by the constructor that takes a number of moduli: it may draw the same prime twice; then two
different integers of the symmetric range have the same residues, and the precomputation inverts zero. -/
theorem C48_size_constructor_violated (p : ℕ) (hp : p.Prime) (h3 : 3 ≤ p) (junkN : ℕ → ℕ) (junkZ : ℕ → ℤ) :
    let basis := fun i => (buildSize (fun _ => p) 2).getD i 0
    (∃ a b : ℤ, a ≠ b ∧ 2 * |a| < ∏ i ∈ range 2, (basis i : ℤ) ∧ 2 * |b| < ∏ i ∈ range 2, (basis i : ℤ) ∧
      ∀ i < 2, a % basis i = b % basis i) ∧
    precompute 2 basis junkN junkZ = .error .divZero := by
  intro basis
  have hb0 : basis 0 = p := rfl
  have hb1 : basis 1 = p := rfl
  have hpz : (3:ℤ) ≤ p := by exact_mod_cast h3
  refine ⟨⟨0, p, by omega, ?_, ?_, ?_⟩, ?_⟩
  · simp only [prod_range_succ, range_zero, prod_empty, hb0, hb1]; simp; omega
  · simp only [prod_range_succ, range_zero, prod_empty, hb0, hb1, one_mul]
    rw [abs_of_nonneg (by omega)]; nlinarith
  · intro i hi
    interval_cases i <;> simp [hb0, hb1]
  · have hM : prodM 2 basis = p * p := by simp [prodM, prod_range_succ, hb0, hb1]
    have hne : ¬ p = 0 := by omega
    have hmi : modInv (p % p) p = .error .divZero := by
      unfold modInv
      rw [if_neg (by simp; omega)]
    unfold precompute
    simp only [hM, iter, hb0, hb1, if_neg hne, bind, Except.bind, pure, Except.pure, Arr.wr, Arr.mk', Nat.mul_div_cancel p (by omega : 0 < p),
      Nat.zero_lt_succ, Nat.one_lt_two, if_true, Arr.rd, Function.update, hmi]
    rw [Nat.mod_self] at hmi
    simp [hmi]

/-- C48: the constructor with a bound never returns when the primes of the requested size do not suffice: with `pbits = 2`
the only candidate is 2 (`nextprime` of the only 1-bit number), and the bound 3 is never reached. -/
theorem C48_exhausted_primes_violated (rnsmod : Bool) (inner fuel : ℕ) :
    buildBound (fun _ => 2) 3 rnsmod inner fuel ⟨[], 1, 1, 0⟩ = none := by
  have hpick : ∀ f pos, pick (fun _ => 2) 2 f pos = none := by
    intro f
    induction f with
    | zero => intro pos; rfl
    | succ f ih => intro pos; rw [pick, if_pos (by norm_num)]; exact ih _
  cases fuel with
  | zero => simp [buildBound]
  | succ f =>
    rw [buildBound, if_pos (by norm_num)]
    cases inner with
    | zero => rfl
    | succ inner =>
      have : pick (fun _ => 2) 1 (inner + 1) 0 = some 0 := by rw [pick, if_neg (by norm_num)]
      simp only [this]
      cases f with
      | zero => cases rnsmod <;> simp [buildBound]
      | succ f =>
        rw [buildBound, if_pos (by cases rnsmod <;> simp)]
        simp [hpick]

end Verif.Props
