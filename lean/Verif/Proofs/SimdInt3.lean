import Verif.Proofs.SimdInt2
import Mathlib.Tactic.FinCases

/-!
# Proofs about the integer SIMD operations, end
-/

namespace Verif.SimdInt
open Intr

/-! ### `mulhi` on 32-bit lanes through 64-bit lanes -/

theorem as64_lo {k : ℕ} (v : Reg (2 * k) 32) (i : Fin k) :
    (as64 v i).toNat % 2 ^ 32 = (v ⟨2 * i, by omega⟩).toNat := by
  have h := (v ⟨2 * i, by omega⟩).isLt
  rw [as64, BitVec.toNat_append, Nat.shiftLeft_eq, Nat.or_comm,
    ← Nat.mul_comm (2 ^ 32), Nat.or_comm, ← Nat.two_pow_add_eq_or_of_lt h]
  omega

theorem as64_hi {k : ℕ} (v : Reg (2 * k) 32) (i : Fin k) :
    (as64 v i).toNat / 2 ^ 32 = (v ⟨2 * i + 1, by omega⟩).toNat := by
  have h := (v ⟨2 * i, by omega⟩).isLt
  rw [as64, BitVec.toNat_append, Nat.shiftLeft_eq,
    ← Nat.mul_comm (2 ^ 32), ← Nat.two_pow_add_eq_or_of_lt h]
  omega

theorem as32_even {k : ℕ} (v : Reg k 64) (i : Fin k) :
    (as32 v ⟨2 * i, by omega⟩).toNat = (v i).toNat % 2 ^ 32 := by
  have : (⟨2 * (i : ℕ) / 2, by omega⟩ : Fin k) = i := Fin.ext (by simp)
  unfold as32
  rw [if_pos (by simp)]
  simp only [this, BitVec.extractLsb'_toNat, Nat.shiftRight_zero]

theorem as32_odd {k : ℕ} (v : Reg k 64) (i : Fin k) :
    (as32 v ⟨2 * i + 1, by omega⟩).toNat = (v i).toNat / 2 ^ 32 := by
  have : (⟨(2 * (i : ℕ) + 1) / 2, by omega⟩ : Fin k) = i := Fin.ext (by simp; omega)
  have hlt := (v i).isLt
  unfold as32
  rw [if_neg (by simp)]
  simp only [this, BitVec.extractLsb'_toNat, Nat.shiftRight_eq_div_pow]
  omega

theorem smod_lane32 (x : BitVec 64) (y : BitVec 32) (h : x.toNat % 2 ^ 32 = y.toNat) :
    smod x.toInt 32 = y.toInt := by
  have h1 := smod_range x.toInt 31
  have h2 := toNat_emod x
  have h3 := toInt_range (by omega) y
  have h4 := toNat_emod y
  unfold smod at *
  omega

/-- The combination `C | (A1 << 32)` of the high halves. -/
theorem combine_hi (C A : BitVec 64) :
    ((C >>> 32) ||| ((A >>> 32) <<< 32)).toNat = (A.toNat / 2 ^ 32) * 2 ^ 32 + C.toNat / 2 ^ 32 := by
  have hC := C.isLt
  have hA := A.isLt
  rw [BitVec.toNat_or, BitVec.toNat_shiftLeft, BitVec.toNat_ushiftRight, BitVec.toNat_ushiftRight,
    Nat.shiftRight_eq_div_pow, Nat.shiftRight_eq_div_pow, Nat.shiftLeft_eq,
    Nat.mod_eq_of_lt (by omega), Nat.or_comm, mul_comm,
    ← Nat.two_pow_add_eq_or_of_lt (show C.toNat / 2 ^ 32 < 2 ^ 32 by omega)]

theorem hi_of_toInt (x : BitVec 64) (r : BitVec 32) (h : r.toNat = x.toNat / 2 ^ 32) :
    r.toInt = x.toInt / 2 ^ 32 := by
  have h1 := toInt_range (by omega) x
  have h2 := toNat_emod x
  apply toInt_of_range (by omega) (by omega)
  rw [h]; push_cast; omega

theorem srl32_toNat (x : BitVec 64) : (x >>> 32).toNat % 2 ^ 32 = x.toNat / 2 ^ 32 := by
  have := x.isLt
  rw [BitVec.toNat_ushiftRight, Nat.shiftRight_eq_div_pow]; omega

theorem mulhi32_spec {k : ℕ} (a b : Reg (2 * k) 32) (j : Fin (2 * k)) :
    (mulhi32 a b j).toInt = (a j).toInt * (b j).toInt / 2 ^ 32 := by
  obtain ⟨j, hj⟩ := j
  obtain ⟨i, rfl | rfl⟩ := Nat.even_or_odd' j
  · have hi : i < k := by omega
    have e := as32_even (vor (srli 32 (mulEpi32 (as64 a) (as64 b)))
      (slli 32 (srli 32 (mulEpi32 (srli 32 (as64 a)) (srli 32 (as64 b)))))) ⟨i, hi⟩
    have c := combine_hi (mulEpi32 (as64 a) (as64 b) ⟨i, hi⟩)
      (mulEpi32 (srli 32 (as64 a)) (srli 32 (as64 b)) ⟨i, hi⟩)
    have hlt := (mulEpi32 (as64 a) (as64 b) ⟨i, hi⟩).isLt
    have key : (mulhi32 a b ⟨2 * i, hj⟩).toNat
        = (mulEpi32 (as64 a) (as64 b) ⟨i, hi⟩).toNat / 2 ^ 32 := by
      refine e.trans ?_
      refine (congrArg (· % 2 ^ 32) c).trans ?_
      omega
    rw [hi_of_toInt _ _ key, mulEpi32_spec, smod_lane32 _ _ (as64_lo a ⟨i, hi⟩),
      smod_lane32 _ _ (as64_lo b ⟨i, hi⟩)]
  · have hi : i < k := by omega
    have e := as32_odd (vor (srli 32 (mulEpi32 (as64 a) (as64 b)))
      (slli 32 (srli 32 (mulEpi32 (srli 32 (as64 a)) (srli 32 (as64 b)))))) ⟨i, hi⟩
    have c := combine_hi (mulEpi32 (as64 a) (as64 b) ⟨i, hi⟩)
      (mulEpi32 (srli 32 (as64 a)) (srli 32 (as64 b)) ⟨i, hi⟩)
    have hlt := (mulEpi32 (as64 a) (as64 b) ⟨i, hi⟩).isLt
    have key : (mulhi32 a b ⟨2 * i + 1, hj⟩).toNat
        = (mulEpi32 (srli 32 (as64 a)) (srli 32 (as64 b)) ⟨i, hi⟩).toNat / 2 ^ 32 := by
      refine e.trans ?_
      refine (congrArg (· / 2 ^ 32) c).trans ?_
      omega
    rw [hi_of_toInt _ _ key, mulEpi32_spec,
      smod_lane32 (srli 32 (as64 a) ⟨i, hi⟩) _
        ((srl32_toNat (as64 a ⟨i, hi⟩)).trans (as64_hi a ⟨i, hi⟩)),
      smod_lane32 (srli 32 (as64 b) ⟨i, hi⟩) _
        ((srl32_toNat (as64 b ⟨i, hi⟩)).trans (as64_hi b ⟨i, hi⟩))]

theorem mulhiU32_spec {k : ℕ} (a b : Reg (2 * k) 32) (j : Fin (2 * k)) :
    (mulhiU32 a b j).toNat = (a j).toNat * (b j).toNat / 2 ^ 32 := by
  obtain ⟨j, hj⟩ := j
  obtain ⟨i, rfl | rfl⟩ := Nat.even_or_odd' j
  · have hi : i < k := by omega
    have e := as32_even (vor (srli 32 (mulEpu32 (as64 a) (as64 b)))
      (slli 32 (srli 32 (mulEpu32 (srli 32 (as64 a)) (srli 32 (as64 b)))))) ⟨i, hi⟩
    have c := combine_hi (mulEpu32 (as64 a) (as64 b) ⟨i, hi⟩)
      (mulEpu32 (srli 32 (as64 a)) (srli 32 (as64 b)) ⟨i, hi⟩)
    have hlt := (mulEpu32 (as64 a) (as64 b) ⟨i, hi⟩).isLt
    have key : (mulhiU32 a b ⟨2 * i, hj⟩).toNat
        = (mulEpu32 (as64 a) (as64 b) ⟨i, hi⟩).toNat / 2 ^ 32 := by
      refine e.trans ?_
      refine (congrArg (· % 2 ^ 32) c).trans ?_
      omega
    rw [key, mulEpu32_spec, as64_lo a ⟨i, hi⟩, as64_lo b ⟨i, hi⟩]
  · have hi : i < k := by omega
    have e := as32_odd (vor (srli 32 (mulEpu32 (as64 a) (as64 b)))
      (slli 32 (srli 32 (mulEpu32 (srli 32 (as64 a)) (srli 32 (as64 b)))))) ⟨i, hi⟩
    have c := combine_hi (mulEpu32 (as64 a) (as64 b) ⟨i, hi⟩)
      (mulEpu32 (srli 32 (as64 a)) (srli 32 (as64 b)) ⟨i, hi⟩)
    have hlt := (mulEpu32 (as64 a) (as64 b) ⟨i, hi⟩).isLt
    have key : (mulhiU32 a b ⟨2 * i + 1, hj⟩).toNat
        = (mulEpu32 (srli 32 (as64 a)) (srli 32 (as64 b)) ⟨i, hi⟩).toNat / 2 ^ 32 := by
      refine e.trans ?_
      refine (congrArg (· / 2 ^ 32) c).trans ?_
      omega
    have ea : (srli 32 (as64 a) ⟨i, hi⟩).toNat % 2 ^ 32 = (a ⟨2 * i + 1, hj⟩).toNat :=
      (srl32_toNat (as64 a ⟨i, hi⟩)).trans (as64_hi a ⟨i, hi⟩)
    have eb : (srli 32 (as64 b) ⟨i, hi⟩).toNat % 2 ^ 32 = (b ⟨2 * i + 1, hj⟩).toNat :=
      (srl32_toNat (as64 b ⟨i, hi⟩)).trans (as64_hi b ⟨i, hi⟩)
    rw [key, mulEpu32_spec, ea, eb]

/-- High half of one 64-bit product of two low lanes. -/
theorem mulEpi32_hi (a b : Reg 4 32) (i : Fin 2) :
    (as32 (k := 2) (mulEpi32 (as64 (k := 2) a) (as64 (k := 2) b)) ⟨2 * i + 1, by omega⟩).toInt
      = (a ⟨2 * i, by omega⟩).toInt * (b ⟨2 * i, by omega⟩).toInt / 2 ^ 32 := by
  rw [hi_of_toInt _ _ (as32_odd _ i), mulEpi32_spec, smod_lane32 _ _ (as64_lo (k := 2) a i),
    smod_lane32 _ _ (as64_lo (k := 2) b i)]

theorem mulEpu32_hi (a b : Reg 4 32) (i : Fin 2) :
    (as32 (k := 2) (mulEpu32 (as64 (k := 2) a) (as64 (k := 2) b)) ⟨2 * i + 1, by omega⟩).toNat
      = (a ⟨2 * i, by omega⟩).toNat * (b ⟨2 * i, by omega⟩).toNat / 2 ^ 32 := by
  rw [as32_odd _ i, mulEpu32_spec, as64_lo (k := 2) a i, as64_lo (k := 2) b i]

theorem mulhi32x_spec (a b : Reg 4 32) (j : Fin 4) :
    (mulhi32x a b j).toInt = (a j).toInt * (b j).toInt / 2 ^ 32 := by
  fin_cases j
  · exact mulEpi32_hi ![a 0, 0, a 2, 0] ![b 0, 0, b 2, 0] 0
  · exact mulEpi32_hi ![a 1, 0, a 3, 0] ![b 1, 0, b 3, 0] 0
  · exact mulEpi32_hi ![a 0, 0, a 2, 0] ![b 0, 0, b 2, 0] 1
  · exact mulEpi32_hi ![a 1, 0, a 3, 0] ![b 1, 0, b 3, 0] 1

theorem mulhiU32x_spec (a b : Reg 4 32) (j : Fin 4) :
    (mulhiU32x a b j).toNat = (a j).toNat * (b j).toNat / 2 ^ 32 := by
  fin_cases j
  · exact mulEpu32_hi ![a 0, 0, a 2, 0] ![b 0, 0, b 2, 0] 0
  · exact mulEpu32_hi ![a 1, 0, a 3, 0] ![b 1, 0, b 3, 0] 0
  · exact mulEpu32_hi ![a 0, 0, a 2, 0] ![b 0, 0, b 2, 0] 1
  · exact mulEpu32_hi ![a 1, 0, a 3, 0] ![b 1, 0, b 3, 0] 1

/-! ### Comparisons -/

theorem flip_toInt {w : ℕ} (hw : 0 < w) (x : BitVec w) :
    ((1#w <<< (w - 1)) ^^^ x).toInt = (x.toNat : ℤ) - 2 ^ (w - 1) := by
  have hx := x.isLt
  have hw2 : 2 ^ w = 2 ^ (w - 1) * 2 := by rw [← pow_succ]; congr 1; omega
  have hm : (1#w <<< (w - 1)).toNat = 2 ^ (w - 1) := by
    rw [BitVec.toNat_shiftLeft, Nat.shiftLeft_eq, BitVec.toNat_ofNat,
      Nat.mod_eq_of_lt (show 1 < 2 ^ w from Nat.one_lt_two_pow (by omega)), one_mul]
    exact Nat.mod_eq_of_lt (Nat.pow_lt_pow_right (by omega) (by omega))
  have hn : ((1#w <<< (w - 1)) ^^^ x).toNat
      = if x.toNat < 2 ^ (w - 1) then x.toNat + 2 ^ (w - 1) else x.toNat - 2 ^ (w - 1) := by
    rw [BitVec.toNat_xor, hm, Nat.xor_comm, xor_two_pow (by rw [show w - 1 + 1 = w by omega]; exact hx)]
  have hz : (2 : ℤ) ^ w = 2 ^ (w - 1) * 2 := by exact_mod_cast hw2
  have hq : ((2 ^ (w - 1) : ℕ) : ℤ) = 2 ^ (w - 1) := by push_cast; rfl
  rw [toInt_cases, hn, hz, hw2, ← hq]
  rw [hw2] at hx
  generalize 2 ^ (w - 1) = q at *
  split <;> split <;> omega

theorem greaterU_spec {k w : ℕ} (hw : 0 < w) (a b : Reg k w) (i : Fin k) :
    greaterU a b i = maskOf w ((b i).toNat < (a i).toNat) := by
  show (if ((1#w <<< (w - 1)) ^^^ b i).toInt < ((1#w <<< (w - 1)) ^^^ a i).toInt
    then BitVec.allOnes w else 0) = _
  rw [flip_toInt hw, flip_toInt hw]
  unfold maskOf
  congr 1
  simp only [eq_iff_iff]
  omega

theorem lesserU_spec {k w : ℕ} (hw : 0 < w) (a b : Reg k w) (i : Fin k) :
    lesserU a b i = maskOf w ((a i).toNat < (b i).toNat) := greaterU_spec hw b a i

theorem maskOf_or {w : ℕ} (P Q : Prop) [Decidable P] [Decidable Q] :
    maskOf w P ||| maskOf w Q = maskOf w (P ∨ Q) := by
  unfold maskOf
  by_cases hP : P <;> by_cases hQ : Q <;> simp [hP, hQ]

theorem maskOf_congr {w : ℕ} {P Q : Prop} [Decidable P] [Decidable Q] (h : P ↔ Q) :
    maskOf w P = maskOf w Q := by
  unfold maskOf; simp only [h]

theorem greaterEqU_spec {k w : ℕ} (hw : 0 < w) (a b : Reg k w) (i : Fin k) :
    greaterEqU a b i = maskOf w ((b i).toNat ≤ (a i).toNat) := by
  show greaterU a b i ||| maskOf w (a i = b i) = _
  rw [greaterU_spec hw, maskOf_or]
  apply maskOf_congr
  rw [← BitVec.toNat_inj]; omega

theorem lesserEqU_spec {k w : ℕ} (hw : 0 < w) (a b : Reg k w) (i : Fin k) :
    lesserEqU a b i = maskOf w ((a i).toNat ≤ (b i).toNat) := by
  show lesserU a b i ||| maskOf w (a i = b i) = _
  rw [lesserU_spec hw, maskOf_or]
  apply maskOf_congr
  rw [← BitVec.toNat_inj]; omega

theorem greaterEq_spec {k w : ℕ} (a b : Reg k w) (i : Fin k) :
    greaterEq a b i = maskOf w ((b i).toInt ≤ (a i).toInt) := by
  show maskOf w ((b i).toInt < (a i).toInt) ||| maskOf w (a i = b i) = _
  rw [maskOf_or]
  apply maskOf_congr
  rw [← BitVec.toInt_inj]; omega

theorem lesserEq_spec {k w : ℕ} (a b : Reg k w) (i : Fin k) :
    lesserEq a b i = maskOf w ((a i).toInt ≤ (b i).toInt) := by
  show maskOf w ((a i).toInt < (b i).toInt) ||| maskOf w (a i = b i) = _
  rw [maskOf_or]
  apply maskOf_congr
  rw [← BitVec.toInt_inj]; omega

theorem maskzExpand_set1 {k : ℕ} (m : Fin k → Bool) (i : Fin k) :
    maskzExpand m (set1 (0xFFFFFFFFFFFFFFFF : BitVec 64)) i = maskOf 64 (m i = true) := by
  unfold maskzExpand maskOf
  by_cases h : m i = true
  · rw [if_pos h, if_pos h]; rfl
  · rw [if_neg h, if_neg h]

theorem eq512_spec {k : ℕ} (a b : Reg k 64) (i : Fin k) :
    eq512 a b i = maskOf 64 (a i = b i) :=
  (maskzExpand_set1 _ i).trans (maskOf_congr (by simp [cmpeqMask]))

theorem greater512_spec {k : ℕ} (a b : Reg k 64) (i : Fin k) :
    greater512 a b i = maskOf 64 ((b i).toInt < (a i).toInt) :=
  (maskzExpand_set1 _ i).trans (maskOf_congr (by simp [cmpgtMask, BitVec.slt_iff_toInt_lt]))

theorem lesser512_spec {k : ℕ} (a b : Reg k 64) (i : Fin k) :
    lesser512 a b i = maskOf 64 ((a i).toInt < (b i).toInt) :=
  (maskzExpand_set1 _ i).trans (maskOf_congr (by simp [cmpgtMask, BitVec.slt_iff_toInt_lt]))

theorem greaterU512_spec {k : ℕ} (a b : Reg k 64) (i : Fin k) :
    greaterU512 a b i = maskOf 64 ((b i).toNat < (a i).toNat) :=
  (maskzExpand_set1 _ i).trans (maskOf_congr (by simp [cmpgtuMask, BitVec.ult_iff_lt, BitVec.lt_def]))

theorem lesserU512_spec {k : ℕ} (a b : Reg k 64) (i : Fin k) :
    lesserU512 a b i = maskOf 64 ((a i).toNat < (b i).toNat) :=
  (maskzExpand_set1 _ i).trans (maskOf_congr (by simp [cmpltuMask, BitVec.ult_iff_lt, BitVec.lt_def]))

theorem greaterEq512_spec {k : ℕ} (a b : Reg k 64) (i : Fin k) :
    greaterEq512 a b i = maskOf 64 ((b i).toInt ≤ (a i).toInt) := by
  show greater512 a b i ||| eq512 a b i = _
  rw [greater512_spec, eq512_spec, maskOf_or]
  apply maskOf_congr
  rw [← BitVec.toInt_inj]; omega

theorem lesserEq512_spec {k : ℕ} (a b : Reg k 64) (i : Fin k) :
    lesserEq512 a b i = maskOf 64 ((a i).toInt ≤ (b i).toInt) := by
  show lesser512 a b i ||| eq512 a b i = _
  rw [lesser512_spec, eq512_spec, maskOf_or]
  apply maskOf_congr
  rw [← BitVec.toInt_inj]; omega

theorem greaterEqU512_spec {k : ℕ} (a b : Reg k 64) (i : Fin k) :
    greaterEqU512 a b i = maskOf 64 ((b i).toNat ≤ (a i).toNat) := by
  show greaterU512 a b i ||| eq512 a b i = _
  rw [greaterU512_spec, eq512_spec, maskOf_or]
  apply maskOf_congr
  rw [← BitVec.toNat_inj]; omega

theorem lesserEqU512_spec {k : ℕ} (a b : Reg k 64) (i : Fin k) :
    lesserEqU512 a b i = maskOf 64 ((a i).toNat ≤ (b i).toNat) := by
  show lesserU512 a b i ||| eq512 a b i = _
  rw [lesserU512_spec, eq512_spec, maskOf_or]
  apply maskOf_congr
  rw [← BitVec.toNat_inj]; omega

/-! ### Blends and shuffles -/

theorem as64_as32 {k : ℕ} (v : Reg k 64) (i : Fin k) :
    as32 v ⟨2 * i + 1, by omega⟩ ++ as32 v ⟨2 * i, by omega⟩ = v i := by
  apply BitVec.eq_of_toNat_eq
  rw [BitVec.toNat_append, Nat.shiftLeft_eq, mul_comm,
    ← Nat.two_pow_add_eq_or_of_lt (BitVec.isLt _), as32_even, as32_odd]
  omega

theorem as16_even {k : ℕ} (v : Reg k 32) (i : Fin k) :
    (as16 v ⟨2 * i, by omega⟩).toNat = (v i).toNat % 2 ^ 16 := by
  have : (⟨2 * (i : ℕ) / 2, by omega⟩ : Fin k) = i := Fin.ext (by simp)
  unfold as16
  rw [if_pos (by simp)]
  simp only [this, BitVec.extractLsb'_toNat, Nat.shiftRight_zero]

theorem as16_odd {k : ℕ} (v : Reg k 32) (i : Fin k) :
    (as16 v ⟨2 * i + 1, by omega⟩).toNat = (v i).toNat / 2 ^ 16 := by
  have : (⟨(2 * (i : ℕ) + 1) / 2, by omega⟩ : Fin k) = i := Fin.ext (by simp; omega)
  have hlt := (v i).isLt
  unfold as16
  rw [if_neg (by simp)]
  simp only [this, BitVec.extractLsb'_toNat, Nat.shiftRight_eq_div_pow]
  omega

theorem from16_as16 {k : ℕ} (v : Reg k 32) (i : Fin k) :
    as16 v ⟨2 * i + 1, by omega⟩ ++ as16 v ⟨2 * i, by omega⟩ = v i := by
  apply BitVec.eq_of_toNat_eq
  rw [BitVec.toNat_append, Nat.shiftLeft_eq, mul_comm,
    ← Nat.two_pow_add_eq_or_of_lt (BitVec.isLt _), as16_even, as16_odd]
  omega

theorem blendImm4_bit : ∀ s < 16, ∀ i < 4, (blendImm4 s).testBit (2 * i) = s.testBit i ∧
    (blendImm4 s).testBit (2 * i + 1) = s.testBit i := by decide +kernel

theorem blendImm2_bit : ∀ s < 4, ∀ i < 2, (blendImm2 s).testBit (2 * i) = s.testBit i ∧
    (blendImm2 s).testBit (2 * i + 1) = s.testBit i := by decide +kernel

theorem blendImm2x_bit : ∀ s < 4, ∀ i < 2, (blendImm2x s).testBit (2 * (2 * i)) = s.testBit i ∧
    (blendImm2x s).testBit (2 * (2 * i) + 1) = s.testBit i ∧
    (blendImm2x s).testBit (2 * (2 * i + 1)) = s.testBit i ∧
    (blendImm2x s).testBit (2 * (2 * i + 1) + 1) = s.testBit i := by decide +kernel

theorem blend64_spec (s : ℕ) (hs : s < 16) (a b : Reg 4 64) (i : Fin 4) :
    blend64 s a b i = if s.testBit i then b i else a i := by
  obtain ⟨h0, h1⟩ := blendImm4_bit s hs i i.2
  have e : blend64 s a b i
      = (if (blendImm4 s).testBit (2 * i + 1) then as32 b ⟨2 * i + 1, by omega⟩
          else as32 a ⟨2 * i + 1, by omega⟩) ++
        (if (blendImm4 s).testBit (2 * i) then as32 b ⟨2 * i, by omega⟩
          else as32 a ⟨2 * i, by omega⟩) := rfl
  rw [e, h0, h1]
  split
  · exact as64_as32 b i
  · exact as64_as32 a i

theorem blend32_spec (s : ℕ) (hs : s < 16) (a b : Reg 4 32) (i : Fin 4) :
    blend32 s a b i = if s.testBit i then b i else a i := by
  obtain ⟨h0, h1⟩ := blendImm4_bit s hs i i.2
  have e : blend32 s a b i
      = (if (blendImm4 s).testBit (2 * i + 1) then as16 b ⟨2 * i + 1, by omega⟩
          else as16 a ⟨2 * i + 1, by omega⟩) ++
        (if (blendImm4 s).testBit (2 * i) then as16 b ⟨2 * i, by omega⟩
          else as16 a ⟨2 * i, by omega⟩) := rfl
  rw [e, h0, h1]
  split
  · exact from16_as16 b i
  · exact from16_as16 a i

theorem blend64x2_spec (s : ℕ) (hs : s < 4) (a b : Reg 2 64) (i : Fin 2) :
    blend64x2 s a b i = if s.testBit i then b i else a i := by
  obtain ⟨h0, h1⟩ := blendImm2_bit s hs i i.2
  have e : blend64x2 s a b i
      = (if (blendImm2 s).testBit (2 * i + 1) then as32 b ⟨2 * i + 1, by omega⟩
          else as32 a ⟨2 * i + 1, by omega⟩) ++
        (if (blendImm2 s).testBit (2 * i) then as32 b ⟨2 * i, by omega⟩
          else as32 a ⟨2 * i, by omega⟩) := rfl
  rw [e, h0, h1]
  split
  · exact as64_as32 b i
  · exact as64_as32 a i

theorem blend64x2x_spec (s : ℕ) (hs : s < 4) (a b : Reg 2 64) (i : Fin 2) :
    blend64x2x s a b i = if s.testBit i then b i else a i := by
  obtain ⟨h0, h1, h2, h3⟩ := blendImm2x_bit s hs i i.2
  have e : ∀ j : Fin 4, from16 (k := 4) (blend (blendImm2x s) (as16 (k := 4) (as32 a))
      (as16 (k := 4) (as32 b))) j
      = (if (blendImm2x s).testBit (2 * j + 1) then as16 (k := 4) (as32 b) ⟨2 * j + 1, by omega⟩
          else as16 (k := 4) (as32 a) ⟨2 * j + 1, by omega⟩) ++
        (if (blendImm2x s).testBit (2 * j) then as16 (k := 4) (as32 b) ⟨2 * j, by omega⟩
          else as16 (k := 4) (as32 a) ⟨2 * j, by omega⟩) := fun j => rfl
  unfold blend64x2x as64
  rw [e, e]
  simp only [h0, h1, h2, h3]
  split
  · have p := from16_as16 (k := 4) (as32 b) ⟨2 * i + 1, by omega⟩
    have q := from16_as16 (k := 4) (as32 b) ⟨2 * i, by omega⟩
    simp only at p q
    rw [p, q]; exact as64_as32 b i
  · have p := from16_as16 (k := 4) (as32 a) ⟨2 * i + 1, by omega⟩
    have q := from16_as16 (k := 4) (as32 a) ⟨2 * i, by omega⟩
    simp only at p q
    rw [p, q]; exact as64_as32 a i

theorem blend16_spec (s : ℕ) (hs : s < 2 ^ 16) (a b : Reg 16 16) (i : Fin 16) :
    blend16 s a b i = if s.testBit i then b i else a i := by
  have hlo : ∀ j, j < 8 → (s &&& 0xff).testBit j = s.testBit j := by
    intro j hj
    rw [show (0xff : ℕ) = 2 ^ 8 - 1 by norm_num, and_mask, Nat.testBit_mod_two_pow]
    simp [hj]
  have hhi : ∀ j, (s >>> 8).testBit j = s.testBit (8 + j) := fun j => by
    rw [Nat.testBit_shiftRight]
  unfold blend16
  split
  · rename_i h
    unfold blend256Epi16
    rw [hlo _ (Nat.mod_lt _ (by omega))]
    by_cases hi : (i : ℕ) < 8
    · rw [Nat.mod_eq_of_lt hi]
    · have h1 : s.testBit ((i : ℕ) % 8) = s.testBit i := by
        rw [← hlo _ (Nat.mod_lt _ (by omega)), h, hhi]
        congr 1; omega
      rw [h1]
  · unfold permute2x128_0x30 blend256Epi16
    by_cases hi : (i : ℕ) < 8
    · rw [if_pos hi, hlo _ (Nat.mod_lt _ (by omega)), Nat.mod_eq_of_lt hi]
    · rw [if_neg hi, hhi]
      have : 8 + (i : ℕ) % 8 = i := by omega
      rw [this]

theorem shuffleImm2_digit : ∀ s < 4, ∀ i < 2,
    (shuffleImm2 s >>> (2 * (2 * i))) % 4 = 2 * ((s >>> i) % 2) ∧
    (shuffleImm2 s >>> (2 * (2 * i + 1))) % 4 = 2 * ((s >>> i) % 2) + 1 := by decide +kernel

end Verif.SimdInt
