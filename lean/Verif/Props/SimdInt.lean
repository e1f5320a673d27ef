import Verif.Proofs.SimdInt4

/-!
# C109: integer operations on SIMD registers act lane by lane as documented
-/

namespace Verif.Props
open Verif.SimdInt Verif.SimdInt.Intr

/-- **C109, shifts.** The emulated `sra<s>` over `int64_t` divides every lane by `2^s`, rounding
towards minus infinity, for every shift `0 ≤ s ≤ 63` and every register. -/
theorem C109_sra {k : ℕ} (s : ℕ) (hs : s ≤ 63) (a : Reg k 64) (i : Fin k) :
    (sra64 s a i).toInt = (a i).toInt / 2 ^ s := sra64_spec s hs a i

example : (sra64 3 (![BitVec.ofInt 64 (-9), 9] : Reg 2 64) 0).toInt = -2 := by decide +kernel

/-- **C109, high products.** `mulhi` stores the floor of the product divided by `2^w`, for
`int64_t` and `uint64_t` (with or without 128-bit integers; no scalar operation overflows) and for
`int32_t` and `uint32_t` (both versions). -/
theorem C109_mulhi {k : ℕ} :
    (∀ (int128 : Bool) (a b : Reg k 64), ∃ r, mulhi64 int128 a b = some r ∧
      ∀ i, (r i).toInt = (a i).toInt * (b i).toInt / 2 ^ 64) ∧
    (∀ (int128 : Bool) (a b : Reg k 64) (i : Fin k),
      (mulhiU64 int128 a b i).toNat = (a i).toNat * (b i).toNat / 2 ^ 64) ∧
    (∀ (a b : Reg (2 * k) 32) (i : Fin (2 * k)),
      (mulhi32 a b i).toInt = (a i).toInt * (b i).toInt / 2 ^ 32) ∧
    (∀ (a b : Reg (2 * k) 32) (i : Fin (2 * k)),
      (SimdInt.mulhiU32 a b i).toNat = (a i).toNat * (b i).toNat / 2 ^ 32) ∧
    (∀ (a b : Reg 4 32) (i : Fin 4),
      (mulhi32x a b i).toInt = (a i).toInt * (b i).toInt / 2 ^ 32) ∧
    (∀ (a b : Reg 4 32) (i : Fin 4),
      (mulhiU32x a b i).toNat = (a i).toNat * (b i).toNat / 2 ^ 32) := by
  refine ⟨fun int128 a b => ?_, fun int128 a b i => ?_, mulhi32_spec, mulhiU32_spec,
    mulhi32x_spec, mulhiU32x_spec⟩
  · refine lanes_spec (P := fun x y r => r.toInt = x.toInt * y.toInt / 2 ^ 64) a b fun i => ?_
    cases int128
    · exact mulhi64_32_spec _ _
    · exact mulhi64_128_spec _ _
  · cases int128
    · exact mulhiU64_32_spec _ _
    · exact mulhiU64_128_spec _ _

example : (mulhi64 false (![BitVec.ofInt 64 (-(2 ^ 63)), BitVec.ofInt 64 (-1)] : Reg 2 64)
    ![BitVec.ofInt 64 (2 ^ 63 - 1), 5]).map (fun r => ((r 0).toInt, (r 1).toInt))
    = some (-(2 ^ 62), -1) := by decide +kernel

example : ((mulhi32 (k := 2) ![BitVec.ofInt 32 (-(2 ^ 31)), 3, BitVec.ofInt 32 (-7), 2 ^ 30]
    ![BitVec.ofInt 32 (-(2 ^ 31)), 5, 1, 2 ^ 30]) 0).toInt = 2 ^ 30 := by decide +kernel

/-- **C109, short products.** `mulx` multiplies the low halves of the lanes exactly: their signed
values over the signed types, their unsigned values over the unsigned types. -/
theorem C109_mulx {k : ℕ} :
    (∀ (a b : Reg k 16) (i : Fin k),
      (mulx16 a b i).toInt = smod (a i).toInt 8 * smod (b i).toInt 8) ∧
    (∀ (a b : Reg k 32) (i : Fin k),
      (mulx32 a b i).toInt = smod (a i).toInt 16 * smod (b i).toInt 16) ∧
    (∀ (a b : Reg k 64) (i : Fin k),
      (mulx64 a b i).toInt = smod (a i).toInt 32 * smod (b i).toInt 32) ∧
    (∀ (a b : Reg k 16) (i : Fin k),
      (mulxU16 a b i).toNat = ((a i).toNat % 2 ^ 8) * ((b i).toNat % 2 ^ 8)) ∧
    (∀ (a b : Reg k 32) (i : Fin k),
      (mulxU32 a b i).toNat = ((a i).toNat % 2 ^ 16) * ((b i).toNat % 2 ^ 16)) ∧
    (∀ (a b : Reg k 64) (i : Fin k),
      (mulxU64 a b i).toNat = ((a i).toNat % 2 ^ 32) * ((b i).toNat % 2 ^ 32)) :=
  ⟨mulx16_spec, mulx32_spec, mulEpi32_spec, mulxU16_spec, mulxU32_spec, mulEpu32_spec⟩

example : (mulx16 (![0x7F80#16, 0x1234#16] : Reg 2 16) ![0x0080#16, 0x00FF#16] 0).toInt = 2 ^ 14 := by
  decide +kernel

/-- **C109, products with a sum.** `fmaddx`, `fnmaddx` and `fmsubx` add to or subtract from the
exact short product, modulo `2^w`; here over `int32_t`, the other types likewise. -/
theorem C109_fmaddx {k : ℕ} (c a b : Reg k 32) (i : Fin k) :
    (fmaddx mulx32 c a b i).toInt
      = smod (smod (a i).toInt 16 * smod (b i).toInt 16 + (c i).toInt) 32 ∧
    (fnmaddx mulx32 c a b i).toInt
      = smod (-(smod (a i).toInt 16 * smod (b i).toInt 16) + (c i).toInt) 32 ∧
    (fmsubx mulx32 c a b i).toInt
      = smod (smod (a i).toInt 16 * smod (b i).toInt 16 - (c i).toInt) 32 := by
  refine ⟨?_, ?_, ?_⟩
  · refine smod_eq_of_emod (by omega) _ _ ((emod_add_toNat _ _).trans ?_)
    rw [mulx32_spec, add_comm]
  · refine smod_eq_of_emod (by omega) _ _ ((emod_sub_toNat _ _).trans ?_)
    rw [mulx32_spec, neg_add_eq_sub]
  · refine smod_eq_of_emod (by omega) _ _ ((emod_sub_toNat _ _).trans ?_)
    rw [mulx32_spec]

example : (fnmaddx mulx32 (![BitVec.ofInt 32 5] : Reg 1 32) ![0x00018000#32] ![3] 0).toInt
    = 98309 := by decide +kernel

/-- **C109, comparisons.** The comparisons return all ones in the lanes where they hold and zero
elsewhere.  The unsigned ones flip the sign bit and compare signed numbers. -/
theorem C109_compare {k w : ℕ} (hw : 0 < w) (a b : Reg k w) (i : Fin k) :
    greaterU a b i = maskOf w ((b i).toNat < (a i).toNat) ∧
    lesserU a b i = maskOf w ((a i).toNat < (b i).toNat) ∧
    greaterEqU a b i = maskOf w ((b i).toNat ≤ (a i).toNat) ∧
    lesserEqU a b i = maskOf w ((a i).toNat ≤ (b i).toNat) ∧
    greaterEq a b i = maskOf w ((b i).toInt ≤ (a i).toInt) ∧
    lesserEq a b i = maskOf w ((a i).toInt ≤ (b i).toInt) :=
  ⟨greaterU_spec hw a b i, lesserU_spec hw a b i, greaterEqU_spec hw a b i,
    lesserEqU_spec hw a b i, greaterEq_spec a b i, lesserEq_spec a b i⟩

example : greaterU (![0xFFFF#16, 3] : Reg 2 16) ![1, 5] = ![0xFFFF#16, 0] := by decide +kernel

/-- **C109, comparisons of 512-bit registers**, made of a mask and an expansion. -/
theorem C109_compare512 {k : ℕ} (a b : Reg k 64) (i : Fin k) :
    eq512 a b i = maskOf 64 (a i = b i) ∧
    greater512 a b i = maskOf 64 ((b i).toInt < (a i).toInt) ∧
    lesser512 a b i = maskOf 64 ((a i).toInt < (b i).toInt) ∧
    greaterEq512 a b i = maskOf 64 ((b i).toInt ≤ (a i).toInt) ∧
    lesserEq512 a b i = maskOf 64 ((a i).toInt ≤ (b i).toInt) ∧
    greaterU512 a b i = maskOf 64 ((b i).toNat < (a i).toNat) ∧
    lesserU512 a b i = maskOf 64 ((a i).toNat < (b i).toNat) ∧
    greaterEqU512 a b i = maskOf 64 ((b i).toNat ≤ (a i).toNat) ∧
    lesserEqU512 a b i = maskOf 64 ((a i).toNat ≤ (b i).toNat) :=
  ⟨eq512_spec a b i, greater512_spec a b i, lesser512_spec a b i, greaterEq512_spec a b i,
    lesserEq512_spec a b i, greaterU512_spec a b i, lesserU512_spec a b i,
    greaterEqU512_spec a b i, lesserEqU512_spec a b i⟩

example : lesserU512 (![1, BitVec.allOnes 64, 2] : Reg 3 64) ![2, 3, 7]
    = ![BitVec.allOnes 64, 0, BitVec.allOnes 64] := by decide +kernel

/-- **C109, blends.** Every emulated `blend<s>` takes the lanes of the second operand whose bit is
set in `s` and the other lanes from the first operand.  (The comments of the files say the
opposite: see the list of defects.) -/
theorem C109_blend :
    (∀ s < 16, ∀ (a b : Reg 4 64) (i : Fin 4),
      blend64 s a b i = if s.testBit i then b i else a i) ∧
    (∀ s < 16, ∀ (a b : Reg 4 32) (i : Fin 4),
      blend32 s a b i = if s.testBit i then b i else a i) ∧
    (∀ s < 4, ∀ (a b : Reg 2 64) (i : Fin 2),
      blend64x2 s a b i = if s.testBit i then b i else a i) ∧
    (∀ s < 4, ∀ (a b : Reg 2 64) (i : Fin 2),
      blend64x2x s a b i = if s.testBit i then b i else a i) ∧
    (∀ s < 2 ^ 16, ∀ (a b : Reg 16 16) (i : Fin 16),
      blend16 s a b i = if s.testBit i then b i else a i) :=
  ⟨blend64_spec, blend32_spec, blend64x2_spec, blend64x2x_spec, blend16_spec⟩

/-- The comment of `blend` promises the lanes of `a` where the bit is set: not so. -/
theorem C109_blend_comment_violated :
    ¬ ∀ s < 16, ∀ (a b : Reg 4 64) (i : Fin 4),
      blend64 s a b i = if s.testBit i then a i else b i := by
  intro h
  have := h 1 (by omega) ![1, 1, 1, 1] ![2, 2, 2, 2] 0
  revert this
  decide +kernel

/-- **C109, shuffles.** `shuffle<s>` of `Simd128<int64_t>` puts lane `s[i]` of its argument in
lane `i`. -/
theorem C109_shuffle (s : ℕ) (hs : s < 4) (a : Reg 2 64) (i : Fin 2) :
    shuffle64x2 s a i = a ⟨(s >>> (i : ℕ)) % 2, Nat.mod_lt _ (by omega)⟩ :=
  shuffle64x2_spec s hs a i

example : shuffle64x2 1 ![7, 9] = ![9, 7] := by decide +kernel

/-- The documented emulated shuffle: lane `i` is the lane of `a` given by bits `4i` to `4i+3`. -/
def shuffleWanted {k w : ℕ} (s : ℕ) (a r : Reg k w) : Prop :=
  ∀ i : Fin k, ∃ h : (s >>> (4 * (i : ℕ))) % 16 < k, r i = a ⟨(s >>> (4 * (i : ℕ))) % 16, h⟩

/-- The emulated `shuffle<s>` of `Simd128<int16_t>`, `Simd256<int32_t>` and `Simd256<int16_t>` does
not shift the mask of the odd lanes: already the identity `0x76543210` on eight lanes reads far
outside the register. -/
theorem C109_shuffle_emulated_violated :
    (∃ r, shuffleWanted 0x76543210 (fun i => BitVec.ofNat 16 i : Reg 8 16) r) ∧
    shuffleEmu 0x76543210 (fun i => BitVec.ofNat 16 i : Reg 8 16) = none := by
  refine ⟨⟨fun i => BitVec.ofNat 16 i, ?_⟩, ?_⟩
  · unfold shuffleWanted; decide +kernel
  · decide +kernel

/-- What remains: when all odd digits of `s` are zero and the even ones are indices of lanes, the
emulated shuffle is the documented one. -/
theorem C109_shuffle_emulated_partial {k w : ℕ} (s : ℕ) (a : Reg k w)
    (h0 : ∀ i : Fin k, (i : ℕ) % 2 = 1 → (s >>> (4 * (i : ℕ))) % 16 = 0)
    (h1 : ∀ i : Fin k, (s >>> (4 * (i : ℕ))) % 16 < k) :
    ∃ r, shuffleEmu s a = some r ∧ shuffleWanted s a r := by
  have key : ∀ i : Fin k, shuffleIdx s i = (s >>> (4 * (i : ℕ))) % 16 := by
    intro i
    unfold shuffleIdx
    split
    · rw [show (0x0F : ℕ) = 2 ^ 4 - 1 by norm_num, Nat.and_two_pow_sub_one_eq_mod]
      congr 2; omega
    · have hz := h0 i (by omega)
      rw [hz]
      apply Nat.eq_of_testBit_eq
      intro j
      rw [Nat.testBit_and, Nat.zero_testBit]
      by_cases hj : j < 8
      · by_cases h4 : j < 4
        · have : Nat.testBit 0xF0 j = false := by interval_cases j <;> rfl
          rw [this, Bool.and_false]
        · have h2 : (s >>> (4 * (i : ℕ)) % 2 ^ 4).testBit (j - 4) = false := by
            rw [show (2 ^ 4 : ℕ) = 16 by norm_num, hz, Nat.zero_testBit]
          rw [Nat.testBit_mod_two_pow, Nat.testBit_shiftRight] at h2
          have h3 : decide (j - 4 < 4) = true := by simp; omega
          rw [h3, Bool.true_and] at h2
          rw [Nat.testBit_shiftRight, show 8 * ((i : ℕ) / 2) + j = 4 * (i : ℕ) + (j - 4) by omega, h2,
            Bool.false_and]
      · have : Nat.testBit 0xF0 j = false :=
          Nat.testBit_lt_two_pow (lt_of_lt_of_le (by norm_num : 0xF0 < 2 ^ 8)
            (Nat.pow_le_pow_right (by omega) (by omega)))
        rw [this, Bool.and_false]
  have hlt : ∀ i : Fin k, shuffleIdx s i < k := fun i => by rw [key]; exact h1 i
  refine ⟨_, dif_pos hlt, fun i => ⟨h1 i, ?_⟩⟩
  have : (⟨shuffleIdx s i, hlt i⟩ : Fin k) = ⟨(s >>> (4 * (i : ℕ))) % 16, h1 i⟩ := Fin.ext (key i)
  show a ⟨shuffleIdx s i, hlt i⟩ = _
  rw [this]

example : (shuffleEmu 0x04030702 (fun i => BitVec.ofNat 16 i : Reg 8 16)).isSome = true := by
  decide +kernel

/-- The comment of `mullo` over `int64_t` promises the product modulo `2^64`; without AVX512DQ it
multiplies `int64_t` scalars, and this overflows (undefined behaviour).  The unsigned class
inherits `mul` (and `fmadd`, `fnmadd`, `fmsub`) from the signed one. -/
theorem C109_mullo_violated : mullo64 (![2 ^ 32, 1] : Reg 2 64) ![2 ^ 32, 1] = none := by
  decide +kernel

/-- What remains: if no lane overflows, `mullo` over `int64_t` is exact. -/
theorem C109_mullo_partial {k : ℕ} (a b : Reg k 64)
    (h : ∀ i, -(2 ^ 63 : ℤ) ≤ (a i).toInt * (b i).toInt ∧ (a i).toInt * (b i).toInt < 2 ^ 63) :
    ∃ r, mullo64 a b = some r ∧ ∀ i, (r i).toInt = (a i).toInt * (b i).toInt := by
  refine lanes_spec (P := fun x y r => r.toInt = x.toInt * y.toInt) a b fun i => ?_
  have := h i
  exact smul_some rfl rfl (by omega) (by omega)

example : (mullo64 (![2 ^ 31, BitVec.ofInt 64 (-3)] : Reg 2 64) ![2 ^ 31, 5]).map
    (fun r => ((r 0).toInt, (r 1).toInt)) = some (2 ^ 62, -15) := by decide +kernel

/-- `hadd_to_scal` over `int32_t` and `int64_t` returns the sum of the lanes if no partial sum
from left to right overflows (otherwise: undefined behaviour). -/
theorem C109_hadd_partial {k w : ℕ} (a : Reg (k + 1) w)
    (h : ∀ n ≤ k, -(2 ^ w : ℤ) ≤ 2 * (∑ i : Fin (k + 1), if (i : ℕ) ≤ n then (a i).toInt else 0) ∧
      2 * (∑ i : Fin (k + 1), if (i : ℕ) ≤ n then (a i).toInt else 0) < 2 ^ w) :
    ∃ r, hadd a = some r ∧ r.toInt = ∑ i, (a i).toInt := by
  have hsum : ∀ n ≤ k, (a 0).toInt
      + (((List.ofFn fun i : Fin k => a i.succ).take n).map BitVec.toInt).sum
      = (∑ i : Fin (k + 1), if (i : ℕ) ≤ n then (a i).toInt else 0) := by
    intro n hn
    rw [List.map_take, List.map_ofFn, Fin.sum_univ_succ]
    simp only [Fin.val_zero, Nat.zero_le, if_true, Fin.val_succ]
    congr 1
    rw [List.sum_take_ofFn, Finset.sum_filter]
    apply Finset.sum_congr rfl
    intro j _
    simp only [Function.comp, Nat.lt_iff_add_one_le]
  obtain ⟨r, hr, vr⟩ := foldlM_sadd (List.ofFn fun i : Fin k => a i.succ) (a 0) (by
    intro n hn
    rw [List.length_ofFn] at hn
    rw [hsum n hn]; exact h n hn)
  refine ⟨r, hr, ?_⟩
  rw [vr, List.map_ofFn, List.sum_ofFn, Fin.sum_univ_succ]
  rfl

example : (hadd (![1, 2, BitVec.ofInt 32 (-7), 2] : Reg 4 32)).map BitVec.toInt = some (-2) := by
  decide +kernel
example : hadd (![2 ^ 31 - 1, 1, BitVec.ofInt 32 (-7), 2] : Reg 4 32) = none := by decide +kernel

/-- `mulhi_fast_64` without 128-bit integers is the high product minus 0, 1 or 2, and never
overflows. -/
theorem C109_mulhi_fast_64 (x y : BitVec 64) :
    ∃ r, mulhiFast64_32 x y = some r ∧ r.toInt ≤ x.toInt * y.toInt / 2 ^ 64 ∧
      x.toInt * y.toInt / 2 ^ 64 ≤ r.toInt + 2 := mulhiFast64_32_spec x y

example : (mulhiFast64_32 (BitVec.ofInt 64 (2 ^ 33 - 1)) (BitVec.ofInt 64 (2 ^ 33 - 1))).map
    BitVec.toInt = some 1 := by decide +kernel

/-- `mulhi_fast` over `int64_t` ("may be off by 1 multiple") is wrong by 2^34 for `2^33 * 2^33`, two
small non-negative numbers: `signbits` shifts by 31 instead of 63. -/
theorem C109_mulhi_fast_violated :
    let x : Reg 2 64 := ![2 ^ 33, 1]
    (x 0).toInt * (x 0).toInt / 2 ^ 64 = 4 ∧ (mulhiFast x x 0).toInt = 4 - 2 ^ 34 := by
  decide +kernel

/-- What remains of `mulhi_fast`: the unsigned part is the unsigned high product or one less, and
the whole function is right to within one when both operands are in `[0, 2^31)`. -/
theorem C109_mulhi_fast_partial {k : ℕ} (x y : Reg k 64) (i : Fin k) :
    ((mulhiFastU x y i).toNat = (x i).toNat * (y i).toNat / 2 ^ 64 ∨
      (mulhiFastU x y i).toNat + 1 = (x i).toNat * (y i).toNat / 2 ^ 64) ∧
    ((x i).toNat < 2 ^ 31 → (y i).toNat < 2 ^ 31 → mulhiFast x y i = mulhiFastU x y i) := by
  refine ⟨mulhiFastU_spec x y i, fun hx hy => ?_⟩
  show mulhiFastU x y i - (signbits x i &&& y i) - (signbits y i &&& x i) = _
  rw [signbits_small x i hx, signbits_small y i hy]
  simp

example : (mulhiFastU (![BitVec.allOnes 64] : Reg 1 64) ![BitVec.allOnes 64] 0).toNat
    = 2 ^ 64 - 3 := by decide +kernel

end Verif.Props
