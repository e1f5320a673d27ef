import Verif.Proofs.SimdInt

/-!
# Proofs about the integer SIMD operations, continued
-/

namespace Verif.SimdInt
open Intr

theorem natMulBound {a b A B : ℕ} (ha : a ≤ A) (hb : b ≤ B) : a * b ≤ A * B := Nat.mul_le_mul ha hb

theorem mulhiU64_128_spec (x y : BitVec 64) :
    (mulhiU64_128 x y).toNat = x.toNat * y.toNat / 2 ^ 64 := by
  have hx := x.isLt
  have hy := y.isLt
  have h : x.toNat * y.toNat ≤ (2 ^ 64 - 1) * (2 ^ 64 - 1) := natMulBound (by omega) (by omega)
  rw [mulhiU64_128, BitVec.toNat_setWidth, BitVec.toNat_ushiftRight, BitVec.toNat_mul,
    BitVec.toNat_setWidth, BitVec.toNat_setWidth, Nat.shiftRight_eq_div_pow,
    Nat.mod_eq_of_lt (show x.toNat < 2 ^ 128 by omega),
    Nat.mod_eq_of_lt (show y.toNat < 2 ^ 128 by omega)]
  generalize x.toNat * y.toNat = z at *
  omega

theorem toNat_and32 (x : BitVec 64) : (x &&& 0xFFFFFFFF#64).toNat = x.toNat % 2 ^ 32 := by
  rw [BitVec.toNat_and, show (0xFFFFFFFF#64).toNat = 2 ^ 32 - 1 by rfl, and_mask]

theorem mulhiU64_32_spec (x y : BitVec 64) :
    (mulhiU64_32 x y).toNat = x.toNat * y.toNat / 2 ^ 64 := by
  have hx := x.isLt
  have hy := y.isLt
  simp only [mulhiU64_32, BitVec.toNat_add, BitVec.toNat_mul, BitVec.toNat_ushiftRight, toNat_and32,
    Nat.shiftRight_eq_div_pow]
  obtain ⟨X1, dX1⟩ : ∃ X1, x.toNat / 2 ^ 32 = X1 := ⟨_, rfl⟩
  obtain ⟨Y1, dY1⟩ : ∃ Y1, y.toNat / 2 ^ 32 = Y1 := ⟨_, rfl⟩
  obtain ⟨X0, dX0⟩ : ∃ X0, x.toNat % 2 ^ 32 = X0 := ⟨_, rfl⟩
  obtain ⟨Y0, dY0⟩ : ∃ Y0, y.toNat % 2 ^ 32 = Y0 := ⟨_, rfl⟩
  have eX : x.toNat = X1 * 2 ^ 32 + X0 := by omega
  have eY : y.toNat = Y1 * 2 ^ 32 + Y0 := by omega
  rw [dX1, dY1, dX0, dY0]
  have exy : x.toNat * y.toNat = X1 * Y1 * 2 ^ 64 + (X1 * Y0 + X0 * Y1) * 2 ^ 32 + X0 * Y0 := by
    rw [eX, eY]; ring
  rw [exy]
  have h1 : X1 * Y1 ≤ (2 ^ 32 - 1) * (2 ^ 32 - 1) := natMulBound (by omega) (by omega)
  have h2 : X1 * Y0 ≤ (2 ^ 32 - 1) * (2 ^ 32 - 1) := natMulBound (by omega) (by omega)
  have h3 : X0 * Y1 ≤ (2 ^ 32 - 1) * (2 ^ 32 - 1) := natMulBound (by omega) (by omega)
  have h4 : X0 * Y0 ≤ (2 ^ 32 - 1) * (2 ^ 32 - 1) := natMulBound (by omega) (by omega)
  generalize X1 * Y0 = P at *
  generalize X0 * Y1 = Q at *
  generalize X0 * Y0 = R at *
  generalize X1 * Y1 = S at *
  omega

theorem lanes_spec {k w : ℕ} {f : BitVec w → BitVec w → Option (BitVec w)}
    {P : BitVec w → BitVec w → BitVec w → Prop} (a b : Reg k w)
    (h : ∀ i, ∃ r, f (a i) (b i) = some r ∧ P (a i) (b i) r) :
    ∃ r, lanes f a b = some r ∧ ∀ i, P (a i) (b i) (r i) := by
  have hs : ∀ i, (f (a i) (b i)).isSome := by
    intro i
    obtain ⟨r, hr, _⟩ := h i
    rw [hr]; rfl
  refine ⟨fun i => (f (a i) (b i)).get (hs i), dif_pos hs, fun i => ?_⟩
  obtain ⟨r, hr, hp⟩ := h i
  have : (f (a i) (b i)).get (hs i) = r := by simp [hr]
  exact (congrArg (P (a i) (b i)) this).mpr hp

theorem toNat_one_shl {n : ℕ} (hn : n ≤ 63) : (1#64 <<< n).toNat = 2 ^ n := by
  rw [BitVec.toNat_shiftLeft, Nat.shiftLeft_eq, show (1#64).toNat = 1 from rfl, one_mul]
  exact Nat.mod_eq_of_lt (Nat.pow_lt_pow_right (by omega) (by omega))

/-- The emulated arithmetic shift. -/
theorem sra64_spec {k : ℕ} (s : ℕ) (hs : s ≤ 63) (a : Reg k 64) (i : Fin k) :
    (sra64 s a i).toInt = (a i).toInt / 2 ^ s := by
  have ha := (a i).isLt
  have h64 : 2 ^ (63 - s) * 2 ^ s = 2 ^ 63 := by rw [← pow_add]; congr 1; omega
  have hx : (a i).toNat / 2 ^ s < 2 ^ (63 - s + 1) := by
    rw [Nat.div_lt_iff_lt_mul (by positivity), pow_succ, mul_right_comm, h64]; omega
  have hm := toNat_one_shl (n := 63 - s) (by omega)
  have hpow : 2 ^ (63 - s) ≤ 2 ^ 63 := Nat.pow_le_pow_right (by omega) (by omega)
  have hx' : ((a i >>> s) ^^^ (1#64 <<< (63 - s))).toNat
      = (if (a i).toNat / 2 ^ s < 2 ^ (63 - s) then (a i).toNat / 2 ^ s + 2 ^ (63 - s)
          else (a i).toNat / 2 ^ s - 2 ^ (63 - s)) := by
    rw [BitVec.toNat_xor, hm, BitVec.toNat_ushiftRight, Nat.shiftRight_eq_div_pow, xor_two_pow hx]
  have hc : (a i).toNat / 2 ^ s < 2 ^ (63 - s) ↔ (a i).toNat < 2 ^ 63 := by
    rw [Nat.div_lt_iff_lt_mul (by positivity), h64]
  have hpz : (0 : ℤ) < 2 ^ s := by positivity
  have hd : (((a i).toNat / 2 ^ s : ℕ) : ℤ) = ((a i).toNat : ℤ) / 2 ^ s := by push_cast; rfl
  have e64 : (2 ^ 64 : ℤ) = 2 * ((2 ^ (63 - s) : ℕ) : ℤ) * 2 ^ s := by
    push_cast
    rw [mul_assoc, ← pow_add, ← pow_succ', show 63 - s + s + 1 = 64 by omega]; norm_num
  have hsub : (sra64 s a i).toNat
      = (2 ^ 64 - 2 ^ (63 - s) + ((a i >>> s) ^^^ (1#64 <<< (63 - s))).toNat) % 2 ^ 64 := by
    show (((a i >>> s) ^^^ (1#64 <<< (63 - s))) - (1#64 <<< (63 - s))).toNat = _
    rw [BitVec.toNat_sub, hm]
  have hval : (a i).toInt / 2 ^ s
      = if (a i).toNat < 2 ^ 63 then (((a i).toNat / 2 ^ s : ℕ) : ℤ)
        else (((a i).toNat / 2 ^ s : ℕ) : ℤ) - 2 * ((2 ^ (63 - s) : ℕ) : ℤ) := by
    rw [toInt_cases]
    by_cases h : (a i).toNat < 2 ^ 63
    · rw [if_pos (by omega), if_pos h, hd]
    · rw [if_neg (by omega), if_neg h, hd, e64, sub_eq_add_neg, ← neg_mul,
        Int.add_mul_ediv_right _ _ hpz.ne', sub_eq_add_neg]
  rw [hx'] at hsub
  rw [pow_succ] at hx
  rw [hval]
  clear hval e64 hd hpz hx' hm h64
  generalize (a i).toNat / 2 ^ s = z at *
  generalize 2 ^ (63 - s) = q at *
  simp only [hc] at hsub
  by_cases h : (a i).toNat < 2 ^ 63
  · have h2 := hc.2 h
    rw [if_pos h] at hsub ⊢
    apply toInt_of_range <;> omega
  · have h2 : ¬ z < q := fun h' => h (hc.1 h')
    rw [if_neg h] at hsub ⊢
    apply toInt_of_range <;> omega

/-! ### `mulx` -/

/-- Sign extension of the low half by addition, masking and subtraction. -/
theorem signLow {w h : ℕ} (hw : w = 2 * (h + 1)) (x mask1 mask2 : BitVec w)
    (h1 : mask1.toNat = 2 ^ (h + 1) - 1) (h2 : mask2.toNat = 2 ^ h) :
    (((x + mask2) &&& mask1) - mask2).toInt = smod x.toInt (h + 1) := by
  have hp : 0 < 2 ^ h := by positivity
  have hww : 2 ^ w = 2 ^ (h + 1) * 2 ^ (h + 1) := by rw [← pow_add]; congr 1; omega
  have hz : (2 : ℤ) ^ w = 2 ^ (h + 1) * 2 ^ (h + 1) := by rw [← pow_add]; congr 1; omega
  have hdvd : (2 : ℤ) ^ (h + 1) ∣ 2 ^ w := by rw [hz]; exact Dvd.intro _ rfl
  have hlt : 2 ^ h ≤ 2 ^ w := Nat.pow_le_pow_right (by omega) (by omega)
  have hn : ((x + mask2) &&& mask1).toNat = (x.toNat + 2 ^ h) % 2 ^ (h + 1) := by
    rw [BitVec.toNat_and, h1, and_mask, BitVec.toNat_add, h2, hww, Nat.mod_mul_right_mod]
  have hs : smod x.toInt (h + 1) = ((x.toNat + 2 ^ h) % 2 ^ (h + 1) : ℕ) - 2 ^ h := by
    unfold smod
    have e1 : (2 : ℤ) ^ (h + 1) / 2 = 2 ^ h := by rw [pow_succ]; omega
    rw [e1]
    congr 1
    push_cast
    rw [toNat_emod x, Int.add_emod, Int.add_emod (x.toInt % 2 ^ w), Int.emod_emod_of_dvd _ hdvd]
  have hm : (x.toNat + 2 ^ h) % 2 ^ (h + 1) < 2 ^ (h + 1) := Nat.mod_lt _ (by positivity)
  have hm' : (((x.toNat + 2 ^ h) % 2 ^ (h + 1) : ℕ) : ℤ) < 2 * 2 ^ h := by
    rw [pow_succ] at hm
    have : (((x.toNat + 2 ^ h) % 2 ^ (h + 1) : ℕ) : ℤ) < ((2 ^ h * 2 : ℕ) : ℤ) := by
      rw [pow_succ]; exact_mod_cast hm
    push_cast at this ⊢; linarith
  have hbig : (2 : ℤ) * 2 ^ h ≤ 2 ^ w := by
    rw [hz, ← pow_succ']
    exact le_mul_of_one_le_right (by positivity) (one_le_pow₀ (by norm_num))
  rw [hs]
  have hpz : (0 : ℤ) < 2 ^ h := by positivity
  apply toInt_of_range
  · linarith [Int.natCast_nonneg ((x.toNat + 2 ^ h) % 2 ^ (h + 1))]
  · linarith
  · rw [BitVec.toNat_sub, hn, h2]
    generalize (x.toNat + 2 ^ h) % 2 ^ (h + 1) = z at *
    push_cast [Nat.cast_sub hlt]
    rw [show (2 : ℤ) ^ w - 2 ^ h + z = (z - 2 ^ h) + 2 ^ w by ring, Int.add_emod_right]

theorem smod_range (z : ℤ) (h : ℕ) : -(2 ^ h : ℤ) ≤ smod z (h + 1) ∧ smod z (h + 1) < 2 ^ h := by
  unfold smod
  have e1 : (2 : ℤ) ^ (h + 1) / 2 = 2 ^ h := by rw [pow_succ]; omega
  have h1 := Int.emod_nonneg (z + 2 ^ h) (show (2 : ℤ) ^ (h + 1) ≠ 0 by positivity)
  have h2 := Int.emod_lt_of_pos (z + 2 ^ h) (show (0 : ℤ) < 2 ^ (h + 1) by positivity)
  rw [e1]
  rw [pow_succ] at *
  constructor <;> linarith

theorem mulx_lane {w h : ℕ} (hw : w = 2 * (h + 1)) (x y mask1 mask2 : BitVec w)
    (h1 : mask1.toNat = 2 ^ (h + 1) - 1) (h2 : mask2.toNat = 2 ^ h) :
    ((((x + mask2) &&& mask1) - mask2) * (((y + mask2) &&& mask1) - mask2)).toInt
      = smod x.toInt (h + 1) * smod y.toInt (h + 1) := by
  have hx := smod_range x.toInt h
  have hy := smod_range y.toInt h
  obtain ⟨b0, b1⟩ := mulBounds hx.1 hx.2.le hy.1 hy.2.le
  have hz : (2 : ℤ) ^ w = 4 * (2 ^ h * 2 ^ h) := by
    rw [hw, ← pow_add, show 2 * (h + 1) = h + h + 2 by ring, pow_add]; ring
  have hpz : (0 : ℤ) < 2 ^ h * 2 ^ h := by positivity
  exact toInt_mul_range (signLow hw x mask1 mask2 h1 h2) (signLow hw y mask1 mask2 h1 h2)
    (by rw [hz]; linarith) (by rw [hz]; linarith)

theorem mulx16_spec {k : ℕ} (a b : Reg k 16) (i : Fin k) :
    (mulx16 a b i).toInt = smod (a i).toInt 8 * smod (b i).toInt 8 :=
  mulx_lane (h := 7) rfl (a i) (b i) 0x00FF 0x0080 rfl rfl

theorem mulx32_spec {k : ℕ} (a b : Reg k 32) (i : Fin k) :
    (mulx32 a b i).toInt = smod (a i).toInt 16 * smod (b i).toInt 16 :=
  mulx_lane (h := 15) rfl (a i) (b i) 0x0000FFFF 0x00008000 rfl rfl

theorem low32_toInt (x : BitVec 64) : (x.extractLsb' 0 32).toInt = smod x.toInt 32 := by
  have h1 := smod_range x.toInt 31
  apply toInt_of_range (by norm_num at h1 ⊢; omega) (by norm_num at h1 ⊢; omega)
  rw [BitVec.extractLsb'_toNat]
  have h2 := toNat_emod x
  unfold smod
  simp only [Nat.shiftRight_zero]
  push_cast
  rw [h2]
  omega

theorem mulEpi32_spec {k : ℕ} (a b : Reg k 64) (i : Fin k) :
    (mulEpi32 a b i).toInt = smod (a i).toInt 32 * smod (b i).toInt 32 := by
  have hx := smod_range (a i).toInt 31
  have hy := smod_range (b i).toInt 31
  obtain ⟨b0, b1⟩ := mulBounds hx.1 hx.2.le hy.1 hy.2.le
  norm_num at b0 b1
  exact toInt_mul_range ((toInt_signExtend_le (by omega) _).trans (low32_toInt _))
    ((toInt_signExtend_le (by omega) _).trans (low32_toInt _)) (by norm_num at *; omega)
    (by norm_num at *; omega)

theorem mulEpu32_spec {k : ℕ} (a b : Reg k 64) (i : Fin k) :
    (mulEpu32 a b i).toNat = ((a i).toNat % 2 ^ 32) * ((b i).toNat % 2 ^ 32) := by
  have h : ((a i).toNat % 2 ^ 32) * ((b i).toNat % 2 ^ 32) ≤ (2 ^ 32 - 1) * (2 ^ 32 - 1) :=
    natMulBound (by omega) (by omega)
  simp only [mulEpu32, BitVec.toNat_mul, BitVec.toNat_setWidth, BitVec.extractLsb'_toNat,
    Nat.shiftRight_zero]
  rw [Nat.mod_eq_of_lt (show (a i).toNat % 2 ^ 32 < 2 ^ 64 by omega),
    Nat.mod_eq_of_lt (show (b i).toNat % 2 ^ 32 < 2 ^ 64 by omega), Nat.mod_eq_of_lt (by omega)]

theorem mulxU_lane {w h : ℕ} (hw : w = 2 * h) (x y mask1 : BitVec w)
    (h1 : mask1.toNat = 2 ^ h - 1) :
    ((x &&& mask1) * (y &&& mask1)).toNat = (x.toNat % 2 ^ h) * (y.toNat % 2 ^ h) := by
  rw [BitVec.toNat_mul, BitVec.toNat_and, BitVec.toNat_and, h1, and_mask, and_mask]
  apply Nat.mod_eq_of_lt
  have hx : x.toNat % 2 ^ h < 2 ^ h := Nat.mod_lt _ (by positivity)
  have hy : y.toNat % 2 ^ h < 2 ^ h := Nat.mod_lt _ (by positivity)
  have : 2 ^ w = 2 ^ h * 2 ^ h := by rw [← pow_add]; congr 1; omega
  rw [this]
  exact Nat.mul_lt_mul_of_lt_of_le hx hy.le (by positivity)

theorem mulxU16_spec {k : ℕ} (a b : Reg k 16) (i : Fin k) :
    (mulxU16 a b i).toNat = ((a i).toNat % 2 ^ 8) * ((b i).toNat % 2 ^ 8) :=
  mulxU_lane (h := 8) rfl (a i) (b i) 0x00FF rfl

theorem mulxU32_spec {k : ℕ} (a b : Reg k 32) (i : Fin k) :
    (mulxU32 a b i).toNat = ((a i).toNat % 2 ^ 16) * ((b i).toNat % 2 ^ 16) :=
  mulxU_lane (h := 16) rfl (a i) (b i) 0x0000FFFF rfl

end Verif.SimdInt
