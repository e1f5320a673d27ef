import Verif.Proofs.SimdInt3

/-!
# Proofs about the integer SIMD operations: shuffles, sums, fast high products
-/

namespace Verif.SimdInt
open Intr

theorem shuffle64x2_spec (s : ℕ) (hs : s < 4) (a : Reg 2 64) (i : Fin 2) :
    shuffle64x2 s a i = a ⟨(s >>> (i : ℕ)) % 2, Nat.mod_lt _ (by omega)⟩ := by
  obtain ⟨h0, h1⟩ := shuffleImm2_digit s hs i i.2
  set j : Fin 2 := ⟨(s >>> (i : ℕ)) % 2, Nat.mod_lt _ (by omega)⟩ with hj
  have e : shuffle64x2 s a i
      = as32 a ⟨(shuffleImm2 s >>> (2 * (2 * (i : ℕ) + 1))) % 4, Nat.mod_lt _ (by omega)⟩ ++
        as32 a ⟨(shuffleImm2 s >>> (2 * (2 * (i : ℕ)))) % 4, Nat.mod_lt _ (by omega)⟩ := rfl
  rw [e, ← as64_as32 a j]
  congr 2
  · exact Fin.ext h1
  · exact Fin.ext h0

/-- Sum of lanes from left to right without overflow. -/
theorem foldlM_sadd {w : ℕ} : ∀ (l : List (BitVec w)) (x : BitVec w),
    (∀ n ≤ l.length, -(2 ^ w : ℤ) ≤ 2 * (x.toInt + ((l.take n).map BitVec.toInt).sum) ∧
      2 * (x.toInt + ((l.take n).map BitVec.toInt).sum) < 2 ^ w) →
    ∃ r, l.foldlM sadd x = some r ∧ r.toInt = x.toInt + (l.map BitVec.toInt).sum
  | [], x, _ => ⟨x, rfl, by simp⟩
  | y :: l, x, h => by
    have h1 := h 1 (by simp)
    simp only [List.take_succ_cons, List.take_zero, List.map_cons, List.map_nil, List.sum_cons,
      List.sum_nil, add_zero] at h1
    obtain ⟨z, hz, vz⟩ := sadd_some (x := x) (y := y) rfl rfl h1.1 h1.2
    obtain ⟨r, hr, vr⟩ := foldlM_sadd l z (by
      intro n hn
      have h2 := h (n + 1) (by simpa using hn)
      simp only [List.take_succ_cons, List.map_cons, List.sum_cons] at h2
      rw [vz, add_assoc]; exact h2)
    refine ⟨r, ?_, ?_⟩
    · rw [List.foldlM_cons, hz]; exact hr
    · rw [vr, vz, List.map_cons, List.sum_cons, add_assoc]

/-! ### `mulhi_fast` -/

theorem maskHigh_apply {k : ℕ} (i : Fin k) : (maskHigh : Reg k 64) i = 0xFFFFFFFF#64 := by
  show (BitVec.allOnes 64) >>> 32 = _
  decide

/-- The unsigned part is the high half of the unsigned product, or one less. -/
theorem mulhiFastU_spec {k : ℕ} (x y : Reg k 64) (i : Fin k) :
    (mulhiFastU x y i).toNat = (x i).toNat * (y i).toNat / 2 ^ 64 ∨
    (mulhiFastU x y i).toNat + 1 = (x i).toNat * (y i).toNat / 2 ^ 64 := by
  have hx := (x i).isLt
  have hy := (y i).isLt
  have e0 : (mulxU64 (vand x maskHigh) (srli 32 y) i).toNat
      = ((x i).toNat % 2 ^ 32) * ((y i).toNat / 2 ^ 32) := by
    rw [mulxU64, mulEpu32_spec]
    show (x i &&& maskHigh i).toNat % 2 ^ 32 * ((y i >>> 32).toNat % 2 ^ 32) = _
    rw [maskHigh_apply, toNat_and32, srl32_toNat, Nat.mod_mod]
  have e1 : (mulxU64 (srli 32 x) (vand y maskHigh) i).toNat
      = ((x i).toNat / 2 ^ 32) * ((y i).toNat % 2 ^ 32) := by
    rw [mulxU64, mulEpu32_spec]
    show (x i >>> 32).toNat % 2 ^ 32 * ((y i &&& maskHigh i).toNat % 2 ^ 32) = _
    rw [maskHigh_apply, toNat_and32, srl32_toNat, Nat.mod_mod]
  have e2 : (mulxU64 (srli 32 x) (srli 32 y) i).toNat
      = ((x i).toNat / 2 ^ 32) * ((y i).toNat / 2 ^ 32) := by
    rw [mulxU64, mulEpu32_spec]
    show (x i >>> 32).toNat % 2 ^ 32 * ((y i >>> 32).toNat % 2 ^ 32) = _
    rw [srl32_toNat, srl32_toNat]
  have e : mulhiFastU x y i
      = ((((mulxU64 (srli 32 x) (vand y maskHigh) i) &&& maskHigh i)
          + mulxU64 (vand x maskHigh) (srli 32 y) i) >>> 32)
        + (mulxU64 (srli 32 x) (srli 32 y) i
            + ((mulxU64 (srli 32 x) (vand y maskHigh) i) >>> 32)) := rfl
  rw [e, maskHigh_apply]
  simp only [BitVec.toNat_add, BitVec.toNat_ushiftRight, toNat_and32, e0, e1, e2,
    Nat.shiftRight_eq_div_pow]
  obtain ⟨X1, dX1⟩ : ∃ X1, (x i).toNat / 2 ^ 32 = X1 := ⟨_, rfl⟩
  obtain ⟨Y1, dY1⟩ : ∃ Y1, (y i).toNat / 2 ^ 32 = Y1 := ⟨_, rfl⟩
  obtain ⟨X0, dX0⟩ : ∃ X0, (x i).toNat % 2 ^ 32 = X0 := ⟨_, rfl⟩
  obtain ⟨Y0, dY0⟩ : ∃ Y0, (y i).toNat % 2 ^ 32 = Y0 := ⟨_, rfl⟩
  have eX : (x i).toNat = X1 * 2 ^ 32 + X0 := by omega
  have eY : (y i).toNat = Y1 * 2 ^ 32 + Y0 := by omega
  rw [dX1, dY1, dX0, dY0]
  have exy : (x i).toNat * (y i).toNat
      = X1 * Y1 * 2 ^ 64 + (X1 * Y0 + X0 * Y1) * 2 ^ 32 + X0 * Y0 := by
    rw [eX, eY]; ring
  rw [exy]
  have h1 : X1 * Y1 ≤ (2 ^ 32 - 1) * (2 ^ 32 - 1) := natMulBound (by omega) (by omega)
  have h2 : X1 * Y0 ≤ (2 ^ 32 - 1) * (2 ^ 32 - 1) := natMulBound (by omega) (by omega)
  have h3 : X0 * Y1 ≤ (2 ^ 32 - 1) * (2 ^ 32 - 1) := natMulBound (by omega) (by omega)
  have h4 : X0 * Y0 ≤ (2 ^ 32 - 1) * (2 ^ 32 - 1) := natMulBound (by omega) (by omega)
  generalize X1 * Y0 = P at *
  generalize X0 * Y1 = Q at *
  generalize X0 * Y0 = R at *
  generalize X1 * Y1 = S at *
  omega

theorem signbits_small {k : ℕ} (x : Reg k 64) (i : Fin k) (h : (x i).toNat < 2 ^ 31) :
    signbits x i = 0 := by
  have : x i >>> 31 = 0#64 := by
    apply BitVec.eq_of_toNat_eq
    rw [BitVec.toNat_ushiftRight, Nat.shiftRight_eq_div_pow, Nat.div_eq_of_lt h]; rfl
  show (0 : BitVec 64) - x i >>> 31 = 0
  rw [this]; decide

/-- `mulhi_fast_64` without 128-bit integers. -/
theorem mulhiFast64_32_spec (x y : BitVec 64) :
    ∃ r, mulhiFast64_32 x y = some r ∧ r.toInt ≤ x.toInt * y.toInt / 2 ^ 64 ∧
      x.toInt * y.toInt / 2 ^ 64 ≤ r.toInt + 2 := by
  have hx := toInt_range (by omega) x
  have hy := toInt_range (by omega) y
  have ex := toNat_emod x
  have ey := toNat_emod y
  have hx1 := toInt_hi32 x
  have hy1 := toInt_hi32 y
  have hx0 := toNat_lo32 x
  have hy0 := toNat_lo32 y
  obtain ⟨x0, dx0⟩ : ∃ x0, (x &&& 0xFFFFFFFF#64).setWidth 32 = x0 := ⟨_, rfl⟩
  obtain ⟨y0, dy0⟩ : ∃ y0, (y &&& 0xFFFFFFFF#64).setWidth 32 = y0 := ⟨_, rfl⟩
  obtain ⟨x1, dx1⟩ : ∃ x1, (x.sshiftRight 32).setWidth 32 = x1 := ⟨_, rfl⟩
  obtain ⟨y1, dy1⟩ : ∃ y1, (y.sshiftRight 32).setWidth 32 = y1 := ⟨_, rfl⟩
  simp only [mulhiFast64_32, dx0, dy0, dx1, dy1]
  rw [dx0] at hx0
  rw [dy0] at hy0
  rw [dx1] at hx1
  rw [dy1] at hy1
  set X := x.toInt
  set Y := y.toInt
  have sx1 : (x1.signExtend 64).toInt = X / 2 ^ 32 := by rw [toInt_signExtend_le (by omega), hx1]
  have sy1 : (y1.signExtend 64).toInt = Y / 2 ^ 32 := by rw [toInt_signExtend_le (by omega), hy1]
  have sx0 : (x0.setWidth 64).toInt = X % 2 ^ 32 := by
    rw [toInt_setWidth_lt (by omega), hx0]; push_cast; omega
  have sy0 : (y0.setWidth 64).toInt = Y % 2 ^ 32 := by
    rw [toInt_setWidth_lt (by omega), hy0]; push_cast; omega
  obtain ⟨X1, dX1⟩ : ∃ X1, X / 2 ^ 32 = X1 := ⟨_, rfl⟩
  obtain ⟨Y1, dY1⟩ : ∃ Y1, Y / 2 ^ 32 = Y1 := ⟨_, rfl⟩
  obtain ⟨X0, dX0⟩ : ∃ X0, X % 2 ^ 32 = X0 := ⟨_, rfl⟩
  obtain ⟨Y0, dY0⟩ : ∃ Y0, Y % 2 ^ 32 = Y0 := ⟨_, rfl⟩
  rw [dX1] at sx1; rw [dY1] at sy1; rw [dX0] at sx0; rw [dY0] at sy0
  have eX : X = X1 * 2 ^ 32 + X0 := by omega
  have eY : Y = Y1 * 2 ^ 32 + Y0 := by omega
  have bX1 : -(2 ^ 31) ≤ X1 ∧ X1 ≤ 2 ^ 31 - 1 := by omega
  have bY1 : -(2 ^ 31) ≤ Y1 ∧ Y1 ≤ 2 ^ 31 - 1 := by omega
  have bX0 : 0 ≤ X0 ∧ X0 ≤ 2 ^ 32 - 1 := by omega
  have bY0 : 0 ≤ Y0 ∧ Y0 ≤ 2 ^ 32 - 1 := by omega
  have pP : -(2 ^ 31 * (2 ^ 32 - 1)) ≤ X1 * Y0 ∧ X1 * Y0 ≤ 2 ^ 31 * (2 ^ 32 - 1) :=
    mulBounds (by omega) (by omega) (by omega) (by omega)
  have pQ : -((2 ^ 32 - 1) * 2 ^ 31) ≤ X0 * Y1 ∧ X0 * Y1 ≤ (2 ^ 32 - 1) * 2 ^ 31 :=
    mulBounds (by omega) (by omega) (by omega) (by omega)
  have pR : 0 ≤ X0 * Y0 ∧ X0 * Y0 ≤ (2 ^ 32 - 1) * (2 ^ 32 - 1) :=
    ⟨mul_nonneg bX0.1 bY0.1, mul_le_mul bX0.2 bY0.2 bY0.1 (by norm_num)⟩
  have pS : -(2 ^ 31 * 2 ^ 31) ≤ X1 * Y1 ∧ X1 * Y1 ≤ 2 ^ 31 * 2 ^ 31 :=
    mulBounds (by omega) (by omega) (by omega) (by omega)
  have exy : X * Y = X1 * Y1 * 2 ^ 64 + (X1 * Y0 + X0 * Y1) * 2 ^ 32 + X0 * Y0 := by
    rw [eX, eY]; ring
  rw [exy]
  obtain ⟨p, hp, vp⟩ := smul_some sx1 sy0 (by omega) (by omega)
  obtain ⟨q, hq, vq⟩ := smul_some sx0 sy1 (by omega) (by omega)
  obtain ⟨s, hs, vs⟩ := smul_some sx1 sy1 (by omega) (by omega)
  generalize X1 * Y0 = P at *
  generalize X0 * Y1 = Q at *
  generalize X0 * Y0 = R at *
  generalize X1 * Y1 = S at *
  obtain ⟨u, hu, vu⟩ := sadd_some vs ((toInt_sshr p 32).trans (by rw [vp])) (by omega) (by omega)
  obtain ⟨r, hr, vr⟩ := sadd_some vu ((toInt_sshr q 32).trans (by rw [vq])) (by omega) (by omega)
  refine ⟨r, ?_, ?_⟩
  · simp only [hp, hq, hs, hu, hr, Option.bind_eq_bind, Option.bind_some]
  · rw [vr]; omega

/-! ### Sums and differences with a product -/

theorem emod_add_toNat {w : ℕ} (c m : BitVec w) :
    ((c + m).toNat : ℤ) = (c.toInt + m.toInt) % 2 ^ w := by
  rw [BitVec.toNat_add, Int.add_emod, ← toNat_emod, ← toNat_emod]; push_cast; rfl

theorem emod_sub_toNat {w : ℕ} (c m : BitVec w) :
    ((c - m).toNat : ℤ) = (c.toInt - m.toInt) % 2 ^ w := by
  rw [BitVec.toNat_sub, Int.sub_emod, ← toNat_emod, ← toNat_emod]
  have := m.isLt
  push_cast [Nat.cast_sub this.le]
  rw [show (2 : ℤ) ^ w - m.toNat + c.toNat = (c.toNat - m.toNat) + 2 ^ w by ring,
    Int.add_emod_right]

theorem smod_eq_of_emod {w : ℕ} (hw : 0 < w) (x : BitVec w) (z : ℤ)
    (h : (x.toNat : ℤ) = z % 2 ^ w) : x.toInt = smod z w := by
  obtain ⟨h', rfl⟩ : ∃ h', w = h' + 1 := ⟨w - 1, by omega⟩
  have h1 := smod_range z h'
  apply toInt_of_range
  · rw [pow_succ]; linarith
  · rw [pow_succ]; linarith
  · rw [h]; unfold smod
    rw [Int.emod_sub_emod, add_sub_cancel_right]

end Verif.SimdInt
