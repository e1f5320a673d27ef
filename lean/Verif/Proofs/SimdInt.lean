import Verif.Model.SimdInt
import Verif.Spec.SimdInt
import Mathlib.Algebra.Order.Ring.Abs
import Mathlib.Tactic.Ring
import Mathlib.Tactic.Linarith
import Mathlib.Tactic.IntervalCases

/-!
# Proofs about the integer SIMD operations
-/

namespace Verif.SimdInt
open Intr

/-! ### Bits and numbers -/

theorem xor_two_pow {x n : ℕ} (h : x < 2 ^ (n + 1)) :
    x ^^^ 2 ^ n = if x < 2 ^ n then x + 2 ^ n else x - 2 ^ n := by
  have key : ∀ y, y < 2 ^ n → y ^^^ 2 ^ n = y + 2 ^ n := by
    intro y hy
    have h1 : y ^^^ 2 ^ n = y ||| 2 ^ n := by
      apply Nat.eq_of_testBit_eq
      intro i
      rw [Nat.testBit_xor, Nat.testBit_or, Nat.testBit_two_pow]
      by_cases hi : n = i
      · subst hi
        simp [Nat.testBit_lt_two_pow hy]
      · simp [hi]
    have h2 := Nat.two_pow_add_eq_or_of_lt hy 1
    rw [mul_one] at h2
    rw [h1, Nat.or_comm, ← h2, Nat.add_comm]
  split
  · exact key x ‹_›
  · have hx : x = (x - 2 ^ n) + 2 ^ n := by omega
    have hlt : x - 2 ^ n < 2 ^ n := by rw [pow_succ] at h; omega
    calc x ^^^ 2 ^ n = ((x - 2 ^ n) ^^^ 2 ^ n) ^^^ 2 ^ n := by rw [key _ hlt, ← hx]
      _ = x - 2 ^ n := by rw [Nat.xor_assoc, Nat.xor_self, Nat.xor_zero]

theorem and_mask {x : ℕ} (n : ℕ) : x &&& (2 ^ n - 1) = x % 2 ^ n := Nat.and_two_pow_sub_one_eq_mod x n

/-- The signed value from the unsigned one. -/
theorem toInt_cases {w : ℕ} (x : BitVec w) :
    x.toInt = if 2 * x.toNat < 2 ^ w then (x.toNat : ℤ) else x.toNat - 2 ^ w := by
  rw [BitVec.toInt_eq_toNat_cond]; norm_cast

theorem toInt_of_range {w : ℕ} {x : BitVec w} {z : ℤ} (h0 : -(2 ^ w : ℤ) ≤ 2 * z)
    (h1 : 2 * z < 2 ^ w) (h : (x.toNat : ℤ) = z % 2 ^ w) : x.toInt = z := by
  have hp : (0 : ℤ) < 2 ^ w := by positivity
  have hb : ((2 ^ w : ℕ) : ℤ) = 2 ^ w := by push_cast; ring
  rw [toInt_cases]
  have hc : (2 * x.toNat < 2 ^ w) ↔ (2 * (x.toNat : ℤ) < 2 ^ w) := by
    rw [← hb]; norm_cast
  simp only [hc]
  generalize (2 ^ w : ℤ) = q at *
  have hz : -q ≤ z := by omega
  by_cases h2 : 0 ≤ z
  · rw [Int.emod_eq_of_lt h2 (by omega)] at h
    rw [h, if_pos (by omega)]
  · have : z % q = z + q := by
      rw [← Int.add_emod_right z q, Int.emod_eq_of_lt (by omega) (by omega)]
    rw [this] at h
    rw [h, if_neg (by omega)]; ring

theorem toNat_emod {w : ℕ} (x : BitVec w) : (x.toNat : ℤ) = x.toInt % 2 ^ w := by
  have hb : ((2 ^ w : ℕ) : ℤ) = 2 ^ w := by push_cast; ring
  have hlt := x.isLt
  rw [toInt_cases]
  split
  · rw [Int.emod_eq_of_lt (by omega)]; rw [← hb]; exact_mod_cast hlt
  · rw [← Int.add_emod_right, sub_add_cancel, Int.emod_eq_of_lt (by omega)]
    rw [← hb]; exact_mod_cast hlt

theorem toInt_range {w : ℕ} (hw : 0 < w) (x : BitVec w) :
    -(2 ^ w : ℤ) ≤ 2 * x.toInt ∧ 2 * x.toInt < 2 ^ w := by
  have hb : ((2 ^ w : ℕ) : ℤ) = 2 ^ w := by push_cast; ring
  have hlt : (x.toNat : ℤ) < 2 ^ w := by rw [← hb]; exact_mod_cast x.isLt
  rw [toInt_cases]
  have hc : (2 * x.toNat < 2 ^ w) ↔ (2 * (x.toNat : ℤ) < 2 ^ w) := by
    rw [← hb]; norm_cast
  simp only [hc]
  generalize (2 ^ w : ℤ) = q at *
  split <;> constructor <;> omega

/-- Overflow-free signed addition. -/
theorem sadd_some {w : ℕ} {x y : BitVec w} {X Y : ℤ} (hx : x.toInt = X) (hy : y.toInt = Y)
    (h0 : -(2 ^ w : ℤ) ≤ 2 * (X + Y)) (h1 : 2 * (X + Y) < 2 ^ w) :
    ∃ r, sadd x y = some r ∧ r.toInt = X + Y := by
  subst hx hy
  refine ⟨x + y, if_pos ⟨h0, h1⟩, toInt_of_range h0 h1 ?_⟩
  rw [BitVec.toNat_add, Int.add_emod, ← toNat_emod, ← toNat_emod]; push_cast; rfl

/-- Overflow-free signed product. -/
theorem smul_some {w : ℕ} {x y : BitVec w} {X Y : ℤ} (hx : x.toInt = X) (hy : y.toInt = Y)
    (h0 : -(2 ^ w : ℤ) ≤ 2 * (X * Y)) (h1 : 2 * (X * Y) < 2 ^ w) :
    ∃ r, smul x y = some r ∧ r.toInt = X * Y := by
  subst hx hy
  refine ⟨x * y, if_pos ⟨h0, h1⟩, toInt_of_range h0 h1 ?_⟩
  rw [BitVec.toNat_mul, Int.mul_emod, ← toNat_emod, ← toNat_emod]; push_cast; rfl

theorem toInt_mul_range {w : ℕ} {x y : BitVec w} {X Y : ℤ} (hx : x.toInt = X) (hy : y.toInt = Y)
    (h0 : -(2 ^ w : ℤ) ≤ 2 * (X * Y)) (h1 : 2 * (X * Y) < 2 ^ w) : (x * y).toInt = X * Y := by
  obtain ⟨r, h, hr⟩ := smul_some hx hy h0 h1
  have : smul x y = some (x * y) := by
    unfold smul; subst hx hy; exact if_pos ⟨h0, h1⟩
  rw [this] at h
  cases h; exact hr

/-! ### Conversions between types -/

theorem toInt_signExtend_le {w v : ℕ} (h : w ≤ v) (x : BitVec w) :
    (x.signExtend v).toInt = x.toInt := BitVec.toInt_signExtend_of_le h

theorem toInt_setWidth_lt {w v : ℕ} (h : w < v) (x : BitVec w) :
    (x.setWidth v).toInt = x.toNat := by
  have h1 : 2 ^ w * 2 ≤ 2 ^ v := by
    rw [← pow_succ]; exact Nat.pow_le_pow_right (by omega) h
  have h2 := x.isLt
  rw [toInt_cases, BitVec.toNat_setWidth, Nat.mod_eq_of_lt (by omega), if_pos (by omega)]

theorem toNat_lo32 (x : BitVec 64) : ((x &&& 0xFFFFFFFF#64).setWidth 32).toNat = x.toNat % 2 ^ 32 := by
  rw [BitVec.toNat_setWidth, BitVec.toNat_and, show (0xFFFFFFFF#64).toNat = 2 ^ 32 - 1 by rfl,
    and_mask, Nat.mod_mod]

theorem toInt_and32 (x : BitVec 64) : (x &&& 0xFFFFFFFF#64).toInt = x.toInt % 2 ^ 32 := by
  have h1 : (x &&& 0xFFFFFFFF#64).toNat = x.toNat % 2 ^ 32 := by
    rw [BitVec.toNat_and, show (0xFFFFFFFF#64).toNat = 2 ^ 32 - 1 by rfl, and_mask]
  have h2 := toNat_emod x
  rw [toInt_cases, h1, if_pos (by omega)]
  push_cast
  omega

theorem toInt_sshr (x : BitVec 64) (n : ℕ) : (x.sshiftRight n).toInt = x.toInt / 2 ^ n := by
  rw [BitVec.toInt_sshiftRight, Int.shiftRight_eq_div_pow]; push_cast; rfl

theorem toInt_hi32 (x : BitVec 64) : ((x.sshiftRight 32).setWidth 32).toInt = x.toInt / 2 ^ 32 := by
  have h1 := toInt_range (by omega) x
  have h2 := toNat_emod (x.sshiftRight 32)
  rw [toInt_sshr] at h2
  apply toInt_of_range (by omega) (by omega)
  rw [BitVec.toNat_setWidth]
  push_cast
  rw [h2]
  omega

/-! ### High halves of products -/

theorem mulBounds {a b A B : ℤ} (ha : -A ≤ a) (ha' : a ≤ A) (hb : -B ≤ b) (hb' : b ≤ B) :
    -(A * B) ≤ a * b ∧ a * b ≤ A * B := by
  have hA : 0 ≤ A := by linarith
  have h := abs_mul a b
  have h1 : |a| ≤ A := abs_le.2 ⟨ha, ha'⟩
  have h2 : |b| ≤ B := abs_le.2 ⟨hb, hb'⟩
  have h3 : |a * b| ≤ A * B := by
    rw [h]; exact mul_le_mul h1 h2 (abs_nonneg _) hA
  exact abs_le.1 h3

theorem mulhi64_128_spec (x y : BitVec 64) :
    ∃ r, mulhi64_128 x y = some r ∧ r.toInt = x.toInt * y.toInt / 2 ^ 64 := by
  have hx := toInt_range (by omega) x
  have hy := toInt_range (by omega) y
  obtain ⟨b0, b1⟩ := mulBounds (a := x.toInt) (b := y.toInt) (A := 2 ^ 63) (B := 2 ^ 63)
    (by omega) (by omega) (by omega) (by omega)
  obtain ⟨p, hp, hv⟩ := smul_some (toInt_signExtend_le (v := 128) (by omega) x)
    (toInt_signExtend_le (v := 128) (by omega) y) (by omega) (by omega)
  refine ⟨(p.sshiftRight 64).setWidth 64, ?_, ?_⟩
  · simp only [mulhi64_128, hp, Option.bind_eq_bind, Option.bind_some, Option.pure_def]
  · have h2 := toNat_emod (p.sshiftRight 64)
    rw [BitVec.toInt_sshiftRight, Int.shiftRight_eq_div_pow, hv] at h2
    apply toInt_of_range (by omega) (by omega)
    rw [BitVec.toNat_setWidth]
    push_cast at h2 ⊢
    rw [h2]
    omega

theorem mulhi64_32_spec (x y : BitVec 64) :
    ∃ r, mulhi64_32 x y = some r ∧ r.toInt = x.toInt * y.toInt / 2 ^ 64 := by
  have hx := toInt_range (by omega) x
  have hy := toInt_range (by omega) y
  have ex := toNat_emod x
  have ey := toNat_emod y
  have hx1 := toInt_hi32 x
  have hy1 := toInt_hi32 y
  have hx0 := toNat_lo32 x
  have hy0 := toNat_lo32 y
  obtain ⟨x0, dx0⟩ : ∃ x0, (x &&& 0xFFFFFFFF#64).setWidth 32 = x0 := ⟨_, rfl⟩
  obtain ⟨y0, dy0⟩ : ∃ y0, (y &&& 0xFFFFFFFF#64).setWidth 32 = y0 := ⟨_, rfl⟩
  obtain ⟨x1, dx1⟩ : ∃ x1, (x.sshiftRight 32).setWidth 32 = x1 := ⟨_, rfl⟩
  obtain ⟨y1, dy1⟩ : ∃ y1, (y.sshiftRight 32).setWidth 32 = y1 := ⟨_, rfl⟩
  simp only [mulhi64_32, dx0, dy0, dx1, dy1]
  rw [dx0] at hx0
  rw [dy0] at hy0
  rw [dx1] at hx1
  rw [dy1] at hy1
  set X := x.toInt
  set Y := y.toInt
  have sx1 : (x1.signExtend 64).toInt = X / 2 ^ 32 := by rw [toInt_signExtend_le (by omega), hx1]
  have sy1 : (y1.signExtend 64).toInt = Y / 2 ^ 32 := by rw [toInt_signExtend_le (by omega), hy1]
  have sx0 : (x0.setWidth 64).toInt = X % 2 ^ 32 := by
    rw [toInt_setWidth_lt (by omega), hx0]; push_cast; omega
  have sy0 : (y0.setWidth 64).toInt = Y % 2 ^ 32 := by
    rw [toInt_setWidth_lt (by omega), hy0]; push_cast; omega
  obtain ⟨X1, dX1⟩ : ∃ X1, X / 2 ^ 32 = X1 := ⟨_, rfl⟩
  obtain ⟨Y1, dY1⟩ : ∃ Y1, Y / 2 ^ 32 = Y1 := ⟨_, rfl⟩
  obtain ⟨X0, dX0⟩ : ∃ X0, X % 2 ^ 32 = X0 := ⟨_, rfl⟩
  obtain ⟨Y0, dY0⟩ : ∃ Y0, Y % 2 ^ 32 = Y0 := ⟨_, rfl⟩
  rw [dX1] at sx1; rw [dY1] at sy1; rw [dX0] at sx0; rw [dY0] at sy0
  have eX : X = X1 * 2 ^ 32 + X0 := by omega
  have eY : Y = Y1 * 2 ^ 32 + Y0 := by omega
  have bX1 : -(2 ^ 31) ≤ X1 ∧ X1 ≤ 2 ^ 31 - 1 := by omega
  have bY1 : -(2 ^ 31) ≤ Y1 ∧ Y1 ≤ 2 ^ 31 - 1 := by omega
  have bX0 : 0 ≤ X0 ∧ X0 ≤ 2 ^ 32 - 1 := by omega
  have bY0 : 0 ≤ Y0 ∧ Y0 ≤ 2 ^ 32 - 1 := by omega
  have hhi : ((mullhiU32 x0 y0).setWidth 64).toInt = X0 * Y0 / 2 ^ 32 := by
    rw [toInt_setWidth_lt (by omega)]
    have nx : (x0.toNat : ℤ) = X0 := by rw [hx0]; push_cast; omega
    have ny : (y0.toNat : ℤ) = Y0 := by rw [hy0]; push_cast; omega
    have bx : x0.toNat ≤ 2 ^ 32 - 1 := by have := x0.isLt; omega
    have by' : y0.toNat ≤ 2 ^ 32 - 1 := by have := y0.isLt; omega
    have hm : x0.toNat * y0.toNat ≤ (2 ^ 32 - 1) * (2 ^ 32 - 1) := Nat.mul_le_mul bx by'
    rw [← nx, ← ny, mullhiU32, BitVec.toNat_setWidth, BitVec.toNat_ushiftRight, BitVec.toNat_mul,
      BitVec.toNat_setWidth, BitVec.toNat_setWidth, Nat.shiftRight_eq_div_pow]
    rw [Nat.mod_eq_of_lt (show x0.toNat < 2 ^ 64 by omega),
      Nat.mod_eq_of_lt (show y0.toNat < 2 ^ 64 by omega)]
    rw [← Int.natCast_mul]
    generalize x0.toNat * y0.toNat = z at *
    omega
  have pP : -(2 ^ 31 * (2 ^ 32 - 1)) ≤ X1 * Y0 ∧ X1 * Y0 ≤ 2 ^ 31 * (2 ^ 32 - 1) :=
    mulBounds (by omega) (by omega) (by omega) (by omega)
  have pP' : X1 * Y0 ≤ (2 ^ 31 - 1) * (2 ^ 32 - 1) := by
    rcases le_or_gt 0 X1 with h | h
    · exact mul_le_mul bX1.2 bY0.2 bY0.1 (by norm_num)
    · have := mul_nonpos_of_nonpos_of_nonneg h.le bY0.1
      linarith
  have pQ : -(2 ^ 31 * (2 ^ 32 - 1)) ≤ X0 * Y1 ∧ X0 * Y1 ≤ 2 ^ 31 * (2 ^ 32 - 1) := by
    rw [mul_comm X0]
    exact mulBounds (by omega) (by omega) (by omega) (by omega)
  have pQ' : X0 * Y1 ≤ (2 ^ 31 - 1) * (2 ^ 32 - 1) := by
    rw [mul_comm]
    rcases le_or_gt 0 Y1 with h | h
    · exact mul_le_mul bY1.2 bX0.2 bX0.1 (by norm_num)
    · have := mul_nonpos_of_nonpos_of_nonneg h.le bX0.1
      linarith
  have pR : 0 ≤ X0 * Y0 ∧ X0 * Y0 ≤ (2 ^ 32 - 1) * (2 ^ 32 - 1) :=
    ⟨mul_nonneg bX0.1 bY0.1, mul_le_mul bX0.2 bY0.2 bY0.1 (by norm_num)⟩
  have pS : -(2 ^ 31 * 2 ^ 31) ≤ X1 * Y1 ∧ X1 * Y1 ≤ 2 ^ 31 * 2 ^ 31 :=
    mulBounds (by omega) (by omega) (by omega) (by omega)
  have exy : X * Y = X1 * Y1 * 2 ^ 64 + (X1 * Y0 + X0 * Y1) * 2 ^ 32 + X0 * Y0 := by
    rw [eX, eY]; ring
  rw [exy]
  obtain ⟨p, hp, vp⟩ := smul_some sx1 sy0 (by omega) (by omega)
  obtain ⟨q, hq, vq⟩ := smul_some sx0 sy1 (by omega) (by omega)
  obtain ⟨s, hs, vs⟩ := smul_some sx1 sy1 (by omega) (by omega)
  generalize X1 * Y0 = P at *
  generalize X0 * Y1 = Q at *
  generalize X0 * Y0 = R at *
  generalize X1 * Y1 = S at *
  obtain ⟨t, ht, vt⟩ := sadd_some vp hhi (by omega) (by omega)
  obtain ⟨v, hv, vv⟩ := sadd_some vq ((toInt_and32 t).trans (by rw [vt])) (by omega) (by omega)
  obtain ⟨u, hu, vu⟩ := sadd_some vs ((toInt_sshr t 32).trans (by rw [vt])) (by omega) (by omega)
  obtain ⟨r, hr, vr⟩ := sadd_some vu ((toInt_sshr v 32).trans (by rw [vv])) (by omega) (by omega)
  refine ⟨r, ?_, ?_⟩
  · simp only [hp, hq, hs, ht, hv, hu, hr, Option.bind_eq_bind, Option.bind_some]
  · rw [vr]; omega

end Verif.SimdInt
