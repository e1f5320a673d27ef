import Verif.Model.Limits

/-!
# C46: range tests of integer conversions
-/

namespace Verif.Props
open Verif.Limits

/-- `e` is a value of the type. -/
def Representable (T : IntTy) (e : ℤ) : Prop :=
  if T.signed then -2 ^ (T.bits - 1) ≤ e ∧ e < 2 ^ (T.bits - 1) else 0 ≤ e ∧ e < 2 ^ T.bits

lemma pow_half {b : ℕ} (hb : 1 ≤ b) : (2:ℤ) ^ b = 2 * 2 ^ (b - 1) := by
  obtain ⟨c, rfl⟩ := Nat.exists_eq_add_of_le hb
  rw [Nat.add_comm, pow_succ]; simp; ring

/-- C46 (full statement: `in_range<T>(e)` accepts exactly the values representable in `T`).  Proved for
every pair of types of any width, except the conversion from a signed type to a narrower unsigned type.
Missing: that case, where it is false (`C46_violated`). -/
theorem C46_in_range_partial (T E : IntTy) (hT : 1 ≤ T.bits) (hE : 1 ≤ E.bits) (e : ℤ)
    (he : Representable E e)
    (hcase : T.signed = true ∨ E.signed = false ∨ E.bits ≤ T.bits + 1) :
    inRange T E e = true ↔ Representable T e := by
  obtain ⟨ts, tb⟩ := T
  obtain ⟨es, eb⟩ := E
  have h1 := pow_half hT
  have h2 := pow_half hE
  have p1 : (0:ℤ) < 2 ^ (tb - 1) := by positivity
  have p2 : (0:ℤ) < 2 ^ (eb - 1) := by positivity
  have p3 : (0:ℤ) < 2 ^ eb := by positivity
  have p4 : (0:ℤ) < 2 ^ tb := by positivity
  dsimp only at h1 h2
  cases ts <;> cases es <;>
    simp only [inRange, Representable, IntTy.min, IntTy.max, IntTy.cast, if_true, if_false, Bool.and_eq_true,
      decide_eq_true_eq, reduceCtorEq, Bool.false_eq_true, false_and, or_false, false_or, or_true] at he hcase ⊢
  · constructor <;> rintro ⟨a, b⟩ <;> constructor <;> linarith
  · -- unsigned target, signed source, wide enough
    have : (2:ℤ) ^ (eb - 1) ≤ 2 ^ tb := pow_le_pow_right₀ (by norm_num) (by omega)
    constructor
    · rintro ⟨a, _⟩; constructor <;> linarith
    · rintro ⟨a, b⟩
      refine ⟨a, ?_⟩
      rw [Int.emod_eq_of_lt a b]; linarith
  · -- signed target, unsigned source
    rcases le_or_gt tb eb with hle | hlt
    · have hpow : (2:ℤ) ^ (tb - 1) ≤ 2 ^ eb := pow_le_pow_right₀ (by norm_num) (by omega)
      rw [Int.emod_eq_of_lt (by linarith) (by linarith)]
      constructor
      · intro h; constructor <;> linarith
      · intro h; linarith
    · have hpow : (2:ℤ) ^ eb ≤ 2 ^ (tb - 1) := pow_le_pow_right₀ (by norm_num) (by omega)
      have hd : (2:ℤ) ^ eb ∣ 2 ^ (tb - 1) := pow_dvd_pow 2 (by omega)
      have hm : (2 ^ (tb - 1) - 1 : ℤ) % 2 ^ eb = 2 ^ eb - 1 := by
        obtain ⟨c, hc⟩ := hd
        rw [hc, show (2:ℤ) ^ eb * c - 1 = (2 ^ eb - 1) + 2 ^ eb * (c - 1) by ring, Int.add_mul_emod_self_left,
          Int.emod_eq_of_lt (by linarith) (by linarith)]
      rw [hm]
      constructor
      · intro h; constructor <;> linarith
      · intro h; linarith [he.2]
  · constructor <;> rintro ⟨a, b⟩ <;> constructor <;> linarith

/-- The signed-to-unsigned test accepts every non-negative value of a wider type: 256 is "in range" for
`unsigned char`. -/
theorem C46_violated :
    inRange ⟨false, 8⟩ ⟨true, 64⟩ 256 = true ∧ ¬ Representable ⟨false, 8⟩ 256 ∧ Representable ⟨true, 64⟩ 256 := by
  refine ⟨by decide, ?_, ?_⟩ <;> simp [Representable]

/-- In general this overload accepts exactly the non-negative values, whatever the target width. -/
theorem C46_signed_to_unsigned_accepts_all_nonneg (tb eb : ℕ) (e : ℤ) :
    inRange ⟨false, tb⟩ ⟨true, eb⟩ e = true ↔ 0 ≤ e := by
  have p4 : (0:ℤ) < 2 ^ tb := by positivity
  simp only [inRange, IntTy.max, IntTy.cast, if_false, Bool.and_eq_true,
      decide_eq_true_eq, reduceCtorEq, Bool.false_eq_true, false_and]
  have := Int.emod_lt_of_pos e p4
  constructor
  · rintro ⟨a, _⟩; exact a
  · intro a; exact ⟨a, by linarith⟩

/-- Non-vacuity: both outcomes occur (int64 → int32). -/
example : inRange ⟨true, 32⟩ ⟨true, 64⟩ 2147483647 = true ∧ inRange ⟨true, 32⟩ ⟨true, 64⟩ 2147483648 = false := by
  decide

end Verif.Props
