import Verif.Model.Simd
import Mathlib.Tactic.FinCases
import Mathlib.Data.Fintype.Basic

/-!
# The register networks transpose
-/

namespace Verif

variable {α : Type}

/-- `net` transposes every `n × n` register file -/
def Transposes (n : ℕ) (net : Regs α → Regs α) : Prop := ∀ (R : Regs α), ∀ i < n, ∀ j < n, net R i j = R j i

lemma Transposes.of_fin {n : ℕ} {net : Regs α → Regs α} (h : ∀ (R : Regs α) (i j : Fin n), net R i j = R j i) :
    Transposes n net := fun R i hi j hj => h R ⟨i, hi⟩ ⟨j, hj⟩

lemma net128_64_ok : Transposes 2 (net128_64 (α := α)) := .of_fin fun R i j => by
  fin_cases i <;> fin_cases j <;> rfl
lemma net128_32_ok : Transposes 4 (net128_32 (α := α)) := .of_fin fun R i j => by
  fin_cases i <;> fin_cases j <;> rfl
lemma net128_16_ok : Transposes 8 (net128_16 (α := α)) := .of_fin fun R i j => by
  fin_cases i <;> fin_cases j <;> rfl
lemma net256_64_ok : Transposes 4 (net256_64 (α := α)) := .of_fin fun R i j => by
  fin_cases i <;> fin_cases j <;> rfl
lemma net256_32_ok : Transposes 8 (net256_32 (α := α)) := .of_fin fun R i j => by
  fin_cases i <;> fin_cases j <;> rfl
lemma net256_16_ok : Transposes 16 (net256_16 (α := α)) := .of_fin fun R i j => by
  fin_cases i <;> fin_cases j <;> rfl
lemma net512_64_ok : Transposes 8 (net512_64 (α := α)) := .of_fin fun R i j => by
  fin_cases i <;> fin_cases j <;> rfl
lemma net512_32_ok : Transposes 16 (net512_32 (α := α)) := .of_fin fun R i j => by
  fin_cases i <;> fin_cases j <;> rfl

/-- Every `Simd::transpose` transposes. -/
theorem Simd.net_ok (S : Simd) : Transposes S.vs (S.net (α := α)) := by
  cases S
  · exact fun R i hi j hj => by
      obtain rfl : i = 0 := by simp only [Simd.vs] at hi; omega
      obtain rfl : j = 0 := by simp only [Simd.vs] at hj; omega
      rfl
  · exact net128_64_ok
  · exact net128_32_ok
  · exact net128_16_ok
  · exact net256_64_ok
  · exact net256_32_ok
  · exact net256_16_ok
  · exact net512_64_ok
  · exact net512_32_ok

end Verif
