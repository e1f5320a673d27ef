import Verif.Proofs.TrsmMP3
import Verif.Props.MultiPrec

/-!
# C112: triangular systems modulo a large integer
-/

namespace Verif.Props

open Verif.MP Verif.RNS Verif.FF Verif.Lazy Verif.Spec

/-- the entries are reduced modulo `p` -/
def ReducedMod (p r c ld : ℕ) (A : Arr ℤ) : Prop := ∀ i < r, ∀ j < c, 0 ≤ A.get (i * ld + j) ∧ A.get (i * ld + j) < p

instance (p r c ld : ℕ) (A : Arr ℤ) : Decidable (ReducedMod p r c ld A) := by unfold ReducedMod; infer_instance

/-- the primes drawn, the first ones above a number of `pb - 1` bits, are close to it -/
def CloseTo (E : Env) (pb : ℕ) : Prop := ∀ i, E.cand pb i < 2 ^ (pb - 1) + 2 ^ (pb - 6)

section sizes
variable {p K : ℕ}

lemma sizes_mk {s : ℕ} (LP n0 : ℕ) (hs : Nat.size (max K (bitsz p / 20)) = s) (hp : p ≤ 2 ^ LP) (few : n0 ≤ 1024) (bits : 3 ≤ (53 - s) / 2)
    (enough : 4 * 2 ^ LP * 2 ^ LP * 2 ^ s * (1 + n0 * (2 ^ ((53 - s) / 2 - 1) + 2 ^ ((53 - s) / 2 - 6))) ≤ (2 ^ ((53 - s) / 2 - 2)) ^ n0)
    (exact : n0 * (2 ^ ((53 - s) / 2 - 1) + 2 ^ ((53 - s) / 2 - 6)) ^ 2 ≤ 2 ^ 53) :
    ∃ n0, Sizes p K (2 ^ (trsmBits p K - 1) + 2 ^ (trsmBits p K - 6)) n0 := by
  have e : trsmBits p K = (53 - s) / 2 := by unfold trsmBits; rw [hs]
  have hK : K ≤ 2 ^ s := by
    have := Nat.lt_size_self (max K (bitsz p / 20))
    rw [hs] at this
    omega
  refine ⟨n0, few, by rw [e]; exact bits, ?_, by rw [e]; exact exact⟩
  rw [e]
  refine le_trans (Nat.mul_le_mul_right _ ?_) enough
  exact Nat.mul_le_mul (Nat.mul_le_mul (Nat.mul_le_mul_left _ hp) hp) hK

/-- 600 moduli are enough for moduli `p` of 4096 bits and orders smaller than a million -/
lemma sizes_of (hK : K < 2 ^ 20) (hp : p < 2 ^ 4096) : ∃ n0, Sizes p K (2 ^ (trsmBits p K - 1) + 2 ^ (trsmBits p K - 6)) n0 := by
  have hz : Nat.size p ≤ 4096 := Nat.size_le.2 hp
  have hb : bitsz p ≤ 4096 := by unfold bitsz; rw [Int.natAbs_natCast]; omega
  have hl : Nat.size p ≤ bitsz p := by unfold bitsz; rw [Int.natAbs_natCast]; omega
  have hs : Nat.size (max K (bitsz p / 20)) ≤ 20 := Nat.size_le.2 (by omega)
  have hlt : bitsz p / 20 < 2 ^ Nat.size (max K (bitsz p / 20)) := lt_of_le_of_lt (le_max_right _ _) (Nat.lt_size_self _)
  have pw : ∀ L, bitsz p ≤ L → p ≤ 2 ^ L := fun L h => (Nat.lt_size_self p).le.trans (Nat.pow_le_pow_right (by norm_num) (hl.trans h))
  generalize e : Nat.size (max K (bitsz p / 20)) = s at hs hlt
  interval_cases s
  · exact sizes_mk 19 3 e (pw _ (by omega)) (by decide) (by decide) (by decide) (by decide)
  · exact sizes_mk 39 5 e (pw _ (by omega)) (by decide) (by decide) (by decide) (by decide)
  · exact sizes_mk 79 9 e (pw _ (by omega)) (by decide) (by decide) (by decide) (by decide)
  · exact sizes_mk 159 16 e (pw _ (by omega)) (by decide) (by decide) (by decide) (by decide)
  · exact sizes_mk 319 31 e (pw _ (by omega)) (by decide) (by decide) (by decide) (by decide)
  · exact sizes_mk 639 60 e (pw _ (by omega)) (by decide) (by decide) (by decide +kernel) (by decide)
  · exact sizes_mk 1279 124 e (pw _ (by omega)) (by decide) (by decide) (by decide +kernel) (by decide)
  · exact sizes_mk 2559 246 e (pw _ (by omega)) (by decide) (by decide) (by decide +kernel) (by decide)
  · exact sizes_mk 4096 412 e (pw _ hb) (by decide) (by decide) (by decide +kernel) (by decide)
  · exact sizes_mk 4096 412 e (pw _ hb) (by decide) (by decide) (by decide +kernel) (by decide)
  · exact sizes_mk 4096 434 e (pw _ hb) (by decide) (by decide) (by decide +kernel) (by decide)
  · exact sizes_mk 4096 434 e (pw _ hb) (by decide) (by decide) (by decide +kernel) (by decide)
  · exact sizes_mk 4096 458 e (pw _ hb) (by decide) (by decide) (by decide +kernel) (by decide)
  · exact sizes_mk 4096 458 e (pw _ hb) (by decide) (by decide) (by decide +kernel) (by decide)
  · exact sizes_mk 4096 485 e (pw _ hb) (by decide) (by decide) (by decide +kernel) (by decide)
  · exact sizes_mk 4096 485 e (pw _ hb) (by decide) (by decide) (by decide +kernel) (by decide)
  · exact sizes_mk 4096 515 e (pw _ hb) (by decide) (by decide) (by decide +kernel) (by decide)
  · exact sizes_mk 4096 515 e (pw _ hb) (by decide) (by decide) (by decide +kernel) (by decide)
  · exact sizes_mk 4096 550 e (pw _ hb) (by decide) (by decide) (by decide +kernel) (by decide)
  · exact sizes_mk 4096 550 e (pw _ hb) (by decide) (by decide) (by decide +kernel) (by decide)
  · exact sizes_mk 4096 589 e (pw _ hb) (by decide) (by decide) (by decide +kernel) (by decide)

end sizes

section ftrsm
variable {E : Env} {gs : GemmFam} {p : ℕ} {side : Side} {u : Uplo} {ta : Tr} {d : Diag} {M N : ℕ} {alpha : ℤ} {A B : Arr ℤ} {lda ldb : ℕ}

/-- C112: `B := alpha op(A)⁻¹ B`, or `alpha B op(A)⁻¹`, modulo `p`, prime or not: the result is reduced, satisfies the triangular system modulo `p`, and
nothing outside the window of `B` changes.  The other triangle of `A` is read, and must be reduced too, but has no influence on the result. -/
theorem C112_modular_ftrsm (hp : 2 ≤ p) (hp' : p < 2 ^ 4096) (hK : sideDim side M N < 2 ^ 20)
    (hE : EnvOk E (trsmBits p (sideDim side M N))) (hc : CloseTo E (trsmBits p (sideDim side M N))) (hg : ∀ j ≤ sideDim side M N, GemmFamOk gs j)
    (hr : ReturnsMod E (4 * p * p * sideDim side M N) (trsmBits p (sideDim side M N)))
    (lA : InArr (sideDim side M N) (sideDim side M N) lda A) (lB : InArr M N ldb B) (hldb : N ≤ ldb)
    (rA : ReducedMod p (sideDim side M N) (sideDim side M N) lda A) (rB : ReducedMod p M N ldb B)
    (hd : d = .nonUnit → ∀ i < sideDim side M N, IsCoprime (A.get (i * lda + i)) (p : ℤ)) :
    Ok (ftrsmModZ E gs p side u ta d M N alpha A lda B ldb) (fun D => D.len = B.len ∧ ReducedMod p M N ldb D ∧
      (∀ i < M, ∀ j < N, sideMul side (sideDim side M N) (op ta (tri u d (im A lda))) (im D ldb) i j ≡ alpha * B.get (i * ldb + j) [ZMOD p]) ∧
      ∀ x, (∀ i < M, ∀ j < N, x ≠ i * ldb + j) → D.get x = B.get x) := by
  have e : sideDim side M N = trNa side M N := by cases side <;> rfl
  rw [e] at *
  obtain ⟨n0, hz⟩ := sizes_of hK hp'
  refine (ftrsmModZ_spec hp hE hc hz hg hr lA lB hldb rA rB hd).mono ?_
  rintro D ⟨h1, h2, h3⟩
  exact ⟨h1, fun i hi j hj => ⟨(h2 i hi j hj).1, (h2 i hi j hj).2.1⟩, fun i hi j hj => (h2 i hi j hj).2.2, h3⟩

end ftrsm

section examples

/-- an environment that draws two primes in turn -/
def trsmEnv : Env := ⟨fun _ i => if i % 2 = 0 then 8388617 else 16777259, 2, 2, fun _ => 7, fun _ _ => 9, fun _ k _ _ => leftToRight k⟩

lemma trsmEnv_ok : EnvOk trsmEnv 25 := by
  refine ⟨fun i => ?_, fun i => ?_, fun i => ?_, fun _ k _ _ => leftToRight_covers k⟩
  · show (if i % 2 = 0 then 8388617 else 16777259).Prime
    split_ifs <;> norm_num
  · show _ < if i % 2 = 0 then 8388617 else 16777259
    split_ifs <;> norm_num
  · show (if i % 2 = 0 then 8388617 else 16777259) < _
    split_ifs <;> norm_num

/-- modulo 12, not a prime: `X [5 3; * 7]ᵀ = 5 [1 2; 3 4]`, upper triangle, right side, leading dimensions 3 and 2; `*` is not used -/
theorem C112_example : Ok (ftrsmModZ trsmEnv gemmFam 12 .right .upper .yes .nonUnit 2 2 5 (Arr.ofList [5, 3, 0, 11, 7]) 3 (Arr.ofList [1, 2, 3, 4]) 2)
    (fun D => (5 * D.get 0 + 3 * D.get 1 ≡ 5 [ZMOD 12]) ∧ (7 * D.get 1 ≡ 10 [ZMOD 12]) ∧ (5 * D.get 2 + 3 * D.get 3 ≡ 15 [ZMOD 12]) ∧
      (7 * D.get 3 ≡ 20 [ZMOD 12])) := by
  have hb : trsmBits 12 2 = 25 := by
    have e : Nat.size 12 = 4 := by decide
    unfold trsmBits bitsz
    norm_num [e]
    decide
  refine (C112_modular_ftrsm (by norm_num) (lt_of_lt_of_le (by norm_num : 12 < 2 ^ 4) (Nat.pow_le_pow_right (by norm_num) (by norm_num))) (by norm_num [sideDim]) (by rw [show sideDim .right 2 2 = 2 from rfl, hb]; exact trsmEnv_ok)
    (by
      rw [show sideDim .right 2 2 = 2 from rfl, hb]
      intro i
      show (if i % 2 = 0 then 8388617 else 16777259) < _
      split_ifs <;> norm_num)
    (fun j _ => gemmFam_ok j) (by rw [show sideDim .right 2 2 = 2 from rfl, hb]; unfold ReturnsMod; decide +kernel) (by decide) (by decide) (by decide) (by decide) (by decide) ?_).mono ?_
  · rintro - i hi
    have hi : i < 2 := hi
    rw [Int.isCoprime_iff_gcd_eq_one]
    interval_cases i <;> decide
  · rintro D ⟨-, -, h, -⟩
    have h00 := h 0 (by decide) 0 (by decide)
    have h01 := h 0 (by decide) 1 (by decide)
    have h10 := h 1 (by decide) 0 (by decide)
    have h11 := h 1 (by decide) 1 (by decide)
    simp [sideMul, mul, sideDim, Finset.sum_range_succ, op, tri, im, Arr.ofList] at h00 h01 h10 h11
    refine ⟨?_, ?_, ?_, ?_⟩
    · rw [mul_comm 5, mul_comm 3]; exact h00
    · rw [mul_comm 7]; exact h01
    · rw [mul_comm 5, mul_comm 3]; exact h10
    · rw [mul_comm 7]; exact h11

end examples

end Verif.Props
