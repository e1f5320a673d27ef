import Verif.Proofs.SimdVec2
import Verif.Proofs.SimdInt2

/-!
# Machine arithmetic of `int64_t`
-/

namespace Verif.SimdVec
open Verif.FP Verif.Reduce Verif.SimdInt

/-- the values of `int64_t` -/
def In64 (z : ℤ) : Prop := -2 ^ 63 ≤ z ∧ z < 2 ^ 63

lemma toInt_ofInt64 {z : ℤ} (h : In64 z) : (BitVec.ofInt 64 z).toInt = z := by
  obtain ⟨h1, h2⟩ := h
  refine toInt_of_range (by omega) (by omega) ?_
  rw [BitVec.toNat_ofInt]
  omega

lemma eq_ofInt64 {x : BitVec 64} {z : ℤ} (h : x.toInt = z) : x = BitVec.ofInt 64 z := by
  rw [← h, BitVec.ofInt_toInt]

lemma In64_toInt (x : BitVec 64) : In64 x.toInt := by
  have := toInt_range (by omega) x
  unfold In64
  omega

lemma sadd_ofInt {a b : ℤ} (ha : In64 a) (hb : In64 b) (h : In64 (a + b)) :
    sadd (BitVec.ofInt 64 a) (BitVec.ofInt 64 b) = some (BitVec.ofInt 64 (a + b)) := by
  obtain ⟨h1, h2⟩ := h
  obtain ⟨r, e, hr⟩ := sadd_some (toInt_ofInt64 ha) (toInt_ofInt64 hb) (by omega) (by omega)
  rw [e, eq_ofInt64 hr]

lemma smul_ofInt {a b : ℤ} (ha : In64 a) (hb : In64 b) (h : In64 (a * b)) :
    smul (BitVec.ofInt 64 a) (BitVec.ofInt 64 b) = some (BitVec.ofInt 64 (a * b)) := by
  obtain ⟨h1, h2⟩ := h
  obtain ⟨r, e, hr⟩ := smul_some (toInt_ofInt64 ha) (toInt_ofInt64 hb) (by omega) (by omega)
  rw [e, eq_ofInt64 hr]

lemma add_ofInt (a b : ℤ) : BitVec.ofInt 64 a + BitVec.ofInt 64 b = BitVec.ofInt 64 (a + b) := by
  rw [BitVec.ofInt_add]

lemma mul_ofInt (a b : ℤ) : BitVec.ofInt 64 a * BitVec.ofInt 64 b = BitVec.ofInt 64 (a * b) := by
  rw [BitVec.ofInt_mul]

lemma sub_ofInt (a b : ℤ) : BitVec.ofInt 64 a - BitVec.ofInt 64 b = BitVec.ofInt 64 (a - b) := by
  rw [sub_eq_add_neg, sub_eq_add_neg, BitVec.ofInt_add, BitVec.ofInt_neg]

lemma toI64_int {r : ℤ} (h : In64 r) : toI64 (r : ℚ) = some (BitVec.ofInt 64 r) := by
  unfold toI64
  simp only [Int.floor_intCast, Int.ceil_intCast, ite_self]
  exact if_pos h

lemma and50 (x : BitVec 64) : (x &&& 0x3FFFFFFFFFFFF#64).toInt = x.toInt % 2 ^ 50 := by
  have h1 : (x &&& 0x3FFFFFFFFFFFF#64).toNat = x.toNat % 2 ^ 50 := by
    rw [BitVec.toNat_and, show (0x3FFFFFFFFFFFF#64).toNat = 2 ^ 50 - 1 by rfl, and_mask]
  have h2 := toNat_emod x
  rw [toInt_cases, h1, if_pos (by omega)]
  push_cast
  omega

/-- the split at `2^50` -/
lemma split50 (p : ℕ) (hp : 2 ≤ p) (hp' : p ≤ 2 ^ 38) (A : ℤ) (hA : In64 A) :
    In64 (A / 2 ^ 50) ∧ In64 (2 ^ 50 % (p : ℤ)) ∧ In64 (A / 2 ^ 50 * (2 ^ 50 % (p : ℤ))) ∧
    |A / 2 ^ 50 * (2 ^ 50 % (p : ℤ)) + A % 2 ^ 50| ≤ 2 ^ 51 + 2 ^ 50 ∧
    (p : ℤ) ∣ A - (A / 2 ^ 50 * (2 ^ 50 % (p : ℤ)) + A % 2 ^ 50) := by
  obtain ⟨hA1, hA2⟩ := hA
  have hA0 := (Int.mul_ediv_add_emod A (2^50))
  set q := A / 2 ^ 50 with hq
  set s := A % 2 ^ 50 with hs
  set w : ℤ := 2 ^ 50 % p with hw
  have hs1 : 0 ≤ s := Int.emod_nonneg _ (by norm_num)
  have hs2 : s < 2 ^ 50 := Int.emod_lt_of_pos _ (by norm_num)
  have hq1 : -2 ^ 13 ≤ q := by omega
  have hq2 : q < 2 ^ 13 := by omega
  have hp0 : (0:ℤ) < p := by exact_mod_cast (by omega : 0 < p)
  have hw1 : 0 ≤ w := Int.emod_nonneg _ hp0.ne'
  have hw2 : w < p := Int.emod_lt_of_pos _ hp0
  have hp'' : (p:ℤ) ≤ 2 ^ 38 := by exact_mod_cast hp'
  have hqw : |q * w| ≤ 2 ^ 13 * 2 ^ 38 := by
    rw [abs_mul]
    have : |q| ≤ 2 ^ 13 := by rw [abs_le]; constructor <;> linarith
    have : |w| ≤ 2 ^ 38 := by rw [abs_le]; constructor <;> linarith
    gcongr
  rw [abs_le] at hqw
  refine ⟨⟨by omega, by omega⟩, ⟨by omega, by omega⟩, ⟨by omega, by omega⟩, ?_, ?_⟩
  · rw [abs_le]; constructor <;> linarith
  · have : (p:ℤ) ∣ 2 ^ 50 - w := Int.dvd_self_sub_emod
    rw [← hA0, show 2 ^ 50 * q + s - (q * w + s) = (2 ^ 50 - w) * q by ring]
    exact Dvd.dvd.mul_right this q

lemma canon_congr {p : ℕ} {mn a b : ℤ} (h : (p : ℤ) ∣ a - b) : canon p mn a = canon p mn b := by
  unfold canon
  congr 1
  refine Int.emod_eq_emod_iff_emod_sub_eq_zero.2 (Int.emod_eq_zero_of_dvd ?_)
  rw [show a - mn - (b - mn) = a - b by ring]; exact h

lemma red64_spec (p : ℕ) (hp : 2 ≤ p) (hp' : p ≤ 2 ^ 38) (mn mx : ℤ) (hmm : mx - mn = p - 1)
    (hmin : mn ≤ 0) (hmax : 1 ≤ mx) (A : ℤ) (hA : In64 A) :
    red64 p mn mx (BitVec.ofInt 64 A) = some (BitVec.ofInt 64 (canon p mn A)) := by
  obtain ⟨h1, h2, h3, h4, h5⟩ := split50 p hp hp' A hA
  have hp0 : (p : ℤ) ≤ 2 ^ 38 := by exact_mod_cast hp'
  have e1 : (BitVec.ofInt 64 A).sshiftRight 50 = BitVec.ofInt 64 (A / 2 ^ 50) :=
    eq_ofInt64 (by rw [toInt_sshr, toInt_ofInt64 hA])
  have e2 : BitVec.ofInt 64 A &&& 0x3FFFFFFFFFFFF#64 = BitVec.ofInt 64 (A % 2 ^ 50) :=
    eq_ofInt64 (by rw [and50, toInt_ofInt64 hA])
  have h6 : In64 (A % 2 ^ 50) := by unfold In64; omega
  unfold red64
  simp only [e1, e2]
  rw [smul_ofInt h1 h2 h3]
  set z := A / 2 ^ 50 * (2 ^ 50 % (p : ℤ)) + A % 2 ^ 50 with hz
  have hzb := abs_le.1 h4
  have h7 : In64 z := by unfold In64; omega
  simp only [Option.bind_eq_bind, Option.bind_some]
  rw [sadd_ofInt h3 h6 h7]
  simp only [Option.bind_some]
  rw [← hz, toInt_ofInt64 h7, rnd_int 53 (by norm_num) z (by omega)]
  obtain ⟨r, e, r1, r2, r3⟩ := reduceHelperF_spec 53 p hp (by norm_num) mn mx hmm hmin hmax z (by omega)
  rw [e, toI64_int (by unfold In64; omega), eq_canon hmm r1 r2 r3, canon_congr h5]

lemma lanes1_eq {k : ℕ} {α β : Type} {f : α → Option β} {a : Fin k → α} {r : Fin k → β}
    (h : ∀ i, f (a i) = some (r i)) : lanes1 f a = some r := by
  unfold lanes1
  have hs : ∀ i, (f (a i)).isSome := fun i => by rw [h i]; rfl
  rw [dif_pos hs]
  congr 1
  funext i
  simp [h i]

lemma mul64_eq {k : ℕ} (dq : Bool) {a b : Fin k → ℤ} (h : ∀ l, In64 (a l) ∧ In64 (b l) ∧ In64 (a l * b l)) :
    mul64 dq (fun l => BitVec.ofInt 64 (a l)) (fun l => BitVec.ofInt 64 (b l))
      = some fun l => BitVec.ofInt 64 (a l * b l) := by
  unfold mul64
  split_ifs
  · unfold Intr.mullo
    congr 1; funext l; exact mul_ofInt _ _
  · unfold mullo64 lanes
    have e : ∀ l, smul (BitVec.ofInt 64 (a l)) (BitVec.ofInt 64 (b l)) = some (BitVec.ofInt 64 (a l * b l)) :=
      fun l => smul_ofInt (h l).1 (h l).2.1 (h l).2.2
    have hs : ∀ l, (smul (BitVec.ofInt 64 (a l)) (BitVec.ofInt 64 (b l))).isSome := fun l => by rw [e l]; rfl
    rw [dif_pos hs]
    congr 1
    funext l
    simp [e l]

lemma mod64_spec {k : ℕ} (fma dq : Bool) (bits : ℚ → ℚ → ℚ) (p : ℕ) (hp : 2 ≤ p) (hp' : p ≤ 2 ^ 38) (mn mx : ℤ)
    (hmm : mx - mn = p - 1) (hmin : mn ≤ 0) (hmax : 1 ≤ mx) (A : Fin k → ℤ) (hA : ∀ l, In64 (A l)) :
    mod64 fma dq bits p mn mx (fun l => BitVec.ofInt 64 (A l)) = some fun l => BitVec.ofInt 64 (canon p mn (A l)) := by
  have hp0 : (p : ℤ) ≤ 2 ^ 38 := by exact_mod_cast hp'
  have e1 : sra64 50 (fun l => BitVec.ofInt 64 (A l)) = fun l => BitVec.ofInt 64 (A l / 2 ^ 50) := by
    funext l
    exact eq_ofInt64 (by rw [sra64_spec 50 (by omega), toInt_ofInt64 (hA l)])
  have e2 : Intr.vand (fun l => BitVec.ofInt 64 (A l)) (Intr.set1 0x3FFFFFFFFFFFF#64)
      = fun l => BitVec.ofInt 64 (A l % 2 ^ 50) := by
    funext l
    exact eq_ofInt64 (by simp only [Intr.vand, Intr.set1]; rw [and50, toInt_ofInt64 (hA l)])
  unfold mod64
  simp only [e1, e2]
  have e3 : mul64 dq (fun l => BitVec.ofInt 64 (A l / 2 ^ 50)) (Intr.set1 (BitVec.ofInt 64 (2 ^ 50 % (p : ℤ))))
      = some fun l => BitVec.ofInt 64 (A l / 2 ^ 50 * (2 ^ 50 % (p : ℤ))) :=
    mul64_eq dq (b := fun _ => 2 ^ 50 % (p : ℤ)) fun l => by
      obtain ⟨h1, h2, h3, h4, h5⟩ := split50 p hp hp' (A l) (hA l)
      exact ⟨h1, h2, h3⟩
  rw [e3]
  simp only [Option.bind_eq_bind, Option.bind_some]
  refine lanes1_eq fun l => ?_
  obtain ⟨h1, h2, h3, h4, h5⟩ := split50 p hp hp' (A l) (hA l)
  simp only [Intr.add]
  rw [add_ofInt, add_comm]
  set z := A l / 2 ^ 50 * (2 ^ 50 % (p : ℤ)) + A l % 2 ^ 50 with hz
  have hzb := abs_le.1 h4
  have h7 : In64 z := by unfold In64; omega
  rw [toInt_ofInt64 h7, rnd_int 53 (by norm_num) z (by omega)]
  obtain ⟨r, e, r1, r2, r3⟩ := modF_spec fma bits 53 p hp (by norm_num) mn mx hmm hmin hmax z (by omega) (by omega)
    (fun _ => by omega)
  rw [e, toI64_int (by unfold In64; omega), eq_canon hmm r1 r2 r3, canon_congr h5]

lemma cmpgt_and {k : ℕ} {c x y : Fin k → ℤ} (h : ∀ l, In64 (c l) ∧ In64 (x l)) :
    Intr.vand (Intr.cmpgt (fun l => BitVec.ofInt 64 (c l)) (fun l => BitVec.ofInt 64 (x l)))
      (fun l => BitVec.ofInt 64 (y l)) = fun l => BitVec.ofInt 64 (if c l > x l then y l else 0) := by
  funext l
  simp only [Intr.vand, Intr.cmpgt, BitVec.slt, toInt_ofInt64 (h l).1, toInt_ofInt64 (h l).2, gt_iff_lt, decide_eq_true_eq]
  split_ifs
  · exact BitVec.allOnes_and
  · simp

lemma addv_eq {k : ℕ} (a b : Fin k → ℤ) :
    some (Intr.add (fun l => BitVec.ofInt 64 (a l)) (fun l => BitVec.ofInt 64 (b l)))
      = some fun l => BitVec.ofInt 64 (a l + b l) := by
  congr 1; funext l; exact add_ofInt _ _

lemma subv_eq {k : ℕ} (a b : Fin k → ℤ) :
    some (Intr.sub (fun l => BitVec.ofInt 64 (a l)) (fun l => BitVec.ofInt 64 (b l)))
      = some fun l => BitVec.ofInt 64 (a l - b l) := by
  congr 1; funext l; exact sub_ofInt _ _

lemma fmadd64_eq {k : ℕ} (dq : Bool) {c a b : Fin k → ℤ} (h : ∀ l, In64 (a l) ∧ In64 (b l) ∧ In64 (a l * b l)) :
    (mul64 dq (fun l => BitVec.ofInt 64 (a l)) (fun l => BitVec.ofInt 64 (b l))).map
      (Intr.add (fun l => BitVec.ofInt 64 (c l))) = some fun l => BitVec.ofInt 64 (a l * b l + c l) := by
  rw [mul64_eq dq h]
  simp only [Option.map_some, Option.some.injEq]
  funext l
  simp only [Intr.add]
  rw [add_ofInt, add_comm]

lemma vor_eq {k : ℕ} {a b : Fin k → ℤ} (h : ∀ l, a l = 0 ∨ b l = 0) :
    Intr.vor (fun l => BitVec.ofInt 64 (a l)) (fun l => BitVec.ofInt 64 (b l)) = fun l => BitVec.ofInt 64 (a l + b l) := by
  funext l
  simp only [Intr.vor]
  rcases h l with e | e <;> simp [e]

/-- `int64_t` -/
lemma sound_i64 (fma dq : Bool) (bits : ℚ → ℚ → ℚ) (vs p : ℕ) (mn mx : ℤ) (fred : BitVec 64 → BitVec 64)
    (hvs : 0 < vs) (hp : 2 ≤ p) (hp' : p ≤ 2 ^ 38) (hmm : mx - mn = p - 1) (hmin : mn ≤ 0) (hmax : 1 ≤ mx) :
    Sound (i64Arith fma dq bits vs p mn mx fred) (BitVec.ofInt 64) p mn mx In64 where
  sz := by simp [i64Arith]
  vs := hvs
  chr := rfl
  negp := rfl
  zero := rfl
  min := rfl
  max := rfl
  red z hz := red64_spec p hp hp' mn mx hmm hmin hmax z hz
  vmod z hz := mod64_spec fma dq bits p hp hp' mn mx hmm hmin hmax z hz
  add a b ha hb h := sadd_ofInt ha hb h
  sub a b ha hb h := by
    simp only [i64Arith, toInt_ofInt64 ha, toInt_ofInt64 hb]
    unfold In64 at h
    rw [if_pos h, sub_ofInt]
  mul a b ha hb h := smul_ofInt ha hb h
  lt a b ha hb := by
    simp only [i64Arith, BitVec.slt, toInt_ofInt64 ha, toInt_ofInt64 hb]
  vadd a b _ := addv_eq a b
  vsub a b _ := subv_eq a b
  vmul a b h := mul64_eq dq h
  vfmadd c a b h := fmadd64_eq dq (fun l => ⟨(h l).1, (h l).2.1, (h l).2.2.1⟩)
  vandGt c x y h := cmpgt_and h
  vandLt c x y h := cmpgt_and (fun l => ⟨(h l).2, (h l).1⟩)
  vor a b h := vor_eq h

end Verif.SimdVec
