import Verif.Model.IGemm
import Verif.Proofs.Checkers
import Mathlib.Data.ZMod.Basic
import Mathlib.Algebra.Order.BigOperators.Group.Finset

/-!
# Product of matrices of 64-bit integers: proofs
-/

namespace Verif.IG

open Finset Verif.FF

/-! ## Arithmetic -/

/-- signed 32-bit values -/
def Fits (x : ℤ) : Prop := -2 ^ 31 ≤ x ∧ x < 2 ^ 31

/-- signed 64-bit values -/
def I64 (x : ℤ) : Prop := -2 ^ 63 ≤ x ∧ x < 2 ^ 63

/-- residues modulo `2 ^ 64` -/
abbrev Z64 := ZMod (2 ^ 64)

lemma wrap_cast (x : ℤ) : ((wrap x : ℤ) : Z64) = (x : Z64) := by
  refine (ZMod.intCast_eq_intCast_iff _ _ _).2 ?_
  exact Int.bmod_emod

lemma wrap_range (x : ℤ) : I64 (wrap x) := by
  unfold wrap I64
  rw [Int.bmod_def]
  constructor <;> split_ifs <;> omega

lemma I64.eq {x y : ℤ} (hx : I64 x) (hy : I64 y) (h : (x : Z64) = (y : Z64)) : x = y := by
  have := (ZMod.intCast_eq_intCast_iff _ _ _).1 h
  unfold Int.ModEq at this
  unfold I64 at hx hy
  push_cast at this
  omega

lemma wrap_eq {x : ℤ} (h : I64 x) : wrap x = x := (wrap_range x).eq h (wrap_cast x)

lemma lo32_eq {x : ℤ} (h : Fits x) : lo32 x = x := by
  unfold lo32
  unfold Fits at h
  rw [Int.bmod_def]
  split_ifs <;> omega

lemma Run_chk {x : ℤ} {m : Mem ℤ} {Q : ℤ → Mem ℤ → Prop} (h : I64 x) (hQ : Q x m) : Run (chk x) m Q := by
  unfold chk
  unfold I64 at h
  rw [if_pos h, Run_pure]; exact hQ

lemma I64_of_abs {x : ℤ} (h : |x| < 2 ^ 63) : I64 x := by
  have := abs_lt.1 h
  exact ⟨by omega, by omega⟩

lemma Fits_of_abs {x : ℤ} (h : |x| < 2 ^ 31) : Fits x := by
  have := abs_lt.1 h
  exact ⟨by omega, by omega⟩

lemma Fits.i64 {x : ℤ} (h : Fits x) : I64 x := by
  unfold Fits at h
  exact ⟨by omega, by omega⟩

lemma Fits.mul {x y : ℤ} (h : Fits x) (h' : Fits y) : I64 (x * y) := by
  have h1 : |x| ≤ 2 ^ 31 := abs_le.2 ⟨by have := h.1; omega, by have := h.2; omega⟩
  have h2 : |y| ≤ 2 ^ 31 := abs_le.2 ⟨by have := h'.1; omega, by have := h'.2; omega⟩
  apply I64_of_abs
  rw [abs_mul]
  have := mul_le_mul h1 h2 (abs_nonneg _) (by norm_num)
  omega

lemma fmaddx_range (c a b : Vec) (l : ℕ) : I64 (fmaddx c a b l) := wrap_range _

lemma fmaddx_cast {c a b : Vec} {l : ℕ} (ha : Fits (a l)) (hb : Fits (b l)) :
    ((fmaddx c a b l : ℤ) : Z64) = (c l : Z64) + (a l : Z64) * (b l : Z64) := by
  simp only [fmaddx, vadd, mulx]
  rw [wrap_cast, lo32_eq ha, lo32_eq hb]
  push_cast; rfl

/-- What is needed of one entry of the result: row `a`, column `b`, previous value `c`. -/
structure Good (K : Kind) (alpha : ℤ) (depth : ℕ) (a b : ℕ → ℤ) (c : ℤ) : Prop where
  fa : ∀ k < depth, Fits (a k)
  fb : ∀ k < depth, Fits (b k)
  bd : |c| + ∑ k ∈ range depth, |alpha * (a k * b k)| < 2 ^ 63
  kind : (K = .one ∧ alpha = 1) ∨ (K = .mone ∧ alpha = -1) ∨
    (K = .other ∧ Fits alpha ∧ (∀ k < depth, Fits (alpha * a k)) ∧ ∑ k ∈ range depth, |a k * b k| < 2 ^ 31)

section
variable {K : Kind} {alpha : ℤ} {depth : ℕ} {a b : ℕ → ℤ} {c : ℤ}

/-- the entry of the result -/
def dot (depth : ℕ) (a b : ℕ → ℤ) : ℤ := ∑ k ∈ range depth, a k * b k

lemma abs_dot_le (t depth : ℕ) (ht : t ≤ depth) : |dot t a b| ≤ ∑ k ∈ range depth, |a k * b k| := by
  refine le_trans (abs_sum_le_sum_abs _ _) ?_
  exact sum_le_sum_of_subset_of_nonneg (range_mono ht) (fun _ _ _ => abs_nonneg _)

lemma Good.abs (h : Good K alpha depth a b c) : ∑ k ∈ range depth, |a k * b k| < 2 ^ 63 := by
  have h1 := h.bd
  have h2 := abs_nonneg c
  rcases h.kind with ⟨_, rfl⟩ | ⟨_, rfl⟩ | ⟨_, _, _, h3⟩
  · simp only [one_mul] at h1; omega
  · simp only [neg_mul, one_mul, abs_neg] at h1; omega
  · omega

lemma Good.dot64 (h : Good K alpha depth a b c) : I64 (dot depth a b) := by
  refine I64_of_abs ?_
  have h1 := abs_dot_le (a := a) (b := b) depth depth le_rfl
  have := h.abs
  omega

lemma Good.part (h : Good K alpha depth a b c) (t : ℕ) (ht : t ≤ depth) : I64 (c + alpha * dot t a b) := by
  refine I64_of_abs (lt_of_le_of_lt ?_ h.bd)
  refine le_trans (abs_add_le _ _) (add_le_add le_rfl ?_)
  unfold dot
  rw [mul_sum]
  refine le_trans (abs_sum_le_sum_abs _ _) ?_
  exact sum_le_sum_of_subset_of_nonneg (range_mono ht) (fun _ _ _ => abs_nonneg _)

lemma Good.comb (h : Good K alpha depth a b c) {R C : Vec} {l : ℕ} (hR : R l = c) (h1 : I64 (C l))
    (h2 : (C l : Z64) = ∑ k ∈ range depth, (a k : Z64) * (b k : Z64)) : comb K alpha R C l = c + alpha * dot depth a b := by
  have h3 : C l = dot depth a b := by
    refine h1.eq h.dot64 ?_
    rw [h2]; unfold dot; push_cast; rfl
  have h4 := h.part depth le_rfl
  rcases h.kind with ⟨rfl, rfl⟩ | ⟨rfl, rfl⟩ | ⟨rfl, h5, h6, h7⟩
  · simp only [IG.comb, vadd]
    rw [hR, h3]
    rw [one_mul] at h4 ⊢
    exact wrap_eq h4
  · simp only [IG.comb, vsub]
    rw [hR, h3]
    rw [neg_one_mul, ← sub_eq_add_neg] at h4 ⊢
    exact wrap_eq h4
  · simp only [IG.comb, fmaddx, vadd, mulx, set1]
    rw [hR, h3, lo32_eq h5, lo32_eq]
    · exact wrap_eq h4
    · refine Fits_of_abs ?_
      have h1 := abs_dot_le (a := a) (b := b) depth depth le_rfl
      omega

end

/-! ## Vector accesses -/

lemma Run_vload {v p : ℕ} {m : Mem ℤ} {Q : Vec → Mem ℤ → Prop} (hok : ∀ l < v, m.ok (p + l) = true)
    (hQ : ∀ x : Vec, (∀ l < v, x l = m.val (p + l)) → Q x m) : Run (vload v p) m Q := by
  unfold vload
  refine (Run_iter (fun t x m' => m' = m ∧ ∀ l < t, x l = m.val (p + l)) ⟨rfl, by simp⟩ ?_).mono ?_
  · rintro t x m' ht ⟨rfl, hx⟩
    simp only [Run_bind, Run_load, Run_pure]
    refine ⟨hok t ht, by trivial, fun l hl => ?_⟩
    by_cases e : l = t
    · subst e; rw [Function.update_self]
    · rw [Function.update_of_ne e]; exact hx l (by omega)
  · rintro x m' ⟨rfl, hx⟩
    exact hQ x hx

/-- the entries satisfying `P` have their new value -/
noncomputable def mix (P : ℕ → ℕ → Prop) (T V : ℕ → ℕ → ℤ) : ℕ → ℕ → ℤ := fun j i => by
  classical exact if P j i then T j i else V j i

lemma mix_pos {P : ℕ → ℕ → Prop} {T V : ℕ → ℕ → ℤ} {j i : ℕ} (h : P j i) : mix P T V j i = T j i := by
  unfold mix; simp [h]

lemma mix_neg {P : ℕ → ℕ → Prop} {T V : ℕ → ℕ → ℤ} {j i : ℕ} (h : ¬ P j i) : mix P T V j i = V j i := by
  unfold mix; simp [h]

lemma mix_iff {P P' : ℕ → ℕ → Prop} {T V : ℕ → ℕ → ℤ} {j i : ℕ} (h : P j i ↔ P' j i) : mix P T V j i = mix P' T V j i := by
  by_cases hp : P' j i
  · rw [mix_pos (h.2 hp), mix_pos hp]
  · rw [mix_neg (fun hc => hp (h.1 hc)), mix_neg hp]

section
variable {m0 m : Mem ℤ} {W : Win} {P : ℕ → ℕ → Prop} {T V : ℕ → ℕ → ℤ}

/-- reading a part of a row of `C` that is not yet done -/
lemma vload_mix {v j i p : ℕ} {Q : Vec → Mem ℤ → Prop} (h : On m0 m W (mix P T V)) (hp : p = W.adr j i) (hj : j < W.r) (hi : i + v ≤ W.c)
    (hn : ∀ l < v, ¬ P j (i + l)) (hQ : ∀ x : Vec, (∀ l < v, x l = V j (i + l)) → Q x m) : Run (vload v p) m Q := by
  subst hp
  have e : ∀ l, W.adr j i + l = W.adr j (i + l) := fun l => by simp only [Win.adr]; omega
  refine Run_vload (fun l hl => ?_) (fun x hx => hQ x (fun l hl => ?_))
  · rw [e]; exact h.ok'.adr hj (by omega)
  · rw [hx l hl, e, h.val hj (by omega), mix_neg (hn l hl)]

/-- writing a part of a row of `C` -/
lemma vstore_mix {v j i p : ℕ} {x : Vec} (h : On m0 m W (mix P T V)) (hp : p = W.adr j i) (hj : j < W.r) (hi : i + v ≤ W.c)
    (hx : ∀ l < v, x l = T j (i + l)) :
    Run (vstore v p x) m (fun _ m' => On m0 m' W (mix (fun j' i' => P j' i' ∨ j' = j ∧ i ≤ i' ∧ i' < i + v) T V)) := by
  subst hp
  unfold vstore
  have e : ∀ l, W.adr j i + l = W.adr j (i + l) := fun l => by simp only [Win.adr]; omega
  refine (Run_loop (fun t m' => On m0 m' W (mix (fun j' i' => P j' i' ∨ j' = j ∧ i ≤ i' ∧ i' < i + t) T V)) ?_ ?_)
  · refine h.congr (fun j' _ i' _ => mix_iff ?_)
    constructor
    · exact Or.inl
    · rintro (h | h)
      · exact h
      · omega
  · intro t m' ht h'
    rw [e, Run_store]
    refine ⟨h'.ok'.adr hj (by omega), h'.wf, h'.ok, h'.ld, ?_⟩
    refine ⟨h'.step.ok, h'.step.next, fun j' hj' i' hi' => ?_, fun b hb hn => ?_⟩
    · rw [Mem.set_val]
      by_cases hc : j' = j ∧ i' = i + t
      · obtain ⟨rfl, rfl⟩ := hc
        rw [Function.update_self, hx t ht, mix_pos (Or.inr (by omega))]
      · rw [Function.update_of_ne, h'.val hj' hi']
        · refine mix_iff ?_
          constructor
          · rintro (h | h)
            · exact Or.inl h
            · exact Or.inr (by omega)
          · rintro (h | h)
            · exact Or.inl h
            · exact Or.inr (by omega)
        · intro hc2
          have := h'.inj j' hj' i' hi' j hj (i + t) (by omega) hc2
          exact hc this
    · rw [Mem.set_val, Function.update_of_ne, h'.step.frame b hb hn]
      rintro rfl
      exact hn (Win.Has_adr hj (by omega))

lemma load_mix {j i p : ℕ} {Q : ℤ → Mem ℤ → Prop} (h : On m0 m W (mix P T V)) (hp : p = W.adr j i) (hj : j < W.r) (hi : i < W.c)
    (hn : ¬ P j i) (hQ : Q (V j i) m) : Run (load p) m Q := by
  subst hp
  rw [Run_load]
  refine ⟨h.ok'.adr hj hi, ?_⟩
  rw [h.val hj hi, mix_neg hn]; exact hQ

lemma store_mix {j i p : ℕ} {x : ℤ} (h : On m0 m W (mix P T V)) (hp : p = W.adr j i) (hj : j < W.r) (hi : i < W.c) (hx : x = T j i) :
    Run (store p x) m (fun _ m' => On m0 m' W (mix (fun j' i' => P j' i' ∨ j' = j ∧ i' = i) T V)) := by
  have := vstore_mix (v := 1) (x := fun _ => x) h hp hj (by omega) (fun l hl => by
    obtain rfl : l = 0 := by omega
    exact hx)
  simp only [vstore, loop, Run_bind, Run_pure, Nat.add_zero] at this
  refine this.mono (fun _ m' h' => h'.congr (fun j' _ i' _ => mix_iff ?_))
  constructor
  · rintro (h | h)
    · exact Or.inl h
    · exact Or.inr (by omega)
  · rintro (h | h)
    · exact Or.inl h
    · exact Or.inr (by omega)

lemma mix_congr {P' : ℕ → ℕ → Prop} (h : On m0 m W (mix P T V)) (e : ∀ j < W.r, ∀ i < W.c, (P j i ↔ P' j i)) :
    On m0 m W (mix P' T V) := h.congr (fun j hj i hi => mix_iff (e j hj i hi))

end

end Verif.IG
