import Verif.Proofs.SimdVec
import Verif.Proofs.Reduce
import Verif.Proofs.SimdInt

/-!
# Machine arithmetic of the elements
-/

namespace Verif.SimdVec
open Verif.FP Verif.Reduce Verif.SimdInt

lemma quotient_err1 (prec p : ℕ) (hp : 1 ≤ p) (A : ℤ) (hA : |A| + 1 ≤ 2 ^ prec) :
    |rnd prec (A * rnd prec (1 / p)) - A / p| * p < 2 := by
  have hp0 : (0:ℚ) < p := by exact_mod_cast hp
  set u : ℚ := 1 / 2 ^ prec with hu
  have hupos : 0 < u := by positivity
  have h1 : |rnd prec (1 / (p:ℚ)) - 1 / p| ≤ u / p := by
    have := rnd_err prec (1 / (p:ℚ))
    rw [abs_of_pos (by positivity : (0:ℚ) < 1 / p)] at this
    calc _ ≤ _ := this
      _ = u / p := by rw [hu]; ring
  set i := rnd prec (1 / (p:ℚ)) with hi
  have h2 := rnd_err prec (A * i)
  have hA' : |(A:ℚ)| + 1 ≤ 2 ^ prec := by exact_mod_cast hA
  have hAu : |(A:ℚ)| * u + u ≤ 1 := by
    have := mul_le_mul_of_nonneg_right hA' hupos.le
    rw [add_mul, one_mul] at this
    calc _ ≤ _ := this
      _ = 1 := by rw [hu]; field_simp
  have habs : |i| ≤ 1 / p + u / p := by
    have := abs_sub_abs_le_abs_sub i (1 / (p:ℚ))
    rw [abs_of_pos (by positivity : (0:ℚ) < 1 / p)] at this
    linarith
  have h3 : |rnd prec (A * i) - A * i| ≤ |(A:ℚ)| * (1 / p + u / p) * u := by
    calc _ ≤ _ := h2
      _ = |(A:ℚ)| * |i| * u := by rw [abs_mul, hu]; ring
      _ ≤ _ := by gcongr
  have h4 : |A * i - A / p| ≤ |(A:ℚ)| * (u / p) := by
    rw [show (A:ℚ) * i - A / p = A * (i - 1 / p) by ring, abs_mul]
    gcongr
  have h5 : |rnd prec (A * i) - A / p| ≤ |(A:ℚ)| * (1 / p + u / p) * u + |(A:ℚ)| * (u / p) :=
    (abs_sub_le _ (A * i) _).trans (add_le_add h3 h4)
  calc |rnd prec (A * i) - A / p| * p ≤ (|(A:ℚ)| * (1 / p + u / p) * u + |(A:ℚ)| * (u / p)) * p := by gcongr
    _ = |(A:ℚ)| * u * (2 + u) := by field_simp; ring
    _ ≤ (1 - u) * (2 + u) := by gcongr; linarith
    _ < 2 := by nlinarith [mul_pos hupos hupos]

/-- one lane of the floating-point `mod` -/
lemma modF_spec (fma : Bool) (bits : ℚ → ℚ → ℚ) (prec p : ℕ) (hp : 2 ≤ p) (hprec : 1 ≤ prec) (min max : ℤ)
    (hmm : max - min = p - 1) (hmin : min ≤ 0) (hmax : 1 ≤ max) (A : ℤ) (hpp : (p : ℤ) < 2 ^ prec)
    (hA : |A| + 1 ≤ 2 ^ prec) (hA' : fma = false → |A| + p < 2 ^ prec) :
    ∃ r : ℤ, modF fma bits prec p min max A = r ∧ min ≤ r ∧ r ≤ max ∧ (p:ℤ) ∣ A - r := by
  have hp0 : (0:ℚ) < p := by exact_mod_cast (by omega : 0 < p)
  have herr := quotient_err1 prec p (by omega) A hA
  unfold modF
  set q := rnd prec (A * rnd prec (1 / p)) with hq
  set n := ⌊q⌋ with hn
  have hn1 : (n:ℚ) ≤ q := Int.floor_le q
  have hn2 : q < n + 1 := Int.lt_floor_add_one q
  have hd : |q * p - A| < 2 := by
    have : q * p - A = (q - A / p) * p := by field_simp
    rw [this, abs_mul, abs_of_pos hp0]; exact herr
  rw [abs_lt] at hd
  have hr1 : -1 ≤ A - n * p := by
    have : (-2:ℚ) < A - n * p := by
      have := mul_le_mul_of_nonneg_right hn1 hp0.le
      linarith
    have : (-2:ℤ) < A - n * p := by exact_mod_cast this
    omega
  have hr2 : A - n * p ≤ p + 1 := by
    have : (A - n * p : ℚ) < p + 2 := by
      have := mul_lt_mul_of_pos_right hn2 hp0
      linarith
    have : A - n * p < (p:ℤ) + 2 := by exact_mod_cast this
    omega
  have e2 : rnd prec ((A - n * p : ℤ) : ℚ) = ((A - n * p : ℤ) : ℚ) :=
    rnd_int prec hprec (A - n * p) (by rw [abs_le]; constructor <;> linarith)
  have e : fnmaddF fma prec A n p = ((A - n * p : ℤ) : ℚ) := by
    unfold fnmaddF fmaddF
    cases fma with
    | true =>
      simp only [if_true]
      rw [← e2]; congr 1; push_cast; ring
    | false =>
      simp only [Bool.false_eq_true, if_false]
      have hA2 := hA' rfl
      have hAb := abs_lt.1 (show |A| < 2 ^ prec - p by linarith)
      have hnp : |n * p| ≤ 2 ^ prec := by
        rw [abs_le]; constructor <;> linarith
      have hn : |n| ≤ 2 ^ prec := by
        refine le_trans ?_ hnp
        rw [abs_mul]
        exact le_mul_of_one_le_right (abs_nonneg n) (by rw [abs_of_nonneg (by omega)]; omega)
      have e3 : rnd prec (0 - (n:ℚ)) = ((-n : ℤ) : ℚ) := by
        rw [← rnd_int prec hprec (-n) (by rwa [abs_neg])]; congr 1; push_cast; ring
      have e4 : rnd prec (((-n : ℤ) : ℚ) * p) = ((-(n * p) : ℤ) : ℚ) := by
        rw [← rnd_int prec hprec (-(n * p)) (by rwa [abs_neg])]; congr 1; push_cast; ring
      rw [e3, e4, ← e2]; congr 1; push_cast; ring
  simp only [← hn, e]
  generalize hrr : A - n * p = r at hr1 hr2 ⊢
  have hdvd : (p:ℤ) ∣ A - r := ⟨n, by rw [← hrr]; ring⟩
  have rint : ∀ z : ℤ, |z| ≤ 2 ^ prec → ∀ x : ℚ, x = z → rnd prec x = z := by
    rintro z hz x rfl; exact rnd_int prec hprec z hz
  by_cases h1 : r < min
  · have hr : r = -1 := by omega
    have h1' : (r : ℚ) < (min : ℚ) := by exact_mod_cast h1
    have h2' : ¬ ((r : ℚ) > (max : ℚ)) := by rw [gt_iff_lt, Int.cast_lt]; omega
    rw [if_neg h2', if_pos h1']
    refine ⟨r + p, rint _ (by rw [abs_le]; constructor <;> linarith) _ ?_, by omega, by omega, by
      rw [show A - (r + p) = (A - r) - p by ring]; exact dvd_sub hdvd (dvd_refl _)⟩
    simp [vorF]
  · have h1' : ¬ ((r : ℚ) < (min : ℚ)) := by rw [Int.cast_lt]; exact h1
    rw [if_neg h1']
    by_cases h2 : r > max
    · have h2' : (r : ℚ) > (max : ℚ) := by exact_mod_cast h2
      rw [if_pos h2']
      refine ⟨r - p, rint _ (by rw [abs_le]; constructor <;> linarith) _ ?_, by omega, by omega, by
        rw [show A - (r - p) = (A - r) + p by ring]; exact dvd_add hdvd (dvd_refl _)⟩
      unfold vorF
      rw [if_neg (by intro h; linarith), if_pos rfl]
      push_cast; ring
    · have h2' : ¬ ((r : ℚ) > (max : ℚ)) := by rw [gt_iff_lt, Int.cast_lt]; exact h2
      rw [if_neg h2']
      refine ⟨r, rint _ (by rw [abs_le]; constructor <;> linarith) _ ?_, by omega, by omega, hdvd⟩
      simp [vorF]

lemma eq_canon {p : ℕ} {mn mx r z : ℤ} (hmm : mx - mn = p - 1) (h1 : mn ≤ r) (h2 : r ≤ mx) (h : (p : ℤ) ∣ z - r) :
    r = canon p mn z := by
  unfold canon
  obtain ⟨k, hk⟩ := h
  rw [show z - mn = (r - mn) + p * k by linarith, Int.add_mul_emod_self_left, Int.emod_eq_of_lt (by omega) (by omega)]
  ring

lemma canon_range {p : ℕ} (hp : 1 ≤ p) {mn mx : ℤ} (hmm : mx - mn = p - 1) (z : ℤ) :
    mn ≤ canon p mn z ∧ canon p mn z ≤ mx := by
  unfold canon
  have h1 := Int.emod_nonneg (z - mn) (by omega : (p : ℤ) ≠ 0)
  have h2 := Int.emod_lt_of_pos (z - mn) (by omega : (0 : ℤ) < p)
  omega

/-- What the kernels need of an element type: on the integers `z` with `In z`, represented by `ofZ z`, the machine operations
are exact and the reductions canonical. -/
structure Sound {K : Type} (E : Arith K) (ofZ : ℤ → K) (p : ℕ) (mn mx : ℤ) (In : ℤ → Prop) : Prop where
  sz : 0 < E.sz
  vs : 0 < E.vs
  chr : E.p = ofZ p
  negp : E.negp = ofZ (-p)
  zero : E.zero = ofZ 0
  min : E.min = ofZ mn
  max : E.max = ofZ mx
  red : ∀ z, In z → E.red (ofZ z) = some (ofZ (canon p mn z))
  vmod : ∀ z : Fin E.vs → ℤ, (∀ l, In (z l)) → E.vmod (fun l => ofZ (z l)) = some fun l => ofZ (canon p mn (z l))
  add : ∀ a b, In a → In b → In (a + b) → E.add (ofZ a) (ofZ b) = some (ofZ (a + b))
  sub : ∀ a b, In a → In b → In (a - b) → E.sub (ofZ a) (ofZ b) = some (ofZ (a - b))
  mul : ∀ a b, In a → In b → In (a * b) → E.mul (ofZ a) (ofZ b) = some (ofZ (a * b))
  lt : ∀ a b, In a → In b → E.lt (ofZ a) (ofZ b) = decide (a < b)
  vadd : ∀ a b : Fin E.vs → ℤ, (∀ l, In (a l + b l)) →
    E.vadd (fun l => ofZ (a l)) (fun l => ofZ (b l)) = some fun l => ofZ (a l + b l)
  vsub : ∀ a b : Fin E.vs → ℤ, (∀ l, In (a l - b l)) →
    E.vsub (fun l => ofZ (a l)) (fun l => ofZ (b l)) = some fun l => ofZ (a l - b l)
  vmul : ∀ a b : Fin E.vs → ℤ, (∀ l, In (a l) ∧ In (b l) ∧ In (a l * b l)) →
    E.vmul (fun l => ofZ (a l)) (fun l => ofZ (b l)) = some fun l => ofZ (a l * b l)
  vfmadd : ∀ c a b : Fin E.vs → ℤ, (∀ l, In (a l) ∧ In (b l) ∧ In (a l * b l) ∧ In (a l * b l + c l)) →
    E.vfmadd (fun l => ofZ (c l)) (fun l => ofZ (a l)) (fun l => ofZ (b l)) = some fun l => ofZ (a l * b l + c l)
  vandGt : ∀ c x y : Fin E.vs → ℤ, (∀ l, In (c l) ∧ In (x l)) →
    E.vandGt (fun l => ofZ (c l)) (fun l => ofZ (x l)) (fun l => ofZ (y l)) = fun l => ofZ (if c l > x l then y l else 0)
  vandLt : ∀ c x y : Fin E.vs → ℤ, (∀ l, In (c l) ∧ In (x l)) →
    E.vandLt (fun l => ofZ (c l)) (fun l => ofZ (x l)) (fun l => ofZ (y l)) = fun l => ofZ (if c l < x l then y l else 0)
  vor : ∀ a b : Fin E.vs → ℤ, (∀ l, a l = 0 ∨ b l = 0) →
    E.vor (fun l => ofZ (a l)) (fun l => ofZ (b l)) = fun l => ofZ (a l + b l)

/-- `float` and `double` -/
lemma sound_flt (fma : Bool) (bits : ℚ → ℚ → ℚ) (prec vs sz p : ℕ) (mn mx : ℤ) (fred : ℚ → ℚ) (hprec : 1 ≤ prec)
    (hvs : 0 < vs) (hsz : 0 < sz) (hp : 2 ≤ p) (hmm : mx - mn = p - 1) (hmin : mn ≤ 0) (hmax : 1 ≤ mx) :
    Sound (fltArith fma bits prec vs sz p mn mx fred) (fun z : ℤ => (z : ℚ)) p mn mx (fun z => |z| + p < 2 ^ prec) where
  sz := hsz
  vs := hvs
  chr := by simp [fltArith]
  negp := by simp [fltArith]
  zero := by simp [fltArith]
  min := rfl
  max := rfl
  red z hz := by
    obtain ⟨r, h1, h2, h3, h4⟩ := reduceHelperF_spec prec p hp hprec mn mx hmm hmin hmax z hz
    simp only [fltArith, h1, eq_canon hmm h2 h3 h4]
  vmod z hz := by
    simp only [fltArith, Option.some.injEq]
    funext l
    have := hz l
    obtain ⟨r, h1, h2, h3, h4⟩ := modF_spec fma bits prec p hp hprec mn mx hmm hmin hmax (z l)
      (by have := abs_nonneg (z l); omega) (by omega) (fun _ => hz l)
    rw [h1, eq_canon hmm h2 h3 h4]
  add a b _ _ h := by
    simp only [fltArith, Option.some.injEq]
    rw [← rnd_int prec hprec (a + b) (by omega)]; push_cast; rfl
  sub a b _ _ h := by
    simp only [fltArith, Option.some.injEq]
    rw [← rnd_int prec hprec (a - b) (by omega)]; push_cast; rfl
  mul a b _ _ h := by
    simp only [fltArith, Option.some.injEq]
    rw [← rnd_int prec hprec (a * b) (by omega)]; push_cast; rfl
  lt a b _ _ := by simp [fltArith]
  vadd a b h := by
    simp only [fltArith, Option.some.injEq]
    funext l
    have := h l
    rw [← rnd_int prec hprec (a l + b l) (by omega)]; push_cast; rfl
  vsub a b h := by
    simp only [fltArith, Option.some.injEq]
    funext l
    have := h l
    rw [← rnd_int prec hprec (a l - b l) (by omega)]; push_cast; rfl
  vmul a b h := by
    simp only [fltArith, Option.some.injEq]
    funext l
    have := (h l).2.2
    rw [← rnd_int prec hprec (a l * b l) (by omega)]; push_cast; rfl
  vfmadd c a b h := by
    simp only [fltArith, Option.some.injEq]
    funext l
    obtain ⟨_, _, h1, h2⟩ := h l
    have e1 := rnd_int prec hprec (a l * b l + c l) (by omega)
    have e2 := rnd_int prec hprec (a l * b l) (by omega)
    push_cast at e1 e2 ⊢
    unfold fmaddF
    split_ifs
    · exact e1
    · rw [e2, add_comm]; exact e1
  vandGt c x y _ := by
    simp only [fltArith]
    funext l
    split_ifs with h1 h2 h2
    · rfl
    · exact absurd (by exact_mod_cast h1) h2
    · exact absurd (by exact_mod_cast h2) h1
    · simp
  vandLt c x y _ := by
    simp only [fltArith]
    funext l
    split_ifs with h1 h2 h2
    · rfl
    · exact absurd (by exact_mod_cast h1) h2
    · exact absurd (by exact_mod_cast h2) h1
    · simp
  vor a b h := by
    simp only [fltArith, vorF]
    funext l
    push_cast
    by_cases h1 : (a l : ℚ) = 0
    · simp [h1]
    · rw [if_neg h1]
      have h2 : b l = 0 := (h l).resolve_left (fun e => h1 (by rw [e]; simp))
      simp [h2]

end Verif.SimdVec
