import Mathlib.Tactic.NormNum
import Mathlib.Tactic.Ring
import Mathlib.Tactic.Linarith
import Mathlib.Data.List.Basic

/-!
# The magnitudes without room for an element on top of the largest block

`h ≤ M % (h * h) + s` for every `h` outside an explicit list, for `M` the largest integer of a type.  For small `h` each value is tested.  For large `h` the
quotient `q = M / (h * h)` is small and determines `h` if the inequality fails; each `q` is tested, with a square root computed by Newton's iteration.
-/

namespace Verif.Fit

/-- `f` holds on `[lo, lo + 2^n)`; halving keeps the recursion shallow. -/
def allP (f : ℕ → Bool) (n : ℕ) : ℕ → Bool :=
  Nat.rec (fun lo => f lo) (fun n ih lo => Bool.rec false (ih (Nat.add lo (Nat.pow 2 n))) (ih lo)) n

lemma allP_spec (f : ℕ → Bool) (n lo : ℕ) (h : allP f n lo = true) : ∀ q, lo ≤ q → q < lo + 2 ^ n → f q = true := by
  induction n generalizing lo with
  | zero =>
    intro q h1 h2
    obtain rfl : q = lo := by simp at h2; omega
    exact h
  | succ n ih =>
    have e : allP f (n + 1) lo = Bool.rec false (allP f n (lo + 2 ^ n)) (allP f n lo) := rfl
    rw [e] at h
    intro q h1 h2
    rw [pow_succ] at h2
    cases h3 : allP f n lo with
    | false => rw [h3] at h; simp at h
    | true =>
      rw [h3] at h
      by_cases h4 : q < lo + 2 ^ n
      · exact ih lo h3 q h1 h4
      · exact ih _ h q (by omega) (by omega)

/-- evaluates `x` first -/
def force (x : ℕ) (k : ℕ → Bool) : Bool := Nat.rec (k 0) (fun n _ => k (Nat.succ n)) x

lemma force_eq (x : ℕ) (k : ℕ → Bool) : force x k = k x := by cases x <;> rfl

/-- a step of Newton's iteration for the square root of `n` -/
def step (n x : ℕ) : ℕ := Nat.div (Nat.add x (Nat.div n x)) 2

/-- `m` is the square root of `M / q`, and there is room for `m` or `m` is in the list -/
def okm (M s : ℕ) (ex : List ℕ) (q m : ℕ) : Bool :=
  Bool.rec (Nat.ble (Nat.mul q (Nat.mul m m)) M && Nat.ble (Nat.succ M) (Nat.mul q (Nat.mul (Nat.succ m) (Nat.succ m))) && ex.elem m)
    (Nat.ble (Nat.succ M) (Nat.mul q (Nat.mul (Nat.succ m) (Nat.succ m)))) (Nat.ble (Nat.add (Nat.mul q (Nat.mul m m)) m) (Nat.add M s))

/-- the test for the quotient `q`, from the guess `x0` of the square root -/
def okq (M s : ℕ) (ex : List ℕ) (x0 q : ℕ) : Bool :=
  force q fun q => force (Nat.div M q) fun n => force (step n x0) fun x => force (step n x) fun x => force (step n x) fun x => force (step n x) fun x =>
    okm M s ex q x

/-- the tests for the quotients of `[2^j, 2^(j+1))`, `(j, x0)` in the table -/
def okTable (M s : ℕ) (ex : List ℕ) (t : List (ℕ × ℕ)) : Bool := t.all (fun x => allP (okq M s ex x.2) x.1 (Nat.pow 2 x.1))

/-- the test for `h` itself -/
def okh (M s : ℕ) (ex : List ℕ) (h : ℕ) : Bool := Bool.rec (ex.elem h) true (Nat.ble h (Nat.add (Nat.mod M (Nat.mul h h)) s))

lemma okm_sound {M s : ℕ} {ex : List ℕ} {q m h : ℕ} (hok : okm M s ex q m = true) (hq : 1 ≤ q) (h1 : q * (h * h) ≤ M) (h2 : M + s < q * (h * h) + h) :
    h ∈ ex := by
  unfold okm at hok
  cases hb : Nat.ble (Nat.add (Nat.mul q (Nat.mul m m)) m) (Nat.add M s) with
  | true =>
    exfalso
    rw [hb] at hok
    have h3 : M + 1 ≤ q * ((m + 1) * (m + 1)) := Nat.le_of_ble_eq_true hok
    have h4 : q * (m * m) + m ≤ M + s := Nat.le_of_ble_eq_true hb
    rcases Nat.lt_or_ge m h with h5 | h5
    · have : q * ((m + 1) * (m + 1)) ≤ q * (h * h) := Nat.mul_le_mul_left _ (Nat.mul_le_mul h5 h5)
      omega
    · have : q * (h * h) ≤ q * (m * m) := Nat.mul_le_mul_left _ (Nat.mul_le_mul h5 h5)
      omega
  | false =>
    rw [hb] at hok
    simp only [Bool.and_eq_true] at hok
    obtain ⟨⟨h3, h4⟩, h5⟩ := hok
    have h3 : q * (m * m) ≤ M := Nat.le_of_ble_eq_true h3
    have h4 : M + 1 ≤ q * ((m + 1) * (m + 1)) := Nat.le_of_ble_eq_true h4
    have h5 : m ∈ ex := List.elem_iff.1 h5
    suffices h = m by rw [this]; exact h5
    rcases Nat.lt_trichotomy m h with h6 | h6 | h6
    · have : q * ((m + 1) * (m + 1)) ≤ q * (h * h) := Nat.mul_le_mul_left _ (Nat.mul_le_mul h6 h6)
      omega
    · exact h6.symm
    · have : q * ((h + 1) * (h + 1)) ≤ q * (m * m) := Nat.mul_le_mul_left _ (Nat.mul_le_mul h6 h6)
      have h7 : q * ((h + 1) * (h + 1)) = q * (h * h) + q * h + q * (h + 1) := by ring
      have h8 : h ≤ q * h := Nat.le_mul_of_pos_left _ hq
      omega

lemma okh_sound {M s : ℕ} {ex : List ℕ} {h : ℕ} (hok : okh M s ex h = true) (hf : ¬ h ≤ M % (h * h) + s) : h ∈ ex := by
  unfold okh at hok
  cases hb : Nat.ble h (Nat.add (Nat.mod M (Nat.mul h h)) s) with
  | true => exact absurd (Nat.le_of_ble_eq_true hb) hf
  | false => rw [hb] at hok; exact List.elem_iff.1 hok

lemma okTable_sound {M s : ℕ} {ex : List ℕ} {t : List (ℕ × ℕ)} (hok : okTable M s ex t = true) {h : ℕ} (hh : h * h ≤ M)
    (ht : Nat.log2 (M / (h * h)) ∈ t.map Prod.fst) (hf : ¬ h ≤ M % (h * h) + s) : h ∈ ex := by
  have h0 : 0 < h := by omega
  have hpos : 0 < h * h := Nat.mul_pos h0 h0
  have hq : 1 ≤ M / (h * h) := (Nat.one_le_div_iff hpos).2 hh
  have hm := Nat.div_add_mod' M (h * h)
  set q := M / (h * h) with hqd
  obtain ⟨⟨j, x0⟩, hj, hjq⟩ := List.mem_map.1 ht
  have h1 : allP (okq M s ex x0) j (2 ^ j) = true := List.all_eq_true.1 hok _ hj
  have h2 := allP_spec _ _ _ h1 q (by
      simp only at hjq
      rw [hjq]; exact Nat.log2_self_le (by omega)) (by
      simp only at hjq
      have := Nat.lt_log2_self (n := q)
      rw [pow_succ] at this
      rw [hjq]; omega)
  unfold okq at h2
  simp only [force_eq] at h2
  exact okm_sound h2 hq (by omega) (by omega)

/-- `float` -/
def ex24 : List ℕ := [3, 14, 20, 27, 1136]
/-- `double` -/
def ex53 : List ℕ := [187, 378, 581, 4797, 19739, 30377, 60754, 100280, 143034, 214551, 429102, 9174935, 18612650, 27397079, 54794158]
/-- `int64_t`, from 5931642 on -/
def ex63 : List ℕ := [188710029, 19985890, 10485765]

def t53 : List (ℕ × ℕ) := [(0, 94906265), (1, 67108863), (2, 47453132), (3, 33554431), (4, 23726566), (5, 16777215), (6, 11863283), (7, 8388607), (8, 5931641), (9, 4194303), (10, 2965820), (11, 2097151), (12, 1482910), (13, 1048575), (14, 741455), (15, 524287), (16, 370727)]
def t63a : List (ℕ × ℕ) := [(0, 3037000499), (1, 2147483647), (2, 1518500249), (3, 1073741823), (4, 759250124), (5, 536870911), (6, 379625062), (7, 268435455), (8, 189812531), (9, 134217727), (10, 94906265), (11, 67108863), (12, 47453132), (13, 33554431), (14, 23726566), (15, 16777215)]
def t63b : List (ℕ × ℕ) := [(16, 11863283)]
def t63c : List (ℕ × ℕ) := [(17, 8388607)]

lemma small24 : allP (okh 16777215 1 ex24) 12 1 = true := by decide +kernel
lemma small53 : allP (okh 9007199254740991 1 ex53) 18 1 = true := by decide +kernel
lemma large53 : okTable 9007199254740991 1 ex53 t53 = true := by decide +kernel
lemma large63a : okTable 9223372036854775807 0 ex63 t63a = true := by decide +kernel
lemma large63b : okTable 9223372036854775807 0 ex63 t63b = true := by decide +kernel
lemma large63c : okTable 9223372036854775807 0 ex63 t63c = true := by decide +kernel

lemma fit24 {h : ℕ} (h1 : 1 ≤ h) (h2 : h ≤ 4096) (he : h ∉ ex24) : h ≤ (2 ^ 24 - 1) % (h * h) + 1 := by
  by_contra hf
  exact he (okh_sound (allP_spec _ _ _ small24 h h1 (by omega)) hf)

lemma fit53 {h : ℕ} (h1 : 1 ≤ h) (h2 : h * h ≤ 2 ^ 53 - 1) (he : h ∉ ex53) : h ≤ (2 ^ 53 - 1) % (h * h) + 1 := by
  by_contra hf
  by_cases h3 : h ≤ 2 ^ 18
  · exact he (okh_sound (allP_spec _ _ _ small53 h h1 (by omega)) hf)
  · have h4 : 2 ^ 18 * 2 ^ 18 ≤ h * h := Nat.mul_le_mul (by omega) (by omega)
    have h5 : (2 ^ 53 - 1) / (h * h) < 2 ^ 17 := (Nat.div_lt_iff_lt_mul (by omega)).2 (by omega)
    have h6 : 1 ≤ (2 ^ 53 - 1) / (h * h) := (Nat.one_le_div_iff (by omega)).2 h2
    have h7 : Nat.log2 ((2 ^ 53 - 1) / (h * h)) < 17 := (Nat.log2_lt (by omega)).2 h5
    refine he (okTable_sound large53 h2 ?_ hf)
    rw [show t53.map Prod.fst = List.range 17 by decide, List.mem_range]
    exact h7

lemma fit63 {h : ℕ} (h1 : 5931642 ≤ h) (h2 : h * h ≤ 2 ^ 63 - 1) (he : h ∉ ex63) : h ≤ (2 ^ 63 - 1) % (h * h) := by
  by_contra hf
  have h4 : 5931642 * 5931642 ≤ h * h := Nat.mul_le_mul h1 h1
  have h5 : (2 ^ 63 - 1) / (h * h) < 2 ^ 18 := (Nat.div_lt_iff_lt_mul (by omega)).2 (by omega)
  have h6 : 1 ≤ (2 ^ 63 - 1) / (h * h) := (Nat.one_le_div_iff (by omega)).2 h2
  have h7 : Nat.log2 ((2 ^ 63 - 1) / (h * h)) < 18 := (Nat.log2_lt (by omega)).2 h5
  have h8 : Nat.log2 ((2 ^ 63 - 1) / (h * h)) ∈ List.range 18 := List.mem_range.2 h7
  have e : List.range 18 = t63a.map Prod.fst ++ t63b.map Prod.fst ++ t63c.map Prod.fst := by decide
  rw [e, List.mem_append, List.mem_append] at h8
  rcases h8 with (h8 | h8) | h8
  · exact he (okTable_sound large63a h2 h8 (by simpa using hf))
  · exact he (okTable_sound large63b h2 h8 (by simpa using hf))
  · exact he (okTable_sound large63c h2 h8 (by simpa using hf))

end Verif.Fit
