import Verif.Model.SimdVec
import Verif.Proofs.Level1
import Verif.Spec.SimdVec

/-!
# The driver of the vectorised kernels
-/

namespace Verif.SimdVec
open Verif.FF

variable {K : Type}

@[simp] lemma Run_opt_some {α : Type} (a : α) (m : Mem K) (Q : α → Mem K → Prop) :
    Run (opt (some a)) m Q ↔ Q a m := by
  simp only [opt, Run_pure]

@[simp] lemma Run_loadu (vs a : ℕ) (m : Mem K) (Q : (Fin vs → K) → Mem K → Prop) :
    Run (loadu vs a) m Q ↔ (∀ l : Fin vs, m.ok (a + l) = true) ∧ Q (fun l => m.val (a + l)) m := by
  unfold Run loadu
  by_cases h : ∀ l : Fin vs, m.ok (a + l) = true <;> simp [h]

lemma Run_loada {E : Arith K} {a : ℕ} {m : Mem K} {Q : (Fin E.vs → K) → Mem K → Prop} (ha : aligned E a)
    (hok : ∀ l : Fin E.vs, m.ok (a + l) = true) (hQ : Q (fun l => m.val (a + l)) m) : Run (loada E a) m Q := by
  unfold loada
  rw [if_pos ha, Run_loadu]
  exact ⟨hok, hQ⟩

lemma Run_storea {E : Arith K} {a : ℕ} {r : Fin E.vs → K} {m : Mem K} {Q : Unit → Mem K → Prop} (ha : aligned E a)
    (hok : ∀ l : Fin E.vs, m.ok (a + l) = true) (hQ : Q () (setv m a r)) : Run (storea E a r) m Q := by
  refine ⟨(), _, ?_, hQ⟩
  unfold storea
  rw [if_pos ⟨ha, hok⟩]

lemma aligned_iff (E : Arith K) (hsz : 0 < E.sz) (a : ℕ) : aligned E a ↔ E.vs ∣ a := by
  unfold aligned
  rw [Nat.mul_mod_mul_left, Nat.dvd_iff_mod_eq_zero]
  constructor
  · intro h; rcases Nat.mul_eq_zero.1 h with h | h
    · omega
    · exact h
  · intro h; rw [h, Nat.mul_zero]

lemma prologue_eq (E : Arith K) (hsz : 0 < E.sz) (hvs : 0 < E.vs) (T : ℕ) :
    prologue E T = if T % E.vs = 0 then 0 else E.vs - T % E.vs := by
  unfold prologue
  rw [Nat.mul_mod_mul_left]
  by_cases h : T % E.vs = 0
  · simp [h]
  · have h1 : E.sz * (T % E.vs) ≠ 0 := Nat.mul_ne_zero (by omega) h
    simp only [ne_eq, h1, not_false_eq_true, if_true, if_neg h, steps]
    rw [← Nat.mul_sub]
    set q := E.vs - T % E.vs
    rw [Nat.mul_add_div hsz, Nat.div_eq_of_lt (by omega), Nat.add_zero]

lemma prologue_lt (E : Arith K) (hsz : 0 < E.sz) (hvs : 0 < E.vs) (T : ℕ) : prologue E T < E.vs := by
  rw [prologue_eq E hsz hvs]
  split_ifs <;> omega

lemma prologue_aligned (E : Arith K) (hsz : 0 < E.sz) (hvs : 0 < E.vs) (T : ℕ) : E.vs ∣ T + prologue E T := by
  rw [prologue_eq E hsz hvs]
  have h1 := Nat.div_add_mod T E.vs
  have h2 := Nat.mod_lt T hvs
  split_ifs with h
  · exact Nat.dvd_of_mod_eq_zero (by simpa using h)
  · refine ⟨T / E.vs + 1, ?_⟩
    rw [Nat.mul_add, Nat.mul_one]
    omega

/-- the number of whole registers after the prologue -/
def blocks (E : Arith K) (n T : ℕ) : ℕ := steps (prologue E T) (n - E.vs + 1) E.vs

lemma blocks_le (E : Arith K) (hvs : 0 < E.vs) {n T : ℕ} (hn : E.vs ≤ n) (hT : prologue E T < E.vs) :
    prologue E T + blocks E n T * E.vs ≤ n := by
  unfold blocks steps
  have h := Nat.div_mul_le_self (n - E.vs + 1 - prologue E T + (E.vs - 1)) E.vs
  by_cases hc : prologue E T ≤ n - E.vs + 1
  · omega
  · rw [show n - E.vs + 1 - prologue E T + (E.vs - 1) = E.vs - 1 by omega, Nat.div_eq_of_lt (by omega)]
    omega

/-- entry `t` is treated by a vector instruction -/
def inSimd (E : Arith K) (n T : ℕ) (al : ℕ → Prop) (t : ℕ) : Prop :=
  E.vs ≤ n ∧ al (prologue E T) ∧ prologue E T ≤ t ∧ t < prologue E T + blocks E n T * E.vs

/-- state after the first `j` entries -/
def Pre (m : Mem K) (T : ℕ) (g : ℕ → K) (j : ℕ) (m' : Mem K) : Prop :=
  m'.ok = m.ok ∧ m'.next = m.next ∧ (∀ t < j, m'.val (T + t) = g t) ∧ ∀ a, (∀ t < j, a ≠ T + t) → m'.val a = m.val a

lemma Pre.set {m m' : Mem K} {T : ℕ} {g : ℕ → K} {j : ℕ} (h : Pre m T g j m') : Pre m T g (j + 1) (m'.set (T + j) (g j)) := by
  obtain ⟨h1, h2, h3, h4⟩ := h
  refine ⟨h1, h2, ?_, ?_⟩
  · intro t ht
    rw [Mem.set_val]
    by_cases e : t = j
    · subst e; rw [Function.update_self]
    · rw [Function.update_of_ne (by omega)]; exact h3 t (by omega)
  · intro a ha
    rw [Mem.set_val, Function.update_of_ne (ha j (by omega))]
    exact h4 a (fun t ht => ha t (by omega))

lemma Pre.setv {m m' : Mem K} {T : ℕ} {g : ℕ → K} {j vs : ℕ} (h : Pre m T g j m') :
    Pre m T g (j + vs) (SimdVec.setv m' (T + j) (fun l : Fin vs => g (j + l))) := by
  obtain ⟨h1, h2, h3, h4⟩ := h
  refine ⟨h1, h2, ?_, ?_⟩
  · intro t ht
    simp only [SimdVec.setv]
    split_ifs with e
    · congr 1; omega
    · exact h3 t (by omega)
  · intro a ha
    simp only [SimdVec.setv]
    split_ifs with e
    · exact absurd (show a = T + (a - T) by omega) (ha (a - T) (by omega))
    · exact h4 a (fun t ht => ha t (by omega))

lemma Pre.step {m m' : Mem K} {T n : ℕ} {g : ℕ → K} (h : Pre m T g n m') : Step m m' (vw T 1 n) (fun i _ => g i) := by
  obtain ⟨h1, h2, h3, h4⟩ := h
  refine ⟨h1, h2.ge, ?_, ?_⟩
  · intro i hi j hj
    obtain rfl : j = 0 := by simpa using hj
    simpa [Win.adr] using h3 i hi
  · intro a _ hn
    exact h4 a (fun t ht e => hn ⟨t, ht, 0, Nat.one_pos, by simpa [Win.adr] using e⟩)

lemma Run_loop_from {f : ℕ → Prog K Unit} {m m0 : Mem K} {T : ℕ} {g : ℕ → K} (s n : ℕ) (h0 : Pre m T g s m0)
    (hf : ∀ t, s ≤ t → t < s + n → ∀ m', Pre m T g t m' → Run (f t) m' (fun _ => Pre m T g (t + 1))) :
    Run (loop n fun t => f (s + t)) m0 (fun _ => Pre m T g (s + n)) :=
  Run_loop (fun k m' => Pre m T g (s + k) m') h0 (fun k m' hk h => hf (s + k) (by omega) (by omega) m' h)

/-- Every entry is treated once, by the scalar or the vector code. -/
lemma drive_spec (E : Arith K) (hsz : 0 < E.sz) (hvs : 0 < E.vs) {n T : ℕ} {al : ℕ → Prop} [DecidablePred al]
    {scal vec : ℕ → Prog K Unit} {m : Mem K} (g : ℕ → K)
    (hscal : ∀ t < n, ¬ inSimd E n T al t → ∀ m', Pre m T g t m' → Run (scal t) m' (fun _ => Pre m T g (t + 1)))
    (hvec : ∀ t, t + E.vs ≤ n → E.vs ∣ T + t → al (prologue E T) → (∃ k, t = prologue E T + k * E.vs) →
      (∀ l < E.vs, inSimd E n T al (t + l)) →
      ∀ m', Pre m T g t m' → Run (vec t) m' (fun _ => Pre m T g (t + E.vs))) :
    Run (drive E n T al scal vec) m (fun _ m' => Step m m' (vw T 1 n) (fun i _ => g i)) := by
  have hpl := prologue_lt E hsz hvs T
  have hp0 : Pre m T g 0 m := ⟨rfl, rfl, by simp, by simp⟩
  refine Run.mono (Q := fun _ => Pre m T g n) ?_ (fun _ _ h => h.step)
  unfold drive
  rif hn
  · have := Run_loop_from (f := scal) 0 n hp0 (fun t _ ht => hscal t (by omega) (fun h => by have := h.1; omega))
    simpa using this
  · simp only [Run_bind]
    refine Run.mono (Q := fun _ => Pre m T g (prologue E T)) ?_ ?_
    · have := Run_loop_from (f := scal) 0 (prologue E T) hp0
        (fun t _ ht => hscal t (by omega) (fun h => by have := h.2.2.1; omega))
      simpa using this
    intro _ m1 h1
    have hb := blocks_le E hvs (by omega : E.vs ≤ n) hpl
    rif ha
    · simp only [Run_bind]
      change Run (loop (blocks E n T) _) m1 _
      refine Run.mono (Q := fun _ => Pre m T g (prologue E T + blocks E n T * E.vs)) ?_ ?_
      · refine Run_loop (fun k m' => Pre m T g (prologue E T + k * E.vs) m') (by simpa using h1) ?_
        intro k m' hk h
        have hk' : (k + 1) * E.vs ≤ blocks E n T * E.vs := Nat.mul_le_mul_right _ hk
        rw [Nat.add_mul, Nat.one_mul] at hk'
        have := hvec (prologue E T + k * E.vs) (by omega)
          (by rw [← Nat.add_assoc]; exact Nat.dvd_add (prologue_aligned E hsz hvs T) (Nat.dvd_mul_left _ _)) ha ⟨k, rfl⟩
          (fun l hl => ⟨by omega, ha, by omega, by omega⟩) m' h
        rw [Nat.add_mul, Nat.one_mul, ← Nat.add_assoc]
        exact this
      · intro _ m2 h2
        have := Run_loop_from (f := scal) (prologue E T + blocks E n T * E.vs) (n - (prologue E T + blocks E n T * E.vs)) h2
          (fun t ht1 ht2 => hscal t (by omega) (fun h => by have := h.2.2.2; omega))
        rw [Nat.add_sub_cancel' hb] at this
        exact this
    · have := Run_loop_from (f := scal) (prologue E T) (n - prologue E T) h1
        (fun t ht1 ht2 => hscal t (by omega) (fun h => ha h.2.1))
      rw [Nat.add_sub_cancel' (by omega)] at this
      exact this

/-- entry `t` of a vector that is the result or disjoint from it is still there when entry `t` is treated -/
lemma Pre.rd {m m' : Mem K} {T n U t : ℕ} {g : ℕ → K} (h : Pre m T g t m') (hU : OkIn m (vw U 1 n))
    (hs : (vw U 1 n).Safe (vw T 1 n)) {s : ℕ} (hst : t ≤ s) (hsn : s < n) :
    m'.ok (U + s) = true ∧ m'.val (U + s) = m.val (U + s) := by
  obtain ⟨h1, _, _, h4⟩ := h
  refine ⟨by rw [h1]; simpa using OkIn_vw hU hsn, h4 _ (fun r hr e => ?_)⟩
  have := (hs s hsn 0 Nat.one_pos r (by simp only; omega) 0 Nat.one_pos (by simpa [Win.adr] using e)).1
  omega

lemma Pre.ok {m m' : Mem K} {T n t : ℕ} {g : ℕ → K} (h : Pre m T g t m') (hT : OkIn m (vw T 1 n)) {s : ℕ} (hsn : s < n) :
    m'.ok (T + s) = true := by
  rw [h.1]; simpa using OkIn_vw hT hsn

end Verif.SimdVec
