import Verif.Core.Heap

/-!
# Concrete memories, used in the examples and counterexamples
-/

namespace Verif

variable {K : Type}

/-- memory holding a list from address 0 on -/
def memOf [Zero K] (l : List K) : Mem K := ⟨fun i => l.getD i 0, fun i => decide (i < l.length), l.length⟩

/-- the window ends before address `e` -/
def Win.Ends (W : Win) (e : ℕ) : Prop := W.r = 0 ∨ W.c = 0 ∨ W.p + (W.r - 1) * W.ld + W.c ≤ e

instance (W : Win) (e : ℕ) : Decidable (W.Ends e) := by unfold Win.Ends; infer_instance

lemma Win.Ends.lt {W : Win} {e a : ℕ} (h : W.Ends e) (ha : W.Has a) : a < e := by
  obtain ⟨i, hi, j, hj, rfl⟩ := ha
  rcases h with h | h | h
  · omega
  · omega
  · have : i * W.ld ≤ (W.r - 1) * W.ld := Nat.mul_le_mul_right _ (by omega)
    unfold Win.adr; omega

lemma Win.Has.ge {W : Win} {a : ℕ} (ha : W.Has a) : W.p ≤ a := by
  obtain ⟨i, hi, j, hj, rfl⟩ := ha
  unfold Win.adr; omega

lemma Win.Ends.disj {W V : Win} (h : W.Ends V.p) : W.Disj V := fun _ ha hb => absurd hb.ge (by have := h.lt ha; omega)

lemma OkIn_memOf [Zero K] {l : List K} {W : Win} (h : W.Ends l.length) : OkIn (memOf l) W := fun a ha => by
  simpa [memOf] using h.lt ha

lemma WF_memOf [Zero K] (l : List K) : WF (memOf l) := fun a ha => by simpa [memOf] using ha

/-- contents of cell `a` after running `p`; `none` if it faults -/
def after {α : Type} (p : Prog K α) (m : Mem K) (a : ℕ) : Option K :=
  match p m with
  | .ok (_, m') => some (m'.val a)
  | .error _ => none

/-- the fault of a run -/
def faultOf {α : Type} (p : Prog K α) (m : Mem K) : Option Fault :=
  match p m with
  | .ok _ => none
  | .error e => some e

/-- returned value -/
def result {α : Type} (p : Prog K α) (m : Mem K) : Option α :=
  match p m with
  | .ok (a, _) => some a
  | .error _ => none

lemma Run.after {α : Type} {p : Prog K α} {m : Mem K} {Q : α → Mem K → Prop} (h : Run p m Q) :
    ∃ a m', Q a m' ∧ ∀ c, Verif.after p m c = some (m'.val c) := by
  obtain ⟨a, m', e, hq⟩ := h
  exact ⟨a, m', hq, fun c => by simp only [Verif.after, e]⟩

/-- a faulting run satisfies no postcondition -/
lemma Run.no_fault {α : Type} {p : Prog K α} {m : Mem K} {Q : α → Mem K → Prop} (h : Run p m Q) : faultOf p m = none := by
  obtain ⟨a, m', e, _⟩ := h
  simp [faultOf, e]

end Verif
