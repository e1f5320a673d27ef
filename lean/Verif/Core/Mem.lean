import Mathlib.Algebra.Field.Basic
import Mathlib.Logic.Function.Basic
import Mathlib.Algebra.BigOperators.Group.Finset.Basic
import Mathlib.Tactic.Ring
import Mathlib.Tactic.Linarith

/-!
# Memory, faults and programs

fflas-ffpack routines work in place on raw pointers (`Element_ptr A, size_t lda`).
We model memory as a flat array of cells, some of which are allocated.  A program is a
function from memories to either a fault or a result together with a new memory.

Modelling conventions shared by all heap-level models:

* an `Element_ptr` is a natural number (cell index), pointer arithmetic is natural-number addition;
* reading or writing a cell that is not allocated is the fault `oob`
  (undefined behaviour in C++), never a silent success;
* inverting the zero element is the fault `divZero`;
* `fflas_new` returns a fresh block whose *contents are unspecified*: the block keeps whatever
  value the (universally quantified) memory held at these cells, so no theorem can depend on it;
* `size_t` is ℕ.  Wherever the code subtracts, the model uses the checked subtraction `usub`,
  which faults with `underflow` instead of truncating.
-/

namespace Verif

/-- Undefined behaviour / abnormal termination outcomes of a modelled routine. -/
inductive Fault where
  /-- access outside the allocated cells -/
  | oob
  /-- inverse of the zero element, or integer division by zero -/
  | divZero
  /-- unsigned subtraction below zero -/
  | underflow
  /-- a value that is not exactly representable in the element type -/
  | inexact
  /-- the bound given to the model on a recursion depth or a number of iterations is exceeded -/
  | fuel
  deriving DecidableEq, Repr

/-- Memory holding elements of `K`.  `val` is total, but only cells with `ok = true` may be
accessed; cells at or above `next` have never been allocated. -/
structure Mem (K : Type) where
  val : ℕ → K
  ok : ℕ → Bool
  next : ℕ

/-- A program: from a memory to a fault, or a result and a new memory. -/
def Prog (K α : Type) : Type := Mem K → Except Fault (α × Mem K)

namespace Prog
variable {K α β : Type}

protected def pure (a : α) : Prog K α := fun m => .ok (a, m)
protected def bind (p : Prog K α) (f : α → Prog K β) : Prog K β := fun m =>
  match p m with
  | .error e => .error e
  | .ok (a, m') => f a m'

instance : Monad (Prog K) where
  pure := Prog.pure
  bind := Prog.bind

def fault (e : Fault) : Prog K α := fun _ => .error e
end Prog

variable {K α β : Type}

/-- Embed a computation on values (index arrays, sizes) in a program. -/
def liftE (e : Except Fault α) : Prog K α := fun m =>
  match e with
  | .error x => .error x
  | .ok a => .ok (a, m)

/-- Memory after writing `v` in cell `i`. -/
def Mem.set (m : Mem K) (i : ℕ) (v : K) : Mem K := { m with val := Function.update m.val i v }

/-- `*p` as a value. -/
def load (i : ℕ) : Prog K K := fun m => if m.ok i then .ok (m.val i, m) else .error .oob

/-- `*p = v`. -/
def store (i : ℕ) (v : K) : Prog K Unit := fun m => if m.ok i then .ok ((), m.set i v) else .error .oob

/-- `F.inv`: undefined on zero. -/
def invE [Field K] [DecidableEq K] (x : K) : Except Fault K := if x = 0 then .error .divZero else .ok x⁻¹

/-- `a - b` on `size_t`, required not to wrap around. -/
def usub (a b : ℕ) : Except Fault ℕ := if b ≤ a then .ok (a - b) else .error .underflow

/-- `fflas_new(n)`: `n` fresh cells at the end of memory, contents unspecified. -/
def alloc (n : ℕ) : Prog K ℕ := fun m =>
  .ok (m.next, { m with ok := fun i => m.ok i || (decide (m.next ≤ i) && decide (i < m.next + n))
                        next := m.next + n })

/-- `fflas_delete` of the block of `n` cells at `p`: the cells may not be accessed any more. -/
def free (p n : ℕ) : Prog K Unit := fun m =>
  .ok ((), { m with ok := fun i => m.ok i && !(decide (p ≤ i) && decide (i < p + n)) })

/-- Total correctness: from memory `m`, program `p` ends without fault in a result and memory
satisfying `Q`. -/
def Run (p : Prog K α) (m : Mem K) (Q : α → Mem K → Prop) : Prop := ∃ a m', p m = .ok (a, m') ∧ Q a m'

@[simp] lemma Run_pure (a : α) (m : Mem K) (Q : α → Mem K → Prop) : Run (pure a) m Q ↔ Q a m := by
  simp [Run, pure, Prog.pure]

@[simp] lemma Run_fault (e : Fault) (m : Mem K) (Q : α → Mem K → Prop) :
    Run (Prog.fault e) m Q ↔ False := by
  simp [Run, Prog.fault]

@[simp] lemma Run_bind (p : Prog K α) (f : α → Prog K β) (m : Mem K) (Q : β → Mem K → Prop) :
    Run (p >>= f) m Q ↔ Run p m (fun a m' => Run (f a) m' Q) := by
  simp only [Run, bind, Prog.bind]
  cases h : p m with
  | error e => simp
  | ok x => obtain ⟨a, m'⟩ := x; simp

@[simp] lemma Run_load (i : ℕ) (m : Mem K) (Q : K → Mem K → Prop) :
    Run (load i) m Q ↔ m.ok i = true ∧ Q (m.val i) m := by
  unfold Run load; by_cases h : m.ok i <;> simp [h]

@[simp] lemma Run_store (i : ℕ) (v : K) (m : Mem K) (Q : Unit → Mem K → Prop) :
    Run (store i v) m Q ↔ m.ok i = true ∧ Q () (m.set i v) := by
  unfold Run store; by_cases h : m.ok i <;> simp [h]
  exact ⟨fun ⟨_, h⟩ => h, fun h => ⟨(), h⟩⟩

lemma Run.mono {p : Prog K α} {m : Mem K} {Q R : α → Mem K → Prop} (h : Run p m Q)
    (hQR : ∀ a m', Q a m' → R a m') : Run p m R := by
  obtain ⟨a, m', e, hq⟩ := h; exact ⟨a, m', e, hQR a m' hq⟩

lemma Run_ite {c : Prop} [Decidable c] {p q : Prog K α} {m : Mem K} {Q : α → Mem K → Prop} :
    Run (if c then p else q) m Q ↔ (c → Run p m Q) ∧ (¬ c → Run q m Q) := by
  split_ifs with h <;> simp [h]

end Verif
