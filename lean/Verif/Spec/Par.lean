import Verif.Core.ParRace

/-!
# Specification of the parallel functions
-/

namespace Verif.Par

variable {K : Type}

/-- the entries of a window -/
def Vals (w : Win) (g : ℕ → ℕ → K) (v : ℕ → K) : Prop := ∀ i < w.r, ∀ j < w.c, v (w.adr i j) = g i j

/-- What holds for **every** execution of `p` from `m`, in whatever order the tasks advance: no undefined behaviour, no data race, no
deadlock, no infinite execution; when it ends, the window `w` holds `g` and all the other cells are as before; and the memory is that of
the sequential execution of the same code. -/
structure EveryRun (p : Proc K) (m : Mem K) (w : Win) (g : ℕ → ℕ → K) : Prop where
  noFault : ∀ p' m', Steps (p, m) (p', m') → ¬ Faults p' m'
  noRace : ∀ p' m', Steps (p, m) (p', m') → ¬ Race p'
  noDeadlock : ∀ p' m', Steps (p, m) (p', m') → p' = .ret ∨ ∃ p'' m'', PStep p' m' p'' m''
  finite : ∀ f : ℕ → Proc K × Mem K, f 0 = (p, m) → ∃ n, ¬ PStep (f n).1 (f n).2 (f (n + 1)).1 (f (n + 1)).2
  result : ∀ m', Steps (p, m) (.ret, m') → Vals w g m'.val ∧ ∀ a, m.ok a = true → m'.ok a = true ∧ (¬ w.Has a → m'.val a = m.val a)
  sequential : ∃ ms, p.seq m = .ok ((), ms) ∧ ∀ m', Steps (p, m) (.ret, m') → ∀ a, m.ok a = true → m'.val a = ms.val a

end Verif.Par
