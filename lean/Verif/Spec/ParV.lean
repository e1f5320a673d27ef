import Verif.Core.ParVProg

/-!
# Specification of the parallel functions that return a value
-/

namespace Verif.ParV

variable {K ν : Type}

/-- What holds for **every** execution of `p` from `m`, in whatever order the tasks advance and wherever the allocator places the blocks:
no undefined behaviour, no data race, no deadlock, no infinite execution; when it ends, its value and the memory satisfy `Q`, what was
allocated still is, and the cells outside `W` are as before. -/
structure EveryExec (p : VProc K ν) (m : Mem K) (W : ℕ → Prop) (Q : ν → Mem K → Prop) : Prop where
  noFault : ∀ p' m', Steps (p, m) (p', m') → ¬ Faults p' m'
  noRace : ∀ p' m', Steps (p, m) (p', m') → ¬ Race p'
  noDeadlock : ∀ p' m', Steps (p, m) (p', m') → (∃ x, p' = .ret x) ∨ ∃ p'' m'', PStep p' m' p'' m''
  finite : ∀ f : ℕ → VProc K ν × Mem K, f 0 = (p, m) → ∃ n, ¬ PStep (f n).1 (f n).2 (f (n + 1)).1 (f (n + 1)).2
  ends : ∃ x m', Steps (p, m) (.ret x, m')
  result : ∀ x m', Steps (p, m) (.ret x, m') → Q x m'
  frame : ∀ x m', Steps (p, m) (.ret x, m') → ∀ a, m.ok a = true → m'.ok a = true ∧ (¬ W a → m'.val a = m.val a)

theorem everyExec {p : VProc K ν} {m : Mem K} {W : ℕ → Prop} {Q : ν → (ℕ → K) → Prop} (hwf : WF m) (ho : ∀ i, W i → m.ok i = true)
    (h : wp p W (fun _ => False) (fun _ => False) m.val Q) : EveryExec p m W (fun x m' => Q x m'.val) := by
  have ho' : ∀ i, W i ∨ False → m.ok i = true := fun i hi => ho i (by simpa using hi)
  have hB : Par.Bounded m := ⟨m.next, hwf⟩
  have snd := fun p' m' (s : Steps (p, m) (p', m')) => wp_sound (p' := p') (m' := m') ho' hB h s
  refine ⟨fun p' m' s => (snd p' m' s).1, fun p' m' s => wp_noRace ho' h s, fun p' m' s => (snd p' m' s).2.1, ?_, ?_,
    fun x m' s => (snd _ m' s).2.2.1 x rfl, fun x m' s a ha => ⟨?_, fun hn => ((snd _ m' s).2.2.2 a ha hn).1⟩⟩
  · intro f h0
    by_contra hc
    push Not at hc
    have key : ∀ q : VProc K ν, ∀ n, (f n).1 = q → False := by
      intro q
      induction q using next_wf.induction with
      | _ q ih => intro n e; exact ih (f (n + 1)).1 ⟨_, _, e ▸ hc n⟩ (n + 1) rfl
    exact key _ 0 rfl
  · have key : ∀ q : VProc K ν, ∀ m1, Steps (p, m) (q, m1) → ∃ x m', Steps (p, m) (.ret x, m') := by
      intro q
      induction q using next_wf.induction with
      | _ q ih =>
        intro m1 s
        rcases (snd q m1 s).2.1 with ⟨x, rfl⟩ | ⟨p'', m'', st⟩
        · exact ⟨x, m1, s⟩
        · exact ih p'' ⟨_, _, st⟩ m'' (s.tail st)
    exact key p m .refl
  · by_cases hh : W a
    · obtain ⟨T, o, _⟩ := wp_steps s (T := fun _ => False) ⟨fun i hi => ho' i (by simpa using hi), fun _ h => h.elim⟩ h
      exact o.ok a (Or.inl hh)
    · exact ((snd _ m' s).2.2.2 a ha hh).2

end Verif.ParV
