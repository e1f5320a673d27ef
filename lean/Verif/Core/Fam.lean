import Verif.Core.Heap

/-!
# Straight-line code over a family of windows

Bookkeeping for routines that allocate temporaries and run a sequence of kernels on a fixed family of windows.
`St m C l V σ m'`: the run started in `m`, may write window `C` and the temporary blocks `l`, is now in `m'`, and
window `V v` holds `σ v`.
-/

namespace Verif

variable {K : Type} {ι : Type}

/-- allocated: originally, or in one of the temporary blocks -/
def okWith (m : Mem K) (l : List (ℕ × ℕ)) (a : ℕ) : Bool := m.ok a || l.any (fun b => decide (b.1 ≤ a) && decide (a < b.1 + b.2))

structure St (m : Mem K) (C : Win) (l : List (ℕ × ℕ)) (V : ι → Win) (σ : ι → ℕ → ℕ → K) (m' : Mem K) : Prop where
  ok : ∀ a, m'.ok a = okWith m l a
  next : m.next ≤ m'.next
  wf : WF m'
  tmp : ∀ b ∈ l, m.next ≤ b.1 ∧ b.1 + b.2 ≤ m'.next
  frame : ∀ a, m.ok a = true → ¬ C.Has a → m'.val a = m.val a
  holds : ∀ v, ∀ i < (V v).r, ∀ j < (V v).c, m'.mat (V v) i j = σ v i j

/-- Static facts: all windows are allocated, the writable ones are disjoint from all others and lie in `C` or in the
temporaries. -/
structure FamOk (m : Mem K) (C : Win) (l : List (ℕ × ℕ)) (V : ι → Win) (wr : ι → Prop) : Prop where
  okv : ∀ v a, (V v).Has a → okWith m l a = true
  disj : ∀ k, wr k → ∀ v, v ≠ k → (V v).Disj (V k)
  wrin : ∀ k, wr k → ∀ a, (V k).Has a → m.ok a = true → C.Has a
  fit : ∀ v, (V v).c ≤ (V v).ld

lemma St.okIn {m m' : Mem K} {C : Win} {l : List (ℕ × ℕ)} {V : ι → Win} {wr : ι → Prop} {σ : ι → ℕ → ℕ → K}
    (s : St m C l V σ m') (F : FamOk m C l V wr) (v : ι) : OkIn m' (V v) := fun a ha => by
  rw [s.ok]; exact F.okv v a ha

lemma St.step [DecidableEq ι] {m m' m'' : Mem K} {C : Win} {l : List (ℕ × ℕ)} {V : ι → Win} {wr : ι → Prop}
    {σ : ι → ℕ → ℕ → K} {g : ℕ → ℕ → K} {k : ι} (s : St m C l V σ m') (F : FamOk m C l V wr) (hk : wr k)
    (st : Step m' m'' (V k) g) : St m C l V (Function.update σ k g) m'' := by
  refine ⟨fun a => by rw [st.ok, s.ok], s.next.trans st.next, s.wf.step st, fun b hb => ⟨(s.tmp b hb).1, (s.tmp b hb).2.trans st.next⟩, ?_, ?_⟩
  · intro a ha hC
    rw [st.frame a (by rw [s.ok, okWith, ha, Bool.true_or]) (fun h => hC (F.wrin k hk a h ha)), s.frame a ha hC]
  · intro v i hi j hj
    by_cases e : v = k
    · subst e
      rw [Function.update_self]; exact st.mat hi hj
    · rw [Function.update_of_ne e, st.mat_of_disj (s.okIn F v) (F.disj k hk v e) hi hj]
      exact s.holds v i hi j hj

/-- run with no window yet -/
lemma St.start {m : Mem K} (hm : WF m) (C : Win) (V : ι → Win) (σ : ι → ℕ → ℕ → K)
    (h : ∀ v, ∀ i < (V v).r, ∀ j < (V v).c, m.mat (V v) i j = σ v i j) : St m C [] V σ m :=
  ⟨fun a => by simp [okWith], le_rfl, hm, by simp, fun _ _ _ => rfl, h⟩

/-- change of family -/
lemma St.remap {ι' : Type} {m m' : Mem K} {C : Win} {l : List (ℕ × ℕ)} {V : ι → Win} {σ : ι → ℕ → ℕ → K}
    (s : St m C l V σ m') (V' : ι' → Win) (σ' : ι' → ℕ → ℕ → K)
    (h : ∀ v, ∀ i < (V' v).r, ∀ j < (V' v).c, m'.mat (V' v) i j = σ' v i j) : St m C l V' σ' m' :=
  ⟨s.ok, s.next, s.wf, s.tmp, s.frame, h⟩

/-- a new temporary block -/
lemma St.alloc {m m' : Mem K} {C : Win} {l : List (ℕ × ℕ)} {V : ι → Win} {σ : ι → ℕ → ℕ → K}
    (s : St m C l V σ m') (n : ℕ) : Run (alloc n) m' (fun p m'' => m.next ≤ p ∧ (∀ b ∈ l, b.1 + b.2 ≤ p) ∧
      St m C ((p, n) :: l) V σ m'') := by
  rw [Run_alloc]
  refine ⟨s.next, fun b hb => (s.tmp b hb).2, ?_, ?_, s.wf.grow n, ?_, s.frame, s.holds⟩
  · intro a
    simp only [s.ok, okWith, List.any_cons]
    rw [Bool.or_assoc, Bool.or_comm (List.any _ _)]
  · exact le_trans s.next (Nat.le_add_right _ _)
  · intro b hb
    rcases List.mem_cons.1 hb with rfl | hb
    · exact ⟨s.next, le_rfl⟩
    · exact ⟨(s.tmp b hb).1, (s.tmp b hb).2.trans (Nat.le_add_right _ _)⟩

lemma okWith_erase {m : Mem K} (hm : WF m) {l1 l2 : List (ℕ × ℕ)} {p n : ℕ} (hp : m.next ≤ p)
    (hd : ∀ b ∈ l1 ++ l2, b.1 + b.2 ≤ p ∨ p + n ≤ b.1) (a : ℕ) :
    okWith m (l1 ++ l2) a = (okWith m (l1 ++ (p, n) :: l2) a && !(decide (p ≤ a) && decide (a < p + n))) := by
  by_cases h : p ≤ a ∧ a < p + n
  · have h1 : okWith m (l1 ++ l2) a = false := by
      unfold okWith
      rw [hm a (by omega), Bool.false_or, List.any_eq_false]
      intro b hb
      have := hd b hb
      simp only [Bool.and_eq_true, decide_eq_true_eq]
      omega
    rw [h1]
    simp [h.1, h.2]
  · have h2 : (decide (p ≤ a) && decide (a < p + n)) = false := by
      rw [Bool.and_eq_false_iff, decide_eq_false_iff_not, decide_eq_false_iff_not]; omega
    simp only [okWith, List.any_append, List.any_cons, h2, Bool.false_or, Bool.not_false, Bool.and_true]

/-- a temporary block is released -/
lemma St.free {m m' : Mem K} {C : Win} {l1 l2 : List (ℕ × ℕ)} {V : ι → Win} {σ : ι → ℕ → ℕ → K} {p n : ℕ}
    (s : St m C (l1 ++ (p, n) :: l2) V σ m') (hm : WF m) (hd : ∀ b ∈ l1 ++ l2, b.1 + b.2 ≤ p ∨ p + n ≤ b.1) :
    Run (free p n) m' (fun _ m'' => St m C (l1 ++ l2) V σ m'') := by
  rw [Run_free]
  refine ⟨fun a => ?_, s.next, ?_, ?_, s.frame, s.holds⟩
  · rw [okWith_erase hm (s.tmp (p, n) (by simp)).1 hd, ← s.ok]
  · intro a ha
    simp only [s.wf a ha, Bool.false_and]
  · intro b hb
    refine s.tmp b ?_
    simp only [List.mem_append, List.mem_cons] at hb ⊢
    tauto

/-- All temporaries released: the run wrote `C`. -/
lemma St.finish {m m' : Mem K} {C : Win} {V : ι → Win} {σ : ι → ℕ → ℕ → K} {g : ℕ → ℕ → K}
    (s : St m C [] V σ m') (h : ∀ i < C.r, ∀ j < C.c, m'.mat C i j = g i j) : Step m m' C g :=
  ⟨by funext a; rw [s.ok]; simp [okWith], s.next, h, s.frame⟩

end Verif
