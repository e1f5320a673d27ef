import Verif.Proofs.BruhatTmp

/-!
# Temporaries allocated and freed in any order

`Tmps m0 m A a T V`: since `m0` the window `A` has been modified and now contains `a`; the blocks `T i` have been allocated since and
contain `V i`; a block that is not allocated (any more) has no rows.
-/

namespace Verif.FF

variable {K ι : Type}

structure Tmps (m0 m : Mem K) (A : Win) (a : ℕ → ℕ → K) (T : ι → Win) (V : ι → ℕ → ℕ → K) : Prop where
  wf0 : WF m0
  wf : WF m
  okA : OkIn m0 A
  ldA : A.c ≤ A.ld
  ok : ∀ x, m.ok x = true ↔ m0.ok x = true ∨ ∃ i, (T i).Has x
  full : ∀ i, (T i).ld = (T i).c
  new : ∀ i x, (T i).Has x → m0.next ≤ x
  disj : ∀ i j, i ≠ j → (T i).Disj (T j)
  next : m0.next ≤ m.next
  valA : ∀ i < A.r, ∀ j < A.c, m.val (A.adr i j) = a i j
  val : ∀ i, ∀ x < (T i).r, ∀ y < (T i).c, m.val ((T i).adr x y) = V i x y
  frame : ∀ x, m0.ok x = true → ¬ A.Has x → m.val x = m0.val x

lemma full_Has {p r c x : ℕ} : (Win.mk p c r c).Has x ↔ p ≤ x ∧ x < p + r * c := by
  refine ⟨Has_new, fun ⟨h1, h2⟩ => ?_⟩
  have hc : 0 < c := by
    rcases Nat.eq_zero_or_pos c with rfl | h
    · simp at h2; omega
    · exact h
  refine ⟨(x - p) / c, ?_, (x - p) % c, Nat.mod_lt _ hc, ?_⟩
  · show (x - p) / c < r
    rw [Nat.div_lt_iff_lt_mul hc]; omega
  · simp only [Win.adr]
    have := Nat.div_add_mod (x - p) c
    rw [Nat.mul_comm] at this
    omega

namespace Tmps

variable {m0 m m' : Mem K} {A : Win} {a a' : ℕ → ℕ → K} {T : ι → Win} {V V' : ι → ℕ → ℕ → K}

lemma start (h : On m0 m A a) : Tmps m m A a (fun _ : ι => noWin) V :=
  ⟨h.wf', h.wf', h.ok', h.ld, fun x => ⟨Or.inl, fun h => h.resolve_right (fun ⟨_, hi⟩ => noWin_Has hi)⟩, fun _ => rfl,
    fun _ x hx => absurd hx noWin_Has, fun _ _ _ x hx => absurd hx noWin_Has, le_rfl, fun _ hi _ hj => h.val hi hj,
    fun _ x hx => absurd hx (Nat.not_lt_zero _), fun _ _ _ => rfl⟩

lemma onA (h : Tmps m0 m A a T V) : On m m A a :=
  ⟨h.wf, fun x hx => (h.ok x).2 (Or.inl (h.okA x hx)), h.ldA, Step.refl h.valA⟩

lemma on (h : Tmps m0 m A a T V) (i : ι) : On m m (T i) (V i) :=
  ⟨h.wf, fun x hx => (h.ok x).2 (Or.inr ⟨i, hx⟩), (h.full i).ge, Step.refl (h.val i)⟩

lemma src (h : Tmps m0 m A a T V) (i : ι) : Src m (T i) (V i) := (h.on i).src

lemma srcA (h : Tmps m0 m A a T V) : Src m A a := h.onA.src

lemma old (h : Tmps m0 m A a T V) {x : ℕ} (hx : m0.ok x = true) : x < m0.next := by
  by_contra hc
  rw [h.wf0 x (not_lt.1 hc)] at hx
  exact absurd hx (by simp)

lemma notOld (h : Tmps m0 m A a T V) {i : ι} {x : ℕ} (hx : m0.ok x = true) : ¬ (T i).Has x := fun hh => by
  have := h.new i x hh
  have := h.old hx
  omega

lemma disjA (h : Tmps m0 m A a T V) (i : ι) : A.Disj (T i) := fun x hx => h.notOld (h.okA x hx)

lemma congr (h : Tmps m0 m A a T V) (e : ∀ i, ∀ x < (T i).r, ∀ y < (T i).c, V i x y = V' i x y) : Tmps m0 m A a T V' :=
  { h with val := fun i x hx y hy => (h.val i x hx y hy).trans (e i x hx y hy) }

lemma congrA (h : Tmps m0 m A a T V) (e : ∀ i < A.r, ∀ j < A.c, a i j = a' i j) : Tmps m0 m A a' T V :=
  { h with valA := fun x hx y hy => (h.valA x hx y hy).trans (e x hx y hy) }

/-- `A` is written -/
lemma putA (h : Tmps m0 m A a T V) (s : On m m' A a') : Tmps m0 m' A a' T V := by
  refine ⟨h.wf0, h.wf.step s.step, h.okA, h.ldA, fun x => by rw [s.step.ok]; exact h.ok x, h.full, h.new, h.disj, h.next.trans s.step.next,
    s.step.val, fun i x hx y hy => ?_, fun x hx hn => ?_⟩
  · rw [s.step.frame _ ((h.on i).ok.adr hx hy) ((h.disjA i).symm _ (Win.Has_adr hx hy)), h.val i x hx y hy]
  · rw [s.step.frame x ((h.ok x).2 (Or.inl hx)) hn, h.frame x hx hn]

/-- a block is written -/
lemma put [DecidableEq ι] {f : ℕ → ℕ → K} (h : Tmps m0 m A a T V) (i : ι) (s : On m m' (T i) f) : Tmps m0 m' A a T (Function.update V i f) := by
  refine ⟨h.wf0, h.wf.step s.step, h.okA, h.ldA, fun x => by rw [s.step.ok]; exact h.ok x, h.full, h.new, h.disj, h.next.trans s.step.next,
    fun x hx y hy => ?_, fun j x hx y hy => ?_, fun x hx hn => ?_⟩
  · rw [s.step.frame _ (h.onA.ok.adr hx hy) (h.disjA i _ (Win.Has_adr hx hy)), h.valA x hx y hy]
  · by_cases e : j = i
    · subst e
      rw [Function.update_self]; exact s.step.val x hx y hy
    · rw [Function.update_of_ne e, s.step.frame _ ((h.on j).ok.adr hx hy) (h.disj j i e _ (Win.Has_adr hx hy)), h.val j x hx y hy]
  · rw [s.step.frame x ((h.ok x).2 (Or.inl hx)) (h.notOld hx), h.frame x hx hn]

/-- `fflas_new` -/
lemma alloc [DecidableEq ι] (h : Tmps m0 m A a T V) (i : ι) (hi : T i = noWin) (r c : ℕ) {n : ℕ} (hn : r * c = n) :
    ∃ f, Tmps m0 (m.grow n) A a (Function.update T i ⟨m.next, c, r, c⟩) (Function.update V i f) := by
  subst hn
  refine ⟨(m.grow (r * c)).mat ⟨m.next, c, r, c⟩, h.wf0, h.wf.grow _, h.okA, h.ldA, fun x => ?_, fun j => ?_, fun j x hx => ?_, fun j k e => ?_,
    h.next.trans (Nat.le_add_right _ _), h.valA, fun j x hx y hy => ?_, h.frame⟩
  · simp only [Mem.grow, Bool.or_eq_true, Bool.and_eq_true, decide_eq_true_eq]
    rw [h.ok x, or_assoc]
    refine or_congr_right ⟨?_, ?_⟩
    · rintro (⟨j, hj⟩ | hx)
      · refine ⟨j, ?_⟩
        rw [Function.update_of_ne (fun e => by subst e; rw [hi] at hj; exact noWin_Has hj)]
        exact hj
      · exact ⟨i, by rw [Function.update_self]; exact full_Has.2 hx⟩
    · rintro ⟨j, hj⟩
      by_cases e : j = i
      · subst e; rw [Function.update_self] at hj; exact Or.inr (full_Has.1 hj)
      · rw [Function.update_of_ne e] at hj; exact Or.inl ⟨j, hj⟩
  · by_cases e : j = i
    · subst e; rw [Function.update_self]
    · rw [Function.update_of_ne e]; exact h.full j
  · by_cases e : j = i
    · subst e; rw [Function.update_self] at hx; exact h.next.trans (full_Has.1 hx).1
    · rw [Function.update_of_ne e] at hx; exact h.new j x hx
  · by_cases ej : j = i
    · subst ej
      rw [Function.update_self, Function.update_of_ne (Ne.symm e)]
      exact (Disj_new h.wf (h.on k).ok).symm
    · rw [Function.update_of_ne ej]
      by_cases ek : k = i
      · subst ek; rw [Function.update_self]; exact Disj_new h.wf (h.on j).ok
      · rw [Function.update_of_ne ek]; exact h.disj j k e
  · by_cases e : j = i
    · subst e; rw [Function.update_self, Function.update_self]; rfl
    · rw [Function.update_of_ne e] at hx hy ⊢
      rw [Function.update_of_ne e]
      exact h.val j x hx y hy

/-- `fflas_delete` -/
lemma free [DecidableEq ι] (h : Tmps m0 m A a T V) (i : ι) {p n : ℕ} (hp : p = (T i).p) (hn : n = (T i).r * (T i).c) :
    Tmps m0 (m.drop p n) A a (Function.update T i noWin) V := by
  have key : ∀ x, (p ≤ x ∧ x < p + n) ↔ (T i).Has x := fun x => by
    have e : T i = ⟨(T i).p, (T i).c, (T i).r, (T i).c⟩ := by
      cases hh : T i with
      | mk p ld r c => have := h.full i; rw [hh] at this; simp only [] at this ⊢; rw [this]
    rw [e, full_Has, hp, hn]
  refine ⟨h.wf0, fun x hx => ?_, h.okA, h.ldA, fun x => ?_, fun j => ?_, fun j x hx => ?_, fun j k e => ?_, h.next, h.valA, fun j x hx y hy => ?_, h.frame⟩
  · simp only [Mem.drop] at hx ⊢
    rw [h.wf x hx, Bool.false_and]
  · simp only [Mem.drop, Bool.and_eq_true, Bool.not_eq_true', Bool.and_eq_false_iff, decide_eq_false_iff_not]
    have e : (¬ p ≤ x ∨ ¬ x < p + n) ↔ ¬ (T i).Has x := by rw [← key x]; tauto
    rw [e, h.ok x]
    constructor
    · rintro ⟨h1 | ⟨j, hj⟩, h2⟩
      · exact Or.inl h1
      · refine Or.inr ⟨j, ?_⟩
        rw [Function.update_of_ne (fun e => by subst e; exact h2 hj)]; exact hj
    · rintro (h1 | ⟨j, hj⟩)
      · exact ⟨Or.inl h1, h.notOld h1⟩
      · by_cases e : j = i
        · subst e; rw [Function.update_self] at hj; exact absurd hj noWin_Has
        · rw [Function.update_of_ne e] at hj
          exact ⟨Or.inr ⟨j, hj⟩, fun hh => h.disj j i e x hj hh⟩
  · by_cases e : j = i
    · subst e; rw [Function.update_self]; rfl
    · rw [Function.update_of_ne e]; exact h.full j
  · by_cases e : j = i
    · subst e; rw [Function.update_self] at hx; exact absurd hx noWin_Has
    · rw [Function.update_of_ne e] at hx; exact h.new j x hx
  · by_cases ej : j = i
    · subst ej; rw [Function.update_self]; exact fun x hx => absurd hx noWin_Has
    · rw [Function.update_of_ne ej]
      by_cases ek : k = i
      · subst ek; rw [Function.update_self]; exact fun x _ => noWin_Has
      · rw [Function.update_of_ne ek]; exact h.disj j k e
  · by_cases e : j = i
    · subst e; rw [Function.update_self] at hx; exact absurd hx (Nat.not_lt_zero _)
    · rw [Function.update_of_ne e] at hx hy ⊢; exact h.val j x hx y hy

/-- all blocks have been freed -/
lemma done (h : Tmps m0 m A a T V) (hT : ∀ i, T i = noWin) : On m0 m A a := by
  refine ⟨h.wf0, h.okA, h.ldA, ?_, h.next, h.valA, h.frame⟩
  funext x
  rw [Bool.eq_iff_iff, h.ok x]
  exact ⟨fun hh => hh.resolve_right (fun ⟨i, hi⟩ => by rw [hT i] at hi; exact noWin_Has hi), Or.inl⟩

/-- earlier writes in `A` -/
lemma trans {m1 : Mem K} {a1 : ℕ → ℕ → K} (h1 : On m0 m1 A a1) (h : Tmps m1 m A a T V) : Tmps m0 m A a T V :=
  ⟨h1.wf, h.wf, h1.ok, h.ldA, fun x => by rw [h.ok x, h1.step.ok], h.full, fun i x hx => h1.step.next.trans (h.new i x hx), h.disj,
    h1.step.next.trans h.next, h.valA, h.val, fun x hx hn => by rw [h.frame x (by rw [h1.step.ok]; exact hx) hn, h1.step.frame x hx hn]⟩

end Tmps

end Verif.FF
