import Verif.Core.Heap
import Mathlib.Logic.Relation
import Mathlib.Data.Fintype.Basic
import Mathlib.Data.DFinsupp.WellFounded

/-!
# Tasks on a shared memory

The parallel code spawns tasks and waits for them (`SYNCH_GROUP`, `TASK`, `WAIT`; /repo/fflas-ffpack/paladin/parallel.h:191-199).
`Proc` is a program cut into its individual memory accesses; `par n ts k` runs the tasks `ts` until all have ended, then continues
with `k`.  Tasks may spawn tasks.  `PStep` is one access by one task: nothing is assumed on the order in which the tasks advance.

`wp` gives the cells a process may write (`W`), read (`R`), its temporaries (`T`), and its result; `wp_sound` is the theorem about
all executions.
-/

namespace Verif.Par

variable {K : Type}

/-- A process: a program cut into single memory accesses. -/
inductive Proc (K : Type) : Type where
  /-- end of the task -/
  | ret
  /-- undefined behaviour -/
  | fault (e : Fault)
  /-- read a cell -/
  | rd (i : ℕ) (k : K → Proc K)
  /-- write a cell -/
  | wr (i : ℕ) (v : K) (k : Proc K)
  /-- `fflas_new` -/
  | alloc (n : ℕ) (k : ℕ → Proc K)
  /-- `fflas_delete` -/
  | free (p n : ℕ) (k : Proc K)
  /-- tasks, then wait for all of them -/
  | par (n : ℕ) (ts : Fin n → Proc K) (k : Proc K)

/-- the cells of the block of `n` cells at `p` -/
def blkAt (p n i : ℕ) : Prop := p ≤ i ∧ i < p + n

instance (p n i : ℕ) : Decidable (blkAt p n i) := inferInstanceAs (Decidable (_ ∧ _))

/-- memory with the block allocated, its contents arbitrary -/
def allocAt (m : Mem K) (p n : ℕ) (c : ℕ → K) : Mem K :=
  { val := fun i => if blkAt p n i then c i else m.val i, ok := fun i => m.ok i || decide (blkAt p n i), next := max m.next (p + n) }

/-- memory with the block released -/
def freeAt (m : Mem K) (p n : ℕ) : Mem K := { m with ok := fun i => m.ok i && !decide (blkAt p n i) }

/-- One step of one of the tasks.  `alloc` returns any block of cells not in use, with any contents. -/
inductive PStep : Proc K → Mem K → Proc K → Mem K → Prop
  | rd {i k m} : m.ok i = true → PStep (.rd i k) m (k (m.val i)) m
  | wr {i v k m} : m.ok i = true → PStep (.wr i v k) m k (m.set i v)
  | alloc {n k m} (p : ℕ) (c : ℕ → K) : (∀ i, blkAt p n i → m.ok i = false) → PStep (.alloc n k) m (k p) (allocAt m p n c)
  | free {p n k m} : (∀ i, blkAt p n i → m.ok i = true) → PStep (.free p n k) m k (freeAt m p n)
  | join {n ts k m} : (∀ j, ts j = .ret) → PStep (.par n ts k) m k m
  | task {n ts k m m'} (j : Fin n) (t' : Proc K) : PStep (ts j) m t' m' → PStep (.par n ts k) m (.par n (Function.update ts j t') k) m'

/-- some task is about to do something undefined -/
inductive Faults : Proc K → Mem K → Prop
  | fault {e m} : Faults (.fault e) m
  | rd {i k m} : m.ok i = false → Faults (.rd i k) m
  | wr {i v k m} : m.ok i = false → Faults (.wr i v k) m
  | free {p n k m} (i : ℕ) : blkAt p n i → m.ok i = false → Faults (.free p n k) m
  | task {n ts k m} (j : Fin n) : Faults (ts j) m → Faults (.par n ts k) m

/-- any number of steps -/
def Steps (a b : Proc K × Mem K) : Prop := Relation.ReflTransGen (fun x y => PStep x.1 x.2 y.1 y.2) a b

/-- `Q` depends on the cells of `S` only -/
def Local (S : ℕ → Prop) (Q : (ℕ → K) → Prop) : Prop := ∀ v v', (∀ i, S i → v' i = v i) → Q v → Q v'

/-- From contents `v`, the process `p` writes `W` and the temporaries `T` only, reads `W`, `R` and `T` only, the tasks it spawns do
not interfere, and it ends in contents that satisfy `Q`. -/
def wp : Proc K → (ℕ → Prop) → (ℕ → Prop) → (ℕ → Prop) → (ℕ → K) → ((ℕ → K) → Prop) → Prop
  | .ret, _, _, _, v, Q => Q v
  | .fault _, _, _, _, _, _ => False
  | .rd i k, W, R, T, v, Q => (W i ∨ R i ∨ T i) ∧ wp (k (v i)) W R T v Q
  | .wr i x k, W, R, T, v, Q => (W i ∨ T i) ∧ wp k W R T (Function.update v i x) Q
  | .alloc n k, W, R, T, v, Q => ∀ (p : ℕ) (c : ℕ → K), (∀ i, blkAt p n i → ¬ (W i ∨ R i ∨ T i)) →
      wp (k p) W R (fun i => T i ∨ blkAt p n i) (fun i => if blkAt p n i then c i else v i) Q
  | .free p n k, W, R, T, v, Q => (∀ i, blkAt p n i → T i) ∧ wp k W R (fun i => T i ∧ ¬ blkAt p n i) v Q
  | .par n ts k, W, R, T, v, Q => ∃ (T0 : ℕ → Prop) (Wc Rc Tc : Fin n → ℕ → Prop) (Qc : Fin n → (ℕ → K) → Prop),
      (∀ i, T0 i → T i) ∧ (∀ j i, Tc j i → T i ∧ ¬ T0 i) ∧ (∀ j i, Wc j i → W i ∨ T0 i) ∧ (∀ j i, Rc j i → W i ∨ R i ∨ T0 i) ∧
      (∀ j l i, j ≠ l → ¬ (Wc j i ∧ Wc l i) ∧ ¬ (Rc j i ∧ Wc l i) ∧ ¬ (Tc j i ∧ Tc l i)) ∧
      (∀ j, Local (fun i => Wc j i ∨ Rc j i) (Qc j)) ∧ (∀ j, wp (ts j) (Wc j) (Rc j) (Tc j) v (Qc j)) ∧
      ∀ v', (∀ i, W i ∨ R i ∨ T0 i → (∀ j, ¬ Wc j i) → v' i = v i) → (∀ j, Qc j v') → wp k W R T0 v' Q

/-- more temporaries do not harm -/
lemma wp_mono_T (p : Proc K) : ∀ {W R T T' : ℕ → Prop} {v : ℕ → K} {Q : (ℕ → K) → Prop}, (∀ i, T i → T' i) →
    wp p W R T v Q → wp p W R T' v Q := by
  induction p with
  | ret => intro W R T T' v Q _ h; exact h
  | fault => intro W R T T' v Q _ h; exact h
  | rd i k ih => intro W R T T' v Q hT h; exact ⟨h.1.imp id (Or.imp id (hT _)), ih _ hT h.2⟩
  | wr i x k ih => intro W R T T' v Q hT h; exact ⟨h.1.imp id (hT _), ih hT h.2⟩
  | alloc n k ih =>
    intro W R T T' v Q hT h p c hp
    exact ih _ (fun i hi => hi.imp (hT i) id) (h p c (fun i hi hc => hp i hi (hc.imp id (Or.imp id (hT _)))))
  | free p n k ih => intro W R T T' v Q hT h; exact ⟨fun i hi => hT i (h.1 i hi), ih (fun i hi => ⟨hT i hi.1, hi.2⟩) h.2⟩
  | par n ts k _ _ =>
    rintro W R T T' v Q hT ⟨T0, Wc, Rc, Tc, Qc, h1, h2, h3⟩
    exact ⟨T0, Wc, Rc, Tc, Qc, fun i hi => hT i (h1 i hi), fun j i hi => ⟨hT i (h2 j i hi).1, (h2 j i hi).2⟩, h3⟩

/-- the process depends on its own cells only -/
lemma wp_frame (p : Proc K) : ∀ {W R T : ℕ → Prop} {v v' : ℕ → K} {Q : (ℕ → K) → Prop}, Local (fun i => W i ∨ R i) Q →
    (∀ i, W i ∨ R i ∨ T i → v' i = v i) → wp p W R T v Q → wp p W R T v' Q := by
  induction p with
  | ret => intro W R T v v' Q hQ hv h; exact hQ _ _ (fun i hi => hv i (hi.imp id Or.inl)) h
  | fault => intro W R T v v' Q _ _ h; exact h
  | rd i k ih => intro W R T v v' Q hQ hv h; exact ⟨h.1, by rw [hv i h.1]; exact ih _ hQ hv h.2⟩
  | wr i x k ih =>
    intro W R T v v' Q hQ hv h
    refine ⟨h.1, ih hQ (fun l hl => ?_) h.2⟩
    by_cases e : l = i
    · subst e; simp
    · simp [Function.update_of_ne e, hv l hl]
  | alloc n k ih =>
    intro W R T v v' Q hQ hv h p c hp
    refine ih _ hQ (fun i hi => ?_) (h p c hp)
    by_cases e : blkAt p n i
    · simp [e]
    · simp only [e, if_false]
      exact hv i (hi.imp id (Or.imp id (fun t => t.resolve_right e)))
  | free p n k ih => intro W R T v v' Q hQ hv h; exact ⟨h.1, ih hQ (fun i hi => hv i (hi.imp id (Or.imp id And.left))) h.2⟩
  | par n ts k iht _ =>
    rintro W R T v v' Q hQ hv ⟨T0, Wc, Rc, Tc, Qc, h1, h2, h3, h4, h5, h6, h7, h8⟩
    refine ⟨T0, Wc, Rc, Tc, Qc, h1, h2, h3, h4, h5, h6, fun j => iht j (h6 j) (fun i hi => hv i ?_) (h7 j), fun v'' e => h8 v'' ?_⟩
    · rcases hi with hi | hi | hi
      · exact (h3 j i hi).imp id (fun t => Or.inr (h1 i t))
      · exact (h4 j i hi).imp id (Or.imp id (h1 i))
      · exact Or.inr (Or.inr (h2 j i hi).1)
    · intro i hi hn
      rw [e i hi hn, hv i (hi.imp id (Or.imp id (h1 i)))]

/-- what a process owns: allocated cells, the temporaries apart from the others -/
structure Owns (W R T : ℕ → Prop) (m : Mem K) : Prop where
  ok : ∀ i, W i ∨ R i ∨ T i → m.ok i = true
  dis : ∀ i, T i → ¬ W i ∧ ¬ R i

/-- one step keeps the specification and touches nothing else -/
lemma wp_step {p p' : Proc K} {m m' : Mem K} (hs : PStep p m p' m') : ∀ {W R T : ℕ → Prop} {Q : (ℕ → K) → Prop},
    Owns W R T m → wp p W R T m.val Q →
    ∃ T' : ℕ → Prop, Owns W R T' m' ∧ wp p' W R T' m'.val Q ∧ (∀ i, T' i → T i ∨ m.ok i = false) ∧
      ∀ i, m.ok i = true → ¬ W i → ¬ T i → m'.val i = m.val i ∧ m'.ok i = true := by
  induction hs with
  | rd h => intro W R T Q ho hw; exact ⟨T, ho, hw.2, fun i hi => Or.inl hi, fun i h _ _ => ⟨rfl, h⟩⟩
  | wr h =>
    rename_i i x k m
    intro W R T Q ho hw
    refine ⟨T, ⟨ho.ok, ho.dis⟩, hw.2, fun i hi => Or.inl hi, fun l hl h1 h2 => ⟨?_, hl⟩⟩
    have : l ≠ i := by rintro rfl; exact hw.1.elim h1 h2
    simp [Mem.set, Function.update_of_ne this]
  | alloc p c h =>
    rename_i n k m
    intro W R T Q ho hw
    have hf : ∀ i, blkAt p n i → ¬ (W i ∨ R i ∨ T i) := fun i hi hc => by
      have := h i hi; rw [ho.ok i hc] at this; exact absurd this (by decide)
    refine ⟨fun i => T i ∨ blkAt p n i, ⟨fun i hi => ?_, fun i hi => ?_⟩, hw p c hf, fun i hi => hi.imp id (h i), fun l hl h1 h2 => ?_⟩
    · simp only [allocAt, Bool.or_eq_true, decide_eq_true_eq]
      rcases hi with hi | hi | hi | hi
      · exact Or.inl (ho.ok i (Or.inl hi))
      · exact Or.inl (ho.ok i (Or.inr (Or.inl hi)))
      · exact Or.inl (ho.ok i (Or.inr (Or.inr hi)))
      · exact Or.inr hi
    · rcases hi with hi | hi
      · exact ho.dis i hi
      · exact ⟨fun a => hf i hi (Or.inl a), fun a => hf i hi (Or.inr (Or.inl a))⟩
    · have hb : ¬ blkAt p n l := fun hb => by have := h l hb; rw [hl] at this; exact absurd this (by decide)
      simp [allocAt, hb, hl]
  | free h =>
    rename_i p n k m
    intro W R T Q ho hw
    refine ⟨fun i => T i ∧ ¬ blkAt p n i, ⟨fun i hi => ?_, fun i hi => ho.dis i hi.1⟩, hw.2, fun i hi => Or.inl hi.1, fun l hl h1 h2 => ⟨rfl, ?_⟩⟩
    · have hb : ¬ blkAt p n i := by
        intro hb
        have := ho.dis i (hw.1 i hb)
        rcases hi with hi | hi | hi
        · exact this.1 hi
        · exact this.2 hi
        · exact hi.2 hb
      have : m.ok i = true := ho.ok i (hi.imp id (Or.imp id And.left))
      simp [freeAt, hb, this]
    · have hb : ¬ blkAt p n l := fun hb => h2 (hw.1 l hb)
      simp [freeAt, hb, hl]
  | join h =>
    rename_i n ts k m
    rintro W R T Q ho ⟨T0, Wc, Rc, Tc, Qc, h1, h2, h3, h4, h5, h6, h7, h8⟩
    refine ⟨T, ho, wp_mono_T k h1 (h8 m.val (fun _ _ _ => rfl) (fun j => ?_)), fun i hi => Or.inl hi, fun i h _ _ => ⟨rfl, h⟩⟩
    have := h7 j
    rw [h j] at this
    exact this
  | task j t' hst ih =>
    rename_i n ts k m m'
    rintro W R T Q ho ⟨T0, Wc, Rc, Tc, Qc, h1, h2, h3, h4, h5, h6, h7, h8⟩
    have hok : ∀ l i, Wc l i ∨ Rc l i ∨ Tc l i → m.ok i = true := fun l i hi => by
      rcases hi with hi | hi | hi
      · exact ho.ok i ((h3 l i hi).imp id (fun t => Or.inr (h1 i t)))
      · exact ho.ok i ((h4 l i hi).imp id (Or.imp id (h1 i)))
      · exact ho.ok i (Or.inr (Or.inr (h2 l i hi).1))
    -- temporaries of a task are no cells of the others
    have hTW : ∀ l i, Tc l i → ∀ a, ¬ Wc a i ∧ ¬ Rc a i := fun l i hi a => by
      have q := ho.dis i (h2 l i hi).1
      exact ⟨fun c => (h3 a i c).elim q.1 (h2 l i hi).2, fun c => (h4 a i c).elim q.1 (fun c => c.elim q.2 (h2 l i hi).2)⟩
    obtain ⟨T', o', w', f', g'⟩ := ih ⟨hok j, fun i hi => hTW j i hi j⟩ (h7 j)
    have fresh : ∀ i, T' i → ¬ Tc j i → m.ok i = false := fun i hi hn => (f' i hi).resolve_left hn
    have fr : ∀ i, T' i → ¬ Tc j i → ¬ (W i ∨ R i ∨ T i) := fun i hi hn hc => by
      have := fresh i hi hn; rw [ho.ok i hc] at this; exact absurd this (by decide)
    -- what the step leaves alone
    have keep : ∀ i, (W i ∨ R i ∨ T i) → ¬ Wc j i → ¬ Tc j i → m'.val i = m.val i ∧ m'.ok i = true :=
      fun i hi a b => g' i (ho.ok i hi) a b
    have hT0 : ∀ i, T0 i → ¬ Tc j i := fun i hi hc => (h2 j i hc).2 hi
    have nT : ∀ i, W i ∨ R i → ¬ Tc j i := fun i hi hc => by
      have := ho.dis i (h2 j i hc).1
      exact hi.elim this.1 this.2
    refine ⟨fun i => (T i ∧ ¬ Tc j i) ∨ T' i, ⟨fun i hi => ?_, fun i hi => ?_⟩, ⟨T0, Wc, Rc, Function.update Tc j T', Qc, ?_, ?_, h3, h4, ?_, h6, ?_, ?_⟩, ?_, ?_⟩
    · by_cases hj : Wc j i
      · exact o'.ok i (Or.inl hj)
      by_cases hr : T' i
      · exact o'.ok i (Or.inr (Or.inr hr))
      rcases hi with hi | hi | hi | hi
      · exact (keep i (Or.inl hi) hj (nT i (Or.inl hi))).2
      · exact (keep i (Or.inr (Or.inl hi)) hj (nT i (Or.inr hi))).2
      · exact (keep i (Or.inr (Or.inr hi.1)) hj hi.2).2
      · exact absurd hi hr
    · rcases hi with hi | hi
      · exact ho.dis i hi.1
      · by_cases hc : Tc j i
        · exact ho.dis i (h2 j i hc).1
        · exact ⟨fun a => fr i hi hc (Or.inl a), fun a => fr i hi hc (Or.inr (Or.inl a))⟩
    · exact fun i hi => Or.inl ⟨h1 i hi, hT0 i hi⟩
    · intro l i hi
      by_cases e : l = j
      · subst e
        simp only [Function.update_self] at hi
        refine ⟨Or.inr hi, fun hc => ?_⟩
        by_cases ht : Tc l i
        · exact (h2 l i ht).2 hc
        · exact fr i hi ht (Or.inr (Or.inr (h1 i hc)))
      · rw [Function.update_of_ne e] at hi
        exact ⟨Or.inl ⟨(h2 l i hi).1, fun hc => (h5 l j i e).2.2 ⟨hi, hc⟩⟩, (h2 l i hi).2⟩
    · intro a b i hab
      refine ⟨(h5 a b i hab).1, (h5 a b i hab).2.1, ?_⟩
      have key : ∀ l, l ≠ j → ¬ (Tc l i ∧ T' i) := by
        rintro l hl ⟨u, w⟩
        by_cases ht : Tc j i
        · exact (h5 l j i hl).2.2 ⟨u, ht⟩
        · exact fr i w ht (Or.inr (Or.inr (h2 l i u).1))
      by_cases ea : a = j
      · subst ea
        rw [Function.update_self, Function.update_of_ne (Ne.symm hab)]
        exact fun h => key b (Ne.symm hab) ⟨h.2, h.1⟩
      · by_cases eb : b = j
        · subst eb
          rw [Function.update_self, Function.update_of_ne ea]
          exact key a ea
        · rw [Function.update_of_ne ea, Function.update_of_ne eb]
          exact (h5 a b i hab).2.2
    · intro l
      by_cases e : l = j
      · subst e; simpa using w'
      · rw [Function.update_of_ne e, Function.update_of_ne e]
        refine wp_frame _ (h6 l) (fun i hi => ?_) (h7 l)
        refine (g' i (hok l i hi) (fun c => ?_) (fun c => ?_)).1
        · rcases hi with hi | hi | hi
          · exact (h5 l j i e).1 ⟨hi, c⟩
          · exact (h5 l j i e).2.1 ⟨hi, c⟩
          · exact (hTW l i hi j).1 c
        · rcases hi with hi | hi | hi
          · exact (hTW j i c l).1 hi
          · exact (hTW j i c l).2 hi
          · exact (h5 l j i e).2.2 ⟨hi, c⟩
    · intro v' hv' hq
      refine h8 v' (fun i hi hn => ?_) hq
      rw [hv' i hi hn]
      refine (keep i (hi.imp id (Or.imp id (h1 i))) (hn j) ?_).1
      rcases hi with hi | hi | hi
      · exact nT i (Or.inl hi)
      · exact nT i (Or.inr hi)
      · exact hT0 i hi
    · rintro i (hi | hi)
      · exact Or.inl hi.1
      · rcases f' i hi with h | h
        · exact Or.inl (h2 j i h).1
        · exact Or.inr h
    · intro i hi hW hT
      refine g' i hi (fun c => ?_) (fun c => hT (h2 j i c).1)
      exact (h3 j i c).elim hW (fun t => hT (h1 i t))

/-- a process that meets its specification is not about to fault -/
lemma wp_noFault {p : Proc K} {m : Mem K} (hf : Faults p m) : ∀ {W R T : ℕ → Prop} {Q : (ℕ → K) → Prop},
    Owns W R T m → ¬ wp p W R T m.val Q := by
  induction hf with
  | fault => intro W R T Q _ h; exact h
  | rd h => intro W R T Q ho hw; rw [ho.ok _ hw.1] at h; exact absurd h (by decide)
  | wr h => intro W R T Q ho hw; rw [ho.ok _ (hw.1.imp id Or.inr)] at h; exact absurd h (by decide)
  | free i hb h => intro W R T Q ho hw; rw [ho.ok _ (Or.inr (Or.inr (hw.1 i hb)))] at h; exact absurd h (by decide)
  | task j _ ih =>
    rintro W R T Q ho ⟨T0, Wc, Rc, Tc, Qc, h1, h2, h3, h4, h5, h6, h7, h8⟩
    refine ih ⟨fun i hi => ?_, fun i hi => ?_⟩ (h7 j)
    · rcases hi with hi | hi | hi
      · exact ho.ok i ((h3 j i hi).imp id (fun t => Or.inr (h1 i t)))
      · exact ho.ok i ((h4 j i hi).imp id (Or.imp id (h1 i)))
      · exact ho.ok i (Or.inr (Or.inr (h2 j i hi).1))
    · have q := ho.dis i (h2 j i hi).1
      exact ⟨fun c => (h3 j i c).elim q.1 (h2 j i hi).2, fun c => (h4 j i c).elim q.1 (fun c => c.elim q.2 (h2 j i hi).2)⟩

/-- finitely many cells are in use -/
def Bounded (m : Mem K) : Prop := ∃ B, ∀ i, B ≤ i → m.ok i = false

lemma Bounded.step {p p' : Proc K} {m m' : Mem K} (hs : PStep p m p' m') : Bounded m → Bounded m' := by
  induction hs with
  | rd => exact id
  | wr => exact id
  | alloc p c h =>
    rintro ⟨B, hB⟩
    rename_i n k m
    refine ⟨max B (p + n), fun i hi => ?_⟩
    have : ¬ blkAt p n i := fun hb => by have := hb.2; omega
    simp [allocAt, this, hB i (by omega)]
  | free h => rintro ⟨B, hB⟩; exact ⟨B, fun i hi => by simp [freeAt, hB i hi]⟩
  | join => exact id
  | task j t' _ ih => exact ih

/-- a process that has not ended and is not about to fault can advance -/
lemma progress (p : Proc K) (m : Mem K) (hB : Bounded m) : p = .ret ∨ Faults p m ∨ ∃ p' m', PStep p m p' m' := by
  induction p with
  | ret => exact Or.inl rfl
  | fault => exact Or.inr (Or.inl .fault)
  | rd i k _ =>
    cases h : m.ok i
    · exact Or.inr (Or.inl (.rd h))
    · exact Or.inr (Or.inr ⟨_, _, .rd h⟩)
  | wr i x k _ =>
    cases h : m.ok i
    · exact Or.inr (Or.inl (.wr h))
    · exact Or.inr (Or.inr ⟨_, _, .wr h⟩)
  | alloc n k _ =>
    obtain ⟨B, hB⟩ := hB
    exact Or.inr (Or.inr ⟨_, _, .alloc B m.val (fun i hi => hB i hi.1)⟩)
  | free p n k _ =>
    by_cases h : ∀ i, blkAt p n i → m.ok i = true
    · exact Or.inr (Or.inr ⟨_, _, .free h⟩)
    · push Not at h
      obtain ⟨i, hb, hn⟩ := h
      exact Or.inr (Or.inl (.free i hb (by simpa using hn)))
  | par n ts k ih _ =>
    by_cases h : ∀ j, ts j = .ret
    · exact Or.inr (Or.inr ⟨_, _, .join h⟩)
    · push Not at h
      obtain ⟨j, hj⟩ := h
      rcases ih j with h | h | ⟨p', m', h⟩
      · exact absurd h hj
      · exact Or.inr (Or.inl (.task j h))
      · exact Or.inr (Or.inr ⟨_, _, .task j p' h⟩)

/-- one step, whatever the memory -/
def Next (p' p : Proc K) : Prop := ∃ m m' : Mem K, PStep p m p' m'

/-- finitely many well-founded components, one of which moves -/
lemma acc_pi {α : Type} {r : α → α → Prop} {n : ℕ} (f : Fin n → α) (h : ∀ j, Acc r (f j)) :
    Acc (fun g' g : Fin n → α => ∃ j a, r a (g j) ∧ g' = Function.update g j a) f := by
  let β := {a : α // Acc r a}
  have wf : WellFounded (fun a b : β => r a.1 b.1) := by
    refine ⟨fun ⟨a, ha⟩ => ?_⟩
    induction ha with
    | intro x hx ih => exact ⟨_, fun ⟨y, hy⟩ hyx => ih y hyx⟩
  have wf2 := Pi.Lex.wellFounded (ι := Fin n) (α := fun _ => β) (r := (· < ·)) (s := fun _ (a b : β) => r a.1 b.1) (fun _ => wf)
  have key : ∀ F : Fin n → β, Acc (fun g' g : Fin n → α => ∃ j a, r a (g j) ∧ g' = Function.update g j a) (fun j => (F j).1) := by
    intro F
    induction F using wf2.induction with
    | _ F ih =>
      refine ⟨_, ?_⟩
      rintro g ⟨j, a, hr, rfl⟩
      have ha : Acc r a := (F j).2.inv hr
      have := ih (Function.update F j ⟨a, ha⟩) ⟨j, fun l hl => Function.update_of_ne hl.ne _ _, by simpa using hr⟩
      convert this using 1
      funext l
      by_cases e : l = j
      · subst e; simp
      · simp [Function.update_of_ne e]
  exact key fun j => ⟨f j, h j⟩

/-- no infinite execution -/
theorem next_wf : WellFounded (Next (K := K)) := by
  refine ⟨fun p => ?_⟩
  induction p with
  | ret => exact ⟨_, by rintro _ ⟨m, m', h⟩; cases h⟩
  | fault => exact ⟨_, by rintro _ ⟨m, m', h⟩; cases h⟩
  | rd i k ih => exact ⟨_, by rintro _ ⟨m, m', h⟩; cases h; exact ih _⟩
  | wr i x k ih => exact ⟨_, by rintro _ ⟨m, m', h⟩; cases h; exact ih⟩
  | alloc n k ih => exact ⟨_, by rintro _ ⟨m, m', h⟩; cases h; exact ih _⟩
  | free p n k ih => exact ⟨_, by rintro _ ⟨m, m', h⟩; cases h; exact ih⟩
  | par n ts k iht ihk =>
    have := acc_pi ts iht
    clear iht
    induction this with
    | intro ts _ ih =>
      refine ⟨_, ?_⟩
      rintro _ ⟨m, m', h⟩
      cases h with
      | join => exact ihk
      | task j t' h => exact ih _ ⟨j, t', ⟨m, m', h⟩, rfl⟩

/-- **All executions.**  Whatever the order in which the tasks advance: no access outside the cells in use, no deadlock, and if the
process has ended the result holds and cells it does not own are as before.  There are no infinite executions (`next_wf`). -/
theorem wp_sound {p p' : Proc K} {m m' : Mem K} {W R : ℕ → Prop} {Q : (ℕ → K) → Prop} (ho : ∀ i, W i ∨ R i → m.ok i = true)
    (hB : Bounded m) (hw : wp p W R (fun _ => False) m.val Q) (hs : Steps (p, m) (p', m')) :
    ¬ Faults p' m' ∧ (p' = .ret ∨ ∃ p'' m'', PStep p' m' p'' m'') ∧ (p' = .ret → Q m'.val) ∧
      ∀ i, m.ok i = true → ¬ W i → m'.val i = m.val i ∧ m'.ok i = true := by
  have key : ∀ x : Proc K × Mem K, Steps (p, m) x → Bounded x.2 ∧ (∀ i, m.ok i = true → ¬ W i → x.2.val i = m.val i ∧ x.2.ok i = true) ∧
      ∃ T : ℕ → Prop, Owns W R T x.2 ∧ wp x.1 W R T x.2.val Q ∧ ∀ i, T i → m.ok i = false := by
    intro x hx
    induction hx with
    | refl => exact ⟨hB, fun i h _ => ⟨rfl, h⟩, _, ⟨fun i hi => ho i (by simpa using hi), fun i hi => hi.elim⟩, hw, fun i hi => hi.elim⟩
    | tail _ hst ih =>
      obtain ⟨b, f, T, o, w, t⟩ := ih
      obtain ⟨T', o', w', f', g'⟩ := wp_step hst o w
      have tt : ∀ i, m.ok i = true → ¬ T i := fun i hi ht => by have := t i ht; rw [hi] at this; exact absurd this (by decide)
      refine ⟨Bounded.step hst b, fun i hi hW => ?_, T', o', w', fun i hi => ?_⟩
      · have e := f i hi hW
        have e' := g' i e.2 hW (tt i hi)
        exact ⟨e'.1.trans e.1, e'.2⟩
      · rcases f' i hi with h | h
        · exact t i h
        · by_contra hc
          rw [Bool.not_eq_false] at hc
          by_cases hW : W i
          · have := o.ok i (Or.inl hW); rw [h] at this; exact absurd this (by decide)
          · have := (f i hc hW).2; rw [h] at this; exact absurd this (by decide)
  obtain ⟨b, f, T, o, w, _⟩ := key _ hs
  have nf : ¬ Faults p' m' := fun h => wp_noFault h o w
  refine ⟨nf, ?_, fun e => ?_, f⟩
  · rcases progress p' m' b with h | h | h
    · exact Or.inl h
    · exact absurd h nf
    · exact Or.inr h
  · subst e; exact w

end Verif.Par
