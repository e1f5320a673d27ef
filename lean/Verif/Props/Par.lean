import Verif.Proofs.ParElem
import Verif.Core.HeapEx
import Verif.Props.ApplyP
import Mathlib.Data.Rat.Defs
import Mathlib.Algebra.Field.Rat
import Mathlib.Tactic.FinCases

/-!
# Property C04: loops of tasks

The hypothesis on a task concerns the task **alone**: executed by itself from the memory in which the tasks are started, it writes the
cells `W` only, reads `W` and `R` only (`Stays`).  The conclusion concerns all the interleavings of the accesses of all the tasks.
-/

namespace Verif.Props
open Verif.FF Verif.Par Verif.BlockCuts Verif.Spec.Splitting

variable {K : Type}

/-- the next step of a task that only reads and writes: a read in `W` or `R`, or a write in `W`, or it has ended -/
def NextIn (W R : ℕ → Prop) : Proc K → Prop
  | .ret => True
  | .rd i _ => W i ∨ R i
  | .wr i _ _ => W i
  | _ => False

/-- executed alone from `m`, the task reads `W` and `R` only, and writes `W` only -/
def Stays (W R : ℕ → Prop) (p : Proc K) (m : Mem K) : Prop := ∀ p' m', Steps (p, m) (p', m') → NextIn W R p'

/-- what holds of every execution of `p` from `m`, when the cell `a` shall end with the contents `f a` -/
structure Deterministic (p : Proc K) (m : Mem K) (f : ℕ → K) : Prop where
  noFault : ∀ p' m', Steps (p, m) (p', m') → ¬ Faults p' m'
  noRace : ∀ p' m', Steps (p, m) (p', m') → ¬ Race p'
  noDeadlock : ∀ p' m', Steps (p, m) (p', m') → p' = .ret ∨ ∃ p'' m'', PStep p' m' p'' m''
  finite : ∀ s : ℕ → Proc K × Mem K, s 0 = (p, m) → ∃ n, ¬ PStep (s n).1 (s n).2 (s (n + 1)).1 (s (n + 1)).2
  result : ∀ m', Steps (p, m) (.ret, m') → ∀ a, m.ok a = true → m'.ok a = true ∧ m'.val a = f a
  sequential : ∃ ms, p.seq m = .ok ((), ms) ∧ ∀ a, m.ok a = true → ms.val a = f a

lemma Stays.tail {W R : ℕ → Prop} {p q : Proc K} {m m' : Mem K} (h : Stays W R p m) (st : PStep p m q m') : Stays W R q m' :=
  fun p' m'' s => h p' m'' (.head st s)

/-- a task that stays in its cells has a specification -/
lemma Stays.wp {W R : ℕ → Prop} (p : Proc K) : ∀ {m : Mem K}, (∀ i, W i ∨ R i → m.ok i = true) → Stays W R p m →
    ∃ m', p.seq m = .ok ((), m') ∧ (∀ i, ¬ W i → m'.val i = m.val i) ∧
      Par.wp p W R (fun _ => False) m.val (fun v => ∀ i, W i → v i = m'.val i) := by
  induction p with
  | ret => intro m _ _; exact ⟨m, rfl, fun _ _ => rfl, fun _ _ => rfl⟩
  | fault e => intro m _ h; exact (h _ _ .refl).elim
  | rd i k ih =>
    intro m ho h
    have hi : W i ∨ R i := h _ _ .refl
    obtain ⟨m', e, f, w⟩ := ih (m.val i) ho (h.tail (.rd (ho i hi)))
    refine ⟨m', ?_, f, hi.imp id Or.inl, w⟩
    rw [Proc.seq]; simp only [bind, Prog.bind, load, ho i hi, if_true]; exact e
  | wr i x k ih =>
    intro m ho h
    have hi : W i := h _ _ .refl
    obtain ⟨m', e, f, w⟩ := ih (m := m.set i x) ho (h.tail (.wr (ho i (Or.inl hi))))
    refine ⟨m', ?_, fun a ha => ?_, Or.inl hi, w⟩
    · rw [Proc.seq]; simp only [bind, Prog.bind, store, ho i (Or.inl hi), if_true]; exact e
    · rw [f a ha]
      have : a ≠ i := by rintro rfl; exact ha hi
      simp [Mem.set, Function.update_of_ne this]
  | alloc n k => intro m _ h; exact (h _ _ .refl).elim
  | free p n k => intro m _ h; exact (h _ _ .refl).elim
  | par n ts k => intro m _ h; exact (h _ _ .refl).elim

/-- a process with a specification that determines the cells written -/
lemma deterministic_of_wp {p : Proc K} {m : Mem K} {W R : ℕ → Prop} {f : ℕ → K} (hwf : WF m) (ho : ∀ i, W i ∨ R i → m.ok i = true)
    (h : Par.wp p W R (fun _ => False) m.val (fun v => ∀ i, W i → v i = f i)) (hf : ∀ i, ¬ W i → f i = m.val i) : Deterministic p m f := by
  have hB : Bounded m := ⟨m.next, hwf⟩
  have hres : ∀ m', Steps (p, m) (.ret, m') → ∀ a, m.ok a = true → m'.ok a = true ∧ m'.val a = f a := by
    intro m' s a ha
    have := wp_sound ho hB h s
    by_cases hh : W a
    · exact ⟨steps_ok ho h s a hh, this.2.2.1 rfl a hh⟩
    · exact ⟨(this.2.2.2 a ha hh).2, (this.2.2.2 a ha hh).1.trans (hf a hh).symm⟩
  refine ⟨fun p' m' s => (wp_sound ho hB h s).1, fun p' m' s => wp_noRace ho h s, fun p' m' s => (wp_sound ho hB h s).2.1, ?_, hres, ?_⟩
  · intro f h0
    by_contra hc
    push Not at hc
    have key : ∀ q : Proc K, ∀ n, (f n).1 = q → False := by
      intro q
      induction q using next_wf.induction with
      | _ q ih => intro n e; exact ih (f (n + 1)).1 ⟨_, _, e ▸ hc n⟩ (n + 1) rfl
    exact key _ 0 rfl
  · obtain ⟨ms, e, s, _⟩ := seq_exec p (T := fun _ => False) ⟨fun i hi => ho i (by simpa using hi), fun _ h => h.elim⟩ hwf h
    exact ⟨ms, e, fun a ha => (hres ms s a ha).2⟩

/-- C04, any family of tasks: if each of them, executed alone from `m`, stays in its own cells and in cells no other one writes, then
whatever the order in which the tasks advance, step by step, there is no undefined behaviour, no data race, no deadlock, no infinite
execution, and every cell ends with the contents the task that owns it gives it when executed alone; cells without owner keep theirs.
The sequential execution of the tasks, one after the other, gives the same. -/
theorem C04_tasks {n : ℕ} (ts : Fin n → Proc K) (Wc Rc : Fin n → ℕ → Prop) {m : Mem K} (hwf : WF m)
    (hok : ∀ j i, Wc j i ∨ Rc j i → m.ok i = true) (hd : ∀ j l i, j ≠ l → Wc l i → ¬ Wc j i ∧ ¬ Rc j i)
    (hs : ∀ j, Stays (Wc j) (Rc j) (ts j) m) :
    ∃ alone : Fin n → Mem K, (∀ j, (ts j).seq m = .ok ((), alone j)) ∧
      ∃ f : ℕ → K, (∀ j a, Wc j a → f a = (alone j).val a) ∧ (∀ a, (∀ j, ¬ Wc j a) → f a = m.val a) ∧
        Deterministic (.par n ts .ret) m f := by
  classical
  choose alone h1 h2 h3 using fun j => Stays.wp (ts j) (hok j) (hs j)
  let f : ℕ → K := fun a => if h : ∃ j, Wc j a then (alone h.choose).val a else m.val a
  have hf : ∀ j a, Wc j a → f a = (alone j).val a := by
    intro j a h
    have hex : ∃ j, Wc j a := ⟨j, h⟩
    simp only [f, dif_pos hex]
    by_cases e : hex.choose = j
    · rw [e]
    · exact absurd hex.choose_spec (hd _ j a e h).1
  have hf' : ∀ a, (∀ j, ¬ Wc j a) → f a = m.val a := fun a h => dif_neg (by simpa using h)
  refine ⟨alone, h1, f, hf, hf', deterministic_of_wp (W := fun a => ∃ j, Wc j a) (R := fun a => ∃ j, Rc j a) hwf ?_ ?_ (fun a h => hf' a (by simpa using h))⟩
  · rintro i (⟨j, h⟩ | ⟨j, h⟩)
    · exact hok j i (Or.inl h)
    · exact hok j i (Or.inr h)
  · refine wp_par Wc Rc (fun j v => ∀ i, Wc j i → v i = (alone j).val i) (fun j i h => Or.inl ⟨j, h⟩) (fun j i h => Or.inr (Or.inl ⟨j, h⟩))
      (fun j l i e => ⟨fun h => (hd j l i e h.2).1 h.1, fun h => (hd j l i e h.2).2 h.1⟩) (fun j v v' e q i hi => ?_) h3 ?_
    · rw [e i (Or.inl hi), q i hi]
    · rintro v' _ q i ⟨j, h⟩
      rw [q j i h, hf j i h]

/-- C04, the loop macro: the body is given the bounds of its block.  If the bodies of two disjoint blocks have disjoint cells, all
executions of `FORBLOCK1D` over `n` indices end alike, with every splitting strategy and every number of threads: cell `a` of the block
that contains the index `i` is what the body makes of it when executed alone on its block. -/
theorem C04_forblock (p : Param) (n t : ℕ) (hg : p = .Grain → t ≠ 0) (body : ℕ → ℕ → ℕ → Proc K) (W R : ℕ → ℕ → ℕ → Prop) {m : Mem K} (hwf : WF m)
    (hok : ∀ b e i, b < e → e ≤ n → W b e i ∨ R b e i → m.ok i = true)
    (hd : ∀ b e b' e' i, b < e → b' < e' → e ≤ n → e' ≤ n → (e ≤ b' ∨ e' ≤ b) → W b' e' i → ¬ W b e i ∧ ¬ R b e i)
    (hs : ∀ a b e, b < e → e ≤ n → Stays (W b e) (R b e) (body a b e) m) :
    ∃ blocks : List (ℕ × ℕ), ExactCover blocks n ∧ (∀ r ∈ blocks, r.1 < r.2) ∧
      ∃ f : ℕ → K, Deterministic (forBlock1D p n t body .ret) m f ∧
        (∀ a, (∀ r ∈ blocks, ¬ W r.1 r.2 a) → f a = m.val a) ∧
        ∀ j : Fin blocks.length, ∃ alone, (body j (blocks.get j).1 (blocks.get j).2).seq m = .ok ((), alone) ∧
          ∀ a, W (blocks.get j).1 (blocks.get j).2 a → f a = alone.val a := by
  obtain ⟨s, l, h1, h2, hc, _, hlt⟩ := C01_split1D_exact_cover p n t hg
  obtain ⟨tr, _, bd⟩ := ranges_tiles hc hlt
  refine ⟨l, hc, hlt, ?_⟩
  have hsep : ∀ j k : Fin l.length, j ≠ k → (l.get j).2 ≤ (l.get k).1 ∨ (l.get k).2 ≤ (l.get j).1 := by
    intro j k e
    by_contra hcon
    push Not at hcon
    have b1 := bd j
    have b2 := bd k
    refine e ((tr 1).disj j k (max (l.get j).1 (l.get k).1) 0 ⟨⟨?_, ?_⟩, ?_, ?_⟩ ⟨⟨?_, ?_⟩, ?_, ?_⟩)
    all_goals simp only []
    all_goals omega
  obtain ⟨alone, ha, f, hf, hf', hD⟩ := C04_tasks (fun j : Fin l.length => body j (l.get j).1 (l.get j).2)
    (fun j => W (l.get j).1 (l.get j).2) (fun j => R (l.get j).1 (l.get j).2) hwf
    (fun j i h => hok _ _ i (bd j).1 (bd j).2 h)
    (fun j k i e h => hd _ _ _ _ i (bd j).1 (bd k).1 (bd j).2 (bd k).2 (hsep j k e) h)
    (fun j => hs _ _ _ (bd j).1 (bd j).2)
  refine ⟨f, ?_, fun a h => hf' a (fun j => h _ (List.get_mem l j)), fun j => ⟨alone j, ha j, fun a h => hf j a h⟩⟩
  have e : forBlock1D p n t body .ret = .par l.length (fun j : Fin l.length => body j (l.get j).1 (l.get j).2) .ret := by
    simp only [forBlock1D, h1, h2]
    congr 1
    funext j
    rw [if_neg (by have := bd j; omega)]
  rw [e]; exact hD

/-- Two tasks that write the same cell: the race is reported, so the absence of races above says something. -/
theorem C04_race_example : Race (.par 2 ![.wr 0 1 .ret, .wr 0 2 .ret] .ret : Proc ℚ) :=
  .here 0 true 0 1 (by decide) .wr .wr

/-! ### The elementwise operations -/

section
variable [Field K] [DecidableEq K] {m : Mem K} {M N A lda B ldb C ldc : ℕ}

/-- the matrices of an elementwise operation: allocated, and each operand apart from the result or the very same matrix -/
structure Operand (m : Mem K) (M N X ldx C ldc : ℕ) : Prop where
  ok : OkIn m ⟨X, ldx, M, N⟩
  ld : N ≤ ldx
  apart : (Win.mk X ldx M N).Disj ⟨C, ldc, M, N⟩ ∨ (X = C ∧ ldx = ldc)

omit [Field K] [DecidableEq K] in
lemma Operand.ap (h : Operand m M N A lda C ldc) : Apart ⟨A, lda, M, N⟩ ⟨C, ldc, M, N⟩ :=
  h.apart.imp id (fun ⟨a, b⟩ => by rw [a, b])

/-- C04, parallel `fadd`: every execution gives the sum. -/
theorem C04_pfadd (cat : Cat) (t : ℕ) (h : Rect m M N C ldc) (hA : Operand m M N A lda C ldc) (hB : Operand m M N B ldb C ldc) :
    EveryRun (pfadd cat M N A lda B ldb C ldc t .ret) m ⟨C, ldc, M, N⟩ (fun i j => m.mat ⟨A, lda, M, N⟩ i j + m.mat ⟨B, ldb, M, N⟩ i j) :=
  everyRun h.wf h.ok (fun x hx => hx.1.elim (hA.ok x) (hB.ok x)) (pfadd_ok hA.ld h.ld hA.ap hB.ap)

/-- C04, parallel `fsub`. -/
theorem C04_pfsub (cat : Cat) (t : ℕ) (h : Rect m M N C ldc) (hA : Operand m M N A lda C ldc) (hB : Operand m M N B ldb C ldc) :
    EveryRun (pfsub cat M N A lda B ldb C ldc t .ret) m ⟨C, ldc, M, N⟩ (fun i j => m.mat ⟨A, lda, M, N⟩ i j - m.mat ⟨B, ldb, M, N⟩ i j) :=
  everyRun h.wf h.ok (fun x hx => hx.1.elim (hA.ok x) (hB.ok x)) (pfsub_ok hA.ld h.ld hA.ap hB.ap)

/-- C04, parallel `faddin`. -/
theorem C04_pfaddin (cat : Cat) (t : ℕ) (h : Rect m M N C ldc) (hB : Operand m M N B ldb C ldc) :
    EveryRun (pfaddin cat M N B ldb C ldc t .ret) m ⟨C, ldc, M, N⟩ (fun i j => m.mat ⟨B, ldb, M, N⟩ i j + m.mat ⟨C, ldc, M, N⟩ i j) :=
  everyRun h.wf h.ok (fun x hx => hB.ok x hx.1) (pfaddin_ok hB.ld h.ld hB.ap)

/-- C04, parallel `fsubin`. -/
theorem C04_pfsubin (cat : Cat) (t : ℕ) (h : Rect m M N C ldc) (hB : Operand m M N B ldb C ldc) :
    EveryRun (pfsubin cat M N B ldb C ldc t .ret) m ⟨C, ldc, M, N⟩ (fun i j => m.mat ⟨C, ldc, M, N⟩ i j - m.mat ⟨B, ldb, M, N⟩ i j) :=
  everyRun h.wf h.ok (fun x hx => hB.ok x hx.1) (pfsubin_ok hB.ld h.ld hB.ap)

end

/-! ### A concrete case: three rows, two threads, the result in place of the first operand -/

/-- `A` at 0 (leading dimension 3), `B` at 9 -/
def parex : Mem ℚ := memOf [1,2,77, 3,4,77, 5,6,77, 10,20, 30,40, 50,60]

example : EveryRun (pfadd .generic 3 2 0 3 9 2 0 3 2 .ret) parex ⟨0, 3, 3, 2⟩ (fun i j => parex.mat ⟨0, 3, 3, 2⟩ i j + parex.mat ⟨9, 2, 3, 2⟩ i j) :=
  C04_pfadd .generic 2 ⟨WF_memOf _, OkIn_memOf (by decide), by decide⟩ ⟨OkIn_memOf (by decide), by decide, Or.inr ⟨rfl, rfl⟩⟩
    ⟨OkIn_memOf (by decide), by decide, Or.inl (Win.Disj.symm (Win.Ends.disj (V := ⟨9, 2, 3, 2⟩) (by decide)))⟩

example : after (pfadd .generic 3 2 0 3 9 2 0 3 2 .ret).seq parex 0 = some 11 ∧ after (pfadd .generic 3 2 0 3 9 2 0 3 2 .ret).seq parex 2 = some 77 ∧
    after (pfadd .generic 3 2 0 3 9 2 0 3 2 .ret).seq parex 7 = some 66 := by decide +kernel

/-- a body that reads a shared cell and doubles its own: the hypotheses of `C04_forblock` hold -/
def exBody (b : ℕ) : Proc ℚ := .rd 9 fun x => .rd b fun y => .wr b (x * y) .ret

lemma exBody_stays (m : Mem ℚ) (b : ℕ) : Stays (fun a => a = b) (fun a => a = 9) (exBody b) m := by
  intro p' m' s
  rcases Relation.ReflTransGen.cases_head s with e | ⟨⟨p1, m1⟩, s1, r1⟩
  · obtain ⟨rfl, rfl⟩ := Prod.mk.inj e; exact Or.inr rfl
  cases s1
  rcases Relation.ReflTransGen.cases_head r1 with e | ⟨⟨p2, m2⟩, s2, r2⟩
  · obtain ⟨rfl, rfl⟩ := Prod.mk.inj e; exact Or.inl rfl
  cases s2
  rcases Relation.ReflTransGen.cases_head r2 with e | ⟨⟨p3, m3⟩, s3, r3⟩
  · obtain ⟨rfl, rfl⟩ := Prod.mk.inj e; exact rfl
  cases s3
  rcases Relation.ReflTransGen.cases_head r3 with e | ⟨⟨p4, m4⟩, s4, r4⟩
  · obtain ⟨rfl, rfl⟩ := Prod.mk.inj e; trivial
  · cases s4

example : ∃ f, Deterministic (.par 2 ![exBody 3, exBody 4] .ret) parex f ∧ f 3 = 30 ∧ f 4 = 40 ∧ f 5 = 77 := by
  obtain ⟨al, h1, f, h2, h3, h4⟩ := C04_tasks ![exBody 3, exBody 4] (fun j a => a = (![3, 4] : Fin 2 → ℕ) j) (fun _ a => a = 9) (m := parex) (WF_memOf _)
    (by rintro j i (rfl | rfl) <;> fin_cases j <;> decide +kernel)
    (by rintro j l i e rfl; fin_cases j <;> fin_cases l <;> simp_all)
    (by intro j; fin_cases j <;> exact exBody_stays _ _)
  have key : ∀ j a, after (![exBody 3, exBody 4] j).seq parex a = some ((al j).val a) := fun j a => by simp only [after, h1 j]
  refine ⟨f, h4, ?_, ?_, ?_⟩
  · rw [h2 0 3 rfl]; exact Option.some.inj ((key 0 3).symm.trans (by decide +kernel))
  · rw [h2 1 4 rfl]; exact Option.some.inj ((key 1 4).symm.trans (by decide +kernel))
  · rw [h3 5 (by intro j; fin_cases j <;> simp)]; decide +kernel

end Verif.Props
