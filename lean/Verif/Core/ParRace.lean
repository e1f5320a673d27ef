import Verif.Core.ParProg

/-!
# Data races, and the sequential execution

`Race p`: two tasks that run side by side are both about to access the same cell and one of them writes.  Programs without races
behave as in the interleaving semantics `PStep` also on a machine with a weaker memory model.
-/

namespace Verif.Par

variable {K : Type}

/-- the process may access cell `i` in its next step, `w` tells whether to change it (release counts as a change) -/
inductive Acc1 : Proc K → ℕ → Bool → Prop
  | rd {i k} : Acc1 (.rd i k) i false
  | wr {i v k} : Acc1 (.wr i v k) i true
  | free {p n k i} : blkAt p n i → Acc1 (.free p n k) i true
  | task {n ts k i w} (j : Fin n) : Acc1 (ts j) i w → Acc1 (.par n ts k) i w

/-- two tasks about to access the same cell, one of them to change it -/
inductive Race : Proc K → Prop
  | here {n ts k} (i : ℕ) (w : Bool) (j l : Fin n) : j ≠ l → Acc1 (ts j) i true → Acc1 (ts l) i w → Race (.par n ts k)
  | task {n ts k} (j : Fin n) : Race (ts j) → Race (.par n ts k)

lemma Acc1.own {p : Proc K} {i : ℕ} {w : Bool} (h : Acc1 p i w) : ∀ {W R T : ℕ → Prop} {v : ℕ → K} {Q : (ℕ → K) → Prop},
    wp p W R T v Q → (W i ∨ R i ∨ T i) ∧ (w = true → W i ∨ T i) := by
  induction h with
  | rd => intro W R T v Q hw; exact ⟨hw.1, fun h => absurd h (by decide)⟩
  | wr => intro W R T v Q hw; exact ⟨hw.1.imp id Or.inr, fun _ => hw.1⟩
  | free hb => intro W R T v Q hw; exact ⟨Or.inr (Or.inr (hw.1 _ hb)), fun _ => Or.inr (hw.1 _ hb)⟩
  | task j _ ih =>
    rintro W R T v Q ⟨T0, Wc, Rc, Tc, Qc, h1, h2, h3, h4, h5, h6, h7, h8⟩
    obtain ⟨a, b⟩ := ih (h7 j)
    refine ⟨?_, fun e => ?_⟩
    · rcases a with a | a | a
      · exact (h3 j _ a).imp id (fun t => Or.inr (h1 _ t))
      · exact (h4 j _ a).imp id (Or.imp id (h1 _))
      · exact Or.inr (Or.inr (h2 j _ a).1)
    · rcases b e with a | a
      · exact (h3 j _ a).imp id (h1 _)
      · exact Or.inr (h2 j _ a).1

lemma Race.not_wp {p : Proc K} (h : Race p) : ∀ {W R T : ℕ → Prop} {v : ℕ → K} {Q : (ℕ → K) → Prop},
    (∀ i, T i → ¬ W i ∧ ¬ R i) → ¬ wp p W R T v Q := by
  induction h with
  | here i w j l ne aj al =>
    rintro W R T v Q hd ⟨T0, Wc, Rc, Tc, Qc, h1, h2, h3, h4, h5, h6, h7, h8⟩
    have a := (aj.own (h7 j)).2 rfl
    have b := (al.own (h7 l)).1
    have tn : ∀ j i, Tc j i → ∀ l, ¬ Wc l i ∧ ¬ Rc l i := by
      intro j i ht l
      obtain ⟨t, t0⟩ := h2 j i ht
      obtain ⟨d1, d2⟩ := hd i t
      refine ⟨fun hw => (h3 l i hw).elim d1 t0, fun hr => ?_⟩
      rcases h4 l i hr with x | x | x
      · exact d1 x
      · exact d2 x
      · exact t0 x
    rcases a with a | a <;> rcases b with b | b | b
    · exact (h5 j l i ne).1 ⟨a, b⟩
    · exact (h5 l j i ne.symm).2.1 ⟨b, a⟩
    · exact (tn l i b j).1 a
    · exact (tn j i a l).1 b
    · exact (tn j i a l).2 b
    · exact (h5 j l i ne).2.2 ⟨a, b⟩
  | task j _ ih =>
    rintro W R T v Q hd ⟨T0, Wc, Rc, Tc, Qc, h1, h2, h3, h4, h5, h6, h7, h8⟩
    refine ih (fun i hi => ?_) (h7 j)
    obtain ⟨t, t0⟩ := h2 j i hi
    obtain ⟨d1, d2⟩ := hd i t
    refine ⟨fun hw => (h3 j i hw).elim d1 t0, fun hr => ?_⟩
    rcases h4 j i hr with x | x | x
    · exact d1 x
    · exact d2 x
    · exact t0 x

/-- the specification along an execution -/
lemma wp_steps {W R : ℕ → Prop} {Q : (ℕ → K) → Prop} {x y : Proc K × Mem K} (hs : Steps x y) :
    ∀ {T : ℕ → Prop}, Owns W R T x.2 → wp x.1 W R T x.2.val Q →
      ∃ T' : ℕ → Prop, Owns W R T' y.2 ∧ wp y.1 W R T' y.2.val Q := by
  induction hs with
  | refl => intro T o w; exact ⟨T, o, w⟩
  | tail _ h ih =>
    intro T o w
    obtain ⟨T1, o1, w1⟩ := ih o w
    obtain ⟨T2, o2, w2, _⟩ := wp_step h o1 w1
    exact ⟨T2, o2, w2⟩

/-- **No execution reaches a data race.** -/
theorem wp_noRace {p p' : Proc K} {m m' : Mem K} {W R : ℕ → Prop} {Q : (ℕ → K) → Prop} (ho : ∀ i, W i ∨ R i → m.ok i = true)
    (hw : wp p W R (fun _ => False) m.val Q) (hs : Steps (p, m) (p', m')) : ¬ Race p' := by
  obtain ⟨T, o, w⟩ := wp_steps hs (T := fun _ => False) ⟨fun i hi => ho i (by simpa using hi), fun _ h => h.elim⟩ hw
  exact fun r => r.not_wp o.dis w

/-- steps of one task are steps of the whole -/
lemma Steps.task {n : ℕ} {k : Proc K} (j : Fin n) {x y : Proc K × Mem K} (h : Steps x y) : ∀ (ts : Fin n → Proc K), ts j = x.1 →
    Steps (.par n ts k, x.2) (.par n (Function.update ts j y.1) k, y.2) := by
  induction h with
  | refl =>
    intro ts e
    rw [← e, Function.update_eq_self]
    exact .refl
  | @tail b c _ h ih =>
    intro ts e
    refine (ih ts e).tail ?_
    have := PStep.task (k := k) (ts := Function.update ts j b.1) j c.1 (by simpa using h)
    simpa using this

/-- **The sequential execution is one of the executions**: without OpenMP the tasks run one after the other. -/
theorem seq_exec (p : Proc K) : ∀ {W R T : ℕ → Prop} {Q : (ℕ → K) → Prop} {m : Mem K}, Owns W R T m → WF m → wp p W R T m.val Q →
    ∃ m', p.seq m = .ok ((), m') ∧ Steps (p, m) (.ret, m') ∧ WF m' := by
  induction p with
  | ret => intro W R T Q m _ hwf _; exact ⟨m, rfl, .refl, hwf⟩
  | fault => intro W R T Q m _ _ h; exact h.elim
  | rd i k ih =>
    intro W R T Q m o hwf h
    have hi := o.ok i h.1
    obtain ⟨m', e, s, w⟩ := ih (m.val i) o hwf h.2
    refine ⟨m', ?_, (Relation.ReflTransGen.single (.rd hi)).trans s, w⟩
    show Prog.bind (load i) _ m = _
    simp only [Prog.bind, load, hi, if_true]
    exact e
  | wr i x k ih =>
    intro W R T Q m o hwf h
    have hi := o.ok i (h.1.imp id Or.inr)
    obtain ⟨m', e, s, w⟩ := ih (m := m.set i x) (T := T) ⟨o.ok, o.dis⟩ hwf h.2
    refine ⟨m', ?_, (Relation.ReflTransGen.single (.wr hi)).trans s, w⟩
    show Prog.bind (store i x) _ m = _
    simp only [Prog.bind, store, hi, if_true]
    exact e
  | alloc n k ih =>
    intro W R T Q m o hwf h
    have hp : ∀ i, blkAt m.next n i → m.ok i = false := fun i hi => hwf i hi.1
    have st : PStep (.alloc n k) m (k m.next) (allocAt m m.next n m.val) := .alloc m.next m.val hp
    obtain ⟨T', o', w', _⟩ := wp_step st o h
    have hwf' : WF (allocAt m m.next n m.val) := by
      intro a ha
      have ha : max m.next (m.next + n) ≤ a := ha
      have h1 : m.ok a = false := hwf a (by omega)
      have h2 : ¬ blkAt m.next n a := fun hb => by have := hb.2; omega
      simp [allocAt, h1, h2]
    obtain ⟨m', e, s, w⟩ := ih _ o' hwf' w'
    refine ⟨m', ?_, (Relation.ReflTransGen.single st).trans s, w⟩
    show Prog.bind (Verif.alloc n : Prog K ℕ) (fun p => (k p).seq) m = _
    simp only [Prog.bind, Verif.alloc]
    rw [← e]
    congr 1
    simp only [allocAt]
    congr 1
    · funext i; split <;> rfl
    · funext i; rw [Bool.eq_iff_iff]; simp only [Bool.or_eq_true, Bool.and_eq_true, decide_eq_true_eq]; exact Iff.rfl
    · omega
  | free p n k ih =>
    intro W R T Q m o hwf h
    have hp : ∀ i, blkAt p n i → m.ok i = true := fun i hi => o.ok i (Or.inr (Or.inr (h.1 i hi)))
    have st : PStep (.free p n k) m k (freeAt m p n) := .free hp
    obtain ⟨T', o', w', _⟩ := wp_step st o h
    have hwf' : WF (freeAt m p n) := by
      intro a ha
      have h1 : m.ok a = false := hwf a ha
      simp [freeAt, h1]
    obtain ⟨m', e, s, w⟩ := ih o' hwf' w'
    refine ⟨m', ?_, (Relation.ReflTransGen.single st).trans s, w⟩
    show Prog.bind (Verif.free p n : Prog K Unit) (fun _ => k.seq) m = _
    simp only [Prog.bind, Verif.free]
    rw [← e]
    congr 1
    simp only [freeAt]
    congr 1
    funext i
    have : decide (blkAt p n i) = (decide (p ≤ i) && decide (i < p + n)) := by
      rw [Bool.eq_iff_iff]; simp only [Bool.and_eq_true, decide_eq_true_eq]; exact Iff.rfl
    rw [this]
  | par n ts k iht ihk =>
    intro W R T Q m o hwf h
    have key : ∀ r (hr : r ≤ n), ∃ m', seqAll r (fun j => (ts ⟨j, by omega⟩).seq) m = .ok ((), m') ∧ WF m' ∧
        Steps (.par n ts k, m) (.par n (fun j => if j.1 < r then .ret else ts j) k, m') := by
      intro r
      induction r with
      | zero => intro _; exact ⟨m, rfl, hwf, by simp only [Nat.not_lt_zero, if_false]; exact Relation.ReflTransGen.refl⟩
      | succ r ih =>
        intro hr
        obtain ⟨m1, e1, w1, s1⟩ := ih (by omega)
        obtain ⟨T', o', w'⟩ := wp_steps s1 o h
        obtain ⟨T0, Wc, Rc, Tc, Qc, h1, h2, h3, h4, h5, h6, h7, h8⟩ := w'
        have t := h7 ⟨r, by omega⟩
        simp only [lt_irrefl, if_false] at t
        have ow : Owns (Wc ⟨r, by omega⟩) (Rc ⟨r, by omega⟩) (Tc ⟨r, by omega⟩) m1 := by
          refine ⟨fun i hi => o'.ok i ?_, fun i hi => ?_⟩
          · rcases hi with hi | hi | hi
            · exact (h3 _ i hi).imp id (fun t => Or.inr (h1 i t))
            · exact (h4 _ i hi).imp id (Or.imp id (h1 i))
            · exact Or.inr (Or.inr (h2 _ i hi).1)
          · obtain ⟨t, t0⟩ := h2 _ i hi
            obtain ⟨d1, d2⟩ := o'.dis i t
            refine ⟨fun hw => (h3 _ i hw).elim d1 t0, fun hr => ?_⟩
            rcases h4 _ i hr with x | x | x
            · exact d1 x
            · exact d2 x
            · exact t0 x
        obtain ⟨m2, e2, s2, w2⟩ := iht ⟨r, by omega⟩ ow w1 t
        refine ⟨m2, ?_, w2, ?_⟩
        · show Prog.bind (seqAll r _) _ m = _
          simp only [Prog.bind]
          have e1 : seqAll r (fun j => (ts ⟨(Fin.castSucc j).1, by have := j.2; simp; omega⟩).seq) m = .ok ((), m1) := e1
          rw [e1]
          exact e2
        · refine s1.trans ?_
          have := Steps.task (k := k) ⟨r, by omega⟩ s2 (fun j => if j.1 < r then .ret else ts j) (by simp)
          have e : (fun j : Fin n => if j.1 < r + 1 then Proc.ret else ts j) =
              Function.update (fun j => if j.1 < r then .ret else ts j) ⟨r, by omega⟩ .ret := ?_
          · rw [e]; exact this
          funext j
          by_cases e : j.1 = r
          · have e : j = ⟨r, by omega⟩ := Fin.ext e
            rw [e]
            simp
          · rw [Function.update_of_ne (fun h => e (by rw [h]))]
            have : j.1 < r + 1 ↔ j.1 < r := by omega
            simp only [this]
    obtain ⟨m1, e1, w1, s1⟩ := key n le_rfl
    have st : PStep (.par n (fun j => if j.1 < n then .ret else ts j) k) m1 k m1 := .join (fun j => by simp)
    obtain ⟨T', o', w'⟩ := wp_steps (s1.trans (.single st) : Steps _ (k, m1)) o h
    obtain ⟨m2, e2, s2, w2⟩ := ihk o' w1 w'
    refine ⟨m2, ?_, s1.trans ((Relation.ReflTransGen.single st).trans s2), w2⟩
    show Prog.bind (seqAll n _) _ m = _
    simp only [Prog.bind]
    have e1 : seqAll n (fun j => (ts j).seq) m = .ok ((), m1) := e1
    rw [e1]
    exact e2

/-- **Schedule independence**: if what the process leaves in the cells it writes is determined, then the sequential execution and
every other execution that has ended agree on all the cells that were allocated before. -/
theorem sched_indep {p : Proc K} {m m' : Mem K} {W R : ℕ → Prop} {f : ℕ → K} (ho : ∀ i, W i ∨ R i → m.ok i = true) (hwf : WF m)
    (hw : wp p W R (fun _ => False) m.val (fun v => ∀ i, W i → v i = f i)) (hs : Steps (p, m) (.ret, m')) :
    ∃ ms, p.seq m = .ok ((), ms) ∧ ∀ i, m.ok i = true → m'.val i = ms.val i := by
  obtain ⟨ms, e, s, _⟩ := seq_exec p (T := fun _ => False) ⟨fun i hi => ho i (by simpa using hi), fun _ h => h.elim⟩ hwf hw
  have hB : Bounded m := ⟨m.next, hwf⟩
  obtain ⟨_, _, a1, a2⟩ := wp_sound ho hB hw hs
  obtain ⟨_, _, b1, b2⟩ := wp_sound ho hB hw s
  refine ⟨ms, e, fun i hi => ?_⟩
  by_cases h : W i
  · rw [a1 rfl i h, b1 rfl i h]
  · rw [(a2 i hi h).1, (b2 i hi h).1]

/-- an execution reaches undefined behaviour -/
def Crash (p : Proc K) (m : Mem K) : Prop := ∃ p' m', Steps (p, m) (p', m') ∧ Faults p' m'

lemma Crash.step {p q : Proc K} {m m' : Mem K} (h : Steps (p, m) (q, m')) (c : Crash q m') : Crash p m := by
  obtain ⟨p', m'', s, f⟩ := c
  exact ⟨p', m'', h.trans s, f⟩

lemma Crash.task {n : ℕ} {ts : Fin n → Proc K} {k : Proc K} {m : Mem K} (j : Fin n) (c : Crash (ts j) m) : Crash (.par n ts k) m := by
  obtain ⟨p', m', s, f⟩ := c
  exact ⟨_, _, Steps.task j s ts rfl, .task j (by simpa using f)⟩

/-- The sequential run of any process, whether it meets a specification or not: an execution reaches undefined behaviour, or the
sequential run ends and is one of the executions. -/
theorem seq_run (p : Proc K) : ∀ {m : Mem K}, WF m → Crash p m ∨ ∃ m', p.seq m = .ok ((), m') ∧ Steps (p, m) (.ret, m') ∧ WF m' := by
  induction p with
  | ret => intro m hwf; exact Or.inr ⟨m, rfl, .refl, hwf⟩
  | fault => intro m _; exact Or.inl ⟨_, _, .refl, .fault⟩
  | rd i k ih =>
    intro m hwf
    cases hi : m.ok i
    · exact Or.inl ⟨_, _, .refl, .rd hi⟩
    have st : Steps (.rd i k, m) (k (m.val i), m) := .single (.rd hi)
    refine (ih (m.val i) hwf).imp (fun c => c.step st) (fun ⟨m', e, s, w⟩ => ⟨m', ?_, st.trans s, w⟩)
    show Prog.bind (load i) _ m = _
    simp only [Prog.bind, load, hi, if_true]
    exact e
  | wr i x k ih =>
    intro m hwf
    cases hi : m.ok i
    · exact Or.inl ⟨_, _, .refl, .wr hi⟩
    have st : Steps (.wr i x k, m) (k, m.set i x) := .single (.wr hi)
    refine (ih (m := m.set i x) hwf).imp (fun c => c.step st) (fun ⟨m', e, s, w⟩ => ⟨m', ?_, st.trans s, w⟩)
    show Prog.bind (store i x) _ m = _
    simp only [Prog.bind, store, hi, if_true]
    exact e
  | alloc n k ih =>
    intro m hwf
    have st : Steps (.alloc n k, m) (k m.next, allocAt m m.next n m.val) := .single (.alloc m.next m.val (fun i hi => hwf i hi.1))
    have hwf' : WF (allocAt m m.next n m.val) := by
      intro a ha
      have ha : max m.next (m.next + n) ≤ a := ha
      have h1 : m.ok a = false := hwf a (by omega)
      have h2 : ¬ blkAt m.next n a := fun hb => by have := hb.2; omega
      simp [allocAt, h1, h2]
    refine (ih _ hwf').imp (fun c => c.step st) (fun ⟨m', e, s, w⟩ => ⟨m', ?_, st.trans s, w⟩)
    show Prog.bind (Verif.alloc n : Prog K ℕ) (fun p => (k p).seq) m = _
    simp only [Prog.bind, Verif.alloc]
    rw [← e]
    congr 1
    simp only [allocAt]
    congr 1
    · funext i; split <;> rfl
    · funext i; rw [Bool.eq_iff_iff]; simp only [Bool.or_eq_true, Bool.and_eq_true, decide_eq_true_eq]; exact Iff.rfl
    · omega
  | free p n k ih =>
    intro m hwf
    by_cases hp : ∀ i, blkAt p n i → m.ok i = true
    swap
    · push Not at hp
      obtain ⟨i, hb, hn⟩ := hp
      exact Or.inl ⟨_, _, .refl, .free i hb (by simpa using hn)⟩
    have st : Steps (.free p n k, m) (k, freeAt m p n) := .single (.free hp)
    have hwf' : WF (freeAt m p n) := by
      intro a ha
      have h1 : m.ok a = false := hwf a ha
      simp [freeAt, h1]
    refine (ih hwf').imp (fun c => c.step st) (fun ⟨m', e, s, w⟩ => ⟨m', ?_, st.trans s, w⟩)
    show Prog.bind (Verif.free p n : Prog K Unit) (fun _ => k.seq) m = _
    simp only [Prog.bind, Verif.free]
    rw [← e]
    congr 1
    simp only [freeAt]
    congr 1
    funext i
    have : decide (blkAt p n i) = (decide (p ≤ i) && decide (i < p + n)) := by
      rw [Bool.eq_iff_iff]; simp only [Bool.and_eq_true, decide_eq_true_eq]; exact Iff.rfl
    rw [this]
  | par n ts k iht ihk =>
    intro m hwf
    have key : ∀ r (hr : r ≤ n), Crash (.par n ts k) m ∨ ∃ m', seqAll r (fun j => (ts ⟨j, by omega⟩).seq) m = .ok ((), m') ∧ WF m' ∧
        Steps (.par n ts k, m) (.par n (fun j => if j.1 < r then .ret else ts j) k, m') := by
      intro r
      induction r with
      | zero => intro _; exact Or.inr ⟨m, rfl, hwf, by simp only [Nat.not_lt_zero, if_false]; exact Relation.ReflTransGen.refl⟩
      | succ r ih =>
        intro hr
        rcases ih (by omega) with c | ⟨m1, e1, w1, s1⟩
        · exact Or.inl c
        rcases iht ⟨r, by omega⟩ w1 with c | ⟨m2, e2, s2, w2⟩
        · exact Or.inl (Crash.step s1 (Crash.task ⟨r, by omega⟩ (by simpa using c)))
        refine Or.inr ⟨m2, ?_, w2, ?_⟩
        · show Prog.bind (seqAll r _) _ m = _
          simp only [Prog.bind]
          have e1 : seqAll r (fun j => (ts ⟨(Fin.castSucc j).1, by have := j.2; simp; omega⟩).seq) m = .ok ((), m1) := e1
          rw [e1]
          exact e2
        · refine s1.trans ?_
          have := Steps.task (k := k) ⟨r, by omega⟩ s2 (fun j => if j.1 < r then .ret else ts j) (by simp)
          have e : (fun j : Fin n => if j.1 < r + 1 then Proc.ret else ts j) =
              Function.update (fun j => if j.1 < r then .ret else ts j) ⟨r, by omega⟩ .ret := ?_
          · rw [e]; exact this
          funext j
          by_cases e : j.1 = r
          · have e : j = ⟨r, by omega⟩ := Fin.ext e
            rw [e]
            simp
          · rw [Function.update_of_ne (fun h => e (by rw [h]))]
            have : j.1 < r + 1 ↔ j.1 < r := by omega
            simp only [this]
    rcases key n le_rfl with c | ⟨m1, e1, w1, s1⟩
    · exact Or.inl c
    have s1 : Steps (.par n ts k, m) (k, m1) := s1.trans (.single (.join (fun j => by simp)))
    refine (ihk w1).imp (fun c => c.step s1) (fun ⟨m2, e2, s2, w2⟩ => ⟨m2, ?_, s1.trans s2, w2⟩)
    show Prog.bind (seqAll n _) _ m = _
    simp only [Prog.bind]
    have e1 : seqAll n (fun j => (ts j).seq) m = .ok ((), m1) := e1
    rw [e1]
    exact e2

/-- a sequential run that faults -/
theorem crash_of_seq {p : Proc K} {m : Mem K} {e : Fault} (hwf : WF m) (h : p.seq m = .error e) : Crash p m := by
  rcases seq_run p hwf with c | ⟨m', e', _⟩
  · exact c
  · rw [h] at e'; exact absurd e' (by simp)

end Verif.Par
