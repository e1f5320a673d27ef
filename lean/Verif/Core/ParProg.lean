import Verif.Core.Par

/-!
# Programs as tasks

`Small p` cuts a program without allocation into its memory accesses: `tr k` performs the loads and stores of `p` one by one, then
continues with `k`.  `Proc.seq` runs a process alone, the tasks one after the other in the order of their creation (the expansion
of the macros without OpenMP, /repo/fflas-ffpack/paladin/parallel.h:94-111); `law` says that this is `p`.
-/

namespace Verif.Par

variable {K α β : Type}

/-- tasks one after the other -/
def seqAll : (n : ℕ) → (Fin n → Prog K Unit) → Prog K Unit
  | 0, _ => pure ()
  | n + 1, f => do seqAll n (fun j => f j.castSucc); f (Fin.last n)

/-- the process run alone: `TASK(M, I)` is `{I;}`, `WAIT` nothing -/
def Proc.seq : Proc K → Prog K Unit
  | .ret => pure ()
  | .fault e => Prog.fault e
  | .rd i k => do let x ← load i; (k x).seq
  | .wr i v k => do store i v; k.seq
  | .alloc n k => do let p ← Verif.alloc n; (k p).seq
  | .free p n k => do Verif.free p n; k.seq
  | .par n ts k => do seqAll n (fun j => (ts j).seq); k.seq

/-- a program as a sequence of memory accesses -/
class Small (p : Prog K α) where
  /-- the accesses of `p`, then `k` -/
  tr : (α → Proc K) → Proc K
  /-- results possible without looking at the memory -/
  res : α → Prop
  /-- all the cells that may be written are in the set -/
  wrIn : (ℕ → Prop) → Prop
  law : ∀ k, (tr k).seq = p >>= fun a => (k a).seq
  sound : ∀ {m a m'} {W R T : ℕ → Prop}, p m = .ok (a, m') → (∀ i, m.ok i = true → W i ∨ R i ∨ T i) → wrIn (fun i => W i ∨ T i) →
    m'.ok = m.ok ∧ m'.next = m.next ∧ (∀ i, m.ok i = false → m'.val i = m.val i) ∧ res a ∧
      ∀ k Q, wp (k a) W R T m'.val Q → wp (tr k) W R T m.val Q

namespace Small

instance (a : α) : Small (pure a : Prog K α) where
  tr k := k a
  res b := b = a
  wrIn _ := True
  law k := rfl
  sound {m b m' W R T} h _ _ := by
    obtain ⟨rfl, rfl⟩ : a = b ∧ m = m' := by simpa [pure, Prog.pure] using h
    exact ⟨rfl, rfl, fun _ _ => rfl, rfl, fun k Q h => h⟩

instance (e : Fault) : Small (Prog.fault e : Prog K α) where
  tr _ := .fault e
  res _ := False
  wrIn _ := True
  law k := rfl
  sound {m b m' W R T} h _ _ := by simp [Prog.fault] at h

instance (i : ℕ) : Small (load i : Prog K K) where
  tr k := .rd i k
  res _ := True
  wrIn _ := True
  law k := rfl
  sound {m b m' W R T} h ho _ := by
    unfold load at h
    by_cases hi : m.ok i = true
    · rw [if_pos hi] at h
      obtain ⟨rfl, rfl⟩ : m.val i = b ∧ m = m' := by simpa using h
      exact ⟨rfl, rfl, fun _ _ => rfl, trivial, fun k Q h => ⟨ho i hi, h⟩⟩
    · rw [if_neg hi] at h; simp at h

instance (i : ℕ) (x : K) : Small (store i x : Prog K Unit) where
  tr k := .wr i x (k ())
  res _ := True
  wrIn S := S i
  law k := rfl
  sound {m b m' W R T} h _ hS := by
    unfold store at h
    by_cases hi : m.ok i = true
    · rw [if_pos hi] at h
      obtain ⟨_, rfl⟩ : () = b ∧ m.set i x = m' := by simpa using h
      refine ⟨rfl, rfl, fun l hl => ?_, trivial, fun k Q h => ⟨hS, h⟩⟩
      have : l ≠ i := by rintro rfl; rw [hi] at hl; exact absurd hl (by decide)
      simp [Mem.set, Function.update_of_ne this]
    · rw [if_neg hi] at h; simp at h

instance (e : Except Fault α) : Small (liftE e : Prog K α) where
  tr k := match e with
    | .ok a => k a
    | .error x => .fault x
  res a := e = .ok a
  wrIn _ := True
  law k := by
    cases e
    · rfl
    · rfl
  sound {m b m' W R T} h _ _ := by
    cases e with
    | error x => simp [liftE] at h
    | ok a =>
      obtain ⟨rfl, rfl⟩ : a = b ∧ m = m' := by simpa [liftE] using h
      exact ⟨rfl, rfl, fun _ _ => rfl, rfl, fun k Q h => h⟩

lemma bind_assoc' {γ : Type} (p : Prog K α) (f : α → Prog K β) (g : β → Prog K γ) : (p >>= f) >>= g = p >>= fun a => f a >>= g := by
  funext m
  simp only [bind, Prog.bind]
  cases p m with
  | error e => rfl
  | ok x => rfl

instance (p : Prog K α) (f : α → Prog K β) [hp : Small p] [hf : ∀ a, Small (f a)] : Small (p >>= f) where
  tr k := hp.tr fun a => (hf a).tr k
  res b := ∃ a, hp.res a ∧ (hf a).res b
  wrIn S := hp.wrIn S ∧ ∀ a, hp.res a → (hf a).wrIn S
  law k := by
    rw [hp.law, bind_assoc']
    exact congrArg _ (funext fun a => (hf a).law k)
  sound {m b m' W R T} h ho hS := by
    simp only [bind, Prog.bind] at h
    cases e : p m with
    | error x => rw [e] at h; simp at h
    | ok y =>
      obtain ⟨a, m1⟩ := y
      rw [e] at h
      obtain ⟨o1, x1, f1, r1, w1⟩ := hp.sound (W := W) (R := R) (T := T) e ho hS.1
      obtain ⟨o2, x2, f2, r2, w2⟩ := (hf a).sound (W := W) (R := R) (T := T) h (fun i hi => ho i (by rw [← o1]; exact hi)) (hS.2 a r1)
      exact ⟨o2.trans o1, x2.trans x1, fun i hi => (f2 i (by rw [o1]; exact hi)).trans (f1 i hi), ⟨a, r1, r2⟩, fun k Q hk => w1 _ _ (w2 _ _ hk)⟩

instance (c : Prop) [Decidable c] (p q : Prog K α) [hp : Small p] [hq : Small q] : Small (if c then p else q) where
  tr k := if c then hp.tr k else hq.tr k
  res a := if c then hp.res a else hq.res a
  wrIn S := (c → hp.wrIn S) ∧ (¬ c → hq.wrIn S)
  law k := by
    by_cases h : c
    · simp only [h, if_true]; exact hp.law k
    · simp only [h, if_false]; exact hq.law k
  sound {m b m' W R T} h ho hS := by
    by_cases hc : c
    · simp only [hc, if_true] at h ⊢; exact hp.sound h ho (hS.1 hc)
    · simp only [hc, if_false] at h ⊢; exact hq.sound h ho (hS.2 hc)

/-- the accesses of a loop -/
def loopTr (f : ℕ → Prog K Unit) [hf : ∀ i, Small (f i)] : ℕ → (Unit → Proc K) → Proc K
  | 0, k => k ()
  | n + 1, k => loopTr f n fun _ => (hf n).tr k

instance (n : ℕ) (f : ℕ → Prog K Unit) [hf : ∀ i, Small (f i)] : Small (loop n f) where
  tr k := loopTr f n k
  res _ := True
  wrIn S := ∀ i < n, (hf i).wrIn S
  law k := by
    induction n generalizing k with
    | zero => rfl
    | succ n ih =>
      show (loopTr f n fun _ => (hf n).tr k).seq = (loop n f >>= fun _ => f n) >>= fun a => (k a).seq
      rw [ih, bind_assoc']
      exact congrArg _ (funext fun a => (hf n).law k)
  sound {m b m' W R T} h ho hS := by
    refine (fun h => ⟨h.1, h.2.1, h.2.2.1, trivial, h.2.2.2⟩ : (m'.ok = m.ok ∧ m'.next = m.next ∧ (∀ i, m.ok i = false → m'.val i = m.val i) ∧
      ∀ k Q, wp (k b) W R T m'.val Q → wp (loopTr f n k) W R T m.val Q) → _) ?_
    induction n generalizing b m' with
    | zero =>
      obtain ⟨_, rfl⟩ : () = b ∧ m = m' := by simpa [loop, pure, Prog.pure] using h
      exact ⟨rfl, rfl, fun _ _ => rfl, fun k Q h => h⟩
    | succ n ih =>
      simp only [loop, bind, Prog.bind] at h
      cases e : loop n f m with
      | error x => rw [e] at h; simp at h
      | ok y =>
        obtain ⟨a, m1⟩ := y
        rw [e] at h
        obtain ⟨o1, x1, f1, w1⟩ := ih e (fun i hi => hS i (by omega))
        obtain ⟨o2, x2, f2, _, w2⟩ := (hf n).sound (W := W) (R := R) (T := T) h (fun i hi => ho i (by rw [← o1]; exact hi)) (hS n (by omega))
        exact ⟨o2.trans o1, x2.trans x1, fun i hi => (f2 i (by rw [o1]; exact hi)).trans (f1 i hi), fun k Q hk => w1 (fun _ => (hf n).tr k) Q (w2 _ _ hk)⟩

end Small

/-- **From a sequential specification to a task**: if the program meets its specification in a memory where only the cells
`W ∪ R ∪ T` may be accessed, and writes `W ∪ T` only, then as a task it meets it too. -/
lemma wp_tr (p : Prog K α) [hp : Small p] {W R T : ℕ → Prop} {v : ℕ → K} {Q : (ℕ → K) → Prop} {k : α → Proc K} {P : α → Mem K → Prop}
    (m : Mem K) (hm : m.val = v) (hok : ∀ i, m.ok i = true → W i ∨ R i ∨ T i) (hr : Run p m P) (hS : hp.wrIn (fun i => W i ∨ T i))
    (hk : ∀ a m', P a m' → m'.ok = m.ok → (∀ i, m.ok i = false → m'.val i = v i) → hp.res a → wp (k a) W R T m'.val Q) : wp (hp.tr k) W R T v Q := by
  obtain ⟨a, m', e, hP⟩ := hr
  obtain ⟨o, _, f, r, w⟩ := hp.sound (W := W) (R := R) (T := T) e hok hS
  subst hm
  exact w k Q (hk a m' hP o f r)

/-- Iteration with a value passed on. -/
def Small.iterTr {σ : Type} (f : ℕ → σ → Prog K σ) [hf : ∀ i s, Small (f i s)] : ℕ → σ → (σ → Proc K) → Proc K
  | 0, s, k => k s
  | n + 1, s, k => Small.iterTr f n s fun t => (hf n t).tr k

instance {σ : Type} (n : ℕ) (f : ℕ → σ → Prog K σ) (s : σ) [hf : ∀ i s, Small (f i s)] : Small (iter n f s) where
  tr k := Small.iterTr f n s k
  res _ := True
  wrIn S := ∀ i < n, ∀ t, (hf i t).wrIn S
  law k := by
    induction n generalizing k with
    | zero => rfl
    | succ n ih =>
      show (Small.iterTr f n s fun t => (hf n t).tr k).seq = (iter n f s >>= fun t => f n t) >>= fun a => (k a).seq
      rw [ih, Small.bind_assoc']
      exact congrArg _ (funext fun a => (hf n a).law k)
  sound {m b m' W R T} h ho hS := by
    refine (fun h => ⟨h.1, h.2.1, h.2.2.1, trivial, h.2.2.2⟩ : (m'.ok = m.ok ∧ m'.next = m.next ∧ (∀ i, m.ok i = false → m'.val i = m.val i) ∧
      ∀ k Q, wp (k b) W R T m'.val Q → wp (Small.iterTr f n s k) W R T m.val Q) → _) ?_
    induction n generalizing b m' with
    | zero =>
      obtain ⟨rfl, rfl⟩ : s = b ∧ m = m' := by simpa [iter, pure, Prog.pure] using h
      exact ⟨rfl, rfl, fun _ _ => rfl, fun k Q h => h⟩
    | succ n ih =>
      simp only [iter, bind, Prog.bind] at h
      cases e : iter n f s m with
      | error x => rw [e] at h; simp at h
      | ok y =>
        obtain ⟨a, m1⟩ := y
        rw [e] at h
        obtain ⟨o1, x1, f1, w1⟩ := ih e (fun i hi => hS i (by omega))
        obtain ⟨o2, x2, f2, _, w2⟩ := (hf n a).sound (W := W) (R := R) (T := T) h (fun i hi => ho i (by rw [← o1]; exact hi)) (hS n (by omega) a)
        exact ⟨o2.trans o1, x2.trans x1, fun i hi => (f2 i (by rw [o1]; exact hi)).trans (f1 i hi),
          fun k Q hk => w1 (fun t => (hf n t).tr k) Q (w2 _ _ hk)⟩

/-- spawn of tasks: every task has its own cells to write and what it reads is written by nobody else -/
lemma wp_par {n : ℕ} {ts : Fin n → Proc K} {k : Proc K} {W R T : ℕ → Prop} {v : ℕ → K} {Q : (ℕ → K) → Prop}
    (Wc Rc : Fin n → ℕ → Prop) (Qc : Fin n → (ℕ → K) → Prop) (hW : ∀ j i, Wc j i → W i ∨ T i) (hR : ∀ j i, Rc j i → W i ∨ R i ∨ T i)
    (hd : ∀ j l i, j ≠ l → ¬ (Wc j i ∧ Wc l i) ∧ ¬ (Rc j i ∧ Wc l i)) (hl : ∀ j, Local (fun i => Wc j i ∨ Rc j i) (Qc j))
    (ht : ∀ j, wp (ts j) (Wc j) (Rc j) (fun _ => False) v (Qc j))
    (hk : ∀ v', (∀ i, W i ∨ R i ∨ T i → (∀ j, ¬ Wc j i) → v' i = v i) → (∀ j, Qc j v') → wp k W R T v' Q) :
    wp (.par n ts k) W R T v Q :=
  ⟨T, Wc, Rc, fun _ _ => False, Qc, fun _ h => h, fun _ _ h => h.elim, hW, hR, fun j l i e => ⟨(hd j l i e).1, (hd j l i e).2, fun h => h.1⟩,
    hl, ht, hk⟩

end Verif.Par
