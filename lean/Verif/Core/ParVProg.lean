import Verif.Core.ParV
import Mathlib.Data.Fin.Tuple.Basic

/-!
# Races, the sequential execution, and programs as tasks, for tasks that return a value
-/

namespace Verif.ParV
open Verif.Par (blkAt allocAt freeAt Local Owns Bounded)

variable {K ν : Type}

/-- the process may access cell `i` in its next step, `w` tells whether to change it (release counts as a change) -/
inductive Acc1 : VProc K ν → ℕ → Bool → Prop
  | rd {i k} : Acc1 (.rd i k) i false
  | wr {i v k} : Acc1 (.wr i v k) i true
  | free {p n k i} : blkAt p n i → Acc1 (.free p n k) i true
  | task {n ts k i w} (j : Fin n) : Acc1 (ts j) i w → Acc1 (.par n ts k) i w

/-- two tasks about to access the same cell, one of them to change it -/
inductive Race : VProc K ν → Prop
  | here {n ts k} (i : ℕ) (w : Bool) (j l : Fin n) : j ≠ l → Acc1 (ts j) i true → Acc1 (ts l) i w → Race (.par n ts k)
  | task {n ts k} (j : Fin n) : Race (ts j) → Race (.par n ts k)

lemma Acc1.own {p : VProc K ν} {i : ℕ} {w : Bool} (h : Acc1 p i w) : ∀ {W R T : ℕ → Prop} {v : ℕ → K} {Q : ν → (ℕ → K) → Prop},
    wp p W R T v Q → (W i ∨ R i ∨ T i) ∧ (w = true → W i ∨ T i) := by
  induction h with
  | rd => intro W R T v Q hw; exact ⟨hw.1, fun h => absurd h (by decide)⟩
  | wr => intro W R T v Q hw; exact ⟨hw.1.imp id Or.inr, fun _ => hw.1⟩
  | free hb => intro W R T v Q hw; exact ⟨Or.inr (Or.inr (hw.1 _ hb)), fun _ => Or.inr (hw.1 _ hb)⟩
  | task j _ ih =>
    rintro W R T v Q ⟨T0, Wc, Rc, Tc, Qc, h1, h2, h3, h4, h5, h6, h7, h8⟩
    obtain ⟨a, b⟩ := ih (h7 j)
    refine ⟨?_, fun e => ?_⟩
    · rcases a with a | a | a
      · exact (h3 j _ a).imp id (fun t => Or.inr (h1 _ t))
      · exact (h4 j _ a).imp id (Or.imp id (h1 _))
      · exact Or.inr (Or.inr (h2 j _ a).1)
    · rcases b e with a | a
      · exact (h3 j _ a).imp id (h1 _)
      · exact Or.inr (h2 j _ a).1

lemma Race.not_wp {p : VProc K ν} (h : Race p) : ∀ {W R T : ℕ → Prop} {v : ℕ → K} {Q : ν → (ℕ → K) → Prop},
    (∀ i, T i → ¬ W i ∧ ¬ R i) → ¬ wp p W R T v Q := by
  induction h with
  | here i w j l ne aj al =>
    rintro W R T v Q hd ⟨T0, Wc, Rc, Tc, Qc, h1, h2, h3, h4, h5, h6, h7, h8⟩
    have a := (aj.own (h7 j)).2 rfl
    have b := (al.own (h7 l)).1
    have tn : ∀ j i, Tc j i → ∀ l, ¬ Wc l i ∧ ¬ Rc l i := by
      intro j i ht l
      obtain ⟨t, t0⟩ := h2 j i ht
      obtain ⟨d1, d2⟩ := hd i t
      refine ⟨fun hw => (h3 l i hw).elim d1 t0, fun hr => ?_⟩
      rcases h4 l i hr with x | x | x
      · exact d1 x
      · exact d2 x
      · exact t0 x
    rcases a with a | a <;> rcases b with b | b | b
    · exact (h5 j l i ne).1 ⟨a, b⟩
    · exact (h5 l j i ne.symm).2.1 ⟨b, a⟩
    · exact (tn l i b j).1 a
    · exact (tn j i a l).1 b
    · exact (tn j i a l).2 b
    · exact (h5 j l i ne).2.2 ⟨a, b⟩
  | task j _ ih =>
    rintro W R T v Q hd ⟨T0, Wc, Rc, Tc, Qc, h1, h2, h3, h4, h5, h6, h7, h8⟩
    refine ih (fun i hi => ?_) (h7 j)
    obtain ⟨t, t0⟩ := h2 j i hi
    obtain ⟨d1, d2⟩ := hd i t
    refine ⟨fun hw => (h3 j i hw).elim d1 t0, fun hr => ?_⟩
    rcases h4 j i hr with x | x | x
    · exact d1 x
    · exact d2 x
    · exact t0 x

/-- the specification along an execution -/
lemma wp_steps {W R : ℕ → Prop} {Q : ν → (ℕ → K) → Prop} {x y : VProc K ν × Mem K} (hs : Steps x y) :
    ∀ {T : ℕ → Prop}, Owns W R T x.2 → wp x.1 W R T x.2.val Q →
      ∃ T' : ℕ → Prop, Owns W R T' y.2 ∧ wp y.1 W R T' y.2.val Q := by
  induction hs with
  | refl => intro T o w; exact ⟨T, o, w⟩
  | tail _ h ih =>
    intro T o w
    obtain ⟨T1, o1, w1⟩ := ih o w
    obtain ⟨T2, o2, w2, _⟩ := wp_step h o1 w1
    exact ⟨T2, o2, w2⟩

/-- **No execution reaches a data race.** -/
theorem wp_noRace {p p' : VProc K ν} {m m' : Mem K} {W R : ℕ → Prop} {Q : ν → (ℕ → K) → Prop} (ho : ∀ i, W i ∨ R i → m.ok i = true)
    (hw : wp p W R (fun _ => False) m.val Q) (hs : Steps (p, m) (p', m')) : ¬ Race p' := by
  obtain ⟨T, o, w⟩ := wp_steps hs (T := fun _ => False) ⟨fun i hi => ho i (by simpa using hi), fun _ h => h.elim⟩ hw
  exact fun r => r.not_wp o.dis w

/-- steps of one task are steps of the whole -/
lemma Steps.task {n : ℕ} {k : (Fin n → ν) → VProc K ν} (j : Fin n) {x y : VProc K ν × Mem K} (h : Steps x y) : ∀ (ts : Fin n → VProc K ν), ts j = x.1 →
    Steps (.par n ts k, x.2) (.par n (Function.update ts j y.1) k, y.2) := by
  induction h with
  | refl =>
    intro ts e
    rw [← e, Function.update_eq_self]
    exact .refl
  | @tail b c _ h ih =>
    intro ts e
    refine (ih ts e).tail ?_
    have := PStep.task (k := k) (ts := Function.update ts j b.1) j c.1 (by simpa using h)
    simpa using this

/-! ## The sequential execution -/

/-- tasks one after the other -/
def seqAll : (n : ℕ) → (Fin n → Prog K ν) → Prog K (Fin n → ν)
  | 0, _ => pure fun j => j.elim0
  | n + 1, f => do
    let x ← seqAll n (fun j => f j.castSucc)
    let y ← f (Fin.last n)
    pure (Fin.snoc (α := fun _ => ν) x y)

/-- `delete` of a block of `n` elements at `p`, all of them in use -/
def freeC (p n : ℕ) : Prog K Unit := fun m => if ∀ i < n, m.ok (p + i) = true then .ok ((), freeAt m p n) else .error .oob

/-- the process run alone: `TASK(M, I)` is `{I;}`, `WAIT` nothing (/repo/fflas-ffpack/paladin/parallel.h:94-111) -/
def VProc.seq : VProc K ν → Prog K ν
  | .ret x => pure x
  | .fault e => Prog.fault e
  | .rd i k => do let x ← load i; (k x).seq
  | .wr i v k => do store i v; k.seq
  | .alloc n k => do let p ← Verif.alloc n; (k p).seq
  | .free p n k => do freeC p n; k.seq
  | .par n ts k => do let x ← seqAll n (fun j => (ts j).seq); (k x).seq

lemma bind_ok {α β : Type} {p : Prog K α} {q : α → Prog K β} {m : Mem K} {r : β × Mem K} (h : (p >>= q) m = .ok r) :
    ∃ a m1, p m = .ok (a, m1) ∧ q a m1 = .ok r := by
  simp only [bind, Prog.bind] at h
  cases e : p m with
  | error x => rw [e] at h; simp at h
  | ok s => rw [e] at h; exact ⟨s.1, s.2, rfl, h⟩

/-- **The sequential execution is one of the executions.** -/
theorem seq_steps (p : VProc K ν) : ∀ {m : Mem K} {x : ν} {m' : Mem K}, WF m → p.seq m = .ok (x, m') → Steps (p, m) (.ret x, m') ∧ WF m' := by
  induction p with
  | ret y =>
    intro m x m' hwf h
    obtain ⟨rfl, rfl⟩ : y = x ∧ m = m' := by simpa [VProc.seq, pure, Prog.pure] using h
    exact ⟨.refl, hwf⟩
  | fault e => intro m x m' hwf h; simp [VProc.seq, Prog.fault] at h
  | rd i k ih =>
    intro m x m' hwf h
    obtain ⟨y, m1, h1, h2⟩ := bind_ok h
    unfold load at h1
    by_cases hi : m.ok i = true
    · rw [if_pos hi] at h1
      obtain ⟨rfl, rfl⟩ : m.val i = y ∧ m = m1 := by simpa using h1
      obtain ⟨s, w⟩ := ih _ hwf h2
      exact ⟨(Relation.ReflTransGen.single (.rd hi)).trans s, w⟩
    · rw [if_neg hi] at h1; simp at h1
  | wr i v k ih =>
    intro m x m' hwf h
    obtain ⟨y, m1, h1, h2⟩ := bind_ok h
    unfold store at h1
    by_cases hi : m.ok i = true
    · rw [if_pos hi] at h1
      obtain rfl : m.set i v = m1 := by simpa using h1
      obtain ⟨s, w⟩ := ih (m := m.set i v) hwf h2
      exact ⟨(Relation.ReflTransGen.single (.wr hi)).trans s, w⟩
    · rw [if_neg hi] at h1; simp at h1
  | alloc n k ih =>
    intro m x m' hwf h
    obtain ⟨y, m1, h1, h2⟩ := bind_ok h
    have e : m1 = allocAt m m.next n m.val := by
      simp only [Verif.alloc, Except.ok.injEq, Prod.mk.injEq] at h1
      rw [← h1.2]
      simp only [allocAt]
      congr 1
      · funext i; split <;> rfl
      · funext i; rw [Bool.eq_iff_iff]; simp only [Bool.or_eq_true, Bool.and_eq_true, decide_eq_true_eq]; exact Iff.rfl
      · omega
    obtain rfl : m.next = y := by
      simp only [Verif.alloc, Except.ok.injEq, Prod.mk.injEq] at h1
      exact h1.1
    subst e
    have hwf' : WF (allocAt m m.next n m.val) := by
      intro a ha
      have ha : max m.next (m.next + n) ≤ a := ha
      have h1 : m.ok a = false := hwf a (by omega)
      have h2 : ¬ blkAt m.next n a := fun hb => by have := hb.2; omega
      simp [allocAt, h1, h2]
    obtain ⟨s, w⟩ := ih _ hwf' h2
    exact ⟨(Relation.ReflTransGen.single (.alloc m.next m.val (fun i hi => hwf i hi.1))).trans s, w⟩
  | free p n k ih =>
    intro m x m' hwf h
    obtain ⟨y, m1, h1, h2⟩ := bind_ok h
    obtain ⟨hb, rfl⟩ : (∀ i, blkAt p n i → m.ok i = true) ∧ m1 = freeAt m p n := by
      unfold freeC at h1
      by_cases c : ∀ i < n, m.ok (p + i) = true
      · rw [if_pos c] at h1
        refine ⟨fun i hi => ?_, by simpa using h1.symm⟩
        have := c (i - p) (by have := hi.2; have := hi.1; omega)
        rwa [Nat.add_sub_cancel' hi.1] at this
      · rw [if_neg c] at h1; simp at h1
    have hwf' : WF (freeAt m p n) := by
      intro a ha
      have h1 : m.ok a = false := hwf a ha
      simp [freeAt, h1]
    obtain ⟨s, w⟩ := ih hwf' h2
    exact ⟨(Relation.ReflTransGen.single (.free hb)).trans s, w⟩
  | par n ts k iht ihk =>
    intro m x m' hwf h
    obtain ⟨y, m1, h1, h2⟩ := bind_ok h
    have key : ∀ r (hr : r ≤ n) (y : Fin r → ν) (m1 : Mem K), seqAll r (fun j => (ts ⟨j, by omega⟩).seq) m = .ok (y, m1) →
        Steps (.par n ts k, m) (.par n (fun j => if hj : j.1 < r then .ret (y ⟨j.1, hj⟩) else ts j) k, m1) ∧ WF m1 := by
      intro r
      induction r with
      | zero =>
        intro _ y m1 h
        obtain ⟨_, rfl⟩ : _ ∧ m = m1 := by simpa [seqAll, pure, Prog.pure] using h
        exact ⟨by simp only [Nat.not_lt_zero, dif_neg, not_false_eq_true]; exact Relation.ReflTransGen.refl, hwf⟩
      | succ r ih =>
        intro hr y m1 h
        obtain ⟨y0, m0, e0, h⟩ := bind_ok h
        obtain ⟨y1, m2, e1, h⟩ := bind_ok h
        obtain ⟨rfl, rfl⟩ : Fin.snoc (α := fun _ => ν) y0 y1 = y ∧ m2 = m1 := by simpa [pure, Prog.pure] using h
        obtain ⟨s, w⟩ := ih (by omega) y0 m0 e0
        obtain ⟨s2, w2⟩ := iht ⟨r, by omega⟩ w e1
        refine ⟨s.trans ?_, w2⟩
        have := Steps.task (k := k) ⟨r, by omega⟩ s2 (fun j => if hj : j.1 < r then .ret (y0 ⟨j.1, hj⟩) else ts j) (by simp)
        have e : (fun j : Fin n => if hj : j.1 < r + 1 then VProc.ret (Fin.snoc (α := fun _ => ν) y0 y1 ⟨j.1, hj⟩) else ts j) =
            Function.update (fun j => if hj : j.1 < r then .ret (y0 ⟨j.1, hj⟩) else ts j) ⟨r, by omega⟩ (.ret y1) := ?_
        · rw [e]; exact this
        funext j
        by_cases e : j.1 = r
        · have e : j = ⟨r, by omega⟩ := Fin.ext e
          rw [e]
          simp [Fin.snoc]
        · rw [Function.update_of_ne (fun h => e (by rw [h]))]
          by_cases c : j.1 < r
          · rw [dif_pos (by omega), dif_pos c]; simp [Fin.snoc, c]
          · rw [dif_neg (by omega), dif_neg c]
    obtain ⟨s, w⟩ := key n le_rfl y m1 h1
    have st : PStep (.par n (fun j => if hj : j.1 < n then .ret (y ⟨j.1, hj⟩) else ts j) k) m1 (k y) m1 := .join y (fun j => by simp)
    obtain ⟨s2, w2⟩ := ihk y w h2
    exact ⟨s.trans ((Relation.ReflTransGen.single st).trans s2), w2⟩

/-! ## Processes and programs as parts of tasks -/

/-- a process without values, then `k`; the values of its own tasks are not used -/
def up [Inhabited ν] : Par.Proc K → VProc K ν → VProc K ν
  | .ret, k => k
  | .fault e, _ => .fault e
  | .rd i f, k => .rd i fun x => up (f x) k
  | .wr i v p, k => .wr i v (up p k)
  | .alloc n f, k => .alloc n fun x => up (f x) k
  | .free p n q, k => .free p n (up q k)
  | .par n ts q, k => .par n (fun j => up (ts j) (.ret default)) fun _ => up q k

lemma up_wp [Inhabited ν] (p : Par.Proc K) : ∀ {W R T : ℕ → Prop} {v : ℕ → K} {k : VProc K ν} {Q0 : (ℕ → K) → Prop} {Q : ν → (ℕ → K) → Prop},
    Par.wp p W R T v Q0 → (∀ v', Q0 v' → wp k W R (fun _ => False) v' Q) → wp (up p k) W R T v Q := by
  induction p with
  | ret => intro W R T v k Q0 Q h hk; exact wp_mono_T _ (fun _ h => h.elim) (hk _ h)
  | fault => intro W R T v k Q0 Q h _; exact h
  | rd i f ih => intro W R T v k Q0 Q h hk; exact ⟨h.1, ih _ h.2 hk⟩
  | wr i x q ih => intro W R T v k Q0 Q h hk; exact ⟨h.1, ih h.2 hk⟩
  | alloc n f ih => intro W R T v k Q0 Q h hk p c hp; exact ih _ (h p c hp) hk
  | free p n q ih => intro W R T v k Q0 Q h hk; exact ⟨h.1, ih h.2 hk⟩
  | par n ts q iht ihq =>
    rintro W R T v k Q0 Q ⟨T0, Wc, Rc, Tc, Qc, h1, h2, h3, h4, h5, h6, h7, h8⟩ hk
    exact ⟨T0, Wc, Rc, Tc, fun j _ => Qc j, h1, h2, h3, h4, h5, fun j _ => h6 j, fun j => iht j (h7 j) (fun _ h => h),
      fun x v' e q => ihq (h8 v' e q) hk⟩

/-- A program without allocation cut into its memory accesses. -/
class Cut (ν : Type) {α : Type} (p : Prog K α) where
  /-- the accesses of `p`, then `k` -/
  tr : (α → VProc K ν) → VProc K ν
  law : ∀ k, (tr k).seq = p >>= fun a => (k a).seq
  sound : ∀ {m a m'} {W R T : ℕ → Prop}, p m = .ok (a, m') → (∀ i, m.ok i = true → W i ∨ T i) →
    m'.ok = m.ok ∧ (∀ i, m.ok i = false → m'.val i = m.val i) ∧ ∀ k Q, wp (k a) W R T m'.val Q → wp (tr k) W R T m.val Q

namespace Cut
variable {α β : Type}

instance (a : α) : Cut ν (pure a : Prog K α) where
  tr k := k a
  law k := rfl
  sound {m b m' W R T} h _ := by
    obtain ⟨rfl, rfl⟩ : a = b ∧ m = m' := by simpa [pure, Prog.pure] using h
    exact ⟨rfl, fun _ _ => rfl, fun k Q h => h⟩

instance (e : Fault) : Cut ν (Prog.fault e : Prog K α) where
  tr _ := .fault e
  law k := rfl
  sound {m b m' W R T} h _ := by simp [Prog.fault] at h

instance (i : ℕ) : Cut ν (load i : Prog K K) where
  tr k := .rd i k
  law k := rfl
  sound {m b m' W R T} h ho := by
    unfold load at h
    by_cases hi : m.ok i = true
    · rw [if_pos hi] at h
      obtain ⟨rfl, rfl⟩ : m.val i = b ∧ m = m' := by simpa using h
      exact ⟨rfl, fun _ _ => rfl, fun k Q h => ⟨(ho i hi).imp id Or.inr, h⟩⟩
    · rw [if_neg hi] at h; simp at h

instance (i : ℕ) (x : K) : Cut ν (store i x : Prog K Unit) where
  tr k := .wr i x (k ())
  law k := rfl
  sound {m b m' W R T} h ho := by
    unfold store at h
    by_cases hi : m.ok i = true
    · rw [if_pos hi] at h
      obtain ⟨_, rfl⟩ : () = b ∧ m.set i x = m' := by simpa using h
      refine ⟨rfl, fun l hl => ?_, fun k Q h => ⟨ho i hi, h⟩⟩
      have : l ≠ i := by rintro rfl; rw [hi] at hl; exact absurd hl (by decide)
      simp [Mem.set, Function.update_of_ne this]
    · rw [if_neg hi] at h; simp at h

instance (e : Except Fault α) : Cut ν (liftE e : Prog K α) where
  tr k := match e with
    | .ok a => k a
    | .error x => .fault x
  law k := by
    cases e
    · rfl
    · rfl
  sound {m b m' W R T} h _ := by
    cases e with
    | error x => simp [liftE] at h
    | ok a =>
      obtain ⟨rfl, rfl⟩ : a = b ∧ m = m' := by simpa [liftE] using h
      exact ⟨rfl, fun _ _ => rfl, fun k Q h => h⟩

instance (p : Prog K α) (f : α → Prog K β) [hp : Cut ν p] [hf : ∀ a, Cut ν (f a)] : Cut ν (p >>= f) where
  tr k := hp.tr fun a => (hf a).tr k
  law k := by
    rw [hp.law, Par.Small.bind_assoc']
    exact congrArg _ (funext fun a => (hf a).law k)
  sound {m b m' W R T} h ho := by
    obtain ⟨a, m1, e, h⟩ := bind_ok h
    obtain ⟨o1, f1, w1⟩ := hp.sound (W := W) (R := R) (T := T) e ho
    obtain ⟨o2, f2, w2⟩ := (hf a).sound (W := W) (R := R) (T := T) h (fun i hi => ho i (by rw [← o1]; exact hi))
    exact ⟨o2.trans o1, fun i hi => (f2 i (by rw [o1]; exact hi)).trans (f1 i hi), fun k Q hk => w1 _ _ (w2 _ _ hk)⟩

instance (c : Prop) [Decidable c] (p q : Prog K α) [hp : Cut ν p] [hq : Cut ν q] : Cut ν (if c then p else q) where
  tr k := if c then hp.tr k else hq.tr k
  law k := by
    by_cases h : c
    · simp only [h, if_true]; exact hp.law k
    · simp only [h, if_false]; exact hq.law k
  sound {m b m' W R T} h ho := by
    by_cases hc : c
    · simp only [hc, if_true] at h ⊢; exact hp.sound h ho
    · simp only [hc, if_false] at h ⊢; exact hq.sound h ho

/-- the accesses of an iteration with a value passed on -/
def iterTr {σ : Type} (f : ℕ → σ → Prog K σ) [hf : ∀ i s, Cut ν (f i s)] : ℕ → σ → (σ → VProc K ν) → VProc K ν
  | 0, s, k => k s
  | n + 1, s, k => iterTr f n s fun t => (hf n t).tr k

instance {σ : Type} (n : ℕ) (f : ℕ → σ → Prog K σ) (s : σ) [hf : ∀ i s, Cut ν (f i s)] : Cut ν (iter n f s) where
  tr k := iterTr f n s k
  law k := by
    induction n generalizing k with
    | zero => rfl
    | succ n ih =>
      show (iterTr f n s fun t => (hf n t).tr k).seq = (iter n f s >>= fun t => f n t) >>= fun a => (k a).seq
      rw [ih, Par.Small.bind_assoc']
      exact congrArg _ (funext fun a => (hf n a).law k)
  sound {m b m' W R T} h ho := by
    induction n generalizing b m' with
    | zero =>
      obtain ⟨rfl, rfl⟩ : s = b ∧ m = m' := by simpa [iter, pure, Prog.pure] using h
      exact ⟨rfl, fun _ _ => rfl, fun k Q h => h⟩
    | succ n ih =>
      obtain ⟨a, m1, e, h⟩ := bind_ok h
      obtain ⟨o1, f1, w1⟩ := ih e
      obtain ⟨o2, f2, w2⟩ := (hf n a).sound (W := W) (R := R) (T := T) h (fun i hi => ho i (by rw [← o1]; exact hi))
      exact ⟨o2.trans o1, fun i hi => (f2 i (by rw [o1]; exact hi)).trans (f1 i hi), fun k Q hk => w1 (fun t => (hf n t).tr k) Q (w2 _ _ hk)⟩

/-- the accesses of a loop -/
def loopTr (f : ℕ → Prog K Unit) [hf : ∀ i, Cut ν (f i)] : ℕ → (Unit → VProc K ν) → VProc K ν
  | 0, k => k ()
  | n + 1, k => loopTr f n fun _ => (hf n).tr k

instance (n : ℕ) (f : ℕ → Prog K Unit) [hf : ∀ i, Cut ν (f i)] : Cut ν (loop n f) where
  tr k := loopTr f n k
  law k := by
    induction n generalizing k with
    | zero => rfl
    | succ n ih =>
      show (loopTr f n fun _ => (hf n).tr k).seq = (loop n f >>= fun _ => f n) >>= fun a => (k a).seq
      rw [ih, Par.Small.bind_assoc']
      exact congrArg _ (funext fun a => (hf n).law k)
  sound {m b m' W R T} h ho := by
    induction n generalizing b m' with
    | zero =>
      obtain ⟨_, rfl⟩ : () = b ∧ m = m' := by simpa [loop, pure, Prog.pure] using h
      exact ⟨rfl, fun _ _ => rfl, fun k Q h => h⟩
    | succ n ih =>
      obtain ⟨a, m1, e, h⟩ := bind_ok h
      obtain ⟨o1, f1, w1⟩ := ih e
      obtain ⟨o2, f2, w2⟩ := (hf n).sound (W := W) (R := R) (T := T) h (fun i hi => ho i (by rw [← o1]; exact hi))
      exact ⟨o2.trans o1, fun i hi => (f2 i (by rw [o1]; exact hi)).trans (f1 i hi), fun k Q hk => w1 (fun _ => (hf n).tr k) Q (w2 _ _ hk)⟩

end Cut

/-- a program that meets its specification in a memory where only `W ∪ T` may be accessed, as a part of a task -/
lemma wp_cut {α : Type} (p : Prog K α) [hp : Cut ν p] {W R T : ℕ → Prop} {v : ℕ → K} {Q : ν → (ℕ → K) → Prop} {k : α → VProc K ν} {P : α → Mem K → Prop}
    (m : Mem K) (hm : m.val = v) (hok : ∀ i, m.ok i = true → W i ∨ T i) (hr : Run p m P)
    (hk : ∀ a m', P a m' → m'.ok = m.ok → (∀ i, m.ok i = false → m'.val i = v i) → wp (k a) W R T m'.val Q) : wp (hp.tr k) W R T v Q := by
  obtain ⟨a, m', e, hP⟩ := hr
  obtain ⟨o, f, w⟩ := hp.sound (W := W) (R := R) (T := T) e hok
  subst hm
  exact w k Q (hk a m' hP o f)

end Verif.ParV
