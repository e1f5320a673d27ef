import Verif.Proofs.ParGemm

/-!
# The fault of the adaptive product
-/

namespace Verif.Par
open Verif.FF

variable {K : Type}

lemma bind_ok {α : Type} {p : Prog K Unit} {q : Unit → Prog K α} {m : Mem K} {r : α × Mem K} (h : (p >>= q) m = .ok r) : ∃ m1, p m = .ok ((), m1) ∧ q () m1 = .ok r := by
  simp only [bind, Prog.bind] at h
  cases e : p m with
  | error x => rw [e] at h; simp at h
  | ok s => rw [e] at h; exact ⟨s.2, rfl, h⟩

/-- a run does not make an address below the free area valid -/
def Keeps (p : Prog K Unit) (a : ℕ) : Prop := ∀ m m' : Mem K, p m = .ok ((), m') → a < m.next → m.ok a = false → m'.ok a = false ∧ m.next ≤ m'.next

lemma Keeps.bind {p q : Prog K Unit} {a : ℕ} (hp : Keeps p a) (hq : Keeps q a) : Keeps (do p; q) a := by
  intro m m' h ha ho
  obtain ⟨m1, h1, h2⟩ := bind_ok h
  obtain ⟨o1, n1⟩ := hp _ _ h1 ha ho
  obtain ⟨o2, n2⟩ := hq _ _ h2 (by omega) o1
  exact ⟨o2, by omega⟩

lemma Keeps.all {a : ℕ} : ∀ (n : ℕ) (f : Fin n → Prog K Unit), (∀ j, Keeps (f j) a) → Keeps (seqAll n f) a
  | 0, f, _ => by
    intro m m' h ha ho
    obtain rfl : m = m' := by simpa [seqAll, pure, Prog.pure] using h
    exact ⟨ho, le_refl _⟩
  | n + 1, f, hf => (Keeps.all n _ (fun j => hf j.castSucc)).bind (hf (Fin.last n))

lemma keeps_seq (p : Proc K) (a : ℕ) : Keeps p.seq a := by
  induction p with
  | ret =>
    intro m m' h ha ho
    obtain rfl : m = m' := by simpa [Proc.seq, pure, Prog.pure] using h
    exact ⟨ho, le_refl _⟩
  | fault e => intro m m' h; simp [Proc.seq, Prog.fault] at h
  | rd i k ih =>
    intro m m' h ha ho
    simp only [Proc.seq, bind, Prog.bind, load] at h
    by_cases hi : m.ok i = true
    · rw [if_pos hi] at h
      exact ih _ _ _ h ha ho
    · rw [if_neg hi] at h; simp at h
  | wr i x k ih =>
    intro m m' h ha ho
    simp only [Proc.seq, bind, Prog.bind, store] at h
    by_cases hi : m.ok i = true
    · rw [if_pos hi] at h
      exact ih (m.set i x) _ h ha ho
    · rw [if_neg hi] at h; simp at h
  | alloc n k ih =>
    intro m m' h ha ho
    simp only [Proc.seq, bind, Prog.bind, Verif.alloc] at h
    obtain ⟨o, l⟩ := ih _ _ _ h (by simp only []; omega) (by simp [ho]; omega)
    simp only [] at l
    exact ⟨o, by omega⟩
  | free p n k ih =>
    intro m m' h ha ho
    simp only [Proc.seq, bind, Prog.bind, Verif.free] at h
    exact ih { m with ok := fun i => m.ok i && !(decide (p ≤ i) && decide (i < p + n)) } _ h ha (by simp [ho])
  | par n ts k iht ihk =>
    exact (Keeps.all n _ iht).bind ihk

lemma loop_reach {n j : ℕ} {f : ℕ → Prog K Unit} (hj : j < n) {m m' : Mem K} (h : loop n f m = .ok ((), m')) : ∃ m1 m2, loop j f m = .ok ((), m1) ∧ f j m1 = .ok ((), m2) := by
  induction n generalizing m' with
  | zero => omega
  | succ n ih =>
    simp only [loop, bind, Prog.bind] at h
    cases e : loop n f m with
    | error x => rw [e] at h; simp at h
    | ok r =>
      rw [e] at h
      by_cases hjn : j = n
      · subst hjn; exact ⟨r.2, m', e, h⟩
      · exact ih (by omega) e

variable [Field K] [DecidableEq K]

omit [Field K] [DecidableEq K] in
lemma small_keeps (p : Prog K Unit) [hp : Small p] (a : ℕ) : Keeps p a := by
  have h := keeps_seq (hp.tr fun _ => .ret) a
  rw [hp.law] at h
  intro m m' e
  exact h m m' (by simp only [bind, Prog.bind, e, Proc.seq, pure, Prog.pure])

/-- rows of a sum that are not allocated -/
lemma faddin_bad {M N B ldb C ldc r : ℕ} {m m' : Mem K} (h : faddin .generic M N B ldb C ldc m = .ok ((), m')) (hr : r < M) (hN : 0 < N) (hne : N ≠ ldb) (hb : 0 < ldb)
    (hn : C + r * ldc < m.next) : m.ok (C + r * ldc) = true := by
  cases ho : m.ok (C + r * ldc) with
  | true => rfl
  | false =>
    exfalso
    rw [faddin, if_neg (fun h => hne h.1), cnt_pos hb] at h
    obtain ⟨m1, m2, h1, h2⟩ := loop_reach hr h
    have ho1 := (small_keeps (loop r fun i => vaddin .generic N (B + i * ldb) 1 (C + i * ldc) 1) (C + r * ldc) m m1 h1 hn ho)
    rw [vaddin, vadd, vaddsub, if_pos ⟨rfl, rfl, rfl⟩] at h2
    obtain ⟨m3, m4, h3, h4⟩ := loop_reach hN h2
    obtain rfl : m1 = m3 := by simpa [loop, pure, Prog.pure] using h3
    simp only [bind, Prog.bind, load, Nat.add_zero, ho1.1] at h4
    by_cases hB : m1.ok (B + r * ldb) = true
    · simp [hB, ho1.1] at h4
    · simp [hB] at h4

/-- The adaptive product with the dimensions of the sum exchanged: whatever the sequential product and the threshold, if the inner dimension is the one
that is cut and there are fewer rows than columns, some execution accesses the row after the last one of `C`. -/
theorem pfgemm3DA_crash (g : PGemm K) {thr fuel nt : ℕ} {c : Call K} {k : Proc K} {m : Mem K} (hwf : WF m) (hnt : 2 ≤ nt)
    (hsize : thr < min (c.m * c.n) (min (c.m * c.k) (c.k * c.n))) (hal : c.alpha ≠ 0) (hmn : c.m < c.n) (hnk : c.n ≤ c.k)
    (hC : m.ok (c.C + c.m * c.ldc) = false) (hn : c.C + c.m * c.ldc < m.next) :
    Crash (pfgemm3DA (fun m n => (n, m)) g thr (fuel + 1) nt c k) m := by
  have hm : 0 < c.m := by
    rcases Nat.eq_zero_or_pos c.m with h | h
    · rw [h] at hsize; simp at hsize
    · exact h
  rcases seq_run (pfgemm3DA (fun m n => (n, m)) g thr (fuel + 1) nt c k) hwf with cr | ⟨m', e, _⟩
  · exact cr
  exfalso
  unfold pfgemm3DA at e
  rw [pfStart, if_neg (by omega), if_neg (by rintro (h | h); exacts [absurd h (by omega), hal h]), if_neg (by omega), if_neg (by omega), if_neg (by omega)] at e
  simp only [Proc.seq, bind, Prog.bind, Verif.alloc] at e
  have e' := bind_ok (p := seqAll 2 _) (q := fun _ => _) e
  obtain ⟨m2, h1, h2⟩ := e'
  have k1 := (Keeps.all 2 _ (fun j => keeps_seq _ (c.C + c.m * c.ldc))) _ _ h1 (by simp only []; omega) (by simp [hC]; omega)
  obtain ⟨m3, h3, h4⟩ := bind_ok (p := seqAll 1 _) (q := fun _ => _) h2
  obtain ⟨m4, h5, h6⟩ := bind_ok (p := seqAll 0 _) (q := fun _ => _) h3
  obtain rfl : m2 = m4 := by simpa [seqAll, pure, Prog.pure] using h5
  have h7 : (call (faddin .generic c.n c.m m.next c.n c.C c.ldc) .ret).seq m2 = .ok ((), m3) := h6
  rw [call, Small.law] at h7
  obtain ⟨m5, h8, _⟩ := bind_ok h7
  simp only [] at k1
  have := faddin_bad h8 hmn hm (by omega) (by omega) (by omega)
  rw [k1.1] at this
  exact absurd this (by decide)

end Verif.Par
