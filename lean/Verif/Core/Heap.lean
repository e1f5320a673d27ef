import Verif.Core.Arr
import Mathlib.Tactic.Ring
import Mathlib.Tactic.Linarith

/-!
# Matrices in memory: windows, steps and loops

`Win` is a rectangular window `(p, ld, r, c)` of memory: entry `(i, j)` is the cell `p + i*ld + j`.  Vectors with an
increment are windows with one column (`ld` = increment).  `Step m m' W g` is the effect every in-place routine is
specified by: afterwards window `W` holds `g`, every other allocated cell is unchanged and the allocation state is
the same.
-/

namespace Verif

variable {K α β : Type}

/-- case analysis on the outermost `if` of a program -/
macro "rif" h:ident : tactic => `(tactic| (rw [Run_ite]; refine ⟨fun $h => ?_, fun $h => ?_⟩))

/-- `for (size_t i = 0; i < n; ++i) f(i)` -/
def loop : ℕ → (ℕ → Prog K Unit) → Prog K Unit
  | 0, _ => pure ()
  | n+1, f => do loop n f; f n

/-- Loop invariant rule. -/
lemma Run_loop {n : ℕ} {f : ℕ → Prog K Unit} {m : Mem K} (I : ℕ → Mem K → Prop) (h0 : I 0 m)
    (hs : ∀ k m, k < n → I k m → Run (f k) m (fun _ => I (k+1))) : Run (loop n f) m (fun _ => I n) := by
  induction n with
  | zero => simpa [loop] using h0
  | succ n ih =>
    simp only [loop, Run_bind]
    exact (ih (fun k m hk => hs k m (by omega))).mono (fun a m' ha => hs n m' (by omega) ha)

/-- A rectangular window of memory. -/
structure Win where
  p : ℕ
  ld : ℕ
  r : ℕ
  c : ℕ

namespace Win

/-- cell of entry `(i, j)` -/
def adr (W : Win) (i j : ℕ) : ℕ := W.p + i * W.ld + j

/-- the cells of the window -/
def Has (W : Win) (a : ℕ) : Prop := ∃ i < W.r, ∃ j < W.c, a = W.adr i j

/-- `r' × c'` sub-window whose top left entry is `(i, j)` -/
def sub (W : Win) (i j r' c' : ℕ) : Win := ⟨W.adr i j, W.ld, r', c'⟩

/-- row `i` as a vector -/
def row (W : Win) (i : ℕ) : Win := ⟨W.p + i * W.ld, 1, W.c, 1⟩

/-- distinct entries are distinct cells -/
def Inj (W : Win) : Prop := ∀ i < W.r, ∀ j < W.c, ∀ i' < W.r, ∀ j' < W.c, W.adr i j = W.adr i' j' → i = i' ∧ j = j'

/-- no common cell -/
def Disj (W V : Win) : Prop := ∀ a, W.Has a → ¬ V.Has a

@[simp] lemma adr_mk (p ld r c i j : ℕ) : (Win.mk p ld r c).adr i j = p + i * ld + j := rfl

lemma Has_adr {W : Win} {i j : ℕ} (hi : i < W.r) (hj : j < W.c) : W.Has (W.adr i j) := ⟨i, hi, j, hj, rfl⟩

lemma Disj.symm {W V : Win} (h : W.Disj V) : V.Disj W := fun a h1 h2 => h a h2 h1

lemma Inj_of_le {W : Win} (h : W.c ≤ W.ld ∨ W.r ≤ 1) : W.Inj := by
  intro i hi j hj i' hi' j' hj' e
  unfold adr at e
  rcases h with h | h
  · rcases Nat.lt_trichotomy i i' with hl | hl | hl
    · have : (i + 1) * W.ld ≤ i' * W.ld := Nat.mul_le_mul_right _ hl
      rw [Nat.succ_mul] at this; omega
    · subst hl; omega
    · have : (i' + 1) * W.ld ≤ i * W.ld := Nat.mul_le_mul_right _ hl
      rw [Nat.succ_mul] at this; omega
  · obtain rfl : i = 0 := by omega
    obtain rfl : i' = 0 := by omega
    omega

lemma sub_adr (W : Win) (i j r' c' i' j' : ℕ) : (W.sub i j r' c').adr i' j' = W.adr (i + i') (j + j') := by
  simp only [sub, adr]; ring

lemma sub_Has {W : Win} {i j r' c' a : ℕ} (hr : i + r' ≤ W.r) (hc : j + c' ≤ W.c)
    (h : (W.sub i j r' c').Has a) : W.Has a := by
  obtain ⟨i', hi', j', hj', rfl⟩ := h
  simp only [sub] at hi' hj'
  exact ⟨i + i', by omega, j + j', by omega, sub_adr ..⟩

lemma sub_Inj {W : Win} {i j r' c' : ℕ} (hr : i + r' ≤ W.r) (hc : j + c' ≤ W.c) (h : W.Inj) :
    (W.sub i j r' c').Inj := by
  intro a ha b hb a' ha' b' hb' e
  simp only [sub] at ha hb ha' hb'
  rw [sub_adr, sub_adr] at e
  have := h _ (by omega) _ (by omega) _ (by omega) _ (by omega) e
  omega

/-- Two sub-windows of an injective window with separated rows or columns share no cell. -/
lemma sub_Disj {W : Win} {i j r' c' i2 j2 r2 c2 : ℕ} (hW : W.Inj) (hr : i + r' ≤ W.r) (hc : j + c' ≤ W.c)
    (hr2 : i2 + r2 ≤ W.r) (hc2 : j2 + c2 ≤ W.c)
    (h : i + r' ≤ i2 ∨ i2 + r2 ≤ i ∨ j + c' ≤ j2 ∨ j2 + c2 ≤ j) : (W.sub i j r' c').Disj (W.sub i2 j2 r2 c2) := by
  rintro a ⟨a1, ha1, b1, hb1, rfl⟩ ⟨a2, ha2, b2, hb2, e⟩
  simp only [sub] at ha1 hb1 ha2 hb2
  rw [sub_adr, sub_adr] at e
  have := hW _ (by omega) _ (by omega) _ (by omega) _ (by omega) e
  omega

lemma Disj.sub_left {W V : Win} {i j r' c' : ℕ} (h : W.Disj V) (hr : i + r' ≤ W.r) (hc : j + c' ≤ W.c) :
    (W.sub i j r' c').Disj V := fun a ha => h a (sub_Has hr hc ha)

lemma Disj.sub_right {W V : Win} {i j r' c' : ℕ} (h : W.Disj V) (hr : i + r' ≤ V.r) (hc : j + c' ≤ V.c) :
    W.Disj (V.sub i j r' c') := fun a ha hb => h a ha (sub_Has hr hc hb)

lemma row_Has {W : Win} {i a : ℕ} (hi : i < W.r) (h : (W.row i).Has a) : W.Has a := by
  obtain ⟨j, hj, z, hz, rfl⟩ := h
  simp only [row] at hj hz
  exact ⟨i, hi, j, hj, by simp only [row, adr]; omega⟩

/-- every window not larger than another one with the same layout is inside it -/
lemma Has_mono {W V : Win} {a : ℕ} (hp : W.p = V.p) (hld : W.ld = V.ld) (hr : W.r ≤ V.r) (hc : W.c ≤ V.c) (h : W.Has a) :
    V.Has a := by
  obtain ⟨i, hi, j, hj, rfl⟩ := h
  exact ⟨i, by omega, j, by omega, by simp only [adr, hp, hld]⟩

end Win

/-- contents of a window -/
def Mem.mat (m : Mem K) (W : Win) (i j : ℕ) : K := m.val (W.adr i j)

/-- all the cells of the window are allocated -/
def OkIn (m : Mem K) (W : Win) : Prop := ∀ a, W.Has a → m.ok a = true

/-- nothing is allocated at or above `next` -/
def WF (m : Mem K) : Prop := ∀ a, m.next ≤ a → m.ok a = false

/-- `m'` is `m` with window `W` holding `g`; other allocated cells unchanged, same cells allocated. -/
structure Step (m m' : Mem K) (W : Win) (g : ℕ → ℕ → K) : Prop where
  ok : m'.ok = m.ok
  next : m.next ≤ m'.next
  val : ∀ i < W.r, ∀ j < W.c, m'.val (W.adr i j) = g i j
  frame : ∀ a, m.ok a = true → ¬ W.Has a → m'.val a = m.val a

section Step
variable {m m' m'' : Mem K} {W V : Win} {g h : ℕ → ℕ → K}

lemma OkIn.adr (hW : OkIn m W) {i j : ℕ} (hi : i < W.r) (hj : j < W.c) : m.ok (W.adr i j) = true :=
  hW _ (Win.Has_adr hi hj)

lemma OkIn.of_sub (hW : OkIn m W) {i j r' c' : ℕ} (hr : i + r' ≤ W.r) (hc : j + c' ≤ W.c) : OkIn m (W.sub i j r' c') :=
  fun a ha => hW a (Win.sub_Has hr hc ha)

lemma OkIn.step (hV : OkIn m V) (s : Step m m' W g) : OkIn m' V := fun a ha => by rw [s.ok]; exact hV a ha

lemma WF.step (hm : WF m) (s : Step m m' W g) : WF m' := fun a ha => by
  rw [s.ok]; exact hm a (le_trans s.next ha)

/-- a window disjoint from the one written keeps its contents -/
lemma Step.mat_of_disj (s : Step m m' W g) (hV : OkIn m V) (hd : V.Disj W) {i j : ℕ} (hi : i < V.r) (hj : j < V.c) :
    m'.mat V i j = m.mat V i j := s.frame _ (hV.adr hi hj) (hd _ (Win.Has_adr hi hj))

lemma Step.mat (s : Step m m' W g) {i j : ℕ} (hi : i < W.r) (hj : j < W.c) : m'.mat W i j = g i j := s.val i hi j hj

lemma Step.congr (s : Step m m' W g) (e : ∀ i < W.r, ∀ j < W.c, g i j = h i j) : Step m m' W h :=
  ⟨s.ok, s.next, fun i hi j hj => by rw [s.val i hi j hj, e i hi j hj], s.frame⟩

/-- doing nothing -/
lemma Step.refl (e : ∀ i < W.r, ∀ j < W.c, m.mat W i j = g i j) : Step m m W g := ⟨rfl, le_rfl, e, fun _ _ _ => rfl⟩

lemma Step.trans (s : Step m m' W g) (t : Step m' m'' W h) : Step m m'' W h :=
  ⟨t.ok.trans s.ok, s.next.trans t.next, t.val, fun a ha hn => by
    rw [t.frame a (by rw [s.ok]; exact ha) hn, s.frame a ha hn]⟩

/-- Writing a sub-window is writing the window. -/
lemma Step.sub {i0 j0 r' c' : ℕ} (hW : W.Inj) (hok : OkIn m W) (hr : i0 + r' ≤ W.r) (hc : j0 + c' ≤ W.c)
    (s : Step m m' (W.sub i0 j0 r' c') g) :
    Step m m' W (fun i j => if i0 ≤ i ∧ i < i0 + r' ∧ j0 ≤ j ∧ j < j0 + c' then g (i - i0) (j - j0) else m.mat W i j) := by
  refine ⟨s.ok, s.next, ?_, fun a ha hn => s.frame a ha (fun hh => hn (Win.sub_Has hr hc hh))⟩
  intro i hi j hj
  by_cases hin : i0 ≤ i ∧ i < i0 + r' ∧ j0 ≤ j ∧ j < j0 + c'
  · rw [if_pos hin]
    have := s.val (i - i0) (by simp only [Win.sub]; omega) (j - j0) (by simp only [Win.sub]; omega)
    rw [Win.sub_adr, Nat.add_sub_cancel' hin.1, Nat.add_sub_cancel' hin.2.2.1] at this
    exact this
  · rw [if_neg hin]
    refine s.frame _ (hok.adr hi hj) ?_
    rintro ⟨a, ha, b, hb, e⟩
    simp only [Win.sub] at ha hb
    rw [Win.sub_adr] at e
    obtain ⟨e1, e2⟩ := hW i hi j hj _ (by omega) _ (by omega) e
    exact hin (by omega)

lemma Mem.set_ok (m : Mem K) (i : ℕ) (v : K) : (m.set i v).ok = m.ok := rfl
lemma Mem.set_next (m : Mem K) (i : ℕ) (v : K) : (m.set i v).next = m.next := rfl
lemma Mem.set_val (m : Mem K) (i : ℕ) (v : K) : (m.set i v).val = Function.update m.val i v := rfl

end Step

/-- A loop whose `t`-th iteration stores `v t` in cell `adr t`, reading only cells that no other iteration writes. -/
lemma Run_store_loop {n : ℕ} {f : ℕ → Prog K Unit} {m : Mem K} (adr : ℕ → ℕ) (v : ℕ → K)
    (hok : ∀ t < n, m.ok (adr t) = true) (hinj : ∀ s < n, ∀ t < n, adr s = adr t → s = t)
    (hf : ∀ t < n, ∀ m' : Mem K, m'.ok = m.ok → (∀ a, (∀ s < t, a ≠ adr s) → m'.val a = m.val a) →
      Run (f t) m' (fun _ m'' => m'' = m'.set (adr t) (v t))) :
    Run (loop n f) m (fun _ m' => m'.ok = m.ok ∧ m'.next = m.next ∧ (∀ t < n, m'.val (adr t) = v t) ∧
      ∀ a, (∀ t < n, a ≠ adr t) → m'.val a = m.val a) := by
  refine Run_loop (fun k m' => m'.ok = m.ok ∧ m'.next = m.next ∧ (∀ t < k, m'.val (adr t) = v t) ∧
      ∀ a, (∀ t < k, a ≠ adr t) → m'.val a = m.val a) ⟨rfl, rfl, by simp, by simp⟩ ?_
  rintro k m' hk ⟨h1, h2, h3, h4⟩
  refine (hf k hk m' h1 h4).mono ?_
  rintro _ _ rfl
  refine ⟨by rw [Mem.set_ok, h1], by rw [Mem.set_next, h2], ?_, ?_⟩
  · intro t ht
    rw [Mem.set_val]
    by_cases e : t = k
    · subst e; rw [Function.update_self]
    · rw [Function.update_of_ne (fun hh => e (hinj t (by omega) k hk hh))]
      exact h3 t (by omega)
  · intro a ha
    rw [Mem.set_val, Function.update_of_ne (ha k (by omega))]
    exact h4 a (fun t ht => ha t (by omega))

/-- Vector kernel: the `i`-th iteration stores `g i` in entry `i` of the vector `(Y, inc)`. -/
lemma Run_vec {n Y inc : ℕ} {f : ℕ → Prog K Unit} {m : Mem K} (g : ℕ → K)
    (hok : OkIn m ⟨Y, inc, n, 1⟩) (hinj : (Win.mk Y inc n 1).Inj)
    (hf : ∀ t < n, ∀ m' : Mem K, m'.ok = m.ok → (∀ a, (∀ s < n, s ≠ t → a ≠ Y + s * inc) → m'.val a = m.val a) →
      Run (f t) m' (fun _ m'' => m'' = m'.set (Y + t * inc) (g t))) :
    Run (loop n f) m (fun _ m' => Step m m' ⟨Y, inc, n, 1⟩ (fun i _ => g i)) := by
  refine (Run_store_loop (n := n) (fun t => Y + t * inc) g (fun t ht => hok _ ⟨t, ht, 0, Nat.one_pos, rfl⟩) ?_ ?_).mono ?_
  · intro s hs t ht e
    exact (hinj s hs 0 Nat.one_pos t ht 0 Nat.one_pos (by simpa [Win.adr] using e)).1
  · intro t ht m' h1 h2
    refine hf t ht m' h1 (fun a ha => h2 a (fun s hs => ha s (by omega) (by omega)))
  · rintro _ m' ⟨h1, h2, h3, h4⟩
    refine ⟨h1, h2.ge, ?_, ?_⟩
    · intro i hi j hj
      obtain rfl : j = 0 := by simpa using hj
      simpa [Win.adr] using h3 i hi
    · intro a _ hn
      exact h4 a (fun t ht e => hn ⟨t, ht, 0, Nat.one_pos, by simpa [Win.adr] using e⟩)

/-- Row by row kernel. -/
lemma Run_rows {W : Win} {f : ℕ → Prog K Unit} {m : Mem K} (g : ℕ → ℕ → K) (hok : OkIn m W) (hinj : W.Inj)
    (hf : ∀ i < W.r, ∀ m' : Mem K, m'.ok = m.ok → m.next ≤ m'.next →
      (∀ a, m.ok a = true → (∀ i' < W.r, i' ≠ i → ∀ j < W.c, a ≠ W.adr i' j) → m'.val a = m.val a) →
      Run (f i) m' (fun _ m'' => Step m' m'' (W.row i) (fun j _ => g i j))) :
    Run (loop W.r f) m (fun _ m' => Step m m' W g) := by
  refine (Run_loop (fun k m' => m'.ok = m.ok ∧ m.next ≤ m'.next ∧ (∀ i < k, ∀ j < W.c, m'.val (W.adr i j) = g i j) ∧
      ∀ a, m.ok a = true → (∀ i < k, ∀ j < W.c, a ≠ W.adr i j) → m'.val a = m.val a) ⟨rfl, le_rfl, by simp, by simp⟩ ?_).mono ?_
  · rintro k m' hk ⟨h1, h2, h3, h4⟩
    refine (hf k hk m' h1 h2 (fun a ha hn => h4 a ha (fun i hi => hn i (by omega) (by omega)))).mono ?_
    rintro _ m'' s
    have hrow : ∀ a, (W.row k).Has a ↔ ∃ j < W.c, a = W.adr k j := by
      intro a
      constructor
      · rintro ⟨j, hj, z, hz, rfl⟩
        simp only [Win.row] at hj hz
        exact ⟨j, hj, by simp only [Win.row, Win.adr]; omega⟩
      · rintro ⟨j, hj, rfl⟩
        exact ⟨j, hj, 0, Nat.one_pos, by simp only [Win.row, Win.adr]; omega⟩
    refine ⟨s.ok.trans h1, h2.trans s.next, ?_, ?_⟩
    · intro i hi j hj
      by_cases e : i = k
      · subst e
        have := s.val j hj 0 Nat.one_pos
        simpa only [Win.row, Win.adr, Nat.mul_one, Nat.add_zero] using this
      · rw [s.frame _ (by rw [h1]; exact hok.adr (by omega) hj)]
        · exact h3 i (by omega) j hj
        · rw [hrow]
          rintro ⟨j', hj', e'⟩
          exact e (hinj i (by omega) j hj k hk j' hj' e').1
    · intro a ha hn
      rw [s.frame a (by rw [h1]; exact ha)]
      · exact h4 a ha (fun i hi => hn i (by omega))
      · rw [hrow]
        rintro ⟨j', hj', e'⟩
        exact hn k (by omega) j' hj' e'
  · rintro _ m' ⟨h1, h2, h3, h4⟩
    exact ⟨h1, h2, h3, fun a ha hn => h4 a ha (fun i hi j hj e => hn ⟨i, hi, j, hj, e⟩)⟩

lemma flat_Has (p r c a : ℕ) : (Win.mk p 1 (r * c) 1).Has a ↔ (Win.mk p c r c).Has a := by
  constructor
  · rintro ⟨t, ht, z, hz, rfl⟩
    have hz : z = 0 := by simpa using hz
    subst hz
    have ht : t < r * c := ht
    rcases Nat.eq_zero_or_pos c with rfl | hc
    · simp at ht
    · refine ⟨t / c, (Nat.div_lt_iff_lt_mul hc).2 ht, t % c, Nat.mod_lt _ hc, ?_⟩
      simp only [Win.adr]
      have := Nat.div_add_mod t c
      rw [Nat.mul_comm] at this
      omega
  · rintro ⟨i, hi, j, hj, rfl⟩
    have hi : i < r := hi
    have hj : j < c := hj
    refine ⟨i * c + j, ?_, 0, Nat.one_pos, by simp only [Win.adr]; omega⟩
    calc i * c + j < i * c + c := by omega
      _ = (i + 1) * c := by ring
      _ ≤ r * c := Nat.mul_le_mul_right _ hi

/-- A contiguous matrix is a vector. -/
lemma Step.of_flat {m m' : Mem K} {p r c : ℕ} {v : ℕ → K} {g : ℕ → ℕ → K}
    (s : Step m m' ⟨p, 1, r * c, 1⟩ (fun t _ => v t)) (hg : ∀ i < r, ∀ j < c, v (i * c + j) = g i j) :
    Step m m' ⟨p, c, r, c⟩ g := by
  refine ⟨s.ok, s.next, ?_, fun a ha hn => s.frame a ha (fun hh => hn ((flat_Has ..).1 hh))⟩
  intro i hi j hj
  have hi : i < r := hi
  have hj : j < c := hj
  have ht : i * c + j < r * c := by
    calc i * c + j < i * c + c := by omega
      _ = (i + 1) * c := by ring
      _ ≤ r * c := Nat.mul_le_mul_right _ hi
  have := s.val (i * c + j) ht 0 Nat.one_pos
  rw [hg i hi j hj] at this
  rw [← this]
  congr 1
  simp only [Win.adr]; omega

/-! ## Temporaries -/

@[simp] lemma Run_alloc (n : ℕ) (m : Mem K) (Q : ℕ → Mem K → Prop) :
    Run (alloc n) m Q ↔ Q m.next { m with ok := fun i => m.ok i || (decide (m.next ≤ i) && decide (i < m.next + n))
                                          next := m.next + n } := by
  unfold Run alloc
  simp

@[simp] lemma Run_free (p n : ℕ) (m : Mem K) (Q : Unit → Mem K → Prop) :
    Run (free p n) m Q ↔ Q () { m with ok := fun i => m.ok i && !(decide (p ≤ i) && decide (i < p + n)) } := by
  unfold Run free
  constructor
  · rintro ⟨_, _, h, hq⟩
    injection h with h; injection h with _ h
    rw [← h] at hq; exact hq
  · intro h; exact ⟨(), _, rfl, h⟩

/-- memory after `fflas_new` of `n` cells -/
def Mem.grow (m : Mem K) (n : ℕ) : Mem K :=
  { m with ok := fun i => m.ok i || (decide (m.next ≤ i) && decide (i < m.next + n)), next := m.next + n }

/-- memory after `fflas_delete` -/
def Mem.drop (m : Mem K) (p n : ℕ) : Mem K :=
  { m with ok := fun i => m.ok i && !(decide (p ≤ i) && decide (i < p + n)) }

lemma WF.grow {m : Mem K} (h : WF m) (n : ℕ) : WF (m.grow n) := by
  intro a ha
  simp only [Mem.grow] at ha ⊢
  rw [h a (by omega), Bool.false_or, Bool.and_eq_false_iff]
  right; simp; omega

/-- the freshly allocated block as a window of `r` rows of `c` -/
lemma OkIn.grow_new (m : Mem K) (r c : ℕ) : OkIn (m.grow (r * c)) ⟨m.next, c, r, c⟩ := by
  rintro a ⟨i, hi, j, hj, rfl⟩
  have hi : i < r := hi
  have hj : j < c := hj
  have ht : i * c + j < r * c := by
    calc i * c + j < i * c + c := by omega
      _ = (i + 1) * c := by ring
      _ ≤ r * c := Nat.mul_le_mul_right _ hi
  simp only [Mem.grow, Win.adr, Bool.or_eq_true, Bool.and_eq_true, decide_eq_true_eq]
  right; omega

lemma OkIn.grow {m : Mem K} {W : Win} (h : OkIn m W) (n : ℕ) : OkIn (m.grow n) W := fun a ha => by
  simp [Mem.grow, h a ha]

/-- existing windows do not meet a fresh block -/
lemma Disj_new {m : Mem K} (hm : WF m) {W : Win} (h : OkIn m W) {r c : ℕ} : W.Disj ⟨m.next, c, r, c⟩ := by
  rintro a ha ⟨i, hi, j, hj, rfl⟩
  have h1 := h _ ha
  rw [hm _ (by simp only [Win.adr]; omega)] at h1
  exact absurd h1 (by simp)

/-- If between `fflas_new` and `fflas_delete` the code writes window `W` (and the temporary), the whole block writes
`W`. -/
lemma Step.of_temp {m m1 : Mem K} {n : ℕ} {W : Win} {g : ℕ → ℕ → K} (hm : WF m)
    (hok : m1.ok = (m.grow n).ok) (hnext : (m.grow n).next ≤ m1.next)
    (hval : ∀ i < W.r, ∀ j < W.c, m1.val (W.adr i j) = g i j)
    (hframe : ∀ a, m.ok a = true → ¬ W.Has a → m1.val a = m.val a) :
    Step m (m1.drop m.next n) W g := by
  refine ⟨?_, ?_, hval, hframe⟩
  · funext a
    simp only [Mem.drop, hok, Mem.grow]
    by_cases h : m.next ≤ a
    · rw [hm a h]; simp
    · simp [h]
  · simp only [Mem.drop]
    simp only [Mem.grow] at hnext
    omega

/-- A temporary block is filled, then `W` is written, then the block is freed. -/
lemma Step.temp {m m1 m2 : Mem K} {r c : ℕ} {W : Win} {t g : ℕ → ℕ → K} (hm : WF m)
    (s1 : Step (m.grow (r * c)) m1 ⟨m.next, c, r, c⟩ t) (s2 : Step m1 m2 W g) : Step m (m2.drop m.next (r * c)) W g := by
  refine Step.of_temp hm (s2.ok.trans s1.ok) (le_trans s1.next s2.next) s2.val (fun a ha hW => ?_)
  have hg : (m.grow (r * c)).ok a = true := by simp [Mem.grow, ha]
  rw [s2.frame a (by rw [s1.ok]; exact hg) hW]
  refine s1.frame a hg ?_
  rintro ⟨i, hi, j, hj, rfl⟩
  rw [hm _ (by simp only [Win.adr]; omega)] at ha
  exact absurd ha (by simp)

end Verif
