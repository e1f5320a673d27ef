import Verif.Proofs.ApplyP

/-!
# Cyclic shifts and block permutations of a matrix
-/

namespace Verif.FF

open Finset

variable {K : Type}

/-- A matrix `W` and a temporary `T` side by side. -/
structure On2 (m0 m : Mem K) (W : Win) (V : ℕ → ℕ → K) (T : Win) (U : ℕ → ℕ → K) : Prop where
  wf : WF m0
  okW : OkIn m0 W
  okT : OkIn m0 T
  ldW : W.c ≤ W.ld
  ldT : T.c ≤ T.ld
  disj : W.Disj T
  ok : m.ok = m0.ok
  next : m0.next ≤ m.next
  valW : ∀ i < W.r, ∀ j < W.c, m.val (W.adr i j) = V i j
  valT : ∀ i < T.r, ∀ j < T.c, m.val (T.adr i j) = U i j
  frame : ∀ a, m0.ok a = true → ¬ W.Has a → ¬ T.Has a → m.val a = m0.val a

namespace On2
variable {m0 m m' : Mem K} {W T : Win} {V V' U U' : ℕ → ℕ → K}

lemma left (h : On2 m0 m W V T U) : On m m W V :=
  ⟨fun a ha => by rw [h.ok]; exact h.wf a (le_trans h.next ha), fun a ha => by rw [h.ok]; exact h.okW a ha, h.ldW,
    Step.refl h.valW⟩

lemma right (h : On2 m0 m W V T U) : On m m T U :=
  ⟨fun a ha => by rw [h.ok]; exact h.wf a (le_trans h.next ha), fun a ha => by rw [h.ok]; exact h.okT a ha, h.ldT,
    Step.refl h.valT⟩

lemma ofW (h : On2 m0 m W V T U) (s : On m m' W V') : On2 m0 m' W V' T U := by
  refine ⟨h.wf, h.okW, h.okT, h.ldW, h.ldT, h.disj, s.step.ok.trans h.ok, h.next.trans s.step.next, s.step.val, ?_, ?_⟩
  · intro i hi j hj
    rw [s.step.frame _ (by rw [h.ok]; exact h.okT.adr hi hj) (fun hw => h.disj _ hw (Win.Has_adr hi hj)), h.valT i hi j hj]
  · intro a ha hw ht
    rw [s.step.frame a (by rw [h.ok]; exact ha) hw, h.frame a ha hw ht]

lemma ofT (h : On2 m0 m W V T U) (s : On m m' T U') : On2 m0 m' W V T U' := by
  refine ⟨h.wf, h.okW, h.okT, h.ldW, h.ldT, h.disj, s.step.ok.trans h.ok, h.next.trans s.step.next, ?_, s.step.val, ?_⟩
  · intro i hi j hj
    rw [s.step.frame _ (by rw [h.ok]; exact h.okW.adr hi hj) (h.disj _ (Win.Has_adr hi hj)), h.valW i hi j hj]
  · intro a ha hw ht
    rw [s.step.frame a (by rw [h.ok]; exact ha) ht, h.frame a ha hw ht]

/-- after `fflas_new` -/
lemma start {r c : ℕ} (h : On m0 m W V) :
    ∃ U, On2 (m.grow (r * c)) (m.grow (r * c)) W V ⟨m.next, c, r, c⟩ U :=
  ⟨fun i j => (m.grow (r * c)).val ((Win.mk m.next c r c).adr i j), h.wf'.grow _, h.ok'.grow _, OkIn.grow_new m r c, h.ld, le_rfl,
    Disj_new h.wf' h.ok', rfl, le_rfl, fun _ hi _ hj => h.val hi hj, fun _ _ _ _ => rfl, fun _ _ _ _ => rfl⟩

/-- after `fflas_delete` -/
lemma stop {r c : ℕ} (h : On m0 m W V) (h2 : On2 (m.grow (r * c)) m' W V' ⟨m.next, c, r, c⟩ U) :
    On m0 (m'.drop m.next (r * c)) W V' := by
  refine h.trans ⟨h.wf', h.ok', h.ld, Step.of_temp h.wf' h2.ok h2.next h2.valW (fun a ha hw => ?_)⟩
  refine h2.frame a (by simp [Mem.grow, ha]) hw ?_
  rintro ⟨i, hi, j, hj, rfl⟩
  rw [h.wf' _ (by simp only [Win.adr]; omega)] at ha
  exact absurd ha (by simp)

end On2

section
variable {m0 m m' : Mem K} {W : Win} {V : ℕ → ℕ → K} {i j n : ℕ}

/-- a kernel has rewritten a row segment -/
lemma On.rowStep {g : ℕ → K} (h : On m0 m W V) (hi : i < W.r) (hj : j + n ≤ W.c)
    (s : Step m m' (vw (W.adr i j) 1 n) (fun t _ => g t)) : On m0 m' W (FF.upd i j 1 n (fun _ t => g t) V) := by
  refine h.upd (by omega) hj ⟨s.ok, s.next, ?_, ?_⟩
  · intro i' hi' j' hj'
    obtain rfl : i' = 0 := by simpa [Win.sub] using hi'
    have hj' : j' < n := hj'
    have := s.val j' hj' 0 Nat.one_pos
    simp only [Win.adr_mk, Nat.mul_one, Nat.add_zero, Win.adr_add_col] at this
    rw [Win.sub_adr, Nat.add_zero]; exact this
  · intro a ha hn
    refine s.frame a ha (fun hh => hn ?_)
    obtain ⟨t, ht, rfl⟩ := vw_row_Has.1 hh
    exact ⟨0, Nat.one_pos, t, ht, by rw [Win.sub_adr, Nat.add_zero]⟩

/-- a kernel has rewritten a column segment -/
lemma On.colStep {g : ℕ → K} (h : On m0 m W V) (hi : i + n ≤ W.r) (hj : j < W.c)
    (s : Step m m' (vw (W.adr i j) W.ld n) (fun t _ => g t)) : On m0 m' W (FF.upd i j n 1 (fun t _ => g t) V) :=
  h.upd hi (by omega) s

/-- one cell has been written -/
lemma On.set {x : K} (h : On m0 m W V) (hi : i < W.r) (hj : j < W.c) :
    On m0 (m.set (W.adr i j) x) W (FF.upd i j 1 1 (fun _ _ => x) V) := by
  refine h.upd (by omega) (by omega) ⟨rfl, le_rfl, ?_, ?_⟩
  · intro i' hi' j' hj'
    obtain rfl : i' = 0 := by simpa [Win.sub] using hi'
    obtain rfl : j' = 0 := by simpa [Win.sub] using hj'
    rw [Win.sub_adr, Mem.set_val, Nat.add_zero, Nat.add_zero, Function.update_self]
  · intro a _ hn
    rw [Mem.set_val, Function.update_of_ne]
    rintro rfl
    exact hn ⟨0, Nat.one_pos, 0, Nat.one_pos, by rw [Win.sub_adr, Nat.add_zero, Nat.add_zero]⟩

lemma On.okc (h : On m0 m W V) (hi : i < W.r) (hj : j < W.c) : m.ok (W.adr i j) = true := h.ok'.adr hi hj

end

section
variable [CommRing K] [DecidableEq K]

omit [CommRing K] [DecidableEq K] in
/-- forward copy between vectors that may overlap with the source ahead of the destination -/
lemma vassign_fwd {m : Mem K} {n X incX Y incY : ℕ} (hX : OkIn m (vw X incX n)) (hY : OkIn m (vw Y incY n))
    (hf : ∀ t < n, ∀ s < n, X + t * incX = Y + s * incY → t ≤ s) (hi : 0 < incY) :
    Run (vassign n X incX Y incY) m (fun _ m' => Step m m' (vw Y incY n) (fun i _ => m.val (X + i * incX))) := by
  have key : ∀ (incX incY : ℕ), 0 < incY → OkIn m (vw X incX n) → OkIn m (vw Y incY n) →
      (∀ t < n, ∀ s < n, X + t * incX = Y + s * incY → t ≤ s) →
      Run (loop n fun i => do let x ← load (X + i * incX); store (Y + i * incY) x) m
        (fun _ m' => Step m m' (vw Y incY n) (fun i _ => m.val (X + i * incX))) := by
    intro incX incY hi hX hY hf
    refine (Run_store_loop (n := n) (fun t => Y + t * incY) (fun t => m.val (X + t * incX)) (fun t ht => OkIn_vw hY ht) ?_ ?_).mono ?_
    · intro s hs t ht e
      exact (vw_Inj (X := Y) (n := n) hi s hs 0 Nat.one_pos t ht 0 Nat.one_pos e).1
    · intro t ht m' h1 h2
      have e2 : m'.val (X + t * incX) = m.val (X + t * incX) := h2 _ (fun s hs e => by
        have := hf t ht s (by omega) e; omega)
      simp only [Run_bind, Run_load, Run_store, h1, e2, OkIn_vw hY ht, OkIn_vw hX ht, true_and]
    · rintro _ m' ⟨h1, h2, h3, h4⟩
      refine ⟨h1, h2.ge, ?_, ?_⟩
      · intro i hi j hj
        obtain rfl : j = 0 := by simpa using hj
        exact h3 i hi
      · intro a _ hn
        exact h4 a (fun t ht e => hn ⟨t, ht, 0, Nat.one_pos, e⟩)
  unfold vassign
  rif h
  · obtain ⟨rfl, rfl⟩ := h
    simpa only [Nat.mul_one] using key 1 1 hi hX hY hf
  · rw [cnt_pos hi]
    exact key incX incY hi hX hY hf

variable {m0 m : Mem K} {W : Win} {V : ℕ → ℕ → K}

omit [CommRing K] [DecidableEq K] in
/-- `fassign` of a vector of another window to a row segment -/
lemma assignRow_on (h : On m0 m W V) {i j n X incX : ℕ} (hi : i < W.r) (hj : j + n ≤ W.c) (hX : OkIn m (vw X incX n))
    (hd : ∀ t < n, ¬ W.Has (X + t * incX)) :
    Run (vassign n X incX (W.adr i j) 1) m
      (fun _ m' => On m0 m' W (upd i j 1 n (fun _ t => m.val (X + t * incX)) V)) := by
  refine (vassign_fwd hX (h.vw_row hi hj) ?_ Nat.one_pos).mono (fun _ m' s => h.rowStep hi hj s)
  intro t ht s hs e
  exfalso
  refine hd t ht ?_
  rw [e, Nat.mul_one, Win.adr_add_col]
  exact Win.Has_adr hi (by omega)

omit [CommRing K] [DecidableEq K] in
/-- `fassign` between row segments of one window: different rows, or forward in the same row -/
lemma moveRow_on (h : On m0 m W V) {i j i' j' n : ℕ} (hi : i < W.r) (hj : j + n ≤ W.c) (hi' : i' < W.r) (hj' : j' + n ≤ W.c)
    (hs : i ≠ i' ∨ j ≤ j') :
    Run (vassign n (W.adr i' j') 1 (W.adr i j) 1) m
      (fun _ m' => On m0 m' W (upd i j 1 n (fun _ t => V i' (j' + t)) V)) := by
  refine (vassign_fwd (h.vw_row hi' hj') (h.vw_row hi hj) ?_ Nat.one_pos).mono (fun _ m' s => ?_)
  · intro t ht s hs' e
    rw [Nat.mul_one, Nat.mul_one, Win.adr_add_col, Win.adr_add_col] at e
    have := h.inj _ hi' _ (by omega) _ hi _ (by omega) e
    omega
  · refine h.rowStep hi hj (s.congr (fun t ht _ _ => ?_))
    have ht : t < n := ht
    rw [Nat.mul_one, Win.adr_add_col]
    exact h.val hi' (by omega)

omit [CommRing K] [DecidableEq K] in
/-- `fassign` of a block of rows to rows above it in the same columns -/
lemma fassign_up_on (h : On m0 m W V) {a b j0 r c : ℕ} (hba : b ≤ a) (ha : a + r ≤ W.r) (hc : j0 + c ≤ W.c) :
    Run (fassign r c (W.adr a j0) W.ld (W.adr b j0) W.ld) m
      (fun _ m' => On m0 m' W (upd b j0 r c (fun i j => V (a + i) (j0 + j)) V)) := by
  have hld := h.ld
  unfold fassign
  rif h0
  · rw [Run_pure]
    refine h.congr (fun i hi j hj => ?_)
    rw [upd_out (by omega)]
  rif h1
  · obtain ⟨h1, _⟩ := h1
    obtain rfl : j0 = 0 := by omega
    have hX : OkIn m (vw (W.adr a 0) 1 (r * c)) := by
      intro x hx
      rw [flat_Has] at hx
      obtain ⟨i, hi, j, hj, rfl⟩ := hx
      have hi : i < r := hi
      have hj : j < c := hj
      have : (Win.mk (W.adr a 0) c r c).adr i j = W.adr (a + i) j := by simp only [Win.adr, h1]; ring
      rw [this]
      exact h.okc (by omega) (by omega)
    have hY : OkIn m (vw (W.adr b 0) 1 (r * c)) := by
      intro x hx
      rw [flat_Has] at hx
      obtain ⟨i, hi, j, hj, rfl⟩ := hx
      have hi : i < r := hi
      have hj : j < c := hj
      have : (Win.mk (W.adr b 0) c r c).adr i j = W.adr (b + i) j := by simp only [Win.adr, h1]; ring
      rw [this]
      exact h.okc (by omega) (by omega)
    have hle : W.adr b 0 ≤ W.adr a 0 := by
      simp only [Win.adr]
      have := Nat.mul_le_mul_right W.ld hba
      omega
    refine (vassign_fwd hX hY (fun t ht s hs e => by omega) Nat.one_pos).mono (fun _ m' s => ?_)
    have s' : Step m m' ⟨W.adr b 0, c, r, c⟩ (fun i j => V (a + i) j) := by
      refine s.of_flat (fun i hi j hj => ?_)
      rw [Nat.mul_one, ← h.val (i := a + i) (j := j) (by omega) (by omega)]
      congr 1
      simp only [Win.adr, h1]; ring
    have e : (Win.mk (W.adr b 0) c r c) = W.sub b 0 r c := by simp only [Win.sub, h1]
    rw [e] at s'
    refine (h.upd (by omega) (by omega) s').congr (fun i hi j hj => ?_)
    simp only [upd, Nat.zero_add]
  · refine (Run_loop (fun k m' => On m0 m' W (upd b j0 k c (fun i j => V (a + i) (j0 + j)) V)) ?_ ?_)
    · refine h.congr (fun i hi j hj => ?_)
      rw [upd_out (by omega)]
    · intro k m' hk h'
      rw [Win.adr_add_row, Win.adr_add_row]
      refine (moveRow_on h' (i := b + k) (j := j0) (i' := a + k) (j' := j0) (by omega) hc (by omega) hc (Or.inr le_rfl)).mono
        (fun _ m'' h'' => h''.congr (fun i hi j hj => ?_))
      by_cases e : i = b + k ∧ j0 ≤ j ∧ j < j0 + c
      · rw [upd_in' (by omega), upd_out (by omega), upd_in' (by omega)]
        congr 1 <;> omega
      · rw [upd_out (by omega)]
        by_cases e' : b ≤ i ∧ i < b + k ∧ j0 ≤ j ∧ j < j0 + c
        · rw [upd_in' (by omega), upd_in' (by omega)]
        · rw [upd_out (by omega), upd_out (by omega)]

end

/-- the cyclic shift of the first `s` entries: the last one comes first -/
def rot (s i : ℕ) : ℕ := if i = 0 then s - 1 else if i < s then i - 1 else i

section
variable [CommRing K] [DecidableEq K]
variable {m0 m : Mem K} {W : Win} {V : ℕ → ℕ → K} {i0 j0 r c : ℕ}

omit [CommRing K] [DecidableEq K] in
lemma cyclicShiftRow_on (h : On m0 m W V) (hr : i0 + r ≤ W.r) (hc : j0 + c ≤ W.c) :
    Run (cyclicShiftRow (W.adr i0 j0) r c W.ld) m (fun _ m' => On m0 m' W (permRows i0 j0 r c (rot r) V)) := by
  unfold cyclicShiftRow
  rif h1
  · obtain ⟨U, h2⟩ := On2.start (r := 1) (c := c) h
    simp only [Run_bind, Run_alloc]
    rw [← Nat.one_mul c]
    change Run _ (m.grow (1 * c)) _
    rw [Nat.one_mul c] at h2 ⊢
    generalize hmm : m.next = tp at *
    -- copy of the last row
    have L1 : Run (loop c fun i => do
        let x ← load (W.adr i0 j0 + (r - 1) * W.ld + i)
        store (tp + i) x) (m.grow c) (fun _ m' => On2 (m.grow c) m' W V ⟨tp, c, 1, c⟩ (fun _ j => V (i0 + (r - 1)) (j0 + j))) := by
      refine (Run_loop (fun k m' => On2 (m.grow c) m' W V ⟨tp, c, 1, c⟩
        (upd 0 0 1 k (fun _ j => V (i0 + (r - 1)) (j0 + j)) U)) ?_ ?_).mono ?_
      · exact h2.ofT (h2.right.congr (fun i hi j hj => by rw [upd_out (by omega)]))
      · intro k m' hk h'
        have e1 : W.adr i0 j0 + (r - 1) * W.ld + k = W.adr (i0 + (r - 1)) (j0 + k) := by rw [Win.adr_add_row, Win.adr_add_col]
        have e2 : tp + k = (Win.mk tp c 1 c).adr 0 k := by simp
        simp only [Run_bind, Run_load, Run_store, e1, e2]
        refine ⟨h'.left.okc (by omega) (by omega), h'.right.okc (W := ⟨tp, c, 1, c⟩) Nat.one_pos hk, ?_⟩
        rw [h'.left.val (by omega) (by omega)]
        refine h'.ofT ((h'.right.set (W := ⟨tp, c, 1, c⟩) Nat.one_pos hk).congr (fun i hi j hj => ?_))
        have hi : i < 1 := hi
        have hj : j < c := hj
        by_cases e : j = k
        · rw [upd_in' (by omega), upd_in' (by omega), Nat.sub_zero, e]
        · rw [upd_out (by omega)]
          by_cases e' : j < k
          · rw [upd_in' (by omega), upd_in' (by omega)]
          · rw [upd_out (by omega), upd_out (by omega)]
      · intro _ m' h'
        refine h'.ofT (h'.right.congr (fun i hi j hj => ?_))
        have hi : i < 1 := hi
        have hj : j < c := hj
        rw [upd_in' (by omega), Nat.sub_zero]
    refine L1.mono (fun _ m1 h3 => ?_)
    -- the rows move down
    have L2 : Run (loop (r - 1) fun t => vassign c (W.adr i0 j0 + (r - 1 - t) * W.ld - W.ld) 1 (W.adr i0 j0 + (r - 1 - t) * W.ld) 1) m1
        (fun _ m' => On m1 m' W (upd (i0 + 1) j0 (r - 1) c (fun i j => V (i0 + i) (j0 + j)) V)) := by
      refine (Run_loop (fun k m' => On m1 m' W (upd (i0 + (r - k)) j0 k c (fun i j => V (i0 + (r - k - 1) + i) (j0 + j)) V)) ?_ ?_).mono ?_
      · exact h3.left.congr (fun i hi j hj => by rw [upd_out (by omega)])
      · intro k m' hk h'
        have e1 : W.adr i0 j0 + (r - 1 - k) * W.ld = W.adr (i0 + (r - 1 - k)) j0 := by rw [Win.adr_add_row]
        have e2 : W.adr i0 j0 + (r - 1 - k) * W.ld - W.ld = W.adr (i0 + (r - 1 - k - 1)) j0 := by
          rw [show r - 1 - k = (r - 1 - k - 1) + 1 by omega, Nat.succ_mul, ← Nat.add_assoc, Nat.add_sub_cancel, Win.adr_add_row]
          rw [show r - 1 - k - 1 + 1 - 1 = r - 1 - k - 1 by omega]
        rw [e2, e1]
        refine (moveRow_on h' (i := i0 + (r - 1 - k)) (j := j0) (i' := i0 + (r - 1 - k - 1)) (j' := j0) (by omega) hc (by omega) hc
          (Or.inr le_rfl)).mono (fun _ m'' h'' => h''.congr (fun i hi j hj => ?_))
        by_cases e : i = i0 + (r - 1 - k) ∧ j0 ≤ j ∧ j < j0 + c
        · rw [upd_in' (by omega), upd_out (by omega), upd_in' (by omega)]
          congr 1; omega
        · rw [upd_out (by omega)]
          by_cases e' : i0 + (r - k) ≤ i ∧ i < i0 + (r - k) + k ∧ j0 ≤ j ∧ j < j0 + c
          · rw [upd_in' (by omega), upd_in' (by omega)]
            congr 1; omega
          · rw [upd_out (by omega), upd_out (by omega)]
      · intro _ m' h'
        refine h'.congr (fun i hi j hj => ?_)
        rw [show r - (r - 1) = 1 by omega]
        simp only [Nat.sub_self, Nat.add_zero]
    refine L2.mono (fun _ m2 h4 => ?_)
    have h5 := h3.ofW h4
    have L3 : Run (loop c fun i => do
        let x ← load (tp + i)
        store (W.adr i0 j0 + i) x) m2 (fun _ m' => On m2 m' W (permRows i0 j0 r c (rot r) V)) := by
      have hv : ∀ k < c, m2.ok (tp + k) = true ∧ m2.val (tp + k) = V (i0 + (r - 1)) (j0 + k) := by
        intro k hk
        have e2 : tp + k = (Win.mk tp c 1 c).adr 0 k := by simp
        rw [e2]
        exact ⟨h5.right.okc (W := ⟨tp, c, 1, c⟩) Nat.one_pos hk, h5.valT 0 Nat.one_pos k hk⟩
      refine (Run_loop (fun k m' => On m2 m' W (upd i0 j0 1 k (fun _ j => V (i0 + (r - 1)) (j0 + j))
        (upd (i0 + 1) j0 (r - 1) c (fun i j => V (i0 + i) (j0 + j)) V))) ?_ ?_).mono ?_
      · exact h5.left.congr (fun i hi j hj => by rw [upd_out (r := 1) (by omega)])
      · intro k m' hk h'
        obtain ⟨hv1, hv2⟩ := hv k hk
        have hn : ¬ W.Has (tp + k) := fun hw => h5.disj _ hw ⟨0, Nat.one_pos, k, hk, by simp⟩
        have hv3 : m'.val (tp + k) = V (i0 + (r - 1)) (j0 + k) := by rw [h'.step.frame _ hv1 hn, hv2]
        simp only [Run_bind, Run_load, Run_store, hv3]
        refine ⟨by rw [h'.step.ok]; exact hv1, ?_, ?_⟩
        · rw [Win.adr_add_col]; exact h'.okc (by omega) (by omega)
        · rw [Win.adr_add_col]
          refine (h'.set (by omega) (by omega)).congr (fun i hi j hj => ?_)
          by_cases e : i = i0 ∧ j = j0 + k
          · rw [upd_in' (by omega), upd_in' (by omega)]; congr 1; omega
          · rw [upd_out (by omega)]
            by_cases e' : i = i0 ∧ j0 ≤ j ∧ j < j0 + k
            · rw [upd_in' (by omega), upd_in' (by omega)]
            · rw [upd_out (by omega), upd_out (r := 1) (by omega)]
      · intro _ m' h'
        refine h'.congr (fun i hi j hj => ?_)
        simp only [permRows]
        by_cases e : i = i0 ∧ j0 ≤ j ∧ j < j0 + c
        · rw [upd_in' (by omega), upd_in' (by omega), rot, if_pos (by omega)]
        · rw [upd_out (by omega)]
          by_cases e' : i0 + 1 ≤ i ∧ i < i0 + r ∧ j0 ≤ j ∧ j < j0 + c
          · rw [upd_in' (by omega), upd_in' (by omega), rot, if_neg (by omega), if_pos (by omega)]
            congr 1
          · rw [upd_out (by omega), upd_out (by omega)]
    refine L3.mono (fun _ m3 h6 => ?_)
    rw [Run_free]
    have h7 := h5.ofW h6
    have := On2.stop (r := 1) (c := c) h (by rw [Nat.one_mul, hmm]; exact h7)
    rw [Nat.one_mul, hmm] at this
    exact this
  · rw [Run_pure]
    refine h.congr (fun i hi j hj => ?_)
    simp only [permRows]
    by_cases hin : i0 ≤ i ∧ i < i0 + r ∧ j0 ≤ j ∧ j < j0 + c
    · rw [upd_in' hin, rot]
      rw [if_pos (by omega)]; congr 1 <;> omega
    · rw [upd_out (by omega)]

omit [CommRing K] [DecidableEq K] in
lemma cyclicShiftCol_on (h : On m0 m W V) (hr : i0 + r ≤ W.r) (hc : j0 + c ≤ W.c) :
    Run (cyclicShiftCol (W.adr i0 j0) r c W.ld) m (fun _ m' => On m0 m' W (permCols i0 j0 r c (rot c) V)) := by
  unfold cyclicShiftCol
  rif h1
  · refine (Run_loop (fun k m' => On m0 m' W (permCols i0 j0 k c (rot c) V)) ?_ ?_)
    · rw [permCols_empty]; exact h
    · intro k m' hk h'
      simp only [Run_bind, Run_load]
      simp only [Win.adr_add_row]
      simp only [Win.adr_add_col]
      refine ⟨h'.okc (by omega) (by omega), ?_⟩
      rw [h'.val (by omega) (by omega)]
      have ev : permCols i0 j0 k c (rot c) V (i0 + k) (j0 + (c - 1)) = V (i0 + k) (j0 + (c - 1)) := by
        simp only [permCols]; rw [upd_out (by omega)]
      rw [ev]
      have L : Run (copyBackward1 (W.adr (i0 + k) j0) (c - 1)) m' (fun _ m'' => On m0 m'' W
          (upd (i0 + k) (j0 + 1) 1 (c - 1) (fun _ j => V (i0 + k) (j0 + j)) (permCols i0 j0 k c (rot c) V))) := by
        unfold copyBackward1
        refine (Run_loop (fun t m'' => On m0 m'' W (upd (i0 + k) (j0 + (c - t)) 1 t (fun _ j => V (i0 + k) (j0 + (c - t - 1) + j))
          (permCols i0 j0 k c (rot c) V))) ?_ ?_).mono ?_
        · exact h'.congr (fun i hi j hj => by rw [upd_out (by omega)])
        · intro t m'' ht h''
          simp only [Run_bind, Run_load, Run_store, Win.adr_add_row, Win.adr_add_col]
          refine ⟨h''.okc (by omega) (by omega), h''.okc (by omega) (by omega), ?_⟩
          rw [h''.val (by omega) (by omega)]
          refine (h''.set (by omega) (by omega)).congr (fun i hi j hj => ?_)
          by_cases e : i = i0 + k ∧ j = j0 + (c - 1 - 1 - t) + 1 + 0 + 1 - 1
          · have : permCols i0 j0 k c (rot c) V (i0 + k) (j0 + (c - 1 - 1 - t)) = V (i0 + k) (j0 + (c - 1 - 1 - t)) := by
              simp only [permCols]; rw [upd_out (by omega)]
            rw [upd_in' (by omega), upd_out (by omega), this, upd_in' (by omega)]
            congr 1; omega
          · rw [upd_out (by omega)]
            by_cases e' : i = i0 + k ∧ j0 + (c - t) ≤ j ∧ j < j0 + c
            · rw [upd_in' (by omega), upd_in' (by omega)]
              congr 1; omega
            · rw [upd_out (by omega), upd_out (r := 1) (by omega)]
        · intro _ m'' h''
          refine h''.congr (fun i hi j hj => ?_)
          rw [show c - (c - 1) = 1 by omega]
          simp only [Nat.sub_self, Nat.add_zero]
      refine L.mono (fun _ m'' h'' => ?_)
      rw [Run_store]
      refine ⟨h''.okc (by omega) (by omega), (h''.set (by omega) (by omega)).congr (fun i hi j hj => ?_)⟩
      simp only [permCols]
      by_cases e : i = i0 + k ∧ j = j0
      · rw [upd_in' (r := 1) (c := 1) (by omega), upd_in' (by omega), rot, if_pos (by omega)]
        congr 1; omega
      · rw [upd_out (r := 1) (c := 1) (by omega)]
        by_cases e' : i = i0 + k ∧ j0 + 1 ≤ j ∧ j < j0 + c
        · rw [upd_in' (r := 1) (by omega), upd_in' (by omega), rot, if_neg (by omega), if_pos (by omega)]
          congr 1 <;> omega
        · rw [upd_out (r := 1) (by omega)]
          by_cases e2 : i0 ≤ i ∧ i < i0 + k ∧ j0 ≤ j ∧ j < j0 + c
          · rw [upd_in' (by omega), upd_in' (by omega)]
          · rw [upd_out (by omega), upd_out (by omega)]
  · rw [Run_pure]
    refine h.congr (fun i hi j hj => ?_)
    simp only [permCols]
    by_cases hin : i0 ≤ i ∧ i < i0 + r ∧ j0 ≤ j ∧ j < j0 + c
    · rw [upd_in' hin, rot]
      rw [if_pos (by omega)]; congr 1 <;> omega
    · rw [upd_out (by omega)]

/-- `MatrixApplyS`: `b` rows move in front of the `t` rows that precede them -/
def sPerm (a t b i : ℕ) : ℕ :=
  if i < a then i else if i < a + b then i + t else if i < a + b + t then i - b else i

/-- `MatrixApplyT`: new column `j` is the old column `tPerm j` -/
def tPerm (N2 R1 R2 R3 R4 j : ℕ) : ℕ :=
  if j < R1 then j else if j < R1 + R2 then N2 + (j - R1) else if j < R1 + R2 + R3 then j - R2
  else if j < R1 + R2 + R3 + R4 then N2 + R2 + (j - (R1 + R2 + R3)) else if j < N2 + R2 + R4 then j - R2 - R4 else j

/-- `fassign` from a block of another window -/
lemma fassign_on (h : On m0 m W V) {T : Win} {U : ℕ → ℕ → K} (hT : On m m T U) (hd : W.Disj T) {a b : ℕ}
    (hr : i0 + r ≤ W.r) (hc : j0 + c ≤ W.c) (ha : a + r ≤ T.r) (hb : b + c ≤ T.c) :
    Run (fassign r c (T.adr a b) T.ld (W.adr i0 j0) W.ld) m
      (fun _ m' => On m0 m' W (upd i0 j0 r c (blk U a b) V)) := by
  have hs : (W.sub i0 j0 r c).Disj (T.sub a b r c) := (hd.sub_left hr hc).sub_right ha hb
  have hld := h.ld
  refine (fassign_spec h.wf' (OkIn.of_sub hT.ok ha hb) (h.ok'.of_sub hr hc) (by omega)
    (Win.Disj.safe hs.symm rfl rfl)).mono (fun _ m' s => ?_)
  refine h.upd hr hc (s.congr (fun i hi j hj => ?_))
  have hi : i < r := hi
  have hj : j < c := hj
  have := hT.val (i := a + i) (j := b + j) (by omega) (by omega)
  rw [blk, ← this, ← Win.sub_adr]
  rfl

lemma doApplyS_on2 {M2 R1 R2 R3 R4 t tp : ℕ} {U : ℕ → ℕ → K} (h2 : On2 m0 m W V ⟨tp, c, t, c⟩ U) (hr : i0 + (M2 + R3 + R4) ≤ W.r) (hc : j0 + c ≤ W.c)
    (ht : M2 = R1 + R2 + t) :
    Run (doApplyS (W.adr i0 j0) W.ld tp c M2 R1 R2 R3 R4) m (fun _ m' =>
      ∃ U', On2 m0 m' W (permRows i0 j0 (M2 + R3 + R4) c (sPerm (R1 + R2) t (R3 + R4)) V) ⟨tp, c, t, c⟩ U') := by
  subst ht
  unfold doApplyS
  rw [show R1 + R2 + t - R1 - R2 = t by omega]
  simp only [Run_bind, Win.adr_add_row]
  have e0 : tp = (Win.mk tp c t c).adr 0 0 := by simp
  have step1 := fassign_on (i0 := 0) (j0 := 0) (r := t) (c := c) (a := i0 + (R1 + R2)) (b := j0)
    h2.right h2.left h2.disj.symm (by simp) (by simp) (by omega) hc
  rw [← e0] at step1
  refine step1.mono (fun _ m1 h3 => ?_)
  have h3 := h2.ofT h3
  refine (fassign_up_on (a := i0 + (R1 + R2 + t)) (b := i0 + (R1 + R2)) (j0 := j0) (r := R3 + R4) (c := c) h3.left (by omega)
    (by omega) hc).mono (fun _ m2 h4 => ?_)
  have h4 := h3.ofW h4
  have step3 := fassign_on (i0 := i0 + (R1 + R2 + R3 + R4)) (j0 := j0) (r := t) (c := c) (a := 0) (b := 0)
    h4.left h4.right h4.disj (by omega) hc (by simp) (by simp)
  rw [← e0] at step3
  refine step3.mono (fun _ m3 h5 => ?_)
  have h5 := h4.ofW h5
  refine ⟨_, h5.ofW (h5.left.congr (fun i hi j hj => ?_))⟩
  simp only [permRows]
  by_cases e1 : i0 + (R1 + R2 + R3 + R4) ≤ i ∧ i < i0 + (R1 + R2 + R3 + R4) + t ∧ j0 ≤ j ∧ j < j0 + c
  · rw [upd_in' e1]
    simp only [blk, Nat.zero_add]
    rw [upd_in' (by omega), upd_in' (by omega), sPerm, if_neg (by omega), if_neg (by omega), if_pos (by omega)]
    simp only [Nat.sub_zero, blk]
    congr 1; omega
  rw [upd_out (by omega)]
  by_cases e2 : i0 + (R1 + R2) ≤ i ∧ i < i0 + (R1 + R2) + (R3 + R4) ∧ j0 ≤ j ∧ j < j0 + c
  · rw [upd_in' e2, upd_in' (by omega), sPerm, if_neg (by omega), if_pos (by omega)]
    congr 1; omega
  rw [upd_out (by omega)]
  by_cases e3 : i0 ≤ i ∧ i < i0 + (R1 + R2) ∧ j0 ≤ j ∧ j < j0 + c
  · rw [upd_in' (by omega), sPerm, if_pos (by omega)]
    congr 1 <;> omega
  · rw [upd_out (by omega)]

lemma matrixApplyS_on {M2 R1 R2 R3 R4 : ℕ} (h : On m0 m W V) (hr : i0 + (M2 + R3 + R4) ≤ W.r) (hc : j0 + c ≤ W.c)
    (h12 : R1 + R2 ≤ M2) :
    Run (matrixApplyS (W.adr i0 j0) W.ld c M2 R1 R2 R3 R4) m (fun _ m' =>
      On m0 m' W (permRows i0 j0 (M2 + R3 + R4) c (sPerm (R1 + R2) (M2 - (R1 + R2)) (R3 + R4)) V)) := by
  unfold matrixApplyS
  simp only [Run_bind, usub, if_pos h12, Run_liftE, Ok_ok, Run_alloc]
  obtain ⟨t, rfl⟩ := Nat.exists_eq_add_of_le h12
  rw [Nat.add_sub_cancel_left]
  obtain ⟨U, h2⟩ := On2.start (r := t) (c := c) h
  change Run _ (m.grow (t * c)) _
  generalize hmm : m.next = tp at *
  refine (doApplyS_on2 (i0 := i0) (j0 := j0) (R1 := R1) (R2 := R2) (R3 := R3) (R4 := R4) h2 hr hc rfl).mono (fun _ m3 h5 => ?_)
  obtain ⟨U', h5⟩ := h5
  rw [Run_free]
  have h6 := On2.stop (r := t) (c := c) h (by rw [hmm]; exact h5)
  rw [hmm] at h6
  exact h6

omit [DecidableEq K] [CommRing K] in
lemma assignRow2_on (h : On m0 m W V) {T : Win} {U : ℕ → ℕ → K} (hT : On m m T U) (hd : W.Disj T) {i j n a b : ℕ}
    (hi : i < W.r) (hj : j + n ≤ W.c) (ha : a < T.r) (hb : b + n ≤ T.c) :
    Run (vassign n (T.adr a b) 1 (W.adr i j) 1) m
      (fun _ m' => On m0 m' W (upd i j 1 n (fun _ t => U a (b + t)) V)) := by
  refine (assignRow_on h hi hj (hT.vw_row ha hb) ?_).mono (fun _ m' h' => h'.congr (fun i' hi' j' hj' => ?_))
  · intro t ht hw
    rw [Nat.mul_one, Win.adr_add_col] at hw
    exact hd _ hw (Win.Has_adr ha (by omega))
  · by_cases e : i ≤ i' ∧ i' < i + 1 ∧ j ≤ j' ∧ j' < j + n
    · rw [upd_in' e, upd_in' e, Nat.mul_one, Win.adr_add_col]
      exact hT.val ha (by omega)
    · rw [upd_out (by omega), upd_out (by omega)]

omit [DecidableEq K] [CommRing K] in
lemma doApplyT_on2 {N2 R1 R2 R3 R4 t tp : ℕ} {U : ℕ → ℕ → K} (h2 : On2 m0 m W V ⟨tp, t, r, t⟩ U) (hr : i0 + r ≤ W.r)
    (hc : j0 + (N2 + R2 + R4) ≤ W.c) (h13 : R1 + R3 ≤ N2) (ht : N2 = R1 + t) :
    Run (doApplyT (W.adr i0 j0) W.ld tp r N2 R1 R2 R3 R4) m (fun _ m' =>
      ∃ U', On2 m0 m' W (permCols i0 j0 r (N2 + R2 + R4) (tPerm N2 R1 R2 R3 R4) V) ⟨tp, t, r, t⟩ U') := by
  subst ht
  unfold doApplyT
  refine Run_loop (fun k m' => ∃ U', On2 m0 m' W
    (permCols i0 j0 k (R1 + t + R2 + R4) (tPerm (R1 + t) R1 R2 R3 R4) V) ⟨tp, t, r, t⟩ U') ?_ ?_
  · rw [permCols_empty]; exact ⟨U, h2⟩
  · rintro k m' hk ⟨U', h3⟩
    rw [show R1 + t - R1 = t by omega]
    have eT : ∀ b, tp + b + k * t = (Win.mk tp t r t).adr k b := by intro b; simp only [Win.adr]; ring
    have eT0 : tp + k * t = (Win.mk tp t r t).adr k 0 := by simp only [Win.adr]; ring
    have eW : ∀ b, W.adr i0 b + k * W.ld = W.adr (i0 + k) b := fun b => Win.adr_add_row ..
    simp only [Run_bind, Win.adr_add_col, eW, eT, eT0]
    have P : ∀ j, permCols i0 j0 k (R1 + t + R2 + R4) (tPerm (R1 + t) R1 R2 R3 R4) V (i0 + k) j = V (i0 + k) j := by
      intro j; simp only [permCols]; rw [upd_out (by omega)]
    generalize hP : permCols i0 j0 k (R1 + t + R2 + R4) (tPerm (R1 + t) R1 R2 R3 R4) V = V1 at *
    refine (assignRow2_on h3.right h3.left h3.disj.symm (i := k) (j := 0) (n := t) (a := i0 + k) (b := j0 + R1) hk (by simp) (by omega) (by omega)).mono
      (fun _ m1 h4 => ?_)
    have h4 := h3.ofT h4
    refine (moveRow_on h4.left (i := i0 + k) (j := j0 + R1) (i' := i0 + k) (j' := j0 + (R1 + t)) (n := R2) (by omega) (by omega) (by omega) (by omega)
      (Or.inr (by omega))).mono (fun _ m2 h5 => ?_)
    have h5 := h4.ofW h5
    refine (assignRow2_on h5.left h5.right h5.disj (i := i0 + k) (j := j0 + R1 + R2) (n := R3) (a := k) (b := 0) (by omega) (by omega) hk
      (by simp only []; omega)).mono (fun _ m3 h6 => ?_)
    have h6 := h5.ofW h6
    refine (moveRow_on h6.left (i := i0 + k) (j := j0 + R1 + R2 + R3) (i' := i0 + k) (j' := j0 + (R1 + t) + R2) (n := R4) (by omega) (by omega) (by omega) (by omega)
      (Or.inr (by omega))).mono (fun _ m4 h7 => ?_)
    have h7 := h6.ofW h7
    refine (assignRow2_on h7.left h7.right h7.disj (i := i0 + k) (j := j0 + R1 + R2 + R3 + R4) (n := t - R3) (a := k) (b := R3) (by omega) (by omega) hk
      (by simp only []; omega)).mono (fun _ m5 h8 => ?_)
    have h8 := h7.ofW h8
    refine ⟨_, h8.ofW (h8.left.congr (fun i hi j hj => ?_))⟩
    by_cases hrow : i = i0 + k
    · subst hrow
      simp only [permCols]
      by_cases e0 : j < j0 + R1 ∨ j0 + (R1 + t + R2 + R4) ≤ j
      · rw [upd_out (r := 1) (by omega), upd_out (r := 1) (by omega), upd_out (r := 1) (by omega), upd_out (r := 1) (by omega), P]
        by_cases e1 : j0 ≤ j ∧ j < j0 + R1
        · rw [upd_in' (by omega), tPerm, if_pos (by omega)]
          congr 1 <;> omega
        · rw [upd_out (by omega)]
      rw [upd_in' (r := k + 1) (by omega), tPerm, if_neg (by omega), Nat.add_sub_cancel_left]
      by_cases e1 : j < j0 + R1 + R2
      · rw [upd_out (r := 1) (by omega), upd_out (r := 1) (by omega), upd_out (r := 1) (by omega), upd_in' (r := 1) (by omega), P, if_pos (by omega)]
        congr 1; omega
      by_cases e2 : j < j0 + R1 + R2 + R3
      · rw [upd_out (r := 1) (by omega), upd_out (r := 1) (by omega), upd_in' (r := 1) (by omega), upd_in' (r := 1) (by omega), P, if_neg (by omega),
          if_pos (by omega)]
        congr 1; omega
      by_cases e3 : j < j0 + R1 + R2 + R3 + R4
      · rw [upd_out (r := 1) (by omega), upd_in' (r := 1) (by omega), upd_out (r := 1) (by omega), upd_out (r := 1) (by omega), P, if_neg (by omega),
          if_neg (by omega), if_pos (by omega)]
        congr 1; omega
      · rw [upd_in' (r := 1) (by omega), upd_in' (r := 1) (by omega), P, if_neg (by omega), if_neg (by omega), if_neg (by omega), if_pos (by omega)]
        congr 1; omega
    · rw [upd_out (r := 1) (by omega), upd_out (r := 1) (by omega), upd_out (r := 1) (by omega), upd_out (r := 1) (by omega), ← hP]
      simp only [permCols]
      by_cases e : i0 ≤ i ∧ i < i0 + k ∧ j0 ≤ j ∧ j < j0 + (R1 + t + R2 + R4)
      · rw [upd_in' e, upd_in' (by omega)]
      · rw [upd_out (by omega), upd_out (by omega)]

omit [DecidableEq K] [CommRing K] in
lemma matrixApplyT_on {N2 R1 R2 R3 R4 : ℕ} (h : On m0 m W V) (hr : i0 + r ≤ W.r) (hc : j0 + (N2 + R2 + R4) ≤ W.c)
    (h13 : R1 + R3 ≤ N2) :
    Run (matrixApplyT (W.adr i0 j0) W.ld r N2 R1 R2 R3 R4) m (fun _ m' =>
      On m0 m' W (permCols i0 j0 r (N2 + R2 + R4) (tPerm N2 R1 R2 R3 R4) V)) := by
  unfold matrixApplyT
  simp only [Run_bind, usub, if_pos (show R1 ≤ N2 by omega), Run_liftE, Ok_ok, Run_alloc]
  obtain ⟨t, rfl⟩ := Nat.exists_eq_add_of_le (show R1 ≤ N2 by omega)
  rw [Nat.add_sub_cancel_left, Nat.mul_comm t r]
  obtain ⟨U, h2⟩ := On2.start (r := r) (c := t) h
  change Run _ (m.grow (r * t)) _
  generalize hmm : m.next = tp at *
  refine (doApplyT_on2 (i0 := i0) (j0 := j0) (R1 := R1) (R2 := R2) (R3 := R3) (R4 := R4) h2 hr hc h13 rfl).mono (fun _ m3 h3 => ?_)
  obtain ⟨U', h3⟩ := h3
  rw [Run_free]
  have h6 := On2.stop (r := r) (c := t) h (by rw [hmm]; exact h3)
  rw [hmm] at h6
  exact h6

/-- rows and columns of a block permuted -/
def permBoth (i0 j0 r c : ℕ) (σ τ : ℕ → ℕ) (V : ℕ → ℕ → K) : ℕ → ℕ → K :=
  upd i0 j0 r c (fun i j => V (i0 + σ i) (j0 + τ j)) V

omit [DecidableEq K] [CommRing K] in
/-- gathering a strided vector of `W` into a row temporary -/
lemma gather_on2 {T : Win} {U : ℕ → ℕ → K} {n tp : ℕ} (h : On2 m0 m W V T U) (src : ℕ → ℕ) (f g : ℕ → ℕ)
    (hT : T = ⟨tp, n, 1, n⟩) (hf : ∀ t < n, f t < W.r) (hg : ∀ t < n, g t < W.c) (hsrc : ∀ t < n, src t = W.adr (f t) (g t)) :
    Run (loop n fun i => do
        let x ← load (src i)
        store (tp + i) x) m (fun _ m' => On2 m0 m' W V T (fun _ t => V (f t) (g t))) := by
  subst hT
  refine (Run_loop (fun k m' => On2 m0 m' W V ⟨tp, n, 1, n⟩ (upd 0 0 1 k (fun _ t => V (f t) (g t)) U)) ?_ ?_).mono ?_
  · exact h.ofT (h.right.congr (fun i hi j hj => by rw [upd_out (by omega)]))
  · intro k m' hk h'
    have e2 : tp + k = (Win.mk tp n 1 n).adr 0 k := by simp
    simp only [Run_bind, Run_load, Run_store, hsrc k hk, e2]
    refine ⟨h'.left.okc (hf k hk) (hg k hk), h'.right.okc (W := ⟨tp, n, 1, n⟩) Nat.one_pos hk, ?_⟩
    rw [h'.left.val (hf k hk) (hg k hk)]
    refine h'.ofT ((h'.right.set (W := ⟨tp, n, 1, n⟩) Nat.one_pos hk).congr (fun i hi j hj => ?_))
    have hi : i < 1 := hi
    have hj : j < n := hj
    by_cases e : j = k
    · rw [upd_in' (by omega), upd_in' (by omega), Nat.sub_zero, e]
    · rw [upd_out (by omega)]
      by_cases e' : j < k
      · rw [upd_in' (by omega), upd_in' (by omega)]
      · rw [upd_out (by omega), upd_out (by omega)]
  · intro _ m' h'
    refine h'.ofT (h'.right.congr (fun i hi j hj => ?_))
    have hi : i < 1 := hi
    have hj : j < n := hj
    rw [upd_in' (by omega), Nat.sub_zero]

omit [DecidableEq K] [CommRing K] in
lemma cyclicShiftRowCol_on (h : On m0 m W V) (hr : i0 + r ≤ W.r) (hc : j0 + c ≤ W.c) (h1 : r ≠ 1 ∨ c ≤ 2) :
    Run (cyclicShiftRowCol (W.adr i0 j0) r c W.ld) m (fun _ m' => On m0 m' W (permBoth i0 j0 r c (rot r) (rot c) V)) := by
  unfold cyclicShiftRowCol
  rif hm
  · rif hn
    · simp only [Run_bind, Run_alloc]
      obtain ⟨μ, rfl⟩ : ∃ μ, r = μ + 1 := ⟨r - 1, by omega⟩
      obtain ⟨ν, rfl⟩ : ∃ ν, c = ν + 1 := ⟨c - 1, by omega⟩
      simp only [Nat.add_sub_cancel]
      obtain ⟨U, h2⟩ := On2.start (r := 1) (c := μ) h
      rw [Nat.one_mul] at h2
      change Run _ (m.grow μ) _
      generalize hmm : m.next = tb at *
      refine (gather_on2 (n := μ) (tp := tb) h2 (fun i => W.adr i0 j0 + ν + i * W.ld) (fun t => i0 + t) (fun _ => j0 + ν) rfl
        (fun t ht => by omega) (fun t ht => by omega) (fun t ht => by rw [Win.adr_add_col, Win.adr_add_row])).mono (fun _ m1 h3 => ?_)
      change Run _ (m1.grow (ν + 1)) _
      obtain ⟨U2, h4⟩ := On2.start (r := 1) (c := ν + 1) h3.left
      rw [Nat.one_mul] at h4
      generalize hmd : m1.next = td at *
      -- the second temporary receives the last row, rotated
      have ed : ∀ t, td + t = (Win.mk td (ν + 1) 1 (ν + 1)).adr 0 t := by simp
      have e1 : W.adr i0 j0 + ν + μ * W.ld - ν = W.adr (i0 + μ) (j0 + 0) := by
        rw [← Win.adr_add_row]; simp only [Win.adr]; omega
      have e2 : W.adr i0 j0 + ν + μ * W.ld = W.adr (i0 + μ) (j0 + ν) := by rw [Win.adr_add_col, Win.adr_add_row]
      rw [e1, e2, ed 1]
      refine (assignRow2_on h4.right h4.left h4.disj.symm (i := 0) (j := 1) (n := ν) (a := i0 + μ) (b := j0 + 0) Nat.one_pos
        (by simp only []; omega) (by omega) (by omega)).mono (fun _ m2 h5 => ?_)
      have h5 := h4.ofT h5
      rw [Run_load, Run_store]
      refine ⟨h5.left.okc (by omega) (by omega), ?_⟩
      rw [h5.left.val (by omega) (by omega), show td = (Win.mk td (ν + 1) 1 (ν + 1)).adr 0 0 by simp]
      refine ⟨h5.right.okc (W := ⟨td, ν + 1, 1, ν + 1⟩) Nat.one_pos (Nat.succ_pos _), ?_⟩
      have h6 := h5.ofT ((h5.right.set (i := 0) (j := 0) (x := V (i0 + μ) (j0 + ν)) Nat.one_pos (Nat.succ_pos _)).congr (V' := fun _ t => V (i0 + μ) (j0 + rot (ν + 1) t))
        (fun i hi j hj => by
          have hi : i < 1 := hi
          have hj : j < ν + 1 := hj
          by_cases e : j = 0
          · rw [upd_in' (by omega), rot, if_pos e, Nat.add_sub_cancel]
          · rw [upd_out (by omega), upd_in' (by omega), rot, if_neg e, if_pos hj, Nat.add_zero]))
      rw [← show td = (Win.mk td (ν + 1) 1 (ν + 1)).adr 0 0 by simp]
      simp only [← show td = (Win.mk td (ν + 1) 1 (ν + 1)).adr 0 0 by simp] at h6
      generalize m2.set td (V (i0 + μ) (j0 + ν)) = m3 at h6 ⊢
      -- the rows move down and right
      have L2 : Run (loop μ fun t => vassign ν (W.adr i0 j0 + (μ - 1 - t) * W.ld) 1 (W.adr i0 j0 + (μ - 1 - t) * W.ld + 1 + W.ld) 1) m3
          (fun _ m' => On m3 m' W (upd (i0 + 1) (j0 + 1) μ ν (fun i j => V (i0 + i) (j0 + j)) V)) := by
        refine (Run_loop (fun k m' => On m3 m' W (upd (i0 + (μ + 1 - k)) (j0 + 1) k ν (fun i j => V (i0 + (μ - k) + i) (j0 + j)) V)) ?_ ?_).mono ?_
        · exact h6.left.congr (fun i hi j hj => by rw [upd_out (by omega)])
        · intro k m' hk h'
          have e4 : W.adr i0 j0 + (μ - 1 - k) * W.ld + 1 + W.ld = W.adr (i0 + (μ - 1 - k) + 1) (j0 + 1) := by
            rw [Win.adr_add_row, Win.adr_add_col]; simp only [Win.adr]; ring
          rw [e4, Win.adr_add_row]
          refine (moveRow_on h' (i := i0 + (μ - 1 - k) + 1) (j := j0 + 1) (i' := i0 + (μ - 1 - k)) (j' := j0) (by omega) (by omega) (by omega) (by omega)
            (Or.inl (by omega))).mono (fun _ m'' h'' => h''.congr (fun i hi j hj => ?_))
          by_cases e : i = i0 + (μ - 1 - k) + 1 ∧ j0 + 1 ≤ j ∧ j < j0 + 1 + ν
          · rw [upd_in' (by omega), upd_out (by omega), upd_in' (by omega)]
            congr 1; omega
          · rw [upd_out (r := 1) (by omega)]
            by_cases e' : i0 + (μ + 1 - k) ≤ i ∧ i < i0 + (μ + 1 - k) + k ∧ j0 + 1 ≤ j ∧ j < j0 + 1 + ν
            · rw [upd_in' (by omega), upd_in' (by omega)]
              congr 1; omega
            · rw [upd_out (by omega), upd_out (by omega)]
        · intro _ m' h'
          refine h'.congr (fun i hi j hj => ?_)
          rw [show μ + 1 - μ = 1 by omega]
          simp only [Nat.sub_self, Nat.add_zero]
      refine L2.mono (fun _ m4 h7 => ?_)
      have h7 := h6.ofW h7
      have st := assignRow2_on h7.left h7.right h7.disj (i := i0) (j := j0) (n := ν + 1) (a := 0) (b := 0) (by omega) hc Nat.one_pos (by simp)
      rw [← show td = (Win.mk td (ν + 1) 1 (ν + 1)).adr 0 0 by simp] at st
      refine st.mono (fun _ m5 h8 => ?_)
      have h8 := h7.ofW h8
      have hb : ∀ t < μ, m5.ok (tb + t) = true ∧ m5.val (tb + t) = V (i0 + t) (j0 + ν) ∧ ¬ W.Has (tb + t) := by
        intro t ht
        have o1 : m1.ok (tb + t) = true := by
          have := h3.right.okc (W := ⟨tb, μ, 1, μ⟩) (i := 0) (j := t) Nat.one_pos ht
          simpa using this
        have o2 : (m1.grow (ν + 1)).ok (tb + t) = true := by simp [Mem.grow, o1]
        have n1 : ¬ W.Has (tb + t) := fun hw => h3.disj _ hw ⟨0, Nat.one_pos, t, ht, by simp⟩
        refine ⟨by rw [h8.ok]; exact o2, ?_, n1⟩
        rw [h8.frame _ o2 n1]
        · have := h3.valT 0 Nat.one_pos t ht
          simp only [Mem.grow]; simpa using this
        · rintro ⟨i, hi, j, hj, e⟩
          have hi : i < 1 := hi
          have := h3.left.wf (tb + t) (by rw [hmd, e]; simp only [Win.adr]; omega)
          rw [this] at o1
          exact absurd o1 (by simp)
      have L3 : Run (loop μ fun i => do
          let x ← load (tb + i)
          store (W.adr i0 j0 + W.ld + i * W.ld) x) m5 (fun _ m' => On m5 m' W (permBoth i0 j0 (μ + 1) (ν + 1) (rot (μ + 1)) (rot (ν + 1)) V)) := by
        have h9 := h8.left
        simp only [Nat.zero_add] at h9
        generalize hV5 : upd i0 j0 1 (ν + 1) _ _ = V5 at h9
        refine (Run_loop (fun k m' => On m5 m' W (upd (i0 + 1) j0 k 1 (fun i _ => V (i0 + i) (j0 + ν)) V5)) ?_ ?_).mono ?_
        · exact h9.congr (fun i hi j hj => by rw [upd_out (by omega)])
        · intro k m' hk h'
          obtain ⟨b1, b2, b3⟩ := hb k hk
          have b4 : m'.val (tb + k) = V (i0 + k) (j0 + ν) := by rw [h'.step.frame _ b1 b3, b2]
          have e : W.adr i0 j0 + W.ld + k * W.ld = W.adr (i0 + 1 + k) j0 := by simp only [Win.adr]; ring
          simp only [Run_bind, Run_load, Run_store, b4, e]
          refine ⟨by rw [h'.step.ok]; exact b1, h'.okc (by omega) (by omega), (h'.set (by omega) (by omega)).congr (fun i hi j hj => ?_)⟩
          by_cases e : i = i0 + 1 + k ∧ j = j0
          · rw [upd_in' (by omega), upd_in' (by omega)]
            congr 1; omega
          · rw [upd_out (r := 1) (by omega)]
            by_cases e' : i0 + 1 ≤ i ∧ i < i0 + 1 + k ∧ j = j0
            · rw [upd_in' (by omega), upd_in' (by omega)]
            · rw [upd_out (by omega), upd_out (by omega)]
        · intro _ m' h'
          refine h'.congr (fun i hi j hj => ?_)
          simp only [permBoth]
          by_cases e : i0 ≤ i ∧ i < i0 + (μ + 1) ∧ j0 ≤ j ∧ j < j0 + (ν + 1)
          · rw [upd_in' (r := μ + 1) e]
            by_cases e1 : i0 + 1 ≤ i ∧ j = j0
            · rw [upd_in' (by omega)]
              simp only [rot]
              rw [if_neg (by omega), if_pos (by omega), if_pos (by omega)]
              congr 1
            · rw [upd_out (by omega), ← hV5]
              by_cases e2 : i = i0
              · rw [upd_in' (by omega), show i - i0 = 0 by omega]
                rw [show rot (μ + 1) 0 = μ by simp [rot]]
              · rw [upd_out (by omega), upd_in' (by omega)]
                simp only [rot]
                rw [if_neg (by omega), if_pos (by omega), if_neg (by omega), if_pos (by omega)]
                congr 1 <;> omega
          · rw [upd_out (r := μ + 1) (by omega), upd_out (by omega), ← hV5, upd_out (by omega), upd_out (by omega)]
      refine L3.mono (fun _ m6 h9 => ?_)
      rw [Run_free, Run_free]
      have h10 := h8.ofW h9
      have h11 := On2.stop (r := 1) (c := ν + 1) h3.left (by rw [Nat.one_mul, hmd]; exact h10)
      rw [Nat.one_mul, hmd] at h11
      have h12 := h3.ofW h11
      have h13 := On2.stop (r := 1) (c := μ) h (by rw [Nat.one_mul, hmm]; exact h12)
      rw [Nat.one_mul, hmm] at h13
      exact h13
    · rif hn0
      · obtain rfl : c = 1 := by omega
        simp only [Run_bind, Run_load, Win.adr_add_row]
        refine ⟨h.okc (by omega) (by omega), ?_⟩
        rw [h.val (by omega) (by omega)]
        have L : Run (loop (r - 1) fun t => do
            let x ← load (W.adr (i0 + (r - 1 - t)) j0 - W.ld)
            store (W.adr (i0 + (r - 1 - t)) j0) x) m (fun _ m' => On m0 m' W (upd (i0 + 1) j0 (r - 1) 1 (fun i _ => V (i0 + i) j0) V)) := by
          refine (Run_loop (fun k m' => On m0 m' W (upd (i0 + (r - k)) j0 k 1 (fun i _ => V (i0 + (r - k - 1) + i) j0) V)) ?_ ?_).mono ?_
          · exact h.congr (fun i hi j hj => by rw [upd_out (by omega)])
          · intro k m' hk h'
            have e : W.adr (i0 + (r - 1 - k)) j0 - W.ld = W.adr (i0 + (r - 1 - k - 1)) j0 := by
              rw [show i0 + (r - 1 - k) = i0 + (r - 1 - k - 1) + 1 by omega, ← Win.adr_add_row]
              omega
            simp only [Run_bind, Run_load, Run_store, e]
            refine ⟨h'.okc (by omega) (by omega), h'.okc (by omega) (by omega), ?_⟩
            rw [h'.val (by omega) (by omega), upd_out (by omega)]
            refine (h'.set (by omega) (by omega)).congr (fun i hi j hj => ?_)
            by_cases e : i = i0 + (r - 1 - k) ∧ j = j0
            · rw [upd_in' (by omega), upd_in' (by omega)]
              congr 1; omega
            · rw [upd_out (r := 1) (by omega)]
              by_cases e' : i0 + (r - k) ≤ i ∧ i < i0 + r ∧ j = j0
              · rw [upd_in' (by omega), upd_in' (by omega)]
                congr 1; omega
              · rw [upd_out (by omega), upd_out (by omega)]
          · intro _ m' h'
            refine h'.congr (fun i hi j hj => ?_)
            rw [show r - (r - 1) = 1 by omega]
            simp only [Nat.sub_self, Nat.add_zero]
        refine L.mono (fun _ m' h' => ?_)
        rw [Run_store]
        refine ⟨h'.okc (by omega) (by omega), (h'.set (by omega) (by omega)).congr (fun i hi j hj => ?_)⟩
        simp only [permBoth]
        by_cases e : i = i0 ∧ j = j0
        · rw [upd_in' (by omega), upd_in' (by omega)]
          simp only [rot]
          rw [if_pos (by omega), if_pos (by omega)]
          rfl
        · rw [upd_out (r := 1) (by omega)]
          by_cases e' : i0 + 1 ≤ i ∧ i < i0 + r ∧ j = j0
          · rw [upd_in' (by omega), upd_in' (by omega)]
            simp only [rot]
            rw [if_neg (by omega), if_pos (by omega), if_pos (by omega)]
            congr 1
          · rw [upd_out (by omega), upd_out (by omega)]
      · rw [Run_pure]
        exact h.congr (fun i hi j hj => by simp only [permBoth]; rw [upd_out (by omega)])
  · rif hn
    · obtain rfl : r = 1 := by omega
      obtain rfl : c = 2 := by omega
      simp only [Run_bind, Run_load, Win.adr_add_col]
      refine ⟨h.okc (by omega) (by omega), ?_⟩
      rw [h.val (by omega) (by omega)]
      simp only [vassign, Nat.reduceSub, and_self, if_true, loop, Run_bind, Run_pure, Run_load, Run_store, Nat.add_zero]
      refine ⟨h.okc (by omega) (by omega), h.okc (by omega) (by omega), h.okc (by omega) (by omega), ?_⟩
      rw [h.val (by omega) (by omega)]
      refine ((h.set (i := i0) (j := j0 + 1) (by omega) (by omega)).set (by omega) (by omega)).congr (fun i hi j hj => ?_)
      simp only [permBoth]
      by_cases e : i = i0 ∧ j = j0
      · rw [upd_in' (by omega), upd_in' (by omega)]
        simp only [rot]
        rw [if_pos (by omega), if_pos (by omega)]
        rfl
      · rw [upd_out (by omega)]
        by_cases e' : i = i0 ∧ j = j0 + 1
        · rw [upd_in' (by omega), upd_in' (by omega)]
          simp only [rot]
          rw [if_pos (by omega), if_neg (by omega), if_pos (by omega)]
          congr 1; omega
        · rw [upd_out (by omega), upd_out (by omega)]
    · rw [Run_pure]
      refine h.congr (fun i hi j hj => ?_)
      simp only [permBoth]
      by_cases e : i0 ≤ i ∧ i < i0 + r ∧ j0 ≤ j ∧ j < j0 + c
      · rw [upd_in' e]
        simp only [rot]
        rw [if_pos (by omega), if_pos (by omega)]
        congr 1 <;> omega
      · rw [upd_out (by omega)]

end
end Verif.FF
