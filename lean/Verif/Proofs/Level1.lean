import Verif.Model.Level1
import Mathlib.Algebra.BigOperators.Group.Finset.Basic
import Mathlib.Algebra.BigOperators.Ring.Finset

/-!
# Correctness of the vector and elementwise kernels
-/

namespace Verif

/-- Writing `Y` entry by entry never destroys an entry of `X` before the entry of the same index is written:
`X` and `Y` are disjoint, or they are the same window. -/
def Win.Safe (X Y : Win) : Prop :=
  ∀ i < Y.r, ∀ j < Y.c, ∀ i' < Y.r, ∀ j' < Y.c, X.adr i j = Y.adr i' j' → i = i' ∧ j = j'

lemma Win.Inj.safe {Y : Win} (h : Y.Inj) : Y.Safe Y := fun i hi j hj i' hi' j' hj' e => h i hi j hj i' hi' j' hj' e

lemma Win.Disj.safe {X Y : Win} (h : X.Disj Y) (hr : X.r = Y.r) (hc : X.c = Y.c) : X.Safe Y :=
  fun i hi j hj i' hi' j' hj' e => absurd (e ▸ Win.Has_adr hi' hj') (h _ (Win.Has_adr (by omega) (by omega)))

/-- `X` is disjoint from `Y` or is `Y`. -/
def Win.Sep (X Y : Win) : Prop := X.Disj Y ∨ X = Y

lemma Win.Sep.safe {X Y : Win} (h : X.Sep Y) (hY : Y.Inj) (hr : X.r = Y.r) (hc : X.c = Y.c) : X.Safe Y := by
  rcases h with h | rfl
  · exact h.safe hr hc
  · exact hY.safe

namespace FF
variable {K : Type}

/-- vector window -/
abbrev vw (X inc n : ℕ) : Win := ⟨X, inc, n, 1⟩

lemma vw_Inj {X inc n : ℕ} (h : 0 < inc) : (vw X inc n).Inj := Win.Inj_of_le (Or.inl h)

lemma vec_rd {m m' : Mem K} {n t X incX Y incY : ℕ} (hX : OkIn m (vw X incX n)) (hs : (vw X incX n).Safe (vw Y incY n))
    (ht : t < n) (h1 : m'.ok = m.ok) (h2 : ∀ a, (∀ s < n, s ≠ t → a ≠ Y + s * incY) → m'.val a = m.val a) :
    m'.ok (X + t * incX) = true ∧ m'.val (X + t * incX) = m.val (X + t * incX) := by
  constructor
  · rw [h1]; exact hX _ ⟨t, ht, 0, Nat.one_pos, rfl⟩
  · refine h2 _ (fun s hs' hst e => hst ?_)
    exact (hs t ht 0 Nat.one_pos s hs' 0 Nat.one_pos e).1.symm

lemma OkIn_vw {m : Mem K} {X inc n : ℕ} (h : OkIn m (vw X inc n)) {i : ℕ} (hi : i < n) : m.ok (X + i * inc) = true :=
  h _ ⟨i, hi, 0, Nat.one_pos, rfl⟩

/-- One-input kernel. -/
lemma Run_map1 {m : Mem K} {n X incX Y incY : ℕ} (φ : K → K) (hX : OkIn m (vw X incX n)) (hY : OkIn m (vw Y incY n))
    (hs : (vw X incX n).Safe (vw Y incY n)) (hi : 0 < incY) :
    Run (loop n fun i => do let x ← load (X + i * incX); store (Y + i * incY) (φ x)) m
      (fun _ m' => Step m m' (vw Y incY n) (fun i _ => φ (m.val (X + i * incX)))) := by
  refine Run_vec (fun i => φ (m.val (X + i * incX))) hY (vw_Inj hi) ?_
  intro t ht m' h1 h2
  obtain ⟨e1, e2⟩ := vec_rd hX hs ht h1 h2
  simp only [Run_bind, Run_load, Run_store, e1, e2, h1, OkIn_vw hY ht, true_and, and_self]

/-- Two-input kernel. -/
lemma Run_map2 {m : Mem K} {n X incX Z incZ Y incY : ℕ} (φ : K → K → K) (hX : OkIn m (vw X incX n))
    (hZ : OkIn m (vw Z incZ n)) (hY : OkIn m (vw Y incY n))
    (hs : (vw X incX n).Safe (vw Y incY n)) (hsz : (vw Z incZ n).Safe (vw Y incY n)) (hi : 0 < incY) :
    Run (loop n fun i => do let x ← load (X + i * incX); let z ← load (Z + i * incZ); store (Y + i * incY) (φ x z)) m
      (fun _ m' => Step m m' (vw Y incY n) (fun i _ => φ (m.val (X + i * incX)) (m.val (Z + i * incZ)))) := by
  refine Run_vec (fun i => φ (m.val (X + i * incX)) (m.val (Z + i * incZ))) hY (vw_Inj hi) ?_
  intro t ht m' h1 h2
  obtain ⟨e1, e2⟩ := vec_rd hX hs ht h1 h2
  obtain ⟨e3, e4⟩ := vec_rd hZ hsz ht h1 h2
  simp only [Run_bind, Run_load, Run_store, e1, e2, e3, e4, h1, OkIn_vw hY ht, true_and, and_self]

lemma cnt_pos {n inc : ℕ} (h : 0 < inc) : cnt n inc = n := by unfold cnt; rw [if_neg (by omega)]

variable [CommRing K] [DecidableEq K]

section vec
variable {m : Mem K} {n X incX Y incY : ℕ}

lemma vnegin_spec (hX : OkIn m (vw X incX n)) (hi : 0 < incX) :
    Run (vnegin n X incX) m (fun _ m' => Step m m' (vw X incX n) (fun i _ => - m.val (X + i * incX))) := by
  unfold vnegin
  rw [cnt_pos hi]
  exact Run_map1 (fun x => -x) hX hX (vw_Inj hi).safe hi

lemma vneg_spec (hX : OkIn m (vw X incX n)) (hY : OkIn m (vw Y incY n)) (hs : (vw X incX n).Safe (vw Y incY n))
    (hi : 0 < incY) :
    Run (vneg n X incX Y incY) m (fun _ m' => Step m m' (vw Y incY n) (fun i _ => - m.val (X + i * incX))) := by
  unfold vneg
  rw [cnt_pos hi]
  exact Run_map1 (fun x => -x) hX hY hs hi

lemma vassign_spec (hX : OkIn m (vw X incX n)) (hY : OkIn m (vw Y incY n)) (hs : (vw X incX n).Safe (vw Y incY n))
    (hi : 0 < incY) :
    Run (vassign n X incX Y incY) m (fun _ m' => Step m m' (vw Y incY n) (fun i _ => m.val (X + i * incX))) := by
  unfold vassign
  split_ifs with h
  · obtain ⟨rfl, rfl⟩ := h
    simpa only [Nat.mul_one] using Run_map1 (fun x => x) hX hY hs hi
  · rw [cnt_pos hi]
    exact Run_map1 (fun x => x) hX hY hs hi

lemma vzero_spec (hX : OkIn m (vw X incX n)) (hi : 0 < incX) :
    Run (vzero n X incX) m (fun _ m' => Step m m' (vw X incX n) (fun _ _ => 0)) := by
  unfold vzero
  have key : ∀ inc, 0 < inc → OkIn m (vw X inc n) → Run (loop n fun i => store (X + i * inc) (0 : K)) m
      (fun _ m' => Step m m' (vw X inc n) (fun _ _ => 0)) := by
    intro inc hi hX
    refine Run_vec (fun _ => 0) hX (vw_Inj hi) ?_
    intro t ht m' h1 h2
    simp only [Run_store, h1, OkIn_vw hX ht, and_self]
  split_ifs with h
  · subst h
    simpa only [Nat.mul_one] using key 1 hi hX
  · exact key incX hi hX

lemma scalp_spec (a : K) (hX : OkIn m (vw X 1 n)) (hY : OkIn m (vw Y 1 n)) (hs : (vw X 1 n).Safe (vw Y 1 n)) :
    Run (scalp Y a X n) m (fun _ m' => Step m m' (vw Y 1 n) (fun i _ => a * m.val (X + i))) := by
  unfold scalp
  simpa only [Nat.mul_one] using Run_map1 (fun x => a * x) hX hY hs Nat.one_pos

lemma axpyp_spec (a : K) (hX : OkIn m (vw X 1 n)) (hY : OkIn m (vw Y 1 n)) (hs : (vw X 1 n).Safe (vw Y 1 n)) :
    Run (axpyp a X Y n) m (fun _ m' => Step m m' (vw Y 1 n) (fun i _ => a * m.val (X + i) + m.val (Y + i))) := by
  unfold axpyp
  simpa only [Nat.mul_one] using Run_map2 (fun x y => a * x + y) hX hY hY hs (vw_Inj Nat.one_pos).safe Nat.one_pos

lemma axpypInc_spec (a : K) (hX : OkIn m (vw X incX n)) (hY : OkIn m (vw Y incY n))
    (hs : (vw X incX n).Safe (vw Y incY n)) (hi : 0 < incX) (hj : 0 < incY) :
    Run (axpypInc a X Y n incX incY) m
      (fun _ m' => Step m m' (vw Y incY n) (fun i _ => a * m.val (X + i * incX) + m.val (Y + i * incY))) := by
  unfold axpypInc
  rw [cnt_pos hi]
  exact Run_map2 (fun x y => a * x + y) hX hY hY hs (vw_Inj hj).safe hj

/-- Vectors written as windows with their contents. -/
lemma grow_vw (m : Mem K) (n : ℕ) : OkIn (m.grow n) (vw m.next 1 n) := by
  rintro a ⟨i, hi, j, hj, rfl⟩
  have hi : i < n := hi
  have hj : j = 0 := by simpa using hj
  subst hj
  simp only [Mem.grow, Win.adr, Bool.or_eq_true, Bool.and_eq_true, decide_eq_true_eq]
  right; omega

lemma Disj_new_vw {m : Mem K} (hm : WF m) {W : Win} (h : OkIn m W) {n : ℕ} : W.Disj (vw m.next 1 n) := by
  rintro a ha ⟨i, hi, j, hj, rfl⟩
  have h1 := h _ ha
  rw [hm _ (by simp only [Win.adr]; omega)] at h1
  exact absurd h1 (by simp)

lemma Step.vval {m m' : Mem K} {g : ℕ → ℕ → K} (s : Step m m' (vw Y incY n) g) {i : ℕ} (hi : i < n) :
    m'.val (Y + i * incY) = g i 0 := s.val i hi 0 Nat.one_pos

lemma grow_ok {m : Mem K} {n a : ℕ} (h : m.ok a = true) : (m.grow n).ok a = true := by simp [Mem.grow, h]

lemma not_new {m : Mem K} (hm : WF m) {a n : ℕ} (h : m.ok a = true) : ¬ (vw m.next 1 n).Has a := by
  rintro ⟨i, hi, j, hj, rfl⟩
  rw [hm _ (by simp only [Win.adr]; omega)] at h
  exact absurd h (by simp)

lemma vscalin_spec (cat : Cat) (a : K) (hm : WF m) (hX : OkIn m (vw X incX n)) (hi : 0 < incX) :
    Run (vscalin cat n a X incX) m (fun _ m' => Step m m' (vw X incX n) (fun i _ => a * m.val (X + i * incX))) := by
  unfold vscalin
  cases cat with
  | generic =>
    simp only
    split_ifs with h1 h2 h3 h4
    · subst h1
      simp only [Run_pure]
      exact Step.refl (fun i hi j hj => by
        obtain rfl : j = 0 := by simpa using hj
        simp [Mem.mat])
    · subst h2
      exact (vnegin_spec hX hi).mono (fun _ _ s => s.congr (by intros; ring))
    · subst h3
      exact (vzero_spec hX hi).mono (fun _ _ s => s.congr (by intros; ring))
    · subst h4
      simpa only [Nat.mul_one, mul_comm a] using Run_map1 (fun x => x * a) hX hX (vw_Inj hi).safe hi
    · rw [cnt_pos hi]
      simpa only [mul_comm a] using Run_map1 (fun x => x * a) hX hX (vw_Inj hi).safe hi
  | modular =>
    simp only
    split_ifs with h1 h2
    · subst h1
      simpa only [Nat.mul_one] using scalp_spec a hX hX (vw_Inj hi).safe
    · unfold scalpInc
      rw [cnt_pos hi]
      exact Run_map1 (fun x => a * x) hX hX (vw_Inj hi).safe hi
    · simp only [Run_bind, Run_alloc]
      change Run _ (m.grow n) _
      have hd := Disj_new_vw hm hX (n := n)
      refine (vassign_spec (hX.grow n) (grow_vw m n) (hd.safe rfl rfl) Nat.one_pos).mono ?_
      intro _ m1 s1
      have hT1 : OkIn m1 (vw m.next 1 n) := (grow_vw m n).step s1
      refine (scalp_spec a hT1 hT1 (vw_Inj Nat.one_pos).safe).mono ?_
      intro _ m2 s2
      have hT2 : OkIn m2 (vw m.next 1 n) := hT1.step s2
      have hX2 : OkIn m2 (vw X incX n) := ((hX.grow n).step s1).step s2
      refine (vassign_spec hT2 hX2 (hd.symm.safe rfl rfl) hi).mono ?_
      intro _ m3 s3
      rw [Run_free]
      refine Step.of_temp hm ?_ ?_ ?_ ?_
      · rw [s3.ok, s2.ok, s1.ok]
      · exact s1.next.trans (s2.next.trans s3.next)
      · intro i hi' j hj
        rw [s3.val i hi' j hj, Step.vval s2 hi', ← Nat.mul_one i, Step.vval s1 (by simpa using hi')]
        simp [Mem.grow]
      · intro b hb hn
        rw [s3.frame b (by rw [s2.ok, s1.ok]; exact grow_ok hb) hn,
          s2.frame b (by rw [s1.ok]; exact grow_ok hb) (not_new hm hb), s1.frame b (grow_ok hb) (not_new hm hb)]
        rfl

/-- Running a contiguous kernel `ker` on copies of strided vectors: the common part of the modular `fscal` and `faxpy`
(/repo/fflas-ffpack/fflas/fflas_fscal.inl:235-268, fflas_faxpy.inl:175-206). -/
lemma via_copy (φ : K → K → K) (ker : ℕ → ℕ → Prog K Unit)
    (hker : ∀ (m : Mem K) (X Y : ℕ), OkIn m (vw X 1 n) → OkIn m (vw Y 1 n) → (vw X 1 n).Safe (vw Y 1 n) →
      Run (ker X Y) m (fun _ m' => Step m m' (vw Y 1 n) (fun i _ => φ (m.val (X + i)) (m.val (Y + i)))))
    (hm : WF m) (hX : OkIn m (vw X incX n)) (hY : OkIn m (vw Y incY n)) (hs : (vw X incX n).Safe (vw Y incY n))
    (hi : 0 < incX) (hj : 0 < incY) :
    Run (do
      let Xc ← (if incX ≠ 1 then do
          let Xc ← alloc n
          vassign n X incX Xc 1
          pure Xc
        else pure X)
      let Yc ← (if incY ≠ 1 then do
          let Yc ← alloc n
          vassign n Y incY Yc 1
          pure Yc
        else pure Y)
      ker Xc Yc
      (if incY ≠ 1 then do
        vassign n Yc 1 Y incY
        free Yc n
      else pure ())
      (if incX ≠ 1 then free Xc n else pure ())) m
      (fun _ m' => Step m m' (vw Y incY n) (fun i _ => φ (m.val (X + i * incX)) (m.val (Y + i * incY)))) := by
  -- the part after `Xc` is known
  have inner : ∀ (m : Mem K) (X : ℕ), WF m → OkIn m (vw X 1 n) → OkIn m (vw Y incY n) →
      (incY = 1 → (vw X 1 n).Safe (vw Y 1 n)) →
      Run (if incY ≠ 1 then do
          let Yc ← alloc n
          vassign n Y incY Yc 1
          pure Yc
        else pure Y) m (fun Yc m2 => Run (ker X Yc) m2 (fun _ m3 => Run (if incY ≠ 1 then do
        vassign n Yc 1 Y incY
        free Yc n
      else pure ()) m3 (fun _ m4 => Step m m4 (vw Y incY n) (fun i _ => φ (m.val (X + i)) (m.val (Y + i * incY)))))) := by
    intro m X hm hX hY hs
    by_cases h : incY = 1
    · subst h
      simp only [ne_eq, not_true_eq_false, if_false, Run_pure, Nat.mul_one]
      exact hker m X Y hX hY (hs rfl)
    · simp only [ne_eq, h, not_false_eq_true, if_true, Run_bind, Run_alloc, Run_pure]
      change Run _ (m.grow n) _
      have hd := Disj_new_vw hm hY (n := n)
      have hdX := Disj_new_vw hm hX (n := n)
      refine (vassign_spec (hY.grow n) (grow_vw m n) (hd.safe rfl rfl) Nat.one_pos).mono ?_
      intro _ m1 s1
      have hT1 : OkIn m1 (vw m.next 1 n) := (grow_vw m n).step s1
      have hX1 : OkIn m1 (vw X 1 n) := (hX.grow n).step s1
      refine (hker m1 X m.next hX1 hT1 (hdX.safe rfl rfl)).mono ?_
      intro _ m2 s2
      refine (vassign_spec (hT1.step s2) (((hY.grow n).step s1).step s2) (hd.symm.safe rfl rfl) hj).mono ?_
      intro _ m3 s3
      rw [Run_free]
      refine Step.of_temp hm ?_ ?_ ?_ ?_
      · rw [s3.ok, s2.ok, s1.ok]
      · exact s1.next.trans (s2.next.trans s3.next)
      · intro i hi' j hj
        have e1 : m1.val (X + i) = m.val (X + i) := by
          have := Step.mat_of_disj s1 (hX.grow n) hdX (i := i) (j := 0) hi' Nat.one_pos
          simpa [Mem.mat, Win.adr, Mem.grow] using this
        rw [s3.val i hi' j hj, Step.vval s2 hi', ← Nat.mul_one i, Step.vval s1 (by simpa using hi'), Nat.mul_one, e1]
        simp [Mem.grow]
      · intro b hb hn
        rw [s3.frame b (by rw [s2.ok, s1.ok]; exact grow_ok hb) hn,
          s2.frame b (by rw [s1.ok]; exact grow_ok hb) (not_new hm hb), s1.frame b (grow_ok hb) (not_new hm hb)]
        rfl
  by_cases h : incX = 1
  · subst h
    simp only [ne_eq, not_true_eq_false, if_false, Run_bind, Run_pure, Nat.mul_one]
    exact inner m X hm hX hY (fun e => by subst e; exact hs)
  · simp only [ne_eq, h, not_false_eq_true, if_true, Run_bind, Run_alloc, Run_pure]
    change Run _ (m.grow n) _
    have hd := Disj_new_vw hm hX (n := n)
    have hdY := Disj_new_vw hm hY (n := n)
    refine (vassign_spec (hX.grow n) (grow_vw m n) (hd.safe rfl rfl) Nat.one_pos).mono ?_
    intro _ m1 s1
    have hm1 : WF m1 := (hm.grow n).step s1
    refine (inner m1 m.next hm1 ((grow_vw m n).step s1) ((hY.grow n).step s1)
      (fun e => by subst e; exact hdY.symm.safe rfl rfl)).mono
        fun Yc m2 h => h.mono fun _ m3 h => h.mono fun _ m4 s => ?_
    rw [Run_free]
    refine Step.of_temp hm ?_ ?_ ?_ ?_
    · rw [s.ok, s1.ok]
    · exact s1.next.trans s.next
    · intro i hi' j hj
      have e1 : m1.val (Y + i * incY) = m.val (Y + i * incY) := by
        have := Step.mat_of_disj s1 (hY.grow n) hdY (i := i) (j := 0) hi' Nat.one_pos
        simpa [Mem.mat, Win.adr, Mem.grow] using this
      rw [s.val i hi' j hj, e1]
      have := Step.vval s1 (i := i) hi'
      rw [Nat.mul_one] at this
      rw [this]
      simp [Mem.grow]
    · intro b hb hn
      rw [s.frame b (by rw [s1.ok]; exact grow_ok hb) hn, s1.frame b (grow_ok hb) (not_new hm hb)]
      rfl

lemma vscal_spec (cat : Cat) (a : K) (hm : WF m) (hX : OkIn m (vw X incX n)) (hY : OkIn m (vw Y incY n))
    (hs : (vw X incX n).Safe (vw Y incY n)) (hi : 0 < incX) (hj : 0 < incY) :
    Run (vscal cat n a X incX Y incY) m
      (fun _ m' => Step m m' (vw Y incY n) (fun i _ => a * m.val (X + i * incX))) := by
  unfold vscal
  rif h1
  · subst h1
    simpa only [one_mul] using vassign_spec hX hY hs hj
  rif h2
  · subst h2
    simpa only [neg_one_mul] using vneg_spec hX hY hs hj
  rif h3
  · subst h3
    simpa only [zero_mul] using vzero_spec hY hj
  · cases cat with
    | generic =>
      simp only
      rif h4
      · obtain ⟨rfl, rfl⟩ := h4
        simpa only [Nat.mul_one] using Run_map1 (fun x => a * x) hX hY hs hj
      · rw [cnt_pos hi]
        exact Run_map1 (fun x => a * x) hX hY hs hj
    | modular =>
      simp only
      rif h4
      · obtain ⟨rfl, rfl⟩ := h4
        simpa only [Nat.mul_one] using scalp_spec a hX hY hs
      rif h5
      · unfold scalpInc2
        rw [cnt_pos hi]
        exact Run_map1 (fun x => a * x) hX hY hs hj
      · exact via_copy (fun x _ => a * x) (fun X Y => scalp Y a X n)
          (fun m X Y h1 h2 h3 => scalp_spec a h1 h2 h3) hm hX hY hs hi hj

/-- Addition and subtraction; for a generic field, subtraction needs all increments equal to 1. -/
lemma vaddsub_spec (cat : Cat) (ADD : Bool) {Z incZ : ℕ} (hX : OkIn m (vw X incX n)) (hZ : OkIn m (vw Z incZ n))
    (hY : OkIn m (vw Y incY n)) (hs : (vw X incX n).Safe (vw Y incY n)) (hsz : (vw Z incZ n).Safe (vw Y incY n))
    (hj : 0 < incY) (hgen : ADD = true ∨ cat = .modular ∨ (incX = 1 ∧ incZ = 1 ∧ incY = 1)) :
    Run (vaddsub cat ADD n X incX Z incZ Y incY) m
      (fun _ m' => Step m m' (vw Y incY n) (fun i _ =>
        if ADD then m.val (X + i * incX) + m.val (Z + i * incZ) else m.val (X + i * incX) - m.val (Z + i * incZ))) := by
  unfold vaddsub
  rif h1
  · obtain ⟨rfl, rfl, rfl⟩ := h1
    simpa only [Nat.mul_one] using Run_map2 (fun x z => if ADD then x + z else x - z) hX hZ hY hs hsz hj
  · cases cat with
    | modular => exact Run_map2 (fun x z => if ADD then x + z else x - z) hX hZ hY hs hsz hj
    | generic =>
      rcases hgen with rfl | h | h
      · exact Run_map2 (fun x z => x + z) hX hZ hY hs hsz hj
      · exact absurd h (by simp)
      · exact absurd h h1

lemma vadd_spec (cat : Cat) {Z incZ : ℕ} (hX : OkIn m (vw X incX n)) (hZ : OkIn m (vw Z incZ n))
    (hY : OkIn m (vw Y incY n)) (hs : (vw X incX n).Safe (vw Y incY n)) (hsz : (vw Z incZ n).Safe (vw Y incY n))
    (hj : 0 < incY) : Run (vadd cat n X incX Z incZ Y incY) m
      (fun _ m' => Step m m' (vw Y incY n) (fun i _ => m.val (X + i * incX) + m.val (Z + i * incZ))) := by
  unfold vadd
  simpa using vaddsub_spec cat true hX hZ hY hs hsz hj (Or.inl rfl)

lemma vsub_spec (cat : Cat) {Z incZ : ℕ} (hX : OkIn m (vw X incX n)) (hZ : OkIn m (vw Z incZ n))
    (hY : OkIn m (vw Y incY n)) (hs : (vw X incX n).Safe (vw Y incY n)) (hsz : (vw Z incZ n).Safe (vw Y incY n))
    (hj : 0 < incY) (hgen : cat = .modular ∨ (incX = 1 ∧ incZ = 1 ∧ incY = 1)) :
    Run (vsub cat n X incX Z incZ Y incY) m
      (fun _ m' => Step m m' (vw Y incY n) (fun i _ => m.val (X + i * incX) - m.val (Z + i * incZ))) := by
  unfold vsub
  simpa using vaddsub_spec cat false hX hZ hY hs hsz hj (Or.inr hgen)

lemma vaddin_spec (cat : Cat) (hX : OkIn m (vw X incX n)) (hY : OkIn m (vw Y incY n))
    (hs : (vw X incX n).Safe (vw Y incY n)) (hj : 0 < incY) : Run (vaddin cat n X incX Y incY) m
      (fun _ m' => Step m m' (vw Y incY n) (fun i _ => m.val (X + i * incX) + m.val (Y + i * incY))) :=
  vadd_spec cat hX hY hY hs (vw_Inj hj).safe hj

lemma vsubin_spec (cat : Cat) (hX : OkIn m (vw X incX n)) (hY : OkIn m (vw Y incY n))
    (hs : (vw X incX n).Safe (vw Y incY n)) (hj : 0 < incY) (hgen : cat = .modular ∨ (incX = 1 ∧ incY = 1)) :
    Run (vsubin cat n X incX Y incY) m
      (fun _ m' => Step m m' (vw Y incY n) (fun i _ => m.val (Y + i * incY) - m.val (X + i * incX))) :=
  vsub_spec cat hY hX hY (vw_Inj hj).safe hs hj (by tauto)

lemma vaxpy_spec (cat : Cat) (a : K) (hm : WF m) (hX : OkIn m (vw X incX n)) (hY : OkIn m (vw Y incY n))
    (hs : (vw X incX n).Safe (vw Y incY n)) (hi : 0 < incX) (hj : 0 < incY)
    (hgen : cat = .modular ∨ (incX = 1 ∧ incY = 1) ∨ a ≠ -1 ∨ a = 1) :
    Run (vaxpy cat n a X incX Y incY) m
      (fun _ m' => Step m m' (vw Y incY n) (fun i _ => a * m.val (X + i * incX) + m.val (Y + i * incY))) := by
  unfold vaxpy
  cases cat with
  | generic =>
    simp only
    split_ifs with h1 h2 h3
    · subst h1
      simp only [Run_pure]
      exact Step.refl (fun i hi j hj => by
        obtain rfl : j = 0 := by simpa using hj
        simp [Mem.mat])
    · subst h2
      simpa only [one_mul] using vaddin_spec .generic hX hY hs hj
    · subst h3
      refine (vsubin_spec .generic hX hY hs hj ?_).mono (fun _ _ s => s.congr (by intros; ring))
      rcases hgen with h | h | h | h
      · exact Or.inl h
      · exact Or.inr h
      · exact absurd rfl h
      · exact absurd h h2
    · exact axpypInc_spec a hX hY hs hi hj
  | modular =>
    simp only
    rif h4
    · obtain ⟨rfl, rfl⟩ := h4
      simpa only [Nat.mul_one] using axpyp_spec a hX hY hs
    rif h5
    · exact axpypInc_spec a hX hY hs hi hj
    · exact via_copy (fun x y => a * x + y) (fun X Y => axpyp a X Y n)
        (fun m X Y h1 h2 h3 => axpyp_spec a h1 h2 h3) hm hX hY hs hi hj

/-- `C ← A + alpha B`: `A` is disjoint from `C`, or is exactly `C`. -/
lemma vaddmul_spec (cat : Cat) (a : K) {Z incZ : ℕ} (hm : WF m) (hX : OkIn m (vw X incX n)) (hZ : OkIn m (vw Z incZ n))
    (hY : OkIn m (vw Y incY n)) (hs : (vw X incX n).Disj (vw Y incY n) ∨ (X = Y ∧ incX = incY))
    (hsz : (vw Z incZ n).Safe (vw Y incY n)) (hi : 0 < incX) (hk : 0 < incZ) (hj : 0 < incY)
    (hgen : cat = .modular ∨ (incX = 1 ∧ incZ = 1 ∧ incY = 1) ∨ a ≠ -1 ∨ a = 1) :
    Run (vaddmul cat n X incX a Z incZ Y incY) m
      (fun _ m' => Step m m' (vw Y incY n) (fun i _ => m.val (X + i * incX) + a * m.val (Z + i * incZ))) := by
  unfold vaddmul
  by_cases h0 : Y = X ∧ incX = incY
  · rw [if_pos h0]
    obtain ⟨rfl, rfl⟩ := h0
    exact (vaxpy_spec cat a hm hZ hY hsz hk hj (by tauto)).mono (fun _ _ s => s.congr (by intros; ring))
  rw [if_neg h0]
  have hs : (vw X incX n).Disj (vw Y incY n) := by
    rcases hs with h | ⟨h, h'⟩
    · exact h
    · exact absurd ⟨h.symm, h'⟩ h0
  have hs' := hs.safe rfl rfl
  have body : ∀ incX incZ incY, 0 < incY → OkIn m (vw X incX n) → OkIn m (vw Z incZ n) → OkIn m (vw Y incY n) →
      (vw X incX n).Disj (vw Y incY n) → (vw Z incZ n).Safe (vw Y incY n) →
      Run (loop n fun i => do
        let b ← load (Z + i * incZ)
        store (Y + i * incY) (a * b)
        let x ← load (X + i * incX)
        let c ← load (Y + i * incY)
        store (Y + i * incY) (c + x)) m
      (fun _ m' => Step m m' (vw Y incY n) (fun i _ => m.val (X + i * incX) + a * m.val (Z + i * incZ))) := by
    intro incX incZ incY hj hX hZ hY hs hsz
    refine Run_vec (fun i => m.val (X + i * incX) + a * m.val (Z + i * incZ)) hY (vw_Inj hj) ?_
    intro t ht m' h1 h2
    obtain ⟨e1, e2⟩ := vec_rd hX (hs.safe rfl rfl) ht h1 h2
    obtain ⟨e3, e4⟩ := vec_rd hZ hsz ht h1 h2
    have hne : X + t * incX ≠ Y + t * incY := fun e =>
      hs (X + t * incX) ⟨t, ht, 0, Nat.one_pos, rfl⟩ ⟨t, ht, 0, Nat.one_pos, e⟩
    simp only [Run_bind, Run_load, Run_store, Mem.set_ok, Mem.set_val, e1, e2, e3, e4, h1, OkIn_vw hY ht, true_and,
      Function.update_self, Function.update_of_ne hne]
    simp only [Mem.set, Function.update_idem, add_comm]
  split_ifs with h1 h2 h3 h4
  · subst h1
    simpa only [one_mul] using vadd_spec cat hX hZ hY hs' hsz hj
  · subst h2
    refine (vsub_spec cat hX hZ hY hs' hsz hj ?_).mono (fun _ _ s => s.congr (by intros; ring))
    rcases hgen with h | h | h | h
    · exact Or.inl h
    · exact Or.inr h
    · exact absurd rfl h
    · exact absurd h h1
  · subst h3
    simpa only [zero_mul, add_zero] using vassign_spec hX hY hs' hj
  · obtain ⟨rfl, rfl, rfl⟩ := h4
    simpa only [Nat.mul_one] using body 1 1 1 Nat.one_pos hX hZ hY hs hsz
  · rw [cnt_pos hi]
    exact body incX incZ incY hj hX hZ hY hs hsz

lemma vdot_spec (hX : OkIn m (vw X incX n)) (hY : OkIn m (vw Y incY n)) (hi : 0 < incX) :
    Run (vdot n X incX Y incY) m (fun d m' => m' = m ∧
      d = ∑ i ∈ Finset.range n, m.val (X + i * incX) * m.val (Y + i * incY)) := by
  unfold vdot
  rw [cnt_pos hi]
  refine Run_iter (fun k d m' => m' = m ∧ d = ∑ i ∈ Finset.range k, m.val (X + i * incX) * m.val (Y + i * incY))
    ⟨rfl, by simp⟩ ?_
  rintro k d m' hk ⟨rfl, rfl⟩
  simp only [Run_bind, Run_load, Run_pure, OkIn_vw hX hk, OkIn_vw hY hk, true_and, Finset.sum_range_succ]

end vec

/-! ## Two-dimensional kernels -/

section mat
omit [CommRing K] [DecidableEq K]
variable {m : Mem K} {M N A lda B ldb C ldc : ℕ}

lemma flat_lt {M N i j : ℕ} (hi : i < M) (hj : j < N) : i * N + j < M * N := by
  calc i * N + j < i * N + N := by omega
    _ = (i + 1) * N := by ring
    _ ≤ M * N := Nat.mul_le_mul_right _ hi

lemma flat_OkIn (h : OkIn m ⟨A, N, M, N⟩) : OkIn m (vw A 1 (M * N)) := fun a ha => h a ((flat_Has ..).1 ha)

lemma flat_Safe (h : (Win.mk A N M N).Safe ⟨C, N, M, N⟩) : (vw A 1 (M * N)).Safe (vw C 1 (M * N)) := by
  intro i hi j hj i' hi' j' hj' e
  have hj : j = 0 := by simpa using hj
  have hj' : j' = 0 := by simpa using hj'
  subst hj; subst hj'
  have hi : i < M * N := hi
  have hi' : i' < M * N := hi'
  rcases Nat.eq_zero_or_pos N with rfl | hN
  · simp at hi
  have hd : i / N < M := (Nat.div_lt_iff_lt_mul hN).2 hi
  have hd' : i' / N < M := (Nat.div_lt_iff_lt_mul hN).2 hi'
  have e1 := Nat.div_add_mod i N
  have e2 := Nat.div_add_mod i' N
  simp only [Win.adr_mk, Nat.mul_one, Nat.add_zero] at e
  obtain ⟨q1, q2⟩ := h (i / N) hd (i % N) (Nat.mod_lt _ hN) (i' / N) hd' (i' % N) (Nat.mod_lt _ hN) (by
    simp only [Win.adr_mk]
    rw [Nat.mul_comm (i / N), Nat.mul_comm (i' / N)]; omega)
  refine ⟨?_, rfl⟩
  rw [← e1, ← e2, q1, q2]

lemma row_OkIn {W : Win} (h : OkIn m W) {i : ℕ} (hi : i < W.r) : OkIn m (vw (W.p + i * W.ld) 1 W.c) :=
  fun a ha => h a (Win.row_Has hi ha)

lemma row_Safe {X Y : Win} (h : X.Safe Y) {i : ℕ} (hi : i < Y.r) :
    (vw (X.p + i * X.ld) 1 Y.c).Safe (vw (Y.p + i * Y.ld) 1 Y.c) := by
  intro j hj z hz j' hj' z' hz' e
  have hz : z = 0 := by simpa using hz
  have hz' : z' = 0 := by simpa using hz'
  subst hz; subst hz'
  simp only [Win.adr_mk, Nat.mul_one, Nat.add_zero] at e
  exact ⟨(h i hi j hj i hi j' hj' e).2, rfl⟩

/-- contiguous case -/
lemma Run_flat2 (φ : K → K → K) (p : Prog K Unit)
    (hp : Run p m (fun _ m' => Step m m' (vw C 1 (M * N)) (fun t _ => φ (m.val (A + t)) (m.val (B + t))))) :
    Run p m (fun _ m' => Step m m' ⟨C, N, M, N⟩ (fun i j => φ (m.mat ⟨A, N, M, N⟩ i j) (m.mat ⟨B, N, M, N⟩ i j))) := by
  refine hp.mono (fun _ _ s => s.of_flat ?_)
  intro i hi j hj
  simp only [Mem.mat, Win.adr_mk, Nat.add_assoc]

/-- row by row case -/
lemma Run_rows2 (φ : K → K → K) (f : ℕ → Prog K Unit) (hm : WF m)
    (hA : OkIn m ⟨A, lda, M, N⟩) (hB : OkIn m ⟨B, ldb, M, N⟩) (hC : OkIn m ⟨C, ldc, M, N⟩)
    (hinj : (Win.mk C ldc M N).Inj)
    (hsA : (Win.mk A lda M N).Safe ⟨C, ldc, M, N⟩) (hsB : (Win.mk B ldb M N).Safe ⟨C, ldc, M, N⟩)
    (hf : ∀ i < M, ∀ m' : Mem K, WF m' → OkIn m' (vw (A + i * lda) 1 N) → OkIn m' (vw (B + i * ldb) 1 N) →
      OkIn m' (vw (C + i * ldc) 1 N) → (vw (A + i * lda) 1 N).Safe (vw (C + i * ldc) 1 N) →
      (vw (B + i * ldb) 1 N).Safe (vw (C + i * ldc) 1 N) →
      Run (f i) m' (fun _ m'' => Step m' m'' (vw (C + i * ldc) 1 N)
        (fun j _ => φ (m'.val (A + i * lda + j)) (m'.val (B + i * ldb + j))))) :
    Run (loop M f) m (fun _ m' => Step m m' ⟨C, ldc, M, N⟩
      (fun i j => φ (m.mat ⟨A, lda, M, N⟩ i j) (m.mat ⟨B, ldb, M, N⟩ i j))) := by
  refine Run_rows (W := ⟨C, ldc, M, N⟩) _ hC hinj ?_
  intro i hi m' h1 h2 h3
  have hi : i < M := hi
  have tr : ∀ W : Win, OkIn m W → OkIn m' W := fun W h a ha => by rw [h1]; exact h a ha
  refine (hf i hi m' (fun a ha => by rw [h1]; exact hm a (h2.trans ha)) (row_OkIn (tr _ hA) hi) (row_OkIn (tr _ hB) hi)
    (row_OkIn (tr _ hC) hi) (row_Safe hsA hi) (row_Safe hsB hi)).mono ?_
  intro _ m'' s
  refine s.congr ?_
  intro j hj z _
  have rd : ∀ X ldx, OkIn m ⟨X, ldx, M, N⟩ → (Win.mk X ldx M N).Safe ⟨C, ldc, M, N⟩ →
      m'.val (X + i * ldx + j) = m.val (X + i * ldx + j) := by
    intro X ldx hX hs
    refine h3 _ (hX.adr (i := i) (j := j) hi hj) ?_
    intro i' hi' hne j' hj' e
    exact hne (hs i hi j hj i' hi' j' hj' e).1.symm
  rw [rd A lda hA hsA, rd B ldb hB hsB]
  rfl

end mat

section mat
variable {m : Mem K} {M N A lda B ldb C ldc : ℕ}

/-- one-dimensional specification of a two-input contiguous kernel -/
def Ker2 (φ : K → K → K) (op : ℕ → ℕ → ℕ → ℕ → Prog K Unit) : Prop :=
  ∀ (m : Mem K) (n A B C : ℕ), WF m → OkIn m (vw A 1 n) → OkIn m (vw B 1 n) → OkIn m (vw C 1 n) →
    (vw A 1 n).Safe (vw C 1 n) → (vw B 1 n).Safe (vw C 1 n) →
    Run (op n A B C) m (fun _ m' => Step m m' (vw C 1 n) (fun i _ => φ (m.val (A + i)) (m.val (B + i))))

omit [CommRing K] [DecidableEq K] in
lemma Ker2.flat {φ : K → K → K} {op : ℕ → ℕ → ℕ → ℕ → Prog K Unit} (h : Ker2 φ op) (hm : WF m)
    (hA : OkIn m ⟨A, N, M, N⟩) (hB : OkIn m ⟨B, N, M, N⟩) (hC : OkIn m ⟨C, N, M, N⟩)
    (hsA : (Win.mk A N M N).Safe ⟨C, N, M, N⟩) (hsB : (Win.mk B N M N).Safe ⟨C, N, M, N⟩) :
    Run (op (M * N) A B C) m (fun _ m' => Step m m' ⟨C, N, M, N⟩
      (fun i j => φ (m.mat ⟨A, N, M, N⟩ i j) (m.mat ⟨B, N, M, N⟩ i j))) :=
  Run_flat2 φ _ (h m _ _ _ _ hm (flat_OkIn hA) (flat_OkIn hB) (flat_OkIn hC) (flat_Safe hsA) (flat_Safe hsB))

omit [CommRing K] [DecidableEq K] in
lemma Ker2.rows {φ : K → K → K} {op : ℕ → ℕ → ℕ → ℕ → Prog K Unit} (h : Ker2 φ op) (hm : WF m)
    (hA : OkIn m ⟨A, lda, M, N⟩) (hB : OkIn m ⟨B, ldb, M, N⟩) (hC : OkIn m ⟨C, ldc, M, N⟩)
    (hinj : (Win.mk C ldc M N).Inj)
    (hsA : (Win.mk A lda M N).Safe ⟨C, ldc, M, N⟩) (hsB : (Win.mk B ldb M N).Safe ⟨C, ldc, M, N⟩) :
    Run (loop M fun i => op N (A + i * lda) (B + i * ldb) (C + i * ldc)) m (fun _ m' => Step m m' ⟨C, ldc, M, N⟩
      (fun i j => φ (m.mat ⟨A, lda, M, N⟩ i j) (m.mat ⟨B, ldb, M, N⟩ i j))) :=
  Run_rows2 φ _ hm hA hB hC hinj hsA hsB (fun i _ m' hm' h1 h2 h3 h4 h5 => h m' _ _ _ _ hm' h1 h2 h3 h4 h5)

lemma ker_zero : Ker2 (fun _ _ => (0 : K)) (fun n _ _ C => vzero n C 1) :=
  fun _ _ _ _ _ _ _ _ h _ _ => vzero_spec h Nat.one_pos
lemma ker_assign : Ker2 (fun x _ => (x : K)) (fun n A _ C => vassign n A 1 C 1) :=
  fun m n A B C _ hA _ hC hs _ => by simpa only [Nat.mul_one] using vassign_spec hA hC hs Nat.one_pos
lemma ker_neg : Ker2 (fun x _ => - (x : K)) (fun n A _ C => vneg n A 1 C 1) :=
  fun m n A B C _ hA _ hC hs _ => by simpa only [Nat.mul_one] using vneg_spec hA hC hs Nat.one_pos
lemma ker_scal (cat : Cat) (a : K) : Ker2 (fun x _ => a * x) (fun n A _ C => vscal cat n a A 1 C 1) :=
  fun m n A B C hm hA _ hC hs _ => by
    simpa only [Nat.mul_one] using vscal_spec cat a hm hA hC hs Nat.one_pos Nat.one_pos
lemma ker_add (cat : Cat) : Ker2 (fun x y => (x : K) + y) (fun n A B C => vadd cat n A 1 B 1 C 1) :=
  fun m n A B C _ hA hB hC hs hs2 => by simpa only [Nat.mul_one] using vadd_spec cat hA hB hC hs hs2 Nat.one_pos
lemma ker_sub (cat : Cat) : Ker2 (fun x y => (x : K) - y) (fun n A B C => vsub cat n A 1 B 1 C 1) :=
  fun m n A B C _ hA hB hC hs hs2 => by
    simpa only [Nat.mul_one] using vsub_spec cat hA hB hC hs hs2 Nat.one_pos (Or.inr ⟨rfl, rfl, rfl⟩)

/-- one-dimensional specification of a contiguous kernel updating its second argument -/
def KerIn (φ : K → K → K) (op : ℕ → ℕ → ℕ → Prog K Unit) : Prop :=
  ∀ (m : Mem K) (n A C : ℕ), WF m → OkIn m (vw A 1 n) → OkIn m (vw C 1 n) →
    (vw A 1 n).Safe (vw C 1 n) →
    Run (op n A C) m (fun _ m' => Step m m' (vw C 1 n) (fun i _ => φ (m.val (A + i)) (m.val (C + i))))

omit [CommRing K] [DecidableEq K] in
lemma KerIn.flat {φ : K → K → K} {op : ℕ → ℕ → ℕ → Prog K Unit} (h : KerIn φ op) (hm : WF m)
    (hA : OkIn m ⟨A, N, M, N⟩) (hC : OkIn m ⟨C, N, M, N⟩) (hsA : (Win.mk A N M N).Safe ⟨C, N, M, N⟩) :
    Run (op (M * N) A C) m (fun _ m' => Step m m' ⟨C, N, M, N⟩
      (fun i j => φ (m.mat ⟨A, N, M, N⟩ i j) (m.mat ⟨C, N, M, N⟩ i j))) :=
  Run_flat2 φ _ (h m _ _ _ hm (flat_OkIn hA) (flat_OkIn hC) (flat_Safe hsA))

omit [CommRing K] [DecidableEq K] in
lemma KerIn.rows {φ : K → K → K} {op : ℕ → ℕ → ℕ → Prog K Unit} (h : KerIn φ op) (hm : WF m)
    (hA : OkIn m ⟨A, lda, M, N⟩) (hC : OkIn m ⟨C, ldc, M, N⟩) (hinj : (Win.mk C ldc M N).Inj)
    (hsA : (Win.mk A lda M N).Safe ⟨C, ldc, M, N⟩) :
    Run (loop M fun i => op N (A + i * lda) (C + i * ldc)) m (fun _ m' => Step m m' ⟨C, ldc, M, N⟩
      (fun i j => φ (m.mat ⟨A, lda, M, N⟩ i j) (m.mat ⟨C, ldc, M, N⟩ i j))) :=
  Run_rows2 φ _ hm hA hC hC hinj hsA hinj.safe (fun i _ m' hm' h1 h2 _ h4 _ => h m' _ _ _ hm' h1 h2 h4)

lemma ker_negin : KerIn (fun _ y => - (y : K)) (fun n _ C => vnegin n C 1) :=
  fun m n A C _ _ hC _ => by simpa only [Nat.mul_one] using vnegin_spec hC Nat.one_pos
lemma ker_scalin (cat : Cat) (a : K) : KerIn (fun _ y => a * y) (fun n _ C => vscalin cat n a C 1) :=
  fun m n A C hm _ hC _ => by simpa only [Nat.mul_one] using vscalin_spec cat a hm hC Nat.one_pos
lemma ker_addin (cat : Cat) : KerIn (fun x y => (x : K) + y) (fun n A C => vaddin cat n A 1 C 1) :=
  fun m n A C _ hA hC hs => by simpa only [Nat.mul_one] using vaddin_spec cat hA hC hs Nat.one_pos
lemma ker_subin (cat : Cat) : KerIn (fun x y => (y : K) - x) (fun n A C => vsubin cat n A 1 C 1) :=
  fun m n A C _ hA hC hs => by
    simpa only [Nat.mul_one] using vsubin_spec cat hA hC hs Nat.one_pos (Or.inr ⟨rfl, rfl⟩)
lemma ker_axpy (cat : Cat) (a : K) : KerIn (fun x y => a * x + y) (fun n A C => vaxpy cat n a A 1 C 1) :=
  fun m n A C hm hA hC hs => by
    simpa only [Nat.mul_one] using vaxpy_spec cat a hm hA hC hs Nat.one_pos Nat.one_pos (Or.inr (Or.inl ⟨rfl, rfl⟩))

/-! ### The 2-D routines

`N ≤ ld` makes the rows of a matrix disjoint. -/

lemma fit_Inj {P ld M N : ℕ} (h : N ≤ ld) : (Win.mk P ld M N).Inj := Win.Inj_of_le (Or.inl h)

lemma loop_cnt {W : Win} {ld M N : ℕ} (h : N ≤ ld) (f : ℕ → Prog K Unit) (g : ℕ → ℕ → K) (hWr : W.r = M) (hWc : W.c = N)
    (hf : Run (loop M f) m (fun _ m' => Step m m' W g)) :
    Run (loop (cnt M ld) f) m (fun _ m' => Step m m' W g) := by
  unfold cnt
  split_ifs with h0
  · refine (Run_pure () m _).2 (Step.refl ?_)
    intro i _ j hj; omega
  · exact hf

lemma fzero_spec (hm : WF m) (hA : OkIn m ⟨A, lda, M, N⟩) (hl : N ≤ lda) :
    Run (fzero M N A lda) m (fun _ m' => Step m m' ⟨A, lda, M, N⟩ (fun _ _ => 0)) := by
  unfold fzero
  rif h
  · subst h
    exact ker_zero.flat hm hA hA hA (fit_Inj hl).safe (fit_Inj hl).safe
  · exact ker_zero.rows hm hA hA hA (fit_Inj hl) (fit_Inj hl).safe (fit_Inj hl).safe

lemma fassign_spec (hm : WF m) (hB : OkIn m ⟨B, ldb, M, N⟩) (hA : OkIn m ⟨A, lda, M, N⟩) (hl : N ≤ lda)
    (hs : (Win.mk B ldb M N).Safe ⟨A, lda, M, N⟩) :
    Run (fassign M N B ldb A lda) m (fun _ m' => Step m m' ⟨A, lda, M, N⟩ (fun i j => m.mat ⟨B, ldb, M, N⟩ i j)) := by
  unfold fassign
  rif h
  · refine (Run_pure () m _).2 (Step.refl ?_)
    intro i hi j hj
    have hi : i < M := hi
    have hj : j < N := hj
    omega
  rif h2
  · obtain ⟨rfl, rfl⟩ := h2
    exact ker_assign.flat hm hB hA hA hs (fit_Inj hl).safe
  · exact ker_assign.rows hm hB hA hA (fit_Inj hl) hs (fit_Inj hl).safe

lemma fnegin_spec (hm : WF m) (hA : OkIn m ⟨A, lda, M, N⟩) (hl : N ≤ lda) :
    Run (fnegin M N A lda) m (fun _ m' => Step m m' ⟨A, lda, M, N⟩ (fun i j => - m.mat ⟨A, lda, M, N⟩ i j)) :=
  ker_negin.rows hm hA hA (fit_Inj hl) (fit_Inj hl).safe

lemma fneg_spec (hm : WF m) (hB : OkIn m ⟨B, ldb, M, N⟩) (hA : OkIn m ⟨A, lda, M, N⟩) (hl : N ≤ lda)
    (hs : (Win.mk B ldb M N).Safe ⟨A, lda, M, N⟩) :
    Run (fneg M N B ldb A lda) m (fun _ m' => Step m m' ⟨A, lda, M, N⟩ (fun i j => - m.mat ⟨B, ldb, M, N⟩ i j)) :=
  ker_neg.rows hm hB hA hA (fit_Inj hl) hs (fit_Inj hl).safe

lemma fscalin_spec (cat : Cat) (a : K) (hm : WF m) (hA : OkIn m ⟨A, lda, M, N⟩) (hl : N ≤ lda) :
    Run (fscalin cat M N a A lda) m
      (fun _ m' => Step m m' ⟨A, lda, M, N⟩ (fun i j => a * m.mat ⟨A, lda, M, N⟩ i j)) := by
  unfold fscalin
  rif h1
  · subst h1
    exact (Run_pure () m _).2 (Step.refl (by simp))
  rif h2
  · subst h2
    simpa only [zero_mul] using fzero_spec hm hA hl
  rif h3
  · subst h3
    simpa only [neg_one_mul] using fnegin_spec hm hA hl
  rif h4
  · subst h4
    rw [Nat.mul_comm]
    exact (ker_scalin cat a).flat hm hA hA (fit_Inj hl).safe
  · exact (ker_scalin cat a).rows hm hA hA (fit_Inj hl) (fit_Inj hl).safe

lemma fscal_spec (cat : Cat) (a : K) (hm : WF m) (hB : OkIn m ⟨B, ldb, M, N⟩) (hA : OkIn m ⟨A, lda, M, N⟩) (hl : N ≤ lda)
    (hs : (Win.mk B ldb M N).Safe ⟨A, lda, M, N⟩) :
    Run (fscal cat M N a B ldb A lda) m
      (fun _ m' => Step m m' ⟨A, lda, M, N⟩ (fun i j => a * m.mat ⟨B, ldb, M, N⟩ i j)) := by
  unfold fscal
  rif h1
  · subst h1
    simpa only [one_mul] using fassign_spec hm hB hA hl hs
  rif h2
  · subst h2
    simpa only [zero_mul] using fzero_spec hm hA hl
  rif h3
  · subst h3
    simpa only [neg_one_mul] using fneg_spec hm hB hA hl hs
  rif h4
  · obtain ⟨rfl, rfl⟩ := h4
    exact (ker_scal cat a).flat hm hB hA hA hs (fit_Inj hl).safe
  · exact (ker_scal cat a).rows hm hB hA hA (fit_Inj hl) hs (fit_Inj hl).safe

lemma fadd_spec (cat : Cat) (hm : WF m) (hA : OkIn m ⟨A, lda, M, N⟩) (hB : OkIn m ⟨B, ldb, M, N⟩)
    (hC : OkIn m ⟨C, ldc, M, N⟩) (hla : N ≤ lda) (hl : N ≤ ldc)
    (hsA : (Win.mk A lda M N).Safe ⟨C, ldc, M, N⟩) (hsB : (Win.mk B ldb M N).Safe ⟨C, ldc, M, N⟩) :
    Run (fadd cat M N A lda B ldb C ldc) m (fun _ m' => Step m m' ⟨C, ldc, M, N⟩
      (fun i j => m.mat ⟨A, lda, M, N⟩ i j + m.mat ⟨B, ldb, M, N⟩ i j)) := by
  unfold fadd
  rif h
  · obtain ⟨rfl, rfl, rfl⟩ := h
    exact (ker_add cat).flat hm hA hB hC hsA hsB
  · exact loop_cnt hla _ _ rfl rfl ((ker_add cat).rows hm hA hB hC (fit_Inj hl) hsA hsB)

lemma fsub_spec (cat : Cat) (hm : WF m) (hA : OkIn m ⟨A, lda, M, N⟩) (hB : OkIn m ⟨B, ldb, M, N⟩)
    (hC : OkIn m ⟨C, ldc, M, N⟩) (hla : N ≤ lda) (hl : N ≤ ldc)
    (hsA : (Win.mk A lda M N).Safe ⟨C, ldc, M, N⟩) (hsB : (Win.mk B ldb M N).Safe ⟨C, ldc, M, N⟩) :
    Run (fsub cat M N A lda B ldb C ldc) m (fun _ m' => Step m m' ⟨C, ldc, M, N⟩
      (fun i j => m.mat ⟨A, lda, M, N⟩ i j - m.mat ⟨B, ldb, M, N⟩ i j)) := by
  unfold fsub
  rif h
  · obtain ⟨rfl, rfl, rfl⟩ := h
    exact (ker_sub cat).flat hm hA hB hC hsA hsB
  · exact loop_cnt hla _ _ rfl rfl ((ker_sub cat).rows hm hA hB hC (fit_Inj hl) hsA hsB)

lemma faddin_spec (cat : Cat) (hm : WF m) (hB : OkIn m ⟨B, ldb, M, N⟩) (hC : OkIn m ⟨C, ldc, M, N⟩) (hlb : N ≤ ldb)
    (hl : N ≤ ldc) (hsB : (Win.mk B ldb M N).Safe ⟨C, ldc, M, N⟩) :
    Run (faddin cat M N B ldb C ldc) m (fun _ m' => Step m m' ⟨C, ldc, M, N⟩
      (fun i j => m.mat ⟨B, ldb, M, N⟩ i j + m.mat ⟨C, ldc, M, N⟩ i j)) := by
  unfold faddin
  rif h
  · obtain ⟨rfl, rfl⟩ := h
    exact (ker_addin cat).flat hm hB hC hsB
  · exact loop_cnt hlb _ _ rfl rfl ((ker_addin cat).rows hm hB hC (fit_Inj hl) hsB)

lemma fsubin_spec (cat : Cat) (hm : WF m) (hB : OkIn m ⟨B, ldb, M, N⟩) (hC : OkIn m ⟨C, ldc, M, N⟩) (hlb : N ≤ ldb)
    (hl : N ≤ ldc) (hsB : (Win.mk B ldb M N).Safe ⟨C, ldc, M, N⟩) :
    Run (fsubin cat M N B ldb C ldc) m (fun _ m' => Step m m' ⟨C, ldc, M, N⟩
      (fun i j => m.mat ⟨C, ldc, M, N⟩ i j - m.mat ⟨B, ldb, M, N⟩ i j)) := by
  unfold fsubin
  rif h
  · obtain ⟨rfl, rfl⟩ := h
    exact (ker_subin cat).flat hm hB hC hsB
  · exact loop_cnt hlb _ _ rfl rfl ((ker_subin cat).rows hm hB hC (fit_Inj hl) hsB)

lemma faxpy_spec (cat : Cat) (a : K) (hm : WF m) (hB : OkIn m ⟨B, ldb, M, N⟩) (hC : OkIn m ⟨C, ldc, M, N⟩) (hlb : N ≤ ldb)
    (hl : N ≤ ldc) (hsB : (Win.mk B ldb M N).Safe ⟨C, ldc, M, N⟩) :
    Run (faxpy cat M N a B ldb C ldc) m (fun _ m' => Step m m' ⟨C, ldc, M, N⟩
      (fun i j => a * m.mat ⟨B, ldb, M, N⟩ i j + m.mat ⟨C, ldc, M, N⟩ i j)) := by
  unfold faxpy
  rif h1
  · subst h1
    exact (Run_pure () m _).2 (Step.refl (by simp))
  rif h2
  · subst h2
    simpa only [one_mul] using faddin_spec cat hm hB hC hlb hl hsB
  rif h3
  · subst h3
    exact (fsubin_spec cat hm hB hC hlb hl hsB).mono (fun _ _ s => s.congr (by intros; ring))
  rif h4
  · obtain ⟨rfl, rfl⟩ := h4
    exact (ker_axpy cat a).flat hm hB hC hsB
  · exact loop_cnt hlb _ _ rfl rfl ((ker_axpy cat a).rows hm hB hC (fit_Inj hl) hsB)

lemma Disj_row {X Y : Win} (h : X.Disj Y) (hr : X.r = Y.r) (hc : X.c = Y.c) {i : ℕ} (hi : i < Y.r) :
    (vw (X.p + i * X.ld) 1 Y.c).Disj (vw (Y.p + i * Y.ld) 1 Y.c) :=
  fun a ha hb => h a (Win.row_Has (i := i) (by omega) (by rw [← hc] at ha; exact ha)) (Win.row_Has hi hb)

lemma faddmul_spec (cat : Cat) (a : K) (hm : WF m) (hA : OkIn m ⟨A, lda, M, N⟩) (hB : OkIn m ⟨B, ldb, M, N⟩)
    (hC : OkIn m ⟨C, ldc, M, N⟩) (hla : N ≤ lda) (hlb : N ≤ ldb) (hl : N ≤ ldc)
    (hsA : (Win.mk A lda M N).Disj ⟨C, ldc, M, N⟩ ∨ (A = C ∧ lda = ldc))
    (hsB : (Win.mk B ldb M N).Safe ⟨C, ldc, M, N⟩) :
    Run (faddmul cat M N A lda a B ldb C ldc) m (fun _ m' => Step m m' ⟨C, ldc, M, N⟩
      (fun i j => m.mat ⟨A, lda, M, N⟩ i j + a * m.mat ⟨B, ldb, M, N⟩ i j)) := by
  unfold faddmul
  rif h0
  · obtain ⟨rfl, rfl⟩ := h0
    exact (faxpy_spec cat a hm hB hC hlb hl hsB).mono (fun _ _ s => s.congr (by intros; ring))
  have hd : (Win.mk A lda M N).Disj ⟨C, ldc, M, N⟩ := by
    rcases hsA with h | ⟨h, h'⟩
    · exact h
    · exact absurd ⟨h.symm, h'⟩ h0
  have hsA := hd.safe rfl rfl
  rif h1
  · subst h1
    simpa only [one_mul] using fadd_spec cat hm hA hB hC hla hl hsA hsB
  rif h2
  · subst h2
    exact (fsub_spec cat hm hA hB hC hla hl hsA hsB).mono (fun _ _ s => s.congr (by intros; ring))
  rif h3
  · subst h3
    simpa only [zero_mul, add_zero] using fassign_spec hm hA hC hl hsA
  rif h4
  · obtain ⟨rfl, rfl, rfl⟩ := h4
    refine Run_flat2 (fun x y => x + a * y) _ ?_
    have := vaddmul_spec (incX := 1) (incZ := 1) (incY := 1) cat a hm (flat_OkIn hA) (flat_OkIn hB) (flat_OkIn hC)
      (Or.inl (fun b hb hb' => hd b ((flat_Has ..).1 hb) ((flat_Has ..).1 hb'))) (flat_Safe hsB) Nat.one_pos Nat.one_pos
      Nat.one_pos (Or.inr (Or.inl ⟨rfl, rfl, rfl⟩))
    simpa only [Nat.mul_one] using this
  · refine loop_cnt hla _ _ rfl rfl (Run_rows2 (fun x y => x + a * y) _ hm hA hB hC (fit_Inj hl) hsA hsB ?_)
    intro i hi m' hm' h1 h2 h3 h4 h5
    have hne : ∀ t < N, A + i * lda + t ≠ C + i * ldc + t := fun t ht e =>
      hd _ (Win.Has_adr (W := ⟨A, lda, M, N⟩) hi ht) ⟨i, hi, t, ht, e⟩
    refine (Run_vec (fun t => m'.val (A + i * lda + t) + a * m'.val (B + i * ldb + t)) h3 (vw_Inj Nat.one_pos) ?_)
    intro t ht m'' g1 g2
    obtain ⟨e1, e2⟩ := vec_rd h1 h4 ht g1 g2
    obtain ⟨e3, e4⟩ := vec_rd h2 h5 ht g1 g2
    have e5 := OkIn_vw h3 ht
    simp only [Nat.mul_one] at e1 e2 e3 e4 e5 ⊢
    simp only [Run_bind, Run_load, Run_store, Mem.set_ok, Mem.set_val, e1, e2, e3, e4, g1, e5, true_and,
      Function.update_self, Function.update_of_ne (hne t ht)]
    simp only [Mem.set, Function.update_idem, add_comm]

end mat

end FF
end Verif
