import Verif.Model.Monotonic
import Verif.Proofs.Level1
import Verif.Proofs.Perm
import Mathlib.Data.Finset.Card

/-!
# Correctness of MonotonicApplyP
-/

namespace Verif.FF

open Verif.Perm Finset

variable {K : Type} [CommRing K] [DecidableEq K]

/-- entry `k` of line `i` -/
abbrev ln (A lda incA i k : ℕ) : ℕ := A + i * lda + k * incA

/-- `len` lines of `M` entries, pairwise distinct cells, all allocated -/
structure Lines (μ0 : Mem K) (A lda incA len M : ℕ) : Prop where
  wf : WF μ0
  ok : ∀ i < len, ∀ k < M, μ0.ok (ln A lda incA i k) = true
  inj : ∀ i < len, ∀ k < M, ∀ i' < len, ∀ k' < M, ln A lda incA i k = ln A lda incA i' k' → i = i' ∧ k = k'
  inc : 0 < incA

/-- memory during the moves: the lines hold `V`; a temporary of `c` lines was allocated; other cells are unchanged -/
structure Mv (μ0 μ : Mem K) (A lda incA len M c : ℕ) (V : ℕ → ℕ → K) : Prop where
  ok : μ.ok = (μ0.grow (c * M)).ok
  next : (μ0.grow (c * M)).next ≤ μ.next
  val : ∀ i < len, ∀ k < M, μ.val (ln A lda incA i k) = V i k
  frame : ∀ a, μ0.ok a = true → (∀ i < len, ∀ k < M, a ≠ ln A lda incA i k) → μ.val a = μ0.val a

section
variable {μ0 μ : Mem K} {A lda incA len M c : ℕ} {V U : ℕ → ℕ → K}

omit [CommRing K] [DecidableEq K] in
lemma Mv.congr (h : Mv μ0 μ A lda incA len M c V) (e : ∀ i < len, ∀ k < M, V i k = U i k) : Mv μ0 μ A lda incA len M c U :=
  ⟨h.ok, h.next, fun i hi k hk => by rw [h.val i hi k hk, e i hi k hk], h.frame⟩

omit [CommRing K] [DecidableEq K] in
lemma vw_adr (X inc i j : ℕ) : (vw X inc n).adr i j = X + i * inc + j := rfl

omit [CommRing K] [DecidableEq K] in
lemma Has_vw {X inc n a : ℕ} : (vw X inc n).Has a ↔ ∃ k < n, a = X + k * inc := by
  constructor
  · rintro ⟨i, hi, z, hz, rfl⟩
    have hz : z = 0 := by simpa [vw] using hz
    subst hz
    exact ⟨i, hi, rfl⟩
  · rintro ⟨k, hk, rfl⟩
    exact ⟨k, hk, 0, Nat.one_pos, rfl⟩

/-- a copy of a vector, with the cells spelled out -/
lemma vassign_cells {X incX Y incY n : ℕ} (hX : ∀ k < n, μ.ok (X + k * incX) = true) (hY : ∀ k < n, μ.ok (Y + k * incY) = true)
    (hd : ∀ k < n, ∀ k' < n, X + k * incX ≠ Y + k' * incY) (hi : 0 < incY) :
    Run (vassign n X incX Y incY) μ (fun _ μ' => μ'.ok = μ.ok ∧ μ.next ≤ μ'.next ∧
      (∀ k < n, μ'.val (Y + k * incY) = μ.val (X + k * incX)) ∧
      ∀ a, μ.ok a = true → (∀ k < n, a ≠ Y + k * incY) → μ'.val a = μ.val a) := by
  have hdj : (vw X incX n).Disj (vw Y incY n) := by
    intro a h1 h2
    obtain ⟨k, hk, rfl⟩ := Has_vw.1 h1
    obtain ⟨k', hk', e⟩ := Has_vw.1 h2
    exact hd k hk k' hk' e
  refine (vassign_spec ?_ ?_ (hdj.safe rfl rfl) hi).mono ?_
  · intro a ha; obtain ⟨k, hk, rfl⟩ := Has_vw.1 ha; exact hX k hk
  · intro a ha; obtain ⟨k, hk, rfl⟩ := Has_vw.1 ha; exact hY k hk
  · intro _ μ' s
    refine ⟨s.ok, s.next, fun k hk => s.val k hk 0 Nat.one_pos, fun a ha hn => s.frame a ha ?_⟩
    intro h
    obtain ⟨k, hk, e⟩ := Has_vw.1 h
    exact hn k hk e

omit [CommRing K] [DecidableEq K] in
lemma Lines.lt (L : Lines μ0 A lda incA len M) {i k : ℕ} (hi : i < len) (hk : k < M) : ln A lda incA i k < μ0.next := by
  by_contra h
  have := L.ok i hi k hk
  rw [L.wf _ (by omega)] at this
  simp at this

omit [CommRing K] [DecidableEq K] in
lemma tmp_lt {j c k M : ℕ} (hj : j < c) (hk : k < M) : j * M + k < c * M := by
  have : (j + 1) * M ≤ c * M := Nat.mul_le_mul_right _ hj
  rw [Nat.add_mul] at this
  omega

lemma Mv.line_ok (L : Lines μ0 A lda incA len M) (h : Mv μ0 μ A lda incA len M c V) {i k : ℕ} (hi : i < len) (hk : k < M) :
    μ.ok (A + i * lda + k * incA) = true := by
  rw [h.ok]; exact grow_ok (L.ok i hi k hk)

omit [CommRing K] [DecidableEq K] in
lemma Mv.tmp_ok (h : Mv μ0 μ A lda incA len M c V) {j k : ℕ} (hj : j < c) (hk : k < M) :
    μ.ok (μ0.next + j * M + k) = true := by
  have := tmp_lt hj hk
  rw [h.ok]
  simp only [Mem.grow]
  simp only [Bool.or_eq_true, Bool.and_eq_true, decide_eq_true_eq]
  right
  omega

/-- line `s` is copied to line `d` -/
lemma cp_line (L : Lines μ0 A lda incA len M) (h : Mv μ0 μ A lda incA len M c V) {s d : ℕ} (hs : s < len) (hd : d < len) (hsd : s ≠ d) :
    Run (vassign M (A + s * lda) incA (A + d * lda) incA) μ (fun _ μ' =>
      Mv μ0 μ' A lda incA len M c (fun i k => if i = d then V s k else V i k) ∧
      ∀ j < c, ∀ k < M, μ'.val (μ0.next + j * M + k) = μ.val (μ0.next + j * M + k)) := by
  refine (vassign_cells (fun k hk => h.line_ok L hs hk) (fun k hk => h.line_ok L hd hk)
    (fun k hk k' hk' e => hsd (L.inj s hs k hk d hd k' hk' e).1) L.inc).mono ?_
  rintro _ μ' ⟨o, n, v, f⟩
  refine ⟨⟨o.trans h.ok, h.next.trans n, ?_, ?_⟩, ?_⟩
  · intro i hi k hk
    by_cases e : i = d
    · subst e
      rw [if_pos rfl, ← h.val s hs k hk]
      exact v k hk
    · rw [if_neg e, ← h.val i hi k hk]
      exact f _ (h.line_ok L hi hk) (fun k' hk' e' => e (L.inj i hi k hk d hd k' hk' e').1)
  · intro a ha hn
    rw [← h.frame a ha hn]
    exact f a (by rw [h.ok]; exact grow_ok ha) (fun k hk => hn d hd k hk)
  · intro j hj k hk
    refine f _ (h.tmp_ok hj hk) (fun k' hk' e => ?_)
    have := L.lt hd hk'
    simp only [ln] at this
    omega

/-- line `s` is copied to line `j` of the temporary -/
lemma cp_save (L : Lines μ0 A lda incA len M) (h : Mv μ0 μ A lda incA len M c V) {s j : ℕ} (hs : s < len) (hj : j < c) :
    Run (vassign M (A + s * lda) incA (μ0.next + j * M) 1) μ (fun _ μ' =>
      Mv μ0 μ' A lda incA len M c V ∧ (∀ k < M, μ'.val (μ0.next + j * M + k) = V s k) ∧
      ∀ j' < c, j' ≠ j → ∀ k < M, μ'.val (μ0.next + j' * M + k) = μ.val (μ0.next + j' * M + k)) := by
  refine (vassign_cells (fun k hk => h.line_ok L hs hk) (fun k hk => by rw [Nat.mul_one]; exact h.tmp_ok hj hk) ?_ Nat.one_pos).mono ?_
  · intro k hk k' hk' e
    have := L.lt hs hk
    simp only [ln] at this
    omega
  rintro _ μ' ⟨o, n, v, f⟩
  refine ⟨⟨o.trans h.ok, h.next.trans n, ?_, ?_⟩, ?_, ?_⟩
  · intro i hi k hk
    rw [← h.val i hi k hk]
    refine f _ (h.line_ok L hi hk) (fun k' hk' e' => ?_)
    have := L.lt hi hk
    simp only [ln] at this e'
    omega
  · intro a ha hn
    rw [← h.frame a ha hn]
    refine f a (by rw [h.ok]; exact grow_ok ha) (fun k hk e => ?_)
    rw [L.wf a (by omega)] at ha
    simp at ha
  · intro k hk
    have := v k hk
    rw [Nat.mul_one] at this
    rw [this]
    exact h.val s hs k hk
  · intro j' hj' hne k hk
    refine f _ (h.tmp_ok hj' hk) (fun k' hk' e => hne ?_)
    have e : j' * M + k = j * M + k' := by omega
    have h1 : (j' * M + k) / M = j' := by rw [Nat.mul_comm, Nat.mul_add_div (by omega), Nat.div_eq_of_lt hk, Nat.add_zero]
    have h2 : (j * M + k') / M = j := by rw [Nat.mul_comm, Nat.mul_add_div (by omega), Nat.div_eq_of_lt hk', Nat.add_zero]
    rw [← h1, ← h2, e]

/-- line `j` of the temporary is copied to line `d` -/
lemma cp_restore (L : Lines μ0 A lda incA len M) (h : Mv μ0 μ A lda incA len M c V) {d j : ℕ} (hd : d < len) (hj : j < c) :
    Run (vassign M (μ0.next + j * M) 1 (A + d * lda) incA) μ (fun _ μ' =>
      Mv μ0 μ' A lda incA len M c (fun i k => if i = d then μ.val (μ0.next + j * M + k) else V i k) ∧
      ∀ j' < c, ∀ k < M, μ'.val (μ0.next + j' * M + k) = μ.val (μ0.next + j' * M + k)) := by
  refine (vassign_cells (fun k hk => by rw [Nat.mul_one]; exact h.tmp_ok hj hk) (fun k hk => h.line_ok L hd hk) ?_ L.inc).mono ?_
  · intro k hk k' hk' e
    have := L.lt hd hk'
    simp only [ln] at this
    omega
  rintro _ μ' ⟨o, n, v, f⟩
  refine ⟨⟨o.trans h.ok, h.next.trans n, ?_, ?_⟩, ?_⟩
  · intro i hi k hk
    by_cases e : i = d
    · subst e
      have := v k hk
      rw [Nat.mul_one] at this
      rw [if_pos rfl]
      exact this
    · rw [if_neg e, ← h.val i hi k hk]
      exact f _ (h.line_ok L hi hk) (fun k' hk' e' => e (L.inj i hi k hk d hd k' hk' e').1)
  · intro a ha hn
    rw [← h.frame a ha hn]
    exact f a (by rw [h.ok]; exact grow_ok ha) (fun k hk => hn d hd k hk)
  · intro j' hj' k hk
    refine f _ (h.tmp_ok hj' hk) (fun k' hk' e => ?_)
    have := L.lt hd hk'
    simp only [ln] at this
    omega

/-! ### Saving and restoring the pivots -/

/-- number of `x < i` with `f x ≠ x` -/
def mvCnt (f : ℕ → ℕ) (i : ℕ) : ℕ := ((range i).filter (fun x => f x ≠ x)).card

omit [CommRing K] [DecidableEq K] in
lemma mvCnt_succ (f : ℕ → ℕ) (i : ℕ) : mvCnt f (i + 1) = mvCnt f i + if f i ≠ i then 1 else 0 := by
  unfold mvCnt
  rw [range_add_one, filter_insert]
  split_ifs with h
  · rw [card_insert_of_notMem (by simp)]
  · simp

omit [CommRing K] [DecidableEq K] in
lemma mvCnt_mono (f : ℕ → ℕ) {i j : ℕ} (h : i ≤ j) : mvCnt f i ≤ mvCnt f j :=
  card_le_card (filter_subset_filter _ (range_mono h))

omit [CommRing K] [DecidableEq K] in
lemma mvCnt_lt (f : ℕ → ℕ) {i j : ℕ} (h : i < j) (hf : f i ≠ i) : mvCnt f i < mvCnt f j := by
  have := mvCnt_mono f (show i + 1 ≤ j from h)
  rw [mvCnt_succ, if_pos hf] at this
  omega

lemma savePivots_spec {byP : Bool} {MathP : Arr ℕ} {R : ℕ} (L : Lines μ0 A lda incA len M)
    (h : Mv μ0 μ A lda incA len M (mvCnt MathP.get R) V) (hlen : R ≤ MathP.len) (hR : R ≤ len)
    (hP : ∀ i < R, MathP.get i < len) :
    Run (savePivots byP M A lda incA μ0.next MathP R) μ (fun _ μ' => Mv μ0 μ' A lda incA len M (mvCnt MathP.get R) V ∧
      ∀ x < R, MathP.get x ≠ x → ∀ k < M,
        μ'.val (μ0.next + mvCnt MathP.get x * M + k) = V (if byP then MathP.get x else x) k) := by
  unfold savePivots
  refine (Run_iter (fun i j μ' => j = mvCnt MathP.get i ∧ Mv μ0 μ' A lda incA len M (mvCnt MathP.get R) V ∧
    ∀ x < i, MathP.get x ≠ x → ∀ k < M,
        μ'.val (μ0.next + mvCnt MathP.get x * M + k) = V (if byP then MathP.get x else x) k) ⟨by simp [mvCnt], h, by simp⟩ ?_).mono ?_
  · rintro i j μ1 hi ⟨rfl, h1, h2⟩
    rw [Run_bind]
    refine (Run_liftE _ _ _).2 ((Ok_rd _ _ _).2 ⟨by omega, ?_⟩)
    rif c
    · rw [Run_bind]
      refine (cp_save L h1 (j := mvCnt MathP.get i) ?_ (mvCnt_lt _ hi c)).mono ?_
      · have := hP i hi
        split_ifs <;> omega
      rintro _ μ2 ⟨q1, q2, q3⟩
      rw [Run_pure]
      refine ⟨by rw [mvCnt_succ, if_pos c], q1, ?_⟩
      intro x hx hfx k hk
      by_cases e : x = i
      · subst e
        exact q2 k hk
      · have hlt := mvCnt_lt MathP.get (show x < i by omega) hfx
        rw [q3 _ (lt_trans hlt (mvCnt_lt _ hi c)) (by omega) k hk]
        exact h2 x (by omega) hfx k hk
    · rw [Run_pure]
      refine ⟨by rw [mvCnt_succ, if_neg c]; rfl, h1, fun x hx hfx k hk => ?_⟩
      refine h2 x ?_ hfx k hk
      have : x ≠ i := by rintro rfl; exact c hfx
      omega
  · rintro _ μ' ⟨_, h1, h2⟩
    exact ⟨h1, h2⟩

lemma restorePivots_spec {byP : Bool} {MathP : Arr ℕ} {R : ℕ} {G : ℕ → ℕ → K} (L : Lines μ0 A lda incA len M)
    (h : Mv μ0 μ A lda incA len M (mvCnt MathP.get R) V) (hlen : R ≤ MathP.len) (hR : R ≤ len)
    (hP : ∀ i < R, MathP.get i < len) (hinj : ∀ i < R, ∀ j < R, MathP.get i = MathP.get j → i = j)
    (hT : ∀ x < R, MathP.get x ≠ x → ∀ k < M, μ.val (μ0.next + mvCnt MathP.get x * M + k) = G x k) :
    Run (restorePivots byP M A lda incA μ0.next MathP R) μ (fun _ μ' => ∃ U, Mv μ0 μ' A lda incA len M (mvCnt MathP.get R) U ∧
      (∀ x < R, MathP.get x ≠ x → ∀ k < M, U (if byP then MathP.get x else x) k = G x k) ∧
      ∀ i, (∀ x < R, MathP.get x ≠ x → i ≠ (if byP then MathP.get x else x)) → U i = V i) := by
  unfold restorePivots
  have tinj : ∀ x < R, ∀ y < R, (if byP then MathP.get x else x) = (if byP then MathP.get y else y) → x = y := by
    intro x hx y hy e
    cases byP
    · simpa using e
    · exact hinj x hx y hy (by simpa using e)
  refine (Run_iter (fun i j μ' => j = mvCnt MathP.get i ∧ ∃ U, Mv μ0 μ' A lda incA len M (mvCnt MathP.get R) U ∧
    (∀ x < R, MathP.get x ≠ x → ∀ k < M, μ'.val (μ0.next + mvCnt MathP.get x * M + k) = G x k) ∧
      (∀ x < i, MathP.get x ≠ x → ∀ k < M, U (if byP then MathP.get x else x) k = G x k) ∧
      ∀ l, (∀ x < i, MathP.get x ≠ x → l ≠ (if byP then MathP.get x else x)) → U l = V l)
    ⟨by simp [mvCnt], V, h, hT, by simp, by simp⟩ ?_).mono ?_
  · rintro i j μ1 hi ⟨rfl, U, h1, h2, h3, h4⟩
    rw [Run_bind]
    refine (Run_liftE _ _ _).2 ((Ok_rd _ _ _).2 ⟨by omega, ?_⟩)
    rif c
    · rw [Run_bind]
      refine (cp_restore L h1 (d := if byP then MathP.get i else i) (j := mvCnt MathP.get i) ?_ (mvCnt_lt _ hi c)).mono ?_
      · have := hP i hi
        split_ifs <;> omega
      rintro _ μ2 ⟨q1, q2⟩
      rw [Run_pure]
      refine ⟨by rw [mvCnt_succ, if_pos c], _, q1, ?_, ?_, ?_⟩
      · intro x hx hfx k hk
        rw [q2 _ (mvCnt_lt _ hx hfx) k hk]
        exact h2 x hx hfx k hk
      · intro x hx hfx k hk
        by_cases e : x = i
        · subst e
          rw [if_pos rfl]
          exact h2 x hi hfx k hk
        · rw [if_neg (fun e' => e (tinj x (by omega) i hi e'))]
          exact h3 x (by omega) hfx k hk
      · intro l hl
        funext k
        rw [if_neg (hl i (by omega) c)]
        rw [h4 l (fun x hx => hl x (by omega))]
    · rw [Run_pure]
      have hne : ∀ x, x < i + 1 → MathP.get x ≠ x → x < i := by
        intro x hx hfx
        have : x ≠ i := by rintro rfl; exact c hfx
        omega
      refine ⟨by rw [mvCnt_succ, if_neg c]; rfl, U, h1, h2, fun x hx hfx k hk => h3 x (hne x hx hfx) hfx k hk, fun l hl => h4 l (fun x hx => hl x (by omega))⟩
  · rintro _ μ' ⟨_, U, h1, h2, h3, h4⟩
    exact ⟨U, h1, h3, h4⟩

/-! ### Moving the lines that are not pivots -/

/-- number of `x < s` that are not marked -/
def npCnt (ispiv : ℕ → Bool) (s : ℕ) : ℕ := ((range s).filter (fun x => ispiv x = false)).card

omit [CommRing K] [DecidableEq K] in
lemma npCnt_succ (f : ℕ → Bool) (i : ℕ) : npCnt f (i + 1) = npCnt f i + if f i = false then 1 else 0 := by
  unfold npCnt
  rw [range_add_one, filter_insert]
  split_ifs with h
  · rw [card_insert_of_notMem (by simp)]
  · simp

omit [CommRing K] [DecidableEq K] in
lemma npCnt_mono (f : ℕ → Bool) {i j : ℕ} (h : i ≤ j) : npCnt f i ≤ npCnt f j :=
  card_le_card (filter_subset_filter _ (range_mono h))

omit [CommRing K] [DecidableEq K] in
lemma npCnt_lt (f : ℕ → Bool) {i j : ℕ} (h : i < j) (hf : f i = false) : npCnt f i < npCnt f j := by
  have := npCnt_mono f (show i + 1 ≤ j from h)
  rw [npCnt_succ, if_pos hf] at this
  omega

lemma compressMove_spec {ispiv : Arr Bool} {R : ℕ} (L : Lines μ0 A lda incA len M) (hl : ispiv.len = len) :
    ∀ (s d : ℕ) (μ : Mem K) (V : ℕ → ℕ → K), Mv μ0 μ A lda incA len M c V → d = R + npCnt ispiv.get s → s < d → d ≤ len →
    Run (compressMove M A lda incA R ispiv s d) μ (fun _ μ' => ∃ U, Mv μ0 μ' A lda incA len M c U ∧
      (∀ x < s, ispiv.get x = false → U (R + npCnt ispiv.get x) = V x) ∧ (∀ i, i < R ∨ d ≤ i → U i = V i) ∧
      ∀ j < c, ∀ k < M, μ'.val (μ0.next + j * M + k) = μ.val (μ0.next + j * M + k)) := by
  intro s
  induction s with
  | zero =>
    intro d μ V h hd _ _
    have : d = R := by simpa [npCnt] using hd
    unfold compressMove
    rw [if_neg (by omega), Run_pure]
    exact ⟨V, h, by simp, fun _ _ => rfl, fun _ _ _ _ => rfl⟩
  | succ s ih =>
    intro d μ V h hd hsd hdl
    unfold compressMove
    rif c1
    · rw [Run_bind]
      refine (Run_liftE _ _ _).2 ((Ok_rd _ _ _).2 ⟨by omega, ?_⟩)
      rw [npCnt_succ] at hd
      rif c2
      · rw [if_neg (by rw [c2]; simp)] at hd
        refine (ih d μ V h hd (by omega) hdl).mono ?_
        rintro _ μ' ⟨U, h1, h2, h3, h4⟩
        refine ⟨U, h1, fun x hx hp => h2 x ?_ hp, h3, h4⟩
        have : x ≠ s := by rintro rfl; rw [hp] at c2; simp at c2
        omega
      · have c2 : ispiv.get s = false := by simpa using c2
        rw [if_pos c2] at hd
        rw [Run_bind]
        refine (cp_line L h (s := s) (d := d - 1) (by omega) (by omega) (by omega)).mono ?_
        rintro _ μ1 ⟨q1, q2⟩
        refine (ih (d - 1) μ1 _ q1 (by omega) (by omega) (by omega)).mono ?_
        rintro _ μ' ⟨U, h1, h2, h3, h4⟩
        refine ⟨U, h1, ?_, ?_, fun j hj k hk => (h4 j hj k hk).trans (q2 j hj k hk)⟩
        · intro x hx hp
          by_cases e : x = s
          · subst e
            rw [h3 _ (Or.inr (by omega))]
            funext k
            rw [if_pos (by omega)]
          · rw [h2 x (by omega) hp]
            funext k
            rw [if_neg (by omega)]
        · intro i hi
          rw [h3 i (by omega)]
          funext k
          rw [if_neg (by omega)]
    · rw [Run_pure]
      refine ⟨V, h, ?_, fun _ _ => rfl, fun _ _ _ _ => rfl⟩
      intro x hx hp
      have := npCnt_lt _ hx hp
      omega

lemma expandMove_spec {ispiv : Arr Bool} {R maxpiv : ℕ} (L : Lines μ0 A lda incA len M) (hl : ispiv.len = len) (hm : maxpiv < len)
    (hlt : ∀ d, R + npCnt ispiv.get d ≤ maxpiv → d < R + npCnt ispiv.get d) :
    ∀ (fuel src dest : ℕ) (μ : Mem K) (V : ℕ → ℕ → K), Mv μ0 μ A lda incA len M c V → src = R + npCnt ispiv.get dest →
    dest ≤ maxpiv + 1 → maxpiv + 2 ≤ fuel + dest →
    Run (expandMove M A lda incA maxpiv ispiv fuel src dest) μ (fun _ μ' => ∃ U, Mv μ0 μ' A lda incA len M c U ∧
      (∀ x, dest ≤ x → ispiv.get x = false → R + npCnt ispiv.get x ≤ maxpiv → U x = V (R + npCnt ispiv.get x)) ∧
      (∀ x, x < dest ∨ ispiv.get x = true ∨ maxpiv < x → U x = V x) ∧
      ∀ j < c, ∀ k < M, μ'.val (μ0.next + j * M + k) = μ.val (μ0.next + j * M + k)) := by
  intro fuel
  induction fuel with
  | zero => intro src dest μ V _ _ _ _; omega
  | succ fuel ih =>
    intro src dest μ V h hs hd hf
    unfold expandMove
    rif c1
    · have hds := hlt dest (by omega)
      rw [Run_bind]
      refine (Run_liftE _ _ _).2 ((Ok_rd _ _ _).2 ⟨by omega, ?_⟩)
      rif c2
      · refine (ih src (dest + 1) μ V h (by rw [npCnt_succ, if_neg (by rw [c2]; simp)]; omega) (by omega) (by omega)).mono ?_
        rintro _ μ' ⟨U, h1, h2, h3, h4⟩
        refine ⟨U, h1, fun x hx hp => h2 x ?_ hp, fun x hx => h3 x (hx.imp_left fun h => by omega), h4⟩
        have : x ≠ dest := by rintro rfl; rw [hp] at c2; simp at c2
        omega
      · have c2 : ispiv.get dest = false := by simpa using c2
        rw [Run_bind]
        refine (cp_line L h (s := src) (d := dest) (by omega) (by omega) (by omega)).mono ?_
        rintro _ μ1 ⟨q1, q2⟩
        refine (ih (src + 1) (dest + 1) μ1 _ q1 (by rw [npCnt_succ, if_pos c2]; omega) (by omega) (by omega)).mono ?_
        rintro _ μ' ⟨U, h1, h2, h3, h4⟩
        refine ⟨U, h1, ?_, ?_, fun j hj k hk => (h4 j hj k hk).trans (q2 j hj k hk)⟩
        · intro x hx hp hle
          by_cases e : x = dest
          · subst e
            rw [h3 x (Or.inl (by omega))]
            funext k
            rw [if_pos rfl, hs]
          · have := npCnt_mono ispiv.get hx
            rw [h2 x (by omega) hp hle]
            funext k
            rw [if_neg (by omega)]
        · intro x hx
          have hne : x ≠ dest := by
            rintro rfl
            rcases hx with hx | hx | hx
            · omega
            · rw [c2] at hx; simp at hx
            · omega
          rw [h3 x (hx.imp_left fun h => by omega)]
          funext k
          rw [if_neg hne]
    · rw [Run_pure]
      refine ⟨V, h, ?_, fun _ _ => rfl, fun _ _ _ _ => rfl⟩
      intro x hx hp hle
      have := npCnt_mono ispiv.get hx
      omega

/-! ### One block -/

/-- what the marking loop computed -/
structure Marked (MathP : Arr ℕ) (len R maxpiv : ℕ) (ispiv : Arr Bool) : Prop where
  hR : R ≤ len
  plen : MathP.len = len
  lt : ∀ i < R, MathP.get i < len
  inj : ∀ i < R, ∀ j < R, MathP.get i = MathP.get j → i = j
  ilen : ispiv.len = len
  iff : ∀ x, ispiv.get x = true ↔ ∃ i < R, MathP.get i = x
  mlt : maxpiv < len
  ge : R ≤ maxpiv + 1
  le : ∀ i < R, MathP.get i ≤ maxpiv
  piv : R ≤ maxpiv → ispiv.get maxpiv = true

section Marked
variable {MathP : Arr ℕ} {R maxpiv : ℕ} {ispiv : Arr Bool}

omit [CommRing K] [DecidableEq K] in
lemma Marked.count (h : Marked MathP len R maxpiv ispiv) {s : ℕ} (hs : maxpiv < s) : R + npCnt ispiv.get s = s := by
  have h1 : ((range s).filter (fun x => ispiv.get x = true)) = (range R).image MathP.get := by
    ext x
    simp only [mem_filter, mem_range, mem_image, h.iff]
    constructor
    · rintro ⟨_, i, hi, e⟩; exact ⟨i, hi, e⟩
    · rintro ⟨i, hi, rfl⟩; exact ⟨lt_of_le_of_lt (h.le i hi) hs, i, hi, rfl⟩
  have h2 : ((range R).image MathP.get).card = R := by
    rw [card_image_of_injOn, card_range]
    intro i hi j hj e
    exact h.inj i (by simpa using hi) j (by simpa using hj) e
  have h3 := card_filter_add_card_filter_not (s := range s) (fun x => ispiv.get x = true)
  rw [h1, h2, card_range] at h3
  simp only [Bool.not_eq_true] at h3
  exact h3

omit [CommRing K] [DecidableEq K] in
lemma Marked.count_max (h : Marked MathP len R maxpiv ispiv) : maxpiv + 1 = R + npCnt ispiv.get maxpiv := by
  have h1 := h.count (Nat.lt_succ_self maxpiv)
  rw [Nat.succ_eq_add_one, npCnt_succ] at h1
  by_cases c : R ≤ maxpiv
  · rw [if_neg (by rw [h.piv c]; simp)] at h1
    omega
  · split_ifs at h1 with c2
    · have := h.ge
      omega
    · omega

omit [CommRing K] [DecidableEq K] in
lemma Marked.lt_of (h : Marked MathP len R maxpiv ispiv) (d : ℕ) (hd : R + npCnt ispiv.get d ≤ maxpiv) :
    d < R + npCnt ispiv.get d := by
  by_contra hc
  have hm := h.count_max
  have h1 : d ≤ maxpiv := by
    by_contra h2
    have := h.count (show maxpiv < d by omega)
    omega
  -- from `d` to `maxpiv` the counter grows by at most one each step
  have grow : ∀ t, npCnt ispiv.get (d + t) ≤ npCnt ispiv.get d + t := by
    intro t
    induction t with
    | zero => simp
    | succ t ih =>
      rw [← Nat.add_assoc, npCnt_succ]
      split_ifs <;> omega
  have := grow (maxpiv - d)
  rw [Nat.add_sub_cancel' h1] at this
  omega

/-- the lines arranged: pivots first, in the order of `MathP`, then the others in their order -/
def Arranged (MathP : ℕ → ℕ) (ispiv : ℕ → Bool) (R len M : ℕ) (V U : ℕ → ℕ → K) : Prop :=
  (∀ i < R, ∀ k < M, U i k = V (MathP i) k) ∧ ∀ x < len, ispiv x = false → ∀ k < M, U (R + npCnt ispiv x) k = V x k

omit [CommRing K] [DecidableEq K] in
lemma Mv.start (hw : WF μ0) (n : ℕ) : Mv μ0 (μ0.grow (n * M)) A lda incA len M n (fun i k => μ0.val (ln A lda incA i k)) :=
  ⟨rfl, le_rfl, fun _ _ _ _ => rfl, fun _ _ _ => rfl⟩

/-- what a block does to the memory -/
structure BlockEff (μ0 μ : Mem K) (A lda incA len M : ℕ) (U : ℕ → ℕ → K) : Prop where
  ok : μ.ok = μ0.ok
  next : μ0.next ≤ μ.next
  val : ∀ i < len, ∀ k < M, μ.val (ln A lda incA i k) = U i k
  frame : ∀ a, μ0.ok a = true → (∀ i < len, ∀ k < M, a ≠ ln A lda incA i k) → μ.val a = μ0.val a

omit [CommRing K] [DecidableEq K] in
lemma Mv.finish (hw : WF μ0) {n : ℕ} (h : Mv μ0 μ A lda incA len M n U) : BlockEff μ0 (μ.drop μ0.next (n * M)) A lda incA len M U := by
  refine ⟨?_, ?_, h.val, h.frame⟩
  · funext a
    simp only [Mem.drop, h.ok, Mem.grow]
    by_cases c : μ0.next ≤ a
    · rw [hw a c]; simp
    · simp [c]
  · have := h.next
    simp only [Mem.drop]
    simp only [Mem.grow] at this
    omega

lemma monotonicCompress_spec (L : Lines μ0 A lda incA len M) (h : Marked MathP len R maxpiv ispiv) (hi : maxpiv < 2 ^ 31) :
    Run (monotonicCompress M A lda incA MathP R maxpiv (mvCnt MathP.get R) ispiv) μ0 (fun _ μ' => ∃ U,
      BlockEff μ0 μ' A lda incA len M U ∧ Arranged MathP.get ispiv.get R len M (fun i k => μ0.val (ln A lda incA i k)) U) := by
  unfold monotonicCompress
  rw [Run_bind, Run_alloc]
  change Run _ (μ0.grow (mvCnt MathP.get R * M)) _
  rw [Run_bind]
  refine (savePivots_spec L (Mv.start L.wf _) (by rw [h.plen]; exact h.hR) h.hR h.lt).mono ?_
  rintro _ μ1 ⟨h1, t1⟩
  rw [Run_bind]
  refine (Run_liftE _ _ _).2 ?_
  rw [toInt31, if_pos hi, Ok_ok, Run_bind]
  refine (compressMove_spec L h.ilen maxpiv (maxpiv + 1) μ1 _ h1 h.count_max (by omega) h.mlt).mono ?_
  rintro _ μ2 ⟨U2, h2, a2, b2, t2⟩
  rw [Run_bind]
  refine (restorePivots_spec (G := fun x k => μ0.val (ln A lda incA (MathP.get x) k)) L h2 (by rw [h.plen]; exact h.hR) h.hR h.lt h.inj ?_).mono ?_
  · intro x hx hfx k hk
    rw [t2 _ (mvCnt_lt _ hx hfx) k hk, t1 x hx hfx k hk]
    rfl
  rintro _ μ3 ⟨U3, h3, a3, b3⟩
  rw [Run_free]
  refine ⟨U3, h3.finish L.wf, ?_, ?_⟩
  · intro i hi k hk
    by_cases e : MathP.get i = i
    · rw [b3 i ?_, b2 i (Or.inl hi), e]
      intro x hx hfx e'
      have : i = x := by simpa using e'
      subst this
      exact hfx e
    · exact a3 i hi e k hk
  · intro x hx hp k hk
    rw [b3 _ (fun y hy _ e => by have : R + npCnt ispiv.get x = y := by simpa using e
                                 omega)]
    by_cases c : x < maxpiv
    · rw [a2 x c hp]
    · have hne : maxpiv < x := by
        rcases Nat.lt_or_ge maxpiv x with c2 | c2
        · exact c2
        · have : x = maxpiv := by omega
          subst this
          by_cases c3 : R ≤ x
          · rw [h.piv c3] at hp; simp at hp
          · have h1 := h.count_max
            have h2 := h.count (Nat.lt_succ_self x)
            rw [Nat.succ_eq_add_one, npCnt_succ, if_pos hp] at h2
            omega
      rw [h.count hne, b2 x (Or.inr (by omega))]

lemma monotonicExpand_spec (L : Lines μ0 A lda incA len M) (h : Marked MathP len R maxpiv ispiv) :
    Run (monotonicExpand M A lda incA MathP R maxpiv (mvCnt MathP.get R) ispiv) μ0 (fun _ μ' => ∃ U,
      BlockEff μ0 μ' A lda incA len M U ∧ Arranged MathP.get ispiv.get R len M U (fun i k => μ0.val (ln A lda incA i k))) := by
  unfold monotonicExpand
  rw [Run_bind, Run_alloc]
  change Run _ (μ0.grow (mvCnt MathP.get R * M)) _
  rw [Run_bind]
  refine (savePivots_spec L (Mv.start L.wf _) (by rw [h.plen]; exact h.hR) h.hR h.lt).mono ?_
  rintro _ μ1 ⟨h1, t1⟩
  rw [Run_bind]
  refine (expandMove_spec L h.ilen h.mlt h.lt_of (maxpiv + 2) R 0 μ1 _ h1 (by simp [npCnt]) (by omega) (by omega)).mono ?_
  rintro _ μ2 ⟨U2, h2, a2, b2, t2⟩
  rw [Run_bind]
  refine (restorePivots_spec (G := fun x k => μ0.val (ln A lda incA x k)) L h2 (by rw [h.plen]; exact h.hR) h.hR h.lt h.inj ?_).mono ?_
  · intro x hx hfx k hk
    rw [t2 _ (mvCnt_lt _ hx hfx) k hk, t1 x hx hfx k hk]
    rfl
  rintro _ μ3 ⟨U3, h3, a3, b3⟩
  rw [Run_free]
  refine ⟨U3, h3.finish L.wf, ?_, ?_⟩
  · intro i hi k hk
    by_cases e : MathP.get i = i
    · rw [e, b3 i ?_, b2 i (Or.inr (Or.inl ((h.iff i).2 ⟨i, hi, e⟩)))]
      intro x hx hfx e'
      have e' : i = MathP.get x := by simpa using e'
      have : i = x := h.inj i hi x hx (e.trans e')
      subst this
      exact hfx e
    · exact (a3 i hi e k hk).symm
  · intro x hx hp k hk
    rw [b3 x ?_]
    · by_cases c : R + npCnt ispiv.get x ≤ maxpiv
      · rw [a2 x (by omega) hp c]
      · have hne : maxpiv < x := by
          by_contra c2
          have h1 := h.count (Nat.lt_succ_self maxpiv)
          have h2 := npCnt_lt ispiv.get (show x < maxpiv + 1 by omega) hp
          simp only [Nat.succ_eq_add_one] at h1
          omega
        rw [h.count hne, b2 x (Or.inr (Or.inr hne))]
    · intro y hy _ e
      have e : x = MathP.get y := by simpa using e
      have := (h.iff x).2 ⟨y, hy, e.symm⟩
      rw [hp] at this
      simp at this

/-- `Arranged` or its inverse -/
def Moved (compress : Bool) (MathP : ℕ → ℕ) (ispiv : ℕ → Bool) (R len M : ℕ) (V U : ℕ → ℕ → K) : Prop :=
  if compress then Arranged MathP ispiv R len M V U else Arranged MathP ispiv R len M U V

lemma monotonicBlock_spec (compress : Bool) (L : Lines μ0 A lda incA len M) (h : Marked MathP len R maxpiv ispiv) (hi : maxpiv < 2 ^ 31) :
    Run (monotonicBlock compress M A lda incA MathP R maxpiv (mvCnt MathP.get R) ispiv) μ0 (fun _ μ' => ∃ U,
      BlockEff μ0 μ' A lda incA len M U ∧ Moved compress MathP.get ispiv.get R len M (fun i k => μ0.val (ln A lda incA i k)) U) := by
  unfold monotonicBlock Moved
  cases compress
  · exact monotonicExpand_spec L h
  · exact monotonicCompress_spec L h hi

omit [CommRing K] [DecidableEq K] in
lemma BlockEff.wf (hw : WF μ0) (h : BlockEff μ0 μ A lda incA len M U) : WF μ := fun a ha => by
  rw [h.ok]; exact hw a (le_trans h.next ha)

/-- the next block of entries -/
lemma monotonicBlock_step (compress : Bool) (L : Lines μ0 A lda incA len M) (h : Marked MathP len R maxpiv ispiv) (hi : maxpiv < 2 ^ 31)
    {lo w : ℕ} (hw : lo + w ≤ M) (h0 : BlockEff μ0 μ A lda incA len M U) (h1 : Moved compress MathP.get ispiv.get R len lo V U)
    (h2 : ∀ i < len, ∀ k, lo ≤ k → k < M → U i k = V i k) :
    Run (monotonicBlock compress w (A + lo * incA) lda incA MathP R maxpiv (mvCnt MathP.get R) ispiv) μ (fun _ μ' => ∃ U',
      BlockEff μ0 μ' A lda incA len M U' ∧ Moved compress MathP.get ispiv.get R len (lo + w) V U' ∧
      ∀ i < len, ∀ k, lo + w ≤ k → k < M → U' i k = V i k) := by
  have el : ∀ i k, ln (A + lo * incA) lda incA i k = ln A lda incA i (lo + k) := by
    intro i k; simp only [ln]; ring
  have Lb : Lines μ (A + lo * incA) lda incA len w := by
    refine ⟨h0.wf L.wf, ?_, ?_, L.inc⟩
    · intro i hi k hk
      rw [el, h0.ok]; exact L.ok i hi _ (by omega)
    · intro i hi k hk i' hi' k' hk' e
      rw [el, el] at e
      have := L.inj i hi _ (by omega) i' hi' _ (by omega) e
      omega
  refine (monotonicBlock_spec compress Lb h hi).mono ?_
  rintro _ μ' ⟨Ub, q, r⟩
  have hnot : ∀ i < len, ∀ k < M, ¬ (lo ≤ k ∧ k < lo + w) → μ'.val (ln A lda incA i k) = U i k := by
    intro i hi k hk hn
    rw [q.frame _ (by rw [h0.ok]; exact L.ok i hi k hk), h0.val i hi k hk]
    intro i' hi' k' hk' e
    rw [el] at e
    have := L.inj i hi k hk i' hi' _ (by omega) e
    omega
  refine ⟨fun i k => if lo ≤ k ∧ k < lo + w then Ub i (k - lo) else U i k, ⟨q.ok.trans h0.ok, h0.next.trans q.next, ?_, ?_⟩, ?_, ?_⟩
  · intro i hi k hk
    split_ifs with c
    · rw [← q.val i hi (k - lo) (by omega), el]
      congr 2
      omega
    · exact hnot i hi k hk c
  · intro a ha hn
    rw [q.frame a (by rw [h0.ok]; exact ha), h0.frame a ha hn]
    intro i hi k hk
    rw [el]
    exact hn i hi _ (by omega)
  · have hV : ∀ i < len, ∀ k < w, μ.val (ln (A + lo * incA) lda incA i k) = V i (lo + k) := by
      intro i hi k hk
      rw [el, h0.val i hi _ (by omega), h2 i hi _ (by omega) (by omega)]
    have hpos : ∀ x < len, ispiv.get x = false → R + npCnt ispiv.get x < len := by
      intro x hx hp
      have := npCnt_lt ispiv.get hx hp
      have := h.count h.mlt
      omega
    have key : ∀ k, k < lo + w → ¬ (lo ≤ k ∧ k < lo + w) → k < lo := by omega
    unfold Moved at h1 r ⊢
    cases compress
    · simp only [Bool.false_eq_true, if_false, Arranged] at h1 r ⊢
      constructor
      · intro i hi k hk
        split_ifs with c
        · rw [← r.1 i hi (k - lo) (by omega), hV i (by have := h.hR; omega) _ (by omega)]
          congr 1; omega
        · exact h1.1 i hi k (key k hk c)
      · intro x hx hp k hk
        split_ifs with c
        · rw [← r.2 x hx hp (k - lo) (by omega), hV _ (hpos x hx hp) _ (by omega)]
          congr 1; omega
        · exact h1.2 x hx hp k (key k hk c)
    · simp only [if_true, Arranged] at h1 r ⊢
      constructor
      · intro i hi k hk
        split_ifs with c
        · rw [r.1 i hi (k - lo) (by omega), hV _ (h.lt i hi) _ (by omega)]
          congr 1; omega
        · exact h1.1 i hi k (key k hk c)
      · intro x hx hp k hk
        split_ifs with c
        · rw [r.2 x hx hp (k - lo) (by omega), hV _ hx _ (by omega)]
          congr 1; omega
        · exact h1.2 x hx hp k (key k hk c)
  · intro i hi k h3 h4
    exact (if_neg (by omega)).trans (h2 i hi k (by omega) h4)

/-- all blocks -/
lemma monotonicBlocks_spec (compress : Bool) (L : Lines μ0 A lda incA len M) (h : Marked MathP len R maxpiv ispiv) (hi : maxpiv < 2 ^ 31) :
    Run (do
      loop (M / 32) fun i => monotonicBlock compress 32 (A + i * (32 * incA)) lda incA MathP R maxpiv (mvCnt MathP.get R) ispiv
      monotonicBlock compress (M % 32) (A + M / 32 * (32 * incA)) lda incA MathP R maxpiv (mvCnt MathP.get R) ispiv) μ0 (fun _ μ' => ∃ U,
      BlockEff μ0 μ' A lda incA len M U ∧ Moved compress MathP.get ispiv.get R len M (fun i k => μ0.val (ln A lda incA i k)) U) := by
  have hb : M / 32 * 32 + M % 32 = M := by omega
  have hz : ∀ V U : ℕ → ℕ → K, Moved compress MathP.get ispiv.get R len 0 V U := by
    intro V U
    unfold Moved Arranged
    split_ifs <;> simp
  rw [Run_bind]
  refine (Run_loop (fun t μ' => ∃ U, BlockEff μ0 μ' A lda incA len M U ∧
    Moved compress MathP.get ispiv.get R len (t * 32) (fun i k => μ0.val (ln A lda incA i k)) U ∧
    ∀ i < len, ∀ k, t * 32 ≤ k → k < M → U i k = μ0.val (ln A lda incA i k)) ?_ ?_).mono ?_
  · exact ⟨_, ⟨rfl, le_rfl, fun _ _ _ _ => rfl, fun _ _ _ => rfl⟩, by rw [Nat.zero_mul]; exact hz _ _, fun _ _ _ _ _ => rfl⟩
  · rintro t μ1 ht ⟨U, a1, a2, a3⟩
    have := monotonicBlock_step compress L h hi (lo := t * 32) (w := 32) (by omega) a1 a2 a3
    rw [show t * (32 * incA) = t * 32 * incA by ring, Nat.add_mul, Nat.one_mul]
    exact this
  · rintro _ μ1 ⟨U, a1, a2, a3⟩
    have := monotonicBlock_step compress L h hi (lo := M / 32 * 32) (w := M % 32) (by omega) a1 a2 a3
    rw [show M / 32 * (32 * incA) = M / 32 * 32 * incA by ring]
    refine this.mono ?_
    rintro _ μ2 ⟨U2, b1, b2, _⟩
    rw [hb] at b2
    exact ⟨U2, b1, b2⟩

end Marked

end

/-! ### The marking loop -/

omit K in
lemma markPivots_spec {MathP : Arr ℕ} {len R : ℕ} (hR : R ≤ len) (hl : MathP.len = len) (hlt : ∀ i < R, MathP.get i < len)
    (hinj : ∀ i < R, ∀ j < R, MathP.get i = MathP.get j → i = j) :
    Ok (markPivots MathP len R) (fun r => r.2.1 = mvCnt MathP.get R ∧
      (mvCnt MathP.get R ≠ 0 → Marked MathP len R r.2.2 r.1)) := by
  unfold markPivots
  refine (Ok_iter (fun i (r : Arr Bool × ℕ × ℕ) => r.2.1 = mvCnt MathP.get i ∧ r.1.len = len ∧
    (∀ x, r.1.get x = true ↔ ∃ j < i, MathP.get j = x) ∧
    (R ≠ 0 → r.2.2 < len ∧ R ≤ r.2.2 + 1 ∧ (∀ j < i, MathP.get j ≤ r.2.2) ∧ (R ≤ r.2.2 → r.1.get r.2.2 = true))) ?_ ?_).mono ?_
  · refine ⟨by simp [mvCnt], rfl, by simp [Arr.mk'], fun h => ?_⟩
    simp only [if_neg h]
    refine ⟨by omega, by omega, by simp, fun h2 => by omega⟩
  · rintro i ⟨ispiv, cnt, mx⟩ hi ⟨e1, e2, e3, e4⟩
    have hR0 : R ≠ 0 := by omega
    obtain ⟨f1, f2, f3, f4⟩ := e4 hR0
    simp only at e1 e2 e3 f1 f2 f3 f4
    simp only [Ok_bind, Ok_rd, Ok_wr]
    refine ⟨by omega, by rw [e2]; exact hlt i hi, ?_⟩
    have hx : ∀ x, Function.update ispiv.get (MathP.get i) true x = true ↔ ∃ j < i + 1, MathP.get j = x := by
      intro x
      by_cases e : x = MathP.get i
      · subst e
        simp only [Function.update_self, true_iff]
        exact ⟨i, by omega, rfl⟩
      · rw [Function.update_of_ne e, e3 x]
        constructor
        · rintro ⟨j, hj, h⟩; exact ⟨j, by omega, h⟩
        · rintro ⟨j, hj, h⟩
          refine ⟨j, ?_, h⟩
          have : j ≠ i := by rintro rfl; exact e h.symm
          omega
    have hge : ∀ j < R, MathP.get j = j ∨ MathP.get j ≠ j := fun j _ => em _
    rw [Ok_ite]
    constructor
    · intro c
      simp only [Ok_pure]
      refine ⟨by rw [mvCnt_succ, if_pos c, e1], e2, hx, fun _ => ?_⟩
      have hl := hlt i hi
      split_ifs with c2
      · refine ⟨hl, by omega, ?_, fun _ => (hx _).2 ⟨i, by omega, rfl⟩⟩
        intro j hj
        by_cases e : j = i
        · subst e; exact le_rfl
        · exact (f3 j (by omega)).trans c2.le
      · refine ⟨f1, f2, ?_, ?_⟩
        · intro j hj
          by_cases e : j = i
          · subst e; omega
          · exact f3 j (by omega)
        · intro h
          obtain ⟨j, hj, e⟩ := (e3 mx).1 (f4 h)
          exact (hx mx).2 ⟨j, by omega, e⟩
    · intro c
      have c : MathP.get i = i := not_not.1 c
      simp only [Ok_pure]
      refine ⟨by rw [mvCnt_succ, if_neg (by simp [c]), e1]; rfl, e2, hx, fun _ => ⟨f1, f2, ?_, ?_⟩⟩
      · intro j hj
        by_cases e : j = i
        · subst e; rw [c]; omega
        · exact f3 j (by omega)
      · intro h
        obtain ⟨j, hj, e⟩ := (e3 mx).1 (f4 h)
        exact (hx mx).2 ⟨j, by omega, e⟩
  · rintro ⟨ispiv, cnt, mx⟩ ⟨e1, e2, e3, e4⟩
    refine ⟨e1, fun h => ?_⟩
    have hR0 : R ≠ 0 := by rintro rfl; simp [mvCnt] at h
    obtain ⟨f1, f2, f3, f4⟩ := e4 hR0
    exact ⟨hR, hl, hlt, hinj, e2, e3, f1, f2, f3, f4⟩

end Verif.FF
