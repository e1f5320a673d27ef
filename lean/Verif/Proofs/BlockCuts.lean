import Verif.Spec.Splitting
import Mathlib.Data.Nat.Sqrt
import Mathlib.Data.List.Range
import Mathlib.Tactic.IntervalCases

namespace Verif.BlockCuts
open Verif Verif.Spec.Splitting

/-- Closed form of block boundaries. -/
def bnd (last change k : ℕ) : ℕ := k * last + min k change

lemma bnd_zero (l c : ℕ) : bnd l c 0 = 0 := by simp [bnd]

lemma bnd_succ (l c k : ℕ) :
    bnd l c (k+1) = bnd l c k + (if k < c then l + 1 else l) := by
  unfold bnd
  rw [Nat.add_mul]
  split <;> omega

lemma bnd_mono (l c : ℕ) : Monotone (bnd l c) := by
  apply monotone_nat_of_le_succ
  intro k
  rw [bnd_succ]; omega

/-- number of ranges `[f k, f (k+1))`, `k<num`, that contain `i`, for monotone f -/
lemma countP_mono (f : ℕ → ℕ) (hf : Monotone f) (h0 : f 0 = 0) (i : ℕ) (num : ℕ) :
    ((List.range num).map (fun k => (f k, f (k+1)))).countP
      (fun r => decide (r.1 ≤ i ∧ i < r.2)) = if i < f num then 1 else 0 := by
  induction num with
  | zero => simp [h0]
  | succ n ih =>
    rw [List.range_succ, List.map_append, List.countP_append, ih]
    have := hf (Nat.le_succ n)
    simp only [List.map_cons, List.map_nil, List.countP_singleton, decide_eq_true_eq]
    simp only [Nat.succ_eq_add_one] at this
    split_ifs <;> omega

/-- number of tiles of the grid containing `(i,j)` -/
lemma countP_grid (f g : ℕ → ℕ) (hf : Monotone f) (hg : Monotone g) (f0 : f 0 = 0) (g0 : g 0 = 0)
    (i j nr nc : ℕ) (hnc : 0 < nc) :
    ((List.range (nr * nc)).map (fun c =>
        (⟨f (c / nc), f (c / nc + 1), g (c % nc), g (c % nc + 1)⟩ : Tile))).countP
      (fun t => decide ((t.i0 ≤ i ∧ i < t.i1) ∧ (t.j0 ≤ j ∧ j < t.j1)))
      = if i < f nr ∧ j < g nc then 1 else 0 := by
  induction nr with
  | zero => simp [f0]
  | succ n ih =>
    rw [Nat.succ_mul, List.range_add, List.map_append, List.countP_append, ih]
    have hrow : (List.map (fun c => (⟨f (c / nc), f (c / nc + 1), g (c % nc), g (c % nc + 1)⟩ : Tile))
        (List.map (fun x => n * nc + x) (List.range nc))).countP
        (fun t => decide ((t.i0 ≤ i ∧ i < t.i1) ∧ (t.j0 ≤ j ∧ j < t.j1)))
        = if f n ≤ i ∧ i < f (n+1) then (if j < g nc then 1 else 0) else 0 := by
      rw [List.map_map]
      have : List.map ((fun c => (⟨f (c / nc), f (c / nc + 1), g (c % nc), g (c % nc + 1)⟩ : Tile)) ∘
          fun x => n * nc + x) (List.range nc)
          = List.map (fun x => (⟨f n, f (n+1), g x, g (x+1)⟩ : Tile)) (List.range nc) := by
        apply List.map_congr_left
        intro x hx
        have hx : x < nc := List.mem_range.mp hx
        have h1 : (n * nc + x) / nc = n := by
          rw [Nat.mul_comm, Nat.mul_add_div hnc, Nat.div_eq_of_lt hx]; rfl
        have h2 : (n * nc + x) % nc = x := by
          rw [Nat.mul_comm, Nat.mul_add_mod, Nat.mod_eq_of_lt hx]
        simp only [Function.comp, h1, h2]
      rw [this]
      have hc := countP_mono g hg g0 j nc
      rw [List.countP_map] at hc ⊢
      by_cases hi : f n ≤ i ∧ i < f (n+1)
      · rw [if_pos hi, ← hc]
        congr 1
        funext x
        simp [Function.comp, hi]
      · rw [if_neg hi]
        rw [List.countP_eq_zero]
        intro x _
        simp only [Function.comp, decide_eq_true_eq]
        tauto
    rw [hrow]
    have := hf (Nat.le_succ n)
    simp only [Nat.succ_eq_add_one] at this
    split_ifs <;> omega

/-- State reached by a 1-D splitter after `k` increments. -/
def FS1D.at (s : FS1D) (k : ℕ) : FS1D :=
  { s with ibeg := bnd s.lastBlockSize s.changeBS k, iend := bnd s.lastBlockSize s.changeBS (k+1),
           current := k }

lemma FS1D.next_at (s : FS1D) (hf : s.firstBlockSize = if s.changeBS ≠ 0 then s.lastBlockSize + 1 else s.lastBlockSize)
    (k : ℕ) : (s.at k).next = s.at (k+1) := by
  have h1 := bnd_succ s.lastBlockSize s.changeBS (k+1)
  simp only [FS1D.next, FS1D.at, h1, hf, FS1D.mk.injEq, true_and, and_true]
  by_cases h : k + 1 < s.changeBS
  · have : s.changeBS ≠ 0 := by omega
    simp [h, this]
  · simp [h]

lemma FS1D.init_at (s : FS1D) (hf : s.firstBlockSize = if s.changeBS ≠ 0 then s.lastBlockSize + 1 else s.lastBlockSize) :
    s.initialize = s.at 0 := by
  simp only [FS1D.initialize, FS1D.at, bnd_zero, bnd_succ]
  congr 1
  rw [hf]; split_ifs <;> omega

lemma FS1D.run_at (s : FS1D) (hf : s.firstBlockSize = if s.changeBS ≠ 0 then s.lastBlockSize + 1 else s.lastBlockSize)
    (d : ℕ) : ∀ fuel k, k + d = s.numBlock → d ≤ fuel →
    (s.at k).run fuel = some ((List.range d).map (fun x =>
      (bnd s.lastBlockSize s.changeBS (k+x), bnd s.lastBlockSize s.changeBS (k+x+1)))) := by
  induction d with
  | zero =>
    intro fuel k hk _
    have : (s.at k).isTerminated = true := by simp [FS1D.isTerminated, FS1D.at]; omega
    cases fuel <;> simp [FS1D.run, this]
  | succ d ih =>
    intro fuel k hk hfuel
    obtain ⟨fuel, rfl⟩ : ∃ f, fuel = f + 1 := ⟨fuel - 1, by omega⟩
    have : (s.at k).isTerminated = false := by simp [FS1D.isTerminated, FS1D.at]; omega
    rw [FS1D.run, this, FS1D.next_at s hf, ih fuel (k+1) (by omega) (by omega)]
    simp only [Bool.false_eq_true, if_false, Option.map_some, Option.some.injEq]
    rw [List.range_succ_eq_map, List.map_cons, List.map_map]
    congr 1
    apply List.map_congr_left
    intro x _
    simp only [Function.comp]
    congr 2 <;> omega

/-- Facts about the result of `build`. -/
lemma FS1D.build_spec (p : Param) (n t : ℕ) (h : p = .Grain → t ≠ 0) :
    ∃ s, FS1D.build p n t = .ok s ∧
      (s.firstBlockSize = if s.changeBS ≠ 0 then s.lastBlockSize + 1 else s.lastBlockSize) ∧
      bnd s.lastBlockSize s.changeBS s.numBlock = n ∧ 1 ≤ s.lastBlockSize ∧ s.numBlock ≤ n := by
  have key : ∀ nb, 1 ≤ nb → ∃ s : FS1D, (do
      let first ← udiv n nb
      let (first, numBlock) := if first < 1 then (1, n) else (first, nb)
      let change := n - numBlock * first
      let last := first
      let first := if change ≠ 0 then first + 1 else first
      pure { ibeg := 0, iend := 0, current := 0, firstBlockSize := first, lastBlockSize := last,
             changeBS := change, numBlock := numBlock } : Except Fault FS1D) = .ok s ∧
      (s.firstBlockSize = if s.changeBS ≠ 0 then s.lastBlockSize + 1 else s.lastBlockSize) ∧
      bnd s.lastBlockSize s.changeBS s.numBlock = n ∧ 1 ≤ s.lastBlockSize ∧ s.numBlock ≤ n := by
    intro nb hnb
    have hne : nb ≠ 0 := by omega
    by_cases hlt : n / nb < 1
    · refine ⟨⟨0,0,0,1,1,0,n⟩, ?_, ?_⟩
      · simp [udiv, hne, hlt, bind, Except.bind, pure, Except.pure]
      · simp [bnd]
    · have h2 : nb * (n / nb) ≤ n := Nat.mul_div_le n nb
      have h3 : n - nb * (n/nb) < nb := by
        have := Nat.mod_lt n (show nb > 0 by omega)
        have h4 := Nat.div_add_mod n nb
        omega
      refine ⟨⟨0,0,0,if n - nb * (n/nb) ≠ 0 then n/nb+1 else n/nb,n/nb,n - nb * (n/nb),nb⟩, ?_, ?_⟩
      · simp only [udiv, hne, if_false, hlt, bind, Except.bind, pure, Except.pure]
      · refine ⟨rfl, ?_, (show 1 ≤ n / nb by omega), ?_⟩
        · simp only [bnd]
          rw [Nat.min_eq_right (show n - nb * (n/nb) ≤ nb by omega)]; omega
        · calc nb = nb * 1 := by ring
            _ ≤ nb * (n / nb) := Nat.mul_le_mul_left _ (by omega)
            _ ≤ n := h2
  cases p with
  | Threads => exact key (max t 1) (by omega)
  | Grain =>
    have ht : t ≠ 0 := h rfl
    have := key (max (n/t) 1) (by omega)
    have e : udiv n t = .ok (n / t) := by simp [udiv, ht]
    simp only [FS1D.build, e]
    exact this
  | Fixed => exact key (max (n/minBlockCuts) 1) (by omega)

/-! ### 2-D -/

/-- State reached by a 2-D splitter after `c` increments. -/
def FS2D.at (s : FS2D) (c : ℕ) : FS2D :=
  { s with
    ibeg := bnd s.lastRBS s.changeRBS (c / s.numColBlock)
    iend := bnd s.lastRBS s.changeRBS (c / s.numColBlock + 1)
    jbeg := bnd s.lastCBS s.changeCBS (c % s.numColBlock)
    jend := bnd s.lastCBS s.changeCBS (c % s.numColBlock + 1)
    current := c }

structure FS2D.Good (s : FS2D) : Prop where
  r : s.rowBlockSize = if s.changeRBS ≠ 0 then s.lastRBS + 1 else s.lastRBS
  c : s.colBlockSize = if s.changeCBS ≠ 0 then s.lastCBS + 1 else s.lastCBS
  b : s.blocks = s.numRowBlock * s.numColBlock

lemma bnd_one (l c : ℕ) : bnd l c 1 = if c ≠ 0 then l + 1 else l := by
  have := bnd_succ l c 0
  rw [bnd_zero] at this
  rw [this]; split_ifs <;> omega

lemma FS2D.init_at (s : FS2D) (g : s.Good) : s.initialize = s.at 0 := by
  simp only [FS2D.initialize, FS2D.at, Nat.zero_div, Nat.zero_mod, bnd_zero, Nat.zero_add, bnd_one, g.r, g.c]

lemma udiv_ok {a b : ℕ} (h : b ≠ 0) : udiv a b = .ok (a / b) := by simp [udiv, h]

lemma FS2D.next_at (s : FS2D) (g : s.Good) (hc : s.numColBlock ≠ 0) (k : ℕ) :
    (s.at k).next = .ok (s.at (k+1)) := by
  have hd := Nat.div_add_mod k s.numColBlock
  have hm := Nat.mod_lt k (show s.numColBlock > 0 by omega)
  simp only [FS2D.next, udiv_ok (show (s.at k).numColBlock ≠ 0 from hc)]
  simp only [FS2D.at]
  by_cases hj : (k+1) % s.numColBlock ≠ 0
  · have hlt : k % s.numColBlock + 1 < s.numColBlock := by
      rcases Nat.lt_or_ge (k % s.numColBlock + 1) s.numColBlock with h | h
      · exact h
      · exfalso; apply hj
        have : k % s.numColBlock + 1 = s.numColBlock := by omega
        rw [Nat.add_mod]
        have h1 : k + 1 = s.numColBlock * (k / s.numColBlock + 1) := by
          rw [Nat.mul_add]; omega
        rw [← Nat.add_mod, h1, Nat.mul_mod_right]
    have e1 : (k+1) % s.numColBlock = k % s.numColBlock + 1 := by
      conv_lhs => rw [← hd]
      rw [Nat.add_assoc, Nat.mul_add_mod, Nat.mod_eq_of_lt hlt]
    have e2 : (k+1) / s.numColBlock = k / s.numColBlock := by
      conv_lhs => rw [← hd]
      rw [Nat.add_assoc, Nat.mul_add_div (by omega), Nat.div_eq_of_lt hlt]; rfl
    simp only [bind, Except.bind, if_pos hj, pure, Except.pure, e1, e2, Except.ok.injEq, FS2D.mk.injEq,
      true_and, and_true]
    rw [bnd_succ s.lastCBS s.changeCBS (k % s.numColBlock + 1), g.c]
    by_cases h : k % s.numColBlock + 1 < s.changeCBS
    · have : s.changeCBS ≠ 0 := by omega
      simp [h, this]
    · simp [h]
  · push Not at hj
    have hge : k % s.numColBlock + 1 = s.numColBlock := by
      by_contra hne
      have hlt : k % s.numColBlock + 1 < s.numColBlock := by omega
      have e1 : (k+1) % s.numColBlock = k % s.numColBlock + 1 := by
        conv_lhs => rw [← hd]
        rw [Nat.add_assoc, Nat.mul_add_mod, Nat.mod_eq_of_lt hlt]
      omega
    have e2 : (k+1) / s.numColBlock = k / s.numColBlock + 1 := by
      have h1 : k + 1 = s.numColBlock * (k / s.numColBlock + 1) := by
        rw [Nat.mul_add]; omega
      conv_lhs => rw [h1]
      rw [Nat.mul_div_cancel_left _ (Nat.pos_of_ne_zero hc)]
    simp only [bind, Except.bind, hj, ne_eq, not_true, if_false, pure, Except.pure, bnd_zero, Nat.zero_add, bnd_one,
      e2, Except.ok.injEq, FS2D.mk.injEq, true_and, and_true]
    rw [bnd_succ s.lastRBS s.changeRBS (k / s.numColBlock + 1), g.r, g.c]
    refine ⟨?_, rfl⟩
    by_cases h : k / s.numColBlock + 1 < s.changeRBS
    · have : s.changeRBS ≠ 0 := Nat.pos_iff_ne_zero.mp (Nat.lt_of_le_of_lt (Nat.zero_le _) h)
      simp [h, this]
    · simp [h]

lemma FS2D.run_at (s : FS2D) (g : s.Good)
    (d : ℕ) : ∀ fuel k, k + d = s.blocks → d ≤ fuel →
    (s.at k).run fuel = .ok (some ((List.range d).map (fun x =>
      (⟨bnd s.lastRBS s.changeRBS ((k+x) / s.numColBlock), bnd s.lastRBS s.changeRBS ((k+x) / s.numColBlock + 1),
       bnd s.lastCBS s.changeCBS ((k+x) % s.numColBlock), bnd s.lastCBS s.changeCBS ((k+x) % s.numColBlock + 1)⟩ : Tile)))) := by
  induction d with
  | zero =>
    intro fuel k hk _
    have : (s.at k).isTerminated = true := by simp [FS2D.isTerminated, FS2D.at]; omega
    cases fuel <;> simp [FS2D.run, this]
  | succ d ih =>
    intro fuel k hk hfuel
    obtain ⟨fuel, rfl⟩ : ∃ f, fuel = f + 1 := ⟨fuel - 1, by omega⟩
    have : (s.at k).isTerminated = false := by simp [FS2D.isTerminated, FS2D.at]; omega
    have hc : s.numColBlock ≠ 0 := by
      intro h0
      have := g.b
      rw [h0] at this; simp at this; omega
    rw [FS2D.run, this, FS2D.next_at s g hc]
    simp only [Bool.false_eq_true, if_false, bind, Except.bind]
    rw [ih fuel (k+1) (by omega) (by omega)]
    simp only [pure, Except.pure, Option.map_some, Except.ok.injEq, Option.some.injEq]
    rw [List.range_succ_eq_map, List.map_cons, List.map_map]
    congr 1
    apply List.map_congr_left
    intro x _
    simp only [Function.comp, Nat.succ_eq_add_one]
    have : k + 1 + x = k + (x + 1) := by omega
    rw [this]

lemma growJ_ge (t i : ℕ) : ∀ f j, j ≤ growJ t i f j := by
  intro f
  induction f with
  | zero => intro j; simp [growJ]
  | succ f ih =>
    intro j; rw [growJ]; split
    · exact le_trans (by omega) (ih (j+1))
    · exact le_rfl

lemma searchGrid_pos (t : ℕ) (maxt : ℕ) (hm : 1 ≤ maxt) : ∀ i, 1 ≤ (searchGrid t maxt i).1 ∧ 1 ≤ (searchGrid t maxt i).2 := by
  intro i
  induction i with
  | zero => simp [searchGrid, hm]
  | succ i ih =>
    rw [searchGrid]
    split
    · have := growJ_ge t (i+1) t maxt
      exact ⟨by simp, by dsimp only; omega⟩
    · exact ih

lemma growJ_one (t : ℕ) : ∀ f j, j ≤ t → t ≤ j + f → growJ t 1 f j = t := by
  intro f
  induction f with
  | zero => intro j h1 h2; simp [growJ]; omega
  | succ f ih =>
    intro j h1 h2; rw [growJ]; split
    · exact ih (j+1) (by omega) (by omega)
    · omega

/-- The search always ends with a factorisation of the number of threads. -/
lemma searchGrid_mul (t : ℕ) (maxt : ℕ) (ht : maxt ≤ t) : ∀ i, 1 ≤ i → (searchGrid t maxt i).1 * (searchGrid t maxt i).2 = t := by
  intro i
  induction i with
  | zero => intro h; omega
  | succ i ih =>
    intro _
    rw [searchGrid]
    split
    · assumption
    · rename_i hne
      rcases Nat.eq_zero_or_pos i with h | h
      · exfalso; subst h
        apply hne
        rw [growJ_one t t maxt ht (by omega)]; omega
      · exact ih h

/-- Number of row/column blocks requested of the thread strategies. -/
lemma blockSizes_threads (c : Cut) (m n t : ℕ) (ht : 1 ≤ t) :
    ∃ tr tc, 1 ≤ tr ∧ 1 ≤ tc ∧ blockSizes c .Threads m n t = .ok (max (m / tr) 1, max (n / tc) 1) ∧
      (c = .Block → tr * tc = t) := by
  have hne : t ≠ 0 := by omega
  cases c with
  | Single => exact ⟨1, 1, le_rfl, le_rfl, by simp [blockSizes], by simp⟩
  | Row => exact ⟨t, 1, ht, le_rfl, by simp [blockSizes, udiv_ok hne, bind, Except.bind, pure, Except.pure], by simp⟩
  | Column => exact ⟨1, t, le_rfl, ht, by simp [blockSizes, udiv_ok hne, bind, Except.bind, pure, Except.pure], by simp⟩
  | Block =>
    by_cases h : t < 65
    · have tab : ∀ k < 64, ∃ a b, maxtrTable[k]? = some a ∧ maxtcTable[k]? = some b ∧ 1 ≤ a ∧ 1 ≤ b ∧ a * b = k + 1 := by
        intro k hk
        have : ∀ k < 64, (maxtrTable.getD k 0) * (maxtcTable.getD k 0) = k + 1 := by decide
        have l1 : maxtrTable.length = 64 := by decide
        have l2 : maxtcTable.length = 64 := by decide
        have hh := this k hk
        refine ⟨maxtrTable[k]'(by omega), maxtcTable[k]'(by omega), by simp [hk, l1], by simp [hk, l2], ?_⟩
        simp only [List.getD_eq_getElem?_getD, List.getElem?_eq_getElem (show k < maxtrTable.length by omega),
          List.getElem?_eq_getElem (show k < maxtcTable.length by omega), Option.getD_some] at hh
        refine ⟨?_, ?_, hh⟩
        · rcases Nat.eq_zero_or_pos (maxtrTable[k]'(by omega)) with h0 | h0
          · rw [h0] at hh; omega
          · exact h0
        · rcases Nat.eq_zero_or_pos (maxtcTable[k]'(by omega)) with h0 | h0
          · rw [h0] at hh; omega
          · exact h0
      obtain ⟨a, b, ha, hb, h1, h2, h3⟩ := tab (t-1) (by omega)
      refine ⟨a, b, h1, h2, ?_, fun _ => by omega⟩
      have ha0 : a ≠ 0 := by omega
      have hb0 : b ≠ 0 := by omega
      simp only [blockSizes, h, hne, if_true, if_false, rd, ha, hb, udiv, ha0, hb0, bind, Except.bind, pure, Except.pure]
    · have hs : 1 ≤ Nat.sqrt t := by rw [Nat.le_sqrt]; omega
      have hp := searchGrid_pos t (Nat.sqrt t) hs (Nat.sqrt t)
      refine ⟨_, _, hp.1, hp.2, ?_, fun _ => searchGrid_mul t _ (Nat.sqrt_le_self t) _ hs⟩
      have ha0 : (searchGrid t (Nat.sqrt t) (Nat.sqrt t)).1 ≠ 0 := by omega
      have hb0 : (searchGrid t (Nat.sqrt t) (Nat.sqrt t)).2 ≠ 0 := by omega
      simp only [blockSizes, h, if_false, udiv, ha0, hb0, bind, Except.bind, pure, Except.pure]

/-- Remainder of a dimension by its block size is at most the number of blocks, for block sizes
obtained by dividing by a thread count. -/
lemma change_le (m tr : ℕ) (h : 1 ≤ tr) : m % (max (m / tr) 1) ≤ m / (max (m / tr) 1) := by
  rcases Nat.eq_zero_or_pos (m / tr) with h0 | h0
  · rw [h0]; simp [Nat.mod_one]
  · rw [Nat.max_eq_left h0]
    have h1 : m = tr * (m / tr) + m % tr := (Nat.div_add_mod m tr).symm
    have h2 := Nat.mod_lt m (show tr > 0 by omega)
    have h3 : m % (m / tr) ≤ m % tr := by
      have e : m % (m/tr) = (m % tr) % (m / tr) := by
        conv_lhs => lhs; rw [h1]
        simp [Nat.add_mod]
      rw [e]; exact Nat.mod_le _ _
    have h4 : tr ≤ m / (m / tr) := by
      rw [Nat.le_div_iff_mul_le h0]; exact Nat.mul_div_le m tr
    omega

/-- Everything about the 2-D iteration in terms of the two block sizes, with the bounds of the tiles. -/
lemma FS2D.main_bounds (c : Cut) (p : Param) (m n t R C : ℕ) (hb : blockSizes c p m n t = .ok (R, C))
    (hR : 1 ≤ R) (hC : 1 ≤ C) :
    ∃ s tiles, FS2D.build c p m n t = .ok s ∧ s.initialize.run (m * n) = .ok (some tiles) ∧
      (∀ i j, (tiles.countP (fun t => decide ((t.i0 ≤ i ∧ i < t.i1) ∧ (t.j0 ≤ j ∧ j < t.j1))))
        = if i < bnd R (m % R) (m / R) ∧ j < bnd C (n % C) (n / C) then 1 else 0) ∧
      ∀ t ∈ tiles, t.i0 ≤ t.i1 ∧ t.i1 ≤ bnd R (m % R) (m / R) ∧ t.j0 ≤ t.j1 ∧ t.j1 ≤ bnd C (n % C) (n / C) := by
  have hmR : m - R * (m / R) = m % R := by have := Nat.div_add_mod m R; omega
  have hnC : n - C * (n / C) = n % C := by have := Nat.div_add_mod n C; omega
  let s : FS2D := { ibeg := 0, iend := 0, jbeg := 0, jend := 0, current := 0
                    rowBlockSize := if m % R ≠ 0 then R + 1 else R
                    colBlockSize := if n % C ≠ 0 then C + 1 else C
                    lastRBS := R, lastCBS := C
                    changeRBS := m % R, changeCBS := n % C
                    numRowBlock := m / R, numColBlock := n / C, blocks := (m / R) * (n / C) }
  have g : s.Good := ⟨rfl, rfl, rfl⟩
  have hrun := FS2D.run_at s g s.blocks (m*n) 0 (Nat.zero_add _)
      (Nat.mul_le_mul (Nat.div_le_self _ _) (Nat.div_le_self _ _))
  rw [← FS2D.init_at s g] at hrun
  refine ⟨s, _, ?_, hrun, ?_, ?_⟩
  rotate_left 1
  · intro i j
    show List.countP _ (List.map _ (List.range ((m / R) * (n / C)))) = _
    rcases Nat.eq_zero_or_pos (n / C) with h0 | h0
    · have : bnd C (n % C) (n / C) = 0 := by rw [h0, bnd_zero]
      rw [this, h0]; simp
    · have := countP_grid (bnd R (m % R)) (bnd C (n % C)) (bnd_mono _ _) (bnd_mono _ _) (bnd_zero _ _)
        (bnd_zero _ _) i j (m / R) (n / C) h0
      simpa only [Nat.zero_add] using this
  · intro t ht
    obtain ⟨x, hx, rfl⟩ := List.mem_map.1 ht
    have hx : x < (m / R) * (n / C) := List.mem_range.1 hx
    have h0 : 0 < n / C := by rcases Nat.eq_zero_or_pos (n / C) with h0 | h0; (· rw [h0] at hx; simp at hx); exact h0
    have h1 : (0 + x) / (n / C) < m / R := by rw [Nat.zero_add]; exact (Nat.div_lt_iff_lt_mul h0).2 hx
    have h2 : (0 + x) % (n / C) < n / C := Nat.mod_lt _ h0
    exact ⟨bnd_mono R (m % R) (Nat.le_succ _), bnd_mono R (m % R) h1, bnd_mono C (n % C) (Nat.le_succ _), bnd_mono C (n % C) h2⟩
  · simp only [FS2D.build, hb, bind, Except.bind, udiv_ok (show R ≠ 0 by omega),
      udiv_ok (show C ≠ 0 by omega), pure, Except.pure, hmR, hnC]
    rfl

/-- Everything about the 2-D iteration in terms of the two block sizes. -/
lemma FS2D.main (c : Cut) (p : Param) (m n t R C : ℕ) (hb : blockSizes c p m n t = .ok (R, C))
    (hR : 1 ≤ R) (hC : 1 ≤ C) :
    ∃ s tiles, FS2D.build c p m n t = .ok s ∧ s.initialize.run (m * n) = .ok (some tiles) ∧
      ∀ i j, (tiles.countP (fun t => decide ((t.i0 ≤ i ∧ i < t.i1) ∧ (t.j0 ≤ j ∧ j < t.j1))))
        = if i < bnd R (m % R) (m / R) ∧ j < bnd C (n % C) (n / C) then 1 else 0 := by
  obtain ⟨s, l, h1, h2, h3, _⟩ := FS2D.main_bounds c p m n t R C hb hR hC
  exact ⟨s, l, h1, h2, h3⟩

lemma bnd_full {m R : ℕ} (h : m % R ≤ m / R) : bnd R (m % R) (m / R) = m := by
  have := Nat.div_add_mod m R
  rw [bnd, Nat.min_eq_right h, Nat.mul_comm]; exact this

lemma bnd_le (m R : ℕ) : bnd R (m % R) (m / R) ≤ m := by
  have := Nat.div_add_mod m R
  have h2 := Nat.min_le_right (m / R) (m % R)
  rw [bnd, Nat.mul_comm]; omega

lemma bnd_lt {m R : ℕ} (h : m / R < m % R) : bnd R (m % R) (m / R) < m := by
  have := Nat.div_add_mod m R
  rw [bnd, Nat.mul_comm, Nat.min_eq_left h.le]; omega

end Verif.BlockCuts
