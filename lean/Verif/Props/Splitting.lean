import Verif.Proofs.BlockCuts

/-!
# C01, C02, C03: loop splitting covers the iteration space exactly
-/

namespace Verif.Props
open Verif Verif.BlockCuts Verif.Spec.Splitting

/-- C01. Whatever the strategy and the number of threads (or positive grain), iterating the 1-D
splitter terminates (within `n` increments), never faults, and produces consecutive non-empty ranges
covering `0..n-1` exactly once. -/
theorem C01_split1D_exact_cover (p : Param) (n t : ℕ) (hgrain : p = .Grain → t ≠ 0) :
    ∃ s ranges, FS1D.build p n t = .ok s ∧ s.initialize.run n = some ranges ∧
      ExactCover ranges n ∧ Consecutive 0 ranges ∧ ∀ r ∈ ranges, r.1 < r.2 := by
  obtain ⟨s, hs, hf, hn, h1, hle⟩ := FS1D.build_spec p n t hgrain
  have hrun := FS1D.run_at s hf s.numBlock n 0 (by omega) hle
  simp only [Nat.zero_add] at hrun
  refine ⟨s, _, hs, by rw [FS1D.init_at s hf]; exact hrun, ?_, ?_, ?_⟩
  · intro i
    have := countP_mono (bnd s.lastBlockSize s.changeBS) (bnd_mono _ _) (bnd_zero _ _) i s.numBlock
    rw [hn] at this
    exact this
  · have : ∀ d k, Consecutive (bnd s.lastBlockSize s.changeBS k) ((List.range d).map (fun x =>
        (bnd s.lastBlockSize s.changeBS (k+x), bnd s.lastBlockSize s.changeBS (k+x+1)))) := by
      intro d
      induction d with
      | zero => intro k; simp [Consecutive]
      | succ d ih =>
        intro k
        rw [List.range_succ_eq_map, List.map_cons, List.map_map]
        refine ⟨by simp, ?_⟩
        have := ih (k+1)
        convert this using 2
        funext x
        simp only [Function.comp, Nat.succ_eq_add_one]
        congr 2 <;> omega
    have h0 := this s.numBlock 0
    simpa [bnd_zero] using h0
  · intro r hr
    obtain ⟨k, _, rfl⟩ := List.mem_map.mp hr
    dsimp only
    rw [bnd_succ]; split_ifs <;> omega

/-- The ranges of C01 are balanced: two ranges differ in length by at most one. -/
theorem C01_split1D_balanced (p : Param) (n t : ℕ) (hgrain : p = .Grain → t ≠ 0) :
    ∃ s ranges len, FS1D.build p n t = .ok s ∧ s.initialize.run n = some ranges ∧
      ∀ r ∈ ranges, r.2 = r.1 + len ∨ r.2 = r.1 + len + 1 := by
  obtain ⟨s, hs, hf, hn, h1, hle⟩ := FS1D.build_spec p n t hgrain
  have hrun := FS1D.run_at s hf s.numBlock n 0 (by omega) hle
  simp only [Nat.zero_add] at hrun
  refine ⟨s, _, s.lastBlockSize, hs, by rw [FS1D.init_at s hf]; exact hrun, ?_⟩
  intro r hr
  obtain ⟨k, _, rfl⟩ := List.mem_map.mp hr
  dsimp only
  rw [bnd_succ]; split_ifs <;> omega

/-- With a zero grain the construction divides by zero: the hypothesis of C01 is necessary. -/
theorem C01_zero_grain_faults (n : ℕ) : FS1D.build .Grain n 0 = .error .divZero := by
  simp [FS1D.build, udiv, bind, Except.bind]

/-- Non-vacuity: 10 indices over 4 threads. -/
example : (FS1D.build .Threads 10 4).toOption.bind (fun s => s.initialize.run 10)
    = some [(0,3),(3,6),(6,8),(8,10)] := by decide

/-- C02. With a thread-count strategy (at least one thread) and any cut, iterating the 2-D splitter
terminates, never faults, and its tiles contain every matrix entry exactly once and nothing else. -/
theorem C02_split2D_threads_exact_tiling (c : Cut) (m n t : ℕ) (ht : 1 ≤ t) :
    ∃ s tiles, FS2D.build c .Threads m n t = .ok s ∧ s.initialize.run (m * n) = .ok (some tiles) ∧
      ExactTiling tiles m n := by
  obtain ⟨tr, tc, h1, h2, hb, _⟩ := blockSizes_threads c m n t ht
  obtain ⟨s, tiles, hs, hr, hc⟩ := FS2D.main c .Threads m n t _ _ hb (by omega) (by omega)
  refine ⟨s, tiles, hs, hr, fun i j => ?_⟩
  rw [hc, bnd_full (change_le m tr h1), bnd_full (change_le n tc h2)]

/-- C02, grid shape: for the `Block` cut the number of threads is factored as rows × columns. -/
theorem C02_block_grid_uses_all_threads (m n t : ℕ) (ht : 1 ≤ t) :
    ∃ tr tc, tr * tc = t ∧
      blockSizes .Block .Threads m n t = .ok (max (m / tr) 1, max (n / tc) 1) := by
  obtain ⟨tr, tc, _, _, hb, hm⟩ := blockSizes_threads .Block m n t ht
  exact ⟨tr, tc, hm rfl, hb⟩

/-- With zero threads the row, column and block strategies fault (division by zero or table read at
index -1). -/
theorem C02_zero_threads_faults (m n : ℕ) :
    FS2D.build .Row .Threads m n 0 = .error .divZero ∧
    FS2D.build .Column .Threads m n 0 = .error .divZero ∧
    FS2D.build .Block .Threads m n 0 = .error .oob := by
  simp [FS2D.build, blockSizes, udiv, bind, Except.bind]

/-- Non-vacuity: a 5 × 7 matrix, 6 threads. -/
example : ((FS2D.build .Block .Threads 5 7 6).toOption.map (fun s => s.initialize.run 35))
    = some (.ok (some [⟨0,3,0,3⟩, ⟨0,3,3,5⟩, ⟨0,3,5,7⟩, ⟨3,5,0,3⟩, ⟨3,5,3,5⟩, ⟨3,5,5,7⟩])) := by decide

/-- Row block size used by the Grain (size `g`) and Fixed (256) strategies. -/
def rowSize (c : Cut) (p : Param) (m g : ℕ) : ℕ :=
  match c with
  | .Row | .Block => max (min m (if p = .Fixed then 256 else g)) 1
  | .Single | .Column => max m 1

/-- Column block size used by the Grain and Fixed strategies. -/
def colSize (c : Cut) (p : Param) (n g : ℕ) : ℕ :=
  match c with
  | .Column | .Block => max (min n (if p = .Fixed then 256 else g)) 1
  | .Single | .Row => max n 1

lemma blockSizes_gf (c : Cut) (p : Param) (hp : p ≠ .Threads) (m n g : ℕ) :
    blockSizes c p m n g = .ok (rowSize c p m g, colSize c p n g) := by
  cases c <;> cases p <;> simp_all [blockSizes, rowSize, colSize, minBlockCuts]

/-- C03 (full statement: the tiles of a Grain or Fixed splitter always cover every entry exactly
once).  What is proved: the iteration always terminates without fault; the tiling is exact *if and
only if* the matrix is empty or in both dimensions the remainder modulo the block size does not exceed
the number of blocks; and in every case no entry is visited twice and none outside the matrix.
Missing: exactness for the remaining shapes, which is false (`C03_violated`). -/
theorem C03_split2D_grain_fixed_partial (c : Cut) (p : Param) (hp : p ≠ .Threads) (m n g : ℕ) :
    ∃ s tiles, FS2D.build c p m n g = .ok s ∧ s.initialize.run (m * n) = .ok (some tiles) ∧
      (ExactTiling tiles m n ↔ (m = 0 ∨ n = 0 ∨
        (m % rowSize c p m g ≤ m / rowSize c p m g ∧ n % colSize c p n g ≤ n / colSize c p n g))) ∧
      (∀ i j, (tiles.countP (fun t => decide ((t.i0 ≤ i ∧ i < t.i1) ∧ (t.j0 ≤ j ∧ j < t.j1))))
        ≤ if i < m ∧ j < n then 1 else 0) := by
  have hR : 1 ≤ rowSize c p m g := by cases c <;> simp [rowSize]
  have hC : 1 ≤ colSize c p n g := by cases c <;> simp [colSize]
  obtain ⟨s, tiles, hs, hr, hc⟩ := FS2D.main c p m n g _ _ (blockSizes_gf c p hp m n g) hR hC
  have lr := bnd_le m (rowSize c p m g)
  have lc := bnd_le n (colSize c p n g)
  refine ⟨s, tiles, hs, hr, ⟨?_, ?_⟩, ?_⟩
  · intro hT
    by_contra hcon
    push Not at hcon
    obtain ⟨hm0, hn0, hcon⟩ := hcon
    by_cases h1 : m % rowSize c p m g ≤ m / rowSize c p m g
    · have h2 := hcon h1
      have := hT 0 (bnd (colSize c p n g) (n % colSize c p n g) (n / colSize c p n g))
      rw [hc] at this
      have h3 := bnd_lt h2
      rw [if_neg (by omega), if_pos (by omega)] at this
      omega
    · have := hT (bnd (rowSize c p m g) (m % rowSize c p m g) (m / rowSize c p m g)) 0
      rw [hc] at this
      have h3 := bnd_lt (not_le.mp h1)
      rw [if_neg (by omega), if_pos (by omega)] at this
      omega
  · intro h i j
    rw [hc]
    rcases h with h | h | ⟨h1, h2⟩
    · rw [if_neg (by omega), if_neg (by omega)]
    · rw [if_neg (by omega), if_neg (by omega)]
    · rw [bnd_full h1, bnd_full h2]
  · intro i j
    rw [hc]
    split_ifs <;> omega

/-- C03 is violated by the code: a 5 × 1 matrix cut in rows with grain 3 gives the single tile
`[0,4) × [0,1)`; row 4 is never visited. -/
theorem C03_violated :
    ∃ s tiles, FS2D.build .Row .Grain 5 1 3 = .ok s ∧ s.initialize.run 5 = .ok (some tiles) ∧
      tiles = [⟨0, 4, 0, 1⟩] ∧ ¬ ExactTiling tiles 5 1 := by
  refine ⟨_, _, rfl, rfl, by decide, ?_⟩
  intro h
  have := h 4 0
  revert this
  decide

/-- Same with the Fixed strategy: of 511 rows only the first 257 are visited. -/
theorem C03_violated_fixed :
    ∃ s, FS2D.build .Row .Fixed 511 1 1 = .ok s ∧
      s.initialize.run 2 = .ok (some [⟨0, 257, 0, 1⟩]) := by
  refine ⟨_, rfl, by decide⟩

/-- Non-vacuity of the positive direction: grain 3, 7 × 8 matrix: both remainders are at most 2. -/
example : 7 % rowSize .Block .Grain 7 3 ≤ 7 / rowSize .Block .Grain 7 3 ∧
    8 % colSize .Block .Grain 8 3 ≤ 8 / colSize .Block .Grain 8 3 := by decide

end Verif.Props
