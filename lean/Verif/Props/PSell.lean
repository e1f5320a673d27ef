import Verif.Proofs.PSell
import Verif.Props.PHyb

/-!
# C115: the parallel products with the sliced formats

SELL and ELL_simd store chunks of `c` rows; inside of a chunk entry `j` of row `k` is at `j c + k`.
-/

namespace Verif.Props
open Verif.FF Verif.Par Verif.Sparse Verif.BlockCuts Finset

variable {K : Type} [Field K] [DecidableEq K]

/-- the entry in row `r` and column `q` of a sliced matrix with the values `a`; chunk `i` starts at `lo i` and has `cnt i` entries per row -/
def chunkEntry (c : ℕ) (lo cnt : ℕ → ℕ) (col : Arr ℕ) (a : ℕ → K) (r q : ℕ) : K :=
  ∑ j ∈ range (cnt (r / c)), if col.get (lo (r / c) + j * c + r % c) = q then a (lo (r / c) + j * c + r % c) else 0

/-- `nc` chunks of `c` rows inside of the arrays of `nnz` columns below `N` and `nnz` values -/
structure ChunksOk (nc c N nnz : ℕ) (col : Arr ℕ) (lo cnt : ℕ → ℕ) : Prop where
  inside : ∀ i < nc, lo i + cnt i * c ≤ nnz
  len : nnz ≤ col.len
  col : ∀ t < nnz, col.get t < N

section
variable {m : Mem K} {N nnz X Y D nc c : ℕ} {col st sz : Arr ℕ} {beta : K} {lo cnt : ℕ → ℕ} {bounds : ℕ → Except Fault (ℕ × ℕ)}

/-- both formats -/
lemma chunks_run (ha : BlockArgs m (nc * c) N 1 X 1 Y 1) (hv : ValsOk m nnz D (nc * c) 1 Y 1) (hb : ∀ i < nc, bounds i = .ok (lo i, cnt i)) (h : ChunksOk nc c N nnz col lo cnt) :
    EveryRun (pfspmvChunks D (nc * c) nc bounds c col X beta Y .ret) m ⟨Y, 1, nc * c, 1⟩
      (fun r _ => beta * m.val (Y + r) + ∑ q ∈ range N, chunkEntry c lo cnt col (fun t => m.val (D + t)) r q * m.val (X + q)) := by
  have hin : ∀ i < nc, ∀ j < cnt i, ∀ k < c, lo i + j * c + k < nnz := fun i hi j hj k hk => by
    have h1 := h.inside i hi
    have h2 : (j + 1) * c ≤ cnt i * c := Nat.mul_le_mul_right _ hj
    rw [Nat.add_mul, one_mul] at h2
    omega
  have hs : ChunkRowsOk nc N D c bounds col (fun a => (Win.mk X 1 N 1).Has a ∨ (vw D 1 nnz).Has a) lo cnt :=
    ⟨hb, fun i hi j hj k hk => ⟨lt_of_lt_of_le (hin i hi j hj k hk) h.len, h.col _ (hin i hi j hj k hk)⟩,
      fun i hi j hj k hk => Or.inr ⟨_, hin i hi j hj k hk, 0, Nat.one_pos, by simp [vw, Win.adr]⟩⟩
  have key := pfspmvChunks_ok (y := Y) (v := m.val) (beta := beta) hs (fun _ h => Or.inl h) (fun a h => h.elim (ha.apart a) (hv.apart a)) ((FinS.has _).or (FinS.has _))
  have e := everyRun ha.wf ha.y (fun a h => h.elim (ha.x a) (hv.ok a)) key
  refine ⟨e.noFault, e.noRace, e.noDeadlock, e.finite, fun m' s => ⟨fun r hr j hj => ((e.result m' s).1 r hr j hj).trans ?_, (e.result m' s).2⟩, e.sequential⟩
  dsimp only
  have hr : r < nc * c := hr
  have hc : 0 < c := Nat.pos_of_ne_zero (fun e => by subst e; omega)
  have hi : r / c < nc := Nat.div_lt_of_lt_mul (by rwa [Nat.mul_comm])
  congr 1
  unfold chunkSum chunkEntry
  simp only [sum_mul]
  rw [sum_comm]
  refine sum_congr rfl (fun j hj => ?_)
  have hq := h.col _ (hin _ hi j (mem_range.1 hj) _ (Nat.mod_lt r hc))
  rw [sum_eq_single (col.get (lo (r / c) + j * c + r % c))]
  · simp
  · intro q _ hne
    simp [Ne.symm hne]
  · exact fun hn => absurd (mem_range.2 hq) hn

/-- C115, `pfspmv` for SELL, every `beta`.  Missing (hence `partial`): numbers of rows that are no multiple of the chunk (`C115_sell_violated`). -/
theorem C115_pfspmv_sell_partial (ha : BlockArgs m (nc * c) N 1 X 1 Y 1) (hv : ValsOk m nnz D (nc * c) 1 Y 1) (hst : nc ≤ st.len) (hsz : nc ≤ sz.len)
    (h : ChunksOk nc c N nnz col st.get sz.get) :
    EveryRun (pfspmvChunks D (nc * c) nc (sellBounds st sz) c col X beta Y .ret) m ⟨Y, 1, nc * c, 1⟩
      (fun r _ => beta * m.val (Y + r) + ∑ q ∈ range N, chunkEntry c st.get sz.get col (fun t => m.val (D + t)) r q * m.val (X + q)) :=
  chunks_run ha hv (fun i hi => by
    have h1 : i < st.len := by omega
    have h2 : i < sz.len := by omega
    simp [sellBounds, Arr.rd, h1, h2]
    rfl) h

/-- C115, `pfspmv` for ELL_simd, with `ld` entries in every row.  Missing as for SELL. -/
theorem C115_pfspmv_ellsimd_partial {ld : ℕ} (ha : BlockArgs m (nc * c) N 1 X 1 Y 1) (hv : ValsOk m nnz D (nc * c) 1 Y 1)
    (h : ChunksOk nc c N nnz col (fun i => i * ld * c) (fun _ => ld)) :
    EveryRun (pfspmvChunks D (nc * c) nc (ellSimdBounds ld c) c col X beta Y .ret) m ⟨Y, 1, nc * c, 1⟩
      (fun r _ => beta * m.val (Y + r) + ∑ q ∈ range N, chunkEntry c (fun i => i * ld * c) (fun _ => ld) col (fun t => m.val (D + t)) r q * m.val (X + q)) :=
  chunks_run ha hv (fun _ _ => rfl) h

end

/-! ### Concrete cases: one chunk of two rows, `[5 0 11; 0 7 3]` with the columns 0, 1, 2, 2 -/

/-- `x` at 0, `y` at 3, the values at 5 -/
def slEx : Mem ℚ := memOf [10, 20, 30, 1, 2, 5, 7, 11, 3]
/-- starts of the chunks -/
def slSt : Arr ℕ := Arr.ofList [0]
/-- sizes of the chunks -/
def slSz : Arr ℕ := Arr.ofList [2]
/-- columns -/
def slCol : Arr ℕ := Arr.ofList [0, 1, 2, 2]

lemma slArgs : BlockArgs slEx (1 * 2) 3 1 0 1 3 1 :=
  ⟨WF_memOf _, OkIn_memOf (by decide), by decide, OkIn_memOf (by decide), by
    rintro a ⟨i, hi, j, hj, rfl⟩ ⟨i', hi', j', hj', e⟩
    simp only [Win.adr] at *
    omega⟩

lemma slVals : ValsOk slEx 4 5 (1 * 2) 1 3 1 :=
  ⟨OkIn_memOf (by decide), by
    rintro a ⟨i, hi, j, hj, rfl⟩ ⟨i', hi', j', hj', e⟩
    simp only [Win.adr, vw] at *
    omega⟩

example : EveryRun (pfspmvChunks 5 (1 * 2) 1 (sellBounds slSt slSz) 2 slCol 0 2 3 .ret) slEx ⟨3, 1, 1 * 2, 1⟩
    (fun r _ => 2 * slEx.val (3 + r) + ∑ q ∈ range 3, chunkEntry 2 slSt.get slSz.get slCol (fun t => slEx.val (5 + t)) r q * slEx.val (0 + q)) :=
  C115_pfspmv_sell_partial (nnz := 4) slArgs slVals (by decide) (by decide) ⟨by decide, by decide, by decide⟩

example : EveryRun (pfspmvChunks 5 (1 * 2) 1 (ellSimdBounds 2 2) 2 slCol 0 2 3 .ret) slEx ⟨3, 1, 1 * 2, 1⟩
    (fun r _ => 2 * slEx.val (3 + r) + ∑ q ∈ range 3, chunkEntry 2 (fun i => i * 2 * 2) (fun _ => 2) slCol (fun t => slEx.val (5 + t)) r q * slEx.val (0 + q)) :=
  C115_pfspmv_ellsimd_partial (nnz := 4) slArgs slVals ⟨by decide, by decide, by decide⟩

example : after (pfspmvChunks 5 2 1 (sellBounds slSt slSz) 2 slCol 0 2 3 .ret).seq slEx 3 = some (2 * 1 + 5 * 10 + 11 * 30) ∧
    after (pfspmvChunks 5 2 1 (sellBounds slSt slSz) 2 slCol 0 2 3 .ret).seq slEx 4 = some (2 * 2 + 7 * 20 + 3 * 30) := by decide +kernel

/-- the same matrix without its second row (padded with zeros to a chunk); `y`, of one element, is last -/
def slEx1 : Mem ℚ := memOf [10, 20, 30, 5, 0, 11, 0, 1]

/-- C115 fails for SELL and ELL_simd when the chunk does not divide the number of rows: with one row and a chunk of two rows there is an access after the
end of `y`. -/
theorem C115_sell_violated : faultOf (pfspmvChunks 3 1 1 (sellBounds slSt slSz) 2 slCol 0 1 7 .ret).seq slEx1 = some .oob ∧
    faultOf (pfspmvChunks 3 1 1 (ellSimdBounds 2 2) 2 slCol 0 1 7 .ret).seq slEx1 = some .oob := by decide +kernel

end Verif.Props
