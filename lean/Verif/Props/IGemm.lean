import Verif.Proofs.IGemmTop
import Verif.Core.HeapEx

/-!
# Property C101: the product of matrices of 64-bit integers is exact

The full claim is that `fgemm` and `fgemv` over `ZRing<int64_t>` return `alpha op(A) op(B) + beta C` whenever no integer involved needs more
than 64 bits.  It is false: the vector kernels multiply the low 32 bits of their operands, which loses entries of 32 bits or more and, for
`alpha` other than `1` and `-1`, results of 32 bits or more; and the blocking divides by zero when the processor reports no first-level
cache.  The partial theorem states the ranges in which the result is exact.
-/

namespace Verif.Props

open Finset Verif.IG Verif.FF

/-- address of the entry `(i, j)` of a matrix stored by rows or by columns -/
def cell (o : Order) (A ld i j : ℕ) : ℕ := match o with
  | .rowMajor => A + i * ld + j
  | .colMajor => A + j * ld + i

/-- address of the entry `(i, j)` of `op(A)` -/
def opCell (o : Order) (t : Tr) (A ld i j : ℕ) : ℕ := match t with
  | .no => cell o A ld i j
  | .yes => cell o A ld j i

/-- the processor reports a first-level cache that can hold one step of the kernels, and larger ones -/
structure CachesOk (v : ℕ) (ca : Caches) : Prop where
  l1 : 2 * (4 + 2 * (v : ℤ)) * 8 ≤ ca.l1
  last : ca.l1 ≤ max ca.l2 ca.l3
  tlb : ca.tlb = 0 ∨ ca.l1 ≤ ca.tlb
  int : ca.l2 < 2 ^ 31 ∧ ca.l3 < 2 ^ 31

lemma CachesOk.sizes {v : ℕ} {ca : Caches} (h : CachesOk v ca) : 2 * (4 + 2 * v) * 8 ≤ toSize ca.l1 ∧ toSize ca.l1 ≤ toSize (top ca) := by
  obtain ⟨h1, h2, h3, h4, h5⟩ := h
  have ht : ca.l1 ≤ top ca ∧ top ca < 2 ^ 31 := by
    unfold top
    split_ifs with hc <;> omega
  generalize top ca = x at *
  unfold toSize
  rw [Int.emod_eq_of_lt (by omega) (by omega), Int.emod_eq_of_lt (by omega) (by omega)]
  omega

theorem C101_igemm_exact_partial {m : Mem ℤ} {v : ℕ} {ca : Caches} {o : Order} {tA tB : Tr} {M N K A lda B ldb C ldc : ℕ} {alpha beta : ℤ}
    (hm : WF m) (hv : 0 < v) (hca : CachesOk v ca) (hld : (match o with | .rowMajor => N | .colMajor => M) ≤ ldc)
    (okC : ∀ i < M, ∀ j < N, m.ok (cell o C ldc i j) = true)
    (okA : ∀ i < M, ∀ k < K, m.ok (opCell o tA A lda i k) = true ∧ ∀ i' < M, ∀ j' < N, opCell o tA A lda i k ≠ cell o C ldc i' j')
    (okB : ∀ k < K, ∀ j < N, m.ok (opCell o tB B ldb k j) = true ∧ ∀ i' < M, ∀ j' < N, opCell o tB B ldb k j ≠ cell o C ldc i' j')
    -- entries of 32 bits
    (fa : ∀ i < M, ∀ k < K, -2 ^ 31 ≤ m.val (opCell o tA A lda i k) ∧ m.val (opCell o tA A lda i k) < 2 ^ 31)
    (fb : ∀ k < K, ∀ j < N, -2 ^ 31 ≤ m.val (opCell o tB B ldb k j) ∧ m.val (opCell o tB B ldb k j) < 2 ^ 31)
    -- results of 64 bits
    (bd : ∀ i < M, ∀ j < N, |beta * m.val (cell o C ldc i j)| +
      ∑ k ∈ range K, |alpha * (m.val (opCell o tA A lda i k) * m.val (opCell o tB B ldb k j))| < 2 ^ 63)
    -- other scalars: products of 32 bits
    (hal : alpha = 1 ∨ alpha = -1 ∨ alpha = 0 ∨ ((-2 ^ 31 ≤ alpha ∧ alpha < 2 ^ 31) ∧
      (∀ i < M, ∀ k < K, |alpha * m.val (opCell o tA A lda i k)| < 2 ^ 31) ∧ (∀ k < K, ∀ j < N, |alpha * m.val (opCell o tB B ldb k j)| < 2 ^ 31) ∧
      ∀ i < M, ∀ j < N, ∑ k ∈ range K, |m.val (opCell o tA A lda i k) * m.val (opCell o tB B ldb k j)| < 2 ^ 31)) :
    Run (igemm_ v ca o tA tB M N K alpha A lda B ldb beta C ldc) m (fun _ m' => m'.ok = m.ok ∧
      (∀ i < M, ∀ j < N, m'.val (cell o C ldc i j) = beta * m.val (cell o C ldc i j) +
        alpha * ∑ k ∈ range K, m.val (opCell o tA A lda i k) * m.val (opCell o tB B ldb k j)) ∧
      ∀ q, m.ok q = true → (∀ i < M, ∀ j < N, q ≠ cell o C ldc i j) → m'.val q = m.val q) := by
  obtain ⟨c1, c2⟩ := hca.sizes
  have hlt : ∀ q, m.ok q = true → q < m.next := fun q hq => WF.lt' hm hq
  have fits : ∀ x : ℤ, |x| < 2 ^ 31 → Fits x := fun x hx => Fits_of_abs hx
  cases o with
  | colMajor =>
    have hW : ∀ j i, (Win.mk C ldc N M).adr j i = cell .colMajor C ldc i j := fun j i => rfl
    have hHas : ∀ q, (Win.mk C ldc N M).Has q ↔ ∃ i < M, ∃ j < N, q = cell .colMajor C ldc i j := fun q =>
      ⟨fun ⟨j, hj, i, hi, e⟩ => ⟨i, hi, j, hj, e⟩, fun ⟨i, hi, j, hj, e⟩ => ⟨j, hj, i, hi, e⟩⟩
    have on0 : On m m ⟨C, ldc, N, M⟩ (fun j i => m.val (cell .colMajor C ldc i j)) :=
      ⟨hm, fun q hq => by obtain ⟨i, hi, j, hj, rfl⟩ := (hHas q).1 hq; exact okC i hi j hj, hld, rfl, le_rfl, fun j _ i _ => rfl, fun _ _ _ => rfl⟩
    have eA : ∀ i k, cadr tA A lda i k = opCell .colMajor tA A lda i k := fun i k => by
      cases tA <;> simp only [cadr, opCell, cell] <;> omega
    have eB : ∀ j k, cadr (IG.flip tB) B ldb j k = opCell .colMajor tB B ldb k j := fun j k => by
      cases tB <;> simp only [cadr, IG.flip, opCell, cell] <;> omega
    refine (igemm_spec (tA := tA) (tB := tB) (A := A) (lda := lda) (B := B) (ldb := ldb) (alpha := alpha) (beta := beta) hv c1 c2 on0
      (a := fun i k => m.val (opCell .colMajor tA A lda i k)) (b := fun j k => m.val (opCell .colMajor tB B ldb k j)) (depth := K)
      ?_ ?_ fa (fun j hj k hk => fb k hk j hj) (fun j hj i hi => bd i hi j hj) ?_).mono (fun _ m' h => ?_)
    · intro i hi k hk
      rw [eA]
      obtain ⟨h1, h2⟩ := okA i hi k hk
      exact ⟨h1, rfl, fun hc => by obtain ⟨i', hi', j', hj', e⟩ := (hHas _).1 hc; exact h2 i' hi' j' hj' e, hlt _ h1⟩
    · intro j hj k hk
      rw [eB]
      obtain ⟨h1, h2⟩ := okB k hk j hj
      exact ⟨h1, rfl, fun hc => by obtain ⟨i', hi', j', hj', e⟩ := (hHas _).1 hc; exact h2 i' hi' j' hj' e, hlt _ h1⟩
    · rcases hal with q | q | q | ⟨q1, q2, q3, q4⟩
      · exact Or.inl q
      · exact Or.inr (Or.inl q)
      · exact Or.inr (Or.inr (Or.inl q))
      · exact Or.inr (Or.inr (Or.inr ⟨q1, fun i hi k hk => fits _ (q2 i hi k hk), fun j hj i hi => q4 i hi j hj⟩))
    · refine ⟨h.step.ok, fun i hi j hj => h.step.val j hj i hi, fun q hq hn => h.step.frame q hq (fun hc => ?_)⟩
      obtain ⟨i, hi, j, hj, e⟩ := (hHas q).1 hc
      exact hn i hi j hj e
  | rowMajor =>
    have hHas : ∀ q, (Win.mk C ldc M N).Has q ↔ ∃ i < M, ∃ j < N, q = cell .rowMajor C ldc i j := fun q =>
      ⟨fun ⟨j, hj, i, hi, e⟩ => ⟨j, hj, i, hi, e⟩, fun ⟨i, hi, j, hj, e⟩ => ⟨i, hi, j, hj, e⟩⟩
    have on0 : On m m ⟨C, ldc, M, N⟩ (fun i j => m.val (cell .rowMajor C ldc i j)) :=
      ⟨hm, fun q hq => by obtain ⟨i, hi, j, hj, rfl⟩ := (hHas q).1 hq; exact okC i hi j hj, hld, rfl, le_rfl, fun j _ i _ => rfl, fun _ _ _ => rfl⟩
    have eA : ∀ i k, cadr (IG.flip tA) A lda i k = opCell .rowMajor tA A lda i k := fun i k => by
      cases tA <;> simp only [cadr, IG.flip, opCell, cell] <;> omega
    have eB : ∀ j k, cadr tB B ldb j k = opCell .rowMajor tB B ldb k j := fun j k => by
      cases tB <;> simp only [cadr, opCell, cell] <;> omega
    refine (igemm_spec (tA := tB) (tB := tA) (A := B) (lda := ldb) (B := A) (ldb := lda) (alpha := alpha) (beta := beta) hv c1 c2 on0
      (b := fun i k => m.val (opCell .rowMajor tA A lda i k)) (a := fun j k => m.val (opCell .rowMajor tB B ldb k j)) (depth := K)
      ?_ ?_ (fun j hj k hk => fb k hk j hj) fa (fun i hi j hj => ?_) ?_).mono (fun _ m' h => ?_)
    · intro j hj k hk
      rw [eB]
      obtain ⟨h1, h2⟩ := okB k hk j hj
      exact ⟨h1, rfl, fun hc => by obtain ⟨i', hi', j', hj', e⟩ := (hHas _).1 hc; exact h2 i' hi' j' hj' e, hlt _ h1⟩
    · intro i hi k hk
      rw [eA]
      obtain ⟨h1, h2⟩ := okA i hi k hk
      exact ⟨h1, rfl, fun hc => by obtain ⟨i', hi', j', hj', e⟩ := (hHas _).1 hc; exact h2 i' hi' j' hj' e, hlt _ h1⟩
    · have := bd i hi j hj
      simp only [mul_comm (m.val (opCell .rowMajor tB B ldb _ _))]
      exact this
    · rcases hal with q | q | q | ⟨q1, q2, q3, q4⟩
      · exact Or.inl q
      · exact Or.inr (Or.inl q)
      · exact Or.inr (Or.inr (Or.inl q))
      · refine Or.inr (Or.inr (Or.inr ⟨q1, fun j hj k hk => fits _ (q3 k hk j hj), fun i hi j hj => ?_⟩))
        simp only [mul_comm (m.val (opCell .rowMajor tB B ldb _ _))]
        exact q4 i hi j hj
    · refine ⟨h.step.ok, fun i hi j hj => ?_, fun q hq hn => h.step.frame q hq (fun hc => ?_)⟩
      · have := h.step.val i hi j hj
        have e : m'.val (cell .rowMajor C ldc i j) = _ := this
        rw [e]
        simp only [dot, mul_comm (m.val (opCell .rowMajor tB B ldb _ _))]
      · obtain ⟨i, hi, j, hj, e⟩ := (hHas q).1 hc
        exact hn i hi j hj e

/-- a usual processor -/
def exCaches : Caches := ⟨32768, 262144, 8388608, 262144⟩

lemma exCaches_ok : CachesOk 4 exCaches := ⟨by decide, by decide, Or.inr (by decide), by decide⟩

/-- the hypotheses hold: a `2 × 1` product with entries close to `2 ^ 31`, and the result has more than 32 bits -/
example : ∃ m', Run (igemm_ 4 exCaches .rowMajor .no .no 2 1 2 (-1) 0 2 4 1 1 6 1) (memOf [2147483647, 5, 7, -2147483648, 2147483647, -3, 10, 20]) (fun _ m => m = m') ∧
    m'.val 6 = 10 - (2147483647 * 2147483647 - 15) := by
  obtain ⟨_, m', ha, hq⟩ := (C101_igemm_exact_partial (m := memOf [2147483647, 5, 7, -2147483648, 2147483647, -3, 10, 20]) (v := 4) (ca := exCaches) (o := .rowMajor) (tA := .no)
    (tB := .no) (M := 2) (N := 1) (K := 2) (A := 0) (lda := 2) (B := 4) (ldb := 1) (C := 6) (ldc := 1) (alpha := -1) (beta := 1)
    (WF_memOf _) (by decide) exCaches_ok (by decide) (by decide +kernel) (by decide +kernel) (by decide +kernel) (by decide +kernel) (by decide +kernel)
    (by decide +kernel) (by decide))
  refine ⟨m', ⟨_, m', ha, rfl⟩, ?_⟩
  have := hq.2.1 0 (by decide) 0 (by decide)
  rw [show cell .rowMajor 6 1 0 0 = 6 from rfl] at this
  rw [this]
  decide +kernel

/-- With `alpha` other than `1` and `-1`, results of 32 bits or more are lost by the vector kernels and kept by the scalar ones: a column of
five entries `2 ^ 16` times `2 ^ 16` times `2`.  All the integers involved have less than 35 bits. -/
theorem C101_alpha_violated : (List.range 5).map (fun i => after (igemm_ 4 exCaches .colMajor .no .no 5 1 1 2 0 5 5 1 0 6 5)
    (memOf [65536, 65536, 65536, 65536, 65536, 65536, 0, 0, 0, 0, 0]) (6 + i)) = [some 0, some 0, some 0, some 0, some 8589934592] := by
  decide +kernel

/-- a scalar of more than 32 bits is itself truncated: `2 ^ 32` times a column of ones -/
theorem C101_wide_alpha_violated : (List.range 5).map (fun i => after (igemm_ 4 exCaches .colMajor .no .no 5 1 1 4294967296 0 5 5 1 0 6 5)
    (memOf [1, 1, 1, 1, 1, 1, 0, 0, 0, 0, 0]) (6 + i)) = [some 0, some 0, some 0, some 0, some 4294967296] := by
  decide +kernel

/-- entries of more than 32 bits are truncated: `2 ^ 32 + 1` times one is one in the first four rows -/
theorem C101_wide_entries_violated : (List.range 5).map (fun i => after (igemm_ 4 exCaches .colMajor .no .no 5 1 1 1 0 5 5 1 0 6 5)
    (memOf [4294967297, 4294967297, 4294967297, 4294967297, 4294967297, 1, 0, 0, 0, 0, 0]) (6 + i)) =
      [some 1, some 1, some 1, some 1, some 4294967297] := by
  decide +kernel

/-- the processor reports no data cache (some virtual machines): the blocking divides by zero -/
theorem C101_no_cache_violated : faultOf (igemm_ 4 ⟨0, 0, 0, 0⟩ .rowMajor .no .no 1 1 1 1 0 1 1 1 0 2 1) (memOf [2, 3, 0]) = some .divZero := by
  decide +kernel

/-- the processor reports only a first-level cache: the loop on the rows never advances -/
theorem C101_one_cache_violated : faultOf (igemm_ 4 ⟨32768, 0, 0, 0⟩ .rowMajor .no .no 1 1 1 1 0 1 1 1 0 2 1) (memOf [2, 3, 0]) = some .fuel := by
  decide +kernel

end Verif.Props
