import Verif.Model.Delayed
import Verif.Proofs.Convert

/-!
# Products over fields of floating-point numbers, on arrays: proofs
-/

namespace Verif.Conv

open Verif Verif.FP Verif.Bounds Verif.Lazy Verif.FF Verif.Props Finset

lemma fgemmG_res (G : FpField) (hG : G.WF) (sizeMax : ℕ) (sched : ℕ → ℕ → ℕ → ℕ → SumTree) (hs : ∀ i j x n, (sched i j x n).Covers n) (ta tb : Tr)
    (m n k : ℕ) (alpha : ℤ) (A : Arr ℤ) (lda : ℕ) (B : Arr ℤ) (ldb : ℕ) (beta : ℤ) (C : Arr ℤ) (ldc : ℕ) (hal : Itv.Has G.itv alpha)
    (hbe : Itv.Has G.itv beta) (lA : ∀ i < m, ∀ l < k, adr ta lda i l < A.len) (lB : ∀ l < k, ∀ j < n, adr tb ldb l j < B.len)
    (lC : ∀ i < m, ∀ j < n, i * ldc + j < C.len) (hld : n ≤ ldc) (hA : ∀ i < m, ∀ l < k, Itv.Has G.itv (A.get (adr ta lda i l)))
    (hB : ∀ l < k, ∀ j < n, Itv.Has G.itv (B.get (adr tb ldb l j))) (hC : beta = 0 ∨ ∀ i < m, ∀ j < n, Itv.Has G.itv (C.get (i * ldc + j)))
    (hsafe : Safe G sizeMax k beta) :
    Ok (fgemmG G sizeMax sched ta tb m n k alpha A lda B ldb beta C ldc) (fun D => D.len = C.len ∧ (∀ i < m, ∀ j < n,
      Itv.Has G.itv (D.get (i * ldc + j)) ∧
      D.get (i * ldc + j) ≡ alpha * (∑ l ∈ range k, A.get (adr ta lda i l) * B.get (adr tb ldb l j)) + beta * C.get (i * ldc + j) [ZMOD G.p]) ∧
      ∀ x, (∀ i < m, ∀ j < n, x ≠ i * ldc + j) → D.get x = C.get x) := by
  unfold fgemmG
  set f : ℕ → ℕ → ℤ → Except Fault ℤ := fun i j c => do
    let a ← rdVec k A (fun l => adr ta lda i l)
    let b ← rdVec k B (fun l => adr tb ldb l j)
    fgemmDelayed G sizeMax (sched i j) k alpha a b beta c with hf
  have key : ∀ i < m, ∀ j < n, Ok (f i j (C.get (i * ldc + j))) (fun r => Itv.Has G.itv r ∧
      r ≡ alpha * (∑ l ∈ range k, A.get (adr ta lda i l) * B.get (adr tb ldb l j)) + beta * C.get (i * ldc + j) [ZMOD G.p]) := by
    intro i hi j hj
    simp only [hf, Ok_bind]
    refine (rdVec_ok k A _ (fun l hl => lA i hi l hl)).mono (fun a ha => (rdVec_ok k B _ (fun l hl => lB l hl j hj)).mono (fun b hb => ?_))
    have hsum : ∑ l ∈ range k, A.get (adr ta lda i l) * B.get (adr tb ldb l j) = ∑ l ∈ range k, a l * b l :=
      sum_congr rfl (fun l hl => by rw [mem_range] at hl; rw [ha l hl, hb l hl])
    rw [hsum]
    have ha' : ∀ l < k, Itv.Has G.itv (a l) := fun l hl => by rw [ha l hl]; exact hA i hi l hl
    have hb' : ∀ l < k, Itv.Has G.itv (b l) := fun l hl => by rw [hb l hl]; exact hB l hl j hj
    rcases hC with rfl | hC
    · rw [fgemmDelayed_zero hG]
      obtain ⟨r, h1, h0, h2⟩ := Props.C08_lazy_fgemm_partial G hG sizeMax (sched i j) (hs i j) k alpha 0 0 a b hal hbe hG.zero_mem ha' hb' hsafe
      exact ⟨r, h1, h0, by simpa using h2⟩
    · obtain ⟨r, h1, h0, h2⟩ := Props.C08_lazy_fgemm_partial G hG sizeMax (sched i j) (hs i j) k alpha beta _ a b hal hbe (hC i hi j hj) ha' hb' hsafe
      exact ⟨r, h1, h0, h2⟩
  refine (Ok_upd2 m n (fun i j => i * ldc + j) f (fun i j => outOf (f i j (C.get (i * ldc + j)))) C
    (fun i hi j hj => (outOf_spec (key i hi j hj)).1) lC (fun i _ j hj i' _ j' hj' h => addr_inj hld hj hj' h)).mono
    (fun D h => ⟨h.1, fun i hi j hj => ?_, h.2.2⟩)
  rw [h.2.1 i hi j hj]
  exact (outOf_spec (key i hi j hj)).2

lemma fgerEntry_mem (G : FpField) (hG : G.WF) {alpha x y a r : ℤ} (h : fgerEntry G alpha x y a = .ok r) : Itv.Has G.itv r := by
  unfold fgerEntry at h
  by_cases h0 : alpha = 0
  · rw [if_pos h0] at h
    injection h with h; rw [← h]; exact hG.red_mem _
  · rw [if_neg h0] at h
    generalize (if alpha = G.one then Except.ok y else if alpha = G.mOne then chk G.prec (-y) else Except.ok (G.red (alpha * y))) = e at h
    rcases e with e | e
    · cases h
    · simp only [bind, Except.bind] at h
      rcases h1 : chk G.prec (x * e) with t | t <;> rw [h1] at h
      · cases h
      · simp only at h
        rcases h2 : chk G.prec (a + t) with s | s <;> rw [h2] at h
        · cases h
        · simp only at h
          injection h with h; rw [← h]; exact hG.red_mem _

lemma fgerStrided_ok (G : FpField) (hG : G.WF) (hm : G.itv.mag * G.itv.mag + G.itv.mag ≤ 2 ^ G.prec) (M N : ℕ) (alpha : ℤ) (X : Arr ℤ) (incx : ℕ) (Y : Arr ℤ)
    (incy : ℕ) (A : Arr ℤ) (lda : ℕ) (lX : ∀ i < M, i * incx < X.len) (lY : ∀ j < N, j * incy < Y.len) (lA : ∀ i < M, ∀ j < N, i * lda + j < A.len)
    (hld : N ≤ lda) (hX : ∀ i < M, Itv.Has G.itv (X.get (i * incx))) (hY : ∀ j < N, Itv.Has G.itv (Y.get (j * incy)))
    (hA : ∀ i < M, ∀ j < N, Itv.Has G.itv (A.get (i * lda + j))) :
    Ok (fgerStrided G M N alpha X incx Y incy A lda) (fun D => D.len = A.len ∧ (∀ i < M, ∀ j < N, Itv.Has G.itv (D.get (i * lda + j)) ∧
      D.get (i * lda + j) ≡ A.get (i * lda + j) + alpha * X.get (i * incx) * Y.get (j * incy) [ZMOD G.p]) ∧
      ∀ x, (∀ i < M, ∀ j < N, x ≠ i * lda + j) → D.get x = A.get x) := by
  unfold fgerStrided
  set f : ℕ → ℕ → ℤ → Except Fault ℤ := fun i j a => do
    let x ← X.rd (i * incx)
    let y ← Y.rd (j * incy)
    fgerEntry G alpha x y a with hf
  have key : ∀ i < M, ∀ j < N, Ok (f i j (A.get (i * lda + j))) (fun r => Itv.Has G.itv r ∧
      r ≡ A.get (i * lda + j) + alpha * X.get (i * incx) * Y.get (j * incy) [ZMOD G.p]) := by
    intro i hi j hj
    simp only [hf, Ok_bind, Ok_rd]
    obtain ⟨r, h1, h2⟩ := fgerEntry_ok G hG hm (alpha := alpha) (hX i hi) (hY j hj) (hA i hi j hj)
    exact ⟨lX i hi, lY j hj, r, h1, fgerEntry_mem G hG h1, h2⟩
  refine (Ok_upd2 M N (fun i j => i * lda + j) f (fun i j => outOf (f i j (A.get (i * lda + j)))) A
    (fun i hi j hj => (outOf_spec (key i hi j hj)).1) lA
    (fun i _ j hj i' _ j' hj' h => addr_inj hld hj hj' h)).mono (fun D h => ⟨h.1, fun i hi j hj => ?_, h.2.2⟩)
  rw [h.2.1 i hi j hj]
  exact (outOf_spec (key i hi j hj)).2

end Verif.Conv
