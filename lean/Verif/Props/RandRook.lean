import Verif.Proofs.RandSym
import Verif.Proofs.RandLtqs

/-!
# C85, C86, C87: random index subsets, permutations and rank profile matrices

The draws `d` are arbitrary, so the theorems are about every run.
-/

namespace Verif.Props

open Verif.FF Verif.Spec Verif.RandRook

variable {M N R : ℕ}

/-! ## C85 -/

/-- **C85.** `RandomIndexSubset` returns `R` distinct elements of `{0, …, N - 1}` and leaves the rest of the array alone. -/
theorem C85_subset (d junk : ℕ → ℕ) (hR : R ≤ N) {P : Arr ℕ} (hP : R ≤ P.len) :
    Ok (randomIndexSubset d junk N R P) (fun P' => (∀ i < R, P'.get i < N) ∧ (∀ i < R, ∀ j < R, P'.get i = P'.get j → i = j) ∧
      P'.len = P.len ∧ ∀ i, R ≤ i → P'.get i = P.get i) := by
  refine (randomIndexSubset_spec d junk hR hP).mono ?_
  rintro P' ⟨l, e, o⟩
  have av := subset_avail d N R hR
  exact ⟨fun i hi => by rw [e i hi]; exact av.bu i hi, fun i hi j hj => by rw [e i hi, e j hj]; exact av.iu i hi j hj, l, o⟩

/-- **C85.** The subset is uniform if the draws are: every sequence `p` of `R` distinct elements is returned for exactly one sequence of draws
`x_i < N - i`. -/
theorem C85_uniform (junk : ℕ → ℕ) (hR : R ≤ N) {P : Arr ℕ} (hP : R ≤ P.len) {p : ℕ → ℕ} (hp : ∀ k < R, p k < N)
    (hi : ∀ k < R, ∀ l < R, p k = p l → k = l) :
    ∃ d : ℕ → ℕ, (∀ i < R, d i < N - i) ∧ Ok (randomIndexSubset d junk N R P) (fun P' => ∀ i < R, P'.get i = p i) ∧
      ∀ d' : ℕ → ℕ, (∀ i < R, d' i < N - i) → Ok (randomIndexSubset d' junk N R P) (fun P' => ∀ i < R, P'.get i = p i) → ∀ i < R, d' i = d i := by
  obtain ⟨d, hd, e⟩ := subset_surj R hR hp hi
  refine ⟨d, hd, (randomIndexSubset_spec d junk hR hP).mono fun P' h i hi => by rw [h.2.1 i hi, e i hi], fun d' hd' h => ?_⟩
  obtain ⟨P', e', h'⟩ := h
  obtain ⟨P2, e2, h2⟩ := randomIndexSubset_spec d' junk hR hP
  rw [e'] at e2
  cases e2
  exact subset_inj hR hd' hd (fun i hi => by rw [← h2.2.1 i hi, h' i hi, e i hi])

/-- **C85.** `RandomPermutation` returns a permutation in LAPACK format; every one is returned for exactly one sequence of draws `x_i < N - i`. -/
theorem C85_permutation (d : ℕ → ℕ) {P : Arr ℕ} (hP : N ≤ P.len) :
    Ok (randomPermutation d N P) (fun P' => (∀ i < N, i ≤ P'.get i ∧ P'.get i < N) ∧ (∀ i < N, d i < N - i → P'.get i - i = d i) ∧
      ∀ i, N ≤ i → P'.get i = P.get i) := by
  unfold randomPermutation
  refine (Ok_iter (fun n (P' : Arr ℕ) => P'.len = P.len ∧ (∀ i < n, i ≤ P'.get i ∧ P'.get i < N) ∧ (∀ i < n, d i < N - i → P'.get i - i = d i) ∧
    ∀ i, N ≤ i → P'.get i = P.get i) ⟨rfl, by omega, by omega, fun _ _ => rfl⟩ ?_).mono (fun _ h => h.2)
  rintro n P' hn ⟨h0, h1, h2, h3⟩
  rw [Ok_bind]
  refine (randInt_ok (by omega)).mono ?_
  rintro x ⟨e, -, x2⟩
  rw [Ok_wr]
  refine ⟨by omega, h0, fun i hi => ?_, fun i hi hd => ?_, fun i hi => ?_⟩ <;> simp only [Function.update_apply]
  · split_ifs with c
    · omega
    · exact h1 i (by omega)
  · split_ifs with c
    · rw [e, c, Nat.sub_zero, Nat.mod_eq_of_lt (c ▸ hd)]; omega
    · exact h2 i (by omega) hd
  · rw [if_neg (by omega)]; exact h3 i hi

/-- **C85.** `RandomRankProfileMatrix` returns the positions of an `R`-subpermutation. -/
theorem C85_profile (d junk junk' : ℕ → ℕ) (hM : R ≤ M) (hN : R ≤ N) {rows cols : Arr ℕ} (hr : R ≤ rows.len) (hc : R ≤ cols.len) :
    Ok (randomRankProfileMatrix d junk junk' M N R rows cols) (fun x => Rook M N R x.1.get x.2.get) := by
  unfold randomRankProfileMatrix
  rw [Ok_bind]
  refine (C85_subset d junk hM hr).mono ?_
  rintro rows' ⟨r1, r2, -⟩
  rw [Ok_bind]
  refine (C85_subset _ junk' hN hc).mono ?_
  rintro cols' ⟨c1, c2, -⟩
  rw [Ok_pure]
  exact ⟨r1, c1, r2, c2⟩

/-- three elements of `{0, …, 4}`: the draws `3, 0, 2` give `3, 1, 4` -/
example : Ok (randomIndexSubset (Arr.ofList [3, 0, 2]).get (fun _ => 9) 5 3 (Arr.mk' 3 (fun _ => 9))) (fun P => P.toList = [3, 1, 4]) :=
  ⟨_, rfl, by decide⟩

example : Ok (randomPermutation (Arr.ofList [2, 0, 1, 5]).get 4 (Arr.mk' 4 (fun _ => 9))) (fun P => P.toList = [2, 1, 3, 3]) := ⟨_, rfl, by decide⟩

/-! ## C86 -/

/-- **C86, partial.** `RandomSymmetricRankProfileMatrix`: if it returns, the `R` positions are those of a symmetric `R`-subpermutation, and all
accesses were in bounds.  For even `R` it returns, whatever is drawn.  Missing: for odd `R` it may not return, see `C86_violated`. -/
theorem C86_symmetric_partial (d junk junk' : ℕ → ℕ) (fuel : ℕ) (hR : R ≤ N) {rows cols : Arr ℕ} (hr : R ≤ rows.len) (hc : R ≤ cols.len) :
    (∀ f, randomSymmetricRankProfileMatrix d junk junk' fuel N R rows cols = .error f → f = .fuel) ∧
    (∀ x, randomSymmetricRankProfileMatrix d junk junk' fuel N R rows cols = .ok x → Rook N N R x.1.get x.2.get ∧ SymRook R x.1.get x.2.get) ∧
    (R % 2 = 0 → 0 < fuel → ∃ x, randomSymmetricRankProfileMatrix d junk junk' fuel N R rows cols = .ok x) := by
  rcases randomSymmetric_spec (N := N) (R := R) d junk junk' (fuel := fuel) hR hr hc with ⟨x, e, h⟩ | ⟨f, e, rfl, h⟩
  · refine ⟨fun f hf => ?_, fun y hy => ?_, fun _ _ => ⟨x, e⟩⟩
    · rw [e] at hf; cases hf
    · rw [e] at hy; cases hy; exact h
  · refine ⟨fun f hf => ?_, fun y hy => ?_, fun h1 h2 => ?_⟩
    · rw [e] at hf; cases hf; rfl
    · rw [e] at hy; cases hy
    · have := h h1; omega

/-- **C86, violation.** For `N = 4`, `R = 3` and first draws `3, 2, 1, 1` the function never returns, whatever is drawn afterwards: rows `{1}`
and columns `{0}` are searched for a common element for ever. -/
theorem C86_violated (d junk junk' : ℕ → ℕ) (h0 : d 0 = 3) (h1 : d 1 = 2) (h2 : d 2 = 1) (h3 : d 3 = 1) (rows cols : Arr ℕ) (hr : rows.len = 3)
    (hc : cols.len = 3) : ∀ fuel, randomSymmetricRankProfileMatrix d junk junk' fuel 4 3 rows cols = .error .fuel := by
  have never : ∀ (rr cc : Arr ℕ), rr.len = 4 → cc.len = 4 → rr.get 2 = 1 → rr.get 3 = 1 → cc.get 2 = 0 → cc.get 3 = 0 →
      ∀ fuel c, diagPick d 4 2 rr cc fuel c = .error .fuel := by
    intro rr cc l1 l2 e1 e2 e3 e4 fuel
    induction fuel with
    | zero => intro c; rfl
    | succ fuel ih =>
      intro c
      unfold diagPick
      have hl : randInt 2 4 (d c) = .ok (2 + d c % 2) := by simp [randInt]
      have hco : cc.rd (2 + d c % 2) = .ok 0 := by
        unfold Arr.rd
        rcases Nat.mod_two_eq_zero_or_one (d c) with z | z <;> rw [z, l2] <;> simp [e3, e4]
      have hr2 : rr.rd 2 = .ok 1 := by simp [Arr.rd, l1, e1]
      have hr3 : rr.rd 3 = .ok 1 := by simp [Arr.rd, l1, e2]
      simp only [hl, hco, iter, bind, Except.bind, pure, Except.pure, Nat.add_zero, hr2, hr3, Nat.reduceSub, Nat.reduceAdd]
      simpa using ih (c + 1)
  intro fuel
  -- the first iteration places `(3, 2)` and `(2, 3)`
  have step0 : ∀ s : SymSt, s.rr.len = 4 → s.cc.len = 4 → s.rows.len = 3 → s.cols.len = 3 → (∀ i < 4, s.rr.get i = i) → (∀ i < 4, s.cc.get i = i) → s.c = 0 →
      Ok (symStep d 4 3 fuel 0 s) (fun s => s.rr.len = 4 ∧ s.cc.len = 4 ∧ s.rows.len = 3 ∧ s.cols.len = 3 ∧ s.rr.get 2 = 1 ∧ s.rr.get 3 = 0 ∧
        s.cc.get 2 = 0 ∧ s.cc.get 3 = 1 ∧ s.c = 2) := by
    intro s l1 l2 l3 l4 e1 e2 e3
    have r0 := e1 0 (by omega)
    have r1 := e1 1 (by omega)
    have r2 := e1 2 (by omega)
    have r3 := e1 3 (by omega)
    have c0 := e2 0 (by omega)
    have c1 := e2 1 (by omega)
    have c2 := e2 2 (by omega)
    have c3 := e2 3 (by omega)
    have i0 : randInt 0 4 (d s.c) = .ok 3 := by rw [e3, h0]; rfl
    have i1 : randInt 0 4 (d (s.c + 1)) = .ok 2 := by rw [e3, h1]; rfl
    unfold symStep
    simp only [i0, i1, Ok_bind, Ok_ok, Ok_rd, Ok_wr, l1, l2, l3, l4, r3, c2, r0, c0, Function.update_self]
    simp [-bind_pure_comp, swapval, swapFind, l1, l2, l3, l4, r0, r1, r2, c0, c1, c3, e3, Ok_ite]
  -- the second one does not end
  have step1 : ∀ s : SymSt, s.rr.len = 4 ∧ s.cc.len = 4 ∧ s.rows.len = 3 ∧ s.cols.len = 3 ∧ s.rr.get 2 = 1 ∧ s.rr.get 3 = 0 ∧
      s.cc.get 2 = 0 ∧ s.cc.get 3 = 1 ∧ s.c = 2 → symStep d 4 3 fuel 2 s = .error .fuel := by
    rintro s ⟨l1, l2, l3, l4, r2, r3, c2, c3, ec⟩
    have i0 : randInt 2 4 (d s.c) = .ok 3 := by rw [ec, h2]; rfl
    have i1 : randInt 2 4 (d (s.c + 1)) = .ok 3 := by rw [ec, h3]; rfl
    have n := never ⟨4, Function.update s.rr.get 3 1⟩ ⟨4, Function.update s.cc.get 3 0⟩ rfl rfl (by simp [r2]) (by simp) (by simp [c2]) (by simp) fuel (2 + 2)
    unfold symStep
    have rdE : ∀ {β : Type} (a : Arr ℕ) (i : ℕ) (f : ℕ → Except Fault β), i < a.len → (a.rd i >>= f) = f (a.get i) := fun a i f h => by
      rw [Arr.rd, if_pos h]; rfl
    have wrE : ∀ {β : Type} (a : Arr ℕ) (i v : ℕ) (f : Arr ℕ → Except Fault β), i < a.len → (a.wr i v >>= f) = f ⟨a.len, Function.update a.get i v⟩ :=
      fun a i v f h => by rw [Arr.wr, if_pos h]; rfl
    rw [i0, i1]
    show (s.cc.rd 3 >>= _) = _
    rw [rdE _ _ _ (by omega), wrE _ _ _ _ (by omega), rdE _ _ _ (by omega), wrE _ _ _ _ (by omega), rdE _ _ _ (by omega), wrE _ _ _ _ (by omega),
      rdE _ _ _ (by omega), wrE _ _ _ _ (by omega), rdE _ _ _ (by simp only []; omega), rdE _ _ _ (by simp only []; omega)]
    rw [if_neg (by omega)]
    simp only [if_neg (show ¬ 2 + 1 < 3 by omega), l1, l2, c2, r2, ec, n]
    rfl
  unfold randomSymmetricRankProfileMatrix
  obtain ⟨rr, er, lr, vr⟩ := fillId 4 junk
  obtain ⟨cc, ec, lc, vc⟩ := fillId 4 junk'
  obtain ⟨s1, e1, q1⟩ := step0 ⟨rr, cc, rows, cols, 0⟩ lr lc hr hc vr vc rfl
  have e2 := step1 s1 q1
  rw [er, ec]
  simp only [show (3 + 1) / 2 = 2 from rfl, iter, bind, Except.bind, pure, Except.pure, Nat.mul_zero, Nat.mul_one, e1, e2]

/-- even rank, with two pivots off the diagonal and two on it -/
example : Ok (randomSymmetricRankProfileMatrix (Arr.ofList [3, 2, 1, 0, 7]).get (fun _ => 9) (fun _ => 9) 9 5 4 (Arr.mk' 4 (fun _ => 9)) (Arr.mk' 4 (fun _ => 9)))
    (fun x => x.1.toList = [3, 2, 0, 4] ∧ x.2.toList = [2, 3, 0, 4]) := ⟨_, rfl, by decide⟩

/-! ## C87 -/

/-- **C87, partial.** `RandomLTQSRankProfileMatrix`: if it returns, the `r` positions are those of an `r`-subpermutation inside the left triangle, and no
leading block inside the triangle has more than `t` of them, so the order of quasi-separability is at most `t`; if it does not return, it is
because of an access out of bounds.  Missing: the order need not be `t`, see `C87_order_violated`, and it may read from an empty vector, see
`C87_empty_violated`. -/
theorem C87_ltqs_partial (d junk : ℕ → ℕ) (jz : ℕ → ℤ) {n r t : ℕ} (hr : r < n) (ht : 0 < t) {rows cols : Arr ℕ} (hp : r ≤ rows.len) :
    (∀ f, randomLTQSRankProfileMatrix d junk jz n r t rows cols = .error f → f = .oob) ∧
    ∀ x, randomLTQSRankProfileMatrix d junk jz n r t rows cols = .ok x → Rook n n r x.1.get x.2.get ∧ (∀ k < r, x.1.get k + x.2.get k + 1 < n) ∧
      ∀ a b, a + b ≤ n → rookCount r x.1.get x.2.get a b ≤ t := by
  rcases randomLTQS_spec (n := n) (r := r) (t := t) d junk jz hr ht (cols := cols) hp with ⟨x, e, h⟩ | ⟨f, e, rfl⟩
  · refine ⟨fun f hf => ?_, fun y hy => ?_⟩
    · rw [e] at hf; cases hf
    · rw [e] at hy; cases hy; exact h
  · refine ⟨fun f hf => ?_, fun y hy => ?_⟩
    · rw [e] at hf; cases hf; rfl
    · rw [e] at hy; cases hy

/-- **C87, violation.** `n = 4`, `r = 2`, `t = 2` and draws `2, 1, 0, 0`: when a move is undone the counters of the pivots not moved yet are
decremented a second time; the valuation becomes negative, is compared as an unsigned number and the next move accepted.  The positions
returned are `(1, 0)` and `(0, 2)`, and no leading block in the triangle has two of them. -/
theorem C87_order_violated : Ok (randomLTQSRankProfileMatrix (Arr.ofList [2, 1, 0, 0]).get (fun _ => 9) (fun _ => 9) 4 2 2 (Arr.mk' 2 (fun _ => 9)) (Arr.mk' 2 (fun _ => 9)))
    (fun x => x.1.toList = [1, 0] ∧ x.2.toList = [0, 2] ∧ ∀ a < 5, ∀ b < 5, a + b ≤ 4 → rookCount 2 x.1.get x.2.get a b ≤ 1) :=
  ⟨_, rfl, by decide +kernel⟩

/-- **C87, violation.** `n = 7`, `r = 4`, `t = 3` and draws `3, 3, 2, 1, 1, 0`: every move is undone and `valid_moves[0]` read from an empty vector. -/
theorem C87_empty_violated :
    randomLTQSRankProfileMatrix (Arr.ofList [3, 3, 2, 1, 1, 0]).get (fun _ => 9) (fun _ => 9) 7 4 3 (Arr.mk' 4 (fun _ => 9)) (Arr.mk' 4 (fun _ => 9)) = .error .oob := by
  have h : (randomLTQSRankProfileMatrix (Arr.ofList [3, 3, 2, 1, 1, 0]).get (fun _ => 9) (fun _ => 9) 7 4 3 (Arr.mk' 4 (fun _ => 9)) (Arr.mk' 4 (fun _ => 9))).isOk = false := by
    decide +kernel
  have p := (C87_ltqs_partial (Arr.ofList [3, 3, 2, 1, 1, 0]).get (fun _ => 9) (fun _ => 9) (n := 7) (r := 4) (t := 3) (by omega) (by omega)
    (rows := Arr.mk' 4 (fun _ => 9)) (cols := Arr.mk' 4 (fun _ => 9)) (le_refl _)).1
  revert h p
  cases randomLTQSRankProfileMatrix (Arr.ofList [3, 3, 2, 1, 1, 0]).get (fun _ => 9) (fun _ => 9) 7 4 3 (Arr.mk' 4 (fun _ => 9)) (Arr.mk' 4 (fun _ => 9)) with
  | ok x => intro h; cases h
  | error f => intro _ p; rw [p f rfl]

/-- order three reached with four pivots in a matrix of order seven -/
example : Ok (randomLTQSRankProfileMatrix (Arr.ofList [0, 0, 0, 0, 0, 1, 1, 1]).get (fun _ => 9) (fun _ => 9) 7 4 3 (Arr.mk' 4 (fun _ => 9)) (Arr.mk' 4 (fun _ => 9)))
    (fun x => ∃ a < 8, ∃ b < 8, a + b ≤ 7 ∧ rookCount 4 x.1.get x.2.get a b = 3) :=
  ⟨_, rfl, by decide +kernel⟩

end Verif.Props
