import Verif.Model.EchelonGet
import Verif.Proofs.EchelonSlab
import Verif.Proofs.RankProfile

/-!
# The accessors: what they write
-/

namespace Verif.FF

open Finset Verif.Spec Verif.Spec.Perm Verif.Pluq Verif.Perm

variable {K : Type} [Field K] [DecidableEq K] {m0 m : Mem K} {S W : Win} {V U f : ℕ → ℕ → K}

/-! ### segments of rows and columns -/

omit [DecidableEq K] in
lemma storeAt_on (h : On m0 m W V) {i j : ℕ} (x : K) (hi : i < W.r) (hj : j < W.c) :
    Run (store (W.adr i j) x) m (fun _ m' => On m0 m' W (upd i j 1 1 (fun _ _ => x) V)) := by
  rw [Run_store]
  exact ⟨h.okc hi hj, h.set hi hj⟩

omit [DecidableEq K] [Field K] in
lemma Src.vw_row (h : Src m S f) {i j n : ℕ} (hi : i < S.r) (hj : j + n ≤ S.c) : OkIn m (vw (S.adr i j) 1 n) := by
  intro a ha
  obtain ⟨t, ht, rfl⟩ := vw_row_Has.1 ha
  exact h.ok.adr hi (by omega)

omit [DecidableEq K] [Field K] in
lemma Src.vw_col (h : Src m S f) {i j n : ℕ} (hi : i + n ≤ S.r) (hj : j < S.c) : OkIn m (vw (S.adr i j) S.ld n) := by
  intro a ha
  obtain ⟨t, ht, rfl⟩ := vw_col_Has.1 ha
  exact h.ok.adr (by omega) hj

lemma copyRow_on (h : On m0 m W V) (hS : Src m0 S f) (hd : S.Disj W) {a b i j n : ℕ} (ha : a < S.r) (hb : b + n ≤ S.c) (hi : i < W.r)
    (hj : j + n ≤ W.c) :
    Run (vassign n (S.adr a b) 1 (W.adr i j) 1) m (fun _ m' => On m0 m' W (upd i j 1 n (fun _ t => f a (b + t)) V)) := by
  have hS := hS.on h hd
  refine (assignRow_on h hi hj (hS.vw_row ha hb) ?_).mono (fun _ m' h' => h'.congr (fun i' hi' j' hj' => ?_))
  · intro t ht hw
    rw [Nat.mul_one, Win.adr_add_col] at hw
    exact hd _ (Win.Has_adr ha (by omega)) hw
  · by_cases e : i ≤ i' ∧ i' < i + 1 ∧ j ≤ j' ∧ j' < j + n
    · rw [upd_in' e, upd_in' e, Nat.mul_one, Win.adr_add_col, hS.val _ ha _ (by omega)]
    · rw [upd_out (by omega), upd_out (by omega)]

lemma copyCol_on (h : On m0 m W V) (hS : Src m0 S f) (hd : S.Disj W) {a b i j n : ℕ} (ha : a + n ≤ S.r) (hb : b < S.c) (hi : i + n ≤ W.r)
    (hj : j < W.c) :
    Run (vassign n (S.adr a b) S.ld (W.adr i j) W.ld) m (fun _ m' => On m0 m' W (upd i j n 1 (fun t _ => f (a + t) b) V)) := by
  have hld := h.ld
  have hS := hS.on h hd
  refine (vassign_spec (hS.vw_col ha hb) (h.vw_col hi hj) (Win.Disj.safe ?_ rfl rfl) (by omega)).mono (fun _ m' s => h.colStep hi hj ?_)
  · intro x h1 h2
    obtain ⟨t, ht, rfl⟩ := vw_col_Has.1 h1
    obtain ⟨t', ht', e⟩ := vw_col_Has.1 h2
    exact hd (S.adr (a + t) b) (Win.Has_adr (by omega) hb) (by rw [e]; exact Win.Has_adr (by omega) hj)
  · exact s.congr (fun t ht _ _ => by
      have ht : t < n := ht
      rw [Win.adr_add_row, hS.val _ (by omega) _ hb])

/-! ### getTriangular -/

/-- closes pointwise equalities between updated matrices -/
macro "upd_tac" : tactic => `(tactic| (
  simp only [upd, blk, tri, eq_self_iff_true, true_and, reduceCtorEq, false_and, if_false, Nat.zero_add, Nat.sub_zero]
  split_ifs <;> first
    | rfl
    | (exfalso; omega)
    | (congr 1 <;> omega)))

lemma triRowUpper_on (d : Diag) (h : On m0 m W V) (hS : Src m0 S f) (hd : S.Disj W) {N i : ℕ} (hi : i < S.r) (hiW : i < W.r) (hiN : i < N)
    (hN : N ≤ S.c) (hNW : N ≤ W.c) :
    Run (triRowUpper d N S.p S.ld W.p W.ld i) m (fun _ m' => On m0 m' W (fun a b => if a = i ∧ b < N then tri .upper d f a b else V a b)) := by
  unfold triRowUpper
  rw [Run_bind]
  have t0 := zeroRow_on h (row := i) (c := 0) (n := i) hiW (by omega)
  refine t0.mono (fun _ m1 h1 => ?_)
  cases d
  case unit =>
    rw [Run_bind]
    have t1 := storeAt_on h1 (i := i) (j := i) 1 hiW (by omega)
    refine t1.mono (fun _ m2 h2 => ?_)
    have t2 := copyRow_on h2 hS hd (a := i) (b := i + 1) (i := i) (j := i + 1) (n := N - i - 1) hi (by omega) hiW (by omega)
    refine t2.mono (fun _ m3 h3 => h3.congr (fun a ha b hb => ?_))
    upd_tac
  case nonUnit =>
    have t2 := copyRow_on h1 hS hd (a := i) (b := i) (i := i) (j := i) (n := N - i) hi (by omega) hiW (by omega)
    refine t2.mono (fun _ m3 h3 => h3.congr (fun a ha b hb => ?_))
    upd_tac

lemma triRowLower_on (d : Diag) (h : On m0 m W V) (hS : Src m0 S f) (hd : S.Disj W) {N i : ℕ} (hi : i < S.r) (hiW : i < W.r) (hiN : i < N)
    (hiS : i < S.c) (hNW : N ≤ W.c) :
    Run (triRowLower d N S.p S.ld W.p W.ld i) m (fun _ m' => On m0 m' W (fun a b => if a = i ∧ b < N then tri .lower d f a b else V a b)) := by
  unfold triRowLower
  cases d
  case unit =>
    rw [Run_bind]
    have t2 := copyRow_on h hS hd (a := i) (b := 0) (i := i) (j := 0) (n := i) hi (by omega) hiW (by omega)
    refine t2.mono (fun _ m1 h1 => ?_)
    rw [Run_bind]
    have t1 := storeAt_on h1 (i := i) (j := i) 1 hiW (by omega)
    refine t1.mono (fun _ m2 h2 => ?_)
    have t0 := zeroRow_on h2 (row := i) (c := i + 1) (n := N - i - 1) hiW (by omega)
    refine t0.mono (fun _ m3 h3 => h3.congr (fun a ha b hb => ?_))
    upd_tac
  case nonUnit =>
    rw [Run_bind]
    have t2 := copyRow_on h hS hd (a := i) (b := 0) (i := i) (j := 0) (n := i + 1) hi (by omega) hiW (by omega)
    refine t2.mono (fun _ m1 h1 => ?_)
    have t0 := zeroRow_on h1 (row := i) (c := i + 1) (n := N - i - 1) hiW (by omega)
    refine t0.mono (fun _ m3 h3 => h3.congr (fun a ha b hb => ?_))
    upd_tac

/-- the first rows of the upper triangular factor, and the rows of zeroes below if asked for -/
lemma getTriangular_upper (d : Diag) (onz : Bool) (h : On m0 m W U) (hS : Src m0 S f) (hd : S.Disj W) {M N R : ℕ} (hR : R ≤ S.r)
    (hRN : R ≤ N) (hN : N ≤ S.c) (hNW : N ≤ W.c) (hRM : R ≤ M) (hRW : (if onz then R else M) ≤ W.r) :
    Run (getTriangular .upper d M N R S.p S.ld W.p W.ld onz) m (fun _ m' => On m0 m' W (fun i j =>
      if i < R ∧ j < N then tri .upper d f i j else if onz = false ∧ i < M ∧ j < N then 0 else U i j)) := by
  have hRW' : R ≤ W.r := by split_ifs at hRW <;> omega
  unfold getTriangular
  rw [Run_bind]
  refine (Run_loop (fun k m' => On m0 m' W (fun i j => if i < k ∧ j < N then tri .upper d f i j else U i j)) ?_ ?_).mono ?_
  · exact h.congr (fun i hi j hj => by rw [if_neg (by omega)])
  · intro i m1 hi h1
    refine (triRowUpper_on d h1 hS hd (i := i) (by omega) (by omega) (by omega) hN hNW).mono (fun _ m2 h2 => h2.congr (fun a ha b hb => ?_))
    split_ifs <;> first | rfl | (exfalso; omega)
  · rintro - m1 h1
    cases onz
    · have t := fzero_on h1 R 0 (M - R) N (by simp at hRW; omega) (by omega) rfl
      refine t.mono (fun _ m2 h2 => h2.congr (fun a ha b hb => ?_))
      upd_tac
    · rw [if_pos rfl, Run_pure]
      exact h1.congr (fun i hi j hj => by simp)

/-- the first columns of the lower triangular factor, and the columns of zeroes to their right if asked for -/
lemma getTriangular_lower (d : Diag) (onz : Bool) (h : On m0 m W U) (hS : Src m0 S f) (hd : S.Disj W) {M N R : ℕ} (hM : M ≤ S.r)
    (hRM : R ≤ M) (hRN : R ≤ N) (hR : R ≤ S.c) (hMW : M ≤ W.r) (hRW : (if onz then R else N) ≤ W.c) :
    Run (getTriangular .lower d M N R S.p S.ld W.p W.ld onz) m (fun _ m' => On m0 m' W (fun i j =>
      if i < M ∧ j < R then tri .lower d f i j else if onz = false ∧ i < M ∧ j < N then 0 else U i j)) := by
  have hmc : R ≤ (if onz then R else N) := by split_ifs <;> omega
  generalize hmx : (if onz then R else N) = mx at hmc hRW
  unfold getTriangular
  rw [Run_bind, hmx]
  refine (Run_loop (fun k m' => On m0 m' W (fun i j => if i < k ∧ j < mx then tri .lower d f i j else U i j)) ?_ ?_).mono ?_
  · exact h.congr (fun i hi j hj => by rw [if_neg (by omega)])
  · intro i m1 hi h1
    refine (triRowLower_on d h1 hS hd (i := i) (by omega) (by omega) (by omega) (by omega) hRW).mono (fun _ m2 h2 => h2.congr (fun a ha b hb => ?_))
    split_ifs <;> first | rfl | (exfalso; omega)
  · rintro - m1 h1
    rw [Run_bind]
    have t := fassign_at h1 (hS.on h1 hd) hd R 0 R 0 (M - R) R (by omega) (by omega) (by omega) (by omega) rfl rfl
    refine t.mono (fun _ m2 h2 => ?_)
    cases onz
    · simp only [Bool.false_eq_true, if_false] at hmx ⊢
      subst hmx
      have t := fzero_on h2 R R (M - R) (N - R) (by omega) (by omega) rfl
      refine t.mono (fun _ m3 h3 => h3.congr (fun a ha b hb => ?_))
      upd_tac
    · rw [if_pos rfl, Run_pure]
      simp only [if_true] at hmx
      subst hmx
      refine h2.congr (fun a ha b hb => ?_)
      simp only [Bool.true_eq_false, false_and, if_false]
      upd_tac

/-- in place -/
lemma getTriangularIn_upper (d : Diag) (h : On m0 m W V) {R : ℕ} (hR : R ≤ W.r) (hRN : R ≤ W.c) :
    Run (getTriangularIn .upper d W.r W.c R W.p W.ld) m (fun _ m' => On m0 m' W (fun i j => if i < R then tri .upper d V i j else 0)) := by
  unfold getTriangularIn
  rw [Run_bind]
  refine (Run_loop (fun k m' => On m0 m' W (fun i j => if i < k then tri .upper d V i j else V i j)) ?_ ?_).mono ?_
  · exact h.congr (fun i hi j hj => by rw [if_neg (by omega)])
  · intro i m1 hi h1
    rw [Run_bind]
    have t0 := zeroRow_on h1 (row := i) (c := 0) (n := i) (by omega) (by omega)
    refine t0.mono (fun _ m2 h2 => ?_)
    cases d
    case unit =>
      have t1 := storeAt_on h2 (i := i) (j := i) 1 (by omega) (by omega)
      refine t1.mono (fun _ m3 h3 => h3.congr (fun a ha b hb => ?_))
      upd_tac
    case nonUnit =>
      simp only [unitAt, Run_pure]
      refine h2.congr (fun a ha b hb => ?_)
      simp only [upd, tri]
      split_ifs <;> first | rfl | (exfalso; omega) | (subst_vars; rfl)
  · rintro - m1 h1
    refine (fzero_on h1 R 0 (W.r - R) W.c (by omega) (by omega) rfl).mono (fun _ m2 h2 => h2.congr (fun a ha b hb => ?_))
    upd_tac

lemma getTriangularIn_lower (d : Diag) (h : On m0 m W V) {R : ℕ} (hR : R ≤ W.r) (hRN : R ≤ W.c) :
    Run (getTriangularIn .lower d W.r W.c R W.p W.ld) m (fun _ m' => On m0 m' W (fun i j => if j < R then tri .lower d V i j else 0)) := by
  unfold getTriangularIn
  rw [Run_bind]
  refine (Run_loop (fun k m' => On m0 m' W (fun i j => if i < k then tri .lower d V i j else V i j)) ?_ ?_).mono ?_
  · exact h.congr (fun i hi j hj => by rw [if_neg (by omega)])
  · intro i m1 hi h1
    rw [Run_bind]
    have fin : ∀ m2, On m0 m2 W (upd i i 1 1 (fun _ _ => tri .lower d V i i) (fun a b => if a < i then tri .lower d V a b else V a b)) →
        Run (vzero (W.c - i - 1) (W.p + i * W.ld + i + 1) 1) m2 (fun _ m' => On m0 m' W (fun a b => if a < i + 1 then tri .lower d V a b else V a b)) := by
      intro m2 h2
      refine (zeroRow_on h2 (row := i) (c := i + 1) (n := W.c - i - 1) (by omega) (by omega)).mono (fun _ m3 h3 => h3.congr (fun a ha b hb => ?_))
      simp only [upd, tri]
      split_ifs <;> first | rfl | (exfalso; omega) | (subst_vars; rfl) | (obtain rfl : a = i := (by omega); first | rfl | (cases d <;> rfl))
    cases d
    case unit =>
      have t1 := storeAt_on h1 (i := i) (j := i) 1 (by omega) (by omega)
      exact t1.mono (fun _ m3 h3 => fin m3 (h3.congr (fun a ha b hb => by simp [upd, tri])))
    case nonUnit =>
      simp only [unitAt, Run_pure]
      refine fin m1 (h1.congr (fun a ha b hb => ?_))
      simp only [upd, tri]
      split_ifs <;> first | rfl | (exfalso; omega) | (subst_vars; rfl) | (obtain rfl : a = i := (by omega); obtain rfl : b = a := (by omega); rfl)
  · rintro - m1 h1
    refine (fzero_on h1 R R (W.r - R) (W.c - R) (by omega) (by omega) rfl).mono (fun _ m2 h2 => h2.congr (fun a ha b hb => ?_))
    upd_tac

/-! ### permutations -/

/-- the number `i` among the values `q 0, …, q (R-1)` in increasing order -/
def srt (q : ℕ → ℕ) (R i : ℕ) : ℕ := (((List.range R).map q).insertionSort (· ≤ ·)).getD i 0

/-- the index of the pivot which comes as number `i` -/
def ech (q : Equiv.Perm ℕ) (R i : ℕ) : ℕ := if i < R then q⁻¹ (srt q R i) else i

lemma srt_list (q : Equiv.Perm ℕ) (R : ℕ) : (((List.range R).map q).insertionSort (· ≤ ·)).Pairwise (· < ·) ∧
    (∀ x, x ∈ ((List.range R).map q).insertionSort (· ≤ ·) ↔ ∃ k < R, q k = x) ∧ (((List.range R).map q).insertionSort (· ≤ ·)).length = R := by
  obtain ⟨h1, h2⟩ := sorted_distinct (l := (List.range R).map q) (List.nodup_range.map q.injective)
  refine ⟨h1, fun x => ?_, by simp⟩
  rw [h2]; simp

lemma srt_mem (q : Equiv.Perm ℕ) {R i : ℕ} (hi : i < R) : ∃ k < R, q k = srt q R i := by
  obtain ⟨-, h2, h3⟩ := srt_list q R
  rw [← h2, srt, ← List.getElem_eq_getD (h := by omega)]
  exact List.getElem_mem _

lemma srt_lt (q : Equiv.Perm ℕ) {R i j : ℕ} (hij : i < j) (hj : j < R) : srt q R i < srt q R j := by
  obtain ⟨h1, -, h3⟩ := srt_list q R
  rw [srt, srt, ← List.getElem_eq_getD (h := by omega), ← List.getElem_eq_getD (h := by omega)]
  exact List.pairwise_iff_getElem.1 h1 i j _ _ hij

lemma ech_srt {q : Equiv.Perm ℕ} {R i : ℕ} (hi : i < R) : q (ech q R i) = srt q R i := by
  rw [ech, if_pos hi]; simp

lemma ech_lt {q : Equiv.Perm ℕ} {R i : ℕ} (hi : i < R) : ech q R i < R := by
  obtain ⟨k, hk, e⟩ := srt_mem q hi
  rw [ech, if_pos hi, ← e]
  simpa using hk

lemma ech_ge {q : Equiv.Perm ℕ} {R i : ℕ} (hi : R ≤ i) : ech q R i = i := if_neg (by omega)

lemma ech_inc {q : Equiv.Perm ℕ} {R i j : ℕ} (hij : i < j) (hj : j < R) : q (ech q R i) < q (ech q R j) := by
  rw [ech_srt (by omega), ech_srt hj]
  exact srt_lt q hij hj

lemma ech_inj {q : Equiv.Perm ℕ} {R i j : ℕ} (hi : i < R) (hj : j < R) (e : ech q R i = ech q R j) : i = j := by
  rcases lt_trichotomy i j with h | h | h
  · have := ech_inc (q := q) h hj; rw [e] at this; omega
  · exact h
  · have := ech_inc (q := q) h hi; rw [e] at this; omega

lemma ech_perm (q : Equiv.Perm ℕ) {R n : ℕ} (hR : R ≤ n) : IsPermArray (ech q R) n := by
  refine ⟨fun i hi => ?_, fun i hi j hj e => ?_⟩
  · by_cases c : i < R
    · have := ech_lt (q := q) c; omega
    · rw [ech_ge (by omega)]; exact hi
  · by_cases c : i < R <;> by_cases c' : j < R
    · exact ech_inj c c' e
    · have := ech_lt (q := q) c; rw [e, ech_ge (by omega)] at this; omega
    · have := ech_lt (q := q) c'; rw [← e, ech_ge (by omega)] at this; omega
    · rwa [ech_ge (by omega), ech_ge (by omega)] at e

lemma pluqToEchelonPermutation_spec (jk : ℕ → ℕ → ℕ) {N R : ℕ} {P outPerm : Arr ℕ} (hP : P.len = N) (hp : ∀ i < N, P.get i < N) (hR : R ≤ N)
    (ho : outPerm.len = R) :
    Ok (pluqToEchelonPermutation jk N R P outPerm) (fun L => L.len = R ∧ (∀ i < R, L.get i < R) ∧
      ∀ i, ofSwaps L.get R i = ech (ofSwaps P.get N) R i) := by
  set q := ofSwaps P.get N with hq
  have qlt : ∀ x, x < N → q x < N := fun x hx => (Perm.ofSwaps_lt hp N le_rfl x).1 hx
  unfold pluqToEchelonPermutation
  rw [Ok_bind]
  refine (LAPACKPerm2MathPerm_spec' N (Arr.mk' N (jk 0)) P le_rfl hP hp).mono ?_
  intro MP ⟨l1, e1⟩
  have l1 : MP.len = N := l1
  rw [Ok_bind]
  refine (Ok_iter (fun k (X : Arr ℕ) => X.len = N ∧ ∀ i < k, X.get (q i) = i) ⟨rfl, fun i hi => by omega⟩ ?_).mono ?_
  · intro k X hk ⟨hX, hv⟩
    rw [Ok_bind, Ok_rd]
    refine ⟨by omega, ?_⟩
    rw [Ok_wr]
    rw [e1 k hk]
    refine ⟨by rw [hX]; exact qlt k hk, hX, fun i hi => ?_⟩
    by_cases c : i = k
    · subst c; simp [hq]
    · simp only []
      rw [← hq, Function.update_of_ne (fun e => c (q.injective e)), hv i (by omega)]
  · intro iP ⟨l2, e2⟩
    rw [Ok_bind]
    refine (sortPrefix_spec (A := MP) (n := R) (by omega)).mono ?_
    intro SP ⟨l3, e3, _⟩
    have hs : ∀ i < R, SP.get i = srt q R i := by
      intro i hi
      have ep : pre MP R = (List.range R).map q := List.map_congr_left (fun i hi => e1 i (by have := List.mem_range.1 hi; omega))
      rw [srt, ← ep, ← e3, pre]
      simp [hi]
    rw [Ok_bind]
    refine (Ok_iter (fun k (X : Arr ℕ) => X.len = N ∧ ∀ i < R, X.get i = if i < k then ech q R i else srt q R i)
      ⟨by omega, fun i hi => by rw [if_neg (by omega), hs i hi]⟩ ?_).mono ?_
    · intro k X hk ⟨hX, hv⟩
      obtain ⟨t, ht, et⟩ := srt_mem q hk
      rw [Ok_bind, Ok_rd]
      refine ⟨by omega, ?_⟩
      rw [Ok_bind, Ok_rd, hv k hk, if_neg (by omega), ← et]
      refine ⟨by rw [l2]; exact qlt t (by omega), ?_⟩
      rw [Ok_wr]
      refine ⟨by omega, hX, fun i hi => ?_⟩
      simp only []
      by_cases c : i = k
      · subst c
        rw [Function.update_self, if_pos (by omega), e2 t (by omega), ech, if_pos hi, ← et]; simp
      · rw [Function.update_of_ne c, hv i hi]
        split_ifs <;> first | rfl | (exfalso; omega)
    · intro MQ ⟨l4, e4⟩
      have e4 : ∀ i < R, MQ.get i = ech q R i := fun i hi => by rw [e4 i hi, if_pos hi]
      refine (MathPerm2LAPACKPerm_spec' R outPerm MQ (jk 2) (jk 3) ho (by omega) ?_).mono ?_
      · refine ⟨fun i hi => by rw [e4 i hi]; exact ech_lt hi, fun i hi j hj e => ?_⟩
        rw [e4 i hi, e4 j hj] at e
        exact ech_inj hi hj e
      · intro L ⟨a, b, c⟩
        refine ⟨a, fun i hi => (b i hi).2, fun i => ?_⟩
        by_cases hi : i < R
        · rw [← c i hi, e4 i hi]
        · rw [ech_ge (by omega), Perm.ofSwaps_ge (fun j hj => (b j hj).2) R le_rfl i (by omega)]

end Verif.FF
