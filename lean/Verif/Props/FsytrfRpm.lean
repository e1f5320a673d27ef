import Verif.Proofs.FsytrfRpmTop
import Verif.Props.Fsytrf
import Verif.Core.ParVProg
import Mathlib.Algebra.Field.ZMod

/-!
# Property C114: symmetric factorisation revealing the rank profile matrix
-/

namespace Verif.Props

open Verif.FF Verif.Spec Verif.Spec.Perm Verif.Perm Finset

variable {K : Type} [Field K] [DecidableEq K] {m : Mem K} {cat : Cat} {N A lda : ℕ}

/-- `P[l]` read as a signed 64-bit integer is negative -/
def Marked (p : ℕ) : Prop := 2 ^ 63 ≤ p

/-- the index stored in `P[l]`, which is complemented in 2 x 2 blocks -/
def swapOf (p : ℕ) : ℕ := if 2 ^ 63 ≤ p then 2 ^ 64 - 1 - p else p

/-- What `fsytrf_RPM` promises: `S = Pᵀ Uᵀ T U P` of order `N`, with `r` the rank.  `U` is the unit upper triangle of the first `r` rows of `X`; `P` is the
permutation of the index array `Q` without its marks; `T` is block diagonal, with the diagonal entries of `X`: `mate l = l` is a block of size 1, and the
marked pairs `l`, `mate l` are the blocks of size 2 with a zero diagonal.  The pivots tell the rank of every leading block of `S`. -/
def RevealsRPM (N : ℕ) (S X : ℕ → ℕ → K) (r : ℕ) (Q : ℕ → ℕ) : Prop :=
  r ≤ N ∧ IsTranspArray (fun i => swapOf (Q i)) N ∧ (∀ l, r ≤ l → l < N → ¬ Marked (Q l)) ∧
  ∃ mate : ℕ → ℕ, (∀ l < r, mate l < r ∧ mate (mate l) = l ∧ mate l ≤ l + 1 ∧ l ≤ mate l + 1 ∧ (Marked (Q l) ↔ mate l ≠ l)) ∧
    (∀ l < r, X l l ≠ 0 ∧ X (mate l) (mate l) = X l l) ∧ (∀ i j, r ≤ i → i < N → r ≤ j → j < N → X i j = 0) ∧
    (∀ i < N, ∀ j < N, S (ofSwaps (fun i => swapOf (Q i)) N i) (ofSwaps (fun i => swapOf (Q i)) N j) =
      ∑ l ∈ range r, tri .upper .unit X l i * X l l * tri .upper .unit X (mate l) j) ∧
    ∀ a ≤ N, ∀ b ≤ N, rk S a b =
      ((range r).filter (fun l => ofSwaps (fun i => swapOf (Q i)) N l < a ∧ ofSwaps (fun i => swapOf (Q i)) N (mate l) < b)).card

omit [Field K] [DecidableEq K] in
lemma symU_eq (b : ℕ → ℕ → K) : symU b = symOf .upper b := by
  funext i j
  unfold symU symOf
  by_cases h : i ≤ j
  · rw [if_pos (show Spec.inHalf .upper i j from h), min_eq_left h, max_eq_right h]
  · rw [if_neg (show ¬ Spec.inHalf .upper i j from h), min_eq_right (by omega), max_eq_left (by omega)]

omit [DecidableEq K] in
lemma RpmOut.reveals {S : ℕ → ℕ → K} {r : ℕ} {P : Arr ℕ} {mate L : ℕ → ℕ} {u V Y X : ℕ → ℕ → K} {y : ℕ → K} (o : RpmOut N S r P mate L u y V Y)
    (hN : N ≤ 2 ^ 63) (e : ∀ i < N, ∀ j < N, X i j = if i < j then Y i 0 * V i j else V i j) : RevealsRPM N S X r P.get := by
  have hle := o.I.le1
  have L64 : ∀ l < N, L l < 2 ^ 63 := fun l hl => by have := (o.tr l hl).2; omega
  have sw : ∀ l < N, swapOf (P.get l) = L l := fun l hl => by
    have := L64 l hl
    rw [o.P l hl]
    unfold swapOf negCode
    split_ifs <;> omega
  have mk : ∀ l < N, Marked (P.get l) ↔ l < r ∧ mate l ≠ l := fun l hl => by
    have := L64 l hl
    rw [o.P l hl]
    unfold Marked negCode
    split_ifs with c
    · exact ⟨fun _ => c, fun _ => by omega⟩
    · exact ⟨fun q => by omega, fun q => absurd q c⟩
  have es : ∀ i, ofSwaps (fun i => swapOf (P.get i)) N i = ofSwaps L N i := fun i => by
    rw [ofSwaps_congr (fun i hi => sw i hi)]
  have d1 : ∀ l < r, X l l = u l l := fun l hl => by rw [e l (by omega) l (by omega), if_neg (by omega), o.Vu l hl l le_rfl (by omega)]
  have uX : ∀ l < r, ∀ j < N, u l j = X l l * tri .upper .unit X l j := fun l hl j hj => by
    rcases lt_trichotomy l j with q | q | q
    · have : tri .upper .unit X l j = X l j := by simp [tri, q, q.ne]
      rw [this, d1 l hl, e l (by omega) j hj, if_pos q, o.Yy l hl, o.Vu l hl j q.le hj, o.I.yv l hl, ← mul_assoc, mul_inv_cancel₀ (o.I.nz l hl), one_mul]
    · subst q
      have : tri .upper .unit X l l = 1 := by simp [tri]
      rw [this, d1 l hl, mul_one]
    · have : tri .upper .unit X l j = 0 := by simp [tri, q.ne', q.le]
      rw [this, mul_zero, o.I.tri l hl j q]
  refine ⟨hle, fun i hi => ?_, fun l h1 h2 => ?_, mate, fun l hl => ?_, fun l hl => ?_, fun i j h1 h2 h3 h4 => ?_, fun i hi j hj => ?_, fun a ha b hb => ?_⟩
  · simp only []
    rw [sw i hi]; exact o.tr i hi
  · rw [mk l h2]
    exact fun q => absurd q.1 (by omega)
  · refine ⟨o.I.mlt l hl, o.I.minv l hl, (o.I.mnear l hl).1, (o.I.mnear l hl).2, ?_⟩
    rw [mk l (by omega)]
    exact ⟨fun q => q.2, fun q => ⟨hl, q⟩⟩
  · rw [d1 l hl, d1 _ (o.I.mlt l hl)]
    exact ⟨o.I.nz l hl, o.I.dm l hl⟩
  · rw [e i h2 j h4, o.V0 i j h1 h2 h3 h4, mul_zero, ite_self]
  · rw [es, es]
    refine (o.I.ex i hi j hj).trans (sum_congr rfl (fun l hl => ?_))
    have hl := mem_range.1 hl
    have hm := o.I.mlt l hl
    have z := o.I.nz l hl
    rw [uX l hl i hi, uX _ hm j hj, d1 _ hm, o.I.dm l hl, o.I.yv l hl, d1 l hl]
    field_simp
  · simp only [es]
    exact o.I.rk_eq ha hb

/-- C114, partial: `fsytrf_RPM` of the upper triangle of a symmetric matrix of order below the threshold factorises it and reveals the rank profile matrix,
whatever the memory and the new arrays contain.  Only `A` is modified and the memory is given back.  Missing: orders from the threshold on (the recursive
`fsytrf_UP_RPM`), characteristic 2 (see `C114_char2_violated`), the lower triangle (see `C114_lower_violated`); the copies of overlapping ranges of indices are done
as by `memmove` (see `C114_copy_violated`). -/
theorem C114_fsytrf_RPM_partial (h2 : (2 : K) ≠ 0) (hN : N ≤ 2 ^ 63) (junk0 junk2 junk3 : ℕ → ℕ) (junk1 : ℕ → Bool) {P : Arr ℕ} (hP : P.len = N) (hA : Rect m N N A lda) :
    Run (fsytrfRpm cat copyMove junk0 junk2 junk3 junk1 .upper N A lda P) m (fun r m' => (∀ a, m.ok a = true → ¬ (Win.mk A lda N N).Has a → m'.val a = m.val a) ∧ m'.ok = m.ok ∧ r.2.len = N ∧ (∀ l < N, r.2.get l < 2 ^ 64) ∧
      RevealsRPM N (symOf .upper (m.mat ⟨A, lda, N, N⟩)) (m'.mat ⟨A, lda, N, N⟩) r.1 r.2.get) := by
  refine (fsytrfRpm_spec cat h2 junk0 junk2 junk3 junk1 hP hA.on).mono ?_
  rintro r m' ⟨mate, L, u, y, V', Y', g, o⟩
  rw [symU_eq] at o
  refine ⟨g.step.frame, g.step.ok, o.plen, fun l hl => ?_, RpmOut.reveals o hN (fun i hi j hj => g.mat hi hj)⟩
  have := (o.tr l hl).2
  rw [o.P l hl]
  unfold negCode
  split_ifs <;> omega

omit [DecidableEq K] in
/-- The returned value is the rank of the matrix. -/
theorem C114_rank {S X : ℕ → ℕ → K} {r : ℕ} {Q : ℕ → ℕ} (h : RevealsRPM N S X r Q) : (toMat N N S).rank = r := by
  obtain ⟨h1, h2, -, mate, hm, -, -, -, h3⟩ := h
  have := h3 N le_rfl N le_rfl
  unfold rk at this
  rw [this, Finset.filter_true_of_mem, Finset.card_range]
  intro l hl
  have hl := mem_range.1 hl
  have hp := ofSwaps_isPerm (fun i hi => (h2 i hi).2)
  exact ⟨hp.1 l (by omega), hp.1 _ (by have := (hm l hl).1; omega)⟩

omit [DecidableEq K] in
/-- The first `r` images of the permutation are the rows at which the rank increases: the row rank profile. -/
theorem C114_profile {S X : ℕ → ℕ → K} {r : ℕ} {Q : ℕ → ℕ} (h : RevealsRPM N S X r Q) {i : ℕ} (hi : i < N) :
    rk S (i + 1) N ≠ rk S i N ↔ ∃ l < r, ofSwaps (fun i => swapOf (Q i)) N l = i := by
  obtain ⟨h1, h2, -, mate, hm, -, -, -, h3⟩ := h
  rw [h3 _ (by omega) N le_rfl, h3 _ (by omega) N le_rfl]
  have hp := ofSwaps_isPerm (fun i hi => (h2 i hi).2)
  have hlt : ∀ l < r, ofSwaps (fun i => swapOf (Q i)) N (mate l) < N := fun l hl => hp.1 _ (by have := (hm l hl).1; omega)
  constructor
  · intro hne
    by_contra hh
    apply hne
    congr 1
    refine Finset.filter_congr (fun l hl => ?_)
    have hl := mem_range.1 hl
    have ne : ofSwaps (fun i => swapOf (Q i)) N l ≠ i := fun e => hh ⟨l, hl, e⟩
    exact and_congr_left (fun _ => by omega)
  · rintro ⟨l, hl, e⟩
    refine Nat.ne_of_gt (Finset.card_lt_card ⟨fun k hk => ?_, fun hs => ?_⟩)
    · simp only [mem_filter] at hk ⊢
      exact ⟨hk.1, by omega, hk.2.2⟩
    · have := hs (mem_filter.2 ⟨mem_range.2 hl, by omega, hlt l hl⟩)
      have := (mem_filter.1 this).2.1
      omega

lemma intNeg_of (h : N ≤ 2 ^ 31) {p : ℕ} (hs : swapOf p < N) (hp : p < 2 ^ 64) : intNeg p = true ↔ Marked p := by
  unfold intNeg Marked
  unfold swapOf at hs
  rw [decide_eq_true_iff]
  split_ifs at hs with c
  · obtain ⟨q, rfl⟩ : ∃ q, p = 2 ^ 64 - 1 - q := ⟨2 ^ 64 - 1 - p, by omega⟩
    refine ⟨fun _ => c, fun _ => ?_⟩
    have : (2 ^ 64 - 1 - q) % 2 ^ 32 = 2 ^ 32 - 1 - q := by omega
    omega
  · omega

/-- C114: from the result of `fsytrf_RPM`, `getTridiagonal` writes the symmetric tridiagonal matrix `T` of the factorisation, so that
`S = Pᵀ Uᵀ T U P` is a product of whole matrices.  The orders are those whose indices fit an `int`. -/
theorem C114_getTridiagonal {S : ℕ → ℕ → K} {r T ldt : ℕ} {P : Arr ℕ} (hN : N ≤ 2 ^ 31) (hP : P.len = N) (h64 : ∀ l < N, P.get l < 2 ^ 64)
    (h : RevealsRPM N S (m.mat ⟨A, lda, N, N⟩) r P.get) (hA : Rect m N N A lda) (hT : Rect m N N T ldt) (hd : (Win.mk A lda N N).Disj ⟨T, ldt, N, N⟩) :
    Run (getTridiagonal N r A lda P T ldt) m (fun _ m' => Only m m' ⟨T, ldt, N, N⟩ ∧
      (∀ i < N, ∀ j < N, m'.mat ⟨T, ldt, N, N⟩ i j = m'.mat ⟨T, ldt, N, N⟩ j i ∧ (m'.mat ⟨T, ldt, N, N⟩ i j ≠ 0 → i ≤ j + 1 ∧ j ≤ i + 1)) ∧
      ∀ i < N, ∀ j < N, S (ofSwaps (fun i => swapOf (P.get i)) N i) (ofSwaps (fun i => swapOf (P.get i)) N j) =
        ∑ a ∈ range N, ∑ b ∈ range N, tri .upper .unit (m'.mat ⟨A, lda, N, N⟩) a i * m'.mat ⟨T, ldt, N, N⟩ a b * tri .upper .unit (m'.mat ⟨A, lda, N, N⟩) b j) := by
  obtain ⟨h1, h2, h3, mate, hm, hx, -, hf, -⟩ := h
  have hF : Flags r ⟨r, fun l => intNeg (P.get l)⟩ mate := by
    refine ⟨fun l hl => (hm l hl).1, fun l hl => (hm l hl).2.1, fun l hl => ⟨(hm l hl).2.2.1, (hm l hl).2.2.2.1⟩, fun l hl => ?_⟩
    exact (intNeg_of hN (h2 l (by omega)).2 (h64 l (by omega))).trans (hm l hl).2.2.2.2
  refine (getTridiagonal_spec hF h1 hP.ge hA.on.src hd (fun l hl => (hx l hl).2) hT.on).mono (fun _ m' g => ⟨On.only g, fun i hi j hj => ?_, fun i hi j hj => ?_⟩)
  · rw [g.mat hi hj, g.mat hj hi]
    refine ⟨?_, fun hh => ?_⟩
    · by_cases c : i < r ∧ mate i = j
      · obtain ⟨c1, rfl⟩ := c
        rw [if_pos ⟨c1, rfl⟩, if_pos ⟨(hm i c1).1, (hm i c1).2.1⟩, (hx i c1).2]
      · rw [if_neg c, if_neg]
        rintro ⟨c1, rfl⟩
        exact c ⟨(hm j c1).1, (hm j c1).2.1⟩
    · by_cases c : i < r ∧ mate i = j
      · obtain ⟨c1, rfl⟩ := c
        exact ⟨(hm i c1).2.2.2.1, (hm i c1).2.2.1⟩
      · rw [if_neg c] at hh
        exact absurd rfl hh
  · have hs := hA.on.src.on g hd
    have eU : ∀ a < N, ∀ b < N, tri .upper .unit (m'.mat ⟨A, lda, N, N⟩) a b = tri .upper .unit (m.mat ⟨A, lda, N, N⟩) a b := fun a ha b hb => by
      have : m'.mat ⟨A, lda, N, N⟩ a b = m.mat ⟨A, lda, N, N⟩ a b := hs.val a ha b hb
      unfold tri
      rw [this]
    rw [hf i hi j hj, ← sum_subset (s₁ := range r) (range_mono h1)]
    · refine sum_congr rfl (fun a ha => ?_)
      have ha := mem_range.1 ha
      rw [sum_eq_single (mate a)]
      · rw [g.mat (show a < N by omega) (show mate a < N by have := (hm a ha).1; omega), if_pos ⟨ha, rfl⟩, eU a (by omega) i hi,
          eU _ (by have := (hm a ha).1; omega) j hj]
      · intro b hb hne
        rw [g.mat (show a < N by omega) (show b < N from mem_range.1 hb), if_neg (fun q => hne q.2.symm), mul_zero, zero_mul]
      · intro q
        exact absurd (mem_range.2 (show mate a < N by have := (hm a ha).1; omega)) q
    · intro a ha hna
      have ha := mem_range.1 ha
      refine sum_eq_zero (fun b hb => ?_)
      rw [g.mat (show a < N from ha) (show b < N from mem_range.1 hb), if_neg (fun q => hna (mem_range.2 q.1)), mul_zero, zero_mul]

/-- The lower triangle is not implemented: whatever the matrix, 0 is returned and the index array is left as it was. -/
theorem C114_lower_violated (copy : Arr ℕ → ℕ → ℕ → ℕ → Except Fault (Arr ℕ)) (junk0 junk2 junk3 : ℕ → ℕ) (junk1 : ℕ → Bool) {P : Arr ℕ} {r : ℕ × Arr ℕ} {m' : Mem K}
    (h : fsytrfRpm cat copy junk0 junk2 junk3 junk1 .lower N A lda P m = .ok (r, m')) (hS : (toMat N N (symOf .lower (m.mat ⟨A, lda, N, N⟩))).rank ≠ 0) :
    r = (0, P) ∧ ¬ RevealsRPM N (symOf .lower (m.mat ⟨A, lda, N, N⟩)) (m'.mat ⟨A, lda, N, N⟩) r.1 r.2.get := by
  have e : r = (0, P) := by
    unfold fsytrfRpm at h
    obtain ⟨D, m1, -, k1⟩ := Verif.ParV.bind_ok h
    obtain ⟨s, m2, e2, k2⟩ := Verif.ParV.bind_ok k1
    obtain ⟨x3, m3, e3, k3⟩ := Verif.ParV.bind_ok k2
    obtain ⟨x4, m4, e4, k4⟩ := Verif.ParV.bind_ok k3
    clear k1 k2 k3 h
    cases e2
    cases k4
    rfl
  refine ⟨e, fun q => hS ?_⟩
  rw [C114_rank q, e]

/-! ### concrete cases -/

/-- the library's call on rationals, the copy of indices as a parameter -/
def rpmRun (copy : Arr ℕ → ℕ → ℕ → ℕ → Except Fault (Arr ℕ)) (u : Uplo) (n : ℕ) : Prog ℚ (ℕ × Arr ℕ) :=
  fsytrfRpm .modular copy (fun _ => 9) (fun _ => 9) (fun _ => 9) (fun _ => true) u n 0 n (Arr.ofList (List.replicate n 77))

/-- a matrix of order 4 and rank 4 with two blocks of size 2 -/
def rpmex : Mem ℚ := memOf [0, 0, 0, 1, 0, 0, 2, 3, 0, 2, 5, 1, 1, 3, 1, 4]

lemma rpmex_pre : Rect rpmex 4 4 0 4 := ⟨WF_memOf _, OkIn_memOf (by decide), by decide⟩

example : (2 : ℚ) ≠ 0 ∧ Rect rpmex 4 4 0 4 ∧
    (result (rpmRun copyMove .upper 4) rpmex).map (fun r => (r.1, r.2.toList.map swapOf)) = some (4, [0, 3, 3, 3]) ∧
    (result (rpmRun copyMove .upper 4) rpmex).map (fun r => r.2.toList.map (fun p => decide (2 ^ 63 ≤ p))) = some [true, true, true, true] ∧
    ([0, 1, 2, 3, 5, 6, 7, 10, 11, 15].map (after (rpmRun copyMove .upper 4) rpmex)) = [1, 2, 3, 1, 1, 0, 0, 2, 5 / 4, 2].map some :=
  ⟨by decide +kernel, rpmex_pre, by decide +kernel, by decide +kernel, by decide +kernel⟩

/-- the factorisation followed by `getTridiagonal` into the 16 cells after the matrix -/
example : ((List.range 16).map (fun i => after (rpmRun copyMove .upper 4 >>= fun r => getTridiagonal 4 r.1 0 4 r.2 16 4)
    (memOf ([0, 0, 0, 1, 0, 0, 2, 3, 0, 2, 5, 1, 1, 3, 1, 4] ++ List.replicate 16 7)) (16 + i))) =
    [0, 1, 0, 0, 1, 0, 0, 0, 0, 0, 0, 2, 0, 0, 2, 0].map some := by decide +kernel

/-- a matrix of rank 2 with zero rows between the pivots; below the rank everything is zero -/
example : (result (rpmRun copyMove .upper 3) (memOf [0, 0, 2, 9, 0, 0, 9, 9, 1])).map (fun r => (r.1, r.2.toList.map swapOf)) = some (2, [0, 2, 2]) ∧
    ([0, 1, 2, 4, 5, 8].map (after (rpmRun copyMove .upper 3) (memOf [0, 0, 2, 9, 0, 0, 9, 9, 1]))) = [2, 1 / 4, 0, 2, 0, 0].map some :=
  ⟨by decide +kernel, by decide +kernel⟩

/-- `std::copy` on overlapping ranges, done element by element: the index array is not a sequence of swaps. -/
theorem C114_copy_violated : ∃ r m', rpmRun copyForward .upper 4 rpmex = .ok (r, m') ∧ ¬ RevealsRPM 4 (symOf .upper (rpmex.mat ⟨0, 4, 4, 4⟩)) (m'.mat ⟨0, 4, 4, 4⟩) r.1 r.2.get := by
  have h : (result (rpmRun copyForward .upper 4) rpmex).map (fun r => swapOf (r.2.get 3)) = some 2 := by decide +kernel
  unfold result at h
  cases e : rpmRun copyForward .upper 4 rpmex with
  | error _ => rw [e] at h; simp at h
  | ok p =>
    rw [e] at h
    simp only [Option.map_some, Option.some.injEq] at h
    refine ⟨p.1, p.2, rfl, fun q => ?_⟩
    have : 3 ≤ swapOf (p.1.2.get 3) := (q.2.1 3 (by omega)).1
    omega

/-- The lower triangle of a matrix of rank 1: the returned rank is 0. -/
example : (result (rpmRun copyMove .lower 1) (memOf [5])).map (fun r => (r.1, r.2.toList)) = some (0, [77]) := by decide +kernel

local instance rpmP2 : Fact (Nat.Prime 2) := ⟨by decide⟩

/-- In characteristic 2 a block of size 2 divides by zero. -/
theorem C114_char2_violated : faultOf (fsytrfRpm (K := ZMod 2) .modular copyMove (fun _ => 9) (fun _ => 9) (fun _ => 9) (fun _ => true) .upper 2 0 2 (Arr.ofList [0, 0]))
    (memOf [0, 1, 1, 1]) = some .divZero := by decide +kernel

end Verif.Props
