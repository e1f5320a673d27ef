import Verif.Model.EchelonSlab
import Verif.Proofs.Echelon
import Verif.Proofs.Ludivine

/-!
# Echelon forms from LUdivine: correctness
-/

namespace Verif.Pluq

open Finset Verif.Spec Verif.Spec.Perm Verif.Perm Verif.Lud

variable {K : Type} [Field K]

/-- a decomposition with a row echelon factor stored uncompressed -/
structure SlabFac (M N : ℕ) (X V : ℕ → ℕ → K) (p q : ℕ → ℕ) (r : ℕ) : Prop where
  rM : r ≤ M
  rN : r ≤ N
  qN : ∀ k < r, q k < N
  inc : ∀ k l, k < l → l < r → q k < q l
  piv : ∀ k < r, V k k ≠ 0
  pP : IsPermArray p M
  low : ∀ k < r, ∀ j < N, k < j → j ≤ q k → V k j = 0
  zero : ∀ i < M, ∀ j < N, r ≤ i → r ≤ j → V i j = 0
  fac : ∀ i < M, ∀ j < N, X (p i) j = ∑ k ∈ range r, luL .unit V i k * slabRow V q k j

variable {M N r : ℕ} {X V Z : ℕ → ℕ → K} {p q : ℕ → ℕ}

lemma le_of_inc (h : ∀ k l, k < l → l < r → q k < q l) : ∀ k < r, k ≤ q k := by
  intro k
  induction k with
  | zero => intro _; omega
  | succ k ih =>
    intro hk
    have := h k (k + 1) (by omega) hk
    have := ih (by omega)
    omega

/-- the transpose of a CUP decomposition -/
lemma _root_.Verif.Lud.Cup.slab {Y : ℕ → ℕ → K} (h : Cup .nonUnit N M X Y p q r) : SlabFac M N (fun i j => X j i) (fun i j => Y j i) p q r := by
  refine ⟨h.rN, h.rM, h.qM, h.inc, h.piv, h.pP, fun k hk j hj h1 h2 => h.low k hk j hj (by simp only [ub]; omega) (by simp only [ub]; omega),
    fun i hi j hj h1 h2 => h.zero j hj i hi h2 h1, fun i hi j hj => ?_⟩
  rw [h.fac j hj i hi]
  refine sum_congr rfl (fun k _ => ?_)
  rw [mul_comm]
  congr 1
  simp only [luL, luU, tri]
  by_cases e : i = k
  · subst e; simp
  · rw [if_neg e, if_neg (Ne.symm e)]

lemma slabRow_lt {k j : ℕ} (h : j < q k) : slabRow V q k j = 0 := if_pos h
lemma slabRow_gt {k j : ℕ} (h : q k < j) : slabRow V q k j = V k j := by
  unfold slabRow; rw [if_neg (by omega), if_neg (by omega)]
lemma slabRow_eq {k : ℕ} : slabRow V q k (q k) = 1 := by
  unfold slabRow; rw [if_neg (by omega), if_pos rfl]

/-- a row does not see the exchanges for the pivots before it -/
lemma slabRow_swaps (hi : ∀ k l, k < l → l < r → q k < q l) {k : ℕ} (hk : k < r) :
    ∀ t ≤ k, ∀ j, slabRow V q k (ofSwaps q t j) = slabRow V q k j := by
  intro t
  induction t with
  | zero => intro _ j; rfl
  | succ t ih =>
    intro ht j
    rw [ofSwaps, Equiv.Perm.mul_apply, ih (by omega), Equiv.swap_apply_def]
    have h1 := le_of_inc hi k hk
    have h2 := hi t k (by omega) hk
    by_cases c : j = t
    · rw [if_pos c, slabRow_lt h2, slabRow_lt (by omega)]
    · rw [if_neg c]
      by_cases c' : j = q t
      · rw [if_pos c', slabRow_lt (by omega), slabRow_lt (by omega)]
      · rw [if_neg c']

/-- position `k` receives column `q k` -/
lemma ofSwaps_pivot (hi : ∀ k l, k < l → l < r → q k < q l) {k : ℕ} : ∀ t, k < t → t ≤ r → ofSwaps q t k = q k := by
  have far : ∀ k, k < r → ∀ t ≤ k, ofSwaps q t (q k) = q k := by
    intro k hk t
    induction t with
    | zero => intro _; rfl
    | succ t ih =>
      intro ht
      have h1 := le_of_inc hi k hk
      have h2 := hi t k (by omega) hk
      rw [ofSwaps, Equiv.Perm.mul_apply, Equiv.swap_apply_of_ne_of_ne (by omega) (by omega), ih (by omega)]
  intro t
  induction t with
  | zero => intro h; omega
  | succ t ih =>
    intro h1 h2
    rw [ofSwaps, Equiv.Perm.mul_apply]
    by_cases c : k = t
    · subst c
      rw [Equiv.swap_apply_left, far k (by omega) k le_rfl]
    · have h3 := le_of_inc hi t (by omega)
      rw [Equiv.swap_apply_of_ne_of_ne c (by omega), ih (by omega) (by omega)]

/-- the stored matrix after the exchanges for the first `t` pivots -/
def compV (q : ℕ → ℕ) (t : ℕ) (V : ℕ → ℕ → K) (i j : ℕ) : K := if i < t ∧ i < j then slabRow V q i (ofSwaps q t j) else V i j

lemma compV_low {t i j : ℕ} (h : j ≤ i) : compV q t V i j = V i j := if_neg (by omega)
lemma compV_down {t i j : ℕ} (h : t ≤ i) : compV q t V i j = V i j := if_neg (by omega)

lemma tri_compV (hi : ∀ k l, k < l → l < r → q k < q l) {k j : ℕ} (hk : k < r) :
    tri .upper .unit (compV q r V) k j = slabRow V q k (ofSwaps q r j) := by
  unfold tri
  by_cases e : k = j
  · subst e
    rw [if_pos rfl, ofSwaps_pivot hi r hk le_rfl, slabRow_eq]
  · rw [if_neg e]
    by_cases c : k < j
    · simp only [c, if_true]
      exact if_pos ⟨hk, c⟩
    · simp only [c, if_false]
      rw [ofSwaps_pivot hi r (by omega) le_rfl, slabRow_lt (hi j k (by omega) hk)]

lemma tri_compV_low {t : ℕ} (d : Diag) (i j : ℕ) : tri .lower d (compV q t V) i j = tri .lower d V i j := by
  unfold tri
  by_cases e : i = j
  · subst e; rw [if_pos rfl, if_pos rfl, compV_low le_rfl]
  · rw [if_neg e, if_neg e]
    by_cases c : j < i
    · simp only [c, if_true]; exact compV_low (by omega)
    · simp only [c, if_false]

/-- one exchange of two columns, in the rows before `t` -/
lemma compV_succ {t : ℕ} (hi : ∀ k l, k < l → l < r → q k < q l) (low : ∀ k < r, ∀ j < N, k < j → j ≤ q k → V k j = 0) (ht : t < r) {i j : ℕ} (hj : j < N) :
    compV q (t + 1) V i j = if i < t then compV q t V i (Equiv.swap t (q t) j) else compV q t V i j := by
  have hq := le_of_inc hi t ht
  by_cases c : i < t
  · rw [if_pos c]
    by_cases c' : i < j
    · have : i < Equiv.swap t (q t) j := by
        rw [Equiv.swap_apply_def]; split_ifs <;> omega
      rw [compV, compV, if_pos ⟨by omega, c'⟩, if_pos ⟨c, this⟩, ofSwaps, Equiv.Perm.mul_apply]
    · rw [compV_low (by omega), Equiv.swap_apply_of_ne_of_ne (by omega) (by omega), compV_low (by omega)]
  · rw [if_neg c, compV_down (show t ≤ i by omega)]
    by_cases e : i = t ∧ i < j
    · obtain ⟨rfl, h2⟩ := e
      rw [compV, if_pos ⟨by omega, h2⟩, ofSwaps, Equiv.Perm.mul_apply, slabRow_swaps hi ht i le_rfl, Equiv.swap_apply_def, if_neg (by omega)]
      by_cases c1 : j = q i
      · rw [if_pos c1, slabRow_lt (by omega), low i ht j hj h2 (by omega)]
      · rw [if_neg c1]
        by_cases c2 : j < q i
        · rw [slabRow_lt c2, low i ht j hj h2 (by omega)]
        · rw [slabRow_gt (by omega)]
    · exact if_neg (by omega)

lemma swaps_perm (h : ∀ k < r, q k < N) (hr : r ≤ N) : IsPermArray (ofSwaps q r) N := by
  have e : (ofSwaps q r : ℕ → ℕ) = ofSwaps (fun i => if i < r then q i else i) r :=
    congrArg _ (Perm.ofSwaps_congr (fun i hi => by rw [if_pos hi]))
  rw [e]
  refine ⟨fun i hi => (Perm.ofSwaps_lt (n := N) (fun j hj => ?_) r hr i).1 hi, fun i _ j _ hh => (ofSwaps _ r).injective hh⟩
  split_ifs with c
  · exact h j c
  · exact hj

/-- compression gives a PLUQ decomposition -/
lemma SlabFac.row (h : SlabFac M N X V p q r) : RowFac M N X (compV q r V) p (ofSwaps q r) r := by
  have pQ := swaps_perm h.qN h.rN
  refine ⟨⟨h.rM, h.rN, fun k hk => ?_, fun i hi j hj => ?_⟩, h.pP, pQ, fun i hi j hj h1 h2 => ?_, fun k hk j hj hq => ?_⟩
  · rw [compV_low le_rfl]; exact h.piv k hk
  · rw [h.fac i hi _ (pQ.1 j hj)]
    refine sum_congr rfl (fun k hk => ?_)
    have hk := mem_range.1 hk
    congr 1
    · exact (tri_compV_low _ _ _).symm
    · exact (tri_compV h.inc hk).symm
  · rw [compV_down h1]; exact h.zero i hi j hj h1 h2
  · rw [show luU .unit (compV q r V) k j = _ from tri_compV h.inc hk]
    rw [ofSwaps_pivot h.inc r hk le_rfl] at hq
    exact slabRow_lt hq

/-- the compressed matrix depends on the strictly upper part -/
lemma compV_upper (h : SlabFac M N X V p q r) (hU : ∀ i < r, ∀ j < N, i < j → Z i j = V i j) {i j : ℕ} (hi : i < r) (hj : j < N) (hij : i < j) :
    compV q r Z i j = compV q r V i j := by
  rw [compV, compV, if_pos ⟨hi, hij⟩, if_pos ⟨hi, hij⟩]
  have hq := le_of_inc h.inc i hi
  unfold slabRow
  split_ifs with c1 c2
  · rfl
  · rfl
  · exact hU i hi _ ((swaps_perm h.qN h.rN).1 j hj) (by omega)

/-- the echelon form with its transformation, uncompressed -/
lemma SlabFac.echelon (h : SlabFac M N X V p q r)
    (hLi : ∀ i < r, ∀ j < r, ∑ l ∈ range r, tri .lower .nonUnit Z i l * tri .lower .nonUnit V l j = if i = j then 1 else 0)
    (hU : ∀ i < r, ∀ j < N, i < j → Z i j = V i j)
    (hB : ∀ i < M, ∀ l < r, r ≤ i → Z i l = - ∑ k ∈ range r, V i k * tri .lower .nonUnit Z k l) : IsSlabEchelon M N r X Z p q := by
  have pQ := swaps_perm h.qN h.rN
  have e : IsEchelon M N r X (compV q r Z) p (ofSwaps q r) := by
    refine h.row.echelon (fun i hi j hj => ?_) (fun i hi j hj hij => compV_upper h hU hi hj hij) (fun i hi l hl hri => ?_)
    · rw [← hLi i hi j hj]
      exact sum_congr rfl (fun l _ => by rw [tri_compV_low, show luL .unit (compV q r V) l j = _ from tri_compV_low _ _ _])
    · rw [compV_down hri, hB i hi l hl hri]
      congr 1
      exact sum_congr rfl (fun k _ => by rw [tri_compV_low, compV_down hri])
  refine ⟨h.rM, h.pP, h.qN, h.inc, fun i hi j hj => ?_, fun i hi => ?_⟩
  · obtain ⟨s, hs⟩ := perm_surj pQ
    obtain ⟨hj', ej⟩ := hs j hj
    have := e.eq i hi (s j) hj'
    rw [ej] at this
    unfold rowEchOf at this
    have e2 : (if i < r then slabRow Z q i j else 0) = if i < r then tri .upper .unit (compV q r Z) i (s j) else 0 := by
      by_cases c : i < r
      · rw [if_pos c, if_pos c, tri_compV h.inc c, ej]
      · rw [if_neg c, if_neg c]
    rw [e2, ← this]
    refine sum_congr rfl (fun k _ => ?_)
    unfold rowTransOf
    rw [tri_compV_low]
  · have := e.inv i hi
    rwa [compV_low le_rfl] at this

end Verif.Pluq

namespace Verif.FF

open Finset Verif.Spec Verif.Spec.Perm Verif.Pluq Verif.Perm Verif.Lud

variable {K : Type} [Field K] [DecidableEq K] {m0 m : Mem K} {W : Win} {V X : ℕ → ℕ → K}

/-- what is known of the index arrays: the first `r` entries describe exchanges of `n` elements -/
structure Swaps (P : Arr ℕ) (n r : ℕ) : Prop where
  low : ∀ i < r, i ≤ P.get i
  lt : ∀ i < r, P.get i < n

omit [DecidableEq K] in
lemma permCols_zero {c : ℕ} {σ : ℕ → ℕ} {i j : ℕ} {t : ℕ} (hj : j < c) :
    permCols 0 0 t c σ V i j = if i < t then V i (σ j) else V i j := by
  unfold permCols
  by_cases h : i < t
  · rw [upd_in' (by omega), if_pos h]; simp
  · rw [upd_out (by omega), if_neg h]

omit [DecidableEq K] in
lemma permRows_zero {r : ℕ} {σ : ℕ → ℕ} {i j : ℕ} {t : ℕ} (hi : i < r) :
    permRows 0 0 r t σ V i j = if j < t then V (σ i) j else V i j := by
  unfold permRows
  by_cases h : j < t
  · rw [upd_in' (by omega), if_pos h]; simp
  · rw [upd_out (by omega), if_neg h]

/-- the compression loop, columns -/
lemma compressCols_on {Q : Arr ℕ} {r : ℕ} (h : On m0 m W V) (hr : r ≤ W.r) (hQ : r ≤ Q.len) (hq : ∀ k < r, Q.get k < W.c)
    (hi : ∀ k l, k < l → l < r → Q.get k < Q.get l) (low : ∀ k < r, ∀ j < W.c, k < j → j ≤ Q.get k → V k j = 0) :
    Run (compressCols W.p W.ld r Q) m (fun _ m' => On m0 m' W (compV Q.get r V)) := by
  unfold compressCols
  refine Run_loop (fun t m' => On m0 m' W (compV Q.get t V)) (h.congr (fun i _ j _ => by rw [compV_down (by omega)])) ?_
  intro t m1 ht h1
  simp only [Run_bind, Run_liftE]
  have hle := le_of_inc hi t ht
  have hlt := hq t ht
  rw [Ok_rd]
  refine ⟨by omega, ?_⟩
  have key : ∀ i < W.r, ∀ j < W.c, compV Q.get (t + 1) V i j = if i < t then compV Q.get t V i (Equiv.swap t (Q.get t) j) else compV Q.get t V i j :=
    fun i _ j hj => compV_succ hi low ht hj
  by_cases c : Q.get t > t
  · rw [if_pos c]
    have := swapCol_on (i0 := 0) (j0 := 0) (r := t) (c := W.c) (a := Q.get t) (b := t) h1 (by omega) (by omega) hlt (by omega) (by omega)
    simp only [Nat.zero_add] at this
    rw [show W.adr 0 (Q.get t) = W.p + Q.get t by simp [Win.adr], show W.adr 0 t = W.p + t by simp [Win.adr]] at this
    refine this.mono (fun _ m2 h2 => h2.congr (fun i hi' j hj => ?_))
    rw [key i hi' j hj, permCols_zero hj]
  · rw [if_neg c, Run_pure]
    refine h1.congr (fun i hi' j hj => ?_)
    rw [key i hi' j hj, show Q.get t = t by omega, Equiv.swap_self]
    simp

/-- the compression loop, rows -/
lemma compressRows_on {Q : Arr ℕ} {r : ℕ} (h : On m0 m W (fun i j => V j i)) (hr : r ≤ W.c) (hQ : r ≤ Q.len) (hq : ∀ k < r, Q.get k < W.r)
    (hi : ∀ k l, k < l → l < r → Q.get k < Q.get l) (low : ∀ k < r, ∀ j < W.r, k < j → j ≤ Q.get k → V k j = 0) :
    Run (compressRows W.p W.ld r Q) m (fun _ m' => On m0 m' W (fun i j => compV Q.get r V j i)) := by
  unfold compressRows
  refine Run_loop (fun t m' => On m0 m' W (fun i j => compV Q.get t V j i)) (h.congr (fun i _ j _ => by rw [compV_down (by omega)])) ?_
  intro t m1 ht h1
  simp only [Run_bind, Run_liftE]
  have hle := le_of_inc hi t ht
  have hlt := hq t ht
  rw [Ok_rd]
  refine ⟨by omega, ?_⟩
  have key : ∀ j < W.c, ∀ i < W.r, compV Q.get (t + 1) V j i = if j < t then compV Q.get t V j (Equiv.swap t (Q.get t) i) else compV Q.get t V j i :=
    fun i _ j hj => compV_succ hi low ht hj
  by_cases c : Q.get t > t
  · rw [if_pos c]
    have := swapRow_on (i0 := 0) (j0 := 0) (r := W.r) (c := t) (a := Q.get t) (b := t) h1 (by omega) (by omega) hlt (by omega) (by omega)
    simp only [Nat.zero_add] at this
    rw [show W.adr (Q.get t) 0 = W.p + Q.get t * W.ld by simp [Win.adr], show W.adr t 0 = W.p + t * W.ld by simp [Win.adr]] at this
    refine this.mono (fun _ m2 h2 => h2.congr (fun i hi' j hj => ?_))
    rw [key j hj i hi', permRows_zero hi']
  · rw [if_neg c, Run_pure]
    refine h1.congr (fun i hi' j hj => ?_)
    rw [key j hj i hi', show Q.get t = t by omega, Equiv.swap_self]
    simp

/-- what the slab versions with transformation have stored, before compression, in row orientation -/
structure SlabTrans (M N : ℕ) (X V0 V : ℕ → ℕ → K) (p q : ℕ → ℕ) (r : ℕ) : Prop where
  fac : SlabFac M N X V0 p q r
  li : ∀ i < r, ∀ j < r, ∑ l ∈ range r, tri .lower .nonUnit V i l * tri .lower .nonUnit V0 l j = if i = j then 1 else 0
  up : ∀ i < r, ∀ j < N, i < j → V i j = V0 i j
  bel : ∀ i < M, ∀ l < r, r ≤ i → V i l = - ∑ k ∈ range r, V0 i k * tri .lower .nonUnit V k l
  zer : ∀ i < M, ∀ j < N, r ≤ i → r ≤ j → V i j = V0 i j

/-- what the reduction with transformation has computed from the compressed matrix, in row orientation -/
structure RedTail (M N : ℕ) (V Z Ui : ℕ → ℕ → K) (r : ℕ) : Prop where
  ui : ∀ i < r, ∀ j < r, ∑ l ∈ range r, Ui i l * tri .upper .unit V l j = if i = j then 1 else 0
  a : ∀ i < r, ∀ l < r, Z i l = ∑ k ∈ range r, Ui i k * tri .lower .nonUnit V k l
  b : ∀ i < r, ∀ j < N, r ≤ j → Z i j = ∑ k ∈ range r, Ui i k * V k j
  c : ∀ i < M, ∀ j < N, r ≤ i → Z i j = V i j

omit [DecidableEq K] in
lemma SlabTrans.reduced {M N r : ℕ} {V0 Z Ui : ℕ → ℕ → K} {p q : ℕ → ℕ} (h : SlabTrans M N X V0 V p q r) (ht : RedTail M N (compV q r V) Z Ui r) :
    GJ M N 0 0 r X Z p (ofSwaps q r) := by
  have hr := h.fac.rM
  have hc := h.fac.rN
  refine h.fac.row.reduced (Li := tri .lower .nonUnit V) (Ui := Ui) (fun i hi j hj => ?_) (fun i hi j hj => ?_) (fun i hi l hl => ?_)
    (fun i hi l hl hri => ?_) (fun i hi j hj hrj => ?_) (fun i hi j hj hri hrj => ?_)
  · rw [← h.li i hi j hj]
    exact sum_congr rfl (fun l _ => by rw [show luL .unit (compV q r V0) l j = _ from tri_compV_low _ _ _])
  · rw [← ht.ui i hi j hj]
    refine sum_congr rfl (fun l hl => ?_)
    have hl := mem_range.1 hl
    congr 1
    show tri .upper .unit _ l j = tri .upper .unit _ l j
    unfold tri
    by_cases e : l = j
    · rw [if_pos e, if_pos e]
    · rw [if_neg e, if_neg e]
      by_cases e' : l < j
      · simp only [e', if_true]; exact (compV_upper h.fac h.up hl (by omega) e').symm
      · simp only [e', if_false]
  · rw [ht.a i hi l hl]
    exact sum_congr rfl (fun k _ => by rw [tri_compV_low])
  · rw [ht.c i hi l (by omega) hri, compV_down hri, h.bel i hi l hl hri]
    congr 1
    exact sum_congr rfl (fun k _ => by rw [compV_down hri])
  · rw [ht.b i hi j hj hrj]
    refine sum_congr rfl (fun k hk => ?_)
    have hk := mem_range.1 hk
    rw [compV_upper h.fac h.up hk hj (by omega)]
  · rw [ht.c i hi j hj hri, compV_down hri, compV_down hri, h.zer i hi j hj hri hrj]

/-- `RowEchelonForm`, slab version, with transformation -/
theorem rowEchelonSlab_spec {k : Kit K} (hk : KitOk k) {cutoff : ℕ} (hcut : cutoff ≤ 1) {P Qt : Arr ℕ} (h : On m0 m W X) (hP : min W.r W.c ≤ P.len)
    (hQ : W.c ≤ Qt.len) :
    Run (rowEchelonSlab k cutoff true W.r W.c W.p W.ld P Qt) m (fun y m' => y.2.1.len = P.len ∧ y.2.2.len = Qt.len ∧ Swaps y.2.1 W.r y.1 ∧
      ∃ V0 V, On m0 m' W V ∧ SlabTrans W.r W.c X V0 V (ofSwaps y.2.1.get y.1) y.2.2.get y.1) := by
  unfold rowEchelonSlab
  rw [Run_bind]
  have h' : OnL .yes m0 m W (fun i j => X j i) := h
  refine (ludivine_spec (ta := .yes) (d := .nonUnit) (sing := false) k.cat hk.g hk.ts (Or.inl hcut) hP hQ h').mono ?_
  rintro ⟨r, P', Q'⟩ m1 ⟨a1, a2, a3, a4, ⟨Y, h1, hC⟩, -, -⟩
  have hF : SlabFac W.r W.c X (fun i j => Y j i) (ofSwaps P'.get r) Q'.get r := (hC (by simp)).slab
  have h1 : On m0 m1 W (fun i j => Y j i) := h1
  simp only [if_true]
  have := rowTrans_on hk h1 r hF.rM hF.rN hF.piv
  rw [Run_bind] at this
  simp only [Run_bind]
  refine this.mono (fun _ _ hx => hx.mono ?_)
  rintro _ m2 ⟨Z, h2, b1, b2, b3, b4⟩
  rw [Run_pure]
  exact ⟨a1, a2, ⟨a3, a4⟩, _, Z, h2, hF, b1, b2, b3, b4⟩

/-- `ColumnEchelonForm`, slab version, with transformation -/
theorem columnEchelonSlab_spec {k : Kit K} (hk : KitOk k) (cutoff : ℕ) {P Qt : Arr ℕ} (h : On m0 m W X) (hP : min W.r W.c ≤ P.len)
    (hQ : W.r ≤ Qt.len) :
    Run (columnEchelonSlab k cutoff true W.r W.c W.p W.ld P Qt) m (fun y m' => y.2.1.len = P.len ∧ y.2.2.len = Qt.len ∧ Swaps y.2.1 W.c y.1 ∧
      ∃ V0 V, On m0 m' W (fun i j => V j i) ∧ SlabTrans W.c W.r (fun i j => X j i) V0 V (ofSwaps y.2.1.get y.1) y.2.2.get y.1) := by
  unfold columnEchelonSlab
  rw [Run_bind]
  have h' : OnL .no m0 m W X := h
  refine (ludivine_spec (ta := .no) (d := .nonUnit) (sing := false) k.cat hk.g hk.ts (Or.inr ⟨rfl, rfl⟩) hP hQ h').mono ?_
  rintro ⟨r, P', Q'⟩ m1 ⟨a1, a2, a3, a4, ⟨Y, h1, hC⟩, -, -⟩
  have hF : SlabFac W.c W.r (fun i j => X j i) (fun i j => Y j i) (ofSwaps P'.get r) Q'.get r := (hC (by simp)).slab
  have h1 : On m0 m1 W Y := h1
  simp only [if_true]
  have := colTrans_on hk h1 r hF.rN hF.rM hF.piv
  rw [Run_bind] at this
  simp only [Run_bind]
  refine this.mono (fun _ _ hx => hx.mono ?_)
  rintro _ m2 ⟨Z, h2, b1, b2, b3, b4⟩
  rw [Run_pure]
  refine ⟨a1, a2, ⟨a3, a4⟩, _, fun i j => Z j i, h2, hF, fun i hi j hj => ?_, fun i hi j hj hij => b2 j hj i hi hij, fun i hi l hl hri => ?_,
    fun i hi j hj h1 h2 => b4 j hj i hi h2 h1⟩
  · have := inv_comm b1 j hj i hi
    rw [if_congr (show i = j ↔ j = i from eq_comm) rfl rfl, ← this]
    refine sum_congr rfl (fun l _ => ?_)
    rw [tri_tr_lower, tri_tr_lower, mul_comm]
  · have := b3 l hl i hi hri
    rw [this]
    congr 1
    exact sum_congr rfl (fun k _ => by rw [tri_tr_lower, mul_comm])

/-- `ReducedRowEchelonForm`, slab version, with transformation -/
theorem reducedRowEchelonSlab_spec {k : Kit K} (hk : KitOk k) {cutoff : ℕ} (hcut : cutoff ≤ 1) {P Qt : Arr ℕ} (h : On m0 m W X) (hP : W.r ≤ P.len)
    (hQ : W.c ≤ Qt.len) :
    Run (reducedRowEchelonSlab k cutoff true W.r W.c W.p W.ld P Qt) m (fun y m' => y.2.1.len = P.len ∧ y.2.2.len = Qt.len ∧ Swaps y.2.1 W.r y.1 ∧
      (∀ i < y.1, y.2.2.get i < W.c) ∧ (∀ k l, k < l → l < y.1 → y.2.2.get k < y.2.2.get l) ∧
      ∃ V, On m0 m' W V ∧ GJ W.r W.c 0 0 y.1 X V (ofSwaps y.2.1.get y.1) (ofSwaps y.2.2.get y.1)) := by
  unfold reducedRowEchelonSlab
  simp only [Run_bind, Run_liftE]
  refine (iota_spec Qt W.c hQ).mono (fun Qt' hQt => ?_)
  refine (iota_spec P W.r hP).mono (fun P' hP' => ?_)
  refine (rowEchelonSlab_spec hk hcut h (by rw [hP'.1]; omega) (by rw [hQt.1]; omega)).mono ?_
  rintro ⟨r, P'', Q''⟩ m1 ⟨a1, a2, a3, V0, V, h1, hT⟩
  simp only [] at a1 a2 a3 h1 hT ⊢
  have hr := hT.fac.rM
  have hc := hT.fac.rN
  refine (compressCols_on h1 hr (by rw [a2, hQt.1]; omega) hT.fac.qN hT.fac.inc (fun k hk j hj h1 h2 => by
    rw [hT.up k hk j hj h1]; exact hT.fac.low k hk j hj h1 h2)).mono (fun _ m2 h2 => ?_)
  simp only [if_true] at *
  have := redTail_on hk h2 r hr hc
  simp only [Run_bind] at this ⊢
  refine this.mono (fun _ _ hx => hx.mono (fun _ _ hy => hy.mono ?_))
  rintro _ m3 ⟨Z, Ui, h3, c1, c2, c3, c4⟩
  rw [Run_pure]
  exact ⟨a1.trans hP'.1, a2.trans hQt.1, a3, hT.fac.qN, hT.fac.inc, Z, h3, hT.reduced ⟨c1, c2, c3, c4⟩⟩

/-- `ReducedColumnEchelonForm`, slab version, with transformation -/
theorem reducedColumnEchelonSlab_spec {k : Kit K} (hk : KitOk k) (cutoff : ℕ) {P Qt : Arr ℕ} (h : On m0 m W X) (hP : min W.r W.c ≤ P.len)
    (hQ : W.r ≤ Qt.len) :
    Run (reducedColumnEchelonSlab k cutoff true W.r W.c W.p W.ld P Qt) m (fun y m' => y.2.1.len = P.len ∧ y.2.2.len = Qt.len ∧ Swaps y.2.1 W.c y.1 ∧
      (∀ i < y.1, y.2.2.get i < W.r) ∧ (∀ k l, k < l → l < y.1 → y.2.2.get k < y.2.2.get l) ∧
      ∃ V, On m0 m' W (fun i j => V j i) ∧ GJ W.c W.r 0 0 y.1 (fun i j => X j i) V (ofSwaps y.2.1.get y.1) (ofSwaps y.2.2.get y.1)) := by
  unfold reducedColumnEchelonSlab
  simp only [Run_bind]
  refine (columnEchelonSlab_spec hk cutoff h hP hQ).mono ?_
  rintro ⟨r, P'', Q''⟩ m1 ⟨a1, a2, a3, V0, V, h1, hT⟩
  simp only [] at a1 a2 a3 h1 hT ⊢
  have hr := hT.fac.rM
  have hc := hT.fac.rN
  refine (compressRows_on h1 hr (by rw [a2]; omega) hT.fac.qN hT.fac.inc (fun k hk j hj h1 h2 => by
    rw [hT.up k hk j hj h1]; exact hT.fac.low k hk j hj h1 h2)).mono (fun _ m2 h2 => ?_)
  simp only [if_true] at *
  have := redColTail_on hk h2 r hc hr
  simp only [Run_bind] at this ⊢
  refine this.mono (fun _ _ hx => hx.mono (fun _ _ hy => hy.mono ?_))
  rintro _ m3 ⟨Z, Li, h3, c1, c2, c3, c4⟩
  rw [Run_pure]
  refine ⟨a1, a2, a3, hT.fac.qN, hT.fac.inc, fun i j => Z j i, h3, hT.reduced (Ui := fun i j => Li j i) ⟨fun i hi j hj => ?_, fun i hi l hl => ?_,
    fun i hi j hj hrj => ?_, fun i hi j hj hri => c4 j hj i hi hri⟩⟩
  · have := inv_comm c1 j hj i hi
    rw [if_congr (show i = j ↔ j = i from eq_comm) rfl rfl, ← this]
    exact sum_congr rfl (fun l _ => by rw [tri_tr_lower, mul_comm])
  · have := c2 l hl i hi
    rw [this]
    exact sum_congr rfl (fun k _ => by rw [tri_tr_upper, mul_comm])
  · have := c3 j hj i hi hrj
    rw [this]
    exact sum_congr rfl (fun k _ => mul_comm _ _)

/-- `ReducedRowEchelonForm`, slab version, without transformation -/
theorem reducedRowEchelonSlabNT_spec {k : Kit K} (hk : KitOk k) {cutoff : ℕ} (hcut : cutoff ≤ 1) {P Qt : Arr ℕ} (h : On m0 m W X) (hP : W.r ≤ P.len)
    (hQ : W.c ≤ Qt.len) :
    Run (reducedRowEchelonSlab k cutoff false W.r W.c W.p W.ld P Qt) m (fun y m' => y.2.1.len = P.len ∧ y.2.2.len = Qt.len ∧ Swaps y.2.1 W.r y.1 ∧
      (∀ i < y.1, y.2.2.get i < W.c) ∧ (∀ k l, k < l → l < y.1 → y.2.2.get k < y.2.2.get l) ∧
      ∃ V, On m0 m' W V ∧ IsReducedNT W.r W.c y.1 X V (ofSwaps y.2.1.get y.1) (ofSwaps y.2.2.get y.1)) := by
  unfold reducedRowEchelonSlab rowEchelonSlab
  simp only [Run_bind, Run_liftE]
  refine (iota_spec Qt W.c hQ).mono (fun Qt' hQt => ?_)
  refine (iota_spec P W.r hP).mono (fun P' hP' => ?_)
  have h' : OnL .yes m0 m W (fun i j => X j i) := h
  refine (ludivine_spec (ta := .yes) (d := .nonUnit) (sing := false) k.cat hk.g hk.ts (Or.inl hcut) (by rw [hP'.1]; omega)
    (show W.c ≤ _ by rw [hQt.1]; omega) h').mono ?_
  rintro ⟨r, P'', Q''⟩ m1 ⟨a1, a2, a3, a4, ⟨Y, h1, hC⟩, -, -⟩
  have hF : SlabFac W.r W.c X (fun i j => Y j i) (ofSwaps P''.get r) Q''.get r := (hC (by simp)).slab
  have h1 : On m0 m1 W (fun i j => Y j i) := h1
  simp only [Bool.false_eq_true, if_false, Run_pure, Run_bind] at *
  have hr := hF.rM
  have hc := hF.rN
  refine (compressCols_on h1 hr (by rw [a2, hQt.1]; omega) hF.qN hF.inc hF.low).mono (fun _ m2 h2 => ?_)
  have := trsm_on (side := .left) (u := .upper) (ta := .no) (d := .unit) (r := r) (c := W.c - r) (a := 0) (b := 0) (i0 := 0) (j0 := r) hk.ts h2 1
    (by simp only [sideDim]; omega) (by simp only [sideDim]; omega) (by omega) (by omega) (by simp only [sideDim]; omega) (by intro hh; cases hh)
  rw [show W.adr 0 0 = W.p by simp [Win.adr], show W.adr 0 r = W.p + r by simp [Win.adr]] at this
  refine this.mono ?_
  rintro _ m3 ⟨T, h3, hT⟩
  refine ⟨a1.trans hP'.1, a2.trans hQt.1, ⟨a3, a4⟩, hF.qN, hF.inc, _, h3, hF.row.reducedNT (fun i hi j hj hrj => ?_) (fun i hi j hj hh => ?_)⟩
  · have := hT i hi (j - r) (by omega)
    simp only [sideMul, mul, sideDim, op, Nat.zero_add, one_mul] at this
    rw [show r + (j - r) = j by omega] at this
    rw [← this]
    refine sum_congr rfl (fun l hl => ?_)
    have hl := mem_range.1 hl
    rw [upd_in' (by omega), Nat.sub_zero]
    congr 1
    unfold luU
    exact tri_congr (n := r) (fun a _ b _ => by simp [blk]) hi hl
  · rw [upd_out (by omega)]

/-- `ReducedColumnEchelonForm`, slab version, without transformation -/
theorem reducedColumnEchelonSlabNT_spec {k : Kit K} (hk : KitOk k) (cutoff : ℕ) {P Qt : Arr ℕ} (h : On m0 m W X) (hP : min W.r W.c ≤ P.len)
    (hQ : W.r ≤ Qt.len) :
    Run (reducedColumnEchelonSlab k cutoff false W.r W.c W.p W.ld P Qt) m (fun y m' => y.2.1.len = P.len ∧ y.2.2.len = Qt.len ∧ Swaps y.2.1 W.c y.1 ∧
      (∀ i < y.1, y.2.2.get i < W.r) ∧ (∀ k l, k < l → l < y.1 → y.2.2.get k < y.2.2.get l) ∧
      ∃ V, On m0 m' W (fun i j => V j i) ∧ IsReducedNT W.c W.r y.1 (fun i j => X j i) V (ofSwaps y.2.1.get y.1) (ofSwaps y.2.2.get y.1)) := by
  unfold reducedColumnEchelonSlab columnEchelonSlab
  simp only [Run_bind]
  have h' : OnL .no m0 m W X := h
  refine (ludivine_spec (ta := .no) (d := .nonUnit) (sing := false) k.cat hk.g hk.ts (Or.inr ⟨rfl, rfl⟩) hP hQ h').mono ?_
  rintro ⟨r, P'', Q''⟩ m1 ⟨a1, a2, a3, a4, ⟨Y, h1, hC⟩, -, -⟩
  have hF : SlabFac W.c W.r (fun i j => X j i) (fun i j => Y j i) (ofSwaps P''.get r) Q''.get r := (hC (by simp)).slab
  have h1 : On m0 m1 W (fun i j => (fun i j => Y j i) j i) := h1
  simp only [Bool.false_eq_true, if_false, Run_pure, Run_bind] at *
  have hr := hF.rM
  have hc := hF.rN
  refine (compressRows_on (V := fun i j => Y j i) h1 hr (by rw [a2]; omega) hF.qN hF.inc hF.low).mono (fun _ m2 h2 => ?_)
  have := trsm_on (side := .right) (u := .lower) (ta := .no) (d := .unit) (r := W.r - r) (c := r) (a := 0) (b := 0) (i0 := r) (j0 := 0) hk.ts h2 1
    (by simp only [sideDim]; omega) (by simp only [sideDim]; omega) (by omega) (by omega) (by simp only [sideDim]; omega) (by intro hh; cases hh)
  rw [show W.adr 0 0 = W.p by simp [Win.adr], show W.adr r 0 = W.p + r * W.ld by simp [Win.adr]] at this
  refine this.mono ?_
  rintro _ m3 ⟨T, h3, hT⟩
  refine ⟨a1, a2, ⟨a3, a4⟩, hF.qN, hF.inc, fun i j => upd r 0 (W.r - r) r T (fun i j => compV Q''.get r (fun i j => Y j i) j i) j i, h3,
    hF.row.reducedNT (fun i hi j hj hrj => ?_) (fun i hi j hj hh => ?_)⟩
  · have := hT (j - r) (by omega) i hi
    simp only [sideMul, mul, sideDim, op, Nat.zero_add, one_mul] at this
    rw [show r + (j - r) = j by omega] at this
    rw [← this]
    refine sum_congr rfl (fun l hl => ?_)
    have hl := mem_range.1 hl
    rw [upd_in' (by omega), Nat.sub_zero, show luU .unit (compV Q''.get r (fun i j => Y j i)) i l = _ from
      (tri_tr_upper .unit (fun i j => compV Q''.get r (fun i j => Y j i) j i) i l), mul_comm]
    congr 1
    exact tri_congr (n := r) (fun a _ b _ => by simp [blk]) hl hi
  · show upd _ _ _ _ _ _ j i = _
    rw [upd_out (by omega)]

end Verif.FF
