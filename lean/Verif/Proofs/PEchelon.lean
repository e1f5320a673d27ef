import Verif.Model.PEchelon
import Verif.Proofs.Echelon
import Verif.Core.ParV

/-!
# What follows the decomposition in the echelon forms, from any decomposition
-/

namespace Verif.FF

open Verif.Perm Verif.Spec Verif.Spec.Perm Verif.Pluq Finset Verif.ParV

variable {K : Type} [Field K] [DecidableEq K] {m0 m : Mem K} {W : Win} {X V0 : ℕ → ℕ → K} {r : ℕ}

omit [Field K] [DecidableEq K] in
/-- executions keep everything at or above `next` free -/
lemma wf_step {ν : Type} {p p' : VProc K ν} {m m' : Mem K} (hs : PStep p m p' m') : WF m → WF m' := by
  induction hs with
  | rd => exact id
  | wr => exact id
  | alloc p c h =>
    intro hB i hi
    rename_i n k m
    have hi : max m.next (p + n) ≤ i := hi
    have : ¬ Par.blkAt p n i := fun hb => by have := hb.2; omega
    simp [Par.allocAt, this, hB i (by omega)]
  | free h => exact fun hB i hi => by simp [Par.freeAt, hB i hi]
  | join => exact id
  | task j t' _ ih => exact ih

omit [Field K] [DecidableEq K] in
lemma wf_steps {ν : Type} {x y : VProc K ν × Mem K} (hs : Steps x y) (h : WF x.2) : WF y.2 := by
  induction hs with
  | refl => exact h
  | tail _ h1 ih => exact wf_step h1 ih

/-- the matrix with rows and columns already permuted -/
lemma facId {d : Diag} {M N : ℕ} {Y : ℕ → ℕ → K} (h : IsPLUQ d M N Y V0 id id r) (hz : ∀ i < M, ∀ j < N, r ≤ i → r ≤ j → V0 i j = 0) :
    Fac d M N Y V0 id id r :=
  ⟨h, ⟨fun _ hi => hi, fun _ _ _ _ e => e⟩, ⟨fun _ hi => hi, fun _ _ _ _ e => e⟩, hz,
    fun k _ i _ hp => by
      have hp : i < k := hp
      simp only [luL, tri]
      rw [if_neg (by omega), if_neg (by simpa using by omega)],
    fun k _ j _ hp => by
      have hp : j < k := hp
      simp only [luU, tri]
      rw [if_neg (by omega), if_neg (by simpa using by omega)],
    fun _ _ _ h _ => h, fun _ _ _ h _ => h⟩

theorem rowTail_on {k : Kit K} (hk : KitOk k) (h : On m0 m W V0) (hF : Fac .unit W.r W.c X V0 id id r) :
    Run (rowTail k true W.r W.p W.ld r) m (fun _ m' => ∃ V, On m0 m' W V ∧ IsEchelon W.r W.c r X V id id) := by
  unfold rowTail
  simp only [if_true]
  refine (rowTrans_on hk h r hF.rM hF.rN hF.piv).mono ?_
  rintro _ m1 ⟨V, h1, b1, b2, b3, b4⟩
  exact ⟨V, h1, hF.row.echelon b1 b2 b3⟩

theorem colTail_on {k : Kit K} (hk : KitOk k) (h : On m0 m W V0) (hF : Fac .nonUnit W.r W.c X V0 id id r) :
    Run (colTail k true W.c W.p W.ld r) m (fun _ m' => ∃ V, On m0 m' W V ∧ IsEchelon W.c W.r r (fun i j => X j i) (fun i j => V j i) id id) := by
  unfold colTail
  simp only [if_true]
  refine (colTrans_on hk h r hF.rM hF.rN hF.piv).mono ?_
  rintro _ m1 ⟨V, h1, b1, b2, b3, b4⟩
  refine ⟨V, h1, hF.transp.row.echelon (fun i hi j hj => ?_) (fun i hi j hj hij => b2 j hj i hi hij) (fun i hi l hl hri => ?_)⟩
  · have := inv_comm b1 j hj i hi
    rw [if_congr (show i = j ↔ j = i from eq_comm) rfl rfl, ← this]
    refine sum_congr rfl (fun l _ => ?_)
    rw [tri_tr_lower, show luL .unit (fun i j => V0 j i) l j = tri .upper .nonUnit V0 j l from tri_tr_lower _ _ _ _, mul_comm]
  · have := b3 l hl i hi hri
    rw [this]
    congr 1
    exact sum_congr rfl (fun k _ => by rw [tri_tr_lower, mul_comm])

theorem redRowTail_on {k : Kit K} (hk : KitOk k) (h : On m0 m W V0) (hF : Fac .unit W.r W.c X V0 id id r) :
    Run (pEchTail k .redRow true W.r W.c W.p W.ld r) m (fun _ m' => ∃ V, On m0 m' W V ∧ IsReduced W.r W.c r X V id id) := by
  unfold pEchTail rowTail
  simp only [if_true]
  rw [Run_bind]
  refine (rowTrans_on hk h r hF.rM hF.rN hF.piv).mono ?_
  rintro _ m1 ⟨V, h1, b1, b2, b3, b4⟩
  have hr := hF.rM
  have hc := hF.rN
  refine (redTail_on hk h1 r hF.rM hF.rN).mono ?_
  rintro _ m2 ⟨Z, Ui, h2, c1, c2, c3, c4⟩
  refine ⟨Z, h2, (hF.row.reduced (Li := tri .lower .nonUnit V) (Ui := Ui) b1 (fun i hi j hj => ?_) c2 (fun i hi l hl hri => ?_)
    (fun i hi j hj hrj => ?_) (fun i hi j hj hri hrj => ?_)).isReduced⟩
  · rw [← c1 i hi j hj]
    refine sum_congr rfl (fun l hl => ?_)
    have hl := mem_range.1 hl
    congr 1
    unfold luU tri
    by_cases e : l = j
    · rw [if_pos e, if_pos e]
    · rw [if_neg e, if_neg e]
      by_cases e' : l < j
      · simp only [e', if_true]; exact (b2 l hl j (by omega) e').symm
      · simp only [e', if_false]
  · rw [c4 i hi l (by omega) hri, b3 i hi l hl hri]
  · rw [c3 i hi j hj hrj]
    refine sum_congr rfl (fun l hl => ?_)
    have hl := mem_range.1 hl
    rw [b2 l hl j hj (by omega)]
  · rw [c4 i hi j hj hri, b4 i hi j hj hri hrj]

theorem redRowTailNT_on {k : Kit K} (hk : KitOk k) (h : On m0 m W V0) (hF : Fac .unit W.r W.c X V0 id id r) :
    Run (pEchTail k .redRow false W.r W.c W.p W.ld r) m (fun _ m' => ∃ V, On m0 m' W V ∧ IsReducedNT W.r W.c r X V id id ∧
      ∀ i < W.r, ∀ j < W.c, r ≤ i ∨ j < r → V i j = V0 i j) := by
  unfold pEchTail rowTail
  simp only [Bool.false_eq_true, if_false]
  rw [Run_bind, Run_pure]
  have hr := hF.rM
  have hc := hF.rN
  have := trsm_on (side := .left) (u := .upper) (ta := .no) (d := .unit) (r := r) (c := W.c - r) (a := 0) (b := 0) (i0 := 0) (j0 := r) hk.ts h 1
    (by simp only [sideDim]; omega) (by simp only [sideDim]; omega) (by omega) (by omega) (by simp only [sideDim]; omega) (by intro hh; cases hh)
  rw [show W.adr 0 0 = W.p by simp [Win.adr], show W.adr 0 r = W.p + r by simp [Win.adr]] at this
  refine this.mono ?_
  rintro _ m2 ⟨Y, h2, hY⟩
  have hV : ∀ i < W.r, ∀ j < W.c, r ≤ i ∨ j < r → upd 0 r r (W.c - r) Y V0 i j = V0 i j := by
    intro i hi j hj hh
    rw [upd_out (by omega)]
  refine ⟨_, h2, hF.row.reducedNT (fun i hi j hj hrj => ?_) hV, hV⟩
  have := hY i hi (j - r) (by omega)
  simp only [sideMul, mul, sideDim, op, Nat.zero_add, one_mul] at this
  rw [show r + (j - r) = j by omega] at this
  rw [← this]
  refine sum_congr rfl (fun l hl => ?_)
  have hl := mem_range.1 hl
  rw [upd_in' (by omega), Nat.sub_zero]
  congr 1
  unfold luU
  exact tri_congr (n := r) (fun a _ b _ => by simp [blk]) hi hl

theorem redColTail'_on {k : Kit K} (hk : KitOk k) (h : On m0 m W V0) (hF : Fac .nonUnit W.r W.c X V0 id id r) :
    Run (pEchTail k .redCol true W.r W.c W.p W.ld r) m (fun _ m' => ∃ V, On m0 m' W V ∧ IsReduced W.c W.r r (fun i j => X j i) (fun i j => V j i) id id) := by
  unfold pEchTail colTail
  simp only [if_true]
  rw [Run_bind]
  refine (colTrans_on hk h r hF.rM hF.rN hF.piv).mono ?_
  rintro _ m1 ⟨V, h1, b1, b2, b3, b4⟩
  have hr := hF.rM
  have hc := hF.rN
  refine (redColTail_on hk h1 r hF.rM hF.rN).mono ?_
  rintro _ m2 ⟨Z, Li, h2, c1, c2, c3, c4⟩
  have eV : ∀ i < r, ∀ l < r, tri .lower .unit V i l = tri .lower .unit V0 i l := by
    intro l hl j hj
    unfold tri
    by_cases e : l = j
    · rw [if_pos e, if_pos e]
    · rw [if_neg e, if_neg e]
      by_cases e' : j < l
      · simp only [e', if_true]; exact b2 l (by omega) j hj e'
      · simp only [e', if_false]
  have c1' : ∀ i < r, ∀ j < r, ∑ l ∈ range r, Li i l * tri .lower .unit V0 l j = if i = j then 1 else 0 := by
    intro i hi j hj
    rw [← c1 i hi j hj]
    exact sum_congr rfl (fun l hl => by rw [eV l (mem_range.1 hl) j hj])
  refine ⟨Z, h2, (hF.transp.row.reduced (Li := fun i j => tri .upper .nonUnit V j i) (Ui := fun i j => Li j i) (fun i hi j hj => ?_)
    (fun i hi j hj => ?_) (fun i hi l hl => ?_) (fun i hi l hl hri => ?_) (fun i hi j hj hrj => ?_) (fun i hi j hj hri hrj => ?_)).isReduced⟩
  · have := inv_comm b1 j hj i hi
    rw [if_congr (show i = j ↔ j = i from eq_comm) rfl rfl, ← this]
    refine sum_congr rfl (fun l _ => ?_)
    rw [show luL .unit (fun i j => V0 j i) l j = tri .upper .nonUnit V0 j l from tri_tr_lower _ _ _ _, mul_comm]
  · have := inv_comm c1' j hj i hi
    rw [if_congr (show i = j ↔ j = i from eq_comm) rfl rfl, ← this]
    refine sum_congr rfl (fun l _ => ?_)
    rw [show luU .unit (fun i j => V0 j i) l j = tri .lower .unit V0 j l from tri_tr_upper _ _ _ _, mul_comm]
  · rw [c2 l hl i hi]
    exact sum_congr rfl (fun k _ => mul_comm _ _)
  · have := c4 l (by omega) i hi hri
    rw [this, b3 l hl i hi hri]
    congr 1
    exact sum_congr rfl (fun k _ => mul_comm _ _)
  · have := c3 j hj i hi hrj
    rw [this]
    refine sum_congr rfl (fun k hk' => ?_)
    have hk' := mem_range.1 hk'
    rw [b2 j hj k hk' (by omega), mul_comm]
  · have := c4 j hj i hi hri
    rw [this, b4 j hj i hi hrj hri]

theorem redColTailNT_on {k : Kit K} (hk : KitOk k) (h : On m0 m W V0) (hF : Fac .nonUnit W.r W.c X V0 id id r) :
    Run (pEchTail k .redCol false W.r W.c W.p W.ld r) m (fun _ m' => ∃ V, On m0 m' W V ∧ IsReducedNT W.c W.r r (fun i j => X j i) (fun i j => V j i) id id ∧
      ∀ i < W.r, ∀ j < W.c, r ≤ j ∨ i < r → V i j = V0 i j) := by
  unfold pEchTail colTail
  simp only [Bool.false_eq_true, if_false]
  rw [Run_bind, Run_pure]
  have hr := hF.rM
  have hc := hF.rN
  have := trsm_on (side := .right) (u := .lower) (ta := .no) (d := .unit) (r := W.r - r) (c := r) (a := 0) (b := 0) (i0 := r) (j0 := 0) hk.ts h 1
    (by simp only [sideDim]; omega) (by simp only [sideDim]; omega) (by omega) (by omega) (by simp only [sideDim]; omega) (by intro hh; cases hh)
  rw [show W.adr 0 0 = W.p by simp [Win.adr], show W.adr r 0 = W.p + r * W.ld by simp [Win.adr]] at this
  refine this.mono ?_
  rintro _ m2 ⟨Y, h2, hY⟩
  have hV : ∀ i < W.r, ∀ j < W.c, r ≤ j ∨ i < r → upd r 0 (W.r - r) r Y V0 i j = V0 i j := by
    intro i hi j hj hh
    rw [upd_out (by omega)]
  refine ⟨_, h2, hF.transp.row.reducedNT (fun i hi j hj hrj => ?_) (fun i hi j hj hh => hV j hj i hi hh), hV⟩
  have := hY (j - r) (by omega) i hi
  simp only [sideMul, mul, sideDim, op, Nat.zero_add, one_mul] at this
  rw [show r + (j - r) = j by omega] at this
  rw [← this]
  refine sum_congr rfl (fun l hl => ?_)
  have hl := mem_range.1 hl
  rw [upd_in' (by omega), Nat.sub_zero, show luU .unit (fun i j => V0 j i) i l = tri .lower .unit V0 l i from tri_tr_upper _ _ _ _, mul_comm]
  congr 1
  exact tri_congr (n := r) (fun a _ b _ => by simp [blk]) hl hi

end Verif.FF
