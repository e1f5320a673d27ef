import Verif.Proofs.RandRook
import Mathlib.Algebra.BigOperators.Group.Finset.Basic
import Mathlib.Algebra.BigOperators.Ring.Finset
import Mathlib.Algebra.Order.BigOperators.Group.Finset
import Mathlib.Tactic.Ring
import Mathlib.Tactic.Linarith

/-!
# Random left triangular rank profile matrices
-/

namespace Verif.RandRook

open Finset Verif.FF Verif.Spec

section
variable {α : Type}

/-- the only fault is an access out of bounds -/
abbrev OkB (e : Except Fault α) (Q : α → Prop) : Prop := OkOr (fun f => f = .oob) e Q

lemma OkB_rd {a : Arr α} {i : ℕ} {Q : α → Prop} (h : Q (a.get i)) : OkB (a.rd i) Q := by
  unfold Arr.rd
  split_ifs
  · exact Or.inl ⟨_, rfl, h⟩
  · exact OkOr_error rfl

lemma OkB_wr {a : Arr α} {i : ℕ} {v : α} {Q : Arr α → Prop} (h : Q ⟨a.len, Function.update a.get i v⟩) : OkB (a.wr i v) Q := by
  unfold Arr.wr
  split_ifs
  · exact Or.inl ⟨_, rfl, h⟩
  · exact OkOr_error rfl
end

/-- number of the pivots in the leading block of `k + 1` rows and `n - 1 - k` columns -/
def blk (n r : ℕ) (p q : ℕ → ℕ) (k : ℕ) : ℤ := ∑ l ∈ range r, if p l ≤ k ∧ q l + k + 2 ≤ n then 1 else 0

variable {n r t h : ℕ} {p q : ℕ → ℕ} {T : ℕ → ℤ} {aR aC : ℕ → Bool}

lemma sum_change {f f' : ℕ → ℤ} (hh : h < r) (e : ∀ l < r, l ≠ h → f' l = f l) : ∑ l ∈ range r, f' l = ∑ l ∈ range r, f l + (f' h - f h) := by
  rw [← Finset.add_sum_erase _ _ (mem_range.2 hh), ← Finset.add_sum_erase (range r) f (mem_range.2 hh)]
  rw [Finset.sum_congr rfl (fun l hl => e l (mem_range.1 (mem_of_mem_erase hl)) (ne_of_mem_erase hl))]
  ring

/-- the state: the pivots from number `h` on are on the antidiagonal -/
structure LtI (n r t h : ℕ) (p q : ℕ → ℕ) (T : ℕ → ℤ) (aR aC : ℕ → Bool) : Prop where
  left : ∀ l < r, p l + q l + 2 ≤ n
  anti : ∀ l, h ≤ l → l < r → p l + q l + 2 = n
  ip : ∀ l < r, ∀ l' < r, p l = p l' → l = l'
  iq : ∀ l < r, ∀ l' < r, q l = q l' → l = l'
  fR : ∀ l < r, aR (p l) = false
  fC : ∀ l < r, aC (q l) = false
  cnt : ∀ k, k + 1 < n → T k = blk n r p q k
  le : ∀ k, k + 1 < n → T k ≤ t

/-- a move of pivot `h` to column `y` -/
def CMove (t h : ℕ) (p q : ℕ → ℕ) (T : ℕ → ℤ) (aC : ℕ → Bool) (y : ℕ) : Prop :=
  y ≤ q h ∧ (y ≠ q h → aC y = true) ∧ ∀ k, p h < k → k ≤ p h + (q h - y) → T k < t

/-- a move of pivot `h` to row `y` -/
def RMove (t h : ℕ) (p : ℕ → ℕ) (T : ℕ → ℤ) (aR : ℕ → Bool) (y : ℕ) : Prop :=
  y < p h ∧ aR y = true ∧ ∀ k, y ≤ k → k < p h → T k < t

lemma LtI.colMove (L : LtI n r t h p q T aR aC) (hh : h < r) {y : ℕ} (m : CMove t h p q T aC y) {q' : ℕ → ℕ} {T' : ℕ → ℤ} {aC' : ℕ → Bool}
    (eq : ∀ l, q' l = if l = h then y else q l) (eT : ∀ k, T' k = if p h + 1 ≤ k ∧ k < p h + 1 + (q h - y) then T k + 1 else T k)
    (eA : ∀ j, aC' j = if q h ≠ y then (if j = y then false else if j = q h then true else aC j) else aC j) :
    LtI n r t (h + 1) p q' T' aR aC' := by
  obtain ⟨m1, m2, m3⟩ := m
  have ha := L.anti h (le_refl _) hh
  have hny : ∀ l < r, l ≠ h → q l ≠ y := by
    intro l hl hne e
    by_cases c : y = q h
    · exact hne (L.iq l hl h hh (by omega))
    · have := L.fC l hl
      rw [e, m2 c] at this
      cases this
  refine ⟨fun l hl => ?_, fun l hl hl' => ?_, L.ip, fun l hl l' hl' e => ?_, L.fR, fun l hl => ?_, fun k hk => ?_, fun k hk => ?_⟩
  · rw [eq]; split_ifs with c
    · rw [c]; omega
    · exact L.left l hl
  · rw [eq, if_neg (by omega)]; exact L.anti l (by omega) hl'
  · rw [eq, eq] at e
    split_ifs at e with c c' c'
    · omega
    · exact absurd e.symm (hny l' hl' c')
    · exact absurd e (hny l hl c)
    · exact L.iq l hl l' hl' e
  · rw [eA, eq]
    by_cases c : l = h
    · subst c
      rw [if_pos rfl, if_pos rfl]
      split_ifs with z
      · rfl
      · have z : q l = y := by omega
        rw [← z]; exact L.fC l hl
    · rw [if_neg c, if_neg (hny l hl c)]
      have : q l ≠ q h := fun e => c (L.iq l hl h hh e)
      rw [if_neg this]
      simp [L.fC l hl]
  · rw [eT]
    have := sum_change (f := fun l => if p l ≤ k ∧ q l + k + 2 ≤ n then 1 else 0) (f' := fun l => if p l ≤ k ∧ q' l + k + 2 ≤ n then 1 else 0) hh
      (fun l hl c => by simp only [eq, if_neg c])
    have e0 := L.cnt k hk
    unfold blk at e0 ⊢
    rw [this, ← e0]
    simp only [eq, if_true]
    split_ifs <;> omega
  · rw [eT]
    split_ifs with c
    · have := m3 k (by omega) (by omega); omega
    · exact L.le k hk

lemma LtI.rowMove (L : LtI n r t h p q T aR aC) (hh : h < r) {y : ℕ} (m : RMove t h p T aR y) {p' : ℕ → ℕ} {T' : ℕ → ℤ} {aR' : ℕ → Bool}
    (ep : ∀ l, p' l = if l = h then y else p l) (eT : ∀ k, T' k = if y ≤ k ∧ k < y + (p h - y) then T k + 1 else T k)
    (eA : ∀ j, aR' j = if j = y then false else if j = p h then true else aR j) :
    LtI n r t (h + 1) p' q T' aR' aC := by
  obtain ⟨m1, m2, m3⟩ := m
  have ha := L.anti h (le_refl _) hh
  have hny : ∀ l < r, p l ≠ y := by
    intro l hl e
    have := L.fR l hl
    rw [e, m2] at this
    cases this
  refine ⟨fun l hl => ?_, fun l hl hl' => ?_, fun l hl l' hl' e => ?_, L.iq, fun l hl => ?_, L.fC, fun k hk => ?_, fun k hk => ?_⟩
  · rw [ep]; split_ifs with c
    · rw [c]; omega
    · exact L.left l hl
  · rw [ep, if_neg (by omega)]; exact L.anti l (by omega) hl'
  · rw [ep, ep] at e
    split_ifs at e with c c' c'
    · omega
    · exact absurd e.symm (hny l' hl')
    · exact absurd e (hny l hl)
    · exact L.ip l hl l' hl' e
  · rw [eA, ep]
    by_cases c : l = h
    · rw [if_pos c, if_pos rfl]
    · rw [if_neg c, if_neg (hny l hl)]
      have : p l ≠ p h := fun e => c (L.ip l hl h hh e)
      rw [if_neg this]
      exact L.fR l hl
  · rw [eT]
    have := sum_change (f := fun l => if p l ≤ k ∧ q l + k + 2 ≤ n then 1 else 0) (f' := fun l => if p' l ≤ k ∧ q l + k + 2 ≤ n then 1 else 0) hh
      (fun l hl c => by simp only [ep, if_neg c])
    have e0 := L.cnt k hk
    unfold blk at e0 ⊢
    rw [this, ← e0]
    simp only [ep, if_true]
    split_ifs <;> omega
  · rw [eT]
    split_ifs with c
    · have := m3 k (by omega) (by omega); omega
    · exact L.le k hk

lemma addRange_ok {A : Arr ℤ} {lo cnt : ℕ} {x : ℤ} : OkB (addRange A lo cnt x) (fun B => ∀ k, B.get k = if lo ≤ k ∧ k < lo + cnt then A.get k + x else A.get k) := by
  unfold addRange
  refine OkOr_iter (fun m (B : Arr ℤ) => ∀ k, B.get k = if lo ≤ k ∧ k < lo + m then A.get k + x else A.get k) (fun k => by rw [if_neg (by omega)]) ?_
  intro m B hm hB
  refine OkOr_bind (OkB_rd (OkB_wr fun k => ?_))
  simp only [Function.update_apply]
  split_ifs with c c' c'
  · rw [hB, if_neg (by omega), c]
  · omega
  · rw [hB, if_pos (by omega)]
  · rw [hB, if_neg (by omega)]

lemma fullUp_ok {A : Arr ℤ} {t : ℤ} : ∀ cnt k, OkB (fullUp A t cnt k) (fun o => (o = none → ∀ k', k ≤ k' → k' < k + cnt → A.get k' ≠ t) ∧
    ∀ x, o = some x → k ≤ x ∧ ∀ k', k ≤ k' → k' < x → A.get k' ≠ t) := by
  intro cnt
  induction cnt with
  | zero => intro k; exact OkOr_pure ⟨fun _ k' h1 h2 => by omega, fun x hx => by cases hx⟩
  | succ cnt ih =>
    intro k
    unfold fullUp
    refine OkOr_bind (OkB_rd ?_)
    split_ifs with c
    · refine OkOr_pure ⟨fun h => (by cases h), fun x hx => ?_⟩
      cases hx
      exact ⟨le_refl _, fun k' h1 h2 => by omega⟩
    · refine (ih (k + 1)).mono ?_
      rintro o ⟨h1, h2⟩
      refine ⟨fun ho k' hk hk' => ?_, fun x hx => ?_⟩
      · rcases Nat.eq_or_lt_of_le hk with rfl | hk
        · exact c
        · exact h1 ho k' hk (by omega)
      · obtain ⟨a1, a2⟩ := h2 x hx
        refine ⟨by omega, fun k' hk hk' => ?_⟩
        rcases Nat.eq_or_lt_of_le hk with rfl | hk
        · exact c
        · exact a2 k' hk hk'

lemma fullDown_ok {A : Arr ℤ} {t : ℤ} : ∀ k, OkB (fullDown A t k) (fun o => (o = none → ∀ k' < k, A.get k' ≠ t) ∧
    ∀ x, o = some x → x < k ∧ ∀ k', x < k' → k' < k → A.get k' ≠ t) := by
  intro k
  induction k with
  | zero => exact OkOr_pure ⟨fun _ k' h => by omega, fun x hx => by cases hx⟩
  | succ k ih =>
    unfold fullDown
    refine OkOr_bind (OkB_rd ?_)
    split_ifs with c
    · refine OkOr_pure ⟨fun h => (by cases h), fun x hx => ?_⟩
      cases hx
      exact ⟨by omega, fun k' h1 h2 => by omega⟩
    · refine ih.mono ?_
      rintro o ⟨h1, h2⟩
      refine ⟨fun ho k' hk => ?_, fun x hx => ?_⟩
      · rcases Nat.lt_succ_iff_lt_or_eq.1 hk with hk | rfl
        · exact h1 ho k' hk
        · exact c
      · obtain ⟨a1, a2⟩ := h2 x hx
        refine ⟨by omega, fun k' hk hk' => ?_⟩
        rcases Nat.lt_succ_iff_lt_or_eq.1 hk' with hk' | rfl
        · exact a2 k' hk hk'
        · exact c

lemma freeMoves_ok {lo hi : ℕ} {a : Arr Bool} : OkB (freeMoves lo hi a) (fun l => l.length ≤ hi - lo ∧ ∀ y ∈ l, lo ≤ y ∧ y < hi ∧ a.get y = true) := by
  unfold freeMoves
  refine OkOr_iter (fun m (l : List ℕ) => l.length ≤ m ∧ ∀ y ∈ l, lo ≤ y ∧ y < hi ∧ a.get y = true) ⟨by simp, by simp⟩ ?_
  rintro m l hm ⟨h1, h2⟩
  refine OkOr_bind (OkB_rd (OkOr_pure ?_))
  split_ifs with c
  · refine ⟨by rw [List.length_append]; simp only [List.length_singleton]; omega, fun y hy => ?_⟩
    rcases List.mem_append.1 hy with hy | hy
    · exact h2 y hy
    · rw [List.mem_singleton] at hy
      subst hy
      exact ⟨by omega, by omega, c⟩
  · exact ⟨by omega, h2⟩

/-- the moves kept for pivot `h` -/
def MV (t h : ℕ) (p q : ℕ → ℕ) (T : ℕ → ℤ) (aR aC : ℕ → Bool) (moves : List ℕ) (su : ℕ) : Prop :=
  ∀ x y, moves[x]? = some y → (x < su → CMove t h p q T aC y) ∧ (su ≤ x → RMove t h p T aR y)

/-- the loop invariant -/
def Hd (n r t : ℕ) (s : LtqsSt) : Prop :=
  LtI n r t s.h s.rows.get s.cols.get s.T.get s.availR.get s.availC.get ∧
    (s.prevH = some s.h → MV t s.h s.rows.get s.cols.get s.T.get s.availR.get s.availC.get s.moves s.startUp) ∧
    ∀ z, s.prevH = some z → z ≤ s.h

/-- the fuel used: a bound on the number of iterations left -/
def mu (n r : ℕ) (s : LtqsSt) : ℕ := (r - s.h) * n + (if s.prevH = some s.h then s.moves.length else n) - n

lemma ltqsMoves_ok {s : LtqsSt} (H : Hd n r t s) (hh : s.h < r) : OkB (ltqsMoves n t s) (fun s' =>
    LtI n r t s'.h s'.rows.get s'.cols.get s'.T.get s'.availR.get s'.availC.get ∧
    MV t s'.h s'.rows.get s'.cols.get s'.T.get s'.availR.get s'.availC.get s'.moves s'.startUp ∧
    s'.h = s.h ∧ s'.rows = s.rows ∧ s'.cols = s.cols ∧ s'.prevH = s.prevH ∧
    s'.moves.length ≤ (if s.prevH = some s.h then s.moves.length else n - 1)) := by
  obtain ⟨L, M, -⟩ := H
  unfold ltqsMoves
  refine OkOr_bind (OkB_rd (OkOr_bind (OkB_rd ?_)))
  have ha := L.anti s.h (le_refl _) hh
  split_ifs with c
  · exact OkOr_pure ⟨L, M c, rfl, rfl, rfl, rfl, le_refl _⟩
  refine OkOr_bind ((fullUp_ok _ _).mono ?_)
  rintro up ⟨u1, u2⟩
  refine OkOr_bind ((fullDown_ok _).mono ?_)
  rintro dn ⟨d1, d2⟩
  refine OkOr_bind (freeMoves_ok.mono ?_)
  rintro mj ⟨j1, j2⟩
  refine OkOr_bind (freeMoves_ok.mono ?_)
  rintro mi ⟨i1, i2⟩
  refine OkOr_pure ⟨L, ?_, rfl, rfl, rfl, rfl, ?_⟩
  · intro x y hxy
    simp only [List.cons_append] at hxy ⊢
    refine ⟨fun hx => ?_, fun hx => ?_⟩
    · rcases Nat.eq_zero_or_pos x with rfl | h0
      · rw [List.getElem?_cons_zero] at hxy
        cases hxy
        exact ⟨le_refl _, fun h => absurd rfl h, fun k h1 h2 => by omega⟩
      · obtain ⟨x, rfl⟩ : ∃ z, x = z + 1 := ⟨x - 1, by omega⟩
        rw [List.getElem?_cons_succ, List.getElem?_append_left (by omega)] at hxy
        obtain ⟨a1, a2, a3⟩ := j2 y (List.mem_of_getElem? hxy)
        refine ⟨by omega, fun _ => a3, fun k h1 h2 => ?_⟩
        refine lt_of_le_of_ne (L.le k (by omega)) ?_
        cases up with
        | none => exact u1 rfl k (by omega) (by omega)
        | some z =>
          simp only [] at a1
          exact (u2 z rfl).2 k (by omega) (by omega)
    · obtain ⟨x, rfl⟩ : ∃ z, x = z + 1 := ⟨x - 1, by omega⟩
      rw [List.getElem?_cons_succ, List.getElem?_append_right (by omega)] at hxy
      obtain ⟨a1, a2, a3⟩ := i2 y (List.mem_of_getElem? hxy)
      refine ⟨a2, a3, fun k h1 h2 => ?_⟩
      refine lt_of_le_of_ne (L.le k (by omega)) ?_
      cases dn with
      | none => exact d1 rfl k (by omega)
      | some z =>
        simp only [] at a1
        exact (d2 z rfl).2 k (by omega) (by omega)
  · simp only [List.length_append, List.length_cons]
    omega

/-- what `ltqsNotMoved` does not touch -/
lemma ltqsNotMoved_ok {i : ℕ} {s : LtqsSt} : OkB (ltqsNotMoved n i s) (fun s' => s'.rows = s.rows ∧ s'.cols = s.cols ∧ s'.T = s.T ∧
    s'.availR = s.availR ∧ s'.availC = s.availC ∧ s'.moves = s.moves ∧ s'.startUp = s.startUp ∧ s'.h = s.h ∧ s'.prevH = s.prevH) := by
  unfold ltqsNotMoved
  refine OkOr_bind (addRange_ok.mono fun aN _ => OkOr_bind (addRange_ok.mono fun bN _ => OkOr_bind (OkB_wr (OkOr_pure ?_))))
  exact ⟨rfl, rfl, rfl, rfl, rfl, rfl, rfl, rfl, rfl⟩

/-- the state after a move, before it is accepted -/
structure Moved (s : LtqsSt) (x y : ℕ) (s' : LtqsSt) : Prop where
  hx : s.moves[x]? = some y
  aR : s'.availR = s.availR
  aC : s'.availC = s.availC
  mv : s'.moves = s.moves
  su : s'.startUp = s.startUp
  hh : s'.h = s.h
  pv : s'.prevH = s.prevH
  col : x < s.startUp → s'.rows = s.rows ∧ (∀ l, s'.cols.get l = if l = s.h then y else s.cols.get l) ∧
    ∀ k, s'.T.get k = if s.rows.get s.h + 1 ≤ k ∧ k < s.rows.get s.h + 1 + (s.cols.get s.h - y) then s.T.get k + 1 else s.T.get k
  row : s.startUp ≤ x → s'.cols = s.cols ∧ (∀ l, s'.rows.get l = if l = s.h then y else s.rows.get l) ∧
    ∀ k, s'.T.get k = if y ≤ k ∧ k < y + (s.rows.get s.h - y) then s.T.get k + 1 else s.T.get k

lemma ltqsMove_ok (d : ℕ → ℕ) {s : LtqsSt} : OkB (ltqsMove d n s) (fun m => Moved s m.1 m.2.1 m.2.2) := by
  unfold ltqsMove
  refine OkOr_bind (OkB_rd (OkOr_bind (OkB_rd ?_)))
  refine OkOr_bind ?_
  have : OkB (if 1 < s.moves.length then randInt 0 s.moves.length (d s.c) else pure 0) (fun _ => True) := by
    split_ifs with c
    · exact OkOr.of ((randInt_ok (by omega)).mono fun _ _ => trivial)
    · exact OkOr_pure trivial
  refine this.mono ?_
  intro x _
  simp only []
  cases e : s.moves[x]? with
  | none => exact OkOr_error rfl
  | some y =>
    simp only []
    by_cases c : x < s.startUp
    · rw [if_pos c]
      refine OkOr_bind (OkB_wr ?_)
      refine OkOr_bind (addRange_ok.mono fun T hT => ?_)
      refine OkOr_bind (addRange_ok.mono fun a _ => ?_)
      refine OkOr_bind (ltqsNotMoved_ok.mono ?_)
      rintro s' ⟨e1, e2, e3, e4, e5, e6, e7, e8, e9⟩
      refine OkOr_pure ⟨e, e4, e5, e6, e7, e8, e9, fun h => ?_, fun h => ?_⟩
      · exact ⟨e1, fun l => by rw [e2]; simp only [Function.update_apply], fun k => by rw [e3]; exact hT k⟩
      · simp only [] at h; omega
    · rw [if_neg c]
      refine OkOr_bind (OkB_wr ?_)
      refine OkOr_bind (addRange_ok.mono fun T hT => ?_)
      refine OkOr_bind (addRange_ok.mono fun a _ => ?_)
      refine OkOr_bind (ltqsNotMoved_ok.mono ?_)
      rintro s' ⟨e1, e2, e3, e4, e5, e6, e7, e8, e9⟩
      refine OkOr_pure ⟨e, e4, e5, e6, e7, e8, e9, fun h => ?_, fun h => ?_⟩
      · exact absurd h c
      · exact ⟨e2, fun l => by rw [e1]; simp only [Function.update_apply], fun k => by rw [e3]; exact hT k⟩

lemma ltqsAccept_ok {s : LtqsSt} : OkB (ltqsAccept n t s) (fun _ => True) := by
  unfold ltqsAccept
  refine OkOr_iter (fun _ _ => True) trivial ?_
  intro k acc _ _
  split_ifs with c
  · exact OkOr_pure trivial
  · exact OkOr_bind (OkB_rd (OkOr_bind (OkB_rd (OkOr_bind (OkB_rd (OkOr_bind (OkB_rd (OkOr_bind (OkB_rd (OkOr_bind (OkB_rd (OkOr_pure trivial))))))))))))

lemma ltqsKeep_ok {s0 s : LtqsSt} {x y : ℕ} (L : LtI n r t s0.h s0.rows.get s0.cols.get s0.T.get s0.availR.get s0.availC.get)
    (M : MV t s0.h s0.rows.get s0.cols.get s0.T.get s0.availR.get s0.availC.get s0.moves s0.startUp) (hh : s0.h < r) (m : Moved s0 x y s)
    : OkB (ltqsKeep (s0.rows.get s0.h) (s0.cols.get s0.h) x y s) (fun s' => LtI n r t (s0.h + 1) s'.rows.get s'.cols.get s'.T.get s'.availR.get s'.availC.get ∧
      s'.h = s0.h + 1 ∧ s'.prevH = s0.prevH) := by
  have eh := m.hh
  unfold ltqsKeep
  rw [m.su]
  split_ifs with c c2 c2
  · obtain ⟨a1, a2, a3⟩ := m.col c
    refine OkOr_bind (OkB_wr (OkOr_bind (OkB_wr (OkOr_pure ⟨?_, by simp only [eh], m.pv⟩))))
    simp only [a1, m.aR, m.aC]
    exact L.colMove hh ((M x y m.hx).1 c) a2 a3 (fun j => by rw [if_pos c2]; simp only [Function.update_apply])
  · obtain ⟨a1, a2, a3⟩ := m.col c
    refine OkOr_pure ⟨?_, by simp only [eh], m.pv⟩
    simp only [a1, m.aR, m.aC]
    exact L.colMove hh ((M x y m.hx).1 c) a2 a3 (fun j => by rw [if_neg c2])
  · obtain ⟨a1, a2, a3⟩ := m.row (by omega)
    refine OkOr_bind (OkB_wr (OkOr_bind (OkB_wr (OkOr_pure ⟨?_, by simp only [eh], m.pv⟩))))
    simp only [a1, m.aR, m.aC]
    exact L.rowMove hh ((M x y m.hx).2 (by omega)) a2 a3 (fun j => by simp only [Function.update_apply])
  · have := ((M x y m.hx).2 (by omega)).1
    omega

lemma MV.erase {moves : List ℕ} {su x : ℕ} (M : MV t h p q T aR aC moves su) :
    MV t h p q T aR aC (moves.eraseIdx x) (if x < su then su - 1 else su) := by
  intro z y hz
  rw [List.getElem?_eraseIdx] at hz
  split_ifs at hz with c
  · obtain ⟨a1, a2⟩ := M z y hz
    refine ⟨fun h => a1 ?_, fun h => a2 ?_⟩ <;> split_ifs at h <;> omega
  · obtain ⟨a1, a2⟩ := M (z + 1) y hz
    refine ⟨fun h => a1 ?_, fun h => a2 ?_⟩ <;> split_ifs at h <;> omega

lemma ltqsUndo_ok {s0 s : LtqsSt} {x y : ℕ} (L : LtI n r t s0.h s0.rows.get s0.cols.get s0.T.get s0.availR.get s0.availC.get)
    (M : MV t s0.h s0.rows.get s0.cols.get s0.T.get s0.availR.get s0.availC.get s0.moves s0.startUp) (m : Moved s0 x y s) :
    OkB (ltqsUndo n (s0.rows.get s0.h) (s0.cols.get s0.h) x y s) (fun s' => Hd n r t s' ∧ s'.h = s0.h ∧ s'.prevH = some s0.h ∧
      s'.moves = s0.moves.eraseIdx x) := by
  have eh := m.hh
  have M' := M.erase (x := x)
  unfold ltqsUndo
  rw [m.su]
  split_ifs with c
  · obtain ⟨a1, a2, a3⟩ := m.col c
    rw [if_pos c] at M'
    refine OkOr_bind (OkB_wr ?_)
    refine OkOr_bind (addRange_ok.mono fun T hT => ?_)
    refine OkOr_bind (addRange_ok.mono fun a _ => ?_)
    refine OkOr_bind (ltqsNotMoved_ok.mono ?_)
    rintro s' ⟨e1, e2, e3, e4, e5, e6, e7, e8, e9⟩
    have er : s'.rows = s0.rows := e1.trans a1
    have ec : s'.cols.get = s0.cols.get := by
      rw [e2]
      funext l
      simp only [Function.update_apply, a2, eh]
      split_ifs with z
      · rw [z]
      · rfl
    have eT : s'.T.get = s0.T.get := by
      rw [e3]
      funext k
      simp only [hT, a3]
      split_ifs
      · ring
      · rfl
    have eR : s'.availR = s0.availR := e4.trans m.aR
    have eC : s'.availC = s0.availC := e5.trans m.aC
    have eM : s'.moves = s0.moves.eraseIdx x := by rw [e6, ← m.mv]
    have hh' : s'.h = s0.h := e8.trans eh
    refine OkOr_pure ⟨⟨?_, fun _ => ?_, fun z hz => (by cases hz; exact le_refl _)⟩, hh', by simp only [hh'], eM⟩
    · simp only [er, ec, eT, eR, eC, hh']; exact L
    · simp only [er, ec, eT, eR, eC, hh', eM, e7]; exact M'
  · obtain ⟨a1, a2, a3⟩ := m.row (by omega)
    rw [if_neg c] at M'
    refine OkOr_bind (OkB_wr ?_)
    refine OkOr_bind (addRange_ok.mono fun T hT => ?_)
    refine OkOr_bind (addRange_ok.mono fun a _ => ?_)
    refine OkOr_bind (ltqsNotMoved_ok.mono ?_)
    rintro s' ⟨e1, e2, e3, e4, e5, e6, e7, e8, e9⟩
    have ec : s'.cols = s0.cols := e2.trans a1
    have er : s'.rows.get = s0.rows.get := by
      rw [e1]
      funext l
      simp only [Function.update_apply, a2, eh]
      split_ifs with z
      · rw [z]
      · rfl
    have eT : s'.T.get = s0.T.get := by
      rw [e3]
      funext k
      simp only [hT, a3]
      split_ifs
      · ring
      · rfl
    have eR : s'.availR = s0.availR := e4.trans m.aR
    have eC : s'.availC = s0.availC := e5.trans m.aC
    have eM : s'.moves = s0.moves.eraseIdx x := by rw [e6, ← m.mv]
    have hh' : s'.h = s0.h := e8.trans eh
    refine OkOr_pure ⟨⟨?_, fun _ => ?_, fun z hz => (by cases hz; exact le_refl _)⟩, hh', by simp only [hh'], eM⟩
    · simp only [er, ec, eT, eR, eC, hh']; exact L
    · simp only [er, ec, eT, eR, eC, hh', eM, e7, m.su]; exact M'

lemma mu_ge {s : LtqsSt} (h : s.h < r) : mu n r s = (r - s.h - 1) * n + (if s.prevH = some s.h then s.moves.length else n) := by
  unfold mu
  obtain ⟨z, hz⟩ : ∃ z, r - s.h = z + 1 := ⟨r - s.h - 1, by omega⟩
  rw [hz, Nat.add_sub_cancel, Nat.succ_mul]
  omega

lemma ltqsStep_ok (d : ℕ → ℕ) {s : LtqsSt} (H : Hd n r t s) (hh : s.h < r) :
    OkB (ltqsStep d n t s) (fun s' => Hd n r t s' ∧ (s'.h < r → mu n r s' < mu n r s)) := by
  have hn : 2 ≤ n := by have := H.1.anti s.h (le_refl _) hh; omega
  unfold ltqsStep
  refine OkOr_bind (OkB_rd (OkOr_bind (OkB_rd ?_)))
  refine OkOr_bind ((ltqsMoves_ok H hh).mono ?_)
  rintro s1 ⟨L, M, e1, e2, e3, e5, e4⟩
  refine OkOr_bind ((ltqsMove_ok d).mono ?_)
  rintro ⟨x, y, s2⟩ m
  simp only [] at m
  refine OkOr_bind (ltqsAccept_ok.mono ?_)
  intro ok _
  rw [← e2, ← e3, ← e1]
  have hx : x < s1.moves.length := (List.getElem?_eq_some_iff.1 m.hx).1
  cases ok with
  | true =>
    refine (ltqsKeep_ok L M (by omega) m).mono ?_
    rintro s' ⟨a1, a2, a3⟩
    have hp : ∀ z, s'.prevH = some z → z < s'.h := fun z hz => by
      have := H.2.2 z (by rw [← e5, ← a3, hz])
      omega
    have hne : s'.prevH ≠ some s'.h := fun c => by have := hp _ c; omega
    refine ⟨⟨by rw [a2]; exact a1, fun c => absurd c hne, fun z hz => (hp z hz).le⟩, fun h' => ?_⟩
    rw [mu_ge h', mu_ge hh, if_neg hne, a2, e1]
    obtain ⟨z, hz⟩ : ∃ z, r - s.h - 1 = z + 1 := ⟨r - s.h - 2, by omega⟩
    rw [hz, show r - (s.h + 1) - 1 = z by omega, Nat.succ_mul]
    split_ifs at e4 ⊢ <;> omega
  | false =>
    refine (ltqsUndo_ok L M m).mono ?_
    rintro s' ⟨a1, a2, a3, a4⟩
    refine ⟨a1, fun h' => ?_⟩
    rw [mu_ge h', mu_ge hh, a2, e1, if_pos (by rw [a3, e1]), a4, List.length_eraseIdx_of_lt hx]
    refine Nat.add_lt_add_left ?_ _
    split_ifs at e4 ⊢ <;> omega

lemma ltqsLoop_ok (d : ℕ → ℕ) : ∀ fuel (s : LtqsSt), Hd n r t s → (s.h < r → mu n r s + 1 < fuel) → 0 < fuel →
    OkB (ltqsLoop d n r t fuel s) (fun s' => ∃ h, r ≤ h ∧ LtI n r t h s'.rows.get s'.cols.get s'.T.get s'.availR.get s'.availC.get) := by
  intro fuel
  induction fuel with
  | zero => intro s _ _ h; omega
  | succ fuel ih =>
    intro s H hm _
    unfold ltqsLoop
    split_ifs with c
    · refine OkOr_bind ((ltqsStep_ok d H c).mono ?_)
      rintro s' ⟨a1, a2⟩
      have hm := hm c
      exact ih s' a1 (fun h' => by have := a2 h'; omega) (by omega)
    · exact OkOr_pure ⟨s.h, by omega, H.1⟩

lemma blk_anti (ip : ∀ l < r, ∀ l' < r, p l = p l' → l = l') (e : ∀ l < r, p l + q l + 2 = n) (k : ℕ) :
    blk n r p q k = if ∃ l < r, p l = k then 1 else 0 := by
  unfold blk
  split_ifs with c
  · obtain ⟨l, hl, rfl⟩ := c
    rw [Finset.sum_eq_single l]
    · rw [if_pos]
      have := e l hl
      omega
    · intro l' hl' hne
      have := e l' (mem_range.1 hl')
      have : p l' ≠ p l := fun h => hne (ip l' (mem_range.1 hl') l hl h)
      rw [if_neg (by omega)]
    · intro h; exact absurd (mem_range.2 hl) h
  · refine Finset.sum_eq_zero (fun l hl => ?_)
    have := e l (mem_range.1 hl)
    have : p l ≠ k := fun h => c ⟨l, mem_range.1 hl, h⟩
    rw [if_neg (by omega)]

lemma ltqsInit_ok (d junk : ℕ → ℕ) (jz : ℕ → ℤ) (hr : r < n) (ht : 0 < t) {rows cols : Arr ℕ} (hp : r ≤ rows.len) :
    OkB (ltqsInit d junk jz n r rows cols) (fun s => Hd n r t s ∧ s.h = 0 ∧ s.prevH = none) := by
  unfold ltqsInit
  rw [if_neg (by omega)]
  refine OkOr_bind ((OkOr_iter (fun m (A : Arr ℤ) => ∀ k < m, A.get k = 0) (fun k hk => by omega) ?_).mono ?_)
  · intro m A _ hA
    refine OkB_wr (fun k hk => ?_)
    simp only [Function.update_apply]
    split_ifs
    · rfl
    · exact hA k (by omega)
  intro zero hz
  refine OkOr_bind (OkOr.of ((randomIndexSubset_spec d junk (by omega) hp).mono ?_))
  rintro rows' ⟨-, e, -⟩
  have av := subset_avail d (n - 1) r (by omega)
  have hb : ∀ l < r, rows'.get l < n - 1 := fun l hl => by rw [e l hl]; exact av.bu l hl
  have hi : ∀ l < r, ∀ l' < r, rows'.get l = rows'.get l' → l = l' := fun l hl l' hl' => by rw [e l hl, e l' hl']; exact av.iu l hl l' hl'
  refine OkOr_bind ((OkOr_iter (fun m (s : Arr ℕ × Arr ℤ × Arr Bool × Arr Bool) => (∀ l < m, s.1.get l = n - rows'.get l - 2) ∧
    (∀ k < n - 1, s.2.1.get k = if ∃ l < m, rows'.get l = k then 1 else 0) ∧ (∀ l < m, s.2.2.1.get (rows'.get l) = false) ∧
    ∀ l < m, s.2.2.2.get (n - rows'.get l - 2) = false)
    ⟨fun l hl => by omega, fun k hk => by rw [if_neg (by rintro ⟨l, hl, _⟩; omega)]; exact hz k hk, fun l hl => by omega, fun l hl => by omega⟩ ?_).mono ?_)
  · rintro m ⟨cols, T, aR, aC⟩ hm ⟨h1, h2, h3, h4⟩
    simp only [] at h1 h2 h3 h4 ⊢
    refine OkOr_bind (OkB_rd (OkOr_bind (OkB_wr (OkOr_bind (OkB_wr (OkOr_bind (OkB_wr (OkOr_bind (OkB_wr (OkOr_pure ?_))))))))))
    refine ⟨fun l hl => ?_, fun k hk => ?_, fun l hl => ?_, fun l hl => ?_⟩ <;> simp only [Function.update_apply]
    · split_ifs with c
      · rw [c]
      · exact h1 l (by omega)
    · split_ifs with c1 c2 c2
      · rfl
      · exact absurd ⟨m, by omega, c1.symm⟩ c2
      · rw [h2 k hk, if_pos]
        obtain ⟨l, hl, e⟩ := c2
        rcases Nat.lt_succ_iff_lt_or_eq.1 hl with x | rfl
        · exact ⟨l, x, e⟩
        · exact absurd e.symm c1
      · rw [h2 k hk, if_neg]
        rintro ⟨l, hl, e⟩
        exact c2 ⟨l, by omega, e⟩
    · split_ifs with c
      · rfl
      · rcases Nat.lt_succ_iff_lt_or_eq.1 hl with x | rfl
        · exact h3 l x
        · exact absurd rfl c
    · split_ifs with c
      · rfl
      · rcases Nat.lt_succ_iff_lt_or_eq.1 hl with x | rfl
        · exact h4 l x
        · exact absurd rfl c
  rintro ⟨cols', T, aR, aC⟩ ⟨h1, h2, h3, h4⟩
  simp only [] at h1 h2 h3 h4 ⊢
  refine OkOr_bind (OkB_rd (OkOr_bind (OkB_wr (OkOr_bind (OkB_wr ?_)))))
  refine OkOr_bind ((OkOr_iter (fun _ _ => True) trivial ?_).mono ?_)
  · intro m x _ _
    exact OkOr_bind (OkB_rd (OkOr_bind (OkB_rd (OkOr_bind (OkB_wr (OkOr_bind (OkB_wr (OkOr_pure trivial))))))))
  intro x _
  have anti : ∀ l < r, rows'.get l + cols'.get l + 2 = n := fun l hl => by
    rw [h1 l hl]
    have := hb l hl
    omega
  have cnt : ∀ k, k + 1 < n → T.get k = blk n r rows'.get cols'.get k := fun k hk => by
    rw [h2 k (by omega), blk_anti hi anti]
  refine OkOr_pure ⟨⟨⟨fun l hl => (anti l hl).le, fun l _ hl => anti l hl, hi, fun l hl l' hl' e => ?_, h3, fun l hl => ?_, cnt, fun k hk => ?_⟩,
    fun h => (by cases h), fun z hz => (by cases hz)⟩, rfl, rfl⟩
  · refine hi l hl l' hl' ?_
    have := anti l hl
    have := anti l' hl'
    simp only [] at e
    omega
  · simp only [h1 l hl]; exact h4 l hl
  · simp only [h2 k (by omega)]
    split_ifs <;> omega

theorem randomLTQS_spec (d junk : ℕ → ℕ) (jz : ℕ → ℤ) (hr : r < n) (ht : 0 < t) {rows cols : Arr ℕ} (hp : r ≤ rows.len) :
    OkB (randomLTQSRankProfileMatrix d junk jz n r t rows cols) (fun x => Rook n n r x.1.get x.2.get ∧ (∀ k < r, x.1.get k + x.2.get k + 1 < n) ∧
      ∀ a b, a + b ≤ n → rookCount r x.1.get x.2.get a b ≤ t) := by
  unfold randomLTQSRankProfileMatrix
  refine OkOr_bind ((ltqsInit_ok d junk jz hr ht hp).mono ?_)
  rintro s ⟨H, h0, hv⟩
  refine OkOr_bind ((ltqsLoop_ok d _ s H (fun hh => ?_) (by omega)).mono ?_)
  · rw [mu_ge hh, hv, if_neg (by simp), h0]
    obtain ⟨z, rfl⟩ : ∃ z, r = z + 1 := ⟨r - 1, by omega⟩
    rw [show z + 1 - 0 - 1 = z by omega, Nat.succ_mul]
    omega
  rintro s' ⟨h, -, L⟩
  refine OkOr_pure ⟨⟨fun k hk => ?_, fun k hk => ?_, L.ip, L.iq⟩, fun k hk => ?_, fun a b hab => ?_⟩
  · have := L.left k hk; simp only []; omega
  · have := L.left k hk; simp only []; omega
  · have := L.left k hk; simp only []; omega
  · simp only []
    rcases Nat.eq_zero_or_pos a with rfl | ha
    · simp [rookCount]
    rcases Nat.eq_zero_or_pos b with rfl | hb
    · simp [rookCount]
    have h1 := L.le (a - 1) (by omega)
    rw [L.cnt (a - 1) (by omega)] at h1
    have : (rookCount r s'.rows.get s'.cols.get a b : ℤ) ≤ blk n r s'.rows.get s'.cols.get (a - 1) := by
      unfold rookCount blk
      rw [Finset.card_filter, Nat.cast_sum]
      refine Finset.sum_le_sum (fun l _ => ?_)
      split_ifs with c c'
      · simp
      · omega
      · simp
      · simp
    omega

end Verif.RandRook
