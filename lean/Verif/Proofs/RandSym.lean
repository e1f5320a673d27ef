import Verif.Proofs.RandRook

/-!
# Random symmetric rank profile matrices
-/

namespace Verif.RandRook

open Verif.FF Verif.Spec

variable {N R k : ℕ} {p q : ℕ → ℕ} {a b : ℕ → ℕ}

lemma swapFind_ok {P : Arr ℕ} {val : ℕ} : ∀ (fuel i m : ℕ), i ≤ m → m < P.len → P.get m = val → m < i + fuel →
    Ok (swapFind P val fuel i) (fun f => i ≤ f ∧ f ≤ m ∧ P.get f = val) := by
  intro fuel
  induction fuel with
  | zero => intro i m h1 h2 h3 h4; omega
  | succ fuel ih =>
    intro i m h1 h2 h3 h4
    unfold swapFind
    rw [Ok_bind, Ok_rd]
    refine ⟨by omega, ?_⟩
    split_ifs with c
    · rw [Ok_pure]; exact ⟨le_refl _, h1, c⟩
    · refine (ih (i + 1) m ?_ h2 h3 (by omega)).mono (fun f hf => ⟨by omega, hf.2⟩)
      rcases Nat.lt_or_ge i m with x | x
      · omega
      · have : i = m := by omega
        rw [this] at c; exact absurd h3 c

lemma swapval_ok {P : Arr ℕ} {k m val : ℕ} (h1 : k ≤ m) (h2 : m < P.len) (h3 : P.get m = val) :
    Ok (swapval k P val) (fun P' => P'.len = P.len ∧ ∃ f, k ≤ f ∧ f < P.len ∧ P.get f = val ∧ ∀ l, P'.get l = if l = f then P.get k else P.get l) := by
  unfold swapval
  rw [Ok_bind]
  refine (swapFind_ok _ k m h1 h2 h3 (by omega)).mono ?_
  rintro f ⟨f1, f2, f3⟩
  rw [Ok_bind, Ok_rd]
  refine ⟨by omega, ?_⟩
  rw [Ok_wr]
  exact ⟨by omega, rfl, f, f1, by omega, f3, fun l => by simp only [Function.update_apply]⟩

/-- the search for the row `co` -/
lemma found_ok {rr : Arr ℕ} {co : ℕ} (hl : rr.len = N) (hk : k ≤ N) :
    Ok (iter (N - k) (fun t (f : Option ℕ) => do
      let x ← rr.rd (k + t)
      pure (if x = co then some (k + t) else f)) none)
    (fun o => (∀ m, o = some m → k ≤ m ∧ m < N ∧ rr.get m = co) ∧ (o = none → ∀ m, k ≤ m → m < N → rr.get m ≠ co)) := by
  refine (Ok_iter (fun n (o : Option ℕ) => (∀ m, o = some m → k ≤ m ∧ m < N ∧ rr.get m = co) ∧ (o = none → ∀ m, k ≤ m → m < k + n → rr.get m ≠ co))
    ⟨fun m h => (by cases h), fun _ m h1 h2 => by omega⟩ ?_).mono ?_
  · rintro n o hn ⟨h1, h2⟩
    rw [Ok_bind, Ok_rd]
    refine ⟨by omega, ?_⟩
    rw [Ok_pure]
    split_ifs with c
    · refine ⟨fun m hm => ?_, fun h => by cases h⟩
      cases hm
      exact ⟨by omega, by omega, c⟩
    · refine ⟨h1, fun ho m hm hm' => ?_⟩
      rcases Nat.lt_or_ge m (k + n) with x | x
      · exact h2 ho m hm x
      · rw [show m = k + n by omega]; exact c
  · rintro o ⟨h1, h2⟩
    exact ⟨h1, fun ho m hm hm' => h2 ho m hm (by omega)⟩

/-- the draws of the diagonal pivot; if every column left has its row left, the first draw is good -/
lemma diagPick_ok (d : ℕ → ℕ) {rr cc : Arr ℕ} (hk : k < N) (h1 : rr.len = N) (h2 : cc.len = N) : ∀ fuel c,
    OkOr (fun f => f = .fuel) (diagPick d N k rr cc fuel c)
      (fun x => k ≤ x.1 ∧ x.1 < N ∧ x.2.1 = cc.get x.1 ∧ k ≤ x.2.2.1 ∧ x.2.2.1 < N ∧ rr.get x.2.2.1 = x.2.1) := by
  intro fuel
  induction fuel with
  | zero => intro c; exact OkOr_error rfl
  | succ fuel ih =>
    intro c
    unfold diagPick
    refine OkOr_bind (OkOr.of ((randInt_ok hk).mono ?_))
    rintro l ⟨-, l1, l2⟩
    refine OkOr_bind (OkOr.of ?_)
    rw [Ok_rd]
    refine ⟨by omega, ?_⟩
    refine OkOr_bind (OkOr.of ((found_ok h1 (by omega)).mono ?_))
    rintro o ⟨o1, o2⟩
    cases o with
    | none => exact ih _
    | some m =>
      obtain ⟨a1, a2, a3⟩ := o1 m rfl
      exact OkOr_pure ⟨l1, l2, rfl, a1, a2, a3⟩

lemma diagPick_ok' (d : ℕ → ℕ) {rr cc : Arr ℕ} (hk : k < N) (h1 : rr.len = N) (h2 : cc.len = N)
    (hall : ∀ l, k ≤ l → l < N → ∃ m, k ≤ m ∧ m < N ∧ rr.get m = cc.get l) (fuel c : ℕ) :
    Ok (diagPick d N k rr cc (fuel + 1) c)
      (fun x => k ≤ x.1 ∧ x.1 < N ∧ x.2.1 = cc.get x.1 ∧ k ≤ x.2.2.1 ∧ x.2.2.1 < N ∧ rr.get x.2.2.1 = x.2.1) := by
  unfold diagPick
  rw [Ok_bind]
  refine (randInt_ok hk).mono ?_
  rintro l ⟨-, l1, l2⟩
  rw [Ok_bind, Ok_rd]
  refine ⟨by omega, ?_⟩
  rw [Ok_bind]
  refine (found_ok h1 (by omega)).mono ?_
  rintro o ⟨o1, o2⟩
  cases o with
  | none =>
    obtain ⟨m, m1, m2, m3⟩ := hall l l1 l2
    exact absurd m3 (o2 rfl m m1 m2)
  | some m =>
    obtain ⟨a1, a2, a3⟩ := o1 m rfl
    exact (Ok_pure _ _).2 ⟨l1, l2, rfl, a1, a2, a3⟩

/-- a column left has its row left -/
lemma Avail.both (ha : Avail N k a p) (hb : Avail N k b q) (hs : SymRook k p q) {v : ℕ} (h : ∃ l, k ≤ l ∧ l < N ∧ b l = v) :
    ∃ m, k ≤ m ∧ m < N ∧ a m = v := by
  obtain ⟨l, l1, l2, rfl⟩ := h
  rcases ha.cov (b l) (hb.ba l l1 l2) with ⟨x, hx, e⟩ | h
  · obtain ⟨y, hy, _, e2⟩ := hs x hx
    exact absurd (e2.trans e) (hb.dis y hy l l1 l2)
  · exact h

lemma _root_.Verif.Spec.SymRook.symm (h : SymRook k p q) : SymRook k q p := fun x hx => by
  obtain ⟨y, hy, e1, e2⟩ := h x hx
  exact ⟨y, hy, e2, e1⟩

lemma _root_.Verif.Spec.SymRook.congr (h : SymRook k p q) {p' q' : ℕ → ℕ} (ep : ∀ l < k, p' l = p l) (eq : ∀ l < k, q' l = q l) : SymRook k p' q' := fun x hx => by
  obtain ⟨y, hy, e1, e2⟩ := h x hx
  exact ⟨y, hy, by rw [ep y hy, eq x hx, e1], by rw [eq y hy, ep x hx, e2]⟩

/-- one more pivot on the diagonal -/
lemma _root_.Verif.Spec.SymRook.diag (h : SymRook k p q) {p' q' : ℕ → ℕ} (ep : ∀ l < k, p' l = p l) (eq : ∀ l < k, q' l = q l) (e : p' k = q' k) : SymRook (k + 1) p' q' := fun x hx => by
  rcases Nat.lt_succ_iff_lt_or_eq.1 hx with c | rfl
  · obtain ⟨y, hy, e1, e2⟩ := h.congr ep eq x c
    exact ⟨y, by omega, e1, e2⟩
  · exact ⟨x, by omega, e, e.symm⟩

/-- two more pivots off the diagonal -/
lemma _root_.Verif.Spec.SymRook.pair (h : SymRook k p q) {p' q' : ℕ → ℕ} (ep : ∀ l < k, p' l = p l) (eq : ∀ l < k, q' l = q l) (e1 : p' (k + 1) = q' k)
    (e2 : q' (k + 1) = p' k) : SymRook (k + 2) p' q' := fun x hx => by
  rcases Nat.lt_or_ge x k with c | c
  · obtain ⟨y, hy, e1, e2⟩ := h.congr ep eq x c
    exact ⟨y, by omega, e1, e2⟩
  · rcases (show x = k ∨ x = k + 1 by omega) with rfl | rfl
    · exact ⟨x + 1, by omega, e1, e2⟩
    · exact ⟨k, by omega, e2.symm, e1.symm⟩

/-- the state after `k` pivots -/
structure Sy (N R k : ℕ) (s : SymSt) : Prop where
  lr : s.rr.len = N
  lc : s.cc.len = N
  lp : R ≤ s.rows.len
  lq : R ≤ s.cols.len
  ar : Avail N k s.rr.get s.rows.get
  ac : Avail N k s.cc.get s.cols.get
  sym : SymRook k s.rows.get s.cols.get

lemma Avail.rook (h1 : Avail N k a p) (h2 : Avail N k b q) : Rook N N k p q := ⟨h1.bu, h2.bu, h1.iu, h2.iu⟩

/-- the state after a full iteration, or the result after the last one -/
def SyOr (N R k : ℕ) (s : SymSt) : Prop := (k ≤ R ∧ Sy N R k s) ∨ (R < k ∧ Rook N N R s.rows.get s.cols.get ∧ SymRook R s.rows.get s.cols.get)

/-- one more element, whatever becomes of the others -/
lemma inj_snoc {u u' : ℕ → ℕ} (hi : ∀ l < k, ∀ l' < k, u l = u l' → l = l') (e : ∀ l < k, u' l = u l) (hn : ∀ l < k, u l ≠ u' k) :
    ∀ l < k + 1, ∀ l' < k + 1, u' l = u' l' → l = l' := by
  intro l hl l' hl' h
  rcases Nat.lt_succ_iff_lt_or_eq.1 hl with c | rfl <;> rcases Nat.lt_succ_iff_lt_or_eq.1 hl' with c' | rfl
  · rw [e l c, e l' c'] at h; exact hi l c l' c' h
  · rw [e l c] at h; exact absurd h (hn l c)
  · rw [e l' c'] at h; exact absurd h.symm (hn l' c')
  · rfl

lemma symStep_ok (d : ℕ → ℕ) {fuel : ℕ} (hRN : R ≤ N) {s : SymSt} (h : Sy N R k s) (hk : k < R) :
    OkOr (fun f => f = .fuel ∧ (k + 1 < R → fuel = 0)) (symStep d N R fuel k s) (SyOr N R (k + 2)) := by
  obtain ⟨rr, cc, rows, cols, c⟩ := s
  obtain ⟨lr, lc, lp, lq, ar, ac, sym⟩ := h
  simp only [] at lr lc lp lq ar ac sym
  unfold symStep
  simp only []
  refine OkOr_bind (OkOr.of ((randInt_ok (by omega)).mono ?_))
  rintro i ⟨-, i1, i2⟩
  refine OkOr_bind (OkOr.of ((randInt_ok (by omega)).mono ?_))
  rintro j ⟨-, j1, j2⟩
  refine OkOr_bind (OkOr.of ((Ok_rd _ _ _).2 ⟨by omega, ?_⟩))
  refine OkOr_bind (OkOr.of ((Ok_wr _ _ _ _).2 ⟨by omega, ?_⟩))
  refine OkOr_bind (OkOr.of ((Ok_rd _ _ _).2 ⟨by omega, ?_⟩))
  refine OkOr_bind (OkOr.of ((Ok_wr _ _ _ _).2 ⟨by omega, ?_⟩))
  refine OkOr_bind (OkOr.of ((Ok_rd _ _ _).2 ⟨by omega, ?_⟩))
  refine OkOr_bind (OkOr.of ((Ok_wr _ _ _ _).2 ⟨by omega, ?_⟩))
  refine OkOr_bind (OkOr.of ((Ok_rd _ _ _).2 ⟨by omega, ?_⟩))
  refine OkOr_bind (OkOr.of ((Ok_wr _ _ _ _).2 ⟨by omega, ?_⟩))
  refine OkOr_bind (OkOr.of ((Ok_rd _ _ _).2 ⟨by simp only []; omega, ?_⟩))
  refine OkOr_bind (OkOr.of ((Ok_rd _ _ _).2 ⟨by simp only []; omega, ?_⟩))
  have ar1 := ar.take (used' := Function.update rows.get k (rr.get i)) i1 i2 (fun l => by rw [← Function.update_apply]) (fun l hl => Function.update_of_ne (by omega) _ _)
    (Function.update_self _ _ _)
  have ac1 := ac.take (used' := Function.update cols.get k (cc.get j)) j1 j2 (fun l => by rw [← Function.update_apply]) (fun l hl => Function.update_of_ne (by omega) _ _)
    (Function.update_self _ _ _)
  have er : ∀ l, (if l = i then rr.get k else rr.get l) = Function.update rr.get i (rr.get k) l := fun l => by rw [Function.update_apply]
  have ec : ∀ l, (if l = j then cc.get k else cc.get l) = Function.update cc.get j (cc.get k) l := fun l => by rw [Function.update_apply]
  have ip := ar.iu
  have iq := ac.iu
  generalize hrr : Function.update rr.get i (rr.get k) = a at *
  generalize hcc : Function.update cc.get j (cc.get k) = b at *
  simp only [Function.update_self]
  generalize hx : rr.get i = x at *
  generalize hy : cc.get j = y at *
  by_cases hc : x ≠ y ∧ k + 1 < R
  · rw [if_pos hc]
    refine OkOr_bind (OkOr.of ((Ok_wr _ _ _ _).2 ⟨by simp only []; omega, ?_⟩))
    refine OkOr_bind (OkOr.of ((Ok_wr _ _ _ _).2 ⟨by simp only []; omega, ?_⟩))
    -- column `y` still has its row
    obtain ⟨m, m1, m2, m3⟩ : ∃ m, k + 1 ≤ m ∧ m < N ∧ a m = y := by
      rcases ar1.cov y (by rw [← hy]; exact ac.ba j j1 j2) with ⟨l, hl, e⟩ | h
      · exfalso
        rcases Nat.lt_succ_iff_lt_or_eq.1 hl with c | rfl
        · rw [Function.update_of_ne (by omega)] at e
          obtain ⟨l', hl', _, e2⟩ := sym l c
          exact ac.dis l' hl' j j1 j2 (by rw [e2, e, hy])
        · rw [Function.update_self] at e; exact hc.1 e
      · exact h
    obtain ⟨m', m1', m2', m3'⟩ : ∃ m, k + 1 ≤ m ∧ m < N ∧ b m = x := by
      rcases ac1.cov x (by rw [← hx]; exact ar.ba i i1 i2) with ⟨l, hl, e⟩ | h
      · exfalso
        rcases Nat.lt_succ_iff_lt_or_eq.1 hl with c | rfl
        · rw [Function.update_of_ne (by omega)] at e
          obtain ⟨l', hl', e2, _⟩ := sym l c
          exact ar.dis l' hl' i i1 i2 (by rw [e2, e, hx])
        · rw [Function.update_self] at e; exact hc.1 e.symm
      · exact h
    refine OkOr_bind (OkOr.of ((swapval_ok (m := m) m1 (by simp only []; omega) m3).mono ?_))
    rintro A ⟨A1, f, f1, f2, f3, f4⟩
    refine OkOr_bind (OkOr.of ((swapval_ok (m := m') m1' (by simp only []; omega) m3').mono ?_))
    rintro B ⟨B1, g, g1, g2, g3, g4⟩
    simp only [] at A1 f2 f3 f4 B1 g2 g3 g4
    refine OkOr_pure (Or.inl ⟨by omega, by simp only []; omega, by simp only []; omega, by simp only []; omega, by simp only []; omega, ?_, ?_, ?_⟩)
    · exact ar1.take f1 (by omega) f4 (fun l hl => Function.update_of_ne (by omega) _ _) (by simp only [Function.update_self, f3])
    · exact ac1.take g1 (by omega) g4 (fun l hl => Function.update_of_ne (by omega) _ _) (by simp only [Function.update_self, g3])
    · refine sym.pair (fun l hl => ?_) (fun l hl => ?_) ?_ ?_ <;> simp only [Function.update_apply]
      · rw [if_neg (by omega), if_neg (by omega)]
      · rw [if_neg (by omega), if_neg (by omega)]
      · simp
      · simp
  · rw [if_neg hc]
    by_cases hk1 : k + 1 < R
    · simp only [if_pos hk1]
      have hxy : x = y := by
        by_contra hne
        exact hc ⟨hne, hk1⟩
      subst hxy
      have sym1 : SymRook (k + 1) (Function.update rows.get k x) (Function.update cols.get k x) :=
        sym.diag (fun l hl => Function.update_of_ne (by omega) _ _) (fun l hl => Function.update_of_ne (by omega) _ _) (by rw [Function.update_self, Function.update_self])
      rcases Nat.eq_zero_or_pos fuel with rfl | hf
      · exact OkOr_bind (OkOr_error ⟨rfl, fun _ => rfl⟩)
      obtain ⟨fuel, rfl⟩ : ∃ f, fuel = f + 1 := ⟨fuel - 1, by omega⟩
      refine OkOr_bind (OkOr.of ((diagPick_ok' (k := k + 1) (N := N) d (rr := ⟨rr.len, a⟩) (cc := ⟨cc.len, b⟩) (by omega) lr lc (fun l h1 h2 => ar1.both ac1 sym1 ⟨l, h1, h2, rfl⟩) _ _).mono ?_))
      rintro ⟨l, co, m, c'⟩ ⟨l1, l2, l3, m1, m2, m3⟩
      simp only [] at l1 l2 l3 m1 m2 m3
      refine OkOr_bind (OkOr.of ((Ok_wr _ _ _ _).2 ⟨by simp only []; omega, ?_⟩))
      refine OkOr_bind (OkOr.of ((Ok_rd _ _ _).2 ⟨by simp only []; omega, ?_⟩))
      refine OkOr_bind (OkOr.of ((Ok_wr _ _ _ _).2 ⟨by simp only []; omega, ?_⟩))
      refine OkOr_bind (OkOr.of ((Ok_wr _ _ _ _).2 ⟨by simp only []; omega, ?_⟩))
      refine OkOr_bind (OkOr.of ((Ok_rd _ _ _).2 ⟨by simp only []; omega, ?_⟩))
      refine OkOr_bind (OkOr.of ((Ok_wr _ _ _ _).2 ⟨by simp only []; omega, ?_⟩))
      refine OkOr_pure (Or.inl ⟨by omega, lr, lc, lp, lq, ?_, ?_, ?_⟩)
      · exact ar1.take m1 m2 (fun l => by simp only [Function.update_apply]) (fun l hl => Function.update_of_ne (by omega) _ _) (by simp only [Function.update_self, m3])
      · exact ac1.take l1 l2 (fun l => by simp only [Function.update_apply]) (fun l hl => Function.update_of_ne (by omega) _ _) (by simp only [Function.update_self, l3])
      · refine sym1.diag (fun l hl => ?_) (fun l hl => ?_) ?_
        · exact Function.update_of_ne (by omega) _ _
        · exact Function.update_of_ne (by omega) _ _
        · simp only [Function.update_self]
    · simp only [if_neg hk1]
      refine OkOr_bind ?_
      have hd := diagPick_ok (k := k) (N := N) d (rr := ⟨rr.len, a⟩) (cc := ⟨cc.len, b⟩) (by omega) lr lc fuel (c + 2)
      rcases hd with ⟨⟨l, co, m, c'⟩, e, l1, l2, l3, m1, m2, m3⟩ | ⟨f, e, rfl⟩
      swap
      · exact Or.inr ⟨_, e, rfl, fun h => absurd h hk1⟩
      refine Or.inl ⟨_, e, ?_⟩
      simp only [] at l1 l2 l3 m1 m2 m3
      refine OkOr_bind (OkOr.of ((Ok_wr _ _ _ _).2 ⟨by simp only []; omega, ?_⟩))
      refine OkOr_bind (OkOr.of ((Ok_rd _ _ _).2 ⟨by simp only []; omega, ?_⟩))
      refine OkOr_bind (OkOr.of ((Ok_wr _ _ _ _).2 ⟨by simp only []; omega, ?_⟩))
      refine OkOr_bind (OkOr.of ((Ok_wr _ _ _ _).2 ⟨by simp only []; omega, ?_⟩))
      refine OkOr_bind (OkOr.of ((Ok_rd _ _ _).2 ⟨by simp only []; omega, ?_⟩))
      refine OkOr_bind (OkOr.of ((Ok_wr _ _ _ _).2 ⟨by simp only []; omega, ?_⟩))
      refine OkOr_pure (Or.inr ⟨by omega, ?_⟩)
      simp only []
      -- `co` is one of the rows and columns that were left at the start
      have cr : ∃ z, k ≤ z ∧ z < N ∧ rr.get z = co := by
        rw [← m3, ← hrr, Function.update_apply]
        split_ifs with z
        · exact ⟨k, le_refl _, by omega, rfl⟩
        · exact ⟨m, m1, m2, rfl⟩
      have cq : ∃ z, k ≤ z ∧ z < N ∧ cc.get z = co := by
        rw [l3, ← hcc, Function.update_apply]
        split_ifs with z
        · exact ⟨k, le_refl _, by omega, rfl⟩
        · exact ⟨l, l1, l2, rfl⟩
      obtain ⟨z, z1, z2, z3⟩ := cr
      obtain ⟨w, w1, w2, w3⟩ := cq
      have hRk : R = k + 1 := by omega
      have ep : ∀ l < k, Function.update (Function.update rows.get k x) k co l = rows.get l := fun l hl => by
        rw [Function.update_of_ne (by omega), Function.update_of_ne (by omega)]
      have eq : ∀ l < k, Function.update (Function.update cols.get k y) k co l = cols.get l := fun l hl => by
        rw [Function.update_of_ne (by omega), Function.update_of_ne (by omega)]
      rw [hRk]
      refine ⟨⟨fun l hl => ?_, fun l hl => ?_, inj_snoc ip ep (fun l hl => ?_), inj_snoc iq eq (fun l hl => ?_)⟩, sym.diag ep eq ?_⟩
      · rcases Nat.lt_succ_iff_lt_or_eq.1 hl with c | rfl
        · rw [ep l c]; exact ar.bu l c
        · rw [Function.update_self, ← z3]; exact ar.ba z z1 z2
      · rcases Nat.lt_succ_iff_lt_or_eq.1 hl with c | rfl
        · rw [eq l c]; exact ac.bu l c
        · rw [Function.update_self, ← w3]; exact ac.ba w w1 w2
      · rw [Function.update_self, ← z3]; exact ar.dis l hl z z1 z2
      · rw [Function.update_self, ← w3]; exact ac.dis l hl w w1 w2
      · rw [Function.update_self, Function.update_self]

theorem randomSymmetric_spec (d junk junk' : ℕ → ℕ) {fuel : ℕ} (hRN : R ≤ N) {rows cols : Arr ℕ} (hp : R ≤ rows.len) (hq : R ≤ cols.len) :
    OkOr (fun f => f = .fuel ∧ (R % 2 = 0 → fuel = 0)) (randomSymmetricRankProfileMatrix d junk junk' fuel N R rows cols)
      (fun x => Rook N N R x.1.get x.2.get ∧ SymRook R x.1.get x.2.get) := by
  unfold randomSymmetricRankProfileMatrix
  refine OkOr_bind (OkOr.of ((fillId N junk).mono ?_))
  rintro rr ⟨r1, r2⟩
  refine OkOr_bind (OkOr.of ((fillId N junk').mono ?_))
  rintro cc ⟨c1, c2⟩
  refine OkOr_bind ((OkOr_iter (fun t s => SyOr N R (2 * t) s) (Or.inl ⟨by omega, r1, c1, hp, hq, Avail.start N _ r2, Avail.start N _ c2, fun k hk => by omega⟩) ?_).mono ?_)
  · rintro t s ht (⟨h1, h⟩ | ⟨h1, _⟩)
    · rcases symStep_ok d (fuel := fuel) hRN h (by omega) with ⟨s', e, h'⟩ | ⟨f, e, rfl, hf⟩
      · exact Or.inl ⟨s', e, by rw [show 2 * (t + 1) = 2 * t + 2 by ring]; exact h'⟩
      · exact Or.inr ⟨_, e, rfl, fun hR => hf (by omega)⟩
    · omega
  · rintro s (⟨h1, h⟩ | ⟨h1, h2, h3⟩)
    · have e : 2 * ((R + 1) / 2) = R := by omega
      rw [e] at h
      exact OkOr_pure ⟨h.ar.rook h.ac, h.sym⟩
    · exact OkOr_pure ⟨h2, h3⟩

end Verif.RandRook
