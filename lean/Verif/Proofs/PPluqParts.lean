import Verif.Proofs.PPluqSeq

/-!
# The parallel parts of the PLUQ decomposition
-/

namespace Verif.ParV
open Verif.FF Verif.Par Verif.Perm Finset Verif.Spec Verif.Spec.Perm Verif.Pluq

section
variable {K ν : Type}

/-- tasks on windows of a matrix and of temporaries -/
lemma wp_parW {n : ℕ} {ts : Fin n → VProc K ν} {k : (Fin n → ν) → VProc K ν} {Wh T : ℕ → Prop} {v : ℕ → K} {Q : ν → (ℕ → K) → Prop}
    (w : Fin n → Win) (rd : Fin n → ℕ → Prop) (post : Fin n → ν → (ℕ → ℕ → K) → Prop)
    (hw : ∀ j x, (w j).Has x → Wh x ∨ T x) (hr : ∀ j x, rd j x → Wh x ∨ T x) (hd : ∀ j l x, j ≠ l → (w j).Has x ∨ rd j x → ¬ (w l).Has x)
    (ht : ∀ j, wp (ts j) (w j).Has (rd j) (fun _ => False) v (fun x v' => ∃ Y, post j x Y ∧ Vals (w j) Y v'))
    (hk : ∀ (x : Fin n → ν) (v' : ℕ → K) (Y : Fin n → ℕ → ℕ → K), (∀ j, post j (x j) (Y j)) → (∀ j, Vals (w j) (Y j) v') →
      (∀ i, Wh i ∨ T i → (∀ j, ¬ (w j).Has i) → v' i = v i) → wp (k x) Wh (fun _ => False) T v' Q) : wp (.par n ts k) Wh (fun _ => False) T v Q := by
  refine ⟨T, fun j => (w j).Has, rd, fun _ _ => False, fun j x v' => ∃ Y, post j x Y ∧ Vals (w j) Y v', fun _ h => h, fun _ _ h => h.elim, hw,
    fun j i h => (hr j i h).imp id Or.inr, fun j l i e => ⟨fun h => hd j l i e (Or.inl h.1) h.2, fun h => hd j l i e (Or.inr h.1) h.2, fun h => h.1⟩,
    fun j x v1 v2 e => ?_, ht, ?_⟩
  · rintro ⟨Y, h1, h2⟩
    exact ⟨Y, h1, fun a ha b hb => by rw [e _ (Or.inl (Win.Has_adr ha hb))]; exact h2 a ha b hb⟩
  · intro x v' hf hq
    choose Y h1 h2 using hq
    exact hk x v' Y h1 h2 (fun i hi => hf i (hi.imp id Or.inr))

lemma fit_iff {n : ℕ} {W : Win} {J : Fin n → Job K ν} : Fit W J ↔ (∀ j, (J j).out.Ins W) ∧ (∀ j, ∀ r ∈ (J j).rd, r.Ins W) ∧
    ∀ j l, j ≠ l → (J j).out.Apart (J l).out ∧ ∀ r ∈ (J j).rd, r.Apart (J l).out :=
  ⟨fun h => ⟨h.out, h.rd, h.apart⟩, fun h => ⟨h.1, h.2.1, h.2.2⟩⟩

lemma tw_blk {p w h x : ℕ} (hx : (Win.mk p w h w).Has x) : blkAt p (h * w) x := by
  obtain ⟨i, hi, j, hj, rfl⟩ := hx
  have hi : i < h := hi
  have hj : j < w := hj
  have : (i + 1) * w ≤ h * w := Nat.mul_le_mul_right _ hi
  rw [Nat.add_mul, one_mul] at this
  simp only [Win.adr, blkAt]; omega
end

variable {K : Type} [Field K] [DecidableEq K]
variable {W : Win} {v : ℕ → K} {V : ℕ → ℕ → K} {i0 j0 r c A B : ℕ}

/-- solve with the lower factor, given by addresses -/
lemma tkL_wp {d : Diag} (t : ℕ) {lda ldb : ℕ} {f x : ℕ → ℕ → K} (hf : ∀ i < r, ∀ j < r, v (A + i * lda + j) = f i j)
    (hx : ∀ i < r, ∀ j < c, v (B + i * ldb + j) = x i j) (hA : r ≤ lda) (hB : c ≤ ldb)
    (hs : ∀ a, (Win.mk A lda r r).Has a → ¬ (Win.mk B ldb r c).Has a) (hd : ∀ i < r, f i i ≠ 0) :
    wp (tkL d t r c A lda B ldb) (Win.mk B ldb r c).Has (Win.mk A lda r r).Has (fun _ => False) v
      (fun _ v' => ∃ Y, (∀ i < r, ∀ j < c, ∑ k ∈ range r, luL d f i k * Y k j = x i j) ∧ Vals ⟨B, ldb, r, c⟩ Y v') := by
  have tc : ∀ a, triCells .lower (otherDiag d) r A lda a → (Win.mk A lda r r).Has a := fun a ⟨i, hi, j, hj, _, e⟩ => ⟨i, hi, j, hj, e⟩
  obtain ⟨X, h1, h2⟩ := pftrsm_ok (v := v) (side := .left) (u := .lower) (ta := .no) (d := otherDiag d) (p := .Threads) (t := t) (M := r) (N := c)
    (A := A) (lda := lda) (B := B) (ldb := ldb) 1 (fun e => by cases e) hB hA (fun a ha => hs a (tc a ha))
    (fun _ i hi' => by simp only [Spec.sideDim] at hi'; rw [hf i hi' i hi']; exact hd i hi')
  refine wp_tk (post := fun _ Y => ∀ i < r, ∀ j < c, ∑ k ∈ range r, luL d f i k * Y k j = x i j) h1 tc (fun _ i hi' j hj => ?_)
  rw [← hx i hi' j hj, ← one_mul (v _), ← h2 i hi' j hj]
  simp only [Spec.sideMul, Spec.mul, Spec.op, Spec.sideDim, triV, luL_eq]
  refine sum_congr rfl (fun k hk => ?_)
  rw [luL_congr (V := f) (V' := fun i j => v (A + i * lda + j)) (fun _ => (hf i hi' k (mem_range.1 hk)).symm)]

/-- subtraction of a product, given by addresses -/
lemma tkGemm_wp (gthr nt : ℕ) {k A1 A2 l1 l2 l3 : ℕ} {x y z : ℕ → ℕ → K}
    (hx : ∀ i < r, ∀ j < k, v (A1 + i * l1 + j) = x i j) (hy : ∀ i < k, ∀ j < c, v (A2 + i * l2 + j) = y i j)
    (hz : ∀ i < r, ∀ j < c, v (B + i * l3 + j) = z i j) (e1 : k ≤ l1) (e2 : c ≤ l2) (e3 : c ≤ l3)
    (s1 : ∀ a, (Win.mk A1 l1 r k).Has a → ¬ (Win.mk B l3 r c).Has a) (s2 : ∀ a, (Win.mk A2 l2 k c).Has a → ¬ (Win.mk B l3 r c).Has a) :
    wp (tkGemm gthr nt r c k A1 l1 A2 l2 B l3) (Win.mk B l3 r c).Has (fun a => (Win.mk A1 l1 r k).Has a ∨ (Win.mk A2 l2 k c).Has a) (fun _ => False) v
      (fun _ v' => ∃ Y, (∀ i < r, ∀ j < c, Y i j = z i j - ∑ l ∈ range k, x i l * y l j) ∧ Vals ⟨B, l3, r, c⟩ Y v') := by
  have hp : (Call.mk .no .no r c k (-1 : K) A1 l1 A2 l2 1 B l3).Pre := ⟨e1, e2, e3, fun a ha => ha.elim (s1 a) (s2 a)⟩
  refine wp_tk (post := fun _ Y => ∀ i < r, ∀ j < c, Y i j = z i j - ∑ l ∈ range k, x i l * y l j)
    ((pfgemm2DA_ok seqGemm_ok (Nat.lt_succ_self nt)).task (v := v) hp (fun _ h => h)) (fun _ h => h) (fun _ i hi' j hj => ?_)
  simp only [Call.val, Call.dot, opAdr, Call.win, Win.adr, Nat.zero_add]
  rw [hz i hi' j hj, one_mul, neg_one_mul, ← sub_eq_neg_add]
  congr 1
  refine sum_congr rfl (fun l hl => ?_)
  have hl := mem_range.1 hl
  rw [hx i hi' l hl, hy l hl j hj]

/-- a recursive call as a task -/
lemma does_rec {rec : PPluqFn K} {d : Diag} {bound : ℕ} (hrec : PRecOk rec d W.ld bound) (h : Vals W V v) (hl : W.c ≤ W.ld) (jk : List ℕ → ℕ → ℕ) (nt : ℕ)
    (j1 j2 : ℕ → ℕ) (i0 j0 : ℕ) {x : ℕ → ℕ → K} (f : At V i0 j0 r c x) (hA : A = W.adr i0 j0) (hr : i0 + r ≤ W.r) (hc : j0 + c ≤ W.c) (hb : r + c < bound) :
    Does W v (rec jk nt d r c A (Arr.mk' r j1) (Arr.mk' c j2)) ⟨⟨i0, j0, r, c⟩, [], fun y Y =>
      y.2.1.len = r ∧ y.2.2.len = c ∧ (∀ i < r, y.2.1.get i < r) ∧ (∀ j < c, y.2.2.get j < c) ∧
      Fac0 d r c x Y (ofSwaps y.2.1.get r) (ofSwaps y.2.2.get c) y.1⟩ := by
  subst hA
  refine wp_monoR _ (fun _ h => h.elim) (wp_monoQ _ ?_ (hrec jk nt (W.sub i0 j0 r c) v (Arr.mk' r j1) (Arr.mk' c j2) rfl (by simp only [Win.sub]; omega) hb rfl rfl))
  rintro y v' ⟨e1, e2, e3, e4, Y, s, hF⟩
  refine ⟨Y, ⟨e1, e2, fun i hi => (e3 i hi).2, fun j hj => (e4 j hj).2, hF.congrX (fun i hi j hj => ?_)⟩, s⟩
  exact vals_at h f hr hc hi hj

/-- columns, then rows of a block -/
lemma does_colsRows {P Q : Arr ℕ} (h : Vals W V v) (hl : W.c ≤ W.ld) (t : ℕ) {x : ℕ → ℕ → K} (f : At V i0 j0 r c x) (hA : A = W.adr i0 j0) (hr : i0 + r ≤ W.r)
    (hc : j0 + c ≤ W.c) (hQ : Q.len = c) (hq : ∀ i < c, Q.get i < c) (hP : P.len = r) (hp : ∀ i < r, P.get i < r) :
    Does (ν := Res) W v (up (papplyP .right .yes .Threads r 0 c A W.ld Q t .ret) (up (papplyP .left .no .Threads c 0 r A W.ld P t .ret) (.ret default)))
      ⟨⟨i0, j0, r, c⟩, [], fun _ Y => ∀ i < r, ∀ j < c, Y i j = x (ofSwaps P.get r i) (ofSwaps Q.get c j)⟩ := by
  subst hA
  have hl' : c ≤ W.ld := by omega
  refine wp_monoR _ (fun _ h => h.elim) (up_wp _ (papplyP_right_ok (v := v) (c := c) (fun e => by cases e) hl' le_rfl hQ.ge hq) (fun v1 h1 => ?_))
  refine up_wp _ (papplyP_left_ok (v := v1) (r := r) (fun e => by cases e) hl' le_rfl hP.ge hp) (fun v2 h2 => ⟨_, fun i hi j hj => ?_, h2⟩)
  have e := h1 (ofSwaps P.get r i) ((ofSwaps_isPerm hp).1 i hi) j hj
  simp only [appliedPerm, swapsFrom_zero] at e ⊢
  refine (Eq.trans ?_ e).trans (vals_at h f hr hc ((ofSwaps_isPerm hp).1 i hi) ((ofSwaps_isPerm hq).1 j hj))
  rfl

/-- the blocks `O` and `R` -/
lemma wp_ppluqO (hi : W.Inj) (hl : W.c ≤ W.ld) (h : Vals W V v) (gthr nt : ℕ) {d : Diag} {m1 n1 m2 n2 R1 R2 R3 G A4 F : ℕ} {l i x u i' x' : ℕ → ℕ → K}
    (hG : G = W.adr m1 R1) (hA4 : A4 = W.adr m1 n1) (hF : F = W.adr R1 n1) (h1 : R1 + R2 ≤ m1) (h2 : R1 + R3 ≤ n1) (hm : m1 + m2 = W.r) (hn : n1 + n2 = W.c)
    (h3 : R3 ≤ m2) (h4 : R2 ≤ n2) (fl : At V m1 R1 R3 R3 l) (fi : At V m1 n1 R3 R2 i) (fx : At V m1 (n1 + R2) R3 (n2 - R2) x)
    (fu : At V R1 (n1 + R2) R2 (n2 - R2) u) (fi' : At V (m1 + R3) n1 (m2 - R3) R2 i') (fx' : At V (m1 + R3) (n1 + R2) (m2 - R3) (n2 - R2) x')
    (hd : ∀ k < R3, l k k ≠ 0) {k : VProc K Res} {Q : Res → (ℕ → K) → Prop}
    (hk : ∀ v' Y Y', (∀ a < R3, ∀ b < n2 - R2, ∑ k ∈ range R3, luL d l a k * Y k b = x a b - ∑ k ∈ range R2, i a k * u k b) →
      (∀ a < m2 - R3, ∀ b < n2 - R2, Y' a b = x' a b - ∑ k ∈ range R2, i' a k * u k b) →
      Vals W (upd (m1 + R3) (n1 + R2) (m2 - R3) (n2 - R2) Y' (upd m1 (n1 + R2) R3 (n2 - R2) Y V)) v' →
      wp k W.Has (fun _ => False) (fun _ => False) v' Q) :
    wp (ppluqO gthr nt d W.ld m2 n2 R2 R3 G A4 F k) W.Has (fun _ => False) (fun _ => False) v Q := by
  have e1 : A4 + R2 = W.adr m1 (n1 + R2) := by rw [hA4, Win.adr_add_col]
  have e2 : F + R2 = W.adr R1 (n1 + R2) := by rw [hF, Win.adr_add_col]
  have e3 : A4 + R3 * W.ld = W.adr (m1 + R3) n1 := by rw [hA4, Win.adr_add_row]
  have e4 : A4 + R2 + R3 * W.ld = W.adr (m1 + R3) (n1 + R2) := by rw [e1, Win.adr_add_row]
  unfold ppluqO
  dsimp only
  rw [e4, e1, e2, e3, hA4, hG]
  intro tp c0 hp
  have dj : ∀ a, (Win.mk tp R2 R3 R2).Has a → ¬ W.Has a := fun a ha hw => hp a (tw_blk ha) (Or.inl hw)
  have hv1 : Vals W V (fun i => if blkAt tp (R3 * R2) i then c0 i else v i) := fun a ha b hb => by
    dsimp only
    rw [if_neg (fun hh => hp _ hh (Or.inl (Win.Has_adr ha hb)))]; exact h a ha b hb
  generalize (fun i => if blkAt tp (R3 * R2) i then c0 i else v i) = v1 at hv1 ⊢
  clear h
  have hT : ∀ a, (Win.mk tp R2 R3 R2).Has a → (fun i => False ∨ blkAt tp (R3 * R2) i) a := fun a ha => Or.inr (tw_blk ha)
  have hTb : ∀ a, blkAt tp (R3 * R2) a → (fun i => False ∨ blkAt tp (R3 * R2) i) a := fun a ha => Or.inr ha
  generalize (fun i => False ∨ blkAt tp (R3 * R2) i) = T at hT hTb ⊢
  -- the copy
  refine ⟨T, fun _ a => W.Has a ∨ (Win.mk tp R2 R3 R2).Has a, fun _ _ => False, fun _ _ => False,
    fun _ _ v' => Vals W V v' ∧ Vals ⟨tp, R2, R3, R2⟩ i v', fun _ h => h, fun _ _ h => h.elim, fun _ a ha => ha.imp id (hT a), fun _ _ h => h.elim,
    fun j l _ e => absurd (Subsingleton.elim j l) e, fun _ _ va vb e hh => ⟨fun a ha b hb => ?_, fun a ha b hb => ?_⟩, fun j => ?_, fun _ va _ hq => ?_⟩
  · rw [e _ (Or.inl (Or.inl (Win.Has_adr ha hb)))]; exact hh.1 a ha b hb
  · rw [e _ (Or.inl (Or.inr (Win.Has_adr ha hb)))]; exact hh.2 a ha b hb
  · obtain ⟨m, hwf, hmv, hok⟩ := exists_mem v1 ((FinS.has W).or (FinS.has (Win.mk tp R2 R3 R2)))
    have oW : On m m W V := ⟨hwf, fun a ha => (hok a).2 (Or.inl ha), hl, Step.refl (fun a ha b hb => by
      show m.val _ = _; rw [hmv]; exact hv1 a ha b hb)⟩
    have oT : On m m ⟨tp, R2, R3, R2⟩ (fun a b => v1 (tp + a * R2 + b)) := ⟨hwf, fun a ha => (hok a).2 (Or.inr ha), le_rfl, Step.refl (fun a ha b hb => by
      show m.val _ = _; rw [hmv]; rfl)⟩
    have hf := fassign_on (W := ⟨tp, R2, R3, R2⟩) (i0 := 0) (j0 := 0) (r := R3) (c := R2) (a := m1) (b := n1) oT oW dj (by simp) (by simp) (by omega) (by omega)
    have et : (Win.mk tp R2 R3 R2).adr 0 0 = tp := by simp [Win.adr]
    rw [et] at hf
    fin_cases j
    refine wp_cut _ m hmv (fun a ha => Or.inl ((hok a).1 ha)) hf (fun _ m' h' _ _ => ⟨fun a ha b hb => ?_, fun a ha b hb => ?_⟩)
    · rw [h'.step.frame _ ((hok _).2 (Or.inl (Win.Has_adr ha hb))) (fun hh => dj _ hh (Win.Has_adr ha hb)), hmv]; exact hv1 a ha b hb
    · have ha' : a < R3 := ha
      have hb' : b < R2 := hb
      have := h'.val ha hb
      rw [upd_in' (by omega)] at this
      exact this.trans (fi a ha' b hb')
  obtain ⟨hva, hta⟩ := hq 0
  clear hv1 hq
  -- solves
  have F1 : ∀ a < R3, ∀ b < R3, va (W.adr m1 R1 + a * W.ld + b) = l a b := fun a ha b hb => vals_at hva fl (by omega) (by omega) ha hb
  have rW : ∀ {r : Rect}, r.Ins W → ∀ a, (Win.mk (W.adr r.i r.j) W.ld r.h r.w).Has a → W.Has a := fun {r} hr a ha => rwin_has hr ha
  have rD : ∀ {r s : Rect}, r.Ins W → s.Ins W → r.Apart s → ∀ a, (Win.mk (W.adr r.i r.j) W.ld r.h r.w).Has a → ¬ (Win.mk (W.adr s.i s.j) W.ld s.h s.w).Has a :=
    fun {r s} hr hs h a ha => rwin_disj hi hr hs h a ha
  have iL : (Rect.mk m1 R1 R3 R3).Ins W := ⟨by simp only; omega, by simp only; omega⟩
  have iX : (Rect.mk m1 (n1 + R2) R3 (n2 - R2)).Ins W := ⟨by simp only; omega, by simp only; omega⟩
  have iU : (Rect.mk R1 (n1 + R2) R2 (n2 - R2)).Ins W := ⟨by simp only; omega, by simp only; omega⟩
  have iI' : (Rect.mk (m1 + R3) n1 (m2 - R3) R2).Ins W := ⟨by simp only; omega, by simp only; omega⟩
  have iX' : (Rect.mk (m1 + R3) (n1 + R2) (m2 - R3) (n2 - R2)).Ins W := ⟨by simp only; omega, by simp only; omega⟩
  have aLX : (Rect.mk m1 R1 R3 R3).Apart ⟨m1, n1 + R2, R3, n2 - R2⟩ := by simp only [Rect.Apart]; omega
  have aUX : (Rect.mk R1 (n1 + R2) R2 (n2 - R2)).Apart ⟨m1, n1 + R2, R3, n2 - R2⟩ := by simp only [Rect.Apart]; omega
  have aUX' : (Rect.mk R1 (n1 + R2) R2 (n2 - R2)).Apart ⟨m1 + R3, n1 + R2, m2 - R3, n2 - R2⟩ := by simp only [Rect.Apart]; omega
  have aIX' : (Rect.mk (m1 + R3) n1 (m2 - R3) R2).Apart ⟨m1 + R3, n1 + R2, m2 - R3, n2 - R2⟩ := by simp only [Rect.Apart]; omega
  have aIX : (Rect.mk (m1 + R3) n1 (m2 - R3) R2).Apart ⟨m1, n1 + R2, R3, n2 - R2⟩ := by simp only [Rect.Apart]; omega
  have aXX : (Rect.mk m1 (n1 + R2) R3 (n2 - R2)).Apart ⟨m1 + R3, n1 + R2, m2 - R3, n2 - R2⟩ := by simp only [Rect.Apart]; omega
  have aXX' : (Rect.mk (m1 + R3) (n1 + R2) (m2 - R3) (n2 - R2)).Apart ⟨m1, n1 + R2, R3, n2 - R2⟩ := by simp only [Rect.Apart]; omega
  refine wp_parW ![⟨tp, R2, R3, R2⟩, ⟨W.adr m1 (n1 + R2), W.ld, R3, n2 - R2⟩] (fun _ => (Win.mk (W.adr m1 R1) W.ld R3 R3).Has)
    ![fun _ Y => ∀ a < R3, ∀ b < R2, ∑ k ∈ range R3, luL d l a k * Y k b = i a b,
      fun _ Y => ∀ a < R3, ∀ b < n2 - R2, ∑ k ∈ range R3, luL d l a k * Y k b = x a b] ?_ (fun _ a ha => Or.inl (rW iL a ha)) ?_ ?_ ?_
  · intro j a ha
    fin_cases j
    · exact Or.inr (hT a ha)
    · exact Or.inl (rW iX a ha)
  · intro j k a e ha hb
    fin_cases k
    · refine dj a hb ?_
      fin_cases j
      · exact absurd rfl e
      · exact ha.elim (rW iX a) (rW iL a)
    · fin_cases j
      · rcases ha with ha | ha
        · exact dj a ha (rW iX a hb)
        · exact rD iL iX aLX a ha hb
      · exact absurd rfl e
  · intro j
    fin_cases j
    · exact tkL_wp _ F1 hta (by omega) le_rfl (fun a ha hb => dj a hb (rW iL a ha)) hd
    · exact tkL_wp _ F1 (fun a ha b hb => vals_at hva fx (by omega) (by omega) ha hb) (by omega) (by omega) (rD iL iX aLX) hd
  intro _ vb Y hY hV hf
  have eI : ∀ a < R3, ∀ b < R2, ∑ k ∈ range R3, luL d l a k * Y 0 k b = i a b := hY 0
  have eX : ∀ a < R3, ∀ b < n2 - R2, ∑ k ∈ range R3, luL d l a k * Y 1 k b = x a b := hY 1
  have vI : Vals ⟨tp, R2, R3, R2⟩ (Y 0) vb := hV 0
  have vX : Vals ⟨W.adr m1 (n1 + R2), W.ld, R3, n2 - R2⟩ (Y 1) vb := hV 1
  have hvb : ∀ {r : Rect}, r.Ins W → r.Apart ⟨m1, n1 + R2, R3, n2 - R2⟩ → ∀ a < r.h, ∀ b < r.w, vb (W.adr r.i r.j + a * W.ld + b) = va (W.adr r.i r.j + a * W.ld + b) := by
    intro r hr ha a h1 b h2
    have hh : (Win.mk (W.adr r.i r.j) W.ld r.h r.w).Has (W.adr r.i r.j + a * W.ld + b) := ⟨a, h1, b, h2, rfl⟩
    refine hf _ (Or.inl (rW hr _ hh)) (fun j => ?_)
    fin_cases j
    · exact fun hc => dj _ hc (rW hr _ hh)
    · exact rD hr iX ha _ hh
  have hvbW : ∀ a < W.r, ∀ b < W.c, ¬ (Rect.mk m1 (n1 + R2) R3 (n2 - R2)).Has a b → vb (W.adr a b) = V a b := by
    intro a h1 b h2 hn
    rw [← hva a h1 b h2]
    refine hf _ (Or.inl (Win.Has_adr h1 h2)) (fun j => ?_)
    fin_cases j
    · exact fun hc => dj _ hc (Win.Has_adr h1 h2)
    · exact fun hc => hn ((rwin_iff hi iX h1 h2).1 hc)
  have F2 : ∀ a < R2, ∀ b < n2 - R2, vb (W.adr R1 (n1 + R2) + a * W.ld + b) = u a b := fun a ha b hb => by
    rw [hvb iU aUX a ha b hb]; exact vals_at hva fu (by omega) (by omega) ha hb
  -- products
  refine wp_parW ![⟨W.adr m1 (n1 + R2), W.ld, R3, n2 - R2⟩, ⟨W.adr (m1 + R3) (n1 + R2), W.ld, m2 - R3, n2 - R2⟩]
    ![fun a => (Win.mk tp R2 R3 R2).Has a ∨ (Win.mk (W.adr R1 (n1 + R2)) W.ld R2 (n2 - R2)).Has a,
      fun a => (Win.mk (W.adr (m1 + R3) n1) W.ld (m2 - R3) R2).Has a ∨ (Win.mk (W.adr R1 (n1 + R2)) W.ld R2 (n2 - R2)).Has a]
    ![fun _ Z => ∀ a < R3, ∀ b < n2 - R2, Z a b = Y 1 a b - ∑ k ∈ range R2, Y 0 a k * u k b,
      fun _ Z => ∀ a < m2 - R3, ∀ b < n2 - R2, Z a b = x' a b - ∑ k ∈ range R2, i' a k * u k b] ?_ ?_ ?_ ?_ ?_
  · intro j a ha
    fin_cases j
    · exact Or.inl (rW iX a ha)
    · exact Or.inl (rW iX' a ha)
  · intro j a ha
    fin_cases j
    · rcases ha with ha | ha
      · exact Or.inr (hT a ha)
      · exact Or.inl (rW iU a ha)
    · rcases ha with ha | ha
      · exact Or.inl (rW iI' a ha)
      · exact Or.inl (rW iU a ha)
  · intro j k a e ha hb
    fin_cases k
    · fin_cases j
      · exact absurd rfl e
      · rcases ha with ha | ha | ha
        · exact rD iX' iX aXX' a ha hb
        · exact rD iI' iX aIX a ha hb
        · exact rD iU iX aUX a ha hb
    · fin_cases j
      · rcases ha with ha | ha | ha
        · exact rD iX iX' aXX a ha hb
        · exact dj a ha (rW iX' a hb)
        · exact rD iU iX' aUX' a ha hb
      · exact absurd rfl e
  · intro j
    fin_cases j
    · exact tkGemm_wp _ _ vI F2 vX le_rfl (by omega) (by omega) (fun a ha hb => dj a ha (rW iX a hb)) (rD iU iX aUX)
    · refine tkGemm_wp _ _ (fun a ha b hb => ?_) F2 (fun a ha b hb => ?_) (by omega) (by omega) (by omega) (rD iI' iX' aIX') (rD iU iX' aUX')
      · rw [hvb iI' aIX a ha b hb]; exact vals_at hva fi' (by omega) (by omega) ha hb
      · rw [hvb iX' aXX' a ha b hb]; exact vals_at hva fx' (by omega) (by omega) ha hb
  intro _ vc Z hZ hV' hf'
  have eZ : ∀ a < R3, ∀ b < n2 - R2, Z 0 a b = Y 1 a b - ∑ k ∈ range R2, Y 0 a k * u k b := hZ 0
  refine ⟨hTb, wp_mono_T _ (fun _ h => h.elim) (hk vc (Z 0) (Z 1) (fun a ha b hb => ?_) (hZ 1) (fun a ha b hb => ?_))⟩
  · rw [← eX a ha b hb, show ∑ k ∈ range R2, i a k * u k b = ∑ k ∈ range R3, luL d l a k * ∑ t ∈ range R2, Y 0 k t * u t b from ?_,
      ← sum_sub_distrib]
    · refine sum_congr rfl (fun k hk => ?_)
      rw [eZ k (mem_range.1 hk) b hb, mul_sub]
    · simp only [mul_sum]
      rw [sum_comm]
      refine sum_congr rfl (fun t ht => ?_)
      rw [← eI a ha t (mem_range.1 ht), sum_mul]
      exact sum_congr rfl (fun k _ => by ring)
  · by_cases c1 : (Rect.mk (m1 + R3) (n1 + R2) (m2 - R3) (n2 - R2)).Has a b
    · rw [upd_in' c1]
      obtain ⟨g1, g2, g3, g4⟩ := c1
      simp only at g1 g2 g3 g4
      have := hV' 1 (a - (m1 + R3)) (show _ < m2 - R3 by omega) (b - (n1 + R2)) (show _ < n2 - R2 by omega)
      rw [← this]
      show _ = vc ((W.adr (m1 + R3) (n1 + R2)) + (a - (m1 + R3)) * W.ld + (b - (n1 + R2)))
      rw [Win.adr_add_row, Win.adr_add_col]
      congr 2 <;> omega
    rw [upd_out (by simp only [Rect.Has] at c1; omega)]
    by_cases c2 : (Rect.mk m1 (n1 + R2) R3 (n2 - R2)).Has a b
    · rw [upd_in' c2]
      obtain ⟨g1, g2, g3, g4⟩ := c2
      simp only at g1 g2 g3 g4
      have := hV' 0 (a - m1) (show _ < R3 by omega) (b - (n1 + R2)) (show _ < n2 - R2 by omega)
      rw [← this]
      show _ = vc ((W.adr m1 (n1 + R2)) + (a - m1) * W.ld + (b - (n1 + R2)))
      rw [Win.adr_add_row, Win.adr_add_col]
      congr 2 <;> omega
    rw [upd_out (by simp only [Rect.Has] at c2; omega), ← hvbW a ha b hb c2]
    refine hf' _ (Or.inl (Win.Has_adr ha hb)) (fun j => ?_)
    fin_cases j
    · exact fun hc => c2 ((rwin_iff hi iX ha hb).1 hc)
    · exact fun hc => c1 ((rwin_iff hi iX' ha hb).1 hc)

/-- rows of the factors and the row permutation -/
lemma wp_ppluqS (hi : W.Inj) (hl : W.c ≤ W.ld) (h : Vals W V v) (jk : List ℕ → ℕ → ℕ) (nt : ℕ) {A M N M2 R1 R2 R3 R4 : ℕ} {P1 P2 P3 P4 : Arr ℕ}
    (hA : A = W.p) (hM : M = W.r) (hN : N = W.c) (h1 : M2 ≤ M) (h2 : R1 + R2 ≤ M2) (h3 : R3 + R4 ≤ M - M2)
    (l1 : P1.len = M2) (l2 : P2.len = M2 - R1) (l3 : P3.len = M - M2) (l4 : P4.len = M - M2 - R3)
    (b1 : ∀ i < M2, P1.get i < M2) (b2 : ∀ i < M2 - R1, P2.get i < M2 - R1) (b3 : ∀ i < M - M2, P3.get i < M - M2)
    (b4 : ∀ i < M - M2 - R3, P4.get i < M - M2 - R3) {π : ℕ → ℕ}
    (hπ : π = pairPerm M2 (fun i => ofSwaps P1.get M2 (shiftPerm R1 i (ofSwaps P2.get (M2 - R1))))
        (fun i => ofSwaps P3.get (M - M2) (shiftPerm R3 i (ofSwaps P4.get (M - M2 - R3))))) {k : Arr ℕ → VProc K Res} {Q : Res → (ℕ → K) → Prop}
    (hk : ∀ Z v', Z.len = M → (∀ i < M, Z.get i = π (sPerm (R1 + R2) (M2 - (R1 + R2)) (R3 + R4) i)) →
      IsPermArray (fun i => π (sPerm (R1 + R2) (M2 - (R1 + R2)) (R3 + R4) i)) M →
      Vals W (fun i j => V (sPerm (R1 + R2) (M2 - (R1 + R2)) (R3 + R4) i) j) v' → wp (k Z) W.Has (fun _ => False) (fun _ => False) v' Q) :
    wp (ppluqS jk nt M N M2 R1 R2 R3 R4 A W.ld P1 P2 P3 P4 k) W.Has (fun _ => False) (fun _ => False) v Q := by
  have hpi : IsPermArray π M := by
    rw [hπ]
    exact pairPerm_perm (IsPermArray.comp (ofSwaps_isPerm b1) (shiftPerm_isPerm (by omega) (ofSwaps_isPerm b2)))
      (IsPermArray.comp (ofSwaps_isPerm b3) (shiftPerm_isPerm (by omega) (ofSwaps_isPerm b4))) h1
  have sP : IsPermArray (sPerm (R1 + R2) (M2 - (R1 + R2)) (R3 + R4)) M := sPerm_perm (by omega)
  have mp := mathPair_spec (jk [8]) (n := M) (n1 := M2) (R1 := R1) (R3 := R3) h1 (by omega) (by omega) l1 l2 l3 l4 b1 b2 b3 b4
  rw [← hπ] at mp
  have hp := IsPermArray.comp hpi sP
  unfold ppluqS
  refine wp_liftV mp ?_
  rintro Z ⟨lZ, eZ⟩
  split_ifs with hc
  · refine wp_liftV (permApplyS_spec Z (jk [9]) h2 (by omega)) ?_
    rintro Z' ⟨lZ', eZ'⟩
    have ea : A = W.adr 0 0 := by simp [hA, Win.adr]
    subst ea
    refine wp_phase1 hi ⟨⟨0, 0, M2 + R3 + R4, N⟩, [], fun _ Y => ∀ i < M2 + R3 + R4, ∀ j < N, Y i j = V (sPerm (R1 + R2) (M2 - (R1 + R2)) (R3 + R4) i) j⟩ h
      ?_ ?_ ?_
    · rw [fit_iff]; simp [Fin.forall_fin_succ, Rect.Ins]; omega
    · refine wp_tk (pmatrixApplyS_ok (v := v) (fun e => by cases e) (by omega) h2) (fun x h => h.elim) (fun _ i hi' j hj => ?_)
      have := (sPerm_perm (n := M2 + R3 + R4) (a := R1 + R2) (t := M2 - (R1 + R2)) (b := R3 + R4) (by omega)).1 i hi'
      rw [← h _ (by omega) j (by omega)]
      simp [Win.adr]
    · intro _ v' Y hY hV _
      refine hk Z' v' (by omega) (fun i hi' => by rw [eZ', eZ _ (sP.1 i hi')]) hp (fun i hi' j hj => ?_)
      rw [hV i hi' j hj]
      by_cases c : i < M2 + R3 + R4
      · rw [Job.upd_in ⟨by simp, by simp; omega, by simp, by simp; omega⟩]
        exact hY i c j (by omega)
      · rw [Job.upd_out (by simp [Rect.Has]; omega)]
        congr 1
        unfold sPerm
        rw [if_neg (by omega), if_neg (by omega), if_neg (by omega)]
  · have hs : ∀ i, sPerm (R1 + R2) (M2 - (R1 + R2)) (R3 + R4) i = i := fun i => by
      unfold sPerm; split_ifs <;> omega
    exact hk Z v lZ (fun i hi => by rw [eZ i hi, hs]) hp (fun i hi j hj => by dsimp only; rw [hs]; exact h i hi j hj)

/-- columns of the factors and the column permutation -/
lemma wp_ppluqT (hi : W.Inj) (hl : W.c ≤ W.ld) (h : Vals W V v) (jk : List ℕ → ℕ → ℕ) (t : ℕ) {A M N N2 R1 R2 R3 R4 : ℕ} {Q1 Q2 Q3 Q4 : Arr ℕ}
    (hA : A = W.p) (hM : M = W.r) (hN : N = W.c) (h1 : N2 ≤ N) (h2 : R1 + R3 ≤ N2) (h3 : R2 + R4 ≤ N - N2)
    (l1 : Q1.len = N2) (l3 : Q3.len = N2 - R1) (l2 : Q2.len = N - N2) (l4 : Q4.len = N - N2 - R2)
    (b1 : ∀ i < N2, Q1.get i < N2) (b3 : ∀ i < N2 - R1, Q3.get i < N2 - R1) (b2 : ∀ i < N - N2, Q2.get i < N - N2)
    (b4 : ∀ i < N - N2 - R2, Q4.get i < N - N2 - R2) {π : ℕ → ℕ}
    (hπ : π = pairPerm N2 (fun i => ofSwaps Q1.get N2 (shiftPerm R1 i (ofSwaps Q3.get (N2 - R1))))
        (fun i => ofSwaps Q2.get (N - N2) (shiftPerm R2 i (ofSwaps Q4.get (N - N2 - R2))))) {k : Arr ℕ → VProc K Res} {Q : Res → (ℕ → K) → Prop}
    (hk : ∀ Z v', Z.len = N → (∀ i < N, Z.get i = π (tPerm N2 R1 R2 R3 R4 i)) → IsPermArray (fun i => π (tPerm N2 R1 R2 R3 R4 i)) N →
      Vals W (fun i j => V i (tPerm N2 R1 R2 R3 R4 j)) v' → wp (k Z) W.Has (fun _ => False) (fun _ => False) v' Q) :
    wp (ppluqT jk t M N N2 R1 R2 R3 R4 A W.ld Q1 Q2 Q3 Q4 k) W.Has (fun _ => False) (fun _ => False) v Q := by
  have hpi : IsPermArray π N := by
    rw [hπ]
    exact pairPerm_perm (IsPermArray.comp (ofSwaps_isPerm b1) (shiftPerm_isPerm (by omega) (ofSwaps_isPerm b3)))
      (IsPermArray.comp (ofSwaps_isPerm b2) (shiftPerm_isPerm (by omega) (ofSwaps_isPerm b4))) h1
  have sP : IsPermArray (tPerm N2 R1 R2 R3 R4) N := tPerm_perm h2 (by omega)
  have mp := mathPair_spec (jk [12]) (n := N) (n1 := N2) (R1 := R1) (R3 := R2) h1 (by omega) (by omega) l1 l3 l2 l4 b1 b3 b2 b4
  rw [← hπ] at mp
  have hp := IsPermArray.comp hpi sP
  unfold ppluqT
  refine wp_liftV mp ?_
  rintro Z ⟨lZ, eZ⟩
  split_ifs with hc
  · refine wp_liftV (permApplyT_spec Z (jk [13]) h2 (by omega)) ?_
    rintro Z' ⟨lZ', eZ'⟩
    have ea : A = W.adr 0 0 := by simp [hA, Win.adr]
    subst ea
    refine wp_phase1 hi ⟨⟨0, 0, M, N2 + R2 + R4⟩, [], fun _ Y => ∀ i < M, ∀ j < N2 + R2 + R4, Y i j = V i (tPerm N2 R1 R2 R3 R4 j)⟩ h ?_ ?_ ?_
    · rw [fit_iff]; simp [Fin.forall_fin_succ, Rect.Ins]; omega
    · refine wp_tk (pmatrixApplyT_ok (v := v) (fun e => by cases e) (by omega) h2) (fun x h => h.elim) (fun _ i hi' j hj => ?_)
      have := (tPerm_perm (n := N2 + R2 + R4) (N2 := N2) (R1 := R1) (R2 := R2) (R3 := R3) (R4 := R4) h2 (by omega)).1 j hj
      rw [← h i (by omega) _ (by omega)]
      simp [Win.adr]
    · intro _ v' Y hY hV _
      refine hk Z' v' (by omega) (fun i hi' => by rw [eZ', eZ _ (sP.1 i hi')]) hp (fun i hi' j hj => ?_)
      rw [hV i hi' j hj]
      by_cases c : j < N2 + R2 + R4
      · rw [Job.upd_in ⟨by simp, by simp; omega, by simp, by simp; omega⟩]
        exact hY i (by omega) j c
      · rw [Job.upd_out (by simp [Rect.Has]; omega)]
        congr 1
        unfold tPerm
        rw [if_neg (by omega), if_neg (by omega), if_neg (by omega), if_neg (by omega), if_neg (by omega)]
  · have hs : ∀ i, tPerm N2 R1 R2 R3 R4 i = i := fun i => by
      unfold tPerm; split_ifs <;> omega
    exact hk Z v lZ (fun i hi => by rw [eZ i hi, hs]) hp (fun i hi j hj => by dsimp only; rw [hs]; exact h i hi j hj)

end Verif.ParV
