import Verif.Proofs.BruhatElim

/-!
# `LTBruhatGen`: the copies `D` and `E`, and their restoration
-/

namespace Verif.FF

open Finset Verif.Spec Verif.Spec.Perm Verif.Pluq Verif.Perm Verif.Bruhat

variable {K : Type}

lemma On.drop {m0 m : Mem K} {W : Win} {V : ℕ → ℕ → K} (h : On m0 m W V) {p n : ℕ} (hd : ∀ a, p ≤ a → a < p + n → ¬ W.Has a) :
    On (m0.drop p n) (m.drop p n) W V := by
  refine ⟨fun a ha => ?_, fun a ha => ?_, h.ld, ?_, h.step.next, h.step.val, fun a ha hn => ?_⟩
  · simp only [Mem.drop] at ha ⊢
    rw [h.wf a ha, Bool.false_and]
  · simp only [Mem.drop]
    rw [h.ok a ha, Bool.true_and]
    by_cases c : p ≤ a ∧ a < p + n
    · exact absurd ha (hd a c.1 c.2)
    · simp only [Bool.not_eq_true', Bool.and_eq_false_iff, decide_eq_false_iff_not]; omega
  · simp only [Mem.drop, h.step.ok]
  · simp only [Mem.drop, Bool.and_eq_true] at ha
    exact h.step.frame a ha.1 hn

lemma Src.drop {m : Mem K} {S : Win} {f : ℕ → ℕ → K} (h : Src m S f) {p n : ℕ} (hd : ∀ a, p ≤ a → a < p + n → ¬ S.Has a) :
    Src (m.drop p n) S f := by
  refine ⟨fun a ha => ?_, h.ld, h.val⟩
  simp only [Mem.drop]
  rw [h.ok a ha, Bool.true_and]
  by_cases c : p ≤ a ∧ a < p + n
  · exact absurd ha (hd a c.1 c.2)
  · simp only [Bool.not_eq_true', Bool.and_eq_false_iff, decide_eq_false_iff_not]; omega

/-- two temporaries next to `W` -/
structure Tmp (m0 m : Mem K) (W : Win) (V : ℕ → ℕ → K) (D E : Win) (na nb : ℕ) (fD fE : ℕ → ℕ → K) : Prop where
  on : On m m W V
  sD : Src m D fD
  sE : Src m E fE
  dD : D.Disj W
  dE : E.Disj W
  nD : ∀ a, D.p ≤ a → a < D.p + na → ¬ W.Has a
  nDE : ∀ a, D.p ≤ a → a < D.p + na → ¬ E.Has a
  nE : ∀ a, E.p ≤ a → a < E.p + nb → ¬ W.Has a
  close : ∀ m' V', On ((m.drop D.p na).drop E.p nb) m' W V' → On m0 m' W V'

variable [Field K] [DecidableEq K]

omit [Field K] [DecidableEq K] in
lemma Has_new {p r c a : ℕ} (h : (Win.mk p c r c).Has a) : p ≤ a ∧ a < p + r * c := by
  obtain ⟨i, hi, j, hj, rfl⟩ := h
  simp only [Win.adr]
  have hi : i < r := hi
  have hj : j < c := hj
  have : i * c + c ≤ r * c := by
    have := Nat.mul_le_mul_right c (show i + 1 ≤ r by omega)
    rwa [Nat.add_mul, Nat.one_mul] at this
  omega

/-- copies of two blocks -/
lemma copies_on {α : Type} {m0 m : Mem K} {W : Win} {V : ℕ → ℕ → K} (h : On m0 m W V) {r1 n1 n2 A2 A3 i2 j2 i3 j3 : ℕ} {fD fE : ℕ → ℕ → K}
    (hA2 : A2 = W.adr i2 j2) (hA3 : A3 = W.adr i3 j3) (h2 : i2 + r1 ≤ W.r) (h2' : j2 + n1 ≤ W.c) (h3 : i3 + n2 ≤ W.r) (h3' : j3 + r1 ≤ W.c)
    (tD : At V i2 j2 r1 n1 fD) (tE : At V i3 j3 n2 r1 fE) {f : ℕ → ℕ → Prog K α} {Q : α → Mem K → Prop}
    (k : ∀ D E mE, Tmp m0 mE W V ⟨D, n1, r1, n1⟩ ⟨E, r1, n2, r1⟩ (r1 * n1) (n2 * r1) fD fE → Run (f D E) mE Q) :
    Run (do
      let D ← alloc (r1 * n1)
      fassign r1 n1 A2 W.ld D n1
      let E ← alloc (n2 * r1)
      fassign n2 r1 A3 W.ld E r1
      f D E) m Q := by
  have hlt : ∀ {a}, W.Has a → a < m.next := fun ha => by
    by_contra hc
    have := h.wf' _ (not_lt.1 hc)
    rw [h.ok' _ ha] at this
    exact absurd this (by simp)
  rw [Run_bind, Run_alloc, Run_bind]
  change Run _ (m.grow (r1 * n1)) _
  have onD : On (m.grow (r1 * n1)) (m.grow (r1 * n1)) ⟨m.next, n1, r1, n1⟩ ((m.grow (r1 * n1)).mat _) :=
    On.start (h.wf'.grow _) (OkIn.grow_new m r1 n1) le_rfl
  have srcA : Src (m.grow (r1 * n1)) W V := ⟨h.ok'.grow _, h.ld, fun i hi j hj => h.val hi hj⟩
  have dis : ∀ (p r c : ℕ), m.next ≤ p → W.Disj ⟨p, c, r, c⟩ := fun p r c hp a h1 h2 => by
    have := Has_new h2
    have := hlt h1
    omega
  have e2 : (⟨A2, W.ld, r1, n1⟩ : Win) = W.sub i2 j2 r1 n1 := by rw [hA2]; rfl
  have e3 : (⟨A3, W.ld, n2, r1⟩ : Win) = W.sub i3 j3 n2 r1 := by rw [hA3]; rfl
  have s2 : Src (m.grow (r1 * n1)) ⟨A2, W.ld, r1, n1⟩ fD := by
    rw [e2]; exact (srcA.sub i2 j2 h2 h2').congr (fun i hi j hj => tD i hi j hj)
  refine (fassign_src onD s2 (by rw [e2]; exact (dis _ _ _ le_rfl).sub_left h2 h2') (i0 := 0) (j0 := 0) (by simp) (by simp)
    (by simp [Win.adr])).mono (fun _ mb hb => ?_)
  rw [Run_bind, Run_alloc, Run_bind]
  change Run _ (mb.grow (n2 * r1)) _
  have nb : m.next + r1 * n1 ≤ mb.next := hb.step.next
  have onE : On (mb.grow (n2 * r1)) (mb.grow (n2 * r1)) ⟨mb.next, r1, n2, r1⟩ ((mb.grow (n2 * r1)).mat _) :=
    On.start (hb.wf'.grow _) (OkIn.grow_new mb n2 r1) le_rfl
  have srcA' : Src (mb.grow (n2 * r1)) W V := by
    have := srcA.on hb (dis _ _ _ le_rfl)
    exact ⟨this.ok.grow _, this.ld, this.val⟩
  have s3 : Src (mb.grow (n2 * r1)) ⟨A3, W.ld, n2, r1⟩ fE := by
    rw [e3]; exact (srcA'.sub i3 j3 h3 h3').congr (fun i hi j hj => tE i hi j hj)
  refine (fassign_src onE s3 (by rw [e3]; exact (dis _ _ _ (by omega)).sub_left h3 h3') (i0 := 0) (j0 := 0) (by simp) (by simp)
    (by simp [Win.adr])).mono (fun _ mE hE => ?_)
  have dDE : (Win.mk m.next n1 r1 n1).Disj ⟨mb.next, r1, n2, r1⟩ := fun a h1 h2 => by
    have := Has_new h1
    have := Has_new h2
    omega
  have sW : Src mE W V := srcA'.on hE (dis _ _ _ (by omega))
  have sD : Src mE ⟨m.next, n1, r1, n1⟩ fD := by
    have s : Src (mb.grow (n2 * r1)) ⟨m.next, n1, r1, n1⟩ fD := ⟨hb.ok'.grow _, le_rfl, fun i hi j hj => by
      have hi : i < r1 := hi
      have hj : j < n1 := hj
      have := hb.step.val i hi j hj
      rw [upd_in' (by simp only []; omega)] at this
      show mb.val _ = _
      simpa using this⟩
    exact s.on hE dDE
  refine k _ _ mE ⟨⟨hE.wf', sW.ok, sW.ld, Step.refl sW.val⟩, sD, ⟨hE.ok', le_rfl, fun i hi j hj => ?_⟩, (dis _ _ _ le_rfl).symm, (dis _ _ _ (by omega)).symm,
    fun a h1 _ hw => ?_, fun a h1 h2 hw => ?_, fun a h1 _ hw => ?_, fun m' V' hm' => ?_⟩
  · have hi : i < n2 := hi
    have hj : j < r1 := hj
    have := hE.step.val i hi j hj
    rw [upd_in' (by simp only []; omega)] at this
    simpa using this
  · have := hlt hw
    simp only [] at h1; omega
  · have := Has_new hw
    simp only [] at h1 h2; omega
  · have := hlt hw
    simp only [] at h1; omega
  · have okE : mE.ok = (mb.grow (n2 * r1)).ok := hE.step.ok
    have okB : mb.ok = (m.grow (r1 * n1)).ok := hb.step.ok
    have okm : ((mE.drop m.next (r1 * n1)).drop mb.next (n2 * r1)).ok = m.ok := by
      funext a
      simp only [Mem.drop, okE, Mem.grow, okB]
      by_cases c : m.next ≤ a
      · rw [h.wf' a c]
        by_cases c1 : a < m.next + r1 * n1 <;> by_cases c2 : mb.next ≤ a <;> by_cases c3 : a < mb.next + n2 * r1 <;> simp [c, c1, c2, c3]
      · have : ¬ mb.next ≤ a := by omega
        simp [c, this]
    refine h.trans ⟨h.wf', h.ok', h.ld, hm'.step.ok.trans okm, ?_, hm'.step.val, fun a ha hn => ?_⟩
    · have h1 := hm'.step.next
      have h2 : mb.next + n2 * r1 ≤ mE.next := hE.step.next
      simp only [Mem.drop] at h1
      omega
    · have hlt' : a < m.next := by
        by_contra hc
        rw [h.wf' _ (not_lt.1 hc)] at ha
        exact absurd ha (by simp)
      rw [hm'.step.frame a (by rw [okm]; exact ha) hn]
      show mE.val a = _
      rw [hE.step.frame a (by simp [Mem.grow, okB, ha]) (fun hh => by have := Has_new hh; omega)]
      show mb.val a = _
      rw [hb.step.frame a (by simp [Mem.grow, ha]) (fun hh => by have := Has_new hh; omega)]
      rfl

section restore
variable {m0 m : Mem K} {W : Win} {V : ℕ → ℕ → K} {f : ℕ → ℕ → K}

omit [Field K] [DecidableEq K] in
lemma Run_usub {a b : ℕ} {m : Mem K} {Q : ℕ → Mem K → Prop} (h : b ≤ a) (hQ : Q (a - b) m) : Run (usub a b) m Q := by
  unfold usub
  rw [if_pos h, Run_pure]; exact hQ

/-- rows of `D` back in place -/
lemma ltRestoreD_on {p : Arr ℕ} {n n2 A2 D r1 : ℕ} (h : On m0 m W V) (hS : Src m0 ⟨D, n, r1, n⟩ f) (hd : (Win.mk D n r1 n).Disj W)
    (hA : A2 = W.adr 0 n2) (hr : n ≤ W.r) (hc : n2 + n ≤ W.c) (hp : r1 ≤ p.len) (bp : ∀ k < r1, p.get k < n)
    (ip : ∀ k < r1, ∀ k' < r1, p.get k = p.get k' → k = k') :
    Run (ltRestoreD n A2 W.ld D n r1 p) m (fun _ m' => ∃ V', On m0 m' W V' ∧
      (∀ k < r1, ∀ j, p.get k + j + 1 < n → V' (p.get k) (n2 + j) = f k j) ∧
      ∀ i j, (j < n2 ∨ ∀ k < r1, p.get k ≠ i) → V' i j = V i j) := by
  unfold ltRestoreD
  refine Run_loop (fun k m' => ∃ V', On m0 m' W V' ∧ (∀ a < k, ∀ j, p.get a + j + 1 < n → V' (p.get a) (n2 + j) = f a j) ∧
      ∀ i j, (j < n2 ∨ ∀ a < k, p.get a ≠ i) → V' i j = V i j) ⟨V, h, fun a ha => absurd ha (Nat.not_lt_zero _), fun _ _ _ => rfl⟩ ?_
  rintro k mk hk ⟨V', hV, e1, e2⟩
  have hb := bp k hk
  rw [Run_bind, Run_liftE, Ok_rd]
  refine ⟨by omega, ?_⟩
  rw [Run_bind]
  refine Run_usub (by omega) ?_
  have := copyRow_on (a := k) (b := 0) (i := p.get k) (j := n2) (n := n - (1 + p.get k)) hV hS hd hk (by simp only []; omega) (by omega) (by omega)
  have ea : A2 + p.get k * W.ld = W.adr (p.get k) n2 := by rw [hA]; simp only [Win.adr]; ring
  rw [ea]
  refine (by simpa [Win.adr] using this : Run (vassign (n - (1 + p.get k)) (D + k * n) 1 (W.adr (p.get k) n2) 1) mk _).mono (fun _ m' hm => ?_)
  refine ⟨_, hm, fun a ha j hj => ?_, fun i j hij => ?_⟩
  · rcases Nat.lt_or_ge a k with h1 | h1
    · have : p.get a ≠ p.get k := fun e => by have := ip a (by omega) k hk e; omega
      rw [upd_out (by omega), e1 a h1 j hj]
    · obtain rfl : a = k := by omega
      rw [upd_in' (by omega)]
      congr 1; omega
  · rw [upd_out, e2 i j]
    · rcases hij with h1 | h1
      · exact Or.inl h1
      · exact Or.inr (fun a ha => h1 a (by omega))
    · rcases hij with h1 | h1
      · omega
      · have := h1 k (by omega)
        omega

/-- columns of `E` back in place -/
lemma ltRestoreE_on {q : Arr ℕ} {n n1 A3 E r1 : ℕ} (h : On m0 m W V) (hS : Src m0 ⟨E, r1, n, r1⟩ f) (hd : (Win.mk E r1 n r1).Disj W)
    (hA : A3 = W.adr n1 0) (hr : n1 + n ≤ W.r) (hc : n ≤ W.c) (hq : r1 ≤ q.len) (bq : ∀ k < r1, q.get k < n)
    (iq : ∀ k < r1, ∀ k' < r1, q.get k = q.get k' → k = k') :
    Run (ltRestoreE n A3 W.ld E r1 r1 q) m (fun _ m' => ∃ V', On m0 m' W V' ∧
      (∀ k < r1, ∀ i, i + q.get k + 1 < n → V' (n1 + i) (q.get k) = f i k) ∧
      ∀ i j, (i < n1 ∨ ∀ k < r1, q.get k ≠ j) → V' i j = V i j) := by
  unfold ltRestoreE
  refine Run_loop (fun k m' => ∃ V', On m0 m' W V' ∧ (∀ a < k, ∀ i, i + q.get a + 1 < n → V' (n1 + i) (q.get a) = f i a) ∧
      ∀ i j, (i < n1 ∨ ∀ a < k, q.get a ≠ j) → V' i j = V i j) ⟨V, h, fun a ha => absurd ha (Nat.not_lt_zero _), fun _ _ _ => rfl⟩ ?_
  rintro k mk hk ⟨V', hV, e1, e2⟩
  have hb := bq k hk
  rw [Run_bind, Run_liftE, Ok_rd]
  refine ⟨by omega, ?_⟩
  rw [Run_bind]
  refine Run_usub (by omega) ?_
  have := copyCol_on (a := 0) (b := k) (i := n1) (j := q.get k) (n := n - (1 + q.get k)) hV hS hd (by simp only []; omega) hk (by omega) (by omega)
  have ea : A3 + q.get k = W.adr n1 (q.get k) := by rw [hA]; simp only [Win.adr]; ring
  rw [ea]
  refine (by simpa [Win.adr] using this : Run (vassign (n - (1 + q.get k)) (E + k) r1 (W.adr n1 (q.get k)) W.ld) mk _).mono (fun _ m' hm => ?_)
  refine ⟨_, hm, fun a ha i hi => ?_, fun i j hij => ?_⟩
  · rcases Nat.lt_or_ge a k with h1 | h1
    · have : q.get a ≠ q.get k := fun e => by have := iq a (by omega) k hk e; omega
      rw [upd_out (by omega), e1 a h1 i hi]
    · obtain rfl : a = k := by omega
      rw [upd_in' (by omega)]
      congr 1; omega
  · rw [upd_out, e2 i j]
    · rcases hij with h1 | h1
      · exact Or.inl h1
      · exact Or.inr (fun a ha => h1 a (by omega))
    · rcases hij with h1 | h1
      · omega
      · have := h1 k (by omega)
        omega

end restore
end Verif.FF
