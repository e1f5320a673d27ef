import Verif.Proofs.FsytrfMath
import Verif.Proofs.Level2

/-!
# `fsytrf` and `fsytrf_nonunit`
-/

namespace Verif.FF

open Finset

variable {K : Type}

section
variable {m0 m m' : Mem K} {u : Uplo} {A lda n i j i' j' len len' s : ℕ} {V : ℕ → ℕ → K}

lemma Src.toOn {S : Win} {f : ℕ → ℕ → K} (h : Src m S f) (hw : WF m) : On m m S f := ⟨hw, h.ok, h.ld, Step.refl h.val⟩

lemma oa_add : opAdr (lowTr u) A lda i j + s * sytInc u lda = opAdr (lowTr u) A lda (i + s) j := by
  cases u <;> simp only [opAdr, lowTr, sytInc] <;> ring

lemma oa_eq (u : Uplo) (A lda n i j : ℕ) : opAdr (lowTr u) A lda i j = (Win.mk A lda n n).adr (pick' u j i) (pick' u i j) := by
  cases u <;> simp only [opAdr, lowTr, pick', Win.adr]

lemma oa_val (h : On m0 m ⟨A, lda, n, n⟩ V) (hi : i < n) (hj : j < n) : m.val (opAdr (lowTr u) A lda i j) = Spec.op (lowTr u) V i j := by
  rw [oa_eq u A lda n, h.val (by cases u <;> simpa [pick']) (by cases u <;> simpa [pick'])]
  cases u <;> rfl

lemma oa_ok (h : On m0 m ⟨A, lda, n, n⟩ V) (hi : i < n) (hj : j < n) : m.ok (opAdr (lowTr u) A lda i j) = true := by
  rw [oa_eq u A lda n]
  exact h.ok'.adr (by cases u <;> simpa [pick']) (by cases u <;> simpa [pick'])

/-- addresses of a piece of a column of the lower triangle -/
lemma oseg_Has {a : ℕ} (h : (vw (opAdr (lowTr u) A lda i j) (sytInc u lda) len).Has a) : ∃ s < len, a = opAdr (lowTr u) A lda (i + s) j := by
  obtain ⟨s, hs, c, hc, rfl⟩ := h
  have hc : c = 0 := by simpa [vw] using hc
  subst hc
  refine ⟨s, hs, ?_⟩
  rw [← oa_add]; simp [Win.adr, vw]

lemma oseg_ok (h : On m0 m ⟨A, lda, n, n⟩ V) (hi : i + len ≤ n) (hj : j < n) : OkIn m (vw (opAdr (lowTr u) A lda i j) (sytInc u lda) len) := by
  intro a ha
  obtain ⟨s, hs, rfl⟩ := oseg_Has ha
  exact oa_ok h (by omega) hj

lemma oseg_sub (hi : i + len ≤ n) (hj : j < n) {a : ℕ} (h : (vw (opAdr (lowTr u) A lda i j) (sytInc u lda) len).Has a) :
    (Win.mk A lda n n).Has a := by
  obtain ⟨s, hs, rfl⟩ := oseg_Has h
  rw [oa_eq u A lda n]
  exact Win.Has_adr (by cases u <;> simp only [pick'] <;> omega) (by cases u <;> simp only [pick'] <;> omega)

lemma oseg_disj (hl : n ≤ lda) (hi : i + len ≤ n) (hj : j < n) (hi' : i' + len' ≤ n) (hj' : j' < n) (hne : j ≠ j') :
    (vw (opAdr (lowTr u) A lda i j) (sytInc u lda) len).Disj (vw (opAdr (lowTr u) A lda i' j') (sytInc u lda) len') := by
  intro a h h'
  obtain ⟨s, hs, rfl⟩ := oseg_Has h
  obtain ⟨s', hs', e⟩ := oseg_Has h'
  rw [oa_eq u A lda n, oa_eq u A lda n] at e
  have := (Win.Inj_of_le (W := ⟨A, lda, n, n⟩) (Or.inl hl)) _ (by cases u <;> simp only [pick'] <;> omega) _
    (by cases u <;> simp only [pick'] <;> omega) _ (by cases u <;> simp only [pick'] <;> omega) _ (by cases u <;> simp only [pick'] <;> omega) e
  cases u <;> simp only [pick'] at this <;> omega

/-- a kernel has rewritten a piece of a column of the lower triangle -/
lemma On.oseg {g : ℕ → K} (h : On m0 m ⟨A, lda, n, n⟩ V) (hi : i + len ≤ n) (hj : j < n)
    (st : Step m m' (vw (opAdr (lowTr u) A lda i j) (sytInc u lda) len) (fun t _ => g t)) : ∃ V', On m0 m' ⟨A, lda, n, n⟩ V' ∧
      ∀ p q, Spec.op (lowTr u) V' p q = if q = j ∧ i ≤ p ∧ p < i + len then g (p - i) else Spec.op (lowTr u) V p q := by
  rw [oa_eq u A lda n] at st
  cases u with
  | upper =>
    refine ⟨_, h.rowStep (i := j) (j := i) (n := len) hj hi st, fun p q => ?_⟩
    simp only [Spec.op, lowTr, upd]
    exact if_congr (by omega) rfl rfl
  | lower =>
    refine ⟨_, h.colStep (i := i) (j := j) (n := len) hi hj st, fun p q => ?_⟩
    simp only [Spec.op, lowTr, upd]
    exact if_congr (by omega) rfl rfl

lemma sytInc_pos (u : Uplo) (h : 0 < lda) : 0 < sytInc u lda := by cases u <;> simp [sytInc, h]

end

section
variable [Field K] [DecidableEq K]
variable {u : Uplo} {lda incD n : ℕ}

/-- Contract of the factorisation `T D⁻¹ Tᵀ` of the symmetric matrix stored in the triangle `u` -/
def SytOk (u : Uplo) (lda incD n : ℕ) (p : ℕ → ℕ → Prog K Bool) : Prop :=
  ∀ (m : Mem K) (A D : ℕ) (b U : ℕ → ℕ → K), On2 m m ⟨A, lda, n, n⟩ b (vw D incD n) U →
    Run (p A D) m (fun r m' => ∃ z y, On2 m m' ⟨A, lda, n, n⟩ z (vw D incD n) y ∧
      (r = true → NonF u n b z ∧ ∀ i < n, y i 0 = (z i i)⁻¹) ∧ (r = false → FailF u n b))

variable {m0 m m' : Mem K} {A D N tmp t : ℕ} {V b τ : ℕ → ℕ → K}

/-- the rank one update of the Schur complement -/
lemma fsytrfRL_loop {cat : Cat} (hx : cat = .modular ∨ u = .upper) (hS : Src m (vw tmp 1 N) τ) (hd : (vw tmp 1 N).Disj ⟨A, lda, N + 1, N + 1⟩)
    (h : On m m ⟨A, lda, N + 1, N + 1⟩ b) :
    Run (loop N fun t => do
        let c ← load (tmp + t)
        vaxpy cat (N - t) c (A + (t + 1) * sytInc u lda) (sytInc u lda) (A + (t + 1) * (lda + 1)) (sytInc u lda)) m (fun _ m' =>
      ∃ V, On m m' ⟨A, lda, N + 1, N + 1⟩ V ∧ ∀ p < N + 1, ∀ q ≤ p, Spec.op (lowTr u) V p q =
        if 1 ≤ q then τ (q - 1) 0 * Spec.op (lowTr u) b p 0 + Spec.op (lowTr u) b p q else Spec.op (lowTr u) b p q) := by
  have hl : N + 1 ≤ lda := h.ld
  have hI := sytInc_pos u (lda := lda) (by omega)
  refine (Run_loop (I := fun t m' => ∃ V, On m m' ⟨A, lda, N + 1, N + 1⟩ V ∧ ∀ p < N + 1, ∀ q ≤ p, Spec.op (lowTr u) V p q =
        if 1 ≤ q ∧ q ≤ t then τ (q - 1) 0 * Spec.op (lowTr u) b p 0 + Spec.op (lowTr u) b p q else Spec.op (lowTr u) b p q)
    ⟨b, h, fun p _ q _ => by rw [if_neg (by omega)]⟩ ?_).mono ?_
  · rintro t m1 ht ⟨V, h1, e1⟩
    have hS1 := hS.on h1 hd
    have hv := hS1.val t ht 0 Nat.one_pos
    have ho := hS1.ok.adr (i := t) (j := 0) ht Nat.one_pos
    simp only [Win.adr_mk, vw, Nat.mul_one, Nat.add_zero] at hv ho
    rw [Run_bind, Run_load]
    refine ⟨ho, ?_⟩
    rw [hv]
    have eX : A + (t + 1) * sytInc u lda = opAdr (lowTr u) A lda (t + 1) 0 := by
      cases u <;> simp only [opAdr, lowTr, sytInc] <;> ring
    have eY : A + (t + 1) * (lda + 1) = opAdr (lowTr u) A lda (t + 1) (t + 1) := by
      cases u <;> simp only [opAdr, lowTr] <;> ring
    rw [eX, eY]
    refine (vaxpy_spec cat (τ t 0) h1.wf' (oseg_ok (i := t + 1) (j := 0) h1 (by omega) (by omega))
      (oseg_ok (i := t + 1) (j := t + 1) h1 (by omega) (by omega))
      ((oseg_disj (n := N + 1) hl (by omega) (by omega) (by omega) (by omega) (by omega)).safe rfl rfl) hI hI ?_).mono ?_
    · rcases hx with hx | rfl
      · exact Or.inl hx
      · exact Or.inr (Or.inl ⟨rfl, rfl⟩)
    · intro _ m2 s
      obtain ⟨V', h2, e2⟩ := h1.oseg (i := t + 1) (j := t + 1) (by omega) (by omega) s
      refine ⟨V', h2, fun p hp q hq => ?_⟩
      rw [e2]
      by_cases c : q = t + 1
      · subst c
        rw [if_pos (by omega), if_pos (by omega), oa_add, oa_add, show t + 1 + (p - (t + 1)) = p by omega,
          oa_val h1 hp (by omega), oa_val h1 hp (by omega), e1 p hp 0 (by omega), e1 p hp (t + 1) hq, if_neg (by omega), if_neg (by omega)]
        rfl
      · rw [if_neg (by omega), e1 p hp q hq]
        exact if_congr (by omega) rfl rfl
  · rintro _ m' ⟨V, h1, e1⟩
    refine ⟨V, h1, fun p hp q hq => ?_⟩
    rw [e1 p hp q hq]
    exact if_congr (by omega) rfl rfl

lemma vw_sub (D incD n k c : ℕ) : (vw D incD n).sub k 0 c 1 = vw (D + k * incD) incD c := by simp [vw, Win.sub, Win.adr]

lemma diag_sub (A lda n k c : ℕ) : (Win.mk A lda n n).sub k k c c = ⟨A + k * (lda + 1), lda, c, c⟩ := by
  simp only [Win.sub, Win.adr, Win.mk.injEq, and_self, and_true]; ring

/-- recursion on the second part: the first part of the matrix and of `Dinv` is final -/
lemma SytOk.second {n1 n2 : ℕ} {p : ℕ → ℕ → Prog K Bool} (hp : SytOk u lda incD n2 p) (hn : n1 + n2 = n) {z y c : ℕ → ℕ → K}
    (h : On2 m0 m ⟨A, lda, n, n⟩ z (vw D incD n) y) (hy : ∀ i < n1, y i 0 = (z i i)⁻¹) (hh : HalfF u n1 n2 b c z)
    (hc : ∀ i < n2, ∀ j ≤ i, Spec.op (lowTr u) z (n1 + i) (n1 + j) = Spec.op (lowTr u) c i j) :
    Run (p (A + n1 * (lda + 1)) (D + n1 * incD)) m (fun r m' => ∃ z y, On2 m0 m' ⟨A, lda, n, n⟩ z (vw D incD n) y ∧
      (r = true → NonF u n b z ∧ ∀ i < n, y i 0 = (z i i)⁻¹) ∧ (r = false → FailF u n b)) := by
  have hs := h.sub (i0 := n1) (j0 := n1) (r := n2) (c := n2) (a := n1) (b := 0) (r' := n2) (c' := 1) (by simp only []; omega)
    (by simp only []; omega) (by simp only [vw]; omega) (by simp [vw])
  rw [vw_sub, diag_sub] at hs
  refine (hp m _ _ _ _ hs).mono ?_
  rintro r m' ⟨z', y', h', ht, hf⟩
  rw [← vw_sub D incD n, ← diag_sub A lda n] at h'
  have hL := h.lift (i0 := n1) (j0 := n1) (r := n2) (c := n2) (a := n1) (b := 0) (r' := n2) (c' := 1) (by simp only []; omega)
    (by simp only []; omega) (by simp only [vw]; omega) (by simp [vw]) h'
  refine ⟨_, _, hL, fun hr => ?_, fun hr => ?_⟩
  · obtain ⟨f, g⟩ := ht hr
    set Z := upd n1 n1 n2 n2 z' z with hZ
    have eo : ∀ i < n2, ∀ l < n1, Spec.op (lowTr u) Z (n1 + i) l = Spec.op (lowTr u) z (n1 + i) l := fun i _ l hl => by
      cases u <;> simp only [Spec.op, lowTr, hZ] <;> rw [upd_out (by omega)]
    have ed : ∀ p < n1, ∀ q < n1, Z p q = z p q := fun p _ q _ => by rw [hZ, upd_out (by omega)]
    have el : ∀ q < n1, ∀ l < n1, lowM u .nonUnit Z q l = lowM u .nonUnit z q l := fun q hq l hl => lowM_congr ed hq hl
    have hH : HalfF u n1 n2 b c Z := by
      refine ⟨hh.first.congr (fun _ _ _ _ => rfl) (fun a ha q hq => ?_), fun i hi q hq => ?_, fun i hi j hj => ?_⟩
      · simp only [op_blk, Nat.zero_add]
        cases u
        · exact (ed q (by omega) a ha).symm
        · exact (ed a ha q (by omega)).symm
      · rw [← hh.off i hi q hq]
        refine sum_congr rfl (fun l hl => ?_)
        have hl := mem_range.1 hl
        rw [eo i hi l hl, ed l hl l hl, el q hq l hl]
      · rw [hh.schur i hi j hj]
        congr 1
        refine sum_congr rfl (fun l hl => ?_)
        have hl := mem_range.1 hl
        rw [eo i hi l hl, ed l hl l hl, eo j (by omega) l hl]
    refine ⟨hH.join hn (f.congr (fun p hp q hq => ?_) (fun p hp q hq => ?_)), fun i hi => ?_⟩
    · rw [op_blk, hc p hp q hq]
    · rw [op_blk]
      cases u <;> simp only [Spec.op, lowTr, hZ] <;> rw [upd_in (by omega) (by omega)]
    · rcases Nat.lt_or_ge i n1 with c | c
      · rw [upd_out (by omega), hy i c, hZ, upd_out (by omega)]
      · obtain ⟨k, rfl⟩ := Nat.exists_eq_add_of_le c
        rw [show (0 : ℕ) = 0 + 0 from rfl, upd_in (by omega) (by omega), g k (by omega), hZ, upd_in (by omega) (by omega)]
  · exact hh.fail hn ((hf hr).congr (fun p hp q hq => by rw [op_blk, hc p hp q hq]))

/-- `fsytrf_BC_RL` -/
lemma fsytrfRL_ok {cat : Cat} (hx : cat = .modular ∨ u = .upper) (n : ℕ) : SytOk (K := K) u lda incD n (fsytrfRL cat u lda incD n) := by
  induction n with
  | zero =>
    intro m A D b U h
    simp only [fsytrfRL, Run_pure]
    exact ⟨b, U, h, fun _ => ⟨⟨fun i hi => absurd hi (by omega), fun i hi => absurd hi (by omega)⟩, fun i hi => absurd hi (by omega)⟩,
      fun hh => absurd hh (by simp)⟩
  | succ N ih =>
    intro m A D b U h
    have hl : N + 1 ≤ lda := h.ldW
    have hI := sytInc_pos u (lda := lda) (by omega)
    have hv := h.valW 0 (Nat.succ_pos N) 0 (Nat.succ_pos N)
    have ho := h.okW.adr (i := 0) (j := 0) (Nat.succ_pos N) (Nat.succ_pos N)
    simp only [Win.adr_mk, Nat.zero_mul, Nat.add_zero] at hv ho
    simp only [fsytrfRL]
    rw [Run_bind, Run_load]
    refine ⟨ho, ?_⟩
    rw [hv]
    rif h0
    · rw [Run_pure]
      refine ⟨b, U, h, fun hh => absurd hh (by simp), fun _ => ⟨0, Nat.succ_pos N, fun _ _ => 0, fun _ => 0, fun p hp q hq => ?_⟩⟩
      obtain rfl : p = 0 := by omega
      obtain rfl : q = 0 := by omega
      rw [range_zero, sum_empty, op_diag, h0]
    · have hD := h.okT.adr (i := 0) (j := 0) (Nat.succ_pos N) Nat.one_pos
      have h1 := h.ofT (h.right.set (i := 0) (j := 0) (x := (b 0 0)⁻¹) (Nat.succ_pos N) Nat.one_pos)
      simp only [Win.adr_mk, vw, Nat.zero_mul, Nat.add_zero] at hD h1
      rw [Run_bind, Run_liftE]
      simp only [Ok_invE]
      refine ⟨h0, ?_⟩
      rw [Run_bind, Run_store]
      refine ⟨hD, ?_⟩
      generalize m.set D (b 0 0)⁻¹ = m1 at h1 ⊢
      generalize hU1 : FF.upd 0 0 1 1 (fun _ _ => (b 0 0)⁻¹) U = U1 at h1
      rw [Run_bind, Run_alloc]
      change Run _ (m1.grow N) _
      rw [Run_bind]
      have hW := h1.left
      have hT := h1.right
      have okX : OkIn (m1.grow N) (vw m1.next 1 N) := OkIn.grow_le m1 (by omega)
      have dX : ∀ a, (vw m1.next 1 N).Has a → m1.next ≤ a := by
        rintro a ⟨i, _, j, _, rfl⟩
        simp only [Win.adr, vw]; omega
      have dS : ∀ {W : Win}, OkIn m1 W → W.Disj (vw m1.next 1 N) := fun hw a ha hx => by
        have := hW.wf' a (dX a hx)
        rw [hw a ha] at this; exact absurd this (by simp)
      have eX : A + sytInc u lda = opAdr (lowTr u) A lda 1 0 := by
        cases u <;> simp only [opAdr, lowTr, sytInc] <;> ring
      have hWg : On (m1.grow N) (m1.grow N) ⟨A, lda, N + 1, N + 1⟩ b := (hW.src.grow N).toOn (hW.wf'.grow N)
      rw [eX]
      refine (vscal_spec cat (-(b 0 0)⁻¹) (hW.wf'.grow N) (oseg_ok hWg (by omega) (by omega)) okX
        (Win.Disj.safe (fun a ha => dS hW.ok' a (oseg_sub (by omega) (by omega) ha)) rfl rfl) hI Nat.one_pos).mono ?_
      intro _ m2 s2
      have s2' : On (m1.grow N) m2 (vw m1.next 1 N) (fun i _ => -(b 0 0)⁻¹ * (m1.grow N).val (opAdr (lowTr u) A lda 1 0 + i * sytInc u lda)) :=
        ⟨hW.wf'.grow N, okX, le_rfl, s2⟩
      have hW2 : On m2 m2 ⟨A, lda, N + 1, N + 1⟩ b := (hWg.src.step s2 (dS hW.ok')).toOn s2'.wf'
      have hT2 := ((hT.src.grow N).step s2 (dS hT.ok')).toOn s2'.wf'
      rw [Run_bind]
      refine (fsytrfRL_loop hx s2'.src (dS hW.ok').symm hW2).mono ?_
      rintro _ m3 ⟨V, h3, e3⟩
      rw [Run_bind, Run_free]
      have h4 := h1.temp3 dX s2' hT2 h3
      change Run _ (m3.drop m1.next N) _
      generalize m3.drop m1.next N = m4 at h4 ⊢
      have e0 : V 0 0 = b 0 0 := by
        have := e3 0 (Nat.succ_pos N) 0 le_rfl
        rwa [if_neg (by omega), op_diag, op_diag] at this
      have ec : ∀ p < N + 1, Spec.op (lowTr u) V p 0 = Spec.op (lowTr u) b p 0 := fun p hp => by
        rw [e3 p hp 0 (by omega), if_neg (by omega)]
      have := ih.second (n1 := 1) (n2 := N) (b := b) (c := blk V 1 1) (by omega) h4 (fun i hi => ?_) ?_ ?_
      · simpa only [Nat.one_mul] using this
      · obtain rfl : i = 0 := by omega
        rw [e0, ← hU1, show (0 : ℕ) = 0 + 0 from rfl, upd_in Nat.one_pos Nat.one_pos]
      · refine HalfF.one (by rw [e0]; exact h0) ec (fun i hi j hj => ?_)
        rw [op_blk, e3 _ (by omega) _ (by omega), if_pos (by omega), oa_add, ec _ (by omega), ec _ (by omega), e0,
          Nat.add_sub_cancel_left, show (m1.grow N).val = m1.val from rfl, oa_val hW (by omega) (by omega)]
        ring
      · intro i _ j _
        rw [op_blk]

/-- a kernel has rewritten two disjoint blocks -/
lemma On.two {W : Win} {i0 j0 r c a b' r' c' : ℕ} {V1 U1 : ℕ → ℕ → K} (h : On m0 m W V) (hr : i0 + r ≤ W.r) (hc : j0 + c ≤ W.c)
    (hr' : a + r' ≤ W.r) (hc' : b' + c' ≤ W.c) (s : On2 m m' (W.sub i0 j0 r c) V1 (W.sub a b' r' c') U1) :
    On m0 m' W (FF.upd i0 j0 r c V1 (FF.upd a b' r' c' U1 V)) := by
  refine h.trans ⟨h.wf', h.ok', h.ld, ⟨s.ok, s.next, fun i hi j hj => ?_, fun x hx hw => ?_⟩⟩
  · by_cases q : i0 ≤ i ∧ i < i0 + r ∧ j0 ≤ j ∧ j < j0 + c
    · rw [upd_in' q]
      have := s.valW (i - i0) (by simp only [Win.sub]; omega) (j - j0) (by simp only [Win.sub]; omega)
      rwa [Win.sub_adr, show i0 + (i - i0) = i by omega, show j0 + (j - j0) = j by omega] at this
    · rw [upd_out (by omega)]
      by_cases q' : a ≤ i ∧ i < a + r' ∧ b' ≤ j ∧ j < b' + c'
      · rw [upd_in' q']
        have := s.valT (i - a) (by simp only [Win.sub]; omega) (j - b') (by simp only [Win.sub]; omega)
        rwa [Win.sub_adr, show a + (i - a) = i by omega, show b' + (j - b') = j by omega] at this
      · rw [upd_out (by omega), s.frame _ (h.ok'.adr hi hj) ?_ ?_, h.val hi hj]
        · rintro ⟨x, hx, y, hy, e⟩
          have hx : x < r := hx
          have hy : y < c := hy
          rw [Win.sub_adr] at e
          have := h.inj _ hi _ hj _ (by omega) _ (by omega) e
          omega
        · rintro ⟨x, hx, y, hy, e⟩
          have hx : x < r' := hx
          have hy : y < c' := hy
          rw [Win.sub_adr] at e
          have := h.inj _ hi _ hj _ (by omega) _ (by omega) e
          omega
  · exact s.frame x hx (fun q => hw (Win.sub_Has hr hc q)) (fun q => hw (Win.sub_Has hr' hc' q))

/-- contract of `fsyrk` with a diagonal matrix -/
def SyrkDOk (sk : SyrkDFn K) : Prop := ∀ (u : Uplo) (t : Tr) (n k : ℕ) (alpha : K) (lda D incD : ℕ) (beta : K) (ldc : ℕ) (d : ℕ → K),
  MidOk (fun r l => d l * r l) u t k alpha lda D incD beta ldc d (fun A C => sk u t n k alpha A lda D incD beta C ldc) n

/-- the library's `fsyrk` with a diagonal matrix and a recursion threshold -/
def fsyrkD (cat : Cat) (g : GemmFn K) (thr : ℕ) : SyrkDFn K := fun u t n k alpha A lda D incD beta C ldc =>
  fsyrkDiag cat g thr u t k alpha lda D incD beta ldc (n + 1) n A C

lemma fsyrkD_ok (cat : Cat) {g : GemmFn K} (hg : GemmOk g) {thr : ℕ} (ht : 1 ≤ thr) : SyrkDOk (fsyrkD cat g thr) :=
  fun _ _ n _ _ _ _ _ _ _ _ => fsyrkDiag_ok cat hg ht (n + 1) n (by omega) (by omega)

lemma syt_eR (a c : ℕ) : sytSel u a c = pick' u a c := by cases u <;> rfl

/-- the triangular solve on the off-diagonal block -/
lemma syt_trsm {ts : TrFn K} (ht : TrsmOk ts) {n1 n2 : ℕ} (hn : n1 + n2 = n) (h : On m m ⟨A, lda, n, n⟩ V) (hz : ∀ i < n1, V i i ≠ 0) :
    Run (ts (sytSide u) u .yes .nonUnit (pick' u n1 n2) (pick' u n2 n1) 1 A lda (A + n1 * sytInc u lda) lda) m (fun _ m' =>
      ∃ V', On m m' ⟨A, lda, n, n⟩ V' ∧ (∀ p q, q ≤ p → (p < n1 ∨ n1 ≤ q) → Spec.op (lowTr u) V' p q = Spec.op (lowTr u) V p q) ∧
        ∀ i < n2, ∀ q < n1, ∑ l ∈ range n1, Spec.op (lowTr u) V' (n1 + i) l * lowM u .nonUnit V q l = Spec.op (lowTr u) V (n1 + i) q) := by
  have hS := h.src.sub (r := n1) (c := n1) 0 0 (by simp only []; omega) (by simp only []; omega)
  have b00 : blk (blk V 0 0) 0 0 = V := by funext i j; simp [blk]
  cases u with
  | upper =>
    have hB := h.sub (i0 := 0) (j0 := n1) (r := n1) (c := n2) (by simp only []; omega) (by simp only []; omega)
    refine (trsmT_at ht hB hS (Win.sub_Disj h.inj (by simp only []; omega) (by simp only []; omega) (by simp only []; omega)
      (by simp only []; omega) (by omega)) .left .upper .yes .nonUnit 0 0 0 0 n1 n2 n1 rfl (by simp [Win.sub]) (by simp [Win.sub])
      (by simp [Win.sub]) (by simp [Win.sub]) (fun _ i hi => by simpa [blk] using hz i hi) (by simp [Win.sub])
      (by simp [Win.sub, Win.adr, sytInc])).mono ?_
    rintro _ m' ⟨X, h1, e⟩
    refine ⟨_, h.upd (by simp only []; omega) (by simp only []; omega) h1.step, fun p q hpq hh => ?_, fun i hi q hq => ?_⟩
    · simp only [Spec.op, lowTr]
      by_cases c : p < n ∧ q < n
      · rw [upd_out (by omega)]
      · rw [upd_out (by omega)]
    · have := e q hq i hi
      simp only [blk, Nat.zero_add, Spec.sideMul, Spec.mul] at this
      simp only [Spec.op, lowTr]
      rw [← this]
      refine sum_congr rfl (fun l hl => ?_)
      have hl := mem_range.1 hl
      rw [show upd 0 n1 n1 n2 (upd 0 0 n1 n2 X (blk V 0 n1)) V l (n1 + i) = X l i by
        have := upd_in (i0 := 0) (j0 := n1) (g := upd 0 0 n1 n2 X (blk V 0 n1)) (V := V) hl hi
        rw [Nat.zero_add] at this
        rw [this]
        have := upd_in (i0 := 0) (j0 := 0) (g := X) (V := blk V 0 n1) hl hi
        rwa [Nat.zero_add, Nat.zero_add] at this, mul_comm, b00]
      rfl
  | lower =>
    have hB := h.sub (i0 := n1) (j0 := 0) (r := n2) (c := n1) (by simp only []; omega) (by simp only []; omega)
    refine (trsmT_at ht hB hS (Win.sub_Disj h.inj (by simp only []; omega) (by simp only []; omega) (by simp only []; omega)
      (by simp only []; omega) (by omega)) .right .lower .yes .nonUnit 0 0 0 0 n2 n1 n1 rfl (by simp [Win.sub]) (by simp [Win.sub])
      (by simp [Win.sub]) (by simp [Win.sub]) (fun _ i hi => by simpa [blk] using hz i hi) (by simp [Win.sub])
      (by simp [Win.sub, Win.adr, sytInc])).mono ?_
    rintro _ m' ⟨X, h1, e⟩
    refine ⟨_, h.upd (by simp only []; omega) (by simp only []; omega) h1.step, fun p q hpq hh => ?_, fun i hi q hq => ?_⟩
    · simp only [Spec.op, lowTr]
      rw [upd_out (by omega)]
    · have := e i hi q hq
      simp only [blk, Nat.zero_add, Spec.sideMul, Spec.mul] at this
      simp only [Spec.op, lowTr]
      rw [← this]
      refine sum_congr rfl (fun l hl => ?_)
      have hl := mem_range.1 hl
      rw [show upd n1 0 n2 n1 (upd 0 0 n2 n1 X (blk V n1 0)) V (n1 + i) l = X i l by
        have := upd_in (i0 := n1) (j0 := 0) (g := upd 0 0 n2 n1 X (blk V n1 0)) (V := V) hi hl
        rw [Nat.zero_add] at this
        rw [this]
        have := upd_in (i0 := 0) (j0 := 0) (g := X) (V := blk V n1 0) hi hl
        rwa [Nat.zero_add, Nat.zero_add] at this, b00]
      rfl

/-- the update of the last diagonal block -/
lemma syt_syrk {sk : SyrkDFn K} (hk : SyrkDOk sk) {n1 n2 : ℕ} (hn : n1 + n2 = n) (h : On m m ⟨A, lda, n, n⟩ V) :
    Run (sk u (sytTr u) n2 n1 (-1) (A + n1 * sytInc u lda) lda A (lda + 1) 1 (A + n1 * (lda + 1)) lda) m (fun _ m' =>
      ∃ V', On m m' ⟨A, lda, n, n⟩ V' ∧ (∀ p < n1, ∀ q < n1, V' p q = V p q) ∧
        (∀ i < n2, ∀ l < n1, Spec.op (lowTr u) V' (n1 + i) l = V l l * Spec.op (lowTr u) V (n1 + i) l) ∧
        ∀ i < n2, ∀ j ≤ i, Spec.op (lowTr u) V' (n1 + i) (n1 + j) = Spec.op (lowTr u) V (n1 + i) (n1 + j) -
          ∑ l ∈ range n1, V l l * Spec.op (lowTr u) V (n1 + i) l * Spec.op (lowTr u) V (n1 + j) l) := by
  have hl : n ≤ lda := h.ld
  have eo : A + n1 * sytInc u lda = offPtr u A lda n1 := by cases u <;> simp [sytInc, offPtr]
  have hc := h.sub (i0 := n1) (j0 := n1) (r := n2) (c := n2) (by simp only []; omega) (by simp only []; omega)
  have ho := h.sub (i0 := pick' u 0 n1) (j0 := pick' u n1 0) (r := pick' u n1 n2) (c := pick' u n2 n1)
    (by cases u <;> simp only [pick'] <;> omega) (by cases u <;> simp only [pick'] <;> omega)
  have hd : ((Win.mk A lda n n).sub n1 n1 n2 n2).Disj
      ((Win.mk A lda n n).sub (pick' u 0 n1) (pick' u n1 0) (pick' u n1 n2) (pick' u n2 n1)) := by
    refine Win.sub_Disj h.inj ?_ ?_ ?_ ?_ ?_ <;> cases u <;> simp only [pick'] <;> omega
  have h2 : On2 m m ⟨A + n1 * (lda + 1), lda, n2, n2⟩ (blk V n1 n1) (aw (lowTr u) n2 n1 (offPtr u A lda n1) lda)
      (Spec.op (lowTr u) (fun i l => Spec.op (lowTr u) V (n1 + i) l)) := by
    rw [off_win hn, ← diag_sub A lda n]
    refine ⟨h.wf, hc.ok, ho.ok, hc.ld, ho.ld, hd, rfl, le_rfl, fun i hi j hj => hc.val hi hj, fun i hi j hj => ?_, fun _ _ _ _ => rfl⟩
    rw [ho.val hi hj]
    cases u <;> simp [blk, pick', Spec.op, lowTr]
  have hdg : ∀ a, (vw A (lda + 1) n1).Has a → ((Win.mk A lda n n).sub 0 0 n1 n1).Has a := by
    rintro a ⟨i, hi, j, hj, rfl⟩
    have hi : i < n1 := hi
    obtain rfl : j = 0 := by simpa [vw] using hj
    refine ⟨i, hi, i, hi, ?_⟩
    simp only [Win.adr, vw, Win.sub]; ring
  have d0 : ∀ r c r' c', n1 ≤ r ∨ n1 ≤ c → r + r' ≤ n → c + c' ≤ n → (vw A (lda + 1) n1).Disj ((Win.mk A lda n n).sub r c r' c') := by
    intro r c r' c' h1 h2 h3 a ha hb
    exact Win.sub_Disj h.inj (by simp only []; omega) (by simp only []; omega) (by simp only []; omega) (by simp only []; omega) (by omega)
      a (hdg a ha) hb
  have hD : Src m (vw A (lda + 1) n1) (fun l _ => V l l) := by
    refine ⟨fun a ha => h.ok' a (Win.sub_Has (by simp only []; omega) (by simp only []; omega) (hdg a ha)), by simp [vw], fun i hi j hj => ?_⟩
    have hi : i < n1 := hi
    obtain rfl : j = 0 := by simpa [vw] using hj
    rw [← h.val (i := i) (j := i) (by simp only []; omega) (by simp only []; omega)]
    congr 1
    simp only [Win.adr, vw]; ring
  rw [eo, sytTr_eq]
  refine (hk u (lowTr u) n2 n1 (-1) lda A (lda + 1) 1 lda (fun l => V l l) m _ _ _ _ h2 hD ?_ ?_).mono ?_
  · rw [← diag_sub A lda n]
    exact d0 _ _ _ _ (by omega) (by omega) (by omega)
  · rw [off_win hn]
    refine d0 _ _ _ _ ?_ ?_ ?_ <;> cases u <;> simp only [pick'] <;> omega
  · rintro _ m' ⟨C, h3, e3⟩
    rw [off_win hn, ← diag_sub A lda n] at h3
    refine ⟨_, h.two (by simp only []; omega) (by simp only []; omega) (by cases u <;> simp only [pick'] <;> omega)
      (by cases u <;> simp only [pick'] <;> omega) h3, fun p hp q hq => ?_, fun i hi l hl => ?_, fun i hi j hj => ?_⟩
    · rw [upd_out (by omega), upd_out (by cases u <;> simp only [pick'] <;> omega)]
    · cases u with
      | upper =>
        simp only [Spec.op, lowTr, pick']
        rw [upd_out (by omega)]
        have := upd_in (i0 := 0) (j0 := n1) (g := fun i j => V i i * V i (n1 + j)) (V := V) hl hi
        rwa [Nat.zero_add] at this
      | lower =>
        simp only [Spec.op, lowTr, pick']
        rw [upd_out (by omega)]
        have := upd_in (i0 := n1) (j0 := 0) (g := fun i j => V j j * V (n1 + i) j) (V := V) hi hl
        rwa [Nat.zero_add] at this
    · cases u with
      | upper =>
        simp only [Spec.op, lowTr]
        rw [upd_in (by omega) hi, e3 j (by omega) i hi hj]
        simp only [Spec.op, lowTr, blk, neg_one_mul, one_mul]
        rw [neg_add_eq_sub]
        congr 1
        exact sum_congr rfl (fun l _ => by ring)
      | lower =>
        simp only [Spec.op, lowTr]
        rw [upd_in hi (by omega), e3 i hi j (by omega) hj]
        simp only [Spec.op, lowTr, blk, neg_one_mul, one_mul]
        rw [neg_add_eq_sub]

/-- one level of `fsytrf_nonunit`, with any functions `p1` and `p2` for the two parts -/
lemma sytStep_ok {ts : TrFn K} {sk : SyrkDFn K} (ht : TrsmOk ts) (hk : SyrkDOk sk) {n1 n2 : ℕ} {p1 p2 : ℕ → ℕ → Prog K Bool}
    (h1 : SytOk u lda 1 n1 p1) (h2 : SytOk u lda 1 n2 p2) (hn : n1 + n2 = n) : SytOk u lda 1 n (fun A D => do
      let ok1 ← p1 A D
      if ok1 = false then pure false
      else do
        ts (sytSide u) u .yes .nonUnit (sytSel u n1 n2) (sytSel u n2 n1) 1 A lda (A + n1 * sytInc u lda) lda
        sk u (sytTr u) n2 n1 (-1) (A + n1 * sytInc u lda) lda A (lda + 1) 1 (A + n1 * (lda + 1)) lda
        p2 (A + n1 * (lda + 1)) (D + n1)) := by
  intro m A D b U h
  have hs := h.sub (i0 := 0) (j0 := 0) (r := n1) (c := n1) (a := 0) (b := 0) (r' := n1) (c' := 1) (by simp only []; omega)
    (by simp only []; omega) (by simp only [vw]; omega) (by simp [vw])
  rw [vw_sub, diag_sub] at hs
  simp only [Nat.zero_mul, Nat.add_zero] at hs
  rw [Run_bind]
  refine (h1 m A D _ _ hs).mono ?_
  rintro r1 m1 ⟨z1, y1, g1, ht1, hf1⟩
  have e1 : (vw D 1 n).sub 0 0 n1 1 = vw D 1 n1 := by rw [vw_sub]; simp
  have e2 : (Win.mk A lda n n).sub 0 0 n1 n1 = ⟨A, lda, n1, n1⟩ := by rw [diag_sub]; simp
  rw [← e1, ← e2] at g1
  have g1 := h.lift (i0 := 0) (j0 := 0) (r := n1) (c := n1) (a := 0) (b := 0) (r' := n1) (c' := 1) (by simp only []; omega)
    (by simp only []; omega) (by simp only [vw]; omega) (by simp [vw]) g1
  rif c1
  · rw [Run_pure]
    exact ⟨_, _, g1, fun hh => absurd hh (by simp), fun _ => (hf1 c1).first (by omega)⟩
  obtain ⟨N1, Y1⟩ := ht1 (by simpa using c1)
  set V1 := upd 0 0 n1 n1 z1 b with hV1
  have v1 : ∀ p < n1, ∀ q < n1, V1 p q = z1 p q := fun p hp q hq => by rw [hV1, upd_in' (by omega)]; rfl
  have v1' : ∀ p q, n1 ≤ p → Spec.op (lowTr u) V1 p q = Spec.op (lowTr u) b p q := fun p q hp => by
    cases u <;> simp only [Spec.op, lowTr, hV1] <;> rw [upd_out (by omega)]
  rw [Run_bind]
  rw [syt_eR n1 n2, syt_eR n2 n1]
  refine (syt_trsm ht hn g1.left (fun i hi => by rw [v1 i hi i hi]; exact N1.1 i hi)).mono ?_
  rintro _ m2 ⟨V2, g2, o2, s2⟩
  have g2' := g1.ofW g2
  rw [Run_bind]
  refine (syt_syrk hk hn g2'.left).mono ?_
  rintro _ m3 ⟨V3, g3, d3, o3, s3⟩
  have g3' := g2'.ofW g3
  have dg : ∀ l < n1, V2 l l = z1 l l := fun l hl => by
    have := o2 l l le_rfl (by omega)
    rw [op_diag, op_diag] at this
    rw [this, v1 l hl l hl]
  have dg3 : ∀ l < n1, V3 l l = z1 l l := fun l hl => by rw [d3 l hl l hl, dg l hl]
  have lo3 : ∀ q < n1, ∀ l, lowM u .nonUnit V3 q l = lowM u .nonUnit z1 q l := fun q hq l => by
    rcases Nat.lt_or_ge q l with h | h
    · rw [lowM_zero h, lowM_zero h]
    · have e : Spec.op (lowTr u) V3 q l = Spec.op (lowTr u) V2 q l := by
        cases u
        · exact d3 l (by omega) q hq
        · exact d3 q hq l (by omega)
      rw [lowM_le _ h, lowM_le _ h, e, o2 q l h (by omega)]
      cases u
      · exact v1 l (by omega) q hq
      · exact v1 q hq l (by omega)
  have lo1 : ∀ q < n1, ∀ l < n1, lowM u .nonUnit V1 q l = lowM u .nonUnit z1 q l := fun q hq l hl => lowM_congr v1 hq hl
  have := h2.second (b := b) (c := blk V3 n1 n1) hn g3' (fun i hi => ?_) ?_ ?_
  · simpa only [Nat.mul_one] using this
  · rw [upd_in' (by omega)]
    rw [dg3 i hi]; exact Y1 i hi
  · refine ⟨N1.congr (fun _ _ _ _ => rfl) (fun p hp q hq => ?_), fun i hi q hq => ?_, fun i hi j hj => ?_⟩
    · rw [op_blk, Nat.zero_add, Nat.zero_add, ← lowM_le z1 hq, ← lowM_le V3 hq, lo3 p hp]
    · rw [← v1' (n1 + i) q (by omega), ← s2 i hi q hq]
      refine sum_congr rfl (fun l hl => ?_)
      have hl := mem_range.1 hl
      rw [o3 i hi l hl, dg l hl, dg3 l hl, lo3 q hq, lo1 q hq l hl, mul_comm (z1 l l), mul_assoc (Spec.op _ _ _ _),
        mul_inv_cancel₀ (N1.1 l hl), mul_one]
    · rw [op_blk, s3 i hi j hj, o2 _ _ (by omega) (by omega), v1' _ _ (by omega)]
      congr 1
      refine sum_congr rfl (fun l hl => ?_)
      have hl := mem_range.1 hl
      rw [o3 i hi l hl, o3 j (by omega) l hl, dg l hl, dg3 l hl]
      have := N1.1 l hl
      field_simp
  · intro i _ j _
    rw [op_blk]

/-- `fsytrf_nonunit`, for `incDinv = 1` -/
lemma fsytrfNonunit_ok {bc : SytrfFn K} {ts : TrFn K} {sk : SyrkDFn K} (ht : TrsmOk ts) (hk : SyrkDOk sk) {thr : ℕ} (h1 : 1 ≤ thr)
    (hb : ∀ n ≤ thr, SytOk u lda 1 n (fun A D => bc u n A lda D 1)) (fuel n : ℕ) (hf : n ≤ fuel) (hf1 : 1 ≤ fuel) :
    SytOk u lda 1 n (fsytrfNonunit bc ts sk u lda 1 thr fuel n) := by
  induction fuel generalizing n with
  | zero => omega
  | succ fuel ih =>
    intro m A D b U h
    simp only [fsytrfNonunit]
    rif c0
    · exact hb n c0 m A D b U h
    exact sytStep_ok ht hk (ih (n / 2) (by omega) (by omega)) (ih (n - n / 2) (by omega) (by omega)) (by omega) m A D b U h

/-- the update of one column in `fsytrf_BC_Crout` -/
lemma syt_gemv (cat : Cat) {i : ℕ} {τ : ℕ → K} (hi : i < n) (h : On m m ⟨A, lda, n, n⟩ V) (hS : Src m (vw tmp 1 i) (fun l _ => τ l))
    (hd : (vw tmp 1 i).Disj ⟨A, lda, n, n⟩) :
    Run (fgemv cat (sytTr u) (sytSel u i (n - i)) (sytSel u (n - i) i) (-1) (A + i * sytInc u lda) lda tmp 1 1 (A + i * (lda + 1)) (sytInc u lda))
      m (fun _ m' => ∃ V', On m m' ⟨A, lda, n, n⟩ V' ∧ ∀ p q, Spec.op (lowTr u) V' p q = if q = i ∧ i ≤ p ∧ p < n then
        Spec.op (lowTr u) V p i - ∑ l ∈ range i, Spec.op (lowTr u) V p l * τ l else Spec.op (lowTr u) V p q) := by
  have hl : n ≤ lda := h.ld
  have hI := sytInc_pos u (lda := lda) (by omega)
  have eY : A + i * (lda + 1) = opAdr (lowTr u) A lda i i := by cases u <;> simp only [opAdr, lowTr] <;> ring
  by_cases c0 : u = .upper ∧ i = 0
  · obtain ⟨rfl, rfl⟩ := c0
    have : sytSel .upper 0 (n - 0) = 0 := rfl
    rw [this, fgemv, if_pos rfl, Run_pure]
    refine ⟨V, h, fun p q => ?_⟩
    rw [range_zero, sum_empty, sub_zero]
    split_ifs with c
    · rw [c.1]
    · rfl
  have eW : (Win.mk (A + i * sytInc u lda) lda (sytSel u i (n - i)) (sytSel u (n - i) i)) =
      (Win.mk A lda n n).sub (pick' u 0 i) (pick' u i 0) (pick' u i (n - i)) (pick' u (n - i) i) := by
    cases u <;> simp [Win.sub, Win.adr, pick', sytSel, sytInc]
  have hsub := h.sub (i0 := pick' u 0 i) (j0 := pick' u i 0) (r := pick' u i (n - i)) (c := pick' u (n - i) i)
    (by cases u <;> simp only [pick'] <;> omega) (by cases u <;> simp only [pick'] <;> omega)
  have hsg : ∀ a, (vw (A + i * (lda + 1)) (sytInc u lda) (n - i)).Has a → (Win.mk A lda n n).Has a := fun a ha => by
    rw [eY] at ha
    exact oseg_sub (by omega) hi ha
  refine (fgemv_spec cat (sytTr u) (Xd := i) (Yd := n - i) (-1) 1 (by cases u <;> rfl) (by cases u <;> rfl) ?_ h.wf' ?_ ?_ hS.ok ?_ hI ?_
    (fun a ha hb => hd a ha (hsg a hb))).mono ?_
  · cases u
    · left; simp only [sytSel]
      intro hh; exact c0 ⟨rfl, hh⟩
    · right; rfl
  · rw [eW]; exact hsub.ok'
  · cases u <;> simp only [sytSel] <;> omega
  · rw [eY]; exact oseg_ok h (by omega) hi
  · rw [eW]
    intro a ha hb
    rw [eY] at hb
    obtain ⟨s, hs, rfl⟩ := oseg_Has hb
    rw [oa_eq u A lda n] at ha
    obtain ⟨x, hx, y, hy, e⟩ := ha
    have hx : x < pick' u i (n - i) := hx
    have hy : y < pick' u (n - i) i := hy
    rw [Win.sub_adr] at e
    have := h.inj _ (by cases u <;> simp only [pick'] at * <;> omega) _ (by cases u <;> simp only [pick'] at * <;> omega) _
      (by cases u <;> simp only [pick'] at * <;> omega) _ (by cases u <;> simp only [pick'] at * <;> omega) e
    cases u <;> simp only [pick'] at * <;> omega
  · intro _ m' s
    rw [eY] at s
    obtain ⟨V', h', e'⟩ := h.oseg (by omega) hi s
    refine ⟨V', h', fun p q => ?_⟩
    rw [e']
    by_cases c : q = i ∧ i ≤ p ∧ p < n
    · obtain ⟨rfl, c1, c2⟩ := c
      rw [if_pos (by omega), if_pos (by omega), oa_add, show q + (p - q) = p by omega, oa_val h c2 hi, one_mul, neg_one_mul,
        neg_add_eq_sub]
      congr 1
      refine sum_congr rfl (fun l hl => ?_)
      have hl := mem_range.1 hl
      have e1 := hS.val l hl 0 Nat.one_pos
      simp only [Win.adr_mk, vw, Nat.add_zero] at e1
      rw [e1, sytTr_eq, show opAdr (lowTr u) (A + q * sytInc u lda) lda (p - q) l = opAdr (lowTr u) A lda p l by
        obtain ⟨d, rfl⟩ := Nat.exists_eq_add_of_le c1
        rw [Nat.add_sub_cancel_left]
        cases u <;> simp only [opAdr, lowTr, sytInc] <;> ring, oa_val h c2 (by omega)]
    · rw [if_neg (by omega), if_neg (by omega)]

/-- `fsytrf_BC_Crout` -/
lemma fsytrfCrout_ok (cat : Cat) (n : ℕ) : SytOk (K := K) u lda incD n (fun A D => fsytrfCrout cat u n A lda D incD n) := by
  intro m0 A D b U h
  have key : ∀ k i, i + k = n → ∀ (m : Mem K) (z y : ℕ → ℕ → K), On2 m0 m ⟨A, lda, n, n⟩ z (vw D incD n) y → CroutF u n i b z →
      (∀ l < i, y l 0 = (z l l)⁻¹) → Run (fsytrfCrout cat u n A lda D incD k) m (fun r m' =>
        ∃ z y, On2 m0 m' ⟨A, lda, n, n⟩ z (vw D incD n) y ∧ (r = true → NonF u n b z ∧ ∀ i < n, y i 0 = (z i i)⁻¹) ∧
          (r = false → FailF u n b)) := by
    intro k
    induction k with
    | zero =>
      intro i hi m z y h hc hy
      obtain rfl : i = n := by omega
      simp only [fsytrfCrout, Run_pure]
      exact ⟨z, y, h, fun _ => ⟨hc.stop, hy⟩, fun hh => absurd hh (by simp)⟩
    | succ k ih =>
      intro i hi m z y h hc hy
      have hin : i < n := by omega
      have hl : n ≤ lda := h.ldW
      simp only [fsytrfCrout]
      rw [show n - (k + 1) = i by omega, Run_bind, Run_alloc]
      change Run _ (m.grow i) _
      have hW := h.left
      have hT := h.right
      have okX : OkIn (m.grow i) (vw m.next 1 i) := OkIn.grow_le m (by omega)
      have dX : ∀ a, (vw m.next 1 i).Has a → m.next ≤ a := by
        rintro a ⟨i, _, j, _, rfl⟩
        simp only [Win.adr, vw]; omega
      have dS : ∀ {W : Win}, OkIn m W → W.Disj (vw m.next 1 i) := fun hw a ha hx => by
        have := hW.wf' a (dX a hx)
        rw [hw a ha] at this; exact absurd this (by simp)
      rw [Run_bind]
      refine (Run_store_loop (n := i) (fun t => m.next + t) (fun t => Spec.op (lowTr u) z i t * y t 0)
        (fun t ht => by have := OkIn_vw okX ht; rwa [Nat.mul_one] at this) (fun s _ t _ e => by omega) ?_).mono ?_
      · intro t ht m1 o1 v1
        have eA : A + i * sytInc u lda + t * sytSel u lda 1 = opAdr (lowTr u) A lda i t := by
          cases u <;> simp only [opAdr, lowTr, sytInc, sytSel] <;> ring
        have oA := oa_ok (u := u) (i := i) (j := t) hW hin (by omega)
        have vA := oa_val (u := u) (i := i) (j := t) hW hin (by omega)
        have oD := OkIn_vw hT.ok' (i := t) (by omega : t < n)
        have vD : m.val (D + t * incD) = y t 0 := by
          have := hT.val (i := t) (j := 0) (by simp only [vw]; omega) Nat.one_pos
          simpa [Win.adr, vw] using this
        have na : ∀ a, m.ok a = true → ∀ s < t, a ≠ m.next + s := fun a ha s hs e => by
          have := hW.wf' a (by omega)
          rw [ha] at this; exact absurd this (by simp)
        have oT : m1.ok (m.next + t) = true := by
          rw [o1]; have := OkIn_vw okX ht; rwa [Nat.mul_one] at this
        rw [eA, Run_bind, Run_load, o1]
        refine ⟨grow_ok' oA, ?_⟩
        rw [Run_bind, Run_load, o1]
        refine ⟨grow_ok' oD, ?_⟩
        rw [Run_store]
        refine ⟨oT, ?_⟩
        rw [v1 _ (na _ oA), v1 _ (na _ oD)]
        change Mem.set m1 _ (m.val _ * m.val _) = _
        rw [vA, vD]
      · rintro _ m1 ⟨o1, x1, v1, f1⟩
        have s1 : Step (m.grow i) m1 (vw m.next 1 i) (fun t _ => Spec.op (lowTr u) z i t * y t 0) := by
          refine ⟨o1, x1.ge, fun t ht j hj => ?_, fun a _ hn => f1 a (fun t ht e => hn ⟨t, ht, 0, Nat.one_pos, ?_⟩)⟩
          · obtain rfl : j = 0 := by simpa [vw] using hj
            have := v1 t ht
            simpa [Win.adr, vw] using this
          · simp [Win.adr, vw, e]
        have s1' : On (m.grow i) m1 (vw m.next 1 i) (fun t _ => Spec.op (lowTr u) z i t * y t 0) := ⟨hW.wf'.grow i, okX, le_rfl, s1⟩
        have hW2 : On m1 m1 ⟨A, lda, n, n⟩ z := ((hW.src.grow i).step s1 (dS hW.ok')).toOn s1'.wf'
        have hT2 := ((hT.src.grow i).step s1 (dS hT.ok')).toOn s1'.wf'
        rw [Run_bind]
        refine (syt_gemv cat (τ := fun t => Spec.op (lowTr u) z i t * y t 0) hin hW2 s1'.src (dS hW.ok').symm).mono ?_
        rintro _ m2 ⟨z', h2, e2⟩
        rw [Run_bind, Run_free]
        have h4 := h.temp3 dX s1' hT2 h2
        change Run _ (m2.drop m.next i) _
        generalize m2.drop m.next i = m4 at h4 ⊢
        have e2' : ∀ p q, Spec.op (lowTr u) z' p q = if q = i ∧ i ≤ p ∧ p < n then Spec.op (lowTr u) z p i -
            ∑ l ∈ range i, Spec.op (lowTr u) z p l * (Spec.op (lowTr u) z i l * (z l l)⁻¹) else Spec.op (lowTr u) z p q := fun p q => by
          rw [e2]
          congr 2
          exact sum_congr rfl (fun l hl => by rw [hy l (mem_range.1 hl)])
        have oA := oa_ok (u := u) (i := i) (j := i) h4.left hin hin
        have vA := oa_val (u := u) (i := i) (j := i) h4.left hin hin
        have eY : A + i * (lda + 1) = opAdr (lowTr u) A lda i i := by cases u <;> simp only [opAdr, lowTr] <;> ring
        rw [eY, Run_bind, Run_load]
        refine ⟨oA, ?_⟩
        rw [vA, op_diag]
        rif c
        · rw [Run_pure]
          exact ⟨_, _, h4, fun hh => absurd hh (by simp), fun _ => hc.fail hin e2' c⟩
        · rw [Run_bind, Run_liftE]
          simp only [Ok_invE]
          refine ⟨c, ?_⟩
          have hD := OkIn_vw h4.right.ok' (i := i) hin
          have h5 := h4.ofT (h4.right.set (i := i) (j := 0) (x := (z' i i)⁻¹) hin Nat.one_pos)
          simp only [Win.adr_mk, vw, Nat.add_zero] at h5
          rw [Run_bind, Run_store]
          refine ⟨hD, ?_⟩
          refine ih (i + 1) (by omega) _ z' _ h5 (hc.next hin e2' c) (fun l hl => ?_)
          by_cases q : l = i
          · subst q
            rw [show (0 : ℕ) = 0 + 0 from rfl, upd_in' (by omega)]
          · rw [upd_out (by omega), hy l (by omega)]
            have := e2' l l
            rw [if_neg (by omega), op_diag, op_diag] at this
            rw [this]
  exact key n 0 (by omega) m0 b U h CroutF.start (fun l hl => by omega)

/-- the final scaling -/
lemma syt_scale (cat : Cat) {y : ℕ → K} (h : On m m ⟨A, lda, n, n⟩ V) (hS : Src m (vw D 1 n) (fun l _ => y l))
    (hd : (vw D 1 n).Disj ⟨A, lda, n, n⟩) :
    Run (loop n fun i => do
      let d ← load (D + i)
      vscalin cat (n - i - 1) d (A + i * (lda + 1) + sytInc u lda) (sytInc u lda)) m (fun _ m' => ∃ V', On m m' ⟨A, lda, n, n⟩ V' ∧
        ∀ p < n, ∀ q ≤ p, Spec.op (lowTr u) V' p q = if q < p then y q * Spec.op (lowTr u) V p q else Spec.op (lowTr u) V p q) := by
  have hl : n ≤ lda := h.ld
  refine (Run_loop (I := fun t m' => ∃ V', On m m' ⟨A, lda, n, n⟩ V' ∧ ∀ p < n, ∀ q ≤ p, Spec.op (lowTr u) V' p q =
      if q < p ∧ q < t then y q * Spec.op (lowTr u) V p q else Spec.op (lowTr u) V p q)
    ⟨V, h, fun p _ q _ => by rw [if_neg (by omega)]⟩ ?_).mono ?_
  · rintro t m1 ht ⟨V1, h1, e1⟩
    have hI := sytInc_pos u (lda := lda) (by omega)
    have hS1 := hS.on h1 hd
    have hv := hS1.val t ht 0 Nat.one_pos
    have ho := hS1.ok.adr (i := t) (j := 0) ht Nat.one_pos
    simp only [Win.adr_mk, vw, Nat.mul_one, Nat.add_zero] at hv ho
    rw [Run_bind, Run_load]
    refine ⟨ho, ?_⟩
    rw [hv]
    have eX : A + t * (lda + 1) + sytInc u lda = opAdr (lowTr u) A lda (t + 1) t := by
      cases u <;> simp only [opAdr, lowTr, sytInc] <;> ring
    rw [eX]
    refine (vscalin_spec cat (y t) h1.wf' (oseg_ok (i := t + 1) (j := t) h1 (by omega) (by omega)) hI).mono ?_
    intro _ m2 s
    obtain ⟨V2, h2, e2⟩ := h1.oseg (i := t + 1) (j := t) (by omega) (by omega) s
    refine ⟨V2, h2, fun p hp q hq => ?_⟩
    rw [e2]
    by_cases c : q = t ∧ q < p
    · obtain ⟨rfl, c⟩ := c
      rw [if_pos (by omega), if_pos (by omega), oa_add, show q + 1 + (p - (q + 1)) = p by omega, oa_val h1 hp (by omega), e1 p hp q hq,
        if_neg (by omega)]
    · rw [if_neg (by omega), e1 p hp q hq]
      exact if_congr (by omega) rfl rfl
  · rintro _ m' ⟨V', h1, e1⟩
    refine ⟨V', h1, fun p hp q hq => ?_⟩
    rw [e1 p hp q hq]
    exact if_congr (by omega) rfl rfl

/-- `fsytrf` -/
lemma fsytrf_on (cat : Cat) {bc : SytrfFn K} {ts : TrFn K} {sk : SyrkDFn K} (ht : TrsmOk ts) (hk : SyrkDOk sk) {thr : ℕ} (h1 : 1 ≤ thr)
    (hb : ∀ n ≤ thr, SytOk u lda 1 n (fun A D => bc u n A lda D 1)) (h : On m m ⟨A, lda, n, n⟩ b) :
    Run (fsytrf cat bc ts sk u n A lda thr) m (fun r m' =>
      (r = true → ∃ z Z, NonF u n b z ∧ On m m' ⟨A, lda, n, n⟩ Z ∧ ∀ p < n, ∀ q ≤ p, Spec.op (lowTr u) Z p q =
        if q < p then (z q q)⁻¹ * Spec.op (lowTr u) z p q else Spec.op (lowTr u) z p q) ∧
      (r = false → FailF u n b ∧ m'.ok = (m.grow n).ok ∧ ∀ a, m.ok a = true → ¬ (Win.mk A lda n n).Has a → m'.val a = m.val a)) := by
  obtain ⟨U, hU⟩ := On2.start (r := n) (c := 1) h
  simp only [fsytrf]
  rw [Run_bind, Run_alloc]
  change Run _ (m.grow n) _
  rw [Nat.mul_one] at hU
  rw [Run_bind]
  refine (fsytrfNonunit_ok ht hk h1 hb (n + 1) n (by omega) (by omega) (m.grow n) A m.next b U hU).mono ?_
  rintro r m1 ⟨z, y, g1, ht1, hf1⟩
  rif c
  · rw [Run_pure]
    refine ⟨fun hh => absurd hh (by simp), fun _ => ⟨hf1 c, g1.ok, fun a ha hw => g1.frame a (grow_ok' ha) hw ?_⟩⟩
    rintro ⟨i, hi, j, hj, rfl⟩
    have := h.wf' ((vw m.next 1 n).adr i j) (by simp only [Win.adr, vw]; omega)
    rw [ha] at this; exact absurd this (by simp)
  · obtain ⟨N1, Y1⟩ := ht1 (by simpa using c)
    rw [Run_bind]
    refine (syt_scale (u := u) cat (y := fun l => y l 0) g1.left (g1.right.src.congr (fun i _ j hj => ?_)) g1.disj.symm).mono ?_
    · obtain rfl : j = 0 := by simpa [vw] using hj
      rfl
    · rintro _ m2 ⟨Z, h2, e2⟩
      rw [Run_bind, Run_free, Run_pure]
      have h3 := g1.ofW h2
      have := On2.stop (r := n) (c := 1) h (by rw [Nat.mul_one]; exact h3)
      rw [Nat.mul_one] at this
      refine ⟨fun _ => ⟨z, Z, N1, this, fun p hp q hq => ?_⟩, fun hh => absurd hh (by simp)⟩
      rw [e2 p hp q hq, Y1 q (by omega)]

end

end Verif.FF
