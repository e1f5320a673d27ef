import Verif.Proofs.FsyrkDiag

/-!
# Correctness of symmetric rank-2k updates
-/

namespace Verif.FF

open Finset Verif.Spec

variable {K : Type}

section
variable {m0 m m' : Mem K} {W : Win} {V : ℕ → ℕ → K} {n : ℕ}

lemma diag_adr (W : Win) (i : ℕ) : W.p + i * (W.ld + 1) = W.adr i i := by simp only [Win.adr]; ring

lemma diag_Has {a : ℕ} (h : (vw W.p (W.ld + 1) n).Has a) : ∃ i < n, a = W.adr i i := by
  obtain ⟨i, hi, z, hz, rfl⟩ := h
  have hz : z = 0 := by simpa [vw] using hz
  subst hz
  exact ⟨i, hi, diag_adr W i⟩

/-- a kernel has rewritten the diagonal -/
lemma On.diagStep {g : ℕ → K} (h : On m0 m W V) (hr : n = W.r) (hc : n = W.c) (s : Step m m' (vw W.p (W.ld + 1) n) (fun i _ => g i)) :
    On m0 m' W (fun i j => if i = j then g i else V i j) := by
  refine h.trans ⟨h.wf', h.ok', h.ld, s.ok, s.next, fun i hi j hj => ?_, fun a ha hn => s.frame a ha (fun q => ?_)⟩
  · by_cases q : i = j
    · subst q
      rw [if_pos rfl, ← diag_adr]
      exact s.val i (hr ▸ hi) 0 Nat.one_pos
    · rw [if_neg q, s.frame _ (h.okc hi hj) (fun hh => ?_), h.val hi hj]
      obtain ⟨i', hi', e⟩ := diag_Has hh
      have := h.inj i hi j hj i' (by omega) i' (by omega) e
      omega
  · obtain ⟨i, hi, rfl⟩ := diag_Has q
    exact hn (Win.Has_adr (by omega) (by omega))

lemma On.diagOk (h : On m0 m W V) (hr : n = W.r) (hc : n = W.c) : OkIn m (vw W.p (W.ld + 1) n) := fun a ha => by
  obtain ⟨i, hi, rfl⟩ := diag_Has ha
  exact h.okc (by omega) (by omega)

lemma On.diagVal (h : On m0 m W V) (hr : n = W.r) (hc : n = W.c) {i : ℕ} (hi : i < n) : m.val (W.p + i * (W.ld + 1)) = V i i := by
  rw [diag_adr]; exact h.val (by omega) (by omega)

end

section
variable [Field K] [DecidableEq K]
variable {m0 m m' : Mem K} {W : Win} {V : ℕ → ℕ → K} {n : ℕ}

/-- a row segment added to the column segment in symmetric position -/
lemma addTr_on (cat : Cat) (h : On m0 m W V) {i a len : ℕ} (hir : i < W.r) (hic : i < W.c) (har : a + len ≤ W.r) (hac : a + len ≤ W.c) :
    Run (vaddin cat len (W.adr i a) 1 (W.adr a i) W.ld) m
      (fun _ m' => On m0 m' W (upd a i len 1 (fun t _ => V i (a + t) + V (a + t) i) V)) := by
  have hld := h.ld
  have ax : ∀ t, W.adr i a + t * 1 = W.adr i (a + t) := fun t => by simp only [Win.adr]; ring
  have ay : ∀ t, W.adr a i + t * W.ld = W.adr (a + t) i := fun t => by simp only [Win.adr]; ring
  have hX : OkIn m (vw (W.adr i a) 1 len) := by
    rintro _ ⟨t, ht, z, hz, rfl⟩
    have hz : z = 0 := by simpa [vw] using hz
    have ht : t < len := ht
    subst hz
    show m.ok (W.adr i a + t * 1) = true
    rw [ax]; exact h.okc hir (by omega)
  have hY : OkIn m (vw (W.adr a i) W.ld len) := by
    rintro _ ⟨t, ht, z, hz, rfl⟩
    have hz : z = 0 := by simpa [vw] using hz
    have ht : t < len := ht
    subst hz
    show m.ok (W.adr a i + t * W.ld) = true
    rw [ay]; exact h.okc (by omega) hic
  refine (vaddin_spec cat hX hY ?_ (by omega)).mono (fun _ m' s => h.colStep har hic (s.congr (fun t ht _ _ => ?_)))
  · intro t ht z hz t' ht' z' hz' e
    have hz : z = 0 := by simpa [vw] using hz
    have hz' : z' = 0 := by simpa [vw] using hz'
    subst hz hz'
    have ht : t < len := ht
    have ht' : t' < len := ht'
    have e : W.adr i a + t * 1 = W.adr a i + t' * W.ld := e
    rw [ax, ay] at e
    have := h.inj i hir (a + t) (by omega) (a + t') (by omega) i hic e
    omega
  · have ht : t < len := ht
    rw [ax, ay, h.val hir (by omega), h.val (by omega) hic]

/-- for all columns -/
lemma addTr_loop (cat : Cat) (h : On m0 m W V) (hr : n = W.r) (hc : n = W.c) (beg len : ℕ → ℕ) (P : ℕ → ℕ → Prop) [∀ a b, Decidable (P a b)]
    (hseg : ∀ i < n, beg i + len i ≤ n) (hP : ∀ i < n, ∀ a < n, P a i ↔ beg i ≤ a ∧ a < beg i + len i)
    (hro : ∀ i < n, ∀ a, beg i ≤ a → a < i → ¬ P i a) :
    Run (loop n fun i => vaddin cat (len i) (W.adr i (beg i)) 1 (W.adr (beg i) i) W.ld) m
      (fun _ m' => On m0 m' W (fun a b => if P a b then V b a + V a b else V a b)) := by
  refine (Run_loop (fun i m' => On m0 m' W (fun a b => if b < i ∧ P a b then V b a + V a b else V a b)) ?_ ?_).mono
    (fun _ m' h' => h'.congr (fun a _ b hb => ?_))
  · exact h.congr (fun a _ b _ => by rw [if_neg (by omega)])
  · intro i m1 hi h1
    refine (addTr_on cat h1 (i := i) (a := beg i) (len := len i) (by omega) (by omega) (by have := hseg i hi; omega)
      (by have := hseg i hi; omega)).mono (fun _ m2 h2 => h2.congr (fun a ha b hb => ?_))
    have sg := hseg i hi
    by_cases q : b = i
    · subst q
      by_cases c : P a b
      · have cc := (hP b hi a (by omega)).1 c
        have e1 : beg b + (a - beg b) = a := by omega
        rw [upd_in' (by omega)]
        refine Eq.trans ?_ (if_pos (show b < b + 1 ∧ P a b from ⟨by omega, c⟩)).symm
        rw [e1, if_neg (fun q => hro b hi a cc.1 q.1 q.2), if_neg (fun q => absurd q.1 (lt_irrefl b))]
      · have cc : ¬ (beg b ≤ a ∧ a < beg b + len b) := fun q => c ((hP b hi a (by omega)).2 q)
        rw [upd_out (by omega), if_neg (fun q => c q.2), if_neg (fun q => c q.2)]
    · rw [upd_out (by omega)]
      by_cases c : b < i ∧ P a b
      · rw [if_pos c, if_pos ⟨by omega, c.2⟩]
      · rw [if_neg c, if_neg (fun q => c ⟨by omega, q.2⟩)]
  · have hb : b < n := by omega
    by_cases c : P a b
    · rw [if_pos ⟨hb, c⟩, if_pos c]
    · rw [if_neg (fun q => c q.2), if_neg c]

/-- zeroing the triangle that is not selected -/
lemma zeroTr_on (u : Uplo) {C ldc : ℕ} (h : On m0 m ⟨C, ldc, n, n⟩ V) :
    Run (loop n fun i => match u with
      | .upper => vzero i (C + i * ldc) 1
      | .lower => vzero i (C + i) ldc) m (fun _ m' => On m0 m' ⟨C, ldc, n, n⟩ (fun a b => if inHalf u a b then V a b else 0)) := by
  have hld : n ≤ ldc := h.ld
  cases u with
  | upper =>
    refine (Run_loop (fun i m' => On m0 m' ⟨C, ldc, n, n⟩ (fun a b => if a < i ∧ b < a then 0 else V a b)) ?_ ?_).mono
      (fun _ m' h' => h'.congr (fun a ha b hb => ?_))
    · exact h.congr (fun a _ b _ => by rw [if_neg (by omega)])
    · intro i m1 hi h1
      have e : C + i * ldc = (Win.mk C ldc n n).adr i 0 := rfl
      rw [e]
      refine (vzero_spec (X := (Win.mk C ldc n n).adr i 0) (incX := 1) (n := i) ?_ Nat.one_pos).mono (fun _ m2 s => ?_)
      · rintro _ ⟨t, ht, z, hz, rfl⟩
        have hz : z = 0 := by simpa [vw] using hz
        have ht : t < i := ht
        subst hz
        have := h1.okc (i := i) (j := t) hi (show t < n by omega)
        simpa [vw, Win.adr] using this
      · refine (h1.rowStep (i := i) (j := 0) (n := i) hi (show 0 + i ≤ n by omega) s).congr (fun a ha b hb => ?_)
        by_cases c : a = i ∧ b < i
        · rw [upd_in' (by omega), if_pos (by omega)]
        · rw [upd_out (by omega)]
          by_cases c' : a < i ∧ b < a
          · rw [if_pos c', if_pos (by omega)]
          · rw [if_neg c', if_neg (by omega)]
    · have ha : a < n := ha
      show _ = if a ≤ b then _ else _
      by_cases c : a ≤ b
      · rw [if_neg (by omega), if_pos c]
      · rw [if_pos (by omega), if_neg c]
  | lower =>
    refine (Run_loop (fun i m' => On m0 m' ⟨C, ldc, n, n⟩ (fun a b => if b < i ∧ a < b then 0 else V a b)) ?_ ?_).mono
      (fun _ m' h' => h'.congr (fun a ha b hb => ?_))
    · exact h.congr (fun a _ b _ => by rw [if_neg (by omega)])
    · intro i m1 hi h1
      have e : C + i = (Win.mk C ldc n n).adr 0 i := by simp [Win.adr]
      rw [e]
      refine (vzero_spec (X := (Win.mk C ldc n n).adr 0 i) (incX := ldc) (n := i) ?_ (by omega)).mono (fun _ m2 s => ?_)
      · rintro _ ⟨t, ht, z, hz, rfl⟩
        have hz : z = 0 := by simpa [vw] using hz
        have ht : t < i := ht
        subst hz
        have := h1.okc (i := t) (j := i) (show t < n by omega) hi
        simpa [vw, Win.adr, Nat.add_assoc, Nat.add_comm, Nat.add_left_comm] using this
      · refine (h1.colStep (i := 0) (j := i) (n := i) (show 0 + i ≤ n by omega) hi s).congr (fun a ha b hb => ?_)
        by_cases c : b = i ∧ a < i
        · rw [upd_in' (by omega), if_pos (by omega)]
        · rw [upd_out (by omega)]
          by_cases c' : b < i ∧ a < b
          · rw [if_pos c', if_pos (by omega)]
          · rw [if_neg c', if_neg (by omega)]
    · have hb : b < n := hb
      show _ = if b ≤ a then _ else _
      by_cases c : b ≤ a
      · rw [if_neg (by omega), if_pos c]
      · rw [if_pos (by omega), if_neg c]

/-- entry of the result of a rank-2k update -/
def sy2Val (k : ℕ) (alpha beta : K) (x y V : ℕ → ℕ → K) (i j : ℕ) : K :=
  alpha * (∑ l ∈ range k, x i l * y j l + ∑ l ∈ range k, y i l * x j l) + beta * V i j

variable {u : Uplo} {t : Tr} {k A lda B ldb C ldc : ℕ} {x y : ℕ → ℕ → K} {g : GemmFn K}

lemma fsyr2kCore_on (cat : Cat) (hg : GemmOk g) (alpha beta : K) (h : On m0 m ⟨C, ldc, n, n⟩ V) (hA : OSrc m t n k A lda x)
    (hB : OSrc m t n k B ldb y) (hdA : (aw t n k A lda).Disj ⟨C, ldc, n, n⟩) (hdB : (aw t n k B ldb).Disj ⟨C, ldc, n, n⟩) :
    Run (fsyr2kCore cat g u t n k alpha A lda B ldb beta C ldc) m (fun _ m' => On m0 m' ⟨C, ldc, n, n⟩
      (halfUpd u (sy2Val k alpha beta x y V) (fun i j => alpha * ∑ l ∈ range k, x i l * y j l))) := by
  have w0 : (Win.mk C ldc n n).sub 0 0 n n = ⟨C, ldc, n, n⟩ := by simp [Win.sub, Win.adr]
  unfold fsyr2kCore
  -- zeroing and product, common to both cases
  have mid : ∀ (mz : Mem K) (m1 : Mem K) (V1 : ℕ → ℕ → K), On mz m1 ⟨C, ldc, n, n⟩ V1 → OSrc m1 t n k A lda x → OSrc m1 t n k B ldb y →
      Run (do
        loop n fun i => match u with
          | .upper => vzero i (C + i * ldc) 1
          | .lower => vzero i (C + i) ldc
        g t (oppTr t) n n k alpha A lda B ldb beta C ldc) m1 (fun _ m' => On mz m' ⟨C, ldc, n, n⟩ (fun i j =>
          alpha * (∑ l ∈ range k, x i l * y j l) + beta * (if inHalf u i j then V1 i j else 0))) := by
    intro mz m1 V1 h1 hA1 hB1
    rw [Run_bind]
    refine (zeroTr_on u h1.here).mono (fun _ m2 h2 => ?_)
    refine (gemm_o hg (h1.trans h2) (hA1.on h2 hdA) (hB1.on h2 hdB).flip 0 0 (by simp) (by simp) (by rw [w0]; exact hdA)
      (by rw [w0, aw_flip]; exact hdB) alpha beta (C := C) (by simp [Win.adr])).mono (fun _ m3 h3 => h3.congr (fun i hi j hj => ?_))
    have hi : i < n := hi
    have hj : j < n := hj
    rw [upd_in' (by omega)]
    simp only [Nat.zero_add, Nat.sub_zero]
  have hld : n ≤ ldc := h.ld
  have symS : ∀ i j, ∑ l ∈ range k, y i l * x j l = ∑ l ∈ range k, x j l * y i l := fun i j => sum_congr rfl (fun l _ => mul_comm _ _)
  by_cases c2 : (2 : K) ≠ 0
  · simp only [if_pos c2, Run_bind, Run_pure]
    refine (Run_liftE _ _ _).2 ((Ok_invE _ _).2 ⟨c2, ?_⟩)
    refine (vscalin_spec cat _ h.wf' (h.diagOk (n := n) rfl rfl) (by omega)).mono (fun _ m1 s1 => ?_)
    have h1 := h.here.diagStep (W := ⟨C, ldc, n, n⟩) (g := fun i => (2 : K)⁻¹ * V i i) rfl rfl (s1.congr (fun i hi j _ => by
      rw [h.diagVal (W := ⟨C, ldc, n, n⟩) (n := n) rfl rfl hi]))
    have r := mid m m1 _ h1 (hA.on h1 hdA) (hB.on h1 hdB)
    rw [Run_bind] at r
    refine r.mono (fun _ m2 r2 => r2.mono (fun _ m3 h3 => ?_))
    have fin : ∀ i < n, ∀ j < n, inHalf u i j →
        (alpha * (∑ l ∈ range k, x j l * y i l) + beta * (if inHalf u j i then (if j = i then (2 : K)⁻¹ * V j j else V j i) else 0)) +
        (alpha * (∑ l ∈ range k, x i l * y j l) + beta * (if inHalf u i j then (if i = j then (2 : K)⁻¹ * V i i else V i j) else 0)) =
        sy2Val k alpha beta x y V i j := by
      intro i hi j hj c
      unfold sy2Val
      rw [symS]
      by_cases q : i = j
      · subst q
        rw [if_pos c, if_pos rfl]
        field_simp
        ring
      · have q' : ¬ inHalf u j i := by cases u <;> simp only [inHalf] at * <;> omega
        rw [if_pos c, if_neg q', if_neg q]
        ring
    have out : ∀ i < n, ∀ j < n, ¬ inHalf u i j →
        alpha * (∑ l ∈ range k, x i l * y j l) + beta * (if inHalf u i j then (if i = j then (2 : K)⁻¹ * V i i else V i j) else 0) =
        alpha * ∑ l ∈ range k, x i l * y j l := by
      intro i _ j _ c
      rw [if_neg c, mul_zero, add_zero]
    have res : ∀ m4, On m m4 ⟨C, ldc, n, n⟩ (fun a b => if inHalf u a b then
        (alpha * (∑ l ∈ range k, x b l * y a l) + beta * (if inHalf u b a then (if b = a then (2 : K)⁻¹ * V b b else V b a) else 0)) +
        (alpha * (∑ l ∈ range k, x a l * y b l) + beta * (if inHalf u a b then (if a = b then (2 : K)⁻¹ * V a a else V a b) else 0))
        else alpha * (∑ l ∈ range k, x a l * y b l) + beta * (if inHalf u a b then (if a = b then (2 : K)⁻¹ * V a a else V a b) else 0)) →
        On m0 m4 ⟨C, ldc, n, n⟩ (halfUpd u (sy2Val k alpha beta x y V) (fun i j => alpha * ∑ l ∈ range k, x i l * y j l)) := by
      intro m4 h4
      refine h.trans (h4.congr (fun i hi j hj => ?_))
      unfold halfUpd
      by_cases c : inHalf u i j
      · exact (if_pos c).trans ((fin i hi j hj c).trans (if_pos c).symm)
      · exact (if_neg c).trans ((out i hi j hj c).trans (if_neg c).symm)
    cases u with
    | upper =>
      have l1 := addTr_loop cat h3 (n := n) rfl rfl (fun _ => 0) (fun i => i + 1) (inHalf .upper) (fun i hi => by omega)
        (fun i _ a _ => by simp only [inHalf]; omega) (fun i _ a _ q => by simp only [inHalf]; omega)
      simp only [Win.adr, Nat.add_zero, Nat.zero_mul] at l1
      exact l1.mono (fun _ m4 h4 => res m4 h4)
    | lower =>
      have l1 := addTr_loop cat h3 (n := n) rfl rfl (fun i => i) (fun i => n - i) (inHalf .lower) (fun i hi => by omega)
        (fun i _ a _ => by simp only [inHalf]; omega) (fun i _ a _ q => by omega)
      simp only [Win.adr] at l1
      exact l1.mono (fun _ m4 h4 => res m4 h4)
  · have c20 : (2 : K) = 0 := not_not.1 c2
    simp only [if_neg c2, Run_bind, Run_pure, Run_alloc]
    show Run _ (m.grow n) _
    obtain ⟨U, st⟩ := On2.start (r := n) (c := 1) h.here
    rw [Nat.mul_one] at st
    have dT : (Win.mk C ldc n n).Disj ⟨m.next, 1, n, 1⟩ := st.disj
    refine (vscal_spec cat beta st.left.wf (st.left.diagOk (n := n) rfl rfl) (X := C) (incX := ldc + 1) (Y := m.next) (incY := 1) (n := n)
      st.right.ok ?_ (by omega) Nat.one_pos).mono (fun _ m1 s1 => ?_)
    · refine Win.Disj.safe (fun a ha hb => ?_) rfl rfl
      obtain ⟨i, hi, rfl⟩ := diag_Has (W := ⟨C, ldc, n, n⟩) ha
      exact dT _ (Win.Has_adr (W := ⟨C, ldc, n, n⟩) hi hi) hb
    have o1 : On (m.grow n) m1 ⟨m.next, 1, n, 1⟩ (fun i _ => beta * V i i) := ⟨st.right.wf, st.right.ok, le_rfl, s1.congr (fun i hi j _ => by
      rw [st.left.diagVal (W := ⟨C, ldc, n, n⟩) (n := n) rfl rfl hi])⟩
    have t1 := st.ofT o1
    have hA1 : OSrc m1 t n k A lda x := (hA.grow n).on o1 (Disj_new h.wf' hA.ok)
    have hB1 : OSrc m1 t n k B ldb y := (hB.grow n).on o1 (Disj_new h.wf' hB.ok)
    have r := mid m1 m1 _ t1.left hA1 hB1
    rw [Run_bind] at r
    refine r.mono (fun _ m2 r2 => r2.mono (fun _ m3 h3 => ?_))
    -- last part: copy of the diagonal
    have last : ∀ m4 V4, On m1 m4 ⟨C, ldc, n, n⟩ V4 → (∀ i < n, ∀ j < n, i ≠ j → V4 i j = halfUpd u (sy2Val k alpha beta x y V)
        (fun i j => alpha * ∑ l ∈ range k, x i l * y j l) i j) →
        Run (vassign n m.next 1 C (ldc + 1)) m4 (fun _ m' => Run (free m.next n) m' (fun _ m' => On m0 m' ⟨C, ldc, n, n⟩
          (halfUpd u (sy2Val k alpha beta x y V) (fun i j => alpha * ∑ l ∈ range k, x i l * y j l)))) := by
      intro m4 V4 h4 e4
      have t4 := t1.ofW h4
      refine (vassign_spec (X := m.next) (incX := 1) (Y := C) (incY := ldc + 1) (n := n) t4.right.ok (t4.left.diagOk (n := n) rfl rfl)
        ?_ (by omega)).mono (fun _ m5 s5 => ?_)
      · refine Win.Disj.safe (fun a ha hb => ?_) rfl rfl
        obtain ⟨i, hi, rfl⟩ := diag_Has (W := ⟨C, ldc, n, n⟩) hb
        exact dT _ (Win.Has_adr (W := ⟨C, ldc, n, n⟩) hi hi) ha
      have h5 := t4.left.diagStep (W := ⟨C, ldc, n, n⟩) (g := fun i => beta * V i i) rfl rfl (s5.congr (fun i hi j _ => by
        have := t4.valT i hi 0 Nat.one_pos
        simpa [Win.adr] using this))
      rw [Run_free]
      have t5 := t4.ofW h5
      have st5 := On2.stop (r := n) (c := 1) (m' := m5) h (by rw [Nat.mul_one]; exact t5)
      rw [Nat.mul_one] at st5
      refine st5.congr (fun i hi j hj => ?_)
      by_cases q : i = j
      · subst q
        have c : inHalf u i i := by cases u <;> exact le_rfl
        rw [if_pos rfl, halfUpd, if_pos c, sy2Val, symS, ← two_mul, c20, zero_mul, mul_zero, zero_add]
      · rw [if_neg q]; exact e4 i hi j hj q
    have fin : ∀ i < n, ∀ j < n, i ≠ j → inHalf u i j →
        (alpha * (∑ l ∈ range k, x j l * y i l) + beta * (if inHalf u j i then V j i else 0)) +
        (alpha * (∑ l ∈ range k, x i l * y j l) + beta * (if inHalf u i j then V i j else 0)) =
        sy2Val k alpha beta x y V i j := by
      intro i hi j hj q c
      unfold sy2Val
      rw [symS]
      have q' : ¬ inHalf u j i := by cases u <;> simp only [inHalf] at * <;> omega
      rw [if_pos c, if_neg q']
      ring
    cases u with
    | upper =>
      have l1 := addTr_loop cat h3 (n := n) rfl rfl (fun _ => 0) (fun i => i) (fun a b => a < b) (fun i hi => by omega)
        (fun i _ a _ => by omega) (fun i _ a _ q => by omega)
      simp only [Win.adr, Nat.add_zero, Nat.zero_mul] at l1
      refine l1.mono (fun _ m4 h4 => last m4 _ h4 (fun i hi j hj q => ?_))
      unfold halfUpd
      by_cases c : i < j
      · have c' : inHalf .upper i j := c.le
        exact (if_pos c).trans ((fin i hi j hj q c').trans (if_pos c').symm)
      · have c' : ¬ inHalf .upper i j := by simp only [inHalf]; omega
        refine (if_neg c).trans (Eq.trans ?_ (if_neg c').symm)
        rw [if_neg c', mul_zero, add_zero]
    | lower =>
      have l1 := addTr_loop cat h3 (n := n) rfl rfl (fun i => i + 1) (fun i => n - i - 1) (fun a b => b < a) (fun i hi => by omega)
        (fun i _ a _ => by omega) (fun i _ a _ q => by omega)
      simp only [Win.adr] at l1
      refine l1.mono (fun _ m4 h4 => last m4 _ h4 (fun i hi j hj q => ?_))
      unfold halfUpd
      by_cases c : j < i
      · have c' : inHalf .lower i j := c.le
        exact (if_pos c).trans ((fin i hi j hj q c').trans (if_pos c').symm)
      · have c' : ¬ inHalf .lower i j := by simp only [inHalf]; omega
        refine (if_neg c).trans (Eq.trans ?_ (if_neg c').symm)
        rw [if_neg c', mul_zero, add_zero]

/-- exact effect of `fsyr2k`: for `k = 0`, `C` is scaled by `beta` twice; the other triangle is overwritten -/
lemma fsyr2k_on (cat : Cat) (hg : GemmOk g) (alpha beta : K) (h : On m0 m ⟨C, ldc, n, n⟩ V) (hA : OSrc m t n k A lda x)
    (hB : OSrc m t n k B ldb y) (hdA : (aw t n k A lda).Disj ⟨C, ldc, n, n⟩) (hdB : (aw t n k B ldb).Disj ⟨C, ldc, n, n⟩) :
    Run (fsyr2k cat g u t n k alpha A lda B ldb beta C ldc) m (fun _ m' => On m0 m' ⟨C, ldc, n, n⟩
      (halfUpd u (sy2Val k alpha beta x y (fun i j => if k = 0 then beta * V i j else V i j))
        (fun i j => alpha * ∑ l ∈ range k, x i l * y j l))) := by
  unfold fsyr2k
  rif c0
  · rw [Run_pure]; subst c0
    exact h.congr (fun i hi => absurd hi (by simp))
  rw [Run_bind]
  rif c1
  · refine (fscalin_on cat beta h.here).mono (fun _ m1 h1 => ?_)
    simp only [if_pos c1]
    exact (fsyr2kCore_on cat hg alpha beta h1 (hA.on h1 hdA) (hB.on h1 hdB) hdA hdB).mono (fun _ m2 h2 => h.trans h2)
  · rw [Run_pure]
    simp only [if_neg c1]
    exact fsyr2kCore_on cat hg alpha beta h hA hB hdA hdB

end

end Verif.FF
