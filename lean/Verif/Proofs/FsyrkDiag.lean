import Verif.Proofs.Fsyrk

/-!
# Symmetric rank-k updates with a diagonal or block diagonal matrix in the middle
-/

namespace Verif.FF

open Finset Verif.Spec

variable {K : Type}

section
variable {m0 m m' m1 m2 m3 : Mem K} {W T X : Win} {V V' U U' τ V1 U1 : ℕ → ℕ → K}

lemma grow_ok' {n a : ℕ} (h : m.ok a = true) : (m.grow n).ok a = true := by simp [Mem.grow, h]

/-- recursive call on a block of each of the two matrices -/
lemma On2.lift {i0 j0 r c a b r' c' : ℕ} (h : On2 m0 m W V T U) (hr : i0 + r ≤ W.r) (hc : j0 + c ≤ W.c) (hr' : a + r' ≤ T.r)
    (hc' : b + c' ≤ T.c) (s : On2 m m' (W.sub i0 j0 r c) V1 (T.sub a b r' c') U1) :
    On2 m0 m' W (upd i0 j0 r c V1 V) T (upd a b r' c' U1 U) := by
  have iW : W.Inj := Win.Inj_of_le (Or.inl h.ldW)
  have iT : T.Inj := Win.Inj_of_le (Or.inl h.ldT)
  refine ⟨h.wf, h.okW, h.okT, h.ldW, h.ldT, h.disj, s.ok.trans h.ok, h.next.trans s.next, ?_, ?_, ?_⟩
  · intro i hi j hj
    by_cases q : i0 ≤ i ∧ i < i0 + r ∧ j0 ≤ j ∧ j < j0 + c
    · rw [upd_in' q]
      have := s.valW (i - i0) (by simp only [Win.sub]; omega) (j - j0) (by simp only [Win.sub]; omega)
      rwa [Win.sub_adr, show i0 + (i - i0) = i by omega, show j0 + (j - j0) = j by omega] at this
    · rw [upd_out (by omega), s.frame _ (by rw [h.ok]; exact h.okW.adr hi hj) ?_ ?_, h.valW i hi j hj]
      · rintro ⟨x, hx, y, hy, e⟩
        have hx : x < r := hx
        have hy : y < c := hy
        rw [Win.sub_adr] at e
        have := iW _ hi _ hj _ (by omega) _ (by omega) e
        omega
      · exact fun q => h.disj _ (Win.Has_adr hi hj) (Win.sub_Has hr' hc' q)
  · intro i hi j hj
    by_cases q : a ≤ i ∧ i < a + r' ∧ b ≤ j ∧ j < b + c'
    · rw [upd_in' q]
      have := s.valT (i - a) (by simp only [Win.sub]; omega) (j - b) (by simp only [Win.sub]; omega)
      rwa [Win.sub_adr, show a + (i - a) = i by omega, show b + (j - b) = j by omega] at this
    · rw [upd_out (by omega), s.frame _ (by rw [h.ok]; exact h.okT.adr hi hj) ?_ ?_, h.valT i hi j hj]
      · exact fun q => h.disj _ (Win.sub_Has hr hc q) (Win.Has_adr hi hj)
      · rintro ⟨x, hx, y, hy, e⟩
        have hx : x < r' := hx
        have hy : y < c' := hy
        rw [Win.sub_adr] at e
        have := iT _ hi _ hj _ (by omega) _ (by omega) e
        omega
  · intro x hx hw ht
    rw [s.frame x (by rw [h.ok]; exact hx) (fun q => hw (Win.sub_Has hr hc q)) (fun q => ht (Win.sub_Has hr' hc' q)), h.frame x hx hw ht]

/-- the state seen by a recursive call -/
lemma On2.sub {i0 j0 r c a b r' c' : ℕ} (h : On2 m0 m W V T U) (hr : i0 + r ≤ W.r) (hc : j0 + c ≤ W.c) (hr' : a + r' ≤ T.r)
    (hc' : b + c' ≤ T.c) : On2 m m (W.sub i0 j0 r c) (blk V i0 j0) (T.sub a b r' c') (blk U a b) := by
  have h1 := h.left.sub hr hc
  have h2 := h.right.sub hr' hc'
  exact ⟨h1.wf, h1.ok, h2.ok, h1.ld, h2.ld, (h.disj.sub_left hr hc).sub_right hr' hc', rfl, le_rfl, h1.step.val, h2.step.val, fun _ _ _ _ => rfl⟩

lemma On2.congr (h : On2 m0 m W V T U) (eV : ∀ i < W.r, ∀ j < W.c, V i j = V' i j) (eU : ∀ i < T.r, ∀ j < T.c, U i j = U' i j) :
    On2 m0 m W V' T U' :=
  ⟨h.wf, h.okW, h.okT, h.ldW, h.ldT, h.disj, h.ok, h.next, fun i hi j hj => (h.valW i hi j hj).trans (eV i hi j hj),
    fun i hi j hj => (h.valT i hi j hj).trans (eU i hi j hj), h.frame⟩

/-- a temporary block is filled, then both matrices are written, then the block is freed -/
lemma On2.temp3 {N : ℕ} (h : On2 m0 m W V T U) (hX : ∀ a, X.Has a → m.next ≤ a) (s1 : On (m.grow N) m1 X τ) (s2 : On m1 m2 T U')
    (s3 : On m2 m3 W V') : On2 m0 (m3.drop m.next N) W V' T U' := by
  have hwf := h.left.wf
  have s := Step.of_temp (m1 := m3) (n := N) (W := ⟨0, 0, 0, 0⟩) (g := fun _ _ => m.val 0)
    hwf (s3.step.ok.trans (s2.step.ok.trans s1.step.ok))
    (s1.step.next.trans (s2.step.next.trans s3.step.next)) (fun i hi => absurd hi (by simp)) (m := { m with val := m3.val })
    (fun _ _ _ => rfl)
  have ok1 : m1.ok = (m.grow N).ok := s1.step.ok
  have ok2 : m2.ok = (m.grow N).ok := s2.step.ok.trans ok1
  refine ⟨h.wf, h.okW, h.okT, h.ldW, h.ldT, h.disj, s.ok.trans h.ok, h.next.trans s.next, s3.step.val, ?_, ?_⟩
  · intro i hi j hj
    show m3.val _ = _
    rw [s3.step.frame _ (by rw [ok2]; exact grow_ok' (by rw [h.ok]; exact h.okT.adr hi hj))
      (fun hw => h.disj _ hw (Win.Has_adr hi hj)), s2.step.val i hi j hj]
  · intro a ha hw ht
    have ha' : m.ok a = true := by rw [h.ok]; exact ha
    show m3.val _ = _
    rw [s3.step.frame a (by rw [ok2]; exact grow_ok' ha') hw, s2.step.frame a (by rw [ok1]; exact grow_ok' ha') ht,
      s1.step.frame a (grow_ok' ha') (fun q => ?_)]
    · exact h.frame a ha hw ht
    · have := hwf a (hX a q)
      rw [ha'] at this; exact absurd this (by simp)

lemma Src.on2 {S : Win} {f : ℕ → ℕ → K} (h : Src m S f) (s : On2 m m' W V T U) (h1 : S.Disj W) (h2 : S.Disj T) : Src m' S f :=
  ⟨fun a ha => by rw [s.ok]; exact h.ok a ha, h.ld, fun i hi j hj => by
    rw [s.frame _ (h.ok.adr hi hj) (h1 _ (Win.Has_adr hi hj)) (h2 _ (Win.Has_adr hi hj)), h.val i hi j hj]⟩

lemma Src.grow {S : Win} {f : ℕ → ℕ → K} (h : Src m S f) (N : ℕ) : Src (m.grow N) S f := ⟨h.ok.grow N, h.ld, h.val⟩

lemma OSrc.grow {t : Tr} {n k A lda : ℕ} {x : ℕ → ℕ → K} (h : OSrc m t n k A lda x) (N : ℕ) : OSrc (m.grow N) t n k A lda x :=
  ⟨h.ok.grow N, h.ld, h.val⟩

/-- a window at the beginning of a fresh block -/
lemma OkIn.grow_le (m : Mem K) {r c N : ℕ} (h : r * c ≤ N) : OkIn (m.grow N) ⟨m.next, c, r, c⟩ := by
  rintro a ⟨i, hi, j, hj, rfl⟩
  have hi : i < r := hi
  have hj : j < c := hj
  have ht := flat_lt hi hj
  simp only [Mem.grow, Win.adr, Bool.or_eq_true, Bool.and_eq_true, decide_eq_true_eq]
  right; omega

end

section
variable {m0 m m' : Mem K} {t : Tr} {n k A lda l : ℕ} {x : ℕ → ℕ → K}

lemma col_adr (t : Tr) (A lda l : ℕ) : A + l * incCol t lda = opAdr t A lda 0 l := by
  cases t <;> simp only [opAdr, incCol] <;> ring

lemma col_row (t : Tr) (A lda i l : ℕ) : opAdr t A lda 0 l + i * incRow t lda = opAdr t A lda i l := by
  cases t <;> simp only [opAdr, incRow] <;> ring

lemma incRow_pos (hl : l < k) (h : opc t n k ≤ lda) : 0 < incRow t lda := by
  cases t
  · simp only [opc, incRow] at *; omega
  · exact Nat.one_pos

/-- a kernel has rewritten a column of `op(A)` -/
lemma ocol_step {g : ℕ → K} (h : On m0 m (aw t n k A lda) (op t x)) (hl : l < k)
    (s : Step m m' (vw (opAdr t A lda 0 l) (incRow t lda) n) (fun i _ => g i)) :
    On m0 m' (aw t n k A lda) (op t (fun i l' => if l' = l then g i else x i l')) := by
  cases t with
  | no =>
    have e : opAdr .no A lda 0 l = (aw .no n k A lda).adr 0 l := by simp [opAdr, Win.adr]
    rw [e] at s
    refine (h.colStep (i := 0) (j := l) (n := n) (by simp [opr]) hl s).congr (fun i hi j hj => ?_)
    have hi : i < n := hi
    show _ = if j = l then g i else x i j
    by_cases q : j = l
    · rw [upd_in' (by omega), if_pos q, Nat.sub_zero]
    · rw [upd_out (by omega), if_neg q]; rfl
  | yes =>
    have e : opAdr .yes A lda 0 l = (aw .yes n k A lda).adr l 0 := by simp [opAdr, Win.adr]
    rw [e] at s
    refine (h.rowStep (i := l) (j := 0) (n := n) hl (by simp [opc]) s).congr (fun i hi j hj => ?_)
    have hj : j < n := hj
    show _ = if i = l then g j else x j i
    by_cases q : i = l
    · rw [upd_in' (by omega), if_pos q, Nat.sub_zero]
    · rw [upd_out (by omega), if_neg q]; rfl

lemma ocol_Has {a : ℕ} (hl : l < k) (h : (vw (opAdr t A lda 0 l) (incRow t lda) n).Has a) : (aw t n k A lda).Has a := by
  obtain ⟨i, hi, z, hz, rfl⟩ := h
  have hz : z = 0 := by simpa [vw] using hz
  subst hz
  have e : (vw (opAdr t A lda 0 l) (incRow t lda) n).adr i 0 = opAdr t A lda i l := by
    exact col_row t A lda i l
  rw [e]; exact op_Has hi hl

lemma OSrc.col (h : OSrc m t n k A lda x) (hl : l < k) : OkIn m (vw (opAdr t A lda 0 l) (incRow t lda) n) :=
  fun a ha => h.ok a (ocol_Has hl ha)

lemma On.osrc (h : On m0 m (aw t n k A lda) (op t x)) : OSrc m t n k A lda x := h.src.osrc

end

section
variable [Field K] [DecidableEq K]
variable {m0 m m' : Mem K} {t : Tr} {n k A lda D incD : ℕ} {x : ℕ → ℕ → K} {d : ℕ → K}

/-- scaling the columns in place -/
lemma scaleCol_on (cat : Cat) {l : ℕ} (a : K) (h : On m0 m (aw t n k A lda) (op t x)) (hl : l < k) :
    Run (vscalin cat n a (A + l * incCol t lda) (incRow t lda)) m (fun _ m' =>
      On m0 m' (aw t n k A lda) (op t (fun i l' => if l' = l then a * x i l else x i l'))) := by
  rw [col_adr]
  refine (vscalin_spec cat a h.wf' (h.osrc.col hl) (incRow_pos hl h.ld)).mono (fun _ m' s => ocol_step h hl (s.congr (fun i hi j _ => ?_)))
  rw [col_row, h.osrc.val i hi l hl]

/-- a column of one matrix, scaled, copied to another -/
lemma scalColTo_on (cat : Cat) {l l' B ldb : ℕ} {y : ℕ → ℕ → K} (a : K) (h : On m0 m (aw t n k A lda) (op t x)) (hB : OSrc m t n k B ldb y)
    (hl : l < k) (hl' : l' < k) (hd : (aw t n k B ldb).Disj (aw t n k A lda)) :
    Run (vscal cat n a (B + l' * incCol t ldb) (incRow t ldb) (A + l * incCol t lda) (incRow t lda)) m (fun _ m' =>
      On m0 m' (aw t n k A lda) (op t (fun i j => if j = l then a * y i l' else x i j))) := by
  rw [col_adr, col_adr]
  refine (vscal_spec cat a h.wf' (hB.col hl') (h.osrc.col hl) ?_ (incRow_pos hl' hB.ld) (incRow_pos hl h.ld)).mono
    (fun _ m' s => ocol_step h hl (s.congr (fun i hi j _ => ?_)))
  · exact Win.Disj.safe (fun b hb hb' => hd b (ocol_Has hl' hb) (ocol_Has hl hb')) rfl rfl
  · rw [col_row, hB.val i hi l' hl']

/-- a column of a matrix, scaled, copied to another column -/
lemma moveCol_on (cat : Cat) {l l' : ℕ} (a : K) (h : On m0 m (aw t n k A lda) (op t x)) (hl : l < k) (hl' : l' < k) (hne : l' ≠ l) :
    Run (vscal cat n a (A + l' * incCol t lda) (incRow t lda) (A + l * incCol t lda) (incRow t lda)) m (fun _ m' =>
      On m0 m' (aw t n k A lda) (op t (fun i j => if j = l then a * x i l' else x i j))) := by
  rw [col_adr, col_adr]
  refine (vscal_spec cat a h.wf' (h.osrc.col hl') (h.osrc.col hl) ?_ (incRow_pos hl' h.ld) (incRow_pos hl h.ld)).mono
    (fun _ m' s => ocol_step h hl (s.congr (fun i hi j _ => ?_)))
  · refine Win.Disj.safe (fun b hb hb' => ?_) rfl rfl
    obtain ⟨i, hi, z, hz, rfl⟩ := hb
    obtain ⟨i', hi', z', hz', e⟩ := hb'
    have hz : z = 0 := by simpa [vw] using hz
    have hz' : z' = 0 := by simpa [vw] using hz'
    subst hz hz'
    have hi : i < n := hi
    have hi' : i' < n := hi'
    have e : opAdr t A lda i l' = opAdr t A lda i' l := by
      rw [← col_row, ← col_row t A lda i' l]; exact e
    have inj := h.inj
    cases t with
    | no => exact hne (inj i hi l' hl' i' hi' l hl e).2
    | yes => exact hne (inj l' hl' i hi l hl i' hi' e).1
  · rw [col_row, h.osrc.val i hi l' hl']

omit [Field K] [DecidableEq K] in
lemma D_rd (hD : Src m (vw D incD k) (fun l _ => d l)) {l : ℕ} (hl : l < k) : m.ok (D + l * incD) = true ∧ m.val (D + l * incD) = d l :=
  ⟨OkIn_vw hD.ok hl, by have := hD.val l hl 0 Nat.one_pos; simpa [Win.adr, vw] using this⟩

end

section
variable [Field K] [DecidableEq K]
variable {m0 m m' : Mem K} {t : Tr} {k lda D incD : ℕ} {d : ℕ → K} {u : Uplo} {alpha beta : K} {C ldc n : ℕ} {g : GemmFn K}
variable (e : (ℕ → K) → ℕ → K)

/-- the result of `fsyrk` with a matrix `M` in the middle, where `e` is the product of a row by `M`: `A` becomes `A M`, and the selected
triangle of `C` becomes `alpha A M Aᵀ + beta C` -/
def MidPost (u : Uplo) (t : Tr) (n k : ℕ) (alpha : K) (A lda : ℕ) (beta : K) (C ldc : ℕ) (x V : ℕ → ℕ → K) (m m' : Mem K) : Prop :=
  ∃ V', On2 m m' ⟨C, ldc, n, n⟩ V' (aw t n k A lda) (op t (fun i => e (x i))) ∧
    ∀ i < n, ∀ j < n, inHalf u i j → V' i j = alpha * (∑ l ∈ range k, e (x i) l * x j l) + beta * V i j

/-- `MidPost` holds after `p n A C` whenever it is called properly -/
def MidOk (u : Uplo) (t : Tr) (k : ℕ) (alpha : K) (lda D incD : ℕ) (beta : K) (ldc : ℕ) (d : ℕ → K) (p : ℕ → ℕ → Prog K Unit) (n : ℕ) : Prop :=
  ∀ (m : Mem K) A C x V, On2 m m ⟨C, ldc, n, n⟩ V (aw t n k A lda) (op t x) → Src m (vw D incD k) (fun l _ => d l) →
    (vw D incD k).Disj ⟨C, ldc, n, n⟩ → (vw D incD k).Disj (aw t n k A lda) →
    Run (p A C) m (fun _ m' => MidPost e u t n k alpha A lda beta C ldc x V m m')

/-- the base case, `p temp` multiplying `A` in place -/
def baseProg (g : GemmFn K) (t : Tr) (n k : ℕ) (alpha : K) (A lda : ℕ) (beta : K) (C ldc : ℕ) (p : ℕ → Prog K Unit) : Prog K Unit := do
  let temp ← alloc (n * k)
  fassign (opr t n k) (opc t n k) A lda temp (opc t n k)
  p temp
  g t (oppTr t) n n k alpha A lda temp (opc t n k) beta C ldc
  free temp (n * k)

omit [DecidableEq K] in
lemma aw_new_Has {temp a : ℕ} (h : (aw t n k temp (opc t n k)).Has a) : temp ≤ a := by
  obtain ⟨i, _, j, _, rfl⟩ := h
  simp only [Win.adr]; omega

omit [Field K] [DecidableEq K] in
lemma aw_new_ok (m : Mem K) {N : ℕ} (h : n * k ≤ N) : OkIn (m.grow N) (aw t n k m.next (opc t n k)) := by
  refine OkIn.grow_le m ?_
  cases t
  · exact h
  · simp only [opr, opc]; rw [Nat.mul_comm]; exact h

omit [Field K] [DecidableEq K] in
lemma aw_new_Disj (hm : WF m) {W : Win} (h : OkIn m W) : W.Disj (aw t n k m.next (opc t n k)) := Disj_new hm h

omit [Field K] [DecidableEq K] in
lemma On.new (hm : WF m) {N : ℕ} (h : n * k ≤ N) :
    On (m.grow N) (m.grow N) (aw t n k m.next (opc t n k)) ((m.grow N).mat (aw t n k m.next (opc t n k))) :=
  On.start (hm.grow N) (aw_new_ok m h) le_rfl

lemma mid_base (hg : GemmOk g) {A : ℕ} {x V : ℕ → ℕ → K} {p : ℕ → Prog K Unit} (h : On2 m m ⟨C, ldc, n, n⟩ V (aw t n k A lda) (op t x))
    (hD : Src m (vw D incD k) (fun l _ => d l)) (hDA : (vw D incD k).Disj (aw t n k A lda))
    (hp : ∀ m1 temp, On m1 m1 (aw t n k A lda) (op t x) → OSrc m1 t n k temp (opc t n k) x →
      (aw t n k temp (opc t n k)).Disj (aw t n k A lda) → Src m1 (vw D incD k) (fun l _ => d l) →
      Run (p temp) m1 (fun _ m2 => On m1 m2 (aw t n k A lda) (op t (fun i => e (x i))))) :
    Run (baseProg g t n k alpha A lda beta C ldc p) m (fun _ m' => MidPost e u t n k alpha A lda beta C ldc x V m m') := by
  unfold baseProg
  simp only [Run_bind, Run_alloc]
  show Run _ (m.grow (n * k)) _
  have hwf := h.left.wf
  have st := On.new (t := t) (n := n) (k := k) hwf le_rfl
  have hA : Src (m.grow (n * k)) (aw t n k A lda) (op t x) := h.right.src.grow _
  have dT : (aw t n k A lda).Disj (aw t n k m.next (opc t n k)) := aw_new_Disj hwf h.okT
  have dW : (Win.mk C ldc n n).Disj (aw t n k m.next (opc t n k)) := aw_new_Disj hwf h.okW
  have dD : (vw D incD k).Disj (aw t n k m.next (opc t n k)) := aw_new_Disj hwf hD.ok
  refine (fassign_src st hA dT (i0 := 0) (j0 := 0) (by simp) (by simp) (B := m.next) (by simp [Win.adr])).mono (fun _ m1 s1 => ?_)
  have s1 : On (m.grow (n * k)) m1 (aw t n k m.next (opc t n k)) (op t x) := s1.congr (fun i hi j hj => by
    have hi : i < opr t n k := hi
    have hj : j < opc t n k := hj
    show upd 0 0 (opr t n k) (opc t n k) _ _ i j = _
    rw [upd_in' (by omega)]; rfl)
  have hA1 : On m1 m1 (aw t n k A lda) (op t x) := by
    have := hA.on s1 dT
    exact ⟨s1.wf', this.ok, this.ld, Step.refl this.val⟩
  have hT1 : OSrc m1 t n k m.next (opc t n k) x := s1.osrc
  refine (hp m1 m.next hA1 hT1 dT.symm ((hD.grow _).on s1 dD)).mono (fun _ m2 s2 => ?_)
  have hT2 : OSrc m2 t n k m.next (opc t n k) x := hT1.on s2 dT.symm
  have hC1 : Src m1 ⟨C, ldc, n, n⟩ V := (h.left.src.grow _).on s1 dW
  have hC2 : Src m2 ⟨C, ldc, n, n⟩ V := hC1.on s2 h.disj
  have hO2 : On m2 m2 ⟨C, ldc, n, n⟩ V := ⟨s2.wf', hC2.ok, hC2.ld, Step.refl hC2.val⟩
  have w0 : (Win.mk C ldc n n).sub 0 0 n n = ⟨C, ldc, n, n⟩ := by simp [Win.sub, Win.adr]
  refine (gemm_o hg hO2 s2.osrc hT2.flip 0 0 (by simp) (by simp) (by rw [w0]; exact h.disj.symm)
    (by rw [w0, aw_flip]; exact dW.symm) alpha beta (C := C) (by simp [Win.adr])).mono (fun _ m3 s3 => ?_)
  rw [Run_free]
  refine ⟨_, h.temp3 (N := n * k) (fun a => aw_new_Has) s1 s2 s3, fun i hi j hj _ => ?_⟩
  rw [upd_in' (by omega)]
  simp only [Nat.zero_add, Nat.sub_zero]

/-- the recursive case, `fill` multiplying a copy of the lower part of `A` -/
def recProg (g : GemmFn K) (u : Uplo) (t : Tr) (n n1 k : ℕ) (alpha : K) (A lda : ℕ) (beta : K) (C ldc : ℕ) (fill : ℕ → ℕ → ℕ → Prog K Unit)
    (r1 r2 : ℕ → ℕ → Prog K Unit) : Prog K Unit := do
  let n2 := n - n1
  let temp ← alloc (max n2 n1 * k)
  fill (A + n1 * incRow t lda) temp (opc t n2 k)
  let _ ← (match u with
    | .upper => g t (oppTr t) n1 n2 k alpha A lda temp (opc t n2 k) beta (C + n1) ldc
    | .lower => g t (oppTr t) n2 n1 k alpha temp (opc t n2 k) A lda beta (C + n1 * ldc) ldc)
  free temp (max n2 n1 * k)
  r1 A C
  r2 (A + n1 * incRow t lda) (C + n1 + n1 * ldc)

/-- `op(A)` seen from row `i0` on, as a block of the stored matrix -/
lemma aw_rows (t : Tr) (n' k A lda i0 n : ℕ) : aw t n' k (opAdr t A lda i0 0) lda =
    (aw t n k A lda).sub (match t with | .no => i0 | .yes => 0) (match t with | .no => 0 | .yes => i0) (opr t n' k) (opc t n' k) := by
  cases t <;> simp [Win.sub, Win.adr, opAdr]

omit [DecidableEq K] in
/-- recursive call on rows `i0 …` of `op(A)` and a diagonal block of `C` -/
lemma On2.rowsSub {A i0 n' : ℕ} {x V : ℕ → ℕ → K} (h : On2 m0 m ⟨C, ldc, n, n⟩ V (aw t n k A lda) (op t x)) (hn : i0 + n' ≤ n) :
    On2 m m ⟨C + i0 * ldc + i0, ldc, n', n'⟩ (blk V i0 i0) (aw t n' k (opAdr t A lda i0 0) lda) (op t (fun i l => x (i0 + i) l)) := by
  have hW : (Win.mk C ldc n n).sub i0 i0 n' n' = ⟨C + i0 * ldc + i0, ldc, n', n'⟩ := rfl
  rw [aw_rows t n' k A lda i0 n, ← hW]
  refine (h.sub (i0 := i0) (j0 := i0) (r := n') (c := n') hn hn ?_ ?_).congr (fun _ _ _ _ => rfl) ?_
  · cases t <;> simp [opr] <;> omega
  · cases t <;> simp [opc] <;> omega
  · intro i _ j _
    cases t <;> simp [blk, op]

omit [DecidableEq K] in
lemma On2.rowsLift {A i0 n' : ℕ} {x V V1 y : ℕ → ℕ → K} (h : On2 m0 m ⟨C, ldc, n, n⟩ V (aw t n k A lda) (op t x)) (hn : i0 + n' ≤ n)
    (s : On2 m m' ⟨C + i0 * ldc + i0, ldc, n', n'⟩ V1 (aw t n' k (opAdr t A lda i0 0) lda) (op t y)) :
    On2 m0 m' ⟨C, ldc, n, n⟩ (upd i0 i0 n' n' V1 V) (aw t n k A lda)
      (op t (fun i l => if i0 ≤ i ∧ i < i0 + n' then y (i - i0) l else x i l)) := by
  have hW : (Win.mk C ldc n n).sub i0 i0 n' n' = ⟨C + i0 * ldc + i0, ldc, n', n'⟩ := rfl
  rw [aw_rows t n' k A lda i0 n, ← hW] at s
  refine (h.lift (W := ⟨C, ldc, n, n⟩) hn hn ?_ ?_ s).congr (fun _ _ _ _ => rfl) ?_
  · cases t <;> simp [opr] <;> omega
  · cases t <;> simp [opc] <;> omega
  · intro i hi j hj
    cases t with
    | no =>
      have hj : j < k := hj
      show upd i0 0 n' k y x i j = if _ then _ else _
      by_cases q : i0 ≤ i ∧ i < i0 + n'
      · rw [if_pos q, upd_in' (by omega), Nat.sub_zero]
      · rw [if_neg q, upd_out (by omega)]
    | yes =>
      have hi : i < k := hi
      show upd 0 i0 k n' (op .yes y) (op .yes x) i j = if _ then _ else _
      by_cases q : i0 ≤ j ∧ j < i0 + n'
      · rw [if_pos q, upd_in' (by omega), Nat.sub_zero]; rfl
      · rw [if_neg q, upd_out (by omega)]; rfl

lemma mid_rec (hg : GemmOk g) {A n1 : ℕ} {x V : ℕ → ℕ → K} {fill : ℕ → ℕ → ℕ → Prog K Unit} {r1 r2 : ℕ → ℕ → Prog K Unit}
    (hsym : ∀ a b : ℕ → K, ∑ l ∈ range k, a l * e b l = ∑ l ∈ range k, e a l * b l) (hn1 : n1 ≤ n)
    (h : On2 m m ⟨C, ldc, n, n⟩ V (aw t n k A lda) (op t x)) (hD : Src m (vw D incD k) (fun l _ => d l))
    (hDC : (vw D incD k).Disj ⟨C, ldc, n, n⟩) (hDA : (vw D incD k).Disj (aw t n k A lda))
    (hf : ∀ m1 A2 temp y τ, OSrc m1 t (n - n1) k A2 lda y → On m1 m1 (aw t (n - n1) k temp (opc t (n - n1) k)) τ →
      (aw t (n - n1) k A2 lda).Disj (aw t (n - n1) k temp (opc t (n - n1) k)) → Src m1 (vw D incD k) (fun l _ => d l) →
      (vw D incD k).Disj (aw t (n - n1) k temp (opc t (n - n1) k)) →
      Run (fill A2 temp (opc t (n - n1) k)) m1 (fun _ m2 =>
        On m1 m2 (aw t (n - n1) k temp (opc t (n - n1) k)) (op t (fun i => e (y i)))))
    (h1 : MidOk e u t k alpha lda D incD beta ldc d r1 n1) (h2 : MidOk e u t k alpha lda D incD beta ldc d r2 (n - n1)) :
    Run (recProg g u t n n1 k alpha A lda beta C ldc fill r1 r2) m (fun _ m' => MidPost e u t n k alpha A lda beta C ldc x V m m') := by
  unfold recProg
  simp only [Run_bind, Run_alloc, opAdr_row]
  set N := max (n - n1) n1 * k with eN
  show Run _ (m.grow N) _
  set n2 := n - n1 with en2
  set W : Win := ⟨C, ldc, n, n⟩ with eW
  have hwf := h.left.wf
  have hNle : n2 * k ≤ N := Nat.mul_le_mul_right _ (le_max_left _ _)
  have st := On.new (t := t) (n := n2) (k := k) hwf hNle
  have hA : OSrc m t n k A lda x := h.right.osrc
  have dT : (aw t n k A lda).Disj (aw t n2 k m.next (opc t n2 k)) := aw_new_Disj hwf h.okT
  have dW : W.Disj (aw t n2 k m.next (opc t n2 k)) := aw_new_Disj hwf h.okW
  have dD : (vw D incD k).Disj (aw t n2 k m.next (opc t n2 k)) := aw_new_Disj hwf hD.ok
  have hA2 := (hA.sub n1 0 (n' := n2) (k' := k) (by omega) (by omega)).grow N
  have d2 : (aw t n2 k (opAdr t A lda n1 0) lda).Disj (aw t n2 k m.next (opc t n2 k)) := aw_sub_Disj (by omega) (by omega) dT
  refine (hf _ _ m.next _ _ hA2 st d2 (hD.grow N) dD).mono (fun _ m1 s1 => ?_)
  have hA1 : OSrc m1 t n k A lda x := (hA.grow N).on s1 dT
  have hA11 := hA1.sub 0 0 (n' := n1) (k' := k) (by omega) (by omega)
  have z0 : opAdr t A lda 0 0 = A := by cases t <;> simp [opAdr]
  rw [z0] at hA11
  have hC1 : Src m1 W V := (h.left.src.grow N).on s1 dW
  have hO1 : On m1 m1 W V := ⟨s1.wf', hC1.ok, hC1.ld, Step.refl hC1.val⟩
  have dA1 : (aw t n1 k A lda).Disj W := by
    have := aw_sub_Disj (i0 := 0) (l0 := 0) (n' := n1) (k' := k) (by omega) (by omega) h.disj.symm
    rwa [z0] at this
  -- the off-diagonal block
  have key : Run (match u with
      | .upper => g t (oppTr t) n1 n2 k alpha A lda m.next (opc t n2 k) beta (C + n1) ldc
      | .lower => g t (oppTr t) n2 n1 k alpha m.next (opc t n2 k) A lda beta (C + n1 * ldc) ldc) m1 (fun _ m2 => ∃ V2, On m1 m2 W V2 ∧
        (∀ i < n, ∀ j < n, (i < n1 ∧ j < n1) ∨ (n1 ≤ i ∧ n1 ≤ j) → V2 i j = V i j) ∧
        ∀ i < n, ∀ j < n, inHalf u i j → (i < n1 ∧ n1 ≤ j) ∨ (n1 ≤ i ∧ j < n1) →
          V2 i j = alpha * (∑ l ∈ range k, e (x i) l * x j l) + beta * V i j) := by
    cases u with
    | upper =>
      refine (gemm_o hg hO1 hA11 s1.osrc.flip 0 n1 (by simp [eW]; omega) (by simp [eW]; omega)
        (dA1.sub_right (by simp [eW]; omega) (by simp [eW]; omega)) ?_ alpha beta (C := C + n1) (by simp [Win.adr, eW])).mono ?_
      · rw [aw_flip]; exact dW.symm.sub_right (by simp [eW]; omega) (by simp [eW]; omega)
      · intro _ m2 s2
        refine ⟨_, s2, fun i hi j hj q => upd_out (by omega), fun i hi j hj hh q => ?_⟩
        have hh : i ≤ j := hh
        rw [upd_in' (by omega)]
        simp only [Nat.zero_add, Nat.sub_zero]
        rw [show n1 + (j - n1) = j by omega, hsym]
    | lower =>
      refine (gemm_o hg hO1 s1.osrc hA11.flip n1 0 (by simp [eW]; omega) (by simp [eW]; omega)
        (dW.symm.sub_right (by simp [eW]; omega) (by simp [eW]; omega)) ?_ alpha beta (C := C + n1 * ldc) (by simp [Win.adr, eW])).mono ?_
      · rw [aw_flip]; exact dA1.sub_right (by simp [eW]; omega) (by simp [eW]; omega)
      · intro _ m2 s2
        refine ⟨_, s2, fun i hi j hj q => upd_out (by omega), fun i hi j hj hh q => ?_⟩
        have hh : j ≤ i := hh
        rw [upd_in' (by omega)]
        simp only [Nat.zero_add, Nat.sub_zero]
        rw [show n1 + (i - n1) = i by omega]
  refine key.mono ?_
  rintro _ m2 ⟨V2, s2, e20, e21⟩
  rw [Run_free]
  have hAo : On m1 m1 (aw t n k A lda) (op t x) := by
    have := hA1.src
    exact ⟨s1.wf', this.ok, this.ld, Step.refl this.val⟩
  have h3 := h.temp3 (N := N) (fun a => aw_new_Has) s1 hAo s2
  show Run _ (m2.drop m.next N) _
  generalize m2.drop m.next N = m3 at h3
  have hD3 : Src m3 (vw D incD k) (fun l _ => d l) := hD.on2 h3 hDC hDA
  have c1 := h3.rowsSub (i0 := 0) (n' := n1) (by omega)
  rw [z0, Nat.zero_mul, Nat.add_zero] at c1
  have sA1 : ∀ a, (aw t n1 k A lda).Has a → (aw t n k A lda).Has a := fun a ha =>
    aw_sub_Has (i0 := 0) (l0 := 0) (n' := n1) (k' := k) (by omega) (by omega) (by rwa [z0])
  have sC1 : ∀ a, (Win.mk C ldc n1 n1).Has a → W.Has a := fun a ha =>
    Win.Has_mono (W := ⟨C, ldc, n1, n1⟩) (V := W) rfl rfl hn1 hn1 ha
  refine (h1 m3 A C _ _ c1 hD3 (fun a ha hb => hDC a ha (sC1 a hb)) (fun a ha hb => hDA a ha (sA1 a hb))).mono ?_
  rintro _ m4 ⟨V4, s4, e4⟩
  have h4 := h3.rowsLift (i0 := 0) (n' := n1) (y := fun i => e (fun l => x (0 + i) l)) (V1 := V4) (m' := m4) (by omega)
    (by rw [z0, Nat.zero_mul, Nat.add_zero]; exact s4)
  have hD4 : Src m4 (vw D incD k) (fun l _ => d l) := hD.on2 h4 hDC hDA
  have c2 := h4.rowsSub (i0 := n1) (n' := n2) (by omega)
  rw [show C + n1 * ldc + n1 = C + n1 + n1 * ldc by ring] at c2
  refine (h2 m4 _ _ _ _ c2 hD4 (fun a ha hb => hDC a ha ?_) (fun a ha hb => hDA a ha (aw_sub_Has (by omega) (by omega) hb))).mono ?_
  · refine Win.sub_Has (W := W) (i := n1) (j := n1) (r' := n2) (c' := n2) (by simp [eW]; omega) (by simp [eW]; omega) ?_
    have : W.sub n1 n1 n2 n2 = ⟨C + n1 + n1 * ldc, ldc, n2, n2⟩ := by simp only [Win.sub, Win.adr, eW]; congr 1; ring
    rw [this]; exact hb
  rintro _ m5 ⟨V5, s5, e5⟩
  have h5 := h4.rowsLift (i0 := n1) (n' := n2) (V1 := V5) (m' := m5) (by omega)
    (by rw [show C + n1 * ldc + n1 = C + n1 + n1 * ldc by ring]; exact s5)
  refine ⟨_, h5.congr (fun _ _ _ _ => rfl) (U' := op t (fun i => e (x i))) ?_, ?_⟩
  · have cl : ∀ i < n, ∀ l < k, (if n1 ≤ i ∧ i < n1 + n2 then e (fun l => if 0 ≤ n1 + (i - n1) ∧ n1 + (i - n1) < 0 + n1 then
        e (fun l => x (0 + (n1 + (i - n1) - 0)) l) l else x (n1 + (i - n1)) l) l
        else if 0 ≤ i ∧ i < 0 + n1 then e (fun l => x (0 + (i - 0)) l) l else x i l) = e (x i) l := by
      intro i hi l _
      by_cases q : n1 ≤ i
      · rw [if_pos (by omega)]
        have : ¬ (0 ≤ i ∧ i < 0 + n1) := by omega
        simp only [show n1 + (i - n1) = i by omega, if_neg this]
      · rw [if_neg (by omega), if_pos (by omega)]
        simp only [Nat.zero_add, Nat.sub_zero]
    intro i hi j hj
    cases t with
    | no => exact cl i hi j hj
    | yes => exact cl j hj i hi
  · intro i hi j hj hh
    have half' : n1 ≤ i → n1 ≤ j → inHalf u (i - n1) (j - n1) := fun q1 q2 => by
      cases u <;> simp only [inHalf] at * <;> omega
    by_cases q : n1 ≤ i ∧ n1 ≤ j
    · rw [upd_in' (by omega), e5 _ (by omega) _ (by omega) (half' q.1 q.2)]
      have b0 : blk (upd 0 0 n1 n1 V4 V2) n1 n1 (i - n1) (j - n1) = V i j := by
        simp only [blk]
        rw [upd_out (by omega), e20 _ (by omega) _ (by omega) (by omega)]
        congr 1 <;> omega
      rw [b0]
      have r1 : ¬ (0 ≤ i ∧ i < 0 + n1) := by omega
      have r2 : ¬ (0 ≤ j ∧ j < 0 + n1) := by omega
      simp only [show n1 + (i - n1) = i by omega, show n1 + (j - n1) = j by omega, if_neg r1, if_neg r2]
    · rw [upd_out (by omega)]
      by_cases q' : i < n1 ∧ j < n1
      · rw [upd_in' (by omega), Nat.sub_zero, Nat.sub_zero, e4 i q'.1 j q'.2 hh]
        simp only [blk, Nat.zero_add]
        rw [e20 i hi j hj (Or.inl q')]
      · rw [upd_out (by omega), e21 i hi j hj hh (by omega)]

end

section
variable [Field K] [DecidableEq K]
variable {m0 m m' : Mem K} {t : Tr} {k lda D incD : ℕ} {d : ℕ → K} {u : Uplo} {alpha beta : K} {C ldc n : ℕ} {g : GemmFn K}

/-- `fsyrk` with a diagonal matrix -/
lemma fsyrkDiag_ok (cat : Cat) (hg : GemmOk g) {thr : ℕ} (ht : 1 ≤ thr) (fuel n : ℕ) (hf : n ≤ fuel) (hf1 : 1 ≤ fuel) :
    MidOk (fun r l => d l * r l) u t k alpha lda D incD beta ldc d (fsyrkDiag cat g thr u t k alpha lda D incD beta ldc fuel n) n := by
  induction fuel generalizing n with
  | zero => omega
  | succ fuel ih =>
    intro m A C x V h hD hDC hDA
    simp only [fsyrkDiag]
    rif c0
    · refine mid_base _ hg (p := fun _ => loop k fun l => do
        let d ← load (D + l * incD)
        vscalin cat n d (A + l * incCol t lda) (incRow t lda)) h hD hDA ?_
      intro m1 temp h1 _ _ hD1
      refine (Run_loop (fun i m' => On m1 m' (aw t n k A lda) (op t (fun a l => if l < i then d l * x a l else x a l)))
        (h1.congr (fun i _ j _ => by cases t <;> simp [op])) ?_).mono (fun _ m2 h2 => h2.congr (fun i hi j hj => ?_))
      · intro l m2 hl h2
        have r := D_rd (hD1.on h2 hDA) hl
        simp only [Run_bind, Run_load]
        refine ⟨r.1, ?_⟩
        rw [r.2]
        refine (scaleCol_on cat _ h2 hl).mono (fun _ m3 h3 => h3.congr (fun i _ j _ => ?_))
        have q : ∀ a l', (if l' = l then d l * (if l < l then d l * x a l else x a l) else if l' < l then d l' * x a l' else x a l') =
            if l' < l + 1 then d l' * x a l' else x a l' := by
          intro a l'
          by_cases q1 : l' = l
          · subst q1; simp
          · rw [if_neg q1]
            by_cases q2 : l' < l
            · rw [if_pos q2, if_pos (by omega)]
            · rw [if_neg q2, if_neg (by omega)]
        cases t with
        | no => exact q i j
        | yes => exact q j i
      · cases t with
        | no => exact if_pos hj
        | yes => exact if_pos hi
    · refine mid_rec (r1 := fsyrkDiag cat g thr u t k alpha lda D incD beta ldc fuel (n / 2))
        (r2 := fsyrkDiag cat g thr u t k alpha lda D incD beta ldc fuel (n - n / 2)) (n1 := n / 2) _ hg
        (fill := fun A2 temp ldt => loop k fun l => do
          let d ← load (D + l * incD)
          vscal cat (n - n / 2) d (A2 + l * incCol t lda) (incRow t lda) (temp + l * incCol t ldt) (incRow t ldt))
        (fun a b => sum_congr rfl (fun l _ => by ring)) (by omega) h hD hDC hDA ?_ (ih _ (by omega) (by omega)) (ih _ (by omega) (by omega))
      intro m1 A2 temp y τ hA2 hT hd hD1 hDT
      refine (Run_loop (fun i m' => ∃ z, On m1 m' (aw t (n - n / 2) k temp (opc t (n - n / 2) k)) (op t z) ∧
        ∀ a, ∀ l < i, z a l = d l * y a l) ⟨op t τ, hT.congr (fun i _ j _ => by cases t <;> rfl), fun _ l hl => absurd hl (by omega)⟩ ?_).mono ?_
      · rintro l m2 hl ⟨z, h2, e2⟩
        have r := D_rd (hD1.on h2 hDT) hl
        simp only [Run_bind, Run_load]
        refine ⟨r.1, ?_⟩
        rw [r.2]
        refine (scalColTo_on cat _ h2 (hA2.on h2 hd) hl hl hd).mono (fun _ m3 h3 => ⟨_, h3, fun a l' hl' => ?_⟩)
        by_cases q1 : l' = l
        · subst q1; rw [if_pos rfl]
        · rw [if_neg q1]; exact e2 a l' (by omega)
      · rintro _ m2 ⟨z, h2, e2⟩
        refine h2.congr (fun i hi j hj => ?_)
        cases t with
        | no => exact e2 i j hj
        | yes => exact e2 j i hi

variable {tb : Arr Bool}

lemma Run_blocks {one two : ℕ → Prog K Unit} (I : ℕ → Mem K → Prop) (hlen : k ≤ tb.len) (hv : Fits tb.get k)
    (h1 : ∀ i m, i < k → second tb.get i = false → tb.get i = false → I i m → Run (one i) m (fun _ => I (i + 1)))
    (h2 : ∀ i m, i + 1 < k → second tb.get i = false → tb.get i = true → I i m → Run (two i) m (fun _ => I (i + 2)))
    (fuel i : ℕ) (hi : i ≤ k) (hf : k ≤ i + fuel) (hs : second tb.get i = false) (m : Mem K) (h : I i m) :
    Run (blocks tb k one two fuel i) m (fun _ => I k) := by
  induction fuel generalizing i m with
  | zero =>
    have : i = k := by omega
    subst this
    simp only [blocks]
    rw [if_neg (by omega), Run_pure]; exact h
  | succ fuel ih =>
    simp only [blocks]
    rif c
    · rw [Run_bind]
      refine (Run_liftE _ _ _).2 ((Ok_rd _ _ _).2 ⟨by omega, ?_⟩)
      rif b
      · rw [Run_bind]
        refine (h2 i m (hv i c hs b) hs b h).mono (fun _ m' h' => ?_)
        have := hv i c hs b
        refine ih (i + 2) (by omega) (by omega) ?_ m' h'
        simp [second, hs, b]
      · rw [Run_bind]
        have b : tb.get i = false := by simpa using b
        refine (h1 i m c hs b h).mono (fun _ m' h' => ?_)
        refine ih (i + 1) (by omega) (by omega) ?_ m' h'
        simp [second, hs, b]
    · have : i = k := by omega
      subst this
      rw [Run_pure]; exact h

/-- product of a row by the block diagonal matrix -/
def blkRow (tb : ℕ → Bool) (d r : ℕ → K) : ℕ → K := fun l => d (lead tb l) * r (partner tb l)

omit [DecidableEq K] in
lemma partner_lt {tb : ℕ → Bool} (hv : Fits tb k) {l : ℕ} (hl : l < k) : partner tb l < k := by
  unfold partner
  split_ifs with q1 q2
  · omega
  · exact hv l hl (by simpa using q1) q2
  · exact hl

lemma second_pos {tb : ℕ → Bool} {l : ℕ} (h : second tb l = true) : ∃ j, l = j + 1 ∧ second tb j = false ∧ tb j = true := by
  cases l with
  | zero => simp [second] at h
  | succ j => exact ⟨j, rfl, by simpa [second] using h⟩

lemma partner_partner (tb : ℕ → Bool) (l : ℕ) : partner tb (partner tb l) = l := by
  by_cases q1 : second tb l = true
  · obtain ⟨j, rfl, h1, h2⟩ := second_pos q1
    simp [partner, q1, h1, h2]
  · have q1 : second tb l = false := by simpa using q1
    by_cases q2 : tb l = true
    · have : second tb (l + 1) = true := by simp [second, q1, q2]
      simp [partner, q1, q2, this]
    · simp [partner, q1, q2]

lemma lead_partner (tb : ℕ → Bool) (l : ℕ) : lead tb (partner tb l) = lead tb l := by
  by_cases q1 : second tb l = true
  · obtain ⟨j, rfl, h1, h2⟩ := second_pos q1
    simp [partner, lead, q1, h1]
  · have q1 : second tb l = false := by simpa using q1
    by_cases q2 : tb l = true
    · have : second tb (l + 1) = true := by simp [second, q1, q2]
      simp [partner, lead, q1, q2, this]
    · simp [partner, lead, q1, q2]

omit [DecidableEq K] in
lemma blkRow_sym {tb : ℕ → Bool} (hv : Fits tb k) (d a b : ℕ → K) :
    ∑ l ∈ range k, a l * blkRow tb d b l = ∑ l ∈ range k, blkRow tb d a l * b l := by
  refine sum_nbij' (partner tb) (partner tb) ?_ ?_ ?_ ?_ ?_
  · exact fun l hl => mem_range.2 (partner_lt hv (mem_range.1 hl))
  · exact fun l hl => mem_range.2 (partner_lt hv (mem_range.1 hl))
  · exact fun l _ => partner_partner tb l
  · exact fun l _ => partner_partner tb l
  · intro l _
    simp only [blkRow, partner_partner, lead_partner]; ring

/-- `fsyrk` with a block diagonal matrix.  `tb` is also read at `n/2 - 1`, hence `n ≤ 2 tb.len + 1`. -/
lemma fsyrkBlk_ok (cat : Cat) (hg : GemmOk g) {thr : ℕ} (ht : 2 ≤ thr) (hlen : k ≤ tb.len) (hv : Fits tb.get k)
    (fuel n : ℕ) (hf : n ≤ fuel) (hf1 : 1 ≤ fuel) (hn : n / 2 ≤ tb.len) :
    MidOk (fun r => blkRow tb.get d r) u t k alpha lda D incD beta ldc d (fsyrkBlk cat g thr u t k alpha lda D incD tb beta ldc fuel n) n := by
  induction fuel generalizing n with
  | zero => omega
  | succ fuel ih =>
    intro m A C x V h hD hDC hDA
    simp only [fsyrkBlk]
    have e1 : ∀ i r, second tb.get i = false → tb.get i = false → blkRow tb.get d r i = d i * r i := fun i r q1 q2 => by
      simp [blkRow, lead, partner, q1, q2]
    have e2 : ∀ i r, second tb.get i = false → tb.get i = true → blkRow tb.get d r i = d i * r (i + 1) := fun i r q1 q2 => by
      simp [blkRow, lead, partner, q1, q2]
    have e3 : ∀ i r, second tb.get i = false → tb.get i = true → blkRow tb.get d r (i + 1) = d i * r i := fun i r q1 q2 => by
      have : second tb.get (i + 1) = true := by simp [second, q1, q2]
      simp [blkRow, lead, partner, this]
    have sh : ∀ P c l : ℕ, P + l * c + c = P + (l + 1) * c := fun P c l => by ring
    rif c0
    · refine mid_base _ hg (p := fun temp => blocks tb k
        (fun l => do
          let d ← load (D + l * incD)
          vscalin cat n d (A + l * incCol t lda) (incRow t lda))
        (fun l => do
          let d ← load (D + l * incD)
          vscal cat n d (A + l * incCol t lda + incCol t lda) (incRow t lda) (A + l * incCol t lda) (incRow t lda)
          let d ← load (D + l * incD)
          vscal cat n d (temp + l * incCol t (opc t n k)) (incRow t (opc t n k)) (A + l * incCol t lda + incCol t lda) (incRow t lda))
        k 0) h hD hDA ?_
      intro m1 temp h1 hT hdT hD1
      refine (Run_blocks (fun i m' => On m1 m' (aw t n k A lda) (op t (fun a l => if l < i then blkRow tb.get d (x a) l else x a l)))
        hlen hv ?_ ?_ k 0 (by omega) (by omega) rfl m1 (h1.congr (fun i _ j _ => by cases t <;> simp [op]))).mono
        (fun _ m2 h2 => h2.congr (fun i hi j hj => ?_))
      · intro l m2 hl s1 s2 h2
        have r := D_rd (hD1.on h2 hDA) hl
        simp only [Run_bind, Run_load]
        refine ⟨r.1, ?_⟩
        rw [r.2]
        refine (scaleCol_on cat _ h2 hl).mono (fun _ m3 h3 => h3.congr (fun i _ j _ => ?_))
        have q : ∀ a l', (if l' = l then d l * (if l < l then blkRow tb.get d (x a) l else x a l)
            else if l' < l then blkRow tb.get d (x a) l' else x a l') =
            if l' < l + 1 then blkRow tb.get d (x a) l' else x a l' := by
          intro a l'
          by_cases q1 : l' = l
          · subst q1; simp [e1 _ _ s1 s2]
          · rw [if_neg q1]
            by_cases q2 : l' < l
            · rw [if_pos q2, if_pos (by omega)]
            · rw [if_neg q2, if_neg (by omega)]
        cases t with
        | no => exact q i j
        | yes => exact q j i
      · intro l m2 hl s1 s2 h2
        have r := D_rd (hD1.on h2 hDA) (show l < k by omega)
        simp only [Run_bind, Run_load, sh]
        refine ⟨r.1, ?_⟩
        rw [r.2]
        refine (moveCol_on cat _ h2 (l := l) (l' := l + 1) (by omega) hl (by omega)).mono (fun _ m3 h3 => ?_)
        have r3 := D_rd (hD1.on h3 hDA) (show l < k by omega)
        refine ⟨r3.1, ?_⟩
        rw [r3.2]
        refine (scalColTo_on cat _ h3 (hT.on h3 hdT) hl (show l < k by omega) hdT).mono (fun _ m4 h4 => h4.congr (fun i _ j _ => ?_))
        have q : ∀ a l', (if l' = l + 1 then d l * x a l else if l' = l then
            d l * (if l + 1 < l then blkRow tb.get d (x a) (l + 1) else x a (l + 1))
            else if l' < l then blkRow tb.get d (x a) l' else x a l') =
            if l' < l + 2 then blkRow tb.get d (x a) l' else x a l' := by
          intro a l'
          by_cases q0 : l' = l + 1
          · subst q0; rw [if_pos rfl, if_pos (by omega), e3 _ _ s1 s2]
          · rw [if_neg q0]
            by_cases q1 : l' = l
            · subst q1; rw [if_pos rfl, if_neg (by omega), if_pos (by omega), e2 _ _ s1 s2]
            · rw [if_neg q1]
              by_cases q2 : l' < l
              · rw [if_pos q2, if_pos (by omega)]
              · rw [if_neg q2, if_neg (by omega)]
        cases t with
        | no => exact q i j
        | yes => exact q j i
      · cases t with
        | no => exact if_pos hj
        | yes => exact if_pos hi
    · rw [Run_bind]
      refine (Run_liftE _ _ _).2 ((Ok_usub _ _ _).2 ⟨by omega, ?_⟩)
      rw [Run_bind]
      refine (Run_liftE _ _ _).2 ((Ok_rd _ _ _).2 ⟨by omega, ?_⟩)
      set n1 := if tb.get (n / 2 - 1) = true then n / 2 + 1 else n / 2 with en1
      have hn1 : n1 ≤ n ∧ n1 < n ∧ 1 ≤ n1 := by
        rw [en1]; split_ifs <;> omega
      have hn12 : n1 / 2 ≤ tb.len := by
        rw [en1]; split_ifs <;> omega
      refine (mid_rec (r1 := fsyrkBlk cat g thr u t k alpha lda D incD tb beta ldc fuel n1)
        (r2 := fsyrkBlk cat g thr u t k alpha lda D incD tb beta ldc fuel (n - n1)) (n1 := n1) _ hg
        (fill := fun A2 temp ldt => blocks tb k
          (fun l => do
            let d ← load (D + l * incD)
            vscal cat (n - n1) d (A2 + l * incCol t lda) (incRow t lda) (temp + l * incCol t ldt) (incRow t ldt))
          (fun l => do
            let d ← load (D + l * incD)
            vscal cat (n - n1) d (A2 + l * incCol t lda) (incRow t lda) (temp + l * incCol t ldt + incCol t ldt) (incRow t ldt)
            let d ← load (D + l * incD)
            vscal cat (n - n1) d (A2 + l * incCol t lda + incCol t lda) (incRow t lda) (temp + l * incCol t ldt) (incRow t ldt))
          k 0)
        (fun a b => blkRow_sym hv d a b) (by omega) h hD hDC hDA ?_ (ih _ (by omega) (by omega) hn12)
        (ih _ (by omega) (by omega) (by omega)))
      intro m1 A2 temp y τ hA2 hT hd hD1 hDT
      refine (Run_blocks (fun i m' => ∃ z, On m1 m' (aw t (n - n1) k temp (opc t (n - n1) k)) (op t z) ∧
        ∀ a, ∀ l < i, z a l = blkRow tb.get d (y a) l) hlen hv ?_ ?_ k 0 (by omega) (by omega) rfl m1
        ⟨op t τ, hT.congr (fun i _ j _ => by cases t <;> rfl), fun _ l hl => absurd hl (by omega)⟩).mono ?_
      · rintro l m2 hl s1 s2 ⟨z, h2, q2⟩
        have r := D_rd (hD1.on h2 hDT) hl
        simp only [Run_bind, Run_load]
        refine ⟨r.1, ?_⟩
        rw [r.2]
        refine (scalColTo_on cat _ h2 (hA2.on h2 hd) hl hl hd).mono (fun _ m3 h3 => ⟨_, h3, fun a l' hl' => ?_⟩)
        by_cases q1 : l' = l
        · subst q1; rw [if_pos rfl, e1 _ _ s1 s2]
        · rw [if_neg q1]; exact q2 a l' (by omega)
      · rintro l m2 hl s1 s2 ⟨z, h2, q2⟩
        have r := D_rd (hD1.on h2 hDT) (show l < k by omega)
        simp only [Run_bind, Run_load, sh]
        refine ⟨r.1, ?_⟩
        rw [r.2]
        refine (scalColTo_on cat _ h2 (hA2.on h2 hd) hl (show l < k by omega) hd).mono (fun _ m3 h3 => ?_)
        have r3 := D_rd (hD1.on h3 hDT) (show l < k by omega)
        refine ⟨r3.1, ?_⟩
        rw [r3.2]
        refine (scalColTo_on cat _ h3 (hA2.on h3 hd) (show l < k by omega) hl hd).mono (fun _ m4 h4 => ⟨_, h4, fun a l' hl' => ?_⟩)
        by_cases q1 : l' = l
        · subst q1; rw [if_pos rfl, e2 _ _ s1 s2]
        · rw [if_neg q1]
          by_cases q0 : l' = l + 1
          · subst q0; rw [if_pos rfl, e3 _ _ s1 s2]
          · rw [if_neg q0]; exact q2 a l' (by omega)
      · rintro _ m2 ⟨z, h2, q2⟩
        refine h2.congr (fun i hi j hj => ?_)
        cases t with
        | no => exact q2 i j hj
        | yes => exact q2 j i hi

end

end Verif.FF
