import Verif.Model.Fsyrk
import Verif.Spec.Sym
import Verif.Proofs.Src

/-!
# Correctness of symmetric rank-k updates
-/

namespace Verif.FF

open Finset Verif.Spec

variable {K : Type} [Field K] [DecidableEq K]

/-- `op(A)`, of size `n × k`, is readable and contains `x` -/
structure OSrc (m : Mem K) (t : Tr) (n k A lda : ℕ) (x : ℕ → ℕ → K) : Prop where
  ok : OkIn m (aw t n k A lda)
  ld : opc t n k ≤ lda
  val : ∀ i < n, ∀ l < k, m.val (opAdr t A lda i l) = x i l

section
omit [Field K] [DecidableEq K]
variable {m m' m0 : Mem K} {t : Tr} {n k A lda : ℕ} {x y : ℕ → ℕ → K} {W : Win} {V : ℕ → ℕ → K}

lemma OSrc.flip (h : OSrc m t n k A lda x) : OSrc m (oppTr t) k n A lda (fun l i => x i l) := by
  cases t with
  | no => exact ⟨h.ok, h.ld, fun l hl i hi => h.val i hi l hl⟩
  | yes => exact ⟨h.ok, h.ld, fun l hl i hi => h.val i hi l hl⟩

lemma aw_flip (t : Tr) (n k A lda : ℕ) : aw (oppTr t) k n A lda = aw t n k A lda := by cases t <;> rfl

lemma OSrc.step {T : Win} {g : ℕ → ℕ → K} (h : OSrc m t n k A lda x) (s : Step m m' T g) (hd : (aw t n k A lda).Disj T) :
    OSrc m' t n k A lda x :=
  ⟨h.ok.step s, h.ld, fun i hi l hl => by
    rw [s.frame _ (h.ok _ (op_Has hi hl)) (hd _ (op_Has hi hl)), h.val i hi l hl]⟩

lemma OSrc.on {T : Win} {U : ℕ → ℕ → K} (h : OSrc m t n k A lda x) (s : On m m' T U) (hd : (aw t n k A lda).Disj T) :
    OSrc m' t n k A lda x := h.step s.step hd

lemma OSrc.congr (h : OSrc m t n k A lda x) (e : ∀ i < n, ∀ l < k, x i l = y i l) : OSrc m t n k A lda y :=
  ⟨h.ok, h.ld, fun i hi l hl => (h.val i hi l hl).trans (e i hi l hl)⟩

lemma opAdr_opAdr (t : Tr) (A lda i0 l0 i l : ℕ) : opAdr t (opAdr t A lda i0 l0) lda i l = opAdr t A lda (i0 + i) (l0 + l) := by
  cases t <;> simp only [opAdr] <;> ring

lemma aw_sub_Has {i0 l0 n' k' a : ℕ} (hn : i0 + n' ≤ n) (hk : l0 + k' ≤ k)
    (h : (aw t n' k' (opAdr t A lda i0 l0) lda).Has a) : (aw t n k A lda).Has a := by
  cases t
  · exact Win.sub_Has (W := ⟨A, lda, n, k⟩) hn hk h
  · exact Win.sub_Has (W := ⟨A, lda, k, n⟩) hk hn h

lemma OSrc.sub (h : OSrc m t n k A lda x) (i0 l0 : ℕ) {n' k' : ℕ} (hn : i0 + n' ≤ n) (hk : l0 + k' ≤ k) :
    OSrc m t n' k' (opAdr t A lda i0 l0) lda (fun i l => x (i0 + i) (l0 + l)) := by
  refine ⟨fun a ha => h.ok a (aw_sub_Has hn hk ha), ?_, fun i hi l hl => ?_⟩
  · have := h.ld
    cases t <;> simp only [opc] at this ⊢ <;> omega
  · rw [opAdr_opAdr]; exact h.val _ (by omega) _ (by omega)

lemma aw_sub_Disj {i0 l0 n' k' : ℕ} (hn : i0 + n' ≤ n) (hk : l0 + k' ≤ k) (h : (aw t n k A lda).Disj W) :
    (aw t n' k' (opAdr t A lda i0 l0) lda).Disj W := fun a ha => h a (aw_sub_Has hn hk ha)

lemma OSrc.src (h : OSrc m t n k A lda x) : Src m (aw t n k A lda) (op t x) := by
  refine ⟨h.ok, h.ld, fun i hi j hj => ?_⟩
  cases t with
  | no => exact h.val i hi j hj
  | yes => exact h.val j hj i hi

lemma Src.osrc (h : Src m (aw t n k A lda) (op t x)) : OSrc m t n k A lda x := by
  refine ⟨h.ok, h.ld, fun i hi l hl => ?_⟩
  cases t with
  | no => exact h.val i hi l hl
  | yes => exact h.val l hl i hi

end

section
omit [DecidableEq K]
variable {m m' m0 : Mem K} {t ta tb : Tr} {n k A lda B ldb : ℕ} {x y : ℕ → ℕ → K} {W : Win} {V : ℕ → ℕ → K}

/-- `fgemm` between sources, with transpositions -/
lemma gemm_o {g : GemmFn K} (hg : GemmOk g) (h : On m0 m W V) {r c : ℕ} (sx : OSrc m ta r k A lda x) (sy : OSrc m tb k c B ldb y)
    (i0 j0 : ℕ) (hr : i0 + r ≤ W.r) (hc : j0 + c ≤ W.c) (dx : (aw ta r k A lda).Disj (W.sub i0 j0 r c))
    (dy : (aw tb k c B ldb).Disj (W.sub i0 j0 r c)) (alpha beta : K) {C : ℕ} (hC : C = W.adr i0 j0) :
    Run (g ta tb r c k alpha A lda B ldb beta C W.ld) m (fun _ m' => On m0 m' W (upd i0 j0 r c (fun i j =>
      alpha * (∑ l ∈ range k, x i l * y l j) + beta * V (i0 + i) (j0 + j)) V)) := by
  subst hC
  have hld := h.ld
  have P : GPre m ta tb r c k A lda B ldb (W.adr i0 j0) W.ld :=
    ⟨h.wf', sx.ok, sy.ok, h.ok'.of_sub hr hc, sx.ld, sy.ld, by omega, dx, dy⟩
  refine (hg _ _ _ _ _ m alpha _ _ _ _ beta _ _ P).mono (fun _ m' s => h.upd hr hc (Step.congr s (fun i hi j hj => ?_)))
  have hi : i < r := hi
  have hj : j < c := hj
  unfold gval Spec.mul
  rw [show m.mat ⟨W.adr i0 j0, W.ld, r, c⟩ i j = V (i0 + i) (j0 + j) from h.blk hr hc hi hj]
  congr 2
  refine sum_congr rfl (fun l hl => ?_)
  have hl := mem_range.1 hl
  rw [op_mat, op_mat, sx.val i hi l hl, sy.val l hl j hj]

end

/-- `new` on the selected triangle, `old` elsewhere -/
def halfUpd (u : Uplo) (new old : ℕ → ℕ → K) : ℕ → ℕ → K := fun i j => if inHalf u i j then new i j else old i j

/-- entry of the updated matrix -/
def syVal (k : ℕ) (alpha beta : K) (x : ℕ → ℕ → K) (V : ℕ → ℕ → K) (i j : ℕ) : K :=
  alpha * (∑ l ∈ range k, x i l * x j l) + beta * V i j

section
variable {m m' m0 : Mem K} {u : Uplo} {t : Tr} {n k A lda C ldc : ℕ} {x y : ℕ → ℕ → K} {V : ℕ → ℕ → K}

omit [Field K] [DecidableEq K] in
lemma rowLen_half {i j : ℕ} (hi : i < n) (hj : j < n) : inHalf u i j ↔ rowBeg u i ≤ j ∧ j < rowBeg u i + rowLen u n i := by
  cases u <;> simp only [inHalf, rowBeg, rowLen] <;> omega

omit [Field K] [DecidableEq K] in
lemma rowLen_lt {i s : ℕ} (hi : i < n) (hs : s < rowLen u n i) : rowBeg u i + s < n := by
  cases u <;> simp only [rowBeg, rowLen] at * <;> omega

lemma fsyrkDefault_on (alpha beta : K) (h : On m0 m ⟨C, ldc, n, n⟩ V) (hA : OSrc m t n k A lda x)
    (hd : (aw t n k A lda).Disj ⟨C, ldc, n, n⟩) :
    Run (fsyrkDefault u t n k alpha A lda beta C ldc) m
      (fun _ m' => On m0 m' ⟨C, ldc, n, n⟩ (halfUpd u (syVal k alpha beta x V) V)) := by
  unfold fsyrkDefault
  refine (Run_loop (fun i m' => On m m' ⟨C, ldc, n, n⟩ (fun a b => if a < i ∧ inHalf u a b then syVal k alpha beta x V a b else V a b))
    ?_ ?_).mono (fun _ m' h' => h.trans (h'.congr (fun i hi j hj => ?_)))
  · exact h.here.congr (fun i _ j _ => by rw [if_neg (by omega)])
  · intro i m1 hi h1
    refine (Run_loop (fun s m' => On m m' ⟨C, ldc, n, n⟩ (fun a b =>
      if (a < i ∧ inHalf u a b) ∨ (a = i ∧ rowBeg u i ≤ b ∧ b < rowBeg u i + s) then syVal k alpha beta x V a b else V a b))
      ?_ ?_).mono (fun _ m' h' => h'.congr (fun a ha b hb => ?_))
    · exact h1.congr (fun a _ b _ => by
        by_cases c : a < i ∧ inHalf u a b
        · rw [if_pos c, if_pos (Or.inl c)]
        · rw [if_neg c, if_neg (by rintro (c' | c'); exact c c'; omega)])
    · intro s m2 hs h2
      have hj : rowBeg u i + s < n := rowLen_lt hi hs
      set j := rowBeg u i + s with ej
      have eadr : C + i * ldc + j = (Win.mk C ldc n n).adr i j := rfl
      have v0 : m2.val ((Win.mk C ldc n n).adr i j) = V i j := by
        rw [h2.val (W := ⟨C, ldc, n, n⟩) hi hj, if_neg (by omega)]
      have h3 := h2.set (W := ⟨C, ldc, n, n⟩) (x := V i j * beta) hi hj
      have o3 : OSrc (m2.set ((Win.mk C ldc n n).adr i j) (V i j * beta)) t n k A lda x := hA.on h3 hd
      have dot : Run (match t with
          | .no => vdot k (A + i * lda) 1 (A + j * lda) 1
          | .yes => vdot k (A + i) lda (A + j) lda) (m2.set ((Win.mk C ldc n n).adr i j) (V i j * beta)) (fun d m' =>
            m' = m2.set ((Win.mk C ldc n n).adr i j) (V i j * beta) ∧ d = ∑ l ∈ range k, x i l * x j l) := by
        cases t with
        | no =>
          refine (vdot_spec (incX := 1) (incY := 1) ?_ ?_ Nat.one_pos).mono ?_
          · exact row_OkIn (W := ⟨A, lda, n, k⟩) o3.ok hi
          · exact row_OkIn (W := ⟨A, lda, n, k⟩) o3.ok hj
          · rintro d m' ⟨rfl, rfl⟩
            refine ⟨rfl, sum_congr rfl (fun l hl => ?_)⟩
            rw [Nat.mul_one]
            exact congrArg₂ (· * ·) (o3.val i hi l (mem_range.1 hl)) (o3.val j hj l (mem_range.1 hl))
        | yes =>
          have hlda : 0 < lda := by have := o3.ld; simp only [opc] at this; omega
          refine (vdot_spec (incX := lda) (incY := lda) ?_ ?_ hlda).mono ?_
          · intro a ha
            obtain ⟨l, hl, z, hz, rfl⟩ := ha
            have hz : z = 0 := by simpa [vw] using hz
            subst hz
            have := o3.ok _ (op_Has (t := .yes) hi hl)
            simp only [opAdr] at this
            simpa [Win.adr, vw, Nat.add_assoc, Nat.add_comm, Nat.add_left_comm] using this
          · intro a ha
            obtain ⟨l, hl, z, hz, rfl⟩ := ha
            have hz : z = 0 := by simpa [vw] using hz
            subst hz
            have := o3.ok _ (op_Has (t := .yes) hj hl)
            simp only [opAdr] at this
            simpa [Win.adr, vw, Nat.add_assoc, Nat.add_comm, Nat.add_left_comm] using this
          · rintro d m' ⟨rfl, rfl⟩
            refine ⟨rfl, sum_congr rfl (fun l hl => ?_)⟩
            have e1 := o3.val i hi l (mem_range.1 hl)
            have e2 := o3.val j hj l (mem_range.1 hl)
            simp only [opAdr] at e1 e2
            rw [← e1, ← e2]
            congr 2 <;> ring
      simp only [Run_bind, Run_load, Run_store, eadr]
      refine ⟨h2.okc (W := ⟨C, ldc, n, n⟩) hi hj, h2.okc (W := ⟨C, ldc, n, n⟩) hi hj, ?_⟩
      rw [v0]
      refine dot.mono ?_
      rintro d m3 ⟨rfl, rfl⟩
      have v3 := h3.val (W := ⟨C, ldc, n, n⟩) hi hj
      refine ⟨h3.okc (W := ⟨C, ldc, n, n⟩) hi hj, h3.okc (W := ⟨C, ldc, n, n⟩) hi hj, ?_⟩
      rw [v3, upd_in' (by omega)]
      refine (h3.set (W := ⟨C, ldc, n, n⟩) hi hj).congr (fun a ha b hb => ?_)
      by_cases c : a = i ∧ b = j
      · obtain ⟨rfl, rfl⟩ := c
        rw [upd_in' (by omega), if_pos (by omega)]
        unfold syVal
        ring
      · rw [upd_out (by omega), upd_out (by omega)]
        by_cases c' : (a < i ∧ inHalf u a b) ∨ (a = i ∧ rowBeg u i ≤ b ∧ b < rowBeg u i + s)
        · rw [if_pos c', if_pos (c'.imp id (fun q => ⟨q.1, q.2.1, by omega⟩))]
        · rw [if_neg c', if_neg (fun q => c' (q.imp id (fun q => ⟨q.1, q.2.1, by have := q.1; omega⟩)))]
    · have ha : a < n := ha
      have hb : b < n := hb
      have := rowLen_half (u := u) (n := n) hi hb
      by_cases c : a = i
      · subst c
        by_cases c' : inHalf u a b
        · rw [if_pos (Or.inr ⟨rfl, this.1 c'⟩), if_pos ⟨by omega, c'⟩]
        · rw [if_neg (by rintro (q | q); exact c' q.2; exact c' (this.2 q.2)), if_neg (fun q => c' q.2)]
      · by_cases c' : inHalf u a b
        · by_cases c2 : a < i
          · rw [if_pos (Or.inl ⟨c2, c'⟩), if_pos ⟨by omega, c'⟩]
          · rw [if_neg (by omega), if_neg (by omega)]
        · rw [if_neg (by rintro (q | q); exact c' q.2; exact c q.1), if_neg (fun q => c' q.2)]
  · have hi : i < n := hi
    show (if i < n ∧ inHalf u i j then _ else _) = _
    unfold halfUpd
    by_cases c : inHalf u i j
    · rw [if_pos ⟨hi, c⟩, if_pos c]
    · rw [if_neg (fun q => c q.2), if_neg c]

end

/-- What a version of `fsyrk` does when `k ≠ 0` and `alpha ≠ 0`: the selected triangle is updated, the entries of the other triangle are
related by `R alpha` to their old values. -/
def SyrkR (R : K → K → K → Prop) (s : SyrkFn K) : Prop := ∀ (m : Mem K) u t n k (alpha : K) A lda beta C ldc x V, k ≠ 0 → alpha ≠ 0 →
  On m m ⟨C, ldc, n, n⟩ V → OSrc m t n k A lda x → (aw t n k A lda).Disj ⟨C, ldc, n, n⟩ →
  Run (s u t n k alpha A lda beta C ldc) m (fun _ m' => ∃ V', On m m' ⟨C, ldc, n, n⟩ V' ∧
    (∀ i < n, ∀ j < n, inHalf u i j → V' i j = syVal k alpha beta x V i j) ∧ ∀ i < n, ∀ j < n, ¬ inHalf u i j → R alpha (V i j) (V' i j))

lemma fsyrkDefault_R : SyrkR (K := K) (fun _ a b => b = a) fsyrkDefault := by
  intro m u t n k alpha A lda beta C ldc x V _ _ h hA hd
  refine (fsyrkDefault_on alpha beta h hA hd).mono (fun _ m' h' => ⟨_, h', fun i _ j _ c => if_pos c, fun i _ j _ c => if_neg c⟩)

lemma opAdr_row (t : Tr) (A lda n1 : ℕ) : A + n1 * incRow t lda = opAdr t A lda n1 0 := by
  cases t <;> simp only [opAdr, incRow] <;> ring

lemma fsyrkDC_R {g : GemmFn K} (hg : GemmOk g) {R : K → K → K → Prop} (hR : ∀ al a, R al a a) {base : SyrkFn K} (hb : SyrkR R base) (lev : ℕ) :
    SyrkR R (fsyrkDC g base lev) := by
  induction lev with
  | zero => exact hb
  | succ lev ih =>
    intro m u t n k alpha A lda beta C ldc x V hk hal h hA hd
    simp only [fsyrkDC]
    set n1 := n / 2 with en1
    have hn1 : n1 ≤ n := by omega
    set W : Win := ⟨C, ldc, n, n⟩ with eW
    have hld : n ≤ ldc := h.ld
    rw [Run_bind]
    have a1 := hA.sub 0 0 (n' := n1) (k' := k) (by omega) (by omega)
    rw [show opAdr t A lda 0 0 = A by cases t <;> simp [opAdr]] at a1
    have d1 : (aw t n1 k A lda).Disj W := by
      have := aw_sub_Disj (i0 := 0) (l0 := 0) (n' := n1) (k' := k) (by omega) (by omega) hd
      rwa [show opAdr t A lda 0 0 = A by cases t <;> simp [opAdr]] at this
    have w1 : W.sub 0 0 n1 n1 = ⟨C, ldc, n1, n1⟩ := by simp [Win.sub, Win.adr, eW]
    have dd1 : (aw t n1 k A lda).Disj ⟨C, ldc, n1, n1⟩ := by
      rw [← w1]; exact d1.sub_right (by simp [eW]; omega) (by simp [eW]; omega)
    have h1 := h.sub (i0 := 0) (j0 := 0) (r := n1) (c := n1) (by simp [eW]; omega) (by simp [eW]; omega)
    rw [w1] at h1
    refine (ih m u t n1 k alpha A lda beta C ldc _ _ hk hal h1 a1 dd1).mono ?_
    rintro _ m1 ⟨V1, s1, e1, o1⟩
    have h2 := h.upd (i0 := 0) (j0 := 0) (r := n1) (c := n1) (by simp [eW]; omega) (by simp [eW]; omega) (by rw [w1]; exact s1.step)
    have A2 : OSrc m1 t n k A lda x := hA.on h2 hd
    have a2 := A2.sub n1 0 (n' := n - n1) (k' := k) (by omega) (by omega)
    have d2 : (aw t (n - n1) k (opAdr t A lda n1 0) lda).Disj W := aw_sub_Disj (by omega) (by omega) hd
    have w2 : W.sub n1 n1 (n - n1) (n - n1) = ⟨C + n1 + n1 * ldc, ldc, n - n1, n - n1⟩ := by
      simp only [Win.sub, Win.adr, eW]; congr 1; ring
    have dd2 : (aw t (n - n1) k (opAdr t A lda n1 0) lda).Disj ⟨C + n1 + n1 * ldc, ldc, n - n1, n - n1⟩ := by
      rw [← w2]; exact d2.sub_right (by simp [eW]; omega) (by simp [eW]; omega)
    have h3 := h2.sub (i0 := n1) (j0 := n1) (r := n - n1) (c := n - n1) (by simp [eW]; omega) (by simp [eW]; omega)
    rw [w2] at h3
    rw [Run_bind, opAdr_row]
    refine (ih m1 u t (n - n1) k alpha _ lda beta _ ldc _ _ hk hal h3 a2 dd2).mono ?_
    rintro _ m2 ⟨V2, s2, e2, o2⟩
    have h4 := h2.upd (i0 := n1) (j0 := n1) (r := n - n1) (c := n - n1) (by simp [eW]; omega) (by simp [eW]; omega)
      (by rw [w2]; exact s2.step)
    have A4 : OSrc m2 t n k A lda x := hA.on h4 hd
    have a41 := A4.sub 0 0 (n' := n1) (k' := k) (by omega) (by omega)
    rw [show opAdr t A lda 0 0 = A by cases t <;> simp [opAdr]] at a41
    have a42 := A4.sub n1 0 (n' := n - n1) (k' := k) (by omega) (by omega)
    set V4 := upd n1 n1 (n - n1) (n - n1) V2 (upd 0 0 n1 n1 V1 V) with eV4
    have v11 : ∀ i < n1, ∀ j < n1, V4 i j = V1 i j := fun i hi j hj => by
      rw [eV4, upd_out (by omega), upd_in' (by omega), Nat.sub_zero, Nat.sub_zero]
    have v22 : ∀ i < n, ∀ j < n, n1 ≤ i → n1 ≤ j → V4 i j = V2 (i - n1) (j - n1) := fun i hi j hj q1 q2 => by
      rw [eV4, upd_in' (by omega)]
    have v0 : ∀ i j, (i < n1 ∧ n1 ≤ j) ∨ (n1 ≤ i ∧ j < n1) → V4 i j = V i j := fun i j q => by
      rw [eV4, upd_out (by omega), upd_out (by omega)]
    have b11 : ∀ i < n1, ∀ j < n1, inHalf u i j → V1 i j = syVal k alpha beta x V i j := fun i hi j hj c => by
      rw [e1 i hi j hj c]; simp only [syVal, blk, Nat.zero_add]
    have r11 : ∀ i < n1, ∀ j < n1, ¬ inHalf u i j → R alpha (V i j) (V1 i j) := fun i hi j hj c => by
      have := o1 i hi j hj c; simpa only [blk, Nat.zero_add] using this
    have half' : ∀ i j, n1 ≤ i → n1 ≤ j → (inHalf u (i - n1) (j - n1) ↔ inHalf u i j) := fun i j q1 q2 => by
      cases u <;> simp only [inHalf] <;> omega
    have blk2 : ∀ i j, n1 ≤ i → n1 ≤ j → blk (upd 0 0 n1 n1 V1 V) n1 n1 (i - n1) (j - n1) = V i j := fun i j q1 q2 => by
      simp only [blk]; rw [upd_out (by omega)]; congr 1 <;> omega
    have b22 : ∀ i < n, ∀ j < n, n1 ≤ i → n1 ≤ j → inHalf u i j → V2 (i - n1) (j - n1) = syVal k alpha beta x V i j :=
      fun i hi j hj q1 q2 c => by
        rw [e2 _ (by omega) _ (by omega) ((half' i j q1 q2).2 c)]
        simp only [syVal, Nat.zero_add]
        rw [blk2 i j q1 q2, show n1 + (i - n1) = i by omega, show n1 + (j - n1) = j by omega]
    have r22 : ∀ i < n, ∀ j < n, n1 ≤ i → n1 ≤ j → ¬ inHalf u i j → R alpha (V i j) (V2 (i - n1) (j - n1)) := fun i hi j hj q1 q2 c => by
      have := o2 _ (by omega) _ (by omega) (fun q => c ((half' i j q1 q2).1 q))
      rwa [blk2 i j q1 q2] at this
    cases u with
    | upper =>
      refine (gemm_o hg h4 a41 a42.flip 0 n1 (by simp [eW]; omega) (by simp [eW]; omega)
        (d1.sub_right (by simp [eW]; omega) (by simp [eW]; omega)) ?_ alpha beta (C := C + n1) (by simp [Win.adr, eW])).mono ?_
      · rw [aw_flip]; exact d2.sub_right (by simp [eW]; omega) (by simp [eW]; omega)
      · intro _ m3 h5
        refine ⟨_, h5, ?_, ?_⟩
        · intro i hi j hj c
          have c' : i ≤ j := c
          by_cases q1 : j < n1
          · rw [upd_out (by omega), v11 i (by omega) j q1, b11 i (by omega) j q1 c]
          · by_cases q2 : i < n1
            · rw [upd_in' (by omega)]
              simp only [Nat.zero_add, Nat.sub_zero]
              rw [show n1 + (j - n1) = j by omega, v0 i j (by omega), syVal]
            · rw [upd_out (by omega), v22 i hi j hj (by omega) (by omega), b22 i hi j hj (by omega) (by omega) c]
        · intro i hi j hj c
          have c' : j < i := by simpa [inHalf] using c
          by_cases q1 : i < n1
          · rw [upd_out (by omega), v11 i (by omega) j (by omega)]; exact r11 i q1 j (by omega) c
          · by_cases q2 : j < n1
            · rw [upd_out (by omega), v0 i j (by omega)]; exact hR _ _
            · rw [upd_out (by omega), v22 i hi j hj (by omega) (by omega)]; exact r22 i hi j hj (by omega) (by omega) c
    | lower =>
      refine (gemm_o hg h4 a42 a41.flip n1 0 (by simp [eW]; omega) (by simp [eW]; omega)
        (d2.sub_right (by simp [eW]; omega) (by simp [eW]; omega)) ?_ alpha beta (C := C + n1 * ldc) (by simp [Win.adr, eW])).mono ?_
      · rw [aw_flip]; exact d1.sub_right (by simp [eW]; omega) (by simp [eW]; omega)
      · intro _ m3 h5
        refine ⟨_, h5, ?_, ?_⟩
        · intro i hi j hj c
          have c' : j ≤ i := c
          by_cases q1 : i < n1
          · rw [upd_out (by omega), v11 i (by omega) j (by omega), b11 i (by omega) j (by omega) c]
          · by_cases q2 : j < n1
            · rw [upd_in' (by omega)]
              simp only [Nat.zero_add, Nat.sub_zero]
              rw [show n1 + (i - n1) = i by omega, v0 i j (by omega), syVal]
            · rw [upd_out (by omega), v22 i hi j hj (by omega) (by omega), b22 i hi j hj (by omega) (by omega) c]
        · intro i hi j hj c
          have c' : i < j := by simpa [inHalf] using c
          by_cases q1 : j < n1
          · rw [upd_out (by omega), v11 i (by omega) j (by omega)]; exact r11 i (by omega) j (by omega) c
          · by_cases q2 : i < n1
            · rw [upd_out (by omega), v0 i j (by omega)]; exact hR _ _
            · rw [upd_out (by omega), v22 i hi j hj (by omega) (by omega)]; exact r22 i hi j hj (by omega) (by omega) c

section
variable {m m' m0 : Mem K} {u : Uplo} {t : Tr} {n k A lda C ldc : ℕ} {x y : ℕ → ℕ → K} {V : ℕ → ℕ → K}

omit [DecidableEq K] in
lemma halfUpd_congr {f g : ℕ → ℕ → K} (h : ∀ i < n, ∀ j < n, inHalf u i j → f i j = g i j) :
    ∀ i < n, ∀ j < n, halfUpd u f V i j = halfUpd u g V i j := fun i hi j hj => by
  unfold halfUpd
  by_cases c : inHalf u i j
  · rw [if_pos c, if_pos c, h i hi j hj c]
  · rw [if_neg c, if_neg c]

omit [DecidableEq K] in
lemma halfUpd_twice {f g : ℕ → ℕ → K} (i j : ℕ) : halfUpd u f (halfUpd u g V) i j = halfUpd u f V i j := by
  unfold halfUpd
  by_cases c : inHalf u i j
  · rw [if_pos c, if_pos c]
  · rw [if_neg c, if_neg c, if_neg c]

lemma shiftA_adr (t : Tr) (A lda i k2 : ℕ) : A + i * shiftA t lda k2 = opAdr t A lda 0 (i * k2) := by
  cases t <;> simp only [opAdr, shiftA] <;> ring

lemma lazy_split {k kmax : ℕ} (hk : k ≠ 0) (hm : kmax ≠ 0) :
    (if k % kmax = 0 then k / kmax - 1 else k / kmax) * min k kmax + (if k % kmax = 0 then kmax else k % kmax) = k := by
  have e := Nat.div_add_mod k kmax
  by_cases c : k % kmax = 0
  · rw [if_pos c, if_pos c]
    have hle : kmax ≤ k := Nat.le_of_dvd (by omega) (Nat.dvd_of_mod_eq_zero c)
    rw [min_eq_right hle]
    have : 0 < k / kmax := Nat.div_pos hle (by omega)
    obtain ⟨q, hq⟩ : ∃ q, k / kmax = q + 1 := ⟨k / kmax - 1, by omega⟩
    rw [c, hq] at e
    rw [hq, Nat.add_sub_cancel]
    linarith
  · rw [if_neg c, if_neg c]
    by_cases c2 : k < kmax
    · rw [Nat.div_eq_of_lt c2, Nat.mod_eq_of_lt c2]; omega
    · rw [min_eq_right (by omega)]; linarith

/-- the delayed product over blocks of the inner dimension -/
lemma fsyrkLazy_on (cat : Cat) (kmax : ℕ) (alpha beta : K) (hk : k ≠ 0) (hal : alpha ≠ 0) (h : On m0 m ⟨C, ldc, n, n⟩ V)
    (hA : OSrc m t n k A lda x) (hd : (aw t n k A lda).Disj ⟨C, ldc, n, n⟩) :
    Run (fsyrkLazy cat kmax u t n k alpha A lda beta C ldc) m
      (fun _ m' => On m0 m' ⟨C, ldc, n, n⟩ (halfUpd u (syVal k alpha beta x V) V)) := by
  unfold fsyrkLazy
  rif c0
  · rw [Run_pure]; subst c0
    exact h.congr (fun i hi => absurd hi (by simp))
  rif c1
  · rcases c1 with c1 | c1
    · exact absurd c1 hk
    · exact absurd c1 hal
  rif c2
  · exact fsyrkDefault_on alpha beta h hA hd
  have ks := lazy_split hk c2
  set nb := if k % kmax = 0 then k / kmax - 1 else k / kmax with enb
  set rm := if k % kmax = 0 then kmax else k % kmax with erm
  set k2 := min k kmax with ek2
  simp only [Run_bind]
  rw [shiftA_adr]
  have a1 := hA.sub 0 (nb * k2) (n' := n) (k' := rm) (by omega) (by omega)
  have d1 : (aw t n rm (opAdr t A lda 0 (nb * k2)) lda).Disj ⟨C, ldc, n, n⟩ := aw_sub_Disj (by omega) (by omega) hd
  refine (fsyrkDefault_on (u := u) alpha beta h.here a1 d1).mono (fun _ m1 h1 => ?_)
  refine (Run_loop (fun i m' => On m m' ⟨C, ldc, n, n⟩ (halfUpd u (fun a b =>
    alpha * (∑ l ∈ range rm, x a (nb * k2 + l) * x b (nb * k2 + l) + ∑ l ∈ range (i * k2), x a l * x b l) + beta * V a b) V))
    (h1.congr (halfUpd_congr (fun a _ b _ _ => ?_))) ?_).mono (fun _ m' h2 => h.trans (h2.congr (halfUpd_congr (fun a _ b _ _ => ?_))))
  · simp only [syVal, Nat.zero_add, Nat.zero_mul, sum_range_zero, add_zero]
  · intro i m2 hi h2
    rw [shiftA_adr]
    have hle : i * k2 + k2 ≤ nb * k2 := by
      have := Nat.mul_le_mul_right k2 (show i + 1 ≤ nb by omega)
      rw [Nat.add_mul, Nat.one_mul] at this; exact this
    have A2 : OSrc m2 t n k A lda x := hA.on h2 hd
    have a2 := A2.sub 0 (i * k2) (n' := n) (k' := k2) (by omega) (by omega)
    have d2 : (aw t n k2 (opAdr t A lda 0 (i * k2)) lda).Disj ⟨C, ldc, n, n⟩ := aw_sub_Disj (by omega) (by omega) hd
    refine (fsyrkDefault_on (u := u) alpha 1 h2 a2 d2).mono (fun _ m3 h3 => h3.congr (fun a ha b hb => ?_))
    rw [halfUpd_twice]
    refine halfUpd_congr (n := n) (fun a _ b _ c => ?_) a ha b hb
    simp only [syVal, halfUpd, if_pos c, Nat.zero_add]
    rw [Nat.add_mul, Nat.one_mul, sum_range_add (fun l => x a l * x b l)]
    ring
  · simp only [syVal]
    conv_rhs => rw [← ks, sum_range_add (fun l => x a l * x b l)]
    ring

lemma fsyrkLazy_R (cat : Cat) (kmax : ℕ) : SyrkR (K := K) (fun _ a b => b = a) (fsyrkLazy cat kmax) := by
  intro m u t n k alpha A lda beta C ldc x V hk hal h hA hd
  refine (fsyrkLazy_on cat kmax alpha beta hk hal h hA hd).mono (fun _ m' h' => ⟨_, h', fun i _ j _ c => if_pos c, fun i _ j _ c => if_neg c⟩)

lemma fscalin_on (cat : Cat) (a : K) (h : On m0 m ⟨C, ldc, n, n⟩ V) :
    Run (fscalin cat n n a C ldc) m (fun _ m' => On m0 m' ⟨C, ldc, n, n⟩ (fun i j => a * V i j)) := by
  refine (fscalin_spec cat a h.wf' h.ok' h.ld).mono (fun _ m' s => h.trans ⟨h.wf', h.ok', h.ld, s.congr (fun i hi j hj => ?_)⟩)
  exact congrArg (a * ·) (h.mat hi hj)

/-- exact effect of the delayed version: for `alpha ≠ ±1` the other triangle is multiplied by `alpha` -/
lemma fsyrkDelayed_on (cat : Cat) (kmax : ℕ) (alpha beta : K) (hk : k ≠ 0) (hal : alpha ≠ 0) (h : On m0 m ⟨C, ldc, n, n⟩ V)
    (hA : OSrc m t n k A lda x) (hd : (aw t n k A lda).Disj ⟨C, ldc, n, n⟩) :
    Run (fsyrkDelayed cat kmax u t n k alpha A lda beta C ldc) m
      (fun _ m' => On m0 m' ⟨C, ldc, n, n⟩ (halfUpd u (syVal k alpha beta x V)
        (fun i j => if alpha = 1 ∨ alpha = -1 then V i j else alpha * V i j))) := by
  unfold fsyrkDelayed
  rif c0
  · rw [Run_pure]; subst c0
    exact h.congr (fun i hi => absurd hi (by simp))
  rif c1
  · rcases c1 with c1 | c1
    · exact absurd c1 hk
    · exact absurd c1 hal
  rif c2
  · have e : ¬ (alpha = 1 ∨ alpha = -1) := by tauto
    simp only [Run_bind]
    refine (Run_liftE _ _ _).2 ?_
    simp only [divE, Ok_bind, Ok_invE, Ok_pure]
    refine ⟨hal, ?_⟩
    refine (fsyrkLazy_on cat kmax 1 _ hk one_ne_zero h hA hd).mono (fun _ m1 h1 => ?_)
    refine (fscalin_on cat alpha h1).mono (fun _ m2 h2 => h2.congr (fun i _ j _ => ?_))
    simp only [halfUpd, if_neg e]
    by_cases c : inHalf u i j
    · rw [if_pos c, if_pos c]
      simp only [syVal]
      field_simp
    · rw [if_neg c, if_neg c]
  · have e : alpha = 1 ∨ alpha = -1 := by tauto
    refine (fsyrkLazy_on cat kmax alpha beta hk hal h hA hd).mono (fun _ m1 h1 => h1.congr (fun i _ j _ => ?_))
    simp only [halfUpd, if_pos e]

lemma fsyrkDelayed_R (cat : Cat) (kmax : ℕ) : SyrkR (K := K) (fun al a b => b = a ∨ (al ≠ 1 ∧ al ≠ -1 ∧ b = al * a)) (fsyrkDelayed cat kmax) := by
  intro m u t n k alpha A lda beta C ldc x V hk hal h hA hd
  refine (fsyrkDelayed_on cat kmax alpha beta hk hal h hA hd).mono (fun _ m' h' => ⟨_, h', fun i _ j _ c => if_pos c, fun i _ j _ c => ?_⟩)
  rw [show halfUpd u _ _ i j = _ from if_neg c]
  by_cases e : alpha = 1 ∨ alpha = -1
  · exact Or.inl (if_pos e)
  · exact Or.inr ⟨fun q => e (Or.inl q), fun q => e (Or.inr q), if_neg e⟩

/-- public entry, any `k` and `alpha`: the selected triangle -/
lemma fsyrk_on (cat : Cat) {R : K → K → K → Prop} {s : SyrkFn K} (hs : SyrkR R s) (alpha beta : K) (h : On m m ⟨C, ldc, n, n⟩ V)
    (hA : OSrc m t n k A lda x) (hd : (aw t n k A lda).Disj ⟨C, ldc, n, n⟩) :
    Run (fsyrk cat s u t n k alpha A lda beta C ldc) m (fun _ m' => ∃ V', On m m' ⟨C, ldc, n, n⟩ V' ∧
      (∀ i < n, ∀ j < n, inHalf u i j → V' i j = syVal k alpha beta x V i j) ∧
      ∀ i < n, ∀ j < n, ¬ inHalf u i j → if k = 0 ∨ alpha = 0 then V' i j = beta * V i j else R alpha (V i j) (V' i j)) := by
  unfold fsyrk
  rif c0
  · rw [Run_pure]; subst c0
    exact ⟨V, h, fun i hi => absurd hi (by simp), fun i hi => absurd hi (by simp)⟩
  rif c1
  · refine (fscalin_on cat beta h).mono (fun _ m1 h1 => ⟨_, h1, fun i _ j _ _ => ?_, fun i _ j _ _ => by rw [if_pos c1]⟩)
    unfold syVal
    rcases c1 with rfl | rfl <;> simp
  · rw [not_or] at c1
    refine (hs m u t n k alpha A lda beta C ldc x V c1.1 c1.2 h hA hd).mono ?_
    rintro _ m1 ⟨V', h1, e1, e2⟩
    exact ⟨V', h1, e1, fun i hi j hj c => by rw [if_neg (by tauto)]; exact e2 i hi j hj c⟩

end

end Verif.FF
