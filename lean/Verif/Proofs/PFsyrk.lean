import Verif.Model.PFsyrk
import Verif.Proofs.ParGemm
import Verif.Proofs.FsyrkDiag

/-!
# Parallel symmetric rank update with a diagonal matrix
-/

namespace Verif.Par
open Verif.FF Verif.Spec Finset

variable {K : Type} [Field K] [DecidableEq K] {W R T : ℕ → Prop} {v : ℕ → K} {Q : (ℕ → K) → Prop}
variable {t : Tr} {n k A lda D incD temp C ldc : ℕ} {q : Proc K} {u : Uplo} {alpha beta : K}

omit [Field K] [DecidableEq K] in
lemma vals_op {f : ℕ → ℕ → K} {v' : ℕ → K} (h : Vals (aw t n k A lda) (op t f) v') : ∀ i < n, ∀ l < k, v' (opAdr t A lda i l) = f i l := by
  intro i hi l hl
  cases t with
  | no => exact h i hi l hl
  | yes => exact h l hl i hi

omit [Field K] [DecidableEq K] in
/-- every cell of `op(A)` is an entry -/
lemma aw_Has_op {x : ℕ} (h : (aw t n k A lda).Has x) : ∃ i < n, ∃ l < k, x = opAdr t A lda i l := by
  obtain ⟨i, hi, j, hj, rfl⟩ := h
  cases t with
  | no => exact ⟨i, hi, j, hj, rfl⟩
  | yes => exact ⟨j, hj, i, hi, rfl⟩

lemma wrIn_vneg {S : ℕ → Prop} {Y incY X incX : ℕ} (h : ∀ i < n, S (X + i * incX)) : Small.wrIn (vneg n Y incY X incX : Prog K Unit) S :=
  wrIn_loop fun i hi => wrIn_bind wrIn_load fun _ => wrIn_store (h i (cnt_lt hi))

lemma wrIn_vscal {S : ℕ → Prop} {a : K} {X incX Y incY : ℕ} (h : ∀ i < n, S (Y + i * incY)) : Small.wrIn (vscal .generic n a X incX Y incY) S :=
  wrIn_ite (fun _ => wrIn_vassign h) fun _ => wrIn_ite (fun _ => wrIn_vneg h) fun _ => wrIn_ite (fun _ => wrIn_vzero h) fun _ =>
    wrIn_ite (fun e => wrIn_loop fun i hi => wrIn_bind wrIn_load fun _ => wrIn_store (by have := h i hi; rwa [e.2, mul_one] at this))
      fun _ => wrIn_loop fun i hi => wrIn_bind wrIn_load fun _ => wrIn_store (h i (cnt_lt hi))

lemma wrIn_scaleD {S : ℕ → Prop} (h : ∀ x, (aw t n k A lda).Has x → S x) : Small.wrIn (scaleD t n k A lda D incD : Prog K Unit) S :=
  wrIn_loop fun l hl => wrIn_bind wrIn_load fun _ => wrIn_vscalin fun i hi => by
    rw [col_adr, col_row]; exact h _ (op_Has hi hl)

lemma wrIn_fillD {S : ℕ → Prop} {ldt : ℕ} (h : ∀ x, (aw t n k temp ldt).Has x → S x) :
    Small.wrIn (fillD t n k A lda D incD temp ldt : Prog K Unit) S :=
  wrIn_loop fun l hl => wrIn_bind wrIn_load fun _ => wrIn_vscal fun i hi => by
    rw [col_adr, col_row]; exact h _ (op_Has hi hl)

lemma scaleD_run {m1 : Mem K} {x : ℕ → ℕ → K} {d : ℕ → K} (h1 : On m1 m1 (aw t n k A lda) (op t x)) (hD1 : Src m1 (vw D incD k) (fun l _ => d l))
    (hDA : (vw D incD k).Disj (aw t n k A lda)) :
    Run (scaleD t n k A lda D incD) m1 (fun _ m2 => On m1 m2 (aw t n k A lda) (op t (fun i l => d l * x i l))) := by
  refine (Run_loop (fun i m' => On m1 m' (aw t n k A lda) (op t (fun a l => if l < i then d l * x a l else x a l)))
    (h1.congr (fun i _ j _ => by cases t <;> simp [op])) ?_).mono (fun _ m2 h2 => h2.congr (fun i hi j hj => ?_))
  · intro l m2 hl h2
    have r := D_rd (hD1.on h2 hDA) hl
    simp only [Run_bind, Run_load]
    refine ⟨r.1, ?_⟩
    rw [r.2]
    refine (scaleCol_on .generic _ h2 hl).mono (fun _ m3 h3 => h3.congr (fun i _ j _ => ?_))
    have q : ∀ a l', (if l' = l then d l * (if l < l then d l * x a l else x a l) else if l' < l then d l' * x a l' else x a l') =
        if l' < l + 1 then d l' * x a l' else x a l' := by
      intro a l'
      by_cases q1 : l' = l
      · subst q1; simp
      · rw [if_neg q1]
        by_cases q2 : l' < l
        · rw [if_pos q2, if_pos (by omega)]
        · rw [if_neg q2, if_neg (by omega)]
    cases t with
    | no => exact q i j
    | yes => exact q j i
  · cases t with
    | no => exact if_pos hj
    | yes => exact if_pos hi

lemma fillD_run {m1 : Mem K} {ldt : ℕ} {y τ : ℕ → ℕ → K} {d : ℕ → K} (hA2 : OSrc m1 t n k A lda y) (hT : On m1 m1 (aw t n k temp ldt) τ)
    (hd : (aw t n k A lda).Disj (aw t n k temp ldt)) (hD1 : Src m1 (vw D incD k) (fun l _ => d l))
    (hDT : (vw D incD k).Disj (aw t n k temp ldt)) :
    Run (fillD t n k A lda D incD temp ldt) m1 (fun _ m2 => On m1 m2 (aw t n k temp ldt) (op t (fun i l => d l * y i l))) := by
  refine (Run_loop (fun i m' => ∃ z, On m1 m' (aw t n k temp ldt) (op t z) ∧
    ∀ a, ∀ l < i, z a l = d l * y a l) ⟨op t τ, hT.congr (fun i _ j _ => by cases t <;> rfl), fun _ l hl => absurd hl (by omega)⟩ ?_).mono ?_
  · rintro l m2 hl ⟨z, h2, e2⟩
    have r := D_rd (hD1.on h2 hDT) hl
    simp only [Run_bind, Run_load]
    refine ⟨r.1, ?_⟩
    rw [r.2]
    refine (scalColTo_on .generic _ h2 (hA2.on h2 hd) hl hl hd).mono (fun _ m3 h3 => ⟨_, h3, fun a l' hl' => ?_⟩)
    by_cases q1 : l' = l
    · subst q1; rw [if_pos rfl]
    · rw [if_neg q1]; exact e2 a l' (by omega)
  · rintro _ m2 ⟨z, h2, e2⟩
    refine h2.congr (fun i hi j hj => ?_)
    cases t with
    | no => exact e2 i j hj
    | yes => exact e2 j i hi

omit [Field K] [DecidableEq K] in
lemma on_of_ok {m : Mem K} {w : Win} (hm : WF m) (ho : OkIn m w) (hl : w.c ≤ w.ld) : On m m w (fun i j => m.val (w.adr i j)) :=
  ⟨hm, ho, hl, Step.refl (fun _ _ _ _ => rfl)⟩

omit [Field K] [DecidableEq K] in
lemma src_D {m : Mem K} (ho : OkIn m (vw D incD k)) (hi : 1 ≤ incD) : Src m (vw D incD k) (fun l _ => m.val (D + l * incD)) :=
  ⟨ho, hi, fun i _ j hj => by
    have : j = 0 := by simpa [vw] using hj
    subst this; simp [Win.adr, vw]⟩

/-- `op(A) ← op(A) D` as a part of a task -/
lemma wp_scaleD (hla : opc t n k ≤ lda) (hi : 1 ≤ incD) (hDA : (vw D incD k).Disj (aw t n k A lda))
    (hA : ∀ x, (aw t n k A lda).Has x → W x ∨ T x) (hD : ∀ x, (vw D incD k).Has x → W x ∨ R x ∨ T x)
    (hk : ∀ v', (∀ x, W x ∨ R x ∨ T x → ¬ (aw t n k A lda).Has x → v' x = v x) →
      (∀ i < n, ∀ l < k, v' (opAdr t A lda i l) = v (D + l * incD) * v (opAdr t A lda i l)) → wp q W R T v' Q) :
    wp (call (scaleD t n k A lda D incD) q) W R T v Q := by
  refine wp_call (w := aw t n k A lda) (g := op t (fun i l => v (D + l * incD) * v (opAdr t A lda i l)))
    (fun x => (aw t n k A lda).Has x ∨ (vw D incD k).Has x) ((FinS.has _).or (FinS.has _)) (fun x hx => hx.elim (fun h => (hA x h).imp id Or.inr) (hD x))
    (wrIn_scaleD hA) ?_ (fun v' fr vals => hk v' fr (vals_op vals))
  intro m hm ho hv
  subst hv
  have h1 := on_of_ok (w := aw t n k A lda) hm (fun a ha => ho a (Or.inl ha)) hla
  refine (scaleD_run (x := fun i l => m.val (opAdr t A lda i l)) (h1.congr (fun i _ j _ => by cases t <;> rfl))
    (src_D (fun a ha => ho a (Or.inr ha)) hi) hDA).mono (fun _ _ h => h.step)

/-- `temp ← op(A) D` as a part of a task -/
lemma wp_fillD {ldt : ℕ} (hla : opc t n k ≤ lda) (hlt : opc t n k ≤ ldt) (hi : 1 ≤ incD) (hDT : (vw D incD k).Disj (aw t n k temp ldt))
    (hAT : (aw t n k A lda).Disj (aw t n k temp ldt))
    (hA : ∀ x, (aw t n k A lda).Has x → W x ∨ R x ∨ T x) (hD : ∀ x, (vw D incD k).Has x → W x ∨ R x ∨ T x)
    (hT : ∀ x, (aw t n k temp ldt).Has x → W x ∨ T x)
    (hk : ∀ v', (∀ x, W x ∨ R x ∨ T x → ¬ (aw t n k temp ldt).Has x → v' x = v x) →
      (∀ i < n, ∀ l < k, v' (opAdr t temp ldt i l) = v (D + l * incD) * v (opAdr t A lda i l)) → wp q W R T v' Q) :
    wp (call (fillD t n k A lda D incD temp ldt) q) W R T v Q := by
  refine wp_call (w := aw t n k temp ldt) (g := op t (fun i l => v (D + l * incD) * v (opAdr t A lda i l)))
    (fun x => (aw t n k temp ldt).Has x ∨ (vw D incD k).Has x ∨ (aw t n k A lda).Has x) ((FinS.has _).or ((FinS.has _).or (FinS.has _)))
    (fun x hx => hx.elim (fun h => (hT x h).imp id Or.inr) (fun h => h.elim (hD x) (hA x)))
    (wrIn_fillD hT) ?_ (fun v' fr vals => hk v' fr (vals_op vals))
  intro m hm ho hv
  subst hv
  refine (fillD_run (y := fun i l => m.val (opAdr t A lda i l)) ⟨fun a ha => ho a (Or.inr (Or.inr ha)), hla, fun _ _ _ _ => rfl⟩
    (on_of_ok hm (fun a ha => ho a (Or.inl ha)) hlt) hAT (src_D (fun a ha => ho a (Or.inr (Or.inl ha))) hi) hDT).mono (fun _ _ h => h.step)

/-- `temp ← op(A)` as a part of a task -/
lemma wp_copyA {ldt : ℕ} (hla : opc t n k ≤ lda) (hlt : opc t n k ≤ ldt)
    (hAT : (aw t n k A lda).Disj (aw t n k temp ldt))
    (hA : ∀ x, (aw t n k A lda).Has x → W x ∨ R x ∨ T x) (hT : ∀ x, (aw t n k temp ldt).Has x → W x ∨ T x)
    (hk : ∀ v', (∀ x, W x ∨ R x ∨ T x → ¬ (aw t n k temp ldt).Has x → v' x = v x) →
      (∀ i < n, ∀ l < k, v' (opAdr t temp ldt i l) = v (opAdr t A lda i l)) → wp q W R T v' Q) :
    wp (call (fassign (opr t n k) (opc t n k) A lda temp ldt) q) W R T v Q := by
  refine wp_call (w := aw t n k temp ldt) (g := op t (fun i l => v (opAdr t A lda i l)))
    (fun x => (aw t n k temp ldt).Has x ∨ (aw t n k A lda).Has x) ((FinS.has _).or (FinS.has _))
    (fun x hx => hx.elim (fun h => (hT x h).imp id Or.inr) (hA x))
    (wrIn_fassign (fun i hi j hj => hT _ ⟨i, hi, j, hj, rfl⟩)) ?_ (fun v' fr vals => hk v' fr (vals_op vals))
  intro m hm ho hv
  subst hv
  refine (fassign_spec hm (fun a ha => ho a (Or.inr ha)) (fun a ha => ho a (Or.inl ha)) hlt (Win.Disj.safe hAT rfl rfl)).mono
    (fun _ _ s => s.congr (fun i _ j _ => by cases t <;> rfl))

omit [Field K] [DecidableEq K] in
lemma aw_blk {N x : ℕ} (h : n * k ≤ N) (hx : (aw t n k temp (opc t n k)).Has x) : blkAt temp N x := by
  obtain ⟨i, hi, j, hj, rfl⟩ := hx
  have hi : i < opr t n k := hi
  have hj : j < opc t n k := hj
  have := flat_lt hi hj
  have e : opr t n k * opc t n k = n * k := by cases t <;> simp only [opr, opc]; ring
  simp only [blkAt, Win.adr]
  omega

omit [Field K] [DecidableEq K] in
lemma opAdr_flip {l j ld P : ℕ} : opAdr (oppTr t) P ld l j = opAdr t P ld j l := by cases t <;> rfl

/-- the arguments of `fsyrk` -/
structure SPre (t : Tr) (n k A lda D incD C ldc : ℕ) : Prop where
  la : opc t n k ≤ lda
  lc : n ≤ ldc
  li : 1 ≤ incD
  dAC : (aw t n k A lda).Disj ⟨C, ldc, n, n⟩
  dDA : (vw D incD k).Disj (aw t n k A lda)
  dDC : (vw D incD k).Disj ⟨C, ldc, n, n⟩

/-- contents `v'` after `fsyrk` from contents `v` -/
def SPost (u : Uplo) (t : Tr) (n k : ℕ) (alpha : K) (A lda D incD : ℕ) (beta : K) (C ldc : ℕ) (v v' : ℕ → K) : Prop :=
  (∀ i < n, ∀ l < k, v' (opAdr t A lda i l) = v (D + l * incD) * v (opAdr t A lda i l)) ∧
  ∀ i < n, ∀ j < n, inHalf u i j → v' (C + i * ldc + j) =
    alpha * (∑ l ∈ range k, v (D + l * incD) * v (opAdr t A lda i l) * v (opAdr t A lda j l)) + beta * v (C + i * ldc + j)

/-- `p A C` is `fsyrk` with a diagonal matrix for `n` rows, as a part of a task -/
def PSyrkOk (u : Uplo) (t : Tr) (k : ℕ) (alpha : K) (lda D incD : ℕ) (beta : K) (ldc n : ℕ) (p : ℕ → ℕ → Proc K → Proc K) : Prop :=
  ∀ (A C : ℕ) (q : Proc K) (W R T : ℕ → Prop) (v : ℕ → K) (Q : (ℕ → K) → Prop), SPre t n k A lda D incD C ldc →
    (∀ x, (aw t n k A lda).Has x → W x ∨ T x) → (∀ x, (Win.mk C ldc n n).Has x → W x ∨ T x) → (∀ x, (vw D incD k).Has x → W x ∨ R x ∨ T x) →
    (∀ v', (∀ x, W x ∨ R x ∨ T x → ¬ (aw t n k A lda).Has x → ¬ (Win.mk C ldc n n).Has x → v' x = v x) →
      SPost u t n k alpha A lda D incD beta C ldc v v' → wp q W R T v' Q) →
    wp (p A C q) W R T v Q

omit [Field K] [DecidableEq K] in
lemma D_Has {l : ℕ} (hl : l < k) : (vw D incD k).Has (D + l * incD) := ⟨l, hl, 0, Nat.one_pos, by simp [Win.adr, vw]⟩

lemma syrkBase_ok {g : PGemm K} (hg : PGemmOk g) : PSyrkOk u t k alpha lda D incD beta ldc n
    (fun A C q => syrkBase g t n k alpha A lda D incD beta C ldc q) := by
  intro A C q W R T v Q hp hA hC hD hk
  refine wp_alloc (fun temp v0 hf e0 => ?_)
  have hT : ∀ x, (aw t n k temp (opc t n k)).Has x → blkAt temp (n * k) x := fun x hx => aw_blk le_rfl hx
  have nA : ∀ x, (aw t n k A lda).Has x → ¬ (aw t n k temp (opc t n k)).Has x := fun x hx h => hf x (hT x h) ((hA x hx).imp id Or.inr)
  have nC : ∀ x, (Win.mk C ldc n n).Has x → ¬ (aw t n k temp (opc t n k)).Has x := fun x hx h => hf x (hT x h) ((hC x hx).imp id Or.inr)
  have nD : ∀ x, (vw D incD k).Has x → ¬ (aw t n k temp (opc t n k)).Has x := fun x hx h => hf x (hT x h) (hD x hx)
  have w1 : ∀ x, (aw t n k A lda).Has x → W x ∨ T x ∨ blkAt temp (n * k) x := fun x hx => (hA x hx).imp id Or.inl
  have w2 : ∀ x, (Win.mk C ldc n n).Has x → W x ∨ T x ∨ blkAt temp (n * k) x := fun x hx => (hC x hx).imp id Or.inl
  have w3 : ∀ x, (vw D incD k).Has x → W x ∨ R x ∨ T x ∨ blkAt temp (n * k) x := fun x hx => (hD x hx).imp id (Or.imp id Or.inl)
  have w4 : ∀ x, (aw t n k temp (opc t n k)).Has x → W x ∨ T x ∨ blkAt temp (n * k) x := fun x hx => Or.inr (Or.inr (hT x hx))
  refine wp_copyA hp.la le_rfl nA (fun x hx => (w1 x hx).imp id Or.inr) w4 ?_
  intro v1 f1 e1
  refine wp_scaleD hp.la hp.li hp.dDA w1 w3 ?_
  intro v2 f2 e2
  refine hg _ _ _ _ _ _ _ ⟨hp.la, ?_, hp.lc, ?_⟩ w2 ?_ ?_
  · show opc (oppTr t) k n ≤ opc t n k
    cases t <;> exact le_rfl
  · rintro x (hx | hx)
    · exact hp.dAC x hx
    · intro h
      have hx : (aw (oppTr t) k n temp (opc t n k)).Has x := hx
      rw [aw_flip] at hx
      exact nC x h hx
  · rintro x (hx | hx)
    · exact (w1 x hx).imp id Or.inr
    · have hx : (aw (oppTr t) k n temp (opc t n k)).Has x := hx
      rw [aw_flip] at hx
      exact (w4 x hx).imp id Or.inr
  intro v3 f3 e3
  refine wp_free (fun i hi => Or.inr hi) (fun i hi => ⟨Or.inl hi, fun hb => hf i hb (Or.inr (Or.inr hi))⟩) (hk v3 ?_ ⟨?_, ?_⟩)
  · intro x hx h1 h2
    have hx' : W x ∨ R x ∨ T x ∨ blkAt temp (n * k) x := hx.imp id (Or.imp id Or.inl)
    rw [f3 x hx' h2, f2 x hx' h1, f1 x hx' (fun h => hf x (hT x h) hx), e0 x hx]
  · intro i hi l hl
    have a := op_Has (t := t) (A := A) (lda := lda) hi hl
    rw [f3 _ ((w1 _ a).imp id Or.inr) (hp.dAC _ a), e2 i hi l hl, f1 _ (w3 _ (D_Has hl)) (nD _ (D_Has hl)), f1 _ ((w1 _ a).imp id Or.inr) (nA _ a),
      e0 _ (hD _ (D_Has hl)), e0 _ ((hA _ a).imp id Or.inr)]
  · intro i hi j hj _
    have c : (Win.mk C ldc n n).Has (C + i * ldc + j) := ⟨i, hi, j, hj, rfl⟩
    have h : v3 (C + i * ldc + j) = _ := e3 i hi j hj
    rw [h]
    simp only [Call.val, Call.dot, Nat.zero_add, opAdr_flip]
    congr 1
    · congr 1
      refine sum_congr rfl (fun l hl => ?_)
      have hl := mem_range.1 hl
      have a := op_Has (t := t) (A := A) (lda := lda) hi hl
      have a' := op_Has (t := t) (A := A) (lda := lda) hj hl
      have b := op_Has (t := t) (A := temp) (lda := opc t n k) hj hl
      rw [e2 i hi l hl, f2 _ ((w4 _ b).imp id Or.inr) (fun h => nA _ h b), e1 j hj l hl, f1 _ (w3 _ (D_Has hl)) (nD _ (D_Has hl)),
        f1 _ ((w1 _ a).imp id Or.inr) (nA _ a), e0 _ (hD _ (D_Has hl)), e0 _ ((hA _ a).imp id Or.inr), e0 _ ((hA _ a').imp id Or.inr)]
    · congr 1
      show v2 (C + i * ldc + j) = _
      rw [f2 _ ((w2 _ c).imp id Or.inr) (fun h => hp.dAC _ h c), f1 _ ((w2 _ c).imp id Or.inr) (nC _ c), e0 _ ((hC _ c).imp id Or.inr)]

/-- one index is in the first half and the other one in the second half -/
def Cross (n1 i j : ℕ) : Prop := (i < n1 ∧ n1 ≤ j) ∨ (n1 ≤ i ∧ j < n1)

/-- the value of one entry of the result -/
def syrkVal (t : Tr) (k : ℕ) (alpha : K) (A lda D incD : ℕ) (beta : K) (C ldc : ℕ) (v : ℕ → K) (i j : ℕ) : K :=
  alpha * (∑ l ∈ range k, v (D + l * incD) * v (opAdr t A lda i l) * v (opAdr t A lda j l)) + beta * v (C + i * ldc + j)

lemma syrkOff_ok {g : PGemm K} (hg : PGemmOk g) {n1 : ℕ} (hn : n1 ≤ n) (hp : SPre t n k A lda D incD C ldc)
    (hA : ∀ x, (aw t n k A lda).Has x → W x ∨ T x) (hC : ∀ x, (Win.mk C ldc n n).Has x → W x ∨ T x) (hD : ∀ x, (vw D incD k).Has x → W x ∨ R x ∨ T x)
    (hk : ∀ v', (∀ x, W x ∨ R x ∨ T x → (∀ i < n, ∀ j < n, Cross n1 i j → x ≠ C + i * ldc + j) → v' x = v x) →
      (∀ i < n, ∀ j < n, inHalf u i j → Cross n1 i j → v' (C + i * ldc + j) = syrkVal t k alpha A lda D incD beta C ldc v i j) → wp q W R T v' Q) :
    wp (syrkOff g u t n n1 k alpha A lda D incD beta C ldc q) W R T v Q := by
  obtain ⟨n2, rfl⟩ : ∃ n2, n = n1 + n2 := ⟨n - n1, by omega⟩
  unfold syrkOff
  rw [Nat.add_sub_cancel_left, opAdr_row]
  refine wp_alloc (fun temp v0 hf e0 => ?_)
  set N := max n2 n1 * k
  set ldt := opc t n2 k with eldt
  have hT : ∀ x, (aw t n2 k temp ldt).Has x → blkAt temp N x := fun x hx => aw_blk (Nat.mul_le_mul_right _ (le_max_left _ _)) hx
  have hA2 : ∀ x, (aw t n2 k (opAdr t A lda n1 0) lda).Has x → (aw t (n1 + n2) k A lda).Has x := fun x hx => aw_sub_Has le_rfl (by omega) hx
  have z0 : opAdr t A lda 0 0 = A := by cases t <;> simp [opAdr]
  have hA1 : ∀ x, (aw t n1 k A lda).Has x → (aw t (n1 + n2) k A lda).Has x := fun x hx =>
    aw_sub_Has (i0 := 0) (l0 := 0) (n' := n1) (k' := k) (by omega) (by omega) (by rw [z0]; exact hx)
  have nA : ∀ x, (aw t (n1 + n2) k A lda).Has x → ¬ (aw t n2 k temp ldt).Has x := fun x hx h => hf x (hT x h) ((hA x hx).imp id Or.inr)
  have nC : ∀ x, (Win.mk C ldc (n1 + n2) (n1 + n2)).Has x → ¬ (aw t n2 k temp ldt).Has x := fun x hx h => hf x (hT x h) ((hC x hx).imp id Or.inr)
  have nD : ∀ x, (vw D incD k).Has x → ¬ (aw t n2 k temp ldt).Has x := fun x hx h => hf x (hT x h) (hD x hx)
  have w1 : ∀ x, (aw t (n1 + n2) k A lda).Has x → W x ∨ R x ∨ T x ∨ blkAt temp N x := fun x hx => (hA x hx).imp id (fun h => Or.inr (Or.inl h))
  have w2 : ∀ x, (Win.mk C ldc (n1 + n2) (n1 + n2)).Has x → W x ∨ T x ∨ blkAt temp N x := fun x hx => (hC x hx).imp id Or.inl
  have w3 : ∀ x, (vw D incD k).Has x → W x ∨ R x ∨ T x ∨ blkAt temp N x := fun x hx => (hD x hx).imp id (Or.imp id Or.inl)
  have w4 : ∀ x, (aw t n2 k temp ldt).Has x → W x ∨ T x ∨ blkAt temp N x := fun x hx => Or.inr (Or.inr (hT x hx))
  have la1 : opc t n1 k ≤ lda := by have := hp.la; cases t <;> simp only [opc] at * <;> omega
  have la2 : opc t n2 k ≤ lda := by have := hp.la; cases t <;> simp only [opc] at * <;> omega
  refine wp_fillD la2 le_rfl hp.li (fun x hx => nD x hx) (fun x hx => nA x (hA2 x hx)) (fun x hx => w1 x (hA2 x hx)) w3 w4 ?_
  intro v1 f1 e1
  have d1 : ∀ l < k, v0 (D + l * incD) = v (D + l * incD) := fun l hl => e0 _ (hD _ (D_Has hl))
  have a1 : ∀ i < n1 + n2, ∀ l < k, v1 (opAdr t A lda i l) = v (opAdr t A lda i l) := fun i hi l hl => by
    have a := op_Has (t := t) (A := A) (lda := lda) hi hl
    rw [f1 _ (w1 _ a) (nA _ a), e0 _ ((hA _ a).imp id Or.inr)]
  have t1 : ∀ i < n2, ∀ l < k, v1 (opAdr t temp ldt i l) = v (D + l * incD) * v (opAdr t A lda (n1 + i) l) := fun i hi l hl => by
    have a := op_Has (t := t) (A := A) (lda := lda) (show n1 + i < n1 + n2 by omega) hl
    rw [e1 i hi l hl, d1 l hl, opAdr_opAdr, Nat.zero_add, e0 _ ((hA _ a).imp id Or.inr)]
  have c1 : ∀ i < n1 + n2, ∀ j < n1 + n2, v1 (C + i * ldc + j) = v (C + i * ldc + j) := fun i hi j hj => by
    have c : (Win.mk C ldc (n1 + n2) (n1 + n2)).Has (C + i * ldc + j) := ⟨i, hi, j, hj, rfl⟩
    rw [f1 _ ((w2 _ c).imp id Or.inr) (nC _ c), e0 _ ((hC _ c).imp id Or.inr)]
  have fin : ∀ v3 : ℕ → K, (∀ x, W x ∨ R x ∨ T x ∨ blkAt temp N x → (∀ i < n1 + n2, ∀ j < n1 + n2, Cross n1 i j → x ≠ C + i * ldc + j) → v3 x = v1 x) →
      (∀ i < n1 + n2, ∀ j < n1 + n2, inHalf u i j → Cross n1 i j → v3 (C + i * ldc + j) = syrkVal t k alpha A lda D incD beta C ldc v i j) →
      wp (.free temp N q) W R (fun i => T i ∨ blkAt temp N i) v3 Q := by
    intro v3 f3 e3
    refine wp_free (fun i hi => Or.inr hi) (fun i hi => ⟨Or.inl hi, fun hb => hf i hb (Or.inr (Or.inr hi))⟩) (hk v3 ?_ e3)
    intro x hx h
    have hx' : W x ∨ R x ∨ T x ∨ blkAt temp N x := hx.imp id (Or.imp id Or.inl)
    rw [f3 x hx' h, f1 x hx' (fun h => hf x (hT x h) hx), e0 x hx]
  cases u with
  | upper =>
    have hC12 : ∀ x, (Win.mk (C + n1) ldc n1 n2).Has x → ∃ i < n1 + n2, ∃ j < n1 + n2, Cross n1 i j ∧ x = C + i * ldc + j := by
      rintro x ⟨i, hi, j, hj, rfl⟩
      have hi : i < n1 := hi
      have hj : j < n2 := hj
      exact ⟨i, by omega, n1 + j, by omega, Or.inl ⟨hi, by omega⟩, by simp only [Win.adr]; ring⟩
    have hCs : ∀ x, (Win.mk (C + n1) ldc n1 n2).Has x → (Win.mk C ldc (n1 + n2) (n1 + n2)).Has x := fun x hx => by
      obtain ⟨i, hi, j, hj, _, rfl⟩ := hC12 x hx
      exact ⟨i, hi, j, hj, rfl⟩
    refine hg _ _ _ _ _ _ _ ⟨la1, ?_, ?_, ?_⟩ (fun x hx => w2 x (hCs x hx)) ?_ ?_
    · show opc (oppTr t) k n2 ≤ opc t n2 k
      cases t <;> exact le_rfl
    · have := hp.lc; show n2 ≤ ldc; omega
    · rintro x (hx | hx) h
      · exact hp.dAC x (hA1 x hx) (hCs x h)
      · have hx : (aw (oppTr t) k n2 temp ldt).Has x := hx
        rw [aw_flip] at hx
        exact nC x (hCs x h) hx
    · rintro x (hx | hx)
      · exact w1 x (hA1 x hx)
      · have hx : (aw (oppTr t) k n2 temp ldt).Has x := hx
        rw [aw_flip] at hx
        exact (w4 x hx).imp id Or.inr
    · intro v3 f3 e3
      refine fin v3 (fun x hx h => f3 x hx (fun hh => ?_)) (fun i hi j hj hu hc => ?_)
      · obtain ⟨i, hi, j, hj, hc, e⟩ := hC12 x hh
        exact h i hi j hj hc e
      · have hij : i ≤ j := hu
        have hi1 : i < n1 := by rcases hc with h | h <;> omega
        obtain ⟨j', rfl⟩ : ∃ j', j = n1 + j' := ⟨j - n1, by rcases hc with h | h <;> omega⟩
        have h := e3 i hi1 j' (show j' < n2 by omega)
        have ea : (Call.win (K := K) ⟨t, oppTr t, n1, n2, k, alpha, A, lda, temp, ldt, beta, C + n1, ldc⟩).adr i j' = C + i * ldc + (n1 + j') := by
          simp only [Call.win, Win.adr]; ring
        rw [ea] at h
        rw [h]
        simp only [Call.val, Call.dot, Nat.zero_add, opAdr_flip, syrkVal]
        rw [ea, c1 i hi _ hj]
        congr 2
        refine sum_congr rfl (fun l hl => ?_)
        have hl := mem_range.1 hl
        rw [a1 i hi l hl, t1 j' (by omega) l hl]; ring
  | lower =>
    have hC21 : ∀ x, (Win.mk (C + n1 * ldc) ldc n2 n1).Has x → ∃ i < n1 + n2, ∃ j < n1 + n2, Cross n1 i j ∧ x = C + i * ldc + j := by
      rintro x ⟨i, hi, j, hj, rfl⟩
      have hi : i < n2 := hi
      have hj : j < n1 := hj
      exact ⟨n1 + i, by omega, j, by omega, Or.inr ⟨by omega, hj⟩, by simp only [Win.adr]; ring⟩
    have hCs : ∀ x, (Win.mk (C + n1 * ldc) ldc n2 n1).Has x → (Win.mk C ldc (n1 + n2) (n1 + n2)).Has x := fun x hx => by
      obtain ⟨i, hi, j, hj, _, rfl⟩ := hC21 x hx
      exact ⟨i, hi, j, hj, rfl⟩
    refine hg _ _ _ _ _ _ _ ⟨le_rfl, ?_, ?_, ?_⟩ (fun x hx => w2 x (hCs x hx)) ?_ ?_
    · show opc (oppTr t) k n1 ≤ lda
      cases t <;> exact la1
    · have := hp.lc; show n1 ≤ ldc; omega
    · rintro x (hx | hx) h
      · exact nC x (hCs x h) hx
      · have hx : (aw (oppTr t) k n1 A lda).Has x := hx
        rw [aw_flip] at hx
        exact hp.dAC x (hA1 x hx) (hCs x h)
    · rintro x (hx | hx)
      · exact (w4 x hx).imp id Or.inr
      · have hx : (aw (oppTr t) k n1 A lda).Has x := hx
        rw [aw_flip] at hx
        exact w1 x (hA1 x hx)
    · intro v3 f3 e3
      refine fin v3 (fun x hx h => f3 x hx (fun hh => ?_)) (fun i hi j hj hu hc => ?_)
      · obtain ⟨i, hi, j, hj, hc, e⟩ := hC21 x hh
        exact h i hi j hj hc e
      · have hij : j ≤ i := hu
        have hj1 : j < n1 := by rcases hc with h | h <;> omega
        obtain ⟨i', rfl⟩ : ∃ i', i = n1 + i' := ⟨i - n1, by rcases hc with h | h <;> omega⟩
        have h := e3 i' (show i' < n2 by omega) j hj1
        have ea : (Call.win (K := K) ⟨t, oppTr t, n2, n1, k, alpha, temp, ldt, A, lda, beta, C + n1 * ldc, ldc⟩).adr i' j = C + (n1 + i') * ldc + j := by
          simp only [Call.win, Win.adr]; ring
        rw [ea] at h
        rw [h]
        simp only [Call.val, Call.dot, Nat.zero_add, opAdr_flip, syrkVal]
        rw [ea, c1 _ hi _ hj]
        congr 2
        refine sum_congr rfl (fun l hl => ?_)
        have hl := mem_range.1 hl
        rw [a1 j hj l hl, t1 i' (by omega) l hl]

section halves
variable {n1 n2 : ℕ}

omit [Field K] [DecidableEq K]

lemma opAdr_inj (hl : opc t n k ≤ lda) {i l i' l' : ℕ} (hi : i < n) (hk : l < k) (hi' : i' < n) (hk' : l' < k)
    (h : opAdr t A lda i l = opAdr t A lda i' l') : i = i' ∧ l = l' := by
  have inj : (aw t n k A lda).Inj := Win.Inj_of_le (Or.inl hl)
  cases t with
  | no => exact inj i hi l hk i' hi' l' hk' h
  | yes => exact (inj l hk i hi l' hk' i' hi' h).symm

lemma C_inj {i j i' j' : ℕ} (hl : n ≤ ldc) (hi : i < n) (hj : j < n) (hi' : i' < n) (hj' : j' < n) (h : C + i * ldc + j = C + i' * ldc + j') :
    i = i' ∧ j = j' :=
  (Win.Inj_of_le (W := ⟨C, ldc, n, n⟩) (Or.inl hl)) i hi j hj i' hi' j' hj' h

lemma half1_A {x : ℕ} (h : (aw t n1 k A lda).Has x) : (aw t (n1 + n2) k A lda).Has x := by
  obtain ⟨i, hi, l, hl, rfl⟩ := aw_Has_op h
  exact op_Has (by omega) hl

lemma half2_A {x : ℕ} (h : (aw t n2 k (opAdr t A lda n1 0) lda).Has x) : (aw t (n1 + n2) k A lda).Has x := aw_sub_Has le_rfl (by omega) h

lemma half1_C {x : ℕ} (h : (Win.mk C ldc n1 n1).Has x) : (Win.mk C ldc (n1 + n2) (n1 + n2)).Has x := by
  obtain ⟨i, hi, j, hj, rfl⟩ := h
  exact ⟨i, Nat.lt_add_right _ hi, j, Nat.lt_add_right _ hj, rfl⟩

lemma half2_adr {i j : ℕ} : C + n1 + n1 * ldc + i * ldc + j = C + (n1 + i) * ldc + (n1 + j) := by ring

lemma half2_C {x : ℕ} (h : (Win.mk (C + n1 + n1 * ldc) ldc n2 n2).Has x) : (Win.mk C ldc (n1 + n2) (n1 + n2)).Has x := by
  obtain ⟨i, hi, j, hj, rfl⟩ := h
  exact ⟨n1 + i, Nat.add_lt_add_left hi _, n1 + j, Nat.add_lt_add_left hj _, half2_adr⟩

lemma SPre.half1 (hp : SPre t (n1 + n2) k A lda D incD C ldc) : SPre t n1 k A lda D incD C ldc :=
  ⟨by have := hp.la; cases t <;> simp only [opc] at * <;> omega, by have := hp.lc; omega, hp.li, fun x h h' => hp.dAC x (half1_A h) (half1_C h'),
    fun x h h' => hp.dDA x h (half1_A h'), fun x h h' => hp.dDC x h (half1_C h')⟩

lemma SPre.half2 (hp : SPre t (n1 + n2) k A lda D incD C ldc) : SPre t n2 k (opAdr t A lda n1 0) lda D incD (C + n1 + n1 * ldc) ldc :=
  ⟨by have := hp.la; cases t <;> simp only [opc] at * <;> omega, by have := hp.lc; omega, hp.li, fun x h h' => hp.dAC x (half2_A h) (half2_C h'),
    fun x h h' => hp.dDA x h (half2_A h'), fun x h h' => hp.dDC x h (half2_C h')⟩

lemma SPre.dAA (hp : SPre t (n1 + n2) k A lda D incD C ldc) : (aw t n1 k A lda).Disj (aw t n2 k (opAdr t A lda n1 0) lda) := by
  intro x h h'
  obtain ⟨i, hi, l, hl, rfl⟩ := aw_Has_op h
  obtain ⟨i', hi', l', hl', e⟩ := aw_Has_op h'
  rw [opAdr_opAdr, Nat.zero_add] at e
  have := opAdr_inj hp.la (by omega) hl (by omega) hl' e
  omega

lemma SPre.dCC (hp : SPre t (n1 + n2) k A lda D incD C ldc) : (Win.mk C ldc n1 n1).Disj (Win.mk (C + n1 + n1 * ldc) ldc n2 n2) := by
  rintro x ⟨i, hi, j, hj, rfl⟩ ⟨i', hi', j', hj', e⟩
  have hi : i < n1 := hi
  have hj : j < n1 := hj
  have hi' : i' < n2 := hi'
  have hj' : j' < n2 := hj'
  have e : C + i * ldc + j = C + n1 + n1 * ldc + i' * ldc + j' := e
  rw [half2_adr] at e
  have := C_inj hp.lc (by omega) (by omega) (by omega) (by omega) e
  omega

end halves

omit [DecidableEq K] in
/-- the results on the two halves and outside the diagonal blocks make the result -/
lemma syrk_join {n1 n2 : ℕ} {v1 v2 : ℕ → K} (hp : SPre t (n1 + n2) k A lda D incD C ldc)
    (hA : ∀ x, (aw t (n1 + n2) k A lda).Has x → W x ∨ T x) (hC : ∀ x, (Win.mk C ldc (n1 + n2) (n1 + n2)).Has x → W x ∨ T x)
    (hD : ∀ x, (vw D incD k).Has x → W x ∨ R x ∨ T x)
    (f1 : ∀ x, W x ∨ R x ∨ T x → (∀ i < n1 + n2, ∀ j < n1 + n2, Cross n1 i j → x ≠ C + i * ldc + j) → v1 x = v x)
    (e1 : ∀ i < n1 + n2, ∀ j < n1 + n2, inHalf u i j → Cross n1 i j → v1 (C + i * ldc + j) = syrkVal t k alpha A lda D incD beta C ldc v i j)
    (f2 : ∀ x, W x ∨ R x ∨ T x → ¬ (aw t n1 k A lda).Has x → ¬ (Win.mk C ldc n1 n1).Has x → ¬ (aw t n2 k (opAdr t A lda n1 0) lda).Has x →
      ¬ (Win.mk (C + n1 + n1 * ldc) ldc n2 n2).Has x → v2 x = v1 x)
    (s1 : SPost u t n1 k alpha A lda D incD beta C ldc v1 v2)
    (s2 : SPost u t n2 k alpha (opAdr t A lda n1 0) lda D incD beta (C + n1 + n1 * ldc) ldc v1 v2) :
    (∀ x, W x ∨ R x ∨ T x → ¬ (aw t (n1 + n2) k A lda).Has x → ¬ (Win.mk C ldc (n1 + n2) (n1 + n2)).Has x → v2 x = v x) ∧
      SPost u t (n1 + n2) k alpha A lda D incD beta C ldc v v2 := by
  have c : ∀ {i j}, i < n1 + n2 → j < n1 + n2 → (Win.mk C ldc (n1 + n2) (n1 + n2)).Has (C + i * ldc + j) := fun hi hj => ⟨_, hi, _, hj, rfl⟩
  have a1 : ∀ i < n1 + n2, ∀ l < k, v1 (opAdr t A lda i l) = v (opAdr t A lda i l) := fun i hi l hl =>
    f1 _ ((hA _ (op_Has hi hl)).imp id Or.inr) (fun i' hi' j' hj' _ e => hp.dAC _ (op_Has hi hl) (by rw [e]; exact c hi' hj'))
  have d1 : ∀ l < k, v1 (D + l * incD) = v (D + l * incD) := fun l hl =>
    f1 _ (hD _ (D_Has hl)) (fun i' hi' j' hj' _ e => hp.dDC _ (D_Has hl) (by rw [e]; exact c hi' hj'))
  have c1 : ∀ i < n1 + n2, ∀ j < n1 + n2, ¬ Cross n1 i j → v1 (C + i * ldc + j) = v (C + i * ldc + j) := fun i hi j hj h =>
    f1 _ ((hC _ (c hi hj)).imp id Or.inr) (fun i' hi' j' hj' h' e => h (by
      obtain ⟨rfl, rfl⟩ := C_inj hp.lc hi hj hi' hj' e
      exact h'))
  refine ⟨fun x hx h h' => ?_, fun i hi l hl => ?_, fun i hi j hj hu => ?_⟩
  · rw [f2 x hx (fun q => h (half1_A q)) (fun q => h' (half1_C q)) (fun q => h (half2_A q)) (fun q => h' (half2_C q))]
    exact f1 x hx (fun i hi j hj _ e => h' (by rw [e]; exact c hi hj))
  · by_cases q : i < n1
    · rw [s1.1 i q l hl, a1 i hi l hl, d1 l hl]
    · obtain ⟨i', rfl⟩ : ∃ i', i = n1 + i' := ⟨i - n1, by omega⟩
      have h := s2.1 i' (by omega) l hl
      rw [opAdr_opAdr, Nat.zero_add] at h
      rw [h, a1 _ hi l hl, d1 l hl]
  · by_cases q : Cross n1 i j
    · have h := e1 i hi j hj hu q
      rw [← syrkVal.eq_1 (t := t) (D := D) (C := C), ← h]
      refine f2 _ ((hC _ (c hi hj)).imp id Or.inr) (fun h => hp.dAC _ (half1_A h) (c hi hj)) ?_ (fun h => hp.dAC _ (half2_A h) (c hi hj)) ?_
      · rintro ⟨i', hi', j', hj', e⟩
        have hi' : i' < n1 := hi'
        have hj' : j' < n1 := hj'
        obtain ⟨rfl, rfl⟩ := C_inj hp.lc hi hj (show i' < n1 + n2 by omega) (show j' < n1 + n2 by omega) e
        rcases q with q | q <;> omega
      · rintro ⟨i', hi', j', hj', e⟩
        have hi' : i' < n2 := hi'
        have hj' : j' < n2 := hj'
        have e : C + i * ldc + j = C + n1 + n1 * ldc + i' * ldc + j' := e
        rw [half2_adr] at e
        obtain ⟨rfl, rfl⟩ := C_inj hp.lc hi hj (show n1 + i' < n1 + n2 by omega) (show n1 + j' < n1 + n2 by omega) e
        rcases q with q | q <;> omega
    · by_cases q1 : i < n1
      · have q2 : j < n1 := by
          by_contra h
          exact q (Or.inl ⟨q1, by omega⟩)
        rw [s1.2 i q1 j q2 hu, c1 i hi j hj q]
        congr 2
        exact sum_congr rfl (fun l hl => by rw [d1 l (mem_range.1 hl), a1 i hi l (mem_range.1 hl), a1 j hj l (mem_range.1 hl)])
      · have q2 : n1 ≤ j := by
          by_contra h
          exact q (Or.inr ⟨by omega, by omega⟩)
        obtain ⟨i', rfl⟩ : ∃ i', i = n1 + i' := ⟨i - n1, by omega⟩
        obtain ⟨j', rfl⟩ : ∃ j', j = n1 + j' := ⟨j - n1, by omega⟩
        have h := s2.2 i' (by omega) j' (by omega) (by cases u <;> simp only [inHalf] at * <;> omega)
        rw [half2_adr] at h
        rw [h, c1 _ hi _ hj q]
        congr 2
        refine sum_congr rfl (fun l hl => ?_)
        rw [opAdr_opAdr, opAdr_opAdr, Nat.zero_add, d1 l (mem_range.1 hl), a1 _ hi l (mem_range.1 hl), a1 _ hj l (mem_range.1 hl)]

theorem seqSyrk_ok {gs : PGemm K} (hs : PGemmOk gs) {thr : ℕ} (ht : 1 ≤ thr) (fuel n : ℕ) (hf : n ≤ fuel) (hf1 : 1 ≤ fuel) :
    PSyrkOk u t k alpha lda D incD beta ldc n (seqSyrk gs thr u t k alpha lda D incD beta ldc fuel n) := by
  induction fuel generalizing n with
  | zero => omega
  | succ fuel ih =>
    intro A C q W R T v Q hp hA hC hD hk
    simp only [seqSyrk]
    split
    · exact syrkBase_ok hs A C q W R T v Q hp hA hC hD hk
    · obtain ⟨n1, n2, rfl, en1, e2⟩ : ∃ n1 n2, n = n1 + n2 ∧ (n1 + n2) / 2 = n1 ∧ n1 + n2 - n1 = n2 := ⟨n / 2, n - n / 2, by omega, by omega, by omega⟩
      rw [en1, e2, opAdr_row]
      refine syrkOff_ok hs (by omega) hp hA hC hD (fun v1 f1 e1 => ?_)
      refine ih n1 (by omega) (by omega) A C _ W R T v1 Q hp.half1 (fun x h => hA x (half1_A h)) (fun x h => hC x (half1_C h)) hD (fun v2 f2 s1 => ?_)
      refine ih n2 (by omega) (by omega) _ _ _ W R T v2 Q hp.half2 (fun x h => hA x (half2_A h)) (fun x h => hC x (half2_C h)) hD (fun v3 f3 s2 => ?_)
      have b1 : ∀ i < n2, ∀ l < k, v2 (opAdr t (opAdr t A lda n1 0) lda i l) = v1 (opAdr t (opAdr t A lda n1 0) lda i l) := fun i hi l hl => by
        have h := op_Has (t := t) (A := opAdr t A lda n1 0) (lda := lda) hi hl
        exact f2 _ ((hA _ (half2_A h)).imp id Or.inr) (fun h' => hp.dAA _ h' h) (fun h' => hp.dAC _ (half2_A h) (half1_C h'))
      have b2 : ∀ l < k, v2 (D + l * incD) = v1 (D + l * incD) := fun l hl =>
        f2 _ (hD _ (D_Has hl)) (fun h => hp.dDA _ (D_Has hl) (half1_A h)) (fun h => hp.dDC _ (D_Has hl) (half1_C h))
      refine (fun h => hk v3 h.1 h.2) (syrk_join (W := W) (R := R) (T := T) (v1 := v1) hp hA hC hD f1 e1 ?_ ⟨fun i hi l hl => ?_, fun i hi j hj hu => ?_⟩
        ⟨fun i hi l hl => ?_, fun i hi j hj hu => ?_⟩)
      · intro x hx h1 h2 h3 h4
        rw [f3 x hx h3 h4, f2 x hx h1 h2]
      · have h := op_Has (t := t) (A := A) (lda := lda) hi hl
        rw [f3 _ ((hA _ (half1_A h)).imp id Or.inr) (hp.dAA _ h) (fun h' => hp.dAC _ (half1_A h) (half2_C h')), s1.1 i hi l hl]
      · have h : (Win.mk C ldc n1 n1).Has (C + i * ldc + j) := ⟨i, hi, j, hj, rfl⟩
        rw [f3 _ ((hC _ (half1_C h)).imp id Or.inr) (fun h' => hp.dAC _ (half2_A h') (half1_C h)) (hp.dCC _ h), s1.2 i hi j hj hu]
      · rw [s2.1 i hi l hl, b1 i hi l hl, b2 l hl]
      · have h : (Win.mk (C + n1 + n1 * ldc) ldc n2 n2).Has (C + n1 + n1 * ldc + i * ldc + j) := ⟨i, hi, j, hj, rfl⟩
        rw [s2.2 i hi j hj hu, f2 _ ((hC _ (half2_C h)).imp id Or.inr) (fun h' => hp.dAC _ (half1_A h') (half2_C h)) (fun h' => hp.dCC _ h' h)]
        congr 2
        exact sum_congr rfl (fun l hl => by rw [b2 l (mem_range.1 hl), b1 i hi l (mem_range.1 hl), b1 j hj l (mem_range.1 hl)])

theorem pSyrk_ok {gs : PGemm K} {gc gb : ℕ → PGemm K} (hs : PGemmOk gs) (hc : ∀ nt, 1 ≤ nt → PGemmOk (gc nt)) (hb : ∀ nt, 1 ≤ nt → PGemmOk (gb nt))
    {thr : ℕ} (ht : 1 ≤ thr) (fuel nt n : ℕ) (hnt : 1 ≤ nt) (hf : n ≤ fuel) (hf1 : 1 ≤ fuel) :
    PSyrkOk u t k alpha lda D incD beta ldc n (pSyrk gs gc gb thr u t k alpha lda D incD beta ldc fuel nt n) := by
  induction fuel generalizing n nt with
  | zero => omega
  | succ fuel ih =>
    intro A C q W R T v Q hp hA hC hD hk
    simp only [pSyrk]
    split
    · exact syrkBase_ok (hc nt hnt) A C q W R T v Q hp hA hC hD hk
    split
    · exact seqSyrk_ok hs ht (fuel + 1) n hf hf1 A C q W R T v Q hp hA hC hD hk
    · obtain ⟨n1, n2, rfl, en1, e2⟩ : ∃ n1 n2, n = n1 + n2 ∧ (n1 + n2) / 2 = n1 ∧ n1 + n2 - n1 = n2 := ⟨n / 2, n - n / 2, by omega, by omega, by omega⟩
      rw [en1, e2, opAdr_row]
      refine syrkOff_ok (hb nt hnt) (by omega) hp hA hC hD (fun v1 f1 e1 => ?_)
      refine wp_par ![fun x => (aw t n1 k A lda).Has x ∨ (Win.mk C ldc n1 n1).Has x,
          fun x => (aw t n2 k (opAdr t A lda n1 0) lda).Has x ∨ (Win.mk (C + n1 + n1 * ldc) ldc n2 n2).Has x]
        (fun _ => (vw D incD k).Has) ![SPost u t n1 k alpha A lda D incD beta C ldc v1,
          SPost u t n2 k alpha (opAdr t A lda n1 0) lda D incD beta (C + n1 + n1 * ldc) ldc v1] ?_ (fun _ x hx => hD x hx) ?_ ?_ ?_ ?_
      · intro j x hx
        match j with
        | 0 => exact hx.elim (fun h => hA x (half1_A h)) (fun h => hC x (half1_C h))
        | 1 => exact hx.elim (fun h => hA x (half2_A h)) (fun h => hC x (half2_C h))
      · intro j l x hne
        have d12 : ∀ x, ((aw t n1 k A lda).Has x ∨ (Win.mk C ldc n1 n1).Has x) →
            ((aw t n2 k (opAdr t A lda n1 0) lda).Has x ∨ (Win.mk (C + n1 + n1 * ldc) ldc n2 n2).Has x) → False := by
          rintro x (h | h) (h' | h')
          · exact hp.dAA x h h'
          · exact hp.dAC x (half1_A h) (half2_C h')
          · exact hp.dAC x (half2_A h') (half1_C h)
          · exact hp.dCC x h h'
        match j, l with
        | 0, 0 => exact absurd rfl hne
        | 1, 1 => exact absurd rfl hne
        | 0, 1 => exact ⟨fun h => d12 x h.1 h.2, fun h => h.2.elim (fun q => hp.dDA x h.1 (half2_A q)) (fun q => hp.dDC x h.1 (half2_C q))⟩
        | 1, 0 => exact ⟨fun h => d12 x h.2 h.1, fun h => h.2.elim (fun q => hp.dDA x h.1 (half1_A q)) (fun q => hp.dDC x h.1 (half1_C q))⟩
      · intro j v2 v3 e s
        match j with
        | 0 => exact ⟨fun i hi l hl => (e _ (Or.inl (Or.inl (op_Has hi hl)))).trans (s.1 i hi l hl),
            fun i hi j hj hu => (e _ (Or.inl (Or.inr ⟨i, hi, j, hj, rfl⟩))).trans (s.2 i hi j hj hu)⟩
        | 1 => exact ⟨fun i hi l hl => (e _ (Or.inl (Or.inl (op_Has hi hl)))).trans (s.1 i hi l hl),
            fun i hi j hj hu => (e _ (Or.inl (Or.inr ⟨i, hi, j, hj, rfl⟩))).trans (s.2 i hi j hj hu)⟩
      · have k1 : wp (pSyrk gs gc gb thr u t k alpha lda D incD beta ldc fuel (nt / 2) n1 A C .ret)
            (fun x => (aw t n1 k A lda).Has x ∨ (Win.mk C ldc n1 n1).Has x) (vw D incD k).Has (fun _ => False) v1
            (SPost u t n1 k alpha A lda D incD beta C ldc v1) :=
          ih (nt / 2) n1 (by omega) (by omega) (by omega) A C .ret _ _ _ v1 _ hp.half1 (fun x h => Or.inl (Or.inl h)) (fun x h => Or.inl (Or.inr h))
            (fun x h => Or.inr (Or.inl h)) (fun _ _ s => s)
        have k2 : wp (pSyrk gs gc gb thr u t k alpha lda D incD beta ldc fuel (nt - nt / 2) n2 (opAdr t A lda n1 0) (C + n1 + n1 * ldc) .ret)
            (fun x => (aw t n2 k (opAdr t A lda n1 0) lda).Has x ∨ (Win.mk (C + n1 + n1 * ldc) ldc n2 n2).Has x) (vw D incD k).Has (fun _ => False) v1
            (SPost u t n2 k alpha (opAdr t A lda n1 0) lda D incD beta (C + n1 + n1 * ldc) ldc v1) :=
          ih (nt - nt / 2) n2 (by omega) (by omega) (by omega) _ _ .ret _ _ _ v1 _ hp.half2 (fun x h => Or.inl (Or.inl h)) (fun x h => Or.inl (Or.inr h))
            (fun x h => Or.inr (Or.inl h)) (fun _ _ s => s)
        intro j
        match j with
        | 0 => exact k1
        | 1 => exact k2
      · intro v2 f2 s
        refine (fun h => hk v2 h.1 h.2) (syrk_join (W := W) (R := R) (T := T) (v1 := v1) hp hA hC hD f1 e1 ?_ (s 0) (s 1))
        intro x hx h1 h2 h3 h4
        refine f2 x hx (fun j => ?_)
        match j with
        | 0 => exact fun h => h.elim h1 h2
        | 1 => exact fun h => h.elim h3 h4

end Verif.Par
