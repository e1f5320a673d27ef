import Verif.Model.PFsytrf
import Verif.Proofs.Fsytrf
import Verif.Proofs.PFsyrk
import Verif.Proofs.ParLevel
import Verif.Proofs.PPluq

/-!
# Parallel triangular factorisation of symmetric matrices

The algebra is that of the sequential function: from the contents after each part one builds functions for which `sytStep_ok` holds.
-/

namespace Verif.ParV

open Verif.FF Verif.Spec Finset
open Verif.Par (blkAt Vals TaskOk triCells triV exists_mem FinS SPre SPost PGemm PGemmOk PSyrkOk)

variable {K ν : Type}

/-- A process without values as a part of a task: it owns `W0` and `T0` and reads `R0`; everything else keeps its contents `v0`. -/
lemma up_in [Inhabited ν] (p : Par.Proc K) : ∀ {W R T W0 R0 T0 : ℕ → Prop} {v v0 : ℕ → K} {k : VProc K ν} {Q0 : (ℕ → K) → Prop} {Q : ν → (ℕ → K) → Prop},
    (∀ i, W0 i → W i ∨ T i) → (∀ i, R0 i → W i ∨ R i ∨ T i) → (∀ i, T0 i → ¬ (W i ∨ R i ∨ T i)) → (∀ i, W i ∨ R i ∨ T i → ¬ W0 i → v i = v0 i) →
    Par.wp p W0 R0 T0 v Q0 → (∀ v', (∀ i, W i ∨ R i ∨ T i → ¬ W0 i → v' i = v0 i) → Q0 v' → wp k W R T v' Q) → wp (up p k) W R (fun i => T i ∨ T0 i) v Q := by
  induction p with
  | ret => intro W R T W0 R0 T0 v v0 k Q0 Q hW hR hT hv h hk; exact wp_mono_T _ (fun _ h => Or.inl h) (hk _ hv h)
  | fault => intro W R T W0 R0 T0 v v0 k Q0 Q hW hR hT hv h hk; exact h
  | rd i f ih =>
    intro W R T W0 R0 T0 v v0 k Q0 Q hW hR hT hv h hk
    refine ⟨?_, ih _ hW hR hT hv h.2 hk⟩
    rcases h.1 with h | h | h
    · exact (hW i h).imp id (fun h => Or.inr (Or.inl h))
    · exact (hR i h).imp id (Or.imp id Or.inl)
    · exact Or.inr (Or.inr (Or.inr h))
  | wr i x q ih =>
    intro W R T W0 R0 T0 v v0 k Q0 Q hW hR hT hv h hk
    refine ⟨?_, ih hW hR hT (fun l hl hn => ?_) h.2 hk⟩
    · rcases h.1 with h | h
      · exact (hW i h).imp id Or.inl
      · exact Or.inr (Or.inr h)
    · rw [Function.update_of_ne, hv l hl hn]
      rintro rfl
      exact h.1.elim hn (fun ht => hT l ht hl)
  | alloc n f ih =>
    intro W R T W0 R0 T0 v v0 k Q0 Q hW hR hT hv h hk p c hp
    have hf : ∀ i, blkAt p n i → ¬ (W i ∨ R i ∨ T i) := fun i hi hc => hp i hi (hc.imp id (Or.imp id Or.inl))
    refine wp_mono_T _ (T := fun i => T i ∨ (T0 i ∨ blkAt p n i)) (fun i hi => ?_) (ih p hW hR (fun i hi => hi.elim (hT i) (hf i)) (fun i hi hn => ?_) (h p c (fun i hi hc => ?_)) hk)
    · rcases hi with h | h | h
      · exact Or.inl (Or.inl h)
      · exact Or.inl (Or.inr h)
      · exact Or.inr h
    · rw [if_neg (fun hb => hf i hb hi), hv i hi hn]
    · rcases hc with h | h | h
      · exact hf i hi ((hW i h).imp id Or.inr)
      · exact hf i hi (hR i h)
      · exact hp i hi (Or.inr (Or.inr (Or.inr h)))
  | free p n q ih =>
    intro W R T W0 R0 T0 v v0 k Q0 Q hW hR hT hv h hk
    refine ⟨fun i hi => Or.inr (h.1 i hi), wp_mono_T _ (T := fun i => T i ∨ (T0 i ∧ ¬ blkAt p n i)) (fun i hi => ?_) (ih hW hR (fun i hi => hT i hi.1) hv h.2 hk)⟩
    rcases hi with h' | h'
    · exact ⟨Or.inl h', fun hb => hT i (h.1 i hb) (Or.inr (Or.inr h'))⟩
    · exact ⟨Or.inr h'.1, h'.2⟩
  | par n ts q _ ihq =>
    rintro W R T W0 R0 T0 v v0 k Q0 Q hW hR hT hv ⟨T1, Wc, Rc, Tc, Qc, h1, h2, h3, h4, h5, h6, h7, h8⟩ hk
    refine ⟨fun i => T i ∨ T1 i, Wc, Rc, Tc, fun j _ => Qc j, fun i hi => hi.imp id (h1 i), fun j i hi => ⟨Or.inr (h2 j i hi).1, ?_⟩, fun j i hi => ?_, fun j i hi => ?_,
      h5, fun j _ => h6 j, fun j => up_wp _ (h7 j) (fun _ h => h), fun x v' e q => ?_⟩
    · rintro (h | h)
      · exact hT i (h2 j i hi).1 (Or.inr (Or.inr h))
      · exact (h2 j i hi).2 h
    · rcases h3 j i hi with h | h
      · exact (hW i h).imp id Or.inl
      · exact Or.inr (Or.inr h)
    · rcases h4 j i hi with h | h | h
      · exact (hW i h).imp id (fun h => Or.inr (Or.inl h))
      · exact (hR i h).imp id (Or.imp id Or.inl)
      · exact Or.inr (Or.inr (Or.inr h))
    · refine ihq hW hR (fun i hi => hT i (h1 i hi)) (fun i hi hn => ?_) (h8 v' (fun i hi hn => e i ?_ hn) q) hk
      · rw [e i (hi.imp id (Or.imp id Or.inl)) (fun j hj => ?_), hv i hi hn]
        exact (h3 j i hj).elim hn (fun ht => hT i (h1 i ht) hi)
      · rcases hi with h | h | h
        · exact (hW i h).imp id (fun h => Or.inr (Or.inl h))
        · exact (hR i h).imp id (Or.imp id Or.inl)
        · exact Or.inr (Or.inr (Or.inr h))

lemma up_at [Inhabited ν] (p : Par.Proc K) {W R T W0 R0 : ℕ → Prop} {v : ℕ → K} {k : VProc K ν} {Q0 : (ℕ → K) → Prop} {Q : ν → (ℕ → K) → Prop}
    (hW : ∀ i, W0 i → W i ∨ T i) (hR : ∀ i, R0 i → W i ∨ R i ∨ T i) (h : Par.wp p W0 R0 (fun _ => False) v Q0)
    (hk : ∀ v', (∀ i, W i ∨ R i ∨ T i → ¬ W0 i → v' i = v i) → Q0 v' → wp k W R T v' Q) : wp (up p k) W R T v Q :=
  wp_mono_T _ (fun _ h => h.elim id False.elim) (up_in p hW hR (fun _ h => h.elim) (fun _ _ _ => rfl) h hk)

lemma Run_of_eq {α : Type} {p : Prog K α} {m m' : Mem K} {a : α} {Q : α → Mem K → Prop} (e : p m = .ok (a, m')) : Run p m Q ↔ Q a m' := by
  constructor
  · rintro ⟨b, m2, e2, h⟩
    rw [e] at e2
    cases e2
    exact h
  · exact fun h => ⟨a, m', e, h⟩

variable [Field K] [DecidableEq K] {u : Uplo} {lda n n1 n2 A D : ℕ} {W R T : ℕ → Prop} {v v' : ℕ → K}

/-- the matrix at `A` -/
def mt (v : ℕ → K) (A lda i j : ℕ) : K := v (A + i * lda + j)

/-- what the factorisation leaves -/
def SytPost (u : Uplo) (n lda A D : ℕ) (b : ℕ → ℕ → K) (r : Bool) (v' : ℕ → K) : Prop :=
  (r = true → NonF u n b (mt v' A lda) ∧ ∀ i < n, v' (D + i) = (mt v' A lda i i)⁻¹) ∧ (r = false → FailF u n b)

/-- `p` is the factorisation of a matrix with `n` rows, as a part of a task -/
def SytVOk (u : Uplo) (lda n : ℕ) (p : ℕ → ℕ → (Bool → VProc K ν) → VProc K ν) : Prop :=
  ∀ (A D : ℕ) (q : Bool → VProc K ν) (W R T : ℕ → Prop) (v : ℕ → K) (Q : ν → (ℕ → K) → Prop), n ≤ lda → (Win.mk A lda n n).Disj (vw D 1 n) →
    (∀ x, (Win.mk A lda n n).Has x → W x ∨ T x) → (∀ x, (vw D 1 n).Has x → W x ∨ T x) →
    (∀ r v', (∀ x, W x ∨ R x ∨ T x → ¬ (Win.mk A lda n n).Has x → ¬ (vw D 1 n).Has x → v' x = v x) → SytPost u n lda A D (mt v A lda) r v' →
      wp (q r) W R T v' Q) → wp (p A D q) W R T v Q

omit [Field K] [DecidableEq K] in
lemma vw1_Has {x : ℕ} : (vw D 1 n).Has x ↔ ∃ i < n, x = D + i := by
  constructor
  · rintro ⟨i, hi, j, hj, rfl⟩
    obtain rfl : j = 0 := by simpa [vw] using hj
    exact ⟨i, hi, by simp [Win.adr, vw]⟩
  · rintro ⟨i, hi, rfl⟩
    exact ⟨i, hi, 0, Nat.one_pos, by simp [Win.adr, vw]⟩

lemma op_congr_sq {b z : ℕ → ℕ → K} (h : ∀ i < n, ∀ j < n, b i j = z i j) : ∀ p < n, ∀ q ≤ p, Spec.op (lowTr u) b p q = Spec.op (lowTr u) z p q := by
  intro p hp q hq
  cases u
  · exact h q (by omega) p hp
  · exact h p hp q (by omega)

open Classical in
/-- the factorisation that gives `r` and `m1` from `m0` -/
noncomputable def patchS (u : Uplo) (lda n A0 D0 : ℕ) (m0 m1 : Mem K) (r : Bool) : ℕ → ℕ → Prog K Bool := fun A D m =>
  if A = A0 ∧ D = D0 ∧ m = m0 then .ok (r, m1) else fsytrfCrout .generic u n A lda D 1 n m

lemma patchS_at (m0 m1 : Mem K) (r : Bool) : patchS u lda n A D m0 m1 r A D m0 = .ok (r, m1) := by simp [patchS]

lemma patchS_ok {m0 : Mem K} {r : Bool} {b : ℕ → ℕ → K} (hb : ∀ i < n, ∀ j < n, b i j = mt m0.val A lda i j)
    (hf : ∀ x, m0.ok x = true → ¬ (Win.mk A lda n n).Has x → ¬ (vw D 1 n).Has x → v' x = m0.val x)
    (hs : SytPost u n lda A D b r v') : SytOk u lda 1 n (patchS u lda n A D m0 { m0 with val := v' } r) := by
  intro m A' D' b' U h
  by_cases c : A' = A ∧ D' = D ∧ m = m0
  · obtain ⟨rfl, rfl, rfl⟩ := c
    rw [Run_of_eq (patchS_at _ _ _)]
    have eb := op_congr_sq (u := u) (n := n) (b := b) (z := b') (fun i hi j hj => (hb i hi j hj).trans (h.valW i hi j hj))
    refine ⟨mt v' A' lda, fun l _ => v' (D' + l), ⟨h.wf, h.okW, h.okT, h.ldW, h.ldT, h.disj, rfl, le_rfl, fun _ _ _ _ => rfl, fun i hi j hj => ?_, hf⟩,
      fun hr => ⟨(hs.1 hr).1.congr eb (fun _ _ _ _ => rfl), (hs.1 hr).2⟩, fun hr => (hs.2 hr).congr eb⟩
    obtain rfl : j = 0 := by simpa [vw] using hj
    simp [Win.adr, vw]
  · obtain ⟨a, m', e, h'⟩ := fsytrfCrout_ok (u := u) (lda := lda) (incD := 1) .generic n m A' D' b' U h
    exact ⟨a, m', by rw [← e]; simp [patchS, c], h'⟩

open Classical in
/-- the triangular solve that gives `m1` from `m0` -/
noncomputable def patchT (a0 : Side × Uplo × Tr × Diag × ℕ × ℕ × K × ℕ × ℕ × ℕ × ℕ) (m0 m1 : Mem K) : TrFn K := fun side u ta d M N alpha A lda B ldb m =>
  if (side, u, ta, d, M, N, alpha, A, lda, B, ldb) = a0 ∧ m = m0 then .ok ((), m1) else ftrsm .generic (gemmClassic .generic) side u ta d M N alpha A lda B ldb m

lemma patchT_at {side : Side} {ta : Tr} {d : Diag} {M N B ldb : ℕ} {alpha : K} (m0 m1 : Mem K) :
    patchT (side, u, ta, d, M, N, alpha, A, lda, B, ldb) m0 m1 side u ta d M N alpha A lda B ldb m0 = .ok ((), m1) := by simp [patchT]

lemma patchT_ok {side : Side} {ta : Tr} {d : Diag} {M N B ldb : ℕ} {alpha : K} {m0 m1 : Mem K} (h : SolEff side m0 m1 u ta d M N alpha A lda B ldb) :
    TrsmOk (patchT (side, u, ta, d, M, N, alpha, A, lda, B, ldb) m0 m1) := by
  intro m s' u' ta' d' M' N' al' A' lda' B' ldb' hp hd
  by_cases c : (s', u', ta', d', M', N', al', A', lda', B', ldb') = (side, u, ta, d, M, N, alpha, A, lda, B, ldb) ∧ m = m0
  · obtain ⟨c, rfl⟩ := c
    simp only [Prod.mk.injEq] at c
    obtain ⟨rfl, rfl, rfl, rfl, rfl, rfl, rfl, rfl, rfl, rfl, rfl⟩ := c
    rw [Run_of_eq (patchT_at _ _)]
    exact h
  · obtain ⟨a, m', e, h'⟩ := ftrsm_TrsmOk .generic (gemmClassic_ok .generic) m s' u' ta' d' M' N' al' A' lda' B' ldb' hp hd
    exact ⟨a, m', by rw [← e]; unfold patchT; rw [if_neg c], h'⟩

open Classical in
/-- the symmetric update that gives `m1` from `m0` -/
noncomputable def patchK (a0 : Uplo × Tr × ℕ × ℕ × K × ℕ × ℕ × ℕ × ℕ × K × ℕ × ℕ) (m0 m1 : Mem K) : SyrkDFn K := fun u t n k alpha A lda D incD beta C ldc m =>
  if (u, t, n, k, alpha, A, lda, D, incD, beta, C, ldc) = a0 ∧ m = m0 then .ok ((), m1)
  else fsyrkD .generic (gemmClassic .generic) 1 u t n k alpha A lda D incD beta C ldc m

lemma patchK_at {t : Tr} {k incD C ldc : ℕ} {alpha beta : K} (m0 m1 : Mem K) :
    patchK (u, t, n, k, alpha, A, lda, D, incD, beta, C, ldc) m0 m1 u t n k alpha A lda D incD beta C ldc m0 = .ok ((), m1) := by simp [patchK]

lemma patchK_ok {t : Tr} {k incD C ldc : ℕ} {alpha beta : K} {m0 : Mem K}
    (hf : ∀ x, m0.ok x = true → ¬ (aw t n k A lda).Has x → ¬ (Win.mk C ldc n n).Has x → v' x = m0.val x)
    (hs : SPost u t n k alpha A lda D incD beta C ldc m0.val v') :
    SyrkDOk (patchK (u, t, n, k, alpha, A, lda, D, incD, beta, C, ldc) m0 { m0 with val := v' }) := by
  intro u' t' n' k' al' lda' D' inc' be' ldc' d m A' C' x V h hS h1 h2
  by_cases c : (u', t', n', k', al', A', lda', D', inc', be', C', ldc') = (u, t, n, k, alpha, A, lda, D, incD, beta, C, ldc) ∧ m = m0
  · obtain ⟨c, rfl⟩ := c
    simp only [Prod.mk.injEq] at c
    obtain ⟨rfl, rfl, rfl, rfl, rfl, rfl, rfl, rfl, rfl, rfl, rfl, rfl⟩ := c
    rw [Run_of_eq (patchK_at _ _)]
    have ed : ∀ l < k', m.val (D' + l * inc') = d l := fun l hl => by
      have := hS.val l hl 0 Nat.one_pos
      simpa [Win.adr, vw] using this
    have ex : ∀ i < n', ∀ l < k', m.val (opAdr t' A' lda' i l) = x i l := fun i hi l hl => by
      cases t' with
      | no => exact h.valT i hi l hl
      | yes => exact h.valT l hl i hi
    refine ⟨mt v' C' ldc', ⟨h.wf, h.okW, h.okT, h.ldW, h.ldT, h.disj, rfl, le_rfl, fun _ _ _ _ => rfl, fun i hi j hj => ?_, fun a ha hc hA => hf a ha hA hc⟩,
      fun i hi j hj hh => ?_⟩
    · cases t' with
      | no => exact (hs.1 i hi j hj).trans (by rw [ed j hj, ex i hi j hj]; rfl)
      | yes => exact (hs.1 j hj i hi).trans (by rw [ed i hi, ex j hj i hi]; rfl)
    · show v' (C' + i * ldc' + j) = _
      rw [hs.2 i hi j hj hh, show m.val (C' + i * ldc' + j) = V i j from h.valW i hi j hj]
      congr 2
      exact sum_congr rfl (fun l hl => by rw [ed l (mem_range.1 hl), ex i hi l (mem_range.1 hl), ex j hj l (mem_range.1 hl)])
  · obtain ⟨a, m', e, h'⟩ := fsyrkD_ok .generic (gemmClassic_ok .generic) le_rfl u' t' n' k' al' lda' D' inc' be' ldc' d m A' C' x V h hS h1 h2
    exact ⟨a, m', (if_neg c).trans e, h'⟩

/-- contract of the triangular solves -/
def TsOk (ts : TrP K) : Prop := ∀ (v : ℕ → K) (side : Side) (u : Uplo) (ta : Tr) (d : Diag) (M N : ℕ) (alpha : K) (A lda B ldb : ℕ), N ≤ ldb →
  Spec.sideDim side M N ≤ lda → (∀ x, triCells u d (Spec.sideDim side M N) A lda x → ¬ (Win.mk B ldb M N).Has x) →
  (d = .nonUnit → ∀ i < Spec.sideDim side M N, v (A + i * lda + i) ≠ 0) →
  ∃ X, TaskOk (ts side u ta d M N alpha A lda B ldb) ⟨B, ldb, M, N⟩ (triCells u d (Spec.sideDim side M N) A lda) v X ∧
      ∀ i < M, ∀ j < N, Spec.sideMul side (Spec.sideDim side M N) (triV v u ta d A lda) X i j = alpha * v (B + i * ldb + j)

/-- contract of the symmetric updates -/
def SkOk (sk : SyrkP K) : Prop := ∀ (v : ℕ → K) (u : Uplo) (t : Tr) (n k : ℕ) (alpha : K) (A lda D incD : ℕ) (beta : K) (C ldc : ℕ),
  SPre t n k A lda D incD C ldc → Par.wp (sk u t n k alpha A lda D incD beta C ldc) (fun x => (aw t n k A lda).Has x ∨ (Win.mk C ldc n n).Has x)
    (vw D incD k).Has (fun _ => False) v (SPost u t n k alpha A lda D incD beta C ldc v)

omit [Field K] [DecidableEq K] in
lemma sq_first {x : ℕ} (hn : n1 ≤ n) (h : (Win.mk A lda n1 n1).Has x) : (Win.mk A lda n n).Has x := by
  obtain ⟨i, hi, j, hj, rfl⟩ := h
  exact ⟨i, lt_of_lt_of_le hi hn, j, lt_of_lt_of_le hj hn, rfl⟩

omit [Field K] [DecidableEq K] in
lemma sq_last {x : ℕ} (hn : n1 + n2 = n) (h : (Win.mk (A + n1 * (lda + 1)) lda n2 n2).Has x) : (Win.mk A lda n n).Has x := by
  rw [← diag_sub A lda n] at h
  exact Win.sub_Has (by simp only []; omega) (by simp only []; omega) h

lemma off_eq (hn : n1 + n2 = n) : (Win.mk (A + n1 * sytInc u lda) lda (sytSel u n1 n2) (sytSel u n2 n1)) =
    (Win.mk A lda n n).sub (pick' u 0 n1) (pick' u n1 0) (pick' u n1 n2) (pick' u n2 n1) := by
  cases u <;> simp [Win.sub, Win.adr, pick', sytSel, sytInc]

lemma off_aw : aw (sytTr u) n2 n1 (A + n1 * sytInc u lda) lda = Win.mk (A + n1 * sytInc u lda) lda (sytSel u n1 n2) (sytSel u n2 n1) := by
  cases u <;> rfl

/-- one level of the recursion -/
theorem sytStepV [Inhabited ν] {p1 p2 : ℕ → ℕ → (Bool → VProc K ν) → VProc K ν} {ts : TrP K} {sk : SyrkP K} (h1 : SytVOk u lda n1 p1) (h2 : SytVOk u lda n2 p2)
    (ht : TsOk ts) (hk : SkOk sk) (hn : n1 + n2 = n) : SytVOk u lda n (fun A D q => p1 A D fun ok1 => if ok1 = false then q false
        else up (ts (sytSide u) u .yes .nonUnit (sytSel u n1 n2) (sytSel u n2 n1) 1 A lda (A + n1 * sytInc u lda) lda)
            (up (sk u (sytTr u) n2 n1 (-1) (A + n1 * sytInc u lda) lda A (lda + 1) 1 (A + n1 * (lda + 1)) lda)
              (p2 (A + n1 * (lda + 1)) (D + n1) q))) := by
  intro A D q W R T v Q hl hd hA hD hq
  obtain ⟨m0, hwf, hmv, hok⟩ := exists_mem v ((FinS.has ⟨A, lda, n, n⟩).or (FinS.has (vw D 1 n)))
  subst hmv
  have h0 : On2 m0 m0 ⟨A, lda, n, n⟩ (mt m0.val A lda) (vw D 1 n) (fun l _ => m0.val (D + l)) :=
    ⟨hwf, fun a ha => (hok a).2 (Or.inl ha), fun a ha => (hok a).2 (Or.inr ha), hl, le_rfl, hd, rfl, le_rfl, fun _ _ _ _ => rfl, fun i hi j hj => by
      obtain rfl : j = 0 := by simpa [vw] using hj
      simp [Win.adr, vw], fun _ _ _ _ => rfl⟩
  have inj : (Win.mk A lda n n).Inj := Win.Inj_of_le (Or.inl hl)
  have sD1 : ∀ x, (vw D 1 n1).Has x → (vw D 1 n).Has x := fun x hx => by
    obtain ⟨i, hi, rfl⟩ := vw1_Has.1 hx
    exact vw1_Has.2 ⟨i, by omega, rfl⟩
  have sD2 : ∀ x, (vw (D + n1) 1 n2).Has x → (vw D 1 n).Has x := fun x hx => by
    obtain ⟨i, hi, rfl⟩ := vw1_Has.1 hx
    exact vw1_Has.2 ⟨n1 + i, by omega, by ring⟩
  have own : ∀ x, m0.ok x = true → W x ∨ R x ∨ T x := fun x hx => ((hok x).1 hx).elim (fun h => (hA x h).imp id Or.inr) (fun h => (hD x h).imp id Or.inr)
  refine h1 A D _ W R T m0.val Q (by omega) (fun a ha hb => hd a (sq_first (by omega) ha) (sD1 a hb)) (fun x hx => hA x (sq_first (by omega) hx)) (fun x hx => hD x (sD1 x hx)) ?_
  intro r1 v1 f1 s1
  have P1 : SytOk u lda 1 n1 (patchS u lda n1 A D m0 { m0 with val := v1 } r1) :=
    patchS_ok (b := mt m0.val A lda) (fun _ _ _ _ => rfl) (fun x hx a b => f1 x (own x hx) a b) s1
  by_cases c : r1 = false
  · subst c
    rw [if_pos rfl]
    refine hq false v1 (fun x hx a b => f1 x hx (fun h => a (sq_first (by omega) h)) (fun h => b (sD1 x h))) ⟨fun h => absurd h (by simp), fun _ => ?_⟩
    have := sytStep_ok (ftrsm_TrsmOk .generic (gemmClassic_ok .generic)) (fsyrkD_ok .generic (gemmClassic_ok .generic) le_rfl) P1
      (fsytrfCrout_ok .generic n2) hn m0 A D _ _ h0
    rw [Run_bind, Run_of_eq (patchS_at _ _ _), if_pos rfl, Run_pure] at this
    obtain ⟨z, y, _, _, hf⟩ := this
    exact hf rfl
  obtain rfl : r1 = true := by simpa using c
  rw [if_neg c]
  have nz : ∀ i < n1, v1 (A + i * lda + i) ≠ 0 := (s1.1 rfl).1.1
  have esd : Spec.sideDim (sytSide u) (sytSel u n1 n2) (sytSel u n2 n1) = n1 := by cases u <;> rfl
  have sB : ∀ x, (Win.mk (A + n1 * sytInc u lda) lda (sytSel u n1 n2) (sytSel u n2 n1)).Has x → (Win.mk A lda n n).Has x := fun x hx => by
    rw [off_eq hn] at hx
    exact Win.sub_Has (by cases u <;> simp only [pick'] <;> omega) (by cases u <;> simp only [pick'] <;> omega) hx
  have s00 : (Win.mk A lda n n).sub 0 0 n1 n1 = ⟨A, lda, n1, n1⟩ := by rw [diag_sub]; simp
  have dB : ∀ x, (Win.mk A lda n1 n1).Has x → ¬ (Win.mk (A + n1 * sytInc u lda) lda (sytSel u n1 n2) (sytSel u n2 n1)).Has x := by
    rw [off_eq hn, ← s00]
    refine Win.sub_Disj inj ?_ ?_ ?_ ?_ ?_ <;> cases u <;> simp only [pick'] <;> omega
  have dC : ∀ x, (Win.mk A lda n1 n1).Has x → ¬ (Win.mk (A + n1 * (lda + 1)) lda n2 n2).Has x := by
    rw [← diag_sub A lda n, ← s00]
    refine Win.sub_Disj inj ?_ ?_ ?_ ?_ ?_ <;> first | omega | (simp only []; omega)
  have dBC : (Win.mk (A + n1 * sytInc u lda) lda (sytSel u n1 n2) (sytSel u n2 n1)).Disj (Win.mk (A + n1 * (lda + 1)) lda n2 n2) := by
    rw [off_eq hn, ← diag_sub A lda n]
    refine Win.sub_Disj inj ?_ ?_ ?_ ?_ ?_ <;> cases u <;> simp only [pick'] <;> omega
  have tri1 : ∀ x, triCells u .nonUnit n1 A lda x → (Win.mk A lda n1 n1).Has x := fun x ⟨i, hi, j, hj, _, e⟩ => ⟨i, hi, j, hj, e⟩
  -- the triangular solve
  obtain ⟨X, tX, eX⟩ := ht v1 (sytSide u) u .yes .nonUnit (sytSel u n1 n2) (sytSel u n2 n1) 1 A lda (A + n1 * sytInc u lda) lda
    (by cases u <;> simp only [sytSel] <;> omega) (by rw [esd]; omega) (by rw [esd]; exact fun x hx => dB x (tri1 x hx)) (by rw [esd]; exact fun _ => nz)
  rw [esd] at tX
  refine up_at _ (fun x hx => hA x (sB x hx)) (fun x hx => (hA x (sq_first (by omega) (tri1 x hx))).imp id Or.inr) tX (fun v2 f2 s2 => ?_)
  have P2 := patchT_ok (side := sytSide u) (u := u) (ta := .yes) (d := .nonUnit) (M := sytSel u n1 n2) (N := sytSel u n2 n1) (alpha := 1) (A := A) (lda := lda)
    (B := A + n1 * sytInc u lda) (ldb := lda) (m0 := { m0 with val := v1 }) (m1 := { m0 with val := v2 })
    ⟨X, ⟨rfl, le_rfl, s2, fun a ha hn => f2 a (own a ha) hn⟩, eX⟩
  -- the symmetric update
  have diag1 : ∀ x, (vw A (lda + 1) n1).Has x → (Win.mk A lda n1 n1).Has x := by
    rintro a ⟨i, hi, j, hj, rfl⟩
    obtain rfl : j = 0 := by simpa [vw] using hj
    refine ⟨i, hi, i, hi, ?_⟩
    simp only [Win.adr, vw]; ring
  have pre : SPre (sytTr u) n2 n1 (A + n1 * sytInc u lda) lda A (lda + 1) (A + n1 * (lda + 1)) lda := by
    refine ⟨by cases u <;> simp only [sytTr, opc] <;> omega, by omega, by omega, ?_, ?_, ?_⟩
    · rw [off_aw]; exact dBC
    · rw [off_aw]; exact fun x hx => dB x (diag1 x hx)
    · exact fun x hx => dC x (diag1 x hx)
  have wK := hk v2 u (sytTr u) n2 n1 (-1) (A + n1 * sytInc u lda) lda A (lda + 1) 1 (A + n1 * (lda + 1)) lda pre
  refine up_at _ (fun x hx => hA x (hx.elim (fun h => sB x (by rwa [off_aw] at h)) (sq_last hn))) (fun x hx => (hA x (sq_first (by omega) (diag1 x hx))).imp id Or.inr) wK
    (fun v3 f3 s3 => ?_)
  have P3 := patchK_ok (m0 := { m0 with val := v2 }) (fun x hx a b => f3 x (own x hx) (fun h => h.elim a b)) s3
  -- the second part
  refine h2 _ _ q W R T v3 Q (by omega) (fun a ha hb => hd a (sq_last hn ha) (sD2 a hb)) (fun x hx => hA x (sq_last hn hx)) (fun x hx => hD x (sD2 x hx)) ?_
  intro r v4 f4 s4
  have P4 : SytOk u lda 1 n2 (patchS u lda n2 (A + n1 * (lda + 1)) (D + n1) { m0 with val := v3 } { m0 with val := v4 } r) :=
    patchS_ok (m0 := { m0 with val := v3 }) (fun _ _ _ _ => rfl) (fun x hx a b => f4 x (own x hx) a b) s4
  have := sytStep_ok P2 P3 P1 P4 hn m0 A D _ _ h0
  rw [Run_bind, Run_of_eq (patchS_at _ _ _), if_neg c, Run_bind, Run_of_eq (patchT_at _ _), Run_bind, Run_of_eq (patchK_at _ _), Run_of_eq (patchS_at _ _ _)] at this
  obtain ⟨z, y, g, gt, gf⟩ := this
  refine hq r v4 (fun x hx a b => ?_) ⟨fun hr => ⟨(gt hr).1.congr (fun _ _ _ _ => rfl) (op_congr_sq fun i hi j hj => (g.valW i hi j hj).symm), fun i hi => ?_⟩, gf⟩
  · rw [f4 x hx (fun h => a (sq_last hn h)) (fun h => b (sD2 x h)),
      f3 x hx (fun h => h.elim (fun h => a (sB x (by rwa [off_aw] at h))) (fun h => a (sq_last hn h))),
      f2 x hx (fun h => a (sB x h)), f1 x hx (fun h => a (sq_first (by omega) h)) (fun h => b (sD1 x h))]
  · have e1 := g.valT i hi 0 Nat.one_pos
    have e2 := g.valW i hi i hi
    simp only [Win.adr, vw, Nat.mul_one, Nat.add_zero] at e1 e2
    rw [mt, e1, e2]
    exact (gt hr).2 i hi

/-- `fsytrf_nonunit` -/
theorem sytrfV_ok [Inhabited ν] {bc : SytrfV K ν} {ts : TrP K} {sk : SyrkP K} (ht : TsOk ts) (hk : SkOk sk) {thr : ℕ} (h1 : 1 ≤ thr)
    (hb : ∀ n ≤ thr, SytVOk u lda n (fun A D q => bc u n A lda D q)) (fuel n : ℕ) (hf : n ≤ fuel) (hf1 : 1 ≤ fuel) :
    SytVOk u lda n (sytrfV bc ts sk u lda thr fuel n) := by
  induction fuel generalizing n with
  | zero => omega
  | succ fuel ih =>
    intro A D q W R T v Q hl hd hA hD hq
    simp only [sytrfV]
    split
    · rename_i c
      exact hb n c A D q W R T v Q hl hd hA hD hq
    · exact sytStepV (ih (n / 2) (by omega) (by omega)) (ih (n - n / 2) (by omega) (by omega)) ht hk (by omega) A D q W R T v Q hl hd hA hD hq

end Verif.ParV
