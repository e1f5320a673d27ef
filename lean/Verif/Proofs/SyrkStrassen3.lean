import Mathlib.Tactic.LinearCombination
import Verif.Proofs.SyrkStrassen2

/-!
# The algebra of the Strassen-like rank-k update and the ends of its two schedules
-/

namespace Verif.FF

open Finset Verif.Spec

variable {K : Type} [Field K] [DecidableEq K]

/-- entry of `P Qᵀ` -/
def sdot (k : ℕ) (p q : ℕ → ℕ → K) (i j : ℕ) : K := ∑ l ∈ range k, p i l * q j l

/-- entry of `P Qᵀ`, or of its transpose for the upper triangle -/
def spr (u : Uplo) (k : ℕ) (p q : ℕ → ℕ → K) (i j : ℕ) : K := match u with
  | .lower => sdot k p q i j
  | .upper => sdot k q p i j

section alg
omit [DecidableEq K]
variable {k i j : ℕ} (p q r : ℕ → ℕ → K)

lemma sdot_comm : sdot k p q i j = sdot k q p j i := sum_congr rfl (fun _ _ => mul_comm _ _)

lemma sdot_subL : sdot k (fun i l => p i l - q i l) r i j = sdot k p r i j - sdot k q r i j := by
  simp only [sdot, sub_mul, sum_sub_distrib]
lemma sdot_subR : sdot k r (fun i l => p i l - q i l) i j = sdot k r p i j - sdot k r q i j := by
  simp only [sdot, mul_sub, sum_sub_distrib]
lemma sdot_addL : sdot k (fun i l => p i l + q i l) r i j = sdot k p r i j + sdot k q r i j := by
  simp only [sdot, add_mul, sum_add_distrib]
lemma sdot_addR : sdot k r (fun i l => p i l + q i l) i j = sdot k r p i j + sdot k r q i j := by
  simp only [sdot, mul_add, sum_add_distrib]

variable {p q}
lemma sdot_congr {p' q' : ℕ → ℕ → K} (h1 : ∀ l < k, p i l = p' i l) (h2 : ∀ l < k, q j l = q' j l) : sdot k p q i j = sdot k p' q' i j :=
  sum_congr rfl (fun l hl => by rw [h1 l (mem_range.1 hl), h2 l (mem_range.1 hl)])

lemma spr_congr {u : Uplo} {n : ℕ} {p' q' : ℕ → ℕ → K} (h1 : ∀ i < n, ∀ l < k, p i l = p' i l) (h2 : ∀ i < n, ∀ l < k, q i l = q' i l)
    (hi : i < n) (hj : j < n) : spr u k p q i j = spr u k p' q' i j := by
  cases u
  · exact sdot_congr (h2 i hi) (h1 j hj)
  · exact sdot_congr (h1 i hi) (h2 j hj)

/-- `Y Yᵀ = -1` -/
lemma sdot_yrot {x y : K} (hxy : x * x + y * y = -1) {k4 : ℕ} (d e : ℕ → ℕ → K) :
    sdot (2 * k4) (yrot k4 x y d) (yrot k4 x y e) i j = - sdot (2 * k4) d e i j := by
  unfold sdot
  rw [two_mul, sum_range_add, sum_range_add, ← sum_add_distrib, ← sum_add_distrib, ← sum_neg_distrib]
  refine sum_congr rfl (fun l hl => ?_)
  have hl := mem_range.1 hl
  simp only [yrot, if_pos hl, if_neg (show ¬ k4 + l < k4 by omega), Nat.add_sub_cancel_left]
  linear_combination (d i l * e j l + d i (k4 + l) * e j (k4 + l)) * hxy

variable {x y : K} {k4 : ℕ} {u : Uplo} (a11 a12 a21 a22 : ℕ → ℕ → K)

/-- the off-diagonal block -/
lemma alg21 (hxy : x * x + y * y = -1) {s1 s2 s3 s4 : ℕ → ℕ → K}
    (e1 : s1 = fun i l => yrot k4 x y a21 i l - yrot k4 x y a11 i l) (e2 : s2 = fun i l => a22 i l - yrot k4 x y a21 i l)
    (e3 : s3 = fun i l => s1 i l - a22 i l) (e4 : s4 = fun i l => s3 i l + a12 i l) (i j : ℕ) :
    sdot (2 * k4) a11 a11 i j + sdot (2 * k4) s3 s3 i j + spr u (2 * k4) s2 s1 j i + spr u (2 * k4) a22 s4 i j =
      spr u (2 * k4) a21 a11 i j + spr u (2 * k4) a22 a12 i j := by
  have low : ∀ i j, sdot (2 * k4) a11 a11 i j + sdot (2 * k4) s3 s3 i j + sdot (2 * k4) s2 s1 j i + sdot (2 * k4) a22 s4 i j =
      sdot (2 * k4) a21 a11 i j + sdot (2 * k4) a22 a12 i j := by
    intro i j
    rw [sdot_comm s2 s1]
    rw [e4, e3, e2]
    simp only [sdot_subL, sdot_subR, sdot_addR]
    have f := sdot_yrot (i := i) (j := j) hxy (k4 := k4) a21 a11
    have f' := sdot_yrot (i := i) (j := j) hxy (k4 := k4) a11 a11
    have g : sdot (2 * k4) s1 s1 i j = sdot (2 * k4) s1 (yrot k4 x y a21) i j - sdot (2 * k4) s1 (yrot k4 x y a11) i j := by
      conv_lhs => rw [show sdot (2 * k4) s1 s1 i j = sdot (2 * k4) s1 (fun i l => yrot k4 x y a21 i l - yrot k4 x y a11 i l) i j by rw [← e1]]
      rw [sdot_subR]
    have g' : sdot (2 * k4) s1 (yrot k4 x y a11) i j =
        sdot (2 * k4) (yrot k4 x y a21) (yrot k4 x y a11) i j - sdot (2 * k4) (yrot k4 x y a11) (yrot k4 x y a11) i j := by
      rw [e1, sdot_subL]
    linear_combination g - g' - f + f'
  cases u with
  | lower => exact low i j
  | upper =>
    have := low j i
    simp only [spr]
    rw [sdot_comm a11 a11, sdot_comm s3 s3, sdot_comm s1 s2, sdot_comm s4 a22, sdot_comm a11 a21, sdot_comm a12 a22]
    exact this

/-- the second diagonal block -/
lemma alg22 (hxy : x * x + y * y = -1) {s1 s2 s3 : ℕ → ℕ → K}
    (e1 : s1 = fun i l => yrot k4 x y a21 i l - yrot k4 x y a11 i l) (e2 : s2 = fun i l => a22 i l - yrot k4 x y a21 i l)
    (e3 : s3 = fun i l => s1 i l - a22 i l) (i j : ℕ) :
    sdot (2 * k4) a11 a11 i j + sdot (2 * k4) s3 s3 i j + spr u (2 * k4) s2 s1 j i + spr u (2 * k4) s2 s1 i j =
      sdot (2 * k4) a21 a21 i j + sdot (2 * k4) a22 a22 i j := by
  have low : ∀ i j, sdot (2 * k4) a11 a11 i j + sdot (2 * k4) s3 s3 i j + sdot (2 * k4) s2 s1 j i + sdot (2 * k4) s2 s1 i j =
      sdot (2 * k4) a21 a21 i j + sdot (2 * k4) a22 a22 i j := by
    intro i j
    rw [sdot_comm (i := j) s2 s1]
    rw [e3, e2, e1]
    simp only [sdot_subL, sdot_subR]
    have f1 := sdot_yrot (i := i) (j := j) hxy (k4 := k4) a21 a11
    have f2 := sdot_yrot (i := i) (j := j) hxy (k4 := k4) a11 a11
    have f3 := sdot_yrot (i := i) (j := j) hxy (k4 := k4) a21 a21
    linear_combination f2 - f3
  cases u with
  | lower => exact low i j
  | upper =>
    have := low j i
    simp only [spr]
    rw [sdot_comm a11 a11, sdot_comm s3 s3, sdot_comm (i := j) s1 s2, sdot_comm (i := i) s1 s2, sdot_comm a21 a21, sdot_comm a22 a22]
    exact this

end alg

/-- contract of a version of `fsyrk` at given dimensions: the selected triangle is updated -/
def SyrkAt (s : SyrkFn K) (n k : ℕ) : Prop := ∀ (m : Mem K) u t (alpha : K) A lda beta C ldc x V, (beta = 0 ∨ 0 < n) →
  On m m ⟨C, ldc, n, n⟩ V → OSrc m t n k A lda x → (aw t n k A lda).Disj ⟨C, ldc, n, n⟩ →
  Run (s u t n k alpha A lda beta C ldc) m (fun _ m' => ∃ V', On m m' ⟨C, ldc, n, n⟩ V' ∧
    ∀ i < n, ∀ j < n, inHalf u i j → V' i j = syVal k alpha beta x V i j)

section fam
variable {ι : Type} [DecidableEq ι] {m m' : Mem K} {C : Win} {l : List (ℕ × ℕ)} {V : ι → Win} {wr : ι → Prop} {σ : ι → ℕ → ℕ → K}
variable {u : Uplo} {t : Tr} {n2 k2 X ldx Y ldy Z ldz D : ℕ} {a b k : ι}

lemma _root_.Verif.St.k_gemmU (s : St m C l V σ m') (F : FamOk m C l V wr) {g : GemmFn K} (hg : GemmOk g) (alpha beta : K) (hk : wr k)
    (ha : a ≠ k) (hb : b ≠ k) (va : V a = aw t n2 k2 X ldx) (vb : V b = aw t n2 k2 Y ldy) (vk : V k = ⟨Z, ldz, n2, n2⟩) :
    Run (gemmU g u t n2 k2 alpha X ldx Y ldy beta Z ldz) m' (fun _ m'' => ∃ σ',
      (∀ i < n2, ∀ j < n2, σ' k i j = alpha * spr u k2 (op t (σ a)) (op t (σ b)) i j + beta * σ k i j) ∧ (∀ v, v ≠ k → σ' v = σ v) ∧
      St m C l V σ' m'') := by
  have oa : OSrc m' t n2 k2 X ldx (op t (σ a)) := by
    have := s.src F a
    rw [va] at this
    refine Src.osrc (this.congr (fun i _ j _ => ?_))
    cases t <;> rfl
  have ob : OSrc m' t n2 k2 Y ldy (op t (σ b)) := by
    have := s.src F b
    rw [vb] at this
    refine Src.osrc (this.congr (fun i _ j _ => ?_))
    cases t <;> rfl
  have w0 : (Win.mk Z ldz n2 n2).sub 0 0 n2 n2 = ⟨Z, ldz, n2, n2⟩ := by simp [Win.sub, Win.adr]
  have hk' := s.on F k
  have da := F.disj k hk a ha
  have db := F.disj k hk b hb
  rw [va, vk] at da
  rw [vb, vk] at db
  refine s.lift F hk ?_ (P := fun W => ∀ i < n2, ∀ j < n2, W i j = alpha * spr u k2 (op t (σ a)) (op t (σ b)) i j + beta * σ k i j)
  rw [vk] at hk' ⊢
  cases u with
  | lower =>
    refine (gemm_o hg hk' oa ob.flip 0 0 (by simp) (by simp) (by rw [w0]; exact da) (by rw [w0, aw_flip]; exact db) alpha beta
      (by simp [Win.adr])).mono (fun _ m2 h2 => ⟨_, h2, fun i hi j hj => ?_⟩)
    rw [upd_in' (by omega)]
    simp only [Nat.zero_add, Nat.sub_zero, spr, sdot]
  | upper =>
    refine (gemm_o hg hk' ob oa.flip 0 0 (by simp) (by simp) (by rw [w0]; exact db) (by rw [w0, aw_flip]; exact da) alpha beta
      (by simp [Win.adr])).mono (fun _ m2 h2 => ⟨_, h2, fun i hi j hj => ?_⟩)
    rw [upd_in' (by omega)]
    simp only [Nat.zero_add, Nat.sub_zero, spr, sdot]

lemma _root_.Verif.St.k_syrk (s : St m C l V σ m') (F : FamOk m C l V wr) {rec : SyrkFn K} (hr : SyrkAt rec n2 k2) (alpha beta : K) (hk : wr k)
    (ha : a ≠ k) (hb : beta = 0 ∨ 0 < n2) (va : V a = aw t n2 k2 X ldx) (vk : V k = ⟨Z, ldz, n2, n2⟩) :
    Run (rec u t n2 k2 alpha X ldx beta Z ldz) m' (fun _ m'' => ∃ σ',
      (∀ i < n2, ∀ j < n2, inHalf u i j → σ' k i j = alpha * sdot k2 (op t (σ a)) (op t (σ a)) i j + beta * σ k i j) ∧ (∀ v, v ≠ k → σ' v = σ v) ∧
      St m C l V σ' m'') := by
  have oa : OSrc m' t n2 k2 X ldx (op t (σ a)) := by
    have := s.src F a
    rw [va] at this
    refine Src.osrc (this.congr (fun i _ j _ => ?_))
    cases t <;> rfl
  have hk' := s.on F k
  have da := F.disj k hk a ha
  rw [va, vk] at da
  refine s.lift F hk ?_ (P := fun W => ∀ i < n2, ∀ j < n2, inHalf u i j → W i j = alpha * sdot k2 (op t (σ a)) (op t (σ a)) i j + beta * σ k i j)
  rw [vk] at hk' ⊢
  exact hr m' u t alpha X ldx beta Z ldz _ _ hb hk' oa da

lemma _root_.Verif.St.k_tri (s : St m C l V σ m') (F : FamOk m C l V wr) (cat : Cat) (u : Uplo) (hk : wr k) (ha : a ≠ k)
    (va : V a = ⟨X, ldx, n2, n2⟩) (vk : V k = ⟨Z, ldz, n2, n2⟩) :
    Run (faddinTri cat u n2 X ldx Z ldz) m' (fun _ m'' => ∃ σ', σ' k = halfUpd u (fun i j => σ a i j + σ k i j) (σ k) ∧
      (∀ v, v ≠ k → σ' v = σ v) ∧ St m C l V σ' m'') := by
  have h1 := s.src F a
  have h2 := s.on F k
  have d := F.disj k hk a ha
  refine s.lift F hk ?_ (P := fun W => W = _)
  rw [va] at h1 d
  rw [vk] at h2 d ⊢
  exact (faddinTri_on cat u h2 h1 d).mono (fun _ _ h => ⟨_, h, rfl⟩)

lemma _root_.Verif.St.k_mirror (s : St m C l V σ m') (F : FamOk m C l V wr) (u : Uplo) (hk : wr k) (vk : V k = ⟨Z, ldz, n2, n2⟩) :
    Run (mirror u n2 Z ldz) m' (fun _ m'' => ∃ σ', σ' k = (fun i j => if inHalf u i j then σ k i j else σ k j i) ∧
      (∀ v, v ≠ k → σ' v = σ v) ∧ St m C l V σ' m'') := by
  have h2 := s.on F k
  refine s.lift F hk ?_ (P := fun W => W = _)
  rw [vk] at h2 ⊢
  exact (mirror_on u h2).mono (fun _ _ h => ⟨_, h, rfl⟩)

lemma _root_.Verif.St.k_addT (s : St m C l V σ m') (F : FamOk m C l V wr) (cat : Cat) (hk : wr k) (ha : a ≠ k)
    (va : V a = ⟨X, ldx, n2, n2⟩) (vk : V k = ⟨Z, ldz, n2, n2⟩) :
    Run (loop n2 fun i => vaddin cat n2 (X + i * ldx) 1 (Z + i) ldz) m' (fun _ m'' => ∃ σ', σ' k = (fun i j => σ a j i + σ k i j) ∧
      (∀ v, v ≠ k → σ' v = σ v) ∧ St m C l V σ' m'') := by
  have h1 := s.src F a
  have h2 := s.on F k
  have d := F.disj k hk a ha
  refine s.lift F hk ?_ (P := fun W => W = _)
  rw [va] at h1 d
  rw [vk] at h2 d ⊢
  exact (addT_on cat h2 h1 d).mono (fun _ _ h => ⟨_, h, rfl⟩)

lemma _root_.Verif.St.k_saveTri (s : St m C l V σ m') (F : FamOk m C l V wr) (u : Uplo) (hk : wr k) (ha : a ≠ k)
    (va : V a = ⟨X, ldz, n2, n2⟩) (vk : V k = ⟨Z, ldz, n2, n2⟩) :
    Run (saveTri u n2 X Z ldz) m' (fun _ m'' => ∃ σ', σ' k = (fun i j => if inHalf u i j then σ k i j else savedV u n2 (σ a) i j) ∧
      (∀ v, v ≠ k → σ' v = σ v) ∧ St m C l V σ' m'') := by
  have h1 := s.src F a
  have h2 := s.on F k
  have d := F.disj k hk a ha
  refine s.lift F hk ?_ (P := fun W => W = _)
  rw [va] at h1 d
  rw [vk] at h2 d ⊢
  exact (saveTri_on u h2 h1 d).mono (fun _ _ h => ⟨_, h, rfl⟩)

lemma _root_.Verif.St.k_saveDiag (s : St m C l V σ m') (F : FamOk m C l V wr) (hk : wr k) (ha : a ≠ k)
    (va : V a = ⟨X, ldx, n2, n2⟩) (vk : V k = ⟨Z, n2, 1, n2⟩) :
    Run (saveDiag n2 X ldx Z) m' (fun _ m'' => ∃ σ', σ' k = (fun _ j => σ a j j) ∧
      (∀ v, v ≠ k → σ' v = σ v) ∧ St m C l V σ' m'') := by
  have h1 := s.src F a
  have h2 := s.on F k
  have d := F.disj k hk a ha
  refine s.lift F hk ?_ (P := fun W => W = _)
  rw [va] at h1 d
  rw [vk] at h2 d ⊢
  exact (saveDiag_on h2 h1 d).mono (fun _ _ h => ⟨_, h, rfl⟩)

lemma _root_.Verif.St.k_restore (s : St m C l V σ m') (F : FamOk m C l V wr) (cat : Cat) (u : Uplo) (beta : K) (hn : 0 < n2) (hk : wr k) (ha : a ≠ k)
    (hb : b ≠ k) (va : V a = ⟨X, ldz, n2, n2⟩) (vb : V b = ⟨D, n2, 1, n2⟩) (vk : V k = ⟨Z, ldz, n2, n2⟩) {f : ℕ → ℕ → K}
    (hf : ∀ i < n2, ∀ j < n2, ¬ inHalf u i j → σ a i j = savedV u n2 f i j) (hd : ∀ i < n2, σ b 0 i = f i i) :
    Run (restoreTri cat u n2 beta Z X ldz D) m' (fun _ m'' => ∃ σ', σ' k = halfUpd u (fun i j => σ k i j + beta * f i j) (σ k) ∧
      (∀ v, v ≠ k → σ' v = σ v) ∧ St m C l V σ' m'') := by
  have h1 := s.src F a
  have h1' := s.src F b
  have h2 := s.on F k
  have d := F.disj k hk a ha
  have d' := F.disj k hk b hb
  refine s.lift F hk ?_ (P := fun W => W = _)
  rw [va] at h1 d
  rw [vb] at h1' d'
  rw [vk] at h2 d d' ⊢
  exact (restoreTri_on cat u beta hn h2 h1 h1' d d' hf hd).mono (fun _ _ h => ⟨_, h, rfl⟩)

lemma _root_.Verif.St.k_addin' (s : St m C l V σ m') (F : FamOk m C l V wr) (cat : Cat) (hk : wr k) {r c : ℕ}
    (va : V a = ⟨X, ldx, r, c⟩) (vk : V k = ⟨Z, ldz, r, c⟩) :
    Run (faddin cat r c X ldx Z ldz) m' (fun _ m'' => ∃ σ', σ' k = (fun i j => σ a i j + σ k i j) ∧
      (∀ v, v ≠ k → σ' v = σ v) ∧ St m C l V σ' m'') := by
  have := s.k_faddin F cat a k hk (by rw [va, vk]) (by rw [va, vk])
  rw [va, vk] at this
  exact this

lemma _root_.Verif.St.k_subin' (s : St m C l V σ m') (F : FamOk m C l V wr) (cat : Cat) (hk : wr k) {r c : ℕ}
    (va : V a = ⟨X, ldx, r, c⟩) (vk : V k = ⟨Z, ldz, r, c⟩) :
    Run (fsubin cat r c X ldx Z ldz) m' (fun _ m'' => ∃ σ', σ' k = (fun i j => σ k i j - σ a i j) ∧
      (∀ v, v ≠ k → σ' v = σ v) ∧ St m C l V σ' m'') := by
  have := s.k_fsubin F cat a k hk (by rw [va, vk]) (by rw [va, vk])
  rw [va, vk] at this
  exact this

lemma _root_.Verif.St.k_add' (s : St m C l V σ m') (F : FamOk m C l V wr) (cat : Cat) (hk : wr k) {r c : ℕ}
    (va : V a = ⟨X, ldx, r, c⟩) (vb : V b = ⟨Y, ldy, r, c⟩) (vk : V k = ⟨Z, ldz, r, c⟩) :
    Run (fadd cat r c X ldx Y ldy Z ldz) m' (fun _ m'' => ∃ σ', σ' k = (fun i j => σ a i j + σ b i j) ∧
      (∀ v, v ≠ k → σ' v = σ v) ∧ St m C l V σ' m'') := by
  have := s.k_fadd F cat a b k hk (by rw [va, vk]) (by rw [va, vk]) (by rw [vb, vk]) (by rw [vb, vk])
  rw [va, vb, vk] at this
  exact this

/-- The part common to the two schedules, from `U1` to `U5`: `w` contains `P1`, `cd` contains `P5`, `c22` the transpose of `P4`, `cl`
contains `P3`. -/
def uSteps (cat : Cat) (u : Uplo) (n2 W ldw C12 C21 C22 ldc : ℕ) : Prog K Unit := do
  faddinTri cat u n2 W ldw C12 ldc
  mirror u n2 C12 ldc
  loop n2 fun i => vaddin cat n2 (C22 + i * ldc) 1 (C12 + i) ldc
  faddin cat n2 n2 C12 ldc C21 ldc
  faddinTri cat u n2 C12 ldc C22 ldc

lemma uSteps_k (s : St m C l V σ m') (F : FamOk m C l V wr) (cat : Cat) (u : Uplo) {w cd cl c22 : ι} (wd : wr cd) (wl : wr cl) (w22 : wr c22)
    (n1 : w ≠ cd) (n3 : c22 ≠ cd) (n4 : cl ≠ cd) (n5 : cl ≠ c22) (n6 : w ≠ c22) (n7 : w ≠ cl)
    {W ldw C12 C21 C22 ldc : ℕ} (vw : V w = ⟨W, ldw, n2, n2⟩) (vd : V cd = ⟨C12, ldc, n2, n2⟩) (vl : V cl = ⟨C21, ldc, n2, n2⟩)
    (v22 : V c22 = ⟨C22, ldc, n2, n2⟩) {p1 p5 : ℕ → ℕ → K} (y1 : ∀ i j, p1 i j = p1 j i) (y5 : ∀ i j, p5 i j = p5 j i)
    (h1 : ∀ i < n2, ∀ j < n2, inHalf u i j → σ w i j = p1 i j) (h5 : ∀ i < n2, ∀ j < n2, inHalf u i j → σ cd i j = p5 i j) :
    Run (uSteps cat u n2 W ldw C12 C21 C22 ldc) m' (fun _ m'' => ∃ σ',
      (∀ i < n2, ∀ j < n2, σ' cl i j = p1 i j + p5 i j + σ c22 j i + σ cl i j) ∧
      (∀ i < n2, ∀ j < n2, inHalf u i j → σ' c22 i j = p1 i j + p5 i j + σ c22 j i + σ c22 i j) ∧
      (∀ v, v ≠ cd → v ≠ cl → v ≠ c22 → σ' v = σ v) ∧ St m C l V σ' m'') := by
  unfold uSteps
  rw [Run_bind]
  refine (s.k_tri F cat u wd n1 vw vd).mono ?_
  rintro _ m1 ⟨σ1, e1, o1, t1⟩
  rw [Run_bind]
  refine (t1.k_mirror F u wd vd).mono ?_
  rintro _ m2 ⟨σ2, e2, o2, t2⟩
  rw [Run_bind]
  refine (t2.k_addT F cat wd n3 v22 vd).mono ?_
  rintro _ m3 ⟨σ3, e3, o3, t3⟩
  rw [Run_bind]
  refine (t3.k_addin' F cat wl vd vl).mono ?_
  rintro _ m4 ⟨σ4, e4, o4, t4⟩
  refine (t4.k_tri F cat u w22 n3.symm vd v22).mono ?_
  rintro _ m5 ⟨σ5, e5, o5, t5⟩
  have f1 : ∀ i < n2, ∀ j < n2, inHalf u i j → σ1 cd i j = p1 i j + p5 i j := fun i hi j hj c => by
    rw [e1, halfUpd, if_pos c, h1 i hi j hj c, h5 i hi j hj c]
  have f2 : ∀ i < n2, ∀ j < n2, σ2 cd i j = p1 i j + p5 i j := fun i hi j hj => by
    rw [e2]
    by_cases c : inHalf u i j
    · simp only [if_pos c]
      rw [f1 i hi j hj c]
    · have c' : inHalf u j i := by cases u <;> simp only [inHalf] at c ⊢ <;> omega
      simp only [if_neg c]
      rw [f1 j hj i hi c', y1 i j, y5 i j]
  have k22 : ∀ v, v ≠ cd → σ3 v = σ v := fun v hv => by rw [o3 v hv, o2 v hv, o1 v hv]
  have f3 : ∀ i < n2, ∀ j < n2, σ3 cd i j = p1 i j + p5 i j + σ c22 j i := fun i hi j hj => by
    rw [e3]
    simp only
    rw [f2 i hi j hj, o2 c22 n3, o1 c22 n3]; ring
  refine ⟨σ5, fun i hi j hj => ?_, fun i hi j hj c => ?_, fun v v1 v2 v3 => by rw [o5 v v3, o4 v v2, k22 v v1], t5⟩
  · rw [o5 cl n5, e4]
    simp only
    rw [f3 i hi j hj, k22 cl n4]
  · rw [e5, halfUpd, if_pos c, o4 cd n4.symm, o4 c22 n5.symm, f3 i hi j hj, k22 c22 n3]

/-- end of the schedule without accumulation -/
lemma tail_k (s : St m C l V σ m') (F : FamOk m C l V wr) (cat : Cat) {rec : SyrkFn K} (hr : SyrkAt rec n2 k2) {alpha : K}
    {a11 a12 c11 cd cl c22 : ι} (w11 : wr c11) (wd : wr cd) (wl : wr cl) (w22 : wr c22) {A lda Cp ldc : ℕ}
    (d1 : a11 ≠ c11) (d2 : a12 ≠ cd) (d3 : a12 ≠ c11) (d4 : a12 ≠ cl) (d5 : a12 ≠ c22)
    (n1 : c11 ≠ cd) (n3 : c22 ≠ cd) (n4 : cl ≠ cd) (n5 : cl ≠ c22) (n6 : c11 ≠ c22) (n7 : c11 ≠ cl)
    (va : V a11 = aw t n2 k2 A lda) (va2 : V a12 = aw t n2 k2 (q12 t A lda n2 k2) lda) (v11 : V c11 = ⟨Cp, ldc, n2, n2⟩)
    (vd : V cd = ⟨cDead u Cp ldc n2, ldc, n2, n2⟩) (vl : V cl = ⟨cLive u Cp ldc n2, ldc, n2, n2⟩)
    (v22 : V c22 = ⟨Cp + n2 * ldc + n2, ldc, n2, n2⟩) {p5 : ℕ → ℕ → K} (y5 : ∀ i j, p5 i j = p5 j i)
    (h5 : ∀ i < n2, ∀ j < n2, inHalf u i j → σ cd i j = p5 i j) :
    Run (strassenTail cat rec u t n2 k2 alpha A lda Cp ldc) m' (fun _ m'' => ∃ σ',
      (∀ i < n2, ∀ j < n2, inHalf u i j → σ' c11 i j =
        alpha * sdot k2 (op t (σ a11)) (op t (σ a11)) i j + alpha * sdot k2 (op t (σ a12)) (op t (σ a12)) i j) ∧
      (∀ i < n2, ∀ j < n2, σ' cl i j = alpha * sdot k2 (op t (σ a11)) (op t (σ a11)) i j + p5 i j + σ c22 j i + σ cl i j) ∧
      (∀ i < n2, ∀ j < n2, inHalf u i j → σ' c22 i j =
        alpha * sdot k2 (op t (σ a11)) (op t (σ a11)) i j + p5 i j + σ c22 j i + σ c22 i j) ∧ St m C l V σ' m'') := by
  unfold strassenTail
  simp only []
  rw [Run_bind]
  refine (s.k_syrk F hr (u := u) alpha 0 w11 d1 (Or.inl rfl) va v11).mono ?_
  rintro _ m1 ⟨σ1, e1, o1, t1⟩
  have := uSteps_k t1 F cat u wd wl w22 n1 n3 n4 n5 n6 n7 v11 vd vl v22 (p1 := fun i j => alpha * sdot k2 (op t (σ a11)) (op t (σ a11)) i j) (p5 := p5)
    (fun i j => by rw [sdot_comm]) y5 (fun i hi j hj c => by rw [e1 i hi j hj c]; ring)
    (fun i hi j hj c => by rw [o1 cd n1.symm, h5 i hi j hj c])
  unfold uSteps at this
  simp only [Run_bind] at this ⊢
  refine this.mono (fun _ a1 h => h.mono (fun _ a2 h => h.mono (fun _ a3 h => h.mono (fun _ a4 h => h.mono ?_))))
  rintro _ m2 ⟨σ2, e2, e3, o2, t2⟩
  refine (t2.k_syrk F hr (u := u) alpha 0 wd d2 (Or.inl rfl) va2 vd).mono ?_
  rintro _ m3 ⟨σ3, e4, o3, t3⟩
  refine (t3.k_tri F cat u w11 n1.symm vd v11).mono ?_
  rintro _ m4 ⟨σ4, e5, o4, t4⟩
  refine ⟨σ4, fun i hi j hj c => ?_, fun i hi j hj => ?_, fun i hi j hj c => ?_, t4⟩
  · rw [e5, halfUpd, if_pos c, e4 i hi j hj c, o3 c11 n1, o2 c11 n1 n7 n6, e1 i hi j hj c, o2 a12 d2 d4 d5, o1 a12 d3]; ring
  · rw [o4 cl n7.symm, o3 cl n4, e2 i hi j hj, o1 c22 n6.symm, o1 cl n7.symm]
  · rw [o4 c22 n6.symm, o3 c22 n3, e3 i hi j hj c, o1 c22 n6.symm]

end fam

end Verif.FF
