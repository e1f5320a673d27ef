import Verif.Model.Winograd
import Verif.Proofs.Gemm
import Verif.Core.Fam

/-!
# Correctness of the Strassen-Winograd schedules, of dynamic peeling and of the recursion
-/

namespace Verif.FF

open Finset

variable {K : Type} [Field K] [DecidableEq K]

/-! ### Kernels on a family of windows -/

section fam
variable {ι : Type} [DecidableEq ι] {m m' : Mem K} {C : Win} {l : List (ℕ × ℕ)} {V : ι → Win} {wr : ι → Prop}
  {σ : ι → ℕ → ℕ → K}

omit [Field K] [DecidableEq K] in
lemma _root_.Verif.FamOk.safe (F : FamOk m C l V wr) {a k : ι} (hk : wr k) (hr : (V a).r = (V k).r) (hc : (V a).c = (V k).c) :
    (Win.mk (V a).p (V a).ld (V k).r (V k).c).Safe (V k) := by
  rw [← hr, ← hc]
  by_cases e : a = k
  · subst e; exact (Win.Inj_of_le (Or.inl (F.fit a))).safe
  · exact (F.disj k hk a e).safe hr hc

omit [Field K] [DecidableEq K] [DecidableEq ι] in
lemma _root_.Verif.St.okAs (s : St m C l V σ m') (F : FamOk m C l V wr) {a k : ι} (hr : (V a).r = (V k).r) (hc : (V a).c = (V k).c) :
    OkIn m' ⟨(V a).p, (V a).ld, (V k).r, (V k).c⟩ := by
  rw [← hr, ← hc]; exact s.okIn F a

omit [DecidableEq K] in
lemma _root_.Verif.St.rd (s : St m C l V σ m') (a k : ι) (hr : (V a).r = (V k).r) (hc : (V a).c = (V k).c) :
    ∀ i < (V k).r, ∀ j < (V k).c, m'.mat ⟨(V a).p, (V a).ld, (V k).r, (V k).c⟩ i j = σ a i j := fun i hi j hj =>
  s.holds a i (by omega) j (by omega)

omit [Field K] [DecidableEq K] in
lemma _root_.Verif.St.step' {m'' : Mem K} {g : ℕ → ℕ → K} {k : ι} (s : St m C l V σ m') (F : FamOk m C l V wr) (hk : wr k)
    (st : Step m' m'' (V k) g) : ∃ σ', σ' k = g ∧ (∀ v, v ≠ k → σ' v = σ v) ∧ St m C l V σ' m'' :=
  ⟨_, Function.update_self k g σ, fun _ hv => Function.update_of_ne hv _ _, s.step F hk st⟩

lemma _root_.Verif.St.k_fsub (s : St m C l V σ m') (F : FamOk m C l V wr) (cat : Cat) (a b k : ι) (hk : wr k)
    (hra : (V a).r = (V k).r) (hca : (V a).c = (V k).c) (hrb : (V b).r = (V k).r) (hcb : (V b).c = (V k).c) :
    Run (fsub cat (V k).r (V k).c (V a).p (V a).ld (V b).p (V b).ld (V k).p (V k).ld) m'
      (fun _ m'' => ∃ σ', σ' k = (fun i j => σ a i j - σ b i j) ∧ (∀ v, v ≠ k → σ' v = σ v) ∧ St m C l V σ' m'') := by
  refine (fsub_spec cat s.wf (s.okAs F hra hca) (s.okAs F hrb hcb) (s.okIn F k) (by rw [← hca]; exact F.fit a) (F.fit k)
    (F.safe hk hra hca) (F.safe hk hrb hcb)).mono (fun _ m2 st => s.step' F hk (st.congr ?_))
  intro i hi j hj
  rw [s.rd a k hra hca i hi j hj, s.rd b k hrb hcb i hi j hj]

lemma _root_.Verif.St.k_fadd (s : St m C l V σ m') (F : FamOk m C l V wr) (cat : Cat) (a b k : ι) (hk : wr k)
    (hra : (V a).r = (V k).r) (hca : (V a).c = (V k).c) (hrb : (V b).r = (V k).r) (hcb : (V b).c = (V k).c) :
    Run (fadd cat (V k).r (V k).c (V a).p (V a).ld (V b).p (V b).ld (V k).p (V k).ld) m'
      (fun _ m'' => ∃ σ', σ' k = (fun i j => σ a i j + σ b i j) ∧ (∀ v, v ≠ k → σ' v = σ v) ∧ St m C l V σ' m'') := by
  refine (fadd_spec cat s.wf (s.okAs F hra hca) (s.okAs F hrb hcb) (s.okIn F k) (by rw [← hca]; exact F.fit a) (F.fit k)
    (F.safe hk hra hca) (F.safe hk hrb hcb)).mono (fun _ m2 st => s.step' F hk (st.congr ?_))
  intro i hi j hj
  rw [s.rd a k hra hca i hi j hj, s.rd b k hrb hcb i hi j hj]

lemma _root_.Verif.St.k_faddin (s : St m C l V σ m') (F : FamOk m C l V wr) (cat : Cat) (b k : ι) (hk : wr k)
    (hrb : (V b).r = (V k).r) (hcb : (V b).c = (V k).c) :
    Run (faddin cat (V k).r (V k).c (V b).p (V b).ld (V k).p (V k).ld) m'
      (fun _ m'' => ∃ σ', σ' k = (fun i j => σ b i j + σ k i j) ∧ (∀ v, v ≠ k → σ' v = σ v) ∧ St m C l V σ' m'') := by
  refine (faddin_spec cat s.wf (s.okAs F hrb hcb) (s.okIn F k) (by rw [← hcb]; exact F.fit b) (F.fit k)
    (F.safe hk hrb hcb)).mono (fun _ m2 st => s.step' F hk (st.congr ?_))
  intro i hi j hj
  rw [s.rd b k hrb hcb i hi j hj, s.rd k k rfl rfl i hi j hj]

lemma _root_.Verif.St.k_fsubin (s : St m C l V σ m') (F : FamOk m C l V wr) (cat : Cat) (b k : ι) (hk : wr k)
    (hrb : (V b).r = (V k).r) (hcb : (V b).c = (V k).c) :
    Run (fsubin cat (V k).r (V k).c (V b).p (V b).ld (V k).p (V k).ld) m'
      (fun _ m'' => ∃ σ', σ' k = (fun i j => σ k i j - σ b i j) ∧ (∀ v, v ≠ k → σ' v = σ v) ∧ St m C l V σ' m'') := by
  refine (fsubin_spec cat s.wf (s.okAs F hrb hcb) (s.okIn F k) (by rw [← hcb]; exact F.fit b) (F.fit k)
    (F.safe hk hrb hcb)).mono (fun _ m2 st => s.step' F hk (st.congr ?_))
  intro i hi j hj
  rw [s.rd b k hrb hcb i hi j hj, s.rd k k rfl rfl i hi j hj]

/-- `C ← A + beta C` -/
lemma _root_.Verif.St.k_faddmul (s : St m C l V σ m') (F : FamOk m C l V wr) (cat : Cat) (x : K) (a k : ι) (hk : wr k) (hne : a ≠ k)
    (hra : (V a).r = (V k).r) (hca : (V a).c = (V k).c) :
    Run (faddmul cat (V k).r (V k).c (V a).p (V a).ld x (V k).p (V k).ld (V k).p (V k).ld) m'
      (fun _ m'' => ∃ σ', σ' k = (fun i j => σ a i j + x * σ k i j) ∧ (∀ v, v ≠ k → σ' v = σ v) ∧ St m C l V σ' m'') := by
  refine (faddmul_spec cat x s.wf (s.okAs F hra hca) (s.okIn F k) (s.okIn F k) (by rw [← hca]; exact F.fit a) (F.fit k)
    (F.fit k) (Or.inl ?_) (F.safe hk rfl rfl)).mono (fun _ m2 st => s.step' F hk (st.congr ?_))
  · have := F.disj k hk a hne
    rw [show V a = ⟨(V a).p, (V a).ld, (V k).r, (V k).c⟩ by rw [← hra, ← hca]] at this
    exact this
  · intro i hi j hj
    rw [s.rd a k hra hca i hi j hj, s.rd k k rfl rfl i hi j hj]

omit [DecidableEq K] in
lemma mul_congr {k i j : ℕ} {A A' B B' : ℕ → ℕ → K} (hA : ∀ l < k, A i l = A' i l) (hB : ∀ l < k, B l j = B' l j) :
    Spec.mul k A B i j = Spec.mul k A' B' i j :=
  sum_congr rfl (fun l hl => by rw [mem_range] at hl; rw [hA l hl, hB l hl])

omit [Field K] [DecidableEq K] in
lemma op_congr {t : Tr} {m k i l : ℕ} {A A' : ℕ → ℕ → K} (h : ∀ i < opr t m k, ∀ j < opc t m k, A i j = A' i j)
    (hi : i < m) (hl : l < k) : Spec.op t A i l = Spec.op t A' i l := by
  cases t
  · exact h i hi l hl
  · exact h l hl i hi

lemma _root_.Verif.St.k_gemm (s : St m C l V σ m') (F : FamOk m C l V wr) {g : GemmFn K} {ta tb : Tr} {mr nr kr : ℕ}
    (hg : GemmAt g ta tb mr nr kr) (alpha beta : K) (a b k : ι) (hk : wr k) (ha : a ≠ k) (hb : b ≠ k)
    (hra : (V a).r = opr ta mr kr) (hca : (V a).c = opc ta mr kr) (hrb : (V b).r = opr tb kr nr)
    (hcb : (V b).c = opc tb kr nr) (hrk : (V k).r = mr) (hck : (V k).c = nr) :
    Run (g ta tb mr nr kr alpha (V a).p (V a).ld (V b).p (V b).ld beta (V k).p (V k).ld) m'
      (fun _ m'' => ∃ σ', σ' k = (fun i j =>
        alpha * Spec.mul kr (Spec.op ta (σ a)) (Spec.op tb (σ b)) i j + beta * σ k i j) ∧ (∀ v, v ≠ k → σ' v = σ v) ∧ St m C l V σ' m'') := by
  have eA : aw ta mr kr (V a).p (V a).ld = V a := by rw [aw, ← hra, ← hca]
  have eB : aw tb kr nr (V b).p (V b).ld = V b := by rw [aw, ← hrb, ← hcb]
  have eC : (⟨(V k).p, (V k).ld, mr, nr⟩ : Win) = V k := by rw [← hrk, ← hck]
  have pre : GPre m' ta tb mr nr kr (V a).p (V a).ld (V b).p (V b).ld (V k).p (V k).ld := by
    refine ⟨s.wf, ?_, ?_, ?_, ?_, ?_, ?_, ?_, ?_⟩
    · rw [eA]; exact s.okIn F a
    · rw [eB]; exact s.okIn F b
    · rw [eC]; exact s.okIn F k
    · rw [← hca]; exact F.fit a
    · rw [← hcb]; exact F.fit b
    · rw [← hck]; exact F.fit k
    · rw [eA, eC]; exact F.disj k hk a ha
    · rw [eB, eC]; exact F.disj k hk b hb
  refine (hg m' alpha _ _ _ _ beta _ _ pre).mono (fun _ m2 st => ?_)
  rw [eC] at st
  refine s.step' F hk (st.congr ?_)
  intro i hi j hj
  rw [gval, eA, eB, eC, s.holds k i hi j hj]
  rw [hrk] at hi
  rw [hck] at hj
  congr 2
  refine mul_congr (fun l hl => op_congr (m := mr) (k := kr) ?_ hi hl) (fun l hl => op_congr (m := kr) (k := nr) ?_ hl hj)
  · rw [← hra, ← hca]; exact fun i hi j hj => s.holds a i hi j hj
  · rw [← hrb, ← hcb]; exact fun i hi j hj => s.holds b i hi j hj

end fam

/-! ### Bilinearity -/

section bil
variable {k i j : ℕ} {t : Tr} (X Y Z : ℕ → ℕ → K)

omit [DecidableEq K] in
lemma op_add : Spec.op t (fun i j => X i j + Y i j) = fun i j => Spec.op t X i j + Spec.op t Y i j := by cases t <;> rfl
omit [DecidableEq K] in
lemma op_sub : Spec.op t (fun i j => X i j - Y i j) = fun i j => Spec.op t X i j - Spec.op t Y i j := by cases t <;> rfl
omit [DecidableEq K] in
lemma mul_addL : Spec.mul k (fun i j => X i j + Y i j) Z i j = Spec.mul k X Z i j + Spec.mul k Y Z i j := by
  simp only [Spec.mul, add_mul, sum_add_distrib]
omit [DecidableEq K] in
lemma mul_subL : Spec.mul k (fun i j => X i j - Y i j) Z i j = Spec.mul k X Z i j - Spec.mul k Y Z i j := by
  simp only [Spec.mul, sub_mul, sum_sub_distrib]
omit [DecidableEq K] in
lemma mul_addR : Spec.mul k Z (fun i j => X i j + Y i j) i j = Spec.mul k Z X i j + Spec.mul k Z Y i j := by
  simp only [Spec.mul, mul_add, sum_add_distrib]
omit [DecidableEq K] in
lemma mul_subR : Spec.mul k Z (fun i j => X i j - Y i j) i j = Spec.mul k Z X i j - Spec.mul k Z Y i j := by
  simp only [Spec.mul, mul_sub, sum_sub_distrib]

end bil

/-! ### The windows of the schedules -/

inductive WB | a11 | a12 | a21 | a22 | b11 | b12 | b21 | b22 | c11 | c12 | c21 | c22 | x1 | x2 | x3
  deriving DecidableEq

/-- blocks of `A`, `B`, `C` and the temporaries -/
def wfam (ta tb : Tr) (mr nr kr A lda B ldb C ldc : ℕ) (X1 X2 X3 : Win) : WB → Win
  | .a11 => ⟨A, lda, opr ta mr kr, opc ta mr kr⟩
  | .a12 => ⟨q12 ta A lda mr kr, lda, opr ta mr kr, opc ta mr kr⟩
  | .a21 => ⟨q21 ta A lda mr kr, lda, opr ta mr kr, opc ta mr kr⟩
  | .a22 => ⟨q22 ta A lda mr kr, lda, opr ta mr kr, opc ta mr kr⟩
  | .b11 => ⟨B, ldb, opr tb kr nr, opc tb kr nr⟩
  | .b12 => ⟨q12 tb B ldb kr nr, ldb, opr tb kr nr, opc tb kr nr⟩
  | .b21 => ⟨q21 tb B ldb kr nr, ldb, opr tb kr nr, opc tb kr nr⟩
  | .b22 => ⟨q22 tb B ldb kr nr, ldb, opr tb kr nr, opc tb kr nr⟩
  | .c11 => ⟨C, ldc, mr, nr⟩
  | .c12 => ⟨C + nr, ldc, mr, nr⟩
  | .c21 => ⟨C + mr * ldc, ldc, mr, nr⟩
  | .c22 => ⟨C + mr * ldc + nr, ldc, mr, nr⟩
  | .x1 => X1
  | .x2 => X2
  | .x3 => X3

/-- the blocks the schedules write -/
def wwr : WB → Prop
  | .c11 | .c12 | .c21 | .c22 | .x1 | .x2 | .x3 => True
  | _ => False

omit [Field K] [DecidableEq K] in
lemma quad_Has {t : Tr} {A lda mr kr a : ℕ} (h : (Win.mk A lda (opr t mr kr) (opc t mr kr)).Has a ∨
    (Win.mk (q12 t A lda mr kr) lda (opr t mr kr) (opc t mr kr)).Has a ∨
    (Win.mk (q21 t A lda mr kr) lda (opr t mr kr) (opc t mr kr)).Has a ∨
    (Win.mk (q22 t A lda mr kr) lda (opr t mr kr) (opc t mr kr)).Has a) : (aw t (2 * mr) (2 * kr) A lda).Has a := by
  cases t <;> rcases h with h | h | h | h <;> obtain ⟨i, hi, j, hj, rfl⟩ := h <;> simp only [opr, opc] at hi hj <;>
    simp only [q12, q21, q22, Win.adr_mk, opr, opc, aw]
  · exact ⟨i, by simp only; omega, j, by simp only; omega, rfl⟩
  · exact ⟨i, by simp only; omega, kr + j, by simp only; omega, by simp only [Win.adr_mk]; ring⟩
  · exact ⟨mr + i, by simp only; omega, j, by simp only; omega, by simp only [Win.adr_mk]; ring⟩
  · exact ⟨mr + i, by simp only; omega, kr + j, by simp only; omega, by simp only [Win.adr_mk]; ring⟩
  · exact ⟨i, by simp only; omega, j, by simp only; omega, rfl⟩
  · exact ⟨kr + i, by simp only; omega, j, by simp only; omega, by simp only [Win.adr_mk]; ring⟩
  · exact ⟨i, by simp only; omega, mr + j, by simp only; omega, by simp only [Win.adr_mk]; ring⟩
  · exact ⟨kr + i, by simp only; omega, mr + j, by simp only; omega, by simp only [Win.adr_mk]; ring⟩

/-- the window lies in the block `b` of memory -/
def InBlk (X : Win) (b : ℕ × ℕ) : Prop := ∀ a, X.Has a → b.1 ≤ a ∧ a < b.1 + b.2

lemma InBlk.mk {p ld r c n : ℕ} (h : ∀ i < r, ∀ j < c, i * ld + j < n) : InBlk ⟨p, ld, r, c⟩ (p, n) := by
  rintro a ⟨i, hi, j, hj, rfl⟩
  have := h i hi j hj
  simp only [Win.adr_mk]
  omega

lemma InBlk.disj {X Y : Win} {b c : ℕ × ℕ} (hX : InBlk X b) (hY : InBlk Y c) (h : b.1 + b.2 ≤ c.1) : X.Disj Y :=
  fun a ha hb => by have := hX a ha; have := hY a hb; omega

/-- not yet allocated temporary -/
def noWin : Win := ⟨0, 0, 0, 0⟩

lemma noWin_Has {a : ℕ} : ¬ noWin.Has a := by
  rintro ⟨i, hi, _⟩
  exact absurd hi (Nat.not_lt_zero i)

/-- a usable temporary -/
structure TmpOk (m : Mem K) (l : List (ℕ × ℕ)) (X : Win) : Prop where
  ok : ∀ a, X.Has a → okWith m l a = true
  new : ∀ a, X.Has a → m.ok a = false
  fit : X.c ≤ X.ld

lemma TmpOk.no (m : Mem K) (l : List (ℕ × ℕ)) : TmpOk m l noWin :=
  ⟨fun _ h => absurd h noWin_Has, fun _ h => absurd h noWin_Has, le_rfl⟩

lemma TmpOk.blk {m : Mem K} {l : List (ℕ × ℕ)} {X : Win} {b : ℕ × ℕ} (hm : WF m) (hb : b ∈ l) (h0 : m.next ≤ b.1)
    (hX : InBlk X b) (hf : X.c ≤ X.ld) : TmpOk m l X := by
  refine ⟨fun a ha => ?_, fun a ha => hm a (h0.trans (hX a ha).1), hf⟩
  rw [okWith, Bool.or_eq_true, List.any_eq_true]
  right
  refine ⟨b, hb, ?_⟩
  have := hX a ha
  simp [this.1, this.2]

lemma okWith_of {m : Mem K} {l : List (ℕ × ℕ)} {a : ℕ} (h : m.ok a = true) : okWith m l a = true := by simp [okWith, h]

section
variable {m : Mem K} {ta tb : Tr} {mr nr kr A lda B ldb C ldc : ℕ} {l : List (ℕ × ℕ)} {X1 X2 X3 : Win}

lemma wfam_A (v : WB) (a : ℕ) : match v with
    | .a11 | .a12 | .a21 | .a22 => (wfam ta tb mr nr kr A lda B ldb C ldc X1 X2 X3 v).Has a → (aw ta (2 * mr) (2 * kr) A lda).Has a
    | .b11 | .b12 | .b21 | .b22 => (wfam ta tb mr nr kr A lda B ldb C ldc X1 X2 X3 v).Has a → (aw tb (2 * kr) (2 * nr) B ldb).Has a
    | .c11 | .c12 | .c21 | .c22 => (wfam ta tb mr nr kr A lda B ldb C ldc X1 X2 X3 v).Has a → (Win.mk C ldc (2 * mr) (2 * nr)).Has a
    | _ => True := by
  cases v <;> first
    | trivial
    | (intro h; exact quad_Has (Or.inl h))
    | (intro h; exact quad_Has (Or.inr (Or.inl h)))
    | (intro h; exact quad_Has (Or.inr (Or.inr (Or.inl h))))
    | (intro h; exact quad_Has (Or.inr (Or.inr (Or.inr h))))
    | (intro h; exact quad_Has (t := .no) (Or.inl h))
    | (intro h; exact quad_Has (t := .no) (Or.inr (Or.inl h)))
    | (intro h; exact quad_Has (t := .no) (Or.inr (Or.inr (Or.inl h))))
    | (intro h; exact quad_Has (t := .no) (Or.inr (Or.inr (Or.inr h))))

lemma wfam_ok (h : GPre m ta tb (2 * mr) (2 * nr) (2 * kr) A lda B ldb C ldc) (t1 : TmpOk m l X1) (t2 : TmpOk m l X2)
    (t3 : TmpOk m l X3) (d12 : X1.Disj X2) (d13 : X1.Disj X3) (d23 : X2.Disj X3) :
    FamOk m ⟨C, ldc, 2 * mr, 2 * nr⟩ l (wfam ta tb mr nr kr A lda B ldb C ldc X1 X2 X3) wwr := by
  have hA := fun v a => wfam_A (ta := ta) (tb := tb) (mr := mr) (nr := nr) (kr := kr) (A := A) (lda := lda) (B := B)
    (ldb := ldb) (C := C) (ldc := ldc) (X1 := X1) (X2 := X2) (X3 := X3) v a
  have okm : ∀ v a, v ≠ .x1 → v ≠ .x2 → v ≠ .x3 → (wfam ta tb mr nr kr A lda B ldb C ldc X1 X2 X3 v).Has a → m.ok a = true := by
    intro v a h1 h2 h3
    have := hA v a
    cases v <;> first
      | contradiction
      | exact fun hh => h.okA a (this hh)
      | exact fun hh => h.okB a (this hh)
      | exact fun hh => h.okC a (this hh)
  have old_new : ∀ v X a, v ≠ .x1 → v ≠ .x2 → v ≠ .x3 → TmpOk m l X →
      (wfam ta tb mr nr kr A lda B ldb C ldc X1 X2 X3 v).Has a → ¬ X.Has a := fun v X a h1 h2 h3 t hh hx => by
    have := okm v a h1 h2 h3 hh
    rw [t.new a hx] at this
    exact absurd this (by simp)
  have cc : ∀ (i j i' j' : ℕ), (i < 2 ∧ j < 2 ∧ i' < 2 ∧ j' < 2) → (i ≠ i' ∨ j ≠ j') →
      (Win.mk (C + i * mr * ldc + j * nr) ldc mr nr).Disj (Win.mk (C + i' * mr * ldc + j' * nr) ldc mr nr) := by
    rintro i j i' j' ⟨hi, hj, hi', hj'⟩ hne
    have b1 : i * mr ≤ mr := by calc i * mr ≤ 1 * mr := Nat.mul_le_mul_right _ (by omega)
                                  _ = mr := Nat.one_mul _
    have b2 : j * nr ≤ nr := by calc j * nr ≤ 1 * nr := Nat.mul_le_mul_right _ (by omega)
                                  _ = nr := Nat.one_mul _
    have b3 : i' * mr ≤ mr := by calc i' * mr ≤ 1 * mr := Nat.mul_le_mul_right _ (by omega)
                                  _ = mr := Nat.one_mul _
    have b4 : j' * nr ≤ nr := by calc j' * nr ≤ 1 * nr := Nat.mul_le_mul_right _ (by omega)
                                  _ = nr := Nat.one_mul _
    refine Win.sub_Disj (W := ⟨C, ldc, 2 * mr, 2 * nr⟩) (i := i * mr) (j := j * nr) (i2 := i' * mr) (j2 := j' * nr)
      (r' := mr) (c' := nr) (r2 := mr) (c2 := nr)
      (fit_Inj h.lC) (by simp only; omega) (by simp only; omega) (by simp only; omega) (by simp only; omega) ?_
    rcases hne with hne | hne
    · rcases Nat.lt_or_gt_of_ne hne with g | g
      · obtain rfl : i = 0 := by omega
        obtain rfl : i' = 1 := by omega
        left; omega
      · obtain rfl : i = 1 := by omega
        obtain rfl : i' = 0 := by omega
        right; left; omega
    · rcases Nat.lt_or_gt_of_ne hne with g | g
      · obtain rfl : j = 0 := by omega
        obtain rfl : j' = 1 := by omega
        right; right; left; omega
      · obtain rfl : j = 1 := by omega
        obtain rfl : j' = 0 := by omega
        right; right; right; omega
  have c1112 := by simpa using cc 0 0 0 1 (by omega) (by omega)
  have c1121 := by simpa using cc 0 0 1 0 (by omega) (by omega)
  have c1122 := by simpa using cc 0 0 1 1 (by omega) (by omega)
  have c1221 := by simpa using cc 0 1 1 0 (by omega) (by omega)
  have c1222 := by simpa using cc 0 1 1 1 (by omega) (by omega)
  have c2122 := by simpa using cc 1 0 1 1 (by omega) (by omega)
  refine ⟨?_, ?_, ?_, ?_⟩
  · intro v a hv
    by_cases e : v = .x1 ∨ v = .x2 ∨ v = .x3
    · rcases e with rfl | rfl | rfl
      · exact t1.ok a hv
      · exact t2.ok a hv
      · exact t3.ok a hv
    · push Not at e
      exact okWith_of (okm v a e.1 e.2.1 e.2.2 hv)
  · intro k hk v hv
    by_cases e : v = .x1 ∨ v = .x2 ∨ v = .x3
    · by_cases e' : k = .x1 ∨ k = .x2 ∨ k = .x3
      · rcases e with rfl | rfl | rfl <;> rcases e' with rfl | rfl | rfl
        · exact absurd rfl hv
        · exact d12
        · exact d13
        · exact d12.symm
        · exact absurd rfl hv
        · exact d23
        · exact d13.symm
        · exact d23.symm
        · exact absurd rfl hv
      · push Not at e'
        intro a h1 h2
        rcases e with rfl | rfl | rfl
        · exact old_new k X1 a e'.1 e'.2.1 e'.2.2 t1 h2 h1
        · exact old_new k X2 a e'.1 e'.2.1 e'.2.2 t2 h2 h1
        · exact old_new k X3 a e'.1 e'.2.1 e'.2.2 t3 h2 h1
    · push Not at e
      by_cases e' : k = .x1 ∨ k = .x2 ∨ k = .x3
      · intro a h1 h2
        rcases e' with rfl | rfl | rfl
        · exact old_new v X1 a e.1 e.2.1 e.2.2 t1 h1 h2
        · exact old_new v X2 a e.1 e.2.1 e.2.2 t2 h1 h2
        · exact old_new v X3 a e.1 e.2.1 e.2.2 t3 h1 h2
      · push Not at e'
        have hAv := hA v
        have hAk := hA k
        cases k <;> first | exact False.elim hk | skip
        all_goals cases v <;> first
          | exact absurd rfl hv
          | exact absurd rfl e.1
          | exact absurd rfl e.2.1
          | exact absurd rfl e.2.2
          | exact absurd rfl e'.1
          | exact absurd rfl e'.2.1
          | exact absurd rfl e'.2.2
          | exact fun a h1 h2 => h.dA a (hAv a h1) (hAk a h2)
          | exact fun a h1 h2 => h.dB a (hAv a h1) (hAk a h2)
          | exact c1112
          | exact c1121
          | exact c1122
          | exact c1221
          | exact c1222
          | exact c2122
          | exact c1112.symm
          | exact c1121.symm
          | exact c1122.symm
          | exact c1221.symm
          | exact c1222.symm
          | exact c2122.symm
  · intro k hk a ha hm
    have hAk := hA k a
    cases k <;> first
      | exact False.elim hk
      | exact hAk ha
      | exact absurd hm (by rw [t1.new a ha]; simp)
      | exact absurd hm (by rw [t2.new a ha]; simp)
      | exact absurd hm (by rw [t3.new a ha]; simp)
  · have lA : opc ta mr kr ≤ lda := by have := h.lA; cases ta <;> simp only [opc] at * <;> omega
    have lB : opc tb kr nr ≤ ldb := by have := h.lB; cases tb <;> simp only [opc] at * <;> omega
    have lC : nr ≤ ldc := by have := h.lC; omega
    intro v
    cases v <;> first
      | exact lA
      | exact lB
      | exact lC
      | exact t1.fit
      | exact t2.fit
      | exact t3.fit

end

end Verif.FF
