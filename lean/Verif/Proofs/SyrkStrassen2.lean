import Verif.Proofs.SyrkStrassen1
import Verif.Proofs.Winograd2

/-!
# Kernels of the Strassen-like rank-k update, on a family of matrices
-/

namespace Verif.FF

open Finset Verif.Spec

variable {K : Type} [Field K] [DecidableEq K]

section fam
variable {ι : Type} {m m' : Mem K} {C : Win} {l : List (ℕ × ℕ)} {V : ι → Win} {wr : ι → Prop} {σ : ι → ℕ → ℕ → K}

omit [Field K] [DecidableEq K] in
lemma _root_.Verif.St.on (s : St m C l V σ m') (F : FamOk m C l V wr) (k : ι) : On m' m' (V k) (σ k) :=
  ⟨s.wf, s.okIn F k, F.fit k, Step.refl (s.holds k)⟩

omit [Field K] [DecidableEq K] in
lemma _root_.Verif.St.src (s : St m C l V σ m') (F : FamOk m C l V wr) (k : ι) : Src m' (V k) (σ k) :=
  ⟨s.okIn F k, F.fit k, fun i hi j hj => s.holds k i hi j hj⟩

omit [Field K] [DecidableEq K] in
/-- a program that modifies one of the windows -/
lemma _root_.Verif.St.lift [DecidableEq ι] (s : St m C l V σ m') (F : FamOk m C l V wr) {k : ι} (hk : wr k) {P : (ℕ → ℕ → K) → Prop} {p : Prog K Unit}
    (hp : Run p m' (fun _ m'' => ∃ V', On m' m'' (V k) V' ∧ P V')) :
    Run p m' (fun _ m'' => ∃ σ', P (σ' k) ∧ (∀ v, v ≠ k → σ' v = σ v) ∧ St m C l V σ' m'') := by
  refine hp.mono ?_
  rintro _ m2 ⟨V', h1, h2⟩
  obtain ⟨σ', e1, e2, e3⟩ := s.step' F hk h1.step
  exact ⟨σ', e1 ▸ h2, e2, e3⟩

omit [Field K] [DecidableEq K] in
/-- some windows are replaced by others -/
lemma _root_.Verif.St.refam (s : St m C l V σ m') (V' : ι → Win) :
    ∃ σ' : ι → ℕ → ℕ → K, (∀ v, V' v = V v → σ' v = σ v) ∧ St m C l V' σ' m' := by
  classical
  refine ⟨fun v => if V' v = V v then σ v else m'.mat (V' v), fun v hv => if_pos hv, s.remap V' _ (fun v i hi j hj => ?_)⟩
  show _ = (if V' v = V v then σ v else m'.mat (V' v)) i j
  by_cases c : V' v = V v
  · rw [if_pos c]
    rw [c] at hi hj ⊢
    exact s.holds v i hi j hj
  · rw [if_neg c]

variable [DecidableEq ι]

lemma _root_.Verif.St.k_row (s : St m C l V σ m') (F : FamOk m C l V wr) {φ : K → K → K} {op : ℕ → ℕ → ℕ → Prog K Unit} (hop : KerIn φ op)
    {a k : ι} (hk : wr k) (hne : a ≠ k) {ia ja ik jk n X Y : ℕ} (h1 : ia < (V a).r) (h2 : ja + n ≤ (V a).c) (h3 : ik < (V k).r)
    (h4 : jk + n ≤ (V k).c) (hX : X = (V a).adr ia ja) (hY : Y = (V k).adr ik jk) :
    Run (op n X Y) m' (fun _ m'' => ∃ σ', σ' k = upd ik jk 1 n (fun _ t => φ (σ a ia (ja + t)) (σ k ik (jk + t))) (σ k) ∧
      (∀ v, v ≠ k → σ' v = σ v) ∧ St m C l V σ' m'') :=
  s.lift F hk (P := fun W => W = _) ((hop.row_on (s.on F k) (s.src F a) (F.disj k hk a hne) h1 h2 h3 h4 hX hY).mono
    (fun _ _ h => ⟨_, h, rfl⟩))

lemma _root_.Verif.St.k_rowSub (s : St m C l V σ m') (F : FamOk m C l V wr) (cat : Cat) {a b k : ι} (hk : wr k) (hne : a ≠ k) (hne' : b ≠ k)
    {ia ib ik n X Y Z : ℕ} (h1 : ia < (V a).r) (h2 : n ≤ (V a).c) (h1' : ib < (V b).r) (h2' : n ≤ (V b).c) (h3 : ik < (V k).r)
    (h4 : n ≤ (V k).c) (hX : X = (V a).adr ia 0) (hZ : Z = (V b).adr ib 0) (hY : Y = (V k).adr ik 0) :
    Run (vsub cat n X 1 Z 1 Y 1) m' (fun _ m'' => ∃ σ', σ' k = upd ik 0 1 n (fun _ t => σ a ia t - σ b ib t) (σ k) ∧
      (∀ v, v ≠ k → σ' v = σ v) ∧ St m C l V σ' m'') := by
  subst hX hZ hY
  refine s.lift F hk (P := fun W => W = _) ((vsub_spec cat (okRow (s.okIn F a) h1 (by omega)) (okRow (s.okIn F b) h1' (by omega))
    (okRow (s.okIn F k) h3 (by omega)) ((disjRow (F.disj k hk a hne) h1 (by omega) h3 (by omega)).safe rfl rfl)
    ((disjRow (F.disj k hk b hne') h1' (by omega) h3 (by omega)).safe rfl rfl) Nat.one_pos (Or.inr ⟨rfl, rfl, rfl⟩)).mono (fun _ m2 st => ?_))
  refine ⟨_, (s.on F k).rowStep (g := fun t => σ a ia t - σ b ib t) h3 (by omega) (st.congr (fun t ht _ _ => ?_)), rfl⟩
  have ht : t < n := ht
  rw [Nat.mul_one, Win.adr_add_col, Win.adr_add_col, Nat.zero_add, (s.src F a).val ia h1 t (by omega), (s.src F b).val ib h1' t (by omega)]

omit [DecidableEq K] in
lemma upd_self_row {i j n : ℕ} (U : ℕ → ℕ → K) (z : ℕ → K) : upd i j 1 n (fun _ t => 0 * z t + U i (j + t)) U = U := by
  funext a b
  rw [upd_row]
  by_cases c : a = i ∧ j ≤ b ∧ b < j + n
  · rw [if_pos c, zero_mul, zero_add, c.1, show j + (b - j) = b by omega]
  · rw [if_neg c]

/-- two `faxpy`, skipped if `y = 0` -/
lemma _root_.Verif.St.k_ax2 (s : St m C l V σ m') (F : FamOk m C l V wr) (cat : Cat) {y c1 c2 : K} (e1 : y = 0 → c1 = 0) (e2 : y = 0 → c2 = 0)
    {a k : ι} (hk : wr k) (hne : a ≠ k) {i1 j1 k1 l1 i2 j2 k2 l2 n X1 Y1 X2 Y2 : ℕ} (h1 : i1 < (V a).r) (h2 : j1 + n ≤ (V a).c)
    (h3 : k1 < (V k).r) (h4 : l1 + n ≤ (V k).c) (hX : X1 = (V a).adr i1 j1) (hY : Y1 = (V k).adr k1 l1)
    (h1' : i2 < (V a).r) (h2' : j2 + n ≤ (V a).c)
    (h3' : k2 < (V k).r) (h4' : l2 + n ≤ (V k).c) (hX' : X2 = (V a).adr i2 j2) (hY' : Y2 = (V k).adr k2 l2) (hne2 : k1 ≠ k2 ∨ l1 + n ≤ l2) :
    Run (axpy2 cat n y c1 X1 Y1 c2 X2 Y2) m' (fun _ m'' => ∃ σ', σ' k = upd k2 l2 1 n (fun _ t => c2 * σ a i2 (j2 + t) + σ k k2 (l2 + t))
        (upd k1 l1 1 n (fun _ t => c1 * σ a i1 (j1 + t) + σ k k1 (l1 + t)) (σ k)) ∧
      (∀ v, v ≠ k → σ' v = σ v) ∧ St m C l V σ' m'') := by
  unfold axpy2
  rif c
  · rw [Run_bind]
    refine (s.k_row F (ker_axpy cat c1) hk hne h1 h2 h3 h4 hX hY).mono ?_
    rintro _ m2 ⟨σ1, q1, q2, s1⟩
    refine (s1.k_row F (ker_axpy cat c2) hk hne h1' h2' h3' h4' hX' hY').mono ?_
    rintro _ m3 ⟨σ2, q3, q4, s2⟩
    refine ⟨σ2, ?_, fun v hv => (q4 v hv).trans (q2 v hv), s2⟩
    rw [q3, q1, q2 a hne]
    funext p q
    simp only [upd_row]
    by_cases c : p = k2 ∧ l2 ≤ q ∧ q < l2 + n
    · rw [if_pos c, if_pos c, if_neg (by omega)]
    · rw [if_neg c, if_neg c]
  · rw [Run_pure]
    have y0 : y = 0 := by simpa using c
    refine ⟨σ, ?_, fun _ _ => rfl, s⟩
    rw [e1 y0, e2 y0, upd_self_row, upd_self_row]

/-- the product by `Y` -/
def yrot (k4 : ℕ) (x y : K) (f : ℕ → ℕ → K) (i j : ℕ) : K :=
  if j < k4 then x * f i j - y * f i (k4 + j) else x * f i j + y * f i (j - k4)

lemma s1s2No_k (s : St m C l V σ m') (F : FamOk m C l V wr) (cat : Cat) {x y : K} {a11 a21 a22 s1 s2 : ι} (w1 : wr s1) (w2 : wr s2)
    (n12 : s1 ≠ s2) (d1 : a11 ≠ s1) (d2 : a21 ≠ s1) (d3 : a22 ≠ s1) (d4 : a11 ≠ s2) (d5 : a21 ≠ s2) (d6 : a22 ≠ s2) {n2 k2 : ℕ}
    (hk : 2 * (k2 / 2) = k2) (r1 : (V a11).r = n2 ∧ (V a11).c = k2) (r2 : (V a21).r = n2 ∧ (V a21).c = k2) (r3 : (V a22).r = n2 ∧ (V a22).c = k2)
    (r4 : (V s1).r = n2 ∧ (V s1).c = k2) (r5 : (V s2).r = n2 ∧ (V s2).c = k2) {i : ℕ} (hi : i < n2) :
    Run (s1s2No cat k2 x y ((V a11).adr i 0) ((V a21).adr i 0) ((V a22).adr i 0) ((V s1).adr i 0) ((V s2).adr i 0)) m'
      (fun _ m'' => ∃ σ', (∀ v, v ≠ s1 → v ≠ s2 → σ' v = σ v) ∧
        (∀ a, ∀ b < k2, σ' s1 a b = if a = i then yrot (k2 / 2) x y (σ a21) i b - yrot (k2 / 2) x y (σ a11) i b else σ s1 a b) ∧
        (∀ a, ∀ b < k2, σ' s2 a b = if a = i then σ a22 i b - yrot (k2 / 2) x y (σ a21) i b else σ s2 a b) ∧ St m C l V σ' m'') := by
  unfold s1s2No
  have hc : ∀ (W : Win) t, W.adr i 0 + t = W.adr i t := fun W t => by simp only [Win.adr]; ring
  rw [Run_bind]
  refine (s.k_row F (ker_scalc cat x) (a := a21) (ia := i) (ja := 0) (ik := i) (jk := 0) w1 d2 (by omega) (by omega) (by omega) (by omega) rfl rfl).mono ?_
  rintro _ m1 ⟨σ1, p1, q1, t1⟩
  rw [Run_bind]
  refine (t1.k_ax2 F cat (c1 := -y) (c2 := y) (by simp) (by simp) (a := a21) (i1 := i) (j1 := k2 / 2) (k1 := i) (l1 := 0) (i2 := i) (j2 := 0) (k2 := i) (l2 := k2 / 2)
    w1 d2 (by omega) (by omega) (by omega) (by omega) (hc _ _) rfl (by omega) (by omega) (by omega) (by omega) rfl (hc _ _) (by omega)).mono ?_
  rintro _ m2 ⟨σ2, p2, q2, t2⟩
  have f2 : ∀ a, ∀ b < k2, σ2 s1 a b = if a = i then yrot (k2 / 2) x y (σ a21) i b else σ s1 a b := by
    intro a b hb
    rw [p2, p1, q1 a21 d2]
    simp only [upd_row, Nat.zero_add, Nat.sub_zero]
    unfold yrot
    by_cases c : a = i
    · subst c
      by_cases c1 : b < k2 / 2
      · rw [if_neg (by omega), if_pos (by omega), if_pos ⟨trivial, by omega, by omega⟩, if_pos rfl, if_pos c1]; ring
      · rw [if_pos (by omega), show k2 / 2 + (b - k2 / 2) = b by omega, if_pos ⟨trivial, by omega, by omega⟩, if_pos rfl, if_neg c1]; ring
    · rw [if_neg (by omega), if_neg (by omega), if_neg (by omega), if_neg c]
  rw [Run_bind]
  refine (t2.k_rowSub F cat (a := a22) (b := s1) (k := s2) w2 d6 n12 (ia := i) (ib := i) (ik := i) (by omega) (by omega) (by omega) (by omega) (by omega) (by omega)
    rfl rfl rfl).mono ?_
  rintro _ m3 ⟨σ3, p3, q3, t3⟩
  rw [Run_bind]
  refine (t3.k_row F (ker_axpy cat (-x)) (a := a11) (ia := i) (ja := 0) (ik := i) (jk := 0) w1 d1 (by omega) (by omega) (by omega) (by omega) rfl rfl).mono ?_
  rintro _ m4 ⟨σ4, p4, q4, t4⟩
  refine (t4.k_ax2 F cat (c1 := y) (c2 := -y) (by simp) (by simp) (a := a11) (i1 := i) (j1 := k2 / 2) (k1 := i) (l1 := 0) (i2 := i) (j2 := 0) (k2 := i) (l2 := k2 / 2)
    w1 d1 (by omega) (by omega) (by omega) (by omega) (hc _ _) rfl (by omega) (by omega) (by omega) (by omega) rfl (hc _ _) (by omega)).mono ?_
  rintro _ m5 ⟨σ5, p5, q5, t5⟩
  refine ⟨σ5, fun v v1 v2 => by rw [q5 v v1, q4 v v1, q3 v v2, q2 v v1, q1 v v1], ?_, ?_, t5⟩
  · intro a b hb
    rw [p5, p4, q4 a11 d1, q3 a11 d4, q2 a11 d1, q1 a11 d1, q3 s1 n12]
    simp only [upd_row, Nat.zero_add, Nat.sub_zero]
    by_cases c : a = i
    · subst c
      by_cases c1 : b < k2 / 2
      · rw [if_neg (by omega), if_pos (by omega), if_pos ⟨trivial, by omega, by omega⟩, f2 a b hb, if_pos rfl, if_pos rfl]
        simp only [yrot, if_pos c1]; ring
      · rw [if_pos (by omega), show k2 / 2 + (b - k2 / 2) = b by omega, if_pos ⟨trivial, by omega, by omega⟩, f2 a b hb, if_pos rfl, if_pos rfl]
        simp only [yrot, if_neg c1]; ring
    · rw [if_neg (by omega), if_neg (by omega), if_neg (by omega), f2 a b hb, if_neg c, if_neg c]
  · intro a b hb
    rw [q5 s2 n12.symm, q4 s2 n12.symm, p3, q2 a22 d3, q1 a22 d3, upd_row, q2 s2 n12.symm, q1 s2 n12.symm]
    by_cases c : a = i
    · subst c
      rw [if_pos (by omega), if_pos rfl, Nat.sub_zero, f2 a b hb, if_pos rfl]
    · rw [if_neg (by omega), if_neg c]

lemma s1s2Yes_k (s : St m C l V σ m') (F : FamOk m C l V wr) (cat : Cat) {x y : K} {a11 a21 a22 s1 s2 : ι} (w1 : wr s1) (w2 : wr s2)
    (n12 : s1 ≠ s2) (d1 : a11 ≠ s1) (d2 : a21 ≠ s1) (d3 : a22 ≠ s1) (d4 : a11 ≠ s2) (d5 : a21 ≠ s2) (d6 : a22 ≠ s2) {n2 k4 : ℕ}
    (r1 : (V a11).r = 2 * k4 ∧ (V a11).c = n2) (r2 : (V a21).r = 2 * k4 ∧ (V a21).c = n2) (r3 : (V a22).r = 2 * k4 ∧ (V a22).c = n2)
    (r4 : (V s1).r = 2 * k4 ∧ (V s1).c = n2) (r5 : (V s2).r = 2 * k4 ∧ (V s2).c = n2) {i : ℕ} (hi : i < k4) :
    Run (s1s2Yes cat n2 x y ((V a11).adr i 0) ((V a11).adr (k4 + i) 0) ((V a21).adr i 0) ((V a21).adr (k4 + i) 0) ((V a22).adr i 0)
        ((V a22).adr (k4 + i) 0) ((V s1).adr i 0) ((V s1).adr (k4 + i) 0) ((V s2).adr i 0) ((V s2).adr (k4 + i) 0)) m'
      (fun _ m'' => ∃ σ', (∀ v, v ≠ s1 → v ≠ s2 → σ' v = σ v) ∧
        (∀ a, ∀ b < n2, σ' s1 a b = if a = i ∨ a = k4 + i then
          yrot k4 x y (fun i j => σ a21 j i) b a - yrot k4 x y (fun i j => σ a11 j i) b a else σ s1 a b) ∧
        (∀ a, ∀ b < n2, σ' s2 a b = if a = i ∨ a = k4 + i then σ a22 a b - yrot k4 x y (fun i j => σ a21 j i) b a else σ s2 a b) ∧
        St m C l V σ' m'') := by
  unfold s1s2Yes
  rw [Run_bind]
  refine (s.k_row F (ker_scalc cat x) (a := a21) (ia := i) (ja := 0) (ik := i) (jk := 0) w1 d2 (by omega) (by omega) (by omega) (by omega) rfl rfl).mono ?_
  rintro _ m0 ⟨σ0, p0, q0, t0⟩
  rw [Run_bind]
  refine (t0.k_row F (ker_scalc cat x) (a := a21) (ia := k4 + i) (ja := 0) (ik := k4 + i) (jk := 0) w1 d2 (by omega) (by omega) (by omega) (by omega) rfl rfl).mono ?_
  rintro _ m1 ⟨σ1, p1, q1, t1⟩
  rw [Run_bind]
  refine (t1.k_ax2 F cat (c1 := -y) (c2 := y) (by simp) (by simp) (a := a21) (i1 := k4 + i) (j1 := 0) (k1 := i) (l1 := 0) (i2 := i) (j2 := 0) (k2 := k4 + i) (l2 := 0)
    w1 d2 (by omega) (by omega) (by omega) (by omega) rfl rfl (by omega) (by omega) (by omega) (by omega) rfl rfl (by omega)).mono ?_
  rintro _ m2 ⟨σ2, p2, q2, t2⟩
  have f2 : ∀ a, ∀ b < n2, σ2 s1 a b = if a = i ∨ a = k4 + i then yrot k4 x y (fun i j => σ a21 j i) b a else σ s1 a b := by
    intro a b hb
    rw [p2, p1, p0, q1 a21 d2, q0 a21 d2]
    simp only [upd_row, Nat.zero_add, Nat.sub_zero]
    unfold yrot
    by_cases c : a = i
    · subst c
      rw [if_neg (by omega), if_pos (by omega), if_neg (by omega), if_pos ⟨trivial, by omega, by omega⟩, if_pos (by omega), if_pos (by omega)]; ring
    · by_cases c1 : a = k4 + i
      · subst c1
        rw [if_pos (by omega), if_pos ⟨trivial, by omega, by omega⟩, if_pos (by omega), if_neg (by omega), show k4 + i - k4 = i by omega]; ring
      · rw [if_neg (by omega), if_neg (by omega), if_neg (by omega), if_neg (by omega), if_neg (by omega)]
  rw [Run_bind]
  refine (t2.k_rowSub F cat (a := a22) (b := s1) (k := s2) w2 d6 n12 (ia := i) (ib := i) (ik := i) (by omega) (by omega) (by omega) (by omega) (by omega) (by omega)
    rfl rfl rfl).mono ?_
  rintro _ m3 ⟨σ3, p3, q3, t3⟩
  rw [Run_bind]
  refine (t3.k_rowSub F cat (a := a22) (b := s1) (k := s2) w2 d6 n12 (ia := k4 + i) (ib := k4 + i) (ik := k4 + i) (by omega) (by omega) (by omega) (by omega) (by omega) (by omega)
    rfl rfl rfl).mono ?_
  rintro _ m4 ⟨σ4, p4, q4, t4⟩
  rw [Run_bind]
  refine (t4.k_row F (ker_axpy cat (-x)) (a := a11) (ia := i) (ja := 0) (ik := i) (jk := 0) w1 d1 (by omega) (by omega) (by omega) (by omega) rfl rfl).mono ?_
  rintro _ m5 ⟨σ5, p5, q5, t5⟩
  rw [Run_bind]
  refine (t5.k_row F (ker_axpy cat (-x)) (a := a11) (ia := k4 + i) (ja := 0) (ik := k4 + i) (jk := 0) w1 d1 (by omega) (by omega) (by omega) (by omega) rfl rfl).mono ?_
  rintro _ m6 ⟨σ6, p6, q6, t6⟩
  refine (t6.k_ax2 F cat (c1 := y) (c2 := -y) (by simp) (by simp) (a := a11) (i1 := k4 + i) (j1 := 0) (k1 := i) (l1 := 0) (i2 := i) (j2 := 0) (k2 := k4 + i) (l2 := 0)
    w1 d1 (by omega) (by omega) (by omega) (by omega) rfl rfl (by omega) (by omega) (by omega) (by omega) rfl rfl (by omega)).mono ?_
  rintro _ m7 ⟨σ7, p7, q7, t7⟩
  have ea : ∀ v, v ≠ s1 → v ≠ s2 → σ6 v = σ v := fun v v1 v2 => by rw [q6 v v1, q5 v v1, q4 v v2, q3 v v2, q2 v v1, q1 v v1, q0 v v1]
  refine ⟨σ7, fun v v1 v2 => by rw [q7 v v1, ea v v1 v2], ?_, ?_, t7⟩
  · intro a b hb
    rw [p7, p6, p5, q5 a11 d1, ea a11 d1 d4, q4 a11 d4, q3 a11 d4, q2 a11 d1, q1 a11 d1, q0 a11 d1, q4 s1 n12, q3 s1 n12]
    simp only [upd_row, Nat.zero_add, Nat.sub_zero]
    by_cases c : a = i
    · subst c
      rw [if_neg (by omega), if_pos (by omega), if_neg (by omega), if_pos ⟨trivial, by omega, by omega⟩, if_pos (by omega), f2 a b hb, if_pos (by omega)]
      simp only [yrot, if_pos hi]; ring
    · by_cases c1 : a = k4 + i
      · subst c1
        rw [if_pos (by omega), if_pos ⟨trivial, by omega, by omega⟩, if_neg (by omega), if_pos (by omega), f2 _ b hb, if_pos (by omega)]
        simp only [yrot, if_neg (show ¬ k4 + i < k4 by omega), show k4 + i - k4 = i by omega]; ring
      · rw [if_neg (by omega), if_neg (by omega), if_neg (by omega), if_neg (by omega), if_neg (by omega), f2 _ b hb, if_neg (by omega)]
  · intro a b hb
    rw [q7 s2 n12.symm, q6 s2 n12.symm, q5 s2 n12.symm, p4, p3, q3 a22 d6, q3 s1 n12, q2 a22 d3, q1 a22 d3, q0 a22 d3, q2 s2 n12.symm, q1 s2 n12.symm, q0 s2 n12.symm]
    simp only [upd_row, Nat.zero_add, Nat.sub_zero]
    by_cases c : a = i
    · subst c
      rw [if_neg (by omega), if_pos (by omega), if_pos (by omega), f2 a b hb, if_pos (by omega)]
    · by_cases c1 : a = k4 + i
      · subst c1
        rw [if_pos (by omega), if_pos (by omega), f2 _ b hb, if_pos (by omega)]
      · rw [if_neg (by omega), if_neg (by omega), if_neg (by omega)]

/-- `computeS1S2` -/
lemma _root_.Verif.St.k_S1S2 (s : St m C l V σ m') (F : FamOk m C l V wr) (cat : Cat) {x y : K} {a11 a21 a22 s1 s2 : ι} (w1 : wr s1) (w2 : wr s2)
    (n12 : s1 ≠ s2) (d1 : a11 ≠ s1) (d2 : a21 ≠ s1) (d3 : a22 ≠ s1) (d4 : a11 ≠ s2) (d5 : a21 ≠ s2) (d6 : a22 ≠ s2) {t : Tr} {n2 k2 A lda S lds T ldt : ℕ}
    (hk : 2 * (k2 / 2) = k2) (r1 : V a11 = aw t n2 k2 A lda) (r2 : V a21 = aw t n2 k2 (q21 t A lda n2 k2) lda)
    (r3 : V a22 = aw t n2 k2 (q22 t A lda n2 k2) lda) (r4 : V s1 = aw t n2 k2 S lds) (r5 : V s2 = aw t n2 k2 T ldt) :
    Run (computeS1S2 cat t n2 k2 x y A lda S lds T ldt) m' (fun _ m'' => ∃ σ',
      (∀ i < n2, ∀ j < k2, op t (σ' s1) i j = yrot (k2 / 2) x y (op t (σ a21)) i j - yrot (k2 / 2) x y (op t (σ a11)) i j) ∧
      (∀ i < n2, ∀ j < k2, op t (σ' s2) i j = op t (σ a22) i j - yrot (k2 / 2) x y (op t (σ a21)) i j) ∧
      (∀ v, v ≠ s1 → v ≠ s2 → σ' v = σ v) ∧ St m C l V σ' m'') := by
  unfold computeS1S2
  cases t with
  | no =>
    simp only [aw, opr, opc] at r1 r2 r3 r4 r5
    refine (Run_loop (fun i m'' => ∃ σ',
      (∀ a < i, ∀ b < k2, σ' s1 a b = yrot (k2 / 2) x y (σ a21) a b - yrot (k2 / 2) x y (σ a11) a b) ∧
      (∀ a < i, ∀ b < k2, σ' s2 a b = σ a22 a b - yrot (k2 / 2) x y (σ a21) a b) ∧
      (∀ v, v ≠ s1 → v ≠ s2 → σ' v = σ v) ∧ St m C l V σ' m'') ?_ ?_).mono (fun _ m'' h => h)
    · exact ⟨σ, fun a ha => absurd ha (by omega), fun a ha => absurd ha (by omega), fun _ _ _ => rfl, s⟩
    · rintro i m1 hi ⟨σ1, p1, p2, p3, t1⟩
      have := s1s2No_k (x := x) (y := y) t1 F cat w1 w2 n12 d1 d2 d3 d4 d5 d6 hk (n2 := n2) (by rw [r1]; exact ⟨rfl, rfl⟩) (by rw [r2]; exact ⟨rfl, rfl⟩)
        (by rw [r3]; exact ⟨rfl, rfl⟩) (by rw [r4]; exact ⟨rfl, rfl⟩) (by rw [r5]; exact ⟨rfl, rfl⟩) hi
      rw [r1, r2, r3, r4, r5] at this
      simp only [Win.adr_mk, Nat.add_zero] at this
      refine this.mono ?_
      rintro _ m2 ⟨σ2, o1, o2, o3, t2⟩
      rw [p3 a11 d1 d4, p3 a21 d2 d5] at o2
      rw [p3 a22 d3 d6, p3 a21 d2 d5] at o3
      refine ⟨σ2, fun a ha b hb => ?_, fun a ha b hb => ?_, fun v v1 v2 => (o1 v v1 v2).trans (p3 v v1 v2), t2⟩
      · rw [o2 a b hb]
        by_cases c : a = i
        · subst c; rw [if_pos rfl]
        · rw [if_neg c]; exact p1 a (by omega) b hb
      · rw [o3 a b hb]
        by_cases c : a = i
        · subst c; rw [if_pos rfl]
        · rw [if_neg c]; exact p2 a (by omega) b hb
  | yes =>
    simp only [aw, opr, opc] at r1 r2 r3 r4 r5
    set k4 := k2 / 2 with ek4
    refine (Run_loop (fun i m'' => ∃ σ',
      (∀ a, (a < i ∨ k4 ≤ a ∧ a < k4 + i) → ∀ b < n2, σ' s1 a b = yrot k4 x y (op .yes (σ a21)) b a - yrot k4 x y (op .yes (σ a11)) b a) ∧
      (∀ a, (a < i ∨ k4 ≤ a ∧ a < k4 + i) → ∀ b < n2, σ' s2 a b = σ a22 a b - yrot k4 x y (op .yes (σ a21)) b a) ∧
      (∀ v, v ≠ s1 → v ≠ s2 → σ' v = σ v) ∧ St m C l V σ' m'') ?_ ?_).mono ?_
    · exact ⟨σ, fun a ha => absurd ha (by omega), fun a ha => absurd ha (by omega), fun _ _ _ => rfl, s⟩
    · rintro i m1 hi ⟨σ1, p1, p2, p3, t1⟩
      have := s1s2Yes_k (x := x) (y := y) t1 F cat w1 w2 n12 d1 d2 d3 d4 d5 d6 (n2 := n2) (k4 := k4) (by rw [r1, hk]; exact ⟨rfl, rfl⟩) (by rw [r2, hk]; exact ⟨rfl, rfl⟩)
        (by rw [r3, hk]; exact ⟨rfl, rfl⟩) (by rw [r4, hk]; exact ⟨rfl, rfl⟩) (by rw [r5, hk]; exact ⟨rfl, rfl⟩) hi
      rw [r1, r2, r3, r4, r5] at this
      simp only [Win.adr_mk, Nat.add_zero, Nat.add_mul, ← Nat.add_assoc] at this
      refine this.mono ?_
      rintro _ m2 ⟨σ2, o1, o2, o3, t2⟩
      rw [p3 a11 d1 d4, p3 a21 d2 d5] at o2
      rw [p3 a22 d3 d6, p3 a21 d2 d5] at o3
      refine ⟨σ2, fun a ha b hb => ?_, fun a ha b hb => ?_, fun v v1 v2 => (o1 v v1 v2).trans (p3 v v1 v2), t2⟩
      · rw [o2 a b hb]
        by_cases c : a = i ∨ a = k4 + i
        · rw [if_pos c]; rfl
        · rw [if_neg c]; exact p1 a (by omega) b hb
      · rw [o3 a b hb]
        by_cases c : a = i ∨ a = k4 + i
        · rw [if_pos c]; rfl
        · rw [if_neg c]; exact p2 a (by omega) b hb
    · rintro _ m1 ⟨σ1, p1, p2, p3, t1⟩
      exact ⟨σ1, fun i hi j hj => p1 j (by omega) i hi, fun i hi j hj => p2 j (by omega) i hi, p3, t1⟩

end fam

end Verif.FF
