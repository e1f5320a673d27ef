import Verif.Model.CharPoly
import Verif.Proofs.MinPoly
import Verif.Proofs.LukMath

/-!
# The LU-Krylov algorithm
-/

namespace Verif.FF

open Finset Verif.Perm Verif.Spec Verif.Spec.Perm Verif.Pluq Verif.Lud Polynomial

variable {K : Type} [Field K] [DecidableEq K] {m0 m m' : Mem K} {W T : Win} {V U a : ℕ → ℕ → K} {A lda n k : ℕ}

omit [DecidableEq K] [Field K] in
lemma On2.symm (h : On2 m0 m W V T U) : On2 m0 m T U W V :=
  ⟨h.wf, h.okT, h.okW, h.ldT, h.ldW, h.disj.symm, h.ok, h.next, h.valT, h.valW, fun a ha h1 h2 => h.frame a ha h2 h1⟩

lemma drawVec_spec {v : ℕ} (rnd : ℕ → K) (h : On m0 m ⟨v, 1, n, 1⟩ U) :
    Run (drawVec n v rnd) m (fun _ m' => On m0 m' ⟨v, 1, n, 1⟩ (fun i _ => rnd i)) := by
  unfold drawVec
  refine (Run_loop (fun t m' => On m0 m' ⟨v, 1, n, 1⟩ (fun i j => if i < t then rnd i else U i j)) (by simpa using h) ?_).mono ?_
  · intro t m1 ht h1
    have e : v + t = (Win.mk v 1 n 1).adr t 0 := by simp [Win.adr]
    rw [Run_store, e]
    refine ⟨h1.okc ht Nat.one_pos, (h1.set ht Nat.one_pos).congr (fun i hi j hj => ?_)⟩
    have hj : j < 1 := hj
    by_cases q : i = t
    · subst q
      rw [upd_in' (by omega), if_pos (by omega)]
    · rw [upd_out (by omega)]
      exact if_congr (by omega) rfl rfl
  · intro _ m1 h1
    exact h1.congr (fun i hi j _ => if_pos hi)

lemma lukCopyT_spec {e Ak X21 : ℕ} (h : On2 m0 m ⟨A, lda, n, n⟩ a W V) (hr : k + e ≤ W.r) (hc : n ≤ W.c) (hk : k + e ≤ n) (hA : Ak = A + k)
    (hX : X21 = W.adr k 0) :
    Run (lukCopyT n e Ak lda X21 W.ld) m (fun _ m' => On2 m0 m' ⟨A, lda, n, n⟩ a W (upd k 0 e n (fun i j => a j (k + i)) V)) := by
  subst hA hX
  unfold lukCopyT
  refine Run_loop (fun t m' => On2 m0 m' ⟨A, lda, n, n⟩ a W (upd k 0 t n (fun i j => a j (k + i)) V)) ?_ ?_
  · exact h.symm.congrW (fun i _ j _ => by rw [upd_out (by omega)]) |>.symm
  · intro t m1 ht h1
    have eA : A + k + t = (Win.mk A lda n n).adr 0 (k + t) := by simp only [Win.adr]; omega
    rw [Win.adr_add_row, eA]
    refine (vassign_spec (h1.left.vw_col (i := 0) (n := n) (by simp) (by simp only []; omega)) (h1.right.vw_row (n := n) (by omega) (by omega)) ?_ Nat.one_pos).mono ?_
    · refine Win.Disj.safe ?_ rfl rfl
      intro x hx hy
      obtain ⟨s, hs, e1⟩ := vw_col_Has.1 hx
      obtain ⟨s', hs', e2⟩ := vw_row_Has.1 hy
      refine h1.disj x ?_ ?_
      · rw [e1]; exact Win.Has_adr (by simp only []; omega) (by simp only []; omega)
      · rw [e2]; exact Win.Has_adr (by omega) (by omega)
    · intro _ m2 s2
      have s2' : Step m1 m2 (vw (W.adr (k + t) 0) 1 n) (fun j _ => a j (k + t)) := s2.congr (fun j hj _ _ => by
        have hj : j < n := hj
        have := h1.valW j hj (k + t) (by simp only []; omega)
        rw [← this]
        simp only [Win.adr]
        congr 1; ring)
      refine (h1.ofT (h1.right.rowStep (by omega) (by omega) s2')).symm.congrW (fun i hi j hj => ?_) |>.symm
      by_cases c1 : i = k + t ∧ j < n
      · obtain ⟨rfl, c1⟩ := c1
        rw [upd_in' (by omega), upd_in' (by omega), Nat.sub_zero, Nat.add_sub_cancel_left]
      · rw [upd_out (by omega)]
        by_cases c2 : k ≤ i ∧ i < k + t ∧ 0 ≤ j ∧ j < 0 + n
        · rw [upd_in' c2, upd_in' (by omega)]
        · rw [upd_out (by omega), upd_out (by omega)]

lemma lukCopy_spec {e X22 : ℕ} (h : On2 m0 m ⟨A, lda, n, n⟩ a W V) (hr : k + e ≤ W.r) (hc : k + e ≤ W.c) (hk : e ≤ n) (hX : X22 = W.adr k k) :
    Run (lukCopy e X22 W.ld A lda) m (fun _ m' => On2 m0 m' ⟨A, lda, n, n⟩ (upd 0 0 e e (fun i j => V (k + i) (k + j)) a) W V) := by
  subst hX
  unfold lukCopy
  refine Run_loop (fun t m' => On2 m0 m' ⟨A, lda, n, n⟩ (upd 0 0 t e (fun i j => V (k + i) (k + j)) a) W V) ?_ ?_
  · exact h.congrW (fun i _ j _ => by rw [upd_out (by omega)])
  · intro t m1 ht h1
    refine (Run_loop (fun s m' => On2 m0 m' ⟨A, lda, n, n⟩ (upd t 0 1 s (fun i j => V (k + t) (k + j)) (upd 0 0 t e (fun i j => V (k + i) (k + j)) a)) W V) ?_ ?_).mono ?_
    · exact h1.congrW (fun i _ j _ => by rw [upd_out (i0 := t) (by omega)])
    · intro s m2 hs h2
      rw [Win.adr_add_row, Win.adr_add_col, Run_bind, Run_load]
      have eA : A + t * lda + s = (Win.mk A lda n n).adr t s := rfl
      refine ⟨h2.right.okc (by omega) (by omega), ?_⟩
      rw [Run_store, eA, h2.valT _ (by omega) _ (by omega)]
      refine ⟨h2.left.okc (by simp only []; omega) (by simp only []; omega), ?_⟩
      refine (h2.ofW (h2.left.set (by simp only []; omega) (by simp only []; omega))).congrW (fun i hi j hj => ?_)
      by_cases c1 : i = t ∧ j = s
      · obtain ⟨rfl, rfl⟩ := c1
        rw [upd_in' (by omega), upd_in' (by omega), Nat.sub_zero]
      · rw [upd_out (by omega)]
        by_cases c2 : t ≤ i ∧ i < t + 1 ∧ 0 ≤ j ∧ j < 0 + s
        · rw [upd_in' c2, upd_in' (by omega)]
        · rw [upd_out (i0 := t) (c := s) (by omega), upd_out (i0 := t) (c := s + 1) (by omega)]
    · intro _ m2 h2
      refine h2.congrW (fun i hi j hj => ?_)
      by_cases c1 : i = t ∧ j < e
      · obtain ⟨rfl, c1⟩ := c1
        rw [upd_in' (by omega), upd_in' (by omega), Nat.sub_zero, Nat.sub_zero]
      · rw [upd_out (by omega)]
        by_cases c2 : 0 ≤ i ∧ i < 0 + t ∧ 0 ≤ j ∧ j < 0 + e
        · rw [upd_in' c2, upd_in' (by omega)]
        · rw [upd_out (by omega), upd_out (by omega)]

theorem lukReduce_spec {g : GemmFn K} {ts : TrsmFn K} (hg : GemmOk g) (ht : TrsmOk ts) {P : Arr ℕ} {e : ℕ}
    (h : On2 m0 m ⟨A, lda, k + e, k + e⟩ a W V) (hr : W.r = k + e + 1) (hc : W.c = k + e) (hP : k ≤ P.len) (hp : ∀ i < k, P.get i < k + e) :
    Run (lukReduce g ts (k + e) k A lda W.p W.ld P) m (fun _ m' => ∃ B a' V' : ℕ → ℕ → K, On2 m0 m' ⟨A, lda, k + e, k + e⟩ a' W V' ∧
      (∀ i < e, ∀ j < k, ∑ l ∈ range k, B i l * luU .unit V l j = a (ofSwaps P.get k j) (ofSwaps P.get k (k + i))) ∧
      (∀ i < e, ∀ j < e, a' i j = a (ofSwaps P.get k (k + j)) (ofSwaps P.get k (k + i)) - ∑ l ∈ range k, B i l * V l (k + j))) := by
  unfold lukReduce
  have a0 : A = (Win.mk A lda (k + e) (k + e)).adr 0 0 := by simp [Win.adr]
  have ax : W.p + k * W.ld = W.adr k 0 := by simp [Win.adr]
  have ax2 : W.adr k 0 + k = W.adr k k := by simp [Win.adr]
  have plt : ∀ x < k + e, ofSwaps P.get k x < k + e := fun x hx => by
    rw [← swapsFrom_zero]; exact swapsFrom_lt (by omega) (by simpa using hp) hx
  rw [Run_bind, Nat.add_sub_cancel_left, ax, ax2]
  have p1 := applyP_col (P := P) (ibeg := 0) (iend := k) (i0 := 0) (j0 := 0) (r := k + e) (c := k + e) .yes h.left (by simp) (by simp) (by omega) hP hp
  rw [← a0] at p1
  refine p1.mono (fun _ m1 h1 => ?_)
  replace h1 := h.ofW h1
  simp only [appliedPerm, Nat.sub_zero, swapsFrom_zero] at h1
  rw [Run_bind]
  refine (lukCopyT_spec (k := k) (e := e) h1 (by omega) (by omega) le_rfl rfl rfl).mono (fun _ m2 h2 => ?_)
  rw [Run_bind]
  have p3 := applyP_col (P := P) (ibeg := 0) (iend := k) (i0 := 0) (j0 := 0) (r := k + e) (c := k + e) .no h2.left (by simp) (by simp) (by omega) hP hp
  rw [← a0] at p3
  refine p3.mono (fun _ m3 h3 => ?_)
  replace h3 := h2.ofW h3
  generalize permCols 0 0 (k + e) (k + e) (appliedPerm .right .no P.get 0 k) _ = a3 at h3
  rw [Run_bind]
  have p4 := applyP_col (P := P) (ibeg := 0) (iend := k) (i0 := k) (j0 := 0) (r := e) (c := k + e) .yes h3.right (by omega) (by omega) (by omega) hP hp
  refine p4.mono (fun _ m4 h4 => ?_)
  replace h4 := h3.ofT h4
  simp only [appliedPerm, Nat.sub_zero, swapsFrom_zero] at h4
  generalize hV4 : permCols k 0 e (k + e) (ofSwaps P.get k) _ = V4 at h4
  have v4 : ∀ i < e, ∀ j < k + e, V4 (k + i) j = a (ofSwaps P.get k j) (ofSwaps P.get k (k + i)) := fun i hi j hj => by
    have h1 := plt j hj
    have h2 := plt (k + i) (by omega)
    rw [← hV4]
    unfold permCols
    rw [upd_in' (by omega), Nat.zero_add, Nat.sub_zero, upd_in' (by omega), upd_in' (by omega)]
    simp only [Nat.zero_add, Nat.sub_zero, Nat.add_sub_cancel_left]
  have v4' : ∀ i < k, ∀ j < k + e, V4 i j = V i j := fun i hi j hj => by
    rw [← hV4]
    unfold permCols
    rw [upd_out (by omega), upd_out (by omega)]
  clear hV4
  rw [Run_bind]
  have aw : W.p = W.adr 0 0 := by simp [Win.adr]
  have p5 := trsm_on (side := .right) (u := .upper) (ta := .no) (d := .unit) (a := 0) (b := 0) (i0 := k) (j0 := 0) (r := e) (c := k) ht h4.right 1
    (by simp only [sideDim]; omega) (by simp only [sideDim]; omega) (by omega) (by omega) (by simp only [sideDim]; omega) (fun hh => by cases hh)
  rw [← aw] at p5
  refine p5.mono ?_
  rintro _ m5 ⟨B, h5, hB⟩
  replace h5 := h4.ofT h5
  have hB' : ∀ i < e, ∀ j < k, ∑ l ∈ range k, B i l * luU .unit V l j = a (ofSwaps P.get k j) (ofSwaps P.get k (k + i)) := fun i hi j hj => by
    have := hB i hi j hj
    rw [one_mul, Nat.zero_add, v4 i hi j (by omega)] at this
    rw [← this]
    simp only [sideMul, sideDim, mul, op]
    refine sum_congr rfl (fun l hl => ?_)
    have hl := mem_range.1 hl
    congr 1
    have e1 : luU .unit V l j = luU .unit V4 l j := luU_congr (fun _ => (v4' l hl j (by omega)).symm)
    rw [e1]
    simp only [luU]
    congr 1
    funext x y
    simp [blk]
  rw [Run_bind]
  refine (lukCopy_spec (k := k) (e := e) h5 (by omega) (by omega) (by omega) rfl).mono (fun _ m6 h6 => ?_)
  have ay : W.p + k = W.adr 0 k := by simp [Win.adr]
  rw [ay]
  refine (gemm_at hg h6.left h6.right.src h6.right.src k 0 0 k 0 0 e e k (by omega) (by omega) (by omega) (by omega) (by simp only []; omega) (by simp only []; omega)
    ((h6.disj.symm.sub_left (by omega) (by omega)).sub_right (by simp only []; omega) (by simp only []; omega))
    ((h6.disj.symm.sub_left (by omega) (by omega)).sub_right (by simp only []; omega) (by simp only []; omega)) (-1) 1 rfl rfl a0).mono (fun _ m7 h7 => ?_)
  refine ⟨B, _, _, h6.ofW h7, hB', fun i hi j hj => ?_⟩
  rw [upd_in' (by omega), one_mul, upd_in' (by omega)]
  simp only [Nat.zero_add, Nat.sub_zero]
  rw [upd_out (by omega), v4 i hi _ (by omega)]
  rw [sum_congr rfl (fun l hl => ?_)]
  · ring
  · have hl := mem_range.1 hl
    rw [upd_in' (by omega), upd_out (by omega), v4' l hl _ (by omega)]
    simp only [Nat.zero_add, Nat.sub_zero, Nat.add_sub_cancel_left]

lemma polyOf_pow (n : ℕ) : polyOf (List.replicate n (0 : K) ++ [1]) = X ^ n := by
  have := polyOf_companion (fun _ : ℕ => (0 : K)) n
  simp only [neg_zero, List.map_const', List.length_range, map_zero, zero_mul, sum_const_zero, sub_zero] at this
  exact this

lemma chi_of_zero {f : ℕ → ℕ → K} (h : ∀ i < n, ∀ j < n, f i j = 0) : chi n f = X ^ n := by
  rw [chi_congr (g := fun _ _ => 0) h]
  have : toMat n n (fun _ _ => (0 : K)) = 0 := rfl
  rw [chi, this, Matrix.charpoly_zero, Fintype.card_fin]

lemma lukZero_spec {minP : List K} {c : ℕ → K} (h : On m0 m ⟨A, lda, n, n⟩ a) (hm : minP = (List.range k).map (fun i => - c i) ++ [1]) :
    Run (lukZero n A lda minP) m (fun z m' => m' = m ∧ (z = (minP, k) ∨ (z = (List.replicate n 0 ++ [1], n) ∧ ∀ i < n, ∀ j < n, a i j = 0))) := by
  have hl : minP.length - 1 = k := by rw [hm]; simp
  unfold lukZero
  rif c1
  · rw [Run_bind]
    refine (fiszero_spec h.ok').mono ?_
    rintro b m' ⟨rfl, hb⟩
    rw [Run_pure]
    refine ⟨rfl, ?_⟩
    by_cases c2 : b = true
    · right
      rw [if_pos c2]
      exact ⟨rfl, fun i hi j hj => by rw [← h.val hi hj]; exact hb.1 c2 i hi j hj⟩
    · left
      rw [if_neg c2, ← hl, c1.1]
  · rw [Run_pure, hl]
    exact ⟨rfl, Or.inl rfl⟩

omit [DecidableEq K] [Field K] in
/-- work in sub-windows of both windows -/
lemma On2.upd2 {V' U' : ℕ → ℕ → K} {i0 j0 r c i1 j1 r1 c1 : ℕ} (h : On2 m0 m W V T U) (hr : i0 + r ≤ W.r) (hc : j0 + c ≤ W.c) (hr1 : i1 + r1 ≤ T.r)
    (hc1 : j1 + c1 ≤ T.c) (s : On2 m m' (W.sub i0 j0 r c) V' (T.sub i1 j1 r1 c1) U') :
    On2 m0 m' W (upd i0 j0 r c V' V) T (upd i1 j1 r1 c1 U' U) := by
  have h1 := (h.symm.subW hr1 hc1).symm
  have h2 := h1.updW hr hc s
  exact (h.symm.updW hr1 hc1 h2.symm).symm

/-- the vectors drawn are not zero -/
def Draws (N : ℕ) (rnd : ℕ → ℕ → K) : Prop := ∀ n, 1 ≤ n → n ≤ N → ∃ i < n, rnd n i ≠ 0

theorem lukLoop_spec (jk : ℕ → ℕ) {rnd : ℕ → ℕ → K} (cat : Cat) {g : GemmFn K} {ts : TrsmFn K} (hg : GemmOk g) (ht : TrsmOk ts) {N : ℕ}
    (hrnd : Draws N rnd) : ∀ f n (m0 m : Mem K) (W : Win) (a V : ℕ → ℕ → K) (charp : List (List K)), n < f → n ≤ N → W.r = n + 1 → W.c = n →
    On2 m0 m ⟨A, lda, n, n⟩ a W V →
    Run (lukLoop jk rnd cat g ts A lda W.ld f n W.p charp) m (fun L m' => (∃ a' V', On2 m0 m' ⟨A, lda, n, n⟩ a' W V') ∧
      ∃ L', L = L' ++ charp ∧ (∀ l ∈ L', ∃ c : List K, c ≠ [] ∧ l = c ++ [1]) ∧ prodOf L' = chi n a) := by
  intro f
  induction f with
  | zero => intro n m0 m W a V charp h; omega
  | succ f ih =>
    intro n m0 m W a V charp hf hn hr hc h
    unfold lukLoop
    rif c0
    · subst c0
      rw [Run_pure]
      exact ⟨⟨_, _, h⟩, [], rfl, by simp, by simp [prodOf, chi_zero]⟩
    · rw [Run_bind, Run_alloc]
      obtain ⟨U0, h1⟩ := On2.start (r := n) (c := 1) h.right
      rw [Nat.mul_one] at h1
      change Run _ (m.grow n) _
      rw [Run_bind]
      refine (drawVec_spec (rnd n) h1.right).mono (fun _ m1 h2 => ?_)
      replace h2 := h1.ofT h2
      rw [Run_bind]
      have dT : (Win.mk A lda n n).Disj (vw m.next 1 n) := Disj_new (r := n) (c := 1) h.left.wf' h.left.ok'
      refine (mvMinPoly_spec cat hg ht (krylov_is n a (rnd n)) hr hc (by omega) (P := Arr.mk' n jk) le_rfl h2 (h.left.src.grow n) h.disj dT (fun j hj => rfl)).mono ?_
      rintro ⟨minP, P⟩ m2 ⟨k, c, V', hkn, post⟩
      obtain ⟨U3, h3⟩ := post.mem
      have pp := post.poly
      simp only [] at pp ⊢
      rw [Run_bind, Run_free]
      have h4 := On2.stop (r := n) (c := 1) h.right (by rw [Nat.mul_one]; exact h3)
      rw [Nat.mul_one] at h4
      replace h4 := h.ofT h4
      have hk : 1 ≤ k := by
        by_contra hh
        obtain rfl : k = 0 := by omega
        obtain ⟨i, hi, hne⟩ := hrnd n (by omega) hn
        exact hne (by simpa [krylov] using post.rel i hi)
      rw [Run_bind]
      refine (lukZero_spec h4.left pp).mono ?_
      rintro ⟨q, k'⟩ m' ⟨rfl, hz⟩
      have hne : ∃ c : List K, c ≠ [] ∧ minP = c ++ [1] := ⟨_, by
        have : k ≠ 0 := by omega
        simpa [List.map_eq_nil_iff, List.range_eq_nil] using this, pp⟩
      simp only []
      rcases hz with hz | ⟨hz, hzero⟩
      · obtain ⟨rfl, rfl⟩ := Prod.mk.injEq .. ▸ hz
        obtain ⟨e, rfl⟩ : ∃ e, n = k' + e := ⟨n - k', by omega⟩
        rif c1
        · obtain rfl : e = 0 := by omega
          rw [Run_pure]
          refine ⟨⟨_, _, h4⟩, [q], rfl, by simpa using hne, ?_⟩
          have := luk_split (B := fun _ _ => 0) (S := fun _ _ => 0) (krylov_is _ a (rnd (k' + 0))) hk post.con post.rel (fun i hi => by omega) (fun i hi => by omega)
          rw [this, chi_zero, mul_one]
          simp only [prodOf, List.map_cons, List.map_nil, List.prod_cons, List.prod_nil, mul_one]
          rw [pp, polyOf_companion]
        · rw [Run_bind]
          have hlen := post.lenP
          simp only [Arr.mk'] at hlen
          refine (lukReduce_spec hg ht (P := P) h4 hr hc (by omega) post.lt).mono ?_
          rintro _ m5 ⟨B, a', V5, h5, hB, hS⟩
          have hsp := luk_split (B := B) (S := a') (krylov_is _ a (rnd (k' + e))) hk post.con post.rel hB hS
          have h6 := (h5.subW (i0 := 0) (j0 := 0) (r := e) (c := e) (by simp) (by simp)).symm.subW (i0 := k') (j0 := k') (r := e + 1) (c := e) (by omega) (by omega)
          replace h6 := h6.symm
          have eA : (Win.mk A lda (k' + e) (k' + e)).sub 0 0 e e = ⟨A, lda, e, e⟩ := by simp [Win.sub, Win.adr]
          rw [eA] at h6
          have t := ih e m5 m5 (W.sub k' k' (e + 1) e) _ _ (q :: charp) (by omega) (by omega) rfl rfl h6
          simp only [Win.sub] at t
          rw [Nat.add_sub_cancel_left]
          refine t.mono ?_
          rintro L m7 ⟨⟨a7, V7, h7⟩, L', rfl, hL', hprod⟩
          rw [← eA] at h7
          refine ⟨⟨_, _, h5.upd2 (by simp) (by simp) (by omega) (by omega) h7⟩, L' ++ [q], by simp, ?_, ?_⟩
          · intro l hl
            rcases List.mem_append.1 hl with hl | hl
            · exact hL' l hl
            · obtain rfl := List.mem_singleton.1 hl
              exact hne
          · rw [hsp, ← polyOf_companion, ← pp]
            simp only [prodOf, List.map_append, List.prod_append, List.map_cons, List.map_nil, List.prod_cons, List.prod_nil, mul_one] at hprod ⊢
            rw [hprod, mul_comm]
            congr 1
            exact chi_congr (fun i _ j _ => by simp [blk])
      · obtain ⟨rfl, rfl⟩ := Prod.mk.injEq .. ▸ hz
        rw [if_pos rfl, Run_pure]
        refine ⟨⟨_, _, h4⟩, [_], rfl, ?_, ?_⟩
        · intro l hl
          obtain rfl := List.mem_singleton.1 hl
          exact ⟨_, by simpa using c0, rfl⟩
        · rw [chi_of_zero hzero]
          simp only [prodOf, List.map_cons, List.map_nil, List.prod_cons, List.prod_nil, mul_one]
          exact polyOf_pow _

/-- `CharPoly` with `FfpackLUK` -/
theorem charPolyLUK_spec (jk : ℕ → ℕ) {rnd : ℕ → ℕ → K} (cat : Cat) {g : GemmFn K} {ts : TrsmFn K} (hg : GemmOk g) (ht : TrsmOk ts)
    (hrnd : Draws n rnd) (h : On m0 m ⟨A, lda, n, n⟩ a) :
    Run (charPolyLUK jk rnd cat g ts n A lda) m (fun L m' => (∃ a', On m0 m' ⟨A, lda, n, n⟩ a') ∧
      (∀ l ∈ L, ∃ c : List K, c ≠ [] ∧ l = c ++ [1]) ∧ prodOf L = chi n a) := by
  unfold charPolyLUK
  rw [Run_bind, Run_alloc]
  obtain ⟨U0, h1⟩ := On2.start (r := n + 1) (c := n) h
  rw [Nat.mul_comm] at h1
  change Run _ (m.grow (n * (n + 1))) _
  rw [Run_bind]
  refine (lukLoop_spec jk cat hg ht hrnd (n + 1) n _ _ ⟨m.next, n, n + 1, n⟩ a U0 [] (by omega) le_rfl rfl rfl h1).mono ?_
  rintro L m2 ⟨⟨a', V', h2⟩, L', rfl, h3, h4⟩
  rw [Run_bind, Run_free, Run_pure]
  have h5 := On2.stop (r := n + 1) (c := n) h (by rw [Nat.mul_comm]; exact h2)
  rw [Nat.mul_comm] at h5
  rw [List.append_nil]
  exact ⟨⟨a', h5⟩, h3, h4⟩

end Verif.FF
