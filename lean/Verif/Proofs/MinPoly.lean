import Verif.Proofs.MinPolyMath
import Verif.Proofs.Danilevski

/-!
# `MatVecMinPoly` and `MinPoly`
-/

namespace Verif.FF

open Finset Verif.Perm Verif.Spec Verif.Spec.Perm Verif.Pluq Verif.Lud Polynomial

variable {K : Type} [Field K] [DecidableEq K] {m0 m : Mem K} {W : Win} {V U a y : ℕ → ℕ → K} {A lda u incu N k n : ℕ}

/-- the solve of `MatVecMinPoly`: a row of the window with the transposed of the lower triangle of the rows above -/
lemma ftrsv_row (h : On m0 m W V) (hk : k < W.r) (hn : n ≤ k) (hc : n ≤ W.c) (hp : ∀ i < n, V i i ≠ 0) :
    Run (ftrsv .lower .yes .nonUnit n W.p W.ld (W.adr k 0) 1) m (fun _ m' => ∃ Y : ℕ → K, On m0 m' W (upd k 0 1 n (fun _ t => Y t) V) ∧
      ∀ i < n, ∑ l ∈ range n, luL .unit V l i * Y l = V k i) := by
  have hld := h.ld
  have e0 : ∀ i < n, ∀ j < n, m.val (W.p + i * W.ld + j) = V i j := fun i hi j hj => h.val (show i < W.r by omega) (show j < W.c by omega)
  have hsub : OkIn m (W.sub 0 0 n n) := h.ok'.of_sub (by omega) (by omega)
  have eS : W.sub 0 0 n n = ⟨W.p, W.ld, n, n⟩ := by simp [Win.sub, Win.adr]
  rw [eS] at hsub
  refine (ftrsv_spec (m := m) .lower .yes .nonUnit hsub (by omega) (h.vw_row hk (by omega)) Nat.one_pos ?_ ?_).mono ?_
  · intro x hx hy
    obtain ⟨t, ht, e⟩ := vw_row_Has.1 hy
    obtain ⟨i, hi, j, hj, e'⟩ := hx
    have hi : i < n := hi
    have hj : j < n := hj
    have := h.inj (i := i) (j := j) (i' := k) (j' := 0 + t) (by omega) (by omega) hk (by omega) (e'.symm.trans e)
    omega
  · intro _ i hi
    rw [e0 i hi i hi]; exact hp i hi
  · rintro _ m' ⟨e1, e2, e3, e4⟩
    refine ⟨fun t => m'.val (W.adr k t), h.rowStep hk (by omega) ⟨e1, e2.ge, ?_, ?_⟩, ?_⟩
    · intro t ht z hz
      obtain rfl : z = 0 := by simpa using hz
      simp only [Win.adr_mk, Nat.mul_one, Nat.add_zero, Win.adr_add_col, Nat.zero_add]
    · intro x hx hn'
      refine e4 x (fun s hs e => hn' ⟨s, hs, 0, Nat.one_pos, ?_⟩)
      rw [e]; simp
    · intro i hi
      have := e3 i hi
      simp only [Nat.mul_one, Win.adr_add_col, Nat.zero_add] at this
      rw [h.val hk (by omega)] at this
      rw [← this]
      refine sum_congr rfl (fun l hl => ?_)
      have hl := mem_range.1 hl
      congr 1
      rw [← luL_eq]
      show op .yes (tri .lower .nonUnit V) i l = _
      exact op_tri_congr .yes (n := n) (fun i hi j hj => (e0 i hi j hj).symm) hi hl

lemma rowCoeffs_spec (h : On m0 m W V) (hk : k < W.r) : ∀ d ≤ W.c,
    Run (danCoeffs (W.adr k 0) 1 d) m (fun l m' => m' = m ∧ l = (List.range d).map (fun i => - V k i)) := by
  intro d
  induction d with
  | zero => intro _; rw [danCoeffs, Run_pure]; exact ⟨rfl, rfl⟩
  | succ d ih =>
    intro hd
    rw [danCoeffs, Run_bind]
    refine (ih (by omega)).mono ?_
    rintro l m' ⟨rfl, rfl⟩
    rw [Run_bind, Run_load, Run_pure, Nat.mul_one, Win.adr_add_col, Nat.zero_add]
    refine ⟨h.okc hk (by omega), rfl, ?_⟩
    rw [h.val hk (by omega), List.range_succ, List.map_append, List.map_singleton]

/-- what `MatVecMinPoly` returns and leaves in its workspace `W` and in the vector `u`: `k` is the degree and `c` the coefficients -/
structure MvPost (m0 : Mem K) (W : Win) (u incu N : ℕ) (y : ℕ → ℕ → K) (lP k : ℕ) (c : ℕ → K) (V : ℕ → ℕ → K) (z : List K × Arr ℕ) (m' : Mem K) : Prop where
  lenP : z.2.len = lP
  low : ∀ i < k, i ≤ z.2.get i
  lt : ∀ i < k, z.2.get i < N
  poly : z.1 = (List.range k).map (fun i => - c i) ++ [1]
  mem : ∃ U, On2 m0 m' W V (vw u incu N) U
  con : Con k N k y V (ofSwaps z.2.get k)
  rel : ∀ j < N, y k j = ∑ l ∈ range k, c l * y l j

lemma Con.cut {M N R : ℕ} {Y V : ℕ → ℕ → K} {p : ℕ → ℕ} (h : Con M N R Y V p) : Con R N R Y V p :=
  ⟨h.rN, le_rfl, h.piv, h.pP, fun i hi _ j hj => h.fac i (lt_of_lt_of_le hi h.rM) hi.le j hj⟩

theorem mvMinPoly_spec (cat : Cat) {g : GemmFn K} {ts : TrsmFn K} (hg : GemmOk g) (ht : TrsmOk ts) (hy : IsKrylov N a y) {P : Arr ℕ}
    (hr : W.r = N + 1) (hc : W.c = N) (hN : 1 ≤ N) (hP : N ≤ P.len) (h : On2 m0 m W V (vw u incu N) U) (hS : Src m0 ⟨A, lda, N, N⟩ a)
    (dW : (Win.mk A lda N N).Disj W) (dT : (Win.mk A lda N N).Disj (vw u incu N)) (hU : ∀ j < N, U j 0 = y 0 j) :
    Run (mvMinPoly cat g ts N A lda u incu W.p W.ld P) m (fun z m' => ∃ k c V', k ≤ N ∧ MvPost m0 W u incu N y P.len k c V' z m') := by
  have hinc : 0 < incu := h.ldT
  have hld := h.ldW
  have eW : W.p = W.adr 0 0 := by simp [Win.adr]
  unfold mvMinPoly
  rw [Run_bind]
  have v1 : Run (vassign N u incu (W.adr 0 0) 1) m _ := vassign_spec h.right.ok' (h.left.vw_row (by omega) (by omega)) (by
    refine Win.Disj.safe ?_ rfl rfl
    intro x hx hy'
    obtain ⟨s, hs, e⟩ := vw_row_Has.1 hy'
    refine h.disj x ?_ hx
    rw [e]; exact Win.Has_adr (by omega) (by omega)) Nat.one_pos
  rw [← eW] at v1
  refine v1.mono (fun _ m1 s1 => ?_)
  rw [eW] at s1
  have s1' : Step m m1 (vw (W.adr 0 0) 1 N) (fun j _ => y 0 j) := s1.congr (fun j hj _ _ => by
    have hj : j < N := hj
    have := h.valT j hj 0 Nat.one_pos
    simp only [Win.adr, Nat.add_zero] at this
    rw [this, hU j hj])
  have h1 := h.ofW (h.left.rowStep (by omega) (by omega) s1')
  rw [Run_bind]
  have key := conRec_true cat hg ht hy (N + 2) m0 m1 W _ U P (by omega) hc hN (by omega) (by omega) h1 hS dW dT
    (fun j hj => by rw [upd_in' (by omega), Nat.sub_zero]) hU
  rw [hr] at key
  refine key.mono ?_
  rintro ⟨k, P'⟩ m2 ⟨lP, low, lt, V2, U2, h2, hcon, -⟩
  simp only [] at lP low lt hcon
  rw [hr] at hcon
  have hkN := hcon.rN
  simp only []
  rw [Run_bind]
  have hzr : Run (minIsX W.p W.ld k) m2 (fun z m' => m' = m2 ∧ (z = true → k = 1 ∧ V2 1 0 = 0)) := by
    unfold minIsX
    rif c1
    · subst c1
      have e1 : W.p + W.ld = W.adr 1 0 := by simp [Win.adr]
      rw [Run_bind, Run_load, Run_pure, e1]
      refine ⟨h2.left.okc (by omega) (by omega), rfl, fun hh => ⟨rfl, ?_⟩⟩
      rw [h2.valW 1 (by omega) 0 (by omega)] at hh
      exact of_decide_eq_true hh
    · rw [Run_pure]
      exact ⟨rfl, fun hh => absurd hh (by simp)⟩
  refine hzr.mono ?_
  rintro z m' ⟨rfl, hz⟩
  rif c2
  · obtain ⟨rfl, hv⟩ := hz c2
    rw [Run_pure]
    refine ⟨1, fun _ => 0, V2, hkN, lP, low, lt, by simp, ⟨U2, h2⟩, hcon.cut, ?_⟩
    refine hcon.rel (by omega) (fun i hi => ?_)
    obtain rfl : i = 0 := by omega
    simp [hv]
  · rw [Run_bind]
    have ek : W.p + k * W.ld = W.adr k 0 := by simp [Win.adr]
    rw [ek]
    refine (ftrsv_row h2.left (by omega) le_rfl (by omega) hcon.piv).mono ?_
    rintro _ m3 ⟨Y, h3, hY⟩
    rw [Run_bind]
    have h3' := h2.ofW h3
    refine (rowCoeffs_spec h3 (k := k) (by omega) k (by omega)).mono ?_
    rintro l m' ⟨rfl, rfl⟩
    rw [Run_pure]
    refine ⟨k, Y, _, hkN, lP, low, lt, ?_, ⟨U2, h3'⟩, ?_, hcon.rel (by omega) hY⟩
    · simp only []
      congr 1
      refine List.map_congr_left (fun i hi => ?_)
      have hi := List.mem_range.1 hi
      rw [upd_in' (by omega), Nat.sub_zero]
    · exact hcon.cut.congr (fun i hi j hj => by rw [upd_out (by omega)]) (fun _ _ => rfl)

/-- the polynomial returned -/
lemma MvPost.isMin {lP : ℕ} {c : ℕ → K} {z : List K × Arr ℕ} {m' : Mem K} (h : MvPost m0 W u incu N y lP k c V z m') (hy : IsKrylov N a y) :
    IsMinPolyOf N a (y 0) (polyOf z.1) := by
  rw [h.poly, polyOf_companion]
  exact minPoly_of_rel hy h.rel (fun d hd => h.con.indep hd)

/-- the vectors `v, a v, a² v, …` -/
def krylov (N : ℕ) (a : ℕ → ℕ → K) (v : ℕ → K) : ℕ → ℕ → K
  | 0 => v
  | i+1 => fun j => ∑ l ∈ range N, a j l * krylov N a v i l

lemma krylov_is (N : ℕ) (a : ℕ → ℕ → K) (v : ℕ → K) : IsKrylov N a (krylov N a v) := fun _ _ _ => rfl

/-- what is returned: the coefficients of a monic polynomial of degree at most `N` -/
def Coeffs (N : ℕ) (l : List K) : Prop := ∃ l0 : List K, l = l0 ++ [1] ∧ l0.length ≤ N

theorem matVecMinPoly_spec (jk : ℕ → ℕ) (cat : Cat) {g : GemmFn K} {ts : TrsmFn K} (hg : GemmOk g) (ht : TrsmOk ts) {v incv : ℕ}
    (hN : 1 ≤ N) (h : On m0 m ⟨A, lda, N, N⟩ a) (hv : OkIn m (vw v incv N)) :
    Run (matVecMinPoly jk cat g ts N A lda v incv) m (fun l m' => On m0 m' ⟨A, lda, N, N⟩ a ∧ Coeffs N l ∧
      IsMinPolyOf N a (fun j => m.val (v + j * incv)) (polyOf l)) := by
  unfold matVecMinPoly
  rw [Run_bind, Run_alloc]
  obtain ⟨U0, h1⟩ := On2.start (r := N + 1) (c := N) h
  change Run _ (m.grow ((N + 1) * N)) _
  rw [Run_bind, Run_alloc]
  obtain ⟨U1, h2⟩ := On2.start (r := N) (c := 1) h1.right
  rw [Nat.mul_one] at h2
  change Run _ ((m.grow ((N + 1) * N)).grow N) _
  have hA := (h1.left.src).grow N
  have hvg : OkIn ((m.grow ((N + 1) * N)).grow N) (vw v incv N) := (hv.grow _).grow _
  have dT : (Win.mk A lda N N).Disj (vw (m.grow ((N + 1) * N)).next 1 N) := by
    have := Disj_new (r := N) (c := 1) h1.left.wf' h1.left.ok'
    exact this
  rw [Run_bind]
  refine (vassign_spec hvg h2.right.ok' ?_ Nat.one_pos).mono (fun _ m2 s2 => ?_)
  · have := Disj_new (r := N) (c := 1) (m := m.grow ((N + 1) * N)) h1.left.wf' (hv.grow _)
    exact this.safe rfl rfl
  have h3 := h2.ofT ⟨h2.right.wf', h2.right.ok', h2.ldT, s2⟩
  set y := krylov N a (fun j => m.val (v + j * incv)) with hy
  rw [Run_bind]
  refine (mvMinPoly_spec cat hg ht (krylov_is N a _) rfl rfl hN (P := Arr.mk' N jk) le_rfl h3 hA h1.disj dT (fun j hj => rfl)).mono ?_
  rintro ⟨l, P'⟩ m3 ⟨k, c, V', hk, post⟩
  obtain ⟨U3, h4⟩ := post.mem
  simp only []
  rw [Run_bind, Run_free, Run_bind, Run_free, Run_pure]
  have h5 := On2.stop (r := N) (c := 1) h1.right (by rw [Nat.mul_one]; exact h4)
  rw [Nat.mul_one] at h5
  have h6 := On2.stop (r := N + 1) (c := N) h (h1.ofT h5)
  refine ⟨h6, ⟨(List.range k).map (fun i => - c i), post.poly, by simpa using hk⟩, ?_⟩
  exact post.isMin (krylov_is N a _)

theorem minPoly_spec (jk : ℕ → ℕ) (rnd : ℕ → K) (cat : Cat) {g : GemmFn K} {ts : TrsmFn K} (hg : GemmOk g) (ht : TrsmOk ts)
    (h : On m0 m ⟨A, lda, N, N⟩ a) :
    Run (minPoly jk rnd cat g ts N A lda) m (fun l m' => On m0 m' ⟨A, lda, N, N⟩ a ∧ Coeffs N l ∧ IsMinPolyOf N a rnd (polyOf l)) := by
  unfold minPoly
  rif c
  · subst c
    rw [Run_pure]
    refine ⟨h, ⟨[], rfl, le_rfl⟩, ?_, fun q => ⟨fun _ => ?_, fun _ => ?_⟩⟩
    · simp [polyOf]
    · simp [polyOf]
    · funext i; exact i.elim0
  · rw [Run_bind, Run_alloc]
    obtain ⟨U0, h1⟩ := On2.start (r := N) (c := 1) h
    rw [Nat.mul_one] at h1
    change Run _ (m.grow N) _
    rw [Run_bind]
    refine (Run_loop (fun t m' => On2 (m.grow N) m' ⟨A, lda, N, N⟩ a ⟨m.next, 1, N, 1⟩ (fun i j => if i < t then rnd i else U0 i j)) ?_ ?_).mono ?_
    · simpa using h1
    · intro t m1 ht h1
      have e : m.next + t = (Win.mk m.next 1 N 1).adr t 0 := by simp [Win.adr]
      rw [Run_store, e]
      refine ⟨h1.right.okc ht Nat.one_pos, ?_⟩
      refine (h1.ofT (h1.right.set ht Nat.one_pos)).congrT (fun i hi j hj => ?_)
      have hj : j < 1 := hj
      by_cases q : i = t
      · subst q
        rw [upd_in' (by omega), if_pos (by omega)]
      · rw [upd_out (by omega)]
        exact if_congr (by omega) rfl rfl
    · intro _ m2 h2
      rw [Run_bind]
      refine (matVecMinPoly_spec jk cat hg ht (by omega) h2.left (v := m.next) (incv := 1) h2.right.ok').mono ?_
      rintro l m3 ⟨h3, hl, hp⟩
      rw [Run_bind, Run_free, Run_pure]
      have h4 := On2.stop (r := N) (c := 1) h (by rw [Nat.mul_one]; exact h2.ofW h3)
      rw [Nat.mul_one] at h4
      refine ⟨h4, hl, ?_⟩
      have e : ∀ j < N, m2.val (m.next + j * 1) = rnd j := fun j hj => by
        have := h2.valT j hj 0 Nat.one_pos
        simp only [Win.adr, Nat.add_zero, if_pos hj] at this
        exact this
      have e' : ∀ q, polyVec N a (fun j => m2.val (m.next + j * 1)) q = polyVec N a rnd q := fun q => by
        unfold polyVec
        congr 1
        funext i
        exact e i i.2
      exact ⟨hp.1, fun q => by rw [← e' q]; exact hp.2 q⟩

end Verif.FF
