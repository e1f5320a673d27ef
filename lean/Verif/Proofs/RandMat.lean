import Verif.Model.RandMat
import Verif.Proofs.RandRank
import Verif.Proofs.RandRook
import Verif.Proofs.EchelonGet
import Verif.Proofs.KrylovPrecond
import Verif.Proofs.Ftrtr

/-!
# Random matrices: what the generators write
-/

namespace Verif.FF

open Finset Verif.Spec Verif.RandMat

variable {K : Type} [Field K] [DecidableEq K] {m0 m m' : Mem K} {W : Win} {V V' : ℕ → ℕ → K}

omit [Field K] [DecidableEq K] in
lemma store_to (h : On m0 m W V) {i j : ℕ} {x : K} (hi : i < W.r) (hj : j < W.c)
    (e : ∀ a < W.r, ∀ b < W.c, V' a b = if a = i ∧ b = j then x else V a b) {A : ℕ} (hA : A = W.adr i j) :
    Run (store A x) m (fun _ m' => On m0 m' W V') := by
  subst hA
  rw [Run_store]
  refine ⟨h.okc hi hj, (h.set hi hj).congr (fun a ha b hb => ?_)⟩
  rw [e a ha b hb]
  by_cases c : a = i ∧ b = j
  · rw [if_pos c, upd_in' (by omega)]
  · rw [if_neg c, upd_out (by omega)]

lemma vzero_to (h : On m0 m W V) {i j n : ℕ} (hi : i < W.r) (hj : j + n ≤ W.c)
    (e : ∀ a < W.r, ∀ b < W.c, V' a b = if a = i ∧ j ≤ b ∧ b < j + n then 0 else V a b) {A : ℕ} (hA : A = W.adr i j) :
    Run (vzero n A 1) m (fun _ m' => On m0 m' W V') := by
  subst hA
  refine (vzero_spec (h.vw_row hi hj) Nat.one_pos).mono (fun _ m' s => (h.rowStep hi hj s).congr (fun a ha b hb => ?_))
  rw [e a ha b hb]
  by_cases c : a = i ∧ j ≤ b ∧ b < j + n
  · rw [if_pos c, upd_in' (by omega)]
  · rw [if_neg c, upd_out (by omega)]

/-! ## triangular matrices -/

/-- inside the triangle what is drawn, zeroes outside -/
def triBody (u : Uplo) (el : ℕ → ℕ → K) (i j : ℕ) : K := match u with
  | .upper => if i ≤ j then el i j else 0
  | .lower => if j ≤ i then el i j else 0

/-- the matrix of `RandomTriangularMatrix` -/
def triVal (u : Uplo) (d : Diag) (ns : Bool) (D : TriDraws K) (i j : ℕ) : K :=
  if i = j then (match d with
    | .unit => 1
    | .nonUnit => if ns = true then D.nz i else D.el i i)
  else triBody u D.el i j

lemma randTriBody_on (u : Uplo) (el : ℕ → ℕ → K) (h : On m0 m W V) (hu : u = .lower → W.r ≤ W.c) :
    Run (randTriBody u el W.r W.c W.p W.ld) m (fun _ m' => On m0 m' W (triBody u el)) := by
  have fin : ∀ {m'}, On m0 m' W (fun i j => if i < W.r then triBody u el i j else V i j) → On m0 m' W (triBody u el) :=
    fun h => h.congr (fun i hi j hj => by rw [if_pos hi])
  cases u with
  | upper =>
    refine (Run_loop (fun t m' => On m0 m' W (fun i j => if i < t then triBody .upper el i j else V i j)) ?_ ?_).mono (fun _ _ => fin)
    · exact h.congr (fun i _ j _ => by rw [if_neg (by omega)])
    · intro t m1 ht h1
      rw [Run_bind]
      refine (vzero_to (V' := fun i j => if i < t ∨ i = t ∧ j < t + 0 then triBody .upper el i j else V i j) h1 (i := t) (j := 0) ht (by omega) ?_ (by simp [Win.adr])).mono ?_
      · intro a ha b hb
        by_cases c : a = t ∧ 0 ≤ b ∧ b < 0 + min t W.c
        · rw [if_pos c, if_pos (by omega), triBody, if_neg (by omega)]
        · rw [if_neg c]
          by_cases c2 : a < t
          · rw [if_pos (Or.inl c2), if_pos c2]
          · rw [if_neg (by omega), if_neg c2]
      · intro _ m2 h2
        refine (Run_loop (fun s m' => On m0 m' W (fun i j => if i < t ∨ i = t ∧ j < t + s then triBody .upper el i j else V i j)) h2 ?_).mono ?_
        · intro s m3 hs h3
          refine store_to h3 (i := t) (j := t + s) ht (by omega) ?_ (by simp [Win.adr]; omega)
          intro a ha b hb
          by_cases c : a = t ∧ b = t + s
          · rw [if_pos c, if_pos (by omega), triBody, if_pos (by omega), c.1, c.2]
          · rw [if_neg c]
            by_cases c2 : a < t ∨ a = t ∧ b < t + s
            · rw [if_pos (by omega), if_pos c2]
            · rw [if_neg (by omega), if_neg c2]
        · intro _ m3 h3
          refine h3.congr (fun a ha b hb => ?_)
          by_cases c : a < t + 1
          · rw [if_pos c, if_pos (by omega)]
          · rw [if_neg c, if_neg (by omega)]
  | lower =>
    have hu := hu rfl
    refine (Run_loop (fun t m' => On m0 m' W (fun i j => if i < t then triBody .lower el i j else V i j)) ?_ ?_).mono (fun _ _ => fin)
    · exact h.congr (fun i _ j _ => by rw [if_neg (by omega)])
    · intro t m1 ht h1
      rw [Run_bind]
      refine (Run_loop (fun s m' => On m0 m' W (fun i j => if i < t ∨ i = t ∧ j < s then triBody .lower el i j else V i j)) ?_ ?_).mono ?_
      · exact h1.congr (fun i _ j _ => by simp)
      · intro s m3 hs h3
        refine store_to h3 (i := t) (j := s) ht (by omega) ?_ (by simp [Win.adr]; omega)
        intro a ha b hb
        by_cases c : a = t ∧ b = s
        · rw [if_pos c, if_pos (by omega), triBody, if_pos (by omega), c.1, c.2]
        · rw [if_neg c]
          by_cases c2 : a < t ∨ a = t ∧ b < s
          · rw [if_pos (by omega), if_pos c2]
          · rw [if_neg (by omega), if_neg c2]
      · intro _ m2 h2
        rw [Run_bind]
        refine Run_usub (by omega) ?_
        refine vzero_to h2 (i := t) (j := t + 1) ht (by omega) ?_ (by simp [Win.adr]; omega)
        intro a ha b hb
        by_cases c : a = t ∧ t + 1 ≤ b ∧ b < t + 1 + (W.c - 1 - min t (W.c - 1))
        · rw [if_pos c, if_pos (by omega), triBody, if_neg (by omega)]
        · rw [if_neg c]
          by_cases c2 : a < t ∨ a = t ∧ b < t + 1
          · rw [if_pos (by omega), if_pos c2]
          · rw [if_neg (by omega), if_neg c2]

lemma randTri_on (u : Uplo) (d : Diag) (ns : Bool) (D : TriDraws K) (h : On m0 m W V) (hu : u = .lower → W.r ≤ W.c) :
    Run (randTri u d ns D W.r W.c W.p W.ld) m (fun _ m' => On m0 m' W (triVal u d ns D)) := by
  unfold randTri
  rw [Run_bind]
  refine (randTriBody_on u D.el h hu).mono (fun _ m1 h1 => ?_)
  have key : ∀ f : ℕ → K, Run (loop (min W.r W.c) fun i => store (W.p + i * (W.ld + 1)) (f i)) m1
      (fun _ m' => On m0 m' W (fun i j => if i = j then f i else triBody u D.el i j)) := by
    intro f
    refine (Run_loop (fun t m' => On m0 m' W (fun i j => if i = j ∧ i < t then f i else triBody u D.el i j)) ?_ ?_).mono ?_
    · exact h1.congr (fun i _ j _ => by rw [if_neg (by omega)])
    · intro t m2 ht h2
      refine store_to h2 (i := t) (j := t) (by omega) (by omega) ?_ (by simp [Win.adr]; ring)
      intro a ha b hb
      by_cases c : a = t ∧ b = t
      · rw [if_pos c, if_pos (by omega), c.1]
      · rw [if_neg c]
        by_cases c2 : a = b ∧ a < t
        · rw [if_pos c2, if_pos (by omega)]
        · rw [if_neg c2, if_neg (by omega)]
    · intro _ m2 h2
      refine h2.congr (fun i hi j hj => ?_)
      by_cases c : i = j
      · rw [if_pos (by omega), if_pos c]
      · rw [if_neg (by omega), if_neg c]
  cases d with
  | unit => exact (key (fun _ => 1)).mono (fun _ m2 h2 => h2.congr (fun i hi j hj => rfl))
  | nonUnit =>
    rif hn
    · exact (key D.nz).mono (fun _ m2 h2 => h2.congr (fun i hi j hj => by simp only [triVal, if_pos hn]))
    · rw [Run_pure]
      refine h1.congr (fun i hi j hj => ?_)
      simp only [triVal, if_neg hn]
      by_cases c : i = j
      · subst c; rw [if_pos rfl]; cases u <;> simp [triBody]
      · rw [if_neg c]

/-! ## two temporaries -/

/-- the factors -/
inductive LU | l | u
deriving DecidableEq

def luOf {α : Type} (x y : α) : LU → α
  | .l => x
  | .u => y

lemma pick_l {α : Type} (x y z : α) : Function.update (luOf x y) .l z = luOf z y := by funext i; cases i <;> rfl
lemma pick_u {α : Type} (x y z : α) : Function.update (luOf x y) .u z = luOf x z := by funext i; cases i <;> rfl

/-- since `m0` the window `A` has been modified, and the factors `L` and `U` have been allocated -/
def Two (m0 m : Mem K) (A : Win) (a : ℕ → ℕ → K) (L : Win) (l : ℕ → ℕ → K) (U : Win) (u : ℕ → ℕ → K) : Prop := Tmps m0 m A a (luOf L U) (luOf l u)

namespace Two

variable {A L U : Win} {a a' l l' u u' : ℕ → ℕ → K}

omit [Field K] [DecidableEq K]

lemma start (h : On m m A a) : Two m m A a noWin a noWin a := by
  have := Tmps.start (ι := LU) (V := luOf a a) h
  have e : (fun _ : LU => noWin) = luOf noWin noWin := by funext i; cases i <;> rfl
  rw [e] at this
  exact this

lemma allocL (h : Two m0 m A a noWin l U u) (r c : ℕ) : ∃ f, Two m0 (m.grow (r * c)) A a ⟨m.next, c, r, c⟩ f U u := by
  obtain ⟨f, h⟩ := Tmps.alloc h .l rfl r c rfl
  rw [pick_l, pick_l] at h
  exact ⟨f, h⟩

lemma allocU (h : Two m0 m A a L l noWin u) (r c : ℕ) : ∃ f, Two m0 (m.grow (r * c)) A a L l ⟨m.next, c, r, c⟩ f := by
  obtain ⟨f, h⟩ := Tmps.alloc h .u rfl r c rfl
  rw [pick_u, pick_u] at h
  exact ⟨f, h⟩

lemma onL (h : Two m0 m A a L l U u) : On m m L l := Tmps.on h .l
lemma onU (h : Two m0 m A a L l U u) : On m m U u := Tmps.on h .u
lemma onA (h : Two m0 m A a L l U u) : On m m A a := Tmps.onA h
lemma disjLU (h : Two m0 m A a L l U u) : L.Disj U := Tmps.disj h .l .u (by decide)
lemma disjL (h : Two m0 m A a L l U u) : A.Disj L := Tmps.disjA h .l
lemma disjU (h : Two m0 m A a L l U u) : A.Disj U := Tmps.disjA h .u

lemma putL (h : Two m0 m A a L l U u) (s : On m m' L l') : Two m0 m' A a L l' U u := by
  have := Tmps.put h .l s
  rw [pick_l] at this
  exact this

lemma putU (h : Two m0 m A a L l U u) (s : On m m' U u') : Two m0 m' A a L l U u' := by
  have := Tmps.put h .u s
  rw [pick_u] at this
  exact this

lemma putA (h : Two m0 m A a L l U u) (s : On m m' A a') : Two m0 m' A a' L l U u := Tmps.putA h s

lemma freeL {p n : ℕ} (h : Two m0 m A a L l U u) (hp : p = L.p) (hn : n = L.r * L.c) : Two m0 (m.drop p n) A a noWin l U u := by
  have := Tmps.free h .l hp hn
  rw [pick_l] at this
  exact this

lemma freeU {p n : ℕ} (h : Two m0 m A a L l U u) (hp : p = U.p) (hn : n = U.r * U.c) : Two m0 (m.drop p n) A a L l noWin u := by
  have := Tmps.free h .u hp hn
  rw [pick_u] at this
  exact this

lemma done (h : Two m0 m A a noWin l noWin u) : On m0 m A a := Tmps.done h (fun i => by cases i <;> rfl)

end Two

/-- the product of the factors -/
lemma Two.gemm {g : GemmFn K} (hg : GemmOk g) {M N k A lda L U : ℕ} {a l u : ℕ → ℕ → K} (h : Two m0 m ⟨A, lda, M, N⟩ a ⟨L, k, M, k⟩ l ⟨U, N, k, N⟩ u) :
    Run (g .no .no M N k 1 L k U N 0 A lda) m (fun _ m' =>
      Two m0 m' ⟨A, lda, M, N⟩ (fun i j => ∑ x ∈ range k, l i x * u x j) ⟨L, k, M, k⟩ l ⟨U, N, k, N⟩ u) := by
  refine (gemm_at hg h.onA h.onL.src h.onU.src 0 0 0 0 0 0 M N k (by simp) (by simp) (by simp) (by simp) (by simp) (by simp)
    (h.disjL.symm.sub_left (by simp) (by simp) |>.sub_right (by simp) (by simp)) (h.disjU.symm.sub_left (by simp) (by simp) |>.sub_right (by simp) (by simp)) 1 0
    (A := L) (B := U) (C := A) (by simp [Win.adr]) (by simp [Win.adr]) (by simp [Win.adr])).mono (fun _ m' t => h.putA (t.congr (fun i hi j hj => ?_)))
  rw [upd_in' (by simp only [] at hi hj; omega)]
  simp

/-! ## rank profile matrices -/

/-- the column of `L` for a pivot in row `p k` -/
def rpmCol (el : ℕ → ℕ → K) (nz : ℕ → K) (p : ℕ → ℕ) (k i : ℕ) : K := if i < p k then 0 else if i = p k then nz k else el k i

lemma rpmCols_on {M N R L : ℕ} {rows cols : Arr ℕ} (el : ℕ → ℕ → K) (nz : ℕ → K) (hR : Rook M N R rows.get cols.get) (hr : R ≤ rows.len)
    (hc : R ≤ cols.len) (h : On m0 m ⟨L, N, M, N⟩ (fun _ _ => 0)) :
    Run (rpmCols el nz M N R L rows cols) m (fun _ m' => ∃ l, On m0 m' ⟨L, N, M, N⟩ l ∧
      (∀ k < R, ∀ i < M, l i (cols.get k) = rpmCol el nz rows.get k i) ∧ ∀ j < N, (∀ k < R, cols.get k ≠ j) → ∀ i < M, l i j = 0) := by
  refine Run_loop (fun t m' => ∃ l, On m0 m' ⟨L, N, M, N⟩ l ∧
      (∀ k < t, ∀ i < M, l i (cols.get k) = rpmCol el nz rows.get k i) ∧ ∀ j < N, (∀ k < t, cols.get k ≠ j) → ∀ i < M, l i j = 0) ?_ ?_
  · exact ⟨_, h, by omega, fun _ _ _ _ _ => rfl⟩
  · rintro t m1 ht ⟨l, h1, e1, e2⟩
    have hi := hR.row_lt t ht
    have hj := hR.col_lt t ht
    rw [Run_bind, Run_liftE]
    refine (Ok_rd _ _ _).2 ⟨by omega, ?_⟩
    rw [Run_bind, Run_liftE]
    refine (Ok_rd _ _ _).2 ⟨by omega, ?_⟩
    rw [Run_bind]
    generalize hI : rows.get t = i0 at hi
    generalize hJ : cols.get t = j0 at hj
    refine (store_to (V' := fun i j => if j = j0 ∧ i0 ≤ i ∧ i < i0 + 1 + 0 then rpmCol el nz rows.get t i else l i j) h1 (i := i0) (j := j0) hi hj ?_ (by simp [Win.adr]; omega)).mono ?_
    · intro a ha b hb
      by_cases c : a = i0 ∧ b = j0
      · rw [if_pos c, if_pos (by omega), rpmCol, if_neg (by omega), if_pos (by omega)]
      · rw [if_neg c, if_neg (by omega)]
    · intro _ m2 h2
      refine (Run_loop (fun s m' => On m0 m' ⟨L, N, M, N⟩ (fun i j => if j = j0 ∧ i0 ≤ i ∧ i < i0 + 1 + s then rpmCol el nz rows.get t i else l i j)) h2 ?_).mono ?_
      · intro s m3 hs h3
        refine store_to h3 (i := i0 + 1 + s) (j := j0) (by simp only []; omega) hj ?_ (by simp [Win.adr]; omega)
        intro a ha b hb
        by_cases c : a = i0 + 1 + s ∧ b = j0
        · rw [if_pos c, if_pos (by omega), rpmCol, if_neg (by omega), if_neg (by omega), c.1]
        · rw [if_neg c]
          by_cases c2 : b = j0 ∧ i0 ≤ a ∧ a < i0 + 1 + s
          · rw [if_pos (by omega), if_pos c2]
          · rw [if_neg (by omega), if_neg c2]
      · intro _ m3 h3
        refine ⟨_, h3, fun k hk i hi' => ?_, fun j hj' hn i hi' => ?_⟩
        · by_cases c : k = t
          · subst c
            by_cases c2 : i0 ≤ i
            · rw [if_pos (by omega)]
            · rw [if_neg (by omega), hJ, e2 j0 hj (fun s hs e => by have := hR.col_inj s (by omega) k ht (by omega); omega) i hi', rpmCol, if_pos (by omega)]
          · rw [if_neg (fun e => c (hR.col_inj k (by omega) t ht (by omega))), e1 k (by omega) i hi']
        · rw [if_neg (fun e => hn t (by omega) (by omega)), e2 j hj' (fun k hk => hn k (by omega)) i hi']

omit [DecidableEq K] in
/-- a sum over all columns when only those of the pivots are not zero -/
lemma sum_pivots {N R : ℕ} {q : ℕ → ℕ} {l c : ℕ → K} {u : ℕ → K} (hq : ∀ k < R, q k < N) (hi : ∀ k < R, ∀ l < R, q k = q l → k = l)
    (e1 : ∀ k < R, l (q k) = c k) (e2 : ∀ j < N, (∀ k < R, q k ≠ j) → l j = 0) :
    ∑ x ∈ range N, l x * u x = ∑ k ∈ range R, c k * u (q k) := by
  have hs : (range R).image q ⊆ range N := by
    intro x hx
    obtain ⟨k, hk, rfl⟩ := mem_image.1 hx
    exact mem_range.2 (hq k (mem_range.1 hk))
  rw [← sum_subset hs, sum_image]
  · exact sum_congr rfl (fun k hk => by rw [e1 k (mem_range.1 hk)])
  · intro x hx y hy e
    exact hi x (mem_range.1 hx) y (mem_range.1 hy) e
  · intro x hx hn
    rw [e2 x (mem_range.1 hx) (fun k hk e => hn (mem_image.2 ⟨k, mem_range.2 hk, e⟩)), zero_mul]

omit [DecidableEq K] in
/-- columns that start at the pivots are those of a non-singular lower triangular matrix -/
lemma exists_lower {M R : ℕ} {p : ℕ → ℕ} {c : ℕ → ℕ → K} (hi : ∀ k < R, ∀ l < R, p k = p l → k = l) (h0 : ∀ k < R, ∀ i < p k, c k i = 0)
    (h1 : ∀ k < R, c k (p k) ≠ 0) : ∃ T : ℕ → ℕ → K, LowerNS M T ∧ ∀ k < R, ∀ i, T i (p k) = c k i := by
  classical
  refine ⟨fun i j => if h : ∃ k, k < R ∧ p k = j then c h.choose i else if i = j then 1 else 0, ⟨fun i _ j _ hij => ?_, fun i _ => ?_⟩, fun k hk i => ?_⟩
  · dsimp only
    split_ifs with h h'
    · exact h0 _ h.choose_spec.1 _ (by rw [h.choose_spec.2]; exact hij)
    · omega
    · rfl
  · dsimp only
    split_ifs with h
    · have := h1 _ h.choose_spec.1
      rw [h.choose_spec.2] at this
      exact this
    · exact one_ne_zero
    · omega
  · dsimp only
    have h : ∃ k', k' < R ∧ p k' = p k := ⟨k, hk, rfl⟩
    rw [dif_pos h, hi _ h.choose_spec.1 k hk h.choose_spec.2]

omit [DecidableEq K] in
lemma triVal_upper {N : ℕ} {D : TriDraws K} (hz : ∀ i < N, D.nz i ≠ 0) : UpperNS N (triVal .upper .nonUnit true D) :=
  ⟨fun i _ j _ hij => by simp only [triVal, triBody]; rw [if_neg (by omega), if_neg (by omega)], fun i hi => by simpa [triVal] using hz i hi⟩

omit [DecidableEq K] in
lemma triVal_lower {N : ℕ} {D : TriDraws K} (hz : ∀ i < N, D.nz i ≠ 0) : LowerNS N (triVal .lower .nonUnit true D) :=
  ⟨fun i _ j _ hij => by simp only [triVal, triBody]; rw [if_neg (by omega), if_neg (by omega)], fun i hi => by simpa [triVal] using hz i hi⟩

/-- `RandomMatrixWithRankandRPM` -/
theorem randRPM_spec {g : GemmFn K} (hg : GemmOk g) (el : ℕ → ℕ → K) {nz : ℕ → K} {du : TriDraws K} {M N R A lda : ℕ} {rows cols : Arr ℕ}
    (hnz : ∀ k < R, nz k ≠ 0) (hdu : ∀ i < N, du.nz i ≠ 0)
    (hR : Rook M N R rows.get cols.get) (hr : R ≤ rows.len) (hc : R ≤ cols.len) {a : ℕ → ℕ → K} (h : On m m ⟨A, lda, M, N⟩ a) :
    Run (randRPM g el nz du M N R A lda rows cols) m (fun _ m' => ∃ x, On m m' ⟨A, lda, M, N⟩ x ∧
      ∀ a ≤ M, ∀ b ≤ N, rk x a b = rookCount R rows.get cols.get a b) := by
  unfold randRPM
  have h := Two.start h
  rw [Run_bind, Run_alloc]
  obtain ⟨f1, h1⟩ := h.allocL M N
  change Run _ (m.grow (M * N)) _
  generalize m.grow (M * N) = m1 at h1 ⊢
  generalize m.next = L at h1 ⊢
  rw [Run_bind]
  refine (fzero_on h1.onL 0 0 M N (by simp) (by simp) (by simp [Win.adr])).mono (fun _ m2 t => ?_)
  have h2 := h1.putL (t.congr (V' := fun _ _ => 0) (fun i hi j hj => by rw [upd_in' (by simp only [] at hi hj; omega)]))
  rw [Run_bind]
  refine (rpmCols_on el nz hR hr hc h2.onL).mono ?_
  rintro _ m3 ⟨l, t, e1, e2⟩
  have h3 := h2.putL t
  rw [Run_bind, Run_alloc]
  obtain ⟨f2, h4⟩ := h3.allocU N N
  change Run _ (m3.grow (N * N)) _
  generalize m3.grow (N * N) = m4 at h4 ⊢
  generalize m3.next = U at h4 ⊢
  rw [Run_bind]
  refine (randTri_on .upper .nonUnit true du h4.onU (by simp)).mono (fun _ m5 t => ?_)
  have h5 := h4.putU t
  rw [Run_bind]
  refine (h5.gemm hg).mono (fun _ m6 h6 => ?_)
  rw [Run_bind, Run_free]
  have h7 := h6.freeL (p := L) (n := M * N) rfl rfl
  rw [Run_free]
  have h8 := h7.freeU (p := U) (n := N * N) rfl rfl
  refine ⟨_, h8.done, fun a ha b hb => ?_⟩
  obtain ⟨T, hT, eT⟩ := exists_lower (M := M) (c := rpmCol el nz rows.get) hR.row_inj (fun k _ i hi => by rw [rpmCol, if_pos hi])
    (fun k hk => by rw [rpmCol, if_neg (by omega), if_pos rfl]; exact hnz k hk)
  refine rk_rook hR hT (triVal_upper hdu) (fun i hi j hj => ?_) ha hb
  rw [sum_pivots (c := fun k => T i (rows.get k)) hR.col_lt hR.col_inj (fun k hk => by rw [e1 k hk i hi, eT k hk]) (fun j hj hn => e2 j hj hn i hi)]

end Verif.FF
