import Verif.Proofs.ParLevel

/-!
# The parallel matrix products
-/

namespace Verif.Par
open Verif.FF Verif.BlockCuts Finset

variable {K : Type} [Field K] [DecidableEq K] {W R T : ℕ → Prop} {v : ℕ → K} {Q : (ℕ → K) → Prop}

omit [Field K] [DecidableEq K] in
lemma wp_alloc {n : ℕ} {k : ℕ → Proc K} (h : ∀ p v', (∀ i, blkAt p n i → ¬ (W i ∨ R i ∨ T i)) → (∀ i, W i ∨ R i ∨ T i → v' i = v i) →
    wp (k p) W R (fun i => T i ∨ blkAt p n i) v' Q) : wp (.alloc n k) W R T v Q := by
  intro p c hp
  exact h p _ hp (fun i hi => if_neg (fun hb => hp i hb hi))

omit [Field K] [DecidableEq K] in
lemma wp_free {n p : ℕ} {k : Proc K} {T' : ℕ → Prop} (h1 : ∀ i, blkAt p n i → T' i) (h2 : ∀ i, T i → T' i ∧ ¬ blkAt p n i) (h : wp k W R T v Q) :
    wp (.free p n k) W R T' v Q := ⟨h1, wp_mono_T _ h2 h⟩

omit [Field K] [DecidableEq K] in
lemma wp_v {p : Proc K} {v' : ℕ → K} (h : v' = v) : wp p W R T v' Q ↔ wp p W R T v Q := by rw [h]

/-- the output -/
abbrev Call.win (c : Call K) : Win := ⟨c.C, c.ldc, c.m, c.n⟩

/-- the cells of the two factors -/
def Call.src (c : Call K) (x : ℕ) : Prop := (aw c.ta c.m c.k c.A c.lda).Has x ∨ (aw c.tb c.k c.n c.B c.ldb).Has x

/-- part of one entry of the product: the indices `l0 ≤ l < l0 + k'` -/
def Call.dot (c : Call K) (v : ℕ → K) (l0 k' i j : ℕ) : K :=
  ∑ l ∈ range k', v (opAdr c.ta c.A c.lda i (l0 + l)) * v (opAdr c.tb c.B c.ldb (l0 + l) j)

/-- the result -/
def Call.val (c : Call K) (v : ℕ → K) (i j : ℕ) : K := c.alpha * c.dot v 0 c.k i j + c.beta * v (c.win.adr i j)

structure Call.Pre (c : Call K) : Prop where
  lA : opc c.ta c.m c.k ≤ c.lda
  lB : opc c.tb c.k c.n ≤ c.ldb
  lC : c.n ≤ c.ldc
  dis : ∀ x, c.src x → ¬ c.win.Has x

def PGemmOk (g : PGemm K) : Prop := ∀ (c : Call K) (k : Proc K) (W R T : ℕ → Prop) (v : ℕ → K) (Q : (ℕ → K) → Prop), c.Pre →
  (∀ x, c.win.Has x → W x ∨ T x) → (∀ x, c.src x → W x ∨ R x ∨ T x) →
  (∀ v', (∀ i, W i ∨ R i ∨ T i → ¬ c.win.Has i → v' i = v i) → Vals c.win (c.val v) v' → wp k W R T v' Q) → wp (g c k) W R T v Q

variable {g : PGemm K} {c c' : Call K} {i0 j0 l0 : ℕ}

omit [Field K] [DecidableEq K] in
lemma Call.src_fin : FinS c.src := (FinS.has _).or (FinS.has _)

omit [DecidableEq K] in
lemma Call.dot_congr {v v' : ℕ → K} (h : ∀ x, c.src x → v' x = v x) {k' i j : ℕ} (hi : i < c.m) (hj : j < c.n) (hk : l0 + k' ≤ c.k) :
    c.dot v' l0 k' i j = c.dot v l0 k' i j := by
  refine Finset.sum_congr rfl (fun l hl => ?_)
  have hl := Finset.mem_range.1 hl
  rw [h _ (Or.inl (op_Has hi (by omega))), h _ (Or.inr (op_Has (by omega) hj))]

lemma PGemmOk.task (h : PGemmOk g) (hp : c.Pre) {Rs : ℕ → Prop} (hs : ∀ x, c.src x → Rs x) : TaskOk (g c .ret) c.win Rs v (c.val v) :=
  h c .ret _ _ _ v _ hp (fun _ h => Or.inl h) (fun x hx => Or.inr (Or.inl (hs x hx))) (fun _ _ h => h)

theorem seqGemm_ok : PGemmOk (seqGemm : PGemm K) := by
  intro c k W R T v Q hp hW hR hk
  refine wp_call (w := c.win) (g := c.val v) (fun x => c.win.Has x ∨ c.src x) ((FinS.has _).or Call.src_fin) (fun x hx => hx.elim (fun h => (hW x h).imp id Or.inr) (hR x))
    (wrIn_gemmClassic (fun i hi j hj => hW _ ⟨i, hi, j, hj, rfl⟩)) ?_ hk
  intro m hm ho hv
  refine (gemmClassic_ok .generic c.ta c.tb c.m c.n c.k m c.alpha c.A c.lda c.B c.ldb c.beta c.C c.ldc ⟨hm, fun a ha => ho a (Or.inr (Or.inl ha)), fun a ha => ho a (Or.inr (Or.inr ha)),
    fun a ha => ho a (Or.inl ha), hp.lA, hp.lB, hp.lC, fun a ha => hp.dis a (Or.inl ha), fun a ha => hp.dis a (Or.inr ha)⟩).mono (fun _ _ s => s.congr (fun i hi j hj => ?_))
  subst hv
  simp only [gval, Call.val, Spec.mul, op_mat, Call.dot, Nat.zero_add, Mem.mat]

/-- `c'` is the product of blocks of the factors of `c`: rows from `i0`, columns from `j0`, inner indices from `l0`. -/
structure Call.Sub (c c' : Call K) (i0 j0 l0 : ℕ) : Prop where
  ta : c'.ta = c.ta
  tb : c'.tb = c.tb
  lda : c'.lda = c.lda
  ldb : c'.ldb = c.ldb
  alpha : c'.alpha = c.alpha
  m : i0 + c'.m ≤ c.m
  n : j0 + c'.n ≤ c.n
  k : l0 + c'.k ≤ c.k
  A : c'.A = c.A + i0 * arow c.ta c.lda + l0 * acol c.ta c.lda
  B : c'.B = c.B + l0 * arow c.tb c.ldb + j0 * acol c.tb c.ldb

omit [Field K] [DecidableEq K] in
lemma aw_sub {t : Tr} {m k m' k' A A' lda i0 l0 x : ℕ} (hm : i0 + m' ≤ m) (hk : l0 + k' ≤ k) (hA : A' = A + i0 * arow t lda + l0 * acol t lda)
    (h : (aw t m' k' A' lda).Has x) : (aw t m k A lda).Has x := by
  cases t with
  | no =>
    obtain ⟨i, hi, l, hl, rfl⟩ := h
    simp only [opr, opc] at hi hl
    exact ⟨i0 + i, by simp only [opr]; omega, l0 + l, by simp only [opc]; omega, by simp only [Win.adr, hA, arow, acol]; ring⟩
  | yes =>
    obtain ⟨l, hl, i, hi, rfl⟩ := h
    simp only [opr, opc] at hi hl
    exact ⟨l0 + l, by simp only [opr]; omega, i0 + i, by simp only [opc]; omega, by simp only [Win.adr, hA, arow, acol]; ring⟩

omit [Field K] [DecidableEq K] in
lemma opAdr_sub {t : Tr} {A A' lda i0 l0 i l : ℕ} (hA : A' = A + i0 * arow t lda + l0 * acol t lda) : opAdr t A' lda i l = opAdr t A lda (i0 + i) (l0 + l) := by
  cases t <;> simp only [opAdr, hA, arow, acol] <;> ring

namespace Call.Sub

omit [Field K] [DecidableEq K] in
lemma src (h : Call.Sub c c' i0 j0 l0) {x : ℕ} (hx : c'.src x) : c.src x := by
  rcases hx with hx | hx
  · rw [h.ta, h.lda] at hx; exact Or.inl (aw_sub h.m h.k h.A hx)
  · rw [h.tb, h.ldb] at hx; exact Or.inr (aw_sub h.k h.n h.B hx)

omit [DecidableEq K] in
lemma dot (h : Call.Sub c c' i0 j0 l0) {i j : ℕ} : c'.dot v 0 c'.k i j = c.dot v l0 c'.k (i0 + i) (j0 + j) := by
  simp only [Call.dot, h.ta, h.tb, h.lda, h.ldb, opAdr_sub h.A, opAdr_sub h.B, Nat.zero_add]

omit [Field K] [DecidableEq K] in
lemma pre (h : Call.Sub c c' i0 j0 l0) (hp : c.Pre) (hC : c'.n ≤ c'.ldc) (hd : ∀ x, c.src x → ¬ c'.win.Has x) : c'.Pre := by
  refine ⟨?_, ?_, hC, fun x hx => hd x (h.src hx)⟩
  · have := hp.lA
    have := h.m
    have := h.k
    rw [h.ta, h.lda]
    cases e : c.ta <;> simp only [e, opc] at * <;> omega
  · have := hp.lB
    have := h.n
    have := h.k
    rw [h.tb, h.ldb]
    cases e : c.tb <;> simp only [e, opc] at * <;> omega

end Call.Sub

/-- one tile of the output -/
lemma PGemmOk.tile (hg : PGemmOk g) (hp : c.Pre) (h : Call.Sub c c' i0 j0 l0) (t : Tile) {Rs : ℕ → Prop} {G : ℕ → ℕ → K} (hRs : ∀ x, c.src x → Rs x)
    (hC : c'.C = c.C + i0 * c.ldc + j0) (hld : c'.ldc = c.ldc) (h1 : t.i0 = i0) (h2 : t.j0 = j0) (h3 : t.i1 - t.i0 = c'.m) (h4 : t.j1 - t.j0 = c'.n)
    (hG : ∀ i < c'.m, ∀ j < c'.n, c.alpha * c.dot v l0 c'.k (i0 + i) (j0 + j) + c'.beta * v (c.win.adr (i0 + i) (j0 + j)) = G (i0 + i) (j0 + j)) :
    TaskOk (g c' .ret) (Win.tile c.win t) Rs v (fun i j => G (t.i0 + i) (t.j0 + j)) := by
  have ew : Win.tile c.win t = c'.win := by
    simp only [Win.tile, Win.sub, Win.adr, Call.win, h1, h2, ← h3, ← h4, hC, hld]
  have hn := h.n
  have hm := h.m
  have hlC := hp.lC
  rw [ew]
  refine (hg.task (v := v) (h.pre hp (by rw [hld]; omega) (fun x hx hw => ?_)) (fun x hx => hRs x (h.src hx))).congr rfl (fun i hi j hj => ?_)
  · rw [← ew] at hw
    exact hp.dis x hx (Win.sub_Has (W := c.win) (by simp only [Call.win]; omega) (by simp only [Call.win]; omega) hw)
  · rw [h1, h2, ← hG i hi j hj, Call.val, h.dot, h.alpha]
    congr 3
    simp only [Win.adr, Call.win, hC, hld]; ring

theorem pfgemmBlock_ok (hg : PGemmOk g) {thr nt : ℕ} (hnt : 1 ≤ nt) : PGemmOk (pfgemmBlock g thr nt) := by
  intro c k W R T v Q hp hW hR hk
  unfold pfgemmBlock
  refine wp_for_tiles (w := c.win) (Rs := c.src) (by omega) rfl rfl (Win.Inj_of_le (Or.inl hp.lC)) hW hR hp.dis ?_ hk
  intro b b1 b2 b3 b4
  refine hg.tile (i0 := b.i0) (j0 := b.j0) (l0 := 0) (G := c.val v) hp ?_ b (fun _ h => h) rfl rfl rfl rfl rfl rfl (fun i _ j _ => rfl)
  refine ⟨rfl, rfl, rfl, rfl, rfl, ?_, ?_, by simp, ?_, ?_⟩
  · simp only []; omega
  · simp only []; omega
  · cases e : c.ta <;> simp [arow]
  · cases e : c.tb <;> simp [acol]

/-- the trivial products and the base case -/
lemma wp_pfStart (hg : PGemmOk g) {nt thr size : ℕ} {k r : Proc K} (hp : c.Pre) (hW : ∀ x, c.win.Has x → W x ∨ T x) (hR : ∀ x, c.src x → W x ∨ R x ∨ T x)
    (hk : ∀ v', (∀ i, W i ∨ R i ∨ T i → ¬ c.win.Has i → v' i = v i) → Vals c.win (c.val v) v' → wp k W R T v' Q)
    (hr : 2 ≤ nt → wp r W R T v Q) : wp (pfStart g nt thr size c k r) W R T v Q := by
  unfold pfStart
  split_ifs with h1 h2 h3
  · refine hk v (fun _ _ _ => rfl) (fun i hi j hj => ?_)
    simp only [Call.win] at hi hj
    omega
  · refine wp_call (w := c.win) (g := c.val v) c.win.Has (FinS.has _) (fun x hx => (hW x hx).imp id Or.inr) (wrIn_fscalin (fun i hi j hj => hW _ ⟨i, hi, j, hj, rfl⟩)) ?_ hk
    intro m hm ho hv
    refine (fscalin_spec .generic c.beta hm ho hp.lC).mono (fun _ _ s => s.congr (fun i _ j _ => ?_))
    subst hv
    rcases h2 with h2 | h2 <;> simp [Call.val, Call.dot, h2, Mem.mat]
  · exact hg c k W R T v Q hp hW hR hk
  · exact hr (by omega)

lemma TilesOk.rows (m n a : ℕ) (h : a ≤ m) : TilesOk ![(⟨0, a, 0, n⟩ : Tile), ⟨a, m, 0, n⟩] m n := by
  refine ⟨fun j => ?_, fun i hi j hj => ?_, fun x y i j => ?_⟩
  · fin_cases j <;> simp <;> omega
  · by_cases h : i < a
    · exact ⟨0, by simp [Tile.In]; omega⟩
    · exact ⟨1, by simp [Tile.In]; omega⟩
  · fin_cases x <;> fin_cases y <;> simp [Tile.In] <;> omega

lemma TilesOk.cols (m n a : ℕ) (h : a ≤ n) : TilesOk ![(⟨0, m, 0, a⟩ : Tile), ⟨0, m, a, n⟩] m n := by
  refine ⟨fun j => ?_, fun i hi j hj => ?_, fun x y i j => ?_⟩
  · fin_cases j <;> simp <;> omega
  · by_cases h : j < a
    · exact ⟨0, by simp [Tile.In]; omega⟩
    · exact ⟨1, by simp [Tile.In]; omega⟩
  · fin_cases x <;> fin_cases y <;> simp [Tile.In] <;> omega

/-- four tiles -/
def quads (m n a b : ℕ) : Fin 4 → Tile := ![⟨0, a, 0, b⟩, ⟨0, a, b, n⟩, ⟨a, m, 0, b⟩, ⟨a, m, b, n⟩]

lemma TilesOk.quads (m n a b : ℕ) (h : a ≤ m) (h' : b ≤ n) : TilesOk (quads m n a b) m n := by
  unfold Par.quads
  refine ⟨fun j => ?_, fun i hi j hj => ?_, fun x y i j => ?_⟩
  · fin_cases j <;> simp <;> omega
  · by_cases h : i < a <;> by_cases h2 : j < b
    · exact ⟨0, by simp [Tile.In]; omega⟩
    · exact ⟨1, by simp [Tile.In]; omega⟩
    · exact ⟨2, by simp [Tile.In]; omega⟩
    · exact ⟨3, by simp [Tile.In]; omega⟩
  · fin_cases x <;> fin_cases y <;> simp [Tile.In] <;> omega

/-- splitting rows -/
lemma wp_rows {ga gb : PGemm K} (ha : PGemmOk ga) (hb : PGemmOk gb) {k : Proc K} {ts : Fin 2 → Proc K} {M2 : ℕ} (hM : M2 ≤ c.m) (hp : c.Pre) (hW : ∀ x, c.win.Has x → W x ∨ T x)
    (hR : ∀ x, c.src x → W x ∨ R x ∨ T x)
    (hk : ∀ v', (∀ i, W i ∨ R i ∨ T i → ¬ c.win.Has i → v' i = v i) → Vals c.win (c.val v) v' → wp k W R T v' Q)
    (h0 : ts 0 = ga { c with m := M2 } .ret) (h1 : ts 1 = gb { c with m := c.m - M2, A := c.A + M2 * arow c.ta c.lda, C := c.C + M2 * c.ldc } .ret) :
    wp (.par 2 ts k) W R T v Q := by
  refine wp_tiles (w := c.win) (Rs := c.src) rfl rfl (Win.Inj_of_le (Or.inl hp.lC)) (TilesOk.rows c.m c.n M2 hM) hW hR hp.dis ?_ hk
  intro a
  fin_cases a
  · show TaskOk (ts 0) _ _ _ _
    rw [h0]
    refine ha.tile (i0 := 0) (j0 := 0) (l0 := 0) (G := c.val v) hp ?_ ⟨0, M2, 0, c.n⟩ (fun _ h => h) ?_ rfl rfl rfl rfl rfl (fun i _ j _ => rfl)
    · refine ⟨rfl, rfl, rfl, rfl, rfl, ?_, ?_, ?_, ?_, ?_⟩ <;> simp <;> omega
    · simp
  · show TaskOk (ts 1) _ _ _ _
    rw [h1]
    refine hb.tile (i0 := M2) (j0 := 0) (l0 := 0) (G := c.val v) hp ?_ ⟨M2, c.m, 0, c.n⟩ (fun _ h => h) ?_ rfl rfl rfl rfl rfl (fun i _ j _ => rfl)
    · refine ⟨rfl, rfl, rfl, rfl, rfl, ?_, ?_, ?_, ?_, ?_⟩ <;> simp <;> omega
    · simp

/-- splitting columns -/
lemma wp_cols {ga gb : PGemm K} (ha : PGemmOk ga) (hb : PGemmOk gb) {k : Proc K} {ts : Fin 2 → Proc K} {N2 : ℕ} (hM : N2 ≤ c.n) (hp : c.Pre) (hW : ∀ x, c.win.Has x → W x ∨ T x)
    (hR : ∀ x, c.src x → W x ∨ R x ∨ T x)
    (hk : ∀ v', (∀ i, W i ∨ R i ∨ T i → ¬ c.win.Has i → v' i = v i) → Vals c.win (c.val v) v' → wp k W R T v' Q)
    (h0 : ts 0 = ga { c with n := N2 } .ret) (h1 : ts 1 = gb { c with n := c.n - N2, B := c.B + N2 * acol c.tb c.ldb, C := c.C + N2 } .ret) :
    wp (.par 2 ts k) W R T v Q := by
  refine wp_tiles (w := c.win) (Rs := c.src) rfl rfl (Win.Inj_of_le (Or.inl hp.lC)) (TilesOk.cols c.m c.n N2 hM) hW hR hp.dis ?_ hk
  intro a
  fin_cases a
  · show TaskOk (ts 0) _ _ _ _
    rw [h0]
    refine ha.tile (i0 := 0) (j0 := 0) (l0 := 0) (G := c.val v) hp ?_ ⟨0, c.m, 0, N2⟩ (fun _ h => h) ?_ rfl rfl rfl rfl rfl (fun i _ j _ => rfl)
    · refine ⟨rfl, rfl, rfl, rfl, rfl, ?_, ?_, ?_, ?_, ?_⟩ <;> simp <;> omega
    · simp
  · show TaskOk (ts 1) _ _ _ _
    rw [h1]
    refine hb.tile (i0 := 0) (j0 := N2) (l0 := 0) (G := c.val v) hp ?_ ⟨0, c.m, N2, c.n⟩ (fun _ h => h) ?_ rfl rfl rfl rfl rfl (fun i _ j _ => rfl)
    · refine ⟨rfl, rfl, rfl, rfl, rfl, ?_, ?_, ?_, ?_, ?_⟩ <;> simp <;> omega
    · simp

theorem pfgemm2DA_ok (hg : PGemmOk g) {thr : ℕ} : ∀ {fuel nt : ℕ}, nt < fuel → PGemmOk (pfgemm2DA g thr fuel nt) := by
  intro fuel
  induction fuel with
  | zero => intro nt h; omega
  | succ fuel ih =>
    intro nt h c k W R T v Q hp hW hR hk
    unfold pfgemm2DA
    refine wp_pfStart hg hp hW hR hk (fun hnt => ?_)
    split_ifs with hmn
    · exact wp_rows (ih (nt := nt / 2) (by omega)) (ih (nt := nt - nt / 2) (by omega)) (M2 := c.m / 2) (by omega) hp hW hR hk rfl rfl
    · exact wp_cols (ih (nt := nt / 2) (by omega)) (ih (nt := nt - nt / 2) (by omega)) (N2 := c.n / 2) (by omega) hp hW hR hk rfl rfl

omit [DecidableEq K] in
lemma Call.dot_add (c : Call K) (v : ℕ → K) {k1 k2 i j : ℕ} : c.dot v 0 k1 i j + c.dot v k1 k2 i j = c.dot v 0 (k1 + k2) i j := by
  simp only [Call.dot, Finset.sum_range_add, Nat.zero_add]

/-- one round on the four quarters of the output -/
lemma wp_quads {gs : Fin 4 → PGemm K} (ha : ∀ j, PGemmOk (gs j)) {k : Proc K} {ts : Fin 4 → Proc K} {M2 N2 : ℕ} (hM : M2 ≤ c.m) (hN : N2 ≤ c.n) {G : ℕ → ℕ → K}
    (hp : c.Pre) (hW : ∀ x, c.win.Has x → W x ∨ T x) (hR : ∀ x, c.src x → W x ∨ R x ∨ T x)
    (hk : ∀ v', (∀ i, W i ∨ R i ∨ T i → ¬ c.win.Has i → v' i = v i) → Vals c.win G v' → wp k W R T v' Q)
    (cs : Fin 4 → Call K) (l : Fin 4 → ℕ) (hts : ∀ j, ts j = gs j (cs j) .ret)
    (hsub : ∀ j, Call.Sub c (cs j) (quads c.m c.n M2 N2 j).i0 (quads c.m c.n M2 N2 j).j0 (l j))
    (hC : ∀ j, (cs j).C = c.C + (quads c.m c.n M2 N2 j).i0 * c.ldc + (quads c.m c.n M2 N2 j).j0 ∧ (cs j).ldc = c.ldc ∧
      (quads c.m c.n M2 N2 j).i1 - (quads c.m c.n M2 N2 j).i0 = (cs j).m ∧ (quads c.m c.n M2 N2 j).j1 - (quads c.m c.n M2 N2 j).j0 = (cs j).n)
    (hG : ∀ a, ∀ i j, Tile.In (quads c.m c.n M2 N2 a) i j → c.alpha * c.dot v (l a) (cs a).k i j + (cs a).beta * v (c.win.adr i j) = G i j) :
    wp (.par 4 ts k) W R T v Q := by
  refine wp_tiles (w := c.win) (Rs := c.src) rfl rfl (Win.Inj_of_le (Or.inl hp.lC)) (TilesOk.quads c.m c.n M2 N2 hM hN) hW hR hp.dis ?_ hk
  intro a
  rw [hts a]
  obtain ⟨h1, h2, h3, h4⟩ := hC a
  refine (ha a).tile hp (hsub a) _ (fun _ h => h) h1 h2 rfl rfl h3 h4 (fun i hi j hj => hG a _ _ ?_)
  simp only [Tile.In]
  omega

theorem pfgemm2D_ok (hg : PGemmOk g) {thr : ℕ} : ∀ {fuel nt : ℕ}, nt < fuel → PGemmOk (pfgemm2D g thr fuel nt) := by
  intro fuel
  induction fuel with
  | zero => intro nt h; omega
  | succ fuel ih =>
    intro nt h c k W R T v Q hp hW hR hk
    unfold pfgemm2D
    refine wp_pfStart hg hp hW hR hk (fun hnt => ?_)
    have hn : ∀ j, ntPart nt 4 j < fuel := fun j => by unfold ntPart; split_ifs <;> omega
    refine wp_quads (gs := fun j => pfgemm2D g thr fuel (ntPart nt 4 j)) (fun j => ih (hn j)) (M2 := c.m / 2) (N2 := c.n / 2) (by omega) (by omega) hp hW hR hk _ (fun _ => 0)
      (fun j => rfl) (fun j => ?_) (fun j => ?_) (fun a i j _ => ?_)
    · fin_cases j <;> refine ⟨rfl, rfl, rfl, rfl, rfl, ?_, ?_, ?_, ?_, ?_⟩ <;> simp [quads] <;> omega
    · fin_cases j <;> refine ⟨?_, rfl, rfl, rfl⟩ <;> simp [quads]; ring
    · fin_cases a <;> rfl

theorem pfgemm3DI_ok (hg : PGemmOk g) {thr : ℕ} : ∀ {fuel nt : ℕ}, nt < fuel → PGemmOk (pfgemm3DI g thr fuel nt) := by
  intro fuel
  induction fuel with
  | zero => intro nt h; omega
  | succ fuel ih =>
    intro nt h c k W R T v Q hp hW hR hk
    unfold pfgemm3DI
    refine wp_pfStart hg hp hW hR hk (fun hnt => ?_)
    have hn : ∀ j, ntPart nt 4 j < fuel := fun j => by unfold ntPart; split_ifs <;> omega
    refine wp_quads (gs := fun j => pfgemm3DI g thr fuel (ntPart nt 4 j)) (fun j => ih (hn j)) (M2 := c.m / 2) (N2 := c.n / 2) (by omega) (by omega)
      (G := fun i j => c.alpha * (if i < c.m / 2 ↔ j < c.n / 2 then c.dot v 0 (c.k / 2) i j else c.dot v (c.k / 2) (c.k - c.k / 2) i j) + c.beta * v (c.win.adr i j))
      hp hW hR ?_ _ ![0, c.k / 2, c.k / 2, 0] (fun j => rfl) (fun j => ?_) (fun j => ?_) (fun a i j hij => ?_)
    rotate_left
    · fin_cases j <;> refine ⟨rfl, rfl, rfl, rfl, rfl, ?_, ?_, ?_, ?_, ?_⟩ <;> simp [quads] <;> first | omega | ring
    · fin_cases j <;> refine ⟨?_, rfl, rfl, rfl⟩ <;> simp [quads]; ring
    · have hd : (i < c.m / 2 ↔ j < c.n / 2) ↔ (a = 0 ∨ a = 3) := by
        fin_cases a <;> simp [Tile.In, quads] at hij ⊢ <;> omega
      simp only [hd]
      fin_cases a <;> simp
    intro v1 fr1 vals1
    have hsrc : ∀ x, c.src x → v1 x = v x := fun x hx => fr1 x (hR x hx) (hp.dis x hx)
    refine wp_quads (gs := fun j => pfgemm3DI g thr fuel (ntPart nt 4 j)) (fun j => ih (hn j)) (M2 := c.m / 2) (N2 := c.n / 2) (by omega) (by omega) (G := c.val v)
      hp hW hR ?_ _ ![c.k / 2, 0, 0, c.k / 2] (fun j => rfl) (fun j => ?_) (fun j => ?_) (fun a i j hij => ?_)
    rotate_left
    · fin_cases j <;> refine ⟨rfl, rfl, rfl, rfl, rfl, ?_, ?_, ?_, ?_, ?_⟩ <;> simp [quads] <;> first | omega | ring
    · fin_cases j <;> refine ⟨?_, rfl, rfl, rfl⟩ <;> simp [quads]; ring
    · have hi : i < c.m ∧ j < c.n := by
        fin_cases a <;> simp [Tile.In, quads] at hij ⊢ <;> omega
      have hd : (i < c.m / 2 ↔ j < c.n / 2) ↔ (a = 0 ∨ a = 3) := by
        fin_cases a <;> simp [Tile.In, quads] at hij ⊢ <;> omega
      have ek : c.dot v 0 c.k i j = c.dot v 0 (c.k / 2) i j + c.dot v (c.k / 2) (c.k - c.k / 2) i j := by
        rw [Call.dot_add]; congr 1; omega
      rw [vals1 i hi.1 j hi.2, Call.val, ek]
      simp only [hd]
      have d1 := Call.dot_congr (l0 := 0) (k' := c.k / 2) hsrc hi.1 hi.2 (by omega)
      have d2 := Call.dot_congr (l0 := c.k / 2) (k' := c.k - c.k / 2) hsrc hi.1 hi.2 (by omega)
      fin_cases a <;> simp [d1, d2] <;> ring
    intro v2 fr2 vals2
    exact hk v2 (fun i hi hn => (fr2 i hi hn).trans (fr1 i hi hn)) vals2

/-! ### with temporaries -/

lemma add_task {M N B ldb C ldc : ℕ} {Rs : ℕ → Prop} {G : ℕ → ℕ → K} (hf : FinS Rs) (hB : ∀ x, (Win.mk B ldb M N).Has x → Rs x) (hd : (Win.mk B ldb M N).Disj ⟨C, ldc, M, N⟩)
    (hlb : N ≤ ldb) (hl : N ≤ ldc) (hG : ∀ i < M, ∀ j < N, v (B + i * ldb + j) + v (C + i * ldc + j) = G i j) :
    TaskOk (call (faddin .generic M N B ldb C ldc) .ret) ⟨C, ldc, M, N⟩ Rs v G := by
  refine task_call hf (wrIn_faddin InS_Has) ?_
  intro m hm ho hR hv
  refine (faddin_spec .generic hm (fun a ha => hR a (hB a ha)) ho hlb hl (hd.safe rfl rfl)).mono (fun _ _ s => s.congr (fun i hi j hj => ?_))
  subst hv
  exact hG i hi j hj

lemma PGemmOk.tmp (hg : PGemmOk g) (hp : c.Pre) (h : Call.Sub c c' i0 j0 l0) {w : Win} {Rs : ℕ → Prop} (hRs : ∀ x, c.src x → Rs x) (hb : c'.beta = 0) (hl : c'.n ≤ c'.ldc)
    (hw : w = c'.win) (hd : ∀ x, c.src x → ¬ w.Has x) : TaskOk (g c' .ret) w Rs v (fun i j => c.alpha * c.dot v l0 c'.k (i0 + i) (j0 + j)) := by
  subst hw
  refine (hg.task (v := v) (h.pre hp hl hd) (fun x hx => hRs x (h.src hx))).congr rfl (fun i hi j hj => ?_)
  rw [Call.val, h.dot, h.alpha, hb, zero_mul, add_zero]

omit [Field K] [DecidableEq K] in
lemma blk_of_Has {p m n x : ℕ} (h : (Win.mk p n m n).Has x) : blkAt p (m * n) x := by
  obtain ⟨i, hi, j, hj, rfl⟩ := h
  simp only [] at hi hj
  have : (i + 1) * n ≤ m * n := Nat.mul_le_mul_right _ (by omega)
  exact ⟨by simp only [Win.adr]; omega, by simp only [Win.adr]; rw [Nat.add_mul] at this; omega⟩

theorem pfgemm3DA_ok (hg : PGemmOk g) {thr : ℕ} : ∀ {fuel nt : ℕ}, nt < fuel → PGemmOk (pfgemm3DA Prod.mk g thr fuel nt) := by
  intro fuel
  induction fuel with
  | zero => intro nt h; omega
  | succ fuel ih =>
    intro nt h c k W R T v Q hp hW hR hk
    unfold pfgemm3DA
    refine wp_pfStart hg hp hW hR hk (fun hnt => ?_)
    split_ifs with hmk hnk
    · exact wp_rows (ih (nt := nt / 2) (by omega)) (ih (nt := nt - nt / 2) (by omega)) (M2 := c.m / 2) (by omega) hp hW hR hk rfl rfl
    · exact wp_cols (ih (nt := nt / 2) (by omega)) (ih (nt := nt - nt / 2) (by omega)) (N2 := c.n / 2) (by omega) hp hW hR hk rfl rfl
    refine wp_alloc (fun P v0 hP hv0 => ?_)
    have hsP : ∀ x, c.src x → ¬ (Win.mk P c.n c.m c.n).Has x := fun x hx hh => hP x (blk_of_Has hh) (hR x hx)
    have hwP : (Win.mk P c.n c.m c.n).Disj c.win := fun x hh hw => hP x (blk_of_Has hh) ((hW x hw).imp id Or.inr)
    have hdot : ∀ l0 k' i j, i < c.m → j < c.n → l0 + k' ≤ c.k → c.dot v0 l0 k' i j = c.dot v l0 k' i j := fun l0 k' i j hi hj hk' =>
      Call.dot_congr (fun x hx => hv0 x (hR x hx)) hi hj hk'
    refine wp_spawn ![c.win, ⟨P, c.n, c.m, c.n⟩] ![fun i j => c.alpha * c.dot v 0 (c.k / 2) i j + c.beta * v (c.win.adr i j), fun i j => c.alpha * c.dot v (c.k / 2) (c.k - c.k / 2) i j]
      c.src (fun j => ?_) (fun x hx => (hR x hx).imp id (Or.imp id Or.inl)) (fun j => ?_) (fun j l ne => ?_) (fun j => ?_) ?_
    · fin_cases j
      · exact fun x hx => (hW x hx).imp id Or.inl
      · exact fun x hx => Or.inr (Or.inr (blk_of_Has hx))
    · fin_cases j
      · exact fun x hx => hp.dis x hx
      · exact fun x hx => hsP x hx
    · fin_cases j <;> fin_cases l
      · exact absurd rfl ne
      · exact hwP.symm
      · exact hwP
      · exact absurd rfl ne
    · fin_cases j
      · have s0 : Call.Sub c { c with k := c.k / 2 } 0 0 0 := by
          refine ⟨rfl, rfl, rfl, rfl, rfl, ?_, ?_, ?_, ?_, ?_⟩ <;> simp <;> omega
        refine ((ih (nt := nt / 2) (by omega)).task (v := v0) (s0.pre hp hp.lC hp.dis) (fun x hx => s0.src hx)).congr rfl (fun i hi j hj => ?_)
        have hi : i < c.m := hi
        have hj : j < c.n := hj
        rw [Call.val, s0.dot]
        simp only [Nat.zero_add]
        rw [hdot _ _ _ _ hi hj (by omega), hv0 _ ((hW _ (Win.Has_adr (W := c.win) hi hj)).imp id Or.inr)]
        rfl
      · have s1 : Call.Sub c { c with k := c.k - c.k / 2, A := c.A + c.k / 2 * acol c.ta c.lda, B := c.B + c.k / 2 * arow c.tb c.ldb, beta := 0, C := P, ldc := c.n } 0 0 (c.k / 2) := by
          refine ⟨rfl, rfl, rfl, rfl, rfl, ?_, ?_, ?_, ?_, ?_⟩ <;> simp <;> omega
        refine ((ih (nt := nt - nt / 2) (by omega)).tmp (v := v0) hp s1 (fun _ h => h) rfl (le_refl _) rfl hsP).congr rfl (fun i hi j hj => ?_)
        have hi : i < c.m := hi
        have hj : j < c.n := hj
        simp only [Nat.zero_add]
        rw [hdot _ _ _ _ hi hj (by omega)]
        rfl
    intro v1 fr1 vals1
    refine wp_spawn ![c.win] ![c.val v] (Win.mk P c.n c.m c.n).Has (fun j => ?_) (fun x hx => Or.inr (Or.inr (Or.inr (blk_of_Has hx)))) (fun j => ?_) (fun j l ne => absurd (Subsingleton.elim j l) ne)
      (fun j => ?_) ?_
    · fin_cases j
      exact fun x hx => (hW x hx).imp id Or.inl
    · fin_cases j
      exact hwP
    · fin_cases j
      refine add_task (FinS.has _) (fun _ h => h) hwP (le_refl _) hp.lC (fun i hi j hj => ?_)
      have e0 : v1 (c.C + i * c.ldc + j) = _ := vals1 0 i hi j hj
      have e1 : v1 (P + i * c.n + j) = _ := vals1 1 i hi j hj
      rw [e0, e1]
      show c.alpha * c.dot v (c.k / 2) (c.k - c.k / 2) i j + (c.alpha * c.dot v 0 (c.k / 2) i j + c.beta * v (c.win.adr i j)) = c.val v i j
      rw [Call.val, show c.dot v 0 c.k i j = c.dot v 0 (c.k / 2) i j + c.dot v (c.k / 2) (c.k - c.k / 2) i j by rw [Call.dot_add]; congr 1; omega]
      ring
    intro v2 fr2 vals2
    refine wp_free (T := T) (fun i hi => Or.inr hi) (fun i hi => ⟨Or.inl hi, fun hb => hP i hb (Or.inr (Or.inr hi))⟩) (hk v2 (fun i hi hn => ?_) (vals2 0))
    have hi' : W i ∨ R i ∨ T i ∨ blkAt P (c.m * c.n) i := hi.imp id (Or.imp id Or.inl)
    rw [fr2 i hi' (fun j => by fin_cases j; exact hn), fr1 i hi' (fun j => ?_), hv0 i hi]
    fin_cases j
    · exact hn
    · exact fun hb => hP i (blk_of_Has hb) hi

/-- tasks in pairs -/
lemma wp_spawn8 {ts : Fin 8 → Proc K} {k : Proc K} (wa wb : Fin 4 → Win) (ga gb : Fin 4 → ℕ → ℕ → K) (Rs : ℕ → Prop)
    (hWa : ∀ q x, (wa q).Has x → W x ∨ T x) (hWb : ∀ q x, (wb q).Has x → W x ∨ T x) (hR : ∀ x, Rs x → W x ∨ R x ∨ T x)
    (hRa : ∀ q x, Rs x → ¬ (wa q).Has x) (hRb : ∀ q x, Rs x → ¬ (wb q).Has x)
    (haa : ∀ q r, q ≠ r → (wa q).Disj (wa r)) (hbb : ∀ q r, q ≠ r → (wb q).Disj (wb r)) (hab : ∀ q r, (wa q).Disj (wb r))
    (hta : ∀ q : Fin 4, TaskOk (ts ⟨2 * q.1, by omega⟩) (wa q) Rs v (ga q)) (htb : ∀ q : Fin 4, TaskOk (ts ⟨2 * q.1 + 1, by omega⟩) (wb q) Rs v (gb q))
    (hk : ∀ v', (∀ i, W i ∨ R i ∨ T i → (∀ q, ¬ (wa q).Has i) → (∀ q, ¬ (wb q).Has i) → v' i = v i) → (∀ q, Vals (wa q) (ga q) v') → (∀ q, Vals (wb q) (gb q) v') → wp k W R T v' Q) :
    wp (.par 8 ts k) W R T v Q := by
  have ev : ∀ q : Fin 4, (2 * q.1) % 2 = 0 := fun q => by omega
  have od : ∀ q : Fin 4, (2 * q.1 + 1) % 2 ≠ 0 := fun q => by omega
  have ev' : ∀ q : Fin 4, (⟨(2 * q.1) / 2, by omega⟩ : Fin 4) = q := fun q => Fin.ext (by simp only []; omega)
  have od' : ∀ q : Fin 4, (⟨(2 * q.1 + 1) / 2, by omega⟩ : Fin 4) = q := fun q => Fin.ext (by simp only []; omega)
  refine wp_spawn (fun j => if j.1 % 2 = 0 then wa ⟨j.1 / 2, by omega⟩ else wb ⟨j.1 / 2, by omega⟩) (fun j => if j.1 % 2 = 0 then ga ⟨j.1 / 2, by omega⟩ else gb ⟨j.1 / 2, by omega⟩)
    Rs (fun j => ?_) hR (fun j => ?_) (fun j l ne => ?_) (fun j => ?_) ?_
  · split_ifs
    exacts [hWa _, hWb _]
  · split_ifs
    exacts [hRa _, hRb _]
  · have ne' : j.1 ≠ l.1 := fun h => ne (Fin.ext h)
    split_ifs with h1 h2 h2
    · exact haa _ _ (fun e => by have := congrArg Fin.val e; simp only [] at this; omega)
    · exact hab _ _
    · exact (hab _ _).symm
    · exact hbb _ _ (fun e => by have := congrArg Fin.val e; simp only [] at this; omega)
  · split_ifs with h
    · have := hta ⟨j.1 / 2, by omega⟩
      have e : (⟨2 * (j.1 / 2), by omega⟩ : Fin 8) = j := Fin.ext (by simp only []; omega)
      rwa [e] at this
    · have := htb ⟨j.1 / 2, by omega⟩
      have e : (⟨2 * (j.1 / 2) + 1, by omega⟩ : Fin 8) = j := Fin.ext (by simp only []; omega)
      rwa [e] at this
  · intro v' fr vals
    refine hk v' (fun i hi ha hb => fr i hi (fun j => ?_)) (fun q => ?_) (fun q => ?_)
    · split_ifs
      exacts [ha _, hb _]
    · have := vals ⟨2 * q.1, by omega⟩
      simpa only [ev, if_true, ev'] using this
    · have := vals ⟨2 * q.1 + 1, by omega⟩
      simpa only [od, if_false, od'] using this

omit [Field K] [DecidableEq K] in
lemma wp_free4 {P0 P1 P2 P3 n0 n1 n2 n3 : ℕ} {k : Proc K} (f0 : ∀ i, blkAt P0 n0 i → ¬ (W i ∨ R i ∨ T i)) (f1 : ∀ i, blkAt P1 n1 i → ¬ (W i ∨ R i ∨ T i))
    (f2 : ∀ i, blkAt P2 n2 i → ¬ (W i ∨ R i ∨ T i)) (f3 : ∀ i, blkAt P3 n3 i → ¬ (W i ∨ R i ∨ T i)) (d01 : ∀ i, blkAt P0 n0 i → ¬ blkAt P1 n1 i)
    (d02 : ∀ i, blkAt P0 n0 i → ¬ blkAt P2 n2 i) (d03 : ∀ i, blkAt P0 n0 i → ¬ blkAt P3 n3 i) (d12 : ∀ i, blkAt P1 n1 i → ¬ blkAt P2 n2 i)
    (d13 : ∀ i, blkAt P1 n1 i → ¬ blkAt P3 n3 i) (d23 : ∀ i, blkAt P2 n2 i → ¬ blkAt P3 n3 i) (hk : wp k W R T v Q) :
    wp (.free P0 n0 <| .free P1 n1 <| .free P2 n2 <| .free P3 n3 k) W R (fun i => (((T i ∨ blkAt P0 n0 i) ∨ blkAt P1 n1 i) ∨ blkAt P2 n2 i) ∨ blkAt P3 n3 i) v Q := by
  refine wp_free (T := fun i => ((T i ∨ blkAt P1 n1 i) ∨ blkAt P2 n2 i) ∨ blkAt P3 n3 i) (fun i hi => Or.inl (Or.inl (Or.inl (Or.inr hi)))) (fun i hi => ?_) ?_
  · have := f0 i; have := d01 i; have := d02 i; have := d03 i; tauto
  refine wp_free (T := fun i => (T i ∨ blkAt P2 n2 i) ∨ blkAt P3 n3 i) (fun i hi => Or.inl (Or.inl (Or.inr hi))) (fun i hi => ?_) ?_
  · have := f1 i; have := d12 i; have := d13 i; tauto
  refine wp_free (T := fun i => T i ∨ blkAt P3 n3 i) (fun i hi => Or.inl (Or.inr hi)) (fun i hi => ?_) ?_
  · have := f2 i; have := d23 i; tauto
  refine wp_free (T := T) (fun i hi => Or.inr hi) (fun i hi => ?_) hk
  have := f3 i; tauto

theorem pfgemm3D_ok (hg : PGemmOk g) {thr : ℕ} : ∀ {fuel nt : ℕ}, nt < fuel → PGemmOk (pfgemm3D g thr fuel nt) := by
  intro fuel
  induction fuel with
  | zero => intro nt h; omega
  | succ fuel ih =>
    intro nt h c k W R T v Q hp hW hR hk
    unfold pfgemm3D
    refine wp_pfStart hg hp hW hR hk (fun hnt => ?_)
    have hn : ∀ j, ntPart nt 8 j < fuel := fun j => by unfold ntPart; split_ifs <;> omega
    refine wp_alloc (fun P0 v1 hP0 hv1 => ?_)
    refine wp_alloc (fun P1 v2 hP1 hv2 => ?_)
    refine wp_alloc (fun P2 v3 hP2 hv3 => ?_)
    refine wp_alloc (fun P3 v4 hP3 hv4 => ?_)
    have hv : ∀ i, W i ∨ R i ∨ T i → v4 i = v i := by
      intro i hi
      rw [hv4 i, hv3 i, hv2 i, hv1 i hi] <;> tauto
    -- the temporaries
    obtain ⟨tm, rtm⟩ : ∃ f, f = ![c.m / 2, c.m / 2, c.m - c.m / 2, c.m - c.m / 2] := ⟨_, rfl⟩
    obtain ⟨tn, rtn⟩ : ∃ f, f = ![c.n / 2, c.n - c.n / 2, c.n / 2, c.n - c.n / 2] := ⟨_, rfl⟩
    obtain ⟨P, rP⟩ : ∃ f, f = ![P0, P1, P2, P3] := ⟨_, rfl⟩
    have hfresh : ∀ q i, blkAt (P q) (tm q * tn q) i → ¬ (W i ∨ R i ∨ T i) := by
      subst rtm rtn rP
      intro q i hi
      fin_cases q
      · exact hP0 i hi
      · have := hP1 i hi; tauto
      · have := hP2 i hi; tauto
      · have := hP3 i hi; tauto
    have hPd : ∀ q r i, q ≠ r → blkAt (P q) (tm q * tn q) i → ¬ blkAt (P r) (tm r * tn r) i := by
      subst rtm rtn rP
      have h1 := hP1
      have h2 := hP2
      have h3 := hP3
      intro q r i ne hq hr
      fin_cases q <;> fin_cases r <;> simp only [ne_eq, not_true_eq_false] at ne <;>
        first
        | exact ne rfl
        | (have := hP1 i hq; exact this (Or.inr (Or.inr (Or.inr hr))))
        | (have := hP1 i hr; exact this (Or.inr (Or.inr (Or.inr hq))))
        | (have := hP2 i hq; exact this (Or.inr (Or.inr (Or.inr hr))))
        | (have := hP2 i hr; exact this (Or.inr (Or.inr (Or.inr hq))))
        | (have := hP2 i hq; exact this (Or.inr (Or.inr (Or.inl (Or.inr hr)))))
        | (have := hP2 i hr; exact this (Or.inr (Or.inr (Or.inl (Or.inr hq)))))
        | (have := hP3 i hq; exact this (Or.inr (Or.inr (Or.inr hr))))
        | (have := hP3 i hr; exact this (Or.inr (Or.inr (Or.inr hq))))
        | (have := hP3 i hq; exact this (Or.inr (Or.inr (Or.inl (Or.inr hr)))))
        | (have := hP3 i hr; exact this (Or.inr (Or.inr (Or.inl (Or.inr hq)))))
        | (have := hP3 i hq; exact this (Or.inr (Or.inr (Or.inl (Or.inl (Or.inr hr))))))
        | (have := hP3 i hr; exact this (Or.inr (Or.inr (Or.inl (Or.inl (Or.inr hq))))))
    obtain ⟨T4, rT4⟩ : ∃ f : ℕ → Prop, f = fun i => (((T i ∨ blkAt P0 (c.m / 2 * (c.n / 2)) i) ∨ blkAt P1 (c.m / 2 * (c.n - c.n / 2)) i) ∨
      blkAt P2 ((c.m - c.m / 2) * (c.n / 2)) i) ∨ blkAt P3 ((c.m - c.m / 2) * (c.n - c.n / 2)) i := ⟨_, rfl⟩
    have hT4 : ∀ q i, blkAt (P q) (tm q * tn q) i → T4 i := by
      subst rtm rtn rP rT4
      intro q i hi
      fin_cases q
      · exact Or.inl (Or.inl (Or.inl (Or.inr hi)))
      · exact Or.inl (Or.inl (Or.inr hi))
      · exact Or.inl (Or.inr hi)
      · exact Or.inr hi
    have hTT4 : ∀ i, T i → T4 i := fun i hi => by subst rT4; exact Or.inl (Or.inl (Or.inl (Or.inl hi)))
    rw [← rT4]
    have hW4 : ∀ x, c.win.Has x → W x ∨ T4 x := fun x hx => (hW x hx).imp id (hTT4 x)
    have hR4 : ∀ x, c.src x → W x ∨ R x ∨ T4 x := fun x hx => (hR x hx).imp id (Or.imp id (hTT4 x))
    have hdot : ∀ l0 k' i j, i < c.m → j < c.n → l0 + k' ≤ c.k → c.dot v4 l0 k' i j = c.dot v l0 k' i j := fun l0 k' i j hi hj hk' =>
      Call.dot_congr (fun x hx => hv x (hR x hx)) hi hj hk'
    have hq := TilesOk.quads c.m c.n (c.m / 2) (c.n / 2) (by omega) (by omega)
    have hinj : c.win.Inj := Win.Inj_of_le (Or.inl hp.lC)
    have htile : ∀ q x, (Win.tile c.win (quads c.m c.n (c.m / 2) (c.n / 2) q)).Has x → c.win.Has x := fun q x hx => by
      have := hq.le q
      exact Win.sub_Has (W := c.win) (by simp only []; omega) (by simp only []; omega) hx
    refine wp_spawn8 (fun q => Win.tile c.win (quads c.m c.n (c.m / 2) (c.n / 2) q)) (fun q => ⟨P q, tn q, tm q, tn q⟩)
      (fun q i j => (fun i j => c.alpha * c.dot v4 (![0, c.k / 2, c.k / 2, 0] q) (![c.k / 2, c.k - c.k / 2, c.k - c.k / 2, c.k / 2] q) i j + c.beta * v4 (c.win.adr i j))
        ((quads c.m c.n (c.m / 2) (c.n / 2) q).i0 + i) ((quads c.m c.n (c.m / 2) (c.n / 2) q).j0 + j))
      (fun q i j => c.alpha * c.dot v4 (![c.k / 2, 0, 0, c.k / 2] q) (![c.k - c.k / 2, c.k / 2, c.k / 2, c.k - c.k / 2] q)
        ((quads c.m c.n (c.m / 2) (c.n / 2) q).i0 + i) ((quads c.m c.n (c.m / 2) (c.n / 2) q).j0 + j))
      c.src (fun q x hx => hW4 x (htile q x hx)) (fun q x hx => Or.inr (hT4 q x (blk_of_Has hx))) hR4 (fun q x hx hh => hp.dis x hx (htile q x hh))
      (fun q x hx hh => hfresh q x (blk_of_Has hh) (hR x hx)) ?_ (fun q r ne x h1 h2 => hPd q r x ne (blk_of_Has h1) (blk_of_Has h2))
      (fun q r x h1 h2 => hfresh r x (blk_of_Has h2) ((hW x (htile q x h1)).imp id Or.inr)) ?_ ?_ ?_
    · rintro q r ne x ⟨i, hi, j, hj, rfl⟩ ⟨i', hi', j', hj', e⟩
      have h1 := hq.le q
      have h2 := hq.le r
      simp only [Win.tile, Win.sub] at hi hj hi' hj'
      rw [Win.tile, Win.tile, Win.sub_adr, Win.sub_adr] at e
      obtain ⟨e1, e2⟩ := hinj _ (by simp only []; omega) _ (by simp only []; omega) _ (by simp only []; omega) _ (by simp only []; omega) e
      refine ne (hq.disj q r _ _ ⟨⟨Nat.le_add_right _ i, by omega⟩, Nat.le_add_right _ j, by omega⟩ ?_)
      rw [e1, e2]
      exact ⟨⟨Nat.le_add_right _ i', by omega⟩, Nat.le_add_right _ j', by omega⟩
    · intro q
      refine (ih (hn _)).tile (l0 := ![0, c.k / 2, c.k / 2, 0] q) (v := v4)
        (G := fun i j => c.alpha * c.dot v4 (![0, c.k / 2, c.k / 2, 0] q) (![c.k / 2, c.k - c.k / 2, c.k - c.k / 2, c.k / 2] q) i j + c.beta * v4 (c.win.adr i j)) hp ?_ _ (fun _ h => h) ?_ ?_ rfl rfl ?_ ?_ (fun i _ j _ => ?_)
      · fin_cases q <;> refine ⟨rfl, rfl, rfl, rfl, rfl, ?_, ?_, ?_, ?_, ?_⟩ <;> simp [quads] <;> first | omega | ring
      · fin_cases q <;> simp [quads]; ring
      · fin_cases q <;> rfl
      · fin_cases q <;> rfl
      · fin_cases q <;> rfl
      · fin_cases q <;> rfl
    · intro q
      refine ((ih (hn _)).tmp (i0 := (quads c.m c.n (c.m / 2) (c.n / 2) q).i0) (j0 := (quads c.m c.n (c.m / 2) (c.n / 2) q).j0) (l0 := ![c.k / 2, 0, 0, c.k / 2] q) hp ?_ (fun _ h => h) ?_ ?_ ?_
        (fun x hx hh => hfresh q x (blk_of_Has hh) (hR x hx))).congr rfl (fun i _ j _ => ?_)
      · fin_cases q <;> refine ⟨rfl, rfl, rfl, rfl, rfl, ?_, ?_, ?_, ?_, ?_⟩ <;> simp [quads] <;> first | omega | ring
      · fin_cases q <;> rfl
      · fin_cases q <;> exact le_refl _
      · subst rtm rtn rP
        fin_cases q <;> rfl
      · fin_cases q <;> rfl
    intro v5 fr5 valsA valsB
    refine wp_tiles (w := c.win) (Rs := fun x => ∃ q, (Win.mk (P q) (tn q) (tm q) (tn q)).Has x) (G := c.val v) rfl rfl hinj hq hW4
      (fun x ⟨q, hx⟩ => Or.inr (Or.inr (hT4 q x (blk_of_Has hx)))) (fun x ⟨q, hx⟩ hw => hfresh q x (blk_of_Has hx) ((hW x hw).imp id Or.inr)) ?_ ?_
    · intro q
      have key : ∀ C', C' = c.C + (quads c.m c.n (c.m / 2) (c.n / 2) q).i0 * c.ldc + (quads c.m c.n (c.m / 2) (c.n / 2) q).j0 → TaskOk (call (faddin .generic (tm q) (tn q) (P q) (tn q) C' c.ldc) .ret)
          (Win.tile c.win (quads c.m c.n (c.m / 2) (c.n / 2) q))
          (fun x => ∃ q, (Win.mk (P q) (tn q) (tm q) (tn q)).Has x) v5
          (fun i j => c.val v ((quads c.m c.n (c.m / 2) (c.n / 2) q).i0 + i) ((quads c.m c.n (c.m / 2) (c.n / 2) q).j0 + j)) := by
        have hle := hq.le q
        have etm : (quads c.m c.n (c.m / 2) (c.n / 2) q).i1 - (quads c.m c.n (c.m / 2) (c.n / 2) q).i0 = tm q := by subst rtm; fin_cases q <;> rfl
        have etn : (quads c.m c.n (c.m / 2) (c.n / 2) q).j1 - (quads c.m c.n (c.m / 2) (c.n / 2) q).j0 = tn q := by subst rtn; fin_cases q <;> rfl
        have ew : Win.tile c.win (quads c.m c.n (c.m / 2) (c.n / 2) q) = ⟨c.C + (quads c.m c.n (c.m / 2) (c.n / 2) q).i0 * c.ldc + (quads c.m c.n (c.m / 2) (c.n / 2) q).j0, c.ldc, tm q, tn q⟩ := by
          simp only [Win.tile, Win.sub, Win.adr, etm, etn]
        have hlC := hp.lC
        rintro _ rfl
        rw [ew]
        refine add_task ?_ (fun x hx => ⟨q, hx⟩) (fun x h1 h2 => ?_) (le_refl _) (by omega) (fun i hi j hj => ?_)
        · refine ((FinS.has (Win.mk (P 0) (tn 0) (tm 0) (tn 0))).or ((FinS.has (Win.mk (P 1) (tn 1) (tm 1) (tn 1))).or ((FinS.has (Win.mk (P 2) (tn 2) (tm 2) (tn 2))).or
            (FinS.has (Win.mk (P 3) (tn 3) (tm 3) (tn 3)))))).mono ?_
          rintro x ⟨r, hr⟩
          fin_cases r
          · exact Or.inl hr
          · exact Or.inr (Or.inl hr)
          · exact Or.inr (Or.inr (Or.inl hr))
          · exact Or.inr (Or.inr (Or.inr hr))
        · rw [← ew] at h2
          exact hfresh q x (blk_of_Has h1) ((hW x (htile q x h2)).imp id Or.inr)
        · have ea := valsA q i (by rw [ew]; exact hi) j (by rw [ew]; exact hj)
          have eb : v5 (P q + i * tn q + j) = _ := valsB q i hi j hj
          rw [ew] at ea
          have ea : v5 (c.C + (quads c.m c.n (c.m / 2) (c.n / 2) q).i0 * c.ldc + (quads c.m c.n (c.m / 2) (c.n / 2) q).j0 + i * c.ldc + j) = _ := ea
          rw [ea, eb]
          have hi' : (quads c.m c.n (c.m / 2) (c.n / 2) q).i0 + i < c.m := by omega
          have hj' : (quads c.m c.n (c.m / 2) (c.n / 2) q).j0 + j < c.n := by omega
          beta_reduce
          generalize (quads c.m c.n (c.m / 2) (c.n / 2) q).i0 + i = i' at hi' ⊢
          generalize (quads c.m c.n (c.m / 2) (c.n / 2) q).j0 + j = j' at hj' ⊢
          rw [Call.val, show c.dot v 0 c.k i' j' = c.dot v 0 (c.k / 2) i' j' + c.dot v (c.k / 2) (c.k - c.k / 2) i' j' by rw [Call.dot_add]; congr 1; omega,
            ← hdot 0 (c.k / 2) i' j' hi' hj' (by omega), ← hdot (c.k / 2) (c.k - c.k / 2) i' j' hi' hj' (by omega),
            ← hv (c.win.adr i' j') ((hW _ (Win.Has_adr (W := c.win) hi' hj')).imp id Or.inr)]
          fin_cases q <;> simp <;> ring
      subst rtm rtn rP
      fin_cases q
      · exact key c.C (by simp [quads])
      · exact key (c.C + c.n / 2) (by simp [quads])
      · exact key (c.C + c.m / 2 * c.ldc) (by simp [quads])
      · exact key (c.C + c.n / 2 + c.m / 2 * c.ldc) (by simp [quads]; ring)
    intro v6 fr6 vals6
    have hfin : wp k W R T v6 Q := by
      refine hk v6 (fun i hi hn => ?_) vals6
      have hi' : W i ∨ R i ∨ T4 i := hi.imp id (Or.imp id (hTT4 i))
      rw [fr6 i hi' hn, fr5 i hi' (fun q hh => hn (htile q i hh)) (fun q hh => hfresh q i (blk_of_Has hh) hi), hv i hi]
    subst rT4 rtm rtn rP
    exact wp_free4 (hfresh 0) (hfresh 1) (hfresh 2) (hfresh 3) (fun i => hPd 0 1 i (by decide)) (fun i => hPd 0 2 i (by decide)) (fun i => hPd 0 3 i (by decide))
      (fun i => hPd 1 2 i (by decide)) (fun i => hPd 1 3 i (by decide)) (fun i => hPd 2 3 i (by decide)) hfin

end Verif.Par
