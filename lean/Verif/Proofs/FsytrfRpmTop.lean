import Verif.Proofs.FsytrfRpmLoop
import Verif.Proofs.BruhatRank

/-!
# `fsytrf_RPM`: rank profile matrix, index array, scaling
-/

namespace Verif.FF

open Finset Verif.Perm Verif.Spec Verif.Spec.Perm

variable {K : Type} [Field K]

section
variable {N rank : ℕ} {S u : ℕ → ℕ → K} {σ mate : ℕ → ℕ} {y : ℕ → K}

/-- rank of every leading block -/
theorem RpmI.rk_eq (h : RpmI N S N rank σ mate u y) {a b : ℕ} (ha : a ≤ N) (hb : b ≤ N) :
    rk S a b = ((range rank).filter (fun l => σ l < a ∧ σ (mate l) < b)).card := by
  have hle := h.le1
  have surj : ∀ x, ∃ i, x < N → i < N ∧ σ i = x := fun x => by
    by_cases hx : x < N
    · have : Set.SurjOn σ (range N : Set ℕ) (range N : Set ℕ) := by
        refine Finset.surjOn_of_injOn_of_card_le σ (fun i hi => ?_) (fun i hi j hj e => ?_) le_rfl
        · have hi : i < N := by simpa using hi
          simpa using h.lt i hi
        · exact h.inj i (by simpa using hi) j (by simpa using hj) e
      obtain ⟨i, hi, e⟩ := this (show x ∈ (range N : Set ℕ) by simpa using hx)
      exact ⟨i, fun _ => ⟨by simpa using hi, e⟩⟩
    · exact ⟨0, fun q => absurd q hx⟩
  choose s hs using surj
  have sσ : ∀ i < N, s (σ i) = i := fun i hi => h.inj _ (hs _ (h.lt i hi)).1 _ hi (hs _ (h.lt i hi)).2
  generalize hP : (range rank).filter (fun l => σ l < a ∧ σ (mate l) < b) = P
  have mem : ∀ {k}, k ∈ P ↔ k < rank ∧ σ k < a ∧ σ (mate k) < b := by intro k; rw [← hP]; simp
  let L : Matrix (Fin a) P K := fun x k => u k (s x)
  let U : Matrix P (Fin b) K := fun k z => y k * u (mate k) (s z)
  have e : toMat a b S = L * U := by
    ext x z
    have hx := x.2
    have hz := z.2
    obtain ⟨x1, x2⟩ := hs x (by omega)
    obtain ⟨z1, z2⟩ := hs z (by omega)
    rw [Matrix.mul_apply, toMat_apply]
    show _ = ∑ k : P, u k (s x) * (y k * u (mate k) (s z))
    rw [Finset.sum_coe_sort P (fun k => u k (s x) * (y k * u (mate k) (s z)))]
    have := h.ex _ x1 _ z1
    rw [x2, z2] at this
    rw [this, qf]
    refine (Finset.sum_subset (fun k hk => mem_range.2 (mem.1 hk).1) (fun k hk hk' => ?_)).symm
    have hk := mem_range.1 hk
    by_cases c : u k (s x) = 0
    · rw [c, zero_mul]
    · by_cases c' : u (mate k) (s z) = 0
      · rw [c', mul_zero, mul_zero]
      · exfalso
        have g1 := h.sup k hk _ x1 c
        have g2 := h.sup _ (h.mlt k hk) _ z1 c'
        exact hk' (mem.2 ⟨hk, by omega, by omega⟩)
  refine le_antisymm ?_ ?_
  · rw [rk, e]
    refine (Matrix.rank_mul_le_left L U).trans ((Matrix.rank_le_card_width L).trans ?_)
    simp
  · let f : P → Fin a := fun k => ⟨σ k, (mem.1 k.2).2.1⟩
    let g : P → Fin b := fun k => ⟨σ (mate k), (mem.1 k.2).2.2⟩
    have lt : ∀ k : P, (k : ℕ) < rank := fun k => (mem.1 k.2).1
    have e2 : (toMat a b S).submatrix f g = L.submatrix f id * U.submatrix id g := by
      rw [e, Matrix.submatrix_mul _ _ f id g Function.bijective_id]
    have dL : (L.submatrix f id).det = ∏ k : P, u k k := by
      rw [Matrix.det_of_lowerTriangular]
      · refine Finset.prod_congr rfl (fun k _ => ?_)
        show u k (s (σ k)) = _
        rw [sσ _ (by have := lt k; omega)]
      · intro i j hij
        have hij : (i : ℕ) < j := by simpa using hij
        show u j (s (σ i)) = 0
        rw [sσ _ (by have := lt i; omega)]
        exact h.tri _ (lt j) _ hij
    have dU : (U.submatrix id g).det ≠ 0 := by
      let P' : Finset ℕ := P.image mate
      have hm : ∀ k ∈ P', k < rank ∧ mate k ∈ P := fun k hk => by
        obtain ⟨l, hl, rfl⟩ := Finset.mem_image.1 hk
        have := (mem.1 hl).1
        exact ⟨h.mlt l this, by rw [h.minv l this]; exact hl⟩
      let E : P ≃ P' := ⟨fun k => ⟨mate k, Finset.mem_image_of_mem _ k.2⟩, fun k => ⟨mate k, (hm k k.2).2⟩, fun k => Subtype.ext (h.minv k (lt k)),
        fun k => Subtype.ext (h.minv k (hm k k.2).1)⟩
      let T : Matrix P' P' K := fun i j => y i * u i j
      have eT : U.submatrix id g = T.submatrix E E := by
        ext i j
        show y i * u (mate i) (s (σ (mate j))) = y (mate i) * u (mate i) (mate j)
        rw [sσ _ (by have := h.mlt _ (lt j); omega), h.ym (lt i)]
      rw [eT, Matrix.det_submatrix_equiv_self, Matrix.det_of_upperTriangular]
      · rw [Finset.prod_ne_zero_iff]
        intro k _
        have hk := (hm k k.2).1
        show y k * u k k ≠ 0
        rw [h.yv _ hk]
        exact mul_ne_zero (inv_ne_zero (h.nz _ hk)) (h.nz _ hk)
      · intro i j hij
        have hij : (j : ℕ) < i := by simpa using hij
        show y i * u i j = 0
        rw [h.tri _ (hm i i.2).1 _ hij, mul_zero]
    have hdet : ((toMat a b S).submatrix f g).det ≠ 0 := by
      rw [e2, Matrix.det_mul, dL]
      exact mul_ne_zero (Finset.prod_ne_zero_iff.2 (fun k _ => h.nz _ (lt k))) dU
    have := Matrix.rank_of_det_ne_zero hdet
    rw [Fintype.card_coe] at this
    rw [← this]
    exact Matrix.rank_submatrix_le _ f g

end

variable [DecidableEq K]
variable {m0 m : Mem K} {V Y : ℕ → ℕ → K} {N A lda D : ℕ}

/-- the marks in the index array -/
lemma rpmMark_spec {tb : Arr Bool} {mate : ℕ → ℕ} {rank : ℕ} (hF : Flags rank tb mate) (htb : rank ≤ tb.len) : ∀ fuel i (P Q : Arr ℕ), BlockCut mate i → i ≤ rank → rank ≤ fuel + i →
    rank ≤ P.len → Q.len = P.len → (∀ l, Q.get l = if l < i ∧ mate l ≠ l then negCode (P.get l) else P.get l) →
    Ok (rpmMark tb rank fuel i Q) (fun R => R.len = P.len ∧ ∀ l, R.get l = if l < rank ∧ mate l ≠ l then negCode (P.get l) else P.get l) := by
  intro fuel
  induction fuel with
  | zero =>
    intro i P Q _ h1 h2 h3 h4 h5
    unfold rpmMark
    obtain rfl : i = rank := by omega
    rw [if_neg (by omega)]
    exact ⟨_, rfl, h4, h5⟩
  | succ fuel ih =>
    intro i P Q hc h1 h2 h3 h4 h5
    unfold rpmMark
    by_cases c : i < rank
    · rw [if_pos c, Ok_bind, Ok_rd]
      refine ⟨by omega, ?_⟩
      by_cases ht : tb.get i = true
      · obtain ⟨e1, e2, e3, e4⟩ := hF.two c hc ht
        rw [if_pos ht]
        simp only [Ok_bind, Ok_rd, Ok_wr]
        refine ⟨by omega, by omega, by omega, by omega, ?_⟩
        refine ih (i + 2) P _ e4 (by omega) (by omega) h3 h4 (fun l => ?_)
        show Function.update (Function.update Q.get i _) (i + 1) _ l = _
        by_cases q1 : l = i + 1
        · subst q1
          rw [Function.update_self, if_pos (by omega)]
          show negCode (Function.update Q.get i _ (i + 1)) = _
          rw [Function.update_of_ne (by omega), h5, if_neg (by omega)]
        · rw [Function.update_of_ne q1]
          by_cases q2 : l = i
          · subst q2
            rw [Function.update_self, if_pos (by omega), h5, if_neg (by omega)]
          · rw [Function.update_of_ne q2, h5]
            by_cases q3 : l < i ∧ mate l ≠ l
            · rw [if_pos q3, if_pos (by omega)]
            · rw [if_neg q3, if_neg (by omega)]
      · obtain ⟨e1, e2⟩ := hF.one c hc (by simpa using ht)
        rw [if_neg ht]
        refine ih (i + 1) P Q e2 (by omega) (by omega) h3 h4 (fun l => ?_)
        rw [h5]
        by_cases q3 : l < i ∧ mate l ≠ l
        · rw [if_pos q3, if_pos (by omega)]
        · by_cases q : l = i
          · subst q; rw [if_neg q3, if_neg (by omega)]
          · rw [if_neg q3, if_neg (by omega)]
    · obtain rfl : i = rank := by omega
      rw [if_neg (by omega)]
      exact ⟨_, rfl, h4, h5⟩

/-- the symmetric matrix given by its upper triangle -/
def symU (V : ℕ → ℕ → K) (i j : ℕ) : K := V (min i j) (max i j)

omit [Field K] [DecidableEq K] in
lemma symU_symm (V : ℕ → ℕ → K) (i j : ℕ) : symU V i j = symU V j i := by
  unfold symU
  rw [min_comm, max_comm]

/-- what the base case leaves in memory and in the index array -/
structure RpmOut (N : ℕ) (S : ℕ → ℕ → K) (r : ℕ) (P : Arr ℕ) (mate : ℕ → ℕ) (L : ℕ → ℕ) (u : ℕ → ℕ → K) (y : ℕ → K) (V Y : ℕ → ℕ → K) : Prop where
  I : RpmI N S N r (fun i => ofSwaps L N i) mate u y
  plen : P.len = N
  tr : IsTranspArray L N
  P : ∀ l < N, P.get l = if l < r ∧ mate l ≠ l then negCode (L l) else L l
  Vu : ∀ l < r, ∀ j, l ≤ j → j < N → V l j = u l j
  V0 : ∀ i j, r ≤ i → i < N → r ≤ j → j < N → V i j = 0
  Yy : ∀ l < r, Y l 0 = y l

lemma RpmI.of_eq {N row rank : ℕ} {S u : ℕ → ℕ → K} {σ σ' mate : ℕ → ℕ} {y : ℕ → K} (h : RpmI N S row rank σ mate u y) (e : ∀ i < N, σ i = σ' i) :
    RpmI N S row rank σ' mate u y := by
  have h1 := h.le1
  have h2 := h.le2
  refine ⟨h1, h2, fun i hi => by rw [← e i hi]; exact h.lt i hi, fun i hi j hj q => h.inj i hi j hj (by rw [e i hi, e j hj, q]),
    fun i j a1 a2 a3 => by rw [← e i (by omega), ← e j a3]; exact h.mono i j a1 a2 a3, h.mlt, h.minv, h.mnear,
    fun i hi j hj => by rw [← e i (by omega), ← e j hj]; exact h.ex i hi j hj, h.nz, h.yv, h.dm, h.tri,
    fun l hl j hj q => by rw [← e l (by omega), ← e j hj]; exact h.sup l hl j hj q⟩

lemma fsytrfUpRpmBC_spec (cat : Cat) (h2 : (2 : K) ≠ 0) (junk0 junk2 junk3 : ℕ → ℕ) (junk1 : ℕ → Bool) {P : Arr ℕ} (hP : P.len = N)
    (h : On2 m0 m ⟨A, lda, N, N⟩ V (vw D 1 N) Y) :
    Run (fsytrfUpRpmBC cat copyMove junk0 junk2 junk3 junk1 N A lda D 1 P) m (fun r m' => ∃ mate L u y V' Y',
      On2 m0 m' ⟨A, lda, N, N⟩ V' (vw D 1 N) Y' ∧ RpmOut N (symU V) r.1 r.2 mate L u y V' Y') := by
  unfold fsytrfUpRpmBC
  rw [Run_bind, Run_liftE]
  refine (Ok_fill N (fun t => t) (fun t => .ok t) (fun t => t) (Arr.mk' N junk0) (fun _ _ => rfl) (fun t ht => ht) (fun _ _ _ _ q => q)).mono ?_
  rintro M ⟨lM, gM, -⟩
  rw [Run_bind, Run_liftE]
  refine (Ok_fill N (fun t => t) (fun t => .ok false) (fun t => false) (Arr.mk' N junk1) (fun _ _ => rfl) (fun t ht => ht) (fun _ _ _ _ q => q)).mono ?_
  rintro tb ⟨lT, gT, -⟩
  have I0 : RpmInv N (symU V) 0 ⟨0, M, tb⟩ (fun i => i) (fun i => i) (fun _ _ => 0) (fun _ => 0) V Y := by
    refine ⟨⟨le_rfl, by omega, fun i hi => hi, fun i _ j _ q => q, fun i j _ q _ => q, ?_, ?_, ?_, ?_, ?_, ?_, ?_, ?_, ?_⟩, lM, lT, gM, ?_, fun l _ hl => gT l hl, ?_,
      fun i j _ h1 h2 => ?_, ?_⟩
    all_goals try (intro l hl; exact absurd hl (Nat.not_lt_zero _))
    unfold symU
    rw [min_eq_left h1, max_eq_right h1]
  rw [Run_bind]
  refine (rpmLoop_spec cat h2 (symU_symm V) N 0 _ m V Y _ _ _ _ (by omega) h I0).mono ?_
  rintro s m1 ⟨V1, Y1, σ, mate, u, y, g1, J⟩
  have hle := J.I.le1
  rw [Run_bind, Run_liftE]
  have hperm : IsPermArray s.P.get N := ⟨fun i hi => by rw [J.P i hi]; exact J.I.lt i hi, fun i hi j hj q => J.I.inj i hi j hj (by rw [← J.P i hi, ← J.P j hj, q])⟩
  refine (MathPerm2LAPACKPerm_spec N P s.P junk2 junk3 hP J.plen hperm).mono ?_
  rintro L ⟨lL, tL, eL⟩
  rw [Run_bind, Run_liftE]
  refine (rpmMark_spec J.F (by rw [J.tlen]; exact hle) N 0 L L (fun l hl => absurd hl (Nat.not_lt_zero _)) (by omega) (by omega) (by omega) rfl (fun l => by
    rw [if_neg (by omega)])).mono ?_
  rintro R ⟨lR, gR⟩
  rw [Run_bind]
  have kz := fzero_on g1.left s.rank s.rank (N - s.rank) (N - s.rank) (by show s.rank + (N - s.rank) ≤ N; omega) (by show s.rank + (N - s.rank) ≤ N; omega)
    (B := A + s.rank * (1 + lda)) (by simp only [Win.adr]; ring)
  refine (g1.runW kz).mono (fun _ m2 g2 => ?_)
  rw [Run_pure]
  refine ⟨mate, L.get, u, y, _, Y1, g2, J.I.of_eq (fun i hi => by rw [← J.P i hi, eL i hi]), lR.trans lL, tL, fun l _ => gR l, fun l hl j h1 h2 => ?_, fun i j h1 h2 h3 h4 => ?_, J.Yy⟩
  · rw [upd_out (by omega), J.Vu l hl j h1 h2]
  · rw [upd_in' (by omega)]

/-- the rows scaled by the inverses of the pivots -/
lemma rpmScal_spec (cat : Cat) (h : On2 m0 m ⟨A, lda, N, N⟩ V (vw D 1 N) Y) :
    Run (loop N fun i => do
      let d ← load (D + i)
      vscalin cat (N - i - 1) d (A + i * (lda + 1) + sytInc .upper lda) (sytInc .upper lda)) m (fun _ m' =>
        On2 m0 m' ⟨A, lda, N, N⟩ (fun i j => if i < j then Y i 0 * V i j else V i j) (vw D 1 N) Y) := by
  refine (Run_loop (fun t m' => On2 m0 m' ⟨A, lda, N, N⟩ (fun i j => if i < t ∧ i < j then Y i 0 * V i j else V i j) (vw D 1 N) Y) ?_ ?_).mono (fun _ m' h' => ?_)
  · exact h.congrW (fun i _ j _ => by rw [if_neg (by omega)])
  · intro i m' hi h'
    have eD : D + i = (vw D 1 N).adr i 0 := by simp only [Win.adr, vw]; ring
    have eA : A + i * (lda + 1) + sytInc .upper lda = (Win.mk A lda N N).adr i (i + 1) := by simp only [Win.adr, sytInc]; ring
    rw [Run_bind, Run_load, eD, eA]
    refine ⟨h'.right.okc hi Nat.one_pos, ?_⟩
    rw [h'.right.val hi Nat.one_pos]
    have hW := h'.left
    have k := vscalin_spec cat (Y i 0) hW.wf' (hW.vw_row hi (show i + 1 + (N - i - 1) ≤ N by omega)) Nat.one_pos
    refine (h'.runW (V' := fun a b => if a < i + 1 ∧ a < b then Y a 0 * V a b else V a b) (k.mono (fun _ m2 s => ?_)))
    refine (hW.rowStep (g := fun t => Y i 0 * V i (i + 1 + t)) hi (show i + 1 + (N - i - 1) ≤ N by omega) (s.congr (fun t ht z hz => ?_))).congr (fun a ha b hb => ?_)
    · have ht : t < N - i - 1 := ht
      rw [Nat.mul_one, Win.adr_add_col, hW.val hi (show i + 1 + t < N by omega), if_neg (by omega)]
    · have hb : b < N := hb
      by_cases q : a = i ∧ i + 1 ≤ b
      · rw [upd_in' (by omega), if_pos (by omega), q.1, show i + 1 + (b - (i + 1)) = b by omega]
      · rw [upd_out (by omega)]
        by_cases q' : a < i ∧ a < b
        · rw [if_pos q', if_pos (by omega)]
        · rw [if_neg q', if_neg (by omega)]
  · refine h'.congrW (fun i hi j _ => ?_)
    have hi : i < N := hi
    by_cases q : i < j
    · rw [if_pos ⟨hi, q⟩, if_pos q]
    · rw [if_neg (by omega), if_neg q]

theorem fsytrfRpm_spec (cat : Cat) (h2 : (2 : K) ≠ 0) (junk0 junk2 junk3 : ℕ → ℕ) (junk1 : ℕ → Bool) {P : Arr ℕ} (hP : P.len = N)
    (h : On m0 m ⟨A, lda, N, N⟩ V) :
    Run (fsytrfRpm cat copyMove junk0 junk2 junk3 junk1 .upper N A lda P) m (fun r m' => ∃ mate L u y V' Y', On m0 m' ⟨A, lda, N, N⟩
        (fun i j => if i < j then Y' i 0 * V' i j else V' i j) ∧ RpmOut N (symU V) r.1 r.2 mate L u y V' Y') := by
  unfold fsytrfRpm
  rw [Run_bind, Run_alloc]
  change Run _ (m.grow N) _
  obtain ⟨Y, h'⟩ := On2.start (r := N) (c := 1) h
  rw [Nat.mul_one] at h'
  rw [Run_bind]
  refine (fsytrfUpRpmBC_spec (D := m.next) cat h2 junk0 junk2 junk3 junk1 hP h').mono ?_
  rintro r m1 ⟨mate, L, u, y, V', Y', g, o⟩
  rw [Run_bind]
  refine (rpmScal_spec cat g).mono (fun _ m2 g2 => ?_)
  rw [Run_bind, Run_free, Run_pure]
  refine ⟨mate, L, u, y, V', Y', ?_, o⟩
  have := On2.stop (r := N) (c := 1) h (by rw [Nat.mul_one]; exact g2)
  rwa [Nat.mul_one] at this

/-! ### `getTridiagonal` -/

lemma tridiagLoop_spec {mate : ℕ → ℕ} {R N A lda T ldt : ℕ} {P : Arr ℕ} {X : ℕ → ℕ → K} (hF : Flags R ⟨R, fun l => intNeg (P.get l)⟩ mate) (hR : R ≤ N) (hP : N ≤ P.len)
    (hS : Src m0 ⟨A, lda, N, N⟩ X) (hd : (Win.mk A lda N N).Disj ⟨T, ldt, N, N⟩)
    (hX : ∀ l < R, X (mate l) (mate l) = X l l) : ∀ fuel i m, BlockCut mate i → i ≤ R → R ≤ fuel + i →
    On m0 m ⟨T, ldt, N, N⟩ (fun a b => if a < i ∧ mate a = b then X a a else 0) →
    Run (tridiagLoop A lda T ldt R P fuel i) m (fun _ m' => On m0 m' ⟨T, ldt, N, N⟩ (fun a b => if a < R ∧ mate a = b then X a a else 0)) := by
  intro fuel
  induction fuel with
  | zero =>
    intro i m _ h1 h2 h
    unfold tridiagLoop
    obtain rfl : i = R := by omega
    rw [if_neg (by omega), Run_pure]
    exact h
  | succ fuel ih =>
    intro i m hc h1 h2 h
    unfold tridiagLoop
    by_cases c : i < R
    · have ea : A + i * (lda + 1) = (Win.mk A lda N N).adr i i := by simp only [Win.adr]; ring
      have hi : i < N := by omega
      rw [if_pos c, Run_bind, Run_liftE, Ok_rd]
      refine ⟨by omega, ?_⟩
      by_cases ht : intNeg (P.get i) = true
      · obtain ⟨e1, e2, e3, e4⟩ := hF.two c hc ht
        have t1 : T + i * (ldt + 1) + 1 = (Win.mk T ldt N N).adr i (i + 1) := by simp only [Win.adr]; ring
        have t2 : T + i * (ldt + 1) + ldt = (Win.mk T ldt N N).adr (i + 1) i := by simp only [Win.adr]; ring
        have hi1 : i + 1 < N := by omega
        rw [if_pos ht, ea, t1, t2]
        simp only [Run_bind, Run_load, Run_store]
        have g1 := h.set (x := X i i) (i := i) (j := i + 1) hi hi1
        have g2 := g1.set (x := X i i) (i := i + 1) (j := i) hi1 hi
        rw [(hS.on h hd).val i hi i hi]
        refine ⟨(hS.on h hd).ok.adr hi hi, h.okc hi hi1, (hS.on g1 hd).ok.adr hi hi, g1.okc hi1 hi, ?_⟩
        rw [(hS.on g1 hd).val i hi i hi]
        refine ih (i + 2) _ e4 (by omega) (by omega) (g2.congr (fun a _ b _ => ?_))
        by_cases q1 : a = i
        · subst q1
          rw [upd_out (by omega)]
          by_cases q2 : b = a + 1
          · subst q2
            rw [upd_in' (by omega), if_pos ⟨by omega, e1⟩]
          · rw [upd_out (by omega), if_neg (by omega), if_neg (by omega)]
        · by_cases q3 : a = i + 1
          · subst q3
            by_cases q2 : b = i
            · subst q2
              rw [upd_in' (by omega), if_pos ⟨by omega, e2⟩, ← hX b c, e1]
            · rw [upd_out (by omega), upd_out (by omega), if_neg (by omega), if_neg (by omega)]
          · rw [upd_out (by omega), upd_out (by omega)]
            by_cases q4 : a < i ∧ mate a = b
            · rw [if_pos q4, if_pos (by omega)]
            · rw [if_neg q4, if_neg (by omega)]
      · obtain ⟨e1, e2⟩ := hF.one c hc (by simpa using ht)
        have t1 : T + i * (ldt + 1) = (Win.mk T ldt N N).adr i i := by simp only [Win.adr]; ring
        rw [if_neg ht, ea, t1]
        simp only [Run_bind, Run_load, Run_store]
        rw [(hS.on h hd).val i hi i hi]
        refine ⟨(hS.on h hd).ok.adr hi hi, h.okc hi hi, ih (i + 1) _ e2 (by omega) (by omega) ((h.set hi hi).congr (fun a _ b _ => ?_))⟩
        by_cases q1 : a = i ∧ b = i
        · obtain ⟨rfl, rfl⟩ := q1
          rw [upd_in' (by omega), if_pos ⟨by omega, e1⟩]
        · rw [upd_out (by omega)]
          by_cases q4 : a < i ∧ mate a = b
          · rw [if_pos q4, if_pos (by omega)]
          · rw [if_neg q4, if_neg]
            rintro ⟨h3, h4⟩
            have : a = i := by omega
            subst this
            omega
    · obtain rfl : i = R := by omega
      rw [if_neg c, Run_pure]
      exact h

lemma getTridiagonal_spec {mate : ℕ → ℕ} {R N A lda T ldt : ℕ} {P : Arr ℕ} {X V : ℕ → ℕ → K} (hF : Flags R ⟨R, fun l => intNeg (P.get l)⟩ mate) (hR : R ≤ N) (hP : N ≤ P.len)
    (hS : Src m0 ⟨A, lda, N, N⟩ X) (hd : (Win.mk A lda N N).Disj ⟨T, ldt, N, N⟩) (hX : ∀ l < R, X (mate l) (mate l) = X l l) (h : On m0 m ⟨T, ldt, N, N⟩ V) :
    Run (getTridiagonal N R A lda P T ldt) m (fun _ m' => On m0 m' ⟨T, ldt, N, N⟩ (fun a b => if a < R ∧ mate a = b then X a a else 0)) := by
  unfold getTridiagonal
  rw [Run_bind]
  refine (fzero_on h 0 0 N N (by simp) (by simp) (by simp [Win.adr])).mono (fun _ m1 h1 => ?_)
  exact tridiagLoop_spec hF hR hP hS hd hX R 0 m1 (fun l hl => absurd hl (by omega)) (by omega) (by omega)
    (h1.congr (fun a ha b hb => by rw [upd_in' ⟨by omega, by simpa using ha, by omega, by simpa using hb⟩, if_neg (by omega)]))

end Verif.FF
