import Verif.Proofs.MultiPrec

/-!
# Proofs: products of integer matrices by residues
-/

namespace Verif.MP

open Verif.RNS Verif.FF Verif.Lazy Finset

lemma ends_of_le {P r c e : ℕ} (h : P + r * c ≤ e) : (⟨P, c, r, c⟩ : Win).Ends e := by
  unfold Win.Ends
  rcases Nat.eq_zero_or_pos r with hr | hr
  · exact Or.inl hr
  · right; right
    obtain ⟨r, rfl⟩ := Nat.exists_eq_succ_of_ne_zero hr.ne'
    simp only [Nat.succ_eq_add_one, Nat.add_sub_cancel] at *
    have : (r + 1) * c = r * c + c := by ring
    omega

lemma resMem_val (p : ℕ) (l : List ℤ) (i : ℕ) : (resMem p l).val i = ((l.getD i 0 : ℤ) : ZMod p) := by
  simp only [resMem, memOf, List.getD_eq_getElem?_getD, List.getElem?_map]
  cases l[i]? <;> simp

lemma idx_lt {i j r c : ℕ} (hi : i < r) (hj : j < c) : i * c + j < r * c := by have := lin_lt hj hi; omega

/-- the products that the routine for the prime `p` is asked for do not exceed the 53 bits of a double -/
def GemmFamOk (gs : GemmFam) (k : ℕ) : Prop :=
  ∀ (p : ℕ) [Fact p.Prime], k * (p - 1) ^ 2 < 2 ^ 53 → ∀ ta tb m n, GemmAt (gs p) ta tb m n k

lemma gemmMod_spec {gs : GemmFam} {p : ℕ} (hp : p.Prime) {ta tb : Tr} {m n k : ℕ} (hg : haveI : Fact p.Prime := ⟨hp⟩; GemmAt (gs p) ta tb m n k)
    (al : ℤ) {a b c : List ℤ} (la : a.length = opr ta m k * opc ta m k) (lb : b.length = opr tb k n * opc tb k n) (lc : c.length = m * n)
    (alpha : ℤ) (hal : (al : ZMod p) = alpha) (fa fb : ℕ → ℕ → ℤ)
    (ha : ∀ i < opr ta m k, ∀ j < opc ta m k, ((a.getD (i * opc ta m k + j) 0 : ℤ) : ZMod p) = fa i j)
    (hb : ∀ i < opr tb k n, ∀ j < opc tb k n, ((b.getD (i * opc tb k n + j) 0 : ℤ) : ZMod p) = fb i j) :
    Ok (gemmMod gs p ta tb m n k al a (opc ta m k) b (opc tb k n) 0 c n) (fun l => l.length = m * n ∧
      ∀ i < m, ∀ j < n, l.getD (i * n + j) 0 = (alpha * Spec.mul k (Spec.op ta fa) (Spec.op tb fb) i j) % p) := by
  haveI : Fact p.Prime := ⟨hp⟩
  have dC : ∀ W : Win, W.Ends (a.length + b.length) → W.Disj ⟨a.length + b.length, n, m, n⟩ := fun W h => Win.Ends.disj h
  have eA : (aw ta m k 0 (opc ta m k)).Ends a.length := ends_of_le (by omega)
  have eB : (aw tb k n a.length (opc tb k n)).Ends (a.length + b.length) := ends_of_le (by omega)
  have eA' : (aw ta m k 0 (opc ta m k)).Ends (a.length + b.length) := ends_of_le (by omega)
  have run := hg (resMem p (a ++ b ++ c)) (al : ZMod p) 0 (opc ta m k) a.length (opc tb k n) ((0 : ℤ) : ZMod p) (a.length + b.length) n
    ⟨WF_memOf _, OkIn_memOf (ends_of_le (by simp only [List.length_map, List.length_append]; omega)),
      OkIn_memOf (ends_of_le (by simp only [List.length_map, List.length_append]; omega)),
      OkIn_memOf (ends_of_le (by simp only [List.length_map, List.length_append]; omega)), le_rfl, le_rfl, le_rfl, dC _ eA', dC _ eB⟩
  obtain ⟨u, m', e, st⟩ := run
  unfold gemmMod
  rw [dif_pos hp]
  simp only [e, Ok_ok]
  refine ⟨by simp [lc], fun i hi j hj => ?_⟩
  have hlt := idx_lt hi hj
  have h1 : m'.val (a.length + b.length + (i * n + j)) = gval (resMem p (a ++ b ++ c)) ta tb m n k (al : ZMod p) 0 (opc ta m k) a.length (opc tb k n)
      ((0 : ℤ) : ZMod p) (a.length + b.length) n i j := by
    rw [← Nat.add_assoc]; exact st.val i hi j hj
  have h2 : ((List.range c.length).map (fun i => ((m'.val (a.length + b.length + i)).val : ℤ))).getD (i * n + j) 0 =
      ((m'.val (a.length + b.length + (i * n + j))).val : ℤ) := by
    rw [List.getD_eq_getElem?_getD, List.getElem?_map, List.getElem?_range (by omega)]
    rfl
  rw [h2, h1, ← ZMod.val_intCast]
  congr 2
  unfold gval
  rw [Int.cast_zero, zero_mul, add_zero, hal, Int.cast_mul]
  congr 1
  unfold Spec.mul
  rw [Int.cast_sum]
  refine sum_congr rfl (fun l hl => ?_)
  rw [mem_range] at hl
  rw [Int.cast_mul]
  have gA : ∀ x < opr ta m k, ∀ y < opc ta m k, (resMem p (a ++ b ++ c)).mat (aw ta m k 0 (opc ta m k)) x y = (fa x y : ZMod p) := by
    intro x hx y hy
    have hxy := idx_lt hx hy
    rw [← ha x hx y hy]
    change (resMem p (a ++ b ++ c)).val (0 + x * opc ta m k + y) = _
    rw [resMem_val, Nat.zero_add, List.append_assoc]
    simp only [List.getD_eq_getElem?_getD]
    rw [List.getElem?_append_left (by omega)]
  have gB : ∀ x < opr tb k n, ∀ y < opc tb k n, (resMem p (a ++ b ++ c)).mat (aw tb k n a.length (opc tb k n)) x y = (fb x y : ZMod p) := by
    intro x hx y hy
    have hxy := idx_lt hx hy
    rw [← hb x hx y hy]
    change (resMem p (a ++ b ++ c)).val (a.length + x * opc tb k n + y) = _
    rw [resMem_val, List.append_assoc, Nat.add_assoc]
    simp only [List.getD_eq_getElem?_getD]
    rw [List.getElem?_append_right (by omega), Nat.add_sub_cancel_left, List.getElem?_append_left (by omega)]
  congr 1
  · cases ta
    · exact gA i hi l hl
    · exact gA l hl i hi
  · cases tb
    · exact gB l hl j hj
    · exact gB j hj l hl

lemma writeRow_spec (A : Arr ℤ) (off : ℕ) (l : List ℤ) (h : off + l.length ≤ A.len) :
    Ok (writeRow A off l) (fun B => B.len = A.len ∧ (∀ i < l.length, B.get (off + i) = l.getD i 0) ∧
      ∀ x, (x < off ∨ off + l.length ≤ x) → B.get x = A.get x) := by
  unfold writeRow
  refine (Ok_fill l.length (fun i => off + i) (fun i => .ok (l.getD i 0)) (fun i => l.getD i 0) A (fun _ _ => rfl) (fun t ht => by omega)
    (fun s _ t _ e => by omega)).mono ?_
  rintro B ⟨h1, h2, h3⟩
  exact ⟨h1, h2, fun x hx => h3 x (fun t ht e => by omega)⟩

lemma readRow_one (A : Arr ℤ) (off n : ℕ) (h : off + n ≤ A.len) :
    Ok (readRow A off 1 n) (fun l => l.length = n ∧ ∀ i < n, l.getD i 0 = A.get (off + i)) := by
  rw [readRow_ok A off 1 n (fun l hl => by omega)]
  simp only [Ok_ok]
  refine ⟨by simp, fun i hi => ?_⟩
  rw [List.getD_eq_getElem?_getD, List.getElem?_map, List.getElem?_range hi]
  simp

lemma rnsGemm_spec {gs : GemmFam} {R : Rns} {bound pbits : ℕ} (h : Good R bound pbits) {ta tb : Tr} {m n k : ℕ} (hg : GemmFamOk gs k)
    (hk : ∀ t < R.size, k * (R.basis t - 1) ^ 2 < 2 ^ 53) {alp Ap Bp bep Cp : Arr ℤ} {alpha : ℤ} {fa fb : ℕ → ℕ → ℤ}
    (hal : alp.len = R.size ∧ ∀ t < R.size, alp.get t = alpha % R.basis t) (hbe : bep.len = R.size ∧ ∀ t < R.size, bep.get t = 0 % R.basis t)
    (hA : Ap.len = R.size * (opr ta m k * opc ta m k) ∧ ∀ t < R.size, ∀ i < opr ta m k, ∀ j < opc ta m k,
      Ap.get (t * (opr ta m k * opc ta m k) + (i * opc ta m k + j)) = fa i j % R.basis t)
    (hB : Bp.len = R.size * (opr tb k n * opc tb k n) ∧ ∀ t < R.size, ∀ i < opr tb k n, ∀ j < opc tb k n,
      Bp.get (t * (opr tb k n * opc tb k n) + (i * opc tb k n + j)) = fb i j % R.basis t)
    (hC : Cp.len = R.size * (m * n)) :
    Ok (rnsGemm gs R ta tb m n k alp Ap (opr ta m k * opc ta m k) (opc ta m k) Bp (opr tb k n * opc tb k n) (opc tb k n) bep Cp (m * n) n)
      (fun D => D.len = R.size * (m * n) ∧ ∀ t < R.size, ∀ i < m, ∀ j < n,
        D.get (t * (m * n) + (i * n + j)) = (alpha * Spec.mul k (Spec.op ta fa) (Spec.op tb fb) i j) % R.basis t) := by
  have blk : ∀ t < R.size, ∀ s, t * s + s ≤ R.size * s := fun t ht s => by
    have := Nat.mul_le_mul_right s (show t + 1 ≤ R.size from ht)
    rw [Nat.add_mul, Nat.one_mul] at this; exact this
  unfold rnsGemm
  refine Ok_iter (fun x (D : Arr ℤ) => D.len = R.size * (m * n) ∧ ∀ t < x, ∀ i < m, ∀ j < n,
        D.get (t * (m * n) + (i * n + j)) = (alpha * Spec.mul k (Spec.op ta fa) (Spec.op tb fb) i j) % R.basis t) ⟨hC, by simp⟩ ?_
  rintro t D ht ⟨d1, d2⟩
  simp only [Ok_bind, Ok_rd]
  refine ⟨by omega, ?_⟩
  refine (readRow_one Ap _ _ (by rw [hA.1]; exact blk t ht _)).mono ?_
  rintro a ⟨a1, a2⟩
  refine (readRow_one Bp _ _ (by rw [hB.1]; exact blk t ht _)).mono ?_
  rintro b ⟨b1, b2⟩
  refine ⟨by omega, ?_⟩
  refine (readRow_one D _ _ (by rw [d1]; exact blk t ht _)).mono ?_
  rintro c ⟨c1, -⟩
  rw [hal.2 t ht, hbe.2 t ht, Int.zero_emod]
  have hp := h.pr t ht
  haveI : Fact (R.basis t).Prime := ⟨hp⟩
  refine (gemmMod_spec hp (hg _ (hk t ht) ta tb m n) _ a1 b1 c1 alpha (ZMod.intCast_mod _ _) fa fb ?_ ?_).mono ?_
  · intro i hi j hj
    rw [a2 _ (idx_lt hi hj), hA.2 t ht i hi j hj, ZMod.intCast_mod]
  · intro i hi j hj
    rw [b2 _ (idx_lt hi hj), hB.2 t ht i hi j hj, ZMod.intCast_mod]
  · rintro l ⟨l1, l2⟩
    refine (writeRow_spec D (t * (m * n)) l (by rw [l1, d1]; exact blk t ht _)).mono ?_
    rintro D' ⟨e1, e2, e3⟩
    refine ⟨by rw [e1, d1], fun s hs i hi j hj => ?_⟩
    have hij := idx_lt hi hj
    by_cases e : s = t
    · subst e; rw [e2 _ (by omega), l2 i hi j hj]
    · have hst : s < t := by omega
      rw [e3 _ (Or.inl ?_), d2 s hst i hi j hj]
      have := Nat.mul_le_mul_right (m * n) (show s + 1 ≤ t from hst)
      rw [Nat.add_mul, Nat.one_mul] at this
      omega

lemma infNorm_spec (m n : ℕ) (A : Arr ℤ) (lda : ℕ) (hA : ∀ i < m, ∀ j < n, i * lda + j < A.len) :
    Ok (infNorm m n A lda) (fun N => (∀ i < m, ∀ j < n, (A.get (i * lda + j)).natAbs ≤ N) ∧
      (N = 0 ∨ ∃ i < m, ∃ j < n, (A.get (i * lda + j)).natAbs = N)) := by
  unfold infNorm
  simp only [Ok_bind, Ok_pure]
  refine (Ok_iter (fun x (N : ℤ) => (∀ i < x, ∀ j < n, (A.get (i * lda + j)).natAbs ≤ N.natAbs) ∧
    (N = 0 ∨ ∃ i < m, ∃ j < n, (A.get (i * lda + j)).natAbs = N.natAbs)) ⟨by simp, Or.inl rfl⟩ ?_).mono ?_
  · rintro i N hi ⟨h1, h2⟩
    refine (Ok_iter (fun y (N : ℤ) => ((∀ i' < i, ∀ j < n, (A.get (i' * lda + j)).natAbs ≤ N.natAbs) ∧ ∀ j < y, (A.get (i * lda + j)).natAbs ≤ N.natAbs) ∧
      (N = 0 ∨ ∃ i < m, ∃ j < n, (A.get (i * lda + j)).natAbs = N.natAbs)) ⟨⟨h1, by simp⟩, h2⟩ ?_).mono ?_
    · rintro j N hj ⟨⟨g1, g2⟩, g3⟩
      simp only [Ok_bind, Ok_rd, Ok_pure]
      refine ⟨hA i hi j hj, ?_⟩
      split_ifs with c
      · refine ⟨⟨fun i' hi' j' hj' => by have := g1 i' hi' j' hj'; omega, fun j' hj' => ?_⟩, Or.inr ⟨i, hi, j, hj, rfl⟩⟩
        by_cases e : j' = j
        · subst e; exact le_rfl
        · have := g2 j' (by omega); omega
      · refine ⟨⟨g1, fun j' hj' => ?_⟩, g3⟩
        by_cases e : j' = j
        · subst e; omega
        · exact g2 j' (by omega)
    · rintro N ⟨⟨g1, g2⟩, g3⟩
      refine ⟨fun i' hi' j hj => ?_, g3⟩
      by_cases e : i' = i
      · subst e; exact g2 j hj
      · exact g1 i' (by omega) j hj
  · rintro N ⟨h1, h2⟩
    exact ⟨h1, h2.imp (by rintro rfl; rfl) id⟩

/-- entries of an integer matrix stored by rows -/
def im (A : Arr ℤ) (lda : ℕ) : ℕ → ℕ → ℤ := fun i j => A.get (i * lda + j)

lemma mul_bound {ta tb : Tr} {m n k : ℕ} {fa fb : ℕ → ℕ → ℤ} {a b : ℕ} (ha : ∀ i < opr ta m k, ∀ j < opc ta m k, (fa i j).natAbs ≤ a)
    (hb : ∀ i < opr tb k n, ∀ j < opc tb k n, (fb i j).natAbs ≤ b) {i j : ℕ} (hi : i < m) (hj : j < n) :
    (Spec.mul k (Spec.op ta fa) (Spec.op tb fb) i j).natAbs ≤ k * a * b := by
  unfold Spec.mul
  have h : ∀ l ∈ range k, (Spec.op ta fa i l * Spec.op tb fb l j).natAbs ≤ a * b := by
    intro l hl
    rw [mem_range] at hl
    rw [Int.natAbs_mul]
    refine Nat.mul_le_mul ?_ ?_
    · cases ta
      · exact ha i hi l hl
      · exact ha l hl i hi
    · cases tb
      · exact hb l hl j hj
      · exact hb j hj l hl
  refine (Int.natAbs_sum_le _ _).trans ((sum_le_card_nsmul _ _ _ h).trans ?_)
  rw [card_range, smul_eq_mul, Nat.mul_assoc]

lemma pbits_facts {k : ℕ} (hk : k ≠ 0) (hk' : k < 2 ^ 46) : 3 ≤ (53 - Nat.size k) / 2 ∧ (53 - Nat.size k) / 2 ≤ 26 ∧
    ∀ p < 2 ^ ((53 - Nat.size k) / 2), k * (p - 1) ^ 2 < 2 ^ 53 := by
  have h1 := Nat.size_le.2 hk'
  have h2 := Nat.size_pos.2 (Nat.pos_of_ne_zero hk)
  refine ⟨by omega, by omega, fun p hp => ?_⟩
  have h3 : (p - 1) ^ 2 ≤ (2 ^ ((53 - Nat.size k) / 2)) ^ 2 := Nat.pow_le_pow_left (by omega) 2
  rw [← pow_mul] at h3
  calc k * (p - 1) ^ 2 < 2 ^ Nat.size k * 2 ^ ((53 - Nat.size k) / 2 * 2) :=
        Nat.mul_lt_mul_of_lt_of_le (Nat.lt_size_self k) h3 (Nat.pos_of_ne_zero (by positivity))
    _ = 2 ^ (Nat.size k + (53 - Nat.size k) / 2 * 2) := (pow_add _ _ _).symm
    _ ≤ 2 ^ 53 := Nat.pow_le_pow_right (by norm_num) (by omega)

/-- what a product must leave in `C`, and nothing else may change -/
def GemmRes (ta tb : Tr) (m n k : ℕ) (alpha : ℤ) (A : Arr ℤ) (lda : ℕ) (B : Arr ℤ) (ldb : ℕ) (beta : ℤ) (C : Arr ℤ) (ldc : ℕ) (D : Arr ℤ) : Prop :=
  D.len = C.len ∧
  (∀ i < m, ∀ j < n, D.get (i * ldc + j) = alpha * Spec.mul k (Spec.op ta (im A lda)) (Spec.op tb (im B ldb)) i j + beta * C.get (i * ldc + j)) ∧
  ∀ x, (∀ i < m, ∀ j < n, x ≠ i * ldc + j) → D.get x = C.get x

lemma normOf_spec (h r c : ℕ) (A : Arr ℤ) (lda : ℕ) (hA : ∀ i < r, ∀ j < c, i * lda + j < A.len)
    (hn : h = 0 ∨ ∀ i < r, ∀ j < c, (im A lda i j).natAbs ≤ h) {a : ℕ} (ha : h ≤ a) (ha' : ∀ i < r, ∀ j < c, (im A lda i j).natAbs ≤ a) :
    Ok (normOf h r c A lda) (fun N => N ≤ a ∧ (∀ i < r, ∀ j < c, (im A lda i j).natAbs ≤ N) ∧
      ((h ≠ 0 ∨ ∃ i < r, ∃ j < c, im A lda i j ≠ 0) → N ≠ 0)) := by
  unfold normOf
  split_ifs with c0
  · refine (infNorm_spec r c A lda hA).mono ?_
    rintro N ⟨h1, h2⟩
    refine ⟨?_, h1, ?_⟩
    · rcases h2 with rfl | ⟨i, hi, j, hj, e⟩
      · omega
      · rw [← e]; exact ha' i hi j hj
    · rintro (hh | ⟨i, hi, j, hj, e⟩) rfl
      · exact hh c0
      · have := h1 i hi j hj
        exact e (by unfold im; omega)
  · simp only [Ok_pure]
    exact ⟨ha, hn.resolve_left c0, fun _ => c0⟩

lemma fgemmZH_spec {E : Env} {gs : GemmFam} {hA hB : ℕ} {ta tb : Tr} {m n k : ℕ} {alpha : ℤ} {A : Arr ℤ} {lda : ℕ} {B : Arr ℤ} {ldb : ℕ}
    {beta : ℤ} {C : Arr ℤ} {ldc : ℕ} (hE : EnvOk E ((53 - Nat.size k) / 2)) (hg : GemmFamOk gs k) (hk : k ≠ 0) (hk' : k < 2 ^ 46) (hal : alpha ≠ 0)
    (lA : ∀ i < opr ta m k, ∀ j < opc ta m k, i * lda + j < A.len) (lB : ∀ i < opr tb k n, ∀ j < opc tb k n, i * ldb + j < B.len)
    (lC : ∀ i < m, ∀ j < n, i * ldc + j < C.len) (hldc : n ≤ ldc) {a b : ℕ}
    (nA : hA = 0 ∨ ∀ i < opr ta m k, ∀ j < opc ta m k, (im A lda i j).natAbs ≤ hA) (aA : hA ≤ a)
    (ha : ∀ i < opr ta m k, ∀ j < opc ta m k, (im A lda i j).natAbs ≤ a)
    (nB : hB = 0 ∨ ∀ i < opr tb k n, ∀ j < opc tb k n, (im B ldb i j).natAbs ≤ hB) (aB : hB ≤ b)
    (hb : ∀ i < opr tb k n, ∀ j < opc tb k n, (im B ldb i j).natAbs ≤ b)
    (hz : beta = 1 ∨ (hA ≠ 0 ∨ ∃ i < opr ta m k, ∃ j < opc ta m k, im A lda i j ≠ 0) ∧ (hB ≠ 0 ∨ ∃ i < opr tb k n, ∃ j < opc tb k n, im B ldb i j ≠ 0))
    (hret : ∀ x ≤ 2 * k * a * b * alpha.natAbs, Returns E x ((53 - Nat.size k) / 2))
    (hbd : 2 * k * a * b * alpha.natAbs ≤ 2 ^ (1023 * ((53 - Nat.size k) / 2 - 2))) :
    Ok (fgemmZH E gs hA hB ta tb m n k alpha A lda B ldb beta C ldc) (GemmRes ta tb m n k alpha A lda B ldb beta C ldc) := by
  obtain ⟨p1, p2, p3⟩ := pbits_facts hk hk'
  unfold fgemmZH
  rw [if_neg hal, if_neg hk]
  simp only [Ok_bind]
  refine (normOf_spec hA _ _ A lda lA nA aA ha).mono ?_
  rintro na ⟨na1, na2, na3⟩
  refine (normOf_spec hB _ _ B ldb lB nB aB hb).mono ?_
  rintro nb ⟨nb1, nb2, nb3⟩
  have hle : 2 * k * na * nb * alpha.natAbs ≤ 2 * k * a * b * alpha.natAbs := by gcongr
  have hmul : ∀ i < m, ∀ j < n, (alpha * Spec.mul k (Spec.op ta (im A lda)) (Spec.op tb (im B ldb)) i j).natAbs ≤ alpha.natAbs * (k * na * nb) :=
    fun i hi j hj => by rw [Int.natAbs_mul]; exact Nat.mul_le_mul_left _ (mul_bound na2 nb2 hi hj)
  by_cases c : 2 * k * na * nb * alpha.natAbs = 0
  · rw [if_pos c]
    simp only [Ok_pure]
    have h0 : na = 0 ∨ nb = 0 := by
      simp only [Nat.mul_eq_zero, Int.natAbs_eq_zero, hk, hal, or_false] at c
      omega
    rcases hz with rfl | ⟨z1, z2⟩
    · refine ⟨rfl, fun i hi j hj => ?_, fun _ _ => rfl⟩
      have := hmul i hi j hj
      have e : alpha.natAbs * (k * na * nb) = 0 := by rcases h0 with e | e <;> simp [e]
      rw [e, Nat.le_zero, Int.natAbs_eq_zero] at this
      rw [this]; ring
    · exact absurd h0 (not_or.2 ⟨na3 z1, nb3 z2⟩)
  · rw [if_neg c]
    simp only [Ok_bind]
    refine (mkRns_spec hE (hret _ hle) p1 p2 (hle.trans hbd)).mono ?_
    rintro R ⟨hR, -⟩
    have hM := hR.bound
    have pos := Nat.pos_of_ne_zero c
    have dA : na ≤ prodM R.size R.basis := (Nat.le_of_dvd pos ⟨2 * k * nb * alpha.natAbs, by ring⟩).trans hM
    have dB : nb ≤ prodM R.size R.basis := (Nat.le_of_dvd pos ⟨2 * k * na * alpha.natAbs, by ring⟩).trans hM
    have dal : alpha.natAbs ≤ prodM R.size R.basis := (Nat.le_of_dvd pos ⟨2 * k * na * nb, by ring⟩).trans hM
    refine (finit_spec hE.sched hR 1 _ _ _ A lda (up16_le_words dA (prodM_pos hR.cop)) lA (fun i hi j hj => natAbs_lt_up16 (na2 i hi j hj))).mono ?_
    intro Ap hAp
    refine (finit_spec hE.sched hR 2 _ _ _ B ldb (up16_le_words dB (prodM_pos hR.cop)) lB (fun i hi j hj => natAbs_lt_up16 (nb2 i hi j hj))).mono ?_
    intro Bp hBp
    refine (initElt_spec hE.sched hR 3 alpha dal).mono ?_
    intro alp halp
    refine (initElt_spec hE.sched hR 4 0 (Nat.zero_le _)).mono ?_
    intro bep hbep
    refine (rnsGemm_spec hR hg (fun t ht => p3 _ (hR.hi t ht)) (alpha := alpha) (fa := im A lda) (fb := im B ldb) halp hbep hAp hBp rfl).mono ?_
    rintro Cp ⟨hCp, hCp'⟩
    refine (fconv_spec hE.sched hR m n beta C ldc Cp hCp lC hldc _ (fun i hi j hj => ?_) hCp').mono ?_
    · have h1 := hmul i hi j hj
      have h2 := hR.odd p1
      have h3 : 2 * k * na * nb * alpha.natAbs = 2 * (alpha.natAbs * (k * na * nb)) := by ring
      omega
    · exact fun D h => h

lemma fscalinZ_spec (p m n : ℕ) (beta : ℤ) (C : Arr ℤ) (ldc : ℕ) (lC : ∀ i < m, ∀ j < n, i * ldc + j < C.len) (hldc : n ≤ ldc) :
    Ok (fscalinZ p m n beta C ldc) (fun D => D.len = C.len ∧ (∀ i < m, ∀ j < n, D.get (i * ldc + j) = beta * C.get (i * ldc + j) % p) ∧
      ∀ x, (∀ i < m, ∀ j < n, x ≠ i * ldc + j) → D.get x = C.get x) := by
  have inj : ∀ i j i' j', j < n → j' < n → i * ldc + j = i' * ldc + j' → i = i' ∧ j = j' := fun i j i' j' h1 h2 e =>
    lin_inj (a := j) (a' := j') (b := ldc) (by omega) (by omega) (by omega)
  unfold fscalinZ
  refine (Ok_iter (fun x (D : Arr ℤ) => D.len = C.len ∧ (∀ i < x, ∀ j < n, D.get (i * ldc + j) = beta * C.get (i * ldc + j) % p) ∧
      ∀ y, (∀ i < x, ∀ j < n, y ≠ i * ldc + j) → D.get y = C.get y) ⟨rfl, by simp, by simp⟩ ?_)
  rintro i D hi ⟨d1, d2, d3⟩
  refine (Ok_iter (fun x (D' : Arr ℤ) => D'.len = C.len ∧ (∀ j < x, D'.get (i * ldc + j) = beta * C.get (i * ldc + j) % p) ∧
      ∀ y, (∀ j < x, y ≠ i * ldc + j) → D'.get y = D.get y) ⟨d1, by simp, by simp⟩ ?_).mono ?_
  · rintro j D' hj ⟨e1, e2, e3⟩
    simp only [Ok_bind, Ok_rd, Ok_wr]
    refine ⟨by rw [e1]; exact lC i hi j hj, by rw [e1]; exact lC i hi j hj, e1, fun j' hj' => ?_, fun y hy => ?_⟩
    · by_cases e : j' = j
      · subst e
        rw [Function.update_self, e3 _ (fun s hs => by omega), d3 _ (fun i' hi' j'' hj'' e => by have := (inj _ _ _ _ hj hj'' e).1; omega)]
      · rw [Function.update_of_ne (by omega)]
        exact e2 j' (by omega)
    · rw [Function.update_of_ne (hy j (by omega))]
      exact e3 y (fun s hs => hy s (by omega))
  · rintro D' ⟨e1, e2, e3⟩
    refine ⟨e1, fun i' hi' j hj => ?_, fun y hy => ?_⟩
    · by_cases e : i' = i
      · subst e; exact e2 j hj
      · rw [e3 _ (fun s hs h => e (inj _ _ _ _ hj hs h).1)]
        exact d2 i' (by omega) j hj
    · rw [e3 y (fun s hs => hy i (by omega) s hs)]
      exact d3 y (fun i' hi' s hs => hy i' (by omega) s hs)

lemma freduceZ_spec (p m n : ℕ) (C : Arr ℤ) (ldc : ℕ) (lC : ∀ i < m, ∀ j < n, i * ldc + j < C.len) (hldc : n ≤ ldc) :
    Ok (freduceZ p m n C ldc) (fun D => D.len = C.len ∧ (∀ i < m, ∀ j < n, D.get (i * ldc + j) = C.get (i * ldc + j) % p) ∧
      ∀ x, (∀ i < m, ∀ j < n, x ≠ i * ldc + j) → D.get x = C.get x) := by
  have h := fscalinZ_spec p m n 1 C ldc lC hldc
  simpa only [fscalinZ, freduceZ, one_mul] using h

end Verif.MP
