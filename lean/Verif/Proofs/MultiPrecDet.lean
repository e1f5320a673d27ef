import Verif.Proofs.MultiPrecGemm
import Verif.Spec.Mat
import Verif.Spec.CharPoly
import Mathlib.LinearAlgebra.Matrix.Charpoly.Basic
import Mathlib.LinearAlgebra.Matrix.Charpoly.Coeff
import Mathlib.Data.Int.ModEq

/-!
# Proofs: determinants and characteristic polynomials of integer matrices by residues
-/

namespace Verif.MP

open Verif.RNS Verif.FF Verif.Lazy Verif.Spec Finset

/-- the determinant over every prime field is right -/
def DetFamOk (ds : DetFam) (N : ℕ) : Prop :=
  ∀ (p : ℕ) [Fact p.Prime] (mem : Mem (ZMod p)) (A lda : ℕ), WF mem → OkIn mem ⟨A, lda, N, N⟩ → N ≤ lda →
    Run (ds p N A lda) mem (fun d _ => d = (toMat N N (mem.mat ⟨A, lda, N, N⟩)).det)

/-- the characteristic polynomial over every prime field is right -/
def CpFamOk (cs : CpFam) (N : ℕ) : Prop :=
  ∀ (p : ℕ) [Fact p.Prime] (mem : Mem (ZMod p)) (A lda : ℕ), WF mem → OkIn mem ⟨A, lda, N, N⟩ → N ≤ lda →
    Run (cs p N A lda) mem (fun l _ => polyOf l = (toMat N N (mem.mat ⟨A, lda, N, N⟩)).charpoly)

lemma resMem_mat {p N : ℕ} {a : List ℤ} {f : ℕ → ℕ → ℤ} (hf : ∀ i < N, ∀ j < N, ((a.getD (i * N + j) 0 : ℤ) : ZMod p) = f i j) :
    toMat N N ((resMem p a).mat ⟨0, N, N, N⟩) = (toMat N N f).map (Int.castRingHom (ZMod p)) := by
  ext i j
  rw [toMat_apply, Matrix.map_apply, toMat_apply, Mem.mat, resMem_val]
  simpa [Win.adr] using hf i i.2 j j.2

lemma detMod_spec {ds : DetFam} {p N : ℕ} (hp : p.Prime) (hd : DetFamOk ds N) {a : List ℤ} (la : a.length = N * N) {f : ℕ → ℕ → ℤ}
    (hf : ∀ i < N, ∀ j < N, ((a.getD (i * N + j) 0 : ℤ) : ZMod p) = f i j) : detMod ds p N a N = .ok ((toMat N N f).det % p) := by
  haveI : Fact p.Prime := ⟨hp⟩
  obtain ⟨d, m', e, h⟩ := hd p (resMem p a) 0 N (WF_memOf _) (OkIn_memOf (ends_of_le (by simp [la]))) le_rfl
  unfold detMod
  rw [dif_pos hp]
  simp only [e]
  rw [h, resMem_mat hf, ← RingHom.mapMatrix_apply, ← RingHom.map_det, Int.coe_castRingHom, ZMod.val_intCast]

lemma blk_le {t s : ℕ} (ht : t < s) (w : ℕ) : t * w + w ≤ s * w := by
  have := Nat.mul_le_mul_right w (show t + 1 ≤ s from ht)
  rw [Nat.add_mul, Nat.one_mul] at this; exact this

/-- the residues of one modulus -/
lemma resid_spec {R : Rns} {N : ℕ} {Ap : Arr ℤ} {f : ℕ → ℕ → ℤ}
    (hA : Ap.len = R.size * (N * N) ∧ ∀ t < R.size, ∀ i < N, ∀ j < N, Ap.get (t * (N * N) + (i * N + j)) = f i j % R.basis t) {t : ℕ} (ht : t < R.size) :
    Ok (readRow Ap (t * (N * N)) 1 (N * N)) (fun a => a.length = N * N ∧ ∀ i < N, ∀ j < N, ((a.getD (i * N + j) 0 : ℤ) : ZMod (R.basis t)) = f i j) := by
  refine (readRow_one Ap _ _ (by rw [hA.1]; exact blk_le ht _)).mono ?_
  rintro a ⟨a1, a2⟩
  refine ⟨a1, fun i hi j hj => ?_⟩
  rw [a2 _ (idx_lt hi hj), hA.2 t ht i hi j hj, ZMod.intCast_mod]

lemma Ok.det {α : Type} {e : Except Fault α} {Q : α → Prop} (h : Ok e Q) : ∃ a, e = .ok a ∧ Q a := h

lemma rnsDet_spec {ds : DetFam} {R : Rns} {bound pbits N : ℕ} (h : Good R bound pbits) (hd : DetFamOk ds N) {Ap D : Arr ℤ} {f : ℕ → ℕ → ℤ}
    (hA : Ap.len = R.size * (N * N) ∧ ∀ t < R.size, ∀ i < N, ∀ j < N, Ap.get (t * (N * N) + (i * N + j)) = f i j % R.basis t)
    (hD : D.len = R.size) :
    Ok (rnsDet ds R N Ap N D) (fun D' => D'.len = R.size ∧ ∀ t < R.size, D'.get t = (toMat N N f).det % R.basis t) := by
  unfold rnsDet
  refine (Ok_fill R.size id _ (fun t => (toMat N N f).det % R.basis t) D ?_ (fun t ht => by simpa [hD] using ht) (fun _ _ _ _ e => e)).mono ?_
  · intro t ht
    obtain ⟨a, e, a1, a2⟩ := resid_spec hA ht
    rw [e]
    exact detMod_spec (h.pr t ht) hd a1 a2
  · rintro D' ⟨h1, h2, -⟩
    exact ⟨by rw [h1, hD], h2⟩

lemma bitsz_lt (x : ℤ) : x.natAbs < 2 ^ bitsz x :=
  lt_of_lt_of_le (Nat.lt_size_self _) (Nat.pow_le_pow_right (by norm_num) (by unfold bitsz; omega))

lemma le_bitsz {x : ℤ} {b : ℕ} (hb : 1 ≤ b) (h : x.natAbs < 2 ^ b) : bitsz x ≤ b := by
  unfold bitsz
  have := Nat.size_le.2 h
  omega

/-- `b` is the bit length of the largest entry, 1 if all the entries are 0 -/
def IsBits (N : ℕ) (f : ℕ → ℕ → ℤ) (b : ℕ) : Prop :=
  1 ≤ b ∧ (∀ i < N, ∀ j < N, (f i j).natAbs < 2 ^ b) ∧ (b = 1 ∨ ∃ i < N, ∃ j < N, 2 ^ (b - 1) ≤ (f i j).natAbs)

lemma bitsize_spec (N : ℕ) (A : Arr ℤ) (lda : ℕ) (hA : ∀ i < N, ∀ j < N, i * lda + j < A.len) {b : ℕ} (hb : IsBits N (im A lda) b) :
    Ok (bitsize N N A lda) (fun x => x = b) := by
  obtain ⟨b1, b2, b3⟩ := hb
  unfold bitsize
  refine (Ok_iter (fun x (B : ℕ) => 1 ≤ B ∧ B ≤ b ∧ ∀ i < x, ∀ j < N, bitsz (A.get (i * lda + j)) ≤ B) ⟨le_rfl, b1, by simp⟩ ?_).mono ?_
  · rintro i B hi ⟨h1, h2, h3⟩
    refine (Ok_iter (fun y (B : ℕ) => 1 ≤ B ∧ B ≤ b ∧ (∀ i' < i, ∀ j < N, bitsz (A.get (i' * lda + j)) ≤ B) ∧ ∀ j < y, bitsz (A.get (i * lda + j)) ≤ B)
      ⟨h1, h2, h3, by simp⟩ ?_).mono ?_
    · rintro j B hj ⟨g1, g2, g3, g4⟩
      simp only [Ok_bind, Ok_rd, Ok_pure]
      have := le_bitsz b1 (b2 i hi j hj)
      unfold im at this
      refine ⟨hA i hi j hj, by omega, by omega, fun i' hi' j' hj' => by have := g3 i' hi' j' hj'; omega, fun j' hj' => ?_⟩
      by_cases e : j' = j
      · subst e; omega
      · have := g4 j' (by omega); omega
    · rintro B ⟨g1, g2, g3, g4⟩
      refine ⟨g1, g2, fun i' hi' j hj => ?_⟩
      by_cases e : i' = i
      · subst e; exact g4 j hj
      · exact g3 i' (by omega) j hj
  · rintro B ⟨h1, h2, h3⟩
    rcases b3 with e | ⟨i, hi, j, hj, hl⟩
    · omega
    · have h4 := h3 i hi j hj
      have h5 := lt_of_le_of_lt hl (bitsz_lt (im A lda i j))
      have h6 := (Nat.pow_lt_pow_iff_right (by norm_num : 1 < 2)).1 h5
      unfold im at h6
      omega

lemma up16_le_of_pow {b e M : ℕ} (hbe : b ≤ e) (h : 2 ^ e ≤ M) : up16 b ≤ words M := by
  refine up16_mono ?_
  have := Nat.lt_size.2 h
  omega

/-- a number of absolute value less than half the modulus is determined by its residue -/
lemma centred_unique {x y : ℤ} {M : ℕ} (h : x ≡ y [ZMOD M]) (hx : 2 * x.natAbs < M) (hy : 2 * y.natAbs < M) : x = y := by
  have h1 := h.dvd
  by_contra hne
  have h2 : (M : ℤ) ≤ |y - x| := Int.le_of_dvd (abs_pos.2 (sub_ne_zero.2 (Ne.symm hne))) ((dvd_abs _ _).2 h1)
  rw [Int.abs_eq_natAbs] at h2
  omega

/-- every integer has a residue of absolute value less than half an odd modulus -/
lemma centred_exists (x : ℤ) {M : ℕ} (hM : M % 2 = 1) : ∃ y : ℤ, y ≡ x [ZMOD M] ∧ 2 * y.natAbs < M := by
  have hM0 : (0 : ℤ) < M := by omega
  have h1 := Int.emod_nonneg x hM0.ne'
  have h2 := Int.emod_lt_of_pos x hM0
  by_cases c : 2 * (x % M) < M
  · exact ⟨x % M, Int.mod_modEq x M, by omega⟩
  · refine ⟨x % M - M, ?_, by omega⟩
    calc x % M - M ≡ x % M [ZMOD M] := by simp [Int.ModEq]
      _ ≡ x [ZMOD M] := Int.mod_modEq x M

lemma modEq_basis {R : Rns} {x y : ℤ} (h : x ≡ y [ZMOD (prodM R.size R.basis : ℕ)]) {t : ℕ} (ht : t < R.size) : x % R.basis t = y % R.basis t := by
  refine h.of_dvd ?_
  exact Int.natCast_dvd_natCast.2 (Finset.dvd_prod_of_mem _ (mem_range.2 ht))

/-- the modulus of the residue system built for a bound -/
def Modulus (E : Env) (bound M : ℕ) : Prop :=
  ∃ b, buildBound (E.cand 23) bound false E.inner E.fuel ⟨[], 1, 1, 0⟩ = some b ∧ M = b.basis.prod

lemma detZ_spec {E : Env} {ds : DetFam} {bits : ℕ → ℕ → ℕ} {old : ℤ} {N : ℕ} {A : Arr ℤ} {lda b : ℕ} (hE : EnvOk E 23) (hd : DetFamOk ds N) (hN : N ≠ 0)
    (lA : ∀ i < N, ∀ j < N, i * lda + j < A.len) (hb : IsBits N (im A lda) b) (hbits : b ≤ bits N b)
    (hret : Returns E (2 ^ bits N b) 23) (hbd : bits N b ≤ 21483) :
    Ok (detZ E ds bits old N A lda) (fun d => ∃ M, Modulus E (2 ^ bits N b) M ∧ 2 ^ bits N b ≤ M ∧ d - old ≡ (toMat N N (im A lda)).det [ZMOD M] ∧ 2 * (d - old).natAbs < M) := by
  unfold detZ
  rw [if_neg hN]
  simp only [Ok_bind]
  refine (bitsize_spec N A lda lA hb).mono ?_
  rintro _ rfl
  refine (mkRns_spec hE hret (by norm_num) (by norm_num) (Nat.pow_le_pow_right (by norm_num) (by omega))).mono ?_
  rintro R ⟨hR, b', hb1, hb2⟩
  refine (finit_spec hE.sched hR 1 _ _ _ A lda (up16_le_of_pow hbits hR.bound) lA (fun i hi j hj =>
    lt_of_lt_of_le (hb.2.1 i hi j hj) (Nat.pow_le_pow_right (by norm_num) (le_up16 _)))).mono ?_
  intro Ap hAp
  refine (rnsDet_spec hR hd (f := im A lda) hAp rfl).mono ?_
  rintro D ⟨d1, d2⟩
  obtain ⟨y, y1, y2⟩ := centred_exists (toMat N N (im A lda)).det (hR.odd (by norm_num))
  refine (fconv_spec hE.sched hR 1 1 1 (Arr.ofList [old]) 1 D (by omega) (fun i hi j hj => by simp [Arr.ofList]; omega) le_rfl (fun _ _ => y)
    (fun _ _ _ _ => y2) (fun t ht i hi j hj => ?_)).mono ?_
  · have : t * (1 * 1) + (i * 1 + j) = t := by omega
    rw [this, d2 t ht, modEq_basis y1 ht]
  · rintro B ⟨h1, h2, -⟩
    rw [Ok_rd]
    have h3 := h2 0 (by omega) 0 (by omega)
    simp only [Nat.zero_mul, Nat.add_zero, one_mul] at h3
    refine ⟨by rw [h1]; simp [Arr.ofList], _, ⟨b', hb1, rfl⟩, by rw [← hb2]; exact hR.bound, ?_, ?_⟩
    · rw [h3, ← hb2]; simpa [Arr.ofList] using y1
    · rw [h3, ← hb2]; simpa [Arr.ofList] using y2

lemma polyOf_coeff {K : Type} [Field K] (l : List K) (i : ℕ) : (polyOf l).coeff i = l.getD i 0 := by
  induction l generalizing i with
  | nil => simp [polyOf]
  | cons a l ih =>
    have e : polyOf (a :: l) = Polynomial.C a + Polynomial.X * polyOf l := rfl
    rw [e, Polynomial.coeff_add]
    cases i with
    | zero => simp
    | succ i => rw [Polynomial.coeff_C_succ, Polynomial.coeff_X_mul, ih, zero_add]; rfl

lemma cpMod_spec {cs : CpFam} {p N : ℕ} (hp : p.Prime) (hd : CpFamOk cs N) {a : List ℤ} (la : a.length = N * N) {f : ℕ → ℕ → ℤ}
    (hf : ∀ i < N, ∀ j < N, ((a.getD (i * N + j) 0 : ℤ) : ZMod p) = f i j) :
    cpMod cs p N a N = .ok ((List.range (N + 1)).map (fun i => (toMat N N f).charpoly.coeff i % p)) := by
  haveI : Fact p.Prime := ⟨hp⟩
  obtain ⟨l, m', e, h⟩ := hd p (resMem p a) 0 N (WF_memOf _) (OkIn_memOf (ends_of_le (by simp [la]))) le_rfl
  have hc : ∀ i, l.getD i 0 = (((toMat N N f).charpoly.coeff i : ℤ) : ZMod p) := fun i => by
    rw [← polyOf_coeff, h, resMem_mat hf, Matrix.charpoly_map, Polynomial.coeff_map]; rfl
  have hlen : N < l.length := by
    by_contra hl
    have h1 := hc N
    have h2 : (toMat N N f).charpoly.coeff N = 1 := by
      have := (toMat N N f).charpoly_monic
      rw [Polynomial.Monic, Polynomial.leadingCoeff, Matrix.charpoly_natDegree_eq_dim, Fintype.card_fin] at this
      exact this
    rw [h2, List.getD_eq_getElem?_getD, List.getElem?_eq_none (by omega)] at h1
    simp at h1
  unfold cpMod
  rw [dif_pos hp]
  simp only [e]
  rw [if_pos hlen]
  congr 1
  refine List.map_congr_left (fun i _ => ?_)
  rw [hc, ZMod.val_intCast]

lemma rnsCharPoly_spec {cs : CpFam} {R : Rns} {bound pbits N : ℕ} (h : Good R bound pbits) (hd : CpFamOk cs N) {Ap P : Arr ℤ} {f : ℕ → ℕ → ℤ}
    (hA : Ap.len = R.size * (N * N) ∧ ∀ t < R.size, ∀ i < N, ∀ j < N, Ap.get (t * (N * N) + (i * N + j)) = f i j % R.basis t)
    (hP : P.len = R.size * (1 * (N + 1))) :
    Ok (rnsCharPoly cs R N Ap N P) (fun P' => P'.len = R.size * (1 * (N + 1)) ∧ ∀ t < R.size, ∀ j < N + 1,
      P'.get (t * (1 * (N + 1)) + j) = (toMat N N f).charpoly.coeff j % R.basis t) := by
  unfold rnsCharPoly
  refine Ok_iter (fun x (P' : Arr ℤ) => P'.len = R.size * (1 * (N + 1)) ∧ ∀ t < x, ∀ j < N + 1,
      P'.get (t * (1 * (N + 1)) + j) = (toMat N N f).charpoly.coeff j % R.basis t) ⟨hP, by simp⟩ ?_
  rintro t P' ht ⟨h1, h2⟩
  simp only [Ok_bind]
  refine (resid_spec hA ht).mono ?_
  rintro a ⟨a1, a2⟩
  haveI : Fact (R.basis t).Prime := ⟨h.pr t ht⟩
  rw [cpMod_spec (h.pr t ht) hd a1 a2, Ok_ok]
  refine (writeRow_spec P' _ _ (by simp only [List.length_map, List.length_range, h1]; have := blk_le ht (1 * (N + 1)); omega)).mono ?_
  rintro P'' ⟨e1, e2, e3⟩
  refine ⟨by rw [e1, h1], fun s hs j hj => ?_⟩
  by_cases e : s = t
  · subst e
    rw [e2 j (by simpa using hj), List.getD_eq_getElem?_getD, List.getElem?_map, List.getElem?_range hj]
    rfl
  · rw [e3 _ (Or.inl ?_), h2 s (by omega) j hj]
    have := blk_le (show s < t by omega) (1 * (N + 1))
    omega

lemma charPolyZ_spec {E : Env} {cs : CpFam} {bits : ℕ → ℕ → ℕ} {old : List ℤ} {N : ℕ} {A : Arr ℤ} {lda b : ℕ} (hE : EnvOk E 23) (hd : CpFamOk cs N) (hN : N ≠ 0)
    (lA : ∀ i < N, ∀ j < N, i * lda + j < A.len) (hb : IsBits N (im A lda) b) (hbits : b ≤ bits N b)
    (hret : Returns E (2 ^ bits N b) 23) (hbd : bits N b ≤ 21483) :
    Ok (charPolyZ E cs bits old N A lda) (fun P => P.len = N + 1 ∧ ∃ M, Modulus E (2 ^ bits N b) M ∧ 2 ^ bits N b ≤ M ∧
      ∀ j < N + 1, P.get j - old.getD j 0 ≡ (toMat N N (im A lda)).charpoly.coeff j [ZMOD M] ∧ 2 * (P.get j - old.getD j 0).natAbs < M) := by
  unfold charPolyZ
  rw [if_neg hN]
  simp only [Ok_bind]
  refine (bitsize_spec N A lda lA hb).mono ?_
  rintro _ rfl
  refine (mkRns_spec hE hret (by norm_num) (by norm_num) (Nat.pow_le_pow_right (by norm_num) (by omega))).mono ?_
  rintro R ⟨hR, b', hb1, hb2⟩
  refine (finit_spec hE.sched hR 1 _ _ _ A lda (up16_le_of_pow hbits hR.bound) lA (fun i hi j hj =>
    lt_of_lt_of_le (hb.2.1 i hi j hj) (Nat.pow_le_pow_right (by norm_num) (le_up16 _)))).mono ?_
  intro Ap hAp
  refine (rnsCharPoly_spec hR hd (f := im A lda) hAp rfl).mono ?_
  rintro D ⟨d1, d2⟩
  choose y y1 y2 using fun j => centred_exists ((toMat N N (im A lda)).charpoly.coeff j) (hR.odd (by norm_num))
  have lP : ∀ i < 1, ∀ j < N + 1, i * (N + 1) + j < (⟨N + 1, fun i => old.getD i 0⟩ : Arr ℤ).len := fun i hi j hj => by
    have := idx_lt hi hj
    simp only
    omega
  refine (fconv_spec hE.sched hR 1 (N + 1) 1 _ (N + 1) D d1 lP le_rfl (fun _ j => y j)
    (fun _ _ j _ => y2 j) (fun t ht i hi j hj => ?_)).mono ?_
  · obtain rfl : i = 0 := by omega
    have e : 0 * (N + 1) + j = j := by omega
    rw [e, d2 t ht j hj, modEq_basis (y1 j) ht]
  · rintro B ⟨h1, h2, -⟩
    refine ⟨h1, _, ⟨b', hb1, rfl⟩, by rw [← hb2]; exact hR.bound, fun j hj => ?_⟩
    have h3 := h2 0 (by omega) j hj
    simp only [Nat.zero_mul, Nat.zero_add, one_mul] at h3
    rw [h3, ← hb2, add_sub_cancel_right]
    exact ⟨y1 j, y2 j⟩

lemma detBits_ge {N b : ℕ} (hN : N ≠ 0) : b ≤ detBits N b := by
  unfold detBits
  have h1 : (1 : ℝ) ≤ N := by exact_mod_cast Nat.one_le_iff_ne_zero.2 hN
  have h2 : 0 ≤ Real.log N / (Real.log 2 * 2) := div_nonneg (Real.log_nonneg h1) (mul_nonneg (Real.log_nonneg (by norm_num)) (by norm_num))
  have h3 : ((b : ℤ) : ℝ) ≤ (N : ℝ) * (Real.log N / (Real.log 2 * 2) + b) := by
    push_cast
    nlinarith [Nat.cast_nonneg (α := ℝ) b]
  have := h3.trans (Int.le_ceil _)
  have : (b : ℤ) ≤ ⌈(N : ℝ) * (Real.log N / (Real.log 2 * 2) + b)⌉ := by exact_mod_cast this
  omega

lemma detBits_one (b : ℕ) : detBits 1 b = b := by simp [detBits]

lemma cpBits_ge {N b : ℕ} (hN : N ≠ 0) : b ≤ cpBits N b := by
  unfold cpBits
  have h1 : (1 : ℝ) ≤ N := by exact_mod_cast Nat.one_le_iff_ne_zero.2 hN
  have h2 : 0 ≤ Real.log N / Real.log 2 := div_nonneg (Real.log_nonneg h1) (Real.log_nonneg (by norm_num))
  have h3 : ((b : ℤ) : ℝ) ≤ (N : ℝ) / 2 * (Real.log N / Real.log 2 + 2 * b + 0.21163275) := by
    push_cast
    nlinarith [Nat.cast_nonneg (α := ℝ) b, mul_nonneg (Nat.cast_nonneg (α := ℝ) b) (sub_nonneg.2 h1), mul_nonneg h2 (Nat.cast_nonneg (α := ℝ) N)]
  have := h3.trans (Int.le_ceil _)
  have : (b : ℤ) ≤ ⌈(N : ℝ) / 2 * (Real.log N / Real.log 2 + 2 * b + 0.21163275)⌉ := by exact_mod_cast this
  omega

end Verif.MP
