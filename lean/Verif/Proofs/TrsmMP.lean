import Verif.Model.TrsmMP
import Verif.Proofs.MultiPrecGemm
import Verif.Proofs.Trsm

/-!
# Proofs for `ftrsm` over `Modular<Integer>`: elements, reduction, product, inverse
-/

namespace Verif.MP

open Verif.RNS Verif.FF Verif.Lazy Finset

/-- sum of the moduli -/
abbrev sumM (R : Rns) : ℕ := ∑ t ∈ range R.size, R.basis t

/-- What the solve relies on: the system of residues, the tables of `RNSIntegerMod`, exact products of two residues summed over the moduli, and room
for `k` accumulated products. -/
structure Ctx (E : Env) (R : Rns) (T : ModTables) (p k : ℕ) : Prop where
  good : ∃ bound pbits, Good R bound pbits
  hp : 2 ≤ p
  tab : TabOk T R.size R.basis p
  fit : FitMod R.size R.basis
  sched : ∀ c k t idx, (E.sched c k t idx).Covers k
  pos : 1 ≤ R.size
  room : 4 * (k * (p * (p * sumM R))) ≤ prodM R.size R.basis
  kpos : 1 ≤ k
  fitK : ∀ t < R.size, k * (R.basis t - 1) ^ 2 < 2 ^ 53

section cells
variable {R : Rns}

lemma resOf_int (hc : ∀ t < R.size, 0 < R.basis t) (z : ℤ) {t : ℕ} (ht : t < R.size) : resOf R (z : RV R) t = z % R.basis t := by
  haveI : NeZero (R.basis t) := ⟨(hc t ht).ne'⟩
  unfold resOf
  rw [dif_pos ht]
  exact ZMod.val_intCast z

lemma cellOf_int {n j : ℕ} {A : Arr ℤ} {z : ℤ} (h : ∀ t < R.size, A.get (j + t * n) = z % R.basis t) : cellOf R n A j = (z : RV R) := by
  funext t
  unfold cellOf
  rw [h t t.2, ZMod.intCast_mod]
  rfl

lemma cols_get (hc : ∀ t < R.size, 0 < R.basis t) {l : List (RV R)} {j t : ℕ} {z : ℤ} (hj : j < l.length) (ht : t < R.size)
    (h : l.getD j 0 = (z : RV R)) : (cols R l).get (j + t * l.length) = z % R.basis t := by
  unfold cols
  simp only
  rw [Nat.add_mul_mod_self_right, Nat.mod_eq_of_lt hj, Nat.add_mul_div_right _ _ (by omega), Nat.div_eq_of_lt hj, Nat.zero_add, h, resOf_int hc z ht]

end cells

lemma Run_gather {K : Type} (l : List ℕ) (m : Mem K) (h : ∀ a ∈ l, m.ok a = true) (Q : List K → Mem K → Prop) (hQ : Q (l.map m.val) m) :
    Run (gather l) m Q := by
  induction l generalizing Q with
  | nil => simpa [gather] using hQ
  | cons a l ih =>
    unfold gather
    simp only [Run_bind, Run_load]
    refine ⟨h a (by simp), ?_⟩
    refine ih (fun b hb => h b (by simp [hb])) _ ?_
    simpa using hQ

lemma Run_scatter {K : Type} {r c B ldb : ℕ} {m : Mem K} (v : ℕ → ℕ → K) (hok : OkIn m ⟨B, ldb, r, c⟩) (hl : c ≤ ldb) :
    Run (loop r fun i => loop c fun j => store (B + i * ldb + j) (v i j)) m (fun _ m' => Step m m' ⟨B, ldb, r, c⟩ v) := by
  refine Run_rows (W := ⟨B, ldb, r, c⟩) v hok (fit_Inj hl) ?_
  intro i hi m1 h1 h2 h3
  refine Run_vec (n := c) (Y := B + i * ldb) (inc := 1) (fun j => v i j) ?_ (vw_Inj Nat.one_pos) ?_
  · rintro a ⟨j, hj, z, hz, rfl⟩
    rw [h1]
    refine hok _ ⟨i, hi, j, hj, ?_⟩
    have : z = 0 := by simpa using hz
    simp [this]
  · intro j hj m2 h4 h5
    rw [Run_store]
    refine ⟨?_, by rw [Nat.mul_one]⟩
    rw [h4, h1]
    exact hok _ ⟨i, hi, j, hj, rfl⟩

section ctx
variable {E : Env} {R : Rns} {T : ModTables} {p k : ℕ} {m : Mem (RV R)}

lemma Ctx.bpos (C : Ctx E R T p k) : ∀ t < R.size, 0 < R.basis t := fun t ht => by
  obtain ⟨_, _, g⟩ := C.good; exact (g.pr t ht).pos

lemma Ctx.sum_pos (C : Ctx E R T p k) : 1 ≤ sumM R := by
  have h0 := C.bpos 0 C.pos
  exact h0.trans_le (single_le_sum (f := R.basis) (fun _ _ => Nat.zero_le _) (mem_range.2 C.pos))

lemma redWin_spec (C : Ctx E R T p k) {r c B ldb : ℕ} (hok : OkIn m ⟨B, ldb, r, c⟩) (hl : c ≤ ldb) (z : ℕ → ℕ → ℤ)
    (hz : ∀ i < r, ∀ j < c, m.mat ⟨B, ldb, r, c⟩ i j = (z i j : RV R)) (hb : ∀ i < r, ∀ j < c, 4 * |z i j| ≤ prodM R.size R.basis) :
    Run (redWin E R T r c B ldb) m (fun _ m' => ∃ y : ℕ → ℕ → ℤ, Step m m' ⟨B, ldb, r, c⟩ (fun i j => (y i j : RV R)) ∧
      ∀ i < r, ∀ j < c, y i j ≡ z i j [ZMOD p] ∧ |y i j| ≤ p * sumM R) := by
  obtain ⟨_, _, g⟩ := C.good
  have rc : ∀ idx < r * c, idx / c < r ∧ idx % c < c := fun idx h => by
    have hc : 0 < c := Nat.pos_of_ne_zero (fun e => by simp [e] at h)
    exact ⟨(Nat.div_lt_iff_lt_mul hc).2 h, Nat.mod_lt _ hc⟩
  unfold redWin
  simp only [Run_bind]
  refine Run_gather _ m ?_ _ ?_
  · intro a ha
    obtain ⟨idx, hi, rfl⟩ := List.mem_map.1 ha
    obtain ⟨h1, h2⟩ := rc idx (List.mem_range.1 hi)
    exact hok _ ⟨_, h1, _, h2, rfl⟩
  set l := ((List.range (r * c)).map (fun idx => B + idx / c * ldb + idx % c)).map m.val with hl'
  have ll : l.length = r * c := by simp [hl']
  rw [Run_liftE]
  have getl : ∀ idx < r * c, l.getD idx 0 = (z (idx / c) (idx % c) : RV R) := by
    intro idx hi
    obtain ⟨h1, h2⟩ := rc idx hi
    rw [hl', List.getD_eq_getElem?_getD, List.getElem?_map, List.getElem?_map, List.getElem?_range hi]
    exact hz _ h1 _ h2
  refine (reduceModp_spec R R.size R.basis g.cop g.pre p (by have := C.hp; omega) T C.tab (lt_of_le_of_lt g.size (by norm_num)) C.fit (r * c) (cols R l) (r * c) le_rfl
    ?_ _ _ _ (fun _ _ => C.sched _ _ _ _) (fun _ => C.sched _ _ _ _) (fun idx => z (idx / c) (idx % c)) ?_ ?_).mono ?_
  · intro i hi j hj
    have := lin_lt hj hi
    simp only [cols, ll]; exact this
  · intro idx hi
    obtain ⟨h1, h2⟩ := rc idx hi
    exact hb _ h1 _ h2
  · intro t ht idx hi
    have := cols_get C.bpos (l := l) (j := idx) (t := t) (by rw [ll]; exact hi) ht (getl idx hi)
    rwa [ll] at this
  · rintro A ⟨a1, a2, -⟩
    choose! Y hY1 hY2 hY3 hY4 using a2
    have e : ∀ i < r, ∀ j < c, cellOf R (r * c) A (i * c + j) = ((Y (i * c + j) : ℤ) : RV R) := fun i hi j hj =>
      cellOf_int (fun t ht => hY4 _ (idx_lt hi hj) t ht)
    refine (Run_scatter (fun i j => cellOf R (r * c) A (i * c + j)) hok hl).mono ?_
    intro _ m' s
    refine ⟨fun i j => Y (i * c + j), s.congr e, fun i hi j hj => ?_⟩
    have hlt := idx_lt hi hj
    have hc : 0 < c := by omega
    have e1 : (i * c + j) % c = j := by rw [Nat.mul_add_mod_self_right, Nat.mod_eq_of_lt hj]
    have e2 : (i * c + j) / c = i := by rw [Nat.mul_comm, Nat.mul_add_div hc, Nat.div_eq_of_lt hj, Nat.add_zero]
    have g1 := hY1 _ hlt
    rw [e1, e2] at g1
    refine ⟨g1, ?_⟩
    have g2 := hY2 _ hlt
    have g3 := hY3 _ hlt
    have hs : (1 : ℤ) ≤ sumM R := by exact_mod_cast C.sum_pos
    have hp : (2 : ℤ) ≤ p := by exact_mod_cast C.hp
    have le1 : ∑ i ∈ range R.size, ((R.basis i : ℤ) - 1) ≤ sumM R := by
      push_cast
      exact sum_le_sum (fun i _ => by omega)
    have nn : 0 ≤ ∑ i ∈ range R.size, ((R.basis i : ℤ) - 1) :=
      sum_nonneg (fun i hi => by have := C.bpos i (mem_range.1 hi); omega)
    rw [abs_le]
    constructor
    · nlinarith
    · refine g3.trans ?_
      calc ((p : ℤ) - 1) * ∑ i ∈ range R.size, ((R.basis i : ℤ) - 1) ≤ (p : ℤ) * ∑ i ∈ range R.size, ((R.basis i : ℤ) - 1) := by nlinarith
        _ ≤ _ := by exact mul_le_mul_of_nonneg_left le1 (by omega)

/-- the value the product must leave -/
def gvalRV (m : Mem (RV R)) (ta tb : Tr) (r c k : ℕ) (alpha : RV R) (A lda B ldb : ℕ) (beta : RV R) (C ldc i j : ℕ) : RV R :=
  alpha * Spec.mul k (Spec.op ta (m.mat (aw ta r k A lda))) (Spec.op tb (m.mat (aw tb k c B ldb))) i j + beta * m.mat ⟨C, ldc, r, c⟩ i j

lemma gemmRV_spec {gs : GemmFam} (hpr : ∀ t < R.size, (R.basis t).Prime) {n : ℕ} (hg : GemmFamOk gs n) (hk : ∀ t < R.size, n * (R.basis t - 1) ^ 2 < 2 ^ 53)
    {ta tb : Tr} {r c : ℕ} (alpha : RV R) {A lda B ldb : ℕ} (beta : RV R) {C ldc : ℕ} (h : GPre m ta tb r c n A lda B ldb C ldc) :
    Run (gemmRV gs R ta tb r c n alpha A lda B ldb beta C ldc) m
      (fun _ m' => Step m m' ⟨C, ldc, r, c⟩ (gvalRV m ta tb r c n alpha A lda B ldb beta C ldc)) := by
  unfold gemmRV
  refine (Run_loop (fun k (m' : Mem (RV R)) => m'.ok = m.ok ∧ m.next ≤ m'.next ∧
    (∀ i < r, ∀ j < c, ∀ t : Fin R.size, m'.val (C + i * ldc + j) t =
      if t.1 < k then gvalRV m ta tb r c n alpha A lda B ldb beta C ldc i j t else m.val (C + i * ldc + j) t) ∧
    ∀ a, m.ok a = true → ¬ (Win.mk C ldc r c).Has a → m'.val a = m.val a) ⟨rfl, le_rfl, by simp, fun _ _ _ => rfl⟩ ?_).mono ?_
  · rintro k m1 hk' ⟨h1, h2, h3, h4⟩
    rw [dif_pos hk']
    set t : Fin R.size := ⟨k, hk'⟩ with ht
    haveI : Fact (R.basis t).Prime := ⟨hpr k hk'⟩
    have gp : GPre (proj R t m1) ta tb r c n A lda B ldb C ldc := by
      refine ⟨fun a ha => ?_, fun a ha => ?_, fun a ha => ?_, fun a ha => ?_, h.lA, h.lB, h.lC, h.dA, h.dB⟩
      · show m1.ok a = false; rw [h1]; exact h.wf a (h2.trans ha)
      · show m1.ok a = true; rw [h1]; exact h.okA a ha
      · show m1.ok a = true; rw [h1]; exact h.okB a ha
      · show m1.ok a = true; rw [h1]; exact h.okC a ha
    obtain ⟨u, m2, e2, s2⟩ := hg (R.basis t) (hk k hk') ta tb r c (proj R t m1) (alpha t) A lda B ldb (beta t) C ldc gp
    refine ⟨(), putBack R t m1 m2, ?_, ?_⟩
    · unfold gemmOne
      rw [dif_pos (hpr k hk')]
      simp only [e2]
    · refine ⟨s2.ok.trans h1, h2.trans s2.next, fun i hi j hj t' => ?_, fun a ha hn => ?_⟩
      · show Function.update (m1.val _) t (m2.val _) t' = _
        by_cases e : t' = t
        · subst e
          rw [Function.update_self, if_pos (by simp [ht])]
          refine (s2.val i hi j hj).trans ?_
          unfold gval gvalRV
          rw [Pi.add_apply, Pi.mul_apply, Pi.mul_apply]
          congr 1
          · congr 1
            unfold Spec.mul
            rw [Finset.sum_apply]
            refine sum_congr rfl (fun l hl => ?_)
            have hl := mem_range.1 hl
            rw [Pi.mul_apply, op_mat, op_mat, op_mat, op_mat]
            show m1.val _ t * m1.val _ t = m.val _ t * m.val _ t
            rw [h4 _ (h.okA _ (op_Has hi hl)) (h.dA _ (op_Has hi hl)), h4 _ (h.okB _ (op_Has hl hj)) (h.dB _ (op_Has hl hj))]
          · congr 1
            have := h3 i hi j hj t
            rw [if_neg (by simp [ht])] at this
            exact this
        · rw [Function.update_of_ne e, h3 i hi j hj t']
          have : t'.1 ≠ k := fun e' => e (Fin.ext e')
          by_cases hlt : t'.1 < k
          · rw [if_pos hlt, if_pos (by omega)]
          · rw [if_neg hlt, if_neg (by omega)]
      · show Function.update (m1.val a) t (m2.val a) = m.val a
        have : m2.val a = m1.val a t := s2.frame a (by show m1.ok a = true; rw [h1]; exact ha) hn
        rw [this, Function.update_eq_self, h4 a ha hn]
  · rintro _ m' ⟨h1, h2, h3, h4⟩
    refine ⟨h1, h2, fun i hi j hj => ?_, h4⟩
    funext t
    exact (h3 i hi j hj t).trans (if_pos t.2)

lemma gvalRV_int {ta : Tr} {r c n A lda B ldb C ldc : ℕ} {a x z : ℕ → ℕ → ℤ} (ha : ∀ i < r, ∀ l < n, m.val (opAdr ta A lda i l) = (a i l : RV R))
    (hx : ∀ l < n, ∀ j < c, m.mat ⟨B, ldb, n, c⟩ l j = (x l j : RV R)) (hz : ∀ i < r, ∀ j < c, m.mat ⟨C, ldc, r, c⟩ i j = (z i j : RV R))
    {i j : ℕ} (hi : i < r) (hj : j < c) :
    gvalRV m ta .no r c n (-1) A lda B ldb 1 C ldc i j = ((z i j - ∑ l ∈ range n, a i l * x l j : ℤ) : RV R) := by
  unfold gvalRV Spec.mul
  rw [hz i hi j hj]
  have : ∑ l ∈ range n, Spec.op ta (m.mat (aw ta r n A lda)) i l * Spec.op .no (m.mat (aw .no n c B ldb)) l j = ∑ l ∈ range n, (a i l : RV R) * (x l j : RV R) := by
    refine sum_congr rfl (fun l hl => ?_)
    have hl := mem_range.1 hl
    rw [op_mat, ha i hi l hl]
    congr 1
    exact hx l hl j hj
  rw [this]
  push_cast
  ring

/-- the inverse of a number coprime to `p`, in `[0, p)` -/
lemma invRV_spec (C : Ctx E R T p k) {a : ℤ} (h0 : 0 ≤ a) (h1 : a < p) (hc : IsCoprime a (p : ℤ)) :
    Ok (invRV E R p (a : RV R)) (fun x => ∃ b : ℤ, x = (b : RV R) ∧ 0 ≤ b ∧ b < p ∧ a * b ≡ 1 [ZMOD p]) := by
  obtain ⟨_, _, g⟩ := C.good
  have hpM : p * (p * sumM R) ≤ prodM R.size R.basis := by
    have := C.room
    have := Nat.le_mul_of_pos_left (p * (p * sumM R)) C.kpos
    omega
  have hp := C.hp
  have hpp : 2 * p ≤ prodM R.size R.basis := by
    refine le_trans ?_ hpM
    have := C.sum_pos
    have : p ≤ p * sumM R := Nat.le_mul_of_pos_right _ C.sum_pos
    nlinarith
  unfold invRV
  rw [Ok_bind]
  refine (fconv_spec C.sched g 1 1 0 _ 1 (cols R [(a : RV R)]) (by simp [cols]) (fun i hi j hj => by simp [Arr.ofList]; omega) le_rfl (fun _ _ => a)
    (fun _ _ _ _ => by omega) ?_).mono ?_
  · intro t ht i hi j hj
    have := cols_get C.bpos (l := [(a : RV R)]) (j := 0) (t := t) (z := a) (by simp) ht rfl
    obtain rfl : i = 0 := by omega
    obtain rfl : j = 0 := by omega
    simpa using this
  · rintro d ⟨d1, d2, -⟩
    have d3 : d.get 0 = a := by simpa using d2 0 (by omega) 0 (by omega)
    rw [Ok_bind, Ok_rd]
    refine ⟨by rw [d1]; simp [Arr.ofList], ?_⟩
    rw [d3, Ok_bind]
    have ea : (a % (p : ℤ)).toNat = a.toNat % p := by
      rw [Int.emod_eq_of_lt h0 h1, Nat.mod_eq_of_lt (by omega)]
    obtain ⟨b, hb, hb1, hb2⟩ := modInv_ok a.toNat p hp (by
      have : ((a.toNat : ℕ) : ℤ) = a := Int.toNat_of_nonneg h0
      rw [← this] at hc
      exact Nat.isCoprime_iff_coprime.1 hc)
    rw [ea, hb, Ok_ok, Ok_bind]
    have hw : up16 (bitsz p) ≤ words (prodM R.size R.basis) := up16_le_words (by omega) (prodM_pos g.cop)
    refine (finit_spec C.sched g 3 1 1 _ (Arr.ofList [(b : ℤ)]) 1 hw (fun i hi j hj => by simp [Arr.ofList]; omega) ?_).mono ?_
    · intro i hi j hj
      obtain rfl : i = 0 := by omega
      obtain rfl : j = 0 := by omega
      exact natAbs_lt_up16 (by simp [Arr.ofList]; omega)
    · rintro x ⟨x1, x2⟩
      rw [Ok_pure]
      refine ⟨b, cellOf_int (fun t ht => ?_), by omega, by omega, ?_⟩
      · have := x2 t ht 0 (by omega) 0 (by omega)
        simpa [Arr.ofList] using this
      · have h3 := Int.natCast_modEq_iff.2 hb2
        push_cast [Int.toNat_of_nonneg h0] at h3
        exact h3

end ctx

end Verif.MP
