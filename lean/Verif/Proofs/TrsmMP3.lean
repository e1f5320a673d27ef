import Verif.Proofs.TrsmMP2
import Mathlib.Algebra.BigOperators.ModEq

/-!
# Proofs for `ftrsm` over `Modular<Integer>`: the residue system, the conversions, the whole routine
-/

namespace Verif.MP

open Verif.RNS Verif.FF Verif.Lazy Finset

/-- the constructor of the residue system for `RNSIntegerMod` returns -/
def ReturnsMod (E : Env) (bound pbits : ℕ) : Prop := (buildBound (E.cand pbits) bound true E.inner E.fuel ⟨[], 1, 1, 0⟩).isSome = true

lemma sum_le_len {l : List ℕ} {w : ℕ} (h : ∀ q ∈ l, q < w) : l.sum ≤ l.length * w := by
  induction l with
  | nil => simp
  | cons a l ih =>
    have h1 := ih (fun q hq => h q (by simp [hq]))
    have h2 := h a (by simp)
    simp only [List.sum_cons, List.length_cons, Nat.succ_mul]
    omega

lemma buildMod_len (cand : ℕ → ℕ) (e w n0 bound inner : ℕ) (lo : ∀ i, 2 ^ e ≤ cand i) (hi : ∀ i, cand i < w)
    (hb : bound * (1 + n0 * w) ≤ (2 ^ e) ^ n0) :
    ∀ (fuel : ℕ) (b b' : Build), b.sum = 1 + b.basis.sum → (2 ^ e) ^ b.basis.length ≤ b.M → b.basis.length ≤ n0 → (∀ q ∈ b.basis, ∃ i, q = cand i) →
      buildBound cand bound true inner fuel b = some b' → b'.basis.length ≤ n0 ∧ ∀ q ∈ b'.basis, ∃ i, q = cand i := by
  intro fuel
  induction fuel with
  | zero =>
    intro b b' _ _ h3 h4 h
    rw [buildBound] at h
    split_ifs at h with h1
    rw [Option.some.injEq] at h; subst h
    exact ⟨h3, h4⟩
  | succ f ih =>
    intro b b' hs hM h3 h4 h
    rw [buildBound] at h
    by_cases h1 : b.M < bound * b.sum
    · rw [if_pos h1] at h
      cases hp : pick cand b.M inner b.pos with
      | none => rw [hp] at h; simp at h
      | some q =>
        rw [hp] at h
        refine ih _ b' ?_ ?_ ?_ ?_ h
        · simp only [if_true, List.sum_append, List.sum_cons, List.sum_nil, hs]; omega
        · simp only [List.length_append, List.length_singleton, pow_succ]
          exact Nat.mul_le_mul hM (lo q)
        · simp only [List.length_append, List.length_singleton]
          by_contra hh
          have e1 : b.basis.length = n0 := by omega
          rw [e1] at hM
          have h5 : b.basis.sum ≤ n0 * w := by
            rw [← e1]
            exact sum_le_len (fun q hq => by obtain ⟨i, rfl⟩ := h4 q hq; exact hi i)
          have h6 : bound * b.sum ≤ bound * (1 + n0 * w) := Nat.mul_le_mul_left _ (by omega)
          omega
        · intro x hx
          rcases List.mem_append.1 hx with hx | hx
          · exact h4 x hx
          · exact ⟨q, by simpa using hx⟩
    · rw [if_neg h1, Option.some.injEq] at h; subst h
      exact ⟨h3, h4⟩

lemma sumM_list (l : List ℕ) : ∑ t ∈ range l.length, l.getD t 0 = l.sum := by
  induction l with
  | nil => simp
  | cons a l ih =>
    rw [List.length_cons, sum_range_succ', List.sum_cons, ← ih]
    simp [add_comm]

lemma mkRnsMod_spec {E : Env} {bound pbits w n0 : ℕ} (hE : EnvOk E pbits) (hr : ReturnsMod E bound pbits) (hp' : pbits ≤ 26) (hw : ∀ i, E.cand pbits i < w)
    (hb : bound * (1 + n0 * w) ≤ (2 ^ (pbits - 2)) ^ n0) (hn : n0 ≤ 1024) :
    Ok (mkRnsMod E bound pbits) (fun R => Good R bound pbits ∧ bound * (1 + sumM R) ≤ prodM R.size R.basis ∧ R.size ≤ n0 ∧ ∀ t < R.size, R.basis t < w) := by
  unfold mkRnsMod
  unfold ReturnsMod at hr
  obtain ⟨b, hb1⟩ := Option.isSome_iff_exists.1 hr
  rw [hb1]
  obtain ⟨⟨h1, h2, h3, h4⟩, h5⟩ := buildBound_spec (E.cand pbits) hE.prime bound true _ _ _ b ⟨by simp, by simp, by simp, by simp⟩ hb1
  obtain ⟨h6, h7⟩ := buildMod_len (E.cand pbits) (pbits - 2) w n0 bound _ (fun i => (hE.lo i).le) hw hb _ _ b (by simp) (by simp) (by simp) (by simp) hb1
  have hc := coprime_list b.basis h1 h2
  simp only [if_true] at h4
  rw [h4] at h5
  refine (precompute_spec _ _ hc E.junkN (E.junk 0)).mono (fun R hR => ?_)
  have e1 := hR.size_eq
  have e2 := hR.basis_eq
  have get : ∀ t < R.size, R.basis t ∈ b.basis := fun t ht => by
    rw [e1] at ht
    rw [e2]
    simp only [List.getD_eq_getElem?_getD, List.getElem?_eq_getElem ht, Option.getD_some]
    exact List.getElem_mem ht
  have h8 : bound * (1 + sumM R) ≤ prodM R.size R.basis := by
    unfold sumM
    rw [e1, e2, prodM_list, ← h3, sumM_list]; exact h5
  have h9 : bound ≤ bound * (1 + sumM R) := Nat.le_mul_of_pos_right _ (by omega)
  refine ⟨⟨by rw [e1, e2]; exact hc, by rw [e1, e2]; exact hR, fun t ht => h1 _ (get t ht), fun t ht => ?_, fun t ht => ?_, by omega, h9.trans h8, hp'⟩, h8, by omega, fun t ht => ?_⟩
  · obtain ⟨i, e⟩ := h7 _ (get t ht); rw [e]; exact hE.lo i
  · obtain ⟨i, e⟩ := h7 _ (get t ht); rw [e]; exact hE.hi i
  · obtain ⟨i, e⟩ := h7 _ (get t ht); rw [e]; exact hw i

/-! ## Conversions -/

/-- index of entry `(i, j)` in the array of residues -/
def tIdx (tr : Bool) (m n i j : ℕ) : ℕ := if tr then j * m + i else i * n + j

lemma tIdx_lt (tr : Bool) {m n i j : ℕ} (hi : i < m) (hj : j < n) : tIdx tr m n i j < m * n := by
  unfold tIdx
  cases tr
  · have := lin_lt hj hi; simp only [Bool.false_eq_true, if_false]; omega
  · have := lin_lt hi hj; simp only [if_true]; rw [Nat.mul_comm m n]; omega

lemma tIdx_row (tr : Bool) {m n i j : ℕ} (hi : i < m) (hj : j < n) : rowOf tr m n (tIdx tr m n i j) = i ∧ colOf tr m n (tIdx tr m n i j) = j := by
  unfold rowOf colOf tIdx
  cases tr
  · simp only [Bool.false_eq_true, if_false]
    exact ⟨by rw [Nat.mul_comm, Nat.mul_add_div (by omega), Nat.div_eq_of_lt hj, Nat.add_zero], by rw [Nat.mul_add_mod_self_right, Nat.mod_eq_of_lt hj]⟩
  · simp only [if_true]
    exact ⟨by rw [Nat.mul_add_mod_self_right, Nat.mod_eq_of_lt hi], by rw [Nat.mul_comm, Nat.mul_add_div (by omega), Nat.div_eq_of_lt hi, Nat.add_zero]⟩

lemma tIdx_surj (tr : Bool) {m n idx : ℕ} (h : idx < m * n) : tIdx tr m n (rowOf tr m n idx) (colOf tr m n idx) = idx := by
  unfold rowOf colOf tIdx
  cases tr
  · simp only [Bool.false_eq_true, if_false]; rw [Nat.mul_comm]; exact Nat.div_add_mod idx n
  · simp only [if_true]; rw [Nat.mul_comm]; exact Nat.div_add_mod idx m

variable {E : Env} {R : Rns} {bound pbits : ℕ}

lemma finitT_spec (hs : ∀ c k t idx, (E.sched c k t idx).Covers k) (h : Good R bound pbits) (c : ℕ) (tr : Bool) (m n k : ℕ) (A : Arr ℤ) (lda : ℕ)
    (hk : k ≤ words (prodM R.size R.basis)) (hA : ∀ i < m, ∀ j < n, i * lda + j < A.len)
    (hb : ∀ i < m, ∀ j < n, (A.get (i * lda + j)).natAbs < 2 ^ (16 * k)) :
    Ok (finitT E c R tr m n k A lda) (fun B => ∀ i < m, ∀ j < n, cellOf R (m * n) B (tIdx tr m n i j) = (A.get (i * lda + j) : RV R)) := by
  unfold finitT
  refine (init_spec R R.size R.basis h.cop h.pre tr false m n _ (m * n) A lda k _ _ (fun t idx => hs _ _ _ _) (by rw [h.pre.ldm_eq]; exact hk) (h.fitIn hk)
    (fun i hi j hj => by have := hA i hi j hj; omega) (fun i hi j hj => by have := hb i hi j hj; rwa [Nat.add_comm] at this) ?_).mono ?_
  · simp only [AddrOk, Bool.false_eq_true, if_false]
    refine ⟨le_rfl, fun t ht idx hi => ?_⟩
    have := lin_lt hi ht
    simp only [Arr.mk']; omega
  · rintro B ⟨-, h2, -⟩ i hi j hj
    refine cellOf_int (fun t ht => ?_)
    have h3 := h2 t ht (tIdx tr m n i j) (tIdx_lt tr hi hj)
    rw [(tIdx_row tr hi hj).1, (tIdx_row tr hi hj).2] at h3
    simp only [addr, Bool.false_eq_true, if_false] at h3
    rw [Nat.add_comm, h3, Nat.add_comm j]

lemma fconvT_spec (hs : ∀ c k t idx, (E.sched c k t idx).Covers k) (h : Good R bound pbits) (tr : Bool) (m n : ℕ) (A : Arr ℤ) (lda : ℕ)
    (X : List (RV R)) (hl : X.length = m * n) (hA : ∀ i < m, ∀ j < n, i * lda + j < A.len) (hlda : n ≤ lda) (V : ℕ → ℕ → ℤ)
    (hX : ∀ i < m, ∀ j < n, 2 * |V i j| < prodM R.size R.basis)
    (hres : ∀ i < m, ∀ j < n, X.getD (tIdx tr m n i j) 0 = (V i j : RV R)) :
    Ok (fconvT E R tr m n 0 A lda (cols R X)) (fun B => B.len = A.len ∧ (∀ i < m, ∀ j < n, B.get (i * lda + j) = V i j) ∧
      ∀ x, (∀ i < m, ∀ j < n, x ≠ i * lda + j) → B.get x = A.get x) := by
  unfold fconvT
  have bp : ∀ t < R.size, 0 < R.basis t := fun t ht => (h.pr t ht).pos
  refine (convert_spec R R.size R.basis h.cop h.pre tr false (by simp) m n 0 A lda (cols R X) _ _ (fun idx l => hs _ _ _ _) h.fitOut
    (fun i hi j hj => by have := hA i hi j hj; omega) hlda ?_ (fun idx => V (rowOf tr m n idx) (colOf tr m n idx)) ?_ ?_).mono ?_
  · simp only [AddrOk, Bool.false_eq_true, if_false]
    refine ⟨le_rfl, fun t ht idx hi => ?_⟩
    have := lin_lt hi ht
    simp only [cols, hl]; omega
  · intro idx hi
    obtain ⟨h1, h2⟩ := rowcol_lt tr m n idx hi
    have := hX _ h1 _ h2
    omega
  · intro t ht idx hi
    obtain ⟨h1, h2⟩ := rowcol_lt tr m n idx hi
    have h3 := hres _ h1 _ h2
    rw [tIdx_surj tr hi] at h3
    have h4 := cols_get bp (by rw [hl]; exact hi) ht h3
    simp only [addr, Bool.false_eq_true, if_false]
    rw [hl] at h4
    rw [Nat.add_comm]; exact h4
  · rintro B ⟨h1, h2, h3⟩
    refine ⟨h1, fun i hi j hj => ?_, fun x hx => h3 x (fun i hi j hj => by have := hx i hi j hj; omega)⟩
    have h4 := h2 (tIdx tr m n i j) (tIdx_lt tr hi hj)
    rw [(tIdx_row tr hi hj).1, (tIdx_row tr hi hj).2] at h4
    rw [Nat.add_comm, h4]; ring

/-! ## The solve -/

section solve
variable {T : ModTables} {p K c : ℕ} {gs : GemmFam} {u : Uplo} {ta : Tr} {d : Diag}

lemma core_spec (C : Ctx E R T p K) (hg : ∀ j ≤ K, GemmFamOk gs j) (LA LB : List (RV R)) (a0 z : ℕ → ℕ → ℤ) (lA : LA.length = K * K) (lB : LB.length = K * c)
    (vA : ∀ i < K, ∀ l < K, LA.getD (i * K + l) 0 = (a0 i l : RV R)) (rA : ∀ i < K, ∀ l < K, 0 ≤ a0 i l ∧ a0 i l < p)
    (vB : ∀ i < K, ∀ j < c, LB.getD (i * c + j) 0 = (z i j : RV R)) (rB : ∀ i < K, ∀ j < c, |z i j| ≤ p)
    (hd : DiagInv p d K a0) :
    Run (rnsTrsm E gs R T p u ta d K c 0 K (K * K) c) (memOf (LA ++ LB)) (fun _ m' => ∃ x : ℕ → ℕ → ℤ,
      (∀ i < K, ∀ j < c, m'.val (K * K + (i * c + j)) = (x i j : RV R)) ∧ (∀ i < K, ∀ j < c, |x i j| ≤ p * sumM R) ∧
      ∀ i < K, ∀ j < c, ∑ l ∈ range K, Spec.tri (effUplo u ta) d (Spec.op ta a0) i l * x l j ≡ z i j [ZMOD p]) := by
  rcases Nat.eq_zero_or_pos c with rfl | hc
  · unfold rnsTrsm
    rw [if_pos (Or.inr rfl), Run_pure]
    exact ⟨fun _ _ => 0, by simp, by simp, by simp⟩
  have kp := C.kpos
  have lin : ∀ {r s q : ℕ}, r < K → s < q → r * q + s < K * q := fun {r s q} h1 h2 => by have := lin_lt h2 h1; omega
  have gA : ∀ x < K * K, (LA ++ LB).getD x 0 = LA.getD x 0 := fun x hx => by
    rw [List.getD_eq_getElem?_getD, List.getElem?_append_left (by omega), ← List.getD_eq_getElem?_getD]
  have gB : ∀ x, (LA ++ LB).getD (K * K + x) 0 = LB.getD x 0 := fun x => by
    rw [List.getD_eq_getElem?_getD, List.getElem?_append_right (by omega), lA, Nat.add_sub_cancel_left, ← List.getD_eq_getElem?_getD]
  have eA : (⟨0, K, K, K⟩ : Win).Ends (K * K) := Or.inr (Or.inr (by
    show 0 + (K - 1) * K + K ≤ K * K
    obtain ⟨k, rfl⟩ : ∃ k, K = k + 1 := ⟨K - 1, by omega⟩
    rw [Nat.add_sub_cancel]; nlinarith))
  have eB : (⟨K * K, c, K, c⟩ : Win).Ends (LA ++ LB).length := Or.inr (Or.inr (by
    rw [List.length_append, lA, lB]
    show K * K + (K - 1) * c + c ≤ _
    obtain ⟨k, rfl⟩ : ∃ k, K = k + 1 := ⟨K - 1, by omega⟩
    rw [Nat.add_sub_cancel]; nlinarith))
  have eA' : (⟨0, K, K, K⟩ : Win).Ends (LA ++ LB).length := by
    rcases eA with h | h | h
    · exact Or.inl h
    · exact Or.inr (Or.inl h)
    · exact Or.inr (Or.inr (h.trans (by rw [List.length_append, lA]; omega)))
  have sp := C.sum_pos
  have P : MPre R p (memOf (LA ++ LB)) ta K c 0 K (K * K) c (Spec.op ta a0) z := by
    refine ⟨WF_memOf _, OkIn_memOf eA', OkIn_memOf eB, le_rfl, le_rfl, eA.disj, ?_, ?_, ?_, ?_⟩
    · intro i hi l hl
      cases ta
      · simp only [opAdr, Spec.op, Nat.zero_add]; exact (gA _ (lin hi hl)).trans (vA i hi l hl)
      · simp only [opAdr, Spec.op, Nat.zero_add]; exact (gA _ (lin hl hi)).trans (vA l hl i hi)
    · intro i hi l hl
      cases ta
      · exact rA i hi l hl
      · exact rA l hl i hi
    · intro i hi j hj
      show (LA ++ LB).getD (K * K + i * c + j) 0 = _
      rw [Nat.add_assoc, gB]; exact vB i hi j hj
    · intro i hi j hj
      refine C.room_small le_rfl ((rB i hi j hj).trans ?_)
      have : (1 : ℤ) ≤ sumM R := by exact_mod_cast sp
      have hp0 : (0 : ℤ) ≤ p := by positivity
      nlinarith
  refine (rnsTrsm_spec C hg _ _ _ _ _ P (fun hu i hi => ?_) (by omega)).mono ?_
  · cases ta <;> exact hd hu i hi
  · rintro _ m' ⟨x, s, bx, ex⟩
    refine ⟨x, fun i hi j hj => ?_, bx, ex⟩
    have := s.val i hi j hj
    rw [← this]
    show m'.val _ = m'.val _
    congr 1
    simp only [Win.adr]; ring

end solve

lemma tri_op (u : Uplo) (ta : Tr) (d : Diag) (a : ℕ → ℕ → ℤ) (i l : ℕ) : Spec.tri (effUplo u ta) d (Spec.op ta a) i l = Spec.op ta (Spec.tri u d a) i l := by
  cases ta
  · cases u <;> rfl
  · by_cases h : i = l
    · subst h; cases u <;> cases d <;> simp [Spec.tri, Spec.op, effUplo]
    · have h' : l ≠ i := fun e => h e.symm
      cases u <;> simp [Spec.tri, Spec.op, effUplo, h, h']

lemma tri_flip (u : Uplo) (ta : Tr) (d : Diag) (a : ℕ → ℕ → ℤ) (i l : ℕ) :
    Spec.tri (effUplo (flipUplo u) ta) d (Spec.op ta (fun i j => a j i)) i l = Spec.op ta (Spec.tri u d a) l i := by
  rw [tri_op]
  have key : ∀ i l, Spec.tri (flipUplo u) d (fun i j => a j i) i l = Spec.tri u d a l i := by
    intro i l
    by_cases h : i = l
    · subst h; cases u <;> cases d <;> simp [Spec.tri, flipUplo]
    · have h' : l ≠ i := fun e => h e.symm
      cases u <;> simp [Spec.tri, flipUplo, h, h']
  cases ta <;> simp only [Spec.op, key]

/-- Sizes for which all the conversions and reductions are exact: `n0` moduli smaller than `w` suffice. -/
structure Sizes (p K w n0 : ℕ) : Prop where
  few : n0 ≤ 1024
  bits : 3 ≤ trsmBits p K
  enough : 4 * p * p * K * (1 + n0 * w) ≤ (2 ^ (trsmBits p K - 2)) ^ n0
  exact : n0 * w ^ 2 ≤ 2 ^ 53

lemma trsmBits_fit {p K : ℕ} (hK : 1 ≤ K) (h3 : 3 ≤ trsmBits p K) : trsmBits p K ≤ 26 ∧ K * 2 ^ (2 * trsmBits p K) < 2 ^ 53 := by
  unfold trsmBits at *
  set s := Nat.size (max K (bitsz p / 20)) with hs
  have h1 : 1 ≤ s := Nat.size_pos.2 (by omega)
  refine ⟨by omega, ?_⟩
  have h2 : K < 2 ^ s := lt_of_le_of_lt (le_max_left _ _) (Nat.lt_size_self _)
  have h4 : s + 2 * ((53 - s) / 2) ≤ 53 := by omega
  calc K * 2 ^ (2 * ((53 - s) / 2)) < 2 ^ s * 2 ^ (2 * ((53 - s) / 2)) := Nat.mul_lt_mul_of_pos_right h2 (by positivity)
    _ = 2 ^ (s + 2 * ((53 - s) / 2)) := (pow_add _ _ _).symm
    _ ≤ 2 ^ 53 := Nat.pow_le_pow_right (by norm_num) h4

lemma ftrsmModZ_spec {gs : GemmFam} {p w n0 : ℕ} {side : Side} {u : Uplo} {ta : Tr} {d : Diag} {M N : ℕ} {alpha : ℤ} {A B : Arr ℤ} {lda ldb : ℕ}
    (hp : 2 ≤ p) (hE : EnvOk E (trsmBits p (trNa side M N))) (hw : ∀ i, E.cand (trsmBits p (trNa side M N)) i < w)
    (hz : Sizes p (trNa side M N) w n0) (hg : ∀ j ≤ trNa side M N, GemmFamOk gs j)
    (hr : ReturnsMod E (4 * p * p * trNa side M N) (trsmBits p (trNa side M N)))
    (lA : ∀ i < trNa side M N, ∀ j < trNa side M N, i * lda + j < A.len) (lB : ∀ i < M, ∀ j < N, i * ldb + j < B.len) (hldb : N ≤ ldb)
    (rA : ∀ i < trNa side M N, ∀ j < trNa side M N, 0 ≤ im A lda i j ∧ im A lda i j < p) (rB : ∀ i < M, ∀ j < N, 0 ≤ im B ldb i j ∧ im B ldb i j < p)
    (hd : DiagInv p d (trNa side M N) (im A lda)) :
    Ok (ftrsmModZ E gs p side u ta d M N alpha A lda B ldb) (fun D => D.len = B.len ∧
      (∀ i < M, ∀ j < N, 0 ≤ im D ldb i j ∧ im D ldb i j < p ∧
        Spec.sideMul side (trNa side M N) (Spec.op ta (Spec.tri u d (im A lda))) (im D ldb) i j ≡ alpha * im B ldb i j [ZMOD p]) ∧
      ∀ x, (∀ i < M, ∀ j < N, x ≠ i * ldb + j) → D.get x = B.get x) := by
  set K := trNa side M N with hK
  clear_value K
  unfold ftrsmModZ
  simp only
  rw [← hK]
  by_cases hK0 : K = 0
  · rw [if_pos hK0, Ok_pure]
    refine ⟨rfl, fun i hi j hj => ?_, fun _ _ => rfl⟩
    cases side <;> simp only [trNa] at hK <;> omega
  rw [if_neg hK0]
  have hK1 : 1 ≤ K := by omega
  obtain ⟨hb26, hfit⟩ := trsmBits_fit hK1 hz.bits
  simp only [Ok_bind]
  refine (mkRnsMod_spec hE hr hb26 hw hz.enough hz.few).mono ?_
  rintro R ⟨g, room, few, bw⟩
  refine (modTables_spec R R.size R.basis g.pre p (by omega) _).mono ?_
  intro T hT
  have hpK : 1 ≤ p * p * K := by
    have : 0 < p * p * K := by positivity
    omega
  have M1 : 4 * p * p * K = 4 * (p * p * K) := by ring
  have Mp : p ≤ prodM R.size R.basis := by
    refine le_trans ?_ g.bound
    have : p * 1 ≤ p * (p * K) := Nat.mul_le_mul_left _ (Nat.mul_pos (by omega) (by omega))
    nlinarith
  have spos : 1 ≤ R.size := by
    by_contra hh
    have e : R.size = 0 := by omega
    have := g.bound
    rw [e, prodM, Finset.range_zero, Finset.prod_empty] at this
    omega
  have C : Ctx E R T p K := by
    refine ⟨⟨_, _, g⟩, hp, hT, ?_, hE.sched, spos, ?_, hK1, ?_⟩
    · intro k hk
      have t1 : ∀ s < R.size, (R.basis s : ℤ) + 1 ≤ w := fun s hs => by have := bw s hs; omega
      have b8 : ∀ s < R.size, (3 : ℤ) ≤ R.basis s := fun s hs => by
        have h1 := g.lo s hs
        have h2 : 2 ^ 1 ≤ 2 ^ (trsmBits p K - 2) := Nat.pow_le_pow_right (by norm_num) (by have := hz.bits; omega)
        omega
      have hwk : (R.basis k : ℤ) + 1 ≤ w := t1 k hk
      have hbk := b8 k hk
      have h1 : ∑ s ∈ range R.size, ((R.basis k : ℤ) - 1) * ((R.basis s : ℤ) - 1) ≤ R.size * (((w : ℤ) - 2) * (w - 2)) := by
        refine (sum_le_card_nsmul _ _ (((w : ℤ) - 2) * (w - 2)) (fun s hs => ?_)).trans (by rw [card_range, nsmul_eq_mul])
        have := t1 s (mem_range.1 hs)
        have := b8 s (mem_range.1 hs)
        exact mul_le_mul (by omega) (by omega) (by omega) (by omega)
      have h2 : ((R.size : ℤ)) ≤ n0 := by exact_mod_cast few
      have h3 : ((n0 : ℤ)) * w ^ 2 ≤ 2 ^ 53 := by exact_mod_cast hz.exact
      have h4 : (1 : ℤ) ≤ R.size := by exact_mod_cast spos
      have h5 : (R.size : ℤ) * w ^ 2 ≤ n0 * w ^ 2 := mul_le_mul_of_nonneg_right h2 (by positivity)
      have h6 : (R.size : ℤ) * (((w : ℤ) - 2) * (w - 2)) = R.size * w ^ 2 - R.size * (4 * w - 4) := by ring
      have h7 : (4 * (w : ℤ) - 4) ≤ R.size * (4 * w - 4) := by nlinarith
      omega
    · refine le_trans ?_ room
      have : 4 * (K * (p * (p * sumM R))) = 4 * p * p * K * sumM R := by ring
      rw [this]
      exact Nat.mul_le_mul_left _ (by omega)
    · intro t ht
      refine lt_of_le_of_lt (Nat.mul_le_mul_left _ ?_) hfit
      have h1 := g.hi t ht
      rw [Nat.mul_comm 2, pow_mul]
      exact Nat.pow_le_pow_left (by omega) 2
  have hs := hE.sched
  have hk := up16_le_words Mp (by omega)
  have sz : ∀ x : ℤ, 0 ≤ x ∧ x < p → x.natAbs < 2 ^ (16 * up16 (bitsz p)) := fun x hx => natAbs_lt_up16 (by omega)
  have sumpos := C.sum_pos
  have small : ∀ x : ℤ, |x| ≤ p * sumM R → 2 * |x| < prodM R.size R.basis := by
    intro x hx
    have h1 : (4 * (K * unitM R p) : ℤ) ≤ prodM R.size R.basis := by have := C.room; unfold unitM; exact_mod_cast this
    have h2 : (1 : ℤ) ≤ K := by exact_mod_cast hK1
    have h3 : (p * sumM R : ℤ) ≤ unitM R p := by
      unfold unitM
      push_cast
      have : (0 : ℤ) ≤ p * ∑ t ∈ range R.size, (R.basis t : ℤ) := by positivity
      have : (1 : ℤ) ≤ p := by omega
      nlinarith
    have h4 : unitM R p ≤ K * unitM R p := by have := unitM_nonneg R p; nlinarith
    have h5 : (1 : ℤ) ≤ p * sumM R := by
      have a1 : (1 : ℤ) ≤ sumM R := by exact_mod_cast sumpos
      have a2 : (1 : ℤ) ≤ p := by omega
      nlinarith
    omega
  set tr : Bool := trOf side with htr
  refine (finitT_spec hs g 1 tr K K _ A lda hk lA (fun i hi j hj => sz _ (rA i hi j hj))).mono ?_
  intro Ap hAp
  refine (finitT_spec hs g 2 tr M N _ B ldb hk lB (fun i hi j hj => sz _ (rB i hi j hj))).mono ?_
  intro Bp hBp
  -- the solve
  have key : Ok (solveRV E gs R T p side u ta d M N Ap Bp) (fun X => X.length = M * N ∧ ∃ V : ℕ → ℕ → ℤ,
      (∀ i < M, ∀ j < N, X.getD (tIdx tr M N i j) 0 = (V i j : RV R)) ∧ (∀ i < M, ∀ j < N, |V i j| ≤ p * sumM R) ∧
      ∀ i < M, ∀ j < N, Spec.sideMul side K (Spec.op ta (Spec.tri u d (im A lda))) V i j ≡ im B ldb i j [ZMOD p]) := by
    unfold solveRV
    simp only
    rw [← hK]
    have mapget : ∀ (n : ℕ) (f : ℕ → RV R) (x : ℕ), x < n → ((List.range n).map f).getD x 0 = f x := fun n f x hx => by
      simp [List.getD_eq_getElem?_getD, hx]
    have absz : ∀ i < M, ∀ j < N, |im B ldb i j| ≤ p := fun i hi j hj => by
      obtain ⟨h1, h2⟩ := rB i hi j hj
      rw [abs_of_nonneg h1]; exact h2.le
    cases side with
    | left =>
      simp only [trNa] at hK
      subst hK
      obtain ⟨⟨⟩, m', e, x, vx, bx, ex⟩ := core_spec (u := u) (ta := ta) (d := d) (c := N) C hg ((List.range (K * K)).map (cellOf R (K * K) Ap))
        ((List.range (K * N)).map (cellOf R (K * N) Bp)) (im A lda) (im B ldb) (by simp) (by simp)
        (fun i hi l hl => by rw [mapget _ _ _ (by have := lin_lt hl hi; omega)]; exact hAp i hi l hl) rA
        (fun i hi j hj => by rw [mapget _ _ _ (by have := lin_lt hj hi; omega)]; exact hBp i hi j hj) absz hd
      simp only [e]
      refine ⟨_, rfl, by simp, x, fun i hi j hj => ?_, bx, fun i hi j hj => ?_⟩
      · rw [mapget _ _ _ (tIdx_lt tr hi hj)]; exact vx i hi j hj
      · have := ex i hi j hj
        simp only [tri_op] at this
        exact this
    | right =>
      simp only [trNa] at hK
      subst hK
      obtain ⟨⟨⟩, m', e, x, vx, bx, ex⟩ := core_spec (u := flipUplo u) (ta := ta) (d := d) (c := M) C hg ((List.range (K * K)).map (cellOf R (K * K) Ap))
        ((List.range (M * K)).map (cellOf R (M * K) Bp)) (fun i j => im A lda j i) (fun i j => im B ldb j i) (by simp) (by simp [Nat.mul_comm])
        (fun i hi l hl => by rw [mapget _ _ _ (by have := lin_lt hl hi; omega)]; exact hAp l hl i hi) (fun i hi l hl => rA l hl i hi)
        (fun i hi j hj => by rw [mapget _ _ _ (by have := lin_lt hj hi; rw [Nat.mul_comm M K]; omega)]; exact hBp j hj i hi) (fun i hi j hj => absz j hj i hi)
        (fun hu i hi => hd hu i hi)
      simp only [e]
      refine ⟨_, rfl, by simp, fun i j => x j i, fun i hi j hj => ?_, fun i hi j hj => bx j hj i hi, fun i hi j hj => ?_⟩
      · rw [mapget _ _ _ (tIdx_lt tr hi hj)]; exact vx j hj i hi
      · have := ex j hj i hi
        simp only [tri_flip] at this
        simp only [Spec.sideMul, Spec.mul]
        rw [sum_congr rfl (fun l _ => mul_comm _ _)]
        exact this
  refine key.mono ?_
  rintro X ⟨hl, V, v1, v2, v3⟩
  refine (fconvT_spec hs g tr M N B ldb X hl lB hldb V (fun i hi j hj => small _ (v2 i hi j hj)) v1).mono ?_
  rintro B1 ⟨b1, b2, b3⟩
  refine (freduceZ_spec p M N B1 ldb (by rw [b1]; exact lB) hldb).mono ?_
  rintro B2 ⟨c1, c2, c3⟩
  have p0 : (0 : ℤ) < p := by omega
  have lin : ∀ (D : ℕ → ℕ → ℤ) (c : ℤ), (∀ i < M, ∀ j < N, D i j ≡ c * V i j [ZMOD p]) → ∀ i < M, ∀ j < N,
      Spec.sideMul side K (Spec.op ta (Spec.tri u d (im A lda))) D i j ≡ c * im B ldb i j [ZMOD p] := by
    intro D c hD i hi j hj
    refine Int.ModEq.trans ?_ ((v3 i hi j hj).mul_left c)
    cases side with
    | left =>
      simp only [trNa] at hK
      simp only [Spec.sideMul, Spec.mul, mul_sum]
      refine Int.ModEq.sum (fun l hl => ?_)
      have := (hD l (by have := mem_range.1 hl; omega) j hj).mul_left (Spec.op ta (Spec.tri u d (im A lda)) i l)
      rwa [mul_left_comm] at this
    | right =>
      simp only [trNa] at hK
      simp only [Spec.sideMul, Spec.mul, mul_sum]
      refine Int.ModEq.sum (fun l hl => ?_)
      have := (hD i hi l (by have := mem_range.1 hl; omega)).mul_right (Spec.op ta (Spec.tri u d (im A lda)) l j)
      rwa [mul_assoc] at this
  by_cases ha : alpha = 1
  · rw [if_pos ha, Ok_pure]
    refine ⟨c1.trans b1, fun i hi j hj => ?_, fun x hx => (c3 x hx).trans (b3 x hx)⟩
    have e1 : im B2 ldb i j = V i j % p := by rw [im, c2 i hi j hj, b2 i hi j hj]
    refine ⟨by rw [e1]; exact Int.emod_nonneg _ p0.ne', by rw [e1]; exact Int.emod_lt_of_pos _ p0, ?_⟩
    refine lin _ _ (fun i hi j hj => ?_) i hi j hj
    rw [im, c2 i hi j hj, b2 i hi j hj, ha, one_mul]
    exact Int.mod_modEq _ _
  · rw [if_neg ha]
    refine (fscalinZ_spec p M N alpha B2 ldb (by rw [c1, b1]; exact lB) hldb).mono ?_
    rintro B3 ⟨d1, d2, d3⟩
    refine ⟨d1.trans (c1.trans b1), fun i hi j hj => ?_, fun x hx => (d3 x hx).trans ((c3 x hx).trans (b3 x hx))⟩
    have e1 : im B3 ldb i j = alpha * (V i j % p) % p := by rw [im, d2 i hi j hj, c2 i hi j hj, b2 i hi j hj]
    refine ⟨by rw [e1]; exact Int.emod_nonneg _ p0.ne', by rw [e1]; exact Int.emod_lt_of_pos _ p0, ?_⟩
    refine lin _ _ (fun i hi j hj => ?_) i hi j hj
    rw [im, d2 i hi j hj, c2 i hi j hj, b2 i hi j hj]
    exact (Int.mod_modEq _ _).trans ((Int.mod_modEq _ _).mul_left _)

end Verif.MP
