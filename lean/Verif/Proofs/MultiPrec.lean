import Verif.Model.MultiPrec
import Verif.Proofs.RNSMod
import Verif.Proofs.Gemm

/-!
# Proofs for the multi-precision routines
-/

namespace Verif.MP

open Verif.RNS Verif.FF Verif.Lazy Finset

/-- the random primes have `pbits - 1` or `pbits` bits, and the summations visit every term once -/
structure EnvOk (E : Env) (pbits : ℕ) : Prop where
  prime : ∀ i, (E.cand pbits i).Prime
  lo : ∀ i, 2 ^ (pbits - 2) < E.cand pbits i
  hi : ∀ i, E.cand pbits i < 2 ^ pbits
  sched : ∀ c k t idx, (E.sched c k t idx).Covers k

/-- the constructor of the residue system returns -/
def Returns (E : Env) (bound pbits : ℕ) : Prop := (buildBound (E.cand pbits) bound false E.inner E.fuel ⟨[], 1, 1, 0⟩).isSome = true

/-- what the constructor guarantees -/
structure Good (R : Rns) (bound pbits : ℕ) : Prop where
  cop : Coprime' R.size R.basis
  pre : Pre R R.size R.basis
  pr : ∀ t < R.size, (R.basis t).Prime
  lo : ∀ t < R.size, 2 ^ (pbits - 2) < R.basis t
  hi : ∀ t < R.size, R.basis t < 2 ^ pbits
  size : R.size ≤ 1024
  bound : bound ≤ prodM R.size R.basis
  pb : pbits ≤ 26

lemma buildBound_len (cand : ℕ → ℕ) (e bound inner : ℕ) (lo : ∀ i, 2 ^ e ≤ cand i) :
    ∀ (fuel : ℕ) (b b' : Build), b.sum = 1 → (2 ^ e) ^ b.basis.length ≤ b.M → b.basis.length = 0 ∨ (2 ^ e) ^ (b.basis.length - 1) < bound →
      (∀ q ∈ b.basis, ∃ i, q = cand i) →
      buildBound cand bound false inner fuel b = some b' →
      (b'.basis.length = 0 ∨ (2 ^ e) ^ (b'.basis.length - 1) < bound) ∧ ∀ q ∈ b'.basis, ∃ i, q = cand i := by
  intro fuel
  induction fuel with
  | zero =>
    intro b b' _ _ h3 h4 h
    rw [buildBound] at h
    split_ifs at h with h1
    rw [Option.some.injEq] at h; subst h
    exact ⟨h3, h4⟩
  | succ f ih =>
    intro b b' hs hM h3 h4 h
    rw [buildBound] at h
    by_cases h1 : b.M < bound * b.sum
    · rw [if_pos h1] at h
      cases hp : pick cand b.M inner b.pos with
      | none => rw [hp] at h; simp at h
      | some q =>
        rw [hp] at h
        refine ih _ b' (by simpa using hs) ?_ (Or.inr ?_) ?_ h
        · simp only [List.length_append, List.length_singleton, pow_succ]
          exact Nat.mul_le_mul hM (lo q)
        · simp only [List.length_append, List.length_singleton, Nat.add_sub_cancel]
          rw [hs, mul_one] at h1
          omega
        · intro x hx
          rcases List.mem_append.1 hx with hx | hx
          · exact h4 x hx
          · exact ⟨q, by simpa using hx⟩
    · rw [if_neg h1, Option.some.injEq] at h; subst h
      exact ⟨h3, h4⟩

lemma mkRns_spec {E : Env} {bound pbits : ℕ} (hE : EnvOk E pbits) (hr : Returns E bound pbits) (hp : 3 ≤ pbits) (hp' : pbits ≤ 26)
    (hb : bound ≤ 2 ^ (1023 * (pbits - 2))) : Ok (mkRns E bound pbits) (fun R => Good R bound pbits ∧
      ∃ b, buildBound (E.cand pbits) bound false E.inner E.fuel ⟨[], 1, 1, 0⟩ = some b ∧ prodM R.size R.basis = b.basis.prod) := by
  unfold mkRns
  unfold Returns at hr
  obtain ⟨b, hb1⟩ := Option.isSome_iff_exists.1 hr
  rw [hb1]
  obtain ⟨⟨h1, h2, h3, h4⟩, h5⟩ := buildBound_spec (E.cand pbits) hE.prime bound false _ _ _ b ⟨by simp, by simp, by simp, by simp⟩ hb1
  obtain ⟨h6, h7⟩ := buildBound_len (E.cand pbits) (pbits - 2) bound _ (fun i => (hE.lo i).le) _ _ b rfl (by simp) (by simp) (by simp) hb1
  have hc := coprime_list b.basis h1 h2
  simp only [Bool.false_eq_true, if_false] at h4
  rw [h4, mul_one] at h5
  refine (precompute_spec _ _ hc E.junkN (E.junk 0)).mono (fun R hR => ?_)
  have e1 := hR.size_eq
  have e2 := hR.basis_eq
  have get : ∀ t < R.size, R.basis t ∈ b.basis := fun t ht => by
    rw [e1] at ht
    rw [e2]
    simp only [List.getD_eq_getElem?_getD, List.getElem?_eq_getElem ht, Option.getD_some]
    exact List.getElem_mem ht
  refine ⟨⟨by rw [e1, e2]; exact hc, by rw [e1, e2]; exact hR, fun t ht => h1 _ (get t ht), fun t ht => ?_, fun t ht => ?_, ?_, ?_, hp'⟩, b, rfl, by rw [e1, e2, prodM_list]⟩
  · obtain ⟨i, e⟩ := h7 _ (get t ht); rw [e]; exact hE.lo i
  · obtain ⟨i, e⟩ := h7 _ (get t ht); rw [e]; exact hE.hi i
  · rw [e1]
    rcases h6 with h6 | h6
    · omega
    · have h8 := lt_of_lt_of_le h6 hb
      rw [← pow_mul, mul_comm] at h8
      have h9 := (Nat.pow_lt_pow_iff_right (by norm_num : 1 < 2)).1 h8
      have := Nat.lt_of_mul_lt_mul_right h9
      omega
  · rw [e1, e2, prodM_list, ← h3]; exact h5

section Good
variable {R : Rns} {bound pbits : ℕ}

lemma Good.lt26 (h : Good R bound pbits) {t : ℕ} (ht : t < R.size) : R.basis t < 2 ^ 26 :=
  lt_of_lt_of_le (h.hi t ht) (Nat.pow_le_pow_right (by norm_num) h.pb)

lemma Good.words_le (h : Good R bound pbits) : words (prodM R.size R.basis) ≤ 1664 := by
  have h1 : prodM R.size R.basis ≤ 2 ^ (26 * 1024) := by
    unfold prodM
    calc ∏ i ∈ range R.size, R.basis i ≤ ∏ _i ∈ range R.size, 2 ^ 26 := prod_le_prod (fun _ _ => Nat.zero_le _) (fun i hi => (h.lt26 (mem_range.1 hi)).le)
      _ = 2 ^ (26 * R.size) := by rw [prod_const, card_range, ← pow_mul]
      _ ≤ _ := Nat.pow_le_pow_right (by norm_num) (Nat.mul_le_mul_left _ h.size)
  rcases Nat.eq_zero_or_pos R.size with hz | hz
  · simp only [hz, prodM, range_zero, prod_empty]; decide
  have h0 : prodM R.size R.basis < 2 ^ (26 * 1024) := by
    refine lt_of_lt_of_le (b := 2 ^ (26 * R.size)) ?_ (Nat.pow_le_pow_right (by norm_num) (Nat.mul_le_mul_left _ h.size))
    unfold prodM
    calc ∏ i ∈ range R.size, R.basis i < ∏ _i ∈ range R.size, 2 ^ 26 := prod_lt_prod_of_nonempty (fun i hi => (h.pr i (mem_range.1 hi)).pos)
          (fun i hi => h.lt26 (mem_range.1 hi)) ⟨0, mem_range.2 hz⟩
      _ = 2 ^ (26 * R.size) := by rw [prod_const, card_range, ← pow_mul]
  have h2 := Nat.size_le.2 h0
  unfold words
  split_ifs <;> omega

lemma Good.fitIn (h : Good R bound pbits) {k : ℕ} (hk : k ≤ words (prodM R.size R.basis)) : FitIn R.size R.basis k := by
  intro t ht
  have h1 := h.lt26 ht
  have h2 := h.words_le
  have h3 := (h.pr t ht).pos
  have h8 : (R.basis t : ℤ) < 2 ^ 26 := by exact_mod_cast h1
  have h4 : (R.basis t : ℤ) - 1 ≤ 2 ^ 26 := by omega
  have h5 : (k : ℤ) ≤ 1664 := by exact_mod_cast hk.trans h2
  have h6 : (0 : ℤ) ≤ (R.basis t : ℤ) - 1 := by omega
  have h7 : (k : ℤ) * ((R.basis t - 1) * (2 ^ 16 - 1)) ≤ 1664 * (2 ^ 26 * (2 ^ 16 - 1)) :=
    mul_le_mul h5 (mul_le_mul_of_nonneg_right h4 (by norm_num)) (mul_nonneg h6 (by norm_num)) (by norm_num)
  norm_num at h7 h8 ⊢
  omega

lemma Good.fitOut (h : Good R bound pbits) : FitOut R.size R.basis := by
  unfold FitOut
  refine (sum_le_card_nsmul _ _ ((2 ^ 26) * (2 ^ 16 - 1) : ℤ) ?_).trans ?_
  · intro t ht
    have h1 := h.lt26 (mem_range.1 ht)
    have : (R.basis t : ℤ) < 2 ^ 26 := by exact_mod_cast h1
    exact mul_le_mul_of_nonneg_right (by omega) (by norm_num)
  · rw [card_range, nsmul_eq_mul]
    have : (R.size : ℤ) ≤ 1024 := by exact_mod_cast h.size
    norm_num
    omega

lemma Good.odd (h : Good R bound pbits) (hp : 3 ≤ pbits) : prodM R.size R.basis % 2 = 1 := by
  have : Odd (prodM R.size R.basis) := by
    unfold prodM
    refine Finset.prod_induction _ Odd (fun a b => Odd.mul) odd_one (fun t ht => ?_)
    have h1 := h.lo t (mem_range.1 ht)
    have h2 : 2 ^ 1 ≤ 2 ^ (pbits - 2) := Nat.pow_le_pow_right (by norm_num) (by omega)
    exact (h.pr t (mem_range.1 ht)).odd_of_ne_two (by omega)
  exact Nat.odd_iff.1 this

end Good

lemma le_up16 (b : ℕ) : b ≤ 16 * up16 b := by unfold up16; split_ifs <;> omega

lemma up16_mono {a b : ℕ} (h : a ≤ b) : up16 a ≤ up16 b := by unfold up16; split_ifs <;> omega

lemma natAbs_lt_up16 {x : ℤ} {n : ℕ} (h : x.natAbs ≤ n) : x.natAbs < 2 ^ (16 * up16 (bitsz n)) := by
  refine lt_of_le_of_lt h (lt_of_lt_of_le (Nat.lt_size_self n) (Nat.pow_le_pow_right (by norm_num) ?_))
  have := le_up16 (bitsz n)
  unfold bitsz at *
  simp only [Int.natAbs_natCast] at *
  omega

lemma up16_le_words {n M : ℕ} (h : n ≤ M) (hM : 0 < M) : up16 (bitsz n) ≤ words M := by
  refine up16_mono ?_
  unfold bitsz
  have := Nat.size_le_size h
  have := Nat.size_pos.2 hM
  simp only [Int.natAbs_natCast]
  omega

lemma finit_spec {E : Env} {R : Rns} {bound pbits : ℕ} (hs : ∀ c k t idx, (E.sched c k t idx).Covers k) (h : Good R bound pbits) (c m n k : ℕ) (A : Arr ℤ) (lda : ℕ)
    (hk : k ≤ words (prodM R.size R.basis)) (hA : ∀ i < m, ∀ j < n, i * lda + j < A.len)
    (hb : ∀ i < m, ∀ j < n, (A.get (i * lda + j)).natAbs < 2 ^ (16 * k)) :
    Ok (finit E c R m n k A lda) (fun B => B.len = R.size * (m * n) ∧
      ∀ t < R.size, ∀ i < m, ∀ j < n, B.get (t * (m * n) + (i * n + j)) = A.get (i * lda + j) % R.basis t) := by
  unfold finit
  refine (init_spec R R.size R.basis h.cop h.pre false false m n _ (m * n) A lda k _ _ (fun t idx => hs _ _ _ _) (by rw [h.pre.ldm_eq]; exact hk) (h.fitIn hk)
    (fun i hi j hj => by have := hA i hi j hj; omega) (fun i hi j hj => by have := hb i hi j hj; rwa [Nat.add_comm] at this) ?_).mono ?_
  · simp only [AddrOk, Bool.false_eq_true, if_false]
    refine ⟨le_rfl, fun t ht idx hi => ?_⟩
    have := lin_lt hi ht
    simp only [Arr.mk']; omega
  · rintro B ⟨h1, h2, -⟩
    refine ⟨h1, fun t ht i hi j hj => ?_⟩
    have h3 := h2 t ht (i * n + j) (by have := lin_lt hj hi; omega)
    have hn : 0 < n := by omega
    have e1 : (i * n + j) % n = j := by rw [Nat.mul_add_mod_self_right, Nat.mod_eq_of_lt hj]
    have e2 : (i * n + j) / n = i := by rw [Nat.mul_comm, Nat.mul_add_div hn, Nat.div_eq_of_lt hj, Nat.add_zero]
    simp only [addr, colOf, rowOf, Bool.false_eq_true, if_false, e1, e2] at h3
    rw [h3, Nat.add_comm]

lemma fconv_spec {E : Env} {R : Rns} {bound pbits : ℕ} (hs : ∀ c k t idx, (E.sched c k t idx).Covers k) (h : Good R bound pbits) (m n : ℕ) (gamma : ℤ) (A : Arr ℤ) (lda : ℕ)
    (Ap : Arr ℤ) (hl : Ap.len = R.size * (m * n)) (hA : ∀ i < m, ∀ j < n, i * lda + j < A.len) (hlda : n ≤ lda) (V : ℕ → ℕ → ℤ)
    (hX : ∀ i < m, ∀ j < n, 2 * (V i j).natAbs < prodM R.size R.basis)
    (hres : ∀ t < R.size, ∀ i < m, ∀ j < n, Ap.get (t * (m * n) + (i * n + j)) = V i j % R.basis t) :
    Ok (fconv E R m n gamma A lda Ap) (fun B => B.len = A.len ∧
      (∀ i < m, ∀ j < n, B.get (i * lda + j) = V i j + gamma * A.get (i * lda + j)) ∧
      ∀ x, (∀ i < m, ∀ j < n, x ≠ i * lda + j) → B.get x = A.get x) := by
  unfold fconv
  refine (convert_spec R R.size R.basis h.cop h.pre false false (by simp) m n gamma A lda Ap _ _ (fun idx l => hs _ _ _ _) h.fitOut
    (fun i hi j hj => by have := hA i hi j hj; omega) hlda ?_ (fun idx => V (idx / n) (idx % n)) ?_ ?_).mono ?_
  · simp only [AddrOk, Bool.false_eq_true, if_false]
    refine ⟨le_rfl, fun t ht idx hi => ?_⟩
    have := lin_lt hi ht
    omega
  · intro idx hi
    have hn : 0 < n := Nat.pos_of_ne_zero (fun e => by simp [e] at hi)
    have h3 := hX (idx / n) ((Nat.div_lt_iff_lt_mul hn).2 hi) (idx % n) (Nat.mod_lt _ hn)
    rw [Int.abs_eq_natAbs]
    omega
  · intro t ht idx hi
    have hn : 0 < n := Nat.pos_of_ne_zero (fun e => by simp [e] at hi)
    have h3 := hres t ht (idx / n) ((Nat.div_lt_iff_lt_mul hn).2 hi) (idx % n) (Nat.mod_lt _ hn)
    have e : idx / n * n + idx % n = idx := by rw [Nat.mul_comm]; exact Nat.div_add_mod idx n
    rw [e] at h3
    simpa [addr] using h3
  · rintro B ⟨h1, h2, h3⟩
    refine ⟨h1, fun i hi j hj => ?_, fun x hx => h3 x (fun i hi j hj => by have := hx i hi j hj; omega)⟩
    have h4 := h2 (i * n + j) (by have := lin_lt hj hi; omega)
    have hn : 0 < n := by omega
    have e1 : (i * n + j) % n = j := by rw [Nat.mul_add_mod_self_right, Nat.mod_eq_of_lt hj]
    have e2 : (i * n + j) / n = i := by rw [Nat.mul_comm, Nat.mul_add_div hn, Nat.div_eq_of_lt hj, Nat.add_zero]
    simp only [colOf, rowOf, Bool.false_eq_true, if_false, e1, e2] at h4
    rwa [Nat.add_comm] at h4

lemma initElt_spec {E : Env} {R : Rns} {bound pbits : ℕ} (hs : ∀ c k t idx, (E.sched c k t idx).Covers k) (h : Good R bound pbits) (c : ℕ) (y : ℤ)
    (hy : y.natAbs ≤ prodM R.size R.basis) :
    Ok (initElt E c R y) (fun B => B.len = R.size ∧ ∀ t < R.size, B.get t = y % R.basis t) := by
  have e : up16 (bitsz y) = up16 (bitsz (y.natAbs : ℤ)) := by simp only [bitsz, Int.natAbs_natCast]
  have hw : up16 (bitsz y) ≤ words (prodM R.size R.basis) := by rw [e]; exact up16_le_words hy (prodM_pos h.cop)
  unfold initElt
  refine (init_spec R R.size R.basis h.cop h.pre false false 1 1 _ 1 _ 1 _ _ _ (fun t idx => hs _ _ _ _) (by rw [h.pre.ldm_eq]; exact hw) (h.fitIn hw)
    (fun i hi j hj => by simp only [Arr.ofList, List.length_singleton]; omega) (fun i hi j hj => ?_) ?_).mono ?_
  · have : j + i * 1 = 0 := by omega
    rw [this, e]
    exact natAbs_lt_up16 (by simp [Arr.ofList])
  · simp only [AddrOk, Bool.false_eq_true, if_false, Arr.mk']
    exact ⟨le_rfl, fun t ht idx hi => by omega⟩
  · rintro B ⟨h1, h2, -⟩
    refine ⟨h1, fun t ht => ?_⟩
    simpa [addr, colOf, rowOf, Arr.ofList] using h2 t ht 0 (by omega)

end Verif.MP
