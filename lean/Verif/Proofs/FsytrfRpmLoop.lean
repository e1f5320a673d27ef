import Verif.Proofs.FsytrfRpmTwo

/-!
# `fsytrf_UP_RPM_BC_Crout`: the loop on the rows
-/

namespace Verif.FF

open Finset Verif.Perm

variable {K : Type} [Field K] [DecidableEq K]
variable {m0 m : Mem K} {V Y : ℕ → ℕ → K} {N A lda D row : ℕ} {S u : ℕ → ℕ → K} {σ mate : ℕ → ℕ} {y : ℕ → K} {s : RpmSt}

/-- the state of the elimination in memory -/
structure RpmInv (N : ℕ) (S : ℕ → ℕ → K) (row : ℕ) (s : RpmSt) (σ mate : ℕ → ℕ) (u : ℕ → ℕ → K) (y : ℕ → K) (V Y : ℕ → ℕ → K) : Prop where
  I : RpmI N S row s.rank σ mate u y
  plen : s.P.len = N
  tlen : s.tb.len = N
  P : ∀ i < N, s.P.get i = σ i
  flag : ∀ l < s.rank, s.tb.get l = true ↔ mate l ≠ l
  off : ∀ l, s.rank ≤ l → l < N → s.tb.get l = false
  Vu : ∀ l < s.rank, ∀ j, l ≤ j → j < N → V l j = u l j
  VS : ∀ i j, row ≤ i → i ≤ j → j < N → V i j = S (σ i) (σ j)
  Yy : ∀ l < s.rank, Y l 0 = y l

lemma RpmInv.F (h : RpmInv N S row s σ mate u y V Y) : Flags s.rank s.tb mate := ⟨h.I.mlt, h.I.minv, h.I.mnear, h.flag⟩

lemma RpmInv.zero (h : RpmInv N S row s σ mate u y V Y) (hS : ∀ i j, S i j = S j i) (hr : row < N) {V' : ℕ → ℕ → K}
    (hz : ∀ j, row ≤ j → j < N → resid s.rank S σ mate u y row j = 0) (e : ∀ a b, a ≠ row → V' a b = V a b) :
    RpmInv N S (row + 1) s σ mate u y V' Y := by
  have := h.I.le1
  refine ⟨h.I.nextZero hS hr hz, h.plen, h.tlen, h.P, h.flag, h.off, fun l hl j h1 h2 => ?_, fun i j h1 h2 h3 => ?_, h.Yy⟩
  · rw [e _ _ (by omega), h.Vu l hl j h1 h2]
  · rw [e _ _ (by omega), h.VS i j (by omega) h2 h3]

/-- the updated row is what is left of the row -/
lemma RpmInv.upd_resid (h : RpmInv N S row s σ mate u y V Y) {V' : ℕ → ℕ → K} {k j : ℕ} (hk : row ≤ k) (hkN : k < N) (hj : row ≤ j) (hjN : j < N)
    (e : V' k j = S (σ k) (σ j)) (el : ∀ l < s.rank, ∀ j, V' l j = V l j) :
    V' k j - ∑ l ∈ range s.rank, V' l j * (V' (mate l) k * Y (mate l) 0) = resid s.rank S σ mate u y k j := by
  have hle := h.I.le1
  unfold resid
  rw [e, h.I.qf_symm]
  congr 1
  refine sum_congr rfl (fun l hl => ?_)
  have hl := mem_range.1 hl
  have hm := h.I.mlt l hl
  rw [el l hl, el _ hm, h.Vu l hl j (by omega) hjN, h.Vu _ hm k (by omega) hkN, h.Yy _ hm, h.I.ym hl]
  ring

lemma rho1_spec (rank row j : ℕ) (h : rank ≤ row) : (j < rank → rho1 rank row j = j) ∧ (j = rank → rho1 rank row j = row) ∧
    (rank < j → j ≤ row → rank ≤ rho1 rank row j ∧ rho1 rank row j < row) ∧ (row < j → rho1 rank row j = j) := by
  unfold rho1
  refine ⟨fun q => ?_, fun q => ?_, fun q1 q2 => ?_, fun q => ?_⟩ <;> split_ifs <;> omega

lemma rho2_spec (rank row k j : ℕ) (h : rank ≤ row) (hk : row < k) : (j < rank → rho2 rank row k j = j) ∧ (j = rank → rho2 rank row k j = row) ∧
    (j = rank + 1 → rho2 rank row k j = k) ∧ (rank + 2 ≤ j → j ≤ row + 1 → rank ≤ rho2 rank row k j ∧ rho2 rank row k j < row) ∧
    (row + 2 ≤ j → j ≤ k → rho2 rank row k j = j - 1) ∧ (k < j → rho2 rank row k j = j) := by
  unfold rho2
  refine ⟨fun q => ?_, fun q => ?_, fun q => ?_, fun q1 q2 => ?_, fun q1 q2 => ?_, fun q => ?_⟩ <;> split_ifs <;> omega

lemma RpmInv.one (h : RpmInv N S row s σ mate u y V Y) (hS : ∀ i j, S i j = S j i) (hr : row < N) {V1 V' Y' : ℕ → ℕ → K} {s' : RpmSt}
    (hx : V1 row row ≠ 0) (e1 : ∀ a b, a ≠ row → V1 a b = V a b) (er : ∀ j, row ≤ j → j < N → V1 row j = resid s.rank S σ mate u y row j)
    (hs : s'.rank = s.rank + 1 ∧ s'.tb = s.tb ∧ s'.P.len = N ∧ ∀ i < N, s'.P.get i = s.P.get (rho1 s.rank row i))
    (f1 : ∀ l < s.rank, ∀ j < N, V' l j = V1 l (rho1 s.rank row j)) (f2 : V' s.rank s.rank = V1 row row)
    (f3 : ∀ j, s.rank < j → j ≤ row → V' s.rank j = 0) (f4 : ∀ j, row < j → j < N → V' s.rank j = V1 row j)
    (f5 : ∀ i j, row < i → i < N → j < N → V' i j = V1 i j) (f6 : ∀ l < N, l ≠ s.rank → Y' l 0 = Y l 0) (f7 : Y' s.rank 0 = (V1 row row)⁻¹) :
    ∃ σ' mate' u' y', RpmInv N S (row + 1) s' σ' mate' u' y' V' Y' := by
  obtain ⟨s1, s2, s3, s4⟩ := hs
  have hle := h.I.le1
  obtain ⟨rank, hrk⟩ : ∃ r, r = s.rank := ⟨_, rfl⟩
  have hI := h.I
  rw [← hrk] at hI hle s1 f1 f2 f3 f4 f6 f7 s4 er
  obtain ⟨c, hc⟩ : ∃ c, c = resid rank S σ mate u y row := ⟨_, rfl⟩
  have c0 : ∀ j < row, c j = 0 := fun j hj => by rw [hc]; exact hI.low hS hr hj
  have ρlt : ∀ j < N, rho1 rank row j < N := fun j hj => by unfold rho1; split_ifs <;> omega
  obtain ⟨mate', hm⟩ : ∃ mate' : ℕ → ℕ, mate' = fun l => if l = rank then rank else mate l := ⟨_, rfl⟩
  have m1 : ∀ l < rank, mate' l = mate l := fun l hl => by rw [hm]; exact if_neg (by omega)
  have m2 : mate' rank = rank := by rw [hm]; exact if_pos rfl
  obtain ⟨u', hu⟩ : ∃ u' : ℕ → ℕ → K, u' = fun l j => if l = rank then c (rho1 rank row j) else u l (rho1 rank row j) := ⟨_, rfl⟩
  have u1 : ∀ l < rank, ∀ j < N, u' l j = u l (rho1 rank row j) := fun l hl j _ => by rw [hu]; exact if_neg (by omega)
  have u2 : ∀ j < N, u' rank j = c (rho1 rank row j) := fun j _ => by rw [hu]; exact if_pos rfl
  obtain ⟨y', hy⟩ : ∃ y' : ℕ → K, y' = fun l => if l = rank then (c row)⁻¹ else y l := ⟨_, rfl⟩
  have y1 : ∀ l < rank, y' l = y l := fun l hl => by rw [hy]; exact if_neg (by omega)
  have y2 : y' rank = (c row)⁻¹ := by rw [hy]; exact if_pos rfl
  have er' : V1 row row = c row := by rw [er row le_rfl hr, hc]
  refine ⟨fun j => σ (rho1 rank row j), mate', u', y', ?_⟩
  have J := hI.nextOne hS hr (σ' := fun j => σ (rho1 rank row j)) (mate' := mate') (u' := u') (y' := y') (by rw [← hc, ← er']; exact hx) (fun j _ => rfl) m1 m2 u1
    (by rw [← hc]; exact u2) y1 (by rw [← hc]; exact y2)
  refine ⟨by rw [s1]; exact J, s3, by rw [s2]; exact h.tlen, fun i hi => by rw [s4 i hi, h.P _ (ρlt i hi)], fun l hl => ?_, fun l h1 h2 => ?_, fun l hl j h1 h2 => ?_,
    fun i j h1 h2 h3 => ?_, fun l hl => ?_⟩
  · rw [s2]
    rcases (show l < rank ∨ l = rank by omega) with q | rfl
    · rw [m1 l q]; exact h.flag l (by omega)
    · rw [m2, h.off l (by omega) (by omega)]; simp
  · rw [s2]; exact h.off l (by omega) h2
  · obtain ⟨r1, r2, r3, r4⟩ := rho1_spec rank row j hle
    rcases (show l < rank ∨ l = rank by omega) with q | rfl
    · rw [f1 l q j h2, e1 _ _ (by omega), u1 l q j h2, h.Vu l (by omega) _ ?_ (ρlt j h2)]
      rcases (show j < rank ∨ j = rank ∨ (rank < j ∧ j ≤ row) ∨ row < j by omega) with p | p | p | p
      · rw [r1 p]; exact h1
      · rw [r2 p]; omega
      · have := r3 p.1 p.2; omega
      · rw [r4 p]; exact h1
    · rw [u2 j h2]
      rcases (show j = l ∨ (l < j ∧ j ≤ row) ∨ row < j by omega) with p | p | p
      · rw [r2 p, ← er', p, f2]
      · rw [f3 j p.1 p.2, c0 _ (r3 p.1 p.2).2]
      · rw [r4 p, f4 j p h2, er j (by omega) h2, hc]
  · rw [f5 i j (by omega) (by omega) h3, e1 _ _ (by omega), h.VS i j (by omega) h2 h3, (rho1_spec rank row i hle).2.2.2 (by omega), (rho1_spec rank row j hle).2.2.2 (by omega)]
  · rcases (show l < rank ∨ l = rank by omega) with q | rfl
    · rw [f6 l (by omega) (by omega), y1 l q, h.Yy l (by omega)]
    · rw [f7, y2, er']

lemma RpmInv.two (h : RpmInv N S row s σ mate u y V Y) (hS : ∀ i j, S i j = S j i) (h2 : (2 : K) ≠ 0) {k : ℕ} (hrk : row < k) (hk : k < N) {V1 V' Y' : ℕ → ℕ → K} {s' : RpmSt}
    (hx : V1 row k ≠ 0) (e1 : ∀ a b, a ≠ row → a ≠ k → V1 a b = V a b) (er : ∀ j, row ≤ j → j < N → V1 row j = resid s.rank S σ mate u y row j)
    (ek : ∀ j, row < j → j < N → V1 k j = resid s.rank S σ mate u y k j) (h0 : ∀ j, row ≤ j → j < k → V1 row j = 0)
    (hs : s'.rank = s.rank + 2 ∧ s'.P.len = N ∧ s'.tb.len = N ∧ (∀ j < N, s'.P.get j = s.P.get (rho2 s.rank row k j)) ∧
        ∀ j, s'.tb.get j = if j = s.rank ∨ j = s.rank + 1 then true else s.tb.get j)
    (f1 : ∀ l < s.rank, ∀ j < N, V' l j = V1 l (rho2 s.rank row k j))
    (f2 : V' s.rank s.rank = V1 row k) (f3 : V' s.rank (s.rank + 1) = V1 k k * (2 : K)⁻¹) (f4 : ∀ j, s.rank + 2 ≤ j → j ≤ row + 1 → V' s.rank j = 0)
    (f5 : ∀ j, row + 2 ≤ j → j ≤ k → V' s.rank j = V1 k (j - 1))
    (f6 : ∀ j, k < j → j < N → V' s.rank j = V1 k j - V1 k k * (2 : K)⁻¹ * (V1 row k)⁻¹ * V1 row j)
    (f7 : V' (s.rank + 1) (s.rank + 1) = V1 row k) (f8 : ∀ j, s.rank + 2 ≤ j → j ≤ k → V' (s.rank + 1) j = 0)
    (f9 : ∀ j, k < j → j < N → V' (s.rank + 1) j = V1 row j)
    (f10 : ∀ a b, row + 2 ≤ a → a ≤ b → b < N → V' a b = V1 (rho2 s.rank row k a) (rho2 s.rank row k b))
    (f11 : ∀ l < N, l ≠ s.rank → l ≠ s.rank + 1 → Y' l 0 = Y l 0) (f12 : Y' s.rank 0 = (V1 row k)⁻¹) (f13 : Y' (s.rank + 1) 0 = (V1 row k)⁻¹) :
    ∃ σ' mate' u' y', RpmInv N S (row + 2) s' σ' mate' u' y' V' Y' := by
  obtain ⟨s1, s2, s3, s4, s5⟩ := hs
  have hle := h.I.le1
  obtain ⟨rank, hrk'⟩ : ∃ r, r = s.rank := ⟨_, rfl⟩
  have hI := h.I
  rw [← hrk'] at hI hle s1 s4 f1 f2 f3 f4 f5 f6 f7 f8 f9 f10 f11 f12 f13 er ek
  simp only [← hrk'] at s5
  obtain ⟨c, hc⟩ : ∃ c, c = resid rank S σ mate u y row := ⟨_, rfl⟩
  obtain ⟨e, he⟩ : ∃ e, e = resid rank S σ mate u y k := ⟨_, rfl⟩
  have er2 : ∀ j, row ≤ j → j < N → V1 row j = c j := fun j h1 h2 => by rw [hc, er j h1 h2]
  have ek2 : ∀ j, row < j → j < N → V1 k j = e j := fun j h1 h2 => by rw [he, ek j h1 h2]
  have c0 : ∀ j < k, c j = 0 := fun j hj => by
    by_cases q : j < row
    · rw [hc]; exact hI.low hS (by omega) q
    · rw [← er2 j (by omega) (by omega)]; exact h0 j (by omega) hj
  have e0 : ∀ j < row, e j = 0 := fun j hj => by rw [he]; exact hI.low hS hk hj
  have er3 : e row = c k := by rw [he, hI.rsymm hS, hc]
  have ρlt : ∀ j < N, rho2 rank row k j < N := fun j hj => by unfold rho2; split_ifs <;> omega
  obtain ⟨mate', hm⟩ : ∃ mate' : ℕ → ℕ, mate' = fun l => if l = rank then rank + 1 else if l = rank + 1 then rank else mate l := ⟨_, rfl⟩
  have m1 : ∀ l < rank, mate' l = mate l := fun l hl => by rw [hm]; exact (if_neg (by omega)).trans (if_neg (by omega))
  have m2 : mate' rank = rank + 1 := by rw [hm]; exact if_pos rfl
  have m3 : mate' (rank + 1) = rank := by rw [hm]; exact (if_neg (by omega)).trans (if_pos rfl)
  obtain ⟨u', hu⟩ : ∃ u' : ℕ → ℕ → K, u' = fun l j => if l = rank then e (rho2 rank row k j) - e k * 2⁻¹ * (c k)⁻¹ * c (rho2 rank row k j)
    else if l = rank + 1 then c (rho2 rank row k j) else u l (rho2 rank row k j) := ⟨_, rfl⟩
  have u1 : ∀ l < rank, ∀ j < N, u' l j = u l (rho2 rank row k j) := fun l hl j _ => by rw [hu]; exact (if_neg (by omega)).trans (if_neg (by omega))
  have u2 : ∀ j < N, u' rank j = e (rho2 rank row k j) - e k * 2⁻¹ * (c k)⁻¹ * c (rho2 rank row k j) := fun j _ => by rw [hu]; exact if_pos rfl
  have u3 : ∀ j < N, u' (rank + 1) j = c (rho2 rank row k j) := fun j _ => by rw [hu]; exact (if_neg (by omega)).trans (if_pos rfl)
  obtain ⟨y', hy⟩ : ∃ y' : ℕ → K, y' = fun l => if l = rank ∨ l = rank + 1 then (c k)⁻¹ else y l := ⟨_, rfl⟩
  have y1 : ∀ l < rank, y' l = y l := fun l hl => by rw [hy]; exact if_neg (by omega)
  have y2 : y' rank = (c k)⁻¹ := by rw [hy]; exact if_pos (by omega)
  have y3 : y' (rank + 1) = (c k)⁻¹ := by rw [hy]; exact if_pos (by omega)
  have er' : V1 row k = c k := er2 k (by omega) hk
  have ek' : V1 k k = e k := ek2 k hrk hk
  have ck : c k ≠ 0 := by rw [← er']; exact hx
  refine ⟨fun j => σ (rho2 rank row k j), mate', u', y', ?_⟩
  have J := hI.nextTwo hS h2 hrk hk (σ' := fun j => σ (rho2 rank row k j)) (mate' := mate') (u' := u') (y' := y') (x := c k) (z := e k) (by rw [hc]) ck (by rw [he])
    (fun j _ q => by rw [← hc]; exact c0 j q) (fun j _ => rfl) m1 m2 m3 u1 (by rw [← hc, ← he]; exact u2) (by rw [← hc]; exact u3) y1 y2 y3
  refine ⟨by rw [s1]; exact J, s2, s3, fun i hi => by rw [s4 i hi, h.P _ (ρlt i hi)], fun l hl => ?_, fun l h1 h2 => ?_, fun l hl j h1 h2 => ?_,
    fun i j h1 h2 h3 => ?_, fun l hl => ?_⟩
  · rw [s5]
    rcases (show l < rank ∨ l = rank ∨ l = rank + 1 by omega) with q | rfl | rfl
    · rw [m1 l q, if_neg (by omega)]; exact h.flag l (by omega)
    · rw [m2, if_pos (by omega)]; simp
    · rw [m3, if_pos (by omega)]; simp
  · rw [s5, if_neg (by omega)]; exact h.off l (by omega) h2
  · obtain ⟨r1, r2, r3, r4, r5, r6⟩ := rho2_spec rank row k j hle hrk
    rcases (show l < rank ∨ l = rank ∨ l = rank + 1 by omega) with q | rfl | rfl
    · rw [f1 l q j h2, e1 _ _ (by omega) (by omega), u1 l q j h2, h.Vu l (by omega) _ ?_ (ρlt j h2)]
      rcases (show j < rank ∨ j = rank ∨ j = rank + 1 ∨ (rank + 2 ≤ j ∧ j ≤ row + 1) ∨ (row + 2 ≤ j ∧ j ≤ k) ∨ k < j by omega) with p | p | p | p | p | p
      · rw [r1 p]; exact h1
      · rw [r2 p]; omega
      · rw [r3 p]; omega
      · have := r4 p.1 p.2; omega
      · rw [r5 p.1 p.2]; omega
      · rw [r6 p]; exact h1
    · rw [u2 j h2]
      rcases (show j = l ∨ j = l + 1 ∨ (l + 2 ≤ j ∧ j ≤ row + 1) ∨ (row + 2 ≤ j ∧ j ≤ k) ∨ k < j by omega) with p | p | p | p | p
      · rw [r2 p, p, f2, er', er3, c0 row hrk, mul_zero, sub_zero]
      · rw [r3 p, p, f3, ek', mul_assoc (e k * 2⁻¹), inv_mul_cancel₀ ck, mul_one]
        field_simp
        norm_num
      · rw [f4 j p.1 p.2, c0 (rho2 l row k j) (by have := r4 p.1 p.2; omega), e0 _ (r4 p.1 p.2).2, mul_zero, sub_zero]
      · rw [f5 j p.1 p.2, r5 p.1 p.2, c0 (j - 1) (by omega), mul_zero, sub_zero, ek2 _ (by omega) (by omega)]
      · rw [f6 j p h2, r6 p, ek2 j (by omega) h2, er2 j (by omega) h2, ek', er']
    · rw [u3 j h2]
      rcases (show j = rank + 1 ∨ (rank + 2 ≤ j ∧ j ≤ row + 1) ∨ (row + 2 ≤ j ∧ j ≤ k) ∨ k < j by omega) with p | p | p | p
      · rw [r3 p, p, f7, er']
      · rw [f8 j p.1 (by omega), c0 _ (by have := r4 p.1 p.2; omega)]
      · rw [f8 j (by omega) p.2, r5 p.1 p.2, c0 _ (by omega)]
      · rw [f9 j p h2, r6 p, er2 j (by omega) h2]
  · obtain ⟨-, -, -, -, r5, r6⟩ := rho2_spec rank row k i hle hrk
    obtain ⟨-, -, -, -, r5', r6'⟩ := rho2_spec rank row k j hle hrk
    rw [f10 i j h1 h2 h3]
    by_cases q : i ≤ k
    · have a1 := r5 h1 q
      by_cases q' : j ≤ k
      · have a2 := r5' (by omega) q'
        rw [a1, a2, e1 _ _ (by omega) (by omega), h.VS _ _ (by omega) (by omega) (by omega)]
      · have a2 := r6' (by omega)
        rw [a1, a2, e1 _ _ (by omega) (by omega), h.VS _ _ (by omega) (by omega) (by omega)]
    · have a1 := r6 (by omega)
      have a2 := r6' (by omega)
      rw [a1, a2, e1 _ _ (by omega) (by omega), h.VS _ _ (by omega) (by omega) (by omega)]
  · rcases (show l < rank ∨ l = rank ∨ l = rank + 1 by omega) with q | rfl | rfl
    · rw [f11 l (by omega) (by omega) (by omega), y1 l q, h.Yy l (by omega)]
    · rw [f12, y2, er']
    · rw [f13, y3, er']

lemma rpmStep_spec (cat : Cat) (h2 : (2 : K) ≠ 0) (hS : ∀ i j, S i j = S j i) (h : On2 m0 m ⟨A, lda, N, N⟩ V (vw D 1 N) Y) (hr : row < N)
    (hI : RpmInv N S row s σ mate u y V Y) :
    Run (rpmStep cat copyMove (2 : K) N A lda D 1 row s) m (fun r m' => (r.1 = row + 1 ∨ r.1 = row + 2) ∧ ∃ V' Y' σ' mate' u' y', On2 m0 m' ⟨A, lda, N, N⟩ V' (vw D 1 N) Y' ∧
      RpmInv N S r.1 r.2 σ' mate' u' y' V' Y') := by
  have hle := hI.I.le1
  unfold rpmStep
  simp only []
  have eC : A + row * (lda + 1) = (Win.mk A lda N N).adr row row := by simp only [Win.adr]; ring
  rw [Run_bind, eC]
  refine (rpmUpdate_spec (c := row) (i0 := row) (j0 := row) (len := N - row) cat hI.F hI.tlen hle hr hr (by omega) h rfl).mono ?_
  rintro Dj m1 ⟨rfl, g1⟩
  obtain ⟨V1, h1⟩ : ∃ V1, V1 = updRow s.rank mate Y V row row row (N - row) := ⟨_, rfl⟩
  rw [← h1] at g1
  have e1 : ∀ a b, a ≠ row → V1 a b = V a b := fun a b q => by rw [h1, updRow, upd_out (by omega)]
  have er : ∀ j, row ≤ j → j < N → V1 row j = resid s.rank S σ mate u y row j := fun j q1 q2 => by
    rw [h1, updRow, upd_in' (by omega), show row + (j - row) = j by omega]
    exact hI.upd_resid le_rfl hr q1 q2 (hI.VS row j le_rfl q1 q2) (fun _ _ _ => rfl)
  rw [Run_bind]
  refine (rpmFind_spec g1.left hr rfl (show row + (N - row) ≤ N by omega) (N - row) 0 (by omega) (by omega) (fun t ht => by omega)).mono ?_
  rintro i m1' ⟨rfl, q1, q2, q3⟩
  rw [Run_bind, Run_load, Win.adr_add_col]
  refine ⟨g1.left.okc hr (show row + i < N by omega), ?_⟩
  rw [g1.left.val hr (show row + i < N by omega)]
  by_cases c1 : V1 row (row + i) = 0
  · rw [if_pos c1, Run_pure]
    refine ⟨Or.inl rfl, V1, Y, σ, mate, u, y, g1, hI.zero hS hr (fun j a1 a2 => ?_) e1⟩
    rw [← er j a1 a2]
    by_cases c : j - row < i
    · have := q2 (j - row) c
      rwa [show row + (j - row) = j by omega] at this
    · have := q3 c1
      rw [show j = row + i by omega]; exact c1
  · rw [if_neg c1]
    by_cases c2 : i = 0
    · rw [if_pos c2, Run_bind]
      subst c2
      refine (rpmOne_spec g1 hI.plen hle hr c1).mono ?_
      rintro s' m2 ⟨V', Y', g2, hs, f1, f2, f3, f4, f5, f6, f7⟩
      rw [Run_pure]
      obtain ⟨σ', mate', u', y', J⟩ := hI.one hS hr c1 e1 er hs f1 f2 f3 f4 f5 f6 f7
      exact ⟨Or.inl rfl, V', Y', σ', mate', u', y', g2, J⟩
    · rw [if_neg c2, Run_bind]
      obtain ⟨k, hk⟩ : ∃ k, k = row + i := ⟨_, rfl⟩
      have hkN : k < N := by omega
      have e2 : (Win.mk A lda N N).adr row row + lda + i = (Win.mk A lda N N).adr (row + 1) k := by simp only [Win.adr, hk]; ring
      have e3 : (Win.mk A lda N N).adr row row + i * lda + 1 = (Win.mk A lda N N).adr k (row + 1) := by simp only [Win.adr, hk]; ring
      have e4 : A + row + i = A + k := by omega
      rw [e2, e3, e4, Nat.add_assoc A row 1]
      have k2 : Run (vassign (i - 1) ((Win.mk A lda N N).adr (row + 1) k) lda ((Win.mk A lda N N).adr k (row + 1)) 1) m1' (fun _ m' =>
          On m1' m' ⟨A, lda, N, N⟩ (upd k (row + 1) 1 (i - 1) (fun _ t => V1 (row + 1 + t) k) V1)) := by
        refine (vassign_fwd (g1.left.vw_col (show row + 1 + (i - 1) ≤ N by omega) hkN) (g1.left.vw_row hkN (show row + 1 + (i - 1) ≤ N by omega)) ?_ Nat.one_pos).mono
          (fun _ m' s => (g1.left.rowStep (g := fun t => V1 (row + 1 + t) k) hkN (show row + 1 + (i - 1) ≤ N by omega) (s.congr (fun t ht z hz => ?_))))
        · intro t ht t' ht' e
          rw [show (Win.mk A lda N N).adr (row + 1) k + t * lda = (Win.mk A lda N N).adr (row + 1 + t) k by simp only [Win.adr]; ring, Nat.mul_one, Win.adr_add_col] at e
          have := g1.left.inj _ (show row + 1 + t < N by omega) _ hkN _ hkN _ (show row + 1 + t' < N by omega) e
          omega
        · have ht : t < i - 1 := ht
          rw [show (Win.mk A lda N N).adr (row + 1) k + t * lda = (Win.mk A lda N N).adr (row + 1 + t) k by simp only [Win.adr]; ring,
            g1.left.val (show row + 1 + t < N by omega) hkN]
      refine (g1.runW k2).mono (fun _ m2 g2 => ?_)
      obtain ⟨V2, w2⟩ : ∃ V2, V2 = upd k (row + 1) 1 (i - 1) (fun _ t => V1 (row + 1 + t) k) V1 := ⟨_, rfl⟩
      rw [← w2] at g2
      have d1 : ∀ a b, a ≠ row → a ≠ k → V2 a b = V a b := fun a b p1 p2 => by rw [w2, upd_out (by omega), e1 a b p1]
      have d2 : ∀ j, row < j → j < N → V2 k j = S (σ k) (σ j) := fun j p1 p2 => by
        rw [w2]
        by_cases p : j < k
        · rw [upd_in' (by omega), show row + 1 + (j - (row + 1)) = j by omega, e1 _ _ (by omega), hI.VS j k (by omega) (by omega) hkN, hS]
        · rw [upd_out (by omega), e1 _ _ (by omega), hI.VS k j (by omega) (by omega) p2]
      have d3 : ∀ j, V2 row j = V1 row j := fun j => by rw [w2, upd_out (by omega)]
      rw [Run_bind]
      refine (rpmUpdate_spec (c := k) (i0 := k) (j0 := row + 1) (len := N - row - 1) cat hI.F hI.tlen (by omega) hkN hkN (by omega) g2 rfl).mono ?_
      rintro Dj m3 ⟨rfl, g3⟩
      obtain ⟨V3, w3⟩ : ∃ V3, V3 = updRow s.rank mate Y V2 k k (row + 1) (N - row - 1) := ⟨_, rfl⟩
      rw [← w3] at g3
      have d1' : ∀ a b, a ≠ row → a ≠ k → V3 a b = V a b := fun a b p1 p2 => by rw [w3, updRow, upd_out (by omega), d1 a b p1 p2]
      have d3' : ∀ j, V3 row j = V1 row j := fun j => by rw [w3, updRow, upd_out (by omega), d3]
      have d2' : ∀ j, row < j → j < N → V3 k j = resid s.rank S σ mate u y k j := fun j p1 p2 => by
        rw [w3, updRow, upd_in' (by omega), show row + 1 + (j - (row + 1)) = j by omega]
        exact hI.upd_resid (by omega) hkN (by omega) p2 (d2 j p1 p2) (fun l hl b => d1 l b (by omega) (by omega))
      rw [Run_bind]
      have cx : V3 row k ≠ 0 := by rw [d3', hk]; exact c1
      refine (rpmTwo_spec (k := k) cat h2 g3 hI.plen hI.tlen hle (by omega) hk hkN cx).mono ?_
      rintro s' m4 ⟨V', Y', g4, hs, f1, f2, f3, f4, f5, f6, f7, f8, f9, f10, f11, f12, f13⟩
      rw [Run_pure]
      obtain ⟨σ', mate', u', y', J⟩ := hI.two hS h2 (by omega) hkN cx d1' (fun j p1 p2 => by rw [d3', er j p1 p2]) d2'
        (fun j p1 p2 => by
          rw [d3']
          have := q2 (j - row) (by omega)
          rwa [show row + (j - row) = j by omega] at this) hs f1 f2 f3 f4 f5 f6 f7 f8 f9 f10 f11 f12 f13
      exact ⟨Or.inr rfl, V', Y', σ', mate', u', y', g4, J⟩

lemma rpmLoop_spec (cat : Cat) (h2 : (2 : K) ≠ 0) (hS : ∀ i j, S i j = S j i) : ∀ fuel row (s : RpmSt) (m : Mem K) (V Y : ℕ → ℕ → K) (σ mate : ℕ → ℕ) (u : ℕ → ℕ → K) (y : ℕ → K),
    N ≤ fuel + row → On2 m0 m ⟨A, lda, N, N⟩ V (vw D 1 N) Y → RpmInv N S row s σ mate u y V Y →
    Run (rpmLoop cat copyMove (2 : K) N A lda D 1 fuel row s) m (fun s' m' => ∃ V' Y' σ' mate' u' y', On2 m0 m' ⟨A, lda, N, N⟩ V' (vw D 1 N) Y' ∧
      RpmInv N S N s' σ' mate' u' y' V' Y') := by
  intro fuel
  induction fuel with
  | zero =>
    intro row s m V Y σ mate u y hf h hI
    have := hI.I.le2
    unfold rpmLoop
    obtain rfl : row = N := by omega
    rw [if_neg (by omega), Run_pure]
    exact ⟨V, Y, σ, mate, u, y, h, hI⟩
  | succ fuel ih =>
    intro row s m V Y σ mate u y hf h hI
    have := hI.I.le2
    unfold rpmLoop
    by_cases c : row < N
    · rw [if_pos c, Run_bind]
      refine (rpmStep_spec cat h2 hS h c hI).mono ?_
      rintro r m1 ⟨e, V', Y', σ', mate', u', y', g, J⟩
      exact ih r.1 r.2 m1 V' Y' σ' mate' u' y' (by omega) g J
    · obtain rfl : row = N := by omega
      rw [if_neg c, Run_pure]
      exact ⟨V, Y, σ, mate, u, y, h, hI⟩

end Verif.FF
