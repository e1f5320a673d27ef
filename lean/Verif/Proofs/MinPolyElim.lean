import Verif.Model.MinPoly
import Verif.Proofs.LudStep
import Verif.Proofs.LudBase
import Verif.Proofs.Solve

/-!
# Elimination of Krylov matrices built on the fly

`Con M N R Y V p`: `V` stores the factorisation of the rows `0, …, R` of `Y`, the first `R` of which are independent.
-/

namespace Verif.FF

open Finset Verif.Perm Verif.Spec Verif.Spec.Perm Verif.Pluq Verif.Lud

variable {K : Type} [Field K]

/-- the first `R` rows of `Y` are eliminated in `V`, and so is the next one if there is one -/
structure Con (M N R : ℕ) (Y V : ℕ → ℕ → K) (p : ℕ → ℕ) : Prop where
  rN : R ≤ N
  rM : R ≤ M
  piv : ∀ i < R, V i i ≠ 0
  pP : IsPermArray p N
  fac : ∀ i < M, i ≤ R → ∀ j < N, Y i (p j) = ∑ k ∈ range R, luL .unit V i k * luU .unit V k j

lemma Con.congr {M N R : ℕ} {Y V V' : ℕ → ℕ → K} {p p' : ℕ → ℕ} (h : Con M N R Y V p) (e : ∀ i < M, ∀ j < N, V i j = V' i j)
    (ep : ∀ j < N, p j = p' j) : Con M N R Y V' p' := by
  have rN := h.rN
  have rM := h.rM
  refine ⟨h.rN, h.rM, fun i hi => by rw [← e i (by omega) i (by omega)]; exact h.piv i hi,
    ⟨fun j hj => by rw [← ep j hj]; exact h.pP.1 j hj, fun i hi j hj c => by rw [← ep i hi, ← ep j hj] at c; exact h.pP.2 i hi j hj c⟩, fun i hi hR j hj => ?_⟩
  rw [← ep j hj, h.fac i hi hR j hj]
  refine sum_congr rfl (fun k hk => ?_)
  have hk := mem_range.1 hk
  rw [luL_congr (V := V) (V' := V') (fun _ => e i hi k (by omega)), luU_congr (V := V) (V' := V') (fun _ => e k (by omega) j hj)]

/-- composition of the upper rows with the elimination of the lower ones -/
theorem Con.comb {m1 m2 n r2 : ℕ} {Y Y1 B S Y2 V : ℕ → ℕ → K} {p1 p2 : ℕ → ℕ}
    (h1 : Con m1 n m1 Y Y1 p1) (h2 : Con m2 (n - m1) r2 S Y2 p2)
    (hB : ∀ i < m2, ∀ j < m1, ∑ k ∈ range m1, B i k * luU .unit Y1 k j = Y (m1 + i) (p1 j))
    (hS : ∀ i < m2, ∀ j < n - m1, S i j = Y (m1 + i) (p1 (m1 + j)) - ∑ k ∈ range m1, B i k * Y1 k (m1 + j))
    (e1 : ∀ i < m1, ∀ k < m1, V i k = Y1 i k)
    (e2 : ∀ k < m1, ∀ j < n - m1, V k (m1 + j) = Y1 k (m1 + p2 j))
    (e3 : ∀ i < m2, ∀ k < m1, V (m1 + i) k = B i k)
    (e4 : ∀ i < m2, ∀ j < n - m1, V (m1 + i) (m1 + j) = Y2 i j) :
    Con (m1 + m2) n (m1 + r2) Y V (fun j => p1 (afterP m1 p2 j)) := by
  have rN1 := h1.rN
  have rN2 := h2.rN
  have rM2 := h2.rM
  have pa : IsPermArray (afterP m1 p2) n := afterP_perm rN1 h2.pP
  have aft : ∀ j < n - m1, afterP m1 p2 (m1 + j) = m1 + p2 j := fun j _ => by
    unfold afterP; rw [if_neg (by omega), Nat.add_sub_cancel_left]
  have afl : ∀ j < m1, afterP m1 p2 j = j := fun j h => if_pos h
  have U1 : ∀ k < m1, ∀ j < n, luU .unit V k j = luU .unit Y1 k (afterP m1 p2 j) := by
    intro k hk j hj
    by_cases hj' : j < m1
    · rw [afl j hj']
      exact luU_congr (fun _ => e1 k (by omega) j hj')
    · obtain ⟨t, rfl⟩ : ∃ t, j = m1 + t := ⟨j - m1, by omega⟩
      rw [aft t (by omega)]
      exact luU_congr' (by omega) (by omega) (fun _ => e2 k hk t (by omega))
  have U2 : ∀ k < r2, ∀ j < n - m1, luU .unit V (m1 + k) (m1 + j) = luU .unit Y2 k j := fun k hk j hj =>
    luU_shift (fun _ => e4 k (by omega) j hj)
  refine ⟨by omega, by omega, fun i hi => ?_, ⟨fun j hj => h1.pP.1 _ (pa.1 j hj), fun i hi j hj e => pa.2 i hi j hj (h1.pP.2 _ (pa.1 i hi) _ (pa.1 j hj) e)⟩,
    fun i hi hR j hj => ?_⟩
  · by_cases c : i < m1
    · rw [e1 i c i c]; exact h1.piv i c
    · obtain ⟨t, rfl⟩ : ∃ t, i = m1 + t := ⟨i - m1, by omega⟩
      rw [e4 t (by omega) t (by omega)]; exact h2.piv t (by omega)
  · rw [sum_range_add]
    by_cases c : i < m1
    · rw [h1.fac i c (by omega) _ (pa.1 j hj)]
      rw [sum_eq_zero (s := range r2) (fun k hk => by rw [luL_gt (by omega), zero_mul]), add_zero]
      refine sum_congr rfl (fun k hk => ?_)
      have hk := mem_range.1 hk
      rw [U1 k hk j hj, luL_congr (V := V) (V' := Y1) (fun _ => e1 i c k hk)]
    · obtain ⟨t, rfl⟩ : ∃ t, i = m1 + t := ⟨i - m1, by omega⟩
      have hL : ∑ k ∈ range m1, luL .unit V (m1 + t) k * luU .unit V k j = ∑ k ∈ range m1, B t k * luU .unit Y1 k (afterP m1 p2 j) := by
        refine sum_congr rfl (fun k hk => ?_)
        have hk := mem_range.1 hk
        rw [luL_lt (by omega), e3 t (by omega) k hk, U1 k hk j hj]
      rw [hL]
      by_cases cj : j < m1
      · rw [sum_eq_zero (s := range r2) (fun k hk => by rw [luU_gt (by omega), mul_zero]), add_zero, afl j cj, hB t (by omega) j cj]
      · obtain ⟨s, rfl⟩ : ∃ s, j = m1 + s := ⟨j - m1, by omega⟩
        have hs : s < n - m1 := by omega
        have := h2.fac t (by omega) (by omega) s hs
        have hps := h2.pP.1 s hs
        rw [hS t (by omega) _ hps, sub_eq_iff_eq_add'] at this
        rw [aft s hs, this]
        congr 1
        · refine sum_congr rfl (fun k hk => ?_)
          have hk := mem_range.1 hk
          rw [luU_lt (by omega)]
        · refine sum_congr rfl (fun k hk => ?_)
          have hk := mem_range.1 hk
          rw [U2 k hk s hs, luL_shift (fun _ => e4 t (by omega) k (by omega))]

variable [DecidableEq K] {m0 m m' : Mem K} {W T : Win} {V U Y : ℕ → ℕ → K}

/-- what the recursive calls leave -/
structure ConPost (m0 : Mem K) (W : Win) (Y : ℕ → ℕ → K) (lP : ℕ) (y : ℕ × Arr ℕ) (m' : Mem K) : Prop where
  lenP : y.2.len = lP
  low : ∀ i < y.1, i ≤ y.2.get i
  lt : ∀ i < y.1, y.2.get i < W.c
  dec : ∃ V, On m0 m' W V ∧ Con W.r W.c y.1 Y V (ofSwaps y.2.get y.1)

omit [DecidableEq K] in
lemma con_zero {M N : ℕ} {Y V : ℕ → ℕ → K} {p : ℕ → ℕ} (hp : ∀ j < N, p j = j) (h : ∀ j < N, Y 0 j = 0) : Con M N 0 Y V p := by
  refine ⟨Nat.zero_le _, Nat.zero_le _, fun i hi => absurd hi (Nat.not_lt_zero _), ⟨fun j hj => by rw [hp j hj]; exact hj, fun i hi j hj e => by rw [hp i hi, hp j hj] at e; exact e⟩, fun i hi hR j hj => ?_⟩
  obtain rfl : i = 0 := by omega
  rw [hp j hj, h j hj, range_zero, sum_empty]

omit [DecidableEq K] in
lemma con_one {M N a : ℕ} {Y V : ℕ → ℕ → K} {p : ℕ → ℕ} (hp : ∀ j < N, p j = Equiv.swap 0 a j) (ha : a < N) (hM : 1 ≤ M) (hMN : M = 1 ∨ N = 1)
    (h0 : V 0 0 = Y 0 a) (hn : Y 0 a ≠ 0) (h1 : ∀ j < N, 0 < j → Y 0 a * V 0 j = Y 0 (Equiv.swap 0 a j)) (h2 : 1 < M → V 1 0 = Y 1 0) :
    Con M N 1 Y V p := by
  refine ⟨by omega, hM, fun i hi => ?_, ⟨fun j hj => ?_, fun i hi j hj e => ?_⟩, fun i hi hR j hj => ?_⟩
  · obtain rfl : i = 0 := by omega
    rw [h0]; exact hn
  · rw [hp j hj]; exact swap_lt (by omega) ha hj
  · rw [hp i hi, hp j hj] at e; exact (Equiv.swap 0 a).injective e
  · rw [hp j hj, sum_range_one]
    rcases Nat.eq_zero_or_pos i with c | c
    · subst c
      rw [luL_diag_unit, h0]
      rcases Nat.eq_zero_or_pos j with c | c
      · subst c; rw [luU_diag_unit, mul_one, Equiv.swap_apply_left]
      · rw [luU_lt c, h1 j hj c]
    · obtain rfl : i = 1 := by omega
      obtain rfl : j = 0 := by omega
      obtain rfl : a = 0 := by omega
      rw [luL_lt Nat.one_pos, luU_diag_unit, mul_one, h2 (by omega)]; simp

lemma conBase_spec (cat : Cat) {P : Arr ℕ} {A : ℕ} {cx : Bool} (h : On m0 m W V) (hmin : min W.r W.c = 1) (hP : 1 ≤ P.len)
    (hA : cx = true → W.c = 1 → 1 < W.r → m.ok A = true ∧ ¬ W.Has A)
    (h0 : ∀ j < W.c, Y 0 j = V 0 j) (h1 : cx = false → W.c = 1 → 1 < W.r → Y 1 0 = V 1 0)
    (h1' : cx = true → W.c = 1 → 1 < W.r → Y 1 0 = V 0 0 * m.val A) :
    Run (conBase cat W.r W.c A W.p W.ld P cx) m (ConPost m0 W Y P.len) := by
  have hr : 0 < W.r := by omega
  have hc : 0 < W.c := by omega
  have ea : ∀ j, W.p + j = W.adr 0 j := fun j => by simp only [Win.adr]; ring
  have e0 : W.p = W.adr 0 0 := by simp only [Win.adr]; ring
  have e1 : W.p + W.ld = W.adr 1 0 := by simp only [Win.adr]; ring
  unfold conBase
  rw [Run_bind]
  have hT : OnL .yes m0 m W (fun i j => V j i) := h
  have sc := scanCol_spec hT (show 0 < lc .yes W from hr) (W.c + 1) 0 (Nat.zero_le _) (by simp only [lr]; omega)
  simp only [lr, luRow] at sc
  refine sc.mono ?_
  rintro ip m1 ⟨rfl, -, hip, hz, hn⟩
  rif c1
  · rw [Run_bind, Run_liftE]
    refine (Ok_wr _ _ _ _).2 ⟨by omega, ?_⟩
    rw [Run_pure]
    refine ⟨rfl, fun i hi => absurd hi (Nat.not_lt_zero _), fun i hi => absurd hi (Nat.not_lt_zero _), V, h, con_zero (fun j _ => rfl) (fun j hj => ?_)⟩
    rw [h0 j hj]; exact hz j (Nat.zero_le _) (by omega)
  · have hip : ip < W.c := by omega
    have hn := hn hip
    rw [Run_bind, Run_liftE]
    refine (Ok_wr _ _ _ _).2 ⟨by omega, ?_⟩
    rw [Run_bind]
    have sw : Run (if ip ≠ 0 then do
        let x ← load (W.p + ip)
        store W.p x
        store (W.p + ip) 0
      else pure ()) m1 (fun _ m' => ∃ V1, On m1 m' W V1 ∧ (∀ j < W.c, V1 0 j = V 0 (Equiv.swap 0 ip j)) ∧
        ∀ i, 1 ≤ i → ∀ j, V1 i j = V i j) := by
      rif c
      · rw [ea, Run_bind, Run_load]
        refine ⟨h.okc hr hip, ?_⟩
        rw [h.val hr hip, Run_bind, e0, Run_store]
        refine ⟨h.okc hr hc, ?_⟩
        have h2 := h.here.set (i := 0) (j := 0) (x := V 0 ip) hr hc
        rw [Run_store]
        refine ⟨h2.okc hr hip, _, h2.set hr hip, fun j hj => ?_, fun i hi j => ?_⟩
        · rw [Equiv.swap_apply_def]
          split_ifs with d1 d2
          · rw [d1, upd_out (by omega), upd_in' (by omega)]
          · rw [upd_in' (by omega)]
            exact (hz 0 le_rfl (by omega)).symm
          · rw [upd_out (by omega), upd_out (by omega)]
        · rw [upd_out (by omega), upd_out (by omega)]
      · rw [Run_pure]
        have : ip = 0 := by omega
        subst this
        exact ⟨V, h.here, fun j _ => by simp, fun _ _ _ => rfl⟩
    refine sw.mono ?_
    rintro _ m2 ⟨V1, h2, v1, v2⟩
    have v0 : V1 0 0 = V 0 ip := by rw [v1 0 hc, Equiv.swap_apply_left]
    rw [Run_bind, e0, Run_load]
    refine ⟨h2.okc hr hc, ?_⟩
    rw [h2.val hr hc, Run_bind, Run_liftE]
    refine (Ok_invE _ _).2 ⟨by rw [v0]; exact hn, ?_⟩
    rw [← e0, Run_bind, ea]
    refine (scalRow_on cat h2 (row := 0) (c := 1) (n := W.c - 1) (V1 0 0)⁻¹ hr (by omega)).mono (fun _ m3 h3 => ?_)
    have w0 : upd 0 1 1 (W.c - 1) (fun _ t => (V1 0 0)⁻¹ * V1 0 (1 + t)) V1 0 0 = V 0 ip := by rw [upd_out (by omega), v0]
    have w1 : ∀ j < W.c, 0 < j → upd 0 1 1 (W.c - 1) (fun _ t => (V1 0 0)⁻¹ * V1 0 (1 + t)) V1 0 j = (V 0 ip)⁻¹ * V 0 (Equiv.swap 0 ip j) :=
      fun j hj hj0 => by rw [upd_in' (by omega), v0, show 1 + (j - 1) = j by omega, v1 j hj]
    have w2 : ∀ j, upd 0 1 1 (W.c - 1) (fun _ t => (V1 0 0)⁻¹ * V1 0 (1 + t)) V1 1 j = V 1 j := fun j => by rw [upd_out (by omega), v2 1 le_rfl]
    generalize upd 0 1 1 (W.c - 1) (fun _ t => (V1 0 0)⁻¹ * V1 0 (1 + t)) V1 = V2 at *
    rw [Run_bind]
    have hlast : Run (if W.c = 1 ∧ 1 < W.r ∧ cx = true then do
        let x ← load W.p
        let a ← load A
        store (W.p + W.ld) (x * a)
      else pure ()) m3 (fun _ m' => ∃ V3, On m1 m' W V3 ∧ (∀ j, V3 0 j = V2 0 j) ∧ (1 < W.r → V3 1 0 = Y 1 0)) := by
      rif c
      · obtain ⟨ca, cb, cc⟩ := c
        obtain ⟨a1, a2⟩ := hA cc ca cb
        rw [Run_bind, e0, Run_load]
        refine ⟨h3.okc hr hc, ?_⟩
        rw [h3.val hr hc, Run_bind, Run_load]
        refine ⟨by rw [h3.step.ok]; exact a1, ?_⟩
        rw [h3.step.frame A a1 a2, ← e0, e1, Run_store]
        refine ⟨h3.okc cb hc, _, h3.set cb hc, fun j => by rw [upd_out (by omega)], fun _ => ?_⟩
        rw [upd_in' (by omega), w0, h1' cc ca cb]
        congr 1
        obtain rfl : ip = 0 := by omega
        rfl
      · rw [Run_pure]
        refine ⟨V2, h3, fun _ => rfl, fun hh => ?_⟩
        have : W.c = 1 := by omega
        have : cx = false := by
          cases cx
          · rfl
          · exact absurd ⟨this, hh, rfl⟩ c
        rw [w2, h1 this (by omega) hh]
    refine hlast.mono ?_
    rintro _ m4 ⟨V3, h4, x0, x1⟩
    rw [Run_pure]
    refine ⟨rfl, fun i hi => ?_, fun i hi => ?_, V3, h.trans h4, ?_⟩
    · simp only [] at hi; omega
    · simp only [] at hi ⊢
      obtain rfl : i = 0 := by omega
      simpa using hip
    · have f0 : Y 0 ip = V 0 ip := h0 ip hip
      refine con_one (a := ip) (fun j hj => by simp [ofSwaps]) hip hr (by omega) (by rw [x0, w0, f0]) (by rw [f0]; exact hn) (fun j hj hj0 => ?_) x1
      rw [f0, x0, w1 j hj hj0, mul_inv_cancel_left₀ hn, h0 _ (swap_lt (by omega) hip hj)]

/-- contract of the recursive calls with `computeX = false` -/
def ConOk (rec : ConFn K) (ldx bound : ℕ) : Prop := ∀ (m0 m : Mem K) (W : Win) (V : ℕ → ℕ → K) (P : Arr ℕ),
  W.ld = ldx → 1 ≤ W.r → 1 ≤ W.c → W.r < bound → min W.r W.c ≤ P.len → On m0 m W V →
  Run (rec W.r W.c W.p P false) m (ConPost m0 W V P.len)

lemma conTail_spec {g : GemmFn K} {ts : TrsmFn K} (hg : GemmOk g) (ht : TrsmOk ts) {rec : ConFn K} {P : Arr ℕ} {Nup Ndown : ℕ}
    (hrec : ConOk rec W.ld W.r) (h : On m0 m W V) (hN : Nup + Ndown = W.r) (hN1 : 1 ≤ Nup) (hN2 : Nup < W.c) (hN3 : 1 ≤ Ndown)
    (hP : min W.r W.c ≤ P.len) (pl : ∀ i < Nup, i ≤ P.get i) (pu : ∀ i < Nup, P.get i < W.c)
    (hC1 : Con Nup W.c Nup Y V (ofSwaps P.get Nup)) (hV : ∀ i < Ndown, ∀ j < W.c, V (Nup + i) j = Y (Nup + i) j) :
    Run (conTail g ts rec W.c Nup Ndown W.p W.ld P) m (ConPost m0 W Y P.len) := by
  have p1lt : ∀ j < W.c, ofSwaps P.get Nup j < W.c := hC1.pP.1
  have key := ludUpdate_spec (ta := .no) (d := .unit) (Nup := Nup) (Ndown := Ndown) (R := Nup) (P := P) hg ht (show OnL .no m0 m W V from h)
    (by simp only [lr]; omega) le_rfl (by simp only [lc]; omega) (by omega) (by simpa only [lc] using pu) (fun hd => by cases hd)
  simp only [ludUpdate, lc, luRow, luCol, Nat.mul_one, if_pos hN2, Run_bind] at key
  unfold conTail
  simp only [Run_bind]
  refine key.mono (fun _ _ k1 => k1.mono (fun _ _ k2 => k2.mono ?_))
  rintro _ m2 ⟨B, S, h2', hB, hS⟩
  have h2 : On m0 m2 W (upd Nup Nup Ndown (W.c - Nup) S (upd Nup 0 Ndown Nup B V)) := h2'
  clear key k1 k2 h2'
  have w1 : ∀ i < Nup, ∀ j < W.c, upd Nup Nup Ndown (W.c - Nup) S (upd Nup 0 Ndown Nup B V) i j = V i j := fun i hi j hj => by
    rw [upd_out (by omega), upd_out (by omega)]
  have w2 : ∀ i < Ndown, ∀ j < Nup, upd Nup Nup Ndown (W.c - Nup) S (upd Nup 0 Ndown Nup B V) (Nup + i) j = B i j := fun i hi j hj => by
    rw [upd_out (by omega), upd_in' (by omega), Nat.add_sub_cancel_left, Nat.sub_zero]
  have w3 : ∀ i < Ndown, ∀ j < W.c - Nup, upd Nup Nup Ndown (W.c - Nup) S (upd Nup 0 Ndown Nup B V) (Nup + i) (Nup + j) = S i j :=
    fun i hi j hj => upd_in hi hj
  generalize upd Nup Nup Ndown (W.c - Nup) S (upd Nup 0 Ndown Nup B V) = V2 at *
  have et1 : tailA P Nup = .ok ⟨P.len - Nup, fun i => P.get (Nup + i)⟩ := if_pos (by omega)
  rw [et1, Run_liftE, Ok_ok]
  have ea : W.p + Nup * W.ld + Nup = W.adr Nup Nup := rfl
  rw [ea]
  have t := hrec m2 m2 (W.sub Nup Nup Ndown (W.c - Nup)) (blk V2 Nup Nup) ⟨P.len - Nup, fun i => P.get (Nup + i)⟩ rfl hN3
    (by simp only [Win.sub]; omega) (by simp only [Win.sub]; omega) (by simp only [Win.sub]; omega) (h2.sub (by omega) (by omega))
  simp only [Win.sub] at t
  refine t.mono ?_
  rintro ⟨R2, P2⟩ m3 ⟨lP2, pl2, pu2, Y2, h3', hC2⟩
  simp only [] at lP2 pl2 pu2 hC2 ⊢
  have h3 : On m0 m3 W (upd Nup Nup Ndown (W.c - Nup) Y2 V2) := h2.upd (by omega) (by omega) h3'.step
  clear h3' t
  have r2N := hC2.rN
  have r2M := hC2.rM
  rw [Run_liftE]
  refine (addFrom_spec (spliceA P Nup P2) Nup (Nup + R2) Nup (by simp only [spliceA]; omega)).mono ?_
  rintro P' ⟨lP', eP'⟩
  simp only [spliceA] at lP' eP'
  have pa : ∀ i < Nup, P'.get i = P.get i := fun i hi => by rw [eP', if_neg (by omega), if_pos hi]
  have pb : ∀ i < R2, P'.get (Nup + i) = Nup + P2.get i := fun i hi => by
    rw [eP', if_pos (by omega), if_neg (by omega), Nat.add_sub_cancel_left, Nat.add_comm]
  have plow : ∀ i < Nup + R2, i ≤ P'.get i := fun i hi => by
    by_cases c : i < Nup
    · rw [pa i c]; exact pl i c
    · have e := pb (i - Nup) (by omega)
      have := pl2 (i - Nup) (by omega)
      rw [show Nup + (i - Nup) = i by omega] at e
      omega
  have plt : ∀ i < Nup + R2, P'.get i < W.c := fun i hi => by
    by_cases c : i < Nup
    · rw [pa i c]; exact pu i c
    · have e := pb (i - Nup) (by omega)
      have := pu2 (i - Nup) (by omega)
      rw [show Nup + (i - Nup) = i by omega] at e
      omega
  have u1 : ∀ i < Nup, ∀ j < W.c, upd Nup Nup Ndown (W.c - Nup) Y2 V2 i j = V i j := fun i hi j hj => by
    rw [upd_out (by omega), w1 i hi j hj]
  have u2 : ∀ i < Ndown, ∀ j < Nup, upd Nup Nup Ndown (W.c - Nup) Y2 V2 (Nup + i) j = B i j := fun i hi j hj => by
    rw [upd_out (by omega), w2 i hi j hj]
  have u3 : ∀ i < Ndown, ∀ j < W.c - Nup, upd Nup Nup Ndown (W.c - Nup) Y2 V2 (Nup + i) (Nup + j) = Y2 i j :=
    fun i hi j hj => upd_in hi hj
  generalize upd Nup Nup Ndown (W.c - Nup) Y2 V2 = V3 at *
  have top := ludPermTop_spec (ta := .no) (Nup := Nup) (R := Nup) (R2 := R2) (P := P') (show OnL .no m0 m3 W V3 from h3) (by simp only [lr]; omega)
    (by simp only [lc]; omega) (by omega) (by simpa only [lc] using plt)
  simp only [ludPermTop, lc] at top
  refine top.mono (fun _ m4 h4' => ?_)
  have h4 : On m0 m4 W (permCols 0 0 Nup W.c (swapsFrom P'.get Nup R2) V3) := h4'
  clear top h4'
  have sh : ∀ x, swapsFrom P'.get Nup R2 x = afterP Nup (ofSwaps P2.get R2) x := fun x => swapsFrom_shift pb x
  have alt : ∀ x < W.c, afterP Nup (ofSwaps P2.get R2) x < W.c := (afterP_perm (by omega) hC2.pP).1
  have x1 : ∀ i < Nup, ∀ j < W.c, permCols 0 0 Nup W.c (swapsFrom P'.get Nup R2) V3 i j = V i (afterP Nup (ofSwaps P2.get R2) j) :=
    fun i hi j hj => by
      unfold permCols
      rw [upd_in' (by omega), Nat.zero_add, Nat.zero_add, Nat.sub_zero, Nat.sub_zero, sh, u1 i hi _ (alt j hj)]
  have x2 : ∀ i, ∀ j, permCols 0 0 Nup W.c (swapsFrom P'.get Nup R2) V3 (Nup + i) j = V3 (Nup + i) j := fun i j => by
    unfold permCols
    rw [upd_out (by omega)]
  generalize permCols 0 0 Nup W.c (swapsFrom P'.get Nup R2) V3 = V4 at *
  have comb := hC1.comb hC2 (B := B) (V := V4)
    (fun i hi j hj => by rw [hB i hi j hj, hV i hi _ (p1lt j (by omega))])
    (fun i hi j hj => by
      rw [← hV i hi _ (p1lt _ (by omega)), ← hS i hi j hj]
      exact w3 i hi j hj)
    (fun i hi k hk => by rw [x1 i hi k (by omega), afterP, if_pos hk])
    (fun k hk j hj => by rw [x1 k hk _ (by omega), afterP, if_neg (by omega), Nat.add_sub_cancel_left])
    (fun i hi k hk => by rw [x2, u2 i hi k hk]) (fun i hi j hj => by rw [x2, u3 i hi j hj])
  rw [hN] at comb
  rw [Run_pure]
  refine ⟨by simp only []; omega, plow, plt, V4, h4, comb.congr (fun _ _ _ _ => rfl) (fun j hj => ?_)⟩
  simp only []
  rw [ofSwaps_append, Equiv.Perm.mul_apply, sh, ofSwaps_congr (P := P'.get) (P' := P.get) pa]

/-- elimination of rows that are already there -/
theorem conRec_false (cat : Cat) {g : GemmFn K} {ts : TrsmFn K} (hg : GemmOk g) (ht : TrsmOk ts) (A lda ldx u incu : ℕ) :
    ∀ f, ConOk (conRec cat g ts A lda ldx u incu f) ldx f := by
  intro f
  induction f with
  | zero => intro m0 m W V P _ _ _ hb; omega
  | succ f ih =>
    intro m0 m W V P hl hr hc hb hP h
    unfold conRec
    rif c1
    · subst hl
      exact conBase_spec cat h c1 (by omega) (fun hh => by cases hh) (fun _ _ => rfl) (fun _ _ _ => rfl) (fun hh => by cases hh)
    · unfold conStep
      simp only []
      have hN1 : 1 ≤ min W.r W.c / 2 := by omega
      have hN2 : min W.r W.c / 2 < W.c := by omega
      have hN3 : min W.r W.c / 2 + (W.r - min W.r W.c / 2) = W.r := by omega
      have hN4 : 1 ≤ W.r - min W.r W.c / 2 := by omega
      generalize min W.r W.c / 2 = Nup at *
      generalize W.r - Nup = Ndown at *
      rw [Run_bind]
      have ea : (W.sub 0 0 Nup W.c).p = W.p := by simp [Win.sub, Win.adr]
      have t := ih m m (W.sub 0 0 Nup W.c) (blk V 0 0) P (by simpa only [Win.sub] using hl) hN1 hc (by simp only [Win.sub]; omega) (by simp only [Win.sub]; omega)
        (h.sub (by omega) (by omega))
      rw [ea] at t
      simp only [Win.sub] at t
      refine t.mono ?_
      rintro ⟨R, P1⟩ m1 ⟨lP, pl, pu, Y1, h1', hC1⟩
      simp only [] at lP pl pu hC1 ⊢
      have h1 : On m0 m1 W (upd 0 0 Nup W.c Y1 V) := h.upd (by omega) (by omega) h1'.step
      have bX : blk V 0 0 = V := by funext i j; simp [blk]
      rw [bX] at hC1
      have eY : ∀ i < Nup, ∀ j < W.c, Y1 i j = upd 0 0 Nup W.c Y1 V i j := fun i hi j hj => by rw [upd_in' (by omega)]; rfl
      rif c2
      · subst c2
        simp only [Bool.false_eq_true, if_false, Run_bind, Run_pure]
        have tt := conTail_spec (Y := V) hg ht (rec := conRec cat g ts A lda ldx u incu f) (P := P1) (Nup := R) (Ndown := Ndown)
          (fun m0 m W' V P a b c d e => ih m0 m W' V P (a.trans hl) b c (by omega) e) h1 hN3 hN1 hN2 hN4 (by omega) pl pu
          (hC1.congr eY (fun _ _ => rfl)) (fun i hi j hj => by rw [upd_out (by omega)])
        rw [lP, hl] at tt
        exact tt
      · rw [Run_pure]
        refine ⟨lP, pl, pu, _, h1, ?_⟩
        have := hC1.rM
        have := hC1.congr eY (fun _ _ => rfl)
        exact ⟨this.rN, by simp only []; omega, this.piv, this.pP, fun i hi hR j hj => this.fac i (by simp only [] at hR; omega) hR j hj⟩

/-! ### With the construction of the Krylov iterates -/

section
omit [Field K] [DecidableEq K]

/-- a recursive call on a block of the first window -/
lemma On2.subW (h : On2 m0 m W V T U) {i0 j0 r c : ℕ} (hr : i0 + r ≤ W.r) (hc : j0 + c ≤ W.c) : On2 m m (W.sub i0 j0 r c) (blk V i0 j0) T U :=
  ⟨h.left.wf', (h.left.sub hr hc).ok, h.right.ok', (h.left.sub hr hc).ld, h.ldT, h.disj.sub_left hr hc, rfl, le_rfl,
    fun i hi j hj => (h.left.sub hr hc).val hi hj, h.valT, fun _ _ _ _ => rfl⟩

lemma On2.updW (h : On2 m0 m W V T U) {i0 j0 r c : ℕ} {V' U' : ℕ → ℕ → K} (hr : i0 + r ≤ W.r) (hc : j0 + c ≤ W.c)
    (s : On2 m m' (W.sub i0 j0 r c) V' T U') : On2 m0 m' W (upd i0 j0 r c V' V) T U' := by
  refine ⟨h.wf, h.okW, h.okT, h.ldW, h.ldT, h.disj, s.ok.trans h.ok, h.next.trans s.next, fun i hi j hj => ?_, s.valT, fun a ha hw ht => ?_⟩
  · by_cases cc : i0 ≤ i ∧ i < i0 + r ∧ j0 ≤ j ∧ j < j0 + c
    · rw [upd_in' cc, ← s.valW (i - i0) (by simp only [Win.sub]; omega) (j - j0) (by simp only [Win.sub]; omega), Win.sub_adr]
      congr 2 <;> omega
    · rw [upd_out (by omega), ← h.valW i hi j hj]
      refine s.frame _ (h.left.okc hi hj) ?_ (h.disj _ (Win.Has_adr hi hj))
      rintro ⟨x, hx, y, hy, e⟩
      have hx : x < r := hx
      have hy : y < c := hy
      rw [Win.sub_adr] at e
      have := h.left.inj _ hi _ hj _ (by omega) _ (by omega) e
      omega
  · rw [s.frame a (by rw [h.ok]; exact ha) (fun hh => hw (Win.sub_Has hr hc hh)) ht, h.frame a ha hw ht]

lemma On2.congrW {V' : ℕ → ℕ → K} (h : On2 m0 m W V T U) (e : ∀ i < W.r, ∀ j < W.c, V i j = V' i j) : On2 m0 m W V' T U :=
  ⟨h.wf, h.okW, h.okT, h.ldW, h.ldT, h.disj, h.ok, h.next, fun i hi j hj => (h.valW i hi j hj).trans (e i hi j hj), h.valT, h.frame⟩

lemma On2.congrT {U' : ℕ → ℕ → K} (h : On2 m0 m W V T U) (e : ∀ i < T.r, ∀ j < T.c, U i j = U' i j) : On2 m0 m W V T U' :=
  ⟨h.wf, h.okW, h.okT, h.ldW, h.ldT, h.disj, h.ok, h.next, h.valW, fun i hi j hj => (h.valT i hi j hj).trans (e i hi j hj), h.frame⟩

/-- a source disjoint from both windows -/
lemma On2.src {S : Win} {f : ℕ → ℕ → K} (h : On2 m0 m W V T U) (s : Src m0 S f) (hW : S.Disj W) (hT : S.Disj T) : Src m S f :=
  ⟨fun a ha => by rw [h.ok]; exact s.ok a ha, s.ld, fun i hi j hj => by
    rw [h.frame _ (s.ok.adr hi hj) (hW _ (Win.Has_adr hi hj)) (hT _ (Win.Has_adr hi hj)), s.val i hi j hj]⟩

end

/-- the Krylov iterates: `y (i+1) = A y i` -/
def IsKrylov (N : ℕ) (a y : ℕ → ℕ → K) : Prop := ∀ i, ∀ j < N, y (i + 1) j = ∑ l ∈ range N, a j l * y i l

variable {a y : ℕ → ℕ → K} {A lda u incu N : ℕ}

/-- the rows from `i0` on are filled with the next iterates -/
lemma conKrylov_spec (cat : Cat) {i0 n : ℕ} (hy : IsKrylov N a y) (h : On2 m0 m W V (vw u incu N) U) (hS : Src m0 ⟨A, lda, N, N⟩ a)
    (dW : (Win.mk A lda N N).Disj W) (dT : (Win.mk A lda N N).Disj (vw u incu N)) (hc : W.c = N) (hi : i0 + n ≤ W.r) (h0 : 1 ≤ i0)
    (hU : ∀ j < N, U j 0 = y (i0 - 1) j) :
    Run (conKrylov cat N n A lda (W.adr i0 0) W.ld u incu) m (fun _ m' => ∃ U', On2 m0 m' W (upd i0 0 n N (fun i j => y (i0 + i) j) V) (vw u incu N) U' ∧
      ∀ j < N, U' j 0 = y (i0 + n - 1) j) := by
  subst hc
  have hld := h.ldW
  have hinc : 0 < incu := h.ldT
  have hSl := hS.ld
  unfold conKrylov
  refine Run_loop (fun t m' => ∃ U', On2 m0 m' W (upd i0 0 t W.c (fun i j => y (i0 + i) j) V) (vw u incu W.c) U' ∧ ∀ j < W.c, U' j 0 = y (i0 + t - 1) j) ?_ ?_
  · exact ⟨U, h.congrW (fun i _ j _ => by rw [upd_out (by omega)]), by simpa using hU⟩
  · rintro t m1 ht ⟨U1, h1, u1⟩
    rw [Run_bind, Win.adr_add_row]
    have s1 := h1.src hS dW dT
    have hrow : i0 + t < W.r := by omega
    have vu : ∀ j < W.c, m1.val (u + j * incu) = y (i0 + t - 1) j := fun j hj => by
      have := h1.valT j hj 0 Nat.one_pos
      simp only [Win.adr, Nat.add_zero] at this
      rw [this, u1 j hj]
    refine (fgemv_spec cat .no (Xd := W.c) (Yd := W.c) (1 : K) 0 rfl rfl (Or.inr rfl) h1.left.wf' s1.ok hSl h1.right.ok' (h1.left.vw_row hrow (by omega)) Nat.one_pos ?_ ?_).mono ?_
    · intro x hx hy'
      obtain ⟨s, hs, e⟩ := vw_row_Has.1 hy'
      refine dW x hx ?_
      rw [e]; exact Win.Has_adr hrow (by omega)
    · intro x hx hy'
      obtain ⟨s, hs, e⟩ := vw_row_Has.1 hy'
      refine h.disj x ?_ hx
      rw [e]; exact Win.Has_adr hrow (by omega)
    · intro _ m2 s2
      have s2' : Step m1 m2 (vw (W.adr (i0 + t) 0) 1 W.c) (fun j _ => y (i0 + t) j) := s2.congr (fun j hj _ _ => by
        have hj : j < W.c := hj
        rw [one_mul, zero_mul, add_zero, show i0 + t = (i0 + t - 1) + 1 by omega, hy _ j hj]
        refine sum_congr rfl (fun l hl => ?_)
        have hl := mem_range.1 hl
        have e := s1.val j hj l hl
        rw [show opAdr .no A lda j l = A + j * lda + l from rfl, vu l hl, ← e]; rfl)
      have h2 := h1.ofW (h1.left.rowStep hrow (by omega) s2')
      refine (vassign_spec (h2.left.vw_row hrow (by omega)) h2.right.ok' ?_ hinc).mono ?_
      · refine Win.Disj.safe ?_ rfl rfl
        intro x hx hy'
        obtain ⟨s, hs, e⟩ := vw_row_Has.1 hx
        refine h.disj x ?_ hy'
        rw [e]; exact Win.Has_adr hrow (by omega)
      · intro _ m3 s3
        have s3' : Step m2 m3 (vw u incu W.c) (fun j _ => y (i0 + t) j) := s3.congr (fun j hj _ _ => by
          have hj : j < W.c := hj
          rw [Nat.mul_one, Win.adr_add_col, Nat.zero_add, h2.valW _ hrow j hj, upd_in' (by omega), Nat.sub_zero])
        refine ⟨_, (h2.ofT ⟨h2.right.wf', h2.right.ok', h2.ldT, s3'⟩).congrW (fun i hi' j hj => ?_), fun j hj => ?_⟩
        · by_cases c1 : i = i0 + t
          · subst c1
            rw [upd_in' (by omega), upd_in' (by omega), Nat.sub_zero]
            congr 1; omega
          · rw [upd_out (by omega)]
            by_cases c2 : i0 ≤ i ∧ i < i0 + t ∧ 0 ≤ j ∧ j < 0 + W.c
            · rw [upd_in' c2, upd_in' (by omega)]
            · rw [upd_out (by omega), upd_out (by omega)]
        · show y (i0 + t) j = _
          congr 1

/-- what `LUdivine_construct` leaves with `computeX = true` -/
structure KryPost (m0 : Mem K) (W : Win) (u incu N : ℕ) (y : ℕ → ℕ → K) (lP : ℕ) (z : ℕ × Arr ℕ) (m' : Mem K) : Prop where
  lenP : z.2.len = lP
  low : ∀ i < z.1, i ≤ z.2.get i
  lt : ∀ i < z.1, z.2.get i < N
  dec : ∃ V U, On2 m0 m' W V (vw u incu N) U ∧ Con W.r N z.1 y V (ofSwaps z.2.get z.1) ∧ (z.1 = W.r → ∀ j < N, U j 0 = y (W.r - 1) j)

/-- elimination of the Krylov matrix, built on the way -/
theorem conRec_true (cat : Cat) {g : GemmFn K} {ts : TrsmFn K} (hg : GemmOk g) (ht : TrsmOk ts) (hy : IsKrylov N a y) :
    ∀ f (m0 m : Mem K) (W : Win) (V U : ℕ → ℕ → K) (P : Arr ℕ), 1 ≤ W.r → W.c = N → 1 ≤ N → W.r < f → min W.r N ≤ P.len →
    On2 m0 m W V (vw u incu N) U → Src m0 ⟨A, lda, N, N⟩ a → (Win.mk A lda N N).Disj W → (Win.mk A lda N N).Disj (vw u incu N) →
    (∀ j < N, V 0 j = y 0 j) → (∀ j < N, U j 0 = y 0 j) →
    Run (conRec cat g ts A lda W.ld u incu f W.r N W.p P true) m (KryPost m0 W u incu N y P.len) := by
  intro f
  induction f with
  | zero => intro m0 m W V U P _ _ _ hb; omega
  | succ f ih =>
    intro m0 m W V U P hr hc hN hb hP h hS dW dT hV hU
    subst hc
    have s := h.src hS dW dT
    unfold conRec
    rif c1
    · have eA : A = (Win.mk A lda W.c W.c).adr 0 0 := by simp [Win.adr]
      refine (conBase_spec (Y := y) cat h.left c1 (by omega) (A := A) (cx := true) (fun _ _ _ => ?_) (fun j hj => (hV j hj).symm)
        (fun hh => by cases hh) (fun _ hc1 hr1 => ?_)).mono ?_
      · rw [eA]
        exact ⟨s.ok.adr hN hN, dW _ (Win.Has_adr hN hN)⟩
      · rw [hy 0 0 hN, hc1, sum_range_one]
        have := s.val 0 hN 0 hN
        rw [← eA] at this
        rw [this, hV 0 hN, mul_comm]
      · rintro ⟨R, P1⟩ m1 ⟨e1, e2, e3, V1, h1, hC⟩
        refine ⟨e1, e2, e3, V1, U, h.ofW h1, hC, fun hR j hj => ?_⟩
        have h1 := hC.rN
        have : W.r - 1 = 0 := by simp only [] at hR h1; omega
        rw [this]; exact hU j hj
    · unfold conStep
      simp only []
      have hN1 : 1 ≤ min W.r W.c / 2 := by omega
      have hN2 : min W.r W.c / 2 < W.c := by omega
      have hN3 : min W.r W.c / 2 + (W.r - min W.r W.c / 2) = W.r := by omega
      have hN4 : 1 ≤ W.r - min W.r W.c / 2 := by omega
      generalize min W.r W.c / 2 = Nup at *
      generalize W.r - Nup = Ndown at *
      rw [Run_bind]
      have ea : (W.sub 0 0 Nup W.c).p = W.p := by simp [Win.sub, Win.adr]
      have t := ih m m (W.sub 0 0 Nup W.c) (blk V 0 0) U P hN1 rfl hN (by simp only [Win.sub]; omega) (by simp only [Win.sub]; omega)
        (h.subW (by omega) (by omega)) s (dW.sub_right (by omega) (by omega)) dT (fun j hj => by rw [← hV j hj]; simp [blk]) hU
      rw [ea] at t
      simp only [Win.sub] at t
      refine t.mono ?_
      rintro ⟨R, P1⟩ m1 ⟨lP, pl, pu, Y1, U1, h1', hC1, hU1⟩
      simp only [] at lP pl pu hC1 hU1 ⊢
      have h1 : On2 m0 m1 W (upd 0 0 Nup W.c Y1 V) (vw u incu W.c) U1 := h.updW (by omega) (by omega) h1'
      have eY : ∀ i < Nup, ∀ j < W.c, Y1 i j = upd 0 0 Nup W.c Y1 V i j := fun i hi j hj => by rw [upd_in' (by omega)]; rfl
      rif c2
      · subst c2
        rw [if_pos trivial, Run_bind]
        have ea2 : W.p + R * W.ld = W.adr R 0 := by simp [Win.adr]
        rw [ea2]
        refine (conKrylov_spec cat hy h1 hS dW dT rfl (by omega) hN1 (hU1 rfl)).mono ?_
        rintro _ m2 ⟨U2, h2, hU2⟩
        refine (conTail_spec (Y := y) hg ht (rec := conRec cat g ts A lda W.ld u incu f) (P := P1) (Nup := R) (Ndown := Ndown)
          (fun m0 m W' V P a b c d e => conRec_false cat hg ht A lda W.ld u incu f m0 m W' V P a b c (by omega) e) h2.left hN3 hN1 hN2 hN4 (by omega) pl pu
          (hC1.congr (fun i hi j hj => by rw [upd_out (by omega), eY i hi j hj]) (fun _ _ => rfl)) (fun i hi j hj => by
            rw [upd_in' (by omega), Nat.add_sub_cancel_left, Nat.sub_zero])).mono ?_
        rintro ⟨R3, P3⟩ m3 ⟨e1, e2, e3, V3, h3, hC3⟩
        refine ⟨e1.trans lP, e2, e3, V3, U2, h2.ofW h3, hC3, fun _ j hj => ?_⟩
        rw [hU2 j hj, hN3]
      · rw [Run_pure]
        have r1 := hC1.rM
        have hC := hC1.congr eY (fun _ _ => rfl)
        refine ⟨lP, pl, pu, _, U1, h1, ⟨hC.rN, by simp only []; omega, hC.piv, hC.pP, fun i hi hR j hj => hC.fac i (by simp only [] at hR; omega) hR j hj⟩, fun hh => ?_⟩
        simp only [] at hh; omega

end Verif.FF
