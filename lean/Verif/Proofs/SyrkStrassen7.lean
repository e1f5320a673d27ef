import Verif.Proofs.SyrkStrassen6

/-!
# `fsyrk` with the helper `Winograd`
-/

namespace Verif.FF

open Finset Verif.Spec

variable {K : Type} [Field K] [DecidableEq K]

/-- contract of a version of `fsyrk`, without conditions on the dimensions -/
def SyrkAll (s : SyrkFn K) : Prop := ∀ (m : Mem K) u t n k (alpha : K) A lda beta C ldc x V,
  On m m ⟨C, ldc, n, n⟩ V → OSrc m t n k A lda x → (aw t n k A lda).Disj ⟨C, ldc, n, n⟩ →
  Run (s u t n k alpha A lda beta C ldc) m (fun _ m' => ∃ V', On m m' ⟨C, ldc, n, n⟩ V' ∧
    ∀ i < n, ∀ j < n, inHalf u i j → V' i j = syVal k alpha beta x V i j)

lemma SyrkAll.at {s : SyrkFn K} (h : SyrkAll s) (n k : ℕ) : SyrkAt s n k :=
  fun m u t alpha A lda beta C ldc x V _ => h m u t n k alpha A lda beta C ldc x V

lemma syrkAll_default : SyrkAll (fsyrkDefault : SyrkFn K) := fun m u t n k alpha A lda beta C ldc x V h hA hd =>
  (fsyrkDefault_on alpha beta h hA hd).mono (fun _ m' h' => ⟨_, h', fun i _ j _ c => if_pos c⟩)

lemma syVal_zero {k i j : ℕ} {alpha beta : K} {x V : ℕ → ℕ → K} (h : k = 0 ∨ alpha = 0) : beta * V i j = syVal k alpha beta x V i j := by
  unfold syVal
  rcases h with rfl | rfl <;> simp

lemma syrkAll_lazy (cat : Cat) (kmax : ℕ) : SyrkAll (fsyrkLazy cat kmax : SyrkFn K) := by
  intro m u t n k alpha A lda beta C ldc x V h hA hd
  by_cases c : k = 0 ∨ alpha = 0
  · unfold fsyrkLazy
    rif c0
    · rw [Run_pure]; subst c0
      exact ⟨V, h, fun i hi => absurd hi (by simp)⟩
    rw [if_pos c]
    exact (fscalin_on cat beta h).mono (fun _ m1 h1 => ⟨_, h1, fun i _ j _ _ => syVal_zero c⟩)
  · rw [not_or] at c
    exact (fsyrkLazy_on cat kmax alpha beta c.1 c.2 h hA hd).mono (fun _ m' h' => ⟨_, h', fun i _ j _ c => if_pos c⟩)

lemma syrkAll_delayed (cat : Cat) (kmax : ℕ) : SyrkAll (fsyrkDelayed cat kmax : SyrkFn K) := by
  intro m u t n k alpha A lda beta C ldc x V h hA hd
  by_cases c : k = 0 ∨ alpha = 0
  · unfold fsyrkDelayed
    rif c0
    · rw [Run_pure]; subst c0
      exact ⟨V, h, fun i hi => absurd hi (by simp)⟩
    rw [if_pos c]
    exact (fscalin_on cat beta h).mono (fun _ m1 h1 => ⟨_, h1, fun i _ j _ _ => syVal_zero c⟩)
  · rw [not_or] at c
    exact (fsyrkDelayed_on cat kmax alpha beta c.1 c.2 h hA hd).mono (fun _ m' h' => ⟨_, h', fun i _ j _ c => if_pos c⟩)

lemma SyrkAll.top (cat : Cat) {s : SyrkFn K} (hs : SyrkAll s) : SyrkAll (fsyrk cat s) := by
  intro m u t n k alpha A lda beta C ldc x V h hA hd
  unfold fsyrk
  rif c0
  · rw [Run_pure]; subst c0
    exact ⟨V, h, fun i hi => absurd hi (by simp)⟩
  rif c1
  · exact (fscalin_on cat beta h).mono (fun _ m1 h1 => ⟨_, h1, fun i _ j _ _ => syVal_zero c1⟩)
  · exact hs m u t n k alpha A lda beta C ldc x V h hA hd

/-- update of a diagonal block -/
lemma SyrkAt.blk {s : SyrkFn K} {m0 m : Mem K} {W : Win} {V x : ℕ → ℕ → K} {u : Uplo} {t : Tr} {n' k i0 A lda : ℕ} (hs : SyrkAt s n' k)
    (alpha beta : K) (hb : beta = 0 ∨ 0 < n') (h : On m0 m W V) (hA : OSrc m t n' k A lda x) (hd : (aw t n' k A lda).Disj W)
    (hr : i0 + n' ≤ W.r) (hc : i0 + n' ≤ W.c) {C : ℕ} (hC : C = W.adr i0 i0) :
    Run (s u t n' k alpha A lda beta C W.ld) m (fun _ m' => ∃ V1, On m0 m' W (upd i0 i0 n' n' V1 V) ∧
      ∀ i < n', ∀ j < n', inHalf u i j → V1 i j = alpha * (∑ l ∈ range k, x i l * x j l) + beta * V (i0 + i) (i0 + j)) := by
  subst hC
  refine (hs m u t alpha A lda beta _ _ _ _ hb (h.sub hr hc) hA (hd.sub_right hr hc)).mono ?_
  rintro _ m' ⟨V1, h1, e1⟩
  exact ⟨V1, h.upd hr hc h1.step, e1⟩

lemma fsyrkWino_ok (cat : Cat) {g : GemmFn K} (hg : GemmOk g) {base top : SyrkFn K} (hb : SyrkAll base) (ht : SyrkAll top) {x y : K}
    (hxy : x * x + y * y = -1) (lev : ℕ) {m : Mem K} {u : Uplo} {t : Tr} {n k A lda C ldc : ℕ} {alpha beta : K} {X V : ℕ → ℕ → K}
    (hn : lev = 0 ∨ beta = 0 ∨ 2 ^ (lev + 1) ≤ n) (h : On m m ⟨C, ldc, n, n⟩ V) (hA : OSrc m t n k A lda X)
    (hd : (aw t n k A lda).Disj ⟨C, ldc, n, n⟩) :
    Run (fsyrkWino cat g base top x y lev u t n k alpha A lda beta C ldc) m (fun _ m' => ∃ V', On m m' ⟨C, ldc, n, n⟩ V' ∧
      ∀ i < n, ∀ j < n, inHalf u i j → V' i j = syVal k alpha beta X V i j) := by
  unfold fsyrkWino
  by_cases c : lev = 0
  · rw [if_pos c]; exact hb m u t n k alpha A lda beta C ldc X V h hA hd
  rw [if_neg c]
  simp only []
  set q := 2 ^ (lev + 1) with eq
  have hq : 0 < q := Nat.two_pow_pos _
  set ns := n / q * q with ens
  set ks := k / q * q with eks
  have hns : ns ≤ n := Nat.div_mul_le_self n q
  have hks : ks ≤ k := Nat.div_mul_le_self k q
  have dn : q ∣ ns := Dvd.intro_left _ rfl
  have dk : q ∣ ks := Dvd.intro_left _ rfl
  have pos : beta = 0 ∨ 0 < ns := by
    rcases hn with hn | hn | hn
    · exact absurd hn c
    · exact Or.inl hn
    · exact Or.inr (Nat.mul_pos (Nat.div_pos hn hq) hq)
  clear_value q ns ks
  set W : Win := ⟨C, ldc, n, n⟩ with eW
  have e00 : opAdr t A lda 0 0 = A := by cases t <;> simp [opAdr]
  have e12 : q12 t A lda ns ks = opAdr t A lda 0 ks := by cases t <;> simp [opAdr, q12]
  have e21 : q21 t A lda ns ks = opAdr t A lda ns 0 := by cases t <;> simp [opAdr, q21]
  rw [e12, e21]
  -- first block
  have a1 := hA.sub 0 0 (n' := ns) (k' := ks) (by omega) (by omega)
  have d1 : (aw t ns ks (opAdr t A lda 0 0) lda).Disj W := aw_sub_Disj (by omega) (by omega) hd
  rw [e00] at a1 d1
  rw [Run_bind]
  refine ((fsyrkStrassen_ok cat hg hb.at hxy lev ns ks (Or.inr ⟨eq ▸ dn, eq ▸ dk⟩)).blk (i0 := 0) (u := u) alpha beta pos h a1 d1 (by simp [eW]; omega)
    (by simp [eW]; omega) (C := C) (by simp [Win.adr, eW])).mono ?_
  rintro _ m1 ⟨V1, h1, v1⟩
  -- rest of its sum
  have a2 := (hA.on h1 hd).sub 0 ks (n' := ns) (k' := k - ks) (by omega) (by omega)
  have d2 : (aw t ns (k - ks) (opAdr t A lda 0 ks) lda).Disj W := aw_sub_Disj (by omega) (by omega) hd
  rw [Run_bind]
  have hb2 : Run (base u t ns (k - ks) alpha (opAdr t A lda 0 ks) lda 1 C ldc) m1 (fun _ m' => ∃ V2, On m m' W (upd 0 0 ns ns V2 (upd 0 0 ns ns V1 V)) ∧
      ∀ i < ns, ∀ j < ns, inHalf u i j → V2 i j =
        alpha * (∑ l ∈ range (k - ks), X (0 + i) (ks + l) * X (0 + j) (ks + l)) + 1 * (upd 0 0 ns ns V1 V) (0 + i) (0 + j)) := by
    have hs := h1.sub (i0 := 0) (j0 := 0) (r := ns) (c := ns) (by simp [eW]; omega) (by simp [eW]; omega)
    have w : W.sub 0 0 ns ns = ⟨C, ldc, ns, ns⟩ := by simp [Win.sub, Win.adr, eW]
    have dd := d2.sub_right (i := 0) (j := 0) (r' := ns) (c' := ns) (by simp [eW]; omega) (by simp [eW]; omega)
    rw [w] at hs dd
    refine (hb m1 u t ns (k - ks) alpha _ lda 1 C ldc _ _ hs a2 dd).mono ?_
    rintro _ m' ⟨V2, h2, e2⟩
    exact ⟨V2, h1.upd (by simp [eW]; omega) (by simp [eW]; omega) (by rw [w]; exact h2.step), e2⟩
  refine hb2.mono ?_
  rintro _ m2 ⟨V2, h2, v2⟩
  -- last rows
  have a3 := (hA.on h2 hd).sub ns 0 (n' := n - ns) (k' := k) (by omega) (by omega)
  have d3 : (aw t (n - ns) k (opAdr t A lda ns 0) lda).Disj W := aw_sub_Disj (by omega) (by omega) hd
  rw [Run_bind]
  set U2 := upd 0 0 ns ns V2 (upd 0 0 ns ns V1 V) with eU2
  have hb3 : Run (top u t (n - ns) k alpha (opAdr t A lda ns 0) lda beta (C + ns * (ldc + 1)) ldc) m2 (fun _ m' => ∃ V3,
      On m m' W (upd ns ns (n - ns) (n - ns) V3 U2) ∧
      ∀ i < n - ns, ∀ j < n - ns, inHalf u i j → V3 i j =
        alpha * (∑ l ∈ range k, X (ns + i) (0 + l) * X (ns + j) (0 + l)) + beta * U2 (ns + i) (ns + j)) := by
    have hs := h2.sub (i0 := ns) (j0 := ns) (r := n - ns) (c := n - ns) (by simp [eW]; omega) (by simp [eW]; omega)
    have w : W.sub ns ns (n - ns) (n - ns) = ⟨C + ns * (ldc + 1), ldc, n - ns, n - ns⟩ := by
      simp only [Win.sub, Win.adr, eW]; congr 1; ring
    have dd := d3.sub_right (i := ns) (j := ns) (r' := n - ns) (c' := n - ns) (by simp [eW]; omega) (by simp [eW]; omega)
    rw [w] at hs dd
    refine (ht m2 u t (n - ns) k alpha _ lda beta _ ldc _ _ hs a3 dd).mono ?_
    rintro _ m' ⟨V3, h3, e3⟩
    exact ⟨V3, h2.upd (by simp [eW]; omega) (by simp [eW]; omega) (by rw [w]; exact h3.step), e3⟩
  refine hb3.mono ?_
  rintro _ m3 ⟨V3, h3, v3⟩
  have A3 := hA.on h3 hd
  have a41 := A3.sub 0 0 (n' := ns) (k' := k) (by omega) (by omega)
  have d41 : (aw t ns k (opAdr t A lda 0 0) lda).Disj W := aw_sub_Disj (by omega) (by omega) hd
  rw [e00] at a41 d41
  have a42 := A3.sub ns 0 (n' := n - ns) (k' := k) (by omega) (by omega)
  set U3 := upd ns ns (n - ns) (n - ns) V3 U2 with eU3
  have u11 : ∀ i < ns, ∀ j < ns, inHalf u i j → U3 i j = syVal k alpha beta X V i j := fun i hi j hj c => by
    rw [eU3, upd_out (by omega), eU2, upd_in' (by omega), Nat.sub_zero, Nat.sub_zero, v2 i hi j hj c, upd_in' (by omega)]
    simp only [Nat.zero_add, Nat.sub_zero]
    rw [v1 i hi j hj c]
    simp only [Nat.zero_add, syVal]
    conv_rhs => rw [show k = ks + (k - ks) by omega, sum_range_add (fun l => X i l * X j l)]
    ring
  have u22 : ∀ i < n, ∀ j < n, ns ≤ i → ns ≤ j → inHalf u i j → U3 i j = syVal k alpha beta X V i j := fun i hi j hj q1 q2 c => by
    have c' : inHalf u (i - ns) (j - ns) := by cases u <;> simp only [inHalf] at c ⊢ <;> omega
    rw [eU3, upd_in' (by omega), v3 _ (by omega) _ (by omega) c', eU2, upd_out (by omega), upd_out (by omega)]
    simp only [Nat.zero_add, syVal]
    rw [show ns + (i - ns) = i by omega, show ns + (j - ns) = j by omega]
  have u0 : ∀ i j, (i < ns ∧ ns ≤ j) ∨ (ns ≤ i ∧ j < ns) → U3 i j = V i j := fun i j q => by
    rw [eU3, upd_out (by omega), eU2, upd_out (by omega), upd_out (by omega)]
  cases u with
  | upper =>
    refine (gemm_o hg h3 a41 a42.flip 0 ns (by simp [eW]; omega) (by simp [eW]; omega)
      (d41.sub_right (by simp [eW]; omega) (by simp [eW]; omega)) ?_ alpha beta (C := C + ns) (by simp [Win.adr, eW])).mono ?_
    · rw [aw_flip]; exact d3.sub_right (by simp [eW]; omega) (by simp [eW]; omega)
    · intro _ m4 h5
      refine ⟨_, h5, ?_⟩
      intro i hi j hj c
      have c' : i ≤ j := c
      by_cases q1 : j < ns
      · rw [upd_out (by omega), u11 i (by omega) j q1 c]
      · by_cases q2 : i < ns
        · rw [upd_in' (by omega)]
          simp only [Nat.zero_add, Nat.sub_zero]
          rw [show ns + (j - ns) = j by omega, u0 i j (by omega), syVal]
        · rw [upd_out (by omega), u22 i hi j hj (by omega) (by omega) c]
  | lower =>
    refine (gemm_o hg h3 a42 a41.flip ns 0 (by simp [eW]; omega) (by simp [eW]; omega)
      (d3.sub_right (by simp [eW]; omega) (by simp [eW]; omega)) ?_ alpha beta (C := C + ns * ldc) (by simp [Win.adr, eW])).mono ?_
    · rw [aw_flip]; exact d41.sub_right (by simp [eW]; omega) (by simp [eW]; omega)
    · intro _ m4 h5
      refine ⟨_, h5, ?_⟩
      intro i hi j hj c
      have c' : j ≤ i := c
      by_cases q1 : i < ns
      · rw [upd_out (by omega), u11 i (by omega) j (by omega) c]
      · by_cases q2 : j < ns
        · rw [upd_in' (by omega)]
          simp only [Nat.zero_add, Nat.sub_zero]
          rw [show ns + (i - ns) = i by omega, u0 i j (by omega), syVal]
        · rw [upd_out (by omega), u22 i hi j hj (by omega) (by omega) c]

lemma fsyrkWinoDelayed_ok (cat : Cat) {g : GemmFn K} (hg : GemmOk g) {base top : SyrkFn K} (hb : SyrkAll base) (ht : SyrkAll top) {x y : K}
    (hxy : x * x + y * y = -1) (lev : ℕ) {m : Mem K} {u : Uplo} {t : Tr} {n k A lda C ldc : ℕ} {alpha beta : K} {X V : ℕ → ℕ → K}
    (hn : lev = 0 ∨ beta = 0 ∨ 2 ^ (lev + 1) ≤ n) (h : On m m ⟨C, ldc, n, n⟩ V) (hA : OSrc m t n k A lda X)
    (hd : (aw t n k A lda).Disj ⟨C, ldc, n, n⟩) :
    Run (fsyrkWinoDelayed cat g base top x y lev u t n k alpha A lda beta C ldc) m (fun _ m' => ∃ V', On m m' ⟨C, ldc, n, n⟩ V' ∧
      ∀ i < n, ∀ j < n, inHalf u i j → V' i j = syVal k alpha beta X V i j) := by
  unfold fsyrkWinoDelayed
  rif c0
  · rw [Run_pure]; subst c0
    exact ⟨V, h, fun i hi => absurd hi (by simp)⟩
  rif c1
  · exact (fscalin_on cat beta h).mono (fun _ m1 h1 => ⟨_, h1, fun i _ j _ _ => syVal_zero c1⟩)
  rw [not_or] at c1
  rif c2
  · simp only [Run_bind]
    refine (Run_liftE _ _ _).2 ?_
    simp only [divE, Ok_bind, Ok_invE, Ok_pure]
    refine ⟨c1.2, ?_⟩
    refine (fsyrkWino_ok cat hg hb ht hxy lev (by rcases hn with q | q | q <;> simp [q]) h hA hd).mono ?_
    rintro _ m1 ⟨V1, h1, e1⟩
    refine (fscalin_on cat alpha h1).mono (fun _ m2 h2 => ⟨_, h2, fun i hi j hj c => ?_⟩)
    have := c1.2
    rw [e1 i hi j hj c]
    simp only [syVal]
    field_simp
  · exact fsyrkWino_ok cat hg hb ht hxy lev hn h hA hd

end Verif.FF
