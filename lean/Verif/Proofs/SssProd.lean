import Verif.Proofs.Sss

/-!
# `productSSSxTS`
-/

namespace Verif.FF

open Finset Verif.Spec

variable {K : Type} [Field K] [DecidableEq K]

/-- the matrix written and the two temporaries -/
abbrev rC : Option (Option Unit) := some (some ())
abbrev rT1 : Option (Option Unit) := some none
abbrev rT2 : Option (Option Unit) := none

structure ProdEnv (m0 : Mem K) (N t s : ℕ) (G : SssPtr) (p : Sss K) (B ldb : ℕ) (b : ℕ → ℕ → K) (C ldc T1 T2 : ℕ)
    (W : Option (Option Unit) → Win) : Prop where
  hs : 0 < s
  hN : 0 < N
  wC : W rC = ⟨C, ldc, N, t⟩
  w1 : W rT1 = ⟨T1, t, s, t⟩
  w2 : W rT2 = ⟨T2, t, s, t⟩
  gS : SssSrc m0 N s G p
  dG : ∀ i, SssDisj N s G (W i)
  bS : Src m0 ⟨B, ldb, N, t⟩ b
  dB : ∀ i, (Win.mk B ldb N t).Disj (W i)

/-- contribution of the generators below the diagonal -/
def lowC (p : Sss K) (s : ℕ) (alpha : K) (b : ℕ → ℕ → K) (a c : ℕ) : K :=
  if 0 < a / s then ∑ l ∈ range s, p.P ((a / s - 1) * s + a % s) l * lowT p s alpha b (a / s - 1) l c else 0

/-- contribution of the generators above the diagonal -/
def upC (p : Sss K) (s : ℕ) (alpha : K) (b : ℕ → ℕ → K) (k ls a c : ℕ) : K :=
  if a / s + 1 < k then ∑ l ∈ range s, p.U a l * upX p s alpha b k ls (k - 2 - a / s) l c else 0

variable {m0 m : Mem K} {N t s B ldb C ldc T1 T2 : ℕ} {G : SssPtr} {p : Sss K} {b base : ℕ → ℕ → K} {W : Option (Option Unit) → Win}
  {V : Option (Option Unit) → ℕ → ℕ → K} {g : GemmFn K} {alpha : K}

omit [Field K] [DecidableEq K] in
lemma Wins.at {ι : Type} {W : ι → Win} {V : ι → ℕ → ℕ → K} {T r c ld : ℕ} {τ : ℕ → ℕ → K} (h : Wins m0 m W V) (i : ι) (hW : W i = ⟨T, ld, r, c⟩)
    (e : ∀ a < r, ∀ c' < c, V i a c' = τ a c') : Src m ⟨T, ld, r, c⟩ τ := by
  have := h.src i
  rw [hW] at this
  exact this.congr e

omit [Field K] [DecidableEq K] in
lemma Wins.dat {ι : Type} {W : ι → Win} {V : ι → ℕ → ℕ → K} {T r c ld : ℕ} (h : Wins m0 m W V) (i j : ι) (hW : W i = ⟨T, ld, r, c⟩) (hij : i ≠ j) :
    (Win.mk T ld r c).Disj (W j) := by
  rw [← hW]; exact h.disj i j hij

/-- state of the loop of the lower part -/
def LowInv (m0 : Mem K) (N t s : ℕ) (p : Sss K) (b base : ℕ → ℕ → K) (alpha : K) (W : Option (Option Unit) → Win) (h bs : ℕ) (m : Mem K) : Prop :=
  ∃ V, Wins m0 m W V ∧ (∀ a < N, ∀ c < t, V rC a c = base a c + if a / s ≤ 2 * h then lowC p s alpha b a c else 0) ∧
    (2 * h < N / s → 2 * h + 1 < sssK N s → ∀ a < s, ∀ c < t, V rT1 a c = lowT p s alpha b (2 * h) a c) ∧ (2 * h + 1 < sssK N s → bs = s)

/-- accumulation of `P_j T_j` into block `j + 1` -/
lemma low_acc (hg : GemmOk g) (E : ProdEnv m0 N t s G p B ldb b C ldc T1 T2 W) (hw : Wins m0 m W V) (i : Option (Option Unit)) {T j bs : ℕ}
    (hi : i ≠ rC) (hWi : W i = ⟨T, t, s, t⟩) (hT : ∀ a < s, ∀ c < t, V i a c = lowT p s alpha b j a c) (hj : j + 1 < sssK N s)
    (hbs : bs = if j + 2 = sssK N s then sssLs N s else s)
    (hC : ∀ a < N, ∀ c < t, V rC a c = base a c + if a / s ≤ j then lowC p s alpha b a c else 0) :
    Run (g .no .no bs t s 1 (G.P + j * s * G.ldp) G.ldp T t 1 (C + (j + 1) * s * ldc) ldc) m (fun _ m' => ∃ V', Wins m0 m' W V' ∧
      (∀ a < N, ∀ c < t, V' rC a c = base a c + if a / s ≤ j + 1 then lowC p s alpha b a c else 0) ∧
      ∀ i, i ≠ rC → V' i = V i) := by
  have hs := E.hs
  have hN := E.hN
  have hsz : bs = min s (N - (j + 1) * s) := by rw [blk_size hN hs hj, hbs]
  have e := sssN hN hs
  have l1 := sssLs_pos (N := N) hs
  have l2 := sssLs_le (N := N) hs
  have e1 : (j + 1) * s = j * s + s := by ring
  have e2 : (j + 1) * s ≤ (sssK N s - 1) * s := Nat.mul_le_mul_right _ (by omega)
  have gs := E.gS.wins hw E.dG
  refine (sss_acc hg hw rC hs E.wC (gs.P.rows (j * s) bs s (by omega) le_rfl) (hw.at i hWi hT) (Disj.rows (E.dG _).P (j * s) bs s (by omega) le_rfl)
    (hw.dat i rC hWi hi) (j + 1) (by omega) hsz).mono (fun _ m' h' => ⟨_, h', fun a ha c hc => ?_, fun i hi => Function.update_of_ne hi _ _⟩)
  rw [Function.update_self, hC a ha c hc, add_assoc]
  congr 1
  by_cases ej : a / s = j + 1
  · rw [if_neg (by omega), if_pos ej, if_pos (by omega), zero_add]
    unfold lowC
    rw [if_pos (by omega), ej, Nat.add_sub_cancel]
  · rw [if_neg ej, add_zero]
    exact if_congr (by omega) rfl rfl

/-- `T_{j+1}` from `T_j` -/
lemma low_chain (hg : GemmOk g) (E : ProdEnv m0 N t s G p B ldb b C ldc T1 T2 W) (hw : Wins m0 m W V) (i i' : Option (Option Unit)) {T T' j : ℕ}
    (hi : i ≠ i') (hWi : W i = ⟨T, t, s, t⟩) (hWi' : W i' = ⟨T', t, s, t⟩) (hT : ∀ a < s, ∀ c < t, V i a c = lowT p s alpha b j a c)
    (hj : j + 2 < sssK N s) :
    Run (g .no .no s t s alpha (G.Q + (j + 1) * s * G.ldq) G.ldq (B + (j + 1) * s * ldb) ldb 0 T' t) m (fun _ m1 =>
      Run (g .no .no s t s 1 (G.R + j * s * G.ldr) G.ldr T t 1 T' t) m1 (fun _ m' =>
        Wins m0 m' W (Function.update V i' (lowT p s alpha b (j + 1))))) := by
  have hs := E.hs
  have hN := E.hN
  have e := sssN hN hs
  have l1 := sssLs_pos (N := N) hs
  have l2 := sssLs_le (N := N) hs
  have e1 : (j + 1) * s = j * s + s := by ring
  have e1' : (j + 2) * s = j * s + s + s := by ring
  have e2 : (j + 2) * s ≤ (sssK N s - 1) * s := Nat.mul_le_mul_right _ (by omega)
  have gs := E.gS.wins hw E.dG
  exact sss_chain hg hw i' alpha hWi' (gs.Q.rows ((j + 1) * s) s s (by omega) le_rfl) ((hw.keep E.bS E.dB).rows ((j + 1) * s) s t (by omega) le_rfl)
    (gs.R.rows (j * s) s s (by omega) le_rfl) (hw.at i hWi hT) (Disj.rows (E.dG _).Q ((j + 1) * s) s s (by omega) le_rfl)
    (Disj.rows (E.dB _) ((j + 1) * s) s t (by omega) le_rfl) (Disj.rows (E.dG _).R (j * s) s s (by omega) le_rfl) (hw.dat i i' hWi hi)

lemma sssLowStep_spec (hg : GemmOk g) (E : ProdEnv m0 N t s G p B ldb b C ldc T1 T2 W) {h bs : ℕ} (hh : 2 * h < N / s)
    (I : LowInv m0 N t s p b base alpha W h bs m) :
    Run (sssLowStep g N t s alpha G B ldb C ldc T1 T2 (2 * h) bs) m (LowInv m0 N t s p b base alpha W (h + 1)) := by
  obtain ⟨V, hw, hC, hT, hbs⟩ := I
  have hkf : sssK N s = if N % s ≠ 0 then N / s + 1 else N / s := rfl
  have c1 : (2 * h + 2 < N / s ∨ N / s % 2 = 0 ∨ N % s ≠ 0) ↔ 2 * h + 1 < sssK N s := by
    rw [hkf]; generalize N / s = kf at *; split <;> omega
  have c2 : (2 * h + 2 < N / s ∨ (N % s ≠ 0 ∧ N / s % 2 = 0)) ↔ 2 * h + 2 < sssK N s := by
    rw [hkf]; generalize N / s = kf at *; split <;> omega
  have c3 : (2 * h + 2 < N / s ∧ (2 * h + 4 < N / s ∨ N / s % 2 = 0 ∨ N % s ≠ 0)) ↔ 2 * h + 2 < N / s ∧ 2 * h + 3 < sssK N s := by
    rw [hkf]; generalize N / s = kf at *; split <;> omega
  have c4 : 2 * h + 2 < N / s → 2 * h + 2 < sssK N s := by
    rw [hkf]; generalize N / s = kf at *; split <;> omega
  unfold sssLowStep
  simp only []
  rw [Run_bind]
  by_cases h1 : 2 * h + 1 < sssK N s
  · rw [if_pos (c1.2 h1)]
    have hT := hT hh h1
    have hbs := hbs h1
    refine (low_acc hg E hw rT1 (by simp) E.w1 hT h1 (by rw [hbs]) hC).mono ?_
    rintro _ m1 ⟨V1, w1, C1, o1⟩
    have hT1 : ∀ a < s, ∀ c < t, V1 rT1 a c = lowT p s alpha b (2 * h) a c := by rw [o1 rT1 (by simp)]; exact hT
    rw [Run_bind]
    by_cases h2 : 2 * h + 2 < sssK N s
    · rw [if_pos (c2.2 h2), Run_bind]
      refine (low_chain hg E w1 rT1 rT2 (by simp) E.w1 E.w2 hT1 h2).mono ?_
      intro _ m2 r2
      rw [Run_bind]
      refine r2.mono ?_
      intro _ m3 w3
      rw [Run_bind]
      have hT3 : ∀ a < s, ∀ c < t, Function.update V1 rT2 (lowT p s alpha b (2 * h + 1)) rT2 a c = lowT p s alpha b (2 * h + 1) a c := fun a _ c _ => by
        rw [Function.update_self]
      refine (low_acc hg E w3 rT2 (by simp) E.w2 hT3 h2 (by rw [hbs, if_neg (show ¬ 2 * h + 2 = sssK N s by omega)]) (base := base) ?_).mono ?_
      · intro a ha c hc
        rw [Function.update_of_ne (by simp)]; exact C1 a ha c hc
      rintro _ m4 ⟨V4, w4, C4, o4⟩
      rw [Run_pure, Run_bind]
      by_cases h3 : 2 * h + 2 < N / s ∧ 2 * h + 3 < sssK N s
      · rw [if_pos (c3.2 h3), Run_bind]
        have hT4 : ∀ a < s, ∀ c < t, V4 rT2 a c = lowT p s alpha b (2 * h + 1) a c := by rw [o4 rT2 (by simp)]; exact hT3
        refine (low_chain hg E w4 rT2 rT1 (by simp) E.w2 E.w1 hT4 h3.2).mono ?_
        intro _ m5 r5
        refine r5.mono ?_
        intro _ m6 w6
        rw [Run_pure]
        refine ⟨_, w6, fun a ha c hc => ?_, fun _ _ a _ c _ => ?_, fun _ => ?_⟩
        · rw [Function.update_of_ne (by simp)]; exact C4 a ha c hc
        · rw [Function.update_self]; rfl
        · rw [if_neg (by omega), if_neg (by omega), hbs]
      · rw [if_neg (fun q => h3 (c3.1 q)), Run_pure, Run_pure]
        refine ⟨V4, w4, fun a ha c hc => C4 a ha c hc, fun q1 q2 => absurd ⟨q1, q2⟩ h3, fun q => ?_⟩
        rw [if_neg (by omega), if_neg (by omega), hbs]
    · rw [if_neg (fun q => h2 (c2.1 q)), Run_pure, Run_bind, if_neg (fun q => h2 (c4 (c3.1 q).1)), Run_pure, Run_pure]
      refine ⟨V1, w1, fun a ha c hc => ?_, fun q => absurd (c4 q) h2, fun q => absurd (show 2 * h + 2 < sssK N s by omega) h2⟩
      rw [C1 a ha c hc]
      congr 1
      have : a / s < sssK N s := by
        have e := sssN E.hN E.hs
        have l2 := sssLs_le (N := N) E.hs
        refine Nat.div_lt_of_lt_mul ?_
        have : s * sssK N s = (sssK N s - 1) * s + s := by
          conv_lhs => rw [show sssK N s = sssK N s - 1 + 1 by omega]
          ring
        omega
      exact if_congr (by omega) rfl rfl
  · rw [if_neg (fun q => h1 (c1.1 q)), Run_pure, Run_bind, if_neg (fun q => h1 (by have := c2.1 q; omega)), Run_pure, Run_bind,
      if_neg (fun q => h1 (by have := c4 (c3.1 q).1; omega)), Run_pure, Run_pure]
    refine ⟨V, hw, fun a ha c hc => ?_, fun q => absurd (c4 q) (by omega), fun q => absurd q (by omega)⟩
    rw [hC a ha c hc]
    congr 1
    have : a / s < sssK N s := by
      have e := sssN E.hN E.hs
      have l2 := sssLs_le (N := N) E.hs
      have := sssK_pos E.hN E.hs
      refine Nat.div_lt_of_lt_mul ?_
      have : s * sssK N s = (sssK N s - 1) * s + s := by
        conv_lhs => rw [show sssK N s = sssK N s - 1 + 1 by omega]
        ring
      omega
    exact if_congr (by omega) rfl rfl

lemma div_lt_sssK (hN : 0 < N) (hs : 0 < s) {a : ℕ} (ha : a < N) : a / s < sssK N s := by
  have e := sssN hN hs
  have l2 := sssLs_le (N := N) hs
  have := sssK_pos hN hs
  refine Nat.div_lt_of_lt_mul ?_
  have : s * sssK N s = (sssK N s - 1) * s + s := by
    conv_lhs => rw [show sssK N s = sssK N s - 1 + 1 by omega]
    ring
  omega

/-- the lower triangular part -/
lemma sssLow_spec (hg : GemmOk g) (E : ProdEnv m0 N t s G p B ldb b C ldc T1 T2 W) (hw : Wins m0 m W V)
    (hC : ∀ a < N, ∀ c < t, V rC a c = base a c) :
    Run (sssLow g N t s alpha G B ldb C ldc T1 T2) m (fun _ m' => ∃ V', Wins m0 m' W V' ∧
      ∀ a < N, ∀ c < t, V' rC a c = base a c + lowC p s alpha b a c) := by
  have hs := E.hs
  have hN := E.hN
  have e := sssN hN hs
  have l1 := sssLs_pos (N := N) hs
  have l2 := sssLs_le (N := N) hs
  have z : ∀ a, a / s ≤ 2 * 0 → lowC p s alpha b a = fun _ => 0 := fun a ha => by
    funext c; unfold lowC; rw [if_neg (by omega)]
  unfold sssLow
  rw [Run_bind]
  have key : ∀ m1, LowInv m0 N t s p b base alpha W 0 s m1 →
      Run (do let _ ← iter ((N / s + 1) / 2) (fun h bs => sssLowStep g N t s alpha G B ldb C ldc T1 T2 (2 * h) bs) s; pure ()) m1
        (fun _ m' => ∃ V', Wins m0 m' W V' ∧ ∀ a < N, ∀ c < t, V' rC a c = base a c + lowC p s alpha b a c) := by
    intro m1 I
    rw [Run_bind]
    refine (Run_iter (fun h bs m => LowInv m0 N t s p b base alpha W h bs m) I (fun h bs m' hh I' => ?_)).mono ?_
    · exact sssLowStep_spec hg E (by generalize N / s = kf at *; omega) I'
    · rintro bs m2 ⟨V2, w2, C2, -, -⟩
      rw [Run_pure]
      refine ⟨V2, w2, fun a ha c hc => ?_⟩
      rw [C2 a ha c hc, if_pos]
      have := div_lt_sssK hN hs ha
      have hkf : sssK N s = if N % s ≠ 0 then N / s + 1 else N / s := rfl
      generalize N / s = kf at *
      split at hkf <;> omega
  by_cases hk : sssK N s > 1
  · rw [if_pos hk]
    have gs := E.gS.wins hw E.dG
    have e2 : s ≤ (sssK N s - 1) * s := by
      calc s = 1 * s := by ring
        _ ≤ _ := Nat.mul_le_mul_right _ (by omega)
    have r := sss_set hg hw rT1 alpha E.w1 (gs.Q.rows 0 s s (by omega) le_rfl) ((hw.keep E.bS E.dB).rows 0 s t (by omega) le_rfl)
      (Disj.rows (E.dG _).Q 0 s s (by omega) le_rfl) (Disj.rows (E.dB _) 0 s t (by omega) le_rfl)
    simp only [Nat.zero_mul, Nat.add_zero, Nat.zero_add] at r
    refine r.mono (fun _ m1 w1 => key m1 ⟨_, w1, fun a ha c hc => ?_, fun _ _ a _ c _ => ?_, fun _ => rfl⟩)
    · rw [Function.update_of_ne (by simp), hC a ha c hc]
      by_cases h0 : a / s ≤ 2 * 0
      · rw [if_pos h0, z a h0, add_zero]
      · rw [if_neg h0, add_zero]
    · rw [Function.update_self]; rfl
  · rw [if_neg hk, Run_pure]
    refine key m ⟨V, hw, fun a ha c hc => ?_, fun _ q => absurd q (by omega), fun _ => rfl⟩
    rw [hC a ha c hc]
    by_cases h0 : a / s ≤ 2 * 0
    · rw [if_pos h0, z a h0, add_zero]
    · rw [if_neg h0, add_zero]

/-- accumulation of `U_j X_j` into block `j` -/
lemma up_acc (hg : GemmOk g) (E : ProdEnv m0 N t s G p B ldb b C ldc T1 T2 W) (hw : Wins m0 m W V) (i : Option (Option Unit)) {T j d : ℕ}
    (hi : i ≠ rC) (hWi : W i = ⟨T, t, s, t⟩) (hT : ∀ a < s, ∀ c < t, V i a c = upX p s alpha b (sssK N s) (sssLs N s) d a c)
    (hj : j + 1 < sssK N s) (hd : d = sssK N s - 2 - j)
    (hC : ∀ a < N, ∀ c < t, V rC a c = base a c + if j + 1 ≤ a / s then upC p s alpha b (sssK N s) (sssLs N s) a c else 0) :
    Run (g .no .no s t s 1 (G.U + j * s * G.ldu) G.ldu T t 1 (C + j * s * ldc) ldc) m (fun _ m' => ∃ V', Wins m0 m' W V' ∧
      (∀ a < N, ∀ c < t, V' rC a c = base a c + if j ≤ a / s then upC p s alpha b (sssK N s) (sssLs N s) a c else 0) ∧
      ∀ i, i ≠ rC → V' i = V i) := by
  subst hd
  have hs := E.hs
  have hN := E.hN
  have hsz : s = min s (N - j * s) := by rw [blk_size hN hs (by omega), if_neg (by omega)]
  have e := sssN hN hs
  have l1 := sssLs_pos (N := N) hs
  have l2 := sssLs_le (N := N) hs
  have e1 : (j + 1) * s = j * s + s := by ring
  have e2 : (j + 1) * s ≤ (sssK N s - 1) * s := Nat.mul_le_mul_right _ (by omega)
  have gs := E.gS.wins hw E.dG
  refine (sss_acc hg hw rC hs E.wC (gs.U.rows (j * s) s s (by omega) le_rfl) (hw.at i hWi hT) (Disj.rows (E.dG _).U (j * s) s s (by omega) le_rfl)
    (hw.dat i rC hWi hi) j (by omega) hsz).mono (fun _ m' h' => ⟨_, h', fun a ha c hc => ?_, fun i hi => Function.update_of_ne hi _ _⟩)
  rw [Function.update_self, hC a ha c hc, add_assoc]
  congr 1
  by_cases ej : a / s = j
  · rw [if_neg (by omega), if_pos ej, if_pos (by omega), zero_add]
    unfold upC
    rw [if_pos (by omega), ej]
    have hae : a / s * s + a % s = a := by rw [Nat.mul_comm]; exact Nat.div_add_mod a s
    rw [ej] at hae
    rw [hae]
  · rw [if_neg ej, add_zero]
    exact if_congr (by omega) rfl rfl

/-- `X_{j}` from `X_{j+1}` -/
lemma up_chain (hg : GemmOk g) (E : ProdEnv m0 N t s G p B ldb b C ldc T1 T2 W) (hw : Wins m0 m W V) (i i' : Option (Option Unit)) {T T' d x y : ℕ}
    (hi : i ≠ i') (hWi : W i = ⟨T, t, s, t⟩) (hWi' : W i' = ⟨T', t, s, t⟩)
    (hT : ∀ a < s, ∀ c < t, V i a c = upX p s alpha b (sssK N s) (sssLs N s) d a c) (hd : d + 2 < sssK N s) (hx : x = sssK N s - 3 - d)
    (hy : y = sssK N s - 2 - d) :
    Run (g .no .no s t s alpha (G.V + x * s * G.ldv) G.ldv (B + y * s * ldb) ldb 0 T' t) m (fun _ m1 =>
      Run (g .no .no s t s 1 (G.W + x * s * G.ldw) G.ldw T t 1 T' t) m1 (fun _ m' =>
        Wins m0 m' W (Function.update V i' (upX p s alpha b (sssK N s) (sssLs N s) (d + 1))))) := by
  subst hx hy
  have hs := E.hs
  have hN := E.hN
  have e := sssN hN hs
  have l1 := sssLs_pos (N := N) hs
  have l2 := sssLs_le (N := N) hs
  have e1 := mul_blk (s := s) (show sssK N s - 3 - d + 1 ≤ sssK N s - 2 - d by omega)
  have e2 := mul_blk (s := s) (show sssK N s - 2 - d + 1 ≤ sssK N s - 1 by omega)
  have gs := E.gS.wins hw E.dG
  exact sss_chain hg hw i' alpha hWi' (gs.V.rows ((sssK N s - 3 - d) * s) s s (by omega) le_rfl)
    ((hw.keep E.bS E.dB).rows ((sssK N s - 2 - d) * s) s t (by omega) le_rfl)
    (gs.W.rows ((sssK N s - 3 - d) * s) s s (by omega) le_rfl) (hw.at i hWi hT) (Disj.rows (E.dG _).V ((sssK N s - 3 - d) * s) s s (by omega) le_rfl)
    (Disj.rows (E.dB _) ((sssK N s - 2 - d) * s) s t (by omega) le_rfl) (Disj.rows (E.dG _).W ((sssK N s - 3 - d) * s) s s (by omega) le_rfl)
    (hw.dat i i' hWi hi)

/-- state of the loop of the upper part -/
def UpInv (m0 : Mem K) (N t s : ℕ) (p : Sss K) (b base : ℕ → ℕ → K) (alpha : K) (W : Option (Option Unit) → Win) (h : ℕ) (m : Mem K) : Prop :=
  ∃ V, Wins m0 m W V ∧
    (∀ a < N, ∀ c < t, V rC a c = base a c + if sssK N s - 1 - 2 * h ≤ a / s then upC p s alpha b (sssK N s) (sssLs N s) a c else 0) ∧
    (2 * h + 2 ≤ sssK N s → ∀ a < s, ∀ c < t, V rT1 a c = upX p s alpha b (sssK N s) (sssLs N s) (2 * h) a c)

lemma sssUpStep_spec (hg : GemmOk g) (E : ProdEnv m0 N t s G p B ldb b C ldc T1 T2 W) {h : ℕ} (hh : 2 * h + 2 < sssK N s)
    (I : UpInv m0 N t s p b base alpha W h m) :
    Run (sssUpStep g N t s alpha G B ldb C ldc T1 T2 (2 * h)) m (fun _ => UpInv m0 N t s p b base alpha W (h + 1)) := by
  obtain ⟨V, hw, hC, hT⟩ := I
  have hT := hT hh.le
  unfold sssUpStep
  simp only []
  rw [Run_bind]
  refine (up_acc (j := sssK N s - 2 - 2 * h) hg E hw rT1 (by simp) E.w1 hT (by omega) (by omega) (base := base) ?_).mono ?_
  · intro a ha c hc
    rw [hC a ha c hc]; congr 1
    exact if_congr (by omega) rfl rfl
  rintro _ m1 ⟨V1, w1, C1, o1⟩
  have hT1 : ∀ a < s, ∀ c < t, V1 rT1 a c = upX p s alpha b (sssK N s) (sssLs N s) (2 * h) a c := by rw [o1 rT1 (by simp)]; exact hT
  rw [Run_bind]
  refine (up_chain hg E w1 rT1 rT2 (by simp) E.w1 E.w2 hT1 hh rfl rfl).mono ?_
  intro _ m2 r2
  rw [Run_bind]
  refine r2.mono ?_
  intro _ m3 w3
  have hT3 : ∀ a < s, ∀ c < t, Function.update V1 rT2 (upX p s alpha b (sssK N s) (sssLs N s) (2 * h + 1)) rT2 a c =
      upX p s alpha b (sssK N s) (sssLs N s) (2 * h + 1) a c := fun a _ c _ => by
    rw [Function.update_self]
  rw [Run_bind]
  refine (up_acc (j := sssK N s - 3 - 2 * h) hg E w3 rT2 (by simp) E.w2 hT3 (by omega) (by omega) (base := base) ?_).mono ?_
  · intro a ha c hc
    rw [Function.update_of_ne (by simp), C1 a ha c hc]; congr 1
    exact if_congr (by omega) rfl rfl
  rintro _ m4 ⟨V4, w4, C4, o4⟩
  have C5 : ∀ a < N, ∀ c < t, V4 rC a c = base a c + if sssK N s - 1 - 2 * (h + 1) ≤ a / s then upC p s alpha b (sssK N s) (sssLs N s) a c else 0 := by
    intro a ha c hc
    rw [C4 a ha c hc]; congr 1
    exact if_congr (by omega) rfl rfl
  by_cases h3 : 2 * h + 4 ≤ sssK N s
  · rw [if_pos (by omega), Run_bind]
    have hT4 : ∀ a < s, ∀ c < t, V4 rT2 a c = upX p s alpha b (sssK N s) (sssLs N s) (2 * h + 1) a c := by rw [o4 rT2 (by simp)]; exact hT3
    refine (up_chain (x := sssK N s - 4 - 2 * h) (y := sssK N s - 3 - 2 * h) hg E w4 rT2 rT1 (by simp) E.w2 E.w1 hT4 (by omega) (by omega) (by omega)).mono ?_
    intro _ m5 r5
    refine r5.mono ?_
    intro _ m6 w6
    refine ⟨_, w6, fun a ha c hc => ?_, fun _ a _ c _ => ?_⟩
    · rw [Function.update_of_ne (by simp)]; exact C5 a ha c hc
    · rw [Function.update_self]; rfl
  · rw [if_neg (by omega), Run_pure]
    exact ⟨V4, w4, C5, fun q => absurd q (by omega)⟩

/-- the upper triangular part -/
lemma sssUp_spec (hg : GemmOk g) (E : ProdEnv m0 N t s G p B ldb b C ldc T1 T2 W) (hsN : s ≤ N) (hw : Wins m0 m W V)
    (hC : ∀ a < N, ∀ c < t, V rC a c = base a c) :
    Run (sssUp g N t s alpha G B ldb C ldc T1 T2) m (fun _ m' => ∃ V', Wins m0 m' W V' ∧
      ∀ a < N, ∀ c < t, V' rC a c = base a c + upC p s alpha b (sssK N s) (sssLs N s) a c) := by
  have hs := E.hs
  have hN := E.hN
  have e := sssN hN hs
  have l1 := sssLs_pos (N := N) hs
  have l2 := sssLs_le (N := N) hs
  have hk0 := sssK_pos hN hs
  have hkf : sssK N s = if N % s ≠ 0 then N / s + 1 else N / s := rfl
  have hq : 1 ≤ N / s := Nat.div_pos hsN hs
  have c1 : (N / s > 1 ∨ N % s ≠ 0) ↔ 2 ≤ sssK N s := by
    rw [hkf]; generalize N / s = kf at *; split <;> omega
  unfold sssUp
  simp only []
  rw [Run_bind]
  have key : ∀ m1, UpInv m0 N t s p b base alpha W 0 m1 →
      Run (do
        loop ((sssK N s - 1) / 2) fun h => sssUpStep g N t s alpha G B ldb C ldc T1 T2 (2 * h)
        if sssK N s = 0 ∨ (sssK N s - 1) % 2 ≠ 0 then g .no .no s t s 1 G.U G.ldu T1 t 1 C ldc else pure ()) m1
        (fun _ m' => ∃ V', Wins m0 m' W V' ∧ ∀ a < N, ∀ c < t, V' rC a c = base a c + upC p s alpha b (sssK N s) (sssLs N s) a c) := by
    intro m1 I
    rw [Run_bind]
    refine (Run_loop (fun h m => UpInv m0 N t s p b base alpha W h m) I (fun h m' hh I' => ?_)).mono ?_
    · exact sssUpStep_spec hg E (by omega) I'
    · rintro _ m2 ⟨V2, w2, C2, T2'⟩
      by_cases hp : (sssK N s - 1) % 2 ≠ 0
      · rw [if_pos (Or.inr hp)]
        have r := up_acc (j := 0) (base := base) hg E w2 rT1 (by simp) E.w1 (T2' (by omega)) (by omega) (by omega) (fun a ha c hc => by
          rw [C2 a ha c hc]; congr 1
          exact if_congr (by omega) rfl rfl)
        simp only [Nat.zero_mul, Nat.add_zero] at r
        refine r.mono ?_
        rintro _ m3 ⟨V3, w3, C3, -⟩
        refine ⟨V3, w3, fun a ha c hc => ?_⟩
        rw [C3 a ha c hc, if_pos (Nat.zero_le _)]
      · rw [if_neg (by omega), Run_pure]
        refine ⟨V2, w2, fun a ha c hc => ?_⟩
        rw [C2 a ha c hc, if_pos (by rw [show sssK N s - 1 - 2 * ((sssK N s - 1) / 2) = 0 by omega]; exact Nat.zero_le _)]
  have z : ∀ a < N, ∀ c < t, base a c = base a c + if sssK N s - 1 - 2 * 0 ≤ a / s then upC p s alpha b (sssK N s) (sssLs N s) a c else 0 := by
    intro a ha c hc
    have := div_lt_sssK hN hs ha
    split
    · unfold upC
      rw [if_neg (by omega), add_zero]
    · rw [add_zero]
  by_cases hk : 2 ≤ sssK N s
  · rw [if_pos (c1.2 hk), if_neg (by omega)]
    have gs := E.gS.wins hw E.dG
    have e1 := mul_blk (s := s) (show sssK N s - 2 + 1 ≤ sssK N s - 1 by omega)
    refine (sss_set hg hw rT1 alpha E.w1 (gs.V.rows ((sssK N s - 2) * s) s (sssLs N s) (by omega) l2)
      ((hw.keep E.bS E.dB).rows ((sssK N s - 1) * s) (sssLs N s) t (by omega) le_rfl)
      (Disj.rows (E.dG _).V ((sssK N s - 2) * s) s (sssLs N s) (by omega) l2)
      (Disj.rows (E.dB _) ((sssK N s - 1) * s) (sssLs N s) t (by omega) le_rfl)).mono (fun _ m1 w1 => key m1 ⟨_, w1, fun a ha c hc => ?_, fun _ a _ c _ => ?_⟩)
    · rw [Function.update_of_ne (by simp), hC a ha c hc]
      exact z a ha c hc
    · rw [Function.update_self]; rfl
  · rw [if_neg (fun q => hk (c1.1 q)), Run_pure]
    exact key m ⟨V, hw, fun a ha c hc => (hC a ha c hc).trans (z a ha c hc), fun q => absurd q (by omega)⟩

/-- the block diagonal part -/
lemma sssDiag_spec (hg : GemmOk g) {c0 : ℕ → ℕ → K} {beta : K} (hs : 0 < s) (o : On m0 m ⟨C, ldc, N, t⟩ c0)
    (hD : Src m0 ⟨G.D, G.ldd, N, s⟩ p.D) (dD : (Win.mk G.D G.ldd N s).Disj ⟨C, ldc, N, t⟩)
    (hB : Src m0 ⟨B, ldb, N, t⟩ b) (dB : (Win.mk B ldb N t).Disj ⟨C, ldc, N, t⟩) :
    Run (sssDiag g N t s alpha G B ldb beta C ldc) m (fun _ m' => On m0 m' ⟨C, ldc, N, t⟩ (fun a c =>
      alpha * (∑ y ∈ range (min s (N - a / s * s)), p.D a y * b (a / s * s + y) c) + beta * c0 a c)) := by
  have hdm : N / s * s + N % s = N := by rw [Nat.mul_comm]; exact Nat.div_add_mod N s
  have hml := Nat.mod_lt N hs
  set F : ℕ → ℕ → K := fun a c => alpha * (∑ y ∈ range (min s (N - a / s * s)), p.D a y * b (a / s * s + y) c) + beta * c0 a c with hF
  have one : ∀ (j bs : ℕ) (m1 : Mem K), j * s + bs ≤ N → bs = min s (N - j * s) →
      On m0 m1 ⟨C, ldc, N, t⟩ (fun a c => if a / s < j then F a c else c0 a c) →
      Run (g .no .no bs t bs alpha (G.D + j * s * G.ldd) G.ldd (B + j * s * ldb) ldb beta (C + j * s * ldc) ldc) m1
        (fun _ m' => On m0 m' ⟨C, ldc, N, t⟩ (fun a c => if a / s < j + 1 then F a c else c0 a c)) := by
    intro j bs m1 hj hbs o1
    refine (gemm_src hg o1 ((hD.on o1 dD).rows (j * s) bs bs hj (by omega)) ((hB.on o1 dB).rows (j * s) bs t hj le_rfl) (j * s) 0 rfl hj (by simp)
      ((Disj.rows dD (j * s) bs bs hj (by omega)).sub_right hj (by simp))
      ((Disj.rows dB (j * s) bs t hj le_rfl).sub_right hj (by simp)) alpha beta rfl).mono (fun _ m2 o2 => o2.congr (fun a ha c hc => ?_))
    have ha : a < N := ha
    have hc : c < t := hc
    have hae : a / s * s + a % s = a := by rw [Nat.mul_comm]; exact Nat.div_add_mod a s
    have ham := Nat.mod_lt a hs
    by_cases ej : a / s = j
    · rw [if_pos (by omega), upd_in' (by simp only []; rw [ej] at hae; omega)]
      rw [ej] at hae
      simp only [hF]
      rw [ej, ← hbs, if_neg (by rw [show j * s + (a - j * s) = a by omega]; omega), show j * s + (a - j * s) = a by omega, Nat.sub_zero, Nat.zero_add]
    · rw [upd_out]
      · exact if_congr (by omega) rfl rfl
      · simp only []
        by_contra hcc
        apply ej
        rw [show a = j * s + (a - j * s) by omega, divs (by omega)]
  unfold sssDiag
  rw [Run_bind]
  refine (Run_loop (fun j m1 => On m0 m1 ⟨C, ldc, N, t⟩ (fun a c => if a / s < j then F a c else c0 a c)) ?_ (fun j m1 hj o1 => ?_)).mono ?_
  · exact o.congr (fun a _ c _ => by rw [if_neg (Nat.not_lt_zero _)])
  · have := mul_blk (s := s) (show j + 1 ≤ N / s from hj)
    exact one j s m1 (by omega) (by omega) o1
  · intro _ m1 o1
    have fin : ∀ x, N ≤ x * s → ∀ a < N, ∀ c, (if a / s < x then F a c else c0 a c) = F a c := fun x hx a ha c => by
      rw [if_pos (Nat.div_lt_of_lt_mul (by rw [Nat.mul_comm]; omega))]
    rif h
    · refine (one (N / s) (N % s) m1 (by omega) (by omega) o1).mono (fun _ m2 o2 => o2.congr (fun a ha c _ => fin (N / s + 1) ?_ a ha c))
      rw [Nat.add_mul]; omega
    · rw [Run_pure]; exact o1.congr (fun a ha c _ => fin (N / s) (by omega) a ha c)

/-- `productSSSxTS` -/
theorem productSSS_spec (hg : GemmOk g) {c0 : ℕ → ℕ → K} (alpha beta : K) (hs : 0 < s) (hsN : s ≤ N) (o : On m0 m ⟨C, ldc, N, t⟩ c0)
    (gS : SssSrc m0 N s G p) (dG : SssDisj N s G ⟨C, ldc, N, t⟩) (bS : Src m0 ⟨B, ldb, N, t⟩ b) (dB : (Win.mk B ldb N t).Disj ⟨C, ldc, N, t⟩) :
    Run (productSSS g N t s alpha G B ldb beta C ldc) m (fun _ m' => On m0 m' ⟨C, ldc, N, t⟩ (fun i c =>
      alpha * (∑ x ∈ range N, sssMat p s i x * b x c) + beta * c0 i c)) := by
  have hN : 0 < N := by omega
  unfold productSSS
  rw [if_neg (by omega), Run_bind]
  refine (sssDiag_spec hg hs o gS.D dG.D bS dB).mono (fun _ m1 o1 => ?_)
  rw [Run_bind, Run_alloc]
  have k1 := Wins.one o1
  have gS1 : SssSrc m1 N s G p := gS.wins k1 (fun _ => dG)
  have bS1 := k1.keep bS (fun _ => dB)
  obtain ⟨U1, q1⟩ := k1.push (N := s * t) s t rfl
  change Run _ (m1.grow (s * t)) _
  rw [Run_bind, Run_alloc]
  change Run _ ((m1.grow (s * t)).grow (s * t)) _
  obtain ⟨U2, q2⟩ := q1.push (N := s * t) s t rfl
  have gS2 := gS1.grow (s * t)
  have bS2 := bS1.grow (s * t)
  have E : ProdEnv ((m1.grow (s * t)).grow (s * t)) N t s G p B ldb b C ldc m1.next (m1.grow (s * t)).next
      (ocons ⟨(m1.grow (s * t)).next, t, s, t⟩ (ocons ⟨m1.next, t, s, t⟩ (fun _ : Unit => ⟨C, ldc, N, t⟩))) := by
    refine ⟨hs, hN, rfl, rfl, rfl, gS2.grow _, ?_, bS2.grow _, ?_⟩
    · rintro (_ | _ | _)
      · exact gS2.fresh q1.wf' s t
      · exact gS1.fresh k1.wf' s t
      · exact dG
    · rintro (_ | _ | _)
      · exact Disj_new q1.wf' bS2.ok
      · exact Disj_new k1.wf' bS1.ok
      · exact dB
  rw [Run_bind]
  refine (sssLow_spec (alpha := alpha) hg E q2 (fun a _ c _ => rfl)).mono ?_
  rintro _ m2 ⟨V2, w2, C2⟩
  rw [Run_bind]
  refine (sssUp_spec (alpha := alpha) hg E hsN w2 C2).mono ?_
  rintro _ m3 ⟨V3, w3, C3⟩
  rw [Run_bind, Run_free, Run_free]
  have p1 := q1.pop rfl w3
  have p2 := k1.pop rfl p1
  have p3 := p2.unone
  change On m0 ((m3.drop m1.next (s * t)).drop (m1.grow (s * t)).next (s * t)) _ _
  rw [Mem.drop_comm]
  refine p3.congr (fun a ha c hc => ?_)
  have ha : a < N := ha
  have hc : c < t := hc
  show V3 rC a c = _
  rw [C3 a ha c hc, sss_total (sssLs_pos hs) (sssLs_le hs) (sssN hN hs) (sssK_pos hN hs) a c ha]
  unfold lowC upC
  show _ + _ + _ = _
  simp only [ocons]
  ring

end Verif.FF
